import Verif.Lemmas.DtsParse
/-!
C75: what parsing a DTS document puts into the graph, which collections it makes, and when it succeeds. Documents are given after
JSON-LD expansion (the library pyld); members may hold members at any depth.
-/
namespace Verif.Props
open Verif.Py Verif.Model Verif.Spec Verif.Lemmas

theorem bare_of_title {d : ExpData} (h : d.bare = true) : d.title = none := by
  simp only [ExpData.bare, Bool.and_eq_true] at h
  exact Option.isNone_iff_eq_none.1 h.1.1.1.1.1.1.2

/-- The steps of `parseDoc`. -/
theorem parseDoc_iff {g g' : Graph} {d : ExpData} {ms : List ExpDoc} {c : DtsTree} : parseDoc g (.mk d ms) = .ok (g', c) ↔
    ∃ i g1 cites cs, d.id = some i ∧ parseData (.uri i) (newCollection (.uri i) g) d = .ok (g1, cites) ∧ parseDocs g1 ms = .ok (g', cs) ∧
      c = .mk i cites (cs.foldl (fun m c => putEntry m c.id c) []) := by
  rw [parseDoc]
  constructor
  · intro h
    split at h
    · cases h
    · split at h
      · cases h
      · rename_i i hi
        split at h
        · cases h
        · rename_i g1 cites hd
          split at h
          · cases h
          · rename_i g2 cs hm
            cases h
            exact ⟨i, g1, cites, cs, needKey_ok hi, hd, hm, rfl⟩
  · rintro ⟨i, g1, cites, cs, hi, hd, hm, rfl⟩
    rw [if_neg]
    · simp only [hi, needKey, hd, hm]
    · rintro hb
      simp only [Bool.and_eq_true] at hb
      obtain ⟨⟨titles, _, _, _, _, _, _, h1, _⟩⟩ := parseData_iff.1 hd
      rw [bare_of_title hb.1] at h1
      cases h1

theorem parseDocs_cons {g g' : Graph} {m : ExpDoc} {r : List ExpDoc} {cs : List DtsTree} : parseDocs g (m :: r) = .ok (g', cs) ↔
    ∃ g1 c cs', parseDoc g m = .ok (g1, c) ∧ parseDocs g1 r = .ok (g', cs') ∧ cs = c :: cs' := by
  rw [parseDocs]
  constructor
  · intro h
    split at h
    · cases h
    · rename_i g1 c h1
      split at h
      · cases h
      · rename_i g2 cs' h2
        cases h
        exact ⟨g1, c, cs', h1, h2, rfl⟩
  · rintro ⟨g1, c, cs', h1, h2, rfl⟩
    simp only [h1, h2]

theorem stated_append {a b : List ExpData} {t : Triple} : Stated (a ++ b) t ↔ Stated a t ∨ Stated b t := by
  simp only [Stated, List.mem_append]
  constructor
  · rintro ⟨d, hd | hd, r⟩
    · exact .inl ⟨d, hd, r⟩
    · exact .inr ⟨d, hd, r⟩
  · rintro (⟨d, hd, r⟩ | ⟨d, hd, r⟩)
    · exact ⟨d, .inl hd, r⟩
    · exact ⟨d, .inr hd, r⟩

theorem replaced_append {a b : List ExpData} {t : Triple} : Replaced (a ++ b) t ↔ Replaced a t ∨ Replaced b t := by
  simp only [Replaced, List.mem_append]
  constructor
  · rintro ⟨d, hd | hd, r⟩
    · exact .inl ⟨d, hd, r⟩
    · exact .inr ⟨d, hd, r⟩
  · rintro (⟨d, hd, r⟩ | ⟨d, hd, r⟩)
    · exact ⟨d, .inl hd, r⟩
    · exact ⟨d, .inr hd, r⟩

theorem not_replaced {a b : List ExpData} (h : DistinctDocs (a ++ b)) {t : Triple} (ha : Stated a t) : ¬ Replaced b t := by
  rintro ⟨d', hd', i', hi', hs', -⟩
  obtain ⟨d, hd, i, hi, hst⟩ := ha
  have e := statedHere_s hst
  rw [hs'] at e
  cases e
  rw [DistinctDocs, List.map_append, List.nodup_append] at h
  exact h.2.2 d.id (List.mem_map_of_mem hd) d'.id (List.mem_map_of_mem hd') (hi.trans hi'.symm)

theorem distinct_left {a b : List ExpData} (h : DistinctDocs (a ++ b)) : DistinctDocs a := by
  rw [DistinctDocs, List.map_append, List.nodup_append] at h; exact h.1
theorem distinct_right {a b : List ExpData} (h : DistinctDocs (a ++ b)) : DistinctDocs b := by
  rw [DistinctDocs, List.map_append, List.nodup_append] at h; exact h.2.1

/-- Two parts of a document after each other. -/
theorem stated_then {a b : List ExpData} (h : DistinctDocs (a ++ b)) {g g1 g2 : Graph} {t : Triple}
    (h1 : t ∈ g1 ↔ Stated a t ∨ (t ∈ g ∧ ¬ Replaced a t)) (h2 : t ∈ g2 ↔ Stated b t ∨ (t ∈ g1 ∧ ¬ Replaced b t)) :
    t ∈ g2 ↔ Stated (a ++ b) t ∨ (t ∈ g ∧ ¬ Replaced (a ++ b) t) := by
  rw [h2, h1, stated_append, replaced_append]
  constructor
  · rintro (hb | ⟨ha | ⟨hg, hn⟩, hnb⟩)
    · exact .inl (.inr hb)
    · exact .inl (.inl ha)
    · exact .inr ⟨hg, fun h => h.elim hn hnb⟩
  · rintro ((ha | hb) | ⟨hg, hn⟩)
    · exact .inr ⟨.inl ha, not_replaced h ha⟩
    · exact .inl hb
    · exact .inr ⟨.inr ⟨hg, fun h => hn (.inl h)⟩, fun h => hn (.inr h)⟩

mutual
theorem parseDoc_mem : ∀ (doc : ExpDoc) {g g' : Graph} {c : DtsTree}, parseDoc g doc = .ok (g', c) → DistinctDocs (docsIn doc) →
    ∀ t, t ∈ g' ↔ Stated (docsIn doc) t ∨ (t ∈ g ∧ ¬ Replaced (docsIn doc) t)
  | .mk d ms, g, g', c, h, hd, t => by
    obtain ⟨i, g1, cites, cs, hi, hp, hm, -⟩ := parseDoc_iff.1 h
    rw [docsIn] at hd ⊢
    have hd' : DistinctDocs ([d] ++ docsInAll ms) := hd
    refine stated_then hd' (g1 := g1) ?_ (parseDocs_mem ms hm (distinct_right hd') t)
    rw [parseData_mem hp]
    have e1 : Stated [d] t ↔ StatedHere i d t := by
      simp only [Stated, List.mem_singleton]
      constructor
      · rintro ⟨d', rfl, i', hi', hs⟩
        rw [hi] at hi'; cases hi'; exact hs
      · intro hs; exact ⟨d, rfl, i, hi, hs⟩
    have e2 : Replaced [d] t ↔ t.s = .uri i ∧ (t.p = pType ∨ t.p = pModel) := by
      simp only [Replaced, List.mem_singleton]
      constructor
      · rintro ⟨d', rfl, i', hi', hs⟩
        rw [hi] at hi'; cases hi'; exact hs
      · intro hs; exact ⟨d, rfl, i, hi, hs⟩
    rw [e1, e2]
theorem parseDocs_mem : ∀ (ms : List ExpDoc) {g g' : Graph} {cs : List DtsTree}, parseDocs g ms = .ok (g', cs) → DistinctDocs (docsInAll ms) →
    ∀ t, t ∈ g' ↔ Stated (docsInAll ms) t ∨ (t ∈ g ∧ ¬ Replaced (docsInAll ms) t)
  | [], g, g', cs, h, _, t => by
    simp only [parseDocs, Except.ok.injEq, Prod.mk.injEq] at h
    rw [← h.1]
    simp [docsInAll, Stated, Replaced]
  | m :: r, g, g', cs, h, hd, t => by
    obtain ⟨g1, c, cs', h1, h2, -⟩ := parseDocs_cons.1 h
    rw [docsInAll] at hd ⊢
    exact stated_then hd (parseDoc_mem m h1 (distinct_left hd) t) (parseDocs_mem r h2 (distinct_right hd) t)
end

/-- C75. After a document was parsed the graph holds what the document and its members at any depth state, and what it held before, except
the types and models of these collections. -/
theorem C75_graph (g g' : Graph) (doc : ExpDoc) (c : DtsTree) (h : parseDoc g doc = .ok (g', c)) (hd : DistinctDocs (docsIn doc)) (t : Triple) :
    t ∈ g' ↔ Stated (docsIn doc) t ∨ (t ∈ g ∧ ¬ Replaced (docsIn doc) t) := parseDoc_mem doc h hd t

/-- C75. Parsing the same document again changes nothing in the graph. -/
theorem C75_again (g g' g'' : Graph) (doc : ExpDoc) (c c' : DtsTree) (h : parseDoc g doc = .ok (g', c)) (h' : parseDoc g' doc = .ok (g'', c'))
    (hd : DistinctDocs (docsIn doc)) (t : Triple) : t ∈ g'' ↔ t ∈ g' := by
  rw [C75_graph g' g'' doc c' h' hd, C75_graph g g' doc c h hd]
  constructor
  · rintro (h | ⟨h | h, hn⟩)
    · exact .inl h
    · exact .inl h
    · exact .inr h
  · rintro (h | h)
    · exact .inl h
    · exact .inr ⟨.inr h, h.2⟩

mutual
theorem parseDoc_some : ∀ (doc : ExpDoc) (g : Graph), (∃ r, parseDoc g doc = .ok r) ↔ ∀ d ∈ docsIn doc, Complete d
  | .mk d ms, g => by
    rw [docsIn]
    constructor
    · rintro ⟨⟨g', c⟩, h⟩
      obtain ⟨i, g1, cites, cs, hi, hp, hm, -⟩ := parseDoc_iff.1 h
      have h1 := (parseData_some hi).1 ⟨_, hp⟩
      have h2 := (parseDocs_some ms g1).1 ⟨_, hm⟩
      intro x hx
      rw [List.mem_cons] at hx
      rcases hx with rfl | hx
      · exact h1
      · exact h2 x hx
    · intro h
      have h1 := h d (by simp)
      obtain ⟨i, hi⟩ := h1.id
      obtain ⟨⟨g1, cites⟩, hp⟩ := (parseData_some (node := .uri i) (g := newCollection (.uri i) g) hi).2 h1
      obtain ⟨⟨g', cs⟩, hm⟩ := (parseDocs_some ms g1).2 (fun x hx => h x (by simp [hx]))
      exact ⟨_, parseDoc_iff.2 ⟨i, g1, cites, cs, hi, hp, hm, rfl⟩⟩
theorem parseDocs_some : ∀ (ms : List ExpDoc) (g : Graph), (∃ r, parseDocs g ms = .ok r) ↔ ∀ d ∈ docsInAll ms, Complete d
  | [], g => by simp [parseDocs, docsInAll]
  | m :: r, g => by
    rw [docsInAll]
    constructor
    · rintro ⟨⟨g', cs⟩, h⟩
      obtain ⟨g1, c, cs', h1, h2, -⟩ := parseDocs_cons.1 h
      have e1 := (parseDoc_some m g).1 ⟨_, h1⟩
      have e2 := (parseDocs_some r g1).1 ⟨_, h2⟩
      intro x hx
      rw [List.mem_append] at hx
      exact hx.elim (e1 x) (e2 x)
    · intro h
      obtain ⟨⟨g1, c⟩, h1⟩ := (parseDoc_some m g).2 (fun x hx => h x (by simp [hx]))
      obtain ⟨⟨g2, cs⟩, h2⟩ := (parseDocs_some r g1).2 (fun x hx => h x (by simp [hx]))
      exact ⟨_, parseDocs_cons.2 ⟨g1, c, cs, h1, h2, rfl⟩⟩
end

/-- C75. A document is parsed exactly when it and all its members have what the parser asks for. -/
theorem C75_success (g : Graph) (doc : ExpDoc) : (∃ r, parseDoc g doc = .ok r) ↔ ∀ d ∈ docsIn doc, Complete d := parseDoc_some doc g

/-- Keys that come once stay in their order. -/
theorem foldl_put_keys : ∀ (cs : List DtsTree) (m : List (Str × DtsTree)), (m.map (·.1) ++ cs.map DtsTree.id).Nodup →
    cs.foldl (fun m c => putEntry m c.id c) m = m ++ cs.map fun c => (c.id, c) := by
  intro cs
  induction cs with
  | nil => intro m _; simp
  | cons c cs ih =>
    intro m hn
    have hput : ∀ (m : List (Str × DtsTree)), c.id ∉ m.map (·.1) → putEntry m c.id c = m ++ [(c.id, c)] := by
      intro m
      induction m with
      | nil => intro _; rfl
      | cons e m ihm =>
        intro hne
        simp only [List.map_cons, List.mem_cons, not_or] at hne
        rw [putEntry, if_neg (fun h => hne.1 h.symm), ihm hne.2]
        rfl
    rw [List.foldl_cons]
    have h1 : c.id ∉ m.map (·.1) := by
      rw [List.nodup_append] at hn
      exact fun hm => hn.2.2 _ hm c.id (by simp) rfl
    rw [hput m h1, ih]
    · simp
    · simpa using hn

mutual
theorem parseDoc_tree : ∀ (doc : ExpDoc) {g g' : Graph} {c : DtsTree}, parseDoc g doc = .ok (g', c) → DistinctDocs (docsIn doc) → TreeOf doc c ∧
    ∃ d ∈ docsIn doc, d.id = some c.id
  | .mk d ms, g, g', c, h, hd => by
    obtain ⟨i, g1, cites, cs, hi, hp, hm, rfl⟩ := parseDoc_iff.1 h
    rw [docsIn] at hd
    obtain ⟨h1, h2⟩ := parseDocs_tree ms hm (distinct_right (a := [d]) hd)
    refine ⟨.mk hi (parseData_cites hp) ?_, d, by simp [docsIn], hi⟩
    rw [foldl_put_keys cs [] (by simpa using h2.1)]
    simpa using h1
theorem parseDocs_tree : ∀ (ms : List ExpDoc) {g g' : Graph} {cs : List DtsTree}, parseDocs g ms = .ok (g', cs) → DistinctDocs (docsInAll ms) →
    TreesOf ms (cs.map fun c => (c.id, c)) ∧ (cs.map DtsTree.id).Nodup ∧ ∀ c ∈ cs, ∃ d ∈ docsInAll ms, d.id = some c.id
  | [], g, g', cs, h, _ => by
    simp only [parseDocs, Except.ok.injEq, Prod.mk.injEq] at h
    rw [← h.2]
    exact ⟨.nil, by simp, by simp⟩
  | m :: r, g, g', cs, h, hd => by
    obtain ⟨g1, c, cs', h1, h2, rfl⟩ := parseDocs_cons.1 h
    rw [docsInAll] at hd
    obtain ⟨t1, d, hdm, hde⟩ := parseDoc_tree m h1 (distinct_left hd)
    obtain ⟨t2, n2, w2⟩ := parseDocs_tree r h2 (distinct_right hd)
    refine ⟨.cons t1 rfl t2, ?_, fun x hx => ?_⟩
    · rw [List.map_cons, List.nodup_cons]
      refine ⟨fun hmem => ?_, n2⟩
      obtain ⟨c', hc', he⟩ := List.mem_map.1 hmem
      obtain ⟨d', hd', hde'⟩ := w2 c' hc'
      rw [DistinctDocs, List.map_append, List.nodup_append] at hd
      exact hd.2.2 d.id (List.mem_map_of_mem hdm) d'.id (List.mem_map_of_mem hd') (by rw [hde, hde', he])
    · rw [docsInAll]
      rw [List.mem_cons] at hx
      rcases hx with rfl | hx
      · exact ⟨d, by simp [hdm], hde⟩
      · obtain ⟨d', hd', hde'⟩ := w2 x hx
        exact ⟨d', by simp [hd'], hde'⟩
end

/-- C75. The parsed collection has the identifier and the citation structure of the document, and as children those of its members, by identifier
and in their order, at any depth. -/
theorem C75_tree (g g' : Graph) (doc : ExpDoc) (c : DtsTree) (h : parseDoc g doc = .ok (g', c)) (hd : DistinctDocs (docsIn doc)) : TreeOf doc c :=
  (parseDoc_tree doc h hd).1

/-- Documents with the same identifier are the same. -/
theorem same_doc : ∀ {l : List ExpData}, DistinctDocs l → ∀ {a b : ExpData}, a ∈ l → b ∈ l → a.id = b.id → a = b := by
  intro l
  induction l with
  | nil => intro _ a b ha; cases ha
  | cons x l ih =>
    intro hd a b ha hb e
    rw [DistinctDocs, List.map_cons, List.nodup_cons] at hd
    rw [List.mem_cons] at ha hb
    rcases ha with rfl | ha
    · rcases hb with rfl | hb
      · rfl
      · exact absurd (e ▸ List.mem_map_of_mem hb) hd.1
    · rcases hb with rfl | hb
      · exact absurd (e ▸ List.mem_map_of_mem ha) hd.1
      · exact ih hd.2 ha hb e

/-- C75. The values that a user reads for a predicate other than type and model are those that the document states, when the graph had none. -/
theorem C75_values (order : Order) (ho : Rearranges order) (g g' : Graph) (doc : ExpDoc) (c : DtsTree) (h : parseDoc g doc = .ok (g', c))
    (hd : DistinctDocs (docsIn doc)) (d : ExpData) (hm : d ∈ docsIn doc) (i : Str) (hi : d.id = some i) (p : Term) (hg : ∀ o, (⟨.uri i, p, o⟩ : Triple) ∉ g) (o : Term) :
    o ∈ g'.objects order (.uri i) p ↔ StatedHere i d ⟨.uri i, p, o⟩ := by
  rw [mem_objects ho, C75_graph g g' doc c h hd]
  constructor
  · rintro (⟨d', hm', i', hi', hs⟩ | ⟨h, -⟩)
    · have e := statedHere_s hs
      cases e
      have : d' = d := same_doc hd hm' hm (hi'.trans hi.symm)
      rw [← this]; exact hs
    · exact absurd h (hg o)
  · intro hs
    exact .inl ⟨d, hm, i, hi, hs⟩

/-- C75. The size of a parsed collection is the number that its document announces. -/
theorem C75_size (order : Order) (ho : Rearranges order) (g g' : Graph) (doc : ExpDoc) (c : DtsTree) (h : parseDoc g doc = .ok (g', c))
    (hd : DistinctDocs (docsIn doc)) (d : ExpData) (hm : d ∈ docsIn doc) (i : Str) (hi : d.id = some i)
    (hg : ∀ o, (⟨.uri i, .uri "https://www.w3.org/ns/hydra/core#totalItems".toList, o⟩ : Triple) ∉ g) (n : Nat) (ht : d.total = some [.value (.int n) none])
    (hdc : ∀ o, ¬ inPart d.dublincore (.uri "https://www.w3.org/ns/hydra/core#totalItems".toList) o)
    (hex : ∀ o, ¬ inPart d.extensions (.uri "https://www.w3.org/ns/hydra/core#totalItems".toList) o) :
    objSize order g' ⟨i, none⟩ = .ok n := by
  have key : ∀ o, o ∈ g'.objects order (.uri i) pTotal ↔ o = (Atom.int n).term := by
    intro o
    rw [C75_values order ho g g' doc c h hd d hm i hi pTotal hg o]
    constructor
    · intro hs
      generalize ht' : (⟨.uri i, pTotal, o⟩ : Triple) = t at hs
      cases hs with
      | type => simp only [Triple.mk.injEq] at ht'; exact absurd ht'.2.1 (by decide)
      | model => simp only [Triple.mk.injEq] at ht'; exact absurd ht'.2.1 (by decide)
      | label => simp only [Triple.mk.injEq] at ht'; exact absurd ht'.2.1 (by decide)
      | prefLabel => simp only [Triple.mk.injEq] at ht'; exact absurd ht'.2.1 (by decide)
      | description => simp only [Triple.mk.injEq] at ht'; exact absurd ht'.2.1 (by decide)
      | total hv hu =>
        simp only [Triple.mk.injEq] at ht'
        rw [ht] at hv
        simp only [Option.getD_some, List.mem_singleton] at hv
        subst hv
        simp only [untagged, Option.some.injEq] at hu
        rw [ht'.2.2, ← hu, Atom.term, intStr_toString]; rfl
      | dublincore hp => simp only [Triple.mk.injEq] at ht'; obtain ⟨-, rfl, rfl⟩ := ht'; exact absurd hp (hdc o)
      | extensions hp => simp only [Triple.mk.injEq] at ht'; obtain ⟨-, rfl, rfl⟩ := ht'; exact absurd hp (hex o)
    · rintro rfl
      exact .total (v := .value (.int n) none) (by rw [ht]; simp) (by rw [Atom.term, intStr_toString]; rfl)
  rw [objSize]
  simp only [DtsObj.node]
  cases hl : (g'.objects order (.uri i) pTotal).head? with
  | none =>
    rw [List.head?_eq_none_iff] at hl
    have := (key _).2 rfl
    rw [hl] at this; cases this
  | some v =>
    have hv := (key v).1 (List.mem_of_mem_head? hl)
    subst hv
    have hs : (Atom.int n).term.str = natStr n := rfl
    simp only [hs]
    rw [if_neg (natStr_ne_nil n), pyInt, if_pos ⟨natStr_ne_nil n, by simpa [List.all_eq_true] using isDigit_natStr n⟩, digitsVal_natStr]

/-- C75. The type of a parsed collection is the last one that its document lists. -/
theorem C75_type (order : Order) (ho : Rearranges order) (g g' : Graph) (doc : ExpDoc) (c : DtsTree) (h : parseDoc g doc = .ok (g', c))
    (hd : DistinctDocs (docsIn doc)) (d : ExpData) (hm : d ∈ docsIn doc) (i : Str) (hi : d.id = some i)
    (hdc : ∀ o, ¬ inPart d.dublincore (.uri "http://www.w3.org/1999/02/22-rdf-syntax-ns#type".toList) o)
    (hex : ∀ o, ¬ inPart d.extensions (.uri "http://www.w3.org/1999/02/22-rdf-syntax-ns#type".toList) o) (counted : Option Nat) :
    objType order g' ⟨i, counted⟩ = .ok (.uri (docType d)) := by
  have key : ∀ o, o ∈ g'.objects order (.uri i) pType ↔ o = .uri (docType d) := by
    intro o
    rw [mem_objects ho, C75_graph g g' doc c h hd]
    constructor
    · rintro (⟨d', hm', i', hi', hs⟩ | ⟨-, hn⟩)
      · have e := statedHere_s hs
        cases e
        have : d' = d := same_doc hd hm' hm (hi'.trans hi.symm)
        subst this
        generalize ht' : (⟨.uri i, pType, o⟩ : Triple) = t at hs
        cases hs with
        | type => simp only [Triple.mk.injEq] at ht'; exact ht'.2.2
        | model => simp only [Triple.mk.injEq] at ht'; exact absurd ht'.2.1 (by decide)
        | label => simp only [Triple.mk.injEq] at ht'; exact absurd ht'.2.1 (by decide)
        | prefLabel => simp only [Triple.mk.injEq] at ht'; exact absurd ht'.2.1 (by decide)
        | description => simp only [Triple.mk.injEq] at ht'; exact absurd ht'.2.1 (by decide)
        | total => simp only [Triple.mk.injEq] at ht'; exact absurd ht'.2.1 (by decide)
        | dublincore hp => simp only [Triple.mk.injEq] at ht'; obtain ⟨-, rfl, rfl⟩ := ht'; exact absurd hp (hdc o)
        | extensions hp => simp only [Triple.mk.injEq] at ht'; obtain ⟨-, rfl, rfl⟩ := ht'; exact absurd hp (hex o)
      · exact absurd ⟨d, hm, i, hi, rfl, .inl rfl⟩ hn
    · rintro rfl
      exact .inl ⟨d, hm, i, hi, .type⟩
  rw [objType]
  simp only [DtsObj.node]
  cases hl : (g'.objects order (.uri i) pType).head? with
  | none =>
    rw [List.head?_eq_none_iff] at hl
    have := (key _).2 rfl
    rw [hl] at this; cases this
  | some v => rw [(key v).1 (List.mem_of_mem_head? hl)]

/-- A document with a member, as it comes out of JSON-LD expansion. -/
def sampleDoc : ExpDoc :=
  .mk { id := some "general".toList
        types := some ["https://www.w3.org/ns/hydra/core#Collection".toList]
        title := some [.value (.text "Collection Générale".toList) none]
        total := some [.value (.int 1) none]
        description := []
        dublincore := some [[("http://purl.org/dc/terms/publisher".toList, [.value (.text "École".toList) none, .value (.text "School".toList) (some "en".toList)])]]
        extensions := none
        citeStructure := none
        citeDepth := none }
    [.mk { id := some "lasciva".toList
           types := some ["https://www.w3.org/ns/hydra/core#Resource".toList]
           title := some [.value (.text "Lasciva Roma".toList) none]
           total := some [.value (.int 0) none]
           description := [.value (.text "Poems".toList) none]
           dublincore := none
           extensions := none
           citeStructure := some [.mk (some [some "poem".toList]) none]
           citeDepth := some [.value (.int 1) none] } []]

/-- The sample meets the hypotheses of the theorems: it is complete and its identifiers are distinct. -/
theorem sampleDoc_distinct : DistinctDocs (docsIn sampleDoc) := by
  show ([some "general".toList, some "lasciva".toList] : List (Option Str)).Nodup
  decide

theorem sampleDoc_complete : ∀ d ∈ docsIn sampleDoc, Complete d := by
  refine (C75_success [] sampleDoc).1 ⟨_, rfl⟩

example : ∃ g c, parseDoc [] sampleDoc = .ok (g, c) ∧ objSize id g ⟨"general".toList, none⟩ = .ok 1 ∧
    objType id g ⟨"lasciva".toList, none⟩ = .ok (.uri "https://www.w3.org/ns/hydra/core#Resource".toList) ∧
    g.objects id (.uri "general".toList) (.uri "http://purl.org/dc/terms/publisher".toList) =
      [.lit "École".toList none none, .lit "School".toList (some "en".toList) none] :=
  ⟨_, _, rfl, by decide +kernel, by decide +kernel, by decide +kernel⟩

/-- C75. The parents of a collection cannot be parsed: whatever the document, there is an error. -/
theorem C75_fails_parents (g : Graph) (doc : ExpDoc) : ∃ e, parseDir false g doc = .error e := by
  rw [parseDir]
  split
  · exact ⟨_, rfl⟩
  · exact ⟨_, rfl⟩

/-- C75. A link among the values of a document raises `KeyError`: a valid document with a licence cannot be parsed. -/
theorem C75_fails_link : parseDoc [] (.mk
    { id := some "general".toList
      types := some ["https://www.w3.org/ns/hydra/core#Collection".toList]
      title := some [.value (.text "Collection".toList) none]
      total := some [.value (.int 0) none]
      description := []
      dublincore := some [[("http://purl.org/dc/terms/license".toList, [.node "https://creativecommons.org/licenses/by/4.0/".toList])]]
      extensions := none
      citeStructure := none
      citeDepth := none } []) = .error .keyError := rfl

/-- A document that announces a number of members. -/
def growing (n : Nat) : ExpDoc := .mk
  { id := some "general".toList
    types := some ["https://www.w3.org/ns/hydra/core#Collection".toList]
    title := some [.value (.text "Collection".toList) none]
    total := some [.value (.int n) none]
    description := []
    dublincore := none
    extensions := none
    citeStructure := none
    citeDepth := none } []

/-- C75. When a collection is parsed again after its number of members changed, both numbers are kept, and which one is its size depends on the order
in which the graph is read. -/
theorem C75_fails_new_size : ∃ g c g' c', parseDoc [] (growing 1) = .ok (g, c) ∧ parseDoc g (growing 2) = .ok (g', c') ∧
    objSize id g' ⟨"general".toList, none⟩ = .ok 1 ∧ objSize List.reverse g' ⟨"general".toList, none⟩ = .ok 2 :=
  ⟨_, _, _, _, rfl, rfl, by decide +kernel, by decide +kernel⟩

/-- C75. Of two members with the same identifier the collection has one child. -/
theorem C75_fails_same_member : ∃ g i k x, parseDoc [] (.mk
    { id := some "top".toList
      types := some []
      title := some []
      total := some [.value (.int 2) none]
      description := []
      dublincore := none
      extensions := none
      citeStructure := none
      citeDepth := none } [growing 1, growing 1]) = .ok (g, .mk i k [x]) := ⟨_, _, _, _, rfl⟩

end Verif.Props
