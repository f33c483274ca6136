import Verif.Props.DtsJson
import Verif.Props.DtsParse
import Verif.Props.Citation
/-!
C76: a collection is exported as a DTS document, the document is expanded and parsed. The theorems put C74 and C75 together.
-/
namespace Verif.Props
open Verif.Py Verif.Model Verif.Spec Verif.Lemmas

/-! ### Keys of the containers -/

theorem putEntry_keys {β : Type} : ∀ (m : List (Str × β)) (k : Str) (v : β), (m.map (·.1)).Nodup →
    ((putEntry m k v).map (·.1)).Nodup ∧ ∀ x, x ∈ (putEntry m k v).map (·.1) ↔ x = k ∨ x ∈ m.map (·.1) := by
  intro m k v
  induction m with
  | nil => intro _; simp [putEntry]
  | cons e m ih =>
    obtain ⟨k', w⟩ := e
    intro hn
    rw [List.map_cons, List.nodup_cons] at hn
    obtain ⟨h1, h2⟩ := ih hn.2
    rw [putEntry]
    by_cases e : k' = k
    · rw [if_pos e]
      subst e
      refine ⟨?_, fun x => by simp⟩
      rw [List.map_cons, List.nodup_cons]
      exact hn
    · rw [if_neg e]
      refine ⟨?_, fun x => ?_⟩
      · rw [List.map_cons, List.nodup_cons]
        refine ⟨fun hm => ?_, h1⟩
        rcases (h2 _).1 hm with h | h
        · exact e h
        · exact hn.1 h
      · rw [List.map_cons, List.mem_cons, h2, List.map_cons, List.mem_cons]
        constructor
        · rintro (h | h | h)
          · exact .inr (.inl h)
          · exact .inl h
          · exact .inr (.inr h)
        · rintro (h | h | h)
          · exact .inr (.inl h)
          · exact .inl h
          · exact .inr (.inr h)

theorem addEntry_keys {m : Container} {k : Str} {v : DValue} (h : (m.map (·.1)).Nodup) : ((addEntry m k v).map (·.1)).Nodup := by
  rw [addEntry]
  split <;> exact (putEntry_keys _ _ _ h).1

theorem containerLoop_keys {cut : Cut} {native : Str → Str → Atom} : ∀ {ts : List Triple} {c c' : Containers},
    (c.extensions.map (·.1)).Nodup → (c.dublincore.map (·.1)).Nodup → containerLoop cut native c ts = .ok c' →
    (c'.extensions.map (·.1)).Nodup ∧ (c'.dublincore.map (·.1)).Nodup := by
  intro ts
  induction ts with
  | nil => intro c c' h1 h2 h; simp only [containerLoop, Except.ok.injEq] at h; subst h; exact ⟨h1, h2⟩
  | cons t ts ih =>
    intro c c' h1 h2 h
    rw [containerLoop] at h
    split at h
    · cases h
    · refine ih ?_ ?_ h
      · split
        · exact h1
        · split
          · exact h1
          · exact addEntry_keys h1
      · split
        · exact h2
        · split
          · exact addEntry_keys h2
          · exact h2

theorem getEntry_iff {β : Type} : ∀ {m : List (Str × β)}, (m.map (·.1)).Nodup → ∀ {k : Str} {e : β}, (k, e) ∈ m ↔ getEntry m k = some e := by
  intro m
  induction m with
  | nil => intro _ k e; simp [getEntry]
  | cons x m ih =>
    obtain ⟨k', w⟩ := x
    intro hn k e
    rw [List.map_cons, List.nodup_cons] at hn
    rw [getEntry, List.mem_cons]
    by_cases hk : k' = k
    · subst hk
      rw [if_pos rfl]
      constructor
      · rintro (h | h)
        · cases h; rfl
        · exact absurd (List.mem_map_of_mem (f := (·.1)) h) hn.1
      · intro h; cases h; exact .inl rfl
    · rw [if_neg hk, ← ih hn.2]
      constructor
      · rintro (h | h)
        · cases h; exact absurd rfl hk
        · exact h
      · exact .inr

theorem inPart_expand {ctx : List (Str × Str)} {c : Container} (hn : (c.map (·.1)).Nodup) {p v : Term} :
    inPart (expandContainer ctx c) p v ↔ ∃ k e, getEntry c k = some e ∧ p = .uri (expandName ctx k) ∧ ∃ w ∈ expandEntry e, meant w = some v := by
  rw [expandContainer]
  constructor
  · rintro ⟨c', r, hc, k, vs, w, hk, hw, hp, hm⟩
    split at hc
    · cases hc
    · cases hc
      obtain ⟨⟨k', e⟩, hke, he⟩ := List.mem_map.1 hk
      cases he
      exact ⟨k', e, (getEntry_iff hn).1 hke, hp, w, hw, hm⟩
  · rintro ⟨k, e, hk, hp, w, hw, hm⟩
    have hke := (getEntry_iff hn).2 hk
    rw [if_neg]
    · exact ⟨_, [], rfl, expandName ctx k, expandEntry e, w, List.mem_map.2 ⟨(k, e), hke, rfl⟩, hw, hp, hm⟩
    · cases c with
      | nil => cases hke
      | cons a l => simp

theorem expandEntry_listed {vs : List DValue} {e : DEntry} (h : listedAs vs = some e) : expandEntry e = vs.map expandValue := by
  match vs, h with
  | [.plain a], h => cases h; rfl
  | [.tagged a l], h => cases h; rfl
  | [.link a], h => cases h; rfl
  | a :: b :: r, h => cases a <;> (cases h; rfl)

theorem survives_meant {native : Str → Str → Atom} {v : Term} (h : Survives native v) : meant (expandValue (jsonOf native v)) = some v := by
  match v, h with
  | .lit s none none, _ => rfl
  | .lit s (some l) none, _ => rfl
  | .lit s none (some d), h =>
    simp only [Survives] at h
    rw [jsonOf, expandValue, meant_iff, dictTerm.eq_def]
    cases hn : native s d with
    | text x => rw [hn] at h; cases h
    | int n => rw [hn] at h; rw [← h]
    | other x y => rw [hn] at h; rw [← h]

/-- What the containers of a document state is what the collection has. -/
theorem container_states {order order' : Order} (ho : Rearranges order) (ho' : Rearranges order') {cut : Cut} (hq : QNames cut)
    {native : Str → Str → Atom} {g : Graph} (hg : g.Nodup) {o : DtsObj} (hp : UriPredicates g (.uri o.id)) {ms : List DtsObj} {cites : Option DtsCites} {j : DtsJson}
    (h : exportDts order order' cut native g o ms cites = .ok j)
    (hs : ∀ p v, Shown cut p → v ∈ valuesOf g (.uri o.id) (.uri p) → Survives native v) :
    (∀ p v, (inPart (expandContainer j.context j.dublincore) p v ∨ inPart (expandContainer j.context j.extensions) p v) ↔
      ∃ q, p = .uri q ∧ Shown cut q ∧ v ∈ valuesOf g (.uri o.id) (.uri q)) ∧
    PartOk (expandContainer j.context j.dublincore) ∧ PartOk (expandContainer j.context j.extensions) := by
  obtain ⟨out, he⟩ := exported ho h
  obtain ⟨k1, k2⟩ := containerLoop_keys (c := ⟨[], []⟩) (by simp) (by simp) he.containers
  -- the entry of a key is that of a shown predicate, and its values are those of the collection
  have entry : ∀ k e, getEntry j.dublincore k = some e ∨ getEntry j.extensions k = some e →
      ∃ q, expandName j.context k = q ∧ Shown cut q ∧
        ∀ w, w ∈ expandEntry e ↔ ∃ v ∈ valuesOf g (.uri o.id) (.uri q), w = expandValue (jsonOf native v) := by
    intro k e hk
    obtain ⟨q, pre, ns, name, hc, hkk, -, hx⟩ := C74_keys order order' ho ho' cut hq native g o hp ms cites j h k e hk
    obtain ⟨vs, hperm, h1, h2, h3⟩ := C74_values order order' ho ho' cut hq native g hg o hp ms cites j h q pre ns name hc
    subst hkk
    have hres : ¬ Reserved ns := fun hr => by
      obtain ⟨a, b⟩ := h1 hr
      rcases hk with hk | hk
      · rw [a] at hk; cases hk
      · rw [b] at hk; cases hk
    have hl : listedAs vs = some e := by
      by_cases hd : DublinCore ns
      · obtain ⟨a, b⟩ := h2 hd
        rcases hk with hk | hk
        · rw [← a]; exact hk
        · rw [b] at hk; cases hk
      · obtain ⟨a, b⟩ := h3 hres hd
        rcases hk with hk | hk
        · rw [a] at hk; cases hk
        · rw [← b]; exact hk
    refine ⟨q, hx, ⟨pre, ns, name, hc, hres⟩, fun w => ?_⟩
    rw [expandEntry_listed hl, List.mem_map]
    constructor
    · rintro ⟨dv, hdv, rfl⟩
      obtain ⟨v, hv, rfl⟩ := List.mem_map.1 (hperm.mem_iff.1 hdv)
      exact ⟨v, hv, rfl⟩
    · rintro ⟨v, hv, rfl⟩
      exact ⟨_, hperm.mem_iff.2 (List.mem_map_of_mem hv), rfl⟩
  have part : ∀ c : Container, (c.map (·.1)).Nodup → (∀ k e, getEntry c k = some e → getEntry j.dublincore k = some e ∨ getEntry j.extensions k = some e) →
      PartOk (expandContainer j.context c) := by
    intro c hn hc
    rw [expandContainer]
    split
    · exact .inl rfl
    · refine .inr ⟨_, [], rfl, ?_⟩
      rintro ⟨k, vs⟩ hm w hw
      obtain ⟨⟨k', e⟩, hke, heq⟩ := List.mem_map.1 hm
      cases heq
      obtain ⟨q, -, hsh, hval⟩ := entry k' e (hc k' e ((getEntry_iff hn).1 hke))
      obtain ⟨v, hv, rfl⟩ := (hval w).1 hw
      have hsv := hs q v hsh hv
      match v, hsv with
      | .lit s none none, _ => exact ⟨_, _, rfl⟩
      | .lit s (some l) none, _ => exact ⟨_, _, rfl⟩
      | .lit s none (some d), _ => exact ⟨_, _, rfl⟩
  refine ⟨fun p v => ?_, part _ k2 (fun k e h => .inl h), part _ k1 (fun k e h => .inr h)⟩
  rw [inPart_expand k2, inPart_expand k1]
  constructor
  · intro hh
    have : ∃ k e, (getEntry j.dublincore k = some e ∨ getEntry j.extensions k = some e) ∧ p = .uri (expandName j.context k) ∧
        ∃ w ∈ expandEntry e, meant w = some v := by
      rcases hh with ⟨k, e, hk, r⟩ | ⟨k, e, hk, r⟩
      · exact ⟨k, e, .inl hk, r⟩
      · exact ⟨k, e, .inr hk, r⟩
    obtain ⟨k, e, hk, hpk, w, hw, hm⟩ := this
    obtain ⟨q, hx, hsh, hval⟩ := entry k e hk
    obtain ⟨v', hv', rfl⟩ := (hval w).1 hw
    rw [survives_meant (hs q v' hsh hv')] at hm
    cases hm
    exact ⟨q, by rw [hpk, hx], hsh, hv'⟩
  · rintro ⟨q, rfl, ⟨pre, ns, name, hc, hres⟩, hv⟩
    obtain ⟨vs, hperm, h1, h2, h3⟩ := C74_values order order' ho ho' cut hq native g hg o hp ms cites j h q pre ns name hc
    have hmem : jsonOf native v ∈ vs := hperm.mem_iff.2 (List.mem_map_of_mem hv)
    have hne : vs ≠ [] := fun e => by rw [e] at hmem; cases hmem
    obtain ⟨e, hl⟩ : ∃ e, listedAs vs = some e := Option.ne_none_iff_exists'.1 (listedAs_ne_nil hne)
    have hsv := survives_meant (hs q v ⟨pre, ns, name, hc, hres⟩ hv)
    have hw : expandValue (jsonOf native v) ∈ expandEntry e := by
      rw [expandEntry_listed hl]; exact List.mem_map_of_mem hmem
    have hx : ∀ e, (getEntry j.dublincore (qnameOf pre name) = some e ∨ getEntry j.extensions (qnameOf pre name) = some e) →
        expandName j.context (qnameOf pre name) = q := by
      intro e hk
      obtain ⟨q', pre', ns', name', hc', hkk, -, hx⟩ := C74_keys order order' ho ho' cut hq native g o hp ms cites j h _ e hk
      rw [hx, cut_inj hq hc' hc hkk.symm]
    by_cases hd : DublinCore ns
    · have hk := (h2 hd).1.trans hl
      exact .inl ⟨_, e, hk, by rw [hx e (.inl hk)], _, hw, hsv⟩
    · have hk := (h3 hres hd).2.trans hl
      exact .inr ⟨_, e, hk, by rw [hx e (.inr hk)], _, hw, hsv⟩

/-- What the base information states after expansion. -/
theorem baseShown_iff {ctx : List (Str × Str)} {b : DtsBase} {p v : Term} :
    StatedHere b.id (expandBase ctx b) ⟨.uri b.id, p, v⟩ ↔ BaseShown b (expandName ctx b.type) p v := by
  constructor
  · intro hs
    generalize ht : (⟨.uri b.id, p, v⟩ : Triple) = t at hs
    cases hs with
    | type => cases ht; exact .type
    | model => cases ht; exact .model
    | label hv hu =>
      cases ht
      simp only [expandBase, Option.getD_some, List.mem_singleton] at hv
      subst hv; cases hu; exact .label
    | prefLabel hv hu =>
      cases ht
      simp only [expandBase, Option.getD_some, List.mem_singleton] at hv
      subst hv; cases hu; exact .prefLabel
    | total hv hu =>
      cases ht
      simp only [expandBase, Option.getD_some, List.mem_singleton] at hv
      subst hv; cases hu; exact .total
    | description hv hu =>
      cases ht
      cases hd : b.description with
      | none => simp [expandBase, hd] at hv
      | some s =>
        simp only [expandBase, hd, List.mem_singleton] at hv
        subst hv; cases hu; exact .description hd
    | dublincore hp => obtain ⟨c, r, h, -⟩ := hp; cases h
    | extensions hp => obtain ⟨c, r, h, -⟩ := hp; cases h
  · intro h
    cases h with
    | type => exact .type
    | model => exact .model
    | label => exact .label (v := .value (.text b.title) none) (by simp [expandBase]) rfl
    | prefLabel => exact .prefLabel (v := .value (.text b.title) none) (by simp [expandBase]) rfl
    | total => exact .total (v := .value (.int b.total) none) (by simp [expandBase]) rfl
    | description hd => exact .description (v := .value (.text _) none) (by simp [expandBase, hd]) rfl

/-- The containers add to what the base information states. -/
theorem stated_with {b : DtsBase} {ctx : List (Str × Str)} {dc ex : Option (List (List (Str × List ExpValue)))} {cs : Option (List ExpCite)}
    {cd : Option (List ExpValue)} {p v : Term} :
    StatedHere b.id { expandBase ctx b with dublincore := dc, extensions := ex, citeStructure := cs, citeDepth := cd } ⟨.uri b.id, p, v⟩ ↔
      (inPart dc p v ∨ inPart ex p v) ∨ BaseShown b (expandName ctx b.type) p v := by
  rw [← baseShown_iff]
  constructor
  · intro hs
    generalize ht : (⟨.uri b.id, p, v⟩ : Triple) = t at hs
    cases hs with
    | type => exact .inr .type
    | model => exact .inr .model
    | label hv hu => exact .inr (.label hv hu)
    | prefLabel hv hu => exact .inr (.prefLabel hv hu)
    | total hv hu => exact .inr (.total hv hu)
    | description hv hu => exact .inr (.description hv hu)
    | dublincore hp => cases ht; exact .inl (.inl hp)
    | extensions hp => cases ht; exact .inl (.inr hp)
  · rintro ((h | h) | hs)
    · exact .dublincore h
    · exact .extensions h
    · generalize ht : (⟨.uri b.id, p, v⟩ : Triple) = t at hs
      cases hs with
      | type => exact .type
      | model => exact .model
      | label hv hu => exact .label hv hu
      | prefLabel hv hu => exact .prefLabel hv hu
      | total hv hu => exact .total hv hu
      | description hv hu => exact .description hv hu
      | dublincore hp => obtain ⟨c, r, h, -⟩ := hp; cases h
      | extensions hp => obtain ⟨c, r, h, -⟩ := hp; cases h

theorem base_complete (ctx : List (Str × Str)) (b : DtsBase) : Complete (expandBase ctx b) := by
  refine ⟨⟨_, rfl⟩, ⟨_, rfl⟩, ⟨_, rfl, ?_⟩, ⟨_, rfl, ?_⟩, ?_, .inl rfl, .inl rfl, ?_, ?_⟩
  · intro v hv; rw [List.mem_singleton] at hv; exact ⟨_, _, hv⟩
  · intro v hv; rw [List.mem_singleton] at hv; exact ⟨_, _, hv⟩
  · intro v hv
    cases hd : b.description with
    | none => simp [expandBase, hd] at hv
    | some s => simp only [expandBase, hd, List.mem_singleton] at hv; exact ⟨_, _, hv⟩
  · intro l h; cases h
  · intro v r h; cases h

/-- The documents in an expanded export. -/
theorem docsIn_expand (j : DtsJson) : ∃ d, docsIn (expandDoc j) = d :: (j.member.getD []).map (expandBase j.context) ∧ d.id = some j.base.id ∧
    d = { expandBase j.context j.base with
        dublincore := expandContainer j.context j.dublincore
        extensions := expandContainer j.context j.extensions
        citeStructure := expandOpt j.citeStructure
        citeDepth := j.citeDepth.map fun (n : Nat) => [.value (.int (Int.ofNat n)) none] } := by
  refine ⟨_, ?_, rfl, rfl⟩
  have : ∀ l : List DtsBase, docsInAll (l.map fun b => .mk (expandBase j.context b) []) = l.map (expandBase j.context) := by
    intro l
    induction l with
    | nil => rfl
    | cons b l ih => simp only [List.map_cons, docsInAll, docsIn, ih]; rfl
  rw [expandDoc, docsIn, this]

theorem allTwo_ids {order : Order} {cut : Cut} {g : Graph} : ∀ {ms : List DtsObj} {bs : List DtsBase}, AllTwo (BaseOf cut g) ms bs → bs.map (·.id) = ms.map (·.id) := by
  intro ms bs h
  induction h with
  | nil => rfl
  | cons h _ ih => rw [List.map_cons, List.map_cons, ih, h.id]

theorem member_ids {order order' : Order} (ho : Rearranges order) {cut : Cut} {native : Str → Str → Atom} {g : Graph} {o : DtsObj}
    {ms : List DtsObj} {cites : Option DtsCites} {j : DtsJson} (h : exportDts order order' cut native g o ms cites = .ok j) :
    j.member.getD [] = [] ∨ (j.member.getD []).map (·.id) = ms.map (·.id) := by
  rcases C74_members order order' ho cut native g o ms cites j h with ⟨-, hm⟩ | ⟨-, bs, hm, hall⟩
  · rw [hm]; exact .inl rfl
  · rw [hm]; exact .inr (allTwo_ids (order := order) hall)

theorem distinct_export {order order' : Order} (ho : Rearranges order) (ho' : Rearranges order') {cut : Cut} {native : Str → Str → Atom} {g : Graph} {o : DtsObj}
    {ms : List DtsObj} {cites : Option DtsCites} {j : DtsJson} (h : exportDts order order' cut native g o ms cites = .ok j)
    (hid : (o.id :: ms.map (·.id)).Nodup) : DistinctDocs (docsIn (expandDoc j)) := by
  obtain ⟨d, hd, hi, -⟩ := docsIn_expand j
  have hb := (C74_base order order' ho ho' cut native g o ms cites j h).id
  rw [DistinctDocs, hd, List.map_cons, hi, List.map_map]
  have e : ((fun x : ExpData => x.id) ∘ expandBase j.context) = fun b => some b.id := rfl
  rw [e, hb]
  have : ((o.id :: (j.member.getD []).map (·.id)).map some).Nodup := by
    have hn : (o.id :: (j.member.getD []).map (·.id)).Nodup := by
      rcases member_ids ho h with e | e
      · rw [e]; simp
      · rw [e]; exact hid
    exact List.pairwise_map.2 (hn.imp fun h e => h (Option.some.inj e))
  rw [List.map_cons, List.map_map] at this
  exact this

/-- C76. The DTS document of a collection can be parsed, and the graph then holds for the collection the values that it had for the predicates that
the document shows, and its base information; for the members their base information; and nothing else. -/
theorem C76_graph (order order' : Order) (ho : Rearranges order) (ho' : Rearranges order') (cut : Cut) (hq : QNames cut)
    (native : Str → Str → Atom) (g : Graph) (o : DtsObj) (ms : List DtsObj) (cites : Option DtsCites) (hs : RoundSafe cut native g o ms) (j : DtsJson)
    (h : exportDts order order' cut native g o ms cites = .ok j) :
    ∃ g' c, parseDoc [] (expandDoc j) = .ok (g', c) ∧
      (∀ p v, (⟨.uri o.id, p, v⟩ : Triple) ∈ g' ↔
        (∃ q, p = .uri q ∧ Shown cut q ∧ v ∈ valuesOf g (.uri o.id) (.uri q)) ∨ BaseShown j.base (expandName j.context j.base.type) p v) ∧
      (∀ b ∈ j.member.getD [], ∀ p v, (⟨.uri b.id, p, v⟩ : Triple) ∈ g' ↔ BaseShown b (expandName j.context b.type) p v) ∧
      (∀ t ∈ g', t.s = .uri o.id ∨ ∃ b ∈ j.member.getD [], t.s = .uri b.id) := by
  obtain ⟨hst, hdc, hex⟩ := container_states ho ho' hq hs.nodup hs.predicates h hs.values
  obtain ⟨d, hd, hi, hde⟩ := docsIn_expand j
  have hdist := distinct_export ho ho' h hs.ids
  have hb := (C74_base order order' ho ho' cut native g o ms cites j h).id
  have hcomp : ∀ x ∈ docsIn (expandDoc j), Complete x := by
    intro x hx
    rw [hd, List.mem_cons] at hx
    rcases hx with rfl | hx
    · have hbc := base_complete j.context j.base
      subst hde
      refine ⟨hbc.id, hbc.types, hbc.title, hbc.total, hbc.description, hdc, hex, ?_, ?_⟩
      · intro l hl
        cases hcs : j.citeStructure with
        | none => simp only [hcs, expandOpt] at hl; cases hl
        | some l' =>
          simp only [hcs, expandOpt] at hl
          cases hl
          obtain ⟨ks, hks, -⟩ := C25_ingest _ (expandList_shape l').2
          exact ⟨ks, hks⟩
      · intro v r hv
        cases hcd : j.citeDepth with
        | none => simp only [hcd] at hv; cases hv
        | some n => simp only [hcd] at hv; cases hv; exact ⟨_, _, rfl⟩
    · obtain ⟨b, -, rfl⟩ := List.mem_map.1 hx
      exact base_complete _ _
  obtain ⟨⟨g', c⟩, hparse⟩ := (C75_success [] (expandDoc j)).2 hcomp
  have hmem := C75_graph [] g' (expandDoc j) c hparse hdist
  have empty : ∀ t : Triple, t ∉ ([] : Graph) := fun t => List.not_mem_nil
  refine ⟨g', c, hparse, fun p v => ?_, fun b hbm p v => ?_, fun t ht => ?_⟩
  · have hx : d ∈ docsIn (expandDoc j) := by rw [hd]; simp
    rw [← mem_objects (order := id) (fun g => .refl g), C75_values id (fun g => .refl g) [] g' (expandDoc j) c hparse hdist d hx o.id (hi.trans (by rw [hb])) p (fun _ => empty _) v]
    rw [← hst, hde, ← hb]
    exact stated_with
  · have hx : expandBase j.context b ∈ docsIn (expandDoc j) := by rw [hd]; simp only [List.mem_cons, List.mem_map]; exact .inr ⟨b, hbm, rfl⟩
    rw [← mem_objects (order := id) (fun g => .refl g), C75_values id (fun g => .refl g) [] g' (expandDoc j) c hparse hdist _ hx b.id rfl p (fun _ => empty _) v]
    exact baseShown_iff
  · rcases (hmem t).1 ht with ⟨x, hx, i, hxi, hsx⟩ | ⟨h0, -⟩
    · rw [statedHere_s hsx]
      rw [hd, List.mem_cons] at hx
      rcases hx with rfl | hx
      · rw [hi] at hxi; cases hxi
        exact .inl (by rw [hb])
      · obtain ⟨b, hbm, rfl⟩ := List.mem_map.1 hx
        cases hxi
        exact .inr ⟨b, hbm, rfl⟩
    · exact absurd h0 (empty t)

theorem treesOf_ids {ctx : List (Str × Str)} : ∀ {bs : List DtsBase} {cs : List (Str × DtsTree)},
    TreesOf (bs.map fun b => .mk (expandBase ctx b) []) cs → cs.map (·.1) = bs.map (·.id) ∧ ∀ e ∈ cs, ∃ k, e.2 = .mk e.1 k [] := by
  intro bs
  induction bs with
  | nil =>
    intro cs h
    generalize hl : ([] : List DtsBase).map (fun b => ExpDoc.mk (expandBase ctx b) []) = l at h
    cases h with
    | nil => simp
    | cons _ _ _ => cases hl
  | cons b bs ih =>
    intro cs h
    cases h with
    | cons h1 h2 h3 =>
      obtain ⟨e1, e2⟩ := ih h3
      generalize hl : ExpDoc.mk (expandBase ctx b) [] = m at h1
      cases h1 with
      | mk hi hc ht =>
        cases hl
        cases ht
        cases hi
        subst h2
        refine ⟨by simp only [List.map_cons, e1, DtsTree.id], fun e he => ?_⟩
        rw [List.mem_cons] at he
        rcases he with rfl | he
        · exact ⟨_, rfl⟩
        · exact e2 e he

theorem depthAll_pos (c : Cite DtsData) (r : List (Cite DtsData)) : Cite.depthAll (c :: r) ≠ 0 := by
  cases c with
  | mk d ks =>
    rw [Cite.depthAll, Cite.depth]
    split <;> omega

/-- C76. The parsed collection has the identifier of the collection, as children its members when their number is not 0, and a citation
structure with the same names, nesting and depth. -/
theorem C76_tree (order order' : Order) (ho : Rearranges order) (ho' : Rearranges order') (cut : Cut)
    (native : Str → Str → Atom) (g : Graph) (o : DtsObj) (ms : List DtsObj) (cites : DtsCites) (hid : (o.id :: ms.map (·.id)).Nodup) (j : DtsJson)
    (h : exportDts order order' cut native g o ms (some cites) = .ok j) (g' : Graph) (c : DtsTree) (hp : parseDoc [] (expandDoc j) = .ok (g', c)) :
    ∃ cites' cs, c = .mk o.id cites' cs ∧ (j.base.total ≠ 0 → cs.map (·.1) = ms.map (·.id)) ∧ (j.base.total = 0 → cs = []) ∧
      (∀ e ∈ cs, ∃ k, e.2 = .mk e.1 k []) ∧
      shapes cites'.trees = shapes cites.trees ∧ cites'.depth = cites.depth := by
  have hb := (C74_base order order' ho ho' cut native g o ms (some cites) j h).id
  have ht := C75_tree [] g' (expandDoc j) c hp (distinct_export ho ho' h hid)
  generalize hl : expandDoc j = doc at ht
  cases ht with
  | @mk d ms' i c' cs hi hc hts =>
    simp only [expandDoc, ExpDoc.mk.injEq] at hl
    obtain ⟨rfl, rfl⟩ := hl
    cases hi
    obtain ⟨t1, t2⟩ := treesOf_ids hts
    refine ⟨c', cs, by rw [← hb], fun hn => ?_, fun hz => ?_, t2, ?_⟩
    · rw [t1]
      rcases C74_members order order' ho cut native g o ms (some cites) j h with ⟨hz, -⟩ | ⟨-, bs, hm, hall⟩
      · exact absurd hz hn
      · rw [hm]; exact allTwo_ids (order := order) hall
    · rcases C74_members order order' ho cut native g o ms (some cites) j h with ⟨-, hm⟩ | ⟨hn, -⟩
      · rw [hm] at t1
        simpa using t1
      · exact absurd hz hn
    · obtain ⟨d1, d2, s1, s2⟩ := C74_citations order order' ho cut native g o ms cites j h
      have hsh : shapes c'.trees = shapes cites.trees ∧ (cites.trees = [] → c'.trees = []) := by
        have htr := hc.trees
        by_cases e : cites.trees = []
        · simp only [s2 e, expandOpt, Option.getD_none] at htr
          have : c'.trees = [] := by
            rw [ingestSet] at htr
            simp only [ingestList, Except.ok.injEq] at htr
            exact htr.symm
          rw [this, e]
          exact ⟨rfl, fun _ => rfl⟩
        · simp only [s1 e, expandOpt, Option.getD_some] at htr
          obtain ⟨ks, hk1, hk2⟩ := C25_export_ingest cites.trees
          rw [hk1] at htr
          cases htr
          exact ⟨hk2, fun h => absurd h e⟩
      refine ⟨hsh.1, ?_⟩
      by_cases e : cites.depth = 0
      · have hnone : c'.announced = none := hc.no_depth (by show j.citeDepth.map _ = none; rw [d2 e]; rfl)
        have htr : cites.trees = [] := by
          cases htr : cites.trees with
          | nil => rfl
          | cons a l =>
            rw [DtsCites.depth] at e
            split at e
            · cases e
            · rw [htr] at e; exact absurd e (depthAll_pos a l)
        rw [e, DtsCites.depth, hnone, hsh.2 htr]
        rfl
      · have hsome : c'.announced = some cites.depth := by
          have := hc.depth cites.depth none [] (by show j.citeDepth.map _ = _; rw [d1 e]; rfl)
          simpa using this
        rw [DtsCites.depth, hsome]
        cases hn : cites.depth with
        | zero => exact absurd hn e
        | succ n => rfl

/-- C76. The type is restored when it belongs to the vocabulary of Hydra, or when a predicate of the collection has its prefix, as it is
with the DTS types of collections that have a model. -/
theorem C76_type (order order' : Order) (ho : Rearranges order) (ho' : Rearranges order') (cut : Cut) (hq : QNames cut)
    (native : Str → Str → Atom) (g : Graph) (o : DtsObj) (ms : List DtsObj) (cites : Option DtsCites) (j : DtsJson)
    (h : exportDts order order' cut native g o ms cites = .ok j) (y pre ns name : Str) (hy : cut y = .ok (pre, ns, name))
    (hpre : pre = [] ∨ ∃ t ∈ g, t.s = .uri o.id ∧ t.o.isBNode = false ∧ ∃ name', cut t.p.str = .ok (pre, ns, name') ∧
      ns ∉ ["http://purl.org/capitains/ns/1.0#".toList, "https://www.w3.org/ns/hydra/core#".toList,
        "http://www.w3.org/1999/02/22-rdf-syntax-ns#".toList, "http://www.w3.org/2000/01/rdf-schema#".toList]) :
    expandName j.context (qnameOf pre name) = y := by
  obtain ⟨out, he⟩ := exported ho h
  obtain ⟨b, hb, hctx⟩ := he.context
  have hname := hq.names _ _ _ _ hy
  by_cases e : pre = []
  · subst e
    rw [expandName, qnameOf, if_pos rfl, find_eq_none.2 hname]
    simp only [hctx, getEntry_putEntry, if_pos, Option.getD_some]
    rw [hq.whole _ _ _ _ hy, hq.vocab _ _ _ hy]; rfl
  · rcases hpre with hpre | ⟨t, htg, hts, hto, name', hc, hns⟩
    · exact absurd hpre e
    · have hbind := (bindingsLoop_ok hq (b := []) (by intro _ _ h; cases h) hb).2.2 t.p
        (by rw [List.mem_eraseDups, List.mem_map]; exact ⟨t, (ho' out).mem_iff.2 ((he.mem t).2 ⟨htg, hts, hto⟩), rfl⟩) pre ns name' hc hns
      obtain ⟨hcol, hat⟩ := hq.prefixes _ _ _ _ hy
      have hv : pre ≠ vocabKey := fun e => hat (by rw [e]; decide)
      rw [expandName, qnameOf, if_neg e, find_append _ hcol]
      simp only [List.take_left, hctx, getEntry_putEntry]
      rw [if_neg hv, hbind]
      simp only
      rw [hq.whole _ _ _ _ hy]
      congr 1
      rw [List.drop_append]
      simp

/-! ## A case that meets the hypotheses -/

/-- Whether a namespace has its own place in a document. -/
def reservedCheck (ns : Str) : Bool :=
  [nsCapitains, nsHydra, nsRdf, nsRdfs, nsDts].contains ns

/-- Whether the value of a triple survives, or its predicate is not shown. -/
def survivesCheck (cut : Cut) (native : Str → Str → Atom) (t : Triple) : Bool :=
  match t.o with
  | .lit _ _ none => true
  | .lit s none (some d) => decide ((native s d).term = .lit s none (some d)) || hidden
  | _ => hidden
where
  /-- The predicate is not shown. -/
  hidden : Bool :=
    match cut t.p.str with
    | .ok (_, ns, _) => reservedCheck ns
    | .error _ => true

theorem values_of_check {cut : Cut} {native : Str → Str → Atom} {g : Graph} {node : Term} (h : g.all (fun t => decide (t.s ≠ node) || survivesCheck cut native t) = true)
    (p : Str) (v : Term) (hsh : Shown cut p) (hv : v ∈ valuesOf g node (.uri p)) : Survives native v := by
  rw [valuesOf, List.mem_map] at hv
  obtain ⟨t, ht, rfl⟩ := hv
  rw [List.mem_filter] at ht
  obtain ⟨htg, hc⟩ := ht
  simp only [Bool.and_eq_true, decide_eq_true_eq] at hc
  obtain ⟨⟨hs, hp⟩, -⟩ := hc
  have hidden : survivesCheck.hidden cut t = true → False := by
    intro hh
    obtain ⟨pre, ns, name, hcut, hres⟩ := hsh
    rw [survivesCheck.hidden, hp, Term.str, hcut] at hh
    simp only [reservedCheck, List.contains_iff_mem] at hh
    exact hres (reserved_iff.1 hh)
  have hall := List.all_eq_true.1 h t htg
  simp only [Bool.or_eq_true, decide_eq_true_eq, hs] at hall
  rcases hall with hall | hall
  · exact absurd rfl hall
  · rw [survivesCheck] at hall
    split at hall
    · rename_i e; rw [e]; trivial
    · rename_i s d e
      rw [Bool.or_eq_true, decide_eq_true_eq] at hall
      rcases hall with hall | hall
      · rw [e]; exact hall
      · exact absurd hall (fun h => hidden h)
    · exact absurd hall (fun h => hidden h)

/-- A collection without links. -/
def carmina : Graph := priapeia.filter fun t => decide (t.p ≠ .uri "http://purl.org/dc/terms/source".toList)

theorem carmina_safe : RoundSafe sampleCut sampleNative carmina ⟨"a".toList, none⟩ [⟨"b".toList, none⟩] :=
  ⟨by decide +kernel, uriPredicates_of _ (by decide +kernel), values_of_check (by decide +kernel), by decide +kernel⟩

/-- The export of that collection. -/
def carminaJson : Except PyErr DtsJson := exportDts id List.reverse sampleCut sampleNative carmina ⟨"a".toList, none⟩ [⟨"b".toList, none⟩] none

/-- The trip of that collection. -/
def carminaTrip : Except PyErr (Graph × DtsTree) :=
  match carminaJson with
  | .error e => .error e
  | .ok j => parseDoc [] (expandDoc j)

example : carminaTrip.map (fun r => r.1.objects id (.uri "a".toList) (.uri "http://purl.org/dc/terms/title".toList)) =
    .ok [.lit "Priapea".toList (some "eng".toList) none, .lit "Priapeia".toList (some "lat".toList) none] := by decide +kernel

example : carminaTrip.map (fun r => (objType id r.1 ⟨"b".toList, none⟩, objSize id r.1 ⟨"a".toList, none⟩, r.2.id)) =
    .ok (.ok (.uri "https://www.w3.org/ns/hydra/core#Resource".toList), .ok 1, "a".toList) := by decide +kernel

/-! ## Where it falls short -/

/-- A collection with one more statement than those that it needs. -/
def withOne (p o : Term) : Graph :=
  [⟨.uri "a".toList, pType, .uri "https://www.w3.org/ns/hydra/core#Collection".toList⟩, ⟨.uri "a".toList, pModel, dtsCollectionUri⟩, ⟨.uri "a".toList, p, o⟩]

/-- C76. A collection with a link among its Dublin Core terms is exported to a document that cannot be parsed. -/
theorem C76_fails_link : ∃ j, exportDts id id sampleCut sampleNative
      (withOne (.uri "http://purl.org/dc/terms/license".toList) (.uri "https://creativecommons.org/licenses/by/4.0/".toList)) ⟨"a".toList, none⟩ [] none = .ok j ∧
    parseDoc [] (expandDoc j) = .error .keyError := ⟨_, rfl, rfl⟩

/-- C76. The language of a label is lost. -/
theorem C76_fails_label_language : ∃ j g' c, exportDts id id sampleCut sampleNative
      (withOne pLabel (.lit "Priapeia".toList (some "lat".toList) none)) ⟨"a".toList, none⟩ [] none = .ok j ∧
    parseDoc [] (expandDoc j) = .ok (g', c) ∧
    g'.objects id (.uri "a".toList) pLabel = [.lit "Priapeia".toList none none] := ⟨_, _, _, rfl, rfl, by decide +kernel⟩

/-- C76. A collection without label gets the label `None`. -/
theorem C76_fails_no_label : ∃ j g' c, exportDts id id sampleCut sampleNative
      (withOne (.uri "http://purl.org/dc/terms/title".toList) (.lit "Priapeia".toList (some "lat".toList) none)) ⟨"a".toList, none⟩ [] none = .ok j ∧
    parseDoc [] (expandDoc j) = .ok (g', c) ∧
    g'.objects id (.uri "a".toList) pLabel = [.lit "None".toList none none] := ⟨_, _, _, rfl, rfl, by decide +kernel⟩

/-- C76. A datatype is lost when its values are texts in Python, as with `xsd:string`. -/
theorem C76_fails_datatype (native : Str → Str → Atom)
    (hn : native "Priapeia".toList "http://www.w3.org/2001/XMLSchema#string".toList = .text "Priapeia".toList) :
    ∃ j g' c, exportDts id id sampleCut native
      (withOne (.uri "http://purl.org/dc/terms/title".toList) (.lit "Priapeia".toList none (some "http://www.w3.org/2001/XMLSchema#string".toList))) ⟨"a".toList, none⟩ [] none = .ok j ∧
    parseDoc [] (expandDoc j) = .ok (g', c) ∧
    g'.objects id (.uri "a".toList) (.uri "http://purl.org/dc/terms/title".toList) = [.lit "Priapeia".toList none none] := by
  have e : exportDts id id sampleCut native
      (withOne (.uri "http://purl.org/dc/terms/title".toList) (.lit "Priapeia".toList none (some "http://www.w3.org/2001/XMLSchema#string".toList))) ⟨"a".toList, none⟩ [] none =
      .ok ⟨[("dts".toList, nsDts), ("dct".toList, nsDcterms), (vocabKey, nsHydra)], ⟨"a".toList, "Collection".toList, "None".toList, 0, none⟩, [],
        [("dct:title".toList, .one (.plain (native "Priapeia".toList "http://www.w3.org/2001/XMLSchema#string".toList)))], none, none, none⟩ := rfl
  rw [hn] at e
  exact ⟨_, _, _, e, rfl, by decide +kernel⟩

end Verif.Props
