import Verif.Lemmas.MetadataGraph
import Verif.Props.InventoryGraph
/-!
C106: asking a local resolver for metadata leaves what the one graph says of its library, but for the language of editions.
-/
namespace Verif.Props
open Verif.Py Verif.Model Verif.Spec Verif.Lemmas

theorem ready_of_library {g : Graph} {r : RootV} (h : LibraryIn g r) {p : Placed} (hp : p ∈ placedTexts r) : PlaceReady g p := by
  obtain ⟨i, hi, tg, ht, w, hw, t, hx, rfl⟩ := mem_placedTexts.1 hp
  have hpl : InPlace r i tg w t := ⟨hi, ht, hw, hx⟩
  obtain ⟨t1, t2, t3, t4⟩ := h.types i tg w t hpl
  obtain ⟨p1, p2, p3⟩ := h.parents i tg w t hpl
  exact ⟨h.plain i tg w t hpl, h.named i tg w t hpl, t1, t2, t3, t4, p1, p2, p3⟩

theorem eq_of_nodup_ids : ∀ {l : List Placed}, (l.map fun p => p.text.id).Nodup → ∀ p ∈ l, ∀ q ∈ l, p.text.id = q.text.id → p = q
  | [], _, p, hp, _, _, _ => by simp at hp
  | x :: l, h, p, hp, q, hq, e => by
    rw [List.map_cons, List.nodup_cons] at h
    rcases List.mem_cons.1 hp with rfl | hp' <;> rcases List.mem_cons.1 hq with rfl | hq'
    · rfl
    · exact absurd (e ▸ List.mem_map.2 ⟨q, hq', rfl⟩) h.1
    · exact absurd (e ▸ List.mem_map.2 ⟨p, hp', rfl⟩) h.1
    · exact eq_of_nodup_ids h.2 p hp' q hq' e

theorem one_place {g : Graph} {r : RootV} (h : LibraryIn g r) : ∀ p ∈ placedTexts r, ∀ q ∈ placedTexts r, p.text.id = q.text.id → p = q := by
  refine eq_of_nodup_ids ?_
  have := h.ids
  rw [rootTexts_placed, List.map_map] at this
  exact this

theorem work_not_edition {g : Graph} {r : RootV} (h : LibraryIn g r) {p q : Placed} (hp : p ∈ placedTexts r) (hq : q ∈ placedTexts r)
    (hk : q.text.kind = .edition) : p.work ≠ q.text.id := by
  intro e
  have h1 := (ready_of_library h hp).work.type (cts "work")
  have h2 := (ready_of_library h hq).text (by simp [hk])
  rw [hk] at h2
  rw [e] at h1
  have := (h2.type _).1 (h1.2 rfl)
  revert this
  decide +kernel

theorem placedLoop_sub {urn : Option UrnArg} {key : Option Int} : ∀ {l ps : List Placed}, placedLoop urn key l = .ok ps → ∀ p ∈ ps, p ∈ l
  | [], ps, h, p, hp => by cases h; exact hp
  | x :: l, ps, h, p, hp => by
    rw [placedLoop] at h
    split at h
    · cases h
    · split at h
      · cases h
      · rename_i b _ l' hl
        cases h
        split at hp
        · rcases List.mem_cons.1 hp with rfl | hp
          · simp
          · exact List.mem_cons_of_mem _ (placedLoop_sub hl p hp)
        · exact List.mem_cons_of_mem _ (placedLoop_sub hl p hp)

theorem metaFound_sub {r : RootV} {o : Option Str} {ps : List Placed} (h : metaFound r o = some ps) : ∀ p ∈ ps, p ∈ placedTexts r := by
  unfold metaFound at h
  split at h
  · cases h
  · split at h
    · cases h
    · split at h
      · cases h
      · split at h
        · cases h
        · rename_i hl
          cases h
          exact placedLoop_sub hl

/-- What a call does to the graph. -/
theorem asked_keeps {order : Order} (ho : Rearranges order) {g : Graph} {r : RootV} (h : LibraryIn g r) (o : Option Str) :
    Alike g (getMetadataG order g r o).2 ∧ Once (getMetadataG order g r o).2 ∧
    (∀ s, (∀ ps, metaFound r o = some ps → ∀ p ∈ ps, p.text.kind = .edition → s ≠ .uri p.text.id) →
      getLang order (getMetadataG order g r o).2 s = getLang order g s) ∧
    ∀ ps, metaFound r o = some ps → ∀ p ∈ ps, p.text.kind = .edition →
      getLang order (getMetadataG order g r o).2 (.uri p.text.id) = getLang order g (.uri p.work) := by
  unfold getMetadataG
  dsimp only
  cases hf : metaFound r o with
  | none => exact ⟨fun _ _ => Iff.rfl, h.once, fun _ _ => rfl, fun _ e => by cases e⟩
  | some ps =>
    have hs := metaFound_sub hf
    obtain ⟨a, b, c, d⟩ := metaGraph_keeps ho (ps := ps) (fun p hp => ready_of_library h (hs p hp)) h.once
      (fun p hp q hq hk => work_not_edition h (hs p hp) (hs q hq) hk) (fun p hp q hq => one_place h p (hs p hp) q (hs q hq))
    exact ⟨a, b, fun s hh => c s (hh ps rfl), fun ps' e => by cases e; exact d⟩

/-- C106. Asking for metadata leaves the library as the graph knows it. -/
theorem library_after {order : Order} (ho : Rearranges order) {g : Graph} {r : RootV} (h : LibraryIn g r) (o : Option Str) :
    LibraryIn (getMetadataG order g r o).2 r := by
  obtain ⟨a, b, _, _⟩ := asked_keeps ho h o
  refine ⟨b, h.ids, h.plain, h.named, ?_, ?_⟩
  · intro i tg w t hp
    obtain ⟨n1, n2, n3, n4⟩ := h.named i tg w t hp
    obtain ⟨t1, t2, t3, t4⟩ := h.types i tg w t hp
    exact ⟨isA_alike a n1 t1, isA_alike a n2 t2, isA_alike a n3 t3, fun hk => isA_alike a n4 (t4 hk)⟩
  · intro i tg w t hp
    obtain ⟨n1, n2, n3, n4⟩ := h.named i tg w t hp
    obtain ⟨p1, p2, p3⟩ := h.parents i tg w t hp
    exact ⟨(a _ (parent_kept n2 n1)).2 p1, (a _ (parent_kept n3 n2)).2 p2, (a _ (parent_kept n4 n3)).2 p3⟩

/-- C106. Asking for metadata, with whatever identifier and whatever the answer, neither adds nor takes away a statement, but for languages
and for the inventory that is made up for the answer. -/
theorem C106_statements (order : Order) (ho : Rearranges order) (g : Graph) (r : RootV) (h : LibraryIn g r) (o : Option Str)
    (s p v : Term) (hp : p ≠ dc "language") (hs : s ≠ .uri madeUp) (hv : ¬ (p = parentPredicate ∧ v = .uri madeUp)) :
    (⟨s, p, v⟩ : Triple) ∈ (getMetadataG order g r o).2 ↔ (⟨s, p, v⟩ : Triple) ∈ g :=
  (asked_keeps ho h o).1 _ ⟨hp, hs, hv⟩

theorem found_wanted (r : RootV) (parts : TextV → UrnParts) (ht : TextsWritten r parts) (q : UrnParts) (hq : q.WF)
    (href : q.ref = none) (hinv : q.write ∉ r.invs.map InvV.id) : ∃ ps, metaFound r (some q.write) = some ps ∧
      ∀ p, p ∈ ps ↔ p ∈ placedTexts r ∧ Wanted (some q) none none p.text (parts p.text) := by
  classical
  refine ⟨(placedTexts r).filter fun p => decide (Wanted (some q) none none p.text (parts p.text)), ?_, fun p => by
    rw [List.mem_filter, decide_eq_true_eq]⟩
  simp only [metaFound, if_neg hinv]
  obtain ⟨v, hvp, _⟩ := C12_urn_components q hq
  cases hk : searchKey (some (.text q.write)) with
  | error e =>
    have hb := C16_length_bounds _ v hvp
    simp only [searchKey, hvp] at hk
    have : v.len = 2 ∨ v.len = 3 ∨ v.len = 4 ∨ v.len = 5 := by omega
    rcases this with h | h | h | h <;> rw [h] at hk <;> cases hk
  | ok key =>
    simp only
    rw [placedLoop_eq (fun t => decide (Wanted (some q) none none t (parts t)))]
    intro p hp
    have htm : p.text ∈ rootTexts r := by rw [rootTexts_placed]; exact List.mem_map_of_mem hp
    refine textTest_eq p.text (parts p.text) (some q) _ key none none ?_
    obtain ⟨hw, hid, hparse, hver, _⟩ := ht _ htm
    rw [hid] at hparse
    obtain ⟨key', hk', h⟩ := urnTest_eq p.text (parts p.text) q hw hq hparse hver href
    rw [hk] at hk'
    cases hk'
    rw [h]
    congr 1
    rw [Bool.eq_iff_iff, decide_eq_true_eq, decide_eq_true_eq]
    exact ⟨fun h y e => by cases e; exact h, fun h => h q rfl⟩

/-- C106. What asking for metadata does to languages: an edition under the URN that is asked for, whose citation scheme is known, gets the
language of its work; everything else keeps its language. -/
theorem C106_languages (order : Order) (ho : Rearranges order) (g : Graph) (r : RootV) (h : LibraryIn g r) (parts : TextV → UrnParts)
    (ht : TextsWritten r parts) (q : UrnParts) (hq : q.WF) (href : q.ref = none) (hinv : q.write ∉ r.invs.map InvV.id) :
    (∀ i tg w t, InPlace r i tg w t → t.kind = .edition → Wanted (some q) none none t (parts t) →
      getLang order (getMetadataG order g r (some q.write)).2 (.uri t.id) = getLang order g (.uri w.id)) ∧
    ∀ s, (∀ t ∈ rootTexts r, t.kind = .edition → Wanted (some q) none none t (parts t) → s ≠ .uri t.id) →
      getLang order (getMetadataG order g r (some q.write)).2 s = getLang order g s := by
  obtain ⟨ps, hf, hm⟩ := found_wanted r parts ht q hq href hinv
  obtain ⟨_, _, c, d⟩ := asked_keeps ho h (some q.write)
  refine ⟨fun i tg w t hp hk hw => ?_, fun s hs => c s fun ps' e p hp hk => ?_⟩
  · exact d ps hf ⟨i.id, tg.id, w.id, w.lang, t⟩ ((hm _).2 ⟨mem_placedTexts.2 ⟨i, hp.inRoot, tg, hp.inInv, w, hp.inGroup, t, hp.inWork, rfl⟩, hw⟩) hk
  · rw [hf] at e
    cases e
    obtain ⟨h1, h2⟩ := (hm p).1 hp
    exact hs p.text (by rw [rootTexts_placed]; exact List.mem_map_of_mem h1) hk h2

/-- After any history: the library is known as before, and each language is as at first or, for editions, that of the work. -/
theorem history_keeps {order : Order} (ho : Rearranges order) {r : RootV} : ∀ (calls : List (Option Str)) {g : Graph}, LibraryIn g r →
    LibraryIn (graphAfterAsking order r g calls) r ∧ Alike g (graphAfterAsking order r g calls) ∧
    ∀ s, getLang order (graphAfterAsking order r g calls) s = getLang order g s ∨
      ∃ p ∈ placedTexts r, p.text.kind = .edition ∧ s = .uri p.text.id ∧
        getLang order (graphAfterAsking order r g calls) s = getLang order g (.uri p.work)
  | [], _, h => ⟨h, fun _ _ => Iff.rfl, fun _ => .inl rfl⟩
  | o :: rest, g, h => by
    obtain ⟨a, b, c, d⟩ := asked_keeps ho h o
    have h' := library_after ho h o
    obtain ⟨h1, h2, h3⟩ := history_keeps ho rest h'
    have hstep : ∀ s, getLang order (getMetadataG order g r o).2 s = getLang order g s ∨
        ∃ p ∈ placedTexts r, p.text.kind = .edition ∧ s = .uri p.text.id ∧
          getLang order (getMetadataG order g r o).2 s = getLang order g (.uri p.work) := by
      intro s
      by_cases hh : ∀ ps, metaFound r o = some ps → ∀ p ∈ ps, p.text.kind = .edition → s ≠ .uri p.text.id
      · exact .inl (c s hh)
      · simp only [Classical.not_forall, Classical.not_not, ne_eq] at hh
        obtain ⟨ps, hf, p, hp, hk, rfl⟩ := hh
        exact .inr ⟨p, metaFound_sub hf p hp, hk, rfl, d ps hf p hp hk⟩
    have hwork : ∀ p ∈ placedTexts r, getLang order (getMetadataG order g r o).2 (.uri p.work) = getLang order g (.uri p.work) := by
      intro p hp
      refine c _ fun ps hf q hq hk e => ?_
      exact work_not_edition h hp (metaFound_sub hf q hq) hk (Term.uri.inj e)
    refine ⟨h1, a.trans h2, fun s => ?_⟩
    show getLang order (graphAfterAsking order r (getMetadataG order g r o).2 rest) s = _ ∨ _
    rcases h3 s with e | ⟨p, hp, hk, hs, e⟩
    · rcases hstep s with e' | ⟨p, hp, hk, hs, e'⟩
      · exact .inl (e.trans e')
      · exact .inr ⟨p, hp, hk, hs, e.trans e'⟩
    · exact .inr ⟨p, hp, hk, hs, e.trans (hwork p hp)⟩

/-- C106. After any history of questions, the graph says of everything what it said at first, but for the language of editions, which may be
that of their work, and for the inventory that is made up. -/
theorem C106_history (order : Order) (ho : Rearranges order) (g : Graph) (r : RootV) (h : LibraryIn g r) (calls : List (Option Str)) :
    (∀ s p v, p ≠ dc "language" → s ≠ .uri madeUp → ¬ (p = parentPredicate ∧ v = .uri madeUp) →
      ((⟨s, p, v⟩ : Triple) ∈ graphAfterAsking order r g calls ↔ (⟨s, p, v⟩ : Triple) ∈ g)) ∧
    (∀ s, (∀ t ∈ rootTexts r, t.kind = .edition → s ≠ .uri t.id) → getLang order (graphAfterAsking order r g calls) s = getLang order g s) ∧
    ∀ i tg w t, InPlace r i tg w t → t.kind = .edition →
      getLang order (graphAfterAsking order r g calls) (.uri t.id) = getLang order g (.uri t.id) ∨
      getLang order (graphAfterAsking order r g calls) (.uri t.id) = getLang order g (.uri w.id) := by
  obtain ⟨_, h2, h3⟩ := history_keeps ho calls h
  refine ⟨fun s p v k1 k2 k3 => h2 _ ⟨k1, k2, k3⟩, fun s hs => ?_, fun i tg w t hp hk => ?_⟩
  · rcases h3 s with e | ⟨p, hp, hk, rfl, _⟩
    · exact e
    · exact absurd rfl (hs p.text (by rw [rootTexts_placed]; exact List.mem_map_of_mem hp) hk)
  · rcases h3 (.uri t.id) with e | ⟨p, hp', _, hs, e⟩
    · exact .inl e
    · have hin : (⟨i.id, tg.id, w.id, w.lang, t⟩ : Placed) ∈ placedTexts r := mem_placedTexts.2 ⟨i, hp.inRoot, tg, hp.inInv, w, hp.inGroup, t, hp.inWork, rfl⟩
      have := one_place h _ hin p hp' (Term.uri.inj hs)
      subst this
      exact .inr e

/-! ### Answers -/

/-- A text found, with the languages of the graph. -/
def relang (order : Order) (g : Graph) (p : Placed) : Placed :=
  { p with workLang := getLang order g (.uri p.work), text := { p.text with lang := getLang order g (.uri p.text.id) } }

theorem placed_withLangs (order : Order) (g : Graph) (r : RootV) : placedTexts (withLangs order g r) = (placedTexts r).map (relang order g) := by
  simp only [placedTexts, withLangs, List.flatMap_map, List.map_flatMap, List.map_map]
  rfl

theorem placedLoop_relang (order : Order) (g : Graph) (urn : Option UrnArg) (key : Option Int) : ∀ l : List Placed,
    placedLoop urn key (l.map (relang order g)) = match placedLoop urn key l with
      | .error e => .error e
      | .ok ps => .ok (ps.map (relang order g))
  | [] => rfl
  | p :: l => by
    have ht : textTest (relang order g p).text urn key none none = textTest p.text urn key none none := by
      simp [textTest, relang]
      rfl
    rw [List.map_cons, placedLoop, placedLoop, ht, placedLoop_relang order g urn key l]
    cases textTest p.text urn key none none with
    | error e => rfl
    | ok b =>
      cases placedLoop urn key l with
      | error e => rfl
      | ok ps => cases b <;> rfl

theorem rebuiltName_relang (order : Order) (g : Graph) (ps : List Placed) : rebuiltName (ps.map (relang order g)) = rebuiltName ps := by
  cases ps with
  | nil => rfl
  | cons p rest =>
    simp only [List.map_cons, rebuiltName, List.all_map]
    rfl

theorem rebuild_relang {order : Order} {g g' : Graph} : ∀ {ps : List Placed}
    (_ : ∀ p ∈ ps, getLang order g' (.uri p.work) = getLang order g (.uri p.work) ∧
      (p.text.kind ≠ .edition → getLang order g' (.uri p.text.id) = getLang order g (.uri p.text.id))) (i : InvV),
    (ps.map (relang order g')).foldl rebuildStep i = (ps.map (relang order g)).foldl rebuildStep i
  | [], _, _ => rfl
  | p :: ps, h, i => by
    have hs : rebuildStep i (relang order g' p) = rebuildStep i (relang order g p) := by
      obtain ⟨h1, h2⟩ := h p (by simp)
      have ht : rebuiltText (relang order g' p) = rebuiltText (relang order g p) := by
        unfold rebuiltText relang
        dsimp only
        cases hk : p.text.kind with
        | plain => rfl
        | edition => simp [h1]
        | translation => simp [h2 (by simp [hk])]
        | commentary => simp [h2 (by simp [hk])]
      unfold rebuildStep
      rw [ht]
      dsimp only [relang]
      rw [h1]
      rfl
    rw [List.map_cons, List.map_cons, List.foldl_cons, List.foldl_cons, hs]
    exact rebuild_relang (fun q hq => h q (by simp [hq])) _

/-- C106. The answers do not depend on the history: whatever was asked before, the metadata of a textgroup, of a work or of a text, of its
languages too, are those that a first question would have got, and so are the errors. -/
theorem C106_answers (order : Order) (ho : Rearranges order) (g : Graph) (r : RootV) (h : LibraryIn g r) (calls : List (Option Str)) (o : Str)
    (hinv : o ∉ r.invs.map InvV.id) :
    (getMetadataG order (graphAfterAsking order r g calls) r (some o)).1 = (getMetadataG order g r (some o)).1 := by
  obtain ⟨_, h2, _⟩ := C106_history order ho g r h calls
  have hids : ∀ g, (withLangs order g r).invs.map InvV.id = r.invs.map InvV.id := by
    intro g
    simp [withLangs, Function.comp_def]
  simp only [getMetadataG, getMetadata, hids, if_neg hinv]
  cases searchKey (some (.text o)) with
  | error e => rfl
  | ok key =>
    dsimp only
    rw [placed_withLangs, placed_withLangs, placedLoop_relang, placedLoop_relang]
    cases hl : placedLoop (some (.text o)) key (placedTexts r) with
    | error e => rfl
    | ok ps =>
      dsimp only
      rw [rebuiltName_relang, rebuiltName_relang, rebuild_relang (g := g)]
      intro p hp
      have hin := placedLoop_sub hl p hp
      refine ⟨h2 _ fun t ht hk' e => ?_, fun hk => h2 _ fun t ht hk' e => ?_⟩
      · rw [rootTexts_placed] at ht
        obtain ⟨q, hq, rfl⟩ := List.mem_map.1 ht
        exact work_not_edition h hin hq hk' (Term.uri.inj e)
      · rw [rootTexts_placed] at ht
        obtain ⟨q, hq, rfl⟩ := List.mem_map.1 ht
        have := one_place h p hin q hq (Term.uri.inj e)
        subst this
        exact hk hk'

/-- C106. Where the editions have the languages of their works, as inventories that are read give them, no history of questions changes any
language, and all answers, those of inventories and of the whole library too, are as at first. -/
theorem C106_still (order : Order) (ho : Rearranges order) (g : Graph) (r : RootV) (h : LibraryIn g r)
    (he : ∀ i tg w t, InPlace r i tg w t → t.kind = .edition → getLang order g (.uri t.id) = getLang order g (.uri w.id))
    (calls : List (Option Str)) :
    (∀ s, getLang order (graphAfterAsking order r g calls) s = getLang order g s) ∧
    ∀ o, (getMetadataG order (graphAfterAsking order r g calls) r o).1 = (getMetadataG order g r o).1 := by
  have hl : ∀ s, getLang order (graphAfterAsking order r g calls) s = getLang order g s := by
    obtain ⟨_, _, h3⟩ := history_keeps ho calls h
    intro s
    rcases h3 s with e | ⟨p, hp, hk, rfl, e⟩
    · exact e
    · obtain ⟨i, hi, tg, ht, w, hw, t, hx, rfl⟩ := mem_placedTexts.1 hp
      exact e.trans (he i tg w t ⟨hi, ht, hw, hx⟩ hk).symm
  refine ⟨hl, fun o => ?_⟩
  have : withLangs order (graphAfterAsking order r g calls) r = withLangs order g r := by
    simp only [withLangs, hl]
  simp only [getMetadataG, this]

/-- The objects of an inventory that is made say what `L` says. -/
def Speaking (L : Str → Str) (i : InvV) : Prop :=
  ∀ tg ∈ i.tgs, ∀ w ∈ tg.works, w.lang = L w.id ∧ ∀ t ∈ w.texts, t.lang = L t.id

theorem mem_addKeyed_of {α : Type} {key : α → Str} {l : List α} {v x : α} (h : x ∈ addKeyed key l v) : x ∈ l ∨ x = v := by
  unfold addKeyed at h
  split at h
  · exact .inl h
  · simpa using h

theorem speaking_step {L : Str → Str} {i : InvV} {p : Placed} (h : Speaking L i) (h1 : p.workLang = L (urnText p.work))
    (h2 : ∀ t ∈ rebuiltText p, t.lang = L t.id) : Speaking L (rebuildStep i p) := by
  intro tg htg w hw
  simp only [rebuildStep, List.mem_map] at htg
  obtain ⟨tg0, htg0, rfl⟩ := htg
  have hold : ∀ w ∈ tg0.works, w.lang = L w.id ∧ ∀ t ∈ w.texts, t.lang = L t.id := by
    rcases mem_addKeyed_of htg0 with h' | rfl
    · exact h tg0 h'
    · simp
  split at hw
  · simp only [List.mem_map] at hw
    obtain ⟨w0, hw0, rfl⟩ := hw
    have hw' : w0.lang = L w0.id ∧ ∀ t ∈ w0.texts, t.lang = L t.id := by
      rcases mem_addKeyed_of hw0 with h' | rfl
      · exact hold w0 h'
      · exact ⟨h1, by simp⟩
    split
    · refine ⟨hw'.1, ?_⟩
      have : ∀ (l : List TextV), (∀ t ∈ l, t.lang = L t.id) → ∀ acc : List TextV, (∀ t ∈ acc, t.lang = L t.id) →
          ∀ t ∈ l.foldl (addKeyed TextV.id) acc, t.lang = L t.id := by
        intro l
        induction l with
        | nil => intro _ acc ha; exact ha
        | cons x l ih =>
          intro hl acc ha
          refine ih (fun t ht => hl t (by simp [ht])) _ ?_
          intro t ht
          rcases mem_addKeyed_of ht with h' | rfl
          · exact ha t h'
          · exact hl _ (by simp)
      exact this _ h2 _ hw'.2
    · exact hw'
  · exact hold w hw

theorem speaking_fold {L : Str → Str} : ∀ {ps : List Placed} {i : InvV}, Speaking L i →
    (∀ p ∈ ps, p.workLang = L (urnText p.work) ∧ ∀ t ∈ rebuiltText p, t.lang = L t.id) → Speaking L (ps.foldl rebuildStep i)
  | [], _, h, _ => h
  | p :: ps, i, h, hp => by
    rw [List.foldl_cons]
    exact speaking_fold (speaking_step h (hp p (by simp)).1 (hp p (by simp)).2) fun q hq => hp q (by simp [hq])

theorem objGet_within {o x : Obj} {key : Str} (h : objGet o key = .ok x) : x = o ∨ x ∈ objMembers o ∨ x ∈ objDesc o := by
  unfold objGet at h
  split at h
  · cases h; exact .inl rfl
  · split at h
    · rename_i hf
      cases h
      exact .inr (.inl (List.mem_of_find?_eq_some hf))
    · split at h
      · rename_i hf
        cases h
        exact .inr (.inr (List.mem_of_find?_eq_some hf))
      · cases h

/-- What is in an answer is in the inventory that it was taken from. -/
theorem within_inv {i : InvV} {x y : Obj} (hx : x = .inv i ∨ x ∈ objMembers (.inv i) ∨ x ∈ invDesc i) (hy : y ∈ x :: objDesc x) :
    y = .inv i ∨ y ∈ invDesc i := by
  have hx' : x = .inv i ∨ x ∈ invDesc i := by
    rcases hx with h | h | h
    · exact .inl h
    · refine .inr ?_
      simp only [objMembers, List.mem_map] at h
      obtain ⟨tg, ht, rfl⟩ := h
      exact mem_invDesc.2 (.inl ⟨tg, ht, rfl⟩)
    · exact .inr h
  rcases List.mem_cons.1 hy with rfl | hy
  · exact hx'
  rcases hx' with rfl | hx'
  · exact .inr hy
  refine .inr (mem_invDesc.2 ?_)
  rcases mem_invDesc.1 hx' with ⟨tg, ht, rfl⟩ | ⟨tg, ht, w, hw, rfl⟩ | ⟨tg, ht, w, hw, t, hx, rfl⟩
  · simp only [objDesc, tgDesc, workDesc, List.mem_append, List.mem_map, List.mem_flatMap] at hy
    rcases hy with ⟨w, hw, rfl⟩ | ⟨w, hw, t, hx, rfl⟩
    · exact .inr (.inl ⟨tg, ht, w, hw, rfl⟩)
    · exact .inr (.inr ⟨tg, ht, w, hw, t, hx, rfl⟩)
  · simp only [objDesc, workDesc, List.mem_map] at hy
    obtain ⟨t, hx, rfl⟩ := hy
    exact .inr (.inr ⟨tg, ht, w, hw, t, hx, rfl⟩)
  · simp [objDesc] at hy

/-- C106. An answer goes on being right: what it says of the languages of works and of texts is what the graph says, when it is given and
after whatever is asked later. -/
theorem C106_speaks (order : Order) (ho : Rearranges order) (g : Graph) (r : RootV) (h : LibraryIn g r) (o : Str) (hinv : o ∉ r.invs.map InvV.id)
    (a : Obj) (ha : (getMetadataG order g r (some o)).1 = .ok a) (later : List (Option Str)) :
    (∀ w, Obj.work w ∈ a :: objDesc a →
      w.lang = getLang order (graphAfterAsking order r (getMetadataG order g r (some o)).2 later) (.uri w.id)) ∧
    ∀ t, Obj.text t ∈ a :: objDesc a →
      t.lang = getLang order (graphAfterAsking order r (getMetadataG order g r (some o)).2 later) (.uri t.id) := by
  obtain ⟨_, _, c, d⟩ := asked_keeps ho h (some o)
  have h' := library_after ho h (some o)
  obtain ⟨_, hn, he⟩ := C106_history order ho _ r h' later
  generalize graphAfterAsking order r (getMetadataG order g r (some o)).2 later = g2 at hn he ⊢
  have hids : (withLangs order g r).invs.map InvV.id = r.invs.map InvV.id := by simp [withLangs, Function.comp_def]
  simp only [getMetadataG, getMetadata, hids, if_neg hinv] at ha
  cases hk : searchKey (some (.text o)) with
  | error e => rw [hk] at ha; cases ha
  | ok key =>
    rw [hk] at ha
    dsimp only at ha
    rw [placed_withLangs, placedLoop_relang] at ha
    cases hl : placedLoop (some (.text o)) key (placedTexts r) with
    | error e => rw [hl] at ha; cases ha
    | ok ps =>
      rw [hl] at ha
      dsimp only at ha
      have hf : metaFound r (some o) = some ps := by simp only [metaFound, if_neg hinv, hk, hl]
      have hin := metaFound_sub hf
      -- languages of works, of editions found and of other texts
      have hroot : ∀ t ∈ rootTexts r, ∃ q ∈ placedTexts r, q.text = t := fun t ht => by
        rw [rootTexts_placed] at ht; exact List.mem_map.1 ht
      have hw : ∀ p ∈ ps, getLang order g2 (.uri p.work) = getLang order g (.uri p.work) := by
        intro p hp
        rw [hn _ fun t ht hk' e => ?_, c _ fun ps' e q hq hk' e' => ?_]
        · rw [hf] at e
          cases e
          exact work_not_edition h (hin p hp) (hin q hq) hk' (Term.uri.inj e')
        · obtain ⟨q, hq, rfl⟩ := hroot t ht
          exact work_not_edition h (hin p hp) hq hk' (Term.uri.inj e)
      have hed : ∀ p ∈ ps, p.text.kind = .edition → getLang order g2 (.uri p.text.id) = getLang order g (.uri p.work) := by
        intro p hp hk'
        obtain ⟨i, hi, tg, ht, w, hwm, t, hx, e⟩ := mem_placedTexts.1 (hin p hp)
        subst e
        rcases he i tg w t ⟨hi, ht, hwm, hx⟩ hk' with e | e
        · exact e.trans (d ps hf _ hp hk')
        · refine e.trans (c _ fun ps' e q hq hk'' e' => ?_)
          rw [hf] at e
          cases e
          exact work_not_edition h (hin _ hp) (hin q hq) hk'' (Term.uri.inj e')
      have hot : ∀ p ∈ ps, p.text.kind ≠ .edition → getLang order g2 (.uri p.text.id) = getLang order g (.uri p.text.id) := by
        intro p hp hk'
        rw [hn _ fun t ht hk'' e => ?_, c _ fun ps' e q hq hk'' e' => ?_]
        · rw [hf] at e
          cases e
          have := one_place h p (hin p hp) q (hin q hq) (Term.uri.inj e')
          subst this
          exact hk' hk''
        · obtain ⟨q, hq, rfl⟩ := hroot t ht
          have := one_place h p (hin p hp) q hq (Term.uri.inj e)
          subst this
          exact hk' hk''
      have hs : Speaking (fun s => getLang order g2 (.uri s))
          ((ps.map (relang order g)).foldl rebuildStep { id := rebuiltName (ps.map (relang order g)), tgs := [] }) := by
        refine speaking_fold (by intro tg htg; cases htg) fun q hq => ?_
        obtain ⟨p, hp, rfl⟩ := List.mem_map.1 hq
        have hr := ready_of_library h (hin p hp)
        have u1 : urnText (relang order g p).work = p.work := urnText_plain hr.plain.2.1
        have u2 : urnText (relang order g p).text.id = p.text.id := urnText_plain hr.plain.2.2
        refine ⟨?_, fun t ht => ?_⟩
        · rw [u1]
          exact (hw p hp).symm
        · unfold rebuiltText at ht
          rw [u2] at ht
          have hkk : (relang order g p).text.kind = p.text.kind := rfl
          rw [hkk] at ht
          cases hk' : p.text.kind with
          | plain => rw [hk'] at ht; cases ht
          | edition =>
            rw [hk'] at ht
            rw [List.mem_singleton.1 ht]
            exact (hed p hp hk').symm
          | translation =>
            rw [hk'] at ht
            rw [List.mem_singleton.1 ht]
            exact (hot p hp (by simp [hk'])).symm
          | commentary =>
            rw [hk'] at ht
            rw [List.mem_singleton.1 ht]
            exact (hot p hp (by simp [hk'])).symm
      have hwi := fun {y} hy => within_inv (y := y) (objGet_within ha) hy
      refine ⟨fun w hm => ?_, fun t hm => ?_⟩
      · rcases hwi hm with e | e
        · cases e
        · rcases mem_invDesc.1 e with ⟨_, _, e⟩ | ⟨tg, ht, w', hw', e⟩ | ⟨_, _, _, _, _, _, e⟩
          · cases e
          · cases e
            exact (hs tg ht w hw').1
          · cases e
      · rcases hwi hm with e | e
        · cases e
        · rcases mem_invDesc.1 e with ⟨_, _, e⟩ | ⟨_, _, _, _, e⟩ | ⟨tg, ht, w, hw', t', hx, e⟩
          · cases e
          · cases e
          · cases e
            exact (hs tg ht w hw').2 t hx

/-! ### Examples -/

/-- What `IsA` asks, as a search of the graph. -/
def isACheck (g : Graph) (id : Str) (type model : String) : Bool :=
  g.contains ⟨.uri id, typePredicate, cts type⟩ && g.contains ⟨.uri id, modelPredicate, .uri ("https://w3id.org/dts/api#".toList ++ model.toList)⟩ &&
  g.all fun t => t.s != .uri id || ((t.p != typePredicate || t.o == cts type) &&
    (t.p != modelPredicate || t.o == .uri ("https://w3id.org/dts/api#".toList ++ model.toList)))

theorem isA_of_check {g : Graph} {id : Str} {type model : String} (h : isACheck g id type model = true) : IsA g id type model := by
  simp only [isACheck, Bool.and_eq_true, List.contains_iff_mem, List.all_eq_true, Bool.or_eq_true, bne_iff_ne, ne_eq, beq_iff_eq] at h
  obtain ⟨⟨h1, h2⟩, h3⟩ := h
  refine ⟨fun o => ⟨fun hm => ?_, fun e => e ▸ h1⟩, fun o => ⟨fun hm => ?_, fun e => e ▸ h2⟩⟩
  · rcases h3 _ hm with h | h
    · exact absurd rfl h
    · exact h.1.resolve_left (fun h => h rfl)
  · rcases h3 _ hm with h | h
    · exact absurd rfl h
    · exact h.2.resolve_left (fun h => h rfl)

/-- What `LibraryIn` asks of one text in its place. -/
def placeCheck (g : Graph) (i : InvV) (tg : TgV) (w : WorkV) (t : TextV) : Bool :=
  (!tg.id.contains '#' && !w.id.contains '#' && !t.id.contains '#') &&
  (i.id != madeUp && tg.id != madeUp && w.id != madeUp && t.id != madeUp) &&
  (isACheck g i.id "TextInventory" "collection" && isACheck g tg.id "textgroup" "collection" && isACheck g w.id "work" "collection" &&
    (t.kind == .plain || isACheck g t.id (kindName t.kind) "resource")) &&
  (g.contains ⟨.uri tg.id, parentPredicate, .uri i.id⟩ && g.contains ⟨.uri w.id, parentPredicate, .uri tg.id⟩ &&
    g.contains ⟨.uri t.id, parentPredicate, .uri w.id⟩)

theorem library_of_check {g : Graph} {r : RootV}
    (ho : (g.all fun a => a.p != dc "language" || g.all fun b => b.p != dc "language" || b.s != a.s || b.o == a.o) = true)
    (hi : ((rootTexts r).map TextV.id).Nodup)
    (hc : (r.invs.all fun i => i.tgs.all fun tg => tg.works.all fun w => w.texts.all fun t => placeCheck g i tg w t) = true) : LibraryIn g r := by
  have hc' : ∀ i tg w t, InPlace r i tg w t → placeCheck g i tg w t = true := by
    intro i tg w t hp
    simp only [List.all_eq_true] at hc
    exact hc i hp.inRoot tg hp.inInv w hp.inGroup t hp.inWork
  simp only [placeCheck, Bool.and_eq_true, Bool.not_eq_true', bne_iff_ne, ne_eq, Bool.or_eq_true, beq_iff_eq, List.contains_iff_mem] at hc'
  have hn : ∀ {l : Str}, l.contains '#' = false → '#' ∉ l := by
    intro l h hm
    rw [List.contains_iff_mem.2 hm] at h
    cases h
  refine ⟨?_, hi, ?_, ?_, ?_, ?_⟩
  · intro s o o' h1 h2
    simp only [List.all_eq_true, Bool.or_eq_true, bne_iff_ne, ne_eq, beq_iff_eq] at ho
    rcases ho _ h1 with h | h
    · exact absurd rfl h
    · rcases h _ h2 with (h | h) | h
      · exact absurd rfl h
      · exact absurd rfl h
      · exact h.symm
  · intro i tg w t hp
    obtain ⟨⟨⟨⟨⟨a, b⟩, c⟩, _⟩, _⟩, _⟩ := hc' i tg w t hp
    exact ⟨hn a, hn b, hn c⟩
  · intro i tg w t hp
    obtain ⟨⟨⟨_, ⟨⟨a, b⟩, c⟩, d⟩, _⟩, _⟩ := hc' i tg w t hp
    exact ⟨a, b, c, d⟩
  · intro i tg w t hp
    obtain ⟨⟨_, ⟨⟨a, b⟩, c⟩, d⟩, _⟩ := hc' i tg w t hp
    exact ⟨isA_of_check a, isA_of_check b, isA_of_check c, fun hk => isA_of_check (d.resolve_left hk)⟩
  · intro i tg w t hp
    obtain ⟨_, ⟨a, b⟩, c⟩ := hc' i tg w t hp
    exact ⟨a, b, c⟩

/-- The library of the document with an edition and a translation. -/
def exAsked : RootV :=
  { id := "tic".toList, invs := [⟨"annotsrc".toList, [⟨exUrn "", [⟨exUrn ".phi002", "lat".toList,
    [urnTextOf "urn:cts:latinLit:phi1294.phi002.perseus-lat2" .edition "lat", urnTextOf "urn:cts:latinLit:phi1294.phi002.perseus-eng2" .translation "eng"]⟩]⟩]⟩] }

/-- The library of the document whose work has its language in structured metadata. -/
def exAsked1 : RootV :=
  { id := "tic".toList, invs := [⟨"annotsrc".toList, [⟨exUrn "", [⟨exUrn ".phi002", "lat".toList,
    [urnTextOf "urn:cts:latinLit:phi1294.phi002.perseus-lat2" .edition "None"]⟩]⟩]⟩] }

/-- Reading an inventory makes a graph that knows of its library. -/
theorem exAsked_library : LibraryIn (graphAfter [] exInventory) exAsked :=
  library_of_check (by decide +kernel) (by decide +kernel) (by decide +kernel)

theorem exAsked1_library : LibraryIn (graphAfter [] exInBlock) exAsked1 :=
  library_of_check (by decide +kernel) (by decide +kernel) (by decide +kernel)

/-- The texts of the example after questions for a textgroup, for a text, for nothing that exists and for a namespace. -/
example (g : Graph) (hg : g = graphAfterAsking id exAsked (graphAfter [] exInventory)
      [some (exUrn ""), some (exUrn ".phi002.perseus-lat2"), some "urn:cts:latinLit:phi9".toList, some "urn:cts:latinLit".toList]) :
    (∀ s, getLang id g s = getLang id (graphAfter [] exInventory) s) ∧
    ∀ o, (getMetadataG id g exAsked o).1 = (getMetadataG id (graphAfter [] exInventory) exAsked o).1 := by
  rw [hg]
  refine C106_still id exId _ _ exAsked_library ?_ _
  clear hg
  intro i tg w t hp hk
  simp only [exAsked] at hp
  have h1 := hp.inRoot
  simp only [List.mem_singleton] at h1
  subst h1
  have h2 := hp.inInv
  simp only [List.mem_singleton] at h2
  subst h2
  have h3 := hp.inGroup
  simp only [List.mem_singleton] at h3
  subst h3
  have h4 := hp.inWork
  simp only [List.mem_cons, List.not_mem_nil, or_false] at h4
  rcases h4 with rfl | rfl
  · decide +kernel
  · cases hk

example : ∃ o, (getMetadataG id (graphAfter [] exInBlock) exAsked1 (some (exUrn ".phi002"))).1 = .ok o ∧
    (getMetadataG id (graphAfterAsking id exAsked1 (graphAfter [] exInBlock) [some (exUrn ""), none]) exAsked1 (some (exUrn ".phi002"))).1 = .ok o := by
  rw [C106_answers id exId _ _ exAsked1_library _ _ (by decide +kernel)]
  have h : ∃ o, (getMetadataG id (graphAfter [] exInBlock) exAsked1 (some (exUrn ".phi002"))).1 = .ok o := by
    cases h : (getMetadataG id (graphAfter [] exInBlock) exAsked1 (some (exUrn ".phi002"))).1 with
    | ok o => exact ⟨o, rfl⟩
    | error e =>
      have : (match (getMetadataG id (graphAfter [] exInBlock) exAsked1 (some (exUrn ".phi002"))).1 with | .ok _ => true | .error _ => false) = true := by
        decide +kernel
      rw [h] at this
      cases this
  obtain ⟨o, h⟩ := h
  exact ⟨o, h, h⟩

/-- The answer about the work, with the language that its edition has from then on. -/
example : ∃ w t, (getMetadataG id (graphAfter [] exInBlock) exAsked1 (some (exUrn ".phi002"))).1 = .ok (.work w) ∧ w.texts = [t] ∧
    t.lang = getLang id (getMetadataG id (graphAfter [] exInBlock) exAsked1 (some (exUrn ".phi002"))).2 (.uri t.id) ∧ t.lang = "lat".toList := by
  have h : (getMetadataG id (graphAfter [] exInBlock) exAsked1 (some (exUrn ".phi002"))).1 =
      .ok (.work ⟨exUrn ".phi002", "lat".toList, [{ urnTextOf "urn:cts:latinLit:phi1294.phi002.perseus-lat2" .edition "lat" with path := [] }]⟩) := by
    decide +kernel
  have hs := (C106_speaks id exId _ _ exAsked1_library _ (by decide +kernel) _ h []).2 _ (.tail _ (.head _))
  exact ⟨_, _, h, rfl, hs, rfl⟩

/-- The components of the URN of the one text. -/
def exAskedParts : UrnParts := ⟨"cts".toList, "latinLit".toList, some "phi1294".toList, some "phi002".toList, some "perseus-lat2".toList, none⟩

/-- The edition under the textgroup that is asked for gets the language of its work, which it had not. -/
example : getLang id (getMetadataG id (graphAfter [] exInBlock) exAsked1 (some (exUrn ""))).2 (.uri (exUrn ".phi002.perseus-lat2")) = "lat".toList ∧
    getLang id (graphAfter [] exInBlock) (.uri (exUrn ".phi002.perseus-lat2")) = "None".toList := by
  have hwf : exAskedParts.WF := ⟨by decide, by decide, by intro s hs; cases hs; decide, by intro s hs; cases hs; decide, by intro s hs; cases hs; decide,
    by simp [exAskedParts], by simp [exAskedParts], by simp [exAskedParts], by simp [exAskedParts]⟩
  have hq : (⟨"cts".toList, "latinLit".toList, some "phi1294".toList, none, none, none⟩ : UrnParts).WF :=
    ⟨by decide, by decide, by intro s hs; cases hs; decide, by intro s hs; simp at hs, by intro s hs; simp at hs, by simp, by simp, by simp, by simp⟩
  have ht : TextsWritten exAsked1 fun _ => exAskedParts := by
    intro t ht
    have : t ∈ [urnTextOf "urn:cts:latinLit:phi1294.phi002.perseus-lat2" .edition "None"] := ht
    simp only [List.mem_singleton] at this
    subst this
    exact ⟨hwf, by decide +kernel, by decide +kernel, by simp [exAskedParts], rfl⟩
  have h := (C106_languages id exId _ _ exAsked1_library _ ht _ hq rfl (by decide +kernel)).1 exAsked1.invs[0] exAsked1.invs[0].tgs[0]
    exAsked1.invs[0].tgs[0].works[0] _ ⟨.head _, .head _, .head _, .head _⟩ rfl (by
      refine ⟨by decide +kernel, ?_, ?_, ?_⟩
      · intro y e; cases e; decide +kernel
      · intro y e; simp at e
      · intro y k e; simp at e)
  refine ⟨Eq.trans ?_ (h.trans ?_), ?_⟩
  · decide +kernel
  · decide +kernel
  · decide +kernel

/-! ### Where asking shows -/

/-- C106. Asking changes the library: before, the edition has no language, and no text is found in Latin; asked about the namespace, the
resolver answers that it knows no such collection, and from then on the edition is in Latin. -/
theorem C106_fails_language :
    LibraryIn (graphAfter [] exInBlock) exAsked1 ∧
    (getMetadataG id (graphAfter [] exInBlock) exAsked1 (some "urn:cts:latinLit".toList)).1 = .error .unknownCollection ∧
    getTextMetadata (withLangs id (graphAfter [] exInBlock) exAsked1) none (some "lat".toList) none = .ok [] ∧
    ∃ t, getTextMetadata (withLangs id (getMetadataG id (graphAfter [] exInBlock) exAsked1 (some "urn:cts:latinLit".toList)).2 exAsked1)
      none (some "lat".toList) none = .ok [t] ∧ t.id = exUrn ".phi002.perseus-lat2" ∧ t.lang = "lat".toList :=
  ⟨exAsked1_library, by decide +kernel, by decide +kernel, urnTextOf "urn:cts:latinLit:phi1294.phi002.perseus-lat2" .edition "lat",
    by decide +kernel, by decide +kernel, by decide +kernel⟩

/-- C106. Asking about what is not there makes up an inventory, of which the graph then knows. -/
theorem C106_fails_made_up :
    (⟨.uri madeUp, typePredicate, cts "TextInventory"⟩ : Triple) ∉ graphAfter [] exInventory ∧
    (getMetadataG id (graphAfter [] exInventory) exAsked (some "urn:cts:latinLit:phi9".toList)).1 = .error .unknownCollection ∧
    (⟨.uri madeUp, typePredicate, cts "TextInventory"⟩ : Triple) ∈
      (getMetadataG id (graphAfter [] exInventory) exAsked (some "urn:cts:latinLit:phi9".toList)).2 := by
  decide +kernel

end Verif.Props
