import Verif.Props.InventorySearch
/-!
C67: `getMetadata` of the local resolver.
-/
namespace Verif.Props
open Verif.Py Verif.Model Verif.Spec Verif.Lemmas

/-! ### Looking up in any object -/

theorem objGet_any_ok {o x : Obj} {key : Str} (h : objGet o key = .ok x) : x ∈ o :: objDesc o ∧ x.id = key := by
  have hmem : ∀ y, y ∈ objMembers o → y ∈ objDesc o := by
    intro y hy
    cases o with
    | text t => cases hy
    | work w => exact hy
    | tg g => exact List.mem_append_left _ hy
    | inv i => exact List.mem_append_left _ hy
    | root r => exact List.mem_append_left _ hy
  rw [objGet] at h
  split at h
  · rename_i e
    cases h; exact ⟨List.mem_cons_self .., e.symm⟩
  · split at h
    · rename_i y hy
      cases h
      have h2 := List.find?_some hy
      simp only [beq_iff_eq] at h2
      exact ⟨List.mem_cons_of_mem _ (hmem _ (List.mem_of_find?_eq_some hy)), h2.symm⟩
    · split at h
      · rename_i y hy
        cases h
        exact ⟨List.mem_cons_of_mem _ (List.mem_of_find?_eq_some hy), by simpa using List.find?_some hy⟩
      · cases h

theorem objGet_any_some {o x : Obj} (h : x ∈ o :: objDesc o) : ∃ y, objGet o x.id = .ok y := by
  rw [objGet]
  split
  · exact ⟨_, rfl⟩
  · rename_i hne
    split
    · exact ⟨_, rfl⟩
    · split
      · exact ⟨_, rfl⟩
      · rename_i hx
        rw [List.find?_eq_none] at hx
        rcases List.mem_cons.mp h with rfl | h
        · exact absurd rfl hne
        · exact absurd (beq_self_eq_true x.id) (hx x h)

theorem objGet_any_none {o : Obj} {key : Str} (h : ∀ x ∈ o :: objDesc o, x.id ≠ key) : objGet o key = .error .unknownCollection := by
  cases hg : objGet o key with
  | ok x => exact absurd (objGet_any_ok hg).2 (h x (objGet_any_ok hg).1)
  | error e =>
    rw [objGet] at hg
    split at hg
    · cases hg
    · split at hg
      · cases hg
      · split at hg
        · cases hg
        · cases hg; rfl

/-! ### The rebuilt inventory -/

/-- An inventory is a dictionary of dictionaries. -/
structure DictInv (i : InvV) : Prop where
  tgs : (i.tgs.map TgV.id).Nodup
  tg : ∀ g ∈ i.tgs, DictTg g

/-- The inventory has this text in this work of this textgroup. -/
def InvHas (i : InvV) (gid wid : Str) (t : TextV) : Prop := ∃ g ∈ i.tgs, g.id = gid ∧ HasText g wid t
/-- The inventory has this work in this textgroup. -/
def InvWork (i : InvV) (gid wid : Str) : Prop := ∃ g ∈ i.tgs, g.id = gid ∧ wid ∈ g.works.map WorkV.id

/-- The change that a step makes to a work. -/
def stepWork (p : Placed) (w : WorkV) : WorkV :=
  if w.id = urnText p.work then { w with texts := (rebuiltText p).foldl (addKeyed TextV.id) w.texts } else w
/-- The change that a step makes to a textgroup. -/
def stepTg (p : Placed) (g : TgV) : TgV :=
  if g.id = urnText p.tg then
    { g with works := (addKeyed WorkV.id g.works { id := urnText p.work, lang := p.workLang, texts := [] }).map (stepWork p) }
  else g

theorem rebuildStep_eq (i : InvV) (p : Placed) :
    rebuildStep i p = { i with tgs := (addKeyed TgV.id i.tgs { id := urnText p.tg, works := [] }).map (stepTg p) } := rfl

theorem stepWork_id (p : Placed) (w : WorkV) : (stepWork p w).id = w.id := by rw [stepWork]; split <;> rfl
theorem stepTg_id (p : Placed) (g : TgV) : (stepTg p g).id = g.id := by rw [stepTg]; split <;> rfl

theorem map_stepWork_ids (p : Placed) (ws : List WorkV) : (ws.map (stepWork p)).map WorkV.id = ws.map WorkV.id := by
  rw [List.map_map]; exact List.map_congr_left (fun w _ => stepWork_id p w)
theorem map_stepTg_ids (p : Placed) (gs : List TgV) : (gs.map (stepTg p)).map TgV.id = gs.map TgV.id := by
  rw [List.map_map]; exact List.map_congr_left (fun w _ => stepTg_id p w)

theorem dict_stepTg {p : Placed} {g : TgV} (h : DictTg g) : DictTg (stepTg p g) := by
  rw [stepTg]
  split
  · refine ⟨?_, ?_⟩
    · simp only [map_stepWork_ids]; exact nodup_addKeyed h.works
    · intro w hw
      obtain ⟨x, hx, rfl⟩ := List.mem_map.mp hw
      have hd : DictWork x := by
        rcases mem_addKeyed.mp hx with hx | ⟨rfl, _⟩
        · exact h.texts x hx
        · simp [DictWork]
      rw [stepWork]
      split
      · exact nodup_foldl_add _ hd
      · exact hd
  · exact h

theorem dict_rebuildStep {i : InvV} (h : DictInv i) (p : Placed) : DictInv (rebuildStep i p) := by
  rw [rebuildStep_eq]
  refine ⟨by simp only [map_stepTg_ids]; exact nodup_addKeyed h.tgs, ?_⟩
  intro g hg
  obtain ⟨x, hx, rfl⟩ := List.mem_map.mp hg
  apply dict_stepTg
  rcases mem_addKeyed.mp hx with hx | ⟨rfl, _⟩
  · exact h.tg x hx
  · exact ⟨by simp, by simp⟩

theorem ids_rebuildStep {i : InvV} {p : Placed} {k : Str} :
    k ∈ (rebuildStep i p).tgs.map TgV.id ↔ k ∈ i.tgs.map TgV.id ∨ k = urnText p.tg := by
  rw [rebuildStep_eq]; simp only [map_stepTg_ids]; exact keys_addKeyed

theorem invWork_rebuildStep {i : InvV} {p : Placed} {gid wid : Str} :
    InvWork (rebuildStep i p) gid wid ↔ InvWork i gid wid ∨ (gid = urnText p.tg ∧ wid = urnText p.work) := by
  rw [rebuildStep_eq]
  constructor
  · rintro ⟨g', hg', rfl, hw⟩
    obtain ⟨g, hg, rfl⟩ := List.mem_map.mp hg'
    rw [stepTg_id]
    by_cases he : g.id = urnText p.tg
    · rw [stepTg, if_pos he] at hw
      simp only [map_stepWork_ids] at hw
      rcases keys_addKeyed.mp hw with hw | hw
      · rcases mem_addKeyed.mp hg with hg | ⟨rfl, _⟩
        · exact Or.inl ⟨g, hg, rfl, hw⟩
        · cases hw
      · exact Or.inr ⟨he, hw⟩
    · rw [stepTg, if_neg he] at hw
      rcases mem_addKeyed.mp hg with hg | ⟨rfl, _⟩
      · exact Or.inl ⟨g, hg, rfl, hw⟩
      · exact absurd rfl he
  · rintro (⟨g, hg, rfl, hw⟩ | ⟨rfl, rfl⟩)
    · refine ⟨stepTg p g, List.mem_map_of_mem (mem_addKeyed.mpr (Or.inl hg)), stepTg_id _ _, ?_⟩
      rw [stepTg]
      split
      · simp only [map_stepWork_ids]; exact keys_addKeyed.mpr (Or.inl hw)
      · exact hw
    · have : urnText p.tg ∈ (addKeyed TgV.id i.tgs { id := urnText p.tg, works := [] }).map TgV.id := keys_addKeyed.mpr (Or.inr rfl)
      obtain ⟨g, hg, he⟩ := List.mem_map.mp this
      refine ⟨stepTg p g, List.mem_map_of_mem hg, by rw [stepTg_id, he], ?_⟩
      rw [stepTg, if_pos he]
      simp only [map_stepWork_ids]; exact keys_addKeyed.mpr (Or.inr rfl)

/-- The texts after a step, when the text of the step is not there yet. -/
theorem invHas_rebuildStep {i : InvV} {p : Placed} (hnew : ∀ t, InvHas i (urnText p.tg) (urnText p.work) t → ∀ t' ∈ rebuiltText p, t'.id ≠ t.id)
    {gid wid : Str} {t : TextV} :
    InvHas (rebuildStep i p) gid wid t ↔ InvHas i gid wid t ∨ (gid = urnText p.tg ∧ wid = urnText p.work ∧ t ∈ rebuiltText p) := by
  have hone : ∀ l : List TextV, (∀ x ∈ l, ∀ t' ∈ rebuiltText p, t'.id ≠ x.id) →
      ∀ t, t ∈ (rebuiltText p).foldl (addKeyed TextV.id) l ↔ t ∈ l ∨ t ∈ rebuiltText p := by
    intro l hl t
    rw [mem_foldl_add]
    constructor
    · rintro (h | ⟨_, pre, post, e, _⟩)
      · exact Or.inl h
      · exact Or.inr (by rw [e]; simp)
    · rintro (h | h)
      · exact Or.inl h
      · refine Or.inr ⟨?_, ?_⟩
        · intro hk
          obtain ⟨x, hx, e⟩ := List.mem_map.mp hk
          exact hl x hx t h e.symm
        · have : ∃ z, rebuiltText p = [z] := by
            rw [rebuiltText] at h ⊢
            cases hk : p.text.kind <;> rw [hk] at h
            · cases h
            · exact ⟨_, rfl⟩
            · exact ⟨_, rfl⟩
            · exact ⟨_, rfl⟩
          obtain ⟨z, hz⟩ := this
          rw [hz, List.mem_singleton] at h
          subst h
          exact ⟨[], [], hz, by simp⟩
  rw [rebuildStep_eq]
  constructor
  · rintro ⟨g', hg', rfl, w', hw', rfl, ht⟩
    obtain ⟨g, hg, rfl⟩ := List.mem_map.mp hg'
    rw [stepTg_id]
    by_cases he : g.id = urnText p.tg
    · rw [stepTg, if_pos he] at hw'
      obtain ⟨w, hw, rfl⟩ := List.mem_map.mp hw'
      rw [stepWork_id]
      by_cases hwe : w.id = urnText p.work
      · rw [stepWork, if_pos hwe] at ht
        have hw0 : ∀ x ∈ w.texts, ∀ t' ∈ rebuiltText p, t'.id ≠ x.id := by
          intro x hx
          rcases mem_addKeyed.mp hw with hw | ⟨rfl, _⟩
          · rcases mem_addKeyed.mp hg with hg | ⟨rfl, _⟩
            · exact hnew x ⟨g, hg, he, w, hw, hwe, hx⟩
            · cases hw
          · cases hx
        rcases (hone w.texts hw0 t).mp ht with ht | ht
        · rcases mem_addKeyed.mp hw with hw | ⟨rfl, _⟩
          · rcases mem_addKeyed.mp hg with hg | ⟨rfl, _⟩
            · exact Or.inl ⟨g, hg, rfl, w, hw, rfl, ht⟩
            · cases hw
          · cases ht
        · exact Or.inr ⟨he, hwe, ht⟩
      · rw [stepWork, if_neg hwe] at ht
        rcases mem_addKeyed.mp hw with hw | ⟨rfl, _⟩
        · rcases mem_addKeyed.mp hg with hg | ⟨rfl, _⟩
          · exact Or.inl ⟨g, hg, rfl, w, hw, rfl, ht⟩
          · cases hw
        · cases ht
    · rw [stepTg, if_neg he] at hw'
      rcases mem_addKeyed.mp hg with hg | ⟨rfl, _⟩
      · exact Or.inl ⟨g, hg, rfl, w', hw', rfl, ht⟩
      · cases hw'
  · rintro (⟨g, hg, rfl, w, hw, rfl, ht⟩ | ⟨rfl, rfl, ht⟩)
    · refine ⟨stepTg p g, List.mem_map_of_mem (mem_addKeyed.mpr (Or.inl hg)), stepTg_id _ _, ?_⟩
      by_cases he : g.id = urnText p.tg
      · rw [stepTg, if_pos he]
        refine ⟨stepWork p w, List.mem_map_of_mem (mem_addKeyed.mpr (Or.inl hw)), stepWork_id _ _, ?_⟩
        rw [stepWork]
        split
        · simp only; rw [mem_foldl_add]; exact Or.inl ht
        · exact ht
      · rw [stepTg, if_neg he]
        exact ⟨w, hw, rfl, ht⟩
    · have : urnText p.tg ∈ (addKeyed TgV.id i.tgs { id := urnText p.tg, works := [] }).map TgV.id := keys_addKeyed.mpr (Or.inr rfl)
      obtain ⟨g, hg, he⟩ := List.mem_map.mp this
      refine ⟨stepTg p g, List.mem_map_of_mem hg, by rw [stepTg_id, he], ?_⟩
      rw [stepTg, if_pos he]
      have : urnText p.work ∈ (addKeyed WorkV.id g.works { id := urnText p.work, lang := p.workLang, texts := [] }).map WorkV.id :=
        keys_addKeyed.mpr (Or.inr rfl)
      obtain ⟨w, hw, hwe⟩ := List.mem_map.mp this
      refine ⟨stepWork p w, List.mem_map_of_mem hw, by rw [stepWork_id, hwe], ?_⟩
      rw [stepWork, if_pos hwe]
      refine (hone w.texts ?_ t).mpr (Or.inr ht)
      intro x hx
      rcases mem_addKeyed.mp hw with hw | ⟨rfl, _⟩
      · rcases mem_addKeyed.mp hg with hg | ⟨rfl, _⟩
        · exact hnew x ⟨g, hg, he, w, hw, hwe, hx⟩
        · cases hw
      · cases hx

theorem rebuiltText_id {p : Placed} {t : TextV} (h : t ∈ rebuiltText p) : t.id = urnText p.text.id := by
  rw [rebuiltText] at h
  split at h
  · cases h
  · rw [List.mem_singleton] at h; rw [h]
  · rw [List.mem_singleton] at h; rw [h]

/-- What the rebuilt inventory has. -/
theorem rebuilt_has (ps : List Placed) (name : Str) (hids : (ps.map fun p => urnText p.text.id).Nodup) :
    DictInv (ps.foldl rebuildStep { id := name, tgs := [] }) ∧ (ps.foldl rebuildStep { id := name, tgs := [] }).id = name ∧
    (∀ k, k ∈ (ps.foldl rebuildStep { id := name, tgs := [] }).tgs.map TgV.id ↔ ∃ p ∈ ps, k = urnText p.tg) ∧
    (∀ gid wid, InvWork (ps.foldl rebuildStep { id := name, tgs := [] }) gid wid ↔ ∃ p ∈ ps, gid = urnText p.tg ∧ wid = urnText p.work) ∧
    (∀ gid wid t, InvHas (ps.foldl rebuildStep { id := name, tgs := [] }) gid wid t ↔
      ∃ p ∈ ps, gid = urnText p.tg ∧ wid = urnText p.work ∧ t ∈ rebuiltText p) := by
  induction ps using list_snoc_induction with
  | h0 =>
    refine ⟨⟨by simp, by simp⟩, rfl, by simp, ?_, ?_⟩
    · intro gid wid; simp [InvWork]
    · intro gid wid t; simp [InvHas]
  | h1 l p ih =>
    rw [List.map_append, List.nodup_append] at hids
    obtain ⟨h1, h2, h3, h4, h5⟩ := ih hids.1
    rw [List.foldl_append, List.foldl_cons, List.foldl_nil]
    refine ⟨dict_rebuildStep h1 p, by rw [rebuildStep_eq]; exact h2, ?_, ?_, ?_⟩
    · intro k
      rw [ids_rebuildStep, h3]
      simp only [List.mem_append, List.mem_singleton]
      constructor
      · rintro (⟨x, hx, e⟩ | e)
        · exact ⟨x, Or.inl hx, e⟩
        · exact ⟨p, Or.inr rfl, e⟩
      · rintro ⟨x, hx | rfl, e⟩
        · exact Or.inl ⟨x, hx, e⟩
        · exact Or.inr e
    · intro gid wid
      rw [invWork_rebuildStep, h4]
      simp only [List.mem_append, List.mem_singleton]
      constructor
      · rintro (⟨x, hx, e⟩ | e)
        · exact ⟨x, Or.inl hx, e⟩
        · exact ⟨p, Or.inr rfl, e⟩
      · rintro ⟨x, hx | rfl, e⟩
        · exact Or.inl ⟨x, hx, e⟩
        · exact Or.inr e
    · intro gid wid t
      rw [invHas_rebuildStep, h5]
      · simp only [List.mem_append, List.mem_singleton]
        constructor
        · rintro (⟨x, hx, e⟩ | e)
          · exact ⟨x, Or.inl hx, e⟩
          · exact ⟨p, Or.inr rfl, e⟩
        · rintro ⟨x, hx | rfl, e⟩
          · exact Or.inl ⟨x, hx, e⟩
          · exact Or.inr e
      · intro t0 ht0 t' ht' e
        obtain ⟨x, hx, _, _, hxt⟩ := (h5 _ _ _).mp ht0
        rw [rebuiltText_id ht', rebuiltText_id hxt] at e
        exact hids.2.2 _ (List.mem_map_of_mem (f := fun p => urnText p.text.id) hx) _ (by simp) e.symm

/-! ### The result -/

theorem rootTexts_placed (r : RootV) : rootTexts r = (placedTexts r).map Placed.text := by
  simp only [rootTexts, rootDesc, invDesc, tgDesc, workDesc, placedTexts, List.filterMap_append, List.filterMap_flatMap, List.filterMap_map,
    List.map_flatMap, List.map_map]
  have hn : ∀ {α : Type} (l : List α), l.filterMap (fun _ => (none : Option TextV)) = [] := by
    intro α l
    induction l with
    | nil => rfl
    | cons a r ih => simp [ih]
  simp [Function.comp_def, hn]

open Classical in
theorem placedLoop_eq {urn : Option UrnArg} {key : Option Int} {l : List Placed} (f : TextV → Bool)
    (h : ∀ p ∈ l, textTest p.text urn key none none = .ok (f p.text)) : placedLoop urn key l = .ok (l.filter fun p => f p.text) := by
  induction l with
  | nil => rfl
  | cons t r ih =>
    rw [placedLoop, h t (List.mem_cons_self ..), ih (fun x hx => h x (List.mem_cons_of_mem _ hx))]
    simp only [List.filter_cons]

theorem urnText_write {p : UrnParts} (h : p.WF) : urnText p.write = p.write := by
  have : ∀ l : Str, '#' ∉ l → l.takeWhile (fun c => c != '#') = l := by
    intro l hl
    induction l with
    | nil => rfl
    | cons c r ih =>
      rw [List.mem_cons, not_or] at hl
      rw [List.takeWhile_cons, if_pos (bne_iff_ne.mpr (Ne.symm hl.1)), ih hl.2]
  exact this _ (hash_write h)

theorem mem_invDesc {i : InvV} {o : Obj} : o ∈ invDesc i ↔
    (∃ g ∈ i.tgs, o = .tg g) ∨ (∃ g ∈ i.tgs, ∃ w ∈ g.works, o = .work w) ∨
    (∃ g ∈ i.tgs, ∃ w ∈ g.works, ∃ t ∈ w.texts, o = .text t) := by
  simp only [invDesc, tgDesc, workDesc, List.mem_append, List.mem_map, List.mem_flatMap]
  constructor
  · rintro (⟨g, hg, rfl⟩ | ⟨g, hg, ⟨w, hw, rfl⟩ | ⟨w, hw, t, ht, rfl⟩⟩)
    · exact Or.inl ⟨g, hg, rfl⟩
    · exact Or.inr (Or.inl ⟨g, hg, w, hw, rfl⟩)
    · exact Or.inr (Or.inr ⟨g, hg, w, hw, t, ht, rfl⟩)
  · rintro (⟨g, hg, rfl⟩ | ⟨g, hg, w, hw, rfl⟩ | ⟨g, hg, w, hw, t, ht, rfl⟩)
    · exact Or.inl ⟨g, hg, rfl⟩
    · exact Or.inr ⟨g, hg, Or.inl ⟨w, hw, rfl⟩⟩
    · exact Or.inr ⟨g, hg, Or.inr ⟨w, hw, t, ht, rfl⟩⟩

/-- What the search within `getMetadata` finds. -/
theorem getMetadata_eq (r : RootV) (parts : TextV → UrnParts) (ht : TextsWritten r parts) (q : UrnParts) (hq : q.WF)
    (href : q.ref = none) (hinv : q.write ∉ r.invs.map InvV.id) : ∃ ps : List Placed,
      (∀ p, p ∈ ps ↔ p ∈ placedTexts r ∧ Wanted (some q) none none p.text (parts p.text)) ∧ ps.Sublist (placedTexts r) ∧
      getMetadata r (some q.write) = objGet (.inv (ps.foldl rebuildStep { id := rebuiltName ps, tgs := [] })) q.write := by
  classical
  refine ⟨(placedTexts r).filter fun p => decide (Wanted (some q) none none p.text (parts p.text)), ?_, List.filter_sublist, ?_⟩
  · intro p
    rw [List.mem_filter, decide_eq_true_eq]
  · rw [getMetadata, if_neg hinv]
    obtain ⟨v, hvp, _⟩ := C12_urn_components q hq
    cases hk : searchKey (some (.text q.write)) with
    | error e =>
      have hb := C16_length_bounds _ v hvp
      simp only [searchKey, hvp] at hk
      have : v.len = 2 ∨ v.len = 3 ∨ v.len = 4 ∨ v.len = 5 := by omega
      rcases this with h | h | h | h <;> rw [h] at hk <;> cases hk
    | ok key =>
      simp only
      rw [placedLoop_eq (fun t => decide (Wanted (some q) none none t (parts t)))]
      intro p hp
      have htm : p.text ∈ rootTexts r := by rw [rootTexts_placed]; exact List.mem_map_of_mem hp
      refine textTest_eq p.text (parts p.text) (some q) _ key none none ?_
      obtain ⟨hw, hid, hparse, hver, _⟩ := ht _ htm
      rw [hid] at hparse
      obtain ⟨key', hk', h⟩ := urnTest_eq p.text (parts p.text) q hw hq hparse hver href
      rw [hk] at hk'
      cases hk'
      rw [h]
      congr 1
      rw [Bool.eq_iff_iff, decide_eq_true_eq, decide_eq_true_eq]
      exact ⟨fun h y e => by cases e; exact h, fun h => h q rfl⟩

theorem rebuiltName_cases (ps : List Placed) :
    (∃ p ∈ ps, rebuiltName ps = p.inv) ∨ rebuiltName ps = ['d','e','f','a','u','l','t','I','n','v','e','n','t','o','r','y'] := by
  cases ps with
  | nil => exact Or.inr rfl
  | cons p rest =>
    rw [rebuiltName]
    split
    · exact Or.inl ⟨p, List.mem_cons_self .., rfl⟩
    · exact Or.inr rfl

theorem write_ne_default {q : UrnParts} : q.write ≠ ['d','e','f','a','u','l','t','I','n','v','e','n','t','o','r','y'] := by
  intro h
  have := congrArg List.head? h
  simp [UrnParts.write] at this

theorem mem_placedTexts {r : RootV} {p : Placed} : p ∈ placedTexts r ↔
    ∃ i ∈ r.invs, ∃ g ∈ i.tgs, ∃ w ∈ g.works, ∃ t ∈ w.texts, p = ⟨i.id, g.id, w.id, w.lang, t⟩ := by
  simp only [placedTexts, List.mem_flatMap, List.mem_map]
  constructor
  · rintro ⟨i, hi, g, hg, w, hw, t, ht, rfl⟩; exact ⟨i, hi, g, hg, w, hw, t, ht, rfl⟩
  · rintro ⟨i, hi, g, hg, w, hw, t, ht, rfl⟩; exact ⟨i, hi, g, hg, w, hw, t, ht, rfl⟩

theorem rebuiltText_same {p : Placed} {t : TextV} (hid : urnText p.text.id = p.text.id) (h : t ∈ rebuiltText p) : SameText p.text t := by
  rw [rebuiltText] at h
  split at h
  · cases h
  · rename_i hk
    rw [List.mem_singleton] at h; subst h
    exact ⟨hid, rfl, rfl, fun hn => absurd hk hn⟩
  · rw [List.mem_singleton] at h; subst h
    exact ⟨hid, rfl, rfl, fun _ => rfl⟩

theorem rebuiltText_some {p : Placed} (hk : p.text.kind ≠ .plain) : ∃ t, t ∈ rebuiltText p := by
  rw [rebuiltText]
  split
  · contradiction
  · exact ⟨_, List.mem_singleton.mpr rfl⟩
  · exact ⟨_, List.mem_singleton.mpr rfl⟩

/-- C67. Asking for the metadata of the URN of a textgroup, of a work or of a text gives an object with this identifier
below which are the same texts as those of the inventories under this URN whose citation scheme is known, no more and no
less; when there are none `UnknownCollection` is raised. -/
theorem C67_metadata (r : RootV) (parts : TextV → UrnParts) (ht : TextsWritten r parts) (hh : HoldersWritten r parts)
    (hids : ((rootTexts r).map TextV.id).Nodup) (hk : ∀ t ∈ rootTexts r, t.kind ≠ .plain) (q : UrnParts) (hq : q.WF)
    (href : q.ref = none) (htg : q.tg ≠ none) (hinv : q.write ∉ r.invs.map InvV.id) :
    ((∃ x ∈ rootTexts r, Wanted (some q) none none x (parts x)) →
      ∃ o, getMetadata r (some q.write) = .ok o ∧ o.id = q.write ∧
        (∀ t, Obj.text t ∈ o :: objDesc o → ∃ x ∈ rootTexts r, Wanted (some q) none none x (parts x) ∧ SameText x t) ∧
        (∀ x ∈ rootTexts r, Wanted (some q) none none x (parts x) → ∃ t, Obj.text t ∈ o :: objDesc o ∧ SameText x t)) ∧
    ((∀ x ∈ rootTexts r, ¬ Wanted (some q) none none x (parts x)) → getMetadata r (some q.write) = .error .unknownCollection) := by
  obtain ⟨ps, hps, hsub, hget⟩ := getMetadata_eq r parts ht q hq href hinv
  rw [hget]
  -- the identifiers of what was found
  have hroot : ∀ p ∈ placedTexts r, p.text ∈ rootTexts r := fun p hp => by rw [rootTexts_placed]; exact List.mem_map_of_mem hp
  have hplaced : ∀ x ∈ rootTexts r, ∃ p ∈ placedTexts r, p.text = x := fun x hx => by
    rw [rootTexts_placed] at hx; exact List.mem_map.mp hx
  have hU : ∀ p ∈ placedTexts r, urnText p.tg = cutTextgroup (parts p.text) ∧ urnText p.work = cutWork (parts p.text) ∧
      urnText p.text.id = (parts p.text).write ∧ p.text.id = (parts p.text).write ∧ (parts p.text).WF ∧ (parts p.text).ver ≠ none ∧
      (parts p.text).ref = none := by
    intro p hp
    obtain ⟨hw, hid, _, hv, hrf⟩ := ht _ (hroot p hp)
    obtain ⟨_, c2, c3, _⟩ := wf_cut hw
    obtain ⟨i, hi, g, hg, w, hwm, t, htm, rfl⟩ := mem_placedTexts.mp hp
    obtain ⟨e1, e2⟩ := hh i hi g hg w hwm t htm
    simp only at hw hid hv hrf c2 c3 ⊢
    refine ⟨?_, ?_, ?_, hid, hw, hv, hrf⟩
    · rw [e1, urnText_write c2]; rfl
    · rw [e2, urnText_write c3]; rfl
    · rw [hid, urnText_write hw]
  have hnd : (ps.map fun p => urnText p.text.id).Nodup := by
    have h1 : (ps.map fun p => urnText p.text.id) = ps.map fun p => p.text.id := by
      apply List.map_congr_left
      intro p hp
      obtain ⟨_, _, h3, h4, _⟩ := hU p ((hps p).mp hp).1
      rw [h3, h4]
    rw [h1]
    have h2 : (ps.map fun p => p.text.id) = (ps.map Placed.text).map TextV.id := by rw [List.map_map]; rfl
    rw [h2]
    rw [rootTexts_placed] at hids
    exact ((hsub.map Placed.text).map TextV.id).nodup hids
  obtain ⟨hD, hI, hG, hW, hT⟩ := rebuilt_has ps (rebuiltName ps) hnd
  generalize ps.foldl rebuildStep { id := rebuiltName ps, tgs := [] } = I at *
  have hname : I.id ≠ q.write := by
    rw [hI]
    rcases rebuiltName_cases ps with ⟨p, hp, e⟩ | e
    · rw [e]
      intro he
      apply hinv
      obtain ⟨i, hi, g, hg, w, hwm, t, htm, rfl⟩ := mem_placedTexts.mp ((hps p).mp hp).1
      rw [← he]
      exact List.mem_map_of_mem hi
    · rw [e]; exact write_ne_default.symm
  -- objects of the rebuilt inventory come from texts found
  have hgO : ∀ g ∈ I.tgs, ∃ p ∈ ps, g.id = urnText p.tg := fun g hg => (hG g.id).mp (List.mem_map_of_mem hg)
  have hwO : ∀ g ∈ I.tgs, ∀ w ∈ g.works, ∃ p ∈ ps, g.id = urnText p.tg ∧ w.id = urnText p.work := fun g hg w hw =>
    (hW g.id w.id).mp ⟨g, hg, rfl, List.mem_map_of_mem hw⟩
  have htO : ∀ g ∈ I.tgs, ∀ w ∈ g.works, ∀ t ∈ w.texts, ∃ p ∈ ps, g.id = urnText p.tg ∧ w.id = urnText p.work ∧ t ∈ rebuiltText p :=
    fun g hg w hw t htm => (hT g.id w.id t).mp ⟨g, hg, rfl, w, hw, rfl, htm⟩
  have hund : ∀ p ∈ ps, UnderUrn q (parts p.text) := fun p hp => ((hps p).mp hp).2.urn q rfl
  constructor
  · rintro ⟨x0, hx0, hwant0⟩
    obtain ⟨p0, hp0, rfl⟩ := hplaced x0 hx0
    have hp0' : p0 ∈ ps := (hps p0).mpr ⟨hp0, hwant0⟩
    obtain ⟨u1, u2, u3, u4, hwf0, hv0, hrf0⟩ := hU p0 hp0
    have hu0 := hund p0 hp0'
    have hwk0 : (parts p0.text).wk ≠ none := fun e => hv0 (hwf0.verWk e)
    -- an object of the rebuilt inventory has the identifier asked for
    have hex : ∃ x ∈ Obj.inv I :: objDesc (.inv I), x.id = q.write := by
      obtain ⟨t0, ht0⟩ := rebuiltText_some (hk _ (hroot p0 hp0))
      obtain ⟨g, hg, eg, w, hw, ew, htm⟩ := (hT _ _ t0).mpr ⟨p0, hp0', rfl, rfl, ht0⟩
      have hts := rebuiltText_id ht0
      obtain ⟨a1, a2, a3, a4, a5⟩ := hu0
      cases e2 : q.wk with
      | none =>
        refine ⟨.tg g, List.mem_cons_of_mem _ (mem_invDesc.mpr (Or.inl ⟨g, hg, rfl⟩)), ?_⟩
        simp only [Obj.id]
        rw [eg, u1, cutTextgroup]
        congr 1
        have e3 := hq.verWk e2
        cases hp : parts p0.text; cases q
        simp_all
      | some w' =>
        cases e3 : q.ver with
        | none =>
          refine ⟨.work w, List.mem_cons_of_mem _ (mem_invDesc.mpr (Or.inr (Or.inl ⟨g, hg, w, hw, rfl⟩))), ?_⟩
          simp only [Obj.id]
          rw [ew, u2, cutWork]
          congr 1
          cases hp : parts p0.text; cases q
          simp_all
        | some v' =>
          refine ⟨.text t0, List.mem_cons_of_mem _ (mem_invDesc.mpr (Or.inr (Or.inr ⟨g, hg, w, hw, t0, htm, rfl⟩))), ?_⟩
          simp only [Obj.id]
          rw [hts, u3]
          congr 1
          cases hp : parts p0.text; cases q
          simp_all
    obtain ⟨x, hx, hxid⟩ := hex
    obtain ⟨o, ho⟩ := objGet_any_some hx
    rw [hxid] at ho
    obtain ⟨hom, hoid⟩ := objGet_any_ok ho
    refine ⟨o, ho, hoid, ?_, ?_⟩
    · -- every text below comes from one found
      intro t htm
      have : ∃ g ∈ I.tgs, ∃ w ∈ g.works, t ∈ w.texts := by
        rcases List.mem_cons.mp hom with rfl | hom
        · rcases List.mem_cons.mp htm with h | h
          · cases h
          · rcases mem_invDesc.mp h with ⟨_, _, e⟩ | ⟨_, _, _, _, e⟩ | ⟨g, hg, w, hw, t', ht', e⟩
            · cases e
            · cases e
            · cases e; exact ⟨g, hg, w, hw, ht'⟩
        · rcases mem_invDesc.mp hom with ⟨g, hg, rfl⟩ | ⟨g, hg, w, hw, rfl⟩ | ⟨g, hg, w, hw, t', ht', rfl⟩
          · simp only [objDesc, tgDesc, workDesc, List.mem_cons, List.mem_append, List.mem_map, List.mem_flatMap, reduceCtorEq,
              and_false, exists_false, false_or, Obj.text.injEq, exists_eq_right] at htm
            obtain ⟨w, hw, h⟩ := htm
            exact ⟨g, hg, w, hw, h⟩
          · simp only [objDesc, workDesc, List.mem_cons, List.mem_map, reduceCtorEq, false_or, Obj.text.injEq, exists_eq_right] at htm
            exact ⟨g, hg, w, hw, htm⟩
          · simp only [objDesc, List.mem_cons, List.not_mem_nil, or_false, Obj.text.injEq] at htm
            subst htm
            exact ⟨g, hg, w, hw, ht'⟩
      obtain ⟨g, hg, w, hw, h⟩ := this
      obtain ⟨p, hp, _, _, hpt⟩ := htO g hg w hw t h
      obtain ⟨hp1, hp2⟩ := (hps p).mp hp
      obtain ⟨_, _, k3, k4, _⟩ := hU p hp1
      exact ⟨p.text, hroot p hp1, hp2, rebuiltText_same (by rw [k3, k4]) hpt⟩
    · -- every text found is below
      intro y hy hwant
      obtain ⟨p, hp, rfl⟩ := hplaced y hy
      have hp' : p ∈ ps := (hps p).mpr ⟨hp, hwant⟩
      obtain ⟨v1, v2, v3, v4, hwf, hv, hrf⟩ := hU p hp
      obtain ⟨t, htr⟩ := rebuiltText_some (hk _ hy)
      obtain ⟨g, hg, eg, w, hw, ew, htm⟩ := (hT _ _ t).mpr ⟨p, hp', rfl, rfl, htr⟩
      refine ⟨t, ?_, rebuiltText_same (by rw [v3, v4]) htr⟩
      have hup := hund p hp'
      obtain ⟨a1, a2, a3, a4, a5⟩ := hup
      obtain ⟨_, d2, d3, _⟩ := wf_cut hwf
      rcases List.mem_cons.mp hom with rfl | hom
      · exact absurd hoid hname
      · rcases mem_invDesc.mp hom with ⟨g', hg', rfl⟩ | ⟨g', hg', w', hw', rfl⟩ | ⟨g', hg', w', hw', t', ht', rfl⟩
        · -- a textgroup: it is that of the text
          simp only [Obj.id] at hoid
          obtain ⟨p', hp'm, e'⟩ := hgO g' hg'
          obtain ⟨k1, _, _, _, kwf, _⟩ := hU p' ((hps p').mp hp'm).1
          obtain ⟨_, c2, _⟩ := wf_cut kwf
          have hqe := write_inj c2 hq (by rw [← hoid, e', k1]; rfl)
          have hgg : g' = g := by
            apply eq_of_key hD.tgs hg' hg
            rw [eg, v1, hoid, cutTextgroup]
            congr 1
            have hwkq : q.wk = none := by rw [← hqe]
            have hvq : q.ver = none := by rw [← hqe]
            cases hpp : parts p.text; cases q
            simp_all
          subst hgg
          simp only [objDesc, tgDesc, workDesc, List.mem_cons, List.mem_append, List.mem_map, List.mem_flatMap]
          exact Or.inr (Or.inr ⟨w, hw, t, htm, rfl⟩)
        · simp only [Obj.id] at hoid
          obtain ⟨p', hp'm, eg', ew'⟩ := hwO g' hg' w' hw'
          obtain ⟨k1, k2, _, _, kwf, kv, _⟩ := hU p' ((hps p').mp hp'm).1
          obtain ⟨_, _, c3, _⟩ := wf_cut kwf
          have hqe := write_inj c3 hq (by rw [← hoid, ew', k2]; rfl)
          have hwkq : q.wk = (parts p'.text).wk := by rw [← hqe]
          have hwkn : q.wk ≠ none := by rw [hwkq]; exact fun e => kv (kwf.verWk e)
          have hvq : q.ver = none := by rw [← hqe]
          have hgg : g' = g := by
            apply eq_of_key hD.tgs hg' hg
            rw [eg, v1, eg', k1, cutTextgroup, cutTextgroup]
            congr 1
            obtain ⟨b1, b2, b3, b4, b5⟩ := hund p' hp'm
            simp only [UrnParts.mk.injEq]
            refine ⟨by rw [b1, a1], by rw [b2, a2], by rw [b3 htg, a3 htg], trivial, trivial, trivial⟩
          subst hgg
          have hww : w' = w := by
            apply eq_of_key (hD.tg g' hg').works hw' hw
            rw [ew, v2, ew', k2, cutWork, cutWork]
            congr 1
            obtain ⟨b1, b2, b3, b4, b5⟩ := hund p' hp'm
            simp only [UrnParts.mk.injEq]
            refine ⟨by rw [b1, a1], by rw [b2, a2], by rw [b3 htg, a3 htg], by rw [b4 hwkn, a4 hwkn], trivial, trivial⟩
          subst hww
          simp only [objDesc, workDesc, List.mem_cons, List.mem_map]
          exact Or.inr ⟨t, htm, rfl⟩
        · simp only [Obj.id] at hoid
          obtain ⟨p', hp'm, eg', ew', ht'r⟩ := htO g' hg' w' hw' t' ht'
          have hp'1 := ((hps p').mp hp'm).1
          obtain ⟨k1, k2, k3, k4, kwf, kv, _⟩ := hU p' hp'1
          have hqe := write_inj kwf hq (by rw [← hoid, rebuiltText_id ht'r, k3])
          have hvn : q.ver ≠ none := by rw [← hqe]; exact kv
          have hwkn : q.wk ≠ none := fun e => hvn (hq.verWk e)
          have hpe : parts p.text = q := by
            cases hpp : parts p.text; cases q
            simp_all
          have hgg : g' = g := by
            apply eq_of_key hD.tgs hg' hg
            rw [eg, v1, eg', k1, hqe, hpe]
          subst hgg
          have hww : w' = w := by
            apply eq_of_key (hD.tg g' hg').works hw' hw
            rw [ew, v2, ew', k2, hqe, hpe]
          subst hww
          have htt : t' = t := by
            apply eq_of_key ((hD.tg g' hg').texts w' hw') ht' htm
            rw [rebuiltText_id ht'r, rebuiltText_id htr, k3, v3, hqe, hpe]
          subst htt
          exact List.mem_cons_self ..
  · intro hno
    have hemp : ps = [] := by
      cases hpsv : ps with
      | nil => rfl
      | cons p rest =>
        have := (hps p).mp (by rw [hpsv]; exact List.mem_cons_self ..)
        exact absurd this.2 (hno _ (hroot p this.1))
    apply objGet_any_none
    intro x hx
    rcases List.mem_cons.mp hx with rfl | hx
    · exact hname
    · rcases mem_invDesc.mp hx with ⟨g, hg, _⟩ | ⟨g, hg, _⟩ | ⟨g, hg, _⟩ <;>
      · obtain ⟨p, hp, _⟩ := hgO g hg
        rw [hemp] at hp; cases hp

theorem exLibrary_holders : HoldersWritten exLibrary exParts := by
  intro i hi g hg w hw t ht
  simp only [exLibrary, List.mem_singleton] at hi
  subst hi
  simp only [List.mem_singleton] at hg
  subst hg
  simp only [List.mem_cons, List.not_mem_nil, or_false] at hw
  rcases hw with rfl | rfl
  · simp only [List.mem_cons, List.not_mem_nil, or_false] at ht
    subst ht
    decide +kernel
  · simp only [List.mem_cons, List.not_mem_nil, or_false] at ht
    rcases ht with rfl | rfl <;> decide +kernel

/-- The textgroup of the example, with the two texts whose citation scheme is known. -/
example : ∃ o, getMetadata exLibrary (some "urn:cts:a:g".toList) = .ok o ∧
    ((o :: objDesc o).map Obj.id) = ["urn:cts:a:g".toList, "urn:cts:a:g.w1".toList, "urn:cts:a:g.w10".toList, "urn:cts:a:g.w1.t1".toList,
      "urn:cts:a:g.w10.e1".toList] := ⟨_, rfl, by decide +kernel⟩
example : (∀ t ∈ rootTexts exLibrary, t.kind ≠ .plain) ∧ ((rootTexts exLibrary).map TextV.id).Nodup ∧
    "urn:cts:a:g".toList ∉ exLibrary.invs.map InvV.id := by decide +kernel

/-- C67. No identifier gives the whole collection; the name of an inventory gives this inventory. -/
theorem C67_inventories (lv : Levels) (r : RootV) (hr : FitsRoot lv r) :
    getMetadata r none = .ok (.root r) ∧ ∀ i ∈ r.invs, getMetadata r (some i.id) = .ok (.inv i) := by
  refine ⟨rfl, ?_⟩
  intro i hi
  rw [getMetadata, if_pos (List.mem_map_of_mem hi)]
  obtain ⟨o, ho⟩ := objGet_some (r := r) (o := .inv i) (mem_rootDesc.mpr (Or.inl ⟨i, hi, rfl⟩))
  simp only [Obj.id] at ho
  rw [ho]
  obtain ⟨h1, h2⟩ := objGet_ok ho
  have hl := hr.inv i hi
  rcases h1 with rfl | h1
  · have := hr.root; simp only [Obj.id] at h2; rw [h2, hl] at this; cases this
  · rcases mem_rootDesc.mp h1 with ⟨i', hi', rfl⟩ | ⟨g', hg', rfl⟩ | ⟨g', hg', w', hw', rfl⟩ | ⟨g', hg', w', hw', t', ht', rfl⟩
    · rw [eq_of_key (key := InvV.id) hr.invs hi' hi h2]
    · have := (fits_of_mem hr hg').tg; simp only [Obj.id] at h2; rw [h2, hl] at this; cases this
    · have := ((fits_of_mem hr hg').work w' hw').1; simp only [Obj.id] at h2; rw [h2, hl] at this; cases this
    · have := (fits_of_mem hr hg').text w' hw' t' ht'; simp only [Obj.id] at h2; rw [h2, hl] at this; cases this

example : getMetadata exLibrary (some "default".toList) = .ok (.inv ((exLibrary.invs)[0])) := rfl

/-- C67. Where the code departs: the URN of a namespace, although texts are under it, raises `UnknownCollection`. -/
theorem C67_namespace (r : RootV) (parts : TextV → UrnParts) (ht : TextsWritten r parts) (hh : HoldersWritten r parts)
    (hids : ((rootTexts r).map TextV.id).Nodup) (q : UrnParts) (hq : q.WF) (href : q.ref = none) (htg : q.tg = none)
    (hinv : q.write ∉ r.invs.map InvV.id) : getMetadata r (some q.write) = .error .unknownCollection := by
  obtain ⟨ps, hps, hsub, hget⟩ := getMetadata_eq r parts ht q hq href hinv
  rw [hget]
  have hroot : ∀ p ∈ placedTexts r, p.text ∈ rootTexts r := fun p hp => by rw [rootTexts_placed]; exact List.mem_map_of_mem hp
  have hU : ∀ p ∈ placedTexts r, urnText p.tg = cutTextgroup (parts p.text) ∧ urnText p.work = cutWork (parts p.text) ∧
      urnText p.text.id = (parts p.text).write ∧ p.text.id = (parts p.text).write ∧ (parts p.text).WF ∧ (parts p.text).tg ≠ none := by
    intro p hp
    obtain ⟨hw, hid, _, hv, hrf⟩ := ht _ (hroot p hp)
    obtain ⟨_, c2, c3, _⟩ := wf_cut hw
    obtain ⟨i, hi, g, hg, w, hwm, t, htm, rfl⟩ := mem_placedTexts.mp hp
    obtain ⟨e1, e2⟩ := hh i hi g hg w hwm t htm
    simp only at hw hid hv hrf c2 c3 ⊢
    refine ⟨?_, ?_, ?_, hid, hw, fun e => hv (hw.verWk (hw.wkTg e))⟩
    · rw [e1, urnText_write c2]; rfl
    · rw [e2, urnText_write c3]; rfl
    · rw [hid, urnText_write hw]
  have hnd : (ps.map fun p => urnText p.text.id).Nodup := by
    have h1 : (ps.map fun p => urnText p.text.id) = (ps.map Placed.text).map TextV.id := by
      rw [List.map_map]
      apply List.map_congr_left
      intro p hp
      obtain ⟨_, _, h3, h4, _⟩ := hU p ((hps p).mp hp).1
      rw [h3, ← h4]; rfl
    rw [h1]
    rw [rootTexts_placed] at hids
    exact ((hsub.map Placed.text).map TextV.id).nodup hids
  obtain ⟨hD, hI, hG, hW, hT⟩ := rebuilt_has ps (rebuiltName ps) hnd
  apply objGet_any_none
  intro x hx hid
  rcases List.mem_cons.mp hx with rfl | hx
  · simp only [Obj.id] at hid
    rw [hI] at hid
    rcases rebuiltName_cases ps with ⟨p, hp, e⟩ | e
    · apply hinv
      obtain ⟨i, hi, g, hg, w, hwm, t, htm, rfl⟩ := mem_placedTexts.mp ((hps p).mp hp).1
      rw [← hid, e]
      exact List.mem_map_of_mem hi
    · rw [e] at hid; exact write_ne_default hid.symm
  · rcases mem_invDesc.mp hx with ⟨g, hg, rfl⟩ | ⟨g, hg, w, hw, rfl⟩ | ⟨g, hg, w, hw, t, htm, rfl⟩ <;> simp only [Obj.id] at hid
    · obtain ⟨p, hp, e⟩ := (hG g.id).mp (List.mem_map_of_mem hg)
      obtain ⟨k1, _, _, _, kwf, kt⟩ := hU p ((hps p).mp hp).1
      have := write_inj (wf_cut kwf).2.1 hq (by rw [← hid, e, k1]; rfl)
      rw [← this] at htg; exact kt htg
    · obtain ⟨p, hp, _, e⟩ := (hW g.id w.id).mp ⟨g, hg, rfl, List.mem_map_of_mem hw⟩
      obtain ⟨_, k2, _, _, kwf, kt⟩ := hU p ((hps p).mp hp).1
      have := write_inj (wf_cut kwf).2.2.1 hq (by rw [← hid, e, k2]; rfl)
      rw [← this] at htg; exact kt htg
    · obtain ⟨p, hp, _, _, e⟩ := (hT g.id w.id t).mp ⟨g, hg, rfl, w, hw, rfl, htm⟩
      obtain ⟨_, _, k3, _, kwf, kt⟩ := hU p ((hps p).mp hp).1
      have := write_inj kwf hq (by rw [← hid, rebuiltText_id e, k3])
      rw [← this] at htg; exact kt htg

example : getMetadata exLibrary (some "urn:cts:a".toList) = .error .unknownCollection := by decide +kernel

/-- C67. Where the code departs: the object returned for an edition does not keep the language of the edition but takes
that of its work. -/
theorem C67_edition_language : ∃ (r : RootV) (x t : TextV), x ∈ rootTexts r ∧ x.id = "urn:cts:a:g.w.e".toList ∧
    getMetadata r (some "urn:cts:a:g.w.e".toList) = .ok (.text t) ∧ x.lang = "grc".toList ∧ t.lang = "lat".toList :=
  ⟨{ id := "tic".toList, invs := [⟨"default".toList, [⟨"urn:cts:a:g".toList,
      [⟨"urn:cts:a:g.w".toList, "lat".toList, [urnTextOf "urn:cts:a:g.w.e" .edition "grc"]⟩]⟩]⟩] },
    urnTextOf "urn:cts:a:g.w.e" .edition "grc", _, List.mem_singleton.mpr rfl, rfl, rfl, rfl, rfl⟩

end Verif.Props
