import Verif.Props.Inventory
/-!
C44: local parsing loses no text.
-/
namespace Verif.Props
open Verif.Py Verif.Model Verif.Spec Verif.Lemmas

/-- All textgroups. -/
def allTgs (r : RootV) : List TgV := r.invs.flatMap InvV.tgs

theorem mem_allTgs {r : RootV} {g : TgV} : g ∈ allTgs r ↔ ∃ i ∈ r.invs, g ∈ i.tgs := by simp [allTgs]

theorem holds_allTgs {r : RootV} {gid wid : Str} {t : TextV} :
    HoldsText r gid wid t ↔ ∃ g ∈ allTgs r, g.id = gid ∧ HasText g wid t := by
  constructor
  · rintro ⟨i, hi, g, hg, h⟩; exact ⟨g, mem_allTgs.mpr ⟨i, hi, hg⟩, h⟩
  · rintro ⟨g, hg, h⟩
    obtain ⟨i, hi, hg⟩ := mem_allTgs.mp hg
    exact ⟨i, hi, g, hg, h⟩

theorem mem_rootDesc {r : RootV} {o : Obj} : o ∈ rootDesc r ↔
    (∃ i ∈ r.invs, o = .inv i) ∨ (∃ g ∈ allTgs r, o = .tg g) ∨ (∃ g ∈ allTgs r, ∃ w ∈ g.works, o = .work w) ∨
    (∃ g ∈ allTgs r, ∃ w ∈ g.works, ∃ t ∈ w.texts, o = .text t) := by
  simp only [rootDesc, invDesc, tgDesc, workDesc, List.mem_append, List.mem_map, List.mem_flatMap, mem_allTgs]
  constructor
  · rintro (⟨i, hi, rfl⟩ | ⟨i, hi, ⟨g, hg, rfl⟩ | ⟨g, hg, ⟨w, hw, rfl⟩ | ⟨w, hw, t, ht, rfl⟩⟩⟩)
    · exact Or.inl ⟨i, hi, rfl⟩
    · exact Or.inr (Or.inl ⟨g, ⟨i, hi, hg⟩, rfl⟩)
    · exact Or.inr (Or.inr (Or.inl ⟨g, ⟨i, hi, hg⟩, w, hw, rfl⟩))
    · exact Or.inr (Or.inr (Or.inr ⟨g, ⟨i, hi, hg⟩, w, hw, t, ht, rfl⟩))
  · rintro (⟨i, hi, rfl⟩ | ⟨g, ⟨i, hi, hg⟩, rfl⟩ | ⟨g, ⟨i, hi, hg⟩, w, hw, rfl⟩ | ⟨g, ⟨i, hi, hg⟩, w, hw, t, ht, rfl⟩)
    · exact Or.inl ⟨i, hi, rfl⟩
    · exact Or.inr ⟨i, hi, Or.inl ⟨g, hg, rfl⟩⟩
    · exact Or.inr ⟨i, hi, Or.inr ⟨g, hg, Or.inl ⟨w, hw, rfl⟩⟩⟩
    · exact Or.inr ⟨i, hi, Or.inr ⟨g, hg, Or.inr ⟨w, hw, t, ht, rfl⟩⟩⟩

/-- What a look-up finds is the object or one of its descendants, with this identifier. -/
theorem objGet_ok {r : RootV} {key : Str} {o : Obj} (h : objGet (.root r) key = .ok o) :
    (o = .root r ∨ o ∈ rootDesc r) ∧ o.id = key := by
  rw [objGet] at h
  split at h
  · rename_i e
    cases h; exact ⟨Or.inl rfl, e.symm⟩
  · split at h
    · rename_i x hx
      cases h
      have h1 := List.mem_of_find?_eq_some hx
      have h2 := List.find?_some hx
      simp only [objMembers, beq_iff_eq] at h1 h2
      exact ⟨Or.inr (List.mem_append_left _ h1), h2.symm⟩
    · split at h
      · rename_i x hx
        cases h
        exact ⟨Or.inr (List.mem_of_find?_eq_some hx), by simpa using List.find?_some hx⟩
      · cases h

/-- A look-up finds something when an object with this identifier is there. -/
theorem objGet_some {r : RootV} {o : Obj} (h : o ∈ rootDesc r) : ∃ o', objGet (.root r) o.id = .ok o' := by
  rw [objGet]
  split
  · exact ⟨_, rfl⟩
  · split
    · exact ⟨_, rfl⟩
    · split
      · exact ⟨_, rfl⟩
      · rename_i hx
        rw [List.find?_eq_none] at hx
        exact absurd (beq_self_eq_true o.id) (hx o h)

theorem fits_of_mem {lv : Levels} {r : RootV} (hr : FitsRoot lv r) {g : TgV} (hg : g ∈ allTgs r) : FitsTg lv g := by
  obtain ⟨i, hi, hg⟩ := mem_allTgs.mp hg
  exact hr.tg i hi g hg

/-- Looking up the identifier of a textgroup finds it. -/
theorem objGet_tg {lv : Levels} {r : RootV} (hr : FitsRoot lv r) {g : TgV} (hg : g ∈ allTgs r) : objGet (.root r) g.id = .ok (.tg g) := by
  obtain ⟨o, ho⟩ := objGet_some (mem_rootDesc.mpr (Or.inr (Or.inl ⟨g, hg, rfl⟩)))
  simp only [Obj.id] at ho
  rw [ho]
  obtain ⟨h1, h2⟩ := objGet_ok ho
  have hl := (fits_of_mem hr hg).tg
  rcases h1 with rfl | h1
  · have := hr.root; simp only [Obj.id] at h2; rw [h2, hl] at this; cases this
  · rcases mem_rootDesc.mp h1 with ⟨i, hi, rfl⟩ | ⟨g', hg', rfl⟩ | ⟨g', hg', w, hw, rfl⟩ | ⟨g', hg', w, hw, t, ht, rfl⟩
    · have := hr.inv i hi; simp only [Obj.id] at h2; rw [h2, hl] at this; cases this
    · simp only [Obj.id] at h2
      rw [eq_of_key (key := TgV.id) hr.tgs hg' hg h2]
    · have := ((fits_of_mem hr hg').work w hw).1; simp only [Obj.id] at h2; rw [h2, hl] at this; cases this
    · have := (fits_of_mem hr hg').text w hw t ht; simp only [Obj.id] at h2; rw [h2, hl] at this; cases this

/-- Looking up the identifier of a work finds it. -/
theorem objGet_work {lv : Levels} {r : RootV} (hr : FitsRoot lv r) {g : TgV} (hg : g ∈ allTgs r) {w : WorkV} (hw : w ∈ g.works) :
    objGet (.root r) w.id = .ok (.work w) := by
  obtain ⟨o, ho⟩ := objGet_some (mem_rootDesc.mpr (Or.inr (Or.inr (Or.inl ⟨g, hg, w, hw, rfl⟩))))
  simp only [Obj.id] at ho
  rw [ho]
  obtain ⟨h1, h2⟩ := objGet_ok ho
  obtain ⟨hl, hown⟩ := (fits_of_mem hr hg).work w hw
  rcases h1 with rfl | h1
  · have := hr.root; simp only [Obj.id] at h2; rw [h2, hl] at this; cases this
  · rcases mem_rootDesc.mp h1 with ⟨i, hi, rfl⟩ | ⟨g', hg', rfl⟩ | ⟨g', hg', w', hw', rfl⟩ | ⟨g', hg', w', hw', t, ht, rfl⟩
    · have := hr.inv i hi; simp only [Obj.id] at h2; rw [h2, hl] at this; cases this
    · have := (fits_of_mem hr hg').tg; simp only [Obj.id] at h2; rw [h2, hl] at this; cases this
    · simp only [Obj.id] at h2
      have e : g'.id = g.id := by rw [← ((fits_of_mem hr hg').work w' hw').2, h2, hown]
      have := eq_of_key (key := TgV.id) hr.tgs hg' hg e
      subst this
      rw [eq_of_key (key := WorkV.id) (fits_of_mem hr hg).works hw' hw h2]
    · have := (fits_of_mem hr hg').text w' hw' t ht; simp only [Obj.id] at h2; rw [h2, hl] at this; cases this

/-- An identifier of a textgroup is in the collection exactly when a textgroup has it. -/
theorem contains_tg {lv : Levels} {r : RootV} (hr : FitsRoot lv r) {k : Str} (hk : lv.level k = 2) :
    objContains (.root r) k = true ↔ ∃ g ∈ allTgs r, g.id = k := by
  rw [objContains, List.any_eq_true]
  constructor
  · rintro ⟨o, ho, e⟩
    have h2 : o.id = k := by simpa using e
    simp only [objDesc, List.mem_append, List.mem_singleton] at ho
    rcases ho with ho | rfl
    · rcases mem_rootDesc.mp ho with ⟨i, hi, rfl⟩ | ⟨g', hg', rfl⟩ | ⟨g', hg', w', hw', rfl⟩ | ⟨g', hg', w', hw', t, ht, rfl⟩
      · have := hr.inv i hi; simp only [Obj.id] at h2; rw [h2, hk] at this; cases this
      · exact ⟨g', hg', h2⟩
      · have := ((fits_of_mem hr hg').work w' hw').1; simp only [Obj.id] at h2; rw [h2, hk] at this; cases this
      · have := (fits_of_mem hr hg').text w' hw' t ht; simp only [Obj.id] at h2; rw [h2, hk] at this; cases this
    · have := hr.root; simp only [Obj.id] at h2; rw [h2, hk] at this; cases this
  · rintro ⟨g, hg, rfl⟩
    exact ⟨.tg g, List.mem_append_left _ (mem_rootDesc.mpr (Or.inr (Or.inl ⟨g, hg, rfl⟩))), by simp [Obj.id]⟩

/-! ### Changing a textgroup in place -/

theorem allTgs_put (invs : List InvV) (g : TgV) (h : g.id ∈ (invs.flatMap InvV.tgs).map TgV.id) :
    (putTgIn invs g).flatMap InvV.tgs = putKeyed TgV.id (invs.flatMap InvV.tgs) g := by
  induction invs with
  | nil => simp at h
  | cons i rest ih =>
    rw [putTgIn, List.flatMap_cons, putKeyed_append]
    by_cases hm : g.id ∈ i.tgs.map TgV.id
    · rw [if_pos hm, if_pos hm]; rfl
    · rw [if_neg hm, if_neg hm, List.flatMap_cons]
      rw [List.flatMap_cons, List.map_append, List.mem_append] at h
      rw [ih (h.resolve_left hm)]

theorem ids_putTgIn (invs : List InvV) (g : TgV) : (putTgIn invs g).map InvV.id = invs.map InvV.id := by
  induction invs with
  | nil => rfl
  | cons i rest ih =>
    rw [putTgIn]
    split
    · rfl
    · rw [List.map_cons, List.map_cons, ih]

/-- The conditions on a collection in terms of all its textgroups. -/
theorem fitsRoot_iff {lv : Levels} {r : RootV} : FitsRoot lv r ↔
    lv.level r.id = 0 ∧ (r.invs.map InvV.id).Nodup ∧ (∀ k ∈ r.invs.map InvV.id, lv.level k = 1) ∧
      ((allTgs r).map TgV.id).Nodup ∧ ∀ g ∈ allTgs r, FitsTg lv g := by
  constructor
  · intro h
    refine ⟨h.root, h.invs, ?_, h.tgs, fun g hg => fits_of_mem h hg⟩
    intro k hk
    obtain ⟨i, hi, rfl⟩ := List.mem_map.mp hk
    exact h.inv i hi
  · rintro ⟨h1, h2, h3, h4, h5⟩
    exact ⟨h1, h2, fun i hi => h3 _ (List.mem_map_of_mem hi), h4, fun i hi g hg => h5 g (mem_allTgs.mpr ⟨i, hi, hg⟩)⟩

/-! ### Adding a textgroup to an inventory -/

theorem attach_perm (invs : List InvV) (i : InvV) (g : TgV) (name : Str) (hf : invs.find? (fun j => j.id == name) = some i) :
    ((putKeyed InvV.id invs { i with tgs := i.tgs ++ [g] }).flatMap InvV.tgs).Perm (invs.flatMap InvV.tgs ++ [g]) := by
  induction invs with
  | nil => cases hf
  | cons j rest ih =>
    rw [List.find?_cons] at hf
    by_cases hj : j.id = name
    · rw [beq_iff_eq.mpr hj] at hf
      cases hf
      rw [putKeyed, if_pos rfl]
      simp only [List.flatMap_cons, List.append_assoc]
      exact List.Perm.append_left _ List.perm_append_comm
    · rw [beq_eq_false_iff_ne.mpr hj] at hf
      have hi : i.id = name := by simpa using List.find?_some hf
      rw [putKeyed, if_neg (by rw [hi]; exact hj)]
      simp only [List.flatMap_cons, List.append_assoc]
      exact List.Perm.append_left _ (ih hf)

/-! ### The loop over the works does nothing more -/

theorem putWorkTgs_self (tgs : List TgV) (w : WorkV) (h : ∀ g ∈ tgs, ∀ x ∈ g.works, x.id = w.id → x = w) : putWorkTgs tgs w = tgs := by
  induction tgs with
  | nil => rfl
  | cons g rest ih =>
    rw [putWorkTgs]
    split
    · rename_i hm
      rw [putKeyed_self hm (fun x hx e => h g (List.mem_cons_self ..) x hx e)]
    · rw [ih (fun g' hg' => h g' (List.mem_cons_of_mem _ hg'))]

theorem putWorkIn_self (invs : List InvV) (w : WorkV) (h : ∀ i ∈ invs, ∀ g ∈ i.tgs, ∀ x ∈ g.works, x.id = w.id → x = w) :
    putWorkIn invs w = invs := by
  induction invs with
  | nil => rfl
  | cons i rest ih =>
    rw [putWorkIn]
    split
    · rw [putWorkTgs_self _ _ (h i (List.mem_cons_self ..))]
    · rw [ih (fun i' hi' => h i' (List.mem_cons_of_mem _ hi'))]

theorem dispatchWorks_self {lv : Levels} {r : RootV} (hr : FitsRoot lv r) {g : TgV} (hg : g ∈ allTgs r) (ws : List WorkV)
    (hws : ∀ w ∈ ws, DictWork w ∧ ∃ x ∈ g.works, x.id = w.id ∧ ∀ t ∈ w.texts, t ∈ x.texts) : dispatchWorks g.id r ws = .ok r := by
  induction ws with
  | nil => rfl
  | cons w rest ih =>
    obtain ⟨hdw, x, hx, hid, hsub⟩ := hws w (List.mem_cons_self ..)
    rw [dispatchWorks, worksOf, objGet_tg hr hg]
    simp only
    rw [if_pos (by rw [← hid]; exact List.mem_map_of_mem hx)]
    have hupd : updateFound r w.id (.work w) = .ok r := by
      rw [updateFound, ← hid, objGet_work hr hg hx]
      simp only [objUpdate, workUpdate]
      rw [if_neg (by rw [hid]; simp), foldl_put_self ((fits_of_mem hr hg).texts x hx) hsub]
      simp only
      rw [putWorkIn_self]
      intro i hi g' hg' y hy e
      have hg'' := mem_allTgs.mpr ⟨i, hi, hg'⟩
      have h1 := objGet_work hr hg'' hy
      have h2 : y.id = x.id := e
      rw [h2, objGet_work hr hg hx] at h1
      cases h1; rfl
    rw [hupd]
    exact ih (fun w hw => hws w (List.mem_cons_of_mem _ hw))

/-! ### One textgroup -/

/-- The last name chosen is an inventory, and no filter raises, for this textgroup. -/
def Dispatchable (d : Dispatcher) (default : Str) (fs : List (Str × Filter)) (g : TgV) (path : Str) : Prop :=
  d.methods = (default, fun _ _ => .ok true) :: fs ∧ ∃ name ∈ d.root.invs.map InvV.id, Chosen fs default g path name

theorem dispatch_chosen {d : Dispatcher} {default : Str} {fs : List (Str × Filter)} {g : TgV} {path name : Str}
    (hm : d.methods = (default, fun _ _ => .ok true) :: fs) (hc : Chosen fs default g path name) :
    dispatch d g path = attach d.root g name := by
  rw [← dispatch_registered d.root default fs g path name hc, dispatch, dispatch,
    (foldl_addFilter fs _).1, (foldl_addFilter fs _).2, hm]
  rfl

theorem step_effect {lv : Levels} {d : Dispatcher} {default : Str} {fs : List (Str × Filter)} {g : TgV} {path : Str}
    (hr : FitsRoot lv d.root) (hg : FitsTg lv g) (hd : Dispatchable d default fs g path) :
    ∃ r', resolverDispatch d g path = .ok { d with root := r' } ∧ FitsRoot lv r' ∧
      r'.invs.map InvV.id = d.root.invs.map InvV.id ∧
      ∀ gid wid t, HoldsText r' gid wid t ↔
        (g.id = gid ∧ HasText g wid t) ∨ (HoldsText d.root gid wid t ∧ ¬ Describes g gid wid t.id) := by
  obtain ⟨hm, name, hname, hc⟩ := hd
  obtain ⟨f1, f2, f3, f4, f5⟩ := fitsRoot_iff.mp hr
  rw [resolverDispatch]
  by_cases hcont : objContains (.root d.root) g.id = true
  · -- merged
    obtain ⟨g0, hg0, hid⟩ := (contains_tg hr hg.tg).mp hcont
    obtain ⟨g1, hu, hid1, hd1, hids, htexts⟩ := C41_textgroup g0 g (f5 g0 hg0).toDictTg hg.toDictTg hid
    have hupd : updateFound d.root g.id (.tg g) = .ok { d.root with invs := putTgIn d.root.invs g1 } := by
      rw [updateFound, ← hid, objGet_tg hr hg0]
      simp only [objUpdate, hu]
    rw [if_pos hcont, hupd]
    have hmem : g1.id ∈ (d.root.invs.flatMap InvV.tgs).map TgV.id := by
      rw [hid1]; exact List.mem_map_of_mem hg0
    have hall : allTgs { d.root with invs := putTgIn d.root.invs g1 } = putKeyed TgV.id (allTgs d.root) g1 := allTgs_put _ _ hmem
    have hfit1 : FitsTg lv g1 := by
      refine ⟨hd1, by rw [hid1]; exact (f5 g0 hg0).tg, ?_, ?_⟩
      · intro w hw
        rcases (hids w.id).mp (List.mem_map_of_mem hw) with h | h
        · obtain ⟨w', hw', e⟩ := List.mem_map.mp h
          rw [← e, hid1]; exact (f5 g0 hg0).work w' hw'
        · obtain ⟨w', hw', e⟩ := List.mem_map.mp h
          rw [← e, hid1, hid]; exact hg.work w' hw'
      · intro w hw t ht
        rcases (htexts w.id t).mp ⟨w, hw, rfl, ht⟩ with ⟨w', hw', _, h⟩ | ⟨⟨w', hw', _, h⟩, _⟩
        · exact hg.text w' hw' t h
        · exact (f5 g0 hg0).text w' hw' t h
    have hr' : FitsRoot lv { d.root with invs := putTgIn d.root.invs g1 } := by
      rw [fitsRoot_iff, hall]
      refine ⟨f1, by rw [ids_putTgIn]; exact f2, by rw [ids_putTgIn]; exact f3, nodup_putKeyed f4, ?_⟩
      intro x hx
      rcases (mem_putKeyed f4).mp hx with rfl | h
      · exact hfit1
      · exact f5 x h.1
    have hg1 : g1 ∈ allTgs { d.root with invs := putTgIn d.root.invs g1 } := by
      rw [hall]; exact (mem_putKeyed f4).mpr (Or.inl rfl)
    have hworks : dispatchWorks g.id { d.root with invs := putTgIn d.root.invs g1 } g.works
        = .ok { d.root with invs := putTgIn d.root.invs g1 } := by
      have e : g.id = g1.id := by rw [hid1, hid]
      rw [e]
      refine dispatchWorks_self hr' hg1 _ ?_
      intro w hw
      refine ⟨hg.texts w hw, ?_⟩
      obtain ⟨x, hx, hxe⟩ := List.mem_map.mp ((hids w.id).mpr (Or.inr (List.mem_map_of_mem hw)))
      refine ⟨x, hx, hxe, ?_⟩
      intro t ht
      obtain ⟨x', hx', hxe', ht'⟩ := (htexts w.id t).mpr (Or.inl ⟨w, hw, rfl, ht⟩)
      rw [eq_of_key (key := WorkV.id) hd1.works hx hx' (by rw [hxe, hxe'])]
      exact ht'
    refine ⟨_, by simp only; rw [hworks], hr', ids_putTgIn _ _, ?_⟩
    intro gid wid t
    rw [holds_allTgs, hall, holds_allTgs]
    constructor
    · rintro ⟨x, hx, he, ht⟩
      rcases (mem_putKeyed f4).mp hx with rfl | ⟨hx, hne⟩
      · rcases (htexts wid t).mp ht with h | ⟨h, hn⟩
        · exact Or.inl ⟨by rw [← hid, ← hid1]; exact he, h⟩
        · exact Or.inr ⟨⟨g0, hg0, by rw [← hid1]; exact he, h⟩, fun hd => hn hd.2⟩
      · refine Or.inr ⟨⟨x, hx, he, ht⟩, ?_⟩
        rintro ⟨e, _⟩
        exact hne (by rw [he, ← e, ← hid, hid1])
    · rintro (⟨e, h⟩ | ⟨⟨x, hx, he, ht⟩, hn⟩)
      · exact ⟨g1, (mem_putKeyed f4).mpr (Or.inl rfl), by rw [hid1, hid, e], (htexts wid t).mpr (Or.inl h)⟩
      · by_cases hxe : x.id = g1.id
        · have : x = g0 := eq_of_key (key := TgV.id) f4 hx hg0 (by rw [hxe, hid1])
          subst this
          refine ⟨g1, (mem_putKeyed f4).mpr (Or.inl rfl), by rw [hid1, he], (htexts wid t).mpr (Or.inr ⟨ht, ?_⟩)⟩
          intro h
          exact hn ⟨by rw [← hid]; exact he, h⟩
        · exact ⟨x, (mem_putKeyed f4).mpr (Or.inr ⟨hx, hxe⟩), he, ht⟩
  · -- dispatched
    have hno : ∀ x ∈ allTgs d.root, x.id ≠ g.id := fun x hx e => hcont ((contains_tg hr hg.tg).mpr ⟨x, hx, e⟩)
    obtain ⟨i, hi, hin⟩ := List.mem_map.mp hname
    have hfind : d.root.invs.find? (fun i => i.id == name) = some i := by rw [← hin]; exact find_of_mem f2 hi
    have hnew : g.id ∉ i.tgs.map TgV.id := by
      intro h
      obtain ⟨x, hx, e⟩ := List.mem_map.mp h
      exact hno x (mem_allTgs.mpr ⟨i, hi, hx⟩) e
    have hdis : dispatch d g path = .ok { d.root with invs := putKeyed InvV.id d.root.invs { i with tgs := i.tgs ++ [g] } } := by
      rw [dispatch_chosen hm hc, attach, hfind]
      simp only [addKeyed, if_neg hnew]
    rw [if_neg hcont, hdis]
    have hperm : (allTgs { d.root with invs := putKeyed InvV.id d.root.invs { i with tgs := i.tgs ++ [g] } }).Perm (allTgs d.root ++ [g]) :=
      attach_perm _ _ _ _ hfind
    have hids : (putKeyed InvV.id d.root.invs { i with tgs := i.tgs ++ [g] }).map InvV.id = d.root.invs.map InvV.id :=
      map_putKeyed_of_mem (v := { i with tgs := i.tgs ++ [g] }) (by show i.id ∈ d.root.invs.map InvV.id; exact List.mem_map_of_mem hi)
    have hr' : FitsRoot lv { d.root with invs := putKeyed InvV.id d.root.invs { i with tgs := i.tgs ++ [g] } } := by
      rw [fitsRoot_iff]
      refine ⟨f1, by rw [hids]; exact f2, by rw [hids]; exact f3, ?_, ?_⟩
      · rw [(hperm.map TgV.id).nodup_iff, List.map_append, List.nodup_append]
        refine ⟨f4, by simp, ?_⟩
        intro a ha b hb e
        simp only [List.map_cons, List.map_nil, List.mem_singleton] at hb
        obtain ⟨x, hx, rfl⟩ := List.mem_map.mp ha
        exact hno x hx (by rw [e, hb])
      · intro x hx
        rcases List.mem_append.mp (hperm.mem_iff.mp hx) with h | h
        · exact f5 x h
        · simp only [List.mem_singleton] at h; subst h; exact hg
    have hgm : g ∈ allTgs { d.root with invs := putKeyed InvV.id d.root.invs { i with tgs := i.tgs ++ [g] } } :=
      hperm.mem_iff.mpr (by simp)
    have hworks : dispatchWorks g.id { d.root with invs := putKeyed InvV.id d.root.invs { i with tgs := i.tgs ++ [g] } } g.works
        = .ok { d.root with invs := putKeyed InvV.id d.root.invs { i with tgs := i.tgs ++ [g] } } :=
      dispatchWorks_self hr' hgm _ (fun w hw => ⟨hg.texts w hw, w, hw, rfl, fun t ht => ht⟩)
    refine ⟨_, by simp only; rw [hworks], hr', hids, ?_⟩
    intro gid wid t
    rw [holds_allTgs, holds_allTgs]
    constructor
    · rintro ⟨x, hx, he, ht⟩
      rcases List.mem_append.mp (hperm.mem_iff.mp hx) with h | h
      · exact Or.inr ⟨⟨x, h, he, ht⟩, fun hd => hno x h (by rw [he, hd.1])⟩
      · simp only [List.mem_singleton] at h; subst h; exact Or.inl ⟨he, ht⟩
    · rintro (⟨e, h⟩ | ⟨⟨x, hx, he, ht⟩, _⟩)
      · exact ⟨g, hgm, e, h⟩
      · exact ⟨x, hperm.mem_iff.mpr (List.mem_append_left _ hx), he, ht⟩

/-! ### Any number of textgroups -/

/-- C44. Dispatching any sequence of textgroups: it succeeds, and afterwards a text is in work `wid` of textgroup `gid`
exactly when the last textgroup that describes a text with its identifier there describes this one, or when it was
there before and no textgroup replaces it. -/
theorem C44_dispatch_all (lv : Levels) (raises : Bool) (d : Dispatcher) (default : Str) (fs : List (Str × Filter))
    (hm : d.methods = (default, fun _ _ => .ok true) :: fs) (hr : FitsRoot lv d.root) (found : List (TgV × Str))
    (hfit : ∀ x ∈ found, FitsTg lv x.1) (hch : ∀ x ∈ found, ∃ name ∈ d.root.invs.map InvV.id, Chosen fs default x.1 x.2 name) :
    ∃ r', dispatchAll raises d found = .ok { d with root := r' } ∧
      r'.invs.map InvV.id = d.root.invs.map InvV.id ∧ FitsRoot lv r' ∧
      ∀ gid wid t, HoldsText r' gid wid t ↔
        (∃ (pre post : List (TgV × Str)) (g : TgV) (path : Str), found = pre ++ (g, path) :: post ∧ g.id = gid ∧ HasText g wid t ∧
          ∀ x ∈ post, ¬ Describes x.1 gid wid t.id) ∨
        (HoldsText d.root gid wid t ∧ ∀ x ∈ found, ¬ Describes x.1 gid wid t.id) := by
  induction found generalizing d with
  | nil =>
    refine ⟨d.root, rfl, rfl, hr, ?_⟩
    intro gid wid t
    simp
  | cons x rest ih =>
    obtain ⟨g, path⟩ := x
    obtain ⟨r1, h1, h2, h3, h4⟩ := step_effect hr (hfit _ (List.mem_cons_self ..))
      (path := path) ⟨hm, hch _ (List.mem_cons_self ..)⟩
    obtain ⟨r2, k1, k2, k3, k4⟩ := ih { d with root := r1 } hm h2 (fun x hx => hfit x (List.mem_cons_of_mem _ hx))
      (fun x hx => by simp only; rw [h3]; exact hch x (List.mem_cons_of_mem _ hx))
    refine ⟨r2, ?_, by rw [k2]; exact h3, k3, ?_⟩
    · rw [dispatchAll, dispatchContainer, h1]
      exact k1
    · intro gid wid t
      rw [k4, h4]
      constructor
      · rintro (⟨pre, post, g', p', rfl, e⟩ | ⟨⟨e, h⟩ | ⟨h, hn⟩, hall⟩)
        · exact Or.inl ⟨(g, path) :: pre, post, g', p', rfl, e⟩
        · exact Or.inl ⟨[], rest, g, path, rfl, e, h, hall⟩
        · refine Or.inr ⟨h, ?_⟩
          intro y hy
          rcases List.mem_cons.mp hy with rfl | hy
          · exact hn
          · exact hall y hy
      · rintro (⟨pre, post, g', p', e, h⟩ | ⟨h, hall⟩)
        · cases pre with
          | nil =>
            simp only [List.nil_append, List.cons.injEq, Prod.mk.injEq] at e
            obtain ⟨⟨rfl, rfl⟩, rfl⟩ := e
            exact Or.inr ⟨Or.inl ⟨h.1, h.2.1⟩, h.2.2⟩
          | cons y pre =>
            simp only [List.cons_append, List.cons.injEq] at e
            obtain ⟨rfl, rfl⟩ := e
            exact Or.inl ⟨pre, post, g', p', rfl, h⟩
        · exact Or.inr ⟨Or.inr ⟨h, hall _ (List.mem_cons_self ..)⟩, fun y hy => hall y (List.mem_cons_of_mem _ hy)⟩

/-- Identifiers for the examples: their length is their level, and a work begins with its textgroup. -/
def exLevels : Levels := { level := List.length, owner := List.take 2 }

/-- A collection with one inventory for the examples. -/
def exRoot : RootV := { id := [], invs := [⟨['i'], []⟩] }

theorem exRoot_fits : FitsRoot exLevels exRoot :=
  ⟨rfl, by decide, by intro i hi; simp [exRoot] at hi; subst hi; rfl, by decide, by intro i hi; simp [exRoot] at hi; subst hi; simp⟩

theorem exTg_fits (a b : Kind) : FitsTg exLevels (exTg "gg" [exWork "ggw" [exText "ggwt" a, exText "ggwu" b]]) where
  works := by simp [exTg]
  texts := by intro w hw; simp [exTg] at hw; subst hw; simp [DictWork, exWork, exText]
  tg := rfl
  work := by intro w hw; simp [exTg] at hw; subst hw; exact ⟨rfl, rfl⟩
  text := by
    intro w hw t ht
    simp [exTg] at hw; subst hw
    simp [exWork] at ht
    rcases ht with rfl | rfl <;> rfl

example : ∃ (d : Dispatcher) (found : List (TgV × Str)), d.methods = [(['i'], fun _ _ => .ok true)] ∧ FitsRoot exLevels d.root ∧
    found.length = 2 ∧ (∀ x ∈ found, FitsTg exLevels x.1) ∧ ∀ x ∈ found, ∃ name ∈ d.root.invs.map InvV.id, Chosen [] ['i'] x.1 x.2 name :=
  ⟨⟨exRoot, [(['i'], fun _ _ => .ok true)]⟩,
    [(exTg "gg" [exWork "ggw" [exText "ggwt" .edition, exText "ggwu" .edition]], []),
      (exTg "gg" [exWork "ggw" [exText "ggwt" .edition, exText "ggwu" .translation]], [])],
    rfl, exRoot_fits, rfl, by intro x hx; simp at hx; rcases hx with rfl | rfl <;> exact exTg_fits _ _,
    fun x _ => ⟨['i'], by simp [exRoot], Or.inr ⟨rfl, by simp⟩⟩⟩

/-- What a textgroup has that is made of descriptions: of the descriptions of a work the first, and of the texts with
one identifier the first. -/
theorem hasText_buildTg (id : Str) (works : List WorkDesc) (wid : Str) (t : TextV) :
    HasText (buildTg id works) wid t ↔ ∃ (pre post : List WorkDesc) (wd : WorkDesc), works = pre ++ wd :: post ∧ wd.id = wid ∧
      wid ∉ pre.map WorkDesc.id ∧ ∃ (a b : List TextV), wd.texts = a ++ t :: b ∧ t.id ∉ a.map TextV.id := by
  simp only [HasText, buildTg]
  constructor
  · rintro ⟨w, hw, rfl, ht⟩
    rw [mem_foldl_add] at hw
    rcases hw with hw | ⟨_, p, q, e, hp⟩
    · cases hw
    · rw [List.map_eq_append_iff] at e
      obtain ⟨pre, rest, rfl, rfl, e⟩ := e
      rw [List.map_eq_cons_iff] at e
      obtain ⟨wd, post, rfl, rfl, rfl⟩ := e
      refine ⟨pre, post, wd, rfl, rfl, ?_, ?_⟩
      · intro h
        apply hp
        obtain ⟨x, hx, e⟩ := List.mem_map.mp h
        exact List.mem_map.mpr ⟨buildWork x, List.mem_map_of_mem hx, e⟩
      · have ht' : t ∈ wd.texts.foldl (addKeyed TextV.id) [] := ht
        rw [mem_foldl_add] at ht'
        rcases ht' with h | ⟨_, a, b, e, hn⟩
        · cases h
        · exact ⟨a, b, e, hn⟩
  · rintro ⟨pre, post, wd, rfl, rfl, hp, a, b, e, hn⟩
    refine ⟨buildWork wd, ?_, rfl, ?_⟩
    · rw [mem_foldl_add]
      refine Or.inr ⟨by simp, pre.map buildWork, post.map buildWork, by simp, ?_⟩
      intro h
      apply hp
      obtain ⟨x, hx, e'⟩ := List.mem_map.mp h
      obtain ⟨y, hy, rfl⟩ := List.mem_map.mp hx
      exact List.mem_map.mpr ⟨y, hy, e'⟩
    · show t ∈ wd.texts.foldl (addKeyed TextV.id) []
      rw [mem_foldl_add]
      exact Or.inr ⟨by simp, a, b, e, hn⟩

theorem dict_buildTg (id : Str) (works : List WorkDesc) : DictTg (buildTg id works) := by
  refine ⟨nodup_foldl_add _ (by simp), ?_⟩
  intro w hw
  have hw' : w ∈ (works.map buildWork).foldl (addKeyed WorkV.id) [] := hw
  rw [mem_foldl_add] at hw'
  rcases hw' with h | ⟨_, p, q, e, _⟩
  · cases h
  · have : w ∈ works.map buildWork := by rw [e]; simp
    obtain ⟨wd, _, rfl⟩ := List.mem_map.mp this
    exact nodup_foldl_add _ (by simp)

/-- The identifiers of what a file describes are as `lv` says. -/
structure FitsDesc (lv : Levels) (d : TgDesc) : Prop where
  tg : lv.level d.id = 2
  work : ∀ w ∈ d.works, lv.level w.id = 3 ∧ lv.owner w.id = d.id
  text : ∀ w ∈ d.works, ∀ t ∈ w.texts, lv.level t.id = 4

theorem mem_buildTg {id : Str} {works : List WorkDesc} {w : WorkV} (h : w ∈ (buildTg id works).works) : ∃ wd ∈ works, w = buildWork wd := by
  have hw' : w ∈ (works.map buildWork).foldl (addKeyed WorkV.id) [] := h
  rw [mem_foldl_add] at hw'
  rcases hw' with h | ⟨_, p, q, e, _⟩
  · cases h
  · have : w ∈ works.map buildWork := by rw [e]; simp
    obtain ⟨wd, hwd, rfl⟩ := List.mem_map.mp this
    exact ⟨wd, hwd, rfl⟩

theorem fits_buildTg {lv : Levels} {d : TgDesc} (h : FitsDesc lv d) : FitsTg lv (buildTg d.id d.works) where
  toDictTg := dict_buildTg _ _
  tg := h.tg
  work := by
    intro w hw
    obtain ⟨wd, hwd, rfl⟩ := mem_buildTg hw
    exact h.work wd hwd
  text := by
    intro w hw t ht
    obtain ⟨wd, hwd, rfl⟩ := mem_buildTg hw
    have ht' : t ∈ wd.texts.foldl (addKeyed TextV.id) [] := ht
    rw [mem_foldl_add] at ht'
    rcases ht' with h' | ⟨_, a, b, e, _⟩
    · cases h'
    · exact h.text wd hwd t (by rw [e]; simp)

/-- The first element that satisfies a test. -/
theorem first_split {α : Type} (p : α → Prop) (l : List α) (h : ∃ x ∈ l, p x) : ∃ pre x post, l = pre ++ x :: post ∧ p x ∧ ∀ y ∈ pre, ¬ p y := by
  induction l with
  | nil => obtain ⟨x, hx, _⟩ := h; cases hx
  | cons a r ih =>
    by_cases ha : p a
    · exact ⟨[], a, r, rfl, ha, by simp⟩
    · obtain ⟨x, hx, hp⟩ := h
      obtain ⟨pre, y, post, rfl, h1, h2⟩ := ih ⟨x, (List.mem_cons.mp hx).resolve_left (fun e => ha (e ▸ hp)), hp⟩
      refine ⟨a :: pre, y, post, rfl, h1, ?_⟩
      intro z hz
      rcases List.mem_cons.mp hz with rfl | hz
      · exact ha
      · exact h2 z hz

/-- The last element that satisfies a test. -/
theorem last_split {α : Type} (p : α → Prop) (l : List α) (h : ∃ x ∈ l, p x) : ∃ pre x post, l = pre ++ x :: post ∧ p x ∧ ∀ y ∈ post, ¬ p y := by
  obtain ⟨a, x, b, e, h1, h2⟩ := first_split p l.reverse (by obtain ⟨x, hx, hp⟩ := h; exact ⟨x, by simpa using hx, hp⟩)
  refine ⟨b.reverse, x, a.reverse, ?_, h1, fun y hy => h2 y (by simpa using hy)⟩
  have := congrArg List.reverse e
  simpa using this

/-- C44. Parsing loses no text: after any list of descriptions has been parsed, in none of which a work is described
twice, every text of every work of every textgroup found is in the inventory, under the identifiers of its textgroup
and of its work. -/
theorem C44_parse (lv : Levels) (raises : Bool) (d : Dispatcher) (default : Str) (fs : List (Str × Filter))
    (hm : d.methods = (default, fun _ _ => .ok true) :: fs) (hr : FitsRoot lv d.root) (found : List TgDesc)
    (hfit : ∀ x ∈ found, FitsDesc lv x)
    (hch : ∀ x ∈ found, ∃ name ∈ d.root.invs.map InvV.id, Chosen fs default (buildTg x.id x.works) x.path name)
    (honce : ∀ x ∈ found, (x.works.map WorkDesc.id).Nodup) :
    ∃ d', parseAll raises d found = .ok d' ∧ d'.root.invs.map InvV.id = d.root.invs.map InvV.id ∧
      ∀ x ∈ found, ∀ w ∈ x.works, ∀ t ∈ w.texts, ∃ t', HoldsText d'.root x.id w.id t' ∧ t'.id = t.id := by
  obtain ⟨r', h1, h2, _, h4⟩ := C44_dispatch_all lv raises d default fs hm hr (found.map fun t => (buildTg t.id t.works, t.path))
    (by
      intro y hy
      obtain ⟨x, hx, rfl⟩ := List.mem_map.mp hy
      exact fits_buildTg (hfit x hx))
    (by
      intro y hy
      obtain ⟨x, hx, rfl⟩ := List.mem_map.mp hy
      exact hch x hx)
  refine ⟨_, h1, h2, ?_⟩
  intro x hx w hw t ht
  -- the textgroup describes the text
  have hdesc : Describes (buildTg x.id x.works) x.id w.id t.id := by
    refine ⟨rfl, ?_⟩
    obtain ⟨pre, post, e⟩ := List.append_of_mem hw
    obtain ⟨a, t', b, et, hid, hfirst⟩ := first_split (fun y : TextV => y.id = t.id) w.texts ⟨t, ht, rfl⟩
    refine ⟨t', (hasText_buildTg _ _ _ _).mpr ⟨pre, post, w, e, rfl, ?_, a, b, et, ?_⟩, hid⟩
    · have := honce x hx
      rw [e, List.map_append, List.nodup_append] at this
      intro h
      exact this.2.2 _ h _ (by simp) rfl
    · intro h
      obtain ⟨y, hy, e⟩ := List.mem_map.mp h
      exact hfirst y hy (by rw [e, hid])
  obtain ⟨pre, y, post, e, hy, hlast⟩ := last_split (fun y : TgV × Str => Describes y.1 x.id w.id t.id)
    (found.map fun t => (buildTg t.id t.works, t.path)) ⟨_, List.mem_map_of_mem hx, hdesc⟩
  obtain ⟨hg, t', ht', hid⟩ := hy
  refine ⟨t', (h4 _ _ _).mpr (Or.inl ⟨pre, post, y.1, y.2, e, hg, ht', ?_⟩), hid⟩
  rw [hid]; exact hlast

example : FitsDesc exLevels ⟨"gg".toList, [⟨"ggw".toList, [], [exText "ggwt"]⟩, ⟨"ggv".toList, [], [exText "ggvt"]⟩], []⟩ where
  tg := rfl
  work := by intro w hw; simp at hw; rcases hw with rfl | rfl <;> exact ⟨rfl, rfl⟩
  text := by intro w hw t ht; simp at hw; rcases hw with rfl | rfl <;> (simp at ht; subst ht; rfl)

example : ∃ d', parseAll false ⟨exRoot, [(['i'], fun _ _ => .ok true)]⟩
      [⟨"gg".toList, [⟨"ggw".toList, [], [exText "ggwt"]⟩], []⟩,
       ⟨"gg".toList, [⟨"ggw".toList, [], [exText "ggwu"]⟩, ⟨"ggv".toList, [], [exText "ggvt"]⟩], []⟩] = .ok d' ∧
    d'.root.invs.map (fun i => i.tgs.map fun g => g.works.map fun w => (w.id, w.texts.map TextV.id)) =
      [[[("ggw".toList, ["ggwt".toList, "ggwu".toList]), ("ggv".toList, ["ggvt".toList])]]] := ⟨_, rfl, by decide +kernel⟩

/-- C44. Parsing invents no text: a text in the inventory was there before or is one of those described. -/
theorem C44_no_invention (lv : Levels) (raises : Bool) (d : Dispatcher) (default : Str) (fs : List (Str × Filter))
    (hm : d.methods = (default, fun _ _ => .ok true) :: fs) (hr : FitsRoot lv d.root) (found : List TgDesc)
    (hfit : ∀ x ∈ found, FitsDesc lv x)
    (hch : ∀ x ∈ found, ∃ name ∈ d.root.invs.map InvV.id, Chosen fs default (buildTg x.id x.works) x.path name)
    (d' : Dispatcher) (hp : parseAll raises d found = .ok d') (gid wid : Str) (t : TextV) (ht : HoldsText d'.root gid wid t) :
    HoldsText d.root gid wid t ∨ ∃ x ∈ found, x.id = gid ∧ ∃ w ∈ x.works, w.id = wid ∧ t ∈ w.texts := by
  obtain ⟨r', h1, _, _, h4⟩ := C44_dispatch_all lv raises d default fs hm hr (found.map fun t => (buildTg t.id t.works, t.path))
    (by
      intro y hy
      obtain ⟨x, hx, rfl⟩ := List.mem_map.mp hy
      exact fits_buildTg (hfit x hx))
    (by
      intro y hy
      obtain ⟨x, hx, rfl⟩ := List.mem_map.mp hy
      exact hch x hx)
  rw [parseAll, h1] at hp
  cases hp
  rcases (h4 _ _ _).mp ht with ⟨pre, post, g, path, e, hg, hgt, _⟩ | h
  · right
    have : (g, path) ∈ found.map fun t => (buildTg t.id t.works, t.path) := by rw [e]; simp
    obtain ⟨x, hx, ex⟩ := List.mem_map.mp this
    cases ex
    obtain ⟨p, q, wd, e1, e2, _, a, b, e3, _⟩ := (hasText_buildTg _ _ _ _).mp hgt
    exact ⟨x, hx, hg, wd, by rw [e1]; simp, e2, by rw [e3]; simp⟩
  · exact Or.inl h.1

/-- C44. Why a work must not be described twice for one textgroup: the texts of the second description are lost, since
the work made for it is not added to the textgroup. -/
theorem C44_second_description_lost : ∃ (found : List TgDesc) (d' : Dispatcher),
    parseAll false ⟨exRoot, [(['i'], fun _ _ => .ok true)]⟩ found = .ok d' ∧
    (∃ x ∈ found, ∃ w ∈ x.works, exText "ggwu" ∈ w.texts) ∧ ∀ t ∈ rootTexts d'.root, t.id ≠ "ggwu".toList :=
  ⟨[⟨"gg".toList, [⟨"ggw".toList, [], [exText "ggwt"]⟩, ⟨"ggw".toList, [], [exText "ggwu"]⟩], []⟩], _, rfl,
    ⟨_, List.mem_cons_self .., ⟨"ggw".toList, [], [exText "ggwu"]⟩, by simp, by simp⟩, by decide +kernel⟩

/-- C44. Why identifiers must tell the level: a textgroup that has the identifier of an inventory stops the parsing. -/
theorem C44_identifier_clash : ∃ (found : List TgDesc),
    parseAll false ⟨exRoot, [(['i'], fun _ _ => .ok true)]⟩ found = .error .attributeError :=
  ⟨[⟨['i'], [], []⟩], rfl⟩

/-! ### Textgroups that no filter takes -/

/-- C44. A textgroup unknown to the inventories that no filter takes: `parse` fails when the resolver is set to raise,
and otherwise goes on with the inventories as they were. -/
theorem C44_undispatched (d : Dispatcher) (g : TgV) (path : Str) (rest : List (TgV × Str))
    (hnew : ∀ o ∈ rootDesc d.root, o.id ≠ g.id) (hroot : d.root.id ≠ g.id) (hno : ∀ x ∈ d.methods, x.2 g path = .ok false) :
    dispatchAll true d ((g, path) :: rest) = .error .undispatched ∧ dispatchAll false d ((g, path) :: rest) = dispatchAll false d rest := by
  have hloop : ∀ l : List (Str × Filter), (∀ x ∈ l, x.2 g path = .ok false) → dispatchLoop d.root g path l = .error .undispatched := by
    intro l hl
    induction l with
    | nil => rfl
    | cons x r ih =>
      obtain ⟨name, f⟩ := x
      have : f g path = .ok false := hl (name, f) (List.mem_cons_self ..)
      rw [dispatchLoop, this]
      exact ih (fun y hy => hl y (List.mem_cons_of_mem _ hy))
  have hc : objContains (.root d.root) g.id = false := by
    rw [objContains, Bool.eq_false_iff]
    intro h
    rw [List.any_eq_true] at h
    obtain ⟨o, ho, e⟩ := h
    rw [beq_iff_eq] at e
    rcases List.mem_append.mp ho with ho | ho
    · exact hnew o ho e
    · rw [List.mem_singleton] at ho; subst ho; exact hroot e
  have hd : resolverDispatch d g path = .error .undispatched := by
    rw [resolverDispatch, hc]
    simp only [Bool.false_eq_true, if_false, dispatch]
    rw [hloop _ (fun x hx => hno x (List.mem_reverse.mp hx))]
  constructor
  · rw [dispatchAll, dispatchContainer, hd]; rfl
  · rw [dispatchAll, dispatchContainer, hd]; rfl

example : dispatchAll false { root := ⟨"tic".toList, [⟨"default".toList, []⟩]⟩, methods := [("default".toList, fun _ _ => .ok false)] }
    [(⟨"g".toList, []⟩, [])] ≠ .error .undispatched := by intro h; cases h

end Verif.Props
