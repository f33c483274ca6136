import Verif.Lemmas.Prune
import Verif.Props.Xml
/-!
Properties C29-C31: listing the references of a local text, levels, and retrieving what is listed.
-/
namespace Verif.Props
open Verif.Py Verif.Model Verif.Spec

/-! ## C29 -/

/-- C29. Without reference, `getReffs(level)` lists the identifiers of the citable units of that level, top
level first, in the order of `units`; it raises `KeyError` when there is none and `CitationDepthError` when
the scheme has no such level. -/
theorem C29_lists_units (root : Node) (ls : List Level) (same : Same) (hc : Citable root ls) (level : Nat) (h1 : 1 ≤ level) :
    getValidReff (textOf root same ls) (some level) none =
      if ls.length < level then .error .citationDepth
      else if (units (ls.take level) root).isEmpty then .error .keyError
      else .ok ((units (ls.take level) root).map fun u => some (single u.1)) := by
  have hl : listing root ls level [] = (units (ls.take level) root).map (·.1) := by
    unfold listing
    congr 1
    rw [List.filter_eq_self]
    intro u _
    simp
  have := reffsAt_eq hc [] level (Nat.lt_of_succ_le h1) (by simp)
  rw [hl] at this
  simpa [getValidReff, reffStart, effLevel, textOf, Function.comp_def] using this

/-- C29. With the reference of a passage, the units that are listed are those under the passage. -/
theorem C29_lists_units_under (root : Node) (ls : List Level) (same : Same) (hc : Citable root ls) (ids : List Str)
    (hne : ids ≠ []) (hi : ∀ v ∈ ids, IsId v) (level : Nat) (h1 : ids.length < level) :
    getValidReff (textOf root same ls) (some level) (some (single ids)) =
      if ls.length < level then .error .citationDepth
      else if (listing root ls level ids).isEmpty then .error .keyError
      else .ok ((listing root ls level ids).map fun ids => some (single ids)) := by
  have hp := plist_dotted hne fun v hv => (hi v hv).1
  have := reffsAt_eq hc ids level h1 fun v hv => (hi v hv).2.1
  have h0 : (some (level : Int) : Option Int) ≠ some 0 := by simp; omega
  have he : effLevel (some (level : Int)) true ids.length = level := by
    simp [effLevel]; omega
  simp only [getValidReff, reffStart, single, textOf, if_neg h0]
  rw [hp]
  simp only [Option.isSome_some]
  rw [he]
  exact this

/-- What is listed under a passage: exactly the identifiers of the units of that level that begin with
those of the passage. -/
theorem C29_listing_exact (root : Node) (ls : List Level) (k : Nat) (under ids : List Str) :
    ids ∈ listing root ls k under ↔ ∃ t, (ids, t) ∈ units (ls.take k) root ∧ under <+: ids := mem_listing

/-- What a citable unit is: the element selected by the path made of the steps of every level with the
test for its identifier. -/
theorem C29_unit_iff (root : Node) (ls : List Level) (ids : List Str) (t : List Nat) :
    (ids, t) ∈ units ls root ↔
      ids.length = ls.length ∧ Sel root (List.flatten (List.zipWith Level.withId ls ids)) t := by
  rw [mem_units]
  have : ∀ (ls : List Level) (ids : List Str), ids.length = ls.length →
      fillSteps ls (ids.map some) = List.flatten (List.zipWith Level.withId ls ids) := by
    intro ls
    induction ls with
    | nil => intro ids _; simp [fillSteps]
    | cons l ls ih =>
      intro ids h
      cases ids with
      | nil => simp at h
      | cons v ids => simp [fillSteps, ih ids (by simpa using h)]
  constructor
  · rintro ⟨h1, h2⟩; exact ⟨h1, this ls ids h1 ▸ h2⟩
  · rintro ⟨h1, h2⟩; exact ⟨h1, this ls ids h1 ▸ h2⟩

/-- C29. No reference is listed twice. -/
theorem C29_no_duplicates (root : Node) (ls : List Level) (hc : Citable root ls) (k : Nat) (under : List Str) :
    (listing root ls k under).Nodup := by
  unfold listing
  rw [List.Nodup, List.pairwise_map]
  exact (units_nodup hc.distinct k).filter _

/-- No unit of a level contains another unit of that level. -/
def Separate (root : Node) (ls : List Level) : Prop :=
  ∀ k, ∀ u ∈ units (ls.take k) root, ∀ w ∈ units (ls.take k) root, ¬ Above u.2 w.2

theorem precedes_of_docLe {t u : List Nat} (h : docLe t u = true) (hne : t ≠ u) (ha : ¬ Above t u) : Precedes t u := by
  induction t generalizing u with
  | nil =>
    cases u with
    | nil => exact absurd rfl hne
    | cons j u => exact absurd ⟨List.nil_prefix, hne⟩ ha
  | cons i t ih =>
    cases u with
    | nil => simp [docLe] at h
    | cons j u =>
      simp only [docLe, Bool.or_eq_true, decide_eq_true_eq, Bool.and_eq_true, beq_iff_eq] at h
      rcases h with h | ⟨rfl, h⟩
      · exact Or.inl h
      · refine Or.inr ⟨rfl, ih h (fun e => hne (by rw [e])) fun hab => ha ?_⟩
        have := (above_append [i] t u).2 hab
        simpa using this

/-- C29. When no unit contains another of its level, units are listed in document order. -/
theorem C29_document_order (root : Node) (ls : List Level) (hs : Separate root ls) (k : Nat) :
    (units (ls.take k) root).Pairwise fun a b => Precedes a.2 b.2 := by
  induction k with
  | zero => simp [units]
  | succ k ih =>
    cases hk : ls[k]? with
    | none =>
      rw [List.take_add_one, hk]
      simpa using ih
    | some l =>
      have hm := hs (k + 1)
      rw [take_succ_eq hk, units_snoc] at hm ⊢
      apply flatMap_pairwise
      · intro a ha
        have hk : (kidsOf l root a).Pairwise fun x y => docLe x.2 y.2 = true ∧ x.2 ≠ y.2 := by
          unfold kidsOf
          split
          · exact List.Pairwise.nil
          · rw [List.pairwise_map]
            refine (select_sorted _ _).imp ?_
            rintro x y ⟨h1, h2⟩
            exact ⟨by rw [docLe_append]; exact h1, by simpa using h2⟩
        refine List.Pairwise.imp_of_mem ?_ hk
        rintro x y hx hy ⟨h1, h2⟩
        exact precedes_of_docLe h1 h2 (hm x (List.mem_flatMap.2 ⟨a, ha, hx⟩) y (List.mem_flatMap.2 ⟨a, ha, hy⟩))
      · refine ih.imp ?_
        intro a b hab x hx y hy
        have hpos : ∀ {u w : List Str × List Nat}, w ∈ kidsOf l root u → ∃ t, w.2 = u.2 ++ t := by
          intro u w hw
          unfold kidsOf at hw
          split at hw
          · simp at hw
          · simp only [List.mem_map] at hw
            obtain ⟨t, _, rfl⟩ := hw
            exact ⟨t, rfl⟩
        obtain ⟨v, hv⟩ := hpos hx
        obtain ⟨w, hw⟩ := hpos hy
        rw [hv, hw]
        exact precedes_append hab v w

/-- Schemes without descendant steps never have nested units. -/
theorem C29_child_steps_separate (root : Node) (ls : List Level)
    (hd : ∀ l ∈ ls, l.desc = false ∧ ∀ s ∈ l.pre, s.desc = false) : Separate root ls := by
  have hlen : ∀ (n : Node) (p : List Step) (t : List Nat), (∀ s ∈ p, s.desc = false) → Sel n p t → t.length = p.length := by
    intro n p t hp h
    induction h with
    | nil => rfl
    | child _ _ _ ih => simp [ih fun s hs => hp s (List.mem_cons_of_mem _ hs)]
    | desc _ h2 _ => rw [hp _ (by simp)] at h2; simp at h2
  have hfill : ∀ (ls : List Level) (vs : List (Option Str)), (∀ l ∈ ls, l.desc = false ∧ ∀ s ∈ l.pre, s.desc = false) →
      vs.length = ls.length → (∀ s ∈ fillSteps ls vs, s.desc = false) ∧
      (fillSteps ls vs).length = (ls.map fun l => l.pre.length + 1).sum := by
    intro ls
    induction ls with
    | nil => intro vs _ _; simp [fillSteps]
    | cons l ls ih =>
      intro vs hd hl
      cases vs with
      | nil => simp at hl
      | cons v vs =>
        obtain ⟨h1, h2⟩ := ih vs (fun l hl => hd l (List.mem_cons_of_mem _ hl)) (by simpa using hl)
        obtain ⟨h3, h4⟩ := hd l (by simp)
        have hst : ∀ T, (∀ s ∈ l.steps T, s.desc = false) ∧ (l.steps T).length = l.pre.length + 1 := by
          intro T
          refine ⟨fun s hs => ?_, by simp [Level.steps]⟩
          simp only [Level.steps, List.mem_append, List.mem_singleton] at hs
          rcases hs with hs | rfl
          · exact h4 s hs
          · exact h3
        cases v with
        | none =>
          simp only [fillSteps, Level.anyId, List.mem_append, List.length_append, h2, (hst _).2, List.map_cons, List.sum_cons,
            and_true]
          rintro s (hs | hs)
          · exact (hst _).1 s hs
          · exact h1 s hs
        | some v =>
          simp only [fillSteps, Level.withId, List.mem_append, List.length_append, h2, (hst _).2, List.map_cons, List.sum_cons,
            and_true]
          rintro s (hs | hs)
          · exact (hst _).1 s hs
          · exact h1 s hs
  intro k u hu w hw ha
  have hu' := (mem_units _ _ u.1 u.2).1 hu
  have hw' := (mem_units _ _ w.1 w.2).1 hw
  have hdk : ∀ l ∈ ls.take k, l.desc = false ∧ ∀ s ∈ l.pre, s.desc = false := fun l hl => hd l (List.mem_of_mem_take hl)
  obtain ⟨a1, a2⟩ := hfill (ls.take k) (u.1.map some) hdk (by simpa using hu'.1)
  obtain ⟨b1, b2⟩ := hfill (ls.take k) (w.1.map some) hdk (by simpa using hw'.1)
  have e1 := hlen _ _ _ a1 hu'.2
  have e2 := hlen _ _ _ b1 hw'.2
  apply ha.2
  exact ha.1.eq_of_length (by rw [e1, e2, a2, b2])

/-! ## C30 -/

/-- The level a user asks for below a passage of depth `d`: without level, or with level 0, the next one;
a level that is not below the passage is raised to the next one. -/
def levelBelow (d : Nat) : Option Int → Int
  | none => max 1 (d + 1)
  | some l => if l = 0 then d + 1 else max l (d + 1)

/-- C30. Below a passage of depth `d`, a level above the next one is raised to it; a level deeper than the
scheme raises `CitationDepthError`; otherwise the units of that level under the passage are listed. -/
theorem C30_level_below_passage (root : Node) (ls : List Level) (same : Same) (hc : Citable root ls) (ids : List Str)
    (hne : ids ≠ []) (hi : ∀ v ∈ ids, IsId v) (level : Option Int) :
    getValidReff (textOf root same ls) level (some (single ids)) =
      if (ls.length : Int) < levelBelow ids.length level then .error .citationDepth
      else if (listing root ls (levelBelow ids.length level).toNat ids).isEmpty then .error .keyError
      else .ok ((listing root ls (levelBelow ids.length level).toNat ids).map fun ids => some (single ids)) := by
  have hpos : 0 < ids.length := List.length_pos_iff.2 hne
  have hp := plist_dotted hne fun v hv => (hi v hv).1
  have hb : (ids.length : Int) < levelBelow ids.length level := by
    unfold levelBelow
    cases level with
    | none => simp only; omega
    | some l => simp only; split <;> omega
  have he : effLevel (if level = some 0 then none else level) true ids.length = levelBelow ids.length level := by
    unfold effLevel levelBelow
    cases level with
    | none => simp only [reduceCtorEq, if_false, Option.getD_none, and_true]; split <;> omega
    | some l =>
      by_cases h0 : l = 0
      · subst h0
        simp only [if_true, Option.getD_none, and_true]
        split <;> omega
      · have : (some l : Option Int) ≠ some 0 := by simpa using h0
        simp only [if_neg this, Option.getD_some, and_true, if_neg h0]
        split <;> omega
  have := reffsAt_eq hc ids (levelBelow ids.length level).toNat (by omega) fun v hv => (hi v hv).2.1
  rw [show (((levelBelow ids.length level).toNat : Nat) : Int) = levelBelow ids.length level by omega] at this
  have hl : (ls.length < (levelBelow ids.length level).toNat) ↔ (ls.length : Int) < levelBelow ids.length level := by omega
  simp only [getValidReff, reffStart, single, textOf]
  rw [hp]
  simp only [Option.isSome_some]
  rw [he]
  rw [this]
  by_cases h : ls.length < (levelBelow ids.length level).toNat
  · rw [if_pos h, if_pos (hl.1 h)]
  · rw [if_neg h, if_neg fun h' => h (hl.2 h')]
    rfl

/-- C30. Without reference, no level means level 1. -/
theorem C30_default_level (t : LocalText) : getValidReff t none none = getValidReff t (some 1) none := rfl

/-- C30 fails for level 0 without reference: the answer is a set that holds `None`. -/
theorem C30_level_zero (root : Node) (ls : List Level) (same : Same) (hl : ls ≠ []) :
    getValidReff (textOf root same ls) (some 0) none = .ok [none] := by
  have h1 : 0 < ls.length := List.length_pos_iff.2 hl
  have h2 : ¬ ((declsOf root.tag ls).length : Int) < 0 := by omega
  simp only [getValidReff, reffStart, textOf, effLevel, Option.getD_some, Option.isSome_none]
  have e : (if (0 : Int) ≤ (([] : List Str).length : Int) ∧ False then (([] : List Str).length : Int) + 1 else 0) = 0 := by simp
  simp only [Bool.false_eq_true]
  rw [e]
  unfold reffsAt
  rw [if_neg (by omega)]
  simp only [List.length_nil, List.map_nil, Int.natCast_zero, Int.sub_zero, Int.toNat_zero, reffRounds, finishReffs, joinAll,
    allSome, mkRefs, mkRef, join, if_true]
  unfold citationAt
  rw [length_declsOf, if_neg (by omega)]
  unfold pyGet
  rw [if_neg (by omega), if_pos (by rw [length_declsOf]; omega), declsOf_get (by rw [length_declsOf]; omega)]

/-! ## C31 -/

/-- C31. The reference of every citable unit can be retrieved: the passage is the chain of ancestors down
to a complete copy of the unit. -/
theorem C31_units_retrievable (root : Node) (ls : List Level) (same : Same) (hr : ∀ n i, same n i i = true)
    (hc : Citable root ls) (k : Nat) (hk1 : 1 ≤ k) (hk : k ≤ ls.length) (ids : List Str) (t : List Nat)
    (h : (ids, t) ∈ units (ls.take k) root) :
    getTextualNode (textOf root same ls) (single ids) = .ok (emptied root (chainTo root t)) := by
  have hlen := mem_units_length h
  simp at hlen
  have hne : ids ≠ [] := by rintro rfl; simp at hlen; omega
  have hi : ∀ v ∈ ids, IsId v := fun v hv => hc.ids _ _ h v hv
  have hcomp : ∀ v ∈ ids, IsComponent v := fun v hv => (hi v hv).1
  have hk' : k = ids.length := by omega
  subst hk'
  simp only [getTextualNode, single, textOf, pdepth_dotted hne hcomp, plist_dotted hne hcomp, length_declsOf]
  rw [if_neg (by omega)]
  have := passageBetween_eq (same := same) hc hne hne (by omega) (by omega) hi hi
  simp only [textOf] at this
  rw [this]
  exact C27_single_passage same hr root _ t (idPath_ne_nil hne (by omega)) (uniq_idPath hc h)

/-- C31. Every reference that `getReffs` lists can be retrieved, and the passage that comes back holds the
unit with that reference. -/
theorem C31_listed_retrievable (root : Node) (ls : List Level) (same : Same) (hr : ∀ n i, same n i i = true)
    (hc : Citable root ls) (level : Nat) (h1 : 1 ≤ level) (refs : List (Option Ref))
    (h : getValidReff (textOf root same ls) (some level) none = .ok refs) (r : Option Ref) (hmem : r ∈ refs) :
    ∃ ids t, r = some (single ids) ∧ mkRef (dotted ids) = .ok r ∧ (ids, t) ∈ units (ls.take level) root ∧
      getTextualNode (textOf root same ls) (single ids) = .ok (emptied root (chainTo root t)) := by
  rw [C29_lists_units root ls same hc level h1] at h
  by_cases hl : ls.length < level
  · rw [if_pos hl] at h; simp at h
  · rw [if_neg hl] at h
    split at h
    · simp at h
    · simp only [Except.ok.injEq] at h
      subst h
      rw [List.mem_map] at hmem
      obtain ⟨⟨ids, t⟩, hu, rfl⟩ := hmem
      have hlen := mem_units_length hu
      simp at hlen
      have hne : ids ≠ [] := by rintro rfl; simp at hlen; omega
      exact ⟨ids, t, rfl, mkRef_dotted hne fun v hv => (hc.ids _ _ hu v hv).1, hu,
        C31_units_retrievable root ls same hr hc level h1 (by omega) ids t hu⟩

/-- C31. A reference that no unit has raises `IndexError`. -/
theorem C31_unknown_reference (root : Node) (ls : List Level) (same : Same) (hc : Citable root ls) (ids : List Str)
    (hne : ids ≠ []) (hi : ∀ v ∈ ids, IsId v) (hl : ids.length ≤ ls.length)
    (h : ∀ t, (ids, t) ∉ units (ls.take ids.length) root) :
    getTextualNode (textOf root same ls) (single ids) = .error .indexError := by
  have hcomp : ∀ v ∈ ids, IsComponent v := fun v hv => (hi v hv).1
  simp only [getTextualNode, single, textOf, pdepth_dotted hne hcomp, plist_dotted hne hcomp, length_declsOf]
  rw [if_neg (by omega)]
  have := passageBetween_eq (same := same) hc hne hne hl hl hi hi
  simp only [textOf] at this
  rw [this]
  exact C27_unknown same root _ _ (none_idPath hl h)

/-- C31. A reference deeper than the scheme raises `CitationDepthError`. -/
theorem C31_too_deep (root : Node) (ls : List Level) (same : Same) (ids : List Str) (hne : ids ≠ [])
    (hi : ∀ v ∈ ids, IsComponent v) (stop : Option Str) (repr : Str) (hl : ls.length < ids.length) :
    getTextualNode (textOf root same ls) ⟨dotted ids, stop, repr⟩ = .error .citationDepth := by
  simp only [getTextualNode, textOf, pdepth_dotted hne hi, length_declsOf]
  rw [if_pos hl]

/-- C28 for references: the range between two units is the document cut down to the part between them. -/
theorem C28_range_of_text (root : Node) (ls : List Level) (same : Same) (hs : TellsApart same root) (hc : Citable root ls)
    (a b : List Str) (t1 t2 : List Nat) (ha : a ≠ []) (hb : b ≠ []) (hal : a.length ≤ ls.length) (hbl : b.length ≤ ls.length)
    (h1 : (a, t1) ∈ units (ls.take a.length) root) (h2 : (b, t2) ∈ units (ls.take b.length) root) (hp : Precedes t1 t2) :
    getTextualNode (textOf root same ls) (mkRef2 (dotted a) (dotted b)) = .ok (cut root t1 t2) := by
  have hai : ∀ v ∈ a, IsId v := fun v hv => hc.ids _ _ h1 v hv
  have hbi : ∀ v ∈ b, IsId v := fun v hv => hc.ids _ _ h2 v hv
  simp only [getTextualNode, mkRef2, textOf, pdepth_dotted ha fun v hv => (hai v hv).1,
    plist_dotted ha fun v hv => (hai v hv).1, plist_dotted hb fun v hv => (hbi v hv).1, length_declsOf]
  rw [if_neg (by omega)]
  have := passageBetween_eq (same := same) hc ha hb hal hbl hai hbi
  simp only [textOf] at this
  rw [this]
  exact C28_range same root hs _ _ t1 t2 (uniq_idPath hc h1) (uniq_idPath hc h2) hp


/-! ## C30 for ranges -/

theorem commonLoop_eq (e : List Str) : ∀ (l : List Str) (i : Nat), ¬ e <+: e.take i ++ l → i ≤ e.length →
    commonLoop e.length e i l = .ok (common l (e.drop i))
  | [], i, _, _ => by simp [commonLoop, common]
  | x :: l, i, hn, hi => by
    have hlt : i < e.length := by
      rcases Nat.lt_or_ge i e.length with h | h
      · exact h
      · exact absurd (by rw [List.take_of_length_le h]; exact List.prefix_append _ _) hn
    simp only [commonLoop, if_pos hi, List.getElem?_eq_getElem hlt]
    rw [List.drop_eq_getElem_cons hlt]
    simp only [common]
    by_cases hx : x = e[i]
    · rw [if_pos hx, if_pos hx]
      have := commonLoop_eq e l (i + 1) (by
        rw [List.take_add_one, List.getElem?_eq_getElem hlt, Option.toList_some, List.append_assoc, ← hx]
        exact hn) (by omega)
      rw [this]
      rfl
    · rw [if_neg hx, if_neg hx]

theorem common_prefix_left : ∀ (a b : List Str), common a b <+: a
  | [], _ => by simp [common]
  | _ :: _, [] => by simp [common]
  | x :: a, y :: b => by
    simp only [common]
    split
    · rw [List.cons_prefix_cons]; exact ⟨rfl, common_prefix_left a b⟩
    · exact List.nil_prefix

theorem common_prefix_right : ∀ (a b : List Str), common a b <+: b
  | [], _ => by simp [common]
  | _ :: _, [] => by simp [common]
  | x :: a, y :: b => by
    simp only [common]
    split
    · rename_i h; subst h; rw [List.cons_prefix_cons]; exact ⟨rfl, common_prefix_right a b⟩
    · exact List.nil_prefix

/-- The level that is listed for a range whose start has depth `d` and whose ends have `c` components in
common. -/
def levelInRange (d c : Nat) : Option Int → Int
  | none => max (d + c) (c + 1)
  | some l => if l = 0 then max d (c + 1) else if l = 1 then max (d + 1) (c + 1) else max l (c + 1)

/-- C30 for ranges. `getReffs(level, a-b)` lists the units of the level that survive in the passage `a-b`
and share what `a` and `b` have in common. Level 0 is the level of `a`, level 1 the next one; without
level it is the depth of `a` plus the number of shared components. -/
theorem C30_range_level (root : Node) (ls : List Level) (same : Same) (hs : TellsApart same root) (hc : Citable root ls)
    (a b : List Str) (t1 t2 : List Nat) (ha : a ≠ []) (hb : b ≠ []) (hal : a.length ≤ ls.length) (hbl : b.length ≤ ls.length)
    (h1 : (a, t1) ∈ units (ls.take a.length) root) (h2 : (b, t2) ∈ units (ls.take b.length) root) (hp : Precedes t1 t2)
    (level : Option Int) :
    getValidReff (textOf root same ls) level (some (mkRef2 (dotted a) (dotted b))) =
      if (ls.length : Int) < levelInRange a.length (common a b).length level then .error .citationDepth
      else
        let found := (units (ls.take (levelInRange a.length (common a b).length level).toNat) root).filter fun u =>
          (common a b).isPrefixOf u.1 && decide (Kept t1 t2 u.2)
        if found.isEmpty then .error .keyError else .ok (found.map fun u => some (single u.1)) := by
  have hai : ∀ v ∈ a, IsId v := fun v hv => hc.ids _ _ h1 v hv
  have hbi : ∀ v ∈ b, IsId v := fun v hv => hc.ids _ _ h2 v hv
  have hac : ∀ v ∈ a, IsComponent v := fun v hv => (hai v hv).1
  have hbc : ∀ v ∈ b, IsComponent v := fun v hv => (hbi v hv).1
  have hnp : ¬ b <+: a := by
    intro hpre
    have hle := hpre.length_le
    obtain ⟨t', h3, h4⟩ := units_ancestor hle h1
    rw [← List.prefix_iff_eq_take.1 hpre] at h4
    have := hc.distinct _ _ h2 _ h4 rfl
    simp only at this
    subst this
    have := not_above_of_precedes hp []
    simp only [List.append_nil] at this
    have h5 := docLe_of_prefix h3
    rw [this.2.2.2.1] at h5
    simp at h5
  have hcl := commonLoop_eq b a 0 (by simpa using hnp) (by omega)
  rw [List.drop_zero] at hcl
  have hcut := C28_range_of_text root ls same hs hc a b t1 t2 ha hb hal hbl h1 h2 hp
  have hq : ∀ v ∈ common a b, '\'' ∉ v := fun v hv => (hai v ((common_prefix_left a b).subset hv)).2.1
  have hst : reffStart (textOf root same ls) level (some (mkRef2 (dotted a) (dotted b))) =
      .ok (cut root t1 t2, common a b, some (rangeLevel a.length (common a b).length level)) := by
    have e : (mkRef2 (dotted a) (dotted b)).stop = some (dotted b) := rfl
    simp only [reffStart, e, hcut]
    simp only [mkRef2, pdepth_dotted hb hbc, plist_dotted hb hbc, plist_dotted ha hac, hcl, pdepth_dotted ha hac]
  have hlev : effLevel (some (rangeLevel a.length (common a b).length level)) true (common a b).length
      = levelInRange a.length (common a b).length level := by
    unfold effLevel rangeLevel levelInRange
    cases level with
    | none => simp only [Option.getD_some, and_true]; split <;> omega
    | some l =>
      simp only [Option.getD_some, and_true]
      by_cases h0 : l = 0
      · subst h0; simp only [Int.zero_ne_one, if_false, if_true]; split <;> omega
      · by_cases h1 : l = 1
        · subst h1; simp only [if_true, h0, if_false]; split <;> omega
        · simp only [h0, h1, if_false]; split <;> omega
  have hgt : ((common a b).length : Int) < levelInRange a.length (common a b).length level := by
    unfold levelInRange
    cases level with
    | none => simp only; omega
    | some l => simp only; split <;> (try split) <;> omega
  have := reffsAt_eq (citable_cut hc hp) (common a b) (levelInRange a.length (common a b).length level).toNat (by omega) hq
  rw [show (((levelInRange a.length (common a b).length level).toNat : Nat) : Int)
    = levelInRange a.length (common a b).length level by omega] at this
  rw [listing_cut hp, show (cut root t1 t2).tag = root.tag from rfl] at this
  simp only [getValidReff, hst, Option.isSome_some]
  rw [hlev]
  simp only [textOf]
  rw [this]
  by_cases h : (ls.length : Int) < levelInRange a.length (common a b).length level
  · rw [if_pos h, if_pos (by omega)]
  · rw [if_neg h, if_neg (by omega)]
    simp only [List.isEmpty_map, List.map_map, Function.comp_def]

/-- C30 for ranges between two different units of the same level, level 0: the references from the first
to the last one, in document order. -/
theorem C30_range_level_zero (root : Node) (ls : List Level) (same : Same) (hs : TellsApart same root) (hc : Citable root ls)
    (hsep : Separate root ls) (k : Nat) (hk : k ≤ ls.length)
    (before between after : List (List Str × List Nat)) (a b : List Str × List Nat)
    (h : units (ls.take k) root = before ++ a :: between ++ b :: after) :
    getValidReff (textOf root same ls) (some 0) (some (mkRef2 (dotted a.1) (dotted b.1))) =
      .ok ((a :: between ++ [b]).map fun u => some (single u.1)) := by
  obtain ⟨a, t1⟩ := a
  obtain ⟨b, t2⟩ := b
  have hord := C29_document_order root ls hsep k
  have hua : (a, t1) ∈ units (ls.take k) root := by rw [h]; simp
  have hub : (b, t2) ∈ units (ls.take k) root := by rw [h]; simp
  have hla := mem_units_length hua
  have hlb := mem_units_length hub
  simp only [List.length_take] at hla hlb
  have hla : a.length = k := by omega
  have hlb : b.length = k := by omega
  have hord' := hord
  rw [h, List.pairwise_append, List.pairwise_append] at hord'
  obtain ⟨⟨hb1, hb2, hb3⟩, hb4, hb5⟩ := hord'
  rw [List.pairwise_cons] at hb2 hb4
  have hp : Precedes t1 t2 := hb5 (a, t1) (by simp) (b, t2) (by simp)
  have hk0 : k ≠ 0 := by
    rintro rfl
    rw [List.take_zero] at h
    have := congrArg List.length h
    simp [units] at this
    omega
  have ha : a ≠ [] := by rintro rfl; simp at hla; omega
  have hb : b ≠ [] := by rintro rfl; simp at hlb; omega
  have hne : a ≠ b := by
    rintro rfl
    have := hc.distinct k _ hua _ hub rfl
    simp only at this
    subst this
    exact precedes_irrefl _ hp
  rw [C30_range_level root ls same hs hc a b t1 t2 ha hb (by omega) (by omega) (hla.symm ▸ hua) (hlb.symm ▸ hub) hp]
  have hcl : (common a b).length < k := by
    have h1 := (common_prefix_left a b)
    have h2 := (common_prefix_right a b)
    have h3 := h1.length_le
    rcases Nat.lt_or_ge (common a b).length k with h' | h'
    · exact h'
    · have e1 := h1.eq_of_length (by omega)
      have e2 := h2.eq_of_length (by omega)
      exact absurd (e1.symm.trans e2) hne
  have hlev : levelInRange a.length (common a b).length (some 0) = k := by
    simp only [levelInRange, if_true]; omega
  rw [hlev, if_neg (by omega)]
  simp only [Int.toNat_natCast]
  -- positions of the level are kept exactly from `t1` to `t2`
  have hnotabove := hsep k
  have keptiff : ∀ u ∈ units (ls.take k) root, Kept t1 t2 u.2 ↔ docLe t1 u.2 = true ∧ docLe u.2 t2 = true := by
    intro u hu
    constructor
    · rintro (h' | h' | ⟨h1, h2⟩)
      · exact absurd h' (hnotabove u hu _ hua)
      · exact absurd h' (hnotabove u hu _ hub)
      · refine ⟨h1, ?_⟩
        rcases h2 with h2 | h2
        · exact h2
        · by_cases e : t2 = u.2
          · rw [e]; exact docLe_refl _
          · exact absurd ⟨h2, e⟩ (hnotabove _ hub u hu)
    · rintro ⟨h1, h2⟩
      exact Or.inr (Or.inr ⟨h1, Or.inl h2⟩)
  -- what lies between them has the common components
  have hcommon : ∀ u ∈ units (ls.take k) root, docLe t1 u.2 = true ∧ docLe u.2 t2 = true → common a b <+: u.1 := by
    intro u hu hbt
    obtain ⟨w1, p1, q1⟩ := units_ancestor (j := (common a b).length) (by omega) hua
    obtain ⟨w2, p2, q2⟩ := units_ancestor (j := (common a b).length) (by omega) hub
    obtain ⟨w3, p3, q3⟩ := units_ancestor (j := (common a b).length) (by omega) (t := u.2) (ids := u.1) hu
    rw [← List.prefix_iff_eq_take.1 (common_prefix_left a b)] at q1
    rw [← List.prefix_iff_eq_take.1 (common_prefix_right a b)] at q2
    have e : w1 = w2 := hc.distinct _ _ q1 _ q2 rfl
    subst e
    obtain ⟨x, rfl⟩ := p2
    have hw : w1 <+: u.2 := prefix_of_between (docLe_trans (docLe_of_prefix p1) hbt.1) hbt.2
    have hsp := hsep (common a b).length
    have e3 : w1 = w3 := by
      rcases List.prefix_or_prefix_of_prefix hw p3 with h' | h'
      · by_cases e : w1 = w3
        · exact e
        · exact absurd ⟨h', e⟩ (hsp _ q1 _ q3)
      · by_cases e : w3 = w1
        · exact e.symm
        · exact absurd ⟨h', e⟩ (hsp _ q3 _ q1)
    subst e3
    have ids_eq : ∀ x y, (x, w1) ∈ units (ls.take (common a b).length) root →
        (y, w1) ∈ units (ls.take (common a b).length) root → x = y := by
      intro x y hx hy
      have ho := C29_document_order root ls hsep (common a b).length
      obtain ⟨i, hi⟩ := List.getElem?_of_mem hx
      obtain ⟨j, hj⟩ := List.getElem?_of_mem hy
      obtain ⟨hi', hi⟩ := List.getElem?_eq_some_iff.1 hi
      obtain ⟨hj', hj⟩ := List.getElem?_eq_some_iff.1 hj
      rw [List.pairwise_iff_getElem] at ho
      rcases Nat.lt_trichotomy i j with hij | hij | hij
      · have := ho i j hi' hj' hij
        rw [hi, hj] at this
        exact absurd this (precedes_irrefl _)
      · subst hij
        have := hi.symm.trans hj
        exact congrArg Prod.fst this
      · have := ho j i hj' hi' hij
        rw [hi, hj] at this
        exact absurd this (precedes_irrefl _)
    rw [ids_eq _ _ q1 q3]
    exact List.take_prefix _ _
  have hf : (units (ls.take k) root).filter (fun u => (common a b).isPrefixOf u.1 && decide (Kept t1 t2 u.2))
      = (a, t1) :: between ++ [(b, t2)] := by
    have hcond : ∀ u ∈ units (ls.take k) root, ((common a b).isPrefixOf u.1 && decide (Kept t1 t2 u.2))
        = (docLe t1 u.2 && docLe u.2 t2) := by
      intro u hu
      rw [Bool.eq_iff_iff]
      simp only [Bool.and_eq_true, List.isPrefixOf_iff_prefix, decide_eq_true_eq]
      rw [keptiff u hu]
      exact ⟨fun h => h.2, fun h => ⟨hcommon u hu h, h⟩⟩
    rw [List.filter_congr hcond, h]
    have pl : ∀ {x y : List Nat}, Precedes x y → docLe x y = true ∧ docLe y x = false := by
      intro x y hxy
      have := not_above_of_precedes hxy []
      simp only [List.append_nil] at this
      exact ⟨this.2.2.1, this.2.2.2.1⟩
    rw [List.filter_append, List.filter_append]
    have f1 : before.filter (fun u => docLe t1 u.2 && docLe u.2 t2) = [] := by
      rw [List.filter_eq_nil_iff]
      intro u hu
      have := pl (hb3 u hu (a, t1) (by simp))
      simp [this.2]
    have f2 : ((a, t1) :: between).filter (fun u => docLe t1 u.2 && docLe u.2 t2) = (a, t1) :: between := by
      rw [List.filter_eq_self]
      intro u hu
      have h2' := (pl (hb5 u (by simp [List.mem_cons.1 hu]) (b, t2) (by simp))).1
      rw [List.mem_cons] at hu
      rcases hu with rfl | hu
      · simp [docLe_refl, h2']
      · simp [(pl (hb2.1 u hu)).1, h2']
    have f3 : ((b, t2) :: after).filter (fun u => docLe t1 u.2 && docLe u.2 t2) = [(b, t2)] := by
      rw [List.filter_cons_of_pos (by simp [docLe_refl, (pl hp).1])]
      congr 1
      rw [List.filter_eq_nil_iff]
      intro u hu
      have := pl (hb4.1 u hu)
      simp [this.2]
    rw [f1, f2, f3]
    simp
  rw [hf]
  simp


/-! ## A concrete edition that meets the hypotheses -/

/-- Two poems of two lines in a TEI document. -/
def edition : Node := .mk "TEI".toList [] [] [poems] []

/-- Its scheme: `/TEI/body/d[@n='$1']/l[@n='$2']`. -/
def editionLevels : List Level :=
  [⟨[⟨false, "body".toList, []⟩], false, ['d'], [], ['n'], '\'', []⟩, ⟨[], false, ['l'], [], ['n'], '\'', []⟩]

theorem isId_digit {c : Char} (h : c = '1' ∨ c = '2') : IsId [c] := by
  rcases h with rfl | rfl <;> refine ⟨?_, by decide, by decide⟩ <;> unfold IsComponent <;> decide

theorem edition_units : units editionLevels edition =
    [([['1'], ['1']], [0, 0, 0]), ([['1'], ['2']], [0, 0, 1]), ([['2'], ['1']], [0, 1, 0]), ([['2'], ['2']], [0, 1, 1])] := by
  decide +kernel

theorem edition_citable : Citable edition editionLevels where
  tag := by decide
  few := by decide
  wf := by
    have hn : IdAttr ['n'] := ⟨by unfold AttrName; decide, by decide, by decide⟩
    intro l hl
    simp only [editionLevels, List.mem_cons, List.not_mem_nil, or_false] at hl
    rcases hl with rfl | rfl
    · refine ⟨?_, by decide, by simp, by simp, hn, Or.inl rfl⟩
      intro s hs
      simp only [List.mem_singleton] at hs
      subst hs
      exact ⟨by decide, by simp⟩
    · exact ⟨by simp, by decide, by simp, by simp, hn, Or.inl rfl⟩
  ids := by
    intro k u hu v hv
    have h : v = ['1'] ∨ v = ['2'] := by
      match k with
      | 0 => simp [units] at hu; subst hu; simp at hv
      | 1 =>
        have e : units (editionLevels.take 1) edition = [([['1']], [0, 0]), ([['2']], [0, 1])] := by decide +kernel
        rw [e] at hu
        simp at hu
        rcases hu with rfl | rfl <;> simp at hv <;> simp [hv]
      | k + 2 =>
        rw [List.take_of_length_le (by simp [editionLevels]), edition_units] at hu
        simp at hu
        rcases hu with rfl | rfl | rfl | rfl <;> simp_all [or_comm]
    rcases h with rfl | rfl
    · exact isId_digit (Or.inl rfl)
    · exact isId_digit (Or.inr rfl)
  distinct := by
    intro k
    match k with
    | 0 => simp [units]
    | 1 => decide +kernel
    | k + 2 =>
      rw [List.take_of_length_le (by simp [editionLevels]), edition_units]
      decide

theorem edition_separate : Separate edition editionLevels :=
  C29_child_steps_separate _ _ (by decide)

example : getValidReff (textOf edition sameIdentity editionLevels) (some 2) none =
    .ok [some (single [['1'], ['1']]), some (single [['1'], ['2']]), some (single [['2'], ['1']]), some (single [['2'], ['2']])] := by
  rw [show (some 2 : Option Int) = some ((2 : Nat) : Int) from rfl, C29_lists_units _ _ _ edition_citable 2 (by decide)]
  rw [List.take_of_length_le (by simp [editionLevels]), edition_units]
  rfl

example : getValidReff (textOf edition sameIdentity editionLevels) (some 0) (some (mkRef2 (dotted [['1'], ['2']]) (dotted [['2'], ['1']]))) =
    .ok [some (single [['1'], ['2']]), some (single [['2'], ['1']])] :=
  C30_range_level_zero _ _ _ (C28_identity_tells_apart _) edition_citable edition_separate 2 (by decide)
    [([['1'], ['1']], [0, 0, 0])] [] [([['2'], ['2']], [0, 1, 1])] ([['1'], ['2']], [0, 0, 1]) ([['2'], ['1']], [0, 1, 0]) (by
      rw [List.take_of_length_le (by simp [editionLevels]), edition_units]; rfl)

example : getTextualNode (textOf edition sameIdentity editionLevels) (single [['2'], ['1']]) =
    .ok (emptied edition (chainTo edition [0, 1, 0])) :=
  C31_units_retrievable _ _ _ (by simp [sameIdentity]) edition_citable 2 (by decide) (by decide) _ _ (by
    rw [List.take_of_length_le (by simp [editionLevels]), edition_units]; simp)

/-! ## Where the code does not do what C29 and C31 say -/

/-- A text with the lines of one poem. -/
def lines (l : List (String × String)) : LocalText :=
  ⟨.mk "TEI".toList [] [] (l.map fun x => line x.1 x.2) [], ["/TEI/l[@n='$1']".toList], sameIdentity⟩

/-- A slash in an identifier: the reference is listed, but cannot be retrieved. -/
theorem C31_fails_with_slash :
    getValidReff (lines [("1/2", "a")]) (some 1) none = .ok [some (single ["1/2".toList])] ∧
    getTextualNode (lines [("1/2", "a")]) (single ["1/2".toList]) = .error .xpathEval := by decide +kernel

/-- A quote in an identifier: the same, because identifiers are not escaped in the path. -/
theorem C31_fails_with_quote :
    getValidReff (lines [("1'", "a")]) (some 1) none = .ok [some (single ["1'".toList])] ∧
    getTextualNode (lines [("1'", "a")]) (single ["1'".toList]) = .error .xpathEval := by decide +kernel

/-- C29. The names of elements and attributes for which the theorems are stated: plain names, and plain names with a
plain name as prefix. -/
theorem C29_names (s : Str) : qName s = true ↔ PlainName s ∨ ∃ p l, s = p ++ ':' :: l ∧ PlainName p ∧ PlainName l := by
  have hs : ∀ c, ncStart c = true ↔ (('a' ≤ c ∧ c ≤ 'z') ∨ ('A' ≤ c ∧ c ≤ 'Z') ∨ c = '_' ∨ 128 ≤ c.toNat) := by
    intro c
    simp only [ncStart, isAsciiLetter, Bool.or_eq_true, Bool.and_eq_true, decide_eq_true_eq, beq_iff_eq]
    grind
  have hc : ∀ c, ncChar c = true ↔ (('a' ≤ c ∧ c ≤ 'z') ∨ ('A' ≤ c ∧ c ≤ 'Z') ∨ c = '_' ∨ 128 ≤ c.toNat ∨
      ('0' ≤ c ∧ c ≤ '9') ∨ c = '-' ∨ c = '.') := by
    intro c
    have h0 : '0' ≤ c ↔ 48 ≤ c.toNat := Iff.rfl
    have h9 : c ≤ '9' ↔ c.toNat ≤ 57 := Iff.rfl
    simp only [ncChar, Bool.or_eq_true, hs, isDigit, Bool.and_eq_true, decide_eq_true_eq, beq_iff_eq, h0, h9]
    grind
  have hn : ∀ s, ncName s = true ↔ PlainName s := by
    intro s
    cases s with
    | nil => simp [ncName, PlainName]
    | cons c r => simp only [ncName, Bool.and_eq_true, hs, List.all_eq_true, hc, PlainName, List.cons.injEq]; grind
  have hcol : ∀ s, PlainName s → ':' ∉ s := by
    rintro s ⟨c, r, rfl, h1, h2⟩ hm
    have hb : ¬ ('a' ≤ ':') ∧ ¬ (':' ≤ 'Z' ∧ 'A' ≤ ':') ∧ ¬ (':' ≤ '9') ∧ (':').toNat = 58 := by decide
    rcases List.mem_cons.1 hm with e | e
    · subst e; grind
    · have := h2 _ e; grind
  unfold qName
  constructor
  · intro h
    split at h
    · rename_i a e
      have hj := join_split ':' s
      rw [e] at hj
      simp only [join] at hj
      exact .inl (hj ▸ (hn a).1 h)
    · rename_i a b e
      rw [Bool.and_eq_true] at h
      have hj := join_split ':' s
      rw [e] at hj
      exact .inr ⟨a, b, by rw [← hj]; simp [join], (hn a).1 h.1, (hn b).1 h.2⟩
    · cases h
  · rintro (h | ⟨p, l, rfl, hp, hl⟩)
    · rw [split_of_not_mem (hcol s h)]; exact (hn s).2 h
    · rw [split_append _ (hcol p hp), split_of_not_mem (hcol l hl)]
      simp [(hn p).2 hp, (hn l).2 hl]

example : qName "tei:milestone-group.1".toList = true := by decide

/-- A hyphen in an identifier: the listing holds a range instead of the unit. -/
theorem C29_fails_with_hyphen :
    getValidReff (lines [("1-2", "a")]) (some 1) none = .ok [some (mkRef2 ['1'] ['2'])] := by decide +kernel

/-- Two units with the same identifier are listed twice, and only the first is retrieved. -/
theorem C31_duplicates_hide :
    getValidReff (lines [("1", "a"), ("1", "b")]) (some 1) none = .ok [some (single [['1']]), some (single [['1']])] ∧
    getTextualNode (lines [("1", "a"), ("1", "b")]) (single [['1']]) =
      .ok (.mk "TEI".toList [] [] [line "1" "a"] []) := by decide +kernel

/-- A range whose end is above its start raises `IndexError` when its references are asked for. -/
theorem C30_range_end_above_start :
    getValidReff (textOf edition sameIdentity editionLevels) (some 1) (some (mkRef2 (dotted [['1'], ['1']]) (dotted [['1']])))
      = .error .indexError := by decide +kernel

end Verif.Props
