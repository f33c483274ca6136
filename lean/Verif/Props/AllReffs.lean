import Verif.Spec.AllReffs
import Verif.Model.AllReffs
import Verif.Lemmas.Prune
import Verif.Lemmas.Siblings
import Verif.Props.LocalText
/-!
C88: all references of a local text.

Spec: Verif/Spec/AllReffs.lean; model: Verif/Model/AllReffs.lean.
-/
namespace Verif.Props
open Verif.Py Verif.Model Verif.Spec

theorem range_from (f : Nat → List (Option Ref)) (k n : Nat) :
    (List.range (n + 1)).flatMap (fun i => f (k + i)) = f k ++ (List.range n).flatMap (fun i => f (k + 1 + i)) := by
  rw [List.range_succ_eq_map, List.flatMap_cons, List.flatMap_map]
  simp only [Nat.add_zero]
  congr 2
  funext i
  rw [Nat.succ_eq_add_one, show k + (i + 1) = k + 1 + i by omega]

theorem units_some {root : Node} {ls : List Level} (hne : units ls root ≠ []) (k : Nat) (hk : k ≤ ls.length) :
    units (ls.take k) root ≠ [] := by
  obtain ⟨u, hu⟩ := List.exists_mem_of_ne_nil _ hne
  have h : (u.1, u.2) ∈ units (ls.take ls.length) root := by rw [List.take_length]; exact hu
  obtain ⟨t, _, ht⟩ := units_ancestor hk h
  exact List.ne_nil_of_mem ht

theorem reffsFrom_ok {root : Node} {ls : List Level} {same : Same} (hc : Citable root ls) (k n : Nat) (hk : 1 ≤ k) (hn : k + n = ls.length + 1)
    (hu : units ls root ≠ []) :
    reffsFrom (textOf root same ls) k n = .ok ((List.range n).flatMap fun i => (units (ls.take (k + i)) root).map fun u => some (single u.1)) := by
  induction n generalizing k with
  | zero => rfl
  | succ n ih =>
    have h := C29_lists_units root ls same hc k hk
    rw [if_neg (by omega), if_neg (by simpa using units_some hu k (by omega))] at h
    simp only [reffsFrom, h, ih (k + 1) (by omega) (by omega)]
    rw [range_from fun i => (units (ls.take i) root).map fun u => some (single u.1)]

theorem reffsFrom_empty {root : Node} {ls : List Level} {same : Same} (hc : Citable root ls) (k n : Nat) (hk : 1 ≤ k) (hn : k + n = ls.length + 1)
    (hn0 : 0 < n) (hu : units ls root = []) : reffsFrom (textOf root same ls) k n = .error .keyError := by
  induction n generalizing k with
  | zero => omega
  | succ n ih =>
    have h := C29_lists_units root ls same hc k hk
    rw [if_neg (by omega)] at h
    by_cases hn1 : n = 0
    · subst hn1
      have : ls.take k = ls := List.take_of_length_le (by omega)
      rw [this, hu] at h
      simp only [reffsFrom, h]
      rfl
    · by_cases h0 : (units (ls.take k) root).isEmpty
      · rw [if_pos h0] at h
        simp only [reffsFrom, h]
      · rw [if_neg h0] at h
        simp only [reffsFrom, h, ih (k + 1) (by omega) (by omega) (by omega)]

/-! ### What is listed -/

/-- C88. `reffs` of a new text are the references of the units of all levels, the first level first; when the deepest level has no unit it
raises `KeyError`. -/
theorem C88_reffs (root : Node) (ls : List Level) (same : Same) (hc : Citable root ls) (hl : ls ≠ []) :
    (newReffText (textOf root same ls)).reffs.2 =
      if (units ls root).isEmpty then .error .keyError else .ok ((unitsByLevel root ls).map fun u => some (single u.1)) := by
  have hlen : (textOf root same ls).decls.length = ls.length := by simp [textOf, declsOf]
  have hpos := List.length_pos_iff.2 hl
  simp only [newReffText, ReffText.reffs, hlen]
  by_cases h : units ls root = []
  · rw [reffsFrom_empty hc 1 ls.length (by omega) (by omega) hpos h]
    simp [h]
  · rw [reffsFrom_ok hc 1 ls.length (by omega) (by omega) h]
    have : (units ls root).isEmpty = false := by simpa using h
    rw [this]
    simp only [unitsByLevel, List.map_flatMap, Bool.false_eq_true, if_false]
    congr 2
    funext i
    rw [Nat.add_comm]

/-- C88. The units of all levels are those of each level from the first to the deepest. -/
theorem C88_units (root : Node) (ls : List Level) (ids : List Str) (t : List Nat) :
    (ids, t) ∈ unitsByLevel root ls ↔ 1 ≤ ids.length ∧ ids.length ≤ ls.length ∧ (ids, t) ∈ units (ls.take ids.length) root := by
  simp only [unitsByLevel, List.mem_flatMap, List.mem_range]
  constructor
  · rintro ⟨i, hi, h⟩
    have := mem_units_length h
    simp only [List.length_take] at this
    rw [show ids.length = i + 1 by omega]
    exact ⟨by omega, by omega, h⟩
  · rintro ⟨h1, h2, h⟩
    exact ⟨ids.length - 1, by omega, by rwa [Nat.sub_add_cancel h1]⟩

/-- C88. Each reference is listed once. -/
theorem C88_nodup (root : Node) (ls : List Level) (same : Same) (hc : Citable root ls) (refs : RefSet)
    (h : (newReffText (textOf root same ls)).reffs.2 = .ok refs) (hl : ls ≠ []) : refs.Nodup := by
  rw [C88_reffs root ls same hc hl] at h
  split at h
  · cases h
  cases h
  have hw : ∀ u ∈ unitsByLevel root ls, u.1 ≠ [] ∧ ∀ v ∈ u.1, IsComponent v := by
    intro u hu
    obtain ⟨h1, h2, h3⟩ := (C88_units root ls u.1 u.2).1 hu
    refine ⟨fun h => ?_, fun v hv => (hc.ids _ _ h3 v hv).1⟩
    rw [h] at h1
    simp at h1
  have hp : (unitsByLevel root ls).Pairwise fun a b => a.1 ≠ b.1 := by
    unfold unitsByLevel
    rw [List.pairwise_flatMap]
    refine ⟨fun i _ => units_nodup hc.distinct _, ?_⟩
    rw [List.pairwise_iff_getElem]
    intro i j hi hj hij u hu w hw e
    simp only [List.length_range, List.getElem_range] at hi hj hu hw
    have e1 := mem_units_length hu
    have e2 := mem_units_length hw
    rw [e] at e1
    simp only [List.length_take] at e1 e2
    omega
  rw [List.Nodup, List.pairwise_map]
  refine hp.imp_of_mem fun {a b} ha hb hab e => hab ?_
  simp only [single, Option.some.injEq, Ref.mk.injEq] at e
  exact dotted_inj (hw a ha) (hw b hb) e.1

/-- C88. The units above a listed one are listed before it. -/
theorem C88_parent_first (root : Node) (ls : List Level) (i : Nat) (ids : List Str) (t : List Nat) (h : (unitsByLevel root ls)[i]? = some (ids, t))
    (h2 : 2 ≤ ids.length) : ∃ j, j < i ∧ ∃ t', (unitsByLevel root ls)[j]? = some (ids.dropLast, t') ∧ t' <+: t := by
  obtain ⟨_, h3, h4⟩ := (C88_units root ls ids t).1 (List.mem_of_getElem? h)
  obtain ⟨t', hp, hm⟩ := units_ancestor (j := ids.length - 1) (by omega) h4
  have hd : ids.take (ids.length - 1) = ids.dropLast := by rw [List.dropLast_eq_take]
  rw [hd] at hm
  have hord : (unitsByLevel root ls).Pairwise fun a b => a.1.length ≤ b.1.length := by
    unfold unitsByLevel
    rw [List.pairwise_flatMap]
    constructor
    · intro i hi
      rw [List.pairwise_iff_forall_sublist]
      intro a b hab
      have ha := mem_units_length (hab.subset (by simp : a ∈ [a, b]))
      have hb := mem_units_length (hab.subset (by simp : b ∈ [a, b]))
      omega
    · rw [List.pairwise_iff_getElem]
      intro i j hi hj hij u hu w hw
      simp only [List.length_range, List.getElem_range] at hi hj hu hw
      have e1 := mem_units_length hu
      have e2 := mem_units_length hw
      simp only [List.length_take] at e1 e2
      omega
  have hm' : (ids.dropLast, t') ∈ unitsByLevel root ls := (C88_units root ls _ _).2 ⟨by simp; omega, by simp; omega, by simpa using hm⟩
  obtain ⟨j, hj⟩ := List.mem_iff_getElem?.1 hm'
  refine ⟨j, ?_, t', hj, hp⟩
  rw [List.pairwise_iff_getElem] at hord
  obtain ⟨hi1, hi2⟩ := List.getElem?_eq_some_iff.1 h
  obtain ⟨hj1, hj2⟩ := List.getElem?_eq_some_iff.1 hj
  rcases Nat.lt_trichotomy j i with h' | h' | h'
  · exact h'
  · subst h'
    rw [hi2] at hj2
    have := congrArg (fun u => u.1.length) hj2
    simp at this
    omega
  · have := hord i j hi1 hj1 h'
    rw [hi2, hj2] at this
    simp at this
    omega

/-- C88. Every listed reference can be retrieved. -/
theorem C88_retrievable (root : Node) (ls : List Level) (same : Same) (hr : ∀ n i, same n i i = true) (hc : Citable root ls) (hl : ls ≠ []) (refs : RefSet)
    (h : (newReffText (textOf root same ls)).reffs.2 = .ok refs) (r : Option Ref) (hm : r ∈ refs) :
    ∃ ids t, r = some (single ids) ∧ (ids, t) ∈ unitsByLevel root ls ∧ getTextualNode (textOf root same ls) (single ids) = .ok (emptied root (chainTo root t)) := by
  rw [C88_reffs root ls same hc hl] at h
  split at h
  · cases h
  cases h
  obtain ⟨u, hu, rfl⟩ := List.mem_map.1 hm
  obtain ⟨h1, h2, h3⟩ := (C88_units root ls u.1 u.2).1 hu
  exact ⟨u.1, u.2, rfl, hu, C31_units_retrievable root ls same hr hc u.1.length h1 h2 u.1 u.2 h3⟩

/-! ### Reading again -/

/-- C88. Once a reading gave a reference, every later one gives the same set, whatever was assigned in between. -/
theorem C88_remembered (s : ReffText) (refs : RefSet) (h : s.reffs.2 = .ok refs) (hne : refs ≠ []) (ops : List ReffOp) :
    ∀ a ∈ (s.reffs.1.run ops).2, a = .ok refs := by
  have hc : s.reffs.1.cts = some refs := by
    unfold ReffText.reffs at h ⊢
    cases hs : s.cts with
    | none =>
      simp only [hs] at h ⊢
      split at h <;> simp_all
    | some l =>
      cases l with
      | nil =>
        simp only [hs] at h ⊢
        split at h <;> simp_all
      | cons a l =>
        simp only [hs] at h ⊢
        cases h
        rfl
  revert hc
  generalize s.reffs.1 = s'
  intro hc
  induction ops generalizing s' with
  | nil => simp [ReffText.run]
  | cons op r ih =>
    cases op with
    | edit t => exact ih _ hc
    | read =>
      have e : s'.reffs = (s', .ok refs) := by
        unfold ReffText.reffs
        rw [hc]
        cases refs with
        | nil => exact absurd rfl hne
        | cons a l => rfl
      simp only [ReffText.run, e, List.mem_cons]
      rintro a (rfl | ha)
      · rfl
      · exact ih s' hc a ha

/-- C88. A reading that fails changes nothing: the next one tries again. -/
theorem C88_retry (s : ReffText) (e : PyErr) (h : s.reffs.2 = .error e) : s.reffs.1 = s := by
  unfold ReffText.reffs at h ⊢
  cases hs : s.cts with
  | none =>
    simp only [hs] at h ⊢
    split at h <;> simp_all
  | some l =>
    cases l with
    | nil =>
      simp only [hs] at h ⊢
      split at h <;> simp_all
    | cons a l =>
      simp only [hs] at h
      cases h

/-! ### The edition of C29 -/

theorem edition_all : unitsByLevel edition editionLevels =
    [([['1']], [0, 0]), ([['2']], [0, 1]), ([['1'], ['1']], [0, 0, 0]), ([['1'], ['2']], [0, 0, 1]), ([['2'], ['1']], [0, 1, 0]), ([['2'], ['2']], [0, 1, 1])] := by
  decide +kernel

theorem edition_reffs : (newReffText (textOf edition sameIdentity editionLevels)).reffs.2 =
    .ok [some (single [['1']]), some (single [['2']]), some (single [['1'], ['1']]), some (single [['1'], ['2']]), some (single [['2'], ['1']]), some (single [['2'], ['2']])] := by
  rw [C88_reffs _ _ _ edition_citable (by simp [editionLevels]), edition_units, edition_all]
  rfl

example : ∀ a ∈ ((newReffText (textOf edition sameIdentity editionLevels)).reffs.1.run [.read, .edit (textOf edition sameIdentity []), .read]).2,
    a = .ok [some (single [['1']]), some (single [['2']]), some (single [['1'], ['1']]), some (single [['1'], ['2']]), some (single [['2'], ['1']]), some (single [['2'], ['2']])] :=
  C88_remembered _ _ edition_reffs (by simp) _

example : ∃ j, j < 4 ∧ ∃ t', (unitsByLevel edition editionLevels)[j]? = some ([['2']], t') ∧ t' <+: [0, 1, 0] :=
  C88_parent_first edition editionLevels 4 [['2'], ['1']] [0, 1, 0] (by rw [edition_all]; rfl) (by decide)

/-! ### Where the code departs from this -/

/-- The scheme of the edition with a third level that no element belongs to. -/
def tooDeepLevels : List Level := editionLevels ++ [⟨[], false, ['w'], [], ['n'], '\'', []⟩]

/-- C88. A text whose scheme declares a level that no element belongs to has no references at all, though six can be retrieved. -/
theorem C88_fails_empty_level :
    (newReffText (textOf edition sameIdentity tooDeepLevels)).reffs.2 = .error .keyError ∧
    (getValidReff (textOf edition sameIdentity tooDeepLevels) (some 1) none = .ok [some (single [['1']]), some (single [['2']])]) ∧
    (getValidReff (textOf edition sameIdentity tooDeepLevels) (some 2) none).isOk = true := by
  decide +kernel

/-- C88. After another citation scheme is assigned the references are still those of the first one. -/
theorem C88_fails_stale :
    ((newReffText (textOf edition sameIdentity editionLevels)).run [.read, .edit (textOf edition sameIdentity (editionLevels.take 1)), .read]).2.map (·.map List.length) = [.ok 6, .ok 6] ∧
    ((newReffText (textOf edition sameIdentity (editionLevels.take 1))).reffs.2.map List.length) = .ok 2 := by
  decide +kernel

end Verif.Props
