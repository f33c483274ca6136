import Verif.Model.Pagination
import Verif.Spec.Pagination
/-!
C46: windows of pagination. Theorems are about `Verif/Model/Pagination.lean`; `chunks` and `limitFor` are in
`Verif/Spec/Pagination.lean`.
-/
namespace Verif.Props
open Verif.Py Verif.Model Verif.Spec

theorem usedLimit_eq (limit : Option Int) : usedLimit limit = (limitFor limit : Int) := by
  unfold usedLimit limitFor intOr perPage
  cases limit with
  | none => decide
  | some l =>
    by_cases h : l = 0
    · subst h; decide
    · simp only [h, if_false]
      by_cases h1 : 1 ≤ l ∧ l ≤ 100
      · rw [if_neg (by omega), if_pos h1]; omega
      · rw [if_pos (by omega), if_neg h1]; rfl

theorem limitFor_pos (limit : Option Int) : 1 ≤ limitFor limit ∧ limitFor limit ≤ 100 := by
  unfold limitFor
  split
  · omega
  · split <;> omega

theorem chunks_cons {α : Type} {n : Nat} (hn : n ≠ 0) {xs : List α} (hx : xs ≠ []) :
    chunks n xs = xs.take n :: chunks n (xs.drop n) := by
  rw [chunks, dif_neg (by simp [hn, hx])]

theorem chunks_nil {α : Type} (n : Nat) : chunks n ([] : List α) = [] := by rw [chunks]; simp

/-- The pages of a list put together are the list. -/
theorem C46_pages_make_list {α : Type} (n : Nat) (hn : n ≠ 0) (xs : List α) : (chunks n xs).flatten = xs := by
  by_cases hx : xs = []
  · subst hx; rw [chunks_nil]; rfl
  · have hpos : xs.length ≠ 0 := fun e => hx (List.length_eq_zero_iff.1 e)
    rw [chunks_cons hn hx, List.flatten_cons, C46_pages_make_list n hn (xs.drop n), List.take_append_drop]
termination_by xs.length
decreasing_by simp; omega

theorem chunks_get {α : Type} (n : Nat) (hn : n ≠ 0) : ∀ (i : Nat) (xs : List α), i * n < xs.length →
    (chunks n xs)[i]? = some ((xs.drop (i * n)).take n)
  | 0, xs, h => by
    rw [chunks_cons hn (by rintro rfl; simp at h)]; simp
  | i + 1, xs, h => by
    rw [chunks_cons hn (by rintro rfl; simp at h), List.getElem?_cons_succ, chunks_get n hn i (xs.drop n) (by
      rw [Nat.succ_mul] at h; simp; omega)]
    rw [List.drop_drop, Nat.succ_mul, Nat.add_comm]

theorem chunks_length {α : Type} (n : Nat) (hn : n ≠ 0) (xs : List α) (i : Nat) : i < (chunks n xs).length ↔ i * n < xs.length := by
  by_cases hx : xs = []
  · subst hx; rw [chunks_nil]; simp
  · have hpos : xs.length ≠ 0 := fun e => hx (List.length_eq_zero_iff.1 e)
    rw [chunks_cons hn hx]
    cases i with
    | zero => simp; omega
    | succ i =>
      rw [List.length_cons, Nat.add_lt_add_iff_right, chunks_length n hn (xs.drop n) i, Nat.succ_mul]
      simp; omega
termination_by xs.length
decreasing_by simp; omega

theorem pySlice_nat {α : Type} (xs : List α) (i j : Nat) (hj : j ≤ xs.length) (hi : i ≤ j) :
    pySlice xs (i : Int) (j : Int) = (xs.drop i).take (j - i) := by
  unfold pySlice
  simp only [show ¬ ((i : Int) < 0) by omega, show ¬ ((j : Int) < 0) by omega, if_false]
  rw [show (min (j : Int) (xs.length : Int)).toNat = j by omega, show (min (i : Int) (xs.length : Int)).toNat = i by omega,
    List.drop_take]

/-- C46. A page that exists is that page of the list cut into pieces of the limit; its number and its size are
reported as they are. -/
theorem C46_page {α : Type} (xs : List α) (limit : Option Int) (i : Nat) (part : List α)
    (h : (chunks (limitFor limit) xs)[i]? = some part) :
    pageOf xs (some (i + 1 : Nat)) limit = (part, some ((i + 1 : Nat) : Int), (part.length : Int)) := by
  have hl := limitFor_pos limit
  have hlt : i * limitFor limit < xs.length := by
    rw [← chunks_length _ (by omega)]
    exact (List.getElem?_eq_some_iff.1 h).1
  rw [chunks_get _ (by omega) i xs hlt] at h
  simp only [Option.some.injEq] at h
  subst h
  generalize hL : limitFor limit = L at *
  unfold pageOf pagination
  rw [usedLimit_eq, hL]
  simp only
  have hp : intOr (some ((i + 1 : Nat) : Int)) defaultPage - 1 = (i : Int) := by
    unfold intOr; simp only; rw [if_neg (by omega)]; omega
  rw [hp]
  have hm : (i : Int) * (L : Int) = ((i * L : Nat) : Int) := by simp
  rw [hm]
  generalize i * L = s at *
  rw [if_neg (by omega)]
  by_cases h2 : (L : Int) - 1 + (s : Int) < (xs.length : Int)
  · rw [if_pos h2]
    simp only
    rw [show (L : Int) - 1 + (s : Int) + 1 = ((s + L : Nat) : Int) by omega, pySlice_nat _ _ _ (by omega) (by omega)]
    simp only [Prod.mk.injEq, true_and, List.length_take, List.length_drop]
    refine ⟨by congr 1; omega, ?_⟩
    omega
  · rw [if_neg h2]
    simp only
    rw [show (xs.length : Int) - 1 + 1 = ((xs.length : Nat) : Int) by omega, pySlice_nat _ _ _ (by omega) (by omega)]
    simp only [Prod.mk.injEq, true_and, List.length_take, List.length_drop]
    refine ⟨?_, by omega⟩
    rw [List.take_of_length_le (by simp), List.take_of_length_le (by simp; omega)]

/-- C46. The pages 1, 2, 3, ... up to the number of pages, put together, are the list. -/
theorem C46_all_pages {α : Type} (xs : List α) (limit : Option Int) :
    ((List.range (chunks (limitFor limit) xs).length).map fun i => (pageOf xs (some (i + 1 : Nat)) limit).1).flatten = xs := by
  have hl := limitFor_pos limit
  have : (List.range (chunks (limitFor limit) xs).length).map (fun i => (pageOf xs (some (i + 1 : Nat)) limit).1) =
      chunks (limitFor limit) xs := by
    apply List.ext_getElem?
    intro i
    rw [List.getElem?_map]
    by_cases hi : i < (chunks (limitFor limit) xs).length
    · rw [List.getElem?_range hi, Option.map_some, List.getElem?_eq_getElem hi]
      rw [C46_page xs limit i _ (List.getElem?_eq_getElem hi)]
    · rw [List.getElem?_eq_none (by simpa using hi), List.getElem?_eq_none (by simpa using hi), Option.map_none]
  rw [this, C46_pages_make_list _ (by omega)]

/-- C46. A page more than one past the end gives the last page, with its number. -/
theorem C46_past_the_end {α : Type} (xs : List α) (limit : Option Int) (i : Nat) (hx : xs ≠ [])
    (h : xs.length < i * limitFor limit) :
    ∃ last, (chunks (limitFor limit) xs).getLast? = some last ∧
      pageOf xs (some (i + 1 : Nat)) limit = (last, some ((chunks (limitFor limit) xs).length : Int), (last.length : Int)) := by
  have hl := limitFor_pos limit
  have hpos : 0 < xs.length := List.length_pos_iff.2 hx
  have hc := chunks_length (limitFor limit) (by omega) xs
  generalize hL : limitFor limit = L at *
  have hc0 : 0 < (chunks L xs).length := (hc 0).2 (by simpa using hpos)
  obtain ⟨k, hk⟩ : ∃ k, (chunks L xs).length = k + 1 := ⟨_, (Nat.succ_pred_eq_of_pos hc0).symm⟩
  have hkl : k * L < xs.length := (hc k).1 (by omega)
  have hku : xs.length ≤ (k + 1) * L := by
    have := hc (k + 1); omega
  have hreal : ceilDiv (xs.length : Int) (L : Int) = ((k + 1 : Nat) : Int) := by
    unfold ceilDiv
    have hq : (xs.length + L - 1) / L = k + 1 := by
      apply Nat.div_eq_of_lt_le
      · rw [Nat.succ_mul]; omega
      · rw [Nat.succ_mul]; omega
    rw [show (xs.length : Int) + (L : Int) - 1 = ((xs.length + L - 1 : Nat) : Int) by omega]
    rw [← Int.natCast_ediv, hq]
  have hg := chunks_get L (by omega) k xs hkl
  refine ⟨_, by rw [List.getLast?_eq_getElem?, hk, Nat.add_sub_cancel]; exact hg, ?_⟩
  unfold pageOf pagination
  rw [usedLimit_eq, hL]
  simp only
  have hp : intOr (some ((i + 1 : Nat) : Int)) defaultPage - 1 = (i : Int) := by
    unfold intOr; simp only; rw [if_neg (by omega)]; omega
  rw [hp, show (i : Int) * (L : Int) = ((i * L : Nat) : Int) by simp]
  rw [if_pos (by omega)]
  simp only
  rw [hreal, show (L : Int) * (((k + 1 : Nat) : Int) - 1) = ((k * L : Nat) : Int) by
    rw [show ((k + 1 : Nat) : Int) - 1 = (k : Int) by omega, Int.mul_comm]; simp]
  rw [show (xs.length : Int) - 1 + 1 = ((xs.length : Nat) : Int) by omega, pySlice_nat _ _ _ (by omega) (by omega), hk]
  rw [Nat.succ_mul] at hku
  simp only [Prod.mk.injEq, true_and, List.length_take, List.length_drop]
  refine ⟨?_, by omega⟩
  rw [List.take_of_length_le (by simp), List.take_of_length_le (by simp; omega)]

/-- C46. Page `None` or `0` gives the first page, but the page is reported as `None` or `0`. -/
theorem C46_default_page {α : Type} (xs : List α) (hx : xs ≠ []) (limit : Option Int) (page : Option Int)
    (h : page = none ∨ page = some 0) :
    pageOf xs page limit = (xs.take (limitFor limit), page, ((xs.take (limitFor limit)).length : Int)) := by
  have hl := limitFor_pos limit
  have hpos : 0 < xs.length := List.length_pos_iff.2 hx
  have h1 := C46_page xs limit 0 (xs.take (limitFor limit)) (by
    rw [chunks_get _ (by omega) 0 xs (by simpa using hpos)]; simp)
  unfold pageOf pagination at h1 ⊢
  have hp : intOr page defaultPage = intOr (some ((0 + 1 : Nat) : Int)) defaultPage := by
    rcases h with rfl | rfl <;> rfl
  rw [hp]
  simp only [show intOr (some ((0 + 1 : Nat) : Int)) defaultPage - 1 = 0 by decide, Int.zero_mul] at h1 ⊢
  rw [if_neg (by omega)] at h1 ⊢
  split <;> rename_i h2
  · rw [if_pos h2] at h1
    simp only [Prod.mk.injEq] at h1 ⊢
    exact ⟨h1.1, trivial, h1.2.2⟩
  · rw [if_neg h2] at h1
    simp only [Prod.mk.injEq] at h1 ⊢
    exact ⟨h1.1, trivial, h1.2.2⟩

/-- C46 fails just past the end: when the list fills its pages, the page after the last one is an empty page
with its own number, not the last page. -/
theorem C46_page_after_full_last_page {α : Type} (xs : List α) (limit : Option Int) (i : Nat)
    (h : xs.length = i * limitFor limit) :
    pageOf xs (some (i + 1 : Nat)) limit = ([], some ((i + 1 : Nat) : Int), 0) := by
  have hl := limitFor_pos limit
  unfold pageOf pagination
  rw [usedLimit_eq]
  simp only
  have hp : intOr (some ((i + 1 : Nat) : Int)) defaultPage - 1 = (i : Int) := by
    unfold intOr; simp only; rw [if_neg (by omega)]; omega
  rw [hp, show (i : Int) * (limitFor limit : Int) = ((i * limitFor limit : Nat) : Int) by simp, ← h]
  rw [if_neg (by omega), if_neg (by omega)]
  simp only
  rw [show (xs.length : Int) - 1 + 1 = ((xs.length : Nat) : Int) by omega, pySlice_nat _ _ _ (by omega) (by omega)]
  simp
  omega

/-- C46 fails for an empty list: from the second page on, the announced number of items is the limit, page 0,
although there is no item. -/
theorem C46_empty_list {α : Type} (limit : Option Int) (i : Nat) :
    pageOf ([] : List α) (some (i + 2 : Nat)) limit = ([], some 0, (limitFor limit : Int)) := by
  have hl := limitFor_pos limit
  unfold pageOf pagination
  rw [usedLimit_eq]
  simp only
  have hp : intOr (some ((i + 2 : Nat) : Int)) defaultPage - 1 = ((i + 1 : Nat) : Int) := by
    unfold intOr; simp only; rw [if_neg (by omega)]; omega
  rw [hp, show ((i + 1 : Nat) : Int) * (limitFor limit : Int) = (((i + 1) * limitFor limit : Nat) : Int) by simp]
  have : 0 < (i + 1) * limitFor limit := Nat.mul_pos (by omega) (by omega)
  rw [List.length_nil, if_pos (by omega)]
  have hc : ceilDiv ((0 : Nat) : Int) (limitFor limit : Int) = 0 := by
    unfold ceilDiv
    rw [show ((0 : Nat) : Int) + (limitFor limit : Int) - 1 = ((limitFor limit - 1 : Nat) : Int) by omega,
      ← Int.natCast_ediv, Nat.div_eq_of_lt (by omega)]
    rfl
  rw [hc]
  simp [pySlice]
  omega

/-- C46 fails for negative pages: page -1 of 30 elements gives the ten before the last ten. -/
theorem C46_negative_page : pageOf (List.range 30) (some (-1)) none = ((List.range 30).drop 10 |>.take 10, some (-1), 10) := by
  decide

example : chunks 10 (List.range 25) = [List.range 10, (List.range 20).drop 10, (List.range 25).drop 20] := by decide +kernel
example : pageOf (List.range 25) (some 3) none = ([20, 21, 22, 23, 24], some 3, 5) := by decide
example : pageOf (List.range 25) (some 7) (some 400) = ([20, 21, 22, 23, 24], some 3, 5) := by decide

end Verif.Props
