import Verif.Lemmas.Str
import Verif.Model.Retriever
/-!
Decimal numbers: `natStr` and `intStr` write what `toString` writes.
-/
namespace Verif.Lemmas
open Verif.Py Verif.Model

theorem natStr_toDigits (n : Nat) : natStr n = Nat.toDigits 10 n := by
  have hd : ∀ d, d < 10 → digitChar d = Nat.digitChar d := by decide
  induction n using natStr.induct with
  | case1 n h => rw [natStr, if_pos h, Nat.toDigits_of_lt_base h, hd n h]
  | case2 n h ih =>
    rw [natStr, if_neg h, Nat.toDigits_of_base_le (by decide) (by omega), ih, hd _ (Nat.mod_lt _ (by decide))]

theorem natStr_toString (n : Nat) : natStr n = (toString n).toList := by
  rw [natStr_toDigits, show toString n = n.repr from rfl, Nat.repr_eq_ofList_toDigits]
  simp

theorem intStr_toString (i : Int) : intStr i = (toString i).toList := by
  cases i with
  | ofNat n =>
    have h : ¬ Int.ofNat n < 0 := by simp
    rw [intStr, if_neg h]
    exact natStr_toString n
  | negSucc n =>
    have h : Int.negSucc n < 0 := Int.negSucc_lt_zero n
    rw [intStr, if_pos h]
    have e : (-Int.negSucc n).toNat = n + 1 := by simp [Int.neg_negSucc]
    rw [e, natStr_toString]
    show _ = ("-" ++ (Nat.succ n).repr).toList
    rw [String.toList_append]
    rfl

end Verif.Lemmas
