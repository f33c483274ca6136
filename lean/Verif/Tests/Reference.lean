import Verif.Model.Reference
/-!
Assertions of /repo/tests/common/test_reference/test_capitains_cts.py 9-88, evaluated on the model. These are tests, not proofs.
-/
namespace Verif.Tests
open Verif.Py Verif.Model

/-- `CtsReference(s)`. -/
def ref (s : String) : Except PyErr (Option Ref) := mkRef s.toList

/-- An attribute of `CtsReference(s)`, for a text that makes one. -/
def ofRef {α : Type} (s : String) (f : Ref → α) : Option α :=
  match ref s with
  | .ok (some r) => some (f r)
  | _ => none

/-- `\w` for the words of the tests: Greek and Latin letters. -/
def testWord (c : Char) : Bool := c.isAlpha || 0x370 ≤ c.toNat && c.toNat ≤ 0x3ff || 0x1f00 ≤ c.toNat && c.toNat ≤ 0x1fff

-- test_str_function
example : ofRef "1-1" Ref.str = some "1-1".toList := by decide +kernel
-- test_depth_ref
example : ofRef "1.1@Achilles[0]-1.10@Atreus[3]" Ref.depth = some 2 := by decide +kernel
example : ofRef "1.1.1" Ref.depth = some 3 := by decide +kernel
-- test_highest
example : ofRef "1.1-1.2.8" Ref.highest = some "1.1".toList := by decide +kernel
example : ofRef "1.1-2" Ref.highest = some "2".toList := by decide +kernel
-- test_properties
example : ofRef "1.1@Achilles-1.10@Atreus[3]" Ref.start = some "1.1@Achilles".toList := by decide +kernel
example : ofRef "1.1@Achilles-1.10@Atreus[3]" (fun r => plist r.start) = some ["1".toList, "1".toList] := by decide +kernel
example : ofRef "1.1@Achilles-1.10@Atreus[3]" (fun r => (psubref testWord r.start).map WordRef.word) = some (some "Achilles".toList) := by decide +kernel
example : ofRef "1.1@Achilles-1.10@Atreus[3]" Ref.stop = some (some "1.10@Atreus[3]".toList) := by decide +kernel
example : ofRef "1.1@Achilles-1.10@Atreus[3]" (fun r => r.stop.map plist) = some (some ["1".toList, "10".toList]) := by decide +kernel
example : ofRef "1.1@Achilles-1.10@Atreus[3]" (fun r => (r.stop.bind (psubref testWord)).map fun w => (w.word, w.counter)) =
    some (some ("Atreus".toList, 3)) := by decide +kernel
-- test_Unicode_Support
example : ofRef "1.1@καὶ[0]-1.10@Ἀλκιβιάδου[3]" Ref.start = some "1.1@καὶ[0]".toList := by decide +kernel
example : ofRef "1.1@καὶ[0]-1.10@Ἀλκιβιάδου[3]" (fun r => plist r.start) = some ["1".toList, "1".toList] := by decide +kernel
example : ofRef "1.1@καὶ[0]-1.10@Ἀλκιβιάδου[3]" (fun r => (psubref testWord r.start).map WordRef.word) = some (some "καὶ".toList) := by decide +kernel
example : ofRef "1.1@καὶ[0]-1.10@Ἀλκιβιάδου[3]" Ref.stop = some (some "1.10@Ἀλκιβιάδου[3]".toList) := by decide +kernel
example : ofRef "1.1@καὶ[0]-1.10@Ἀλκιβιάδου[3]" (fun r => (r.stop.bind (psubref testWord)).map fun w => (w.word, w.counter)) =
    some (some ("Ἀλκιβιάδου".toList, 3)) := by decide +kernel
-- test_NoWord_Support, test_No_End_Support
example : ofRef "1.1@[0]-1.10@Ἀλκιβιάδου[3]" (fun r => (r.start, (psubref testWord r.start).map fun w => (w.word, w.counter))) =
    some ("1.1@[0]".toList, some ([], 0)) := by decide +kernel
example : ofRef "1.1@[0]" (fun r => (r.stop, r.start, (psubref testWord r.start).map fun w => (w.word, w.counter))) =
    some (none, "1.1@[0]".toList, some ([], 0)) := by decide +kernel
-- test_equality
example : ref "1.1@[0]" = ref "1.1@[0]" := rfl
example : ofRef "1.1@[0]" (fun a => ofRef "1.1@[1]" fun c => decide (a.eqv c)) = some (some false) := by decide +kernel
-- test_get_parent
example : ofRef "1.1" Ref.parent = some (ref "1") := by decide +kernel
example : ofRef "1" Ref.parent = some (.ok none) := by decide +kernel
example : ofRef "1.1-2.3" (fun r => r.parent.map (·.map Ref.str)) = some (.ok (some "1-2".toList)) := by decide +kernel
example : ofRef "1.1-2.3" Ref.parent = some (ref "1-2") := by decide +kernel
example : ofRef "1.1-1.2" (fun r => r.parent.map (·.map Ref.str)) = some (.ok (some "1".toList)) := by decide +kernel
example : ofRef "1.1@Something[0]-1.2@SomethingElse[2]" (fun r => r.parent.map (·.map Ref.str)) =
    some (.ok (some "1@Something[0]-1@SomethingElse[2]".toList)) := by decide +kernel
example : ofRef "1-2" Ref.parent = some (.ok none) := by decide +kernel

end Verif.Tests
