import Verif.Model.UrnCopies
/-!
What copies of URNs should do.
-/
namespace Verif.Spec
open Verif.Py Verif.Model

/-- What a program does to URN `i`. -/
def doneTo (i : Nat) : List UrnCopyOp → List UrnOp
  | [] => []
  | .on j op :: r => if j = i then op :: doneTo i r else doneTo i r
  | _ :: r => doneTo i r

/-- No URN of the program has the components of another. -/
def EachItsOwn (w : UrnStore) : Prop :=
  (∀ i, i < w.num → w.dict i < w.used) ∧ ∀ i j, i < w.num → j < w.num → w.dict i = w.dict j → i = j

/-- The program makes no plain copies. -/
def NoPlain (ops : List UrnCopyOp) : Prop := ∀ i, .copy i ∉ ops

/-- The program assigns nothing. -/
def OnlyReads (ops : List UrnCopyOp) : Prop := ∀ i op, .on i op ∈ ops → op = .readStr

/-- The text that `str` gives. -/
def urnText (u : Urn) : Except PyErr Str := (·.1) <$> u.str

end Verif.Spec
