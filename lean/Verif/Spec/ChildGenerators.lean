import Verif.Model.ChildGenerators
/-!
What going through children one by one should give.
-/
namespace Verif.Spec
open Verif.Py Verif.Model

/-- The children that were given, without ends and errors. -/
def childrenGiven : List Pulled → List Str
  | [] => []
  | .child x :: r => x :: childrenGiven r
  | .stop :: r => childrenGiven r
  | .error :: r => childrenGiven r

/-- How often the program asks generator `g` for the next child. -/
def asksOf (g : Nat) (ops : List ChildOp) : Nat := (ops.filter fun | .next i _ _ => i == g | .look _ => false).length

/-- The source answers whatever generator `g` asks of it. -/
def SourceAnswers (g : Nat) (ops : List ChildOp) : Prop := ∀ a b, ChildOp.next g a b ∈ ops → a = true ∧ b = true

/-- How often the source would not tell the identifiers. -/
def refusals (ops : List ChildOp) : Nat := (ops.filter fun | .next _ a _ => !a | .look a => !a).length

/-- What `n` calls of `next` give when nothing fails: the children in order, and then the end, again and again. -/
def firstCalls (all : List Str) (n : Nat) : List Pulled := (all.map Pulled.child ++ List.replicate n Pulled.stop).take n

end Verif.Spec
