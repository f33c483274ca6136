import Verif.Spec.LocalText
/-! Specification vocabulary for navigation between passages (C32-C34, C64). -/
namespace Verif.Spec
open Verif.Py Verif.Model

/-- The reference to the range from the first to the last of some passages. -/
def span : List (List Str) → Option Ref
  | [] => none
  | x :: r => some (mkRef2 (dotted x) (dotted (r.getLast?.getD x)))

/-- The last `n` elements. -/
def lastN {α : Type} (n : Nat) (l : List α) : List α := l.drop (l.length - n)

end Verif.Spec
