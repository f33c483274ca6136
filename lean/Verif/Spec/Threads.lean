import Verif.Model.Threads
/-!
What threads that list the members of a collection should get.
-/
namespace Verif.Spec
open Verif.Py Verif.Model

/-- The members of the pages 1 to `n`, in order, each where it comes first. -/
def membersUpTo (e : Listing) (n : Nat) : List Str := ((List.range n).flatMap fun i => (e.page (i + 1)).members).eraseDups

/-- All members. -/
def allMembers (e : Listing) : List Str := membersUpTo e e.last

/-- Every page says what is next, or that nothing is: it has a view. -/
def Paged (e : Listing) : Prop := 1 ≤ e.last ∧ ∀ p, 1 ≤ p → p ≤ e.last → (e.page p).view = true

/-- All requests of the thread are answered. -/
def AlwaysAnswered (t : Nat) (s : List (Nat × Bool)) : Prop := (t, false) ∉ s

/-- The steps that the schedule gives the thread. -/
def stepsOf (t : Nat) (s : List (Nat × Bool)) : Nat := (s.filter fun x => x.1 == t).length

end Verif.Spec
