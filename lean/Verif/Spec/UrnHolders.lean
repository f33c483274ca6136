import Verif.Model.UrnHolders
import Verif.Spec.UrnCopies
/-!
What texts and passages should keep while others change.
-/
namespace Verif.Spec
open Verif.Py Verif.Model

/-- What a text or passage says of itself: identifier, reference, and components and text of its URN. -/
def nodeSays (n : TextNode) : Str × Option Ref × Option (Model.UrnParts × Except PyErr Str) :=
  (n.id, n.ref, n.urn.map fun u => (u.parts, urnText u))

/-- No two texts or passages have one URN object. -/
def OwnUrns (w : HolderWorld) : Prop :=
  (∀ n k, n < w.num → w.holds n = some k → k < w.used) ∧ ∀ n m k, n < w.num → m < w.num → w.holds n = some k → w.holds m = some k → n = m

/-- The program gives URNs as strings, and does not ask simply for all of a text. -/
def NothingShared (ops : List HolderOp) : Prop := ∀ op ∈ ops, (∀ k, op ≠ .textWith k) ∧ (∀ n, op ≠ .whole n) ∧ ∀ n k, op ≠ .giveUrn n k

/-- The program does not assign to the URN of `n`, nor gives it another. -/
def LeavesUrn (n : Nat) (ops : List HolderOp) : Prop := ∀ op ∈ ops, (∀ o, op = .change n o → o = .readStr) ∧ ∀ s, op ≠ .give n s

end Verif.Spec
