import Verif.Model.Keys
/-!
What a dictionary with references for keys should answer, said without hashes, `==` or entries.
-/
namespace Verif.Spec
open Verif.Py Verif.Model

/-- What makes a key: nothing for `None`, the characters of a string, the elements of a tuple whatever its class. -/
def content : KeyObj → Option (Str ⊕ List (Option Str))
  | .none => none
  | .str s => some (.inl s)
  | .tup _ l _ => some (.inr l)
  | .urn s => some (.inl s)
  | .coll _ s => some (.inl s)

/-- The objects that may be keys. -/
def CanBeKey : KeyObj → Bool
  | .none => true
  | .str _ => true
  | .tup c _ _ => c ≠ .dts
  | .urn _ => false
  | .coll _ _ => false

/-- The statement is one about the key. -/
def About {α : Type} (k : KeyObj) : DictOp α → Bool
  | .put k' _ => CanBeKey k' && content k' = content k
  | .del k' => CanBeKey k' && content k' = content k

/-- What was last said about the key: the value that it was given, or nothing. -/
def lastSaid {α : Type} (k : KeyObj) (ops : List (DictOp α)) : Option α :=
  match (ops.filter (About k)).getLast? with
  | some (.put _ v) => some v
  | _ => none

end Verif.Spec
