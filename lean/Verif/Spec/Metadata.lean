import Verif.Model.Metadata
/-!
Specification vocabulary for metadata (C48, C49, C50): when a value counts as written and as erased. It uses
the types of terms and operations.
-/
namespace Verif.Spec
open Verif.Py Verif.Model

/-- What a value becomes: a literal stays; with a language anything else becomes a literal in that language;
without one a term stays, and a string becomes a literal. -/
def stored : Value → Option Str → Term
  | .term (.lit s l d), _ => .lit s l d
  | .term (.uri s), some l => .lit s (some l) none
  | .term (.bnode s), some l => .lit s (some l) none
  | .term t, none => t
  | .str s, l => .lit s l none

/-- The operation writes `o` as a value of `key` of `node`. -/
def Writes (op : MetaOp) (node key o : Term) : Prop :=
  ∃ v l, (op = .set node key v l ∨ op = .add node key v l) ∧ stored v l = o

/-- The operation erases `o` as a value of `key` of `node`: another `set` of that key, a `remove` that matches,
or an `unlink` of the object `o` that matches. -/
def Erases (op : MetaOp) (node key o : Term) : Prop :=
  (∃ v l, op = .set node key v l) ∨
  (∃ p x, op = .remove node p x ∧ (p = none ∨ p = some key) ∧ (x = none ∨ x = some o)) ∨
  (∃ s p, op = .unlink o s p ∧ (s = none ∨ s = some node) ∧ (p = none ∨ p = some key))

/-- After the operations, `o` has been written as a value of `key` of `node` and not been erased since, or it
was there before and never erased. -/
def Holds (before : Prop) (ops : List MetaOp) (node key o : Term) : Prop :=
  (before ∧ ∀ op ∈ ops, ¬ Erases op node key o) ∨
  ∃ pre op post, ops = pre ++ op :: post ∧ Writes op node key o ∧ ∀ x ∈ post, ¬ Erases x node key o

/-- An order of reading: any rearrangement. -/
def Rearranges (order : Order) : Prop := ∀ g, (order g).Perm g

/-- A value that is a literal in a language. -/
def InLanguage (l : Str) (t : Term) : Prop := ∃ s d, t = .lit s (some l) d

/-- A value that is a literal. -/
def IsLiteral (t : Term) : Prop := ∃ s l d, t = .lit s l d

end Verif.Spec
