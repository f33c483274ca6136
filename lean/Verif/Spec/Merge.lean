import Verif.Model.Merge
/-!
Collections as objects: what their owner sees of them, and what it means that they hold together.
-/
namespace Verif.Spec
open Verif.Py Verif.Model

/-- A text as its owner sees it; its language is read from its own graph. -/
def textView (order : Order) (s : MStore) (a : Nat) : TextV :=
  { id := (s.heap a).id, urn := (s.heap a).urn, kind := (s.heap a).kind, lang := getLang order (s.graphOf a) (s.node a),
    cite := (s.heap a).cite, path := (s.heap a).path }

/-- A work as its owner sees it, with its texts. -/
def workView (order : Order) (s : MStore) (a : Nat) : WorkV :=
  { id := (s.heap a).id, lang := getLang order (s.graphOf a) (s.node a),
    texts := (s.heap a).children.map fun e => textView order s e.2 }

/-- A textgroup as its owner sees it, with its works. -/
def tgView (order : Order) (s : MStore) (a : Nat) : TgV :=
  { id := (s.heap a).id, works := (s.heap a).children.map fun e => workView order s e.2 }

/-- The works of a textgroup and the texts of a work, as objects. -/
def heldBy (s : MStore) (a : Nat) : List Nat := (s.heap a).children.map (·.2)

/-- The textgroup, its works and their texts, as objects. -/
def treeOf (s : MStore) (a : Nat) : List Nat := a :: heldBy s a ++ (heldBy s a).flatMap (heldBy s)

/-- The class of what a collection holds. -/
def holds : MClass → MClass → Prop
  | .textgroup, .work => True
  | .work, .text => True
  | .inventory, .textgroup => True
  | .inventories, .inventory => True
  | _, _ => False

/-- The collections hold together: what exists refers to what exists, dictionaries of children have the identifiers as keys,
each once, and classes are nested as they should be. -/
structure Sound (s : MStore) : Prop where
  exist : ∀ a < s.next, ∀ e ∈ (s.heap a).children, e.2 < s.next
  keyed : ∀ a < s.next, ∀ e ∈ (s.heap a).children, (s.heap e.2).id = e.1
  once : ∀ a < s.next, ((s.heap a).children.map (·.1)).Nodup
  nested : ∀ a < s.next, ∀ e ∈ (s.heap a).children, holds (s.heap a).cls (s.heap e.2).cls
  graphs : ∀ a < s.next, (s.heap a).graph < s.graphCount

/-- No graph gives two languages to one node, as the setter of `lang` ensures. -/
def OneLanguage (s : MStore) : Prop :=
  ∀ g < s.graphCount, ∀ n l l', ⟨n, .uri "http://purl.org/dc/elements/1.1/language".toList, l⟩ ∈ s.graphs g →
    ⟨n, .uri "http://purl.org/dc/elements/1.1/language".toList, l'⟩ ∈ s.graphs g → l = l'

/-- What an object says under a predicate: the triples of its graph that have it as subject. -/
def says (s : MStore) (a : Nat) (p o : Term) : Prop := ⟨s.node a, p, o⟩ ∈ s.graphOf a

end Verif.Spec
