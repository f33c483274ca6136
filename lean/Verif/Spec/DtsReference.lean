import Verif.Model.DtsReference
import Verif.Spec.Metadata
/-!
Specification vocabulary for DTS references and citations (C81).
-/
namespace Verif.Spec
open Verif.Py Verif.Model

/-- The type of a reference as the graph has it. -/
def HasType (g : Graph) (r : DRef) (type : Option Str) : Prop :=
  ∀ o, (⟨r.node, .uri "https://w3id.org/dts/api#citeType".toList, o⟩ : Triple) ∈ g ↔ ∃ t, type = some t ∧ o = .lit t none none

mutual
/-- Two citations are the same: same name, same root, and the same children in the same order. -/
inductive SameCite (h : DCHeap) : Nat → Nat → Prop
  | mk {a b : Nat} : (h a).name = (h b).name → (h a).root = (h b).root → SameCites h (h a).children (h b).children → SameCite h a b
/-- Two lists of citations are the same. -/
inductive SameCites (h : DCHeap) : List Nat → List Nat → Prop
  | nil : SameCites h [] []
  | cons {a b : Nat} {l m : List Nat} : SameCite h a b → SameCites h l m → SameCites h (a :: l) (b :: m)
end

/-- Citations as they are parsed: each has a set of citations as root, and its children are citations further down, `rank`
being the number of levels from them downwards. -/
structure Parsed (h : DCHeap) (rank : Nat → Nat) : Prop where
  root : ∀ x, (h x).isSet = false → ∃ r, (h x).root = some r ∧ (h r).isSet = true
  child : ∀ x, (h x).isSet = false → ∀ c ∈ (h x).children, (h c).isSet = false ∧ rank c < rank x

end Verif.Spec
