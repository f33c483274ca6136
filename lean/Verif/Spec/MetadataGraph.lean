import Verif.Spec.InventoryGraph
import Verif.Spec.Inventory
import Verif.Model.MetadataGraph
/-!
Specification vocabulary for C106: a library and what the one graph says of it.
-/
namespace Verif.Spec
open Verif.Py Verif.Model

/-- `capitains:parent`. -/
def parentPredicate : Term := .uri "http://purl.org/capitains/ns/1.0#parent".toList

/-- The inventory that a resolver makes up for texts of several inventories or of none. -/
def madeUp : Str := "defaultInventory".toList

/-- The graph has one type and one model for an identifier, and these are they. -/
structure IsA (g : Graph) (id : Str) (type model : String) : Prop where
  type : ∀ o, (⟨.uri id, typePredicate, o⟩ : Triple) ∈ g ↔ o = cts type
  model : ∀ o, (⟨.uri id, modelPredicate, o⟩ : Triple) ∈ g ↔ o = .uri ("https://w3id.org/dts/api#".toList ++ model.toList)

/-- The text `t` in its work, textgroup and inventory. -/
structure InPlace (r : RootV) (i : InvV) (tg : TgV) (w : WorkV) (t : TextV) : Prop where
  inRoot : i ∈ r.invs
  inInv : tg ∈ i.tgs
  inGroup : w ∈ tg.works
  inWork : t ∈ w.texts

/-- The graph knows of the library: every object has its type and its parent, and nothing has two languages. Identifiers have no hash, those
of texts are different from each other, and none is that of the inventory that is made up. -/
structure LibraryIn (g : Graph) (r : RootV) : Prop where
  once : ∀ s o o', (⟨s, dc "language", o⟩ : Triple) ∈ g → (⟨s, dc "language", o'⟩ : Triple) ∈ g → o = o'
  ids : ((rootTexts r).map TextV.id).Nodup
  plain : ∀ i tg w t, InPlace r i tg w t → '#' ∉ tg.id ∧ '#' ∉ w.id ∧ '#' ∉ t.id
  named : ∀ i tg w t, InPlace r i tg w t → i.id ≠ madeUp ∧ tg.id ≠ madeUp ∧ w.id ≠ madeUp ∧ t.id ≠ madeUp
  types : ∀ i tg w t, InPlace r i tg w t → IsA g i.id "TextInventory" "collection" ∧ IsA g tg.id "textgroup" "collection" ∧
    IsA g w.id "work" "collection" ∧ (t.kind ≠ .plain → IsA g t.id (kindName t.kind) "resource")
  parents : ∀ i tg w t, InPlace r i tg w t → (⟨.uri tg.id, parentPredicate, .uri i.id⟩ : Triple) ∈ g ∧
    (⟨.uri w.id, parentPredicate, .uri tg.id⟩ : Triple) ∈ g ∧ (⟨.uri t.id, parentPredicate, .uri w.id⟩ : Triple) ∈ g

/-- The graph after a history of calls of `getMetadata`. -/
def graphAfterAsking (order : Order) (r : RootV) : Graph → List (Option Str) → Graph
  | g, [] => g
  | g, o :: rest => graphAfterAsking order r (getMetadataG order g r o).2 rest

end Verif.Spec
