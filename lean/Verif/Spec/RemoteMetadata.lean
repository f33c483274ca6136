import Verif.Model.RemoteMetadata
import Verif.Spec.RemoteText
import Verif.Spec.InventoryXml
/-!
Specification vocabulary for the metadata that a resolver takes from a CTS endpoint (C85).
-/
namespace Verif.Spec
open Verif.Py Verif.Model

/-- The object stands in the inventory, below these parents, the nearest first. -/
inductive StandsIn (i : XInv) : XObject → List XObject → Prop
  | inventory : StandsIn i (.inventory i) []
  | textgroup {g} : g ∈ i.groups → StandsIn i (.textgroup g) [.inventory i]
  | work {g w} : g ∈ i.groups → w ∈ g.works → StandsIn i (.work w) [.textgroup g, .inventory i]
  | text {g w t} : g ∈ i.groups → w ∈ g.works → t ∈ w.texts → StandsIn i (.text t) [.work w, .textgroup g, .inventory i]

/-- The identifier of an object. -/
def identifier : XObject → Str
  | .inventory i => i.id
  | .textgroup g => g.id
  | .work w => w.id
  | .text t => t.id

/-- No two objects of the inventory have the same identifier. -/
def UniqueIds (i : XInv) : Prop := ∀ o above o' above', StandsIn i o above → StandsIn i o' above' → identifier o = identifier o' → o = o' ∧ above = above'

/-- The reply holds the inventory of another document: the same inventories and textgroups stand in it, in the same order. -/
def Carries (reply doc : Node) : Prop :=
  named "ti:TextInventory" reply = named "ti:TextInventory" doc ∧ named "ti:textgroup" reply = named "ti:textgroup" doc

/-- The reply to `GetCapabilities` in the protocol. -/
def capabilities (request : List Node) (doc : Node) : Node :=
  .mk "ti:GetCapabilities".toList [] [] [.mk "ti:request".toList [] [] request [], .mk "ti:reply".toList [] [] [doc] []] []

end Verif.Spec
