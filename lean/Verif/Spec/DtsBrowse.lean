import Verif.Model.DtsBrowse
import Verif.Spec.DtsCollection
/-!
Specification vocabulary for C101: a hierarchy of collections, an endpoint that offers it, what a user reads of it.
-/
namespace Verif.Spec
open Verif.Py Verif.Model

/-- A collection as an endpoint has it: what it says of it, the numbers of the pages that list what is inside, and what is
inside. -/
inductive Shelf where
  | mk (id : Str) (items : Nat) (resource : Bool) (pages : List Nat) (inside : List Shelf)

/-- The identifier. -/
def Shelf.id : Shelf → Str
  | .mk id _ _ _ _ => id

/-- The number of items that the endpoint announces. -/
def Shelf.items : Shelf → Nat
  | .mk _ n _ _ _ => n

/-- Whether it can be read. -/
def Shelf.resource : Shelf → Bool
  | .mk _ _ r _ _ => r

/-- The pages of its listing. -/
def Shelf.pages : Shelf → List Nat
  | .mk _ _ _ p _ => p

/-- What is inside. -/
def Shelf.inside : Shelf → List Shelf
  | .mk _ _ _ _ l => l

/-- What is seen of it in a list. -/
def Shelf.label (t : Shelf) : Str × Bool := (t.id, t.resource)

/-- What the endpoint says of it in a list of members. -/
def Shelf.entry (t : Shelf) : DtsEntry := ⟨t.id, t.items, t.resource, false⟩

mutual
/-- All that is below a collection: what is inside, then what is below each of these. -/
def Shelf.under : Shelf → List (Str × Bool)
  | .mk _ _ _ _ inside => inside.map Shelf.label ++ underAll inside
/-- All that is below some collections, one after the other. -/
def underAll : List Shelf → List (Str × Bool)
  | [] => []
  | t :: ts => t.under ++ underAll ts
end

/-- The requests for the listing of a collection. -/
def Shelf.ownRequests (query : List (Str × List Str)) (t : Shelf) : List (List (Str × List Str)) :=
  t.pages.map fun n => collRequest query t.id .children n

mutual
/-- The requests for the listings of a collection and of all below it: each listing once, depth first. -/
def Shelf.requests (query : List (Str × List Str)) : Shelf → List (List (Str × List Str))
  | .mk id items resource pages inside => Shelf.ownRequests query (.mk id items resource pages inside) ++ requestsAll query inside
/-- The same for some collections. -/
def requestsAll (query : List (Str × List Str)) : List Shelf → List (List (Str × List Str))
  | [] => []
  | t :: ts => t.requests query ++ requestsAll query ts
end

/-- The members of a reply, by identifier, and its view. -/
def _root_.Verif.Model.DtsListing.raw (a : DtsListing) : CollPage DtsEntry := ⟨a.members.map fun e => (e.id, e), a.view⟩

/-- The pages of an endpoint for a collection. -/
def listingOf (net : DtsCatalogue) (query : List (Str × List Str)) (id : Str) (n : Nat) : Except PyErr (CollPage DtsEntry) :=
  DtsListing.raw <$> net (collRequest query id .children n)

/-- An endpoint offers a hierarchy: a collection announced without items has none; the others are listed by a chain of pages
from the first on, which together name what is inside, in order; names inside a collection are different; and what is
inside is offered as well. A collection may stand in several places. -/
inductive Offers (net : DtsCatalogue) (query : List (Str × List Str)) : Shelf → Prop where
  | mk {id : Str} {items : Nat} {resource : Bool} {pages : List Nat} {inside : List Shelf} :
    (items = 0 → pages = [] ∧ inside = []) →
    (items ≠ 0 → ∃ chain, CollChain (listingOf net query id) 1 chain ∧ chain.map (·.1) = pages ∧ (chainMembers chain).map (·.2) = inside.map Shelf.entry) →
    (inside.map Shelf.id).Nodup → (∀ t ∈ inside, Offers net query t) → Offers net query (.mk id items resource pages inside)

/-- What a user reads of a collection. -/
inductive BrowseOp where
  | members
  | descendants
  | readable
  | contains (key : Str)
  | get (key : Str)
  deriving DecidableEq, Repr

/-- What they see. -/
inductive BrowseAnswer where
  | labels (l : List (Str × Bool))
  | yes (b : Bool)
  | found (x : Str × Bool)
  deriving DecidableEq, Repr

/-- What they should see. -/
def Shelf.answer (t : Shelf) : BrowseOp → Except PyErr BrowseAnswer
  | .members => .ok (.labels (t.inside.map Shelf.label))
  | .descendants => .ok (.labels t.under)
  | .readable => .ok (.labels (t.under.filter (·.2)))
  | .contains key => .ok (.yes (decide (key ∈ (t.label :: t.under).map (·.1))))
  | .get key => match (t.label :: t.under).find? fun x => x.1 == key with
    | some x => .ok (.found x)
    | none => .error .unknownCollection

/-- How far one has to look: 0 for the collection itself, 1 for what is inside, 2 for all below. -/
def Shelf.reach (t : Shelf) : BrowseOp → Nat
  | .members => 1
  | .get key => if key = t.id then 0 else if key ∈ t.inside.map Shelf.id then 1 else 2
  | _ => 2

/-- What has to be requested for that. -/
def Shelf.needed (query : List (Str × List Str)) (own : List (List (Str × List Str))) (t : Shelf) : Nat → List (List (Str × List Str))
  | 0 => []
  | 1 => own
  | _ => own ++ requestsAll query t.inside

/-- One reading. -/
def readOp (net : DtsCatalogue) (query : List (Str × List Str)) (fuel depth : Nat) (log : List (List (Str × List Str))) (o : DtsShelf) :
    BrowseOp → Option (List (List (Str × List Str)) × DtsShelf × Except PyErr BrowseAnswer)
  | .members => (o.members net query fuel log).map fun x => (x.1, x.2.1, (fun l => .labels (l.map DtsShelf.label)) <$> x.2.2)
  | .descendants => (o.descendants net query fuel depth log).map fun x => (x.1, x.2.1, .labels <$> x.2.2)
  | .readable => (o.readableDescendants net query fuel depth log).map fun x => (x.1, x.2.1, .labels <$> x.2.2)
  | .contains key => (o.contains net query fuel depth log key).map fun x => (x.1, x.2.1, .yes <$> x.2.2)
  | .get key => (o.get net query fuel depth log key).map fun x => (x.1, x.2.1, .found <$> x.2.2)

/-- Some readings, each with the endpoint as it is then. -/
def browse (query : List (Str × List Str)) (fuel depth : Nat) :
    List (List (Str × List Str)) → DtsShelf → List (DtsCatalogue × BrowseOp) → Option (List (List (Str × List Str)) × DtsShelf × List (Except PyErr BrowseAnswer))
  | log, o, [] => some (log, o, [])
  | log, o, (net, op) :: rest =>
    match readOp net query fuel depth log o op with
    | none => none
    | some (log, o, a) =>
      match browse query fuel depth log o rest with
      | none => none
      | some (log, o, as) => some (log, o, a :: as)

/-- An endpoint that may fail, but when it answers answers as `net` does. -/
def Truthful (serve net : DtsCatalogue) : Prop := ∀ r a, serve r = .ok a → net r = .ok a

/-- A failure of an endpoint at a request that is answered at other times. -/
def Fails (serve net : DtsCatalogue) (e : PyErr) : Prop := ∃ r a, serve r = .error e ∧ net r = .ok a

end Verif.Spec
