import Verif.Spec.RemotePassage
import Verif.Spec.RemoteText
import Verif.Spec.Siblings
import Verif.Model.RemoteExport
/-!
Endpoints that serve a document (C97): what they answer, in terms of the citable units of the document and of the elements
of the replies. Nothing here is about the code of remote texts; requests are those of C57.
-/
namespace Verif.Spec
open Verif.Py Verif.Model

/-- The same element, but for what follows it. -/
def SameElement (x y : Node) : Prop := x.tag = y.tag ∧ x.attrs = y.attrs ∧ x.text = y.text ∧ x.kids = y.kids

/-- A reply with a `ti:request`; when it has a `ti:citation`, there is one in the first `ti:request`. -/
def Readable (doc : Node) : Prop :=
  ∃ x rest, named "ti:request" doc = x :: rest ∧
    ((∀ e ∈ elements doc, e.tag ≠ "ti:citation".toList) ∨ ∃ e ∈ below x, e.tag = "ti:citation".toList)

/-- The elements `tei:TEI` that are children of a `ti:passage`, with the names of the elements around each. -/
def teiIn (doc : Node) : List (List Str × Node) :=
  (situated [] doc).filter fun p => p.2.tag = "tei:TEI".toList ∧ p.1.head? = some "ti:passage".toList

/-- A reply with a passage: the first `tei:TEI` in a `ti:passage` is the given tree, and lies in elements of the given names only. -/
def GivesText (doc : Node) (env : List Str) (tree : Node) : Prop :=
  ∃ around x rest, teiIn doc = (around, x) :: rest ∧ (∀ a ∈ around, a ∈ env) ∧ SameElement x tree

/-- The URNs that a reply lists. -/
def listedUrns (doc : Node) : List Str := (anywhereIn "ti:reply" "ti:urn" doc).flatMap directTexts

/-- The siblings that a reply announces. -/
def announcedIn (doc : Node) : Option (Option Str × Option Str) :=
  (named "ti:prevnext" doc).head?.map fun p => (sideUrn "ti:prev" p, sideUrn "ti:next" p)

/-- The reference with these components, if there are any. -/
def refOf (ids : List Str) : Option Str := if ids = [] then none else some (dotted ids)

/-- An endpoint that serves a document as text `text`: it lists the units of every level, in all of the text and in every unit of a
higher level; it gives the passage of every unit, with or without its siblings; and it gives the siblings of every unit. Replies
have the passage in elements with names in `env`. -/
structure ServesDocument (serve : DocEndpoint) (d : Option Str) (text : Str) (env : List Str) (root : Node) (ls : List Level) : Prop where
  plainIds : ∀ k, ∀ u ∈ units (ls.take k) root, ∀ v ∈ u.1, ':' ∉ v ∧ '#' ∉ v
  lists : ∀ k under, under.length < k → k ≤ ls.length → (∃ t, (under, t) ∈ units (ls.take under.length) root) →
    ∃ doc, serve (ctsValidReff d (wholeOr text (refOf under)) none (some (k : Int))) = .ok doc ∧ Readable doc ∧
      listedUrns doc = (listing root ls k under).map fun ids => text ++ ':' :: dotted ids
  passages : ∀ k before after u, 1 ≤ k → k ≤ ls.length → units (ls.take k) root = before ++ u :: after →
    ∃ doc, serve (ctsPassage d (text ++ ':' :: dotted u.1) none none) = .ok doc ∧ Readable doc ∧
      GivesText doc env (emptied root (chainTo root u.2)) ∧
      (announcedIn doc = none ∨ announcedIn doc =
        some (before.getLast?.map fun w => text ++ ':' :: dotted w.1, after.head?.map fun w => text ++ ':' :: dotted w.1))
  siblings : ∀ k before after u, 1 ≤ k → k ≤ ls.length → units (ls.take k) root = before ++ u :: after →
    ∃ doc, serve (ctsPrevNextUrn d (text ++ ':' :: dotted u.1) none) = .ok doc ∧
      announcedIn doc =
        some (before.getLast?.map fun w => text ++ ':' :: dotted w.1, after.head?.map fun w => text ++ ':' :: dotted w.1)

/-- The endpoint gives all of the text too, and the reply declares the scheme `scheme`, or none when that is empty. -/
structure ServesWhole (serve : DocEndpoint) (d : Option Str) (text : Str) (env : List Str) (root : Node) (scheme : List CiteLevel) : Prop where
  whole : ∃ doc, serve (ctsPassage d text none none) = .ok doc ∧ Readable doc ∧ GivesText doc env root ∧ Adopts doc doc [] scheme

/-- The ways to name the unit with the given components to a text: its reference as a string, as a list of components or as an object, or
its URN as a string or as an object. -/
def NamesUnit (text : Str) (ids : List Str) : NodeArg → Prop
  | .text s => s = dotted ids ∨ s = text ++ ':' :: dotted ids
  | .list l => l = ids
  | .ref r => r = single ids
  | .urn v => Urn.parse (text ++ ':' :: dotted ids) = .ok v
  | .other => False

/-- What a remote passage says of a sibling that a local passage gives. -/
def sibOf : Option Ref → Sib
  | none => .absent
  | some r => .known r.str

/-- A remote passage and a local one agree: the remote one has the URN with the reference of the local one and the same element, and the
same plain text for every exclusion that spares the envelope of the reply. -/
structure Agree (text : Str) (env : List Str) (p : OpenedPassage) (q : Passage) : Prop where
  urn : AtUrn p.nav (text ++ ':' :: q.ref.str)
  element : SameElement p.element q.tree
  plain : ∀ ex : List Str, (∀ e ∈ ex, e ∉ env) → p.plain ex = plainText defaultJoin [] ex q.tree

/-- A reader of a remote text who starts at `r`, asks the text for the passage, and goes on with its `nextId` until there is none. The
number bounds the passages read; when it does not suffice, this is an error. -/
def readRemote (serve : DocEndpoint) (d : Option Str) (fresh : Nat → Term) : Nat → Str → RemoteText → Except PyErr (List OpenedPassage)
  | 0, _, _ => .error .recursion
  | fuel + 1, r, s =>
    match s.getNode serve d (.text r) (fresh s.log.length) with
    | (_, .error e) => .error e
    | (s, .ok p) =>
      match (p.nav.nextId serve.replies d).2 with
      | .error e => .error e
      | .ok .unknown => .error .typeError
      | .ok .absent => .ok [p]
      | .ok (.known r) =>
        match readRemote serve d fresh fuel r s with
        | .error e => .error e
        | .ok ps => .ok (p :: ps)

end Verif.Spec
