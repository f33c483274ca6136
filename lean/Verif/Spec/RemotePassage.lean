import Verif.Model.RemotePassage
import Verif.Spec.Urn
import Verif.Spec.Reference
import Verif.Spec.Retriever
/-!
Specification vocabulary for remote passages (C62, C69, C70).
-/
namespace Verif.Spec
open Verif.Py Verif.Model

/-- What follows the last colon, or the whole text. -/
def AfterLastColon (s v : Str) : Prop := ':' ∉ v ∧ (s = v ∨ ∃ a, s = a ++ ':' :: v)

/-- The passages of a list of URNs, in its order. -/
def PassagesOf (urns ids : List Str) : Prop :=
  ids.length = urns.length ∧ ∀ (i : Nat) (u v : Str), urns[i]? = some u → ids[i]? = some v → AfterLastColon u v

/-- What an announcement says of a sibling: that there is none, or the passage of its URN. -/
def Announced (o : Option Str) (x : Sib) : Prop :=
  match o with
  | none => x = .absent
  | some urn => ∃ v, x = .known v ∧ AfterLastColon urn v

/-- What can be read of the siblings. -/
inductive SibRead where
  | prev
  | next
  | both
  deriving DecidableEq, Repr

/-- The values that a reading gives. -/
def SibRead.of (x y : Sib) : SibRead → List Sib
  | .prev => [x]
  | .next => [y]
  | .both => [x, y]

/-- A reading on a passage. -/
def readSib (serve : CtsEndpoint) (d : Option Str) (s : RemotePassage) : SibRead → RemotePassage × Except PyErr (List Sib)
  | .prev => let o := s.prevId serve d; (o.1, (fun x => [x]) <$> o.2)
  | .next => let o := s.nextId serve d; (o.1, (fun x => [x]) <$> o.2)
  | .both => let o := s.siblingsId serve d; (o.1, (fun x => [x.1, x.2]) <$> o.2)

/-- A sequence of readings, each with the endpoint as it is then: the passage afterwards and the answers. -/
def readSibs (d : Option Str) : RemotePassage → List (CtsEndpoint × SibRead) → RemotePassage × List (Except PyErr (List Sib))
  | s, [] => (s, [])
  | s, (serve, r) :: rest =>
    let o := readSib serve d s r
    let more := readSibs d o.1 rest
    (more.1, o.2 :: more.2)

/-- The URN of a text that has a work. -/
structure IsTextUrn (text : Str) (p : UrnParts) : Prop where
  wf : p.WF
  written : text = p.write
  work : p.wk ≠ none
  noPassage : p.ref = none

/-- The URN of a text, or of a passage of it. -/
def wholeOr (text : Str) : Option Str → Str
  | none => text
  | some r => text ++ ':' :: r

/-- Components of a passage that can stand in a URN. -/
def UrnComponents (cs : List Str) : Prop := cs ≠ [] ∧ ∀ c ∈ cs, IsComponent c ∧ ':' ∉ c ∧ '#' ∉ c

/-- The URN of the unit before position `i`. -/
def urnBefore (text : Str) (refs : List Str) (i : Nat) : Option Str :=
  if i = 0 then none else (refs[i - 1]?).map fun r => text ++ ':' :: r

/-- The URN of the unit after position `i`. -/
def urnAfter (text : Str) (refs : List Str) (i : Nat) : Option Str := (refs[i + 1]?).map fun r => text ++ ':' :: r

/-- An endpoint that has the units `refs` of a text, in this order: it gives the passage of each, with or without its
siblings, and it gives the siblings of each. -/
structure ServesText (serve : CtsEndpoint) (d : Option Str) (text : Str) (refs : List Str) : Prop where
  plain : ∀ r ∈ refs, PlainRef r
  passage : ∀ i r, refs[i]? = some r → ∃ reply, serve (ctsPassage d (text ++ ':' :: r) none none) = .ok reply ∧ reply.hasRequest = true ∧
    reply.hasText = true ∧ (reply.prevNext = none ∨ reply.prevNext = some (urnBefore text refs i, urnAfter text refs i))
  siblings : ∀ i r, refs[i]? = some r → ∃ reply, serve (ctsPrevNextUrn d (text ++ ':' :: r) none) = .ok reply ∧
    reply.prevNext = some (urnBefore text refs i, urnAfter text refs i)

/-- A move between units. -/
inductive Move where
  | next
  | prev
  deriving DecidableEq, Repr

/-- Where a sequence of moves leads among `len` positions, `none` when it leaves them. -/
def moved (len : Nat) : Nat → List Move → Option Nat
  | i, [] => some i
  | i, .next :: rest => if i + 1 < len then moved len (i + 1) rest else none
  | i, .prev :: rest => if i = 0 then none else moved len (i - 1) rest

/-- The positions that a sequence of moves visits. -/
def visited : Nat → List Move → List Nat
  | _, [] => []
  | i, .next :: rest => (i + 1) :: visited (i + 1) rest
  | i, .prev :: rest => (i - 1) :: visited (i - 1) rest

/-- Reading `next` or `prev`. -/
def makeMove (serve : CtsEndpoint) (d : Option Str) (s : RemotePassage) : Move → Except PyErr (Option RemotePassage)
  | .next => (s.goNext serve d).2
  | .prev => (s.goPrev serve d).2

/-- The passage that a sequence of readings of `next` and `prev` leads to, `none` for `None`. -/
def navigate (serve : CtsEndpoint) (d : Option Str) : List Move → RemotePassage → Except PyErr (Option RemotePassage)
  | [], s => .ok (some s)
  | m :: rest, s =>
    match makeMove serve d s m with
    | .error e => .error e
    | .ok none => .ok none
    | .ok (some s') => navigate serve d rest s'

/-- The URN of a passage, in writing. -/
def AtUrn (s : RemotePassage) (urn : Str) : Prop := ∃ u, s.urn.str = .ok (urn, u)

end Verif.Spec
