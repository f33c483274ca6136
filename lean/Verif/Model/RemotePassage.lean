import Verif.Model.Urn
import Verif.Model.Retriever
/-!
Remote CTS texts and passages: MyCapytain/resources/texts/remote/cts.py, resources/prototypes/text.py (navigation) and
resolvers/cts/api.py.

An endpoint is a function from requests to replies. Of a reply only what is read below is kept: the label and the citation
scheme that `_parse_request` takes from it are left out, as is the text itself. The log of a passage is that of the
retriever, which passages share.
-/
namespace Verif.Model
open Verif.Py

/-- A reply of a CTS endpoint. -/
structure CtsReply where
  /-- `//ti:request` finds an element -/
  hasRequest : Bool
  /-- the first `//ti:prevnext`, with the texts of `ti:prev/ti:urn` and `ti:next/ti:urn` -/
  prevNext : Option (Option Str × Option Str)
  /-- `//ti:reply//ti:urn/text()` -/
  urns : List Str
  /-- `//ti:reply/ti:urn/text()` -/
  topUrns : List Str
  /-- `//ti:passage/tei:TEI` finds an element -/
  hasText : Bool
  deriving DecidableEq, Repr

/-- An endpoint, which answers or fails. -/
abbrev CtsEndpoint := List (Str × Str) → Except PyErr CtsReply

/-- `s.split(":")[-1]`. -/
def lastPart (s : Str) : Str := (split ':' s).getLastD []

/-- What is known of a sibling: nothing (`False`), that there is none (`None`), or its identifier. -/
inductive Sib where
  | unknown
  | absent
  | known (s : Str)
  deriving DecidableEq, Repr

/-- `prevnext`: remote/cts.py 289-315, for one of the two. -/
def Sib.ofText : Option Str → Sib
  | none => .absent
  | some s => .known (lastPart s)

/-- `prevnext`: remote/cts.py 289-315: previous and next. -/
def readPrevNext (r : CtsReply) : Sib × Sib :=
  match r.prevNext with
  | none => (.unknown, .unknown)
  | some (p, n) => (.ofText p, .ofText n)

/-- `firstUrn`: remote/cts.py 273-287. -/
def readFirst (r : CtsReply) : Option Str := r.topUrns.head?.map lastPart

/-- A `CtsPassage`: remote/cts.py 42-51, 392-403. `first` and `last` are `none` for `False`. -/
structure RemotePassage where
  urn : Urn
  prev : Sib
  next : Sib
  first : Option (Option Str)
  last : Option Str
  kids : Option (List Str)
  log : List (List (Str × Str))
  deriving DecidableEq, Repr

/-- The text of a reference in a format string. -/
def optRefText : Option Ref → Str
  | none => ['N','o','n','e']
  | some r => r.str

/-- `"{}:{}".format(text, passage)`. -/
def colon (text passage : Str) : Str := text ++ ':' :: passage

/-- `str(URN(str(urn)).upTo(URN.NO_PASSAGE))`: remote/cts.py 211-218. -/
def noPassage (u : Urn) : Except PyErr Str := do
  let s ← u.str
  let u' ← Urn.parse s.1
  u'.upTo 10

/-- The request of `getPrevNextUrn`: remote/cts.py 204-222. `d` is the inventory of the retriever. -/
def prevNextRequest (d : Option Str) (u : Urn) (reference : Str) : Except PyErr (List (Str × Str)) := do
  let t ← noPassage u
  return ctsPrevNextUrn d (colon t reference) none

/-- `getPrevNextUrn` of a passage, with what it stores: remote/cts.py 204-222, 409-419. -/
def RemotePassage.fetch (serve : CtsEndpoint) (d : Option Str) (s : RemotePassage) : RemotePassage × Except PyErr Unit :=
  match prevNextRequest d s.urn (optRefText s.urn.ref) with
  | .error e => (s, .error e)
  | .ok r =>
    let s := { s with log := s.log ++ [r] }
    match serve r with
    | .error e => (s, .error e)
    | .ok reply => ({ s with prev := (readPrevNext reply).1, next := (readPrevNext reply).2 }, .ok ())

/-- `prevId`: remote/cts.py 409-419. -/
def RemotePassage.prevId (serve : CtsEndpoint) (d : Option Str) (s : RemotePassage) : RemotePassage × Except PyErr Sib :=
  if s.prev = .unknown then
    match s.fetch serve d with
    | (s, .error e) => (s, .error e)
    | (s, .ok ()) => (s, .ok s.prev)
  else (s, .ok s.prev)

/-- `nextId`: remote/cts.py 430-440. -/
def RemotePassage.nextId (serve : CtsEndpoint) (d : Option Str) (s : RemotePassage) : RemotePassage × Except PyErr Sib :=
  if s.next = .unknown then
    match s.fetch serve d with
    | (s, .error e) => (s, .error e)
    | (s, .ok ()) => (s, .ok s.next)
  else (s, .ok s.next)

/-- `siblingsId`: remote/cts.py 442-451. -/
def RemotePassage.siblingsId (serve : CtsEndpoint) (d : Option Str) (s : RemotePassage) : RemotePassage × Except PyErr (Sib × Sib) :=
  if s.next = .unknown ∨ s.prev = .unknown then
    match s.fetch serve d with
    | (s, .error e) => (s, .error e)
    | (s, .ok ()) => (s, .ok (s.prev, s.next))
  else (s, .ok (s.prev, s.next))

/-- `getFirstUrn()`: remote/cts.py 224-247, and `firstId`: 249-259. -/
def RemotePassage.firstId (serve : CtsEndpoint) (d : Option Str) (s : RemotePassage) : RemotePassage × Except PyErr (Option Str) :=
  match s.first with
  | some f => (s, .ok f)
  | none =>
    match s.urn.str with
    | .error e => (s, .error e)
    | .ok (u, _) =>
      let r := ctsFirstUrn d u none
      let s := { s with log := s.log ++ [r] }
      match serve r with
      | .error e => (s, .error e)
      | .ok reply => ({ s with first := some (readFirst reply) }, .ok (readFirst reply))

/-- The level of a list of references, `-1` standing for the deepest: remote/cts.py 79-80. `deepest` is `len(citation)`. -/
def reffLevel (deepest : Nat) (level : Int) : Int := if level = -1 then deepest else level

/-- The URN asked for, with the passage unless that is empty or `None`: remote/cts.py 82-85, 142-145. -/
def withPassage (u : Str) : Option Str → Str
  | some (c :: r) => colon u (c :: r)
  | _ => u

/-- `getValidReff`: remote/cts.py 63-88. -/
def remoteValidReff (serve : CtsEndpoint) (d : Option Str) (u : Str) (deepest : Nat) (level : Int) (reference : Option Str) :
    List (Str × Str) × Except PyErr (List Str) :=
  let urn := withPassage u reference
  let r := ctsValidReff d urn none (some (reffLevel deepest level))
  match serve r with
  | .error e => (r, .error e)
  | .ok reply => if reply.hasRequest then (r, .ok (reply.urns.map lastPart)) else (r, .error .indexError)

/-- `getReffs` adds the depth of the URN to the level: remote/cts.py 34-40, 119-132. -/
def remoteLevel (u : Urn) (level : Int) : Int :=
  match u.ref with
  | some r => level + r.depth
  | none => level

/-- `childIds`: prototypes/text.py 325-333. -/
def RemotePassage.childIds (serve : CtsEndpoint) (d : Option Str) (deepest : Nat) (s : RemotePassage) : RemotePassage × Except PyErr (List Str) :=
  match s.kids with
  | some l => (s, .ok l)
  | none =>
    match s.urn.str with
    | .error e => (s, .error e)
    | .ok (u, _) =>
      let out := remoteValidReff serve d u deepest (remoteLevel s.urn 1) none
      let s := { s with log := s.log ++ [out.1] }
      match out.2 with
      | .error e => (s, .error e)
      | .ok l => ({ s with kids := some l }, .ok l)

/-- `lastId`: remote/cts.py 261-271. -/
def RemotePassage.lastId (serve : CtsEndpoint) (d : Option Str) (deepest : Nat) (s : RemotePassage) : RemotePassage × Except PyErr Str :=
  match s.last with
  | some l => (s, .ok l)
  | none =>
    match s.childIds serve d deepest with
    | (s, .error e) => (s, .error e)
    | (s, .ok l) =>
      match l.getLast? with
      | none => (s, .error .indexError)
      | some x => ({ s with last := some x }, .ok x)

/-- `parentId`: remote/cts.py 421-428. -/
def RemotePassage.parentId (s : RemotePassage) : Except PyErr Str :=
  match s.urn.ref with
  | none => .error .attributeError
  | some r => optRefText <$> r.parent

/-- `CtsPassage(urn, resource, retriever)`: remote/cts.py 392-403, 453-463. -/
def openPassage (urn : Str) (reply : CtsReply) (log : List (List (Str × Str))) : Except PyErr RemotePassage :=
  match Urn.parse urn with
  | .error e => .error e
  | .ok u =>
    if reply.hasText then .ok ⟨u, (readPrevNext reply).1, (readPrevNext reply).2, none, none, none, log⟩
    else .error .indexError

/-- The URN asked for by `getTextualNode(subreference)` for a `str`, or for something that is neither `str`, `list`,
reference nor URN (`none`): remote/cts.py 101-114. -/
def nodeUrn (u : Urn) : Option Str → Except PyErr Str
  | some v => if ':' ∈ v then .ok v else (colon · v) <$> u.upTo 10
  | none => (·.1) <$> u.str

/-- `getTextualNode`: remote/cts.py 90-117. -/
def remoteNode (serve : CtsEndpoint) (d : Option Str) (u : Urn) (sub : Option Str) (log : List (List (Str × Str))) :
    List (List (Str × Str)) × Except PyErr RemotePassage :=
  match nodeUrn u sub with
  | .error e => (log, .error e)
  | .ok urn =>
    let r := ctsPassage d urn none none
    let log := log ++ [r]
    match serve r with
    | .error e => (log, .error e)
    | .ok reply => if reply.hasRequest then (log, openPassage urn reply log) else (log, .error .indexError)

/-- The argument that a sibling is for `getTextualNode`. -/
def Sib.arg : Sib → Option Str
  | .known s => some s
  | _ => none

/-- `next` and `prev`: prototypes/text.py 282-294: the identifier is read twice. The passage itself and what it gives, `none` for `None`. -/
def goSibling (which : RemotePassage → RemotePassage × Except PyErr Sib) (serve : CtsEndpoint) (d : Option Str) (s : RemotePassage) :
    RemotePassage × Except PyErr (Option RemotePassage) :=
  match which s with
  | (s, .error e) => (s, .error e)
  | (s, .ok .absent) => (s, .ok none)
  | (s, .ok _) =>
    match which s with
    | (s, .error e) => (s, .error e)
    | (s, .ok v) =>
      let out := remoteNode serve d s.urn v.arg s.log
      ({ s with log := out.1 }, some <$> out.2)

/-- `next`: prototypes/text.py 289-294. -/
def RemotePassage.goNext (serve : CtsEndpoint) (d : Option Str) (s : RemotePassage) : RemotePassage × Except PyErr (Option RemotePassage) :=
  goSibling (·.nextId serve d) serve d s

/-- `prev`: prototypes/text.py 282-287. -/
def RemotePassage.goPrev (serve : CtsEndpoint) (d : Option Str) (s : RemotePassage) : RemotePassage × Except PyErr (Option RemotePassage) :=
  goSibling (·.prevId serve d) serve d s

/-- `parent`: prototypes/text.py 304-309. -/
def RemotePassage.goParent (serve : CtsEndpoint) (d : Option Str) (s : RemotePassage) : List (List (Str × Str)) × Except PyErr RemotePassage :=
  match s.parentId with
  | .error e => (s.log, .error e)
  | .ok p => remoteNode serve d s.urn (some p) s.log

/-! ### The resolver: resolvers/cts/api.py -/

/-- `getPassagePlus`: remote/cts.py 134-153, without the label and the citation. -/
def remotePlus (serve : CtsEndpoint) (d : Option Str) (u : Str) (sub : Option Str) : List (Str × Str) × Except PyErr RemotePassage :=
  let urn := withPassage u sub
  let r := ctsPassagePlus d urn none none
  match serve r with
  | .error e => (r, .error e)
  | .ok reply => (r, openPassage urn reply [r])

/-- `getTextualNode` of the resolver: resolvers/cts/api.py 46-68. The text is given by its URN; a reference by its text. -/
def apiNode (serve : CtsEndpoint) (d : Option Str) (textId : Str) (sub : Option Str) (prevnext metadata : Bool) :
    Except PyErr (List (List (Str × Str)) × Except PyErr RemotePassage) :=
  match Urn.parse textId with
  | .error e => .error e
  | .ok u =>
    if metadata || prevnext then
      match u.str with
      | .error e => .error e
      | .ok (t, _) => let out := remotePlus serve d t sub; .ok ([out.1], out.2)
    else .ok (remoteNode serve d u sub [])

/-- `getSiblings` of the resolver: resolvers/cts/api.py 70-84. -/
def apiSiblings (serve : CtsEndpoint) (d : Option Str) (textId sub : Str) : Except PyErr (List (Str × Str) × Except PyErr (Sib × Sib)) :=
  match Urn.parse textId with
  | .error e => .error e
  | .ok u =>
    match prevNextRequest d u sub with
    | .error e => .error e
    | .ok r => .ok (r, readPrevNext <$> serve r)

/-- `getReffs` of the resolver: resolvers/cts/api.py 86-102. The citation of a new text is one empty level. -/
def apiReffs (serve : CtsEndpoint) (d : Option Str) (textId : Str) (level : Int) (sub : Option Str) :
    Except PyErr (List (Str × Str) × Except PyErr (List Str)) :=
  match Urn.parse textId with
  | .error e => .error e
  | .ok u =>
    match u.str with
    | .error e => .error e
    | .ok (t, _) => .ok (remoteValidReff serve d t 1 (remoteLevel u level) sub)

end Verif.Model
