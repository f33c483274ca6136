import Verif.Model.DtsResolver
/-!
Remote DTS collections: MyCapytain/resources/collections/dts/_resolver.py and _base.py.

The state is that of one collection. Of a member its identifier is kept and something standing for the rest: for these
functions it does not matter what. Members are taken to parse (they have a title and a number of items), and the number of items to stay what it was first.
-/
namespace Verif.Model
open Verif.Py

variable {γ : Type}

/-- Direction of a navigation: _resolver.py 103. -/
inductive Dir where
  | children
  | parents
  deriving DecidableEq, Repr

/-- The name of a direction: _resolver.py 91, 97. -/
def Dir.name : Dir → Str
  | .children => Model.children
  | .parents => ['p','a','r','e','n','t','s']

/-- A reply of the collections endpoint: its members, and its view, absent or with or without a link to the next page. -/
structure CollPage (γ : Type) where
  members : List (Str × γ)
  view : Option (Option Str)
  deriving DecidableEq, Repr

/-- `HttpResolverDtsCollection`: _resolver.py 70-101. `kidsProxy` and `folksProxy` say whether `_children` and
`_parents` are still proxies; the proxied dictionary and set are the same objects as those unwrapped. -/
structure RemoteColl (γ : Type) where
  id : Str
  size : Nat
  kids : List (Str × γ)
  folks : List Str
  kidsProxy : Bool
  folksProxy : Bool
  parsedKids : Bool
  parsedFolks : Bool
  parsedMeta : Bool
  lastKids : Option Nat
  lastFolks : Option Nat
  log : List (List (Str × List Str))
  deriving DecidableEq, Repr

/-- The property `children`: _resolver.py 156-167. The result is the proxy if `kidsProxy` still holds. -/
def RemoteColl.touchKids (s : RemoteColl γ) : RemoteColl γ :=
  if s.parsedKids = false then
    if s.size ≠ 0 then s else { s with parsedKids := true, kidsProxy := false }
  else { s with kidsProxy := false }

/-- The property `parents`: _resolver.py 169-173. -/
def RemoteColl.touchFolks (s : RemoteColl γ) : RemoteColl γ :=
  if s.parsedFolks then { s with folksProxy := false } else s

/-- What `parse_member` does to the collection: _resolver.py 205-218. -/
def RemoteColl.memberFlags (s : RemoteColl γ) (dir : Dir) (data : CollPage γ) : RemoteColl γ :=
  if data.members ≠ [] then
    if data.view = none ∨ (dir = .children ∧ s.size = 0) then
      match dir with
      | .children => { s with parsedKids := true }
      | .parents => { s with parsedFolks := true }
    else s
  else s

/-- The members of a page come into the collection: _resolver.py 129-143. `update` is looked up before the members are
parsed, on the proxy or on what it stands for. -/
def RemoteColl.absorb (s : RemoteColl γ) (dir : Dir) (page : Nat) (data : CollPage γ) : RemoteColl γ :=
  match dir with
  | .children =>
    let s' := s.touchKids.memberFlags .children data
    { s' with kids := updateKeys s'.kids (updateKeys [] data.members), lastKids := some page }
  | .parents =>
    let s' := s.touchFolks.memberFlags .parents data
    { s' with folks := s'.folks ++ data.members.map (·.1), lastFolks := some page }

/-- The request of a page, the first one without a number: _resolver.py 113-123. -/
def collRequest (query : List (Str × List Str)) (id : Str) (dir : Dir) (page : Nat) : List (Str × List Str) :=
  getCollection query (some id) dir.name (if 1 < page then .int page else .none)

/-- `self._parsed[direction] = True`: _resolver.py 154. -/
def RemoteColl.markParsed (s : RemoteColl γ) : Dir → RemoteColl γ
  | .children => { s with parsedKids := true }
  | .parents => { s with parsedFolks := true }

/-- The loop of `_parse_paginated_members`: _resolver.py 112-154. `serve` answers a request or fails. -/
def crawl (serve : List (Str × List Str) → Except PyErr (CollPage γ)) (query : List (Str × List Str)) (dir : Dir) :
    Nat → Nat → RemoteColl γ → Option (RemoteColl γ × Except PyErr Unit)
  | 0, _, _ => none
  | fuel + 1, page, s =>
    if page = 0 then some (s.markParsed dir, .ok ())
    else
      let r := collRequest query s.id dir page
      let s := { s with log := s.log ++ [r] }
      match serve r with
      | .error e => some (s, .error e)
      | .ok data =>
        let s := s.absorb dir page data
        match data.view with
        | some (some link) =>
          match regexPage link with
          | none => some (s, .error .indexError)
          | some p => crawl serve query dir fuel (digitsVal p) s
        | _ => some (s.markParsed dir, .ok ())

/-- `_parse_paginated_members`: _resolver.py 103-154: the crawl starts at the last page parsed. -/
def parsePaginated (serve : List (Str × List Str) → Except PyErr (CollPage γ)) (query : List (Str × List Str)) (fuel : Nat) (dir : Dir) (s : RemoteColl γ) :
    Option (RemoteColl γ × Except PyErr Unit) :=
  let last := match dir with | .children => s.lastKids | .parents => s.lastFolks
  crawl serve query dir fuel (match last with | none => 1 | some 0 => 1 | some n => n) s

/-- `_run` of the proxies: _resolver.py 41-47, with the conditions of 88-99: both look at the parents. -/
def runProxy (serve : List (Str × List Str) → Except PyErr (CollPage γ)) (query : List (Str × List Str)) (fuel : Nat) (dir : Dir) (s : RemoteColl γ) :
    Option (RemoteColl γ × Except PyErr Unit) :=
  if s.parsedFolks then some (s, .ok ()) else parsePaginated serve query fuel dir s

/-- What is read. -/
inductive CollRead where
  /-- iterating over `children`, `.keys()`, `.values()`, `.items()`, `in`, and `members` -/
  | iterKids
  /-- `children[key]` -/
  | getKid (k : Str)
  /-- `len(children)` -/
  | countKids
  /-- iterating over `parents` -/
  | iterFolks
  /-- `retrieve()` -/
  | retrieve
  deriving DecidableEq, Repr

/-- What a reading gives. -/
inductive CollAnswer (γ : Type) where
  | dict (d : List (Str × γ))
  | item (v : γ)
  | count (n : Nat)
  | ids (l : List Str)
  | done
  deriving DecidableEq, Repr

/-- `d[k]` on a dictionary. -/
def dictItem (d : List (Str × γ)) (k : Str) : Except PyErr (CollAnswer γ) :=
  match d.find? fun p => p.1 == k with
  | some p => .ok (.item p.2)
  | none => .error .keyError

/-- A reading: `children` and `parents` (_resolver.py 156-173), then `__iter__`, `__getattr__` or `__getitem__` of the
proxy (_resolver.py 34-64) or of the dictionary or set; a proxy has no length. `retrieve` is _resolver.py 175-184. -/
def RemoteColl.read (serve : List (Str × List Str) → Except PyErr (CollPage γ)) (query : List (Str × List Str)) (fuel : Nat) (s : RemoteColl γ) :
    CollRead → Option (RemoteColl γ × Except PyErr (CollAnswer γ))
  | .iterKids =>
    let s := s.touchKids
    if s.kidsProxy then
      match runProxy serve query fuel .children s with
      | none => none
      | some (s, .error e) => some (s, .error e)
      | some (s, .ok ()) => some (s, .ok (.dict s.kids))
    else some (s, .ok (.dict s.kids))
  | .getKid k =>
    let s := s.touchKids
    if s.kidsProxy ∧ (s.kids.find? fun p => p.1 == k) = none then
      match runProxy serve query fuel .children s with
      | none => none
      | some (s, .error e) => some (s, .error e)
      | some (s, .ok ()) => some (s, dictItem s.kids k)
    else some (s, dictItem s.kids k)
  | .countKids =>
    let s := s.touchKids
    if s.kidsProxy then some (s, .error .typeError) else some (s, .ok (.count s.kids.length))
  | .iterFolks =>
    let s := s.touchFolks
    if s.folksProxy then
      match runProxy serve query fuel .parents s with
      | none => none
      | some (s, .error e) => some (s, .error e)
      | some (s, .ok ()) => some (s, .ok (.ids s.folks))
    else some (s, .ok (.ids s.folks))
  | .retrieve =>
    if s.parsedMeta then some (s, .ok .done)
    else
      let r := collRequest query s.id .children 1
      let s := { s with log := s.log ++ [r] }
      match serve r with
      | .error e => some (s, .error e)
      | .ok _ => some (s, .ok .done)

/-- `HttpResolverDtsCollection.parse`: _resolver.py 71-101, _base.py 72-114. -/
def parseColl (id : Str) (size : Nat) (metadataParsed : Bool) (data : CollPage γ) : RemoteColl γ :=
  let s : RemoteColl γ := ⟨id, size, [], [], true, true, false, false, metadataParsed, none, none, []⟩
  let s := (s.memberFlags .children data).touchKids
  { s with kids := updateKeys s.kids (updateKeys [] data.members) }

end Verif.Model
