import Verif.Py.Str
/-!
Several threads that use one object of a remote client: the routes of `HttpDtsRetriever` (retrievers/dts/__init__.py 76-103) and the members of
`HttpResolverDtsCollection` (resources/collections/dts/_resolver.py 41-47, 103-167, 187-218); and a remote
CTS passage with its neighbours (resources/texts/remote/cts.py 409-451).

A thread is interrupted between any two accesses to what the threads share; each access is one step, and so is each request. A schedule says which
thread makes the next step, and, should that step be a request, whether the endpoint answers it. That a single `dict.update`, assignment or look at
an attribute is not interrupted is CPython's interpreter lock.
-/
namespace Verif.Model
open Verif.Py

/-- How a thread may end: `requests.HTTPError`, from `raise_for_status`, or an exception of Python. -/
inductive ThreadErr where
  | http
  | py (e : PyErr)
  deriving DecidableEq, Repr

/-- Where a thread is that reads `retriever.routes`: retrievers/dts/__init__.py 92-103. -/
inductive RoutesPc (α : Type) where
  /-- About to look whether `_routes` is set (92). -/
  | look
  /-- It was: about to return it (93). -/
  | again
  /-- About to request the entry point (95-97). -/
  | ask
  /-- With the answer, about to assign it (98-102). -/
  | assign (a : α)
  /-- About to return `_routes` (103). -/
  | give
  | done (a : α)
  | failed (e : ThreadErr)
  deriving DecidableEq, Repr

/-- The retriever and the threads; `asked t` counts the requests of thread `t` for the entry point. -/
structure RoutesWorld (α : Type) where
  routes : Option α
  asked : Nat → Nat
  pc : Nat → RoutesPc α

/-- Thread `t` goes to `p`. -/
def RoutesWorld.goto {α : Type} (w : RoutesWorld α) (t : Nat) (p : RoutesPc α) : RoutesWorld α :=
  { w with pc := fun i => if i = t then p else w.pc i }

/-- A step of thread `t`; `ok` says whether the endpoint answers, with `entry`. -/
def RoutesWorld.step {α : Type} (entry : α) (w : RoutesWorld α) (t : Nat) (ok : Bool) : RoutesWorld α :=
  match w.pc t with
  | .look => if w.routes.isSome then w.goto t .again else w.goto t .ask
  | .again =>
    match w.routes with
    | some a => w.goto t (.done a)
    | none => w.goto t (.failed (.py .typeError))
  | .ask =>
    let w := { w with asked := fun i => if i = t then w.asked i + 1 else w.asked i }
    if ok then w.goto t (.assign entry) else w.goto t (.failed .http)
  | .assign a => RoutesWorld.goto { w with routes := some a } t .give
  | .give =>
    match w.routes with
    | some a => w.goto t (.done a)
    | none => w.goto t (.failed (.py .typeError))
  | .done _ => w
  | .failed _ => w

/-- The steps of a schedule. -/
def RoutesWorld.run {α : Type} (entry : α) (w : RoutesWorld α) : List (Nat × Bool) → RoutesWorld α
  | [] => w
  | (t, ok) :: r => RoutesWorld.run entry (w.step entry t ok) r

/-- A new retriever. -/
def newRetriever {α : Type} : RoutesWorld α := ⟨none, fun _ => 0, fun _ => .look⟩

/-! ### The neighbours of a remote CTS passage -/

/-- What a thread asks a remote passage: `prevId`, `nextId` or `siblingsId` (resources/texts/remote/cts.py 409-451). -/
inductive Sought where
  | prev
  | next
  | both
  deriving DecidableEq, Repr

/-- `_prev_id` and `_next_id`: `none` stands for `False`, `some none` for `None`. -/
abbrev Neighbour := Option (Option Str)

/-- Where a thread is. -/
inductive SiblingsPc where
  /-- About to look at the first attribute that is wanted: `_prev_id` (416), or `_next_id` (437, 449). -/
  | look
  /-- In `siblingsId`, `_next_id` was there: about to look at `_prev_id` (449). -/
  | look2
  /-- About to request them (418, 439, 450). -/
  | ask
  /-- With the answer, about to assign the first. -/
  | storePrev (p n : Neighbour)
  /-- About to assign the second. -/
  | storeNext (n : Neighbour)
  /-- About to read what is wanted (419, 440, 451). -/
  | read
  /-- In `siblingsId`, about to read `_next_id`, `_prev_id` having been read. -/
  | read2 (p : Neighbour)
  /-- Returned; what was not wanted is `none`. -/
  | done (p n : Option Neighbour)
  | failed (e : ThreadErr)
  deriving DecidableEq, Repr

/-- The passage and the threads. -/
structure SiblingsWorld where
  prev : Neighbour
  next : Neighbour
  asked : Nat → Nat
  pc : Nat → SiblingsPc

/-- Thread `t` goes to `p`. -/
def SiblingsWorld.goto (w : SiblingsWorld) (t : Nat) (p : SiblingsPc) : SiblingsWorld :=
  { w with pc := fun i => if i = t then p else w.pc i }

/-- A step of thread `t`, which wants `k t`; the endpoint answers with `a`, or, if not `ok`, with an error. -/
def SiblingsWorld.step (k : Nat → Sought) (a : Neighbour × Neighbour) (w : SiblingsWorld) (t : Nat) (ok : Bool) : SiblingsWorld :=
  match w.pc t with
  | .look =>
    match k t with
    | .prev => if w.prev.isNone then w.goto t .ask else w.goto t .read
    | .next => if w.next.isNone then w.goto t .ask else w.goto t .read
    | .both => if w.next.isNone then w.goto t .ask else w.goto t .look2
  | .look2 => if w.prev.isNone then w.goto t .ask else w.goto t .read
  | .ask =>
    let w := { w with asked := fun i => if i = t then w.asked i + 1 else w.asked i }
    if ok then w.goto t (.storePrev a.1 a.2) else w.goto t (.failed .http)
  | .storePrev p n => SiblingsWorld.goto { w with prev := p } t (.storeNext n)
  | .storeNext n => SiblingsWorld.goto { w with next := n } t .read
  | .read =>
    match k t with
    | .prev => w.goto t (.done (some w.prev) none)
    | .next => w.goto t (.done none (some w.next))
    | .both => w.goto t (.read2 w.prev)
  | .read2 p => w.goto t (.done (some p) (some w.next))
  | .done _ _ => w
  | .failed _ => w

/-- The steps of a schedule. -/
def SiblingsWorld.run (k : Nat → Sought) (a : Neighbour × Neighbour) (w : SiblingsWorld) : List (Nat × Bool) → SiblingsWorld
  | [] => w
  | (t, ok) :: r => SiblingsWorld.run k a (w.step k a t ok) r

/-- A passage that does not know its neighbours. -/
def freshPassage : SiblingsWorld := ⟨none, none, fun _ => 0, fun _ => .look⟩

/-! ### The members of a collection -/

/-- A page of the listing: the identifiers of its members and whether it has a `view` (which says what page is next). -/
structure MemberPage where
  members : List Str
  view : Bool
  deriving DecidableEq, Repr

/-- An endpoint that has the members on `last` pages, counted from 1. -/
structure Listing where
  last : Nat
  page : Nat → MemberPage

/-- What the use of the property `children` (157-167) is for: the listing of the members, or the `update` with those of page `p` (130). -/
inductive Use where
  | list
  | update (p : Nat)
  deriving DecidableEq, Repr

/-- Where a thread is that reads `collection.children.values()`, on a collection whose size is not 0 and whose parents nobody asks for. -/
inductive CrawlPc where
  /-- In `children`: about to look at `_parsed` (158). -/
  | look (u : Use)
  /-- It says yes: about to look whether `_children` is a proxy (163). -/
  | isProxy (u : Use)
  /-- It is: about to read `self._children._proxied` (165). -/
  | readProxied (u : Use)
  /-- About to assign it to `self._children` (165). -/
  | swap (u : Use)
  /-- About to return `self._children` (160, 167). -/
  | ret (u : Use)
  /-- In `_parse_paginated_members`: about to read `_last_page_parsed` (107-111). -/
  | begin
  /-- About to request page `p` (112-127). -/
  | ask (p : Nat)
  /-- In `parse_member`, at its end: about to say that all is parsed, if there is no view (214-216); the size is not 0. -/
  | flag (p : Nat)
  /-- About to put the members of the page in the dictionary (130-135). -/
  | put (p : Nat)
  /-- About to note that the page was parsed (143). -/
  | mark (p : Nat)
  /-- About to note that all pages were (154). -/
  | finish
  /-- About to read the dictionary (45-46). -/
  | take
  | done (l : List Str)
  | failed (e : ThreadErr)
  deriving DecidableEq, Repr

/-- The collection and the threads; `asked t` counts the requests of thread `t`. -/
structure CrawlWorld where
  known : List Str
  lastParsed : Option Nat
  parsed : Bool
  swapped : Bool
  asked : Nat → Nat
  pc : Nat → CrawlPc

/-- Thread `t` goes to `p`. -/
def CrawlWorld.goto (w : CrawlWorld) (t : Nat) (p : CrawlPc) : CrawlWorld :=
  { w with pc := fun i => if i = t then p else w.pc i }

/-- `dict.update` on the keys: the new ones come last. -/
def addKeys (known : List Str) : List Str → List Str
  | [] => known
  | k :: r => if k ∈ known then addKeys known r else addKeys (known ++ [k]) r

/-- A step of thread `t`; `ok` says whether the endpoint answers. -/
def CrawlWorld.step (e : Listing) (w : CrawlWorld) (t : Nat) (ok : Bool) : CrawlWorld :=
  match w.pc t with
  | .look u => if w.parsed then w.goto t (.isProxy u) else w.goto t (.ret u)
  | .isProxy u => if w.swapped then w.goto t (.ret u) else w.goto t (.readProxied u)
  | .readProxied u => if w.swapped then w.goto t (.failed (.py .attributeError)) else w.goto t (.swap u)
  | .swap u => CrawlWorld.goto { w with swapped := true } t (.ret u)
  | .ret .list => if w.swapped then w.goto t .take else w.goto t .begin
  | .ret (.update p) => w.goto t (.flag p)
  | .begin => w.goto t (.ask (w.lastParsed.getD 1))
  | .ask p =>
    let w := { w with asked := fun i => if i = t then w.asked i + 1 else w.asked i }
    if ok then w.goto t (.look (.update p)) else w.goto t (.failed .http)
  | .flag p =>
    if !(e.page p).members.isEmpty && !(e.page p).view then CrawlWorld.goto { w with parsed := true } t (.put p) else w.goto t (.put p)
  | .put p => CrawlWorld.goto { w with known := addKeys w.known (e.page p).members } t (.mark p)
  | .mark p =>
    let w := { w with lastParsed := some p }
    if p < e.last then w.goto t (.ask (p + 1)) else w.goto t .finish
  | .finish => CrawlWorld.goto { w with parsed := true } t .take
  | .take => w.goto t (.done w.known)
  | .done _ => w
  | .failed _ => w

/-- The steps of a schedule. -/
def CrawlWorld.run (e : Listing) (w : CrawlWorld) : List (Nat × Bool) → CrawlWorld
  | [] => w
  | (t, ok) :: r => CrawlWorld.run e (w.step e t ok) r

/-- A collection that has been met and not asked for its members. -/
def metCollection : CrawlWorld := ⟨[], none, false, false, fun _ => 0, fun _ => .look .list⟩

end Verif.Model
