import Verif.Model.DtsReading
import Verif.Spec.DtsDocument
import Verif.Spec.DtsResolver
import Verif.Spec.Serving
import Verif.Spec.Reading
/-!
DTS endpoints that serve a document (C100): what they answer, in terms of the citable units of the document. Requests are those of
C58, lists those of C59, links those of C77.
-/
namespace Verif.Spec
open Verif.Py Verif.Model

/-- An element that is the given tree, or that has only this inside elements with names in `env`. -/
inductive Wraps (env : List Str) : Node → Node → Prop where
  | same {x tree} : SameElement x tree → Wraps env x tree
  | within {x k tree} : x.tag ∈ env → x.text = [] → x.kids = [k] → k.tail = [] → Wraps env k tree → Wraps env x tree

/-- The reference with these components, as an endpoint gives it in links. -/
def dtsUnit (ids : List Str) : DtsRef := ⟨dotted ids, none, none⟩

/-- The endpoint lists exactly these passages for a query, on one page or several. -/
def ServesList {γ : Type} (e : DtsTexts γ) (q : NavQuery) (passages : List Str) : Prop :=
  ∃ chain refs, NavChain (fun p => e.navigation (navRequest e.navQuery q p)) none chain ∧ ChainReads chain refs ∧ chain.length ≤ e.turns ∧
    refs.map (fun r => (r.start, r.stop)) = passages.map fun s => (s, none)

/-- The reply to the request of a passage, with its links to its siblings. -/
structure ServesPassage {γ : Type} (e : DtsTexts γ) (id : Str) (ref : DtsRefArg) (env : List Str) (tree : Node) (prev next : Option DtsRef) : Prop where
  links : ∃ ls, e.documents (getDocument e.docQuery id ref) = .ok ls ∧ Dictionaries ls ∧ Openable ls ∧
    LinksTo ls "next".toList next ∧ LinksTo ls "prev".toList prev
  body : Wraps env (e.bodies (getDocument e.docQuery id ref)) tree

/-- A DTS endpoint that serves a document as the text `id`: it lists the units of every level, and in every unit those of the next
level; it gives the passage of every unit, with links to the units before and after it; and it gives all of the text. -/
structure ServesDts {γ : Type} (e : DtsTexts γ) (id : Str) (env : List Str) (root : Node) (ls : List Level) : Prop where
  lists : ∀ k : Nat, 1 ≤ k → k ≤ ls.length →
    ServesList e ⟨id, .int k, .none, .none, .int 1⟩ ((units (ls.take k) root).map fun u => dotted u.1)
  inside : ∀ k : Nat, 1 ≤ k → k < ls.length → ∀ u ∈ units (ls.take k) root,
    ServesList e ⟨id, .int 1, (dtsUnit u.1).arg, .none, .int 1⟩ ((listing root ls (k + 1) u.1).map dotted)
  passages : ∀ k before after u, 1 ≤ k → k ≤ ls.length → units (ls.take k) root = before ++ u :: after →
    ServesPassage e id (dtsUnit u.1).arg env (emptied root (chainTo root u.2)) (before.getLast?.map (dtsUnit ·.1)) (after.head?.map (dtsUnit ·.1))
  whole : ServesPassage e id .none env root none none

/-- The ways to name the unit with the given components: its reference as an object or as a string. -/
def NamesDts (ids : List Str) (arg : DtsRefArg) : Prop := arg = (dtsUnit ids).arg ∨ arg = .other (.str (dotted ids))

/-- A document of an endpoint and a local passage agree: they have the same element, and the same plain text for every exclusion that
spares the envelope of the reply. -/
structure AgreeDts {γ : Type} (env : List Str) (t : TextDoc γ) (tree : Node) : Prop where
  element : Wraps env t.element tree
  plain : ∀ ex : List Str, (∀ x ∈ ex, x ∉ env) → t.plain ex = plainText defaultJoin [] ex tree

/-- A reader who goes on with `next` until there is none. The number bounds the documents read; when it does not suffice, this is an
error. -/
def readNext {γ : Type} (e : DtsTexts γ) : Nat → List DocReq → TextDoc γ → List DocReq × Except PyErr (List (TextDoc γ))
  | 0, log, _ => (log, .error .recursion)
  | fuel + 1, log, t =>
    match t.goNext e log with
    | (log', .error x) => (log', .error x)
    | (log', .ok none) => (log', .ok [t])
    | (log', .ok (some o)) =>
      match readNext e fuel log' o with
      | (log'', .error x) => (log'', .error x)
      | (log'', .ok os) => (log'', .ok (t :: os))

/-- A reader who opens a passage and goes on from there. -/
def readDts {γ : Type} (e : DtsTexts γ) (id : Str) (fuel : Nat) (log : List DocReq) (ref : DtsRefArg) :
    List DocReq × Except PyErr (List (TextDoc γ)) :=
  match resolveText e log id ref with
  | (log', .error x) => (log', .error x)
  | (log', .ok t) => readNext e fuel log' t

/-- A reader who goes back with `prev` until there is none. -/
def readPrev {γ : Type} (e : DtsTexts γ) : Nat → List DocReq → TextDoc γ → List DocReq × Except PyErr (List (TextDoc γ))
  | 0, log, _ => (log, .error .recursion)
  | fuel + 1, log, t =>
    match t.goPrev e log with
    | (log', .error x) => (log', .error x)
    | (log', .ok none) => (log', .ok [t])
    | (log', .ok (some o)) =>
      match readPrev e fuel log' o with
      | (log'', .error x) => (log'', .error x)
      | (log'', .ok os) => (log'', .ok (t :: os))

/-- A reader who opens a passage and goes back from there. -/
def readDtsBack {γ : Type} (e : DtsTexts γ) (id : Str) (fuel : Nat) (log : List DocReq) (ref : DtsRefArg) :
    List DocReq × Except PyErr (List (TextDoc γ)) :=
  match resolveText e log id ref with
  | (log', .error x) => (log', .error x)
  | (log', .ok t) => readPrev e fuel log' t

/-- Opening each of some items of a list of references. -/
def openAll {γ : Type} (e : DtsTexts γ) (id : Str) : List DocReq → List RefItem → List DocReq × Except PyErr (List (TextDoc γ))
  | log, [] => (log, .ok [])
  | log, i :: is =>
    match resolveText e log id i.arg with
    | (log', .error x) => (log', .error x)
    | (log', .ok t) =>
      match openAll e id log' is with
      | (log'', .error x) => (log'', .error x)
      | (log'', .ok ts) => (log'', .ok (t :: ts))

/-- A reader who asks for the references of a level and opens each. -/
def readListed {γ : Type} (e : DtsTexts γ) (id : Str) (level : Nat) (log : List DocReq) : Option (List DocReq × Except PyErr (List (TextDoc γ))) :=
  match dtsReffs e.navigation e.navQuery ⟨id, .int level, .none, .none, .int 1⟩ e.turns with
  | none => none
  | some (log', .error x) => some (log ++ log'.map .navigation, .error x)
  | some (log', .ok set) => some (openAll e id (log ++ log'.map .navigation) set.items)

/-- What the plain texts of documents have of the characters of which `p` is true, one document after the other. -/
def textOfDocs {γ : Type} (p : Char → Bool) (ex : List Str) (ts : List (TextDoc γ)) : Str := ts.flatMap fun t => (t.plain ex).filter p

end Verif.Spec
