import Verif.Spec.Serving
import Verif.Spec.LocalResolver
import Verif.Model.Resolvers
/-!
Two resolvers for the same texts (C98): the local one, which reads files, and the one of a CTS endpoint. A program is written against the three
methods that resolvers share, and sees of their results what it can compare.
-/
namespace Verif.Spec
open Verif.Py Verif.Model

/-- A reply with a `ti:label` in its `ti:reply`; when it has a `ti:citation`, there is one in the first such label. -/
def Labelled (doc : Node) : Prop :=
  ∃ x rest, within "ti:reply" "ti:label" doc = x :: rest ∧
    ((∀ e ∈ elements doc, e.tag ≠ "ti:citation".toList) ∨ ∃ e ∈ below x, e.tag = "ti:citation".toList)

/-- The endpoint answers `GetPassagePlus` too, for every unit and for all of the text: with the passage, its siblings and a label. -/
structure ServesPlus (serve : DocEndpoint) (d : Option Str) (text : Str) (env : List Str) (root : Node) (ls : List Level) : Prop where
  units : ∀ k before after u, 1 ≤ k → k ≤ ls.length → units (ls.take k) root = before ++ u :: after →
    ∃ doc, serve (ctsPassagePlus d (text ++ ':' :: dotted u.1) none none) = .ok doc ∧ Labelled doc ∧
      GivesText doc env (emptied root (chainTo root u.2)) ∧
      announcedIn doc = some (before.getLast?.map fun w => text ++ ':' :: dotted w.1, after.head?.map fun w => text ++ ':' :: dotted w.1)
  whole : ∃ doc, serve (ctsPassagePlus d text none none) = .ok doc ∧ Labelled doc ∧ GivesText doc env root

/-- The text `t` of the library is in a file and at the endpoint: the same document, in which every unit above the last level has units of
every lower level in it. -/
structure Offered (files : Files) (r : RootV) (serve : DocEndpoint) (d : Option Str) (env : List Str) (t : TextV) (root : Node) (ls : List Level) :
    Prop where
  member : t ∈ rootTexts r
  once : ∀ x ∈ rootTexts r, x.id = t.id → x = t
  held : Held files t root ls
  document : ServesDocument serve d t.id env root ls
  whole : ∃ scheme, ServesWhole serve d t.id env root scheme
  plus : ServesPlus serve d t.id env root ls
  full : ∀ k under pos, under.length < k → k ≤ ls.length → (under, pos) ∈ units (ls.take under.length) root → listing root ls k under ≠ []

/-- An element without what follows it. -/
def bare (n : Node) : Node := .mk n.tag n.attrs n.text n.kids []

/-- What a program sees of a passage: its URN, its element, and its plain text. -/
structure Seen where
  urn : Str
  element : Node
  plain : Str
  deriving DecidableEq

/-- What is seen of an answer of the local resolver. -/
def seenAnswer : Answer → Seen
  | .whole s root => ⟨s, bare root, plainText defaultJoin [] [] root⟩
  | .part s p => ⟨s, bare p.tree, plainText defaultJoin [] [] p.tree⟩

/-- What is seen of a passage of an endpoint. -/
def seenOpened (p : OpenedPassage) : Except PyErr Seen :=
  match p.nav.urn.str with
  | .error e => .error e
  | .ok (s, _) => .ok ⟨s, bare p.element, p.plain []⟩

/-- The three methods of a resolver, with what is seen of their results: `getTextualNode(text, reference, prevnext, metadata)`,
`getSiblings(text, reference)` and `getReffs(text, level, reference)`. -/
structure ResolverView where
  node : Str → Option Str → Bool → Bool → Except PyErr Seen
  siblings : Str → Str → Except PyErr (Sib × Sib)
  reffs : Str → Int → Option Str → Except PyErr (List Str)

/-- The local resolver. -/
def localView (files : Files) (same : Same) (r : RootV) : ResolverView where
  node text sub _ _ := seenAnswer <$> resolverNode files same r text (sub.map .text)
  siblings text sub := (fun o => (sibOf o.1, sibOf o.2)) <$> resolverSiblings files same r text (.text sub)
  reffs text level sub := (fun l => l.map refText) <$> resolverReffs files same r text (some level) (sub.map .text)

/-- The resolver of an endpoint. -/
def remoteView (serve : DocEndpoint) (d : Option Str) (g : Graph) (fresh fresh' : Term) : ResolverView where
  node text sub prevnext metadata :=
    match apiOpen serve d text (sub.map .text) prevnext metadata g fresh fresh' with
    | .error e => .error e
    | .ok (_, .error e) => .error e
    | .ok (_, .ok p) => seenOpened p
  siblings text sub :=
    match apiSiblings serve.replies d text sub with
    | .error e => .error e
    | .ok (_, o) => o
  reffs text level sub :=
    match apiList serve d text level (sub.map .text) g fresh with
    | .error e => .error e
    | .ok (_, o) => o

/-- A program that uses a resolver and ends with a result: at each step it calls a method and goes on with what it sees. -/
inductive Client (α : Type) where
  | done (a : α)
  | node (text : Str) (ref : Option Str) (prevnext metadata : Bool) (go : Seen → Client α)
  | siblings (text ref : Str) (go : Sib × Sib → Client α)
  | reffs (text : Str) (level : Int) (under : Option Str) (go : List Str → Client α)

/-- The result of a program with a resolver. -/
def Client.run {α : Type} (v : ResolverView) : Client α → Except PyErr α
  | .done a => .ok a
  | .node text ref prevnext metadata go =>
    match v.node text ref prevnext metadata with
    | .error e => .error e
    | .ok x => (go x).run v
  | .siblings text ref go =>
    match v.siblings text ref with
    | .error e => .error e
    | .ok x => (go x).run v
  | .reffs text level under go =>
    match v.reffs text level under with
    | .error e => .error e
    | .ok x => (go x).run v

/-- The reference of a sibling, if there is one. -/
def sibRefs : Sib → List Str
  | .known r => [r]
  | _ => []

/-- The number of components of a reference. -/
def components (r : Str) : Nat := r.count '.' + 1

/-- A program that finds its way by what it is told. It knows texts with their numbers of levels, and the references that it was given
before. It asks for passages and siblings of these references only, and for lists of the levels of a text or of those below a reference. -/
inductive Guided {α : Type} (texts : List (Str × Nat)) : List (Str × Str) → Client α → Prop
  | done {known a} : Guided texts known (.done a)
  | whole {known t n p m go} : (t, n) ∈ texts → (∀ x, Guided texts known (go x)) → Guided texts known (.node t none p m go)
  | node {known t r p m go} : (t, r) ∈ known → (∀ x, Guided texts known (go x)) → Guided texts known (.node t (some r) p m go)
  | siblings {known t r go} : (t, r) ∈ known →
      (∀ x, Guided texts (known ++ (sibRefs x.1 ++ sibRefs x.2).map (t, ·)) (go x)) → Guided texts known (.siblings t r go)
  | reffs {known t n go} {level : Nat} : (t, n) ∈ texts → 1 ≤ level → level ≤ n → (∀ l, Guided texts (known ++ l.map (t, ·)) (go l)) →
      Guided texts known (.reffs t level none go)
  | inside {known t n r go} {level : Nat} : (t, n) ∈ texts → (t, r) ∈ known → components r < level → level ≤ n →
      (∀ l, Guided texts (known ++ l.map (t, ·)) (go l)) → Guided texts known (.reffs t level (some r) go)

end Verif.Spec
