import Verif.Spec.Xml
import Verif.Spec.Reference
import Verif.Spec.RefsDecl
import Verif.Model.LocalText
/-!
Specification vocabulary for citation schemes of local texts (C29-C31): levels, how they are written as
refsDecls, and the citable units of a document. It uses trees, steps and the meaning of a path
(`select`), and the type of local texts; nothing of `getTextualNode` or `getValidReff`.
-/
namespace Verif.Spec
open Verif.Py Verif.Model

/-- A citation level: from a unit of the level above, fixed steps lead to a last step that has one test
on the attribute that holds the identifier. -/
structure Level where
  pre : List Step
  desc : Bool
  name : Str
  before : List ATest
  attr : Str
  quote : Char
  after : List ATest

/-- The steps of a level with a given test on the identifier. -/
def Level.steps (l : Level) (t : ATest) : List Step := l.pre ++ [⟨l.desc, l.name, l.before ++ t :: l.after⟩]

/-- The steps to the units of a level: the identifier is present. -/
def Level.anyId (l : Level) : List Step := l.steps (.has l.attr)

/-- The steps to the units of a level with a given identifier. -/
def Level.withId (l : Level) (v : Str) : List Step := l.steps (.eq l.attr '\'' v)

/-- The citable units below `n`, level by level in document order: for each its identifiers, from the top
level down, and its position. -/
def units : List Level → Node → List (List Str × List Nat)
  | [], _ => [([], [])]
  | l :: ls, n => (select n l.anyId).flatMap fun t =>
    match nodeAt n t with
    | none => []
    | some c => (units ls c).map fun u => ((c.get l.attr).getD [] :: u.1, t ++ u.2)

/-! ### How a scheme is written -/

/-- `[@a]` or `[@a='v']`. -/
def testText : ATest → Str
  | .has a => '[' :: '@' :: a ++ [']']
  | .eq a q v => '[' :: '@' :: a ++ '=' :: q :: v ++ [q, ']']

/-- The text of a step without its slashes. -/
def stepBody (s : Step) : Str := s.name ++ s.tests.flatMap testText

/-- The text of a sequence of steps: `//` before descendant steps, `/` before the others. -/
def stepsText (p : List Step) : Str := pathText (p.map fun s => (s.desc, stepBody s))

/-- The text of the levels, with placeholders numbered from `k`. -/
def levelsText : Nat → List Level → Str
  | _, [] => []
  | k, l :: ls => stepsText (l.steps (.eq l.attr l.quote ('$' :: natStr k))) ++ levelsText (k + 1) ls

/-- The refsDecl of the last of the given levels, `/root/...[@n='$1']/...[@n='$2']`. -/
def declText (rootName : Str) (ls : List Level) : Str := '/' :: rootName ++ levelsText 1 ls

/-- The refsDecls of all levels. -/
def declsOf (rootName : Str) (ls : List Level) : List Str :=
  (List.range ls.length).map fun i => declText rootName (ls.take (i + 1))

/-- The text whose citation scheme has the given levels, each with its refsDecl. -/
def textOf (root : Node) (same : Same) (ls : List Level) : LocalText := ⟨root, declsOf root.tag ls, same⟩

/-! ### Well-formed schemes -/

/-- Names of elements and attributes without prefix: a letter, `_` or a character outside ASCII, then such characters,
digits, hyphens and dots. -/
def PlainName (s : Str) : Prop :=
  ∃ c r, s = c :: r ∧ (('a' ≤ c ∧ c ≤ 'z') ∨ ('A' ≤ c ∧ c ≤ 'Z') ∨ c = '_' ∨ 128 ≤ c.toNat) ∧
    ∀ d ∈ r, ('a' ≤ d ∧ d ≤ 'z') ∨ ('A' ≤ d ∧ d ≤ 'Z') ∨ d = '_' ∨ 128 ≤ d.toNat ∨ ('0' ≤ d ∧ d ≤ '9') ∨ d = '-' ∨ d = '.'

/-- Attribute names: letters and colons, at most one colon. -/
def IdAttr (a : Str) : Prop := AttrName a ∧ (∀ c ∈ a, ¬ ('0' ≤ c ∧ c ≤ '9')) ∧ qName a = true

/-- Fixed tests: the value, not empty, is free of `@ $ /` and of its quote, and does not begin with a digit,
a quote, `\` or `?`. -/
def TestWF : ATest → Prop
  | .has a => IdAttr a
  | .eq a q v => IdAttr a ∧ Quote q ∧ '@' ∉ v ∧ '$' ∉ v ∧ '/' ∉ v ∧ q ∉ v ∧
      ∃ c r, v = c :: r ∧ c ∉ ['\\', '$', '\'', '"', '?'] ∧ ¬ ('0' ≤ c ∧ c ≤ '9')

/-- Fixed steps. -/
def StepWF (s : Step) : Prop := stepName s.name = true ∧ ∀ t ∈ s.tests, TestWF t

/-- Levels. -/
structure Level.WF (l : Level) : Prop where
  pre : ∀ s ∈ l.pre, StepWF s
  name : stepName l.name = true
  before : ∀ t ∈ l.before, TestWF t
  after : ∀ t ∈ l.after, TestWF t
  attr : IdAttr l.attr
  quote : Quote l.quote

/-- A citation identifier that can be written in a reference and in a path. -/
def IsId (v : Str) : Prop := IsComponent v ∧ '\'' ∉ v ∧ '/' ∉ v

/-- A document and a scheme that fit: all identifiers can be written, and no two units of a level have the
same identifiers. -/
structure Citable (root : Node) (ls : List Level) : Prop where
  tag : qName root.tag = true
  few : ls.length < 1000
  wf : ∀ l ∈ ls, l.WF
  ids : ∀ k, ∀ u ∈ units (ls.take k) root, ∀ v ∈ u.1, IsId v
  distinct : ∀ k, ∀ u ∈ units (ls.take k) root, ∀ w ∈ units (ls.take k) root, u.1 = w.1 → u.2 = w.2

/-- The identifiers of the units of the first `k` levels that lie under the given ones. -/
def listing (root : Node) (ls : List Level) (k : Nat) (under : List Str) : List (List Str) :=
  ((units (ls.take k) root).filter fun u => under.isPrefixOf u.1).map (·.1)

/-- What two lists of identifiers have in common at the beginning. -/
def common : List Str → List Str → List Str
  | x :: a, y :: b => if x = y then x :: common a b else []
  | _, _ => []

/-- The reference to one passage. -/
def single (ids : List Str) : Ref := ⟨dotted ids, none, dotted ids⟩

end Verif.Spec
