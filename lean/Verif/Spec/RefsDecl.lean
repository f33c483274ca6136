import Verif.Py.Str
/-!
Specification vocabulary for refsDecl strings, scope and xpath (properties C20-C22). Nothing here
uses the model.
-/
namespace Verif.Spec
open Verif.Py

/-- The text with its `?` numbered from left to right, starting at `k`. -/
def numbered : Nat → Str → Str
  | _, [] => []
  | k, c :: r => if c = '?' then '$' :: natStr k ++ numbered (k + 1) r else c :: numbered k r

/-! ### Paths as lists of steps -/

/-- A piece of a step: an ordinary character, or a placeholder (`$n` in a refsDecl, `?` in a scope or
xpath). -/
inductive Tok where
  | chr (c : Char)
  | hole (n : Nat)
  deriving DecidableEq, Repr

/-- Characters allowed in steps: letters, digits, blanks and `* ( ) | : [ ] @ = \ { ' " .` -/
def StepChar (c : Char) : Prop :=
  ('a' ≤ c ∧ c ≤ 'z') ∨ ('A' ≤ c ∧ c ≤ 'Z') ∨ ('0' ≤ c ∧ c ≤ '9') ∨ c ∈ [' ', '\t', '\n', '\r'] ∨
  c ∈ ['*', '(', ')', '|', ':', '[', ']', '@', '=', '\\', '{', '\'', '"', '.']

instance (c : Char) : Decidable (StepChar c) := by unfold StepChar; infer_instance

/-- A step of a path: after one or two slashes, its pieces. -/
structure PStep where
  double : Bool
  body : List Tok
  deriving DecidableEq, Repr

/-- No placeholder is directly followed by a digit (it would be read as part of the number). -/
def NoDigitAfterHole : List Tok → Prop
  | [] => True
  | .chr _ :: r => NoDigitAfterHole r
  | [.hole _] => True
  | .hole _ :: .hole n :: r => NoDigitAfterHole (.hole n :: r)
  | .hole _ :: .chr c :: r => ¬ ('0' ≤ c ∧ c ≤ '9') ∧ NoDigitAfterHole r

/-- A well-formed step: not empty, only supported characters, no digit right after a placeholder. -/
structure PStep.WF (s : PStep) : Prop where
  ne : s.body ≠ []
  chars : ∀ c, Tok.chr c ∈ s.body → StepChar c
  digits : NoDigitAfterHole s.body

/-- Text of a piece in a refsDecl. -/
def Tok.numberedText : Tok → Str
  | .chr c => [c]
  | .hole n => '$' :: natStr n

/-- Text of a piece in a scope or xpath. -/
def Tok.shown : Tok → Str
  | .chr c => [c]
  | .hole _ => ['?']

/-- The slashes before a step. -/
def PStep.slashes (s : PStep) : Str := if s.double then ['/', '/'] else ['/']

/-- Text of a path in a refsDecl. -/
def refsDeclText (p : List PStep) : Str :=
  (p.map fun s => s.slashes ++ s.body.flatMap Tok.numberedText).flatten

/-- Text of a path in a scope or an xpath. -/
def shownText (p : List PStep) : Str :=
  (p.map fun s => s.slashes ++ s.body.flatMap Tok.shown).flatten

/-! ### A refsDecl as a sequence of tests -/

/-- A segment of a refsDecl. -/
inductive Seg where
  | txt (s : Str)                                -- text without `@`
  | const (attr : Str) (q : Char) (val : Str)    -- `@attr='val'`, a fixed test
  | has (attr : Str)                             -- `@attr]`, the end of an existence test
  | test (attr : Str) (q : Char) (body : Str)    -- `@attr='$k']` or `@attr='?']`, a placeholder test
  deriving DecidableEq, Repr

/-- Attribute names: letters, digits and colons. -/
def AttrName (a : Str) : Prop :=
  a ≠ [] ∧ ∀ c ∈ a, ('a' ≤ c ∧ c ≤ 'z') ∨ ('A' ≤ c ∧ c ≤ 'Z') ∨ ('0' ≤ c ∧ c ≤ '9') ∨ c = ':'

instance (a : Str) : Decidable (AttrName a) := by unfold AttrName; infer_instance

/-- Quotes. -/
def Quote (q : Char) : Prop := q = '\'' ∨ q = '"'

instance (q : Char) : Decidable (Quote q) := by unfold Quote; infer_instance

/-- A placeholder: `?` or `$k` with `k` below 1000. -/
def Placeholder (b : Str) : Prop := b = ['?'] ∨ ∃ k, k < 1000 ∧ b = '$' :: natStr k

/-- Well-formed segments. A fixed test has a value that does not begin with a digit, a quote, `\`, `$`
or `?` (such values are mistaken for placeholders, see `C22_numeric_constant_consumed`). -/
def Seg.WF : Seg → Prop
  | .txt s => '@' ∉ s
  | .const a q v => AttrName a ∧ Quote q ∧ '@' ∉ v ∧
      ∃ c r, v = c :: r ∧ c ∉ ['\\', '$', '\'', '"', '?'] ∧ ¬ ('0' ≤ c ∧ c ≤ '9')
  | .has a => AttrName a
  | .test a q b => AttrName a ∧ Quote q ∧ Placeholder b

/-- Text of a segment. -/
def Seg.text : Seg → Str
  | .txt s => s
  | .const a q v => '@' :: a ++ '=' :: q :: v ++ [q]
  | .has a => '@' :: a ++ [']']
  | .test a q b => '@' :: a ++ '=' :: q :: b ++ [q, ']']

/-- Text of a refsDecl. -/
def segsText (l : List Seg) : Str := l.flatMap Seg.text

/-- The test on attribute `a` for one value: `@a='v'`, or `@a` when the value is `None`. -/
def valueTest (a : Str) : Option Str → Str
  | some v => '@' :: a ++ ['=', '\''] ++ v ++ ['\'']
  | none => '@' :: a

/-- The refsDecl with its placeholder tests replaced, in order, by tests on the values; `none` when
values are missing. Surplus values are ignored. -/
def filledText : List Seg → List (Option Str) → Option Str
  | [], _ => some []
  | .test _ _ _ :: _, [] => none
  | .test a _ _ :: l, v :: vs => (filledText l vs).map (valueTest a v ++ ']' :: ·)
  | s :: l, vs => (filledText l vs).map (s.text ++ ·)

/-- Number of placeholder tests. -/
def testCount (l : List Seg) : Nat := (l.filter fun | .test _ _ _ => true | _ => false).length

end Verif.Spec

namespace Verif.Spec
open Verif.Py

/-- A segment of a refsDecl as citations use them: attribute names of letters and colons, every
placeholder of the form `$k`, no other `$`. -/
def Seg.Numbered : Seg → Prop
  | .txt s => '@' ∉ s ∧ '$' ∉ s
  | .const a q v => AttrName a ∧ (∀ c ∈ a, ¬ ('0' ≤ c ∧ c ≤ '9')) ∧ Quote q ∧ '@' ∉ v ∧ '$' ∉ v ∧
      ∃ c r, v = c :: r ∧ c ≠ '\\'
  | .has a => AttrName a ∧ ∀ c ∈ a, ¬ ('0' ≤ c ∧ c ≤ '9')
  | .test a q b => AttrName a ∧ (∀ c ∈ a, ¬ ('0' ≤ c ∧ c ≤ '9')) ∧ Quote q ∧ ∃ k, b = '$' :: natStr k

/-- Is the segment a placeholder test? -/
def Seg.isTest : Seg → Bool
  | .test _ _ _ => true
  | _ => false

end Verif.Spec
