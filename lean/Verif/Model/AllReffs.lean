import Verif.Model.LocalText
/-!
`reffs` of local texts: MyCapytain/resources/prototypes/cts/text.py 155-174.
-/
namespace Verif.Model
open Verif.Py

/-- The lists of the levels, from level `k` on, one after the other; the first that fails ends it: prototypes/cts/text.py 172.
`getReffs(level=i)` of a text, which has no attribute `reference`, is `getValidReff(level=i)`: capitains/cts.py 159-172. -/
def reffsFrom (t : LocalText) : Nat → Nat → Except PyErr RefSet
  | _, 0 => .ok []
  | k, n + 1 =>
    match getValidReff t (some k) none with
    | .error e => .error e
    | .ok refs =>
      match reffsFrom t (k + 1) n with
      | .error e => .error e
      | .ok more => .ok (refs ++ more)

/-- A text with what it remembers in `_cts`: prototypes/cts/text.py 160-162. -/
structure ReffText where
  text : LocalText
  cts : Option RefSet

/-- A new text. -/
def newReffText (t : LocalText) : ReffText := ⟨t, none⟩

/-- `text.reffs`: prototypes/cts/text.py 164-174. `len(citation)` counts the levels of the chain. An empty tuple counts as false. -/
def ReffText.reffs (s : ReffText) : ReffText × Except PyErr RefSet :=
  let compute : ReffText × Except PyErr RefSet :=
    match reffsFrom s.text 1 s.text.decls.length with
    | .error e => (s, .error e)
    | .ok refs => ({ s with cts := some refs }, .ok refs)
  match s.cts with
  | none => compute
  | some [] => compute
  | some refs => (s, .ok refs)

/-- What a program does with a text: read the references, or give it another citation or another document (assignments of
`citation`, prototypes/text.py 205-209, and of `resource`; both keep `_cts`). -/
inductive ReffOp where
  | read
  | edit (t : LocalText)

/-- A program, with what its readings answer. -/
def ReffText.run : ReffText → List ReffOp → ReffText × List (Except PyErr RefSet)
  | s, [] => (s, [])
  | s, .edit t :: r => run { s with text := t } r
  | s, .read :: r =>
    let (s, a) := s.reffs
    let (s, l) := s.run r
    (s, a :: l)

end Verif.Model
