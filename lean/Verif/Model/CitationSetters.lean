import Verif.Model.RefsDecl
/-!
The assignments of a citation: `refsDecl`, `scope` and `xpath` of MyCapytain/common/reference/_capitains_cts.py 691-746.
-/
namespace Verif.Model
open Verif.Py

/-- A citation, of which only the refsDecl is stored: _capitains_cts.py 696. Name and children are in `Model/CitationHeap`. -/
structure CiteText where
  refsDecl : Option Str
  deriving DecidableEq, Repr

/-- `if value` for `None` or a string. -/
def given : Option Str → Bool
  | none => false
  | some s => !s.isEmpty

/-- The assignment of `refsDecl`: _capitains_cts.py 743-746. -/
def setRefsDecl (c : CiteText) : Option Str → CiteText
  | none => c
  | some s => ⟨some s⟩

/-- `Citation(xpath, scope, refsDecl)`: _capitains_cts.py 691-703. -/
def newCiteText (xpath scope refsDecl : Option Str) : CiteText :=
  if given scope && given xpath then setRefsDecl ⟨none⟩ (some (fromScopeXpath (scope.getD []) (xpath.getD [])))
  else setRefsDecl ⟨none⟩ refsDecl

/-- `_parseXpathScope()` with its refsDecl; `findall(None)` raises `TypeError`: _capitains_cts.py 779-786. -/
def readXpathScope (c : CiteText) : Except PyErr (Str × Str) :=
  match c.refsDecl with
  | none => .error .typeError
  | some rd => parseXpathScope rd

/-- `scope`: _capitains_cts.py 719-726. -/
def citeScope (c : CiteText) : Except PyErr Str :=
  match readXpathScope c with
  | .error e => .error e
  | .ok (s, _) => .ok s

/-- `xpath`: _capitains_cts.py 704-711. -/
def citeXpath (c : CiteText) : Except PyErr Str :=
  match readXpathScope c with
  | .error e => .error e
  | .ok (_, x) => .ok x

/-- An assignment. -/
inductive CiteSet where
  | scope (v : Option Str)
  | xpath (v : Option Str)
  | refsDecl (v : Option Str)
  deriving DecidableEq, Repr

/-- One assignment, with what it raises: _capitains_cts.py 713-717, 728-732, 743-746. An assignment that raises changes nothing. -/
def assign (c : CiteText) : CiteSet → CiteText × Option PyErr
  | .scope none => (c, none)
  | .scope (some s) =>
    if given c.refsDecl then
      match readXpathScope c with
      | .error e => (c, some e)
      | .ok (_, x) => (setRefsDecl c (some (fromScopeXpath s x)), none)
    else (c, none)
  | .xpath none => (c, none)
  | .xpath (some x) =>
    if given c.refsDecl then
      match readXpathScope c with
      | .error e => (c, some e)
      | .ok (s, _) => (setRefsDecl c (some (fromScopeXpath s x)), none)
    else (c, none)
  | .refsDecl v => (setRefsDecl c v, none)

/-- Assignments one after the other, with what each of them raises. -/
def assignEach : CiteText → List CiteSet → CiteText × List (Option PyErr)
  | c, [] => (c, [])
  | c, a :: r =>
    let (c, e) := assign c a
    let (c, es) := assignEach c r
    (c, e :: es)

end Verif.Model
