import Verif.Py.Str
/-!
Specification vocabulary for CTS URNs: what a URN with given components looks like in writing.
-/
namespace Verif.Spec
open Verif.Py

/-- The components of a CTS URN, `none` for an absent one. -/
structure UrnParts where
  ns : Str
  cts : Str
  tg : Option Str
  wk : Option Str
  ver : Option Str
  ref : Option Str
  deriving DecidableEq, Repr

/-- A separator followed by a text, or nothing. -/
def after (sep : Char) : Option Str → Str
  | none => []
  | some s => sep :: s

/-- `urn:ns:cts:tg.wk.ver:ref`, absent components left out. -/
def UrnParts.write (p : UrnParts) : Str :=
  ['u','r','n',':'] ++ p.ns ++ ':' :: p.cts ++ after ':' p.tg ++ after '.' p.wk ++ after '.' p.ver
    ++ after ':' p.ref

/-- A component that separators do not cut. -/
def Plain (s : Str) : Prop := s ≠ [] ∧ ':' ∉ s ∧ '#' ∉ s ∧ '.' ∉ s
/-- A namespace: dots are allowed. -/
def PlainNs (s : Str) : Prop := s ≠ [] ∧ ':' ∉ s ∧ '#' ∉ s
/-- A passage: at most one dash. -/
def PlainRef (s : Str) : Prop := s ≠ [] ∧ ':' ∉ s ∧ '#' ∉ s ∧ s.count '-' ≤ 1

instance (s : Str) : Decidable (Plain s) := by unfold Plain; infer_instance
instance (s : Str) : Decidable (PlainNs s) := by unfold PlainNs; infer_instance
instance (s : Str) : Decidable (PlainRef s) := by unfold PlainRef; infer_instance

/-- Well-formed components: each is plain and none is present without the ones before it
(a passage needs a textgroup at least). -/
structure UrnParts.WF (p : UrnParts) : Prop where
  ns : PlainNs p.ns
  cts : PlainNs p.cts
  tg : ∀ s, p.tg = some s → Plain s
  wk : ∀ s, p.wk = some s → Plain s
  ver : ∀ s, p.ver = some s → Plain s
  ref : ∀ s, p.ref = some s → PlainRef s
  wkTg : p.tg = none → p.wk = none
  verWk : p.wk = none → p.ver = none
  refTg : p.tg = none → p.ref = none

end Verif.Spec
