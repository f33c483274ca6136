import Verif.Model.DtsResolver
/-!
Specification vocabulary for the DTS resolver (C59, C60): chains of pages and what their members say.
-/
namespace Verif.Spec
open Verif.Py Verif.Model

/-- The link names page `p`: the first `page=` that is followed by a digit is followed by `p`, up to the first character
that is no digit. -/
def NamesPage (link p : Str) : Prop := ∃ pre post, link = pre ++ "page=".toList ++ p ++ post ∧ p ≠ [] ∧ (∀ c ∈ p, isDigit c = true) ∧
  (∀ c, post.head? = some c → isDigit c = false) ∧
  ∀ a d b, link = a ++ "page=".toList ++ d :: b → isDigit d = true → pre.length ≤ a.length

/-- A finite chain of pages from `p` on: each page links to the next one and the last one to none. `reply` is what is
answered to the request of a page, the first of which has no number. -/
inductive NavChain (reply : Option Str → Except PyErr (Option NavPage)) : Option Str → List (Option Str × NavPage) → Prop where
  | last {p pg} : reply p = .ok (some pg) → pg.next = none → NavChain reply p [(p, pg)]
  | step {p pg link p' rest} : reply p = .ok (some pg) → pg.next = some link → NamesPage link p' → NavChain reply (some p') rest →
      NavChain reply p ((p, pg) :: rest)

/-- A member stands for a reference: its `ref`, or else its `start` and `end`; the type is its own, or else that of the
page, and none when that is empty. -/
def Reads (pageType : Option Str) (m : NavMember) (r : DtsRef) : Prop :=
  ((m.ref = some r.start ∧ r.stop = none) ∨ (m.ref = none ∧ m.start = some r.start ∧ ∃ b, m.stop = some b ∧ r.stop = some b)) ∧
  r.type = (m.citeType.or pageType).filter (fun t => t ≠ [])

/-- Members stand for references, in order. -/
inductive ReadsAll (pageType : Option Str) : List NavMember → List DtsRef → Prop where
  | nil : ReadsAll pageType [] []
  | cons {m r ms rs} : Reads pageType m r → ReadsAll pageType ms rs → ReadsAll pageType (m :: ms) (r :: rs)

/-- The references of the pages of a chain, in order. -/
inductive ChainReads : List (Option Str × NavPage) → List DtsRef → Prop where
  | nil : ChainReads [] []
  | cons {p pg rest rs more} : ReadsAll pg.citeType pg.members rs → ChainReads rest more → ChainReads ((p, pg) :: rest) (rs ++ more)

end Verif.Spec
