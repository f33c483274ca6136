import Verif.Model.DtsCollection
import Verif.Spec.DtsResolver
/-!
Specification vocabulary for remote DTS collections (C60).
-/
namespace Verif.Spec
open Verif.Py Verif.Model

variable {γ : Type}

/-- The elements of a list, each where it comes first. -/
def firstOccurrences : List Str → List Str
  | [] => []
  | k :: ks => k :: (firstOccurrences ks).filter (fun x => x ≠ k)

/-- The last pair of this name has this value. -/
def LastSays (ms : List (Str × γ)) (k : Str) (v : γ) : Prop :=
  ∃ before after, ms = before ++ (k, v) :: after ∧ ∀ p ∈ after, p.1 ≠ k

/-- A dictionary that covers some members: every identifier once, in the order of the members, with what the last member
of that identifier says. -/
def Covers (d ms : List (Str × γ)) : Prop :=
  d.map (·.1) = firstOccurrences (ms.map (·.1)) ∧ ∀ k v, (k, v) ∈ d ↔ LastSays ms k v

/-- A finite chain of pages from page `n` on. -/
inductive CollChain (reply : Nat → Except PyErr (CollPage γ)) : Nat → List (Nat × CollPage γ) → Prop where
  | last {n pg} : reply n = .ok pg → (pg.view = none ∨ pg.view = some none) → CollChain reply n [(n, pg)]
  | step {n pg link p rest} : reply n = .ok pg → pg.view = some (some link) → NamesPage link p → digitsVal p ≠ 0 →
      CollChain reply (digitsVal p) rest → CollChain reply n ((n, pg) :: rest)

/-- The members of the pages of a chain. -/
def chainMembers (chain : List (Nat × CollPage γ)) : List (Str × γ) := chain.flatMap fun c => c.2.members

/-- An endpoint that may fail, but when it answers answers as `full` does. -/
def Faithful (serve full : List (Str × List Str) → Except PyErr (CollPage γ)) : Prop := ∀ r pg, serve r = .ok pg → full r = .ok pg

/-- The collection after some readings, each with what the endpoint answers at that time. -/
def afterReads (query : List (Str × List Str)) (fuel : Nat) :
    RemoteColl γ → List ((List (Str × List Str) → Except PyErr (CollPage γ)) × CollRead) → Option (RemoteColl γ)
  | s, [] => some s
  | s, (serve, op) :: rest =>
    match s.read serve query fuel op with
    | none => none
    | some (s', _) => afterReads query fuel s' rest

end Verif.Spec
