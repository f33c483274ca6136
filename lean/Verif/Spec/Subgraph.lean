import Verif.Spec.Metadata
import Verif.Model.Subgraph
/-!
Specification vocabulary for C52: reachability in a graph.
-/
namespace Verif.Spec
open Verif.Py Verif.Model

/-- `b` is reached from `a` by following `n` triples from subject to object. -/
inductive Steps (g : Graph) : Nat → Term → Term → Prop
  | here (a : Term) : Steps g 0 a a
  | next {n : Nat} {a b c : Term} (p : Term) : (⟨a, p, b⟩ : Triple) ∈ g → Steps g n b c → Steps g (n + 1) a c

/-- `b` is reached from `a`. -/
def Reaches (g : Graph) (a b : Term) : Prop := ∃ n, Steps g n a b

/-- `a` leads to `b` by `n` triples whose subjects are not blank nodes (no subject between them is). -/
inductive Climbs (g : Graph) : Nat → Term → Term → Prop
  | here (a : Term) : Climbs g 0 a a
  | next {n : Nat} {a b c : Term} (p : Term) : (⟨a, p, b⟩ : Triple) ∈ g → a.isBNode = false → Climbs g n b c →
      Climbs g (n + 1) a c

/-- A term that is in the graph, or the target. -/
def Occurs (g : Graph) (target x : Term) : Prop := x = target ∨ ∃ t ∈ g, x = t.s ∨ x = t.o

/-- Different terms have different strings. -/
def NamesDiffer (g : Graph) (target : Term) : Prop :=
  ∀ x y, Occurs g target x → Occurs g target y → x.str = y.str → x = y

/-- The number of names in the graph, repetitions counted. -/
def size (g : Graph) : Nat := 2 * g.length + 1

end Verif.Spec
