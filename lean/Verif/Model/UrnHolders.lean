import Verif.Model.TextNodes
import Verif.Model.UrnCopies
/-!
Which texts and passages have one URN object in common: prototypes/cts/text.py 40-66 keeps the object it is given, and
resources/texts/local/capitains/cts.py 32-45, 98-152 makes a new one for a passage with a reference and hands on that of the text otherwise.
-/
namespace Verif.Model
open Verif.Py

/-- The texts and passages 0, 1, ... of a program, with the identifier and reference of each and the URN object each has, and the URN objects. -/
structure HolderWorld where
  num : Nat
  ident : Nat → Str
  ref : Nat → Option Ref
  holds : Nat → Option Nat
  urns : Nat → Urn
  used : Nat

/-- Text or passage `n` as one sees it. -/
def HolderWorld.view (w : HolderWorld) (n : Nat) : TextNode := ⟨w.ident n, (w.holds n).map w.urns, w.ref n⟩

/-- A new text or passage with URN object `k`. -/
def HolderWorld.addNode (w : HolderWorld) (ident : Str) (ref : Option Ref) (k : Option Nat) : HolderWorld :=
  { w with num := w.num + 1, ident := upd w.ident w.num ident, ref := upd w.ref w.num ref, holds := upd w.holds w.num k }

/-- A new URN object. -/
def HolderWorld.addUrn (w : HolderWorld) (u : Urn) : HolderWorld := { w with urns := upd w.urns w.used u, used := w.used + 1 }

/-- A new text or passage with a URN object of its own. -/
def HolderWorld.own (w : HolderWorld) (n : TextNode) : HolderWorld :=
  match n.urn with
  | none => w.addNode n.id n.ref none
  | some u => (w.addUrn u).addNode n.id n.ref (some w.used)

/-- Something is done to a URN object. -/
def HolderWorld.touch (w : HolderWorld) (k : Option Nat) (op : UrnOp) : HolderWorld :=
  match k with
  | none => w
  | some k => { w with urns := upd w.urns k ((w.urns k).step op) }

/-- What a program may do: make a URN; make a text from a string or from a URN object; ask a text or passage for a passage, or for a simple one, or
simply for all of it; do something to the URN of a text or passage (`node.urn.work = …`), or give it another (`node.urn = …`). -/
inductive HolderOp where
  | urn (s : Str)
  | textOf (s : Str)
  | textWith (k : Nat)
  | passage (n : Nat) (ref : Ref)
  | simple (n : Nat) (ref : Ref)
  | whole (n : Nat)
  | change (n : Nat) (op : UrnOp)
  | give (n : Nat) (s : Str)
  | giveUrn (n k : Nat)
  deriving DecidableEq, Repr

/-- One step; what raises leaves things as they are. `str` of a URN, which identifiers and the URNs of passages are made of, fills its text. -/
def HolderWorld.step (w : HolderWorld) : HolderOp → HolderWorld
  | .urn s =>
    match Urn.parse s with
    | .error _ => w
    | .ok u => w.addUrn u
  | .textOf s =>
    match newTextNode (.str s) with
    | .error _ => w
    | .ok n => w.own n
  | .textWith k =>
    if k < w.used then
      match newTextNode (.urn (w.urns k)) with
      | .error _ => w
      | .ok n => (w.touch (some k) .readStr).addNode n.id n.ref (some k)
    else w
  | .passage n ref =>
    if n < w.num then
      match (w.view n).passage ref with
      | .error _ => w.touch (w.holds n) .readStr
      | .ok p => (w.touch (w.holds n) .readStr).own p
    else w
  | .simple n ref =>
    if n < w.num then
      match (w.view n).simple (some ref) with
      | .error _ => w
      | .ok p => w.own p
    else w
  | .whole n =>
    if n < w.num then
      match (w.view n).simple none with
      | .error _ => w
      | .ok p => (w.touch (w.holds n) .readStr).addNode p.id p.ref (w.holds n)
    else w
  | .change n op => if n < w.num then w.touch (w.holds n) op else w
  | .give n s =>
    if n < w.num then
      match Urn.parse s with
      | .error _ => w
      | .ok u => { w.addUrn u with holds := upd w.holds n (some w.used) }
    else w
  | .giveUrn n k => if n < w.num ∧ k < w.used then { w with holds := upd w.holds n (some k) } else w

/-- A program. -/
def HolderWorld.run (w : HolderWorld) (ops : List HolderOp) : HolderWorld := ops.foldl HolderWorld.step w

/-- The beginning. -/
def holderWorld : HolderWorld := ⟨0, fun _ => [], fun _ => none, fun _ => none, fun _ => ⟨none, none, none, none, none, none, none⟩, 0⟩

end Verif.Model
