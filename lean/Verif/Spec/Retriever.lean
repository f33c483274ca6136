import Verif.Model.Retriever
/-!
Specification vocabulary for requests (C57, C58, C61, C68): what is sent, and how an address with a query is written.
-/
namespace Verif.Spec
open Verif.Py Verif.Model

/-- The value given to a parameter. -/
def Given (ps : List (Str × Val)) (k : Str) (v : Val) : Prop := (k, v) ∈ ps ∧ v ≠ .none

/-- What a CTS request carries: its name, the URN if there is one, a number under a name, and the inventory asked for
or else that of the endpoint. -/
def CtsSent (endpoint inventory : Option Str) (name : String) (urn : Option Str) (number : Option (String × Int)) (k v : Str) : Prop :=
  (k = "request".toList ∧ v = name.toList) ∨
  (k = "urn".toList ∧ urn = some v) ∨
  (∃ n i, number = some (n, i) ∧ k = n.toList ∧ v = (toString i).toList) ∨
  (k = "inv".toList ∧ (inventory = some v ∨ inventory = none ∧ endpoint = some v))

/-- What the three ways of giving a passage add to the parameters. -/
def RefSent (ref : DtsRefArg) (k : Str) (vs : List Str) : Prop :=
  match ref with
  | .none => False
  | .ref start stop =>
    if stop.truthy then (k = "start".toList ∧ start ≠ .none ∧ vs = [start.text]) ∨ (k = "end".toList ∧ vs = [stop.text])
    else k = "ref".toList ∧ start ≠ .none ∧ vs = [start.text]
  | .other v => k = "ref".toList ∧ v.truthy ∧ vs = [v.text]

/-- A text without the characters that cut or code a query. -/
def PlainQuery (s : Str) : Prop := '&' ∉ s ∧ '=' ∉ s ∧ '%' ∉ s ∧ '+' ∉ s

/-- `key=value`. -/
def pairText (p : Str × Str) : Str := p.1 ++ '=' :: p.2

/-- `base?k1=v1&k2=v2`. -/
def address (base : Str) (pairs : List (Str × Str)) : Str := base ++ '?' :: join ['&'] (pairs.map pairText)

/-- The page that parameters name: the first value of `page`. -/
def pageIn (pairs : List (Str × Str)) : Option Str := (pairs.find? fun p => p.1 == "page".toList).map (·.2)

/-- The link is an address that names this page, after another parameter. -/
def Names (l : Link) (page : Str) : Prop := ∃ base p ps,
  l.href = address base (p :: ps) ∧ PlainQuery base ∧ (∀ q ∈ p :: ps, PlainQuery q.1 ∧ PlainQuery q.2 ∧ q.2 ≠ []) ∧ pageIn ps = some page

/-- The link that counts for a relation: the last one of that relation. -/
def LastOf (links : List Link) (rel : String) (l : Link) : Prop :=
  ∃ before after, links = before ++ l :: after ∧ l.rel = rel.toList ∧ ∀ l' ∈ after, l'.rel ≠ rel.toList

/-- What decoding does to a text that codes nothing. -/
def Decoding (dec : Str → Str) : Prop := ∀ s, '%' ∉ s → '+' ∉ s → dec s = s

/-- A call made on a retriever: the route, the parameters and the defaults. -/
abbrev DtsCallArgs := Str × List (Str × Val) × List (Str × Val)

/-- The retriever after some calls. -/
def afterCalls (entry : List (Str × (Str × List (Str × List Str)))) : DtsRetriever → List DtsCallArgs → DtsRetriever
  | r, [] => r
  | r, (route, ps, ds) :: cs => afterCalls entry (r.call entry route ps ds).1 cs

/-- A retriever just made. -/
def newRetriever : DtsRetriever := { routes := none, log := [] }

end Verif.Spec
