import Verif.Py.Str
/-!
Model of citation trees: MyCapytain/common/reference/_base.py 9-312 (`BaseCitationSet`, `BaseCitation`),
the overrides of `Citation` in _capitains_cts.py 802-813 and of `DtsCitation`, `DtsCitationSet` in
_dts_1.py 58-152.

A citation is a tree; a citation set is the list of its children. What else a citation carries (name,
refsDecl) is a parameter.
-/
namespace Verif.Model
open Verif.Py

/-- A citation: its own data and its children (_base.py 183-209). -/
inductive Cite (α : Type) where
  | mk (data : α) (kids : List (Cite α))

namespace Cite
variable {α : Type}

/-- The data of the citation. -/
def data : Cite α → α
  | .mk d _ => d

/-- `.children`: _base.py 27-33. -/
def kids : Cite α → List (Cite α)
  | .mk _ ks => ks

mutual
/-- `iter(citation)`: itself, then its children's iterations (_base.py 259-274). -/
def iter : Cite α → List (Cite α)
  | .mk d ks => .mk d ks :: iterAll ks
/-- `iter(citation_set)`: _base.py 66-80. -/
def iterAll : List (Cite α) → List (Cite α)
  | [] => []
  | c :: r => iter c ++ iterAll r
end

mutual
/-- `citation.depth`: _base.py 299-312. -/
def depth : Cite α → Nat
  | .mk _ ks => if ks.isEmpty then 1 else 1 + depthAll ks
/-- `citation_set.depth`: the largest depth of a child, 0 without children (_base.py 91-107). -/
def depthAll : List (Cite α) → Nat
  | [] => 0
  | c :: r => max (depth c) (depthAll r)
end

mutual
/-- `len(citation)` for a `BaseCitation` that does not override it (DTS): _base.py 128-134. -/
def len : Cite α → Nat
  | .mk _ ks => ks.length + lenSum ks
/-- `sum([len(child) for child in self.children])`: _base.py 134. -/
def lenSum : List (Cite α) → Nat
  | [] => 0
  | c :: r => len c + lenSum r
end

/-- `len(citation_set)`: _base.py 128-134. -/
def lenAll (ks : List (Cite α)) : Nat := ks.length + lenSum ks

/-- The loop of `__getitem__` for a level that is not negative: _base.py 122-126. -/
def atLevel : Nat → List (Cite α) → List (Cite α)
  | 0, ks => ks
  | n + 1, ks => ks.flatMap fun c => atLevel n c.kids

/-- `__getitem__` with an integer, given the object's `depth`: _base.py 109-126. The exception is raised
when the generator is first advanced. -/
def getLevel (depth : Nat) (ks : List (Cite α)) (item : Int) : Except PyErr (List (Cite α)) :=
  if item < 0 then
    if (depth : Int) + item < 0 then .error .citationDepth
    else .ok (atLevel ((depth : Int) + item).toNat ks)
  else .ok (atLevel item.toNat ks)

/-- `citation_set[item]`. -/
def setGet (ks : List (Cite α)) (item : Int) : Except PyErr (List (Cite α)) := getLevel (depthAll ks) ks item

/-- `citation[item]` for a citation that does not override `__getitem__` (DTS): the depth used counts the
citation itself. -/
def citeGet (c : Cite α) (item : Int) : Except PyErr (List (Cite α)) := getLevel c.depth c.kids item

/-- `len(citation)` of a CTS `Citation`: _capitains_cts.py 807-813. -/
def ctsLen (c : Cite α) : Nat := c.iter.length

/-- `citation[item]` of a CTS `Citation`: _capitains_cts.py 802-805, for an integer. -/
def ctsGet (c : Cite α) (item : Int) : Except PyErr (Cite α) :=
  if item > (c.ctsLen : Int) - 1 then .error .keyError
  else match pyGet c.iter item with
    | some x => .ok x
    | none => .error .indexError

end Cite

/-! ### DTS: ingestion and export (_dts_1.py 83-104, 133-152; _base.py 162-180, 276-297) -/

/-- The name and the root of a DTS citation. The root is `none` (the citation is its own root) or the
citation set, of which there is one in play. -/
structure DtsData where
  name : Option Str
  rootIsSet : Bool
  deriving DecidableEq, Repr

/-- A citation structure in expanded JSON-LD: the value of `dts:citeType`, a list of `{"@value": v}`
when present, and the value of `dts:citeStructure`. -/
inductive ExpCite where
  | mk (citeType : Option (List (Option Str))) (citeStructure : Option (List ExpCite))

/-- A citation structure as exported: `citeType` (possibly null), and `citeStructure` when present. -/
inductive OutCite where
  | mk (citeType : Option Str) (citeStructure : Option (List OutCite))

/-- `resource.get(citeType, [{"@value": None}])[0]["@value"]`: _dts_1.py 97. -/
def ingestName : Option (List (Option Str)) → Except PyErr (Option Str)
  | none => .ok none
  | some [] => .error .indexError
  | some (v :: _) => .ok v

mutual
/-- `DtsCitation.ingest(resource, root)`: _dts_1.py 83-104. The flag says whether a root is given. -/
def ingestCite (hasRoot : Bool) : ExpCite → Except PyErr (Cite DtsData)
  | .mk ct cs =>
    match ingestName ct with
    | .error e => .error e
    | .ok n =>
      match ingestKids hasRoot cs with
      | .error e => .error e
      | .ok ks => .ok (.mk ⟨n, hasRoot⟩ ks)
/-- `resource.get(citeStructure, [])`: _dts_1.py 100. -/
def ingestKids (hasRoot : Bool) : Option (List ExpCite) → Except PyErr (List (Cite DtsData))
  | none => .ok []
  | some l => ingestList hasRoot l
/-- The loop over the sub-citations: _dts_1.py 100-103. -/
def ingestList (hasRoot : Bool) : List ExpCite → Except PyErr (List (Cite DtsData))
  | [] => .ok []
  | c :: r =>
    match ingestCite hasRoot c with
    | .error e => .error e
    | .ok x =>
      match ingestList hasRoot r with
      | .error e => .error e
      | .ok xs => .ok (x :: xs)
end

/-- `DtsCitationSet.ingest(resource)`: _dts_1.py 133-152. -/
def ingestSet (l : List ExpCite) : Except PyErr (List (Cite DtsData)) := ingestList true l

mutual
/-- `citation.export(DTS)` without context: _base.py 276-297. -/
def exportCite : Cite DtsData → OutCite
  | .mk d ks => if ks.isEmpty then .mk d.name none else .mk d.name (some (exportSet ks))
/-- `citation_set.export(DTS)` without context: _base.py 162-180. -/
def exportSet : List (Cite DtsData) → List OutCite
  | [] => []
  | c :: r => exportCite c :: exportSet r
end

mutual
/-- What JSON-LD expansion (the pyld library, not part of /repo) does to an exported structure: a null
value disappears, a text becomes a list of one value object, a list of objects is expanded
element by element. -/
def expandCite : OutCite → ExpCite
  | .mk n cs => .mk (n.map fun v => [some v]) (expandOpt cs)
/-- Expansion of an optional list. -/
def expandOpt : Option (List OutCite) → Option (List ExpCite)
  | none => none
  | some l => some (expandList l)
/-- Expansion of a list. -/
def expandList : List OutCite → List ExpCite
  | [] => []
  | c :: r => expandCite c :: expandList r
end

end Verif.Model
