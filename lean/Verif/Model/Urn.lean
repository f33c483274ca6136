import Verif.Model.Reference
/-!
Model of the class `URN`: MyCapytain/common/reference/_capitains_cts.py, lines 300-657.
-/
namespace Verif.Model
open Verif.Py

/-- A `URN` object: the cached text `__urn` and the dictionary `__parsed`
(_capitains_cts.py 340-342, 614-627). `none` is Python's `None`. -/
structure Urn where
  cache : Option Str
  ns : Option Str
  cts : Option Str
  tg : Option Str
  wk : Option Str
  ver : Option Str
  ref : Option Ref
  deriving DecidableEq, Repr

/-- Truth value of an optional `str`. -/
def truthy : Option Str → Bool
  | some (_ :: _) => true
  | _ => false

/-- The passage of a parsed URN: read only when there are exactly five colon-separated parts, that is
two after the CTS namespace. _capitains_cts.py 644-645. -/
def urnRefPart : List Str → Except PyErr (Option Ref)
  | [_, p] => mkRef p
  | _ => .ok none

/-- The dotted middle part, present when there are at least four colon-separated parts.
_capitains_cts.py 647-648. -/
def urnComps : List Str → List Str
  | m :: _ => split '.' m
  | [] => []

/-- `__parse__`: _capitains_cts.py 629-657. -/
def Urn.parse (s : Str) : Except PyErr Urn :=
  let body := (split '#' s).headD []
  match split ':' body with
  | _ :: ns :: cts :: rest =>
    match urnRefPart rest with
    | .ok ref =>
      .ok { cache := some body, ns := some ns, cts := some cts,
            tg := (urnComps rest)[0]?, wk := (urnComps rest)[1]?, ver := (urnComps rest)[2]?,
            ref := ref }
    | .error e => .error e
  | _ => .error .valueError

/-- The text rebuilt by `__str__` from the components (_capitains_cts.py 520-530). Concatenating
`None` raises `TypeError`. -/
def Urn.rebuild (u : Urn) : Except PyErr Str :=
  match u.ns with
  | none => .error .typeError
  | some ns =>
    .ok (['u','r','n',':'] ++ ns ++
      if truthy u.cts then ':' :: u.cts.getD [] ++
        (if truthy u.tg then ':' :: u.tg.getD [] ++
          (if truthy u.wk then '.' :: u.wk.getD [] ++
            (if truthy u.ver then '.' :: u.ver.getD [] else []) ++
            (match u.ref with
              | some r => ':' :: r.str
              | none => [])
          else [])
        else [])
      else [])

/-- `str(urn)`: the text and the object with its cache filled (_capitains_cts.py 509-532). -/
def Urn.str (u : Urn) : Except PyErr (Str × Urn) :=
  match u.cache with
  | some s => .ok (s, u)
  | none => do
    let s ← u.rebuild
    return (s, { u with cache := some s })

/-- Values that the `reference` setter accepts. -/
inductive RefArg where
  | obj (r : Ref)
  | text (s : Str)
  | none
  deriving DecidableEq, Repr

/-- Operations on a URN object: the six setters (_capitains_cts.py 353-429) and `str()`. -/
inductive UrnOp where
  | setNs (v : Option Str)
  | setCts (v : Option Str)
  | setTg (v : Option Str)
  | setWk (v : Option Str)
  | setVer (v : Option Str)
  | setRef (v : RefArg)
  | readStr
  deriving DecidableEq, Repr

/-- Effect of an operation on the object. An operation that raises leaves the object as it was at
the point of the exception: the reference setter has already dropped the cache (425) when
`CtsReference(value)` (429) raises. -/
def Urn.step (u : Urn) : UrnOp → Urn
  | .setNs v => { u with cache := none, ns := v }          -- 353-356
  | .setCts v => { u with cache := none, cts := v }        -- 367-370
  | .setTg v => { u with cache := none, tg := v }          -- 381-384
  | .setWk v => { u with cache := none, wk := v }          -- 395-398
  | .setVer v => { u with cache := none, ver := v }        -- 409-412
  | .setRef (.obj r) => { u with cache := none, ref := some r }   -- 423-427
  | .setRef .none => { u with cache := none, ref := none }        -- CtsReference(None) is None
  | .setRef (.text s) =>                                          -- 428-429
    match mkRef s with
    | .ok r => { u with cache := none, ref := r }
    | .error _ => { u with cache := none }
  | .readStr =>
    match u.str with
    | .ok (_, u') => u'
    | .error _ => u

/-- A sequence of operations. -/
def Urn.run (u : Urn) (ops : List UrnOp) : Urn := ops.foldl Urn.step u

/-- `len(urn)`: _capitains_cts.py 431-449. -/
def Urn.len (u : Urn) : Nat :=
  ([u.ns, u.cts, u.tg, u.wk, u.ver].filter (·.isSome)).length

/-- `a > b`: _capitains_cts.py 451-466. -/
def Urn.gt (a b : Urn) : Bool := a.len > b.len
/-- `a < b`: _capitains_cts.py 468-483. -/
def Urn.lt (a b : Urn) : Bool := a.len < b.len

/-- `a == b` between two URN objects: _capitains_cts.py 485-498. -/
def Urn.eq (a b : Urn) : Except PyErr Bool := do
  let x ← a.str
  let y ← b.str
  return x.1 == y.1

/-- The strings of a list that holds no `None`; `TypeError` otherwise. -/
def allStr : List (Option Str) → Except PyErr (List Str)
  | [] => .ok []
  | none :: _ => .error .typeError
  | some s :: r => (s :: ·) <$> allStr r

/-- `sep.join(items)` where an item may be `None` (then `TypeError`). -/
def joinOpt (sep : Str) (l : List (Option Str)) : Except PyErr Str := join sep <$> allStr l

/-- `urn.upTo(key)`: _capitains_cts.py 534-612. The keys are the constants of 330-338. -/
def Urn.upTo (u : Urn) (key : Int) : Except PyErr Str :=
  let middle := [u.tg, u.wk, u.ver].filterMap id
  let urn := some ['u','r','n']
  let mid := some (join ['.'] middle)
  if key = 100 then (·.1) <$> u.str
  else if key = 0 then joinOpt [':'] [urn, u.ns, u.cts]
  else if key = 1 ∧ truthy u.tg then joinOpt [':'] [urn, u.ns, u.cts, u.tg]
  else if key = 2 ∧ truthy u.wk then do
    let m ← joinOpt ['.'] [u.tg, u.wk]
    joinOpt [':'] [urn, u.ns, u.cts, some m]
  else if key = 3 ∧ truthy u.ver then joinOpt [':'] [urn, u.ns, u.cts, mid]
  else if key = 10 ∧ truthy u.wk then joinOpt [':'] [urn, u.ns, u.cts, mid]
  else match u.ref with
    | none => .error .keyError
    | some r =>
      if key = 4 then joinOpt [':'] [urn, u.ns, u.cts, mid, some r.str]
      else if key = 5 then joinOpt [':'] [urn, u.ns, u.cts, mid, some r.start]
      else if key = 6 then
        match r.stop with
        | some e => joinOpt [':'] [urn, u.ns, u.cts, mid, some e]
        | none => .error .keyError
      else .error .keyError

end Verif.Model
