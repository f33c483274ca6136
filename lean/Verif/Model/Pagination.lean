import Verif.Py.Str
/-!
`CtsCapitainsLocalResolver.pagination`: MyCapytain/resolvers/cts/local.py 58-59, 398-424.
-/
namespace Verif.Model
open Verif.Py

/-- `x or default` for an optional integer: `None` and `0` give the default. -/
def intOr (x : Option Int) (default : Int) : Int :=
  match x with
  | none => default
  | some v => if v = 0 then default else v

/-- `DEFAULT_PAGE`: local.py 58. -/
def defaultPage : Int := 1

/-- `PER_PAGE`: local.py 59. -/
def perPage : Int × Int × Int := (1, 10, 100)

/-- The limit that is used: local.py 408, 410-411. -/
def usedLimit (limit : Option Int) : Int :=
  let l := intOr limit perPage.2.1
  if l < perPage.1 ∨ l > perPage.2.2 then perPage.2.1 else l

/-- `int(ceil(length / limit))` for a positive limit, with exact division (Python divides floating point
numbers, which is exact enough below 2^53). -/
def ceilDiv (length limit : Int) : Int := (length + limit - 1) / limit

/-- `pagination(page, limit, length)`: local.py 398-424; start index, end index, page number, item count. -/
def pagination (page limit : Option Int) (length : Int) : Int × Int × Option Int × Int :=
  let l := usedLimit limit
  let start := (intOr page defaultPage - 1) * l
  if start > length then
    let real := ceilDiv length l
    let start := l * (real - 1)
    (start, (length - 1) + 1, some real, (length - 1) - start + 1)
  else if l - 1 + start < length then
    (start, (l - 1 + start) + 1, page, (l - 1 + start) - start + 1)
  else
    (start, (length - 1) + 1, page, (length - 1) - start + 1)

/-- `matches[start:end]` with the indices of `pagination`: local.py 391-396. -/
def pageOf {α : Type} (xs : List α) (page limit : Option Int) : List α × Option Int × Int :=
  let (s, e, p, c) := pagination page limit xs.length
  (pySlice xs s e, p, c)

end Verif.Model
