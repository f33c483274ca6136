/-
Python `str` and the few built-ins of it that MyCapytain uses.

A Python string is a sequence of code points; it is modelled as `List Char`.
Nothing here comes from /repo: these are the language's own functions, with the
semantics given by the Python documentation of `str`.
-/
namespace Verif.Py

/-- A Python `str`. -/
abbrev Str := List Char

/-- Exceptions that the modelled code can raise, one constructor per class. -/
inductive PyErr where
  | valueError | keyError | indexError | typeError | attributeError
  | stopIteration | notImplemented | xpathEval
  -- MyCapytain/errors.py
  | citationDepth | invalidURN | unknownCollection | unknownObject
  | invalidSibling | missingAttribute | undispatched | missingRefsDecl
  | jsonLdCollectionMissing | paginationBrowsing | refsDecl | emptyReference
  -- reading a local variable that was not assigned
  | unboundLocal
  -- RecursionError, and loops that do not end
  | recursion
  deriving DecidableEq, Repr

deriving instance DecidableEq for Except

@[simp] theorem fmap_ok {ε α β} (f : α → β) (a : α) : (f <$> (Except.ok a : Except ε α)) = .ok (f a) := rfl
@[simp] theorem fmap_error {ε α β} (f : α → β) (e : ε) :
    (f <$> (Except.error e : Except ε α)) = .error e := rfl

/-- `s.split(c)` for a one-character separator: always at least one piece. -/
def split (c : Char) : Str → List Str
  | [] => [[]]
  | x :: xs =>
    if x = c then [] :: split c xs
    else match split c xs with
      | [] => [[x]]            -- never happens: `split` returns at least one piece
      | h :: t => (x :: h) :: t

/-- `sep.join(pieces)`. -/
def join (sep : Str) : List Str → Str
  | [] => []
  | [x] => x
  | x :: y :: r => x ++ sep ++ join sep (y :: r)

/-- `s.count(c)` for one character. -/
def count (c : Char) (s : Str) : Nat := s.count c

/-- `s.find(c)` for one character; `none` is Python's `-1`. -/
def find (c : Char) : Str → Option Nat
  | [] => none
  | x :: xs => if x = c then some 0 else (find c xs).map (· + 1)

/-- `s.startswith(p)`. -/
def startsWith (s p : Str) : Bool := p.isPrefixOf s

/-- `s.replace(old, new)`, leftmost non-overlapping occurrences. `old` is taken non-empty in
all uses (for an empty `old` this returns `s`, where Python would insert `new` everywhere). -/
def replace (old new s : Str) : Str :=
  if old = [] then s else go s.length s
where
  /-- The scan; the number bounds the remaining length. -/
  go : Nat → Str → Str
  | 0, s => s
  | _ + 1, [] => []
  | n + 1, x :: xs =>
    if old.isPrefixOf (x :: xs) then new ++ go n ((x :: xs).drop old.length)
    else x :: go n xs

/-- One decimal digit as a character. -/
def digitChar (n : Nat) : Char := Char.ofNat (48 + n)

/-- `str(n)` for a natural number. -/
def natStr (n : Nat) : Str :=
  if n < 10 then [digitChar n] else natStr (n / 10) ++ [digitChar (n % 10)]

/-- `0`-`9`. -/
def isDigit (c : Char) : Bool := 48 ≤ c.toNat && c.toNat ≤ 57

/-- `int(s)` on a string of ASCII digits (the only use in the code). -/
def digitsVal (s : Str) : Nat := s.foldl (fun a c => 10 * a + (c.toNat - 48)) 0

/-- `xs[:-1]`. -/
abbrev dropLast {α} (xs : List α) : List α := xs.dropLast

/-- Python indexing `xs[i]` with an integer index, negatives counting from the end. -/
def pyGet {α} (xs : List α) (i : Int) : Option α :=
  if 0 ≤ i then xs[i.toNat]?
  else if 0 ≤ i + xs.length then xs[(i + xs.length).toNat]?
  else none

/-- Python slicing `xs[i:j]` with integer bounds, negatives counting from the end. -/
def pySlice {α} (xs : List α) (i j : Int) : List α :=
  let n : Int := xs.length
  let norm (k : Int) : Nat := if k < 0 then (max 0 (k + n)).toNat else (min k n).toNat
  (xs.take (norm j)).drop (norm i)

end Verif.Py
