import Verif.Py.Str
/-!
Model of the string side of `Citation`: MyCapytain/common/reference/_capitains_cts.py, lines 10-13
(regular expressions), 704-800 (scope, xpath, refsDecl), 828-872 and 959-975 (fill).
-/
namespace Verif.Model
open Verif.Py

/-- ASCII letters. -/
def isAsciiLetter (c : Char) : Bool := ('a' ≤ c && c ≤ 'z') || ('A' ≤ c && c ≤ 'Z')

/-- Python's `\s` for `str` patterns (Unicode white space). -/
def isSpace (c : Char) : Bool :=
  let n := c.toNat
  (9 ≤ n && n ≤ 13) || (28 ≤ n && n ≤ 32) || n == 0x85 || n == 0xa0 || n == 0x1680 ||
  (0x2000 ≤ n && n ≤ 0x200a) || n == 0x2028 || n == 0x2029 || n == 0x202f || n == 0x205f || n == 0x3000

/-- The character class of `REFSDECL_SPLITTER`, `[*()|\sa-zA-Z0-9:\[\]@=\\{$'\".\s]`:
_capitains_cts.py 10. -/
def splitterClass (c : Char) : Bool :=
  isAsciiLetter c || isDigit c || isSpace c || "*()|:[]@=\\{$'\".".toList.contains c

/-- `REFSDECL_SPLITTER.findall(s)`, pattern `/+[class]+` (_capitains_cts.py 10, 785). At a slash
the whole run of slashes is taken; when no character of the class follows, no start inside the run
can match either (the class holds no slash), so the run is skipped. -/
def splitterFindall (s : Str) : List Str :=
  match s with
  | [] => []
  | c :: r =>
    if c = '/' then
      let slashes := r.takeWhile (· == '/')
      let rest := r.dropWhile (· == '/')
      let body := rest.takeWhile splitterClass
      if body.isEmpty then splitterFindall rest
      else ('/' :: slashes ++ body) :: splitterFindall (rest.dropWhile splitterClass)
    else splitterFindall r
termination_by s.length
decreasing_by
  · simp only [List.length_cons]
    have := List.IsSuffix.length_le (List.dropWhile_suffix (l := r) (· == '/'))
    omega
  · simp only [List.length_cons]
    have h1 := List.IsSuffix.length_le (List.dropWhile_suffix (l := r) (· == '/'))
    have h2 := List.IsSuffix.length_le
      (List.dropWhile_suffix (l := r.dropWhile (· == '/')) splitterClass)
    omega
  · simp

/-- `REFSDECL_REPLACER.sub("?", s)`, pattern `\$[0-9]+` (_capitains_cts.py 11, 786). -/
def dollarSub (s : Str) : Str :=
  match s with
  | [] => []
  | c :: r =>
    if c = '$' ∧ (r.takeWhile isDigit).isEmpty = false then '?' :: dollarSub (r.dropWhile isDigit)
    else c :: dollarSub r
termination_by s.length
decreasing_by
  · simp only [List.length_cons]
    have := List.IsSuffix.length_le (List.dropWhile_suffix (l := r) isDigit)
    omega
  · simp

/-- `_parseXpathScope`: scope and xpath read from a refsDecl (_capitains_cts.py 779-786).
`matches[-1]` raises `IndexError` when nothing matches. -/
def parseXpathScope (refsDecl : Str) : Except PyErr (Str × Str) :=
  match (splitterFindall refsDecl).getLast? with
  | none => .error .indexError
  | some last =>
    .ok (dollarSub (join [] (splitterFindall refsDecl).dropLast), dollarSub last)

/-- The loop of `_fromScopeXpathToRefsDecl` (_capitains_cts.py 794-799): replace the first `?` by
`$ii` until none is left. The first argument bounds the number of rounds. -/
def numberLoop : Nat → Nat → Str → Str
  | 0, _, s => s
  | fuel + 1, ii, s =>
    match find '?' s with
    | none => s
    | some i => numberLoop fuel (ii + 1) (s.take i ++ '$' :: natStr ii ++ s.drop (i + 1))

/-- `_fromScopeXpathToRefsDecl(scope, xpath)`: the refsDecl that is stored
(_capitains_cts.py 788-800). Each round removes one `?`, so as many rounds as there are `?` end the
loop. -/
def fromScopeXpath (scope xpath : Str) : Str :=
  numberLoop ((scope ++ xpath).count '?') 1 (scope ++ xpath)

/-- `[a-zA-Z0-9:]`: _capitains_cts.py 13. -/
def attrChar (c : Char) : Bool := isAsciiLetter c || isDigit c || c == ':'

/-- `[\\$'\"?0-9]`: _capitains_cts.py 13. -/
def valueChar (c : Char) : Bool := isDigit c || "\\$'\"?".toList.contains c

/-- A match of `REFERENCE_REPLACER = (@[a-zA-Z0-9:]+)(=)([\\$'\"?0-9]{3,6})` at the start of a string
whose first character `@` was consumed: the attribute name (group 1 without `@`) and what follows
the match (_capitains_cts.py 13). The greedy name run cannot contain `=`, so there is nothing to
backtrack into. -/
def matchHole (s : Str) : Option (Str × Str) :=
  let name := s.takeWhile attrChar
  if name.isEmpty then none
  else match s.dropWhile attrChar with
    | '=' :: r =>
      let v := (r.takeWhile valueChar).take 6
      if v.length < 3 then none else some (name, r.drop v.length)
    | _ => none

theorem matchHole_length {s name rest : Str} (h : matchHole s = some (name, rest)) :
    rest.length < s.length := by
  unfold matchHole at h
  simp only at h
  split at h
  · simp at h
  · split at h
    · rename_i r hr
      split at h
      · simp at h
      · simp at h
        have := List.IsSuffix.length_le (List.dropWhile_suffix (l := s) attrChar)
        rw [hr] at this
        rw [← h.2]
        simp at this ⊢
        omega
    · simp at h

/-- The text that replaces a match for one value: `_ref_replacer`, _capitains_cts.py 970-975. -/
def holeText (name : Str) : Option Str → Str
  | none => '@' :: name
  | some v => '@' :: name ++ '=' :: '\'' :: v ++ ['\'']

/-- `REFERENCE_REPLACER.sub(lambda m: _ref_replacer(m, passage), refsDecl)` with `passage` an iterator
over the list of values: _capitains_cts.py 868-872, 959-975. `next()` on an exhausted iterator raises
`StopIteration`, which `re.sub` lets through. -/
def fillList (s : Str) (vals : List (Option Str)) : Except PyErr Str :=
  match s with
  | [] => .ok []
  | c :: r =>
    if c = '@' then
      match h : matchHole r with
      | some (name, rest) =>
        match vals with
        | [] => .error .stopIteration
        | v :: vs => (holeText name v ++ ·) <$> fillList rest vs
      | none => (c :: ·) <$> fillList r vals
    else (c :: ·) <$> fillList r vals
termination_by s.length
decreasing_by
  · have := matchHole_length h
    simp; omega
  all_goals simp

/-- `REFERENCE_REPLACER.sub(r"\1", s)`: `fill(None)` (_capitains_cts.py 863-867) and
`fill(None, xpath=True)` (852-859). -/
def fillNone (s : Str) : Str :=
  match s with
  | [] => []
  | c :: r =>
    if c = '@' then
      match h : matchHole r with
      | some (name, rest) => '@' :: name ++ fillNone rest
      | none => c :: fillNone r
    else c :: fillNone r
termination_by s.length
decreasing_by
  · have := matchHole_length h
    simp; omega
  all_goals simp

/-- `REFERENCE_REPLACER.sub(r"\1\2'" + passage + "'", s)`: `fill(passage, xpath=True)`
(_capitains_cts.py 852-859), for a passage without backslash (a backslash would be read as a
template escape). -/
def fillConst (s v : Str) : Str :=
  match s with
  | [] => []
  | c :: r =>
    if c = '@' then
      match h : matchHole r with
      | some (name, rest) => holeText name (some v) ++ fillConst rest v
      | none => c :: fillConst r v
    else c :: fillConst r v
termination_by s.length
decreasing_by
  · have := matchHole_length h
    simp; omega
  all_goals simp

/-- The passage argument of `fill` when `xpath` is not `True`: _capitains_cts.py 861-872. -/
inductive FillArg where
  | none
  | ref (components : List Str)          -- a CtsReference: `passage.start.list`
  | list (values : List (Option Str))

/-- `citation.fill(passage)`: _capitains_cts.py 860-872. -/
def fill (refsDecl : Str) : FillArg → Except PyErr Str
  | .none => .ok (fillNone refsDecl)
  | .ref cs => fillList refsDecl (cs.map some)
  | .list vs => fillList refsDecl vs

/-- `citation.fill(passage, xpath=True)`: _capitains_cts.py 852-859. -/
def fillXpath (refsDecl : Str) (passage : Option Str) : Except PyErr Str := do
  let (_, xpath) ← parseXpathScope refsDecl
  match passage with
  | some v => return fillConst xpath v
  | none => return fillNone xpath

/-- Letters and colon, `[a-zA-Z:]`: _capitains_cts.py 774. -/
def attrNameChar (c : Char) : Bool := isAsciiLetter c || c == ':'

/-- An optional backslash: `\\?`. -/
def skipBackslash : Str → Str
  | '\\' :: r => r
  | r => r

/-- A match of `\@([a-zA-Z:]+)=\\?['\"]\$N\\?['\"]` after its `@` (_capitains_cts.py 773-776): the
attribute name and what follows. `n` is `N` in decimal. Letters and `=` are disjoint and every
optional part is determined by the next character, so there is no backtracking. -/
def matchAttr (n : Str) (s : Str) : Option (Str × Str) :=
  let name := s.takeWhile attrNameChar
  if name.isEmpty then none
  else match s.dropWhile attrNameChar with
    | '=' :: r =>
      match skipBackslash r with
      | q :: '$' :: r =>
        if q = '\'' ∨ q = '"' then
          if n.isPrefixOf r then
            match skipBackslash (r.drop n.length) with
            | q' :: rest => if q' = '\'' ∨ q' = '"' then some (name, rest) else none
            | [] => none
          else none
        else none
      | _ => none
    | _ => none

theorem skipBackslash_length (s : Str) : (skipBackslash s).length ≤ s.length := by
  unfold skipBackslash; split <;> simp

theorem matchAttr_length {n s name rest : Str} (h : matchAttr n s = some (name, rest)) :
    rest.length < s.length := by
  unfold matchAttr at h
  simp only at h
  split at h
  · simp at h
  · split at h
    · rename_i r hr
      have h0 := List.IsSuffix.length_le (List.dropWhile_suffix (l := s) attrNameChar)
      rw [hr] at h0
      have h1 := skipBackslash_length r
      split at h
      · rename_i q r2 hr2
        rw [hr2] at h1
        split at h
        · split at h
          · have h2 := skipBackslash_length (r2.drop n.length)
            split at h
            · rename_i q' rest' hr3
              rw [hr3] at h2
              split at h
              · simp at h
                rw [← h.2]
                simp at h0 h1 h2 ⊢
                omega
              · simp at h
            · simp at h
          · simp at h
        · simp at h
      · simp at h
    · simp at h

/-- `re.findall` of the attribute pattern: _capitains_cts.py 773-776. -/
def attrFindall (n : Str) (s : Str) : List Str :=
  match s with
  | [] => []
  | c :: r =>
    if c = '@' then
      match h : matchAttr n r with
      | some (name, rest) => name :: attrFindall n rest
      | none => attrFindall n r
    else attrFindall n r
termination_by s.length
decreasing_by
  · have := matchAttr_length h
    simp; omega
  all_goals simp

/-- `citation.attribute`: _capitains_cts.py 769-777. `refs[-1]` raises `IndexError` when there is no
match. -/
def citationAttribute (refsDecl : Str) : Except PyErr Str :=
  match (attrFindall (natStr (refsDecl.count '$')) refsDecl).getLast? with
  | some a => .ok a
  | none => .error .indexError

end Verif.Model
