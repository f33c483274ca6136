import Verif.Model.Generic
/-!
Specification vocabulary for the utilities (C53-C56). It uses the type of nested dictionaries only.
-/
namespace Verif.Spec
open Verif.Py Verif.Model

/-- Every run of spaces shortened to one space: of two adjacent spaces only the second is kept. -/
def squeeze : Str → Str
  | [] => []
  | [c] => [c]
  | c :: d :: r => if c = ' ' ∧ d = ' ' then squeeze (d :: r) else c :: squeeze (d :: r)

/-- The words of a string: its pieces between spaces. -/
def words (s : Str) : List Str := (split ' ' s).filter fun w => !w.isEmpty

/-- What stands at the end of a path, when every key on the way is present. -/
def valueAt {α : Type} : NDict α → List Str → Option (NDict α)
  | d, [] => some d
  | .leaf _, _ :: _ => none
  | .dict l, k :: ks =>
    match l.lookup k with
    | some d => valueAt d ks
    | none => none

mutual
/-- The values stored in a nested dictionary with the keys that lead to them, in order. -/
def leaves {α : Type} : NDict α → List (List Str × α)
  | .leaf v => [([], v)]
  | .dict l => itemLeaves l
/-- The same for the items of a dictionary. -/
def itemLeaves {α : Type} : List (Str × NDict α) → List (List Str × α)
  | [] => []
  | (k, d) :: r => (leaves d).map (fun p => (k :: p.1, p.2)) ++ itemLeaves r
end

/-- The text an XML parser reads from character data: the three entities are resolved. -/
def unescape : Str → Str
  | '&' :: 'a' :: 'm' :: 'p' :: ';' :: r => '&' :: unescape r
  | '&' :: 'l' :: 't' :: ';' :: r => '<' :: unescape r
  | '&' :: 'g' :: 't' :: ';' :: r => '>' :: unescape r
  | c :: r => c :: unescape r
  | [] => []

/-- A start tag's attributes as an XML reader sees them, after the name; the number bounds their count. -/
def readAttrs : Nat → Str → List (Str × Str) × Str
  | _, ' ' :: '>' :: r => ([], '>' :: r)
  | n + 1, ' ' :: r =>
    let name := r.takeWhile (· != '=')
    let rest := (r.dropWhile (· != '=')).drop 2
    let more := readAttrs n ((rest.dropWhile (· != '"')).drop 1)
    ((name, rest.takeWhile (· != '"')) :: more.1, more.2)
  | _, s => ([], s)

/-- Name, attributes and text of an element without children, as an XML reader sees them; and what follows. -/
def readNode : Str → Option (Str × List (Str × Str) × Str × Str)
  | '<' :: s =>
    let name := s.takeWhile fun c => c != ' ' && c != '>'
    let head := readAttrs s.length (s.dropWhile fun c => c != ' ' && c != '>')
    match head.2 with
    | '>' :: body => some (name, head.1, unescape (body.takeWhile (· != '<')), body.dropWhile (· != '<'))
    | _ => none
  | _ => none

end Verif.Spec
