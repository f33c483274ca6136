import Verif.Spec.Xml
import Verif.Model.XmlComments
/-!
Specification vocabulary for documents with comments and processing instructions (C110). It uses positions
and the mark of a comment; nothing of `passageLoop`.
-/
namespace Verif.Spec
open Verif.Py Verif.Model

/-- The root is an element, and comments have no attributes, text or children. -/
def CommentsAreLeaves (root : Node) : Prop :=
  root.isComment = false ∧
  ∀ pos c, nodeAt root pos = some c → c.isComment = true → c.attrs = [] ∧ c.text = [] ∧ c.kids = []

/-- The step selects elements only: it gives a name, or tests an attribute. -/
def NamesElements (s : Step) : Prop := s.name ≠ commentName ∧ (s.name = ['*'] → s.tests ≠ [])

/-- Between the start and the end of a range stands a comment whose parent is not itself between them,
because it contains the start or the end. -/
def CommentBetween (root : Node) (st en : List Nat) : Prop :=
  ∃ parent i c, nodeAt root (parent ++ [i]) = some c ∧ c.isComment = true ∧
    Precedes st (parent ++ [i]) ∧ Precedes (parent ++ [i]) en ∧ (Above parent st ∨ Above parent en)

/-- The text that comments at the head of a list leave behind. -/
def leadText : List Node → Str
  | [] => []
  | c :: r => if c.isComment then c.tail ++ leadText r else []

/-- An element with more text after it. -/
def addTail (s : Str) : Node → Node
  | .mk t a x ks y => .mk t a x ks (y ++ s)

mutual
/-- The document as it would be read with the comments taken out of the file: the text after a comment
goes to the element before it, or to the start of the parent. -/
def dropComments : Node → Node
  | .mk t a x ks y => .mk t a (x ++ leadText ks) (dropCommentsAll ks) y
/-- The same for a list of children. -/
def dropCommentsAll : List Node → List Node
  | [] => []
  | c :: r => if c.isComment then dropCommentsAll r else addTail (leadText r) (dropComments c) :: dropCommentsAll r
end

end Verif.Spec
