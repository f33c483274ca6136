import Verif.Spec.Inventory
import Verif.Spec.LocalText
import Verif.Spec.TeiRefsDecl
import Verif.Spec.RefsDecl
import Verif.Model.LocalResolver
/-!
Specification vocabulary for the local resolver as a whole (C82). From the model it uses the types of inventories, of
files and of documents, and the list of the texts of an inventory; nothing of the functions that answer requests.
-/
namespace Verif.Spec
open Verif.Py Verif.Model

/-- The inventory is well formed: its identifiers tell the levels, and the texts have complete URNs. -/
structure Library (lv : Levels) (r : RootV) (parts : TextV → UrnParts) : Prop where
  fits : FitsRoot lv r
  written : TextsWritten r parts

/-- The text that is meant by a URN: the one that has this URN, or the first edition of the work that has it, when no
other work has a URN that begins with the same characters. -/
structure Asks (r : RootV) (parts : TextV → UrnParts) (q : UrnParts) (t : TextV) : Prop where
  wf : q.WF
  once : ∀ x ∈ rootTexts r, x.id = t.id → x = t
  which : (t ∈ rootTexts r ∧ q.ver ≠ none ∧ t.id = q.write) ∨
    (q.wk ≠ none ∧ q.ver = none ∧
      (∀ x ∈ rootTexts r, startsWith x.id (UrnParts.write { q with ver := none, ref := none }) = true → UnderUrn { q with ref := none } (parts x)) ∧
      ∃ pre post, rootTexts r = pre ++ t :: post ∧ t.kind = .edition ∧ UnderUrn { q with ref := none } (parts t) ∧
        ∀ x ∈ pre, x.kind = .edition → ¬ UnderUrn { q with ref := none } (parts x))

/-- The document declares the levels `ls`: the patterns of its first CTS declaration, read from the last, are their
refsDecls. -/
def DeclaresLevels (root : Node) (ls : List Level) : Prop :=
  ∃ r scheme, FirstDeclaration root r ∧ PatternsDescribe (patternsIn r) scheme ∧
    scheme.reverse.map CiteLevel.refsDecl = (declsOf root.tag ls).map some

/-- The file of the text is a document with a citation scheme that it declares and that fits it. -/
structure Held (files : Files) (t : TextV) (root : Node) (ls : List Level) : Prop where
  file : files t.path = some (.ok root)
  declares : DeclaresLevels root ls
  levels : ls ≠ []
  citable : Citable root ls

/-- Identifiers that can be part of a URN. -/
def InUrn (ids : List Str) : Prop := ∀ v ∈ ids, ':' ∉ v ∧ '#' ∉ v

instance (ids : List Str) : Decidable (InUrn ids) := by unfold InUrn; infer_instance

/-- The file of a text of the folder `dir`: `dir/textgroup.work.version.xml`. -/
def fileOf (dir : Str) (p : UrnParts) : Str :=
  dir ++ '/' :: p.tg.getD [] ++ '.' :: p.wk.getD [] ++ '.' :: p.ver.getD [] ++ ".xml".toList

/-- The text described in a file of a work. -/
def DescribedIn (found : List TgFile) (x : TgFile) (w : WorkFile) (t : TextV) : Prop := x ∈ found ∧ w ∈ x.works ∧ t ∈ w.texts

/-- The folders describe a library: identifiers tell the levels, the texts have complete URNs with the components `parts`,
and a text is described in one way and for one folder only. -/
structure Folders (lv : Levels) (found : List TgFile) (parts : Str → UrnParts) : Prop where
  tg : ∀ x ∈ found, lv.level x.id = 2
  work : ∀ x ∈ found, ∀ w ∈ x.works, lv.level w.id = 3 ∧ lv.owner w.id = x.id
  works : ∀ x ∈ found, (x.works.map WorkFile.id).Nodup
  text : ∀ x w t, DescribedIn found x w t → lv.level t.id = 4
  written : ∀ x w t, DescribedIn found x w t →
    (parts t.id).WF ∧ t.id = (parts t.id).write ∧ Urn.parse t.id = .ok t.urn ∧ (parts t.id).ver ≠ none ∧ (parts t.id).ref = none
  once : ∀ x w t, DescribedIn found x w t → ∀ x' w' t', DescribedIn found x' w' t' → t.id = t'.id → t = t' ∧ w.dir = w'.dir

/-- A refsDecl that the inventory can carry: at least two steps over the supported characters, placeholders numbered from
left to right. -/
def Carried (rd : Str) : Prop :=
  ∃ p x, p ≠ [] ∧ (∀ s ∈ p, s.WF) ∧ x.WF ∧ rd = refsDeclText (p ++ [x]) ∧ rd = numbered 1 (shownText (p ++ [x]))

end Verif.Spec
