import Verif.Spec.Generic
import Verif.Spec.RefsDecl
import Verif.Model.InventoryXml
/-!
Specification vocabulary for the XML of inventories (C71). From the model it uses the types of inventories and of
XML elements, and the parser of URNs.

First a reader of XML documents, in the subset without comments, processing instructions, CDATA sections,
self-closing elements and other entities than `&amp;`, `&lt;` and `&gt;`. It refuses what it does not treat.
-/
namespace Verif.Spec
open Verif.Py Verif.Model

/-- A value that stands for itself between double quotes in XML: no quote, no markup, and no blank that a parser
would normalise. -/
def AttrSafe (v : Str) : Prop := ∀ c ∈ ['"', '<', '&', '\t', '\n', '\r'], c ∉ v

instance (v : Str) : Decidable (AttrSafe v) := by unfold AttrSafe; infer_instance

/-- A name of an element or attribute, as far as the reader is concerned. -/
def NameSafe (n : Str) : Prop := n ≠ [] ∧ ∀ c ∈ [' ', '=', '>', '<', '/', '"', '&', '\t', '\n', '\r'], c ∉ n

instance (v : Str) : Decidable (NameSafe v) := by unfold NameSafe; infer_instance

/-- What a start tag may hold: proper names, proper values, no name twice. -/
def TagSafe (name : Str) (attrs : List (Str × Str)) : Prop :=
  NameSafe name ∧ (attrs.map Prod.fst).Nodup ∧ ∀ a ∈ attrs, NameSafe a.1 ∧ AttrSafe a.2

instance (n : Str) (a : List (Str × Str)) : Decidable (TagSafe n a) := by unfold TagSafe; infer_instance

/-- Character data up to the next `<`, with the entities resolved, and what follows. -/
def readText (s : Str) : Option (Str × Str) :=
  if '\r' ∈ s.takeWhile (· != '<') then none
  else some (unescape (s.takeWhile (· != '<')), s.dropWhile (· != '<'))

mutual
/-- The element at the beginning of a text, with the character data after it, and what follows. The number bounds
the depth of the reading; the length of the text is always enough. -/
def readElement : Nat → Str → Option (Node × Str)
  | fuel + 1, '<' :: s =>
    let name := s.takeWhile fun c => c != ' ' && c != '>'
    match readAttrs s.length (s.dropWhile fun c => c != ' ' && c != '>') with
    | (attrs, '>' :: body) =>
      if TagSafe name attrs then
        match readText body with
        | some (text, r) =>
          match readElements fuel r with
          | some (kids, r') =>
            if (['<', '/'] ++ name ++ ['>']).isPrefixOf r' then
              match readText (r'.drop (name.length + 3)) with
              | some (tail, r'') => some (.mk name attrs text kids tail, r'')
              | none => none
            else none
          | none => none
        | none => none
      else none
    | _ => none
  | _, _ => none
/-- The elements at the beginning of a text, up to an end tag. -/
def readElements : Nat → Str → Option (List Node × Str)
  | fuel + 1, s =>
    if ['<', '/'].isPrefixOf s then some ([], s)
    else match readElement fuel s with
      | some (n, r) =>
        match readElements fuel r with
        | some (ns, r') => some (n :: ns, r')
        | none => none
      | none => none
  | 0, _ => none
end

/-- A whole document: one element and nothing after it. -/
def readXml (s : Str) : Option Node :=
  match readElement s.length s with
  | some (n, []) => some n
  | _ => none

/-- The namespace of CTS inventories, as `XPATH_NAMESPACES` of the code has it. -/
def ctsNamespace : Str := "http://chs.harvard.edu/xmlns/cts".toList

/-- The namespaces that an element declares: the namespace of a prefix, the empty prefix being the default. -/
def declared (root : Node) (prefix_ : Str) : Option Str :=
  root.get (if prefix_ = [] then "xmlns".toList else "xmlns:".toList ++ prefix_)

/-- The prefix and the local part of a name. -/
def nameParts (t : Str) : Str × Str :=
  if ':' ∈ t then (t.takeWhile (· != ':'), (t.dropWhile (· != ':')).drop 1) else ([], t)

/-- The name of an element with its namespace: `ti:name` for the namespace of CTS, `{namespace}name` for others; a
prefix that is not declared is an error. -/
def resolveTag (env : Str → Option Str) (t : Str) : Option Str :=
  match env (nameParts t).1 with
  | some ns => if ns = ctsNamespace then some ("ti:".toList ++ (nameParts t).2) else some (['{'] ++ ns ++ ['}'] ++ (nameParts t).2)
  | none => if (nameParts t).1 = [] then some t else none

/-- The name of an attribute: without prefix it has no namespace, and `xml:` and `xmlns:` stay as they are. -/
def resolveAttr (env : Str → Option Str) (t : Str) : Option Str :=
  if (nameParts t).1 ∈ [[], "xml".toList, "xmlns".toList] then some t
  else match env (nameParts t).1 with
    | some ns => some (['{'] ++ ns ++ ['}'] ++ (nameParts t).2)
    | none => none

def resolveAttrs (env : Str → Option Str) : List (Str × Str) → Option (List (Str × Str))
  | [] => some []
  | (k, v) :: r =>
    match resolveAttr env k, resolveAttrs env r with
    | some k, some r => some ((k, v) :: r)
    | _, _ => none

mutual
/-- The element with its names resolved. -/
def resolveNode (env : Str → Option Str) : Node → Option Node
  | .mk t a x ks l =>
    match resolveTag env t, resolveAttrs env a, resolveNodes env ks with
    | some t, some a, some ks => some (.mk t a x ks l)
    | _, _, _ => none
/-- The same for the elements inside, which must not declare namespaces themselves. -/
def resolveNodes (env : Str → Option Str) : List Node → Option (List Node)
  | [] => some []
  | n :: r =>
    if n.attrs.any fun a => "xmlns".toList.isPrefixOf a.1 then none
    else match resolveNode env n, resolveNodes env r with
      | some n, some r => some (n :: r)
      | _, _ => none
end

/-- A document, with the names of its elements and attributes resolved by the namespaces that its root declares. -/
def readCts (s : Str) : Option Node :=
  match readXml s with
  | some n => resolveNode (declared n) n
  | none => none

/-! ### Inventories that XML can carry -/

/-- A title, label, description or name with a language. -/
def LitSafe (l : Lit) : Prop := (∃ lg, l.1 = some lg ∧ AttrSafe lg) ∧ l.2 ≠ [] ∧ '\r' ∉ l.2

/-- A list of such values, none of them twice. -/
def LitsSafe (l : List Lit) : Prop := l.Nodup ∧ ∀ x ∈ l, LitSafe x

/-- A level of a citation scheme: its refsDecl is a path of at least two well-formed steps whose placeholders are
numbered from left to right. -/
def LevelSafe (l : CiteLevel) : Prop :=
  AttrSafe (l.name.getD []) ∧
  ∃ (p : List PStep) (x : PStep), p ≠ [] ∧ (∀ s ∈ p, s.WF) ∧ x.WF ∧ l.refsDecl = some (refsDeclText (p ++ [x])) ∧
    refsDeclText (p ++ [x]) = numbered 1 (shownText (p ++ [x])) ∧
    ∀ c ∈ ['\t', '\n', '\r'], c ∉ refsDeclText (p ++ [x])

/-- An identifier: a text that `URN` accepts. -/
def IdSafe (id : Str) : Prop := AttrSafe id ∧ ∃ u, Urn.parse id = .ok u

/-- A text that can be exported and read again: an edition has the language of its work. -/
structure TextSafe (workLang : Str) (t : XText) : Prop where
  id : IdSafe t.id
  lang : AttrSafe t.lang
  kind : t.kind ≠ .plain
  edition : t.kind = .edition → t.lang = workLang
  labels : LitsSafe t.labels
  descriptions : LitsSafe t.descriptions
  about : t.about.Nodup ∧ ∀ u ∈ t.about, AttrSafe u
  cite : ∀ l ∈ t.cite, LevelSafe l

/-- A work, with distinct identifiers of its texts. -/
structure WorkSafe (w : XWork) : Prop where
  id : IdSafe w.id
  lang : AttrSafe w.lang
  titles : LitsSafe w.titles
  ids : (w.texts.map XText.id).Nodup
  texts : ∀ t ∈ w.texts, TextSafe w.lang t

/-- A textgroup, with distinct identifiers of its works. -/
structure GroupSafe (g : XGroup) : Prop where
  id : IdSafe g.id
  names : LitsSafe g.names
  ids : (g.works.map XWork.id).Nodup
  works : ∀ w ∈ g.works, WorkSafe w

/-- An inventory, with distinct identifiers of its textgroups. -/
structure InvSafe (i : XInv) : Prop where
  id : AttrSafe i.id
  ids : (i.groups.map XGroup.id).Nodup
  groups : ∀ g ∈ i.groups, GroupSafe g

/-- A prefix that can be written, or none. -/
def PrefixSafe (pf : Str) : Prop := pf = [] ∨ (NameSafe pf ∧ ':' ∉ pf)

instance (pf : Str) : Decidable (PrefixSafe pf) := by unfold PrefixSafe; infer_instance

/-- Prefixes and namespaces of the predicates of the graph. They can be written, one of them is the namespace of
CTS with the prefix `pf`, and this prefix has no other namespace: the graph holds at least one title, label,
description or name. -/
structure HeaderSafe (pf : Str) (preds : List (Str × Str)) : Prop where
  name : PrefixSafe pf
  safe : ∀ p ∈ preds, (p.1 = [] ∨ NameSafe p.1) ∧ AttrSafe p.2
  cts : (pf, "http://chs.harvard.edu/xmlns/cts/".toList) ∈ preds
  only : ∀ p ∈ preds, p.1 = pf → p.2 = "http://chs.harvard.edu/xmlns/cts/".toList

/-! ### What is read -/

/-- A level of a citation scheme after the trip: a missing name is empty, double quotes are single quotes. -/
def levelRead (l : CiteLevel) : CiteLevel :=
  { name := some (l.name.getD []), refsDecl := l.refsDecl.map fun r => r.map fun c => if c = '"' then '\'' else c }

/-- A text after the trip. -/
def textRead (t : XText) : XText := { t with cite := t.cite.map levelRead }

/-- The texts of one kind. -/
def ofKind (k : Kind) (l : List XText) : List XText := l.filter fun t => t.kind = k

/-- A work after the trip: editions, then translations, then commentaries. -/
def workRead (w : XWork) : XWork :=
  { w with texts := (ofKind .edition w.texts ++ ofKind .translation w.texts ++ ofKind .commentary w.texts).map textRead }

/-- A textgroup after the trip. -/
def groupRead (g : XGroup) : XGroup := { g with works := g.works.map workRead }

/-- An inventory after the trip. -/
def invRead (i : XInv) : XInv := { i with groups := i.groups.map groupRead }

end Verif.Spec
