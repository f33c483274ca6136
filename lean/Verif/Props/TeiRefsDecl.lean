import Verif.Spec.TeiRefsDecl
import Verif.Lemmas.InventoryXml
/-!
C73: the citation scheme of a text is the one that its TEI header declares, and schemes survive export to TEI.
-/
namespace Verif.Props
open Verif.Py Verif.Model Verif.Spec Verif.Lemmas

/-! ### Reading a scheme -/

theorem withoutFunction_xpath (e : Str) : withoutFunction (['#', 'x', 'p', 'a', 't', 'h', '('] ++ e ++ [')']) = e := by
  rw [withoutFunction, List.dropLast_concat]
  rfl

theorem levelsOf_describes {ns : List Node} {ls : List CiteLevel} (h : PatternsDescribe ns ls) : levelsOf ns = .ok ls := by
  induction h with
  | nil => rfl
  | @cons n l ns ls h _ ih =>
    obtain ⟨e, h1, h2, h3⟩ := h
    rw [levelsOf]
    have h3 : n.get ['r', 'e', 'p', 'l', 'a', 'c', 'e', 'm', 'e', 'n', 't', 'P', 'a', 't', 't', 'e', 'r', 'n'] = some (['#', 'x', 'p', 'a', 't', 'h', '('] ++ e ++ [')']) := h3
    have h1 : n.get ['n'] = l.name := h1
    rw [h3]
    simp only [ih, h1, withoutFunction_xpath]
    rw [← h2]

theorem ingestTei_describes {r : Node} {ls : List CiteLevel} (hl : ls ≠ []) (h : PatternsDescribe (patternsIn r) ls) :
    ingestTei r = .ok ls.reverse := by
  have := levelsOf_describes h
  unfold ingestTei
  have e : patternsIn r = (allNodesList r.kids).filter fun c => c.tag = ['t', 'e', 'i', ':', 'c', 'R', 'e', 'f', 'P', 'a', 't', 't', 'e', 'r', 'n'] := rfl
  rw [← e, this]
  cases ls with
  | nil => exact absurd rfl hl
  | cons l r => rfl

theorem decl_iff (c : Node) : (decide (c.tag = ['t', 'e', 'i', ':', 'r', 'e', 'f', 's', 'D', 'e', 'c', 'l'] ∧ c.get ['n'] = some ['C', 'T', 'S']) = true) ↔ IsDeclaration c := by
  rw [decide_eq_true_eq]; rfl

theorem first_of_filter {root r : Node} (h : FirstDeclaration root r) :
    ∃ l, (root.allNodes.filter fun c => c.tag = ['t', 'e', 'i', ':', 'r', 'e', 'f', 's', 'D', 'e', 'c', 'l'] ∧ c.get ['n'] = some ['C', 'T', 'S']) = r :: l := by
  obtain ⟨a, b, h1, h2, h3⟩ := h
  rw [h1, List.filter_append, List.filter_cons, if_pos ((decl_iff r).2 h2)]
  rw [show a.filter _ = [] from List.filter_eq_nil_iff.2 fun x hx hd => h3 x hx ((decl_iff x).1 hd)]
  exact ⟨_, rfl⟩

theorem not_set {given : List CiteLevel} (h : ∀ l r, given = l :: r → l.refsDecl = none) : citeIsSet given = false := by
  cases given with
  | nil => rfl
  | cons l r => simp [citeIsSet, h l r rfl]

/-- C73 (declared scheme): a text opened without a citation scheme gets the levels that the patterns of the first
CTS declaration of the document describe, from the last pattern to the first. -/
theorem C73_declared (given : List CiteLevel) (hg : ∀ l r, given = l :: r → l.refsDecl = none) (root r : Node)
    (hr : FirstDeclaration root r) (ls : List CiteLevel) (hl : ls ≠ []) (hd : PatternsDescribe (patternsIn r) ls) :
    findCRefPattern given root = .ok ls.reverse := by
  obtain ⟨l, hf⟩ := first_of_filter hr
  rw [findCRefPattern, not_set hg, hf]
  exact ingestTei_describes hl hd

/-- C73 (given scheme): a scheme given to the constructor is kept, whatever the document declares. -/
theorem C73_given (l : CiteLevel) (r : List CiteLevel) (h : l.refsDecl ≠ none) (root : Node) :
    findCRefPattern (l :: r) root = .ok (l :: r) := by
  have : citeIsSet (l :: r) = true := by
    cases e : l.refsDecl with
    | none => exact absurd e h
    | some x => simp [citeIsSet, e]
  rw [findCRefPattern, this]
  rfl

/-- C73 (no declaration): opening a text without a scheme raises `MissingRefsDecl` exactly when the document has no
CTS declaration. -/
theorem C73_missing (given : List CiteLevel) (hg : ∀ l r, given = l :: r → l.refsDecl = none) (root : Node) :
    findCRefPattern given root = .error .missingRefsDecl ↔ ∀ n ∈ root.allNodes, ¬ IsDeclaration n := by
  rw [findCRefPattern, not_set hg]
  constructor
  · intro h n hn hd
    split at h
    · contradiction
    · split at h
      · rename_i hf
        exact List.filter_eq_nil_iff.1 hf n hn ((decl_iff n).2 hd)
      · exfalso
        unfold ingestTei at h
        split at h
        · rename_i e he
          injection h with h
          subst h
          revert he
          generalize List.filter _ _ = ns
          intro he
          induction ns with
          | nil => cases he
          | cons x xs ih =>
            rw [levelsOf] at he
            split at he
            · cases he
            · split at he
              · rename_i e2 h2
                injection he with he
                subst he
                exact ih h2
              · cases he
        · cases h
        · cases h
  · intro h
    rw [List.filter_eq_nil_iff.2 fun n hn hd => h n hn ((decl_iff n).1 hd)]
    rfl

/-! ### Writing a scheme and reading it -/

theorem escape_safe {s : Str} (h : AttrSafe s) (hg : '>' ∉ s) : xmlEscape s = s := by
  rw [xmlEscape_eq]
  induction s with
  | nil => rfl
  | cons c r ih =>
    rw [List.flatMap_cons, ih (fun x hx hm => h x hx (List.mem_cons_of_mem _ hm)) (fun hm => hg (List.mem_cons_of_mem _ hm))]
    have h1 : c ≠ '<' := fun e => h '<' (by simp) (by rw [← e]; simp)
    have h2 : c ≠ '&' := fun e => h '&' (by simp) (by rw [← e]; simp)
    have h3 : c ≠ '>' := fun e => hg (by rw [← e]; simp)
    simp [escapeChar, h1, h2, h3]

/-- The element that the export of a level writes. -/
def patternTree (l : CiteLevel) (e : Str) : Node :=
  .mk ['t', 'e', 'i', ':', 'c', 'R', 'e', 'f', 'P', 'a', 't', 't', 'e', 'r', 'n'] [(['n'], l.name.getD []), (['m', 'a', 't', 'c', 'h', 'P', 'a', 't', 't', 'e', 'r', 'n'], join ['\\', '.'] (List.replicate (count '$' e) ['(', '\\', 'w', '+', ')'])),
      (['r', 'e', 'p', 'l', 'a', 'c', 'e', 'm', 'e', 'n', 't', 'P', 'a', 't', 't', 'e', 'r', 'n'], ['#', 'x', 'p', 'a', 't', 'h', '('] ++ e ++ [')'])] []
    [.mk ['t', 'e', 'i', ':', 'p'] [] (['T', 'h', 'i', 's', ' ', 'p', 'o', 'i', 'n', 't', 'e', 'r', ' ', 'p', 'a', 't', 't', 'e', 'r', 'n', ' ', 'e', 'x', 't', 'r', 'a', 'c', 't', 's', ' '] ++ l.name.getD []) [] []] []

theorem mem_joined {n : Nat} {c : Char} (h : c ∈ join ['\\', '.'] (List.replicate n ['(', '\\', 'w', '+', ')'])) : c ∈ ['(', '\\', 'w', '+', ')', '.'] := by
  induction n with
  | zero => cases h
  | succ n ih =>
    cases n with
    | zero =>
      rw [List.replicate_one, join] at h
      exact List.mem_append.2 (.inl h)
    | succ n =>
      rw [List.replicate_succ, List.replicate_succ, join, ← List.replicate_succ] at h
      rcases List.mem_append.1 h with h | h
      · rcases List.mem_append.1 h with h | h
        · exact List.mem_append.2 (.inl h)
        · clear ih; simp at h ⊢; rcases h with rfl | rfl <;> simp
      · exact ih h

theorem attrSafe_match (n : Nat) : AttrSafe (join ['\\', '.'] (List.replicate n ['(', '\\', 'w', '+', ')'])) := by
  intro c hc hm
  have hj := mem_joined hm
  clear hm
  revert c
  decide

theorem attrSafe_append {a b : Str} (ha : AttrSafe a) (hb : AttrSafe b) : AttrSafe (a ++ b) := by
  intro c hc hm
  rcases List.mem_append.1 hm with h | h
  · exact ha c hc h
  · exact hb c hc h

theorem attrSafe_cr {a : Str} (h : AttrSafe a) : '\r' ∉ a := h '\r' (by simp)

theorem writes_tei {l : CiteLevel} {e : Str} (hn : AttrSafe (l.name.getD [])) (hg : '>' ∉ l.name.getD []) (hl : l.refsDecl = some e)
    (hne : e ≠ []) (he : AttrSafe e) : Writes (teiExport l) (patternTree l e) := by
  have htext : AttrSafe (['T', 'h', 'i', 's', ' ', 'p', 'o', 'i', 'n', 't', 'e', 'r', ' ', 'p', 'a', 't', 't', 'e', 'r', 'n', ' ', 'e', 'x', 't', 'r', 'a', 'c', 't', 's', ' '] ++ l.name.getD []) := attrSafe_append (by decide) hn
  have hp := writes_node (name := ['t', 'e', 'i', ':', 'p']) (a := []) (attrs := []) (text := ['T', 'h', 'i', 's', ' ', 'p', 'o', 'i', 'n', 't', 'e', 'r', ' ', 'p', 'a', 't', 't', 'e', 'r', 'n', ' ', 'e', 'x', 't', 'r', 'a', 'c', 't', 's', ' '] ++ l.name.getD [])
    (k := []) (kids := []) (by decide) (.inl ⟨rfl, rfl⟩) (attrSafe_cr htext) readsList_nil []
  rw [escape_safe htext (by
    intro hm
    rcases List.mem_append.1 hm with h | h
    · revert h; decide
    · exact hg h)] at hp
  have hp' := hp [] (by simp)
  rw [xmlEscape_nil, List.append_nil] at hp'
  have hk := readsList_cons hp' readsList_nil
  have := writes_node (name := ['t', 'e', 'i', ':', 'c', 'R', 'e', 'f', 'P', 'a', 't', 't', 'e', 'r', 'n']) (a := ' ' :: attrsText [(['n'], l.name.getD []), (['m', 'a', 't', 'c', 'h', 'P', 'a', 't', 't', 'e', 'r', 'n'],
      join ['\\', '.'] (List.replicate (count '$' e) ['(', '\\', 'w', '+', ')'])), (['r', 'e', 'p', 'l', 'a', 'c', 'e', 'm', 'e', 'n', 't', 'P', 'a', 't', 't', 'e', 'r', 'n'], ['#', 'x', 'p', 'a', 't', 'h', '('] ++ e ++ [')'])])
    (text := []) ⟨by decide, by simp, by
      intro a ha
      simp only [List.mem_cons, List.not_mem_nil, or_false] at ha
      rcases ha with rfl | rfl | rfl
      · exact ⟨by dsimp only; decide, hn⟩
      · exact ⟨by dsimp only; decide, attrSafe_match _⟩
      · exact ⟨by dsimp only; decide, attrSafe_append (attrSafe_append (by decide) he) (by decide)⟩⟩ (.inr rfl) (by simp) hk []
  rw [patternTree]
  rw [withTail] at this
  unfold teiExport
  rw [hl]
  simp only [if_neg hne]
  simpa [attrsText, join, xmlEscape_nil] using this

/-- The patterns of a scheme, the deepest first. -/
theorem reads_patterns {ls : List CiteLevel} (h : ∀ l ∈ ls, TeiSafe l) : ∃ ns, ReadsList (ls.map teiExport).flatten ns ∧
    PatternsDescribe ((allNodesList ns).filter fun c => c.tag = ['t', 'e', 'i', ':', 'c', 'R', 'e', 'f', 'P', 'a', 't', 't', 'e', 'r', 'n']) (ls.map teiRead) := by
  induction ls with
  | nil => exact ⟨[], readsList_nil, .nil⟩
  | cons l r ih =>
    obtain ⟨ns, h1, h2⟩ := ih fun x hx => h x (List.mem_cons_of_mem _ hx)
    obtain ⟨hn, hg, e, hl, hne, he⟩ := h l (by simp)
    have hw := writes_tei hn hg hl hne he [] (by simp)
    rw [xmlEscape_nil, List.append_nil] at hw
    refine ⟨_, readsList_cons hw h1, ?_⟩
    have : ((allNodesList (withTail (patternTree l e) [] :: ns)).filter fun c => c.tag = ['t', 'e', 'i', ':', 'c', 'R', 'e', 'f', 'P', 'a', 't', 't', 'e', 'r', 'n']) =
        withTail (patternTree l e) [] :: (allNodesList ns).filter fun c => c.tag = ['t', 'e', 'i', ':', 'c', 'R', 'e', 'f', 'P', 'a', 't', 't', 'e', 'r', 'n'] := by
      simp [allNodesList, patternTree, withTail, Node.allNodes, Node.tag]
    rw [this]
    refine .cons ⟨e, rfl, hl, ?_⟩ h2
    rfl

theorem declarationText_eq (scheme : List CiteLevel) : declarationText teiExport scheme =
    ['<'] ++ ['t', 'e', 'i', ':', 'r', 'e', 'f', 's', 'D', 'e', 'c', 'l'] ++ (' ' :: attrsText [(['n'], ['C', 'T', 'S'])]) ++ ['>'] ++ xmlEscape [] ++ (scheme.reverse.map teiExport).flatten ++
      ['<', '/'] ++ ['t', 'e', 'i', ':', 'r', 'e', 'f', 's', 'D', 'e', 'c', 'l'] ++ ['>'] := by
  have e1 : declarationStart = ['<'] ++ ['t', 'e', 'i', ':', 'r', 'e', 'f', 's', 'D', 'e', 'c', 'l'] ++ (' ' :: attrsText [(['n'], ['C', 'T', 'S'])]) ++ ['>'] ++ xmlEscape [] := by
    decide +kernel
  have e2 : declarationEnd = ['<', '/'] ++ ['t', 'e', 'i', ':', 'r', 'e', 'f', 's', 'D', 'e', 'c', 'l'] ++ ['>'] := by decide +kernel
  rw [declarationText, e1, e2]
  simp only [List.append_assoc]

/-- C73 (round trip): a declaration that holds the TEI exports of the levels of a scheme, the deepest first, is a
document from which a text gets this scheme back. -/
theorem C73_round_trip (scheme : List CiteLevel) (hs : scheme ≠ []) (h : ∀ l ∈ scheme, TeiSafe l) :
    ∃ root, readXml (declarationText teiExport scheme) = some root ∧ findCRefPattern [] root = .ok (scheme.map teiRead) := by
  obtain ⟨ns, h1, h2⟩ := reads_patterns (ls := scheme.reverse) fun l hl => h l (List.mem_reverse.1 hl)
  have hw := writes_node (name := ['t', 'e', 'i', ':', 'r', 'e', 'f', 's', 'D', 'e', 'c', 'l']) (a := ' ' :: attrsText [(['n'], ['C', 'T', 'S'])]) (text := []) (by decide) (.inr rfl) (by simp) h1 []
  have hx := readXml_of_writes hw
  rw [← declarationText_eq] at hx
  have hd := C73_declared [] (by simp) (withTail (.mk ['t', 'e', 'i', ':', 'r', 'e', 'f', 's', 'D', 'e', 'c', 'l'] [(['n'], ['C', 'T', 'S'])] [] ns []) []) _
      ⟨[], allNodesList ns, rfl, ⟨rfl, rfl⟩, by simp⟩ (scheme.reverse.map teiRead) (by simpa using hs) h2
  rw [← List.map_reverse, List.reverse_reverse] at hd
  exact ⟨_, hx, hd⟩

/-! ### A scheme of books, poems and lines -/

def exTeiScheme : List CiteLevel :=
  [⟨some "book".toList, some "/tei:TEI/tei:text/tei:body/tei:div[@n='$1']".toList⟩,
   ⟨some "poem".toList, some "/tei:TEI/tei:text/tei:body/tei:div[@n='$1']/tei:div[@n='$2']".toList⟩,
   ⟨none, some "/tei:TEI/tei:text/tei:body/tei:div[@n='$1']/tei:div[@n='$2']//tei:l[@n='$3']".toList⟩]

theorem exTeiScheme_safe : ∀ l ∈ exTeiScheme, TeiSafe l := by
  intro l hl
  simp only [exTeiScheme, List.mem_cons, List.not_mem_nil, or_false] at hl
  rcases hl with rfl | rfl | rfl <;>
    exact ⟨by decide +kernel, by decide +kernel, _, rfl, by decide +kernel, by decide +kernel⟩

example : ∃ root, readXml (declarationText teiExport exTeiScheme) = some root ∧
    findCRefPattern [] root = .ok (exTeiScheme.map teiRead) :=
  C73_round_trip exTeiScheme (by decide) exTeiScheme_safe

example : teiExport ⟨some "poem".toList, some "/tei:div[@n='$1']/tei:div[@n='$2']".toList⟩ =
    ("<tei:cRefPattern n=\"poem\" matchPattern=\"(\\w+)\\.(\\w+)\" replacementPattern=\"#xpath(/tei:div[@n='$1']/tei:div[@n='$2'])\">" ++
     "<tei:p>This pointer pattern extracts poem</tei:p></tei:cRefPattern>").toList := by decide +kernel

/-- A header with two declarations: the first for CTS counts. -/
def exTeiDoc : Node :=
  .mk "tei:TEI".toList [] [] [.mk "tei:encodingDesc".toList [] []
    [.mk "tei:refsDecl".toList [("n".toList, "other".toList)] [] [] [],
     .mk "tei:refsDecl".toList [("n".toList, "CTS".toList)] []
      [.mk "tei:cRefPattern".toList [("n".toList, "line".toList), ("replacementPattern".toList, "#xpath(//tei:l[@n='$1'])".toList)] [] [] []] []] []] []

example : findCRefPattern [] exTeiDoc = .ok [⟨some "line".toList, some "//tei:l[@n='$1']".toList⟩] := by decide +kernel

/-- C73 fails to give a useful error for a declaration without patterns: `IndexError`. -/
theorem C73_fails_no_pattern : findCRefPattern [] (.mk "tei:refsDecl".toList [("n".toList, "CTS".toList)] [] [] []) = .error .indexError := by
  decide +kernel

/-- C73 fails to give a useful error for a pattern without replacement: `TypeError`. -/
theorem C73_fails_no_replacement : findCRefPattern [] (.mk "tei:refsDecl".toList [("n".toList, "CTS".toList)] []
    [.mk "tei:cRefPattern".toList [("n".toList, "line".toList)] [] [] []] []) = .error .typeError := by decide +kernel

/-- C73 fails for a refsDecl with double quotes, as in the documentation: the export is not XML. -/
theorem C73_fails_double_quotes : readXml (declarationText teiExport [⟨some "line".toList, some "//tei:l[@n=\"$1\"]".toList⟩]) = none := by
  decide +kernel

end Verif.Props
