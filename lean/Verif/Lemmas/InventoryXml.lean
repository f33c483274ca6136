import Verif.Spec.InventoryXml
import Verif.Lemmas.RefsDecl
import Verif.Props.Generic
namespace Verif.Lemmas
open Verif.Py Verif.Model Verif.Spec

/-! ### The reader -/

theorem no_lt_escape (s : Str) : ∀ c ∈ xmlEscape s, (c != '<') = true := by
  intro c hc; simp; rintro rfl; exact (Props.C56_no_markup s).1 hc

theorem cr_escape {s : Str} (h : '\r' ∉ s) : '\r' ∉ xmlEscape s := by
  rw [xmlEscape_eq]
  intro hm
  obtain ⟨c, hc, hm⟩ := List.mem_flatMap.1 hm
  unfold escapeChar at hm
  split at hm
  · simp at hm
  · split at hm
    · simp at hm
    · split at hm
      · simp at hm
      · simp at hm; subst hm; exact h hc

/-- The end of a text, or markup. -/
def AtMarkup (s : Str) : Prop := s = [] ∨ s.head? = some '<'

theorem take_drop_all {p : Char → Bool} {l : Str} (h : ∀ c ∈ l, p c = true) : l.takeWhile p = l ∧ l.dropWhile p = [] := by
  induction l with
  | nil => exact ⟨rfl, rfl⟩
  | cons c r ih =>
    have h1 := h c (by simp)
    have := ih fun x hx => h x (by simp [hx])
    simp [h1, this.1, this.2]

theorem readText_escape {t rest : Str} (h : '\r' ∉ t) (hr : AtMarkup rest) : readText (xmlEscape t ++ rest) = some (t, rest) := by
  have h1 : (xmlEscape t ++ rest).takeWhile (· != '<') = xmlEscape t ∧ (xmlEscape t ++ rest).dropWhile (· != '<') = rest := by
    rcases hr with rfl | hr
    · rw [List.append_nil]
      exact take_drop_all (no_lt_escape t)
    · cases rest with
      | nil => cases hr
      | cons c r =>
        cases hr
        exact ⟨takeWhile_append_stop r (no_lt_escape t) (by decide), dropWhile_append_stop r (no_lt_escape t) (by decide)⟩
  unfold readText
  rw [h1.1, h1.2, if_neg (cr_escape h), Props.C56_unescape]

/-- The text of an element up to the `>` of its start tag, without the name. -/
def HeadText (attrs : List (Str × Str)) (a : Str) : Prop := (a = [] ∧ attrs = []) ∨ a = ' ' :: attrsText attrs

theorem readAttrs_head {attrs : List (Str × Str)} {a rest : Str} {n : Nat} (ha : HeadText attrs a) (hn : attrs.length ≤ n)
    (h : ∀ x ∈ attrs, NameSafe x.1 ∧ AttrSafe x.2) : readAttrs n (a ++ '>' :: rest) = (attrs, '>' :: rest) := by
  rcases ha with ⟨rfl, rfl⟩ | rfl
  · cases n <;> simp [readAttrs]
  · by_cases he : attrs = []
    · subst he; cases n <;> simp [attrsText, readAttrs]
    · have hs : ∀ x ∈ attrs, '=' ∉ x.1 ∧ '>' ∉ x.1 ∧ '"' ∉ x.2 := fun x hx =>
        ⟨(h x hx).1.2 _ (by simp), (h x hx).1.2 _ (by simp), (h x hx).2 _ (by simp)⟩
      rw [← Props.readAttrs_text attrs rest n hn hs, ← Props.attrsText_eq attrs he]

theorem attrs_length_le {attrs : List (Str × Str)} {a : Str} (ha : HeadText attrs a) : attrs.length ≤ a.length := by
  rcases ha with ⟨rfl, rfl⟩ | rfl
  · simp
  · by_cases he : attrs = []
    · simp [he]
    · rw [Props.attrsText_eq attrs he]
      clear he
      induction attrs with
      | nil => simp
      | cons x r ih => simp at ih ⊢; omega

/-- The text reads as the element, whatever markup follows. -/
def ReadsAs (s : Str) (n : Node) : Prop :=
  (∃ c r, s = '<' :: c :: r ∧ c ≠ '/') ∧
  ∀ fuel, s.length ≤ fuel → ∀ rest, AtMarkup rest → readElement fuel (s ++ rest) = some (n, rest)

/-- The text reads as the elements, up to the end tag that follows. -/
def ReadsList (s : Str) (ns : List Node) : Prop :=
  AtMarkup s ∧ ∀ fuel, s.length + 1 ≤ fuel → ∀ rest, readElements fuel (s ++ '<' :: '/' :: rest) = some (ns, '<' :: '/' :: rest)

theorem readsList_nil : ReadsList [] [] := by
  refine ⟨.inl rfl, fun fuel hf rest => ?_⟩
  cases fuel with
  | zero => simp at hf
  | succ f => rw [readElements]; simp

theorem readsList_cons {s : Str} {n : Node} {t : Str} {ns : List Node} (h : ReadsAs s n) (ht : ReadsList t ns) : ReadsList (s ++ t) (n :: ns) := by
  obtain ⟨⟨c, r, hs, hc⟩, hr⟩ := h
  refine ⟨.inr (by rw [hs]; rfl), fun fuel hf rest => ?_⟩
  cases fuel with
  | zero => simp at hf
  | succ f =>
    have hlen : 2 ≤ s.length := by rw [hs]; simp
    rw [List.length_append] at hf
    rw [readElements]
    have h1 : (['<', '/'].isPrefixOf (s ++ t ++ '<' :: '/' :: rest)) = false := by
      rw [hs]; simp [List.isPrefixOf, Ne.symm hc]
    rw [h1]
    have h2 : AtMarkup (t ++ '<' :: '/' :: rest) := by
      rcases ht.1 with rfl | ht
      · exact .inr rfl
      · cases t with
        | nil => cases ht
        | cons x y => exact .inr ht
    rw [List.append_assoc, hr f (by omega) _ h2]
    simp only [Bool.false_eq_true, if_false]
    rw [ht.2 f (by omega) rest]

theorem isPrefixOf_append (a b : Str) : a.isPrefixOf (a ++ b) = true := by
  rw [List.isPrefixOf_iff_prefix]; exact List.prefix_append a b

/-- The element with another tail. -/
def withTail : Node → Str → Node
  | .mk t a x k _, l => .mk t a x k l

/-- The text is the element, without its tail. -/
def Writes (s : Str) (n : Node) : Prop := ∀ tail, '\r' ∉ tail → ReadsAs (s ++ xmlEscape tail) (withTail n tail)

theorem writes_node {name a : Str} {attrs : List (Str × Str)} {text k : Str} {kids : List Node} (hsafe : TagSafe name attrs)
    (ha : HeadText attrs a) (ht : '\r' ∉ text) (hk : ReadsList k kids) (tail0 : Str) :
    Writes (['<'] ++ name ++ a ++ ['>'] ++ xmlEscape text ++ k ++ ['<', '/'] ++ name ++ ['>']) (.mk name attrs text kids tail0) := by
  intro tail htail
  obtain ⟨hname, _, hattrs⟩ := id hsafe
  constructor
  · obtain ⟨hne, hn⟩ := hname
    cases name with
    | nil => exact absurd rfl hne
    | cons c r =>
      refine ⟨c, r ++ a ++ ['>'] ++ xmlEscape text ++ k ++ ['<', '/'] ++ (c :: r) ++ ['>'] ++ xmlEscape tail, by simp, ?_⟩
      rintro rfl
      exact hn '/' (by simp) (by simp)
  · intro fuel hf rest hrest
    cases fuel with
    | zero => simp at hf
    | succ f =>
      have hn : ∀ c ∈ name, (c != ' ' && c != '>') = true := by
        intro c hc
        simp
        exact ⟨by rintro rfl; exact hname.2 ' ' (by simp) hc, by rintro rfl; exact hname.2 '>' (by simp) hc⟩
      let B := xmlEscape text ++ (k ++ '<' :: '/' :: (name ++ '>' :: (xmlEscape tail ++ rest)))
      have e : ['<'] ++ name ++ a ++ ['>'] ++ xmlEscape text ++ k ++ ['<', '/'] ++ name ++ ['>'] ++ xmlEscape tail ++ rest =
          '<' :: (name ++ (a ++ '>' :: B)) := by simp [B]
      rw [e, readElement]
      have h1 : (name ++ (a ++ '>' :: B)).takeWhile (fun c => c != ' ' && c != '>') = name ∧
          (name ++ (a ++ '>' :: B)).dropWhile (fun c => c != ' ' && c != '>') = a ++ '>' :: B := by
        rcases ha with ⟨rfl, _⟩ | rfl
        · exact ⟨takeWhile_append_stop _ hn (by decide), dropWhile_append_stop _ hn (by decide)⟩
        · exact ⟨takeWhile_append_stop _ hn (by decide), dropWhile_append_stop _ hn (by decide)⟩
      have h2 : readAttrs (name ++ (a ++ '>' :: B)).length (a ++ '>' :: B) = (attrs, '>' :: B) :=
        readAttrs_head ha (by have := attrs_length_le ha; simp; omega) hattrs
      simp only [h1.1, h1.2, h2, if_pos hsafe]
      have h3 : AtMarkup (k ++ '<' :: '/' :: (name ++ '>' :: (xmlEscape tail ++ rest))) := by
        rcases hk.1 with rfl | hh
        · exact .inr rfl
        · cases k with
          | nil => cases hh
          | cons x y => exact .inr hh
      rw [show readText B = _ from readText_escape ht h3]
      dsimp only
      rw [hk.2 f (by simp at hf; omega)]
      dsimp only
      rw [if_pos (by
        have := isPrefixOf_append (['<', '/'] ++ name ++ ['>']) (xmlEscape tail ++ rest)
        simpa using this)]
      have h4 : ('<' :: '/' :: (name ++ '>' :: (xmlEscape tail ++ rest))).drop (name.length + 3) = xmlEscape tail ++ rest := by
        rw [show '<' :: '/' :: (name ++ '>' :: (xmlEscape tail ++ rest)) = (['<', '/'] ++ name ++ ['>']) ++ (xmlEscape tail ++ rest) by simp]
        rw [List.drop_append_of_le_length (by simp), List.drop_eq_nil_of_le (by simp), List.nil_append]
      rw [h4, readText_escape htail hrest]
      rfl

theorem xmlEscape_nil : xmlEscape [] = [] := by decide

theorem xmlEscape_newline : xmlEscape ['\n'] = ['\n'] := by decide

theorem readXml_of_writes {s : Str} {n : Node} (h : Writes s n) : readXml s = some (withTail n []) := by
  obtain ⟨_, h2⟩ := h [] (by simp)
  have h3 := h2 s.length (by simp [xmlEscape_nil]) [] (.inl rfl)
  rw [xmlEscape_nil, List.append_nil, List.append_nil] at h3
  rw [readXml, h3]

/-! ### Nodes -/

theorem writes_complete {name : Str} {attrs : List (Str × Str)} {text k : Str} {kids : List Node} (hsafe : TagSafe name attrs)
    (ht : '\r' ∉ text) (hk : ReadsList k kids) : Writes (makeXmlNode name false (some attrs) text true k) (.mk name attrs text kids []) := by
  have := writes_node (tail0 := []) hsafe (.inr rfl : HeadText attrs _) ht hk
  simpa [makeXmlNode] using this

theorem writes_plain {name : Str} {k : Str} {kids : List Node} (hsafe : TagSafe name [])
    (hk : ReadsList k kids) : Writes (makeXmlNode name false none [] true k) (.mk name [] [] kids []) := by
  have := writes_node (tail0 := []) hsafe (.inl ⟨rfl, rfl⟩ : HeadText [] []) (by simp : '\r' ∉ ([] : Str)) hk
  simpa [makeXmlNode, xmlEscape_nil] using this

/-- The children of an element, one on each line. -/
inductive WritesAll : List Str → List Node → Prop
  | nil : WritesAll [] []
  | cons {s n ss ns} : Writes s n → WritesAll ss ns → WritesAll (s :: ss) (withTail n ['\n'] :: ns)

theorem WritesAll.append {a b : List Str} {m n : List Node} (h : WritesAll a m) (h2 : WritesAll b n) : WritesAll (a ++ b) (m ++ n) := by
  induction h with
  | nil => exact h2
  | cons h _ ih => exact .cons h ih

theorem writesAll_map {α : Type} (f : α → Str) (g : α → Node) (l : List α) (h : ∀ x ∈ l, Writes (f x) (g x)) :
    WritesAll (l.map f) (l.map fun x => withTail (g x) ['\n']) := by
  induction l with
  | nil => exact .nil
  | cons x r ih =>
    exact .cons (h x (by simp)) (ih fun y hy => h y (by simp [hy]))

theorem WritesAll.reads {ss : List Str} {ns : List Node} (h : WritesAll ss ns) : ReadsList (ss.flatMap (· ++ ['\n'])) ns := by
  induction h with
  | nil => exact readsList_nil
  | @cons s n ss ns h _ ih =>
    have := h ['\n'] (by decide)
    rw [xmlEscape_newline] at this
    exact readsList_cons this ih

theorem join_lines (o c : Str) (ss : List Str) :
    join ['\n'] ([o] ++ ss ++ [c]) = o ++ ['\n'] ++ ss.flatMap (· ++ ['\n']) ++ c := by
  induction ss generalizing o with
  | nil => simp [join]
  | cons s r ih =>
    have := ih s
    simp only [List.cons_append, List.nil_append, List.append_assoc] at this ⊢
    rw [join, this]
    simp

theorem writes_lines {name : Str} {attrs : List (Str × Str)} {ss : List Str} {kids : List Node} (hsafe : TagSafe name attrs)
    (h : WritesAll ss kids) :
    Writes (join ['\n'] ([makeXmlNode name false (some attrs) [] false []] ++ ss ++ [makeXmlNode name true none [] false []]))
      (.mk name attrs ['\n'] kids []) := by
  have := writes_node (tail0 := []) hsafe (.inr rfl : HeadText attrs _) (by decide : '\r' ∉ (['\n'] : Str)) h.reads
  rw [join_lines]
  rw [xmlEscape_newline] at this
  simpa [makeXmlNode] using this

/-! ### The tree of an inventory

The trees below bear names `ti:…`; the export writes them with the prefix of the graph. -/

/-- The name that the export writes for `ti:name`. -/
def retag (pf t : Str) : Str := ctsName pf (t.drop 3)

mutual
/-- The tree with the names of the export. -/
def retagNode (pf : Str) : Node → Node
  | .mk t a x ks l => .mk (retag pf t) a x (retagNodes pf ks) l
def retagNodes (pf : Str) : List Node → List Node
  | [] => []
  | n :: r => retagNode pf n :: retagNodes pf r
end

theorem retagNodes_eq (pf : Str) (ks : List Node) : retagNodes pf ks = ks.map (retagNode pf) := by
  induction ks with
  | nil => rw [retagNodes]; rfl
  | cons k r ih => rw [retagNodes, ih]; rfl

theorem retag_withTail (pf : Str) (n : Node) (l : Str) : retagNode pf (withTail n l) = withTail (retagNode pf n) l := by
  cases n; rfl

theorem nameSafe_cts {pf name : Str} (h : PrefixSafe pf) (hn : NameSafe name) : NameSafe (ctsName pf name) := by
  unfold ctsName
  split
  · exact hn
  · rename_i hne
    rcases h with h | ⟨h, _⟩
    · exact absurd h hne
    · refine ⟨by simp, fun c hc hm => ?_⟩
      rcases List.mem_append.1 hm with hm | hm
      · exact h.2 c hc hm
      · rcases List.mem_cons.1 hm with rfl | hm
        · revert hc; decide
        · exact hn.2 c hc hm

def litTree (tag : Str) (l : Lit) : Node := .mk tag [(['x', 'm', 'l', ':', 'l', 'a', 'n', 'g'], valueText l.1)] l.2 [] []

theorem writes_lits {pf tag : Str} {l : List Lit} (ht : NameSafe (retag pf tag)) (h : ∀ x ∈ l, LitSafe x) :
    WritesAll (exportLits (retag pf tag) l) ((l.map fun x => withTail (litTree tag x) ['\n']).map (retagNode pf)) := by
  rw [List.map_map]
  simp only [Function.comp_def, retag_withTail]
  apply writesAll_map
  intro x hx
  obtain ⟨⟨lg, h1, h2⟩, _, h4⟩ := h x hx
  refine writes_complete ⟨ht, by simp, ?_⟩ h4 readsList_nil
  intro a ha
  simp only [List.mem_singleton] at ha
  subst ha
  rw [h1]
  exact ⟨by dsimp only; decide, h2⟩

/-- The attributes of a level of citation. -/
def citeAttrs (l : CiteLevel) : List (Str × Str) :=
  match parseXpathScope (l.refsDecl.getD []) with
  | .ok (scope, xpath) => [(['x', 'p', 'a', 't', 'h'], singleQuotes xpath), (['s', 'c', 'o', 'p', 'e'], singleQuotes scope), (['l', 'a', 'b', 'e', 'l'], l.name.getD [])]
  | .error _ => []

def citeTree : List CiteLevel → List Node
  | [] => []
  | l :: r => [.mk ['t', 'i', ':', 'c', 'i', 't', 'a', 't', 'i', 'o', 'n'] (citeAttrs l) [] (citeTree r) []]

theorem stepChar_safe {c : Char} (h : StepChar c) : c ≠ '<' ∧ c ≠ '&' := by
  refine ⟨?_, ?_⟩ <;> (rintro rfl; revert h; decide)

theorem mem_shown {p : List PStep} (hp : ∀ s ∈ p, s.WF) {c : Char} (h : c ∈ shownText p) : c = '/' ∨ c = '?' ∨ (StepChar c ∧ c ∈ refsDeclText p) := by
  unfold shownText at h
  simp only [List.mem_flatten, List.mem_map] at h
  obtain ⟨x, ⟨s, hs, rfl⟩, hc⟩ := h
  rw [List.mem_append] at hc
  rcases hc with hc | hc
  · exact .inl (mem_slashes hc)
  · obtain ⟨t, ht, hc⟩ := List.mem_flatMap.1 hc
    cases t with
    | hole n => simp [Tok.shown] at hc; exact .inr (.inl hc)
    | chr d =>
      simp [Tok.shown] at hc
      subst hc
      refine .inr (.inr ⟨(hp s hs).chars c ht, ?_⟩)
      unfold refsDeclText
      simp only [List.mem_flatten, List.mem_map]
      refine ⟨_, ⟨s, hs, rfl⟩, ?_⟩
      rw [List.mem_append]
      exact .inr (List.mem_flatMap.2 ⟨_, ht, by simp [Tok.numberedText]⟩)

theorem singleQuotes_safe {s : Str} (h : ∀ c ∈ ['<', '&', '\t', '\n', '\r'], c ∉ s) : AttrSafe (singleQuotes s) := by
  intro c hc hm
  unfold singleQuotes at hm
  obtain ⟨d, hd, he⟩ := List.mem_map.1 hm
  split at he
  · subst he; revert hc; decide
  · rename_i hq
    subst he
    simp only [List.mem_cons, List.not_mem_nil, or_false] at hc
    rcases hc with rfl | hc
    · exact hq rfl
    · exact h d (by simpa using hc) hd

theorem shown_safe {p : List PStep} (hp : ∀ s ∈ p, s.WF) {full : Str} (hsub : ∀ c ∈ refsDeclText p, c ∈ full)
    (hb : ∀ c ∈ ['\t', '\n', '\r'], c ∉ full) : AttrSafe (singleQuotes (shownText p)) := by
  apply singleQuotes_safe
  intro c hc hm
  rcases mem_shown hp hm with rfl | rfl | ⟨h1, h2⟩
  · revert hc; decide
  · revert hc; decide
  · have := stepChar_safe h1
    simp only [List.mem_cons, List.not_mem_nil, or_false] at hc
    rcases hc with rfl | rfl | hc
    · exact this.1 rfl
    · exact this.2 rfl
    · exact hb c (by simpa using hc) (hsub c h2)

theorem level_scope {l : CiteLevel} {p : List PStep} {x : PStep} (hp : ∀ s ∈ p, s.WF) (hx : x.WF)
    (hr : l.refsDecl = some (refsDeclText (p ++ [x]))) :
    parseXpathScope (l.refsDecl.getD []) = .ok (shownText p, shownText [x]) := by
  rw [hr]; exact parseXpathScope_refsDecl hp hx

theorem refsDeclText_append (p q : List PStep) : refsDeclText (p ++ q) = refsDeclText p ++ refsDeclText q := by simp [refsDeclText]

theorem refsDeclText_ne {x : PStep} : refsDeclText [x] ≠ [] := by
  simp only [refsDeclText, List.map_cons, List.map_nil, List.flatten_cons, List.flatten_nil, List.append_nil]
  unfold PStep.slashes
  split <;> simp

theorem shownText_ne {p : List PStep} (h : p ≠ []) : shownText p ≠ [] := by
  cases p with
  | nil => exact absurd rfl h
  | cons x r =>
    simp only [shownText, List.map_cons, List.flatten_cons]
    unfold PStep.slashes
    split <;> simp

theorem level_truthy {l : CiteLevel} (h : LevelSafe l) : truthy l.refsDecl = true := by
  obtain ⟨_, p, x, _, _, _, hr, _⟩ := h
  rw [hr]
  have : refsDeclText (p ++ [x]) ≠ [] := by
    rw [refsDeclText_append]
    intro h
    exact refsDeclText_ne (List.append_eq_nil_iff.1 h).2
  cases hh : refsDeclText (p ++ [x]) with
  | nil => exact absurd hh this
  | cons a b => rfl

theorem citeAttrs_safe {l : CiteLevel} {pf : Str} (hpf : PrefixSafe pf) (h : LevelSafe l) : TagSafe (ctsName pf ['c', 'i', 't', 'a', 't', 'i', 'o', 'n']) (citeAttrs l) := by
  obtain ⟨hn, p, x, _, hp, hx, hr, _, hb⟩ := h
  unfold citeAttrs
  rw [level_scope hp hx hr]
  refine ⟨nameSafe_cts hpf (by decide), by simp, ?_⟩
  have s1 : AttrSafe (singleQuotes (shownText p)) := shown_safe hp (fun c hc => by rw [refsDeclText_append]; exact List.mem_append_left _ hc) hb
  have s2 : AttrSafe (singleQuotes (shownText [x])) := shown_safe (by simpa using hx) (fun c hc => by rw [refsDeclText_append]; exact List.mem_append_right _ hc) hb
  intro a ha
  simp only [List.mem_cons, List.not_mem_nil, or_false] at ha
  rcases ha with rfl | rfl | rfl
  · exact ⟨by dsimp only; decide, s2⟩
  · exact ⟨by dsimp only; decide, s1⟩
  · exact ⟨by dsimp only; decide, hn⟩

theorem writes_citation {pf : Str} (hpf : PrefixSafe pf) {c : List CiteLevel} (h : ∀ l ∈ c, LevelSafe l) :
    ∃ s, exportCitation pf c = .ok s ∧ ReadsList s (retagNodes pf (citeTree c)) := by
  induction c with
  | nil => exact ⟨[], rfl, readsList_nil⟩
  | cons l r ih =>
    obtain ⟨s, hs, hr⟩ := ih fun x hx => h x (by simp [hx])
    have hl := h l (by simp)
    have hsafe := citeAttrs_safe hpf hl
    have ht := level_truthy hl
    obtain ⟨_, p, x, _, hp, hx, hrd, _⟩ := hl
    refine ⟨_, by rw [exportCitation, if_pos ht, level_scope hp hx hrd, hs], ?_⟩
    have e : citeAttrs l = [(['x', 'p', 'a', 't', 'h'], singleQuotes (shownText [x])), (['s', 'c', 'o', 'p', 'e'], singleQuotes (shownText p)), (['l', 'a', 'b', 'e', 'l'], l.name.getD [])] := by
      unfold citeAttrs; rw [level_scope hp hx hrd]
    rw [citeTree, e]
    rw [e] at hsafe
    have w := writes_complete hsafe (by simp : '\r' ∉ ([] : Str)) hr
    have := w [] (by simp)
    rw [xmlEscape_nil, List.append_nil] at this
    have := readsList_cons this readsList_nil
    rw [List.append_nil] at this
    exact this

/-- The element `ti:online` of a text. -/
def onlineTree (c : List CiteLevel) : List Node :=
  if c = [] then [] else [.mk ['t', 'i', ':', 'o', 'n', 'l', 'i', 'n', 'e'] [] [] [.mk ['t', 'i', ':', 'c', 'i', 't', 'a', 't', 'i', 'o', 'n', 'M', 'a', 'p', 'p', 'i', 'n', 'g'] [] [] (citeTree c) []] ['\n']]

theorem writes_online {pf : Str} (hpf : PrefixSafe pf) {c : List CiteLevel} (h : ∀ l ∈ c, LevelSafe l) :
    ∃ ss, exportOnline pf c = .ok ss ∧ WritesAll ss ((onlineTree c).map (retagNode pf)) := by
  by_cases hc : c = []
  · exact ⟨[], by simp [exportOnline, hc], by simp only [onlineTree, hc, if_true]; exact .nil⟩
  · obtain ⟨s, hs, hr⟩ := writes_citation hpf h
    refine ⟨_, by simp only [exportOnline, hc, if_false, hs]; rfl, ?_⟩
    simp only [onlineTree, hc, if_false]
    have w1 := writes_plain (name := ctsName pf ['c', 'i', 't', 'a', 't', 'i', 'o', 'n', 'M', 'a', 'p', 'p', 'i', 'n', 'g']) ⟨nameSafe_cts hpf (by decide), by simp, by simp⟩ hr
    have r1 := w1 [] (by simp)
    rw [xmlEscape_nil, List.append_nil] at r1
    have r2 := readsList_cons r1 readsList_nil
    rw [List.append_nil] at r2
    exact .cons (writes_plain (name := ctsName pf ['o', 'n', 'l', 'i', 'n', 'e']) ⟨nameSafe_cts hpf (by decide), by simp, by simp⟩ r2) .nil

def aboutTree (u : Str) : Node := .mk ['t', 'i', ':', 'a', 'b', 'o', 'u', 't'] [(['u', 'r', 'n'], u)] [] [] []

/-- The children of the element of a text. -/
def textKids (t : XText) : List Node :=
  t.labels.map (fun x => withTail (litTree ['t', 'i', ':', 'l', 'a', 'b', 'e', 'l'] x) ['\n']) ++
  t.descriptions.map (fun x => withTail (litTree ['t', 'i', ':', 'd', 'e', 's', 'c', 'r', 'i', 'p', 't', 'i', 'o', 'n'] x) ['\n']) ++
  t.about.map (fun u => withTail (aboutTree u) ['\n']) ++
  onlineTree t.cite

def textTree (ns : Option (List (Str × Str))) (parent : Option Str) (t : XText) : Node :=
  .mk (['t', 'i', ':'] ++ kindTag t.kind) (withHeader ([(['u', 'r', 'n'], t.id), (['x', 'm', 'l', ':', 'l', 'a', 'n', 'g'], t.lang)] ++ parentAttr ['w', 'o', 'r', 'k', 'U', 'r', 'n'] parent) ns) ['\n'] (textKids t) []

theorem nameSafe_kind (k : Kind) : NameSafe (kindTag k) := by cases k <;> decide

theorem writes_text {pf : Str} (hpf : PrefixSafe pf) {ns : Option (List (Str × Str))} {parent : Option Str} {lang : Str} {t : XText} (h : TextSafe lang t)
    (ha : TagSafe (ctsName pf (kindTag t.kind)) (withHeader ([(['u', 'r', 'n'], t.id), (['x', 'm', 'l', ':', 'l', 'a', 'n', 'g'], t.lang)] ++ parentAttr ['w', 'o', 'r', 'k', 'U', 'r', 'n'] parent) ns)) :
    ∃ s, exportText pf ns parent t = .ok s ∧ Writes s (retagNode pf (textTree ns parent t)) := by
  obtain ⟨ss, hs, hw⟩ := writes_online hpf h.cite
  refine ⟨_, by rw [exportText, hs], ?_⟩
  have h1 := writes_lits (pf := pf) (tag := ['t', 'i', ':', 'l', 'a', 'b', 'e', 'l']) (nameSafe_cts hpf (by decide)) h.labels.2
  have h2 := writes_lits (pf := pf) (tag := ['t', 'i', ':', 'd', 'e', 's', 'c', 'r', 'i', 'p', 't', 'i', 'o', 'n']) (nameSafe_cts hpf (by decide)) h.descriptions.2
  have h3 : WritesAll (t.about.map fun u => makeXmlNode (ctsName pf ['a', 'b', 'o', 'u', 't']) false (some [(['u', 'r', 'n'], u)]) [] true [])
      ((t.about.map fun u => withTail (aboutTree u) ['\n']).map (retagNode pf)) := by
    rw [List.map_map]
    simp only [Function.comp_def, retag_withTail]
    apply writesAll_map
    intro u hu
    refine writes_complete ⟨nameSafe_cts hpf (by decide), by simp, ?_⟩ (by simp) readsList_nil
    intro a ha
    simp only [List.mem_singleton] at ha
    subst ha
    exact ⟨by dsimp only; decide, h.about.2 u hu⟩
  have := writes_lines ha (((h1.append h2).append h3).append hw)
  have e : retagNode pf (textTree ns parent t) = .mk (ctsName pf (kindTag t.kind))
      (withHeader ([(['u', 'r', 'n'], t.id), (['x', 'm', 'l', ':', 'l', 'a', 'n', 'g'], t.lang)] ++ parentAttr ['w', 'o', 'r', 'k', 'U', 'r', 'n'] parent) ns) ['\n'] ((textKids t).map (retagNode pf)) [] := by
    rw [textTree, retagNode, retagNodes_eq]; rfl
  rw [e, textKids, List.map_append, List.map_append, List.map_append]
  simp only [List.append_assoc] at this ⊢
  exact this

theorem writesAll_members {α : Type} (f : α → Except PyErr Str) (g : α → Node) (l : List α)
    (h : ∀ x ∈ l, ∃ s, f x = .ok s ∧ Writes s (g x)) :
    ∃ ss, exportMembers f l = .ok ss ∧ WritesAll ss (l.map fun x => withTail (g x) ['\n']) := by
  induction l with
  | nil => exact ⟨[], rfl, .nil⟩
  | cons x r ih =>
    obtain ⟨s, hs, hw⟩ := h x (by simp)
    obtain ⟨ss, hss, hws⟩ := ih fun y hy => h y (by simp [hy])
    exact ⟨s :: ss, by rw [exportMembers, hs, hss], .cons hw hws⟩

theorem writes_generic {α : Type} {tag : Str} {attrs : List (Str × Str)} {ns : Option (List (Str × Str))} {props : List Str}
    {pn : List Node} {f : α → Except PyErr Str} {g : α → Node} {l : List α} (ha : TagSafe tag (withHeader attrs ns))
    (hp : WritesAll props pn) (h : ∀ x ∈ l, ∃ s, f x = .ok s ∧ Writes s (g x)) :
    ∃ s, exportGeneric tag attrs ns props f l = .ok s ∧
      Writes s (.mk tag (withHeader attrs ns) ['\n'] (pn ++ l.map fun x => withTail (g x) ['\n']) []) := by
  obtain ⟨ss, hs, hw⟩ := writesAll_members f g l h
  refine ⟨_, by rw [exportGeneric, hs], ?_⟩
  have := writes_lines ha (hp.append hw)
  simpa [List.append_assoc] using this

/-- The children of the element of a work. -/
def workKids (w : XWork) : List Node :=
  w.titles.map (fun x => withTail (litTree ['t', 'i', ':', 't', 'i', 't', 'l', 'e'] x) ['\n']) ++
  w.texts.map (fun t => withTail (textTree none (some w.id) t) ['\n'])

def workTree (ns : Option (List (Str × Str))) (parent : Option Str) (w : XWork) : Node :=
  .mk ['t', 'i', ':', 'w', 'o', 'r', 'k'] (withHeader ([(['u', 'r', 'n'], w.id), (['x', 'm', 'l', ':', 'l', 'a', 'n', 'g'], w.lang)] ++ parentAttr ['g', 'r', 'o', 'u', 'p', 'U', 'r', 'n'] parent) ns) ['\n'] (workKids w) []

def groupKids (g : XGroup) : List Node :=
  g.names.map (fun x => withTail (litTree ['t', 'i', ':', 'g', 'r', 'o', 'u', 'p', 'n', 'a', 'm', 'e'] x) ['\n']) ++
  g.works.map (fun w => withTail (workTree none (some g.id) w) ['\n'])

def groupTree (ns : Option (List (Str × Str))) (g : XGroup) : Node :=
  .mk ['t', 'i', ':', 't', 'e', 'x', 't', 'g', 'r', 'o', 'u', 'p'] (withHeader [(['u', 'r', 'n'], g.id)] ns) ['\n'] (groupKids g) []

def invTree (ns : Option (List (Str × Str))) (i : XInv) : Node :=
  .mk ['t', 'i', ':', 'T', 'e', 'x', 't', 'I', 'n', 'v', 'e', 'n', 't', 'o', 'r', 'y'] (withHeader (if i.id = [] then [] else [(['t', 'i', 'i', 'd'], i.id)]) ns) ['\n']
    (i.groups.map fun g => withTail (groupTree none g) ['\n']) []

theorem writes_work {pf : Str} (hpf : PrefixSafe pf) {ns : Option (List (Str × Str))} {parent : Option Str} {w : XWork} (h : WorkSafe w)
    (ha : TagSafe (ctsName pf ['w', 'o', 'r', 'k']) (withHeader ([(['u', 'r', 'n'], w.id), (['x', 'm', 'l', ':', 'l', 'a', 'n', 'g'], w.lang)] ++ parentAttr ['g', 'r', 'o', 'u', 'p', 'U', 'r', 'n'] parent) ns)) :
    ∃ s, exportWork pf ns parent w = .ok s ∧ Writes s (retagNode pf (workTree ns parent w)) := by
  have e : retagNode pf (workTree ns parent w) = .mk (ctsName pf ['w', 'o', 'r', 'k'])
      (withHeader ([(['u', 'r', 'n'], w.id), (['x', 'm', 'l', ':', 'l', 'a', 'n', 'g'], w.lang)] ++ parentAttr ['g', 'r', 'o', 'u', 'p', 'U', 'r', 'n'] parent) ns) ['\n']
      ((w.titles.map fun x => withTail (litTree ['t', 'i', ':', 't', 'i', 't', 'l', 'e'] x) ['\n']).map (retagNode pf) ++
        w.texts.map fun t => withTail (retagNode pf (textTree none (some w.id) t)) ['\n']) [] := by
    rw [workTree, retagNode, retagNodes_eq, workKids, List.map_append, List.map_map (f := fun t => withTail (textTree none (some w.id) t) ['\n'])]
    simp only [Function.comp_def, retag_withTail]
    rfl
  rw [e]
  refine writes_generic ha (writes_lits (pf := pf) (tag := ['t', 'i', ':', 't', 'i', 't', 'l', 'e']) (nameSafe_cts hpf (by decide)) h.titles.2) ?_
  intro t ht
  have hs := h.texts t ht
  refine writes_text hpf hs ⟨nameSafe_cts hpf (nameSafe_kind _), ?_, ?_⟩
  · simp only [withHeader, parentAttr]; split <;> simp <;> decide
  · intro a ha'
    simp only [withHeader, List.mem_append, List.mem_cons, List.not_mem_nil, or_false] at ha'
    rcases ha' with (rfl | rfl) | ha'
    · exact ⟨by dsimp only; decide, hs.id.1⟩
    · exact ⟨by dsimp only; decide, hs.lang⟩
    · unfold parentAttr at ha'
      split at ha'
      · simp only [List.mem_singleton] at ha'; subst ha'; exact ⟨by dsimp only; decide, h.id.1⟩
      · cases ha'

theorem writes_group {pf : Str} (hpf : PrefixSafe pf) {ns : Option (List (Str × Str))} {g : XGroup} (h : GroupSafe g)
    (ha : TagSafe (ctsName pf ['t', 'e', 'x', 't', 'g', 'r', 'o', 'u', 'p']) (withHeader [(['u', 'r', 'n'], g.id)] ns)) :
    ∃ s, exportGroup pf ns g = .ok s ∧ Writes s (retagNode pf (groupTree ns g)) := by
  have e : retagNode pf (groupTree ns g) = .mk (ctsName pf ['t', 'e', 'x', 't', 'g', 'r', 'o', 'u', 'p']) (withHeader [(['u', 'r', 'n'], g.id)] ns) ['\n']
      ((g.names.map fun x => withTail (litTree ['t', 'i', ':', 'g', 'r', 'o', 'u', 'p', 'n', 'a', 'm', 'e'] x) ['\n']).map (retagNode pf) ++
        g.works.map fun w => withTail (retagNode pf (workTree none (some g.id) w)) ['\n']) [] := by
    rw [groupTree, retagNode, retagNodes_eq, groupKids, List.map_append, List.map_map (f := fun w => withTail (workTree none (some g.id) w) ['\n'])]
    simp only [Function.comp_def, retag_withTail]
    rfl
  rw [e]
  refine writes_generic ha (writes_lits (pf := pf) (tag := ['t', 'i', ':', 'g', 'r', 'o', 'u', 'p', 'n', 'a', 'm', 'e']) (nameSafe_cts hpf (by decide)) h.names.2) ?_
  intro w hw
  have hs := h.works w hw
  refine writes_work hpf hs ⟨nameSafe_cts hpf (by decide), ?_, ?_⟩
  · simp only [withHeader, parentAttr]; split <;> simp <;> decide
  · intro a ha'
    simp only [withHeader, List.mem_append, List.mem_cons, List.not_mem_nil, or_false] at ha'
    rcases ha' with (rfl | rfl) | ha'
    · exact ⟨by dsimp only; decide, hs.id.1⟩
    · exact ⟨by dsimp only; decide, hs.lang⟩
    · unfold parentAttr at ha'
      split at ha'
      · simp only [List.mem_singleton] at ha'; subst ha'; exact ⟨by dsimp only; decide, h.id.1⟩
      · cases ha'

theorem writes_inv {pf : Str} (hpf : PrefixSafe pf) {ns : Option (List (Str × Str))} {i : XInv} (h : InvSafe i)
    (ha : TagSafe (ctsName pf ['T', 'e', 'x', 't', 'I', 'n', 'v', 'e', 'n', 't', 'o', 'r', 'y']) (withHeader (if i.id = [] then [] else [(['t', 'i', 'i', 'd'], i.id)]) ns)) :
    ∃ s, exportInv pf ns i = .ok s ∧ Writes s (retagNode pf (invTree ns i)) := by
  have e : retagNode pf (invTree ns i) = .mk (ctsName pf ['T', 'e', 'x', 't', 'I', 'n', 'v', 'e', 'n', 't', 'o', 'r', 'y']) (withHeader (if i.id = [] then [] else [(['t', 'i', 'i', 'd'], i.id)]) ns) ['\n']
      ([] ++ i.groups.map fun g => withTail (retagNode pf (groupTree none g)) ['\n']) [] := by
    rw [invTree, retagNode, retagNodes_eq, List.map_map]
    simp only [Function.comp_def, retag_withTail]
    rfl
  rw [e]
  refine writes_generic ha .nil ?_
  intro g hg
  have hs := h.groups g hg
  refine writes_group hpf hs ⟨nameSafe_cts hpf (by decide), by simp [withHeader], ?_⟩
  intro a ha'
  simp only [withHeader, List.mem_singleton] at ha'
  subst ha'
  exact ⟨by dsimp only; decide, hs.id.1⟩

end Verif.Lemmas
