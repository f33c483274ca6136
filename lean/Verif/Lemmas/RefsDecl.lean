import Verif.Lemmas.Str
import Verif.Model.RefsDecl
import Verif.Spec.RefsDecl
/-! Helper lemmas about refsDecl strings. -/
namespace Verif.Model
open Verif.Py Verif.Spec

/-! ### Numbering -/

theorem numbered_of_not_mem {k : Nat} {s : Str} (h : '?' ∉ s) : numbered k s = s := by
  induction s with
  | nil => rfl
  | cons c r ih =>
    simp at h
    simp [numbered, Ne.symm h.1, ih h.2]

theorem numbered_append {k : Nat} {a b : Str} (h : '?' ∉ a) : numbered k (a ++ b) = a ++ numbered k b := by
  induction a with
  | nil => rfl
  | cons c r ih =>
    simp at h
    simp [numbered, Ne.symm h.1, ih h.2]

theorem not_mem_natStr {c : Char} (n : Nat) (h : isDigit c = false) : c ∉ natStr n := by
  intro hc
  have := isDigit_natStr n c hc
  rw [h] at this; simp at this

theorem numberLoop_eq (fuel k : Nat) (a b : Str) (ha : '?' ∉ a) (hf : b.count '?' ≤ fuel) :
    numberLoop fuel k (a ++ b) = a ++ numbered k b := by
  induction fuel generalizing k a b with
  | zero =>
    have : '?' ∉ b := by
      have : b.count '?' = 0 := by omega
      simpa [List.count_eq_zero] using this
    simp [numberLoop, numbered_of_not_mem this]
  | succ n ih =>
    by_cases hb : '?' ∈ b
    · obtain ⟨x, y, rfl, hx⟩ := exists_append_of_mem hb
      have hax : '?' ∉ a ++ x := by simp [ha, hx]
      have e1 : a ++ (x ++ '?' :: y) = (a ++ x) ++ '?' :: y := by simp
      rw [e1, numberLoop, find_append _ hax]
      simp only
      have e2 : ((a ++ x) ++ '?' :: y).take (a ++ x).length = a ++ x := List.take_left
      have e3 : ((a ++ x) ++ '?' :: y).drop ((a ++ x).length + 1) = y := by
        rw [List.drop_append]; simp
      rw [e2, e3]
      have := ih (k + 1) (a ++ x ++ '$' :: natStr k) y
        (by simp [ha, hx, not_mem_natStr k (show isDigit '?' = false by decide)])
        (by
          have : x.count '?' = 0 := by simpa [List.count_eq_zero] using hx
          simp [List.count_append, this] at hf; omega)
      rw [this, numbered_append hx, numbered]
      simp
    · have : find '?' (a ++ b) = none := by rw [find_eq_none]; simp [ha, hb]
      rw [numberLoop, this, numbered_of_not_mem hb]

theorem fromScopeXpath_eq (scope xpath : Str) :
    fromScopeXpath scope xpath = numbered 1 (scope ++ xpath) := by
  have := numberLoop_eq ((scope ++ xpath).count '?') 1 [] (scope ++ xpath) (by simp) (Nat.le_refl _)
  simpa [fromScopeXpath] using this

/-! ### Splitting -/

theorem char_le_iff (a b : Char) : a ≤ b ↔ a.toNat ≤ b.toNat := by
  rw [Char.le_def, UInt32.le_iff_toNat_le]; rfl

theorem isDigit_iff (c : Char) : isDigit c = true ↔ '0' ≤ c ∧ c ≤ '9' := by
  simp [isDigit, char_le_iff]

theorem isAsciiLetter_iff (c : Char) :
    isAsciiLetter c = true ↔ ('a' ≤ c ∧ c ≤ 'z') ∨ ('A' ≤ c ∧ c ≤ 'Z') := by
  simp [isAsciiLetter]

theorem splitterClass_of_stepChar {c : Char} (h : StepChar c) : splitterClass c = true := by
  unfold splitterClass
  rcases h with h | h | h | h | h
  · simp [(isAsciiLetter_iff c).2 (Or.inl h)]
  · simp [(isAsciiLetter_iff c).2 (Or.inr h)]
  · simp [(isDigit_iff c).2 h]
  · have : isSpace c = true := by
      simp at h
      rcases h with rfl | rfl | rfl | rfl <;> decide
    simp [this]
  · simp at h
    rcases h with rfl | rfl | rfl | rfl | rfl | rfl | rfl | rfl | rfl | rfl | rfl | rfl | rfl | rfl <;>
      decide

theorem splitterClass_digit {c : Char} (h : isDigit c = true) : splitterClass c = true := by
  simp [splitterClass, h]

theorem takeWhile_append_of_all {p : Char → Bool} {a b : Str} (ha : ∀ c ∈ a, p c = true)
    (hb : ∀ c, b.head? = some c → p c = false) : (a ++ b).takeWhile p = a := by
  cases b with
  | nil => simp only [List.append_nil]; exact takeWhile_all ha
  | cons x r => exact takeWhile_append_stop r ha (hb x rfl)

theorem dropWhile_append_of_all {p : Char → Bool} {a b : Str} (ha : ∀ c ∈ a, p c = true)
    (hb : ∀ c, b.head? = some c → p c = false) : (a ++ b).dropWhile p = b := by
  cases b with
  | nil => simp only [List.append_nil]; exact dropWhile_all ha
  | cons x r => exact dropWhile_append_stop r ha (hb x rfl)

theorem splitterFindall_step (double : Bool) {b rest : Str} (hne : b ≠ [])
    (hb : ∀ c ∈ b, splitterClass c = true) (hr : ∀ c, rest.head? = some c → splitterClass c = false) :
    splitterFindall ((if double then ['/', '/'] else ['/']) ++ b ++ rest) =
      ((if double then ['/', '/'] else ['/']) ++ b) :: splitterFindall rest := by
  have hsl : splitterClass '/' = false := by decide
  have hhead : ∀ c, (b ++ rest).head? = some c → (c == '/') = false := by
    intro c hc
    cases b with
    | nil => simp at hne
    | cons x y =>
      simp at hc; subst hc
      have := hb x (by simp)
      simp; rintro rfl; rw [hsl] at this; simp at this
  have hbne : b.isEmpty = false := by cases b <;> simp_all
  cases double with
  | true =>
    simp only [if_true]
    rw [show ['/', '/'] ++ b ++ rest = '/' :: (['/'] ++ (b ++ rest)) by simp, splitterFindall]
    rw [takeWhile_append_of_all (a := ['/']) (by simp) hhead,
      dropWhile_append_of_all (a := ['/']) (by simp) hhead]
    simp only [if_true, takeWhile_append_of_all hb hr, dropWhile_append_of_all hb hr, hbne]
    simp
  | false =>
    rw [show (if false = true then ['/', '/'] else ['/']) ++ b ++ rest = '/' :: ([] ++ (b ++ rest)) by simp,
      splitterFindall]
    rw [takeWhile_append_of_all (a := []) (by simp) hhead,
      dropWhile_append_of_all (a := []) (by simp) hhead]
    simp only [if_true, takeWhile_append_of_all hb hr, dropWhile_append_of_all hb hr, hbne]
    simp

theorem head_refsDeclText (p : List PStep) (c : Char) (h : (refsDeclText p).head? = some c) : c = '/' := by
  cases p with
  | nil => simp [refsDeclText] at h
  | cons s r =>
    have e : refsDeclText (s :: r) = s.slashes ++ (s.body.flatMap Tok.numberedText ++ refsDeclText r) := by
      simp [refsDeclText]
    rw [e] at h
    unfold PStep.slashes at h
    split at h <;> simp at h <;> exact h.symm

theorem numberedText_ne_nil {l : List Tok} (h : l ≠ []) : l.flatMap Tok.numberedText ≠ [] := by
  cases l with
  | nil => simp at h
  | cons t r => cases t <;> simp [Tok.numberedText]

theorem numberedText_class {l : List Tok} (h : ∀ c, Tok.chr c ∈ l → StepChar c) :
    ∀ c ∈ l.flatMap Tok.numberedText, splitterClass c = true := by
  intro c hc
  simp only [List.mem_flatMap] at hc
  obtain ⟨t, ht, hct⟩ := hc
  cases t with
  | chr x => simp [Tok.numberedText] at hct; subst hct; exact splitterClass_of_stepChar (h _ ht)
  | hole n =>
    simp [Tok.numberedText] at hct
    rcases hct with rfl | hct
    · decide
    · exact splitterClass_digit (isDigit_natStr n c hct)

theorem splitterFindall_refsDecl {p : List PStep} (h : ∀ s ∈ p, s.WF) :
    splitterFindall (refsDeclText p) = p.map fun s => s.slashes ++ s.body.flatMap Tok.numberedText := by
  induction p with
  | nil => simp [refsDeclText, splitterFindall]
  | cons s r ih =>
    have hs := h s (by simp)
    have e : refsDeclText (s :: r) =
        (if s.double then ['/', '/'] else ['/']) ++ s.body.flatMap Tok.numberedText ++ refsDeclText r := by
      simp [refsDeclText, PStep.slashes]
    rw [e, splitterFindall_step s.double (numberedText_ne_nil hs.ne) (numberedText_class hs.chars),
      ih (fun x hx => h x (by simp [hx]))]
    · rfl
    · intro c hc
      rw [head_refsDeclText r c hc]; decide

/-! ### Showing -/

theorem dollarSub_cons_ne {c : Char} (r : Str) (h : c ≠ '$') : dollarSub (c :: r) = c :: dollarSub r := by
  rw [dollarSub, if_neg (by simp [h])]

theorem dollarSub_hole (n : Nat) {r : Str} (hr : ∀ c, r.head? = some c → isDigit c = false) :
    dollarSub ('$' :: natStr n ++ r) = '?' :: dollarSub r := by
  rw [List.cons_append, dollarSub, if_pos, dropWhile_append_of_all (isDigit_natStr n) hr]
  rw [takeWhile_append_of_all (isDigit_natStr n) hr]
  refine ⟨rfl, ?_⟩
  have := natStr_ne_nil n
  cases h : natStr n <;> simp_all

theorem dollarSub_toks {l : List Tok} (hc : ∀ c, Tok.chr c ∈ l → c ≠ '$') (hd : NoDigitAfterHole l) :
    dollarSub (l.flatMap Tok.numberedText) = l.flatMap Tok.shown := by
  induction l with
  | nil => simp [dollarSub]
  | cons t r ih =>
    have hcr : ∀ c, Tok.chr c ∈ r → c ≠ '$' := fun c h => hc c (by simp [h])
    cases t with
    | chr c =>
      simp only [List.flatMap_cons, Tok.numberedText, Tok.shown, List.singleton_append]
      rw [dollarSub_cons_ne _ (hc c (by simp)), ih hcr (by simpa [NoDigitAfterHole] using hd)]
    | hole n =>
      have hdr : NoDigitAfterHole r := by
        cases r with
        | nil => trivial
        | cons t' r' => cases t' <;> simp_all [NoDigitAfterHole]
      simp only [List.flatMap_cons, Tok.numberedText, Tok.shown, List.singleton_append]
      rw [dollarSub_hole, ih hcr hdr]
      intro c hc
      cases r with
      | nil => simp at hc
      | cons t' r' =>
        cases t' with
        | chr x =>
          simp [Tok.numberedText] at hc; subst hc
          simp [NoDigitAfterHole] at hd
          have := hd.1
          cases h : isDigit x with
          | false => rfl
          | true =>
            have h2 := (isDigit_iff x).1 h
            exact absurd h2.2 (by simpa using this h2.1)
        | hole m => simp [Tok.numberedText] at hc; subst hc; decide

/-- The pieces of a path, slashes included. -/
def flatToks (p : List PStep) : List Tok :=
  p.flatMap fun s => s.slashes.map Tok.chr ++ s.body

theorem flatMap_chr_numbered (s : Str) : (s.map Tok.chr).flatMap Tok.numberedText = s := by
  induction s with
  | nil => rfl
  | cons c r ih => simp [Tok.numberedText, ih]

theorem flatMap_chr_shown (s : Str) : (s.map Tok.chr).flatMap Tok.shown = s := by
  induction s with
  | nil => rfl
  | cons c r ih => simp [Tok.shown, ih]

theorem flatToks_numbered (p : List PStep) : (flatToks p).flatMap Tok.numberedText = refsDeclText p := by
  induction p with
  | nil => rfl
  | cons s r ih =>
    have : flatToks (s :: r) = (s.slashes.map Tok.chr ++ s.body) ++ flatToks r := by simp [flatToks]
    rw [this, List.flatMap_append, ih, List.flatMap_append, flatMap_chr_numbered]
    simp [refsDeclText]

theorem flatToks_shown (p : List PStep) : (flatToks p).flatMap Tok.shown = shownText p := by
  induction p with
  | nil => rfl
  | cons s r ih =>
    have : flatToks (s :: r) = (s.slashes.map Tok.chr ++ s.body) ++ flatToks r := by simp [flatToks]
    rw [this, List.flatMap_append, ih, List.flatMap_append, flatMap_chr_shown]
    simp [shownText]

theorem stepChar_ne_dollar {c : Char} (h : StepChar c) : c ≠ '$' := by
  rintro rfl; revert h; decide
theorem stepChar_ne_question {c : Char} (h : StepChar c) : c ≠ '?' := by
  rintro rfl; revert h; decide

theorem mem_slashes {s : PStep} {c : Char} (h : c ∈ s.slashes) : c = '/' := by
  unfold PStep.slashes at h; split at h <;> simpa using h

theorem flatToks_chars {p : List PStep} (h : ∀ s ∈ p, s.WF) (c : Char) (hc : Tok.chr c ∈ flatToks p) :
    c = '/' ∨ StepChar c := by
  simp only [flatToks, List.mem_flatMap] at hc
  obtain ⟨s, hs, hc⟩ := hc
  simp at hc
  rcases hc with hc | hc
  · exact Or.inl (mem_slashes hc)
  · exact Or.inr ((h s hs).chars c hc)

theorem noDigit_append_slash {l m : List Tok} (hl : NoDigitAfterHole l) (hm : NoDigitAfterHole m)
    (hh : ∀ t, m.head? = some t → t = .chr '/') : NoDigitAfterHole (l ++ m) := by
  induction l with
  | nil => exact hm
  | cons t r ih =>
    cases t with
    | chr c => simpa [NoDigitAfterHole] using ih (by simpa [NoDigitAfterHole] using hl)
    | hole n =>
      cases r with
      | nil =>
        cases m with
        | nil => simp [NoDigitAfterHole]
        | cons t' r' =>
          have := hh t' rfl
          subst this
          simp only [List.cons_append, List.nil_append, NoDigitAfterHole]
          exact ⟨by decide, by simpa [NoDigitAfterHole] using hm⟩
      | cons t' r' =>
        cases t' with
        | chr x =>
          simp only [List.cons_append, NoDigitAfterHole] at hl ⊢
          exact ⟨hl.1, by simpa [NoDigitAfterHole] using ih (by simpa [NoDigitAfterHole] using hl.2)⟩
        | hole x =>
          simp only [List.cons_append, NoDigitAfterHole] at hl ⊢
          exact ih hl

theorem noDigit_chrs (s : Str) {m : List Tok} (h : NoDigitAfterHole m) :
    NoDigitAfterHole (s.map Tok.chr ++ m) := by
  induction s with
  | nil => exact h
  | cons c r ih => simpa [NoDigitAfterHole] using ih

theorem flatToks_noDigit {p : List PStep} (h : ∀ s ∈ p, s.WF) : NoDigitAfterHole (flatToks p) := by
  induction p with
  | nil => trivial
  | cons s r ih =>
    have : flatToks (s :: r) = s.slashes.map Tok.chr ++ (s.body ++ flatToks r) := by simp [flatToks]
    rw [this]
    refine noDigit_chrs _ (noDigit_append_slash (h s (by simp)).digits (ih fun x hx => h x (by simp [hx])) ?_)
    intro t ht
    cases r with
    | nil => simp [flatToks] at ht
    | cons s' r' =>
      have e : flatToks (s' :: r') = s'.slashes.map Tok.chr ++ (s'.body ++ flatToks r') := by
        simp [flatToks]
      rw [e] at ht
      unfold PStep.slashes at ht
      split at ht <;> simp at ht <;> exact ht.symm

theorem dollarSub_refsDecl {p : List PStep} (h : ∀ s ∈ p, s.WF) :
    dollarSub (refsDeclText p) = shownText p := by
  rw [← flatToks_numbered, ← flatToks_shown]
  refine dollarSub_toks ?_ (flatToks_noDigit h)
  intro c hc
  rcases flatToks_chars h c hc with rfl | h
  · decide
  · exact stepChar_ne_dollar h

theorem join_nil_sep (l : List Str) : join [] l = l.flatten := by
  induction l with
  | nil => rfl
  | cons x r ih =>
    cases r with
    | nil => simp
    | cons y r => simp only [join, List.append_nil] at ih ⊢; rw [ih]; simp

/-! ### Renumbering -/

/-- Placeholders numbered from `k` on. -/
def renumber : Nat → List Tok → List Tok
  | _, [] => []
  | k, .chr c :: r => .chr c :: renumber k r
  | k, .hole _ :: r => .hole k :: renumber (k + 1) r

def holes : List Tok → Nat
  | [] => 0
  | .chr _ :: r => holes r
  | .hole _ :: r => holes r + 1

theorem renumber_shown (k : Nat) (l : List Tok) : (renumber k l).flatMap Tok.shown = l.flatMap Tok.shown := by
  induction l generalizing k with
  | nil => rfl
  | cons t r ih => cases t <;> simp [renumber, Tok.shown, ih]

theorem renumber_append (k : Nat) (l m : List Tok) :
    renumber k (l ++ m) = renumber k l ++ renumber (k + holes l) m := by
  induction l generalizing k with
  | nil => rfl
  | cons t r ih =>
    cases t with
    | chr c => simp [renumber, holes, ih]
    | hole n => simp [renumber, holes, ih]; congr 1; omega

theorem renumber_ne_nil {k : Nat} {l : List Tok} (h : l ≠ []) : renumber k l ≠ [] := by
  cases l with
  | nil => simp at h
  | cons t r => cases t <;> simp [renumber]

theorem mem_renumber {k : Nat} {l : List Tok} {c : Char} : Tok.chr c ∈ renumber k l ↔ Tok.chr c ∈ l := by
  induction l generalizing k with
  | nil => rfl
  | cons t r ih => cases t <;> simp [renumber, ih]

theorem noDigit_renumber {k : Nat} {l : List Tok} (h : NoDigitAfterHole l) :
    NoDigitAfterHole (renumber k l) := by
  induction l generalizing k with
  | nil => trivial
  | cons t r ih =>
    cases t with
    | chr c => simp only [renumber, NoDigitAfterHole] at h ⊢; exact ih h
    | hole n =>
      cases r with
      | nil => simp [renumber, NoDigitAfterHole]
      | cons t' r' =>
        cases t' with
        | chr x =>
          simp only [renumber, NoDigitAfterHole] at h ⊢
          refine ⟨h.1, ?_⟩
          have := ih (k := k + 1) (by simpa [NoDigitAfterHole] using h.2)
          simpa [renumber, NoDigitAfterHole] using this
        | hole x =>
          simp only [renumber, NoDigitAfterHole] at h ⊢
          have := ih (k := k + 1) h
          simpa [renumber, NoDigitAfterHole] using this

/-- Steps renumbered from `k` on. -/
def renumberSteps : Nat → List PStep → List PStep
  | _, [] => []
  | k, s :: r => ⟨s.double, renumber k s.body⟩ :: renumberSteps (k + holes s.body) r

theorem holes_chrs (s : Str) : holes (s.map Tok.chr) = 0 := by
  induction s with
  | nil => rfl
  | cons c r ih => simpa [holes] using ih

theorem renumber_chrs (k : Nat) (s : Str) : renumber k (s.map Tok.chr) = s.map Tok.chr := by
  induction s with
  | nil => rfl
  | cons c r ih => simp [renumber, ih]

theorem flatToks_renumberSteps (k : Nat) (p : List PStep) :
    flatToks (renumberSteps k p) = renumber k (flatToks p) := by
  induction p generalizing k with
  | nil => rfl
  | cons s r ih =>
    have e : ∀ (s : PStep) r, flatToks (s :: r) = s.slashes.map Tok.chr ++ (s.body ++ flatToks r) := by
      intro s r; simp [flatToks]
    rw [renumberSteps, e, e, ih, renumber_append, renumber_append, holes_chrs, renumber_chrs]
    simp [PStep.slashes]

theorem renumberSteps_wf {k : Nat} {p : List PStep} (h : ∀ s ∈ p, s.WF) : ∀ s ∈ renumberSteps k p, s.WF := by
  induction p generalizing k with
  | nil => simp [renumberSteps]
  | cons s r ih =>
    intro t ht
    simp [renumberSteps] at ht
    rcases ht with rfl | ht
    · have hs := h s (by simp)
      exact ⟨renumber_ne_nil hs.ne, fun c hc => hs.chars c (mem_renumber.1 hc), noDigit_renumber hs.digits⟩
    · exact ih (fun x hx => h x (by simp [hx])) t ht

theorem numbered_toks {l : List Tok} (h : ∀ c, Tok.chr c ∈ l → c ≠ '?') (k : Nat) :
    numbered k (l.flatMap Tok.shown) = (renumber k l).flatMap Tok.numberedText := by
  induction l generalizing k with
  | nil => rfl
  | cons t r ih =>
    have ih := ih (fun c hc => h c (by simp [hc]))
    cases t with
    | chr c =>
      simp [Tok.shown, renumber, Tok.numberedText, numbered, h c (by simp), ih]
    | hole n => simp [Tok.shown, renumber, Tok.numberedText, numbered, ih]

theorem numbered_shownText {p : List PStep} (h : ∀ s ∈ p, s.WF) (k : Nat) :
    numbered k (shownText p) = refsDeclText (renumberSteps k p) := by
  rw [← flatToks_shown, ← flatToks_numbered, flatToks_renumberSteps]
  refine numbered_toks ?_ k
  intro c hc
  rcases flatToks_chars h c hc with rfl | h
  · decide
  · exact stepChar_ne_question h

theorem shown_renumberSteps (k : Nat) (p : List PStep) : shownText (renumberSteps k p) = shownText p := by
  rw [← flatToks_shown, ← flatToks_shown, flatToks_renumberSteps, renumber_shown]

theorem renumberSteps_append (k : Nat) (p q : List PStep) :
    ∃ j, renumberSteps k (p ++ q) = renumberSteps k p ++ renumberSteps j q := by
  induction p generalizing k with
  | nil => exact ⟨k, rfl⟩
  | cons s r ih =>
    obtain ⟨j, hj⟩ := ih (k + holes s.body)
    exact ⟨j, by simp [renumberSteps, hj]⟩

theorem refsDeclText_append (p q : List PStep) : refsDeclText (p ++ q) = refsDeclText p ++ refsDeclText q := by
  simp [refsDeclText]
theorem shownText_append (p q : List PStep) : shownText (p ++ q) = shownText p ++ shownText q := by
  simp [shownText]

theorem parseXpathScope_refsDecl {p : List PStep} {x : PStep} (hp : ∀ s ∈ p, s.WF) (hx : x.WF) :
    parseXpathScope (refsDeclText (p ++ [x])) = .ok (shownText p, shownText [x]) := by
  have hall : ∀ s ∈ p ++ [x], s.WF := by
    intro s hs; simp at hs; rcases hs with hs | rfl
    · exact hp s hs
    · exact hx
  unfold parseXpathScope
  rw [splitterFindall_refsDecl hall]
  simp only [List.map_append, List.map_cons, List.map_nil, List.getLast?_append, List.getLast?_singleton,
    Option.some_or, List.dropLast_append_cons, List.dropLast_singleton, List.append_nil]
  rw [join_nil_sep]
  have h1 := dollarSub_refsDecl hp
  have h2 := dollarSub_refsDecl (p := [x]) (by simpa using hx)
  simp only [refsDeclText, List.map_cons, List.map_nil, List.flatten_cons, List.flatten_nil,
    List.append_nil] at h1 h2
  rw [h1, h2]

end Verif.Model

namespace Verif.Model
open Verif.Py Verif.Spec

/-! ### Filling -/

theorem fillList_nil (vals : List (Option Str)) : fillList [] vals = .ok [] := by rw [fillList]

theorem fillList_ne {c : Char} (r : Str) (vals : List (Option Str)) (h : c ≠ '@') :
    fillList (c :: r) vals = (c :: ·) <$> fillList r vals := by
  rw [fillList, if_neg h]

theorem fillList_none {r : Str} (vals : List (Option Str)) (h : matchHole r = none) :
    fillList ('@' :: r) vals = ('@' :: ·) <$> fillList r vals := by
  rw [fillList]
  simp only [if_true]
  split
  · rename_i h2; rw [h] at h2; simp at h2
  · rfl

theorem fillList_some_nil {r name rest : Str} (h : matchHole r = some (name, rest)) :
    fillList ('@' :: r) [] = .error .stopIteration := by
  rw [fillList]
  simp only [if_true]
  split
  · rfl
  · rename_i h2; rw [h] at h2; simp at h2

theorem fillList_some_cons {r name rest : Str} (v : Option Str) (vs : List (Option Str))
    (h : matchHole r = some (name, rest)) :
    fillList ('@' :: r) (v :: vs) = (holeText name v ++ ·) <$> fillList rest vs := by
  rw [fillList]
  simp only [if_true]
  split
  · rename_i n' r' h2
    rw [h] at h2; simp at h2
    rw [h2.1, h2.2]
  · rename_i h2; rw [h] at h2; simp at h2

theorem fillList_plain {s : Str} (rest : Str) (vals : List (Option Str)) (h : '@' ∉ s) :
    fillList (s ++ rest) vals = (s ++ ·) <$> fillList rest vals := by
  induction s with
  | nil => cases h : fillList rest vals <;> simp [h]
  | cons c r ih =>
    simp at h
    rw [List.cons_append, fillList_ne _ _ (Ne.symm h.1), ih h.2]
    cases fillList rest vals <;> simp

theorem attrChar_of_name {a : Str} (h : AttrName a) : ∀ c ∈ a, attrChar c = true := by
  intro c hc
  rcases h.2 c hc with h | h | h | h
  · simp [attrChar, (isAsciiLetter_iff c).2 (Or.inl h)]
  · simp [attrChar, (isAsciiLetter_iff c).2 (Or.inr h)]
  · simp [attrChar, (isDigit_iff c).2 h]
  · simp [attrChar, h]

theorem not_mem_name {a : Str} {c : Char} (h : AttrName a) (hc : attrChar c = false) : c ∉ a := by
  intro hm; rw [attrChar_of_name h c hm] at hc; simp at hc

theorem natStr_length_le {k : Nat} (h : k < 1000) : 1 ≤ (natStr k).length ∧ (natStr k).length ≤ 3 := by
  have h10 : ∀ j, j < 10 → (natStr j).length = 1 := by
    intro j hj; rw [natStr, if_pos hj]; rfl
  have h100 : ∀ j, j < 100 → 1 ≤ (natStr j).length ∧ (natStr j).length ≤ 2 := by
    intro j hj
    by_cases h : j < 10
    · rw [h10 j h]; omega
    · rw [natStr, if_neg h]; simp [h10 (j / 10) (by omega)]
  by_cases h' : k < 100
  · have := h100 k h'; omega
  · rw [natStr, if_neg (by omega)]
    have := h100 (k / 10) (by omega)
    simp; omega

theorem placeholder_props {b : Str} (h : Placeholder b) :
    (∀ c ∈ b, valueChar c = true) ∧ 1 ≤ b.length ∧ b.length ≤ 4 := by
  rcases h with rfl | ⟨k, hk, rfl⟩
  · exact ⟨by decide, by decide, by decide⟩
  · have := natStr_length_le hk
    refine ⟨?_, by simp, by simp; omega⟩
    intro c hc
    simp at hc
    rcases hc with rfl | hc
    · decide
    · simp [valueChar, isDigit_natStr k c hc]

theorem quote_valueChar {q : Char} (h : Quote q) : valueChar q = true := by
  rcases h with rfl | rfl <;> decide

theorem matchHole_test {a b : Str} {q : Char} (rest : Str) (ha : AttrName a) (hq : Quote q)
    (hb : Placeholder b) :
    matchHole (a ++ '=' :: q :: b ++ [q, ']'] ++ rest) = some (a, ']' :: rest) := by
  obtain ⟨hv, h1, h2⟩ := placeholder_props hb
  have e : a ++ '=' :: q :: b ++ [q, ']'] ++ rest = a ++ '=' :: ((q :: b ++ [q]) ++ ']' :: rest) := by simp
  unfold matchHole
  rw [e, takeWhile_append_stop _ (attrChar_of_name ha) (by decide),
    dropWhile_append_stop _ (attrChar_of_name ha) (by decide)]
  have hne : a.isEmpty = false := by have := ha.1; cases a <;> simp_all
  simp only [hne]
  rw [takeWhile_append_stop _ _ (by decide)]
  · have hl : (q :: b ++ [q]).length = b.length + 2 := by simp
    rw [List.take_of_length_le (by omega), if_neg (by simp), if_neg (by omega)]
    simp
  · intro c hc
    simp at hc
    rcases hc with rfl | hc | rfl
    · exact quote_valueChar hq
    · exact hv c hc
    · exact quote_valueChar hq

theorem matchHole_has {a : Str} (rest : Str) (ha : AttrName a) :
    matchHole (a ++ [']'] ++ rest) = none := by
  have e : a ++ [']'] ++ rest = a ++ ']' :: rest := by simp
  unfold matchHole
  rw [e, dropWhile_append_stop _ (attrChar_of_name ha) (by decide)]
  simp

theorem matchHole_const {a r : Str} {q c : Char} (rest : Str) (ha : AttrName a) (hq : Quote q)
    (hc : c ∉ ['\\', '$', '\'', '"', '?']) (hd : ¬ ('0' ≤ c ∧ c ≤ '9')) :
    matchHole (a ++ '=' :: q :: (c :: r) ++ [q] ++ rest) = none := by
  have e : a ++ '=' :: q :: (c :: r) ++ [q] ++ rest = a ++ '=' :: ([q] ++ c :: (r ++ [q] ++ rest)) := by
    simp
  have hcv : valueChar c = false := by
    have : isDigit c = false := by
      cases h : isDigit c with
      | false => rfl
      | true => exact absurd ((isDigit_iff c).1 h) hd
    simp at hc
    simp [valueChar, this, hc]
  unfold matchHole
  rw [e, dropWhile_append_stop _ (attrChar_of_name ha) (by decide)]
  simp only
  rw [takeWhile_append_stop _ (by simpa using quote_valueChar hq) hcv]
  simp

theorem at_not_mem_name {a : Str} (h : AttrName a) : '@' ∉ a := not_mem_name h (by decide)

theorem fillList_segs {l : List Seg} (h : ∀ s ∈ l, s.WF) (vals : List (Option Str)) :
    fillList (segsText l) vals =
      match filledText l vals with
      | some t => .ok t
      | none => .error .stopIteration := by
  induction l generalizing vals with
  | nil => simp [segsText, filledText, fillList_nil]
  | cons s r ih =>
    have hs := h s (by simp)
    have ih := fun vals => ih (fun x hx => h x (by simp [hx])) vals
    have e : segsText (s :: r) = s.text ++ segsText r := by simp [segsText]
    rw [e]
    cases s with
    | txt t =>
      rw [Seg.text, fillList_plain _ _ hs, ih]
      simp only [filledText, Seg.text]
      cases filledText r vals <;> simp
    | const a q v =>
      obtain ⟨ha, hq, hv, c, v', rfl, hc, hd⟩ := hs
      have e : (Seg.const a q (c :: v')).text ++ segsText r =
          '@' :: (a ++ '=' :: q :: (c :: v') ++ [q] ++ segsText r) := by simp [Seg.text]
      rw [e, fillList_none _ (matchHole_const _ ha hq hc hd), fillList_plain, ih]
      · simp only [filledText, Seg.text]
        cases filledText r vals <;> simp
      · simp at hv
        have : q ≠ '@' := by rcases hq with rfl | rfl <;> decide
        simp [at_not_mem_name ha, hv, this.symm]
    | has a =>
      have e : (Seg.has a).text ++ segsText r = '@' :: (a ++ [']'] ++ segsText r) := by simp [Seg.text]
      rw [e, fillList_none _ (matchHole_has _ hs), fillList_plain, ih]
      · simp only [filledText, Seg.text]
        cases filledText r vals <;> simp
      · simp [at_not_mem_name hs]
    | test a q b =>
      obtain ⟨ha, hq, hb⟩ := hs
      have e : (Seg.test a q b).text ++ segsText r =
          '@' :: (a ++ '=' :: q :: b ++ [q, ']'] ++ segsText r) := by simp [Seg.text]
      rw [e]
      cases vals with
      | nil => rw [fillList_some_nil (matchHole_test _ ha hq hb)]; simp [filledText]
      | cons v vs =>
        rw [fillList_some_cons _ _ (matchHole_test _ ha hq hb), fillList_ne _ _ (by decide), ih]
        simp only [filledText]
        cases filledText r vs <;> cases v <;> simp [holeText, valueTest]

theorem fillNone_eq {s : Str} (n : Nat) (hn : s.length ≤ n) :
    fillList s (List.replicate n none) = .ok (fillNone s) := by
  induction hl : s.length using Nat.strongRecOn generalizing s n with
  | _ m ih =>
    cases s with
    | nil => rw [fillList_nil, fillNone]
    | cons c r =>
      simp at hl hn
      by_cases hc : c = '@'
      · subst hc
        cases hm : matchHole r with
        | none =>
          rw [fillList_none _ hm, ih r.length (by omega) n (by omega) rfl, fillNone]
          simp only [if_true]
          split
          · rename_i h2; rw [hm] at h2; simp at h2
          · rfl
        | some p =>
          obtain ⟨name, rest⟩ := p
          have hlen := matchHole_length hm
          obtain ⟨k, rfl⟩ : ∃ k, n = k + 1 := ⟨n - 1, by omega⟩
          rw [List.replicate_succ, fillList_some_cons _ _ hm, ih rest.length (by omega) k (by omega) rfl,
            fillNone]
          simp only [if_true]
          split
          · rename_i h2; rw [hm] at h2; simp at h2; rw [h2.1, h2.2]; rfl
          · rename_i h2; rw [hm] at h2; simp at h2
      · rw [fillList_ne _ _ hc, ih r.length (by omega) n (by omega) rfl, fillNone, if_neg hc]; rfl

theorem fillConst_eq {s : Str} (v : Str) (n : Nat) (hn : s.length ≤ n) :
    fillList s (List.replicate n (some v)) = .ok (fillConst s v) := by
  induction hl : s.length using Nat.strongRecOn generalizing s n with
  | _ m ih =>
    cases s with
    | nil => rw [fillList_nil, fillConst]
    | cons c r =>
      simp at hl hn
      by_cases hc : c = '@'
      · subst hc
        cases hm : matchHole r with
        | none =>
          rw [fillList_none _ hm, ih r.length (by omega) n (by omega) rfl, fillConst]
          simp only [if_true]
          split
          · rename_i h2; rw [hm] at h2; simp at h2
          · rfl
        | some p =>
          obtain ⟨name, rest⟩ := p
          have hlen := matchHole_length hm
          obtain ⟨k, rfl⟩ : ∃ k, n = k + 1 := ⟨n - 1, by omega⟩
          rw [List.replicate_succ, fillList_some_cons _ _ hm, ih rest.length (by omega) k (by omega) rfl,
            fillConst]
          simp only [if_true]
          split
          · rename_i h2; rw [hm] at h2; simp at h2; rw [h2.1, h2.2]; rfl
          · rename_i h2; rw [hm] at h2; simp at h2
      · rw [fillList_ne _ _ hc, ih r.length (by omega) n (by omega) rfl, fillConst, if_neg hc]; rfl

/-! ### Attribute -/

theorem attrFindall_ne {n : Str} {c : Char} (r : Str) (h : c ≠ '@') :
    attrFindall n (c :: r) = attrFindall n r := by rw [attrFindall, if_neg h]

theorem attrFindall_none {n r : Str} (h : matchAttr n r = none) :
    attrFindall n ('@' :: r) = attrFindall n r := by
  rw [attrFindall]
  simp only [if_true]
  split
  · rename_i h2; rw [h] at h2; simp at h2
  · rfl

theorem attrFindall_some {n r name rest : Str} (h : matchAttr n r = some (name, rest)) :
    attrFindall n ('@' :: r) = name :: attrFindall n rest := by
  rw [attrFindall]
  simp only [if_true]
  split
  · rename_i h2; rw [h] at h2; simp at h2; rw [h2.1, h2.2]
  · rename_i h2; rw [h] at h2; simp at h2

theorem attrFindall_plain {n s : Str} (rest : Str) (h : '@' ∉ s) :
    attrFindall n (s ++ rest) = attrFindall n rest := by
  induction s with
  | nil => rfl
  | cons c r ih =>
    simp at h
    rw [List.cons_append, attrFindall_ne _ (Ne.symm h.1), ih h.2]

end Verif.Model

namespace Verif.Model
open Verif.Py Verif.Spec

theorem attrNameChar_of {a : Str} (h : AttrName a) (hd : ∀ c ∈ a, ¬ ('0' ≤ c ∧ c ≤ '9')) :
    ∀ c ∈ a, attrNameChar c = true := by
  intro c hc
  rcases h.2 c hc with h | h | h | h
  · simp [attrNameChar, (isAsciiLetter_iff c).2 (Or.inl h)]
  · simp [attrNameChar, (isAsciiLetter_iff c).2 (Or.inr h)]
  · exact absurd h (hd c hc)
  · simp [attrNameChar, h]

theorem skipBackslash_ne {c : Char} (r : Str) (h : c ≠ '\\') : skipBackslash (c :: r) = c :: r := by
  unfold skipBackslash
  split
  · rename_i h2; simp at h2; exact absurd h2.1 h
  · rfl

theorem quote_ne_backslash {q : Char} (h : Quote q) : q ≠ '\\' := by
  rcases h with rfl | rfl <;> decide

theorem quote_not_digit {q : Char} (h : Quote q) : isDigit q = false := by
  rcases h with rfl | rfl <;> decide

theorem isPrefixOf_append (a b : Str) : a.isPrefixOf (a ++ b) = true := by
  induction a with
  | nil => simp
  | cons c r ih => simpa using ih

theorem matchAttr_same {a : Str} {q : Char} (n : Nat) (rest : Str) (ha : AttrName a)
    (hd : ∀ c ∈ a, ¬ ('0' ≤ c ∧ c ≤ '9')) (hq : Quote q) :
    matchAttr (natStr n) (a ++ '=' :: q :: ('$' :: natStr n) ++ [q, ']'] ++ rest) = some (a, ']' :: rest) := by
  have e : a ++ '=' :: q :: ('$' :: natStr n) ++ [q, ']'] ++ rest =
      a ++ '=' :: (q :: '$' :: (natStr n ++ (q :: ']' :: rest))) := by simp
  have hn := attrNameChar_of ha hd
  unfold matchAttr
  rw [e, takeWhile_append_stop _ hn (by decide), dropWhile_append_stop _ hn (by decide)]
  have hne : a.isEmpty = false := by have := ha.1; cases a <;> simp_all
  simp only [hne]
  have hq' : q = '\'' ∨ q = '"' := hq
  rw [skipBackslash_ne _ (quote_ne_backslash hq)]
  simp only [hq', if_true, isPrefixOf_append, List.drop_left]
  rw [skipBackslash_ne _ (quote_ne_backslash hq)]
  simp [hq']

theorem matchAttr_other {a : Str} {q : Char} {n k : Nat} (hnk : k ≠ n) (rest : Str) (ha : AttrName a)
    (hd : ∀ c ∈ a, ¬ ('0' ≤ c ∧ c ≤ '9')) (hq : Quote q) :
    matchAttr (natStr n) (a ++ '=' :: q :: ('$' :: natStr k) ++ [q, ']'] ++ rest) = none := by
  have e : a ++ '=' :: q :: ('$' :: natStr k) ++ [q, ']'] ++ rest =
      a ++ '=' :: (q :: '$' :: (natStr k ++ (q :: ']' :: rest))) := by simp
  have hn := attrNameChar_of ha hd
  unfold matchAttr
  rw [e, takeWhile_append_stop _ hn (by decide), dropWhile_append_stop _ hn (by decide)]
  have hne : a.isEmpty = false := by have := ha.1; cases a <;> simp_all
  simp only [hne]
  have hq' : q = '\'' ∨ q = '"' := hq
  rw [skipBackslash_ne _ (quote_ne_backslash hq)]
  simp only [hq', if_true]
  split
  · rename_i h
    simp at h
  · split
    · rename_i hp
      have hp : natStr n <+: natStr k ++ q :: ']' :: rest := List.isPrefixOf_iff_prefix.1 hp
      -- the prefix stays inside the digits
      have hlen : (natStr n).length ≤ (natStr k).length := by
        refine Nat.le_of_not_lt fun hc => ?_
        have h1 : (natStr n)[(natStr k).length]? = some q := by
          obtain ⟨t, ht⟩ := hp
          have : (natStr n ++ t)[(natStr k).length]? = some q := by rw [ht]; simp
          rwa [List.getElem?_append_left (by omega)] at this
        have := isDigit_natStr n q (List.mem_of_getElem? h1)
        rw [quote_not_digit hq] at this; simp at this
      have hp2 : natStr n <+: natStr k := List.prefix_of_prefix_length_le hp (List.prefix_append _ _) hlen
      obtain ⟨t, ht⟩ := hp2
      cases t with
      | nil => simp at ht; exact absurd (natStr_injective ht).symm hnk
      | cons x t =>
        have hx : isDigit x = true := isDigit_natStr k x (by rw [← ht]; simp)
        have hd : (natStr k ++ q :: ']' :: rest).drop (natStr n).length = x :: (t ++ q :: ']' :: rest) := by
          rw [← ht]; simp
        have hxb : x ≠ '\\' := by rintro rfl; revert hx; decide
        have hxq : ¬ (x = '\'' ∨ x = '"') := by
          rintro (rfl | rfl) <;> revert hx <;> decide
        rw [hd, skipBackslash_ne _ hxb]
        simp [hxq]
    · rfl

theorem matchAttr_has {n a : Str} (rest : Str) (ha : AttrName a) (hd : ∀ c ∈ a, ¬ ('0' ≤ c ∧ c ≤ '9')) :
    matchAttr n (a ++ [']'] ++ rest) = none := by
  have hn := attrNameChar_of ha hd
  unfold matchAttr
  rw [show a ++ [']'] ++ rest = a ++ ']' :: rest by simp, dropWhile_append_stop _ hn (by decide)]
  simp

theorem matchAttr_const {n a r : Str} {q c : Char} (rest : Str) (ha : AttrName a)
    (hd : ∀ c ∈ a, ¬ ('0' ≤ c ∧ c ≤ '9')) (hq : Quote q) (hc : c ≠ '$') :
    matchAttr n (a ++ '=' :: q :: (c :: r) ++ [q] ++ rest) = none := by
  have hn := attrNameChar_of ha hd
  unfold matchAttr
  rw [show a ++ '=' :: q :: (c :: r) ++ [q] ++ rest = a ++ '=' :: (q :: c :: (r ++ [q] ++ rest)) by simp,
    dropWhile_append_stop _ hn (by decide)]
  simp only
  rw [skipBackslash_ne _ (quote_ne_backslash hq)]
  split
  · rfl
  · split
    · rename_i h; simp at h; exact absurd h.2.1 hc
    · rfl

theorem attrFindall_segs {l : List Seg} (h : ∀ s ∈ l, s.Numbered) (n : Nat) :
    attrFindall (natStr n) (segsText l) =
      l.filterMap fun | .test a _ b => if b = '$' :: natStr n then some a else none | _ => none := by
  induction l with
  | nil => simp [segsText, attrFindall]
  | cons s r ih =>
    have hs := h s (by simp)
    have ih := ih (fun x hx => h x (by simp [hx]))
    have e : segsText (s :: r) = s.text ++ segsText r := by simp [segsText]
    rw [e]
    cases s with
    | txt t => rw [Seg.text, attrFindall_plain _ hs.1, ih]; simp
    | const a q v =>
      obtain ⟨ha, hd, hq, hv, hv2, c, v', rfl, hc⟩ := hs
      have hqa : q ≠ '@' := by rcases hq with rfl | rfl <;> decide
      simp at hv hv2
      rw [show (Seg.const a q (c :: v')).text ++ segsText r =
          '@' :: (a ++ '=' :: q :: (c :: v') ++ [q] ++ segsText r) by simp [Seg.text],
        attrFindall_none (matchAttr_const _ ha hd hq (Ne.symm hv2.1)), attrFindall_plain, ih]
      · simp
      · simp [at_not_mem_name ha, hv, hqa.symm]
    | has a =>
      rw [show (Seg.has a).text ++ segsText r = '@' :: (a ++ [']'] ++ segsText r) by simp [Seg.text],
        attrFindall_none (matchAttr_has _ hs.1 hs.2), attrFindall_plain, ih]
      · simp
      · simp [at_not_mem_name hs.1]
    | test a q b =>
      obtain ⟨ha, hd, hq, k, rfl⟩ := hs
      have hqa : q ≠ '@' := by rcases hq with rfl | rfl <;> decide
      rw [show (Seg.test a q ('$' :: natStr k)).text ++ segsText r =
          '@' :: (a ++ '=' :: q :: ('$' :: natStr k) ++ [q, ']'] ++ segsText r) by simp [Seg.text]]
      by_cases hk : k = n
      · subst hk
        rw [attrFindall_some (matchAttr_same k _ ha hd hq), attrFindall_ne _ (by decide), ih]
        simp
      · have hne : '$' :: natStr k ≠ '$' :: natStr n := by
          intro h; simp at h; exact hk (natStr_injective h)
        rw [attrFindall_none (matchAttr_other hk _ ha hd hq), attrFindall_plain, ih]
        · simp only [List.filterMap_cons, hne, if_false]
        · simp [at_not_mem_name ha, hqa.symm, not_mem_natStr k (show isDigit '@' = false by decide)]

theorem count_dollar_segs {l : List Seg} (h : ∀ s ∈ l, s.Numbered) :
    (segsText l).count '$' = (l.filter Seg.isTest).length := by
  induction l with
  | nil => simp [segsText]
  | cons s r ih =>
    have hs := h s (by simp)
    have ih := ih (fun x hx => h x (by simp [hx]))
    have e : segsText (s :: r) = s.text ++ segsText r := by simp [segsText]
    have hz : ∀ t : Str, '$' ∉ t → t.count '$' = 0 := fun t ht => by simpa [List.count_eq_zero] using ht
    rw [e, List.count_append, ih]
    cases s with
    | txt t => simp [Seg.text, Seg.isTest, hz _ hs.2]
    | const a q v =>
      obtain ⟨ha, hd, hq, hv, hv2, _⟩ := hs
      have hqd : q ≠ '$' := by rcases hq with rfl | rfl <;> decide
      have : '$' ∉ (Seg.const a q v).text := by
        simp [Seg.text, not_mem_name ha (show attrChar '$' = false by decide), hv2, hqd.symm]
      simp [Seg.isTest, hz _ this]
    | has a =>
      have : '$' ∉ (Seg.has a).text := by
        simp [Seg.text, not_mem_name hs.1 (show attrChar '$' = false by decide)]
      simp [Seg.isTest, hz _ this]
    | test a q b =>
      obtain ⟨ha, hd, hq, k, rfl⟩ := hs
      have hqd : q ≠ '$' := by rcases hq with rfl | rfl <;> decide
      simp [Seg.text, List.filter_cons, Seg.isTest, List.count_append, hqd,
        hz _ (not_mem_name ha (show attrChar '$' = false by decide)),
        hz _ (not_mem_natStr k (show isDigit '$' = false by decide))]
      omega

end Verif.Model
