import Verif.Spec.LocalText
import Verif.Lemmas.Xml
import Verif.Lemmas.Reference
import Verif.Lemmas.RefsDecl
import Verif.Props.Xml
import Verif.Props.RefsDecl
/-! Helper lemmas about local texts. -/
namespace Verif.Model
open Verif.Py Verif.Spec

/-! ### Reading written paths -/

theorem qName_chars {a : Str} (h : qName a = true) : a ≠ [] ∧ ∀ c ∈ a, ncChar c = true ∨ c = ':' := by
  have hnc : ∀ s : Str, ncName s = true → s ≠ [] ∧ ∀ c ∈ s, ncChar c = true := by
    intro s hs
    cases s with
    | nil => simp [ncName] at hs
    | cons c r =>
      simp only [ncName, Bool.and_eq_true, List.all_eq_true] at hs
      refine ⟨by simp, fun x hx => ?_⟩
      rw [List.mem_cons] at hx
      rcases hx with rfl | hx
      · simp [ncChar, hs.1]
      · exact hs.2 x hx
  have hj := join_split ':' a
  unfold qName at h
  split at h
  · rename_i x e
    rw [e] at hj
    simp only [join] at hj
    subst hj
    exact ⟨(hnc _ h).1, fun c hc => Or.inl ((hnc _ h).2 c hc)⟩
  · rename_i x y e
    rw [e] at hj
    simp only [join] at hj
    rw [Bool.and_eq_true] at h
    subst hj
    refine ⟨by simp, fun c hc => ?_⟩
    simp only [List.mem_append, List.mem_singleton] at hc
    rcases hc with (hc | hc) | hc
    · exact Or.inl ((hnc _ h.1).2 c hc)
    · exact Or.inr hc
    · exact Or.inl ((hnc _ h.2).2 c hc)
  · simp at h

/-- Characters that end names. -/
theorem qName_not_mem {a : Str} (h : qName a = true) {c : Char}
    (hc : c ∈ ['/', '[', ']', '=', '@', '$', '\'', '"']) : c ∉ a := by
  intro hm
  rcases (qName_chars h).2 c hm with h1 | h1
  · simp at hc
    rcases hc with rfl | rfl | rfl | rfl | rfl | rfl | rfl | rfl <;> exact absurd h1 (by decide)
  · subst h1; simp at hc

theorem stepName_not_mem {a : Str} (h : stepName a = true) {c : Char}
    (hc : c ∈ ['/', '[', ']', '=', '@', '$', '\'', '"']) : c ∉ a := by
  simp only [stepName, Bool.or_eq_true, beq_iff_eq] at h
  rcases h with rfl | h
  · simp; rintro rfl; revert hc; decide
  · exact qName_not_mem h hc

theorem stepName_ne_nil {a : Str} (h : stepName a = true) : a ≠ [] := by
  simp only [stepName, Bool.or_eq_true, beq_iff_eq] at h
  rcases h with rfl | h
  · simp
  · exact (qName_chars h).1

/-- Tests that can be read back. -/
def TestOk : ATest → Prop
  | .has a => qName a = true
  | .eq a q v => qName a = true ∧ Quote q ∧ q ∉ v

/-- Steps that can be read back. -/
def StepOk (s : Step) : Prop := stepName s.name = true ∧ ∀ t ∈ s.tests, TestOk t

theorem parseTest_text {t : ATest} (h : TestOk t) (r : Str) :
    ∃ s, testText t ++ r = '[' :: '@' :: s ∧ parseTest s = some (t, r) := by
  cases t with
  | has a =>
    refine ⟨a ++ ']' :: r, by simp [testText], ?_⟩
    have hp : ∀ c ∈ a, (c != ']' && c != '=') = true := by
      intro c hc
      simp only [Bool.and_eq_true, bne_iff_ne, ne_eq]
      exact ⟨fun e => qName_not_mem h (c := ']') (by simp) (e ▸ hc), fun e => qName_not_mem h (c := '=') (by simp) (e ▸ hc)⟩
    unfold parseTest
    rw [takeWhile_append_stop r hp (by decide), dropWhile_append_stop r hp (by decide)]
    simp only
    rw [if_pos (show qName a = true from h)]
  | eq a q v =>
    obtain ⟨h, hq, hv⟩ := h
    refine ⟨a ++ '=' :: (q :: (v ++ q :: (']' :: r))), by simp [testText], ?_⟩
    have hp : ∀ c ∈ a, (c != ']' && c != '=') = true := by
      intro c hc
      simp only [Bool.and_eq_true, bne_iff_ne, ne_eq]
      exact ⟨fun e => qName_not_mem h (c := ']') (by simp) (e ▸ hc), fun e => qName_not_mem h (c := '=') (by simp) (e ▸ hc)⟩
    have hv' : ∀ c ∈ v, (c != q) = true := by
      intro c hc
      simp only [bne_iff_ne, ne_eq]
      rintro rfl; exact hv hc
    unfold parseTest
    rw [takeWhile_append_stop _ hp (by decide), dropWhile_append_stop _ hp (by decide)]
    simp only
    rw [if_pos h, if_pos (show q = '\'' ∨ q = '"' from hq)]
    unfold parseValue
    rw [takeWhile_append_stop _ hv' (by simp), dropWhile_append_stop _ hv' (by simp)]
    rfl

theorem parseTests_text {ts : List ATest} (h : ∀ t ∈ ts, TestOk t) (fuel : Nat) (hf : ts.length ≤ fuel) (r : Str)
    (hr : r.head? ≠ some '[') : parseTests fuel (ts.flatMap testText ++ r) = some (ts, r) := by
  induction ts generalizing fuel with
  | nil =>
    simp only [List.flatMap_nil, List.nil_append]
    cases fuel with
    | zero => simp [parseTests]
    | succ fuel =>
      cases r with
      | nil => simp [parseTests]
      | cons c r =>
        simp at hr
        unfold parseTests
        split
        · rename_i e; simp at e; exact absurd e.1 hr
        · rfl
  | cons t ts ih =>
    cases fuel with
    | zero => simp at hf
    | succ fuel =>
      obtain ⟨s, hs, hp⟩ := parseTest_text (h t (by simp)) (ts.flatMap testText ++ r)
      rw [List.flatMap_cons, List.append_assoc, hs, parseTests, hp]
      simp only
      rw [ih (fun t ht => h t (List.mem_cons_of_mem _ ht)) fuel (by simpa using hf)]

theorem length_testsText (ts : List ATest) : ts.length ≤ (ts.flatMap testText).length := by
  induction ts with
  | nil => simp
  | cons t ts ih =>
    rw [List.flatMap_cons, List.length_append, List.length_cons]
    have : 1 ≤ (testText t).length := by cases t <;> simp [testText]
    omega

theorem stepsText_cons (s : Step) (p : List Step) :
    stepsText (s :: p) = (if s.desc then ['/', '/'] else ['/']) ++ (stepBody s ++ stepsText p) := by
  simp [stepsText, pathText]

theorem stepsText_append (p q : List Step) : stepsText (p ++ q) = stepsText p ++ stepsText q := by
  simp [stepsText, pathText]

theorem head_stepsText (p : List Step) (c : Char) (h : (stepsText p).head? = some c) : c = '/' := by
  cases p with
  | nil => simp [stepsText, pathText] at h
  | cons s p =>
    rw [stepsText_cons] at h
    split at h <;> simp at h <;> exact h.symm

theorem head_testsText (ts : List ATest) (r : Str) (hr : ∀ c, r.head? = some c → c = '/') (c : Char)
    (h : (ts.flatMap testText ++ r).head? = some c) : c = '/' ∨ c = '[' := by
  cases ts with
  | nil => exact Or.inl (hr c (by simpa using h))
  | cons t ts =>
    cases t <;> simp [testText] at h <;> exact Or.inr h.symm

theorem parseSteps_text {p : List Step} (h : ∀ s ∈ p, StepOk s) (fuel : Nat) (hf : p.length ≤ fuel) :
    parseSteps fuel (stepsText p) = some p := by
  induction p generalizing fuel with
  | nil =>
    simp only [stepsText, pathText, List.map_nil, List.flatMap_nil]
    cases fuel <;> rfl
  | cons s p ih =>
    cases fuel with
    | zero => simp at hf
    | succ fuel =>
      obtain ⟨hn, ht⟩ := h s (by simp)
      have hne := stepName_ne_nil hn
      rw [stepsText_cons]
      have ht0 : takeSlash (stepBody s ++ stepsText p) = (false, stepBody s ++ stepsText p) := by
        cases hs : s.name with
        | nil => exact absurd hs hne
        | cons c r =>
          have : c ≠ '/' := fun e => stepName_not_mem hn (c := '/') (by simp) (by rw [hs, e]; simp)
          simp only [stepBody, hs, List.cons_append, takeSlash]
          split
          · rename_i e; simp at e; exact absurd e.1 this
          · rfl
      have htk : ∃ r0, (if s.desc then ['/', '/'] else ['/']) ++ (stepBody s ++ stepsText p) = '/' :: r0 ∧
          takeSlash r0 = (s.desc, stepBody s ++ stepsText p) := by
        cases hd : s.desc with
        | false => exact ⟨_, rfl, ht0⟩
        | true => exact ⟨'/' :: (stepBody s ++ stepsText p), rfl, rfl⟩
      obtain ⟨r0, e, htk⟩ := htk
      rw [e, parseSteps]
      simp only [htk]
      have hp : ∀ c ∈ s.name, (c != '/' && c != '[') = true := by
        intro c hc
        simp only [Bool.and_eq_true, bne_iff_ne, ne_eq]
        exact ⟨fun e => stepName_not_mem hn (c := '/') (by simp) (e ▸ hc),
          fun e => stepName_not_mem hn (c := '[') (by simp) (e ▸ hc)⟩
      have hb : ∀ c, (s.tests.flatMap testText ++ stepsText p).head? = some c → (c != '/' && c != '[') = false := by
        intro c hc
        rcases head_testsText _ _ (head_stepsText p) c hc with rfl | rfl <;> decide
      have hlen := length_testsText s.tests
      rw [stepBody, List.append_assoc, takeWhile_append_of_all hp hb, dropWhile_append_of_all hp hb, if_pos hn,
        parseTests_text ht _ (by rw [List.length_append, List.length_append]; omega)]
      · simp only
        rw [ih (fun s hs => h s (List.mem_cons_of_mem _ hs)) fuel (by simpa using hf)]
      · intro hh
        have := head_stepsText p _ hh
        simp at this

/-! ### Filling -/

/-- Segments of a fixed test. -/
def testSegs : ATest → List Seg
  | .has a => [.txt ['['], .has a]
  | .eq a q v => [.txt ['['], .const a q v, .txt [']']]

/-- Slashes and name. -/
def nameText (desc : Bool) (name : Str) : Str := (if desc then ['/', '/'] else ['/']) ++ name

/-- Segments of a fixed step. -/
def stepSegs (s : Step) : List Seg := .txt (nameText s.desc s.name) :: s.tests.flatMap testSegs

/-- Segments of a level before its placeholder. -/
def levelHead (l : Level) : List Seg :=
  l.pre.flatMap stepSegs ++ .txt (nameText l.desc l.name) :: l.before.flatMap testSegs ++ [.txt ['[']]

/-- Segments of levels. -/
def levelsSegs : Nat → List Level → List Seg
  | _, [] => []
  | k, l :: ls => levelHead l ++ .test l.attr l.quote ('$' :: natStr k) :: (l.after.flatMap testSegs ++ levelsSegs (k + 1) ls)

theorem segsText_append (a b : List Seg) : segsText (a ++ b) = segsText a ++ segsText b := by simp [segsText]

theorem segsText_testSegs (ts : List ATest) : segsText (ts.flatMap testSegs) = ts.flatMap testText := by
  induction ts with
  | nil => rfl
  | cons t ts ih =>
    rw [List.flatMap_cons, segsText_append, ih, List.flatMap_cons]
    cases t <;> simp [testSegs, segsText, Seg.text, testText]

theorem segsText_stepSegs (p : List Step) : segsText (p.flatMap stepSegs) = stepsText p := by
  induction p with
  | nil => rfl
  | cons s p ih =>
    rw [List.flatMap_cons, segsText_append, ih, stepsText_cons, stepSegs]
    have : ∀ x l, segsText (.txt x :: l) = x ++ segsText l := by intro x l; simp [segsText, Seg.text]
    rw [this, segsText_testSegs]
    simp [nameText, stepBody]

theorem stepsText_steps (l : Level) (t : ATest) : stepsText (l.steps t) =
    stepsText l.pre ++ nameText l.desc l.name ++ l.before.flatMap testText ++ testText t ++ l.after.flatMap testText := by
  rw [Level.steps, stepsText_append, stepsText_cons]
  simp [stepBody, nameText, stepsText, pathText]

theorem segsText_levelHead (l : Level) : segsText (levelHead l) =
    stepsText l.pre ++ nameText l.desc l.name ++ l.before.flatMap testText ++ ['['] := by
  have : ∀ x l, segsText (.txt x :: l) = x ++ segsText l := by intro x l; simp [segsText, Seg.text]
  rw [levelHead, List.append_assoc, segsText_append, segsText_stepSegs, List.cons_append, this, segsText_append,
    segsText_testSegs]
  simp [segsText, Seg.text]

theorem segsText_levelsSegs (k : Nat) (ls : List Level) : segsText (levelsSegs k ls) = levelsText k ls := by
  induction ls generalizing k with
  | nil => rfl
  | cons l ls ih =>
    have : ∀ a q b l, segsText (.test a q b :: l) = '@' :: a ++ '=' :: q :: b ++ [q, ']'] ++ segsText l := by
      intro a q b l; simp [segsText, Seg.text]
    rw [levelsSegs, levelsText, segsText_append, this, segsText_append, ih, segsText_testSegs, segsText_levelHead,
      stepsText_steps]
    simp [testText]

theorem testSegs_ok {t : ATest} (h : TestWF t) : ∀ s ∈ testSegs t, s.WF ∧ s.Numbered ∧ s.isTest = false := by
  cases t with
  | has a =>
    obtain ⟨h1, h2, h3⟩ := h
    intro s hs
    simp [testSegs] at hs
    rcases hs with rfl | rfl
    · exact ⟨by simp [Seg.WF], by simp [Seg.Numbered], rfl⟩
    · exact ⟨h1, ⟨h1, h2⟩, rfl⟩
  | eq a q v =>
    obtain ⟨⟨h1, h2, h3⟩, hq, h4, h5, h6, h7, c, r, hv, h8, h9⟩ := h
    intro s hs
    simp [testSegs] at hs
    rcases hs with rfl | rfl | rfl
    · exact ⟨by simp [Seg.WF], by simp [Seg.Numbered], rfl⟩
    · refine ⟨⟨h1, hq, h4, c, r, hv, h8, h9⟩, ⟨h1, h2, hq, h4, h5, c, r, hv, ?_⟩, rfl⟩
      rintro rfl; simp at h8
    · exact ⟨by simp [Seg.WF], by simp [Seg.Numbered], rfl⟩

theorem testsSegs_ok {ts : List ATest} (h : ∀ t ∈ ts, TestWF t) :
    ∀ s ∈ ts.flatMap testSegs, s.WF ∧ s.Numbered ∧ s.isTest = false := by
  intro s hs
  rw [List.mem_flatMap] at hs
  obtain ⟨t, ht, hs⟩ := hs
  exact testSegs_ok (h t ht) s hs

theorem nameSeg_ok {d : Bool} {n : Str} (h : stepName n = true) :
    (Seg.txt (nameText d n)).WF ∧ (Seg.txt (nameText d n)).Numbered ∧ (Seg.txt (nameText d n)).isTest = false := by
  have h1 := stepName_not_mem h (c := '@') (by simp)
  have h2 := stepName_not_mem h (c := '$') (by simp)
  cases d <;> simp [Seg.WF, Seg.Numbered, Seg.isTest, nameText, h1, h2]

theorem levelHead_ok {l : Level} (h : l.WF) : ∀ s ∈ levelHead l, s.WF ∧ s.Numbered ∧ s.isTest = false := by
  intro s hs
  simp only [levelHead, List.mem_append, List.mem_cons, List.mem_flatMap, List.not_mem_nil, or_false] at hs
  rcases hs with ((⟨st, hst, hs⟩ | rfl | hs)) | rfl
  · obtain ⟨hn, ht⟩ := h.pre st hst
    simp only [stepSegs, List.mem_cons] at hs
    rcases hs with rfl | hs
    · exact nameSeg_ok hn
    · exact testsSegs_ok ht s hs
  · exact nameSeg_ok h.name
  · exact testsSegs_ok h.before s (List.mem_flatMap.2 hs)
  · exact ⟨by simp [Seg.WF], by simp [Seg.Numbered], rfl⟩

theorem levelsSegs_ok (k : Nat) {ls : List Level} (h : ∀ l ∈ ls, l.WF) (hk : k + ls.length ≤ 1000) :
    ∀ s ∈ levelsSegs k ls, s.WF ∧ s.Numbered := by
  induction ls generalizing k with
  | nil => simp [levelsSegs]
  | cons l ls ih =>
    intro s hs
    have hl := h l (by simp)
    simp only [levelsSegs, List.mem_append, List.mem_cons] at hs
    simp at hk
    rcases hs with hs | rfl | hs | hs
    · have := levelHead_ok hl s hs; exact ⟨this.1, this.2.1⟩
    · exact ⟨⟨hl.attr.1, hl.quote, Or.inr ⟨k, by omega, rfl⟩⟩, hl.attr.1, hl.attr.2.1, hl.quote, k, rfl⟩
    · have := testsSegs_ok hl.after s hs; exact ⟨this.1, this.2.1⟩
    · exact ih (k + 1) (fun l hl => h l (List.mem_cons_of_mem _ hl)) (by omega) s hs

theorem filledText_const {a : List Seg} (h : ∀ s ∈ a, s.isTest = false) (b : List Seg) (vs : List (Option Str)) :
    filledText (a ++ b) vs = (filledText b vs).map (segsText a ++ ·) := by
  induction a with
  | nil => simp [segsText]
  | cons s a ih =>
    have hs := h s (by simp)
    have ih := ih (fun s hs => h s (List.mem_cons_of_mem _ hs))
    have e : segsText (s :: a) = s.text ++ segsText a := by simp [segsText]
    cases s with
    | test => simp [Seg.isTest] at hs
    | txt x =>
      rw [List.cons_append, filledText, ih, e]
      · cases filledText b vs <;> simp
      all_goals (intros; simp_all)
    | const x y z =>
      rw [List.cons_append, filledText, ih, e]
      · cases filledText b vs <;> simp
      all_goals (intros; simp_all)
    | has x =>
      rw [List.cons_append, filledText, ih, e]
      · cases filledText b vs <;> simp
      all_goals (intros; simp_all)

/-- The path of levels with some identifiers. -/
def fillSteps : List Level → List (Option Str) → List Step
  | l :: ls, some v :: vs => l.withId v ++ fillSteps ls vs
  | l :: ls, none :: vs => l.anyId ++ fillSteps ls vs
  | _, _ => []

theorem filledText_levels (k : Nat) {ls : List Level} (h : ∀ l ∈ ls, l.WF) (vs : List (Option Str))
    (hl : vs.length = ls.length) : filledText (levelsSegs k ls) vs = some (stepsText (fillSteps ls vs)) := by
  induction ls generalizing k vs with
  | nil => simp [levelsSegs, filledText, fillSteps, stepsText, pathText]
  | cons l ls ih =>
    cases vs with
    | nil => simp at hl
    | cons v vs =>
      have hw := h l (by simp)
      rw [levelsSegs, filledText_const (fun s hs => (levelHead_ok hw s hs).2.2), filledText,
        filledText_const (fun s hs => (testsSegs_ok hw.after s hs).2.2),
        ih (k + 1) (fun l hl => h l (List.mem_cons_of_mem _ hl)) vs (by simpa using hl),
        segsText_levelHead, segsText_testSegs]
      cases v <;>
        simp [fillSteps, stepsText_append, Level.withId, Level.anyId, stepsText_steps, testText, valueTest]

theorem fill_decl {ls : List Level} {rootName : Str} (hr : qName rootName = true) (h : ∀ l ∈ ls, l.WF)
    (hk : ls.length < 1000) (vs : List (Option Str)) (hl : vs.length = ls.length) :
    fill (declText rootName ls) (.list vs) = .ok (stepsText (⟨false, rootName, []⟩ :: fillSteps ls vs)) := by
  have e : declText rootName ls = segsText ([.txt ('/' :: rootName)] ++ levelsSegs 1 ls) := by
    rw [segsText_append, segsText_levelsSegs]
    simp [segsText, Seg.text, declText]
  have h1 := qName_not_mem hr (c := '@') (by simp)
  rw [e, Props.C22_fill_list, filledText_const (by simp [Seg.isTest]), filledText_levels 1 h vs hl]
  · simp [segsText, Seg.text, stepsText_cons, stepBody]
  · intro s hs
    rw [List.mem_append, List.mem_singleton] at hs
    rcases hs with rfl | hs
    · simp [Seg.WF, h1]
    · exact (levelsSegs_ok 1 h (by omega) s hs).1

theorem levelsSegs_append (k : Nat) (ls : List Level) (l : Level) :
    levelsSegs k (ls ++ [l]) = levelsSegs k ls ++ (levelHead l ++ .test l.attr l.quote ('$' :: natStr (k + ls.length)) ::
      l.after.flatMap testSegs) := by
  induction ls generalizing k with
  | nil => simp [levelsSegs]
  | cons x ls ih =>
    rw [List.cons_append, levelsSegs, ih, levelsSegs]
    simp [Nat.add_assoc, Nat.add_comm 1]

theorem tests_levelsSegs (k : Nat) {ls : List Level} (h : ∀ l ∈ ls, l.WF) :
    ((levelsSegs k ls).filter Seg.isTest).length = ls.length := by
  induction ls generalizing k with
  | nil => rfl
  | cons l ls ih =>
    have hw := h l (by simp)
    have h1 : (levelHead l).filter Seg.isTest = [] := by
      rw [List.filter_eq_nil_iff]; intro s hs; simp [(levelHead_ok hw s hs).2.2]
    have h2 : (l.after.flatMap testSegs).filter Seg.isTest = [] := by
      rw [List.filter_eq_nil_iff]; intro s hs; simp [(testsSegs_ok hw.after s hs).2.2]
    rw [levelsSegs, List.filter_append, h1, List.filter_cons, List.filter_append, h2]
    simp [Seg.isTest, ih (k + 1) fun l hl => h l (List.mem_cons_of_mem _ hl)]

theorem attribute_decl {ls : List Level} {l : Level} {rootName : Str} (hr : qName rootName = true)
    (h : ∀ x ∈ ls ++ [l], x.WF) (hk : (ls ++ [l]).length < 1000) :
    citationAttribute (declText rootName (ls ++ [l])) = .ok l.attr := by
  have h1 := qName_not_mem hr (c := '@') (by simp)
  have h2 := qName_not_mem hr (c := '$') (by simp)
  have hls : ∀ x ∈ ls, x.WF := fun x hx => h x (by simp [hx])
  have hl : l.WF := h l (by simp)
  have h3 : (levelHead l).filter Seg.isTest = [] := by
    rw [List.filter_eq_nil_iff]; intro s hs; simp [(levelHead_ok hl s hs).2.2]
  have hc : ((.txt ('/' :: rootName) :: levelsSegs 1 ls ++ levelHead l).filter Seg.isTest).length = ls.length := by
    rw [List.filter_append, h3, List.filter_cons]
    simp [Seg.isTest, tests_levelsSegs 1 hls]
  have hseg : (.txt ('/' :: rootName) :: levelsSegs 1 (ls ++ [l])) = (.txt ('/' :: rootName) :: levelsSegs 1 ls ++ levelHead l) ++
      .test l.attr l.quote ('$' :: natStr (((.txt ('/' :: rootName) :: levelsSegs 1 ls ++ levelHead l).filter
        Seg.isTest).length + 1)) :: l.after.flatMap testSegs := by
    rw [hc, levelsSegs_append]
    simp [Nat.add_comm]
  have e : declText rootName (ls ++ [l]) = segsText (.txt ('/' :: rootName) :: levelsSegs 1 (ls ++ [l])) := by
    rw [declText, ← segsText_levelsSegs]
    simp [segsText, Seg.text]
  rw [e, hseg]
  apply Props.C63_attribute_of_last_test
  · rw [← hseg]
    intro s hs
    rw [List.mem_cons] at hs
    rcases hs with rfl | hs
    · simp [Seg.Numbered, h1, h2]
    · exact (levelsSegs_ok 1 h (by omega) s hs).2
  · intro s hs; exact (testsSegs_ok hl.after s hs).2.2

end Verif.Model
