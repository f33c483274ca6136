import Verif.Lemmas.RefsDecl
/-!
Properties C20-C22 and C63: refsDecl strings, scope, xpath, filling.
-/
namespace Verif.Props
open Verif.Py Verif.Model Verif.Spec

/-! ## C20 -/

/-- C20. Setting scope and xpath stores their concatenation with the `?` numbered from left to right,
starting at 1; nothing else changes. -/
theorem C20_placeholders_numbered (scope xpath : Str) :
    fromScopeXpath scope xpath = numbered 1 (scope ++ xpath) := fromScopeXpath_eq scope xpath

/-- C20, the same piece by piece: texts without `?` between placeholders are kept, the i-th placeholder
becomes `$i`. -/
theorem C20_pieces (scope xpath p : Str) (ps : List Str) (h : scope ++ xpath = p ++ (ps.flatMap ('?' :: ·)))
    (hp : '?' ∉ p) (hps : ∀ q ∈ ps, '?' ∉ q) :
    fromScopeXpath scope xpath =
      p ++ (ps.zipIdx 1).flatMap (fun q => '$' :: natStr q.2 ++ q.1) := by
  rw [fromScopeXpath_eq, h, numbered_append hp]
  congr 1
  generalize 1 = k
  clear h
  induction ps generalizing k with
  | nil => simp [numbered]
  | cons q r ih =>
    have hq := hps q (by simp)
    simp only [List.flatMap_cons, List.zipIdx_cons, List.cons_append, numbered, if_true]
    rw [numbered_append hq, ih (fun x hx => hps x (by simp [hx]))]
    simp

/-- C20. A stored refsDecl holds no `?`. -/
theorem C20_no_placeholder_left (scope xpath : Str) : '?' ∉ fromScopeXpath scope xpath := by
  rw [fromScopeXpath_eq]
  generalize scope ++ xpath = s
  generalize 1 = k
  induction s generalizing k with
  | nil => simp [numbered]
  | cons c r ih =>
    by_cases hc : c = '?'
    · simp [numbered, hc, ih, not_mem_natStr k (show isDigit '?' = false by decide)]
    · simp [numbered, hc, ih, Ne.symm hc]

example : fromScopeXpath "/TEI/div[@n=\"?\"]".toList "//l[@n=\"?\"]".toList =
    "/TEI/div[@n=\"$1\"]//l[@n=\"$2\"]".toList := by decide +kernel

/-! ## C21 -/

/-- C21. From the refsDecl of a path, scope is the path without its last step and xpath the last step,
both with `?` for placeholders. -/
theorem C21_read (p : List PStep) (x : PStep) (hp : ∀ s ∈ p, s.WF) (hx : x.WF) :
    parseXpathScope (refsDeclText (p ++ [x])) = .ok (shownText p, shownText [x]) :=
  parseXpathScope_refsDecl hp hx

/-- C21. Setting scope (any path) and xpath (one step) and reading them gives the same two strings. -/
theorem C21_scope_xpath_round_trip (p : List PStep) (x : PStep) (hp : ∀ s ∈ p, s.WF) (hx : x.WF) :
    parseXpathScope (fromScopeXpath (shownText p) (shownText [x])) = .ok (shownText p, shownText [x]) := by
  have hall : ∀ s ∈ p ++ [x], s.WF := by
    intro s hs; simp at hs; rcases hs with hs | rfl
    · exact hp s hs
    · exact hx
  rw [fromScopeXpath_eq, ← shownText_append, numbered_shownText hall]
  obtain ⟨j, hj⟩ := renumberSteps_append 1 p [x]
  have h1 : ∀ s ∈ renumberSteps 1 p, s.WF := renumberSteps_wf hp
  have h2 : ∀ s ∈ renumberSteps j [x], s.WF := renumberSteps_wf (by simpa using hx)
  rw [hj]
  simp only [renumberSteps] at h2 ⊢
  rw [C21_read _ _ h1 (h2 _ (by simp))]
  have e1 := shown_renumberSteps 1 p
  have e2 := shown_renumberSteps j [x]
  simp only [renumberSteps] at e2
  rw [e1, e2]

/-- C21. The refsDecl read back and written again: scope and xpath of a refsDecl whose placeholders
are numbered from left to right rebuild it. -/
theorem C21_write_back (p : List PStep) (x : PStep) (hp : ∀ s ∈ p, s.WF) (hx : x.WF) (scope xpath : Str)
    (h : parseXpathScope (refsDeclText (p ++ [x])) = .ok (scope, xpath))
    (hn : refsDeclText (p ++ [x]) = numbered 1 (shownText (p ++ [x]))) :
    fromScopeXpath scope xpath = refsDeclText (p ++ [x]) := by
  rw [C21_read p x hp hx] at h
  simp at h
  rw [← h.1, ← h.2, fromScopeXpath_eq, ← shownText_append, hn]

/-- C21 fails outside the supported characters: a step that holds `-` (or `_`, `?` in a function, `,`,
`!`, `}`) is cut there, so the scope read back is not the scope that was set. -/
theorem C21_fails_with_dash :
    parseXpathScope (fromScopeXpath "/TEI/div[@type='text-part']".toList "/l[@n='?']".toList) =
      .ok ("/TEI/div[@type='text".toList, "/l[@n='?']".toList) := by decide +kernel

/-- C21 fails when the xpath has several steps: they are moved to the scope. -/
theorem C21_fails_with_long_xpath :
    parseXpathScope (fromScopeXpath "/TEI".toList "/div/l[@n='?']".toList) =
      .ok ("/TEI/div".toList, "/l[@n='?']".toList) := by decide +kernel

/-- C21. The characters that a step of a refsDecl can have: letters and digits of ASCII, white space as Python's `\s` understands it
(Unicode's and the four separators of ASCII), and the signs of XPath. -/
theorem C21_step_characters (c : Char) : splitterClass c = true ↔
    (('a' ≤ c ∧ c ≤ 'z') ∨ ('A' ≤ c ∧ c ≤ 'Z') ∨ ('0' ≤ c ∧ c ≤ '9') ∨ c ∈ "*()|:[]@=\\{$'\".".toList) ∨
    c ∈ ['\t', '\n', '\x0b', '\x0c', '\r', '\x1c', '\x1d', '\x1e', '\x1f', ' ', '\u0085', '\u00a0', '\u1680', '\u2000', '\u2001', '\u2002',
      '\u2003', '\u2004', '\u2005', '\u2006', '\u2007', '\u2008', '\u2009', '\u200a', '\u2028', '\u2029', '\u202f', '\u205f', '\u3000'] := by
  have h0 : '0' ≤ c ↔ 48 ≤ c.toNat := Iff.rfl
  have h9 : c ≤ '9' ↔ c.toNat ≤ 57 := Iff.rfl
  have hc : ∀ d : Char, c = d ↔ c.toNat = d.toNat := fun d => ⟨fun e => e ▸ rfl, fun e => Char.toNat_inj.1 e⟩
  have hsp : isSpace c = true ↔ c ∈ ['\t', '\n', '\x0b', '\x0c', '\r', '\x1c', '\x1d', '\x1e', '\x1f', ' ', '\u0085', '\u00a0', '\u1680', '\u2000',
      '\u2001', '\u2002', '\u2003', '\u2004', '\u2005', '\u2006', '\u2007', '\u2008', '\u2009', '\u200a', '\u2028', '\u2029', '\u202f', '\u205f',
      '\u3000'] := by
    simp only [List.mem_cons, List.not_mem_nil, or_false, hc, isSpace, Bool.or_eq_true, Bool.and_eq_true, decide_eq_true_eq, beq_iff_eq]
    simp only [Char.reduceToNat]
    omega
  rw [← hsp]
  simp only [splitterClass, isAsciiLetter, isDigit, Bool.or_eq_true, Bool.and_eq_true, decide_eq_true_eq, List.contains_iff_mem, h0, h9]
  grind

/-- A refsDecl without any step (for instance the empty one) cannot be read. -/
theorem C21_no_step (s : Str) (h : '/' ∉ s) : parseXpathScope s = .error .indexError := by
  have : splitterFindall s = [] := by
    induction s with
    | nil => rw [splitterFindall]
    | cons c r ih =>
      simp at h
      rw [splitterFindall, if_neg (Ne.symm h.1)]
      exact ih h.2
  simp [parseXpathScope, this]

def exampleStep : PStep :=
  ⟨true, "tei:l[@n='".toList.map Tok.chr ++ [.hole 1] ++ "']".toList.map Tok.chr⟩

theorem exampleStep_wf : exampleStep.WF := by
  refine ⟨by decide, ?_, ?_⟩
  · intro c hc
    simp [exampleStep] at hc
    rcases hc with rfl | rfl | rfl | rfl | rfl | rfl | rfl | rfl | rfl | rfl | rfl <;> decide
  · simp [exampleStep, NoDigitAfterHole]

example : exampleStep.WF ∧ shownText [exampleStep, exampleStep] = "//tei:l[@n='?']//tei:l[@n='?']".toList ∧
    fromScopeXpath (shownText [exampleStep]) (shownText [exampleStep]) =
      "//tei:l[@n='$1']//tei:l[@n='$2']".toList := ⟨exampleStep_wf, by decide +kernel, by decide +kernel⟩

/-! ## C22 -/

/-- C22. `fill` with a list of values: the placeholder tests are replaced, in the order of the text, by
tests on the values; a test whose value is `None` keeps only the attribute; everything else is
unchanged; values beyond the last test are ignored; `StopIteration` when values are missing. -/
theorem C22_fill_list (l : List Seg) (h : ∀ s ∈ l, s.WF) (vals : List (Option Str)) :
    fill (segsText l) (.list vals) =
      match filledText l vals with
      | some t => .ok t
      | none => .error .stopIteration := fillList_segs h vals

/-- C22. Filling raises exactly when there are fewer values than tests. -/
theorem C22_raises_iff (l : List Seg) (h : ∀ s ∈ l, s.WF) (vals : List (Option Str)) :
    fill (segsText l) (.list vals) = .error .stopIteration ↔ vals.length < testCount l := by
  rw [C22_fill_list l h]
  have key : ∀ (l : List Seg) (vals : List (Option Str)), filledText l vals = none ↔ vals.length < testCount l := by
    intro l
    induction l with
    | nil => intro vals; simp [filledText, testCount]
    | cons s r ih =>
      intro vals
      cases s with
      | txt t => simpa [filledText, testCount] using ih vals
      | const a q v => simpa [filledText, testCount] using ih vals
      | has a => simpa [filledText, testCount] using ih vals
      | test a q b =>
        cases vals with
        | nil => simp [filledText, testCount]
        | cons v vs => simpa [filledText, testCount] using ih vs
  rw [← key]
  cases filledText l vals <;> simp

/-- C22. Filling with a reference is filling with its components. -/
theorem C22_fill_reference (refsDecl : Str) (cs : List Str) :
    fill refsDecl (.ref cs) = fill refsDecl (.list (cs.map some)) := rfl

/-- C22. `fill(None)` never fails and is the same as filling with `None` for every test. -/
theorem C22_fill_none (l : List Seg) (h : ∀ s ∈ l, s.WF) :
    ∃ t, fill (segsText l) .none = .ok t ∧ ∀ n, (segsText l).length ≤ n →
      filledText l (List.replicate n none) = some t := by
  refine ⟨fillNone (segsText l), rfl, ?_⟩
  intro n hn
  have h1 := fillNone_eq n hn
  have h2 := C22_fill_list l h (List.replicate n none)
  simp only [fill] at h2
  rw [h1] at h2
  cases hf : filledText l (List.replicate n none) <;> simp [hf] at h2
  rw [h2]

/-- C22. `fill(passage, xpath=True)`: the last step, its placeholder tests replaced by tests on the
passage (each of them on the same one). -/
theorem C22_fill_xpath (p : List PStep) (x : PStep) (hp : ∀ s ∈ p, s.WF) (hx : x.WF) (l : List Seg)
    (hl : ∀ s ∈ l, s.WF) (hxl : shownText [x] = segsText l) (v : Option Str) :
    ∃ t, fillXpath (refsDeclText (p ++ [x])) v = .ok t ∧ ∀ n, (segsText l).length ≤ n →
      filledText l (List.replicate n v) = some t := by
  unfold fillXpath
  rw [C21_read p x hp hx, hxl]
  cases v with
  | none =>
    refine ⟨fillNone (segsText l), rfl, ?_⟩
    intro n hn
    have h1 := fillNone_eq n hn
    have h2 := C22_fill_list l hl (List.replicate n none)
    simp only [fill] at h2
    rw [h1] at h2
    cases hf : filledText l (List.replicate n none) <;> simp [hf] at h2
    rw [h2]
  | some v =>
    refine ⟨fillConst (segsText l) v, rfl, ?_⟩
    intro n hn
    have h1 := fillConst_eq v n hn
    have h2 := C22_fill_list l hl (List.replicate n (some v))
    simp only [fill] at h2
    rw [h1] at h2
    cases hf : filledText l (List.replicate n (some v)) <;> simp [hf] at h2
    rw [h2]

/-- The numbers of the placeholders play no role: tests are filled in the order of the text. -/
theorem C22_numbers_ignored :
    fill "/a[@n='$2']/b[@n='$1']".toList (.list [some "x".toList, some "y".toList]) =
      .ok "/a[@n='x']/b[@n='y']".toList := by decide +kernel

/-- C22 fails when a fixed test has a numeric value: it is taken for a placeholder and consumes a value. -/
theorem C22_numeric_constant_consumed :
    fill "/div[@part='1']/l[@n='$1']".toList (.list [some "7".toList]) = .error .stopIteration ∧
    fill "/div[@part='1']/l[@n='$1']".toList (.list [some "7".toList, some "8".toList]) =
      .ok "/div[@part='7']/l[@n='8']".toList := by decide +kernel

/-- The docstring example of `fill`, with its decomposition into segments. -/
def exampleSegs : List Seg :=
  [.txt "/TEI/text[".toList, .const "type".toList '\'' "edition".toList, .txt "]/div[".toList,
   .test "n".toList '"' "$1".toList, .txt "//l[".toList, .has "xml:id".toList, .txt "[".toList,
   .test "n".toList '"' "$2".toList]

example : (∀ s ∈ exampleSegs, s.WF) ∧
    segsText exampleSegs = "/TEI/text[@type='edition']/div[@n=\"$1\"]//l[@xml:id][@n=\"$2\"]".toList ∧
    filledText exampleSegs [some "1".toList, none] =
      some "/TEI/text[@type='edition']/div[@n='1']//l[@xml:id][@n]".toList := by
  refine ⟨?_, rfl, rfl⟩
  intro s hs
  simp [exampleSegs] at hs
  rcases hs with rfl | rfl | rfl | rfl | rfl | rfl | rfl | rfl
  · simp [Seg.WF]
  · exact ⟨by decide, by decide, by decide, 'e', _, rfl, by decide, by decide⟩
  · simp [Seg.WF]
  · exact ⟨by decide, by decide, Or.inr ⟨1, by decide, by decide +kernel⟩⟩
  · simp [Seg.WF]
  · simp only [Seg.WF]; decide
  · simp [Seg.WF]
  · exact ⟨by decide, by decide, Or.inr ⟨2, by decide, by decide +kernel⟩⟩

/-! ## C63 -/

/-- C63. The attribute of a citation is the one tested by its last placeholder. -/
theorem C63_attribute_of_last_test (l r : List Seg) (a : Str) (q : Char)
    (h : ∀ s ∈ l ++ .test a q ('$' :: natStr ((l.filter Seg.isTest).length + 1)) :: r, s.Numbered)
    (hr : ∀ s ∈ r, s.isTest = false) :
    citationAttribute
      (segsText (l ++ .test a q ('$' :: natStr ((l.filter Seg.isTest).length + 1)) :: r)) = .ok a := by
  have hc : (segsText (l ++ .test a q ('$' :: natStr ((l.filter Seg.isTest).length + 1)) :: r)).count '$' =
      (l.filter Seg.isTest).length + 1 := by
    rw [count_dollar_segs h]
    have : r.filter Seg.isTest = [] := by simpa using hr
    simp [List.filter_append, List.filter_cons, Seg.isTest, this]
  unfold citationAttribute
  rw [hc, attrFindall_segs h]
  rw [List.filterMap_append, List.filterMap_cons]
  simp only [if_true]
  generalize hr' : List.filterMap _ r = fr
  have : fr = [] := by
    rw [← hr', List.filterMap_eq_nil_iff]
    intro s hs
    have := hr s hs
    cases s <;> simp_all [Seg.isTest]
  simp [this]

/-- Without placeholder there is no attribute: `IndexError`. -/
theorem C63_no_test (l : List Seg) (h : ∀ s ∈ l, s.Numbered) (hl : ∀ s ∈ l, s.isTest = false) :
    citationAttribute (segsText l) = .error .indexError := by
  unfold citationAttribute
  rw [attrFindall_segs h]
  generalize hr' : List.filterMap _ l = fr
  have : fr = [] := by
    rw [← hr', List.filterMap_eq_nil_iff]
    intro s hs
    have := hl s hs
    cases s <;> simp_all [Seg.isTest]
  rw [this]; rfl

/-- C63 fails for attribute names with a digit, which the pattern does not accept. -/
theorem C63_fails_with_digit_in_name :
    citationAttribute "/l[@n1='$1']".toList = .error .indexError := by decide +kernel

example : citationAttribute "/div[@n='$1']//l[@xml:id=\"$2\"]".toList = .ok "xml:id".toList := by decide +kernel

/-- The docstring refsDecl meets the hypotheses: its last test is on `n`, numbered 2. -/
example : (∀ s ∈ exampleSegs, s.Numbered) ∧
    exampleSegs = exampleSegs.take 7 ++ [.test ['n'] '"'
      ('$' :: natStr (((exampleSegs.take 7).filter Seg.isTest).length + 1))] := by
  refine ⟨?_, by decide +kernel⟩
  intro s hs
  simp [exampleSegs] at hs
  rcases hs with rfl | rfl | rfl | rfl | rfl | rfl | rfl | rfl
  · simp [Seg.Numbered]
  · exact ⟨by decide, by decide, by decide, by decide, by decide, 'e', _, rfl, by decide⟩
  · simp [Seg.Numbered]
  · exact ⟨by decide, by decide, by decide, 1, by decide +kernel⟩
  · simp [Seg.Numbered]
  · exact ⟨by decide, by decide⟩
  · simp [Seg.Numbered]
  · exact ⟨by decide, by decide, by decide, 2, by decide +kernel⟩

end Verif.Props
