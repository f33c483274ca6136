import Verif.Spec.CitationSetters
import Verif.Lemmas.RefsDecl
import Verif.Props.RefsDecl
/-!
C87: scope, xpath and refsDecl of a citation stay coherent over every history of assignments.

Spec: Verif/Spec/CitationSetters.lean; model: Verif/Model/CitationSetters.lean.
-/
namespace Verif.Props
open Verif.Py Verif.Model Verif.Spec

/-- A step as it is shown. -/
def shownStep (s : PStep) : Str := s.slashes ++ s.body.flatMap Tok.shown

/-- The citation holds this path, up to the numbers of its placeholders. -/
def HoldsPath (c : CiteText) : Option (List PStep) → Prop
  | none => c.refsDecl = none
  | some p => ∃ q, c.refsDecl = some (refsDeclText q) ∧ (∀ s ∈ q, s.WF) ∧ q.map shownStep = p.map shownStep

theorem shownText_steps (p : List PStep) : shownText p = (p.map shownStep).flatten := rfl

theorem given_refsDecl {q : List PStep} (hq : ∀ s ∈ q, s.WF) : given (some (refsDeclText q)) = true ↔ q ≠ [] := by
  cases q with
  | nil => simp [given, refsDeclText]
  | cons s r =>
    simp only [given, refsDeclText, List.map_cons, List.flatten_cons, ne_eq, reduceCtorEq, not_false_eq_true, iff_true]
    cases h : s.double <;> simp [PStep.slashes, h]

theorem read_path {q : List PStep} (hq : ∀ s ∈ q, s.WF) {x : PStep} (hx : q.getLast? = some x) :
    parseXpathScope (refsDeclText q) = .ok (shownText q.dropLast, shownText [x]) := by
  obtain ⟨p, rfl⟩ : ∃ p, q = p ++ [x] := by
    rw [List.getLast?_eq_some_iff] at hx
    exact hx
  rw [List.dropLast_concat]
  exact parseXpathScope_refsDecl (fun s hs => hq s (by simp [hs])) (hq x (by simp))

theorem number_path {p : List PStep} (hp : ∀ s ∈ p, s.WF) : ∃ q, numbered 1 (shownText p) = refsDeclText q ∧ (∀ s ∈ q, s.WF) ∧ q.map shownStep = p.map shownStep := by
  refine ⟨renumberSteps 1 p, numbered_shownText hp 1, renumberSteps_wf hp, ?_⟩
  generalize 1 = k
  clear hp
  induction p generalizing k with
  | nil => rfl
  | cons s r ih =>
    rw [renumberSteps, List.map_cons, List.map_cons, ih]
    congr 1
    simp only [shownStep, PStep.slashes]
    rw [renumber_shown]

/-- The written path: any steps that are shown as one text. -/
theorem write_path {p q : List PStep} {s x : Str} (hp : ∀ t ∈ p, t.WF) (hq : ∀ t ∈ q, t.WF) (hs : s = shownText p) (hx : x = shownText q) :
    ∃ r, fromScopeXpath s x = refsDeclText r ∧ (∀ t ∈ r, t.WF) ∧ r.map shownStep = (p ++ q).map shownStep := by
  rw [fromScopeXpath_eq, hs, hx, ← shownText_append]
  exact number_path fun t ht => (List.mem_append.1 ht).elim (hp t) (hq t)

theorem last_alike {p q : List PStep} (h : q.map shownStep = p.map shownStep) : (∀ x, q.getLast? = some x → ∃ y, p.getLast? = some y ∧ shownStep x = shownStep y) ∧
    (q.dropLast).map shownStep = (p.dropLast).map shownStep ∧ (q = [] ↔ p = []) := by
  refine ⟨fun x hx => ?_, ?_, ?_⟩
  · have h1 := congrArg List.getLast? h
    rw [List.getLast?_map, List.getLast?_map, hx] at h1
    cases hp : p.getLast? with
    | none => rw [hp] at h1; cases h1
    | some y =>
      rw [hp] at h1
      exact ⟨y, rfl, Option.some.inj h1⟩
  · rw [List.map_dropLast, List.map_dropLast, h]
  · rw [← List.map_eq_nil_iff (f := shownStep), h, List.map_eq_nil_iff]

theorem holds_assign {c : CiteText} {path : Option (List PStep)} (h : HoldsPath c path) (op : PathSet) (hw : op.WF) :
    HoldsPath (assign c op.text).1 (op.apply path) ∧ (assign c op.text).2 = none := by
  cases op with
  | scope v =>
    cases v with
    | none => exact ⟨by cases path <;> exact h, rfl⟩
    | some q' =>
      cases path with
      | none =>
        have e : given c.refsDecl = false := by rw [show c.refsDecl = none from h]; rfl
        simp only [PathSet.text, Option.map_some, assign, e]
        exact ⟨h, rfl⟩
      | some p =>
        obtain ⟨q, e, hq, hs⟩ := h
        obtain ⟨l1, l2, l3⟩ := last_alike hs
        by_cases hn : q = []
        · have e1 : given c.refsDecl = false := by rw [e, hn]; rfl
          simp only [PathSet.text, Option.map_some, assign, e1]
          have hp := l3.1 hn
          subst hp
          exact ⟨⟨q, e, hq, hs⟩, rfl⟩
        · have e1 : given (some (refsDeclText q)) = true := (given_refsDecl hq).2 hn
          cases hx : q.getLast? with
          | none => exact absurd (List.getLast?_eq_none_iff.1 hx) hn
          | some x =>
            obtain ⟨y, hy, hxy⟩ := l1 x hx
            have hxw : x.WF := hq x (List.mem_of_getLast? hx)
            obtain ⟨r, a, b, d⟩ := write_path (s := shownText q') (x := shownText [x]) (hw q' rfl) (q := [x]) (by simpa using hxw) rfl rfl
            simp only [PathSet.text, Option.map_some, assign, readXpathScope, e, e1, read_path hq hx, if_true, PathSet.apply, hy]
            refine ⟨⟨r, by rw [← a]; rfl, b, ?_⟩, trivial⟩
            rw [d, List.map_append, List.map_append]
            simp [hxy]
  | xpath v =>
    cases v with
    | none => exact ⟨by cases path <;> exact h, rfl⟩
    | some q' =>
      cases path with
      | none =>
        have e : given c.refsDecl = false := by rw [show c.refsDecl = none from h]; rfl
        simp only [PathSet.text, Option.map_some, assign, e]
        exact ⟨h, rfl⟩
      | some p =>
        obtain ⟨q, e, hq, hs⟩ := h
        obtain ⟨l1, l2, l3⟩ := last_alike hs
        by_cases hn : q = []
        · have e1 : given c.refsDecl = false := by rw [e, hn]; rfl
          simp only [PathSet.text, Option.map_some, assign, e1]
          have hp := l3.1 hn
          subst hp
          exact ⟨⟨q, e, hq, hs⟩, rfl⟩
        · have e1 : given (some (refsDeclText q)) = true := (given_refsDecl hq).2 hn
          cases hx : q.getLast? with
          | none => exact absurd (List.getLast?_eq_none_iff.1 hx) hn
          | some x =>
            have hpn : p ≠ [] := fun h => hn (l3.2 h)
            obtain ⟨r, a, b, d⟩ := write_path (s := shownText q.dropLast) (x := shownText q') (p := q.dropLast)
              (fun s hs => hq s (List.dropLast_subset _ hs)) (hw q' rfl) rfl rfl
            simp only [PathSet.text, Option.map_some, assign, readXpathScope, e, e1, read_path hq hx, if_true, PathSet.apply, hpn, if_false]
            refine ⟨⟨r, by rw [← a]; rfl, b, ?_⟩, trivial⟩
            rw [d, List.map_append, List.map_append, l2]
  | refsDecl v =>
    cases v with
    | none => exact ⟨by cases path <;> exact h, rfl⟩
    | some q => exact ⟨⟨q, rfl, hw q rfl, rfl⟩, rfl⟩

theorem reads_of_holds {c : CiteText} {path : Option (List PStep)} (h : HoldsPath c path) : ReadsAs c path := by
  cases path with
  | none =>
    have h : c.refsDecl = none := h
    exact ⟨h, by simp [citeScope, readXpathScope, h], by simp [citeXpath, readXpathScope, h]⟩
  | some p =>
    obtain ⟨q, e, hq, hs⟩ := h
    obtain ⟨l1, l2, l3⟩ := last_alike hs
    unfold ReadsAs
    cases hp : p.getLast? with
    | none =>
      have hn := l3.2 (List.getLast?_eq_none_iff.1 hp)
      subst hn
      have h1 := C21_no_step [] (by simp)
      have e : c.refsDecl = some [] := e
      simp only [hp]
      exact ⟨e, by simp [citeScope, readXpathScope, e, h1], by simp [citeXpath, readXpathScope, e, h1]⟩
    | some y =>
      cases hx : q.getLast? with
      | none =>
        have := l3.1 (List.getLast?_eq_none_iff.1 hx)
        rw [this] at hp
        cases hp
      | some x =>
        obtain ⟨y', hy', hxy⟩ := l1 x hx
        rw [hp] at hy'
        cases hy'
        have hr := read_path hq hx
        simp only [hp]
        refine ⟨?_, ?_, q, e, ?_⟩
        · simp only [citeScope, readXpathScope, e, hr]
          rw [shownText_steps, l2, ← shownText_steps]
        · simp only [citeXpath, readXpathScope, e, hr]
          rw [shownText_steps, shownText_steps]
          simp [hxy]
        · rw [shownText_steps, hs, ← shownText_steps]

theorem assignEach_holds {c : CiteText} {path : Option (List PStep)} (h : HoldsPath c path) (ops : List PathSet) (hw : ∀ op ∈ ops, op.WF) :
    HoldsPath (assignEach c (ops.map PathSet.text)).1 (ops.foldl PathSet.apply path) ∧ ∀ e ∈ (assignEach c (ops.map PathSet.text)).2, e = none := by
  induction ops generalizing c path with
  | nil => exact ⟨h, by simp [assignEach]⟩
  | cons op r ih =>
    obtain ⟨a, b⟩ := holds_assign h op (hw op (by simp))
    obtain ⟨a', b'⟩ := ih a fun o ho => hw o (by simp [ho])
    refine ⟨a', fun e he => ?_⟩
    simp only [List.map_cons, assignEach, List.mem_cons] at he
    rcases he with rfl | he
    · exact b
    · exact b' e he

/-! ### Histories -/

/-- C87. After any assignments of well-formed paths to a new citation, no assignment has raised, and scope, xpath and refsDecl are those
of the path that a record would hold. -/
theorem C87_history (ops : List PathSet) (hw : ∀ op ∈ ops, op.WF) :
    ReadsAs (assignEach (newCiteText none none none) (ops.map PathSet.text)).1 (ops.foldl PathSet.apply none) ∧
    ∀ e ∈ (assignEach (newCiteText none none none) (ops.map PathSet.text)).2, e = none := by
  obtain ⟨a, b⟩ := assignEach_holds (c := newCiteText none none none) (path := none) rfl ops hw
  exact ⟨reads_of_holds a, b⟩

/-- C87. The same for a citation that is made from a scope and an xpath. -/
theorem C87_from_scope_xpath (p q : List PStep) (hp : ∀ s ∈ p, s.WF) (hq : ∀ s ∈ q, s.WF) (hpn : p ≠ []) (hqn : q ≠ []) (refsDecl : Option Str) (ops : List PathSet) (hw : ∀ op ∈ ops, op.WF) :
    ReadsAs (assignEach (newCiteText (some (shownText q)) (some (shownText p)) refsDecl) (ops.map PathSet.text)).1 (ops.foldl PathSet.apply (some (p ++ q))) := by
  have hg : ∀ p : List PStep, p ≠ [] → given (some (shownText p)) = true := by
    intro p h
    cases p with
    | nil => exact absurd rfl h
    | cons s r =>
      simp only [given, shownText, List.map_cons, List.flatten_cons]
      cases h : s.double <;> simp [PStep.slashes, h]
  obtain ⟨r, a, b, c⟩ := write_path (s := shownText p) (x := shownText q) hp hq rfl rfl
  refine reads_of_holds (assignEach_holds ?_ ops hw).1
  refine ⟨r, ?_, b, c⟩
  simp [newCiteText, hg p hpn, hg q hqn, setRefsDecl, a]

/-- C87. The same for a citation that is made from a refsDecl. -/
theorem C87_from_refsDecl (p : List PStep) (hp : ∀ s ∈ p, s.WF) (ops : List PathSet) (hw : ∀ op ∈ ops, op.WF) :
    ReadsAs (assignEach (newCiteText none none (some (refsDeclText p))) (ops.map PathSet.text)).1 (ops.foldl PathSet.apply (some p)) :=
  reads_of_holds (assignEach_holds (show HoldsPath (newCiteText none none (some (refsDeclText p))) (some p) from ⟨p, rfl, hp, rfl⟩) ops hw).1

/-! ### Single assignments -/

/-- C87. Assigning any text as scope to a citation that can be read keeps the xpath text and numbers the placeholders of both from left to right. -/
theorem C87_scope (c : CiteText) (hc : given c.refsDecl = true) (s x : Str) (hx : citeXpath c = .ok x) :
    assign c (.scope (some s)) = (⟨some (numbered 1 (s ++ x))⟩, none) := by
  unfold citeXpath at hx
  cases h : readXpathScope c with
  | error e => rw [h] at hx; cases hx
  | ok y =>
    obtain ⟨a, b⟩ := y
    rw [h] at hx
    cases hx
    simp only [assign, hc, if_true, h]
    rw [fromScopeXpath_eq]
    rfl

/-- C87. Assigning any text as xpath keeps the scope text and numbers the placeholders of both from left to right. -/
theorem C87_xpath (c : CiteText) (hc : given c.refsDecl = true) (s x : Str) (hs : citeScope c = .ok s) :
    assign c (.xpath (some x)) = (⟨some (numbered 1 (s ++ x))⟩, none) := by
  unfold citeScope at hs
  cases h : readXpathScope c with
  | error e => rw [h] at hs; cases hs
  | ok y =>
    obtain ⟨a, b⟩ := y
    rw [h] at hs
    cases hs
    simp only [assign, hc, if_true, h]
    rw [fromScopeXpath_eq]
    rfl

/-- C87. Assigning a scope and an xpath of one step to a citation with any steps can be done in either order. -/
theorem C87_commute (p q : List PStep) (x : PStep) (hp : ∀ s ∈ p, s.WF) (hpn : p ≠ []) (hq : ∀ s ∈ q, s.WF) (hx : x.WF) :
    (assignEach ⟨some (refsDeclText p)⟩ [.scope (some (shownText q)), .xpath (some (shownText [x]))]).1 = ⟨some (numbered 1 (shownText q ++ shownText [x]))⟩ ∧
    (assignEach ⟨some (refsDeclText p)⟩ [.xpath (some (shownText [x])), .scope (some (shownText q))]).1 = ⟨some (numbered 1 (shownText q ++ shownText [x]))⟩ := by
  obtain ⟨y, hy⟩ : ∃ y, p.getLast? = some y := by
    cases h : p.getLast? with
    | none => exact absurd (List.getLast?_eq_none_iff.1 h) hpn
    | some y => exact ⟨y, rfl⟩
  have h0 : HoldsPath ⟨some (refsDeclText p)⟩ (some p) := ⟨p, rfl, hp, rfl⟩
  have key : ∀ {c : CiteText} {l : List PStep} {z : PStep}, HoldsPath c (some (l ++ [z])) → given c.refsDecl = true := by
    rintro c l z ⟨r, e, hr, hs⟩
    rw [e]
    refine (given_refsDecl hr).2 ?_
    rintro rfl
    simp at hs
  constructor
  · have h1 := (holds_assign h0 (.scope (some q)) (by rintro _ ⟨⟩; exact hq)).1
    simp only [PathSet.apply, Option.map_some, hy, PathSet.text] at h1
    have h2 := reads_of_holds h1
    simp only [ReadsAs, List.getLast?_concat, List.dropLast_concat] at h2
    simp only [assignEach]
    rw [C87_xpath _ (key h1) _ _ h2.1]
  · have h1 := (holds_assign h0 (.xpath (some [x])) (by rintro _ ⟨⟩; simpa using hx)).1
    simp only [PathSet.apply, Option.map_some, if_neg hpn, PathSet.text] at h1
    have h2 := reads_of_holds h1
    simp only [ReadsAs, List.getLast?_concat, List.dropLast_concat] at h2
    simp only [assignEach]
    rw [C87_scope _ (key h1) _ _ h2.2.1]

/-! ### An example -/

def exStep (double : Bool) (s : String) : PStep := ⟨double, s.toList.map fun c => if c = '?' then .hole 1 else .chr c⟩

theorem exStep_wf : ∀ s ∈ [exStep false "tei:body", exStep false "tei:div[@n='?']", exStep true "tei:l[@n='?']"], s.WF := by
  intro s hs
  have h : s.body ≠ [] ∧ (∀ c, Tok.chr c ∈ s.body → StepChar c) := by
    have h : ∀ s ∈ [exStep false "tei:body", exStep false "tei:div[@n='?']", exStep true "tei:l[@n='?']"], s.body ≠ [] ∧ ∀ t ∈ s.body, ∀ c ∈ (match t with | .chr c => [c] | _ => []), StepChar c := by
      decide +kernel
    exact ⟨(h s hs).1, fun c hc => (h s hs).2 _ hc c (by simp)⟩
  refine ⟨h.1, h.2, ?_⟩
  simp only [List.mem_cons, List.not_mem_nil, or_false] at hs
  have e1 : (exStep false "tei:body").body = "tei:body".toList.map Tok.chr := by decide +kernel
  have e2 : (exStep false "tei:div[@n='?']").body = "tei:div[@n='".toList.map Tok.chr ++ [.hole 1, .chr '\'', .chr ']'] := by decide +kernel
  have e3 : (exStep true "tei:l[@n='?']").body = "tei:l[@n='".toList.map Tok.chr ++ [.hole 1, .chr '\'', .chr ']'] := by decide +kernel
  have tail : NoDigitAfterHole [.hole 1, .chr '\'', .chr ']'] := by simp [NoDigitAfterHole]
  rcases hs with rfl | rfl | rfl
  · rw [e1]
    have := noDigit_chrs "tei:body".toList (m := []) (by trivial)
    simpa using this
  · rw [e2]
    exact noDigit_chrs _ tail
  · rw [e3]
    exact noDigit_chrs _ tail

/-- A history with all three assignments, of which the first is lost. -/
def exAssignments : List PathSet :=
  [.scope (some [exStep false "tei:body"]), .refsDecl (some [exStep false "tei:body", exStep true "tei:l[@n='?']"]), .xpath (some [exStep false "tei:div[@n='?']", exStep true "tei:l[@n='?']"]),
   .scope (some [exStep false "tei:body", exStep false "tei:div[@n='?']"])]

example : let c := (assignEach (newCiteText none none none) (exAssignments.map PathSet.text)).1
    citeScope c = .ok "/tei:body/tei:div[@n='?']".toList ∧ citeXpath c = .ok "//tei:l[@n='?']".toList ∧ c.refsDecl = some "/tei:body/tei:div[@n='$1']//tei:l[@n='$2']".toList := by
  decide +kernel

example : ReadsAs (assignEach (newCiteText none none none) (exAssignments.map PathSet.text)).1 (exAssignments.foldl PathSet.apply none) :=
  (C87_history exAssignments (by
    intro op ho
    simp only [exAssignments, List.mem_cons, List.not_mem_nil, or_false] at ho
    rcases ho with rfl | rfl | rfl | rfl <;>
    · rintro p hp s hs
      cases hp
      apply exStep_wf
      simp only [List.mem_cons, List.not_mem_nil, or_false] at hs ⊢
      rcases hs with rfl | rfl <;> simp)).1

example : ReadsAs (assignEach (newCiteText (some (shownText [exStep true "tei:l[@n='?']"])) (some (shownText [exStep false "tei:body"])) none) []).1 (some [exStep false "tei:body", exStep true "tei:l[@n='?']"]) :=
  C87_from_scope_xpath [exStep false "tei:body"] [exStep true "tei:l[@n='?']"] (fun s hs => exStep_wf s (by simp at hs; simp [hs])) (fun s hs => exStep_wf s (by simp at hs; simp [hs]))
    (by simp) (by simp) none [] (by simp)

/-! ### Where assignments are lost -/

/-- C87. On a citation without refsDecl the assignments of scope and xpath do nothing, whatever is assigned. -/
theorem C87_fails_unset (s x : Str) :
    assignEach (newCiteText none none none) [.scope (some s), .xpath (some x)] = (⟨none⟩, [none, none]) := rfl

/-- C87. A citation that is made with an xpath and without scope forgets it: an absolute xpath alone cannot be given. -/
theorem C87_fails_alone (x : Str) : (newCiteText (some x) none none).refsDecl = none ∧ (newCiteText (some x) (some []) none).refsDecl = none := ⟨rfl, rfl⟩

/-- C87. With an xpath of several steps the order of assignments matters: a scope that is assigned later replaces all but the last. -/
theorem C87_fails_order :
    (assignEach ⟨some "/a/b".toList⟩ [.scope (some "/tei:body".toList), .xpath (some "/tei:div/tei:l".toList)]).1.refsDecl = some "/tei:body/tei:div/tei:l".toList ∧
    (assignEach ⟨some "/a/b".toList⟩ [.xpath (some "/tei:div/tei:l".toList), .scope (some "/tei:body".toList)]).1.refsDecl = some "/tei:body/tei:l".toList := by
  decide +kernel

/-- C87. An assignment raises when the refsDecl has no step, though the new value would be complete. -/
theorem C87_fails_raises (s : Str) (c : Char) (r : Str) (h : '/' ∉ c :: r) : (assign ⟨some (c :: r)⟩ (.scope (some s))).2 = some .indexError := by
  have h1 := C21_no_step (c :: r) h
  simp [assign, given, readXpathScope, h1]

end Verif.Props
