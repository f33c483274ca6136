import Verif.Lemmas.Reffs
/-! Helper lemmas: from references to passages of local texts. -/
namespace Verif.Model
open Verif.Py Verif.Spec

/-- Tests without slash. -/
def TestFlat : ATest → Prop
  | .has _ => True
  | .eq _ _ v => '/' ∉ v

theorem slash_testText {t : ATest} (h : TestOk t) (hf : TestFlat t) : '/' ∉ testText t := by
  cases t with
  | has a =>
    have := qName_not_mem (show qName a = true from h) (c := '/') (by simp)
    simp [testText, this]
  | eq a q v =>
    have h1 := qName_not_mem h.1 (c := '/') (by simp)
    have h2 : '/' ≠ q := by rcases h.2.1 with rfl | rfl <;> decide
    simp [testText, h1, h2, show '/' ∉ v from hf]

theorem slash_stepBody {s : Step} (h : StepOk s) (hf : ∀ t ∈ s.tests, TestFlat t) : '/' ∉ stepBody s := by
  have h1 := stepName_not_mem h.1 (c := '/') (by simp)
  simp only [stepBody, List.mem_append, List.mem_flatMap, not_or, not_exists, not_and]
  exact ⟨h1, fun t ht => slash_testText (h.2 t ht) (hf t ht)⟩

theorem stepBody_ne_nil {s : Step} (h : StepOk s) : stepBody s ≠ [] := by
  have := stepName_ne_nil h.1
  simp [stepBody, this]

theorem parseEntry_step {s : Step} (h : StepOk s) : parseEntry (stepEntry (s.desc, stepBody s)) = some s := by
  have e : '/' :: stepEntry (s.desc, stepBody s) = stepsText [s] := by
    simp only [stepsText, pathText, stepEntry, List.map_cons, List.map_nil, List.flatMap_cons, List.flatMap_nil,
      List.append_nil]
    cases s.desc <;> simp
  unfold parseEntry
  rw [e, parseSteps_text (by simpa using h) _ (by simp)]

theorem parseEntries_steps {p : List Step} (h : ∀ s ∈ p, StepOk s) :
    parseEntries (p.map fun s => stepEntry (s.desc, stepBody s)) = .ok p := by
  induction p with
  | nil => rfl
  | cons s p ih =>
    simp [parseEntries, parseEntry_step (h s (by simp)), ih fun s hs => h s (List.mem_cons_of_mem _ hs)]

theorem pathEntries_text {rootName : Str} {p : List Step} (hr : qName rootName = true) (h : ∀ s ∈ p, StepOk s)
    (hf : ∀ s ∈ p, ∀ t ∈ s.tests, TestFlat t) :
    parseEntries (pathEntries (stepsText (⟨false, rootName, []⟩ :: p))) = .ok p := by
  have e : stepsText (⟨false, rootName, []⟩ :: p) = pathText ((false, rootName) :: p.map fun s => (s.desc, stepBody s)) := by
    simp [stepsText, stepBody]
  unfold pathEntries
  rw [e, Props.C26_normalize_below_root _ _ (qName_not_mem hr (by simp))]
  · rw [List.map_map]
    exact parseEntries_steps h
  · intro s hs
    rw [List.mem_map] at hs
    obtain ⟨x, hx, rfl⟩ := hs
    exact ⟨stepBody_ne_nil (h x hx), slash_stepBody (h x hx) (hf x hx)⟩

theorem testFlat_of_wf {t : ATest} (h : TestWF t) : TestFlat t := by
  cases t with
  | has a => trivial
  | eq a q v => exact h.2.2.2.2.1

theorem steps_flat {l : Level} (h : l.WF) {t : ATest} (ht : TestFlat t) : ∀ s ∈ l.steps t, ∀ t ∈ s.tests, TestFlat t := by
  intro s hs
  simp only [Level.steps, List.mem_append, List.mem_singleton] at hs
  rcases hs with hs | rfl
  · exact fun t ht => testFlat_of_wf ((h.pre s hs).2 t ht)
  · intro x hx
    simp only [List.mem_append, List.mem_cons] at hx
    rcases hx with hx | rfl | hx
    · exact testFlat_of_wf (h.before x hx)
    · exact ht
    · exact testFlat_of_wf (h.after x hx)

theorem fillSteps_flat {ls : List Level} (h : ∀ l ∈ ls, l.WF) {vs : List (Option Str)}
    (hv : ∀ v, some v ∈ vs → '/' ∉ v) : ∀ s ∈ fillSteps ls vs, ∀ t ∈ s.tests, TestFlat t := by
  induction ls generalizing vs with
  | nil => simp [fillSteps]
  | cons l ls ih =>
    have hl := h l (by simp)
    have ih := fun vs => @ih (fun l hl => h l (List.mem_cons_of_mem _ hl)) vs
    cases vs with
    | nil => simp [fillSteps]
    | cons v vs =>
      intro s hs
      cases v with
      | none =>
        simp only [fillSteps, List.mem_append] at hs
        rcases hs with hs | hs
        · exact steps_flat hl (show TestFlat (.has l.attr) from trivial) s hs
        · exact ih vs (fun v hv' => hv v (List.mem_cons_of_mem _ hv')) s hs
      | some w =>
        simp only [fillSteps, List.mem_append] at hs
        rcases hs with hs | hs
        · exact steps_flat hl (show TestFlat (.eq l.attr '\'' w) from hv w (by simp)) s hs
        · exact ih vs (fun v hv' => hv v (List.mem_cons_of_mem _ hv')) s hs

/-- The path for some identifiers. -/
def idPath (ls : List Level) (ids : List Str) : List Step := fillSteps (ls.take ids.length) (ids.map some)

theorem citationAt_decls {root : Node} {ls : List Level} {ids : List Str} (hne : ids ≠ []) (hl : ids.length ≤ ls.length) :
    citationAt (declsOf root.tag ls) ((ids.length : Int) - 1) = .ok (declText root.tag (ls.take ids.length)) := by
  have h1 : 0 < ids.length := List.length_pos_iff.2 hne
  unfold citationAt
  rw [length_declsOf, if_neg (by omega)]
  unfold pyGet
  rw [if_pos (by omega), show ((ids.length : Int) - 1).toNat = ids.length - 1 by omega, declsOf_get (by omega),
    show ids.length - 1 + 1 = ids.length by omega]

theorem passageBetween_eq {root : Node} {ls : List Level} {same : Same} (hc : Citable root ls) {a b : List Str}
    (ha : a ≠ []) (hb : b ≠ []) (hal : a.length ≤ ls.length) (hbl : b.length ≤ ls.length)
    (hai : ∀ v ∈ a, IsId v) (hbi : ∀ v ∈ b, IsId v) :
    passageBetween (textOf root same ls) a b = passageTree same root (idPath ls a) (idPath ls b) := by
  have hf : ∀ ids : List Str, ids.length ≤ ls.length → (∀ v ∈ ids, IsId v) →
      ∃ f, fill (declText root.tag (ls.take ids.length)) (.list (ids.map some)) = .ok f ∧
        parseEntries (pathEntries f) = .ok (idPath ls ids) := by
    intro ids hl hi
    have hwf : ∀ x ∈ ls.take ids.length, x.WF := fun x hx => hc.wf x (List.mem_of_mem_take hx)
    have hfew : (ls.take ids.length).length < 1000 := by
      have := hc.few
      simp
      omega
    refine ⟨_, fill_decl hc.tag hwf hfew _ (by simp; omega), ?_⟩
    apply pathEntries_text hc.tag
    · apply fillSteps_ok hwf
      intro v hv
      simp at hv
      exact (hi v hv).2.1
    · apply fillSteps_flat hwf
      intro v hv
      simp at hv
      exact (hi v hv).2.2
  obtain ⟨f1, h1, h2⟩ := hf a hal hai
  obtain ⟨f2, h3, h4⟩ := hf b hbl hbi
  unfold passageBetween
  simp only [textOf]
  rw [citationAt_decls ha hal]
  simp only
  rw [citationAt_decls hb hbl]
  simp only
  rw [h1]
  simp only
  rw [h3]
  simp only [passageOf]
  rw [h2]
  simp only
  rw [h4]

theorem uniq_idPath {root : Node} {ls : List Level} (hc : Citable root ls) {ids : List Str} {t : List Nat}
    (h : (ids, t) ∈ units (ls.take ids.length) root) : Uniq root (idPath ls ids) t := by
  intro u
  have hm := (mem_units _ _ _ _).1 h
  constructor
  · intro hu
    exact hc.distinct _ (ids, u) ((mem_units _ _ _ _).2 ⟨hm.1, hu⟩) (ids, t) h rfl
  · rintro rfl; exact hm.2

theorem none_idPath {root : Node} {ls : List Level} {ids : List Str} (hl : ids.length ≤ ls.length)
    (h : ∀ t, (ids, t) ∉ units (ls.take ids.length) root) : ∀ t, ¬ Sel root (idPath ls ids) t := by
  intro t ht
  exact h t ((mem_units _ _ _ _).2 ⟨by simp; omega, ht⟩)

theorem idPath_ne_nil {ls : List Level} {ids : List Str} (hne : ids ≠ []) (hl : ids.length ≤ ls.length) :
    idPath ls ids ≠ [] := by
  cases ids with
  | nil => exact absurd rfl hne
  | cons v ids =>
    cases ls with
    | nil => simp at hl
    | cons l ls => simp [idPath, fillSteps, withId_ne_nil]

end Verif.Model
