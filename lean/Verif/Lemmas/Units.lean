import Verif.Lemmas.LocalText
/-! Helper lemmas: citable units, selection along levels, the rounds of `getValidReff`. -/
namespace Verif.Model
open Verif.Py Verif.Spec

theorem at?_eq (n : Node) (t : List Nat) : at? n t = nodeAt n t := by
  induction t generalizing n with
  | nil => rfl
  | cons i t ih => simp only [at?, nodeAt]; cases n.kids[i]? <;> simp [ih]

theorem nodeAt_append (n : Node) (t u : List Nat) : nodeAt n (t ++ u) = (nodeAt n t).bind (nodeAt · u) := by
  induction t generalizing n with
  | nil => rfl
  | cons i t ih => simp only [List.cons_append, nodeAt]; cases n.kids[i]? <;> simp [ih]

theorem sel_append {n : Node} {p q : List Step} {t : List Nat} :
    Sel n (p ++ q) t ↔ ∃ t1 t2 c, t = t1 ++ t2 ∧ Sel n p t1 ∧ nodeAt n t1 = some c ∧ Sel c q t2 := by
  constructor
  · intro h
    generalize hr : p ++ q = r at h
    induction h generalizing p with
    | nil =>
      simp at hr
      obtain ⟨rfl, rfl⟩ := hr
      exact ⟨[], [], _, rfl, .nil, rfl, .nil⟩
    | @child n c s r i t h1 h2 h3 ih =>
      cases p with
      | nil => simp at hr; subst hr; exact ⟨[], i :: t, n, rfl, .nil, rfl, .child h1 h2 h3⟩
      | cons s' p =>
        simp at hr
        obtain ⟨rfl, rfl⟩ := hr
        obtain ⟨t1, t2, d, rfl, ha, hb, hc⟩ := ih rfl
        exact ⟨i :: t1, t2, d, rfl, .child h1 h2 ha, by simp [nodeAt, h1, hb], hc⟩
    | @desc n c s r i t h1 h2 h3 ih =>
      cases p with
      | nil => simp at hr; subst hr; exact ⟨[], i :: t, n, rfl, .nil, rfl, .desc h1 h2 h3⟩
      | cons s' p =>
        have hr' := hr
        simp at hr
        obtain ⟨rfl, rfl⟩ := hr
        obtain ⟨t1, t2, d, rfl, ha, hb, hc⟩ := ih (p := s' :: p) rfl
        exact ⟨i :: t1, t2, d, rfl, .desc h1 h2 ha, by simp [nodeAt, h1, hb], hc⟩
  · rintro ⟨t1, t2, c, rfl, h1, h2, h3⟩
    induction h1 with
    | nil => simp [nodeAt] at h2; subst h2; exact h3
    | child ha hb hc ih => simp only [nodeAt, ha] at h2; exact .child ha hb (ih h2)
    | desc ha hb hc ih => simp only [nodeAt, ha] at h2; exact .desc ha hb (ih h2)

/-- A last step with one more test. -/
theorem sel_last {n : Node} {s s' : Step} {P : Node → Prop} (hd : s'.desc = s.desc)
    (h : ∀ c, s'.test c = true ↔ s.test c = true ∧ P c) (t : List Nat) :
    Sel n [s'] t ↔ Sel n [s] t ∧ ∃ c, nodeAt n t = some c ∧ P c := by
  induction t generalizing n with
  | nil =>
    constructor
    · intro h; cases h
    · rintro ⟨h, _⟩; cases h
  | cons i t ih =>
    constructor
    · intro hs
      cases hs with
      | child h1 h2 h3 =>
        have := sel_nil.1 h3
        subst this
        have := (h _).1 h2
        exact ⟨.child h1 this.1 .nil, _, by simp [nodeAt, h1], this.2⟩
      | desc h1 h2 h3 =>
        obtain ⟨ha, c, hb, hc⟩ := ih.1 h3
        exact ⟨.desc h1 (hd ▸ h2) ha, c, by simp [nodeAt, h1, hb], hc⟩
    · rintro ⟨hs, c, hc, hP⟩
      cases hs with
      | child h1 h2 h3 =>
        have := sel_nil.1 h3
        subst this
        simp [nodeAt, h1] at hc
        subst hc
        exact .child h1 ((h _).2 ⟨h2, hP⟩) .nil
      | desc h1 h2 h3 =>
        simp only [nodeAt, h1] at hc
        exact .desc h1 (hd ▸ h2) (ih.2 ⟨h3, c, hc, hP⟩)

theorem sel_withId {n : Node} {l : Level} {v : Str} {t : List Nat} :
    Sel n (l.withId v) t ↔ Sel n l.anyId t ∧ ∃ c, nodeAt n t = some c ∧ c.get l.attr = some v := by
  have key : ∀ c : Node, Step.test ⟨l.desc, l.name, l.before ++ .eq l.attr '\'' v :: l.after⟩ c = true ↔
      Step.test ⟨l.desc, l.name, l.before ++ .has l.attr :: l.after⟩ c = true ∧ c.get l.attr = some v := by
    intro c
    simp only [Step.test, List.all_append, List.all_cons, ATest.holds, Bool.and_eq_true, beq_iff_eq]
    constructor
    · rintro ⟨h1, h2, h3, h4⟩; exact ⟨⟨h1, h2, by simp [h3], h4⟩, h3⟩
    · rintro ⟨⟨h1, h2, h3, h4⟩, h5⟩; exact ⟨h1, h2, h5, h4⟩
  unfold Level.withId Level.anyId Level.steps
  rw [sel_append, sel_append]
  constructor
  · rintro ⟨t1, t2, c, rfl, h1, h2, h3⟩
    obtain ⟨ha, d, hb, hc⟩ := (sel_last (s := ⟨l.desc, l.name, l.before ++ .has l.attr :: l.after⟩)
      (s' := ⟨l.desc, l.name, l.before ++ .eq l.attr '\'' v :: l.after⟩)
      (P := fun c => c.get l.attr = some v) rfl key t2).1 h3
    exact ⟨⟨t1, t2, c, rfl, h1, h2, ha⟩, d, by simp [nodeAt_append, h2, hb], hc⟩
  · rintro ⟨⟨t1, t2, c, rfl, h1, h2, h3⟩, d, hd, hv⟩
    refine ⟨t1, t2, c, rfl, h1, h2, ?_⟩
    refine (sel_last (s := ⟨l.desc, l.name, l.before ++ .has l.attr :: l.after⟩)
      (s' := ⟨l.desc, l.name, l.before ++ .eq l.attr '\'' v :: l.after⟩)
      (P := fun c => c.get l.attr = some v) rfl key t2).2 ⟨h3, d, ?_, hv⟩
    simpa [nodeAt_append, h2] using hd

/-- Units have their identifier. -/
theorem sel_anyId_get {n : Node} {l : Level} {t : List Nat} (h : Sel n l.anyId t) :
    ∃ c v, nodeAt n t = some c ∧ c.get l.attr = some v := by
  unfold Level.anyId Level.steps at h
  obtain ⟨t1, t2, c, rfl, h1, h2, h3⟩ := sel_append.1 h
  have key : ∀ c : Node, Step.test ⟨l.desc, l.name, l.before ++ .has l.attr :: l.after⟩ c = true ↔
      Step.test ⟨l.desc, l.name, l.before ++ .has l.attr :: l.after⟩ c = true ∧ (c.get l.attr).isSome = true := by
    intro c
    refine ⟨fun h => ⟨h, ?_⟩, fun h => h.1⟩
    simp only [Step.test, List.all_append, List.all_cons, ATest.holds, Bool.and_eq_true] at h
    exact h.2.2.1
  obtain ⟨_, d, hd, hv⟩ := (sel_last (P := fun c => (c.get l.attr).isSome = true) rfl key t2).1 h3
  obtain ⟨v, hv⟩ := Option.isSome_iff_exists.1 hv
  exact ⟨d, v, by simp [nodeAt_append, h2, hd], hv⟩

theorem anyId_ne_nil (l : Level) : l.anyId ≠ [] := by simp [Level.anyId, Level.steps]
theorem withId_ne_nil (l : Level) (v : Str) : l.withId v ≠ [] := by simp [Level.withId, Level.steps]

theorem mem_units (ls : List Level) (n : Node) (ids : List Str) (t : List Nat) :
    (ids, t) ∈ units ls n ↔ ids.length = ls.length ∧ Sel n (fillSteps ls (ids.map some)) t := by
  induction ls generalizing n ids t with
  | nil =>
    simp only [units, List.mem_singleton, Prod.mk.injEq, List.length_nil, List.length_eq_zero_iff]
    constructor
    · rintro ⟨rfl, rfl⟩; exact ⟨rfl, .nil⟩
    · rintro ⟨rfl, h⟩; exact ⟨rfl, sel_nil.1 h⟩
  | cons l ls ih =>
    simp only [units, List.mem_flatMap]
    constructor
    · rintro ⟨u, hu, hm⟩
      rw [mem_select (anyId_ne_nil l)] at hu
      obtain ⟨c, v, hc, hv⟩ := sel_anyId_get hu
      simp only [hc, List.mem_map, Prod.mk.injEq, hv, Option.getD_some] at hm
      obtain ⟨⟨ids', t'⟩, hm, rfl, rfl⟩ := hm
      obtain ⟨hl, hs⟩ := (ih c ids' t').1 hm
      refine ⟨by simp [hl], ?_⟩
      simp only [List.map_cons, fillSteps]
      exact sel_append.2 ⟨u, t', c, rfl, sel_withId.2 ⟨hu, c, hc, hv⟩, hc, hs⟩
    · rintro ⟨hl, hs⟩
      cases ids with
      | nil => simp at hl
      | cons v ids =>
        simp only [List.map_cons, fillSteps] at hs
        obtain ⟨u, t', c, rfl, h1, h2, h3⟩ := sel_append.1 hs
        obtain ⟨h4, d, h5, h6⟩ := sel_withId.1 h1
        rw [h2] at h5
        simp at h5
        subst h5
        refine ⟨u, (mem_select (anyId_ne_nil l)).2 h4, ?_⟩
        simp only [h2, List.mem_map, Prod.mk.injEq, h6, Option.getD_some]
        exact ⟨(ids, t'), (ih c ids t').2 ⟨by simpa using hl, h3⟩, rfl, rfl⟩

/-- The units one level further down. -/
def kidsOf (l : Level) (n : Node) (u : List Str × List Nat) : List (List Str × List Nat) :=
  match nodeAt n u.2 with
  | none => []
  | some c => (select c l.anyId).map fun t => (u.1 ++ [((nodeAt c t).bind (·.get l.attr)).getD []], u.2 ++ t)

theorem units_snoc (ls : List Level) (l : Level) (n : Node) :
    units (ls ++ [l]) n = (units ls n).flatMap (kidsOf l n) := by
  induction ls generalizing n with
  | nil =>
    simp only [List.nil_append, units, List.flatMap_cons, List.flatMap_nil, List.append_nil, kidsOf, nodeAt,
      List.map_cons, List.map_nil]
    have : ∀ ts : List (List Nat), (∀ t ∈ ts, Sel n l.anyId t) → (ts.flatMap fun t => match nodeAt n t with
        | none => []
        | some c => [((c.get l.attr).getD [] :: [], t)]) =
        ts.map fun t => ([((nodeAt n t).bind (·.get l.attr)).getD []], t) := by
      intro ts hts
      induction ts with
      | nil => rfl
      | cons t ts ih =>
        obtain ⟨c, v, hc, hv⟩ := sel_anyId_get (hts t (by simp))
        rw [List.flatMap_cons, List.map_cons, ih fun t ht => hts t (List.mem_cons_of_mem _ ht)]
        simp [hc]
    exact this _ fun t ht => (mem_select (anyId_ne_nil l)).1 ht
  | cons x ls ih =>
    rw [List.cons_append, units, units, List.flatMap_assoc]
    congr 1
    funext t
    cases hc : nodeAt n t with
    | none => simp
    | some c =>
      simp only
      rw [ih, List.map_flatMap, List.flatMap_map]
      congr 1
      funext u
      simp only [kidsOf, nodeAt_append, hc, Option.bind_some]
      cases nodeAt c u.2 <;> simp

theorem select_append_uniq {n c : Node} {p q : List Step} {t : List Nat} (hq : q ≠ []) (h : Uniq n p t)
    (hc : nodeAt n t = some c) : select n (p ++ q) = (select c q).map (t ++ ·) := by
  apply sorted_ext (select_sorted _ _)
  · rw [List.pairwise_map]
    refine (select_sorted c q).imp ?_
    rintro a b ⟨h1, h2⟩
    exact ⟨by rw [docLe_append]; exact h1, by simpa using h2⟩
  · intro u
    rw [mem_select (by simp [hq]), sel_append, List.mem_map]
    constructor
    · rintro ⟨t1, t2, d, rfl, h1, h2, h3⟩
      have := (h t1).1 h1
      subst this
      rw [hc] at h2; simp at h2; subst h2
      exact ⟨t2, (mem_select hq).2 h3, rfl⟩
    · rintro ⟨v, hv, rfl⟩
      exact ⟨t, v, c, rfl, (h t).2 rfl, hc, (mem_select hq).1 hv⟩

theorem select_append_none {n : Node} {p q : List Step} (h : ∀ t, ¬ Sel n p t) (hq : q ≠ []) :
    select n (p ++ q) = [] := by
  cases hs : select n (p ++ q) with
  | nil => rfl
  | cons u r =>
    have : u ∈ select n (p ++ q) := by rw [hs]; simp
    rw [mem_select (by simp [hq]), sel_append] at this
    obtain ⟨t1, _, _, _, h1, _⟩ := this
    exact absurd h1 (h t1)

theorem select_docNode (root : Node) (p : List Step) (s : Step) (hs : s.desc = false) (ht : s.test root = true)
    (hp : p ≠ []) : select (docNode root) (s :: p) = (select root p).map (0 :: ·) := by
  apply sorted_ext (select_sorted _ _)
  · rw [List.pairwise_map]
    refine (select_sorted root p).imp ?_
    rintro a b ⟨h1, h2⟩
    exact ⟨by simp [docLe, h1], by simpa using h2⟩
  · intro u
    rw [mem_select (by simp), List.mem_map]
    constructor
    · intro h
      cases h with
      | @child _ c _ _ i t h1 h2 h3 =>
        have hk : (docNode root).kids = [root] := rfl
        rw [hk] at h1
        cases i with
        | zero => simp at h1; subst h1; exact ⟨t, (mem_select hp).2 h3, rfl⟩
        | succ i => simp at h1
      | desc _ h2 _ => rw [hs] at h2; simp at h2
    · rintro ⟨v, hv, rfl⟩
      exact .child (c := root) rfl ht ((mem_select hp).1 hv)

theorem fillSteps_append {a b : List Level} {x y : List (Option Str)} (h : x.length = a.length) :
    fillSteps (a ++ b) (x ++ y) = fillSteps a x ++ fillSteps b y := by
  induction a generalizing x with
  | nil => simp at h; subst h; simp [fillSteps]
  | cons l a ih =>
    cases x with
    | nil => simp at h
    | cons v x =>
      cases v <;> simp [fillSteps, ih (show x.length = a.length by simpa using h)]

theorem testOk_of_wf {t : ATest} (h : TestWF t) : TestOk t := by
  cases t with
  | has a => exact h.2.2
  | eq a q v => exact ⟨h.1.2.2, h.2.1, h.2.2.2.2.2.1⟩

theorem steps_ok {l : Level} (h : l.WF) {t : ATest} (ht : TestOk t) : ∀ s ∈ l.steps t, StepOk s := by
  intro s hs
  simp only [Level.steps, List.mem_append, List.mem_singleton] at hs
  rcases hs with hs | rfl
  · exact ⟨(h.pre s hs).1, fun t ht => testOk_of_wf ((h.pre s hs).2 t ht)⟩
  · refine ⟨h.name, fun x hx => ?_⟩
    simp only [List.mem_append, List.mem_cons] at hx
    rcases hx with hx | rfl | hx
    · exact testOk_of_wf (h.before x hx)
    · exact ht
    · exact testOk_of_wf (h.after x hx)

theorem fillSteps_ok {ls : List Level} (h : ∀ l ∈ ls, l.WF) {vs : List (Option Str)}
    (hv : ∀ v, some v ∈ vs → '\'' ∉ v) : ∀ s ∈ fillSteps ls vs, StepOk s := by
  induction ls generalizing vs with
  | nil => simp [fillSteps]
  | cons l ls ih =>
    have hl := h l (by simp)
    have ih := fun vs => @ih (fun l hl => h l (List.mem_cons_of_mem _ hl)) vs
    cases vs with
    | nil => simp [fillSteps]
    | cons v vs =>
      intro s hs
      cases v with
      | none =>
        simp only [fillSteps, List.mem_append] at hs
        rcases hs with hs | hs
        · exact steps_ok hl (show TestOk (.has l.attr) from hl.attr.2.2) s hs
        · exact ih vs (fun v hv' => hv v (List.mem_cons_of_mem _ hv')) s hs
      | some w =>
        simp only [fillSteps, List.mem_append] at hs
        rcases hs with hs | hs
        · exact steps_ok hl (show TestOk (.eq l.attr '\'' w) from ⟨hl.attr.2.2, Or.inl rfl, hv w (by simp)⟩) s hs
        · exact ih vs (fun v hv' => hv v (List.mem_cons_of_mem _ hv')) s hs

theorem length_stepsText {p : List Step} : p.length ≤ (stepsText p).length := by
  induction p with
  | nil => simp
  | cons s p ih =>
    rw [stepsText_cons]
    split <;> simp <;> omega

theorem evalXpath_text {root : Node} {p : List Step} (hn : qName root.tag = true) (hp : p ≠ [])
    (h : ∀ s ∈ p, StepOk s) :
    evalXpath root (stepsText (⟨false, root.tag, []⟩ :: p)) = .ok ((select root p).filterMap (nodeAt root)) := by
  have hs : stepName root.tag = true := by simp [stepName, hn]
  unfold evalXpath
  rw [parseSteps_text _ _ length_stepsText]
  · simp only
    rw [select_docNode root p _ rfl _ hp, List.filterMap_map]
    · congr 2
      funext t
      simp [at?_eq, nodeAt, docNode, Node.kids]
    · simp [Step.test]
  · intro s hs'
    rw [List.mem_cons] at hs'
    rcases hs' with rfl | hs'
    · exact ⟨hs, by simp⟩
    · exact h s hs'

end Verif.Model
