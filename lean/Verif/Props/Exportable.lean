import Verif.Spec.Exportable
/-!
C51: dispatch of exports. Theorems are about `Verif/Model/Exportable.lean`; `Verif/Spec/Exportable.lean` says what
a class declares and runs.
-/
namespace Verif.Props
open Verif.Py Verif.Model Verif.Spec

theorem firstWith_unique {P : Str → Prop} {l : List Str} {a b : Str} (ha : FirstWith P l a) (hb : FirstWith P l b) : a = b := by
  obtain ⟨p1, q1, rfl, h1, h1'⟩ := ha
  obtain ⟨p2, q2, e, h2, h2'⟩ := hb
  induction p1 generalizing p2 with
  | nil =>
    cases p2 with
    | nil => simp at e; exact e.1
    | cons x p2 => simp at e; exact absurd (e.1 ▸ h1') (h2 x (List.mem_cons_self ..))
  | cons y p1 ih =>
    cases p2 with
    | nil => simp at e; exact absurd (e.1 ▸ h2') (h1 y (List.mem_cons_self ..))
    | cons x p2 =>
      simp at e
      exact ih (fun b hb => h1 b (List.mem_cons_of_mem _ hb)) p2 e.2 (fun b hb => h2 b (List.mem_cons_of_mem _ hb))

theorem firstWith_cons {P : Str → Prop} {l : List Str} {x a : Str} :
    FirstWith P (x :: l) a ↔ (P x ∧ a = x) ∨ (¬ P x ∧ FirstWith P l a) := by
  constructor
  · rintro ⟨pre, post, e, h1, h2⟩
    cases pre with
    | nil => simp at e; obtain ⟨rfl, rfl⟩ := e; exact .inl ⟨h2, rfl⟩
    | cons y pre =>
      simp at e
      obtain ⟨rfl, rfl⟩ := e
      exact .inr ⟨h1 _ (List.mem_cons_self ..), pre, post, rfl, fun b hb => h1 b (List.mem_cons_of_mem _ hb), h2⟩
  · rintro (⟨h, rfl⟩ | ⟨h, pre, post, rfl, h1, h2⟩)
    · exact ⟨[], l, rfl, by simp, h⟩
    · refine ⟨x :: pre, post, rfl, ?_, h2⟩
      intro b hb
      rcases List.mem_cons.1 hb with rfl | hb
      · exact h
      · exact h1 b hb

theorem findSome_first {β : Type} {f : Str → Option β} {l : List Str} {v : β} :
    l.findSome? f = some v ↔ ∃ a, FirstWith (fun b => f b ≠ none) l a ∧ f a = some v := by
  induction l with
  | nil =>
    simp only [List.findSome?_nil, reduceCtorEq, false_iff, not_exists]
    rintro a ⟨⟨pre, post, e, _⟩, _⟩
    simp at e
  | cons x l ih =>
    rw [List.findSome?_cons]
    cases hx : f x with
    | some w =>
      simp only [Option.some.injEq]
      constructor
      · rintro rfl; exact ⟨x, firstWith_cons.2 (.inl ⟨by simp [hx], rfl⟩), hx⟩
      · rintro ⟨a, ha, hv⟩
        rcases firstWith_cons.1 ha with ⟨_, rfl⟩ | ⟨hn, _⟩
        · rw [hx] at hv; simpa using hv
        · exact absurd (by simp [hx]) hn
    | none =>
      simp only
      rw [ih]
      constructor
      · rintro ⟨a, ha, hv⟩; exact ⟨a, firstWith_cons.2 (.inr ⟨by simp [hx], ha⟩), hv⟩
      · rintro ⟨a, ha, hv⟩
        rcases firstWith_cons.1 ha with ⟨hn, rfl⟩ | ⟨_, h⟩
        · exact absurd hx hn
        · exact ⟨a, h, hv⟩

theorem declares_iff {cs : Classes} {o k : Str} : Declares cs o k ↔ ∃ l, exportToOf cs k = some l ∧ o ∈ l := by
  unfold Declares exportToOf
  constructor
  · rintro ⟨a, l, h1, h2, h3⟩; exact ⟨l, findSome_first.2 ⟨a, h1, h2⟩, h3⟩
  · rintro ⟨l, h, h3⟩
    obtain ⟨a, h1, h2⟩ := findSome_first.1 h
    exact ⟨a, l, h1, h2, h3⟩

theorem runs_iff {cs : Classes} {k i : Str} : Runs cs k i ↔ implOf cs k = .ok i := by
  have key : ∀ l : List Str, FirstWith (fun b => (cs b).definesExport = true) l i ↔
      l.find? (fun k => (cs k).definesExport) = some i := by
    intro l
    induction l with
    | nil =>
      simp only [List.find?_nil, reduceCtorEq, iff_false]
      rintro ⟨pre, post, e, _⟩
      simp at e
    | cons x l ih =>
      rw [firstWith_cons, List.find?_cons]
      cases hx : (cs x).definesExport
      · simp [ih]
      · simp only [not_true_eq_false, false_and, or_false, true_and, Option.some.injEq]
        exact eq_comm
  unfold Runs implOf
  rw [key]
  cases (cs k).mro.find? fun k => (cs k).definesExport <;> simp

/-- C51. The capacities are the outputs declared by the classes of the object. -/
theorem C51_capacities (cs : Classes) (c o : Str) : o ∈ exportCapacities cs c ↔ ∃ k ∈ (cs c).mro, Declares cs o k := by
  unfold exportCapacities
  rw [List.mem_flatMap]
  constructor
  · rintro ⟨k, hk, h⟩
    refine ⟨k, hk, declares_iff.2 ?_⟩
    split at h
    · rename_i l e; exact ⟨l, e, h⟩
    · simp at h
  · rintro ⟨k, hk, h⟩
    obtain ⟨l, e, h'⟩ := declares_iff.1 h
    exact ⟨k, hk, by rw [e]; exact h'⟩

theorem exportLoop_first {cs : Classes} {o k : Str} {l : List Str} (h : FirstWith (Declares cs o) l k) :
    exportLoop cs o l = implOf cs k := by
  induction l with
  | nil => obtain ⟨pre, post, e, _⟩ := h; simp at e
  | cons x l ih =>
    rw [exportLoop]
    rcases firstWith_cons.1 h with ⟨hx, rfl⟩ | ⟨hx, h'⟩
    · obtain ⟨m, e, hm⟩ := declares_iff.1 hx
      rw [e]
      simp [hm]
    · split
      · rename_i m e
        rw [if_neg fun hm => hx (declares_iff.2 ⟨m, e, hm⟩)]
        exact ih h'
      · exact ih h'

/-- C51. `export(output)` runs the implementation of the first class in the resolution order that declares the
output. -/
theorem C51_runs_first (cs : Classes) (c o k i : Str) (h : FirstWith (Declares cs o) (cs c).mro k) (hi : Runs cs k i) :
    exportObj cs c (some o) = .ok i := by
  have hm : o ∈ exportCapacities cs c := by
    obtain ⟨pre, post, e, _, hd⟩ := h
    exact (C51_capacities cs c o).2 ⟨k, by rw [e]; simp, hd⟩
  unfold exportObj
  simp only
  rw [if_pos hm, exportLoop_first h, runs_iff.1 hi]

/-- C51. When the first class that declares the output has no implementation at all, `export` fails with
`AttributeError`: the classes after it are not tried, even if they have one. -/
theorem C51_no_implementation (cs : Classes) (c o k : Str) (h : FirstWith (Declares cs o) (cs c).mro k) (hi : ∀ i, ¬ Runs cs k i) :
    exportObj cs c (some o) = .error .attributeError := by
  have hm : o ∈ exportCapacities cs c := by
    obtain ⟨pre, post, e, _, hd⟩ := h
    exact (C51_capacities cs c o).2 ⟨k, by rw [e]; simp, hd⟩
  have hn : (cs k).mro.find? (fun k => (cs k).definesExport) = none := by
    cases hf : (cs k).mro.find? (fun k => (cs k).definesExport) with
    | none => rfl
    | some i => exact absurd (runs_iff.2 (by simp only [implOf, hf])) (hi i)
  unfold exportObj
  simp only
  rw [if_pos hm, exportLoop_first h]
  simp only [implOf, hn]

/-- C51. Without output the default is used. -/
theorem C51_default (cs : Classes) (c o : Str) (h : HasDefault cs c o) : exportObj cs c none = exportObj cs c (some o) := by
  have : defaultOf cs c = some o := by
    obtain ⟨a, h1, h2⟩ := h
    unfold defaultOf
    rw [findSome_first.2 ⟨a, h1, h2⟩]
  unfold exportObj
  simp only [this]

/-- C51. `NotImplementedError` exactly when no class declares the output. -/
theorem C51_not_implemented (cs : Classes) (c o : Str) (hall : ∀ k ∈ (cs c).mro, Declares cs o k → ∃ i, Runs cs k i) :
    exportObj cs c (some o) = .error .notImplemented ↔ ∀ k ∈ (cs c).mro, ¬ Declares cs o k := by
  constructor
  · intro h k hk hd
    have hex : ∀ l : List Str, k ∈ l → ∃ a ∈ l, FirstWith (Declares cs o) l a := by
      intro l
      induction l with
      | nil => intro h; simp at h
      | cons x l ih =>
        intro hkl
        by_cases hx : Declares cs o x
        · exact ⟨x, List.mem_cons_self .., firstWith_cons.2 (.inl ⟨hx, rfl⟩)⟩
        · rcases List.mem_cons.1 hkl with rfl | hkl
          · exact absurd hd hx
          · obtain ⟨a, ha, h1⟩ := ih hkl
            exact ⟨a, List.mem_cons_of_mem _ ha, firstWith_cons.2 (.inr ⟨hx, h1⟩)⟩
    obtain ⟨a, ha, hf⟩ := hex _ hk
    obtain ⟨i, hi⟩ := hall a ha (by obtain ⟨_, _, _, _, hd⟩ := hf; exact hd)
    rw [C51_runs_first cs c o a i hf hi] at h
    cases h
  · intro h
    have : o ∉ exportCapacities cs c := fun hm => by
      obtain ⟨k, hk, hd⟩ := (C51_capacities cs c o).1 hm
      exact h k hk hd
    unfold exportObj
    simp only
    rw [if_neg this]

/-- C51. Without output and without default: `NotImplementedError`. -/
theorem C51_no_default (cs : Classes) (c : Str) (h : ¬ ∃ o, HasDefault cs c o) : exportObj cs c none = .error .notImplemented := by
  have : defaultOf cs c = none := by
    unfold defaultOf
    split
    · rename_i d e
      cases d with
      | none => rfl
      | some o =>
        obtain ⟨a, h1, h2⟩ := findSome_first.1 e
        exact absurd ⟨o, a, h1, h2⟩ h
    · rfl
  unfold exportObj
  simp only [this]

/-! ## The classes of a passage, in small -/

/-- `Passage → Tei → Exportable → object` where `Passage` has its own `__export__` but inherits `EXPORT_TO`. -/
def sample : Classes := fun s =>
  if s = "Passage".toList then ⟨["Passage".toList, "Tei".toList, "Exportable".toList, "object".toList], none, none, true⟩
  else if s = "Tei".toList then ⟨["Tei".toList, "Exportable".toList, "object".toList], some ["text/plain".toList, "xml".toList], some (some "text/plain".toList), true⟩
  else if s = "Exportable".toList then ⟨["Exportable".toList, "object".toList], some [], some none, true⟩
  else ⟨["object".toList], none, none, false⟩

example : FirstWith (Declares sample "xml".toList) (sample "Passage".toList).mro "Passage".toList ∧
    Runs sample "Passage".toList "Passage".toList :=
  ⟨firstWith_cons.2 (.inl ⟨declares_iff.2 ⟨["text/plain".toList, "xml".toList], by decide, by decide⟩, rfl⟩), runs_iff.2 (by decide)⟩

example : exportObj sample "Passage".toList (some "xml".toList) = .ok "Passage".toList ∧
    exportObj sample "Tei".toList none = .ok "Tei".toList ∧
    exportObj sample "Passage".toList (some "json".toList) = .error .notImplemented ∧
    exportCapacities sample "Passage".toList = ["text/plain".toList, "xml".toList, "text/plain".toList, "xml".toList] := by
  decide

/-- A class that mixes in a list of outputs without implementation before `Tei`. -/
def mixed : Classes := fun s =>
  if s = "Mixed".toList then ⟨["Mixed".toList, "Outputs".toList, "Tei".toList, "object".toList], none, none, false⟩
  else if s = "Outputs".toList then ⟨["Outputs".toList, "object".toList], some ["xml".toList], none, false⟩
  else if s = "Tei".toList then ⟨["Tei".toList, "object".toList], some ["text/plain".toList], some (some "text/plain".toList), true⟩
  else ⟨["object".toList], none, none, false⟩

/-- From `Outputs` there is no implementation; from the class that mixes it in there is. -/
example : (∀ i, ¬ Runs mixed "Outputs".toList i) ∧ FirstWith (Declares mixed "xml".toList) (mixed "Outputs".toList).mro "Outputs".toList ∧
    exportObj mixed "Outputs".toList (some "xml".toList) = .error .attributeError ∧ exportObj mixed "Mixed".toList (some "xml".toList) = .ok "Tei".toList := by
  refine ⟨fun i h => ?_, firstWith_cons.2 (.inl ⟨declares_iff.2 ⟨["xml".toList], by decide, by decide⟩, rfl⟩), by decide, by decide⟩
  have := runs_iff.1 h
  rw [show implOf mixed "Outputs".toList = .error .attributeError by decide] at this
  cases this

end Verif.Props
