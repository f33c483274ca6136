import Verif.Lemmas.Str
import Verif.Model.Reference
import Verif.Spec.Reference
/-! Helper lemmas about references. -/
namespace Verif.Model
open Verif.Py Verif.Spec

theorem mkRef_single {s : Str} (hne : s ≠ []) (h : '-' ∉ s) : mkRef s = .ok (some ⟨s, none, s⟩) := by
  simp [mkRef, hne, h]

theorem mkRef_pair {a b : Str} (ha : '-' ∉ a) (hb : '-' ∉ b) :
    mkRef (a ++ '-' :: b) = .ok (some ⟨a, some b, a ++ '-' :: b⟩) := by
  have := split_eq_pair.2 (⟨rfl, ha, hb⟩ : a ++ '-' :: b = a ++ '-' :: b ∧ _ ∧ _)
  simp [mkRef, this]

theorem mkRef_many {s : Str} (h : 2 ≤ s.count '-') : mkRef s = .error .valueError := by
  have hne : s ≠ [] := by intro e; simp [e] at h
  have hm : '-' ∈ s := by rw [← List.count_pos_iff]; omega
  have hl := length_split '-' s
  simp only [mkRef, hne, if_false, hm, not_true_eq_false]
  split
  · rename_i a b he; rw [he] at hl; simp at hl; omega
  · rfl

theorem join_dot_eq_dotted (cs : List Str) : join ['.'] cs = dotted cs := by
  induction cs with
  | nil => rfl
  | cons c cs ih =>
    cases cs with
    | nil => rfl
    | cons d ds =>
      rw [join_cons_ne_nil _ _ (by simp), ih]; simp [dotted]

theorem dotted_ne_nil {cs : List Str} (hne : cs ≠ []) (h : ∀ c ∈ cs, IsComponent c) :
    dotted cs ≠ [] := by
  cases cs with
  | nil => exact absurd rfl hne
  | cons c cs =>
    cases cs with
    | nil => exact (h c (by simp)).1
    | cons d ds => simp [dotted]

theorem not_mem_dotted {x : Char} {cs : List Str} (hx : x ≠ '.') (h : ∀ c ∈ cs, x ∉ c) :
    x ∉ dotted cs := by
  rw [← join_dot_eq_dotted]
  exact not_mem_join (by simpa using hx) h

theorem plist_dotted {cs : List Str} (hne : cs ≠ []) (h : ∀ c ∈ cs, IsComponent c) :
    plist (dotted cs) = cs := by
  rw [plist, split_of_not_mem (not_mem_dotted (by decide) fun c hc => (h c hc).2.2.2)]
  simp only [List.headD_cons]
  rw [← join_dot_eq_dotted]
  exact split_join hne fun c hc => (h c hc).2.1

theorem pdepth_dotted {cs : List Str} (hne : cs ≠ []) (h : ∀ c ∈ cs, IsComponent c) :
    pdepth (dotted cs) = cs.length := by
  rw [pdepth, count, ← join_dot_eq_dotted]
  have : (join ['.'] cs).count '.' = cs.length - 1 :=
    count_join (c := '.') (l := cs) fun c hc => (h c hc).2.1
  rw [this]
  have : cs.length ≠ 0 := by simpa using hne
  omega

theorem psub_dotted {cs : List Str} (h : ∀ c ∈ cs, IsComponent c) : psub (dotted cs) = none := by
  rw [psub, split_of_not_mem (not_mem_dotted (by decide) fun c hc => (h c hc).2.2.2)]

theorem mkRef_dotted {cs : List Str} (hne : cs ≠ []) (h : ∀ c ∈ cs, IsComponent c) :
    mkRef (dotted cs) = .ok (some ⟨dotted cs, none, dotted cs⟩) :=
  mkRef_single (dotted_ne_nil hne h) (not_mem_dotted (by decide) fun c hc => (h c hc).2.2.1)

theorem passage_ne_nil {cs : List Str} {u : Option Str} (hne : cs ≠ []) (h : ∀ c ∈ cs, IsComponent c) :
    passage cs u ≠ [] := by
  cases u with
  | none => exact dotted_ne_nil hne h
  | some w => simp [passage]

theorem dash_passage {cs : List Str} {u : Option Str} (h : ∀ c ∈ cs, IsComponent c) (hu : IsOptSub u) :
    '-' ∉ passage cs u := by
  have h0 := not_mem_dotted (x := '-') (cs := cs) (by decide) fun c hc => (h c hc).2.2.1
  cases u with
  | none => exact h0
  | some w =>
    simp only [passage, List.mem_append, List.mem_cons, not_or]
    exact ⟨h0, by decide, hu.2.1⟩

theorem plist_passage {cs : List Str} {u : Option Str} (hne : cs ≠ []) (h : ∀ c ∈ cs, IsComponent c) :
    plist (passage cs u) = cs := by
  cases u with
  | none => exact plist_dotted hne h
  | some w =>
    have h0 := not_mem_dotted (x := '@') (cs := cs) (by decide) fun c hc => (h c hc).2.2.2
    rw [plist, passage, split_append _ h0]
    simp only [List.headD_cons]
    rw [← join_dot_eq_dotted]
    exact split_join hne fun c hc => (h c hc).2.1

theorem pdepth_passage {cs : List Str} {u : Option Str} (hne : cs ≠ []) (h : ∀ c ∈ cs, IsComponent c)
    (hu : IsOptSub u) : pdepth (passage cs u) = cs.length := by
  have h1 := pdepth_dotted hne h
  cases u with
  | none => exact h1
  | some w =>
    have hw : w.count '.' = 0 := by simpa [List.count_eq_zero] using hu.1
    simp [pdepth, count, passage, List.count_append, hw] at h1 ⊢
    exact h1

theorem psub_passage {cs : List Str} {u : Option Str} (h : ∀ c ∈ cs, IsComponent c)
    (hu : IsOptSub u) : psub (passage cs u) = u.map ('@' :: ·) := by
  cases u with
  | none => exact psub_dotted h
  | some w =>
    have h0 := not_mem_dotted (x := '@') (cs := cs) (by decide) fun c hc => (h c hc).2.2.2
    rw [psub, passage, split_append _ h0, split_of_not_mem hu.2.2]; rfl

end Verif.Model
