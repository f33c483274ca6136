import Verif.Model.Inventory
/-!
Lemmas about dictionaries kept as lists of values with a key: `putKeyed` and `addKeyed`.
-/
namespace Verif.Lemmas
open Verif.Py Verif.Model

variable {α : Type} {key : α → Str}

theorem putKeyed_of_not_mem {l : List α} {v : α} (h : key v ∉ l.map key) : putKeyed key l v = l ++ [v] := by
  induction l with
  | nil => rfl
  | cons x r ih =>
    simp only [List.map_cons, List.mem_cons, not_or] at h
    rw [putKeyed, if_neg (fun e => h.1 e.symm), ih h.2]; rfl

theorem map_putKeyed_of_mem {l : List α} {v : α} (h : key v ∈ l.map key) : (putKeyed key l v).map key = l.map key := by
  induction l with
  | nil => cases h
  | cons x r ih =>
    rw [putKeyed]
    by_cases hx : key x = key v
    · rw [if_pos hx]; simp [hx]
    · rw [if_neg hx]
      simp only [List.map_cons, List.mem_cons] at h ⊢
      rw [ih (h.resolve_left (fun e => hx e.symm))]

theorem mem_keys_putKeyed {l : List α} {v : α} {k : Str} : k ∈ (putKeyed key l v).map key ↔ k = key v ∨ k ∈ l.map key := by
  by_cases h : key v ∈ l.map key
  · rw [map_putKeyed_of_mem h]
    constructor
    · exact Or.inr
    · rintro (rfl | h') <;> assumption
  · rw [putKeyed_of_not_mem h]; simp; constructor <;> (rintro (h | h) <;> simp [h])

theorem nodup_putKeyed {l : List α} {v : α} (h : (l.map key).Nodup) : ((putKeyed key l v).map key).Nodup := by
  by_cases hm : key v ∈ l.map key
  · rw [map_putKeyed_of_mem hm]; exact h
  · rw [putKeyed_of_not_mem hm, List.map_append, List.nodup_append]
    refine ⟨h, by simp, ?_⟩
    intro a ha b hb e
    simp at hb; subst hb; subst e; exact hm ha

theorem find_putKeyed (l : List α) (v : α) (k : Str) :
    (putKeyed key l v).find? (fun x => key x == k) = if key v = k then some v else l.find? (fun x => key x == k) := by
  induction l with
  | nil => by_cases h : key v = k <;> simp [putKeyed, h]
  | cons x r ih =>
    rw [putKeyed]
    by_cases hx : key x = key v
    · rw [if_pos hx]
      by_cases h : key v = k
      · simp [h]
      · have h' : ¬ key x = k := by rw [hx]; exact h
        simp [h, h']
    · rw [if_neg hx]
      by_cases h : key v = k
      · have h' : ¬ key x = k := by rw [← h]; exact hx
        simp only [List.find?_cons, if_pos h, ih, beq_eq_false_iff_ne.mpr h']
      · simp only [List.find?_cons, if_neg h, ih]

theorem mem_putKeyed {l : List α} (hn : (l.map key).Nodup) {v x : α} :
    x ∈ putKeyed key l v ↔ x = v ∨ (x ∈ l ∧ key x ≠ key v) := by
  induction l with
  | nil => simp [putKeyed]
  | cons y r ih =>
    simp only [List.map_cons, List.nodup_cons] at hn
    rw [putKeyed]
    by_cases hy : key y = key v
    · rw [if_pos hy]
      simp only [List.mem_cons]
      constructor
      · rintro (h | h)
        · exact Or.inl h
        · refine Or.inr ⟨Or.inr h, ?_⟩
          intro e
          exact hn.1 (by rw [hy, ← e]; exact List.mem_map_of_mem h)
      · rintro (h | ⟨h | h, hk⟩)
        · exact Or.inl h
        · subst h; exact absurd hy hk
        · exact Or.inr h
    · rw [if_neg hy]
      simp only [List.mem_cons, ih hn.2]
      constructor
      · rintro (h | h | ⟨h, hk⟩)
        · subst h; exact Or.inr ⟨Or.inl rfl, hy⟩
        · exact Or.inl h
        · exact Or.inr ⟨Or.inr h, hk⟩
      · rintro (h | ⟨h | h, hk⟩)
        · exact Or.inr (Or.inl h)
        · exact Or.inl h
        · exact Or.inr (Or.inr ⟨h, hk⟩)

/-- With different keys, looking a key up finds its object. -/
theorem find_of_mem {l : List α} (hn : (l.map key).Nodup) {x : α} (hx : x ∈ l) : l.find? (fun y => key y == key x) = some x := by
  induction l with
  | nil => cases hx
  | cons y r ih =>
    simp only [List.map_cons, List.nodup_cons] at hn
    rcases List.mem_cons.mp hx with rfl | h
    · simp
    · have hne : key y ≠ key x := fun e => hn.1 (by rw [e]; exact List.mem_map_of_mem h)
      rw [List.find?_cons, beq_eq_false_iff_ne.mpr hne]
      exact ih hn.2 h

theorem eq_of_key {l : List α} (hn : (l.map key).Nodup) {x y : α} (hx : x ∈ l) (hy : y ∈ l) (e : key x = key y) : x = y := by
  have h1 := find_of_mem hn hx
  rw [e, find_of_mem hn hy] at h1
  exact (Option.some.inj h1).symm

/-- Storing what is stored already changes nothing. -/
theorem putKeyed_self {l : List α} {v : α} (h : key v ∈ l.map key) (hu : ∀ x ∈ l, key x = key v → x = v) : putKeyed key l v = l := by
  induction l with
  | nil => cases h
  | cons x r ih =>
    rw [putKeyed]
    by_cases hx : key x = key v
    · rw [if_pos hx, hu x (List.mem_cons_self ..) hx]
    · rw [if_neg hx]
      simp only [List.map_cons, List.mem_cons] at h
      rw [ih (h.resolve_left (fun e => hx e.symm)) (fun y hy => hu y (List.mem_cons_of_mem _ hy))]

theorem putKeyed_append (a b : List α) (v : α) :
    putKeyed key (a ++ b) v = if key v ∈ a.map key then putKeyed key a v ++ b else a ++ putKeyed key b v := by
  induction a with
  | nil => simp
  | cons x r ih =>
    simp only [List.cons_append, putKeyed, List.map_cons, List.mem_cons]
    by_cases hx : key x = key v
    · simp [hx]
    · have hx' : ¬ key v = key x := fun e => hx e.symm
      simp only [if_neg hx, ih, hx', false_or]
      by_cases hm : key v ∈ r.map key <;> simp [hm]

/-! ### Storing several -/

theorem nodup_foldl_put (l : List α) {base : List α} (h : (base.map key).Nodup) : ((l.foldl (putKeyed key) base).map key).Nodup := by
  induction l generalizing base with
  | nil => exact h
  | cons x r ih => exact ih (nodup_putKeyed h)

theorem mem_foldl_put {l base : List α} (hb : (base.map key).Nodup) (hl : (l.map key).Nodup) {x : α} :
    x ∈ l.foldl (putKeyed key) base ↔ x ∈ l ∨ (x ∈ base ∧ key x ∉ l.map key) := by
  induction l generalizing base with
  | nil => simp
  | cons y r ih =>
    simp only [List.map_cons, List.nodup_cons] at hl
    rw [List.foldl_cons, ih (nodup_putKeyed hb) hl.2, mem_putKeyed hb]
    simp only [List.mem_cons, List.map_cons, not_or]
    constructor
    · rintro (h | ⟨h | ⟨h, hk⟩, hn⟩)
      · exact Or.inl (Or.inr h)
      · exact Or.inl (Or.inl h)
      · exact Or.inr ⟨h, hk, hn⟩
    · rintro ((h | h) | ⟨h, hk, hn⟩)
      · subst h; exact Or.inr ⟨Or.inl rfl, hl.1⟩
      · exact Or.inl h
      · exact Or.inr ⟨Or.inr ⟨h, hk⟩, hn⟩

theorem keys_foldl_put {l base : List α} {k : Str} :
    k ∈ (l.foldl (putKeyed key) base).map key ↔ k ∈ l.map key ∨ k ∈ base.map key := by
  induction l generalizing base with
  | nil => simp
  | cons y r ih =>
    rw [List.foldl_cons, ih, mem_keys_putKeyed]
    simp only [List.map_cons, List.mem_cons]
    constructor
    · rintro (h | h | h) <;> simp [h]
    · rintro ((h | h) | h) <;> simp [h]

/-- Storing again what has just been stored changes nothing. -/
theorem foldl_put_self {l base : List α} (hb : (base.map key).Nodup) (h : ∀ x ∈ l, x ∈ base) : l.foldl (putKeyed key) base = base := by
  induction l with
  | nil => rfl
  | cons y r ih =>
    have hy := h y (List.mem_cons_self ..)
    rw [List.foldl_cons, putKeyed_self (List.mem_map_of_mem hy) (fun x hx e => eq_of_key hb hx hy e)]
    exact ih (fun x hx => h x (List.mem_cons_of_mem _ hx))

/-! ### `addKeyed` -/

theorem nodup_addKeyed {l : List α} {v : α} (h : (l.map key).Nodup) : ((addKeyed key l v).map key).Nodup := by
  rw [addKeyed]
  split
  · exact h
  · rename_i hm
    rw [← putKeyed_of_not_mem hm]; exact nodup_putKeyed h

theorem mem_addKeyed {l : List α} {v x : α} : x ∈ addKeyed key l v ↔ x ∈ l ∨ (x = v ∧ key v ∉ l.map key) := by
  rw [addKeyed]
  split
  · rename_i hm; simp [hm]
  · rename_i hm; simp [hm]

theorem keys_addKeyed {l : List α} {v : α} {k : Str} : k ∈ (addKeyed key l v).map key ↔ k ∈ l.map key ∨ k = key v := by
  rw [addKeyed]
  split
  · rename_i hm
    constructor
    · exact Or.inl
    · rintro (h | rfl) <;> assumption
  · simp

theorem nodup_foldl_add (l : List α) {base : List α} (h : (base.map key).Nodup) : ((l.foldl (addKeyed key) base).map key).Nodup := by
  induction l generalizing base with
  | nil => exact h
  | cons x r ih => exact ih (nodup_addKeyed h)

theorem keys_foldl_add {l base : List α} {k : Str} :
    k ∈ (l.foldl (addKeyed key) base).map key ↔ k ∈ base.map key ∨ k ∈ l.map key := by
  induction l generalizing base with
  | nil => simp
  | cons y r ih =>
    rw [List.foldl_cons, ih, keys_addKeyed]
    simp only [List.map_cons, List.mem_cons]
    constructor
    · rintro ((h | h) | h) <;> simp [h]
    · rintro (h | h | h) <;> simp [h]

/-- What is added to an empty dictionary one after the other: the first of each key. -/
theorem mem_foldl_add {l base : List α} {x : α} :
    x ∈ l.foldl (addKeyed key) base ↔
      x ∈ base ∨ (key x ∉ base.map key ∧ ∃ pre post, l = pre ++ x :: post ∧ key x ∉ pre.map key) := by
  induction l generalizing base with
  | nil => simp
  | cons y r ih =>
    rw [List.foldl_cons, ih, mem_addKeyed]
    constructor
    · rintro ((h | ⟨rfl, hk⟩) | ⟨hk, pre, post, rfl, hp⟩)
      · exact Or.inl h
      · exact Or.inr ⟨hk, [], r, rfl, by simp⟩
      · rw [keys_addKeyed, not_or] at hk
        exact Or.inr ⟨hk.1, y :: pre, post, rfl, by simp [hp, hk.2]⟩
    · rintro (h | ⟨hk, pre, post, e, hp⟩)
      · exact Or.inl (Or.inl h)
      · cases pre with
        | nil =>
          simp only [List.nil_append, List.cons.injEq] at e
          obtain ⟨rfl, rfl⟩ := e
          exact Or.inl (Or.inr ⟨rfl, hk⟩)
        | cons z pre =>
          simp only [List.cons_append, List.cons.injEq] at e
          obtain ⟨rfl, rfl⟩ := e
          simp only [List.map_cons, List.mem_cons, not_or] at hp
          exact Or.inr ⟨by rw [keys_addKeyed, not_or]; exact ⟨hk, hp.1⟩, pre, post, rfl, hp.2⟩

end Verif.Lemmas
