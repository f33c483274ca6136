import Verif.Py.Str
/-! Helper lemmas about the Python string functions. -/
namespace Verif.Py

theorem split_ne_nil (c : Char) (s : Str) : split c s ≠ [] := by
  cases s with
  | nil => simp [split]
  | cons x xs =>
    simp only [split]
    split
    · simp
    · split <;> simp

theorem split_cons_ne {c x : Char} {xs : Str} (h : x ≠ c) :
    ∃ hd tl, split c xs = hd :: tl ∧ split c (x :: xs) = (x :: hd) :: tl := by
  cases hs : split c xs with
  | nil => exact absurd hs (split_ne_nil c xs)
  | cons hd tl => exact ⟨hd, tl, rfl, by simp [split, h, hs]⟩

@[simp] theorem split_nil (c : Char) : split c [] = [[]] := rfl

@[simp] theorem split_cons_self (c : Char) (xs : Str) : split c (c :: xs) = [] :: split c xs := by
  simp [split]

theorem join_cons_ne_nil (sep x : Str) {l : List Str} (h : l ≠ []) :
    join sep (x :: l) = x ++ sep ++ join sep l := by
  cases l with
  | nil => exact absurd rfl h
  | cons y r => rfl

@[simp] theorem join_singleton (sep x : Str) : join sep [x] = x := rfl
@[simp] theorem join_nil (sep : Str) : join sep [] = [] := rfl

/-- `c.join(s.split(c)) == s`. -/
theorem join_split (c : Char) (s : Str) : join [c] (split c s) = s := by
  induction s with
  | nil => rfl
  | cons x xs ih =>
    by_cases h : x = c
    · subst h
      rw [split_cons_self, join_cons_ne_nil _ _ (split_ne_nil _ _), ih]; rfl
    · obtain ⟨hd, tl, h1, h2⟩ := split_cons_ne (xs := xs) h
      rw [h2]; rw [h1] at ih
      cases tl with
      | nil => simpa [join] using ih
      | cons y r => simpa [join] using ih

/-- No piece of `s.split(c)` contains `c`. -/
theorem not_mem_of_mem_split {c : Char} {s p : Str} (h : p ∈ split c s) : c ∉ p := by
  induction s generalizing p with
  | nil => simp at h; simp [h]
  | cons x xs ih =>
    by_cases hx : x = c
    · subst hx
      rw [split_cons_self] at h
      rcases List.mem_cons.1 h with h | h
      · simp [h]
      · exact ih h
    · obtain ⟨hd, tl, h1, h2⟩ := split_cons_ne (xs := xs) hx
      rw [h2] at h; rw [h1] at ih
      rcases List.mem_cons.1 h with h | h
      · subst h
        simp only [List.mem_cons, not_or]
        exact ⟨fun e => hx e.symm, ih (by simp)⟩
      · exact ih (by simp [h])

theorem length_split (c : Char) (s : Str) : (split c s).length = s.count c + 1 := by
  induction s with
  | nil => rfl
  | cons x xs ih =>
    by_cases hx : x = c
    · subst hx; simp [ih]
    · obtain ⟨hd, tl, h1, h2⟩ := split_cons_ne (xs := xs) hx
      rw [h2]; rw [h1] at ih
      simp [hx] at ih ⊢
      omega

theorem split_of_not_mem {c : Char} {s : Str} (h : c ∉ s) : split c s = [s] := by
  induction s with
  | nil => rfl
  | cons x xs ih =>
    simp only [List.mem_cons, not_or] at h
    obtain ⟨hd, tl, h1, h2⟩ := split_cons_ne (xs := xs) (c := c) (x := x) (fun e => h.1 e.symm)
    rw [ih h.2] at h1
    rw [h2]; simp at h1; simp [h1.1.symm, ← h1.2]

theorem split_append {c : Char} {a : Str} (b : Str) (h : c ∉ a) :
    split c (a ++ c :: b) = a :: split c b := by
  induction a with
  | nil => simp
  | cons x xs ih =>
    simp only [List.mem_cons, not_or] at h
    obtain ⟨hd, tl, h1, h2⟩ := split_cons_ne (xs := xs ++ c :: b) (c := c) (x := x) (fun e => h.1 e.symm)
    rw [ih h.2] at h1
    rw [List.cons_append, h2]; simp at h1; simp [h1.1.symm, ← h1.2]

/-- Splitting a join of separator-free pieces gives the pieces back. -/
theorem split_join {c : Char} {l : List Str} (hne : l ≠ []) (h : ∀ p ∈ l, c ∉ p) :
    split c (join [c] l) = l := by
  induction l with
  | nil => exact absurd rfl hne
  | cons x r ih =>
    cases r with
    | nil => simpa using split_of_not_mem (h x (by simp))
    | cons y r' =>
      rw [join_cons_ne_nil _ _ (by simp)]
      have : x ++ [c] ++ join [c] (y :: r') = x ++ c :: join [c] (y :: r') := by simp
      rw [this, split_append _ (h x (by simp)), ih (by simp) (fun p hp => h p (by simp [hp]))]

theorem count_eq_zero_iff {c : Char} {s : Str} : s.count c = 0 ↔ c ∉ s := by
  simp [List.count_eq_zero]

/-- A split into exactly two pieces. -/
theorem split_eq_pair {c : Char} {s a b : Str} :
    split c s = [a, b] ↔ s = a ++ c :: b ∧ c ∉ a ∧ c ∉ b := by
  constructor
  · intro h
    refine ⟨?_, ?_, ?_⟩
    · have := join_split c s; rw [h] at this; simp [join] at this; exact this.symm
    · exact not_mem_of_mem_split (s := s) (by simp [h])
    · exact not_mem_of_mem_split (s := s) (by simp [h])
  · rintro ⟨rfl, ha, hb⟩
    rw [split_append _ ha, split_of_not_mem hb]

theorem head_split_append {c : Char} {a : Str} (b : Str) (h : c ∉ a) :
    (split c (a ++ c :: b)).head? = some a := by
  rw [split_append _ h]; rfl

theorem exists_append_of_mem {c : Char} {s : Str} (h : c ∈ s) :
    ∃ a b, s = a ++ c :: b ∧ c ∉ a := by
  induction s with
  | nil => simp at h
  | cons x xs ih =>
    by_cases hx : x = c
    · exact ⟨[], xs, by simp [hx], by simp⟩
    · have : c ∈ xs := by
        rcases List.mem_cons.1 h with h | h
        · exact absurd h.symm hx
        · exact h
      obtain ⟨a, b, h1, h2⟩ := ih this
      refine ⟨x :: a, b, by simp [h1], ?_⟩
      simp only [List.mem_cons, not_or]
      exact ⟨fun e => hx e.symm, h2⟩

theorem find_eq_none {c : Char} {s : Str} : find c s = none ↔ c ∉ s := by
  induction s with
  | nil => simp [find]
  | cons x xs ih =>
    simp only [find]
    split
    · rename_i h; simp [h]
    · rename_i h; simp [ih]; intro _ e; exact h e.symm

theorem find_append {c : Char} {a : Str} (b : Str) (h : c ∉ a) :
    find c (a ++ c :: b) = some a.length := by
  induction a with
  | nil => simp [find]
  | cons x xs ih =>
    simp only [List.mem_cons, not_or] at h
    simp [find, ih h.2]
    exact fun e => h.1 e.symm

end Verif.Py

namespace Verif.Py

/-! ### Decimal numbers -/

theorem digitChar_toNat {n : Nat} (h : n < 10) : (digitChar n).toNat = 48 + n := by
  have : n = 0 ∨ n = 1 ∨ n = 2 ∨ n = 3 ∨ n = 4 ∨ n = 5 ∨ n = 6 ∨ n = 7 ∨ n = 8 ∨ n = 9 := by omega
  rcases this with h|h|h|h|h|h|h|h|h|h <;> subst h <;> rfl

theorem isDigit_digitChar {n : Nat} (h : n < 10) : isDigit (digitChar n) = true := by
  simp [isDigit, digitChar_toNat h]; omega

theorem isDigit_natStr (n : Nat) : ∀ c ∈ natStr n, isDigit c = true := by
  induction n using natStr.induct with
  | case1 n h => intro c hc; rw [natStr, if_pos h] at hc; simp at hc; subst hc; exact isDigit_digitChar h
  | case2 n h ih =>
    intro c hc; rw [natStr, if_neg h] at hc
    rcases List.mem_append.1 hc with hc | hc
    · exact ih c hc
    · simp at hc; subst hc; exact isDigit_digitChar (Nat.mod_lt _ (by omega))

theorem natStr_ne_nil (n : Nat) : natStr n ≠ [] := by
  rw [natStr]; split <;> simp

theorem digitsVal_append (s : Str) (c : Char) :
    digitsVal (s ++ [c]) = 10 * digitsVal s + (c.toNat - 48) := by
  simp [digitsVal, List.foldl_append]

/-- `int(str(n)) == n`. -/
theorem digitsVal_natStr (n : Nat) : digitsVal (natStr n) = n := by
  induction n using natStr.induct with
  | case1 n h => rw [natStr, if_pos h]; simp [digitsVal, digitChar_toNat h]
  | case2 n h ih =>
    rw [natStr, if_neg h, digitsVal_append, ih, digitChar_toNat (Nat.mod_lt _ (by omega))]; omega

theorem natStr_injective {m n : Nat} (h : natStr m = natStr n) : m = n := by
  rw [← digitsVal_natStr m, h, digitsVal_natStr]

/-! ### takeWhile / dropWhile on a prefix -/

theorem takeWhile_append_stop {p : Char → Bool} {a : Str} {x : Char} (r : Str)
    (ha : ∀ c ∈ a, p c = true) (hx : p x = false) : (a ++ x :: r).takeWhile p = a := by
  induction a with
  | nil => simp [hx]
  | cons y ys ih =>
    simp [ha y (by simp), ih (fun c hc => ha c (by simp [hc]))]

theorem dropWhile_append_stop {p : Char → Bool} {a : Str} {x : Char} (r : Str)
    (ha : ∀ c ∈ a, p c = true) (hx : p x = false) : (a ++ x :: r).dropWhile p = x :: r := by
  induction a with
  | nil => simp [hx]
  | cons y ys ih =>
    simp [ha y (by simp), ih (fun c hc => ha c (by simp [hc]))]

theorem takeWhile_all {p : Char → Bool} {a : Str} (ha : ∀ c ∈ a, p c = true) :
    a.takeWhile p = a := by
  induction a with
  | nil => rfl
  | cons y ys ih => simp [ha y (by simp), ih (fun c hc => ha c (by simp [hc]))]

theorem dropWhile_all {p : Char → Bool} {a : Str} (ha : ∀ c ∈ a, p c = true) :
    a.dropWhile p = [] := by
  induction a with
  | nil => rfl
  | cons y ys ih => simp [ha y (by simp), ih (fun c hc => ha c (by simp [hc]))]

/-! ### join and membership -/

theorem not_mem_join {c : Char} {sep : Str} {l : List Str} (hs : c ∉ sep) (h : ∀ p ∈ l, c ∉ p) :
    c ∉ join sep l := by
  induction l with
  | nil => simp
  | cons x r ih =>
    cases r with
    | nil => simpa using h x (by simp)
    | cons y r' =>
      rw [join_cons_ne_nil _ _ (by simp)]
      simp only [List.mem_append, not_or]
      exact ⟨⟨h x (by simp), hs⟩, ih (fun p hp => h p (by simp [hp]))⟩

theorem join_append {sep : Str} {l r : List Str} (hl : l ≠ []) (hr : r ≠ []) :
    join sep (l ++ r) = join sep l ++ sep ++ join sep r := by
  induction l with
  | nil => exact absurd rfl hl
  | cons x l ih =>
    cases l with
    | nil => simp [join_cons_ne_nil _ _ hr]
    | cons y l' =>
      rw [List.cons_append, join_cons_ne_nil _ _ (by simp), ih (by simp),
        join_cons_ne_nil _ x (l := y :: l') (by simp)]
      simp

theorem join_eq_nil_singleton {sep : Str} {l : List Str} (hsep : sep ≠ []) (h : join sep l = []) :
    l = [] ∨ l = [[]] := by
  match l with
  | [] => simp
  | [x] => simpa using h
  | x :: y :: r => simp [join] at h; exact absurd h.2.1 hsep

theorem count_join {c : Char} {l : List Str} (h : ∀ p ∈ l, c ∉ p) :
    (join [c] l).count c = l.length - 1 := by
  induction l with
  | nil => rfl
  | cons x r ih =>
    cases r with
    | nil => simpa [List.count_eq_zero] using h x (by simp)
    | cons y r' =>
      rw [join_cons_ne_nil _ _ (by simp), List.count_append, List.count_append,
        ih (fun p hp => h p (by simp [hp]))]
      have : x.count c = 0 := by simpa [List.count_eq_zero] using h x (by simp)
      simp [this]; omega

end Verif.Py
