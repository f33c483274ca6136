import Verif.Spec.Generic
import Verif.Lemmas.Str
namespace Verif.Lemmas
open Verif.Py Verif.Model Verif.Spec

/-! ### Spaces -/

theorem squeeze_space (r : Str) : squeeze (' ' :: r) = ' ' :: squeeze (r.dropWhile (· == ' ')) := by
  induction r with
  | nil => simp [squeeze]
  | cons d r ih =>
    by_cases hd : d = ' '
    · subst hd; rw [squeeze, if_pos ⟨rfl, rfl⟩, ih]; simp
    · rw [squeeze, if_neg (by simp [hd])]; simp [hd]

theorem squeeze_cons {c : Char} {r : Str} (h : ∀ r', c = ' ' → r = ' ' :: r' → False) : squeeze (c :: r) = c :: squeeze r := by
  cases r with
  | nil => simp [squeeze]
  | cons d r => rw [squeeze, if_neg (fun ⟨h1, h2⟩ => h r h1 (by rw [h2]))]

theorem normalize_eq (s : Str) : normalize s = squeeze s := by
  induction s using normalize.induct with
  | case1 r ih => rw [normalize, ih, squeeze_space]; simp
  | case2 c r h ih =>
    rw [squeeze_cons (fun r' h1 h2 => h r' h1 h2), ← ih, normalize]
    intro r' h1 h2; exact h r' h1 h2
  | case3 => simp [normalize, squeeze]

theorem squeeze_head (s : Str) : (squeeze s).head? = s.head? := by
  induction s with
  | nil => rfl
  | cons c r ih =>
    cases r with
    | nil => rfl
    | cons d r =>
      rw [squeeze]
      split
      · rename_i h; rw [ih]; simp [h.1, h.2]
      · simp

theorem squeeze_eq_nil {s : Str} : squeeze s = [] ↔ s = [] := by
  have := squeeze_head s
  constructor
  · intro h; rw [h] at this; cases s <;> simp_all
  · rintro rfl; rfl

theorem squeeze_last (s : Str) : (squeeze s).getLast? = s.getLast? := by
  induction s with
  | nil => rfl
  | cons c r ih =>
    cases r with
    | nil => rfl
    | cons d r =>
      rw [squeeze]
      split
      · rw [ih]; simp
      · rw [List.getLast?_cons, ih]; simp [List.getLast?_cons]

/-- No two adjacent spaces. -/
def Single : Str → Prop
  | c :: d :: r => ¬ (c = ' ' ∧ d = ' ') ∧ Single (d :: r)
  | _ => True

theorem single_squeeze (s : Str) : Single (squeeze s) := by
  induction s with
  | nil => trivial
  | cons c r ih =>
    cases r with
    | nil => trivial
    | cons d r =>
      rw [squeeze]
      split
      · exact ih
      · rename_i h
        have hh := squeeze_head (d :: r)
        cases hq : squeeze (d :: r) with
        | nil => trivial
        | cons e q =>
          rw [hq] at hh ih
          simp at hh; subst hh
          exact ⟨h, ih⟩

theorem squeeze_of_single {s : Str} (h : Single s) : squeeze s = s := by
  induction s with
  | nil => rfl
  | cons c r ih =>
    cases r with
    | nil => rfl
    | cons d r => rw [squeeze, if_neg h.1, ih h.2]

theorem single_iff (s : Str) : Single s ↔ ∀ a b, s ≠ a ++ ' ' :: ' ' :: b := by
  induction s with
  | nil => simp [Single]
  | cons c r ih =>
    cases r with
    | nil =>
      simp only [Single, true_iff]
      intro a b h
      have := congrArg List.length h
      simp at this
      omega
    | cons d r =>
      rw [Single, ih]
      constructor
      · rintro ⟨h1, h2⟩ a b h
        cases a with
        | nil => simp at h; exact h1 ⟨h.1, h.2.1⟩
        | cons x a => simp at h; exact h2 a b h.2
      · intro h
        refine ⟨fun ⟨h1, h2⟩ => h [] r (by simp [h1, h2]), fun a b hab => h (c :: a) b (by simp [hab])⟩

theorem squeeze_filter (p : Char → Bool) (hp : p ' ' = false) (s : Str) : (squeeze s).filter p = s.filter p := by
  induction s with
  | nil => rfl
  | cons c r ih =>
    cases r with
    | nil => rfl
    | cons d r =>
      rw [squeeze]
      split
      · rename_i h; rw [ih, h.1]; simp [List.filter_cons, hp]
      · simp only [List.filter_cons] at ih ⊢; rw [ih]

theorem words_space (r : Str) : words (' ' :: r) = words r := by simp [words, split]

theorem split_squeeze (s : Str) : ∃ h t t', split ' ' s = h :: t ∧ split ' ' (squeeze s) = h :: t' ∧
    t'.filter (fun w => !w.isEmpty) = t.filter fun w => !w.isEmpty := by
  induction s with
  | nil => exact ⟨[], [], [], rfl, rfl, rfl⟩
  | cons c r ih =>
    cases r with
    | nil =>
      cases hs : split ' ' [c] with
      | nil => exact absurd hs (split_ne_nil _ _)
      | cons h t => exact ⟨h, t, t, rfl, by rw [squeeze, hs], rfl⟩
    | cons d r =>
      obtain ⟨h, t, t', h1, h2, h3⟩ := ih
      rw [squeeze]
      split
      · rename_i hc
        obtain ⟨rfl, rfl⟩ := hc
        refine ⟨[], h :: t, t', by simp [split_cons_self, ← h1], ?_, ?_⟩
        · rw [split_cons_self] at h1
          rw [h2]; simp_all
        · rw [split_cons_self] at h1
          have : h = [] := by simp_all
          rw [this, h3]; simp
      · by_cases hc : c = ' '
        · subst hc
          exact ⟨[], h :: t, h :: t', by rw [split_cons_self, h1], by rw [split_cons_self, h2], by simp [List.filter_cons, h3]⟩
        · obtain ⟨a, b, e1, e2⟩ := split_cons_ne (xs := d :: r) hc
          obtain ⟨a', b', e3, e4⟩ := split_cons_ne (xs := squeeze (d :: r)) hc
          rw [h1] at e1; rw [h2] at e3
          simp at e1 e3
          obtain ⟨rfl, rfl⟩ := e1
          obtain ⟨rfl, rfl⟩ := e3
          exact ⟨_, _, _, e2, e4, h3⟩

theorem words_squeeze (s : Str) : words (squeeze s) = words s := by
  obtain ⟨h, t, t', h1, h2, h3⟩ := split_squeeze s
  simp only [words, h1, h2, List.filter_cons, h3]

/-! ### Replacing -/

theorem replace_go_single (c : Char) (new : Str) (n : Nat) (s : Str) (h : s.length ≤ n) :
    replace.go [c] new n s = s.flatMap fun x => if x = c then new else [x] := by
  induction n generalizing s with
  | zero => cases s with
    | nil => rfl
    | cons => simp at h
  | succ n ih =>
    cases s with
    | nil => rfl
    | cons x xs =>
      simp only [List.length_cons] at h
      simp only [replace.go, List.isPrefixOf, List.flatMap_cons]
      by_cases hx : x = c
      · subst hx; simp [ih xs (by omega)]
      · have : ¬ c = x := fun e => hx e.symm
        simp [hx, this, ih xs (by omega)]

theorem replace_single (c : Char) (new s : Str) :
    replace [c] new s = s.flatMap fun x => if x = c then new else [x] := by
  unfold replace
  rw [if_neg (by simp), replace_go_single c new s.length s (Nat.le_refl _)]

/-- How one character is escaped. -/
def escapeChar (c : Char) : Str :=
  if c = '&' then ['&', 'a', 'm', 'p', ';'] else if c = '>' then ['&', 'g', 't', ';'] else if c = '<' then ['&', 'l', 't', ';'] else [c]

theorem xmlEscape_eq (s : Str) : xmlEscape s = s.flatMap escapeChar := by
  unfold xmlEscape
  rw [replace_single, replace_single, replace_single, List.flatMap_assoc, List.flatMap_assoc]
  congr 1
  funext c
  unfold escapeChar
  by_cases h1 : c = '&'
  · subst h1; decide
  · by_cases h2 : c = '>'
    · subst h2; decide
    · by_cases h3 : c = '<'
      · subst h3; decide
      · simp [h1, h2, h3]

theorem unescape_escape (s : Str) (r : Str) : unescape (s.flatMap escapeChar ++ r) = s ++ unescape r := by
  induction s with
  | nil => rfl
  | cons c s ih =>
    rw [List.flatMap_cons, List.append_assoc]
    generalize s.flatMap escapeChar = q at ih ⊢
    unfold escapeChar
    by_cases h1 : c = '&'
    · subst h1; simp [unescape, ih]
    · by_cases h2 : c = '>'
      · subst h2; simp [unescape, ih]
      · by_cases h3 : c = '<'
        · subst h3; simp [unescape, ih]
        · simp only [h1, h2, h3, if_false, List.singleton_append]
          rw [unescape.eq_4, ih]
          · rfl
          all_goals (intro _ h; exact absurd h h1)

theorem replace_go_absent (old new : Str) (n : Nat) (s : Str) (h : ∀ a b, s ≠ a ++ old ++ b) :
    replace.go old new n s = s := by
  induction n generalizing s with
  | zero => rfl
  | succ n ih =>
    cases s with
    | nil => rfl
    | cons x xs =>
      have hp : old.isPrefixOf (x :: xs) = false := by
        cases hb : old.isPrefixOf (x :: xs) with
        | false => rfl
        | true =>
          rw [List.isPrefixOf_iff_prefix] at hb
          obtain ⟨b, hb⟩ := hb
          exact absurd hb.symm (h [] b)
      simp only [replace.go, hp]
      rw [ih xs]
      · rfl
      · intro a b e; exact h (x :: a) b (by simp [e])

theorem replace_first (old new s : Str) (hne : old ≠ []) (h : ∀ a b, s ≠ a ++ old ++ b) :
    replace old new (old ++ s) = new ++ s := by
  unfold replace
  rw [if_neg hne]
  cases old with
  | nil => exact absurd rfl hne
  | cons x old =>
    simp only [List.cons_append, List.length_cons, replace.go]
    rw [if_pos (by rw [List.isPrefixOf_iff_prefix]; exact ⟨s, rfl⟩)]
    simp only [List.length_cons, List.drop_succ_cons, List.drop_left]
    rw [replace_go_absent _ _ _ _ h]

/-! ### Dictionaries -/

theorem lookup_putItem_self {β : Type} (l : List (Str × β)) (k : Str) (v : β) : (putItem l k v).lookup k = some v := by
  induction l with
  | nil => simp [putItem]
  | cons p r ih =>
    obtain ⟨x, w⟩ := p
    simp only [putItem]
    split
    · simp
    · rename_i h
      rw [List.lookup_cons]
      have : (k == x) = false := by simp; exact fun e => h e.symm
      rw [this]; exact ih

theorem lookup_putItem_ne {β : Type} (l : List (Str × β)) {k k' : Str} (v : β) (h : k' ≠ k) :
    (putItem l k v).lookup k' = l.lookup k' := by
  induction l with
  | nil =>
    have hb : (k' == k) = false := by simp [h]
    simp [putItem, List.lookup_cons, hb]
  | cons p r ih =>
    obtain ⟨x, w⟩ := p
    simp only [putItem]
    split
    · rename_i hx; subst hx
      have hb : (k' == x) = false := by simp [h]
      simp [List.lookup_cons, hb]
    · simp only [List.lookup_cons, ih]

theorem putItem_same {β : Type} {l : List (Str × β)} {k : Str} {v : β} (h : l.lookup k = some v) : putItem l k v = l := by
  induction l with
  | nil => simp at h
  | cons p r ih =>
    obtain ⟨x, w⟩ := p
    simp only [putItem]
    by_cases hx : x = k
    · subst hx; simp at h; simp [h]
    · have : (k == x) = false := by simp; exact fun e => hx e.symm
      rw [List.lookup_cons, this] at h
      rw [if_neg hx, ih h]

theorem putItem_putItem {β : Type} (l : List (Str × β)) (k : Str) (v w : β) : putItem (putItem l k v) k w = putItem l k w := by
  induction l with
  | nil => simp [putItem]
  | cons p r ih =>
    obtain ⟨x, u⟩ := p
    by_cases hx : x = k
    · simp [putItem, hx]
    · simp [putItem, hx, ih]

end Verif.Lemmas
