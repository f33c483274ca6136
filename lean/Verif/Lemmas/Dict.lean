import Verif.Model.Retriever
/-! Dictionaries as lists of pairs: `setKey` and `updateKeys`. -/
namespace Verif.Lemmas
open Verif.Py Verif.Model

variable {α : Type}

/-- The value of a key. -/
def dictGet (d : List (Str × α)) (k : Str) : Option α := (d.find? fun p => p.1 == k).map (·.2)

/-- The last value of a key. -/
def lastGet (d : List (Str × α)) (k : Str) : Option α := (d.reverse.find? fun p => p.1 == k).map (·.2)

/-- Keys come at the end when they are new. -/
def addKeys (ks l : List Str) : List Str := l.foldl (fun ks k => if k ∈ ks then ks else ks ++ [k]) ks

theorem keys_setKey (d : List (Str × α)) (k : Str) (v : α) :
    (setKey d k v).map (·.1) = if k ∈ d.map (·.1) then d.map (·.1) else d.map (·.1) ++ [k] := by
  induction d with
  | nil => simp [setKey]
  | cons p d ih =>
    obtain ⟨a, b⟩ := p
    rw [setKey]
    by_cases e : a = k
    · subst e; simp
    · rw [if_neg e, List.map_cons, ih, List.map_cons]
      by_cases hk : k ∈ d.map (·.1)
      · rw [if_pos hk, if_pos (List.mem_cons_of_mem _ hk)]
      · rw [if_neg hk, if_neg]
        · rfl
        · intro h
          rcases List.mem_cons.mp h with h | h
          · exact e h.symm
          · exact hk h

theorem keys_updateKeys (l d : List (Str × α)) : (updateKeys d l).map (·.1) = addKeys (d.map (·.1)) (l.map (·.1)) := by
  induction l generalizing d with
  | nil => rfl
  | cons p l ih =>
    rw [show updateKeys d (p :: l) = updateKeys (setKey d p.1 p.2) l from rfl, ih, keys_setKey]
    rfl

theorem dictGet_setKey (d : List (Str × α)) (k : Str) (v : α) (k' : Str) :
    dictGet (setKey d k v) k' = if k' = k then some v else dictGet d k' := by
  induction d with
  | nil =>
    by_cases e : k' = k
    · subst e; simp [setKey, dictGet]
    · simp [setKey, dictGet, e, Ne.symm e]
  | cons p d ih =>
    obtain ⟨a, b⟩ := p
    rw [setKey]
    by_cases e : a = k
    · subst e
      by_cases e' : k' = a
      · subst e'; simp [dictGet]
      · have : (a == k') = false := by simp [Ne.symm e']
        simp [dictGet, this, e']
    · rw [if_neg e]
      by_cases e' : a = k'
      · subst e'
        simp [dictGet, e]
      · have h : (a == k') = false := by simp [e']
        simp only [dictGet, List.find?_cons, h] at ih ⊢
        exact ih

theorem lastGet_cons (p : Str × α) (l : List (Str × α)) (k : Str) :
    lastGet (p :: l) k = (lastGet l k).or (if p.1 = k then some p.2 else none) := by
  rw [lastGet, List.reverse_cons, List.find?_append, lastGet]
  cases l.reverse.find? (fun p => p.1 == k) with
  | some q => rfl
  | none =>
    by_cases h : p.1 = k <;> simp [h]

theorem dictGet_updateKeys (l d : List (Str × α)) (k : Str) : dictGet (updateKeys d l) k = (lastGet l k).or (dictGet d k) := by
  induction l generalizing d with
  | nil => rfl
  | cons p l ih =>
    rw [show updateKeys d (p :: l) = updateKeys (setKey d p.1 p.2) l from rfl, ih, dictGet_setKey, lastGet_cons]
    cases lastGet l k with
    | some v => rfl
    | none =>
      by_cases h : p.1 = k
      · subst h; simp
      · simp [h, Ne.symm h]

theorem mem_addKeys (l ks : List Str) (x : Str) : x ∈ addKeys ks l ↔ x ∈ ks ∨ x ∈ l := by
  induction l generalizing ks with
  | nil => simp [addKeys]
  | cons k l ih =>
    rw [show addKeys ks (k :: l) = addKeys (if k ∈ ks then ks else ks ++ [k]) l from rfl, ih]
    by_cases h : k ∈ ks
    · rw [if_pos h, List.mem_cons]
      constructor
      · rintro (h' | h')
        · exact Or.inl h'
        · exact Or.inr (Or.inr h')
      · rintro (h' | rfl | h')
        · exact Or.inl h'
        · exact Or.inl h
        · exact Or.inr h'
    · rw [if_neg h, List.mem_append, List.mem_singleton, List.mem_cons, or_assoc]

theorem addKeys_nodup (l ks : List Str) (h : ks.Nodup) : (addKeys ks l).Nodup := by
  induction l generalizing ks with
  | nil => exact h
  | cons k l ih =>
    rw [show addKeys ks (k :: l) = addKeys (if k ∈ ks then ks else ks ++ [k]) l from rfl]
    apply ih
    split
    · exact h
    · rename_i hk
      rw [List.nodup_append]
      refine ⟨h, by simp, ?_⟩
      intro a ha b hb
      simp only [List.mem_singleton] at hb
      subst hb
      rintro rfl
      exact hk ha

theorem addKeys_of_mem (l ks : List Str) (h : ∀ x ∈ l, x ∈ ks) : addKeys ks l = ks := by
  induction l with
  | nil => rfl
  | cons k l ih =>
    rw [show addKeys ks (k :: l) = addKeys (if k ∈ ks then ks else ks ++ [k]) l from rfl, if_pos (h k (by simp))]
    exact ih fun x hx => h x (by simp [hx])

theorem addKeys_snoc (l ks : List Str) (k : Str) : addKeys ks (l ++ [k]) = if k ∈ addKeys ks l then addKeys ks l else addKeys ks l ++ [k] := by
  rw [addKeys, List.foldl_append]; rfl

theorem addKeys_addKeys (l ks : List Str) : addKeys ks (addKeys [] l) = addKeys ks l := by
  have : ∀ n (l : List Str), l.length = n → addKeys ks (addKeys [] l) = addKeys ks l := by
    intro n
    induction n with
    | zero => intro l hl; rw [List.length_eq_zero_iff.mp hl]; rfl
    | succ n ih =>
      intro l hl
      have hne : l ≠ [] := by intro e; simp [e] at hl
      have hs := List.dropLast_concat_getLast hne
      generalize l.getLast hne = k at hs
      have hl' : l.dropLast.length = n := by simp [hl]
      generalize l.dropLast = l' at hs hl'
      subst hs
      rw [addKeys_snoc, addKeys_snoc]
      have := ih l' hl'
      by_cases h : k ∈ addKeys [] l'
      · rw [if_pos h, this]
        rw [if_pos]
        rw [mem_addKeys] at h ⊢
        exact Or.inr (h.resolve_left (by simp))
      · rw [if_neg h, addKeys_snoc, this]
  exact this _ l rfl

theorem dict_ext : ∀ (d e : List (Str × α)), d.map (·.1) = e.map (·.1) → (d.map (·.1)).Nodup → (∀ k, dictGet d k = dictGet e k) → d = e
  | [], [], _, _, _ => rfl
  | [], _ :: _, h, _, _ => by cases h
  | _ :: _, [], h, _, _ => by cases h
  | (a, b) :: d, (a', b') :: e, h, hn, hg => by
    simp only [List.map_cons, List.cons.injEq] at h
    obtain ⟨rfl, h⟩ := h
    rw [List.map_cons, List.nodup_cons] at hn
    have hb : b = b' := by
      have := hg a
      simpa [dictGet] using this
    subst hb
    rw [dict_ext d e h hn.2]
    intro k
    by_cases hk : k = a
    · subst hk
      have h1 : ∀ l : List (Str × α), k ∉ l.map (·.1) → dictGet l k = none := by
        intro l hl
        rw [dictGet, List.find?_eq_none.mpr]
        · rfl
        · intro x hx
          simp only [beq_iff_eq]
          rintro rfl
          exact hl (List.mem_map_of_mem hx)
      rw [h1 d hn.1, h1 e (by rw [← h]; exact hn.1)]
    · have := hg k
      have hf : (a == k) = false := by simp [Ne.symm hk]
      simpa only [dictGet, List.find?_cons, hf] using this

theorem keys_nodup (l : List (Str × α)) : ((updateKeys [] l).map (·.1)).Nodup := by
  rw [keys_updateKeys]; exact addKeys_nodup _ _ (by simp)

theorem lastGet_nodup : ∀ (d : List (Str × α)), (d.map (·.1)).Nodup → ∀ k, lastGet d k = dictGet d k
  | [], _, _ => rfl
  | (a, b) :: d, h, k => by
    rw [List.map_cons, List.nodup_cons] at h
    rw [lastGet_cons, lastGet_nodup d h.2 k]
    by_cases e : a = k
    · subst e
      have : dictGet d a = none := by
        rw [dictGet, List.find?_eq_none.mpr]
        · rfl
        · intro x hx
          simp only [beq_iff_eq]
          rintro rfl
          exact h.1 (List.mem_map.mpr ⟨x, hx, rfl⟩)
      rw [this]; simp [dictGet]
    · have hf : (a == k) = false := by simp [e]
      simp [dictGet, hf, e]

theorem lastGet_append (l m : List (Str × α)) (k : Str) : lastGet (l ++ m) k = (lastGet m k).or (lastGet l k) := by
  rw [lastGet, List.reverse_append, List.find?_append, lastGet, lastGet]
  cases m.reverse.find? (fun p => p.1 == k) <;> rfl

/-- Updating by a dictionary made of some pairs is updating by the pairs. -/
theorem updateKeys_dict (d l : List (Str × α)) (h : (d.map (·.1)).Nodup) : updateKeys d (updateKeys [] l) = updateKeys d l := by
  apply dict_ext
  · rw [keys_updateKeys, keys_updateKeys, keys_updateKeys]; exact addKeys_addKeys _ _
  · rw [keys_updateKeys]; exact addKeys_nodup _ _ h
  · intro k
    rw [dictGet_updateKeys, dictGet_updateKeys, lastGet_nodup _ (keys_nodup l), dictGet_updateKeys]
    simp [dictGet]

/-- Updating twice by the same pairs is updating once. -/
theorem updateKeys_twice (d l : List (Str × α)) (h : (d.map (·.1)).Nodup) : updateKeys (updateKeys d l) l = updateKeys d l := by
  apply dict_ext
  · rw [keys_updateKeys, keys_updateKeys]
    exact addKeys_of_mem _ _ fun x hx => (mem_addKeys _ _ _).mpr (Or.inr hx)
  · rw [keys_updateKeys]; exact addKeys_nodup _ _ (by rw [keys_updateKeys]; exact addKeys_nodup _ _ h)
  · intro k
    rw [dictGet_updateKeys, dictGet_updateKeys]
    cases lastGet l k <;> rfl

theorem updateKeys_append (d l m : List (Str × α)) : updateKeys d (l ++ m) = updateKeys (updateKeys d l) m := List.foldl_append

end Verif.Lemmas
