import Verif.Lemmas.Export
/-!
Lemmas for C95: the visible text of a document, cut at the places of units.
-/
namespace Verif.Lemmas
open Verif.Py Verif.Model Verif.Spec

/-! ### Blocks of a list -/

theorem filter_or_blocks {α : Type} (P Q : α → Bool) (L : List α) (h1 : L.Pairwise fun a b => ¬ (Q a = true ∧ P b = true))
    (h2 : ∀ a ∈ L, ¬ (P a = true ∧ Q a = true)) : L.filter (fun a => P a || Q a) = L.filter P ++ L.filter Q := by
  induction L with
  | nil => rfl
  | cons a L ih =>
    rw [List.pairwise_cons] at h1
    have ih := ih h1.2 fun b hb => h2 b (List.mem_cons_of_mem _ hb)
    cases hp : P a with
    | true =>
      have hq : Q a = false := by
        cases hq : Q a with
        | false => rfl
        | true => exact absurd ⟨hp, hq⟩ (h2 a (by simp))
      simp [hp, hq, ih]
    | false =>
      cases hq : Q a with
      | false => simp [hp, hq, ih]
      | true =>
        have : L.filter P = [] := by
          rw [List.filter_eq_nil_iff]
          intro b hb hpb
          exact h1.1 b hb ⟨hq, hpb⟩
        rw [List.filter_cons_of_pos (by simp [hq]), List.filter_cons_of_neg (by simp [hp]), List.filter_cons_of_pos hq, ih, this]
        rfl

theorem filter_blocks {α β : Type} (P : β → α → Bool) (L : List α) (us : List β)
    (h1 : us.Pairwise fun u v => L.Pairwise fun a b => ¬ (P v a = true ∧ P u b = true))
    (h2 : us.Pairwise fun u v => ∀ a ∈ L, ¬ (P u a = true ∧ P v a = true)) :
    L.filter (fun a => us.any fun u => P u a) = us.flatMap fun u => L.filter (P u) := by
  induction us with
  | nil => simp
  | cons u us ih =>
    rw [List.pairwise_cons] at h1 h2
    rw [List.flatMap_cons, ← ih h1.2 h2.2]
    simp only [List.any_cons]
    refine filter_or_blocks (P u) (fun a => us.any fun u => P u a) L ?_ ?_
    · have : ∀ v ∈ us, L.Pairwise fun a b => ¬ (P v a = true ∧ P u b = true) := h1.1
      clear ih h1 h2
      induction L with
      | nil => exact List.Pairwise.nil
      | cons a L ih =>
        rw [List.pairwise_cons]
        refine ⟨fun b hb => ?_, ih fun v hv => (List.pairwise_cons.1 (this v hv)).2⟩
        rintro ⟨hq, hp⟩
        rw [List.any_eq_true] at hq
        obtain ⟨v, hv, hva⟩ := hq
        exact (List.pairwise_cons.1 (this v hv)).1 b hb ⟨hva, hp⟩
    · intro a ha
      rintro ⟨hp, hq⟩
      rw [List.any_eq_true] at hq
      obtain ⟨v, hv, hva⟩ := hq
      exact h2.1 v hv a ha ⟨hp, hva⟩

/-! ### Order of pieces -/

/-- Text at the second place does not come before text at the first. -/
def NotBefore (a b : List Nat) : Prop := ¬ Precedes b a

theorem not_precedes_prefix {t u : List Nat} (h : t <+: u) : ¬ Precedes t u ∧ ¬ Precedes u t := by
  obtain ⟨v, rfl⟩ := h
  induction t with
  | nil => constructor <;> (cases v <;> simp [Precedes])
  | cons i t ih => simp only [List.cons_append, Precedes, Nat.lt_irrefl, false_or, true_and]; exact ih

theorem not_precedes_kids {i j : Nat} (h : i < j) (pos t u : List Nat) : ¬ Precedes (pos ++ j :: t) (pos ++ i :: u) := by
  induction pos with
  | nil => simp only [List.nil_append, Precedes]; omega
  | cons k pos ih => simp only [List.cons_append, Precedes, Nat.lt_irrefl, false_or, true_and]; exact ih

theorem mem_placed {pos : List Nat} {s : Str} {p : List Nat × Str} (h : p ∈ placed pos s) : p.1 = pos := by
  unfold placed at h
  rw [List.mem_map] at h
  obtain ⟨x, _, rfl⟩ := h
  rfl

theorem placed_pairwise (pos : List Nat) (s : Str) : (placed pos s).Pairwise fun a b => NotBefore a.1 b.1 := by
  unfold placed piece
  split <;> simp

theorem visibleKidsAt_first (ex : List Str) (pos : List Nat) : ∀ (ks : List Node) (i : Nat), ∀ p ∈ visibleKidsAt ex pos i ks,
    p.1 = pos ∨ ∃ j t, i ≤ j ∧ p.1 = pos ++ j :: t
  | [], _, p, h => by simp [visibleKidsAt] at h
  | c :: r, i, p, h => by
    simp only [visibleKidsAt, List.mem_append] at h
    rcases h with (h | h) | h
    · obtain ⟨t, ht⟩ := visibleAt_pos ex _ c p h
      exact .inr ⟨i, t, Nat.le_refl _, by rw [← ht]; simp⟩
    · exact .inl (mem_placed h)
    · rcases visibleKidsAt_first ex pos r (i + 1) p h with e | ⟨j, t, hj, e⟩
      · exact .inl e
      · exact .inr ⟨j, t, by omega, e⟩

mutual
/-- The pieces of text stand in the order of the document. -/
theorem visibleAt_order (ex : List Str) : ∀ (n : Node) (pos : List Nat), (visibleAt ex pos n).Pairwise fun a b => NotBefore a.1 b.1
  | .mk t a x ks y, pos => by
    simp only [visibleAt]
    split
    · exact List.Pairwise.nil
    · rw [List.pairwise_append]
      refine ⟨placed_pairwise _ _, visibleKidsAt_order ex ks pos 0, fun p hp q hq => ?_⟩
      rw [NotBefore, mem_placed hp]
      exact (not_precedes_prefix (visibleKidsAt_pos ex pos 0 ks q hq)).2
theorem visibleKidsAt_order (ex : List Str) : ∀ (ks : List Node) (pos : List Nat) (i : Nat),
    (visibleKidsAt ex pos i ks).Pairwise fun a b => NotBefore a.1 b.1
  | [], _, _ => by simp [visibleKidsAt]
  | c :: r, pos, i => by
    simp only [visibleKidsAt]
    rw [List.pairwise_append, List.pairwise_append]
    refine ⟨⟨visibleAt_order ex c _, placed_pairwise _ _, fun p hp q hq => ?_⟩, visibleKidsAt_order ex r pos (i + 1), fun p hp q hq => ?_⟩
    · rw [NotBefore, mem_placed hq]
      obtain ⟨t, ht⟩ := visibleAt_pos ex _ c p hp
      exact (not_precedes_prefix ⟨i :: t, by rw [← ht]; simp⟩).1
    · rw [List.mem_append] at hp
      rcases hp with hp | hp
      · obtain ⟨t, ht⟩ := visibleAt_pos ex _ c p hp
        have e : p.1 = pos ++ i :: t := by rw [← ht]; simp
        rcases visibleKidsAt_first ex pos r (i + 1) q hq with e' | ⟨j, u, hj, e'⟩
        · rw [NotBefore, e, e']
          exact (not_precedes_prefix ⟨i :: t, rfl⟩).1
        · rw [NotBefore, e, e']
          exact not_precedes_kids (by omega) _ _ _
      · rw [NotBefore, mem_placed hp]
        exact (not_precedes_prefix (visibleKidsAt_pos ex pos _ r q hq)).2
end

/-! ### The pieces of one element -/

theorem filter_kids (ex : List Str) (pos : List Nat) (i : Nat) (t : List Nat) (c : Node) : ∀ (ks : List Node) (j : Nat), j ≤ i → ks[i - j]? = some c →
    (visibleKidsAt ex pos j ks).filter (fun p => (pos ++ i :: t).isPrefixOf p.1) =
      (visibleAt ex (pos ++ [i]) c).filter fun p => (pos ++ i :: t).isPrefixOf p.1
  | [], _, _, h => by simp at h
  | k :: ks, j, hj, h => by
    have hpl : (placed pos k.tail).filter (fun p => (pos ++ i :: t).isPrefixOf p.1) = [] := by
      rw [List.filter_eq_nil_iff]
      intro p hp
      rw [mem_placed hp, List.isPrefixOf_iff_prefix]
      intro h
      have := h.length_le
      simp at this
      omega
    have other : ∀ (L : List (List Nat × Str)), (∀ p ∈ L, p.1 = pos ∨ ∃ j' u, j' ≠ i ∧ p.1 = pos ++ j' :: u) →
        L.filter (fun p => (pos ++ i :: t).isPrefixOf p.1) = [] := by
      intro L hL
      rw [List.filter_eq_nil_iff]
      intro p hp
      rw [List.isPrefixOf_iff_prefix]
      rcases hL p hp with e | ⟨j', u, hne, e⟩
      · rw [e]; intro h
        have := h.length_le
        simp at this
        omega
      · rw [e, List.prefix_append_right_inj, List.cons_prefix_cons]
        rintro ⟨e, _⟩
        exact hne e.symm
    simp only [visibleKidsAt, List.filter_append, hpl, List.append_nil]
    by_cases e : j = i
    · subst e
      simp only [Nat.sub_self, List.getElem?_cons_zero, Option.some.injEq] at h
      subst h
      rw [other (visibleKidsAt ex pos (j + 1) ks)]
      · simp
      · intro p hp
        rcases visibleKidsAt_first ex pos ks (j + 1) p hp with e | ⟨j', u, hj', e⟩
        · exact .inl e
        · exact .inr ⟨j', u, by omega, e⟩
    · rw [other (visibleAt ex (pos ++ [j]) k)]
      · rw [List.nil_append]
        refine filter_kids ex pos i t c ks (j + 1) (by omega) ?_
        rw [show i - j = (i - (j + 1)) + 1 by omega] at h
        simpa using h
      · intro p hp
        obtain ⟨u, hu⟩ := visibleAt_pos ex _ k p hp
        exact .inr ⟨j, u, e, by rw [← hu]; simp⟩

theorem filter_under (ex : List Str) : ∀ (t : List Nat) (n c : Node) (pos : List Nat), nodeAt n t = some c →
    ((visibleAt ex pos n).filter fun p => (pos ++ t).isPrefixOf p.1).map (·.2) =
      if (namesTo n t).any (excluded ex) then [] else visible ex c
  | [], n, c, pos, h => by
    simp only [nodeAt, Option.some.injEq] at h
    subst h
    have : (visibleAt ex pos n).filter (fun p => (pos ++ []).isPrefixOf p.1) = visibleAt ex pos n := by
      rw [List.filter_eq_self]
      intro p hp
      rw [List.append_nil, List.isPrefixOf_iff_prefix]
      exact visibleAt_pos ex pos n p hp
    rw [this, visibleAt_snd]
    simp [namesTo]
  | i :: t, .mk tag a x ks y, c, pos, h => by
    simp only [nodeAt] at h
    cases hk : ks[i]? with
    | none => simp [Node.kids, hk] at h
    | some d =>
      simp only [Node.kids, hk] at h
      have ih := filter_under ex t d c (pos ++ [i]) h
      simp only [namesTo, Node.kids, Node.tag, hk, List.any_cons, visibleAt]
      by_cases he : excluded ex tag = true
      · simp [he]
      · have hpl : (placed pos x).filter (fun p => (pos ++ i :: t).isPrefixOf p.1) = [] := by
          rw [List.filter_eq_nil_iff]
          intro p hp
          rw [mem_placed hp, List.isPrefixOf_iff_prefix]
          intro h
          have := h.length_le
          simp at this
          omega
        rw [if_neg he, List.filter_append, hpl, List.nil_append, filter_kids ex pos i t d ks 0 (Nat.zero_le _) (by simpa using hk)]
        rw [show pos ++ i :: t = pos ++ [i] ++ t by simp, ih]
        simp [he]

/-- The visible text under elements that follow one another is the text of each, one after the other. -/
theorem visible_under_all (ex : List Str) (root : Node) (ts : List (List Nat)) (h : ts.Pairwise Precedes) :
    ((visibleAt ex [] root).filter fun p => ts.any fun t => t.isPrefixOf p.1).map (·.2) =
      ts.flatMap fun t => ((visibleAt ex [] root).filter fun p => t.isPrefixOf p.1).map (·.2) := by
  rw [filter_blocks (fun (t : List Nat) (p : List Nat × Str) => t.isPrefixOf p.1), List.map_flatMap]
  · refine h.imp ?_
    intro u v huv
    refine (visibleAt_order ex root []).imp ?_
    intro a b hab
    rintro ⟨h1, h2⟩
    rw [List.isPrefixOf_iff_prefix] at h1 h2
    obtain ⟨x, hx⟩ := h1
    obtain ⟨y, hy⟩ := h2
    apply hab
    rw [← hx, ← hy]
    exact precedes_append huv _ _
  · refine h.imp ?_
    intro u v huv a _
    rintro ⟨h1, h2⟩
    rw [List.isPrefixOf_iff_prefix] at h1 h2
    obtain ⟨x, hx⟩ := h1
    obtain ⟨y, hy⟩ := h2
    have := precedes_append huv x y
    rw [hx, hy] at this
    exact precedes_irrefl _ this

end Verif.Lemmas
