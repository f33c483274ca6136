import Verif.Lemmas.Passages
/-! Helper lemmas: the units of a document that was cut down. -/
namespace Verif.Model
open Verif.Py Verif.Spec

/-- Two lists whose elements correspond one by one. -/
inductive Pairs {α β : Type} (R : α → β → Prop) : List α → List β → Prop where
  | nil : Pairs R [] []
  | cons {a b l m} : R a b → Pairs R l m → Pairs R (a :: l) (b :: m)

theorem Pairs.append {α β : Type} {R : α → β → Prop} {a : List α} {b : List β} {c : List α} {d : List β}
    (h : Pairs R a b) (h2 : Pairs R c d) : Pairs R (a ++ c) (b ++ d) := by
  induction h with
  | nil => exact h2
  | cons h _ ih => exact .cons h ih

theorem Pairs.imp {α β : Type} {R S : α → β → Prop} {a : List α} {b : List β} (h : Pairs R a b)
    (hi : ∀ x y, R x y → S x y) : Pairs S a b := by
  induction h with
  | nil => exact .nil
  | cons h _ ih => exact .cons (hi _ _ h) ih

theorem Pairs.map {α β γ δ : Type} {R : α → β → Prop} {S : γ → δ → Prop} {f : α → γ} {g : β → δ} {a : List α} {b : List β}
    (h : Pairs R a b) (hi : ∀ x y, R x y → S (f x) (g y)) : Pairs S (a.map f) (b.map g) := by
  induction h with
  | nil => exact .nil
  | cons h _ ih => exact .cons (hi _ _ h) ih

theorem Pairs.filter {α β : Type} {R : α → β → Prop} {f : α → Bool} {g : β → Bool} {a : List α} {b : List β}
    (h : Pairs R a b) (hi : ∀ x y, R x y → f x = g y) : Pairs R (a.filter f) (b.filter g) := by
  induction h with
  | nil => exact .nil
  | @cons x y _ _ h _ ih =>
    simp only [List.filter_cons, hi _ _ h]
    cases g y
    · exact ih
    · exact .cons h ih

theorem Pairs.flatMap_eq {α β γ : Type} {R : α → β → Prop} {f : α → List γ} {g : β → List γ} {a : List α} {b : List β}
    (h : Pairs R a b) (hi : ∀ x y, R x y → f x = g y) : a.flatMap f = b.flatMap g := by
  induction h with
  | nil => rfl
  | cons h _ ih => rw [List.flatMap_cons, List.flatMap_cons, hi _ _ h, ih]

mutual
/-- The second element is what remains of the first when only the positions in `K` are kept. -/
inductive Emb : (List Nat → Bool) → Node → Node → Prop where
  | mk {K t a x x' ks ks' y y'} : EmbKids K 0 ks ks' → Emb K (.mk t a x ks y) (.mk t a x' ks' y')
/-- The same for children from number `i`. -/
inductive EmbKids : (List Nat → Bool) → Nat → List Node → List Node → Prop where
  | nil {K i} : EmbKids K i [] []
  | keep {K i c c' r r'} : K [i] = true → Emb (fun t => K (i :: t)) c c' → EmbKids K (i + 1) r r' →
      EmbKids K i (c :: r) (c' :: r')
  | drop {K i c r r'} : K [i] = false → EmbKids K (i + 1) r r' → EmbKids K i (c :: r) r'
end

mutual
theorem emb_all : ∀ (n : Node) {K : List Nat → Bool} {x y : Str}, (∀ t, K t = true) →
    Emb K n (.mk n.tag n.attrs x n.kids y)
  | .mk _ _ _ ks _, _, _, _, h => .mk (embKids_all ks 0 h)
theorem embKids_all : ∀ (ks : List Node) (i : Nat) {K : List Nat → Bool}, (∀ t, K t = true) → EmbKids K i ks ks
  | [], _, _, _ => .nil
  | c :: r, i, K, h => by
    refine .keep (h _) ?_ (embKids_all r (i + 1) h)
    have := emb_all c (K := fun t => K (i :: t)) (x := c.text) (y := c.tail) fun t => h _
    cases c
    exact this
end

theorem emb_test {K : List Nat → Bool} {n n' : Node} (h : Emb K n n') (s : Step) : s.test n = s.test n' := by
  cases h with
  | mk _ =>
    unfold Step.test
    congr 1

theorem emb_get {K : List Nat → Bool} {n n' : Node} (h : Emb K n n') (a : Str) : n.get a = n'.get a := by
  cases h; rfl

/-- Positions that are kept have kept ancestors. -/
def Closed (K : List Nat → Bool) : Prop := ∀ t u, K (t ++ u) = true → K t = true

theorem closed_below {K : List Nat → Bool} (h : Closed K) (t : List Nat) : Closed fun u => K (t ++ u) := by
  intro a b hab
  apply h _ b
  simpa using hab

/-- Two positions that correspond: the same paths lead to them and the elements correspond. -/
def Corr (K : List Nat → Bool) (n n' : Node) (t t' : List Nat) : Prop :=
  (∀ p, matchPath n p t = matchPath n' p t') ∧ K t = true ∧
  ∃ c c', nodeAt n t = some c ∧ nodeAt n' t' = some c' ∧ Emb (fun u => K (t ++ u)) c c'

theorem corr_cons {K : List Nat → Bool} {n n' c c' : Node} {i i' : Nat} {t t' : List Nat} (h : n.kids[i]? = some c)
    (h' : n'.kids[i']? = some c') (hc : Emb (fun t => K (i :: t)) c c') (ht : Corr (fun t => K (i :: t)) c c' t t') :
    Corr K n n' (i :: t) (i' :: t') := by
  refine ⟨?_, ht.2.1, ?_⟩
  · intro p
    cases p with
    | nil => simp [matchPath]
    | cons s q =>
      simp only [matchPath, h, h']
      rw [ht.1, ht.1, emb_test hc]
  · obtain ⟨d, d', h1, h2, h3⟩ := ht.2.2
    exact ⟨d, d', by simp [nodeAt, h, h1], by simp [nodeAt, h', h2], by simpa using h3⟩

theorem corr_nil {K : List Nat → Bool} {n n' : Node} (h : Emb K n n') (h0 : K [] = true) : Corr K n n' [] [] := by
  refine ⟨?_, h0, n, n', rfl, rfl, by simpa using h⟩
  intro p
  cases p <;> simp [matchPath]

mutual
theorem emb_paths : ∀ (n : Node) {K : List Nat → Bool} {n' : Node}, Closed K → Emb K n n' →
    Pairs (Corr K n n') (n.paths.filter K) n'.paths
  | .mk t a x ks y, K, n', hK, h => by
    cases h with
    | mk h =>
      simp only [Node.paths]
      exact embKids_paths ks 0 0 hK h (fun j => by simp [Node.kids]) fun j => by simp [Node.kids]
theorem embKids_paths : ∀ (ks : List Node) (i i' : Nat) {K : List Nat → Bool} {ks' : List Node} {n n' : Node}, Closed K →
    EmbKids K i ks ks' → (∀ j, n.kids[i + j]? = ks[j]?) → (∀ j, n'.kids[i' + j]? = ks'[j]?) →
    Pairs (Corr K n n') ((pathsFrom i ks).filter K) (pathsFrom i' ks')
  | [], i, i', K, ks', n, n', hK, h, hn, hn' => by cases h; exact .nil
  | c :: r, i, i', K, ks', n, n', hK, h, hn, hn' => by
    have hr : ∀ j, n.kids[i + 1 + j]? = r[j]? := fun j => by
      rw [Nat.add_assoc, Nat.add_comm 1 j, hn (j + 1)]; rfl
    have hc : n.kids[i]? = some c := by simpa using hn 0
    cases h with
    | @keep _ _ _ c' _ r' h1 h2 h3 =>
      have hr' : ∀ j, n'.kids[i' + 1 + j]? = r'[j]? := fun j => by
        rw [Nat.add_assoc, Nat.add_comm 1 j, hn' (j + 1)]; rfl
      have hc' : n'.kids[i']? = some c' := by simpa using hn' 0
      simp only [pathsFrom, List.filter_append, List.filter_cons, h1, if_true, List.cons_append]
      refine .cons (corr_cons hc hc' h2 (corr_nil h2 h1)) (.append ?_ (embKids_paths r (i + 1) (i' + 1) hK h3 hr hr'))
      rw [List.filter_map]
      refine (emb_paths c (closed_below hK [i]) h2).map ?_
      intro t t' ht
      exact corr_cons hc hc' h2 ht
    | drop h1 h3 =>
      have h0 : (c.paths.map (i :: ·)).filter K = [] := by
        rw [List.filter_eq_nil_iff]
        intro t ht hk
        rw [List.mem_map] at ht
        obtain ⟨u, _, rfl⟩ := ht
        have := hK [i] u hk
        rw [h1] at this
        simp at this
      simp only [pathsFrom, List.filter_append, List.filter_cons, h1, List.cons_append, h0]
      exact embKids_paths r (i + 1) i' hK h3 hr hn'
end

theorem emb_select {n : Node} {K : List Nat → Bool} {n' : Node} (hK : Closed K) (h : Emb K n n') (p : List Step) :
    Pairs (Corr K n n') ((select n p).filter K) (select n' p) := by
  have := (emb_paths n hK h).filter (f := matchPath n p) (g := matchPath n' p) fun t t' ht => ht.1 p
  unfold select
  rw [List.filter_filter] at this ⊢
  simpa [Bool.and_comm] using this

theorem emb_units (ls : List Level) {n : Node} {K : List Nat → Bool} {n' : Node} (hK : Closed K) (h0 : K [] = true)
    (h : Emb K n n') : ((units ls n).filter fun u => K u.2).map (·.1) = (units ls n').map (·.1) := by
  induction ls generalizing n n' K with
  | nil => simp [units, h0]
  | cons l ls ih =>
    simp only [units, List.filter_flatMap, List.map_flatMap]
    have hs := emb_select hK h l.anyId
    have : ∀ (L : List (List Nat)) (f : List Nat → List (List Str)), (∀ t ∈ L, K t = false → f t = []) →
        L.flatMap f = (L.filter K).flatMap f := by
      intro L f hf
      induction L with
      | nil => rfl
      | cons t L ihL =>
        have ihL := ihL fun t ht => hf t (List.mem_cons_of_mem _ ht)
        cases hk : K t with
        | false => rw [List.filter_cons_of_neg (by simp [hk]), List.flatMap_cons, hf t (by simp) hk, List.nil_append, ihL]
        | true => rw [List.filter_cons_of_pos hk, List.flatMap_cons, List.flatMap_cons, ihL]
    rw [this]
    · apply hs.flatMap_eq
      intro t t' ht
      obtain ⟨_, hk, c, c', h1, h2, h3⟩ := ht
      have := ih (closed_below hK t) (by simpa using hk) h3
      simp only [h1, h2, List.filter_map, List.map_map]
      rw [emb_get h3]
      have e := congrArg (List.map fun ids => (c'.get l.attr).getD [] :: ids) this
      simpa [List.map_map, Function.comp_def] using e
    · intro t _ hk
      cases hn : nodeAt n t with
      | none => simp
      | some c =>
        simp only [List.map_eq_nil_iff, List.filter_eq_nil_iff]
        intro u hu hku
        rw [List.mem_map] at hu
        obtain ⟨w, _, rfl⟩ := hu
        have := hK t w.2 hku
        rw [hk] at this
        simp at this

/-! ### What a range keeps -/

theorem docLe_of_prefix {t u : List Nat} (h : t <+: u) : docLe t u = true := by
  obtain ⟨v, rfl⟩ := h
  have := docLe_append t [] v
  rw [List.append_nil] at this
  rw [this]; rfl

theorem prefix_of_between {t s u : List Nat} (h1 : docLe t s = true) (h2 : docLe s (t ++ u) = true) : t <+: s := by
  induction t generalizing s with
  | nil => exact List.nil_prefix
  | cons i t ih =>
    cases s with
    | nil => simp [docLe] at h1
    | cons j s =>
      simp only [docLe, List.cons_append, Bool.or_eq_true, decide_eq_true_eq, Bool.and_eq_true, beq_iff_eq] at h1 h2
      rcases h1 with h1 | ⟨rfl, h1⟩
      · omega
      · rcases h2 with h2 | ⟨_, h2⟩
        · omega
        · rw [List.cons_prefix_cons]
          exact ⟨rfl, ih h1 h2⟩

theorem above_of_append {t u s : List Nat} (h : Above (t ++ u) s) : Above t s := by
  refine ⟨(List.prefix_append t u).trans h.1, ?_⟩
  rintro rfl
  apply h.2
  have := h.1.length_le
  simp at this
  have : u = [] := List.eq_nil_of_length_eq_zero (by omega)
  simp [this]

theorem kept_closed (st en : List Nat) : Closed fun t => decide (Kept st en t) := by
  intro t u h
  simp only [decide_eq_true_eq] at h ⊢
  rcases h with h | h | ⟨h1, h2⟩
  · exact Or.inl (above_of_append h)
  · exact Or.inr (Or.inl (above_of_append h))
  · by_cases hst : docLe st t = true
    · by_cases ha : Above t en
      · exact Or.inr (Or.inl ha)
      · refine Or.inr (Or.inr ⟨hst, ?_⟩)
        rcases h2 with h2 | h2
        · exact Or.inl (docLe_trans (docLe_of_prefix (List.prefix_append t u)) h2)
        · rcases List.prefix_or_prefix_of_prefix h2 (List.prefix_append t u) with h | h
          · exact Or.inr h
          · by_cases e : t = en
            · subst e; exact Or.inr (List.prefix_refl t)
            · exact absurd ⟨h, e⟩ ha
    · have h3 : docLe t st = true := (docLe_total st t).resolve_left hst
      have h4 := prefix_of_between h3 h1
      refine Or.inl ⟨h4, ?_⟩
      rintro rfl
      exact hst (docLe_refl t)

mutual
theorem emb_cutNode (st en : List Nat) (hp : Precedes st en) : ∀ (n : Node) (pos : List Nat), Kept st en pos →
    (en <+: pos → en = pos) →
    ∃ n', cutNode st en pos n = [n'] ∧ Emb (fun t => decide (Kept st en (pos ++ t))) n n'
  | .mk t a x ks y, pos, hk, he => by
    unfold cutNode
    by_cases h1 : Above pos st ∨ Above pos en
    · rw [if_pos h1]
      refine ⟨_, rfl, .mk ?_⟩
      refine emb_cutKids st en hp ks pos 0 ?_
      rintro he'
      have := he he'
      subst this
      rcases h1 with h1 | h1
      · have := (not_above_of_precedes hp []).2
        simp only [List.append_nil] at this
        exact this.1 h1
      · exact h1.2 rfl
    · rw [if_neg h1]
      have hb : docLe st pos = true ∧ docLe pos en = true := by
        rcases hk with h | h | ⟨h2, h3⟩
        · exact absurd (Or.inl h) h1
        · exact absurd (Or.inr h) h1
        · refine ⟨h2, ?_⟩
          rcases h3 with h3 | h3
          · exact h3
          · rw [he h3]; exact docLe_refl _
      rw [if_pos (by simp [hb])]
      refine ⟨_, rfl, ?_⟩
      have := emb_all (.mk t a x ks y) (K := fun t => decide (Kept st en (pos ++ t))) (x := x) (y := []) ?_
      · exact this
      · intro u
        simp only [decide_eq_true_eq]
        refine Or.inr (Or.inr ⟨docLe_trans hb.1 (docLe_of_prefix (List.prefix_append pos u)), ?_⟩)
        by_cases hle : docLe (pos ++ u) en = true
        · exact Or.inl hle
        · have := prefix_of_between hb.2 ((docLe_total (pos ++ u) en).resolve_left hle)
          by_cases e : pos = en
          · subst e; exact Or.inr (List.prefix_append pos u)
          · exact absurd (Or.inr ⟨this, e⟩) h1
theorem emb_cutKids (st en : List Nat) (hp : Precedes st en) : ∀ (ks : List Node) (pos : List Nat) (i : Nat),
    (¬ en <+: pos) → EmbKids (fun t => decide (Kept st en (pos ++ t))) i ks (cutKids st en pos i ks)
  | [], _, _, _ => .nil
  | c :: r, pos, i, he => by
    have hself : en <+: pos ++ [i] → en = pos ++ [i] := by
      intro h
      rcases List.prefix_concat_iff.1 h with h | h
      · exact h
      · exact absurd h he
    simp only [cutKids]
    by_cases hk : Kept st en (pos ++ [i])
    · obtain ⟨n', h1, h2⟩ := emb_cutNode st en hp c (pos ++ [i]) hk hself
      rw [h1]
      refine .keep (by simpa using hk) ?_ (emb_cutKids st en hp r pos (i + 1) he)
      simpa using h2
    · have h0 : cutNode st en (pos ++ [i]) c = [] := by
        cases c
        unfold cutNode
        rw [if_neg, if_neg]
        · intro h
          simp only [Bool.and_eq_true] at h
          exact hk (Or.inr (Or.inr ⟨h.1, Or.inl h.2⟩))
        · rintro (h | h)
          · exact hk (Or.inl h)
          · exact hk (Or.inr (Or.inl h))
      rw [h0, List.nil_append]
      exact .drop (by simpa using hk) (emb_cutKids st en hp r pos (i + 1) he)
end

theorem emb_cut {st en : List Nat} (hp : Precedes st en) (root : Node) :
    Emb (fun t => decide (Kept st en t)) root (cut root st en) := by
  cases root with
  | mk t a x ks y =>
    have hne : ¬ en <+: ([] : List Nat) := by
      intro h
      have := List.prefix_nil.1 h
      subst this
      cases st <;> simp [Precedes] at hp
    have := emb_cutKids st en hp ks [] 0 hne
    simp only [List.nil_append] at this
    exact .mk this

/-- The units of the document cut down to a range are the units that the range keeps. -/
theorem units_cut {st en : List Nat} (hp : Precedes st en) (root : Node) (ls : List Level) :
    (units ls (cut root st en)).map (·.1) = ((units ls root).filter fun u => decide (Kept st en u.2)).map (·.1) := by
  refine (emb_units ls (kept_closed st en) ?_ (emb_cut hp root)).symm
  simp only [decide_eq_true_eq]
  refine Or.inl ⟨List.nil_prefix, ?_⟩
  rintro rfl
  simp [Precedes] at hp

theorem citable_cut {root : Node} {ls : List Level} (hc : Citable root ls) {st en : List Nat} (hp : Precedes st en) :
    Citable (cut root st en) ls where
  tag := by have := hc.tag; cases root; exact this
  few := hc.few
  wf := hc.wf
  ids := by
    intro k u hu v hv
    have h : u.1 ∈ (units (ls.take k) (cut root st en)).map (·.1) := List.mem_map_of_mem hu
    rw [units_cut hp, List.mem_map] at h
    obtain ⟨w, hw, e⟩ := h
    exact hc.ids k w (List.mem_filter.1 hw).1 v (e ▸ hv)
  distinct := by
    intro k u hu w hw e
    have hn : ((units (ls.take k) (cut root st en)).map (·.1)).Nodup := by
      rw [units_cut hp, List.Nodup, List.pairwise_map]
      exact (units_nodup hc.distinct k).filter _
    rw [List.Nodup, List.pairwise_map] at hn
    have : ∀ (L : List (List Str × List Nat)), L.Pairwise (fun a b => a.1 ≠ b.1) → ∀ u ∈ L, ∀ w ∈ L, u.1 = w.1 → u = w := by
      intro L hL
      induction L with
      | nil => simp
      | cons a L ih =>
        rw [List.pairwise_cons] at hL
        intro u hu w hw e
        rw [List.mem_cons] at hu hw
        rcases hu with rfl | hu <;> rcases hw with rfl | hw
        · rfl
        · exact absurd e (hL.1 w hw)
        · exact absurd e.symm (hL.1 u hu)
        · exact ih hL.2 u hu w hw e
    rw [this _ hn u hu w hw e]

theorem listing_cut {st en : List Nat} (hp : Precedes st en) (root : Node) (ls : List Level) (k : Nat) (under : List Str) :
    listing (cut root st en) ls k under =
      ((units (ls.take k) root).filter fun u => under.isPrefixOf u.1 && decide (Kept st en u.2)).map (·.1) := by
  unfold listing
  have : ∀ (L : List (List Str × List Nat)), (L.filter fun u => under.isPrefixOf u.1).map (·.1)
      = (L.map (·.1)).filter fun ids => under.isPrefixOf ids := by
    intro L; rw [List.filter_map]; rfl
  rw [this, units_cut hp, ← this, List.filter_filter]

/-- A unit lies inside a unit of every level above. -/
theorem units_ancestor {root : Node} {ls : List Level} {k j : Nat} (hj : j ≤ k) {ids : List Str} {t : List Nat}
    (h : (ids, t) ∈ units (ls.take k) root) : ∃ t', t' <+: t ∧ (ids.take j, t') ∈ units (ls.take j) root := by
  obtain ⟨d, rfl⟩ := Nat.exists_eq_add_of_le hj
  induction d generalizing ids t with
  | zero =>
    have hl := mem_units_length h
    simp at hl
    refine ⟨t, List.prefix_refl t, ?_⟩
    have e : ids.take j = ids := List.take_of_length_le (by omega)
    rw [e]
    simpa using h
  | succ d ih =>
    cases hk : ls[j + d]? with
    | none =>
      rw [← Nat.add_assoc, List.take_add_one, hk] at h
      simp only [Option.toList_none, List.append_nil] at h
      exact ih (by omega) h
    | some l =>
      rw [← Nat.add_assoc, take_succ_eq hk, units_snoc, List.mem_flatMap] at h
      obtain ⟨u, hu, hm⟩ := h
      obtain ⟨t', h1, h2⟩ := ih (by omega) hu
      obtain ⟨v, hv⟩ := mem_kidsOf_prefix hm
      have hp : u.2 <+: t := by
        unfold kidsOf at hm
        split at hm
        · simp at hm
        · simp only [List.mem_map] at hm
          obtain ⟨x, _, e⟩ := hm
          have := congrArg Prod.snd e
          exact ⟨x, this⟩
      refine ⟨t', h1.trans hp, ?_⟩
      have hl := mem_units_length hu
      have hjl : j ≤ u.1.length := by
        rw [hl, List.length_take]
        have := (List.getElem?_eq_some_iff.1 hk).1
        omega
      have : ids = u.1 ++ [v] := hv
      rw [this, List.take_append_of_le_length hjl]
      exact h2

end Verif.Model
