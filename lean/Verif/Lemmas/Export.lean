import Verif.Model.Export
import Verif.Spec.Export
import Verif.Lemmas.Generic
import Verif.Lemmas.Prune
import Verif.Lemmas.Siblings
namespace Verif.Lemmas
open Verif.Py Verif.Model Verif.Spec

/-! ### Plain text -/

theorem keepsText_eq (ex : List Str) (n : List Str × Str) : keepsText ex n = n.1.all fun t => !excluded ex t := by
  rw [Bool.eq_iff_iff]
  simp only [keepsText, excluded, List.all_eq_true, Bool.not_eq_true', List.any_eq_false, Bool.or_eq_true, beq_iff_eq,
    Bool.or_eq_false_iff, not_or]
  constructor
  · intro h t ht
    refine ⟨?_, ?_⟩
    · cases hc : ex.contains t with
      | false => rfl
      | true => exact absurd rfl (h t (List.contains_iff_mem.1 hc) t ht).2
    · cases hc : ex.contains ['*'] with
      | false => rfl
      | true => exact absurd rfl (h ['*'] (List.contains_iff_mem.1 hc) t ht).1
  · intro h x hx t ht
    refine ⟨?_, ?_⟩
    · rintro rfl
      have := (h t ht).2
      rw [List.contains_iff_mem.2 hx] at this
      cases this
    · rintro rfl
      have := (h x ht).1
      rw [List.contains_iff_mem.2 hx] at this
      cases this

theorem keptNode (ex : List Str) (around : List Str) (s : Str) :
    ((textNode around s).filter (keepsText ex)).map (·.2) = if around.all fun t => !excluded ex t then piece s else [] := by
  unfold textNode piece
  by_cases hs : s = []
  · simp [hs]
  · rw [if_neg hs, if_neg hs]
    simp only [List.filter_cons, keepsText_eq, List.filter_nil]
    split <;> simp

mutual
theorem keptNodes (ex around : List Str) : ∀ n : Node, ((n.textNodes around).filter (keepsText ex)).map (·.2) =
    if around.all fun t => !excluded ex t then visible ex n else []
  | .mk t a x ks y => by
    simp only [Node.textNodes, List.filter_append, List.map_append, keptNode, keptKids ex (t :: around) ks, visible, List.all_cons]
    by_cases h : excluded ex t = true <;> by_cases h2 : around.all (fun t => !excluded ex t) = true <;> simp [h, h2]
theorem keptKids (ex around : List Str) : ∀ ks : List Node, ((textNodesAll around ks).filter (keepsText ex)).map (·.2) =
    if around.all fun t => !excluded ex t then visibleKids ex ks else []
  | [] => by simp [textNodesAll, visibleKids]
  | c :: r => by
    simp only [textNodesAll, List.filter_append, List.map_append, keptNode, keptNodes ex around c, keptKids ex around r, visibleKids]
    cases h2 : around.all (fun t => !excluded ex t) <;> simp
end

theorem plainText_eq (around ex : List Str) (n : Node) (sep : Str) : plainText sep around ex n =
    squeeze (join sep (if around.all fun t => !excluded ex t then visible ex n else [])) := by
  rw [plainText, keptNodes, normalize_eq]

theorem flatten_piece (s : Str) : (piece s).flatten = s := by
  unfold piece; split <;> simp_all

mutual
theorem flatten_visible : ∀ n : Node, (visible [] n).flatten = textContent n
  | .mk t a x ks y => by simp [visible, textContent, excluded, flatten_piece, flatten_visibleKids ks]
theorem flatten_visibleKids : ∀ ks : List Node, (visibleKids [] ks).flatten = kidsContent ks
  | [] => rfl
  | c :: r => by simp [visibleKids, kidsContent, flatten_piece, flatten_visible c, flatten_visibleKids r]
end

mutual
theorem visible_sublist (ex : List Str) : ∀ n : Node, (visible ex n).Sublist (visible [] n)
  | .mk t a x ks y => by
    simp only [visible]
    split
    · simp
    · have : excluded [] t = false := by simp [excluded]
      rw [this]
      exact (List.Sublist.refl _).append (visibleKids_sublist ex ks)
theorem visibleKids_sublist (ex : List Str) : ∀ ks : List Node, (visibleKids ex ks).Sublist (visibleKids [] ks)
  | [] => by simp [visibleKids]
  | c :: r => by
    simp only [visibleKids]
    exact ((visible_sublist ex c).append (List.Sublist.refl _)).append (visibleKids_sublist ex r)
end

theorem filter_join (p : Char → Bool) (sep : Str) (h : sep.filter p = []) (l : List Str) :
    (join sep l).filter p = l.flatten.filter p := by
  induction l with
  | nil => rfl
  | cons x r ih =>
    cases r with
    | nil => simp [join]
    | cons y r =>
      rw [join, List.filter_append, List.filter_append, h, ih, List.flatten_cons, List.filter_append]; simp

theorem join_nil_sep (l : List Str) : join [] l = l.flatten := by
  induction l with
  | nil => rfl
  | cons x r ih =>
    cases r with
    | nil => simp [join]
    | cons y r => rw [join, ih]; simp

/-! ### Passages -/

theorem visibleKids_single (ex : List Str) (c : Node) (h : c.tail = []) : visibleKids ex [c] = visible ex c := by
  simp [visibleKids, h, piece]

theorem visible_emptied (ex : List Str) (n : Node) (ks : List Node) :
    visible ex (emptied n ks) = if excluded ex n.tag then [] else visibleKids ex ks := by
  simp [emptied, visible, piece]

theorem visible_emptied_mk (ex : List Str) (t : Str) (a : List (Str × Str)) (x : Str) (k : List Node) (y : Str) (ks : List Node) :
    visible ex (emptied (.mk t a x k y) ks) = if excluded ex t then [] else visibleKids ex ks := visible_emptied ex _ ks

theorem visible_complete (ex : List Str) (n : Node) : visible ex (complete n) = visible ex n := by
  cases n; simp [complete, visible, Node.tag, Node.attrs, Node.text, Node.kids]

theorem visible_chain (ex : List Str) : ∀ (t : List Nat) (n c : Node), t ≠ [] → nodeAt n t = some c →
    visibleKids ex (chainTo n t) = if (namesTo n t).tail.all fun x => !excluded ex x then visible ex c else []
  | [], _, _, h, _ => absurd rfl h
  | i :: t, n, c, _, h => by
    simp only [nodeAt] at h
    cases hk : n.kids[i]? with
    | none => simp [hk] at h
    | some d =>
      simp only [hk] at h
      simp only [chainTo, hk, namesTo, List.tail_cons]
      by_cases ht : t = []
      · subst ht
        simp only [nodeAt, Option.some.injEq] at h
        subst h
        rw [if_pos rfl, visibleKids_single _ _ (by simp [complete, Node.tail]), visible_complete]
        simp [namesTo]
      · rw [if_neg ht, visibleKids_single _ _ (by simp [emptied, Node.tail]), visible_emptied, visible_chain ex t d c ht h]
        cases t with
        | nil => exact absurd rfl ht
        | cons j t =>
          simp only [nodeAt] at h
          cases hj : d.kids[j]? with
          | none => simp [hj] at h
          | some e =>
            simp only [namesTo, hj, List.tail_cons, List.all_cons]
            cases excluded ex d.tag <;> simp

theorem namesTo_cons {n c : Node} {t : List Nat} (ht : t ≠ []) (h : nodeAt n t = some c) :
    namesTo n t = n.tag :: (namesTo n t).tail := by
  cases t with
  | nil => exact absurd rfl ht
  | cons i t =>
    simp only [nodeAt] at h
    cases hk : n.kids[i]? with
    | none => simp [hk] at h
    | some d => simp [namesTo, hk]

theorem visible_passage (ex : List Str) (root c : Node) (t : List Nat) (ht : t ≠ []) (h : nodeAt root t = some c) :
    visible ex (emptied root (chainTo root t)) = if (namesTo root t).all fun x => !excluded ex x then visible ex c else [] := by
  rw [visible_emptied, visible_chain ex t root c ht h, namesTo_cons ht h]
  simp only [List.tail_cons, List.all_cons]
  by_cases h : excluded ex root.tag = true <;> simp [h]

theorem namesAround_eq (acc : List Str) (n : Node) (t : List Nat) : namesAround acc n t = (namesTo n t).reverse ++ acc := by
  induction t generalizing acc n with
  | nil => simp [namesAround, namesTo]
  | cons i t ih =>
    simp only [namesAround, namesTo]
    cases n.kids[i]? with
    | none => simp
    | some c => simp [ih]

/-! ### Ranges -/

theorem docLe_append_right (p u : List Nat) : docLe p (p ++ u) = true := by
  have := docLe_append p [] u
  simp only [List.append_nil] at this
  rw [this]; rfl

theorem inside_ext {st en pos : List Nat} (h : inside st en pos = true) (q : List Nat) : inside st en (pos ++ q) = true := by
  simp only [inside, Bool.and_eq_true, Bool.or_eq_true, List.isPrefixOf_iff_prefix, Bool.not_eq_true'] at h ⊢
  refine ⟨docLe_trans h.1 (docLe_append_right pos q), ?_⟩
  rcases h.2 with h | ⟨h, hn⟩
  · exact .inl (h.trans (List.prefix_append ..))
  · right
    have hnp : ¬ pos <+: en := by
      intro hp; rw [List.isPrefixOf_iff_prefix.2 hp] at hn; cases hn
    have key : ∀ (a b c : List Nat), docLe a b = true → ¬ a <+: b → docLe (a ++ c) b = true := by
      intro a
      induction a with
      | nil => intro b c _ hh; exact absurd List.nil_prefix hh
      | cons x a ih =>
        intro b c hd hh
        cases b with
        | nil => simp [docLe] at hd
        | cons y b =>
          simp only [List.cons_append, docLe, Bool.or_eq_true, Bool.and_eq_true, decide_eq_true_eq, beq_iff_eq] at hd ⊢
          rcases hd with hd | ⟨hd, hd2⟩
          · exact .inl hd
          · exact .inr ⟨hd, ih b c hd2 (fun hp => hh (by rw [List.cons_prefix_cons]; exact ⟨hd, hp⟩))⟩
    refine ⟨key _ _ _ h hnp, ?_⟩
    cases hb : (pos ++ q).isPrefixOf en with
    | false => rfl
    | true =>
      exact absurd ((List.prefix_append pos q).trans (List.isPrefixOf_iff_prefix.1 hb)) hnp

mutual
theorem visibleAt_pos (ex : List Str) (pos : List Nat) : ∀ n : Node, ∀ p ∈ visibleAt ex pos n, pos <+: p.1
  | .mk t a x ks y => by
    intro p hp
    simp only [visibleAt] at hp
    split at hp
    · simp at hp
    · rw [List.mem_append] at hp
      rcases hp with hp | hp
      · simp only [placed, List.mem_map] at hp
        obtain ⟨s, _, rfl⟩ := hp
        exact List.prefix_refl _
      · exact visibleKidsAt_pos ex pos 0 ks p hp
theorem visibleKidsAt_pos (ex : List Str) (pos : List Nat) (i : Nat) : ∀ ks : List Node, ∀ p ∈ visibleKidsAt ex pos i ks, pos <+: p.1
  | [] => by simp [visibleKidsAt]
  | c :: r => by
    intro p hp
    simp only [visibleKidsAt, List.mem_append] at hp
    rcases hp with (hp | hp) | hp
    · exact (List.prefix_append pos [i]).trans (visibleAt_pos ex (pos ++ [i]) c p hp)
    · simp only [placed, List.mem_map] at hp
      obtain ⟨s, _, rfl⟩ := hp
      exact List.prefix_refl _
    · exact visibleKidsAt_pos ex pos (i + 1) r p hp
end

mutual
theorem visibleAt_snd (ex : List Str) (pos : List Nat) : ∀ n : Node, (visibleAt ex pos n).map (·.2) = visible ex n
  | .mk t a x ks y => by
    simp only [visibleAt, visible]
    split
    · rfl
    · simp [placed, visibleKidsAt_snd ex pos 0 ks, Function.comp_def]
theorem visibleKidsAt_snd (ex : List Str) (pos : List Nat) (i : Nat) : ∀ ks : List Node,
    (visibleKidsAt ex pos i ks).map (·.2) = visibleKids ex ks
  | [] => rfl
  | c :: r => by
    simp [visibleKidsAt, visibleKids, placed, visibleAt_snd ex _ c, visibleKidsAt_snd ex pos (i + 1) r, Function.comp_def]
end

theorem filter_placed (f : List Nat → Bool) (pos : List Nat) (s : Str) :
    ((placed pos s).filter fun p => f p.1).map (·.2) = if f pos then piece s else [] := by
  unfold placed piece
  by_cases h : s = []
  · simp [h]
  · simp only [h, if_false, List.map_cons, List.map_nil, List.filter_cons, List.filter_nil]
    split <;> simp

theorem visible_complete_tail (n : Node) : (complete n).tail = [] := rfl

/-- Positions strictly inside `en`. -/
def Under (en pos : List Nat) : Prop := en <+: pos ∧ en ≠ pos

theorem inside_of_complete {st en pos : List Nat} (h1 : ¬ Above pos en) (h2 : docLe st pos = true) (h3 : docLe pos en = true) :
    inside st en pos = true := by
  simp only [inside, Bool.and_eq_true, Bool.or_eq_true, List.isPrefixOf_iff_prefix, Bool.not_eq_true']
  refine ⟨h2, ?_⟩
  by_cases he : pos = en
  · exact .inl (by rw [he]; exact List.prefix_refl _)
  · refine .inr ⟨h3, ?_⟩
    cases hb : pos.isPrefixOf en with
    | false => rfl
    | true => exact absurd ⟨List.isPrefixOf_iff_prefix.1 hb, he⟩ h1

theorem not_inside_above {st en pos : List Nat} (h : Above pos st ∨ Above pos en) :
    inside st en pos = false := by
  cases hb : inside st en pos with
  | false => rfl
  | true =>
    simp only [inside, Bool.and_eq_true, Bool.or_eq_true, List.isPrefixOf_iff_prefix, Bool.not_eq_true'] at hb
    rcases h with h | h
    · have := docLe_of_prefix h.1
      exact absurd (docLe_antisymm hb.1 this).symm h.2
    · rcases hb.2 with h2 | ⟨_, h2⟩
      · have := List.IsPrefix.eq_of_length_le h2 h.1.length_le
        exact absurd this.symm h.2
      · rw [List.isPrefixOf_iff_prefix.2 h.1] at h2; cases h2

theorem not_inside_outside {st en pos : List Nat} (h1 : ¬ Above pos st) (hu : ¬ Under en pos)
    (h : ¬ (docLe st pos = true ∧ docLe pos en = true)) (q : List Nat) : inside st en (pos ++ q) = false := by
  cases hb : inside st en (pos ++ q) with
  | false => rfl
  | true =>
    exfalso
    simp only [inside, Bool.and_eq_true, Bool.or_eq_true, List.isPrefixOf_iff_prefix, Bool.not_eq_true'] at hb
    obtain ⟨ha, hb⟩ := hb
    have hpq : docLe pos (pos ++ q) = true := docLe_append_right pos q
    apply h
    constructor
    · rcases docLe_total st pos with h | h
      · exact h
      · have hp : pos <+: st := prefix_of_between h ha
        by_cases he : pos = st
        · rw [he]; exact docLe_refl _
        · exact absurd ⟨hp, he⟩ h1
    · rcases hb with hb | ⟨hb, _⟩
      · rcases List.prefix_or_prefix_of_prefix hb (List.prefix_append pos q) with hp | hp
        · by_cases he : en = pos
          · rw [he]; exact docLe_refl _
          · exact absurd ⟨hp, he⟩ hu
        · exact docLe_of_prefix hp
      · exact docLe_trans hpq hb

theorem not_under_above {st en pos : List Nat} (hse : Precedes st en) (h : Above pos st ∨ Above pos en) : ¬ en <+: pos := by
  intro hp
  rcases h with h | h
  · have := (not_above_of_precedes hse []).2.1
    rw [List.append_nil] at this
    refine this ⟨hp.trans h.1, ?_⟩
    rintro rfl
    exact h.2 (List.IsPrefix.eq_of_length_le h.1 hp.length_le)
  · exact h.2 (List.IsPrefix.eq_of_length_le h.1 hp.length_le)

theorem under_kid {en pos : List Nat} {i : Nat} (h : ¬ en <+: pos) : ¬ Under en (pos ++ [i]) := by
  rintro ⟨h1, h2⟩
  rcases List.prefix_concat_iff.1 (by simpa using h1) with h3 | h3
  · exact h2 (by simpa using h3)
  · exact h h3

theorem tail_cutNode (st en pos : List Nat) (n : Node) : cutNode st en pos n = [] ∨ ∃ m, cutNode st en pos n = [m] ∧ m.tail = [] := by
  cases n
  rw [cutNode]
  split
  · exact .inr ⟨_, rfl, rfl⟩
  · split
    · exact .inr ⟨_, rfl, rfl⟩
    · exact .inl rfl

theorem visibleKids_append (ex : List Str) (a b : List Node) : visibleKids ex (a ++ b) = visibleKids ex a ++ visibleKids ex b := by
  induction a with
  | nil => rfl
  | cons c r ih => simp [visibleKids, ih]

mutual
theorem visible_cutNode (ex : List Str) (st en : List Nat) (hse : Precedes st en) (pos : List Nat) (hu : ¬ Under en pos) : ∀ n : Node,
    visibleKids ex (cutNode st en pos n) = ((visibleAt ex pos n).filter fun p => inside st en p.1).map (·.2)
  | .mk t a x ks y => by
    rw [cutNode]
    by_cases h : Above pos st ∨ Above pos en
    · have hin := not_inside_above h
      rw [if_pos h, visibleKids_single _ _ rfl, visible_emptied_mk]
      simp only [visibleAt]
      by_cases he : excluded ex t = true
      · simp [he]
      · rw [if_neg he, if_neg he, List.filter_append, List.map_append, filter_placed, hin]
        rw [visible_cutKids ex st en hse pos (not_under_above hse h) hin 0 ks]
        simp
    · rw [if_neg h]
      have h1 : ¬ Above pos st := fun e => h (.inl e)
      have h2 : ¬ Above pos en := fun e => h (.inr e)
      by_cases hb : docLe st pos = true ∧ docLe pos en = true
      · rw [if_pos (by simp [hb.1, hb.2]), visibleKids_single _ _ rfl, visible_complete]
        rw [List.filter_eq_self.2, visibleAt_snd]
        intro p hp
        obtain ⟨q, hq⟩ := visibleAt_pos ex pos _ p hp
        rw [← hq]
        exact inside_ext (inside_of_complete h2 hb.1 hb.2) q
      · rw [if_neg (by simpa using hb)]
        rw [List.filter_eq_nil_iff.2]
        · rfl
        · intro p hp
          obtain ⟨q, hq⟩ := visibleAt_pos ex pos _ p hp
          rw [← hq, not_inside_outside h1 hu hb q]
          simp
theorem visible_cutKids (ex : List Str) (st en : List Nat) (hse : Precedes st en) (pos : List Nat) (hu : ¬ en <+: pos)
    (hpos : inside st en pos = false) (i : Nat) : ∀ ks : List Node,
    visibleKids ex (cutKids st en pos i ks) = ((visibleKidsAt ex pos i ks).filter fun p => inside st en p.1).map (·.2)
  | [] => by simp [cutKids, visibleKidsAt, visibleKids]
  | c :: r => by
    rw [cutKids, visibleKidsAt, visibleKids_append, visible_cutNode ex st en hse (pos ++ [i]) (under_kid hu) c,
      visible_cutKids ex st en hse pos hu hpos (i + 1) r]
    simp only [List.filter_append, List.map_append, filter_placed, hpos]
    simp
end

theorem visible_cut (ex : List Str) (root : Node) (st en : List Nat) (hse : Precedes st en) :
    visible ex (cut root st en) = ((visibleAt ex [] root).filter fun p => inside st en p.1).map (·.2) := by
  have hne : st ≠ [] ∧ en ≠ [] := by
    cases st <;> cases en <;> simp [Precedes] at hse ⊢
  have ha : Above [] st := ⟨List.nil_prefix, hne.1.symm⟩
  have hin := not_inside_above (st := st) (en := en) (.inl ha)
  cases root with
  | mk t a x ks y =>
    rw [cut, visible_emptied_mk, visible_cutKids ex st en hse [] (not_under_above hse (.inl ha)) hin, visibleAt]
    by_cases he : excluded ex t = true
    · simp [he]
    · rw [if_neg he, if_neg he, List.filter_append, List.map_append, filter_placed, hin]; simp [Node.kids]

end Verif.Lemmas
