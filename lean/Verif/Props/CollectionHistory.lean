import Verif.Props.Collection
/-!
C39, C40: assigning parents and deleting members. Theorems are about `Verif/Model/Collection.lean`; the vocabulary
of the statements is in `Verif/Spec/Collection.lean`.
-/
namespace Verif.Props
open Verif.Py Verif.Model Verif.Spec

/-! ## C39 -/

theorem set_same {h : Heap} {a : Nat} {c : Coll} : (h.set a c) a = c := by simp [Heap.set]
theorem set_other {h : Heap} {a b : Nat} {c : Coll} (hne : b ≠ a) : (h.set a c) b = h b := by simp [Heap.set, hne]

theorem addMember_id {h : Heap} {p c x : Nat} : ((addMember h p c) x).id = (h x).id := by
  unfold addMember
  split
  · rfl
  · by_cases hx : x = p
    · subst hx; rw [set_same]
    · rw [set_other hx]

theorem addMember_parent {h : Heap} {p c x : Nat} : ((addMember h p c) x).parent = (h x).parent := by
  unfold addMember
  split
  · rfl
  · by_cases hx : x = p
    · subst hx; rw [set_same]
    · rw [set_other hx]

theorem addMember_leaf {h : Heap} {p c x : Nat} : ((addMember h p c) x).leaf = (h x).leaf := by
  unfold addMember
  split
  · rfl
  · by_cases hx : x = p
    · subst hx; rw [set_same]
    · rw [set_other hx]

theorem setParent_id {w : World} {c p x : Nat} : ((setParent w c p).heap x).id = (w.heap x).id := by
  simp only [setParent, addMember_id]
  by_cases hx : x = c
  · subst hx; rw [set_same]
  · rw [set_other hx]

theorem setParent_leaf {w : World} {c p x : Nat} : ((setParent w c p).heap x).leaf = (w.heap x).leaf := by
  simp only [setParent, addMember_leaf]
  by_cases hx : x = c
  · subst hx; rw [set_same]
  · rw [set_other hx]

theorem setParent_parent {w : World} {c p x : Nat} :
    ((setParent w c p).heap x).parent = if x = c then some p else (w.heap x).parent := by
  simp only [setParent, addMember_parent]
  by_cases hx : x = c
  · subst hx; rw [set_same, if_pos rfl]
  · rw [set_other hx, if_neg hx]

theorem setParent_children {w : World} {c p x : Nat} :
    ((setParent w c p).heap x).children =
      if x = p ∧ (w.heap c).id ∉ (w.heap p).children.map (·.1) then (w.heap p).children ++ [((w.heap c).id, c)]
      else (w.heap x).children := by
  have hch : ∀ y, ((w.heap.set c { w.heap c with parent := some p }) y).children = (w.heap y).children := by
    intro y
    by_cases hy : y = c
    · subst hy; rw [set_same]
    · rw [set_other hy]
  have hid : ((w.heap.set c { w.heap c with parent := some p }) c).id = (w.heap c).id := by rw [set_same]
  simp only [setParent]
  unfold addMember
  rw [hch p, hid]
  by_cases hk : (w.heap c).id ∈ (w.heap p).children.map (·.1)
  · rw [if_pos hk, hch, if_neg (fun h => h.2 hk)]
  · rw [if_neg hk]
    by_cases hx : x = p
    · subst hx; rw [set_same, if_pos ⟨rfl, hk⟩]
    · rw [set_other hx, hch, if_neg (fun h => hx h.1)]

/-- Identifiers never change. -/
theorem assignAll_id (w : World) (ops : List (Nat × Nat)) (x : Nat) : ((assignAll w ops).heap x).id = (w.heap x).id := by
  unfold assignAll
  induction ops generalizing w with
  | nil => rfl
  | cons o ops ih => rw [List.foldl_cons, ih, setParent_id]

theorem assignAll_leaf (w : World) (ops : List (Nat × Nat)) (x : Nat) : ((assignAll w ops).heap x).leaf = (w.heap x).leaf := by
  unfold assignAll
  induction ops generalizing w with
  | nil => rfl
  | cons o ops ih => rw [List.foldl_cons, ih, setParent_leaf]

theorem assignAll_snoc (w : World) (ops : List (Nat × Nat)) (o : Nat × Nat) :
    assignAll w (ops ++ [o]) = setParent (assignAll w ops) o.1 o.2 := by
  simp [assignAll, List.foldl_append]

/-- Induction on a list from its end. -/
theorem snocInduction {α : Type} {P : List α → Prop} (h0 : P []) (h1 : ∀ l x, P l → P (l ++ [x])) (l : List α) : P l := by
  have : ∀ l, P (List.reverse l) := by
    intro l
    induction l with
    | nil => exact h0
    | cons x l ih => rw [List.reverse_cons]; exact h1 _ _ ih
  simpa using this l.reverse

theorem append_snoc_split {α : Type} {pre post l : List α} {x y : α} (h : l ++ [y] = pre ++ x :: post) :
    (post = [] ∧ x = y ∧ pre = l) ∨ ∃ post', post = post' ++ [y] ∧ l = pre ++ x :: post' := by
  rcases List.eq_nil_or_concat post with rfl | ⟨post', z, rfl⟩
  · have := List.append_inj' h (by simp)
    simp at this
    exact .inl ⟨rfl, this.2.symm, this.1.symm⟩
  · have h' : l ++ [y] = (pre ++ x :: post') ++ [z] := by rw [h]; simp
    have := List.append_inj' h' (by simp)
    simp at this
    exact .inr ⟨post', by simp [this.2], this.1⟩

/-- C39. After any history of assignments, from collections without parents and children, the parent of a collection
is the one that was assigned last. -/
theorem C39_parent_is_last (w : World) (h0 : ∀ x, (w.heap x).parent = none) (ops : List (Nat × Nat)) (c p : Nat) :
    ((assignAll w ops).heap c).parent = some p ↔ ∃ pre post, ops = pre ++ (c, p) :: post ∧ ∀ q, (c, q) ∉ post := by
  induction ops using snocInduction with
  | h0 => simp [assignAll, h0]
  | h1 ops o ih =>
    obtain ⟨c', p'⟩ := o
    rw [assignAll_snoc, setParent_parent]
    by_cases hc : c = c'
    · subst hc
      rw [if_pos rfl]
      constructor
      · rintro ⟨⟩
        exact ⟨ops, [], rfl, by simp⟩
      · rintro ⟨pre, post, e, hn⟩
        rcases append_snoc_split e with ⟨_, e2, _⟩ | ⟨post', rfl, _⟩
        · simp at e2; rw [e2]
        · exact absurd (by simp) (hn p')
    · rw [if_neg hc, ih]
      constructor
      · rintro ⟨pre, post, rfl, hn⟩
        refine ⟨pre, post ++ [(c', p')], by simp, ?_⟩
        intro q hq
        simp at hq
        rcases hq with hq | hq
        · exact hn q hq
        · exact hc hq.1
      · rintro ⟨pre, post, e, hn⟩
        rcases append_snoc_split e with ⟨_, e2, _⟩ | ⟨post', rfl, rfl⟩
        · simp at e2; exact absurd e2.1 hc
        · exact ⟨pre, post', rfl, fun q hq => hn q (by simp [hq])⟩

/-- C39. The children of a collection are, by identifier, the collections that were first assigned to it under that
identifier. -/
theorem C39_children_are_first (w : World) (h0 : ∀ x, (w.heap x).children = []) (ops : List (Nat × Nat)) (p c : Nat) (k : Str) :
    (k, c) ∈ ((assignAll w ops).heap p).children ↔ k = (w.heap c).id ∧
      ∃ pre post, ops = pre ++ (c, p) :: post ∧ ∀ c', (c', p) ∈ pre → (w.heap c').id ≠ k := by
  induction ops using snocInduction generalizing k c with
  | h0 => simp [assignAll, h0]
  | h1 ops o ih =>
    obtain ⟨c', p'⟩ := o
    have hkeys : ∀ k, k ∈ (((assignAll w ops).heap p).children.map (·.1)) ↔ ∃ d, (d, p) ∈ ops ∧ (w.heap d).id = k := by
      intro k
      rw [List.mem_map]
      constructor
      · rintro ⟨⟨k', d⟩, hm, rfl⟩
        obtain ⟨rfl, pre, post, rfl, _⟩ := (ih d k').1 hm
        exact ⟨d, by simp, rfl⟩
      · rintro ⟨d, hd, rfl⟩
        -- the first one of them
        have : ∃ pre e post, ops = pre ++ (e, p) :: post ∧ (w.heap e).id = (w.heap d).id ∧
            ∀ c', (c', p) ∈ pre → (w.heap c').id ≠ (w.heap d).id := by
          clear ih
          induction ops with
          | nil => simp at hd
          | cons x ops ihx =>
            by_cases hx : x.2 = p ∧ (w.heap x.1).id = (w.heap d).id
            · exact ⟨[], x.1, ops, by rw [← hx.1]; simp, hx.2, by simp⟩
            · rcases List.mem_cons.1 hd with rfl | hd
              · exact absurd ⟨rfl, rfl⟩ hx
              · obtain ⟨pre, e, post, rfl, h1, h2⟩ := ihx hd
                refine ⟨x :: pre, e, post, rfl, h1, ?_⟩
                intro c' hc'
                rcases List.mem_cons.1 hc' with rfl | hc'
                · exact fun hh => hx ⟨rfl, hh⟩
                · exact h2 c' hc'
        obtain ⟨pre, e, post, h1, h2, h3⟩ := this
        exact ⟨((w.heap d).id, e), (ih e _).2 ⟨h2.symm, pre, post, h1, h3⟩, rfl⟩
    rw [assignAll_snoc, setParent_children]
    simp only [assignAll_id]
    by_cases hp : p = p'
    · subst hp
      by_cases hk : (w.heap c').id ∈ ((assignAll w ops).heap p).children.map (·.1)
      · rw [if_neg (fun h => h.2 hk), ih]
        obtain ⟨d, hd, hde⟩ := (hkeys _).1 hk
        constructor
        · rintro ⟨rfl, pre, post, rfl, hn⟩
          exact ⟨rfl, pre, post ++ [(c', p)], by simp, hn⟩
        · rintro ⟨rfl, pre, post, e, hn⟩
          rcases append_snoc_split e with ⟨_, e2, rfl⟩ | ⟨post', rfl, rfl⟩
          · simp at e2; subst e2; exact absurd hde (hn d hd)
          · exact ⟨rfl, pre, post', rfl, hn⟩
      · rw [if_pos ⟨rfl, hk⟩, List.mem_append, ih]
        constructor
        · rintro (⟨rfl, pre, post, rfl, hn⟩ | h)
          · exact ⟨rfl, pre, post ++ [(c', p)], by simp, hn⟩
          · simp at h
            obtain ⟨rfl, rfl⟩ := h
            exact ⟨rfl, ops, [], rfl, fun d hd hde => hk ((hkeys _).2 ⟨d, hd, hde⟩)⟩
        · rintro ⟨rfl, pre, post, e, hn⟩
          rcases append_snoc_split e with ⟨_, e2, rfl⟩ | ⟨post', rfl, rfl⟩
          · simp at e2; subst e2; exact .inr (by simp)
          · exact .inl ⟨rfl, pre, post', rfl, hn⟩
    · rw [if_neg (fun h => hp h.1), ih]
      constructor
      · rintro ⟨rfl, pre, post, rfl, hn⟩
        exact ⟨rfl, pre, post ++ [(c', p')], by simp, hn⟩
      · rintro ⟨rfl, pre, post, e, hn⟩
        rcases append_snoc_split e with ⟨_, e2, rfl⟩ | ⟨post', rfl, rfl⟩
        · simp at e2; exact absurd e2.2 hp
        · exact ⟨rfl, pre, post', rfl, hn⟩

/-- C39. When no collection is assigned twice, every entry in the children of `p` has `p` as parent and stands under
its identifier, and a collection whose parent is `p` is in the children of `p`, or one with its identifier that was
assigned to `p` before is. -/
theorem C39_agree (w : World) (h0 : ∀ x, (w.heap x).parent = none) (h0' : ∀ x, (w.heap x).children = [])
    (ops : List (Nat × Nat)) (hnd : (ops.map (·.1)).Nodup) (p c : Nat) :
    (∀ k, (k, c) ∈ ((assignAll w ops).heap p).children → ((assignAll w ops).heap c).parent = some p ∧ k = (w.heap c).id) ∧
    (((assignAll w ops).heap c).parent = some p →
      ∃ d, ((w.heap c).id, d) ∈ ((assignAll w ops).heap p).children ∧ (w.heap d).id = (w.heap c).id ∧
        (d = c ∨ ∃ pre mid post, ops = pre ++ (d, p) :: mid ++ (c, p) :: post)) := by
  constructor
  · intro k hk
    obtain ⟨rfl, pre, post, rfl, _⟩ := (C39_children_are_first w h0' ops p c k).1 hk
    refine ⟨(C39_parent_is_last w h0 _ c p).2 ⟨pre, post, rfl, ?_⟩, rfl⟩
    intro q hq
    rw [List.map_append, List.map_cons, List.nodup_append] at hnd
    have := (List.nodup_cons.1 hnd.2.1).1
    exact this (List.mem_map.2 ⟨_, hq, rfl⟩)
  · intro hp
    obtain ⟨pre, post, rfl, _⟩ := (C39_parent_is_last w h0 ops c p).1 hp
    by_cases hex : ∃ d, (d, p) ∈ pre ∧ (w.heap d).id = (w.heap c).id
    · -- the first one
      have : ∃ pre1 d mid, pre = pre1 ++ (d, p) :: mid ∧ (w.heap d).id = (w.heap c).id ∧
          ∀ e, (e, p) ∈ pre1 → (w.heap e).id ≠ (w.heap c).id := by
        clear hnd hp
        obtain ⟨d, hd, hde⟩ := hex
        induction pre with
        | nil => simp at hd
        | cons x pre ih =>
          by_cases hx : x.2 = p ∧ (w.heap x.1).id = (w.heap c).id
          · exact ⟨[], x.1, pre, by rw [← hx.1]; simp, hx.2, by simp⟩
          · rcases List.mem_cons.1 hd with rfl | hd
            · exact absurd ⟨rfl, hde⟩ hx
            · obtain ⟨pre1, e, mid, rfl, h1, h2⟩ := ih hd
              refine ⟨x :: pre1, e, mid, rfl, h1, ?_⟩
              intro f hf
              rcases List.mem_cons.1 hf with rfl | hf
              · exact fun hh => hx ⟨rfl, hh⟩
              · exact h2 f hf
      obtain ⟨pre1, d, mid, rfl, h1, h2⟩ := this
      refine ⟨d, (C39_children_are_first w h0' _ p d _).2 ⟨h1.symm, pre1, mid ++ (c, p) :: post, by simp, h2⟩, h1,
        .inr ⟨pre1, mid, post, by simp⟩⟩
    · refine ⟨c, (C39_children_are_first w h0' _ p c _).2 ⟨rfl, pre, post, rfl, ?_⟩, rfl, .inl rfl⟩
      intro d hd hde
      exact hex ⟨d, hd, hde⟩

/-- C39. Every assignment is recorded in the shared graph, and nothing else is. -/
theorem C39_graph (w : World) (ops : List (Nat × Nat)) (t : Triple) :
    t ∈ (assignAll w ops).graph ↔ t ∈ w.graph ∨ ∃ c p, (c, p) ∈ ops ∧ t = ⟨.uri (w.heap c).id, .uri "http://purl.org/capitains/ns/1.0#parent".toList, .uri (w.heap p).id⟩ := by
  induction ops using snocInduction with
  | h0 => simp [assignAll]
  | h1 ops o ih =>
    obtain ⟨c', p'⟩ := o
    rw [assignAll_snoc]
    simp only [setParent, mem_insert, ih, Coll.node, assignAll_id]
    constructor
    · rintro ((h | ⟨c, p, h, rfl⟩) | rfl)
      · exact .inl h
      · exact .inr ⟨c, p, by simp [h], rfl⟩
      · exact .inr ⟨c', p', by simp, rfl⟩
    · rintro (h | ⟨c, p, h, rfl⟩)
      · exact .inl (.inl h)
      · simp at h
        rcases h with h | ⟨rfl, rfl⟩
        · exact .inl (.inr ⟨c, p, h, rfl⟩)
        · exact .inr rfl

/-- Three collections `a`, `b`, `c` (the texts of the example are `c` and one with the same identifier). -/
def fresh : World :=
  ⟨fun | 0 => ⟨['a'], false, false, none, []⟩ | 1 => ⟨['b'], false, false, none, []⟩ | 2 => ⟨['c'], true, true, none, []⟩
       | 3 => ⟨['c'], true, true, none, []⟩ | _ => ⟨[], false, false, none, []⟩, []⟩

/-- C39 fails when a collection is moved: the old parent keeps it as a member. -/
theorem C39_fails_on_move : ∃ (w : World) (ops : List (Nat × Nat)) (p c : Nat), (∀ x, (w.heap x).parent = none) ∧
    (∀ x, (w.heap x).children = []) ∧ c ∈ members (assignAll w ops).heap p ∧ ((assignAll w ops).heap c).parent ≠ some p :=
  ⟨fresh, [(2, 0), (2, 1)], 0, 2, by intro x; unfold fresh; simp only; split <;> rfl,
    by intro x; unfold fresh; simp only; split <;> rfl, by decide, by decide⟩

example : (((assignAll fresh [(1, 0), (2, 1), (3, 1)]).heap 1).children = [(['c'], 2)]) ∧
    ((assignAll fresh [(1, 0), (2, 1), (3, 1)]).heap 3).parent = some 1 ∧
    ((assignAll fresh [(1, 0), (2, 1), (3, 1)]).heap 0).children = [(['b'], 1)] ∧
    (([(1, 0), (2, 1), (3, 1)] : List (Nat × Nat)).map (·.1)).Nodup := by decide

/-! ## C40 -/

theorem below_ranked {h : Heap} {rank : Nat → Nat} (hr : Ranked h rank) {a b : Nat} (hb : Beneath h a b) : rank b < rank a := by
  induction hb with
  | member hm => exact hr _ _ hm
  | deeper _ hm ih => have := hr _ _ hm; omega

/-- What deletion does to the objects: the item is taken out of the children of its parent, nothing else changes. -/
theorem delItem_effect {w w' : World} {limit a : Nat} {key : Str} (h : delItem w limit a key = .ok w') :
    ∃ b, getItem w.heap limit a key = .ok b ∧ w'.graph = delGraph w.graph (.uri (w.heap b).id) (.uri (w.heap a).id) ∧
      (((w.heap b).parent = none ∧ w'.heap = w.heap) ∨
        ∃ p, (w.heap b).parent = some p ∧ w'.heap = w.heap.set p
          { w.heap p with children := (w.heap p).children.filter fun e => e.1 ≠ (w.heap b).id }) := by
  unfold delItem at h
  cases hg : getItem w.heap limit a key with
  | error e => rw [hg] at h; cases h
  | ok b =>
    rw [hg] at h
    simp only at h
    refine ⟨b, rfl, ?_⟩
    cases hp : parents w.heap limit b with
    | error e => rw [hp] at h; cases h
    | ok ps =>
      have hps : (ps = [] ∧ (w.heap b).parent = none) ∨ ∃ p r, ps = p :: r ∧ (w.heap b).parent = some p := by
        cases limit with
        | zero => simp [parents] at hp
        | succ limit =>
          rw [parents] at hp
          cases hpar : (w.heap b).parent with
          | none => rw [hpar] at hp; simp at hp; exact .inl ⟨hp.symm ▸ rfl, rfl⟩
          | some p =>
            rw [hpar] at hp
            simp only at hp
            cases hq : parents w.heap limit p with
            | error e => rw [hq] at hp; cases hp
            | ok l => rw [hq] at hp; simp at hp; exact .inr ⟨p, l, hp.symm, rfl⟩
      rw [hp] at h
      rcases hps with ⟨rfl, hpar⟩ | ⟨p, r, rfl, hpar⟩
      · simp only [Except.ok.injEq] at h
        subst h
        exact ⟨rfl, .inl ⟨hpar, rfl⟩⟩
      · simp only at h
        unfold delChild at h
        split at h
        · cases h
        · rename_i h' e
          split at e
          · simp only [Except.ok.injEq] at e h
            subst h
            exact ⟨rfl, .inr ⟨p, hpar, e.symm⟩⟩
          · cases e

theorem mem_delGraph {g : Graph} {i s : Term} {t : Triple} :
    t ∈ delGraph g i s ↔ t ∈ g ∧ t.s ≠ i ∧ t.o ≠ i ∧ t.s ≠ s ∧ t.o ≠ s := by
  simp only [delGraph, mem_removeAll, Option.some.injEq, reduceCtorEq, false_or, true_and, true_or, and_true]
  constructor
  · rintro ⟨⟨⟨⟨a, b⟩, c⟩, d⟩, e⟩; exact ⟨a, Ne.symm b, Ne.symm c, Ne.symm d, Ne.symm e⟩
  · rintro ⟨a, b, c, d, e⟩; exact ⟨⟨⟨⟨a, Ne.symm b⟩, Ne.symm c⟩, Ne.symm d⟩, Ne.symm e⟩

section Tree
variable {h : Heap} {b p : Nat}

/-- The heap after taking `b` out of the children of `p`. -/
def without (h : Heap) (p b : Nat) : Heap :=
  h.set p { h p with children := (h p).children.filter fun e => e.1 ≠ (h b).id }

theorem without_id (x : Nat) : ((without h p b) x).id = (h x).id := by
  unfold without
  by_cases hx : x = p
  · subst hx; rw [set_same]
  · rw [set_other hx]

theorem without_member (ht : TreeLike h) (hb : (h b).parent = some p) (hids : ∀ x, Member h p x → (h x).id = (h b).id → x = b) {q c : Nat} :
    Member (without h p b) q c ↔ Member h q c ∧ c ≠ b := by
  unfold Member without
  by_cases hq : q = p
  · subst hq
    rw [set_same]
    simp only [List.mem_filter, decide_eq_true_eq]
    constructor
    · rintro ⟨hl, k, hk, hne⟩
      refine ⟨⟨hl, k, hk⟩, ?_⟩
      rintro rfl
      exact hne (ht.key _ _ _ hk).1
    · rintro ⟨⟨hl, k, hk⟩, hne⟩
      refine ⟨hl, k, hk, ?_⟩
      intro e
      have := (ht.key _ _ _ hk).1
      exact hne (hids c ⟨hl, k, hk⟩ (this ▸ e))
  · rw [set_other hq]
    constructor
    · rintro ⟨hl, k, hk⟩
      refine ⟨⟨hl, k, hk⟩, ?_⟩
      rintro rfl
      have := (ht.key _ _ _ hk).2
      rw [hb] at this
      simp at this
      exact hq this.symm
    · exact fun h => h.1

theorem without_below (ht : TreeLike h) (hb : (h b).parent = some p) (hids : ∀ x, Member h p x → (h x).id = (h b).id → x = b)
    {rank : Nat → Nat} (hr : Ranked h rank) {a : Nat} (hab : Beneath h a b) {x : Nat} :
    Beneath (without h p b) a x ↔ Beneath h a x ∧ ¬ Within h b x := by
  have hanot : ¬ Within h b a := by
    rintro (rfl | hba)
    · exact absurd (below_ranked hr hab) (by omega)
    · have h1 := below_ranked hr hba
      have h2 := below_ranked hr hab
      omega
  have huniq : ∀ {y z x}, Member h y x → Member h z x → y = z := by
    rintro y z x ⟨_, k, hk⟩ ⟨_, k', hk'⟩
    have h1 := (ht.key _ _ _ hk).2
    have h2 := (ht.key _ _ _ hk').2
    rw [h1] at h2
    simpa using h2
  have hstep : ∀ {y x}, Member h y x → x ≠ b → (Within h b x ↔ Within h b y) := by
    intro y x hm hne
    constructor
    · rintro (rfl | hbx)
      · exact absurd rfl hne
      · cases hbx with
        | member hm' => exact .inl (huniq hm hm')
        | deeper hz hm' => exact .inr (huniq hm hm' ▸ hz)
    · rintro (rfl | hby)
      · exact .inr (.member hm)
      · exact .inr (.deeper hby hm)
  constructor
  · intro hx
    induction hx with
    | member hm =>
      obtain ⟨hm1, hne⟩ := (without_member ht hb hids).1 hm
      exact ⟨.member hm1, fun hw => hanot ((hstep hm1 hne).1 hw)⟩
    | deeper _ hm ih =>
      obtain ⟨hm1, hne⟩ := (without_member ht hb hids).1 hm
      exact ⟨.deeper ih.1 hm1, fun hw => ih.2 ((hstep hm1 hne).1 hw)⟩
  · rintro ⟨hx, hn⟩
    induction hx with
    | member hm =>
      have hne : _ ≠ b := fun e => hn (.inl e)
      exact .member ((without_member ht hb hids).2 ⟨hm, hne⟩)
    | deeper _ hm ih =>
      have hne : _ ≠ b := fun e => hn (.inl e)
      exact .deeper (ih fun hw => hn ((hstep hm hne).2 hw)) ((without_member ht hb hids).2 ⟨hm, hne⟩)
end Tree

theorem parents_ok {h : Heap} {rank : Nat → Nat} (ht : TreeLike h) (hr : Ranked h rank) (N limit b : Nat)
    (hN : ∀ x, Within h x b → rank x ≤ N) (hl : N - rank b < limit) : ∃ l, parents h limit b = .ok l := by
  induction limit generalizing b with
  | zero => omega
  | succ limit ih =>
    rw [parents]
    cases hp : (h b).parent with
    | none => exact ⟨[], rfl⟩
    | some p =>
      have hm := ht.parent p b hp
      have h1 := hr p b hm
      have h2 := hN p (.inr (.member hm))
      obtain ⟨l, hl'⟩ := ih p (fun x hx => hN x (by
        rcases hx with rfl | hx
        · exact .inr (.member hm)
        · exact .inr (.deeper hx hm))) (by omega)
      simp only [hl']
      exact ⟨_, rfl⟩

/-- C40, for what is below the collection, in a tree with different identifiers: deletion succeeds, the identifiers
of the deleted object and of everything below it are no longer found, and everything else is found as before. -/
theorem C40_delete (w : World) (rank : Nat → Nat) (limit a b : Nat) (ht : TreeLike w.heap) (hr : Ranked w.heap rank)
    (hlim : ∀ x, rank x < limit) (hd : DistinctIds w.heap a) (hb : Beneath w.heap a b) :
    ∃ w', delItem w limit a (w.heap b).id = .ok w' ∧
      (∀ x, Within w.heap b x → getItem w'.heap limit a (w.heap x).id = .error .unknownCollection) ∧
      (∀ x, Within w.heap a x → ¬ Within w.heap b x → getItem w'.heap limit a (w.heap x).id = .ok x) := by
  obtain ⟨l, hl⟩ := C38_succeeds w.heap rank hr limit a (hlim a)
  obtain ⟨b', hg, hid, hw, _⟩ := C37_exists w.heap limit a b l hl (.inr hb)
  have hbb : b' = b := hd b' b hw (.inr hb) hid
  subst hbb
  obtain ⟨ps, hps⟩ := parents_ok ht hr (limit - 1) limit b' (fun x _ => by have := hlim x; omega) (by have := hlim b'; omega)
  -- the parent
  have hpar : ∃ p, (w.heap b').parent = some p ∧ Member w.heap p b' ∧ Within w.heap a p := by
    cases hb with
    | member hm => obtain ⟨hl', k, hk⟩ := hm; exact ⟨a, (ht.key _ _ _ hk).2, ⟨hl', k, hk⟩, .inl rfl⟩
    | deeper hq hm => obtain ⟨hl', k, hk⟩ := hm; exact ⟨_, (ht.key _ _ _ hk).2, ⟨hl', k, hk⟩, .inr hq⟩
  obtain ⟨p, hp, hmem, hwp⟩ := hpar
  have hps' : ∃ r, ps = p :: r := by
    cases limit with
    | zero => simp [parents] at hps
    | succ limit =>
      rw [parents, hp] at hps
      simp only at hps
      cases hq : parents w.heap limit p with
      | error e => rw [hq] at hps; cases hps
      | ok l => rw [hq] at hps; simp at hps; exact ⟨l, hps.symm⟩
  obtain ⟨r, rfl⟩ := hps'
  have hdel : delItem w limit a (w.heap b').id =
      .ok { heap := without w.heap p b', graph := delGraph w.graph (w.heap b').node (w.heap a).node } := by
    unfold delItem
    rw [hg]
    simp only [hps]
    unfold delChild
    rw [if_pos]
    · rfl
    · obtain ⟨_, k, hk⟩ := hmem
      rw [← (ht.key _ _ _ hk).1]
      exact List.mem_map.2 ⟨_, hk, rfl⟩
  have hids : ∀ x, Member w.heap p x → (w.heap x).id = (w.heap b').id → x = b' := by
    intro x hx e
    refine hd x b' (.inr ?_) (.inr hb) e
    rcases hwp with rfl | hwp
    · exact .member hx
    · exact .deeper hwp hx
  have hrank' : Ranked (without w.heap p b') rank := by
    intro x y hxy
    exact hr x y ((without_member ht hp hids).1 hxy).1
  obtain ⟨l', hl'⟩ := C38_succeeds _ rank hrank' limit a (hlim a)
  have hbel : ∀ x, Beneath (without w.heap p b') a x ↔ Beneath w.heap a x ∧ ¬ Within w.heap b' x :=
    fun x => without_below ht hp hids hr hb
  have hanot : ¬ Within w.heap b' a := by
    rintro (rfl | hba)
    · exact absurd (below_ranked hr hb) (by omega)
    · have h1 := below_ranked hr hba
      have h2 := below_ranked hr hb
      omega
  refine ⟨_, hdel, ?_, ?_⟩
  · intro x hx
    have hxa : Within w.heap a x := by
      rcases hx with rfl | hx
      · exact .inr hb
      · refine .inr ?_
        induction hx with
        | member hm => exact .deeper hb hm
        | deeper _ hm ih => exact .deeper ih hm
    rw [C37_unknown _ limit a _ l' hl']
    intro y hy e
    simp only [without_id] at e
    rcases hy with rfl | hy
    · have := hd y x (.inl rfl) hxa e
      subst this
      exact hanot hx
    · obtain ⟨h1, h2⟩ := (hbel y).1 hy
      have := hd y x (.inr h1) hxa e
      subst this
      exact h2 hx
  · intro x hx hnx
    have hx' : Within (without w.heap p b') a x := by
      rcases hx with rfl | hx
      · exact .inl rfl
      · exact .inr ((hbel x).2 ⟨hx, hnx⟩)
    obtain ⟨c, hc, hcid, hcw, _⟩ := C37_exists _ limit a x l' hl' hx'
    simp only [without_id] at hc hcid
    show getItem (without w.heap p b') limit a (w.heap x).id = .ok x
    rw [hc]
    congr 1
    refine hd c x ?_ hx hcid
    rcases hcw with rfl | hcw
    · exact .inl rfl
    · exact .inr ((hbel c).1 hcw).1

/-- C40, metadata. Exactly the triples about the deleted object, and about the collection that it is deleted from,
are removed. -/
theorem C40_metadata (w w' : World) (limit a b : Nat) (key : Str) (hg : getItem w.heap limit a key = .ok b)
    (h : delItem w limit a key = .ok w') (t : Triple) :
    t ∈ w'.graph ↔ t ∈ w.graph ∧ (t.s ≠ .uri key ∧ t.o ≠ .uri key) ∧ (t.s ≠ .uri (w.heap a).id ∧ t.o ≠ .uri (w.heap a).id) := by
  obtain ⟨b', hg', hgr, _⟩ := delItem_effect h
  rw [hg] at hg'
  simp only [Except.ok.injEq] at hg'
  subst hg'
  rw [hgr, mem_delGraph, (C37_found _ _ _ _ _ hg).2]
  simp only [and_assoc]

/-- A work in a group, with titles. -/
def library : World :=
  ⟨fun | 0 => ⟨['g'], false, false, none, [(['w'], 1), (['v'], 2)]⟩ | 1 => ⟨['w'], false, false, some 0, []⟩
       | 2 => ⟨['v'], false, false, some 0, []⟩ | _ => ⟨[], false, false, none, []⟩,
   [⟨.uri ['g'], .uri ['t'], .lit "Group".toList none none⟩, ⟨.uri ['w'], .uri ['t'], .lit "Work".toList none none⟩,
    ⟨.uri ['v'], .uri ['t'], .lit "Other".toList none none⟩]⟩

/-- C40 fails for the metadata of the collection itself: deleting a work erases the title of its group. -/
theorem C40_container_metadata_lost : ∃ (w w' : World) (t : Triple), delItem w 5 0 ['w'] = .ok w' ∧
    t.s = .uri (w.heap 0).id ∧ t ∈ w.graph ∧ t ∉ w'.graph :=
  ⟨library, _, ⟨.uri ['g'], .uri ['t'], .lit "Group".toList none none⟩, rfl, rfl, by decide, by decide⟩

/-- C40 fails for the identifier of the collection itself: after deletion it is still found. -/
theorem C40_own_identifier : ∃ (w w' : World), delItem w 5 0 ['g'] = .ok w' ∧ getItem w'.heap 5 0 ['g'] = .ok 0 :=
  ⟨library, _, rfl, by decide⟩

/-- C40 fails for an item that was moved: deleting it from the collection it came from takes it out of the one it was
moved to, leaves it where it was asked to go away, and deleting it again raises a `KeyError`. -/
theorem C40_fails_after_move : ∃ w' : World, delItem (assignAll fresh [(2, 0), (2, 1)]) 5 0 ['c'] = .ok w' ∧
    getItem w'.heap 5 0 ['c'] = .ok 2 ∧ getItem w'.heap 5 1 ['c'] = .error .unknownCollection ∧
    (match delItem w' 5 0 ['c'] with | .error e => some e | .ok _ => none) = some .keyError :=
  ⟨_, rfl, by decide, by decide, by decide⟩

/-- Deleting an unknown identifier raises `UnknownCollection` and changes nothing. -/
theorem C40_unknown (w : World) (limit a : Nat) (key : Str) (h : getItem w.heap limit a key = .error .unknownCollection) :
    delItem w limit a key = .error .unknownCollection := by
  unfold delItem
  rw [h]

example : TreeLike library.heap := by
  constructor
  · intro p k c hk
    unfold library at hk ⊢
    simp only at hk ⊢
    split at hk
    · simp at hk; rcases hk with ⟨rfl, rfl⟩ | ⟨rfl, rfl⟩ <;> decide
    · simp at hk
    · simp at hk
    · simp at hk
  · intro p c hp
    unfold library at hp ⊢
    simp only at hp ⊢
    split at hp
    · cases hp
    · simp at hp; subst hp; exact ⟨rfl, ['w'], by decide⟩
    · simp at hp; subst hp; exact ⟨rfl, ['v'], by decide⟩
    · cases hp

example : Ranked library.heap (fun | 0 => 1 | _ => 0) := by
  rintro a b ⟨hl, k, hk⟩
  unfold library at hk
  simp only at hk
  split at hk
  · simp at hk; rcases hk with ⟨_, rfl⟩ | ⟨_, rfl⟩ <;> decide
  · simp at hk
  · simp at hk
  · simp at hk

example : DistinctIds library.heap 0 ∧ Beneath library.heap 0 1 := by
  have h1 : Beneath library.heap 0 1 := .member ⟨rfl, ['w'], by decide⟩
  have hw : ∀ x, Within library.heap 0 x → x = 0 ∨ x = 1 ∨ x = 2 := by
    have hm : ∀ y x, (y = 0 ∨ y = 1 ∨ y = 2) → Member library.heap y x → x = 0 ∨ x = 1 ∨ x = 2 := by
      rintro y x (rfl | rfl | rfl) ⟨_, k, hk⟩
      · simp [library] at hk; omega
      · simp [library] at hk
      · simp [library] at hk
    rintro x (rfl | hx)
    · exact .inl rfl
    · induction hx with
      | member h => exact hm _ _ (.inl rfl) h
      | deeper _ h ih => exact hm _ _ ih h
  refine ⟨?_, h1⟩
  intro b c hb hc e
  rcases hw b hb with rfl | rfl | rfl <;> rcases hw c hc with rfl | rfl | rfl <;> first | rfl | (revert e; decide)

example : ∃ w', delItem library 5 0 ['w'] = .ok w' ∧ getItem w'.heap 5 0 ['w'] = .error .unknownCollection ∧
    getItem w'.heap 5 0 ['v'] = .ok 2 := ⟨_, rfl, by decide, by decide⟩

end Verif.Props
