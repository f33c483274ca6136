import Verif.Lemmas.Subgraph
/-!
C52: extraction of a part of the graph. Theorems are about `Verif/Model/Subgraph.lean`; reachability is in
`Verif/Spec/Subgraph.lean`. `order` is the unspecified order in which the graph is read.
-/
namespace Verif.Props
open Verif.Py Verif.Model Verif.Spec Verif.Lemmas

/-- C52, termination. On every graph, cyclic or not, from every state and for all numbers of levels, the calls
nest at most `4 * |g| + 3` deep. -/
theorem C52_terminates (order : Order) (ho : Rearranges order) (g : Graph) (target : Term) (asc desc : Int) (st : SubState) :
    ∃ st', graphiter order g (2 * size g + 1) target asc desc st = some st' := by
  let U : List Str := target.str :: g.flatMap fun t => [t.s.str, t.o.str]
  have hlen : U.length = size g := by
    simp only [U, size, List.length_cons, List.length_flatMap]
    congr 1
    induction g with
    | nil => rfl
    | cons t g ih => simp at ih ⊢; omega
  refine graphiter_some ho (U := U) ?_ (List.mem_cons_self ..) ?_
  · intro t ht
    constructor <;> refine List.mem_cons_of_mem _ (List.mem_flatMap.2 ⟨t, ht, by simp⟩)
  · have h1 : ∀ m, unmarked U m ≤ U.length := fun m => List.length_filter_le _ _
    have := h1 st.down
    have := h1 st.up
    unfold todo
    omega

/-- C52, faithful. Whatever the numbers of levels, only triples of the source are added. -/
theorem C52_only_source (order : Order) (ho : Rearranges order) (g : Graph) (fuel : Nat) (target : Term) (asc desc : Int)
    (st st' : SubState) (h : graphiter order g fuel target asc desc st = some st') :
    (∀ t ∈ st.out, t ∈ st'.out) ∧ ∀ t ∈ st'.out, t ∈ st.out ∨ t ∈ g := by
  refine ⟨(graphiter_grows h).out, ?_⟩
  induction fuel generalizing target asc desc st st' with
  | zero => simp [graphiter] at h
  | succ fuel ih =>
    obtain ⟨st1, h1, h2⟩ := graphiter_phases h
    have hdown : ∀ (visit : Term → SubState → Option SubState)
        (_ : ∀ x s s', visit x s = some s' → ∀ t ∈ s'.out, t ∈ s.out ∨ t ∈ g) (d : Int) (L : List (Term × Term))
        (s s' : SubState), (∀ po ∈ L, (⟨target, po.1, po.2⟩ : Triple) ∈ g) → downLoop visit target d L s = some s' →
        ∀ t ∈ s'.out, t ∈ s.out ∨ t ∈ g := by
      intro visit hv d L
      induction L with
      | nil => intro s s' _ hs; simp only [downLoop, Option.some.injEq] at hs; subst hs; exact fun _ h => .inl h
      | cons po L ihL =>
        intro s s' hL hs t ht
        have hL' : ∀ po ∈ L, (⟨target, po.1, po.2⟩ : Triple) ∈ g := fun po h => hL po (List.mem_cons_of_mem _ h)
        have hins : ∀ t ∈ s.out.insert ⟨target, po.1, po.2⟩, t ∈ s.out ∨ t ∈ g := by
          intro t ht
          rcases mem_insert.1 ht with h | rfl
          · exact .inl h
          · exact .inr (hL po (List.mem_cons_self ..))
        obtain ⟨p, o⟩ := po
        rw [downLoop] at hs
        split at hs
        · exact ihL _ _ hL' hs t ht
        · split at hs
          · split at hs
            · cases hs
            · rename_i s2 e2
              rcases ihL _ _ hL' hs t ht with h | h
              · rcases hv _ _ _ e2 t h with h | h
                · exact hins t h
                · exact .inr h
              · exact .inr h
          · rcases ihL _ _ hL' hs t ht with h | h
            · exact hins t h
            · exact .inr h
    have hup : ∀ (visit : Term → SubState → Option SubState)
        (_ : ∀ x s s', visit x s = some s' → ∀ t ∈ s'.out, t ∈ s.out ∨ t ∈ g) (a d : Int) (L : List (Term × Term))
        (s s' : SubState), (∀ po ∈ L, (⟨po.1, po.2, target⟩ : Triple) ∈ g) → upLoop visit target a d L s = some s' →
        ∀ t ∈ s'.out, t ∈ s.out ∨ t ∈ g := by
      intro visit hv a d L
      induction L with
      | nil => intro s s' _ hs; simp only [upLoop, Option.some.injEq] at hs; subst hs; exact fun _ h => .inl h
      | cons po L ihL =>
        intro s s' hL hs t ht
        have hL' : ∀ po ∈ L, (⟨po.1, po.2, target⟩ : Triple) ∈ g := fun po h => hL po (List.mem_cons_of_mem _ h)
        have hins : ∀ t ∈ s.out.insert ⟨po.1, po.2, target⟩, t ∈ s.out ∨ t ∈ g := by
          intro t ht
          rcases mem_insert.1 ht with h | rfl
          · exact .inl h
          · exact .inr (hL po (List.mem_cons_self ..))
        obtain ⟨u, p⟩ := po
        rw [upLoop] at hs
        split at hs
        · exact ihL _ _ hL' hs t ht
        · split at hs
          · split at hs
            · cases hs
            · rename_i s2 e2
              rcases ihL _ _ hL' hs t ht with h | h
              · rcases hv _ _ _ e2 t h with h | h
                · exact hins t h
                · exact .inr h
              · exact .inr h
          · rcases ihL _ _ hL' hs t ht with h | h
            · exact hins t h
            · exact .inr h
    have hfirst : ∀ t ∈ st1.out, t ∈ st.out ∨ t ∈ g := by
      rcases h1 with ⟨_, _, e⟩ | ⟨_, rfl⟩
      · exact hdown _ (fun x s s' hs => ih _ _ _ _ _ hs) _ _ { st with down := target.str :: st.down } _
          (fun po hpo => (mem_predicateObjects ho).1 hpo) e
      · exact fun _ h => .inl h
    rcases h2 with ⟨_, _, e⟩ | ⟨_, rfl⟩
    · intro t ht
      rcases hup _ (fun x s s' hs => ih _ _ _ _ _ hs) _ _ _ { st1 with up := target.str :: st1.up } _
          (fun po hpo => (mem_subjectPredicates ho).1 hpo) e t ht with h | h
      · exact hfirst t h
      · exact .inr h
    · exact hfirst

/-- C52, unlimited descendants. A new subgraph around a target has exactly the triples whose subject is reachable
from the target, when different terms have different strings. -/
theorem C52_all_descendants (order : Order) (ho : Rearranges order) (g : Graph) (fuel : Nat) (target : Term) (desc : Int)
    (hd : desc < 0) (hn : NamesDiffer g target) (st' : SubState)
    (h : graphiter order g fuel target 0 desc .new = some st') (t : Triple) :
    t ∈ st'.out ↔ t ∈ g ∧ Reaches g target t.s := by
  obtain ⟨hm, hc⟩ := down_closed ho hn hd (.inl rfl) h
  have hc' : ∀ y, Occurs g target y → y.str ∈ st'.down → ClosedDown g st' y := by
    intro y hy hys
    rcases hc y hy hys with h | h
    · simp [SubState.new] at h
    · exact h
  constructor
  · intro ht
    rcases (down_sound ho h).2 t ht with h0 | ⟨hg, k, hk, _⟩
    · simp [SubState.new] at h0
    · exact ⟨hg, k, hk⟩
  · rintro ⟨hg, k, hk⟩
    have := steps_marked hk (.inl rfl) hc' hm
    exact (hc' t.s (.inr ⟨t, hg, .inl rfl⟩) this t.p t.o hg).1

/-- C52, unlimited ascendants. Exactly the triples whose subject is not a blank node and from whose object the
target is reached without passing through blank nodes. -/
theorem C52_all_ascendants (order : Order) (ho : Rearranges order) (g : Graph) (fuel : Nat) (target : Term) (asc : Int)
    (ha : asc < 0) (hn : NamesDiffer g target) (st' : SubState)
    (h : graphiter order g fuel target asc 0 .new = some st') (t : Triple) :
    t ∈ st'.out ↔ t ∈ g ∧ t.s.isBNode = false ∧ ∃ k, Climbs g k t.o target := by
  obtain ⟨hm, hc⟩ := up_closed ho hn ha (.inl rfl) h
  have hc' : ∀ y, Occurs g target y → y.str ∈ st'.up → ClosedUp g st' y := by
    intro y hy hys
    rcases hc y hy hys with h | h
    · simp [SubState.new] at h
    · exact h
  constructor
  · intro ht
    rcases (up_sound ho h).2 t ht with h0 | ⟨hg, hb, k, hk, _⟩
    · simp [SubState.new] at h0
    · exact ⟨hg, hb, k, hk⟩
  · rintro ⟨hg, hb, k, hk⟩
    obtain ⟨h1, h2⟩ := climbs_marked hk (.inl rfl) hc' hm
    exact (hc' t.o h1 h2 t.s t.p hg hb).1

theorem climbs_iff {g : Graph} (hb : ∀ t ∈ g, t.s.isBNode = false) {n : Nat} {a b : Term} : Climbs g n a b ↔ Steps g n a b := by
  constructor
  · intro h
    induction h with
    | here => exact .here _
    | next p hm _ _ ih => exact .next p hm ih
  · intro h
    induction h with
    | here => exact .here _
    | next p hm _ ih => exact .next p hm (hb _ hm) ih

/-- C52, unlimited both ways, in a graph whose subjects are not blank nodes: exactly the triples whose subject is
reachable from the target or from whose object the target is reachable. -/
theorem C52_both_ways (order : Order) (ho : Rearranges order) (g : Graph) (fuel : Nat) (target : Term) (asc desc : Int)
    (ha : asc < 0) (hd : desc < 0) (hn : NamesDiffer g target) (hb : ∀ t ∈ g, t.s.isBNode = false) (st' : SubState)
    (h : graphiter order g fuel target asc desc .new = some st') (t : Triple) :
    t ∈ st'.out ↔ t ∈ g ∧ (Reaches g target t.s ∨ Reaches g t.o target) := by
  cases fuel with
  | zero => simp [graphiter] at h
  | succ fuel =>
    obtain ⟨st1, h1, h2⟩ := graphiter_phases h
    have hdown : graphiter order g (fuel + 1) target 0 desc .new = some st1 := by
      rw [graphiter]
      rcases h1 with ⟨a1, a2, e⟩ | ⟨h0 | h0, _⟩
      · rw [if_pos ⟨a1, a2⟩, e]; simp
      · omega
      · simp [SubState.new] at h0
    have hup1 : st1.up = [] := (down_sound ho hdown).1
    have hdn := C52_all_descendants order ho g _ target desc hd hn st1 hdown
    rcases h2 with ⟨_, _, e⟩ | ⟨h0 | h0, _⟩
    · obtain ⟨hm, hc⟩ := up_closed_step ho hn (d := desc) ha (.inl rfl) (fun h1 h2 h3 => up_closed ho hn h1 h2 h3) e
      have hsound := (upLoop_sound (s := { st1 with up := target.str :: st1.up }) (d := desc) (by omega) (.inr hb)
        (fun h => up_sound ho h) _ _ (fun po hpo => (mem_subjectPredicates ho).1 hpo) e).2
      have hc' : ∀ y, Occurs g target y → y.str ∈ st'.up → ClosedUp g st' y := by
        intro y hy hys
        rcases hc y hy hys with h | h
        · rw [hup1] at h; simp at h
        · exact h
      constructor
      · intro ht
        rcases hsound t ht with h0 | ⟨hg, _, k, hk, _⟩
        · have := (hdn t).1 h0
          exact ⟨this.1, .inl this.2⟩
        · exact ⟨hg, .inr ⟨k, (climbs_iff hb).1 hk⟩⟩
      · rintro ⟨hg, hr | ⟨k, hk⟩⟩
        · have hgr := (Grows.markUp st1 target.str).trans (upLoop_grows (fun x s s' h => graphiter_grows h) e)
          exact hgr.out _ ((hdn t).2 ⟨hg, hr⟩)
        · obtain ⟨q1, q2⟩ := climbs_marked ((climbs_iff hb).2 hk) (.inl rfl) hc' hm
          exact (hc' t.o q1 q2 t.s t.p hg (hb t hg)).1
    · omega
    · rw [hup1] at h0; simp at h0

/-- C52, limited. With `n` levels down, only triples whose subject is less than `n` steps away from the target. -/
theorem C52_limited_descendants (order : Order) (ho : Rearranges order) (g : Graph) (fuel : Nat) (target : Term) (n : Nat)
    (st' : SubState) (h : graphiter order g fuel target 0 n .new = some st') (t : Triple) (ht : t ∈ st'.out) :
    t ∈ g ∧ ∃ k, k < n ∧ Steps g k target t.s := by
  rcases (down_sound ho h).2 t ht with h0 | ⟨hg, k, hk, hlt⟩
  · simp [SubState.new] at h0
  · exact ⟨hg, k, by omega, hk⟩

/-- C52, limited. With `n` levels up, only triples whose object is less than `n` steps away from the target. -/
theorem C52_limited_ascendants (order : Order) (ho : Rearranges order) (g : Graph) (fuel : Nat) (target : Term) (n : Nat)
    (st' : SubState) (h : graphiter order g fuel target n 0 .new = some st') (t : Triple) (ht : t ∈ st'.out) :
    t ∈ g ∧ ∃ k, k < n ∧ Climbs g k t.o target := by
  rcases (up_sound ho h).2 t ht with h0 | ⟨hg, _, k, hk, hlt⟩
  · simp [SubState.new] at h0
  · exact ⟨hg, k, by omega, hk⟩

/-- C52. What the statements call a blank node. -/
theorem C52_blank (x : Term) : x.isBNode = true ↔ ∃ b, x = .bnode b := by cases x <;> simp [Term.isBNode]

/-- C52, the default: one level down gives exactly the triples of the target whose object is not a blank node. -/
theorem C52_one_level (order : Order) (ho : Rearranges order) (g : Graph) (fuel : Nat) (target : Term) (t : Triple) :
    ∃ st', graphiter order g (fuel + 1) target 0 1 .new = some st' ∧
      (t ∈ st'.out ↔ t ∈ g ∧ t.s = target ∧ t.o.isBNode = false) := by
  have key : ∀ (visit : Term → SubState → Option SubState) (L : List (Term × Term)) (s : SubState),
      ∃ s', downLoop visit target 0 L s = some s' ∧
        (t ∈ s'.out ↔ t ∈ s.out ∨ (t.s = target ∧ t.o.isBNode = false ∧ (t.p, t.o) ∈ L)) := by
    intro visit L
    induction L with
    | nil => intro s; exact ⟨s, rfl, by simp⟩
    | cons po L ih =>
      intro s
      obtain ⟨p, o⟩ := po
      rw [downLoop]
      split
      · rename_i hc
        obtain ⟨s', h1, h2⟩ := ih s
        refine ⟨s', h1, h2.trans ?_⟩
        rw [List.mem_cons]
        constructor
        · rintro (h | ⟨a, b, c⟩)
          · exact .inl h
          · exact .inr ⟨a, b, .inr c⟩
        · rintro (h | ⟨a, b, c | c⟩)
          · exact .inl h
          · simp at c; rw [c.2, hc.2] at b; cases b
          · exact .inr ⟨a, b, c⟩
      · rename_i hc
        simp only [not_true_eq_false, false_and, if_false, ne_eq]
        obtain ⟨s', h1, h2⟩ := ih { s with out := s.out.insert ⟨target, p, o⟩ }
        refine ⟨s', h1, h2.trans ?_⟩
        rw [mem_insert, List.mem_cons]
        have ho' : o.isBNode = false := by
          cases hh : o.isBNode with
          | false => rfl
          | true => exact absurd ⟨rfl, hh⟩ hc
        constructor
        · rintro ((h | rfl) | ⟨a, b, c⟩)
          · exact .inl h
          · exact .inr ⟨rfl, ho', .inl rfl⟩
          · exact .inr ⟨a, b, .inr c⟩
        · rintro (h | ⟨a, b, c | c⟩)
          · exact .inl (.inl h)
          · left; right
            cases t
            simp at a c ⊢
            exact ⟨a, c.1, c.2⟩
          · exact .inr ⟨a, b, c⟩
  obtain ⟨s', h1, h2⟩ := key (fun x s => graphiter order g fuel x 0 (levelsLeft 1) s) (g.predicateObjects order target)
    { SubState.new with down := target.str :: SubState.new.down }
  refine ⟨s', ?_, h2.trans ?_⟩
  · rw [graphiter, if_pos (by simp [SubState.new])]
    show (match downLoop _ target 0 _ _ with | none => none | some st1 => _) = _
    rw [h1]
    simp
  · rw [mem_predicateObjects ho]
    simp only [SubState.new, List.not_mem_nil, false_or]
    constructor
    · rintro ⟨a, b, c⟩; exact ⟨by cases t; simp at a c ⊢; exact a ▸ c, a, b⟩
    · rintro ⟨a, b, c⟩; exact ⟨b, c, by cases t; simp at a b ⊢; exact b ▸ a⟩

/-! ## Where it falls short -/

/-- A chain `t → a → b → c` with a short cut `t → b`, and a title for `c`. -/
def shortcut : Graph :=
  [⟨.uri ['t'], .uri ['p'], .uri ['a']⟩, ⟨.uri ['a'], .uri ['p'], .uri ['b']⟩, ⟨.uri ['b'], .uri ['p'], .uri ['c']⟩,
   ⟨.uri ['t'], .uri ['p'], .uri ['b']⟩, ⟨.uri ['c'], .uri ['p'], .lit "title".toList none none⟩]

/-- With a limit, triples whose subject is near enough can be missed, depending on the order in which the graph is
read: `c` is two steps away from `t`, three levels are asked for, and one order gives its title and the other not. -/
theorem C52_limit_depends_on_order : ∃ (g : Graph) (target : Term) (t : Triple) (o1 o2 : Order), Rearranges o1 ∧ Rearranges o2 ∧
    t ∈ g ∧ Steps g 2 target t.s ∧
    (∃ s1, graphiter o1 g 20 target 0 3 .new = some s1 ∧ t ∉ s1.out) ∧
    (∃ s2, graphiter o2 g 20 target 0 3 .new = some s2 ∧ t ∈ s2.out) := by
  refine ⟨shortcut, .uri ['t'], ⟨.uri ['c'], .uri ['p'], .lit "title".toList none none⟩, id, List.reverse,
    fun _ => .refl _, fun g => List.reverse_perm g, by decide, ?_, ⟨_, rfl, by decide⟩, ⟨_, rfl, by decide⟩⟩
  exact .next (b := .uri ['b']) (.uri ['p']) (by decide) (.next (b := .uri ['c']) (.uri ['p']) (by decide) (.here _))

/-- A literal that reads like the identifier of a reachable object hides the triples of this object. -/
theorem C52_fails_with_same_string : ∃ (g : Graph) (target : Term) (t : Triple), t ∈ g ∧ Reaches g target t.s ∧
    ∃ s, graphiter id g 20 target 0 (-1) .new = some s ∧ t ∉ s.out := by
  refine ⟨[⟨.uri ['t'], .uri ['p'], .lit "urn:x".toList none none⟩, ⟨.uri ['t'], .uri ['q'], .uri "urn:x".toList⟩,
    ⟨.uri "urn:x".toList, .uri ['p'], .lit "title".toList none none⟩], .uri ['t'],
    ⟨.uri "urn:x".toList, .uri ['p'], .lit "title".toList none none⟩, by decide, ⟨1, ?_⟩, ⟨_, rfl, by decide⟩⟩
  exact .next (b := .uri "urn:x".toList) (.uri ['q']) (by decide) (.here _)

/-! ## A concrete, cyclic graph -/

def cyclic : Graph :=
  [⟨.uri ['t'], .uri ['p'], .uri ['a']⟩, ⟨.uri ['a'], .uri ['p'], .uri ['t']⟩, ⟨.uri ['a'], .uri ['q'], .bnode ['b']⟩,
   ⟨.bnode ['b'], .uri ['p'], .lit ['x'] none none⟩, ⟨.uri ['z'], .uri ['p'], .uri ['t']⟩]

example : NamesDiffer cyclic (.uri ['t']) := by
  intro x y hx hy h
  have key : ∀ x, Occurs cyclic (.uri ['t']) x → x ∈ [Term.uri ['t'], .uri ['a'], .bnode ['b'], .uri ['z'], .lit ['x'] none none] := by
    rintro x (rfl | ⟨t, ht, hx⟩)
    · simp
    · simp [cyclic] at ht
      rcases ht with rfl | rfl | rfl | rfl | rfl <;> simp at hx <;> rcases hx with rfl | rfl <;> simp
  have h1 := key x hx
  have h2 := key y hy
  simp at h1 h2
  rcases h1 with rfl | rfl | rfl | rfl | rfl <;> rcases h2 with rfl | rfl | rfl | rfl | rfl <;> first | rfl | (revert h; decide)

example : (graphiter id cyclic 20 (.uri ['t']) 0 (-1) .new).map (·.out.length) = some 4 := by decide
example : (graphiter id cyclic 20 (.uri ['t']) (-1) 0 .new).map (·.out.length) = some 3 := by decide

end Verif.Props
