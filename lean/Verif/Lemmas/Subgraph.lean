import Verif.Spec.Subgraph
import Verif.Props.Metadata
/-!
Lemmas for `Subgraph.graphiter`: growth of the state, termination, soundness and closure.
-/
namespace Verif.Lemmas
open Verif.Py Verif.Model Verif.Spec Verif.Props

variable {order : Order} {g : Graph}

theorem mem_predicateObjects (ho : Rearranges order) {t p o : Term} :
    (p, o) ∈ g.predicateObjects order t ↔ (⟨t, p, o⟩ : Triple) ∈ g := by
  unfold Graph.predicateObjects
  simp only [List.mem_map, List.mem_filter, matches_iff, (ho g).mem_iff]
  constructor
  · rintro ⟨⟨s', p', o'⟩, ⟨h1, h2⟩, e⟩
    simp at h2 e
    obtain ⟨rfl, rfl⟩ := e
    subst h2
    exact h1
  · intro h
    exact ⟨_, ⟨h, by simp⟩, rfl⟩

theorem mem_subjectPredicates (ho : Rearranges order) {t s p : Term} :
    (s, p) ∈ g.subjectPredicates order t ↔ (⟨s, p, t⟩ : Triple) ∈ g := by
  unfold Graph.subjectPredicates
  simp only [List.mem_map, List.mem_filter, matches_iff, (ho g).mem_iff]
  constructor
  · rintro ⟨⟨s', p', o'⟩, ⟨h1, h2⟩, e⟩
    simp at h2 e
    obtain ⟨rfl, rfl⟩ := e
    subst h2
    exact h1
  · intro h
    exact ⟨_, ⟨h, by simp⟩, rfl⟩

/-- The state only grows. -/
structure Grows (a b : SubState) : Prop where
  down : ∀ x ∈ a.down, x ∈ b.down
  up : ∀ x ∈ a.up, x ∈ b.up
  out : ∀ t ∈ a.out, t ∈ b.out

theorem Grows.refl (a : SubState) : Grows a a := ⟨fun _ h => h, fun _ h => h, fun _ h => h⟩
theorem Grows.trans {a b c : SubState} (h : Grows a b) (k : Grows b c) : Grows a c :=
  ⟨fun x hx => k.down x (h.down x hx), fun x hx => k.up x (h.up x hx), fun x hx => k.out x (h.out x hx)⟩

theorem Grows.insert (a : SubState) (t : Triple) : Grows a { a with out := a.out.insert t } :=
  ⟨fun _ h => h, fun _ h => h, fun _ h => mem_insert.2 (.inl h)⟩

theorem Grows.markDown (a : SubState) (x : Str) : Grows a { a with down := x :: a.down } :=
  ⟨fun _ h => List.mem_cons_of_mem _ h, fun _ h => h, fun _ h => h⟩

theorem Grows.markUp (a : SubState) (x : Str) : Grows a { a with up := x :: a.up } :=
  ⟨fun _ h => h, fun _ h => List.mem_cons_of_mem _ h, fun _ h => h⟩

theorem downLoop_grows {visit : Term → SubState → Option SubState} (hv : ∀ x s s', visit x s = some s' → Grows s s')
    {t : Term} {d : Int} {L : List (Term × Term)} {st st' : SubState} (h : downLoop visit t d L st = some st') :
    Grows st st' := by
  induction L generalizing st with
  | nil => simp only [downLoop, Option.some.injEq] at h; subst h; exact .refl _
  | cons po L ih =>
    obtain ⟨p, o⟩ := po
    rw [downLoop] at h
    split at h
    · exact ih h
    · split at h
      · split at h
        · cases h
        · rename_i st2 e
          exact (Grows.insert st _).trans ((hv _ _ _ e).trans (ih h))
      · exact (Grows.insert st _).trans (ih h)

theorem upLoop_grows {visit : Term → SubState → Option SubState} (hv : ∀ x s s', visit x s = some s' → Grows s s')
    {t : Term} {a d : Int} {L : List (Term × Term)} {st st' : SubState} (h : upLoop visit t a d L st = some st') :
    Grows st st' := by
  induction L generalizing st with
  | nil => simp only [upLoop, Option.some.injEq] at h; subst h; exact .refl _
  | cons po L ih =>
    obtain ⟨p, o⟩ := po
    rw [upLoop] at h
    split at h
    · exact ih h
    · split at h
      · split at h
        · cases h
        · rename_i st2 e
          exact (Grows.insert st _).trans ((hv _ _ _ e).trans (ih h))
      · exact (Grows.insert st _).trans (ih h)

/-- The two phases of a call. -/
theorem graphiter_phases {fuel : Nat} {t : Term} {a d : Int} {st st' : SubState}
    (h : graphiter order g (fuel + 1) t a d st = some st') : ∃ st1,
      ((d ≠ 0 ∧ t.str ∉ st.down ∧
        downLoop (fun x s => graphiter order g fuel x 0 (levelsLeft d) s) t (levelsLeft d) (g.predicateObjects order t)
          { st with down := t.str :: st.down } = some st1) ∨ ((d = 0 ∨ t.str ∈ st.down) ∧ st1 = st)) ∧
      ((a ≠ 0 ∧ t.str ∉ st1.up ∧
        upLoop (fun x s => graphiter order g fuel x (levelsLeft a) 0 s) t (levelsLeft a) (levelsLeft d)
          (g.subjectPredicates order t) { st1 with up := t.str :: st1.up } = some st') ∨
        ((a = 0 ∨ t.str ∈ st1.up) ∧ st' = st1)) := by
  rw [graphiter] at h
  split at h
  · cases h
  · rename_i st1 e
    refine ⟨st1, ?_, ?_⟩
    · split at e
      · rename_i hc; exact .inl ⟨hc.1, hc.2, e⟩
      · rename_i hc
        simp only [Option.some.injEq] at e
        refine .inr ⟨?_, e.symm⟩
        by_cases hd : d = 0
        · exact .inl hd
        · exact .inr (Classical.byContradiction fun hn => hc ⟨hd, hn⟩)
    · split at h
      · rename_i hc; exact .inl ⟨hc.1, hc.2, h⟩
      · rename_i hc
        simp only [Option.some.injEq] at h
        refine .inr ⟨?_, h.symm⟩
        by_cases hd : a = 0
        · exact .inl hd
        · exact .inr (Classical.byContradiction fun hn => hc ⟨hd, hn⟩)

theorem graphiter_grows {fuel : Nat} {t : Term} {a d : Int} {st st' : SubState}
    (h : graphiter order g fuel t a d st = some st') : Grows st st' := by
  induction fuel generalizing t a d st st' with
  | zero => simp [graphiter] at h
  | succ fuel ih =>
    obtain ⟨st1, h1, h2⟩ := graphiter_phases h
    have g1 : Grows st st1 := by
      rcases h1 with ⟨_, _, e⟩ | ⟨_, rfl⟩
      · exact (Grows.markDown st t.str).trans (downLoop_grows (fun x s s' hs => ih hs) e)
      · exact .refl _
    refine g1.trans ?_
    rcases h2 with ⟨_, _, e⟩ | ⟨_, rfl⟩
    · exact (Grows.markUp st1 t.str).trans (upLoop_grows (fun x s s' hs => ih hs) e)
    · exact .refl _

/-! ### Termination -/

/-- How many of the names in `U` are not marked. -/
def unmarked (U marked : List Str) : Nat := (U.filter fun x => decide (x ∉ marked)).length

theorem unmarked_le {U a b : List Str} (h : ∀ x ∈ a, x ∈ b) : unmarked U b ≤ unmarked U a := by
  unfold unmarked
  induction U with
  | nil => simp
  | cons x U ih =>
    by_cases hb : x ∈ b
    · by_cases ha : x ∈ a
      · simpa [hb, ha] using ih
      · have h1 : (decide (x ∉ b)) = false := by simp [hb]
        have h2 : (decide (x ∉ a)) = true := by simp [ha]
        rw [List.filter_cons, List.filter_cons, h1, h2]
        simp only [Bool.false_eq_true, if_false, if_true, List.length_cons]
        omega
    · have : x ∉ a := fun ha => hb (h x ha)
      simpa [hb, this] using ih

theorem unmarked_lt {U a : List Str} {x : Str} (hx : x ∈ U) (hn : x ∉ a) : unmarked U (x :: a) < unmarked U a := by
  induction U with
  | nil => simp at hx
  | cons y U ih =>
    have hle : unmarked U (x :: a) ≤ unmarked U a := unmarked_le fun z hz => List.mem_cons_of_mem _ hz
    unfold unmarked at *
    by_cases hy : y = x
    · subst hy; simp [hn]; simp at hle; omega
    · have hx' : x ∈ U := by simpa [Ne.symm hy] using hx
      have := ih hx'
      by_cases hya : y ∈ a
      · simp [hya, hy]; simpa using this
      · simp [hya, hy]; simpa using this

def todo (U : List Str) (st : SubState) : Nat := unmarked U st.down + unmarked U st.up

theorem todo_le {U : List Str} {a b : SubState} (h : Grows a b) : todo U b ≤ todo U a :=
  Nat.add_le_add (unmarked_le h.down) (unmarked_le h.up)

theorem downLoop_some {visit : Term → SubState → Option SubState} {U : List Str} {N : Nat}
    (hg : ∀ x s s', visit x s = some s' → Grows s s')
    (hv : ∀ x s, x.str ∈ U → todo U s ≤ N → ∃ s', visit x s = some s')
    {t : Term} {d : Int} {L : List (Term × Term)} {st : SubState} (hL : ∀ po ∈ L, po.2.str ∈ U) (hN : todo U st ≤ N) :
    ∃ st', downLoop visit t d L st = some st' := by
  induction L generalizing st with
  | nil => exact ⟨_, rfl⟩
  | cons po L ih =>
    obtain ⟨p, o⟩ := po
    have hL' : ∀ po ∈ L, po.2.str ∈ U := fun po h => hL po (List.mem_cons_of_mem _ h)
    have hN' := Nat.le_trans (todo_le (U := U) (Grows.insert st ⟨t, p, o⟩)) hN
    rw [downLoop]
    split
    · exact ih hL' hN
    · split
      · obtain ⟨s', hs⟩ := hv o { st with out := st.out.insert ⟨t, p, o⟩ } (hL (p, o) (List.mem_cons_self ..)) hN'
        rw [hs]
        exact ih hL' (Nat.le_trans (todo_le (hg _ _ _ hs)) hN')
      · exact ih hL' hN'

theorem upLoop_some {visit : Term → SubState → Option SubState} {U : List Str} {N : Nat}
    (hg : ∀ x s s', visit x s = some s' → Grows s s')
    (hv : ∀ x s, x.str ∈ U → todo U s ≤ N → ∃ s', visit x s = some s')
    {t : Term} {a d : Int} {L : List (Term × Term)} {st : SubState} (hL : ∀ po ∈ L, po.1.str ∈ U) (hN : todo U st ≤ N) :
    ∃ st', upLoop visit t a d L st = some st' := by
  induction L generalizing st with
  | nil => exact ⟨_, rfl⟩
  | cons po L ih =>
    obtain ⟨s, p⟩ := po
    have hL' : ∀ po ∈ L, po.1.str ∈ U := fun po h => hL po (List.mem_cons_of_mem _ h)
    have hN' := Nat.le_trans (todo_le (U := U) (Grows.insert st ⟨s, p, t⟩)) hN
    rw [upLoop]
    split
    · exact ih hL' hN
    · split
      · obtain ⟨s', hs⟩ := hv s { st with out := st.out.insert ⟨s, p, t⟩ } (hL (s, p) (List.mem_cons_self ..)) hN'
        rw [hs]
        exact ih hL' (Nat.le_trans (todo_le (hg _ _ _ hs)) hN')
      · exact ih hL' hN'

theorem graphiter_some (ho : Rearranges order) {U : List Str} (hU : ∀ t ∈ g, t.s.str ∈ U ∧ t.o.str ∈ U)
    {fuel : Nat} {t : Term} {a d : Int} {st : SubState} (ht : t.str ∈ U) (hf : todo U st < fuel) :
    ∃ st', graphiter order g fuel t a d st = some st' := by
  induction fuel generalizing t a d st with
  | zero => omega
  | succ fuel ih =>
    rw [graphiter]
    have hd : ∃ st1, (if d ≠ 0 ∧ t.str ∉ st.down then
        downLoop (fun x s => graphiter order g fuel x 0 (levelsLeft d) s) t (levelsLeft d) (g.predicateObjects order t)
          { st with down := t.str :: st.down }
        else some st) = some st1 ∧ Grows st st1 := by
      split
      · rename_i hc
        have hlt : todo U { st with down := t.str :: st.down } < fuel := by
          have := unmarked_lt ht hc.2
          simp only [todo] at hf ⊢; omega
        obtain ⟨st1, h1⟩ := downLoop_some (visit := fun x s => graphiter order g fuel x 0 (levelsLeft d) s)
          (U := U) (N := fuel - 1) (fun x s s' h => graphiter_grows h) (fun x s hx hs => ih hx (by omega))
          (t := t) (d := levelsLeft d) (L := g.predicateObjects order t) (st := { st with down := t.str :: st.down })
          (fun po hpo => (hU _ ((mem_predicateObjects ho (p := po.1) (o := po.2)).1 hpo)).2) (by omega)
        refine ⟨st1, h1, ?_⟩
        exact (Grows.markDown st t.str).trans (downLoop_grows (fun x s s' h => graphiter_grows h) h1)
      · exact ⟨st, rfl, .refl _⟩
    obtain ⟨st1, h1, hg1⟩ := hd
    rw [h1]
    simp only
    split
    · rename_i hc
      have hle := todo_le (U := U) hg1
      have hlt : todo U { st1 with up := t.str :: st1.up } < fuel := by
        have := unmarked_lt ht hc.2
        simp only [todo] at hf hle ⊢; omega
      exact upLoop_some (U := U) (N := fuel - 1) (fun x s s' h => graphiter_grows h) (fun x s hx hs => ih hx (by omega))
        (fun po hpo => (hU _ ((mem_subjectPredicates ho (s := po.1) (p := po.2)).1 hpo)).1) (by omega)
    · exact ⟨st1, rfl⟩

/-! ### Soundness, downwards -/

theorem down_sound (ho : Rearranges order) {fuel : Nat} {t : Term} {d : Int} {st st' : SubState}
    (h : graphiter order g fuel t 0 d st = some st') : st'.up = st.up ∧
      ∀ tr ∈ st'.out, tr ∈ st.out ∨ (tr ∈ g ∧ ∃ k, Steps g k t tr.s ∧ (d < 0 ∨ (k : Int) < d)) := by
  induction fuel generalizing t d st st' with
  | zero => simp [graphiter] at h
  | succ fuel ih =>
    obtain ⟨st1, h1, h2⟩ := graphiter_phases h
    rcases h2 with ⟨hn, _⟩ | ⟨_, rfl⟩
    · exact absurd rfl hn
    rcases h1 with ⟨hd, hm, e⟩ | ⟨_, rfl⟩
    · have key : ∀ (L : List (Term × Term)) (s s' : SubState), (∀ po ∈ L, (⟨t, po.1, po.2⟩ : Triple) ∈ g) →
          downLoop (fun x s => graphiter order g fuel x 0 (levelsLeft d) s) t (levelsLeft d) L s = some s' →
          s'.up = s.up ∧ ∀ tr ∈ s'.out, tr ∈ s.out ∨ (tr ∈ g ∧ ∃ k, Steps g k t tr.s ∧ (d < 0 ∨ (k : Int) < d)) := by
        intro L
        induction L with
        | nil => intro s s' _ hs; simp only [downLoop, Option.some.injEq] at hs; subst hs; exact ⟨rfl, fun _ h => .inl h⟩
        | cons po L ihL =>
          intro s s' hL hs
          obtain ⟨p, o⟩ := po
          have hL' : ∀ po ∈ L, (⟨t, po.1, po.2⟩ : Triple) ∈ g := fun po h => hL po (List.mem_cons_of_mem _ h)
          have hpo : (⟨t, p, o⟩ : Triple) ∈ g := hL (p, o) (List.mem_cons_self ..)
          have hins : ∀ tr ∈ s.out.insert ⟨t, p, o⟩, tr ∈ s.out ∨
              (tr ∈ g ∧ ∃ k, Steps g k t tr.s ∧ (d < 0 ∨ (k : Int) < d)) := by
            intro tr htr
            rcases mem_insert.1 htr with h | rfl
            · exact .inl h
            · refine .inr ⟨hpo, 0, .here t, ?_⟩
              by_cases h0 : d < 0
              · exact .inl h0
              · right; simp; omega
          rw [downLoop] at hs
          split at hs
          · exact ihL _ _ hL' hs
          · split at hs
            · rename_i hc
              split at hs
              · cases hs
              · rename_i s2 e2
                obtain ⟨u2, o2⟩ := ih e2
                obtain ⟨u3, o3⟩ := ihL _ _ hL' hs
                refine ⟨u3.trans u2, ?_⟩
                intro tr htr
                rcases o3 tr htr with h | h
                · rcases o2 tr h with h | ⟨hg', k, hk, hlt⟩
                  · exact hins tr h
                  · refine .inr ⟨hg', k + 1, .next p hpo hk, ?_⟩
                    have hc1 := hc.1
                    unfold levelsLeft at hlt hc1
                    rw [if_pos hd] at hlt hc1
                    omega
                · exact .inr h
            · obtain ⟨u3, o3⟩ := ihL _ _ hL' hs
              refine ⟨u3, ?_⟩
              intro tr htr
              rcases o3 tr htr with h | h
              · exact hins tr h
              · exact .inr h
      exact key _ { st with down := t.str :: st.down } _ (fun po hpo => (mem_predicateObjects ho).1 hpo) e
    · exact ⟨rfl, fun _ h => .inl h⟩

/-! ### Closure, downwards, without a limit -/

/-- All triples of `y` are extracted and their objects are marked. -/
def ClosedDown (g : Graph) (st : SubState) (y : Term) : Prop :=
  ∀ p o, (⟨y, p, o⟩ : Triple) ∈ g → (⟨y, p, o⟩ : Triple) ∈ st.out ∧ o.str ∈ st.down

theorem ClosedDown.mono {a b : SubState} {y : Term} (h : ClosedDown g a y) (hg : Grows a b) : ClosedDown g b y :=
  fun p o hm => ⟨hg.out _ (h p o hm).1, hg.down _ (h p o hm).2⟩

theorem down_closed (ho : Rearranges order) {target : Term} (hn : NamesDiffer g target) {fuel : Nat} {t : Term} {d : Int}
    {st st' : SubState} (hd : d < 0) (ht : Occurs g target t) (h : graphiter order g fuel t 0 d st = some st') :
    t.str ∈ st'.down ∧ ∀ y, Occurs g target y → y.str ∈ st'.down → y.str ∈ st.down ∨ ClosedDown g st' y := by
  induction fuel generalizing t d st st' with
  | zero => simp [graphiter] at h
  | succ fuel ih =>
    obtain ⟨st1, h1, h2⟩ := graphiter_phases h
    rcases h2 with ⟨hne, _⟩ | ⟨_, rfl⟩
    · exact absurd rfl hne
    have hll : levelsLeft d = d - 1 := by unfold levelsLeft; rw [if_pos (by omega)]
    rcases h1 with ⟨_, hm, e⟩ | ⟨h0 | hm, rfl⟩
    · have key : ∀ (L : List (Term × Term)) (s s' : SubState), (∀ po ∈ L, (⟨t, po.1, po.2⟩ : Triple) ∈ g) →
          downLoop (fun x s => graphiter order g fuel x 0 (levelsLeft d) s) t (levelsLeft d) L s = some s' →
          (∀ po ∈ L, (⟨t, po.1, po.2⟩ : Triple) ∈ s'.out ∧ po.2.str ∈ s'.down) ∧
          ∀ y, Occurs g target y → y.str ∈ s'.down → y.str ∈ s.down ∨ ClosedDown g s' y := by
        intro L
        induction L with
        | nil => intro s s' _ hs; simp only [downLoop, Option.some.injEq] at hs; subst hs; exact ⟨by simp, fun _ _ h => .inl h⟩
        | cons po L ihL =>
          intro s s' hL hs
          obtain ⟨p, o⟩ := po
          have hL' : ∀ po ∈ L, (⟨t, po.1, po.2⟩ : Triple) ∈ g := fun po h => hL po (List.mem_cons_of_mem _ h)
          have hpo : (⟨t, p, o⟩ : Triple) ∈ g := hL (p, o) (List.mem_cons_self ..)
          have hocc : Occurs g target o := .inr ⟨_, hpo, .inr rfl⟩
          rw [downLoop] at hs
          split at hs
          · rename_i hc; rw [hll] at hc; omega
          · split at hs
            · split at hs
              · cases hs
              · rename_i s2 e2
                obtain ⟨m2, c2⟩ := ih (by rw [hll]; omega) hocc e2
                obtain ⟨m3, c3⟩ := ihL _ _ hL' hs
                have g2 := graphiter_grows e2
                have g3 := downLoop_grows (fun x s s' h => graphiter_grows h) hs
                refine ⟨?_, ?_⟩
                · intro po' hpo'
                  rcases List.mem_cons.1 hpo' with rfl | hpo'
                  · exact ⟨g3.out _ (g2.out _ (mem_insert.2 (.inr rfl))), g3.down _ m2⟩
                  · exact m3 po' hpo'
                · intro y hy hys
                  rcases c3 y hy hys with h | h
                  · rcases c2 y hy h with h | h
                    · exact .inl h
                    · exact .inr (h.mono g3)
                  · exact .inr h
            · rename_i hc
              have hin : o.str ∈ s.down := Classical.byContradiction fun hh => hc ⟨by rw [hll]; omega, hh⟩
              obtain ⟨m3, c3⟩ := ihL _ _ hL' hs
              have g3 := downLoop_grows (fun x s s' h => graphiter_grows h) hs
              refine ⟨?_, ?_⟩
              · intro po' hpo'
                rcases List.mem_cons.1 hpo' with rfl | hpo'
                · exact ⟨g3.out _ (mem_insert.2 (.inr rfl)), g3.down _ hin⟩
                · exact m3 po' hpo'
              · exact c3
      obtain ⟨k1, k2⟩ := key _ _ _ (fun po hpo => (mem_predicateObjects ho).1 hpo) e
      have g1 := downLoop_grows (fun x s s' h => graphiter_grows h) e
      refine ⟨g1.down _ (List.mem_cons_self ..), ?_⟩
      intro y hy hys
      rcases k2 y hy hys with h | h
      · rcases List.mem_cons.1 h with h | h
        · have := hn y t hy ht h
          subst this
          exact .inr fun p o hpo => k1 (p, o) ((mem_predicateObjects ho).2 hpo)
        · exact .inl h
      · exact .inr h
    · omega
    · exact ⟨hm, fun _ _ h => .inl h⟩

theorem steps_occurs {target a b : Term} {n : Nat} (h : Steps g n a b) (ha : Occurs g target a) : Occurs g target b := by
  induction h with
  | here => exact ha
  | next p hm _ ih => exact ih (.inr ⟨_, hm, .inr rfl⟩)

theorem steps_marked {target a b : Term} {n : Nat} {st : SubState} (h : Steps g n a b) (ha : Occurs g target a)
    (hc : ∀ y, Occurs g target y → y.str ∈ st.down → ClosedDown g st y) (hm : a.str ∈ st.down) : b.str ∈ st.down := by
  induction h with
  | here => exact hm
  | next p hm' _ ih => exact ih (.inr ⟨_, hm', .inr rfl⟩) ((hc _ ha hm) _ _ hm').2

/-! ### Upwards -/

theorem Climbs.snoc {a b c p : Term} {n : Nat} (h : Climbs g n a b) (hm : (⟨b, p, c⟩ : Triple) ∈ g) (hb : b.isBNode = false) :
    Climbs g (n + 1) a c := by
  induction h with
  | here a => exact .next p hm hb (.here c)
  | next q hq hnb _ ih => exact .next q hq hnb (ih hm hb)

theorem upLoop_sound {fuel : Nat} {t : Term} {a d : Int} (ha : a ≠ 0)
    (hskip : levelsLeft d = 0 ∨ ∀ tr ∈ g, tr.s.isBNode = false)
    (ih : ∀ {t : Term} {a : Int} {st st' : SubState}, graphiter order g fuel t a 0 st = some st' → st'.down = st.down ∧
      ∀ tr ∈ st'.out, tr ∈ st.out ∨ (tr ∈ g ∧ tr.s.isBNode = false ∧ ∃ k, Climbs g k tr.o t ∧ (a < 0 ∨ (k : Int) < a)))
    (L : List (Term × Term)) {s : SubState} (s' : SubState) (hL : ∀ po ∈ L, (⟨po.1, po.2, t⟩ : Triple) ∈ g)
    (hs : upLoop (fun x s => graphiter order g fuel x (levelsLeft a) 0 s) t (levelsLeft a) (levelsLeft d) L s = some s') :
    s'.down = s.down ∧
      ∀ tr ∈ s'.out, tr ∈ s.out ∨ (tr ∈ g ∧ tr.s.isBNode = false ∧ ∃ k, Climbs g k tr.o t ∧ (a < 0 ∨ (k : Int) < a)) := by
  induction L generalizing s s' with
  | nil => simp only [upLoop, Option.some.injEq] at hs; subst hs; exact ⟨rfl, fun _ h => .inl h⟩
  | cons po L ihL =>
    obtain ⟨u, p⟩ := po
    have hL' : ∀ po ∈ L, (⟨po.1, po.2, t⟩ : Triple) ∈ g := fun po h => hL po (List.mem_cons_of_mem _ h)
    have hpo : (⟨u, p, t⟩ : Triple) ∈ g := hL (u, p) (List.mem_cons_self ..)
    rw [upLoop] at hs
    split at hs
    · exact ihL _ hL' hs
    · rename_i hblank
      have hnb : u.isBNode = false := by
        rcases hskip with h0 | h0
        · cases hu : u.isBNode with
          | false => rfl
          | true => exact absurd ⟨h0, hu⟩ hblank
        · exact h0 _ hpo
      have hins : ∀ tr ∈ s.out.insert ⟨u, p, t⟩, tr ∈ s.out ∨
          (tr ∈ g ∧ tr.s.isBNode = false ∧ ∃ k, Climbs g k tr.o t ∧ (a < 0 ∨ (k : Int) < a)) := by
        intro tr htr
        rcases mem_insert.1 htr with h | rfl
        · exact .inl h
        · refine .inr ⟨hpo, hnb, 0, .here t, ?_⟩
          by_cases h0 : a < 0
          · exact .inl h0
          · right; simp; omega
      split at hs
      · rename_i hc
        split at hs
        · cases hs
        · rename_i s2 e2
          obtain ⟨u2, o2⟩ := ih e2
          obtain ⟨u3, o3⟩ := ihL _ hL' hs
          refine ⟨u3.trans u2, ?_⟩
          intro tr htr
          rcases o3 tr htr with h | h
          · rcases o2 tr h with h | ⟨hg', hb', k, hk, hlt⟩
            · exact hins tr h
            · refine .inr ⟨hg', hb', k + 1, Climbs.snoc hk hpo hnb, ?_⟩
              have hc1 := hc.1
              unfold levelsLeft at hlt hc1
              rw [if_pos ha] at hlt hc1
              omega
          · exact .inr h
      · obtain ⟨u3, o3⟩ := ihL _ hL' hs
        refine ⟨u3, ?_⟩
        intro tr htr
        rcases o3 tr htr with h | h
        · exact hins tr h
        · exact .inr h

theorem up_sound (ho : Rearranges order) {fuel : Nat} {t : Term} {a : Int} {st st' : SubState}
    (h : graphiter order g fuel t a 0 st = some st') : st'.down = st.down ∧
      ∀ tr ∈ st'.out, tr ∈ st.out ∨ (tr ∈ g ∧ tr.s.isBNode = false ∧ ∃ k, Climbs g k tr.o t ∧ (a < 0 ∨ (k : Int) < a)) := by
  induction fuel generalizing t a st st' with
  | zero => simp [graphiter] at h
  | succ fuel ih =>
    obtain ⟨st1, h1, h2⟩ := graphiter_phases h
    rcases h1 with ⟨hne, _⟩ | ⟨_, rfl⟩
    · exact absurd rfl hne
    rcases h2 with ⟨ha, hm, e⟩ | ⟨_, rfl⟩
    · exact upLoop_sound (d := 0) (s := { st1 with up := t.str :: st1.up }) ha (.inl (by decide)) ih _ _ (fun po hpo => (mem_subjectPredicates ho).1 hpo) e
    · exact ⟨rfl, fun _ h => .inl h⟩

/-- All triples that lead to `y` from something that is not a blank node are extracted, and their subjects marked. -/
def ClosedUp (g : Graph) (st : SubState) (y : Term) : Prop :=
  ∀ s p, (⟨s, p, y⟩ : Triple) ∈ g → s.isBNode = false → (⟨s, p, y⟩ : Triple) ∈ st.out ∧ s.str ∈ st.up

theorem ClosedUp.mono {a b : SubState} {y : Term} (h : ClosedUp g a y) (hg : Grows a b) : ClosedUp g b y :=
  fun p o hm hb => ⟨hg.out _ (h p o hm hb).1, hg.up _ (h p o hm hb).2⟩

theorem up_closed_step (ho : Rearranges order) {target : Term} (hn : NamesDiffer g target) {fuel : Nat} {t : Term} {a d : Int}
    {st st' : SubState} (ha : a < 0) (ht : Occurs g target t)
    (ih : ∀ {t : Term} {a : Int} {st st' : SubState}, a < 0 → Occurs g target t → graphiter order g fuel t a 0 st = some st' →
      t.str ∈ st'.up ∧ ∀ y, Occurs g target y → y.str ∈ st'.up → y.str ∈ st.up ∨ ClosedUp g st' y)
    (e : upLoop (fun x s => graphiter order g fuel x (levelsLeft a) 0 s) t (levelsLeft a) (levelsLeft d)
          (g.subjectPredicates order t) { st with up := t.str :: st.up } = some st') :
    t.str ∈ st'.up ∧ ∀ y, Occurs g target y → y.str ∈ st'.up → y.str ∈ st.up ∨ ClosedUp g st' y := by
  have hll : levelsLeft a = a - 1 := by unfold levelsLeft; rw [if_pos (by omega)]
  have key : ∀ (L : List (Term × Term)) (s s' : SubState), (∀ po ∈ L, (⟨po.1, po.2, t⟩ : Triple) ∈ g) →
      upLoop (fun x s => graphiter order g fuel x (levelsLeft a) 0 s) t (levelsLeft a) (levelsLeft d) L s = some s' →
      (∀ po ∈ L, po.1.isBNode = false → (⟨po.1, po.2, t⟩ : Triple) ∈ s'.out ∧ po.1.str ∈ s'.up) ∧
      ∀ y, Occurs g target y → y.str ∈ s'.up → y.str ∈ s.up ∨ ClosedUp g s' y := by
    intro L
    induction L with
    | nil => intro s s' _ hs; simp only [upLoop, Option.some.injEq] at hs; subst hs; exact ⟨by simp, fun _ _ h => .inl h⟩
    | cons po L ihL =>
      intro s s' hL hs
      obtain ⟨u, p⟩ := po
      have hL' : ∀ po ∈ L, (⟨po.1, po.2, t⟩ : Triple) ∈ g := fun po h => hL po (List.mem_cons_of_mem _ h)
      have hpo : (⟨u, p, t⟩ : Triple) ∈ g := hL (u, p) (List.mem_cons_self ..)
      have hocc : Occurs g target u := .inr ⟨_, hpo, .inl rfl⟩
      rw [upLoop] at hs
      split at hs
      · rename_i hc
        obtain ⟨m3, c3⟩ := ihL _ _ hL' hs
        refine ⟨?_, c3⟩
        intro po' hpo' hb
        rcases List.mem_cons.1 hpo' with rfl | hpo'
        · rw [hc.2] at hb; cases hb
        · exact m3 po' hpo' hb
      · split at hs
        · split at hs
          · cases hs
          · rename_i s2 e2
            obtain ⟨m2, c2⟩ := ih (by rw [hll]; omega) hocc e2
            obtain ⟨m3, c3⟩ := ihL _ _ hL' hs
            have g2 := graphiter_grows e2
            have g3 := upLoop_grows (fun x s s' h => graphiter_grows h) hs
            refine ⟨?_, ?_⟩
            · intro po' hpo' hb
              rcases List.mem_cons.1 hpo' with rfl | hpo'
              · exact ⟨g3.out _ (g2.out _ (mem_insert.2 (.inr rfl))), g3.up _ m2⟩
              · exact m3 po' hpo' hb
            · intro y hy hys
              rcases c3 y hy hys with h | h
              · rcases c2 y hy h with h | h
                · exact .inl h
                · exact .inr (h.mono g3)
              · exact .inr h
        · rename_i hc
          have hin : u.str ∈ s.up := Classical.byContradiction fun hh => hc ⟨by rw [hll]; omega, hh⟩
          obtain ⟨m3, c3⟩ := ihL _ _ hL' hs
          have g3 := upLoop_grows (fun x s s' h => graphiter_grows h) hs
          refine ⟨?_, c3⟩
          intro po' hpo' hb
          rcases List.mem_cons.1 hpo' with rfl | hpo'
          · exact ⟨g3.out _ (mem_insert.2 (.inr rfl)), g3.up _ hin⟩
          · exact m3 po' hpo' hb
  obtain ⟨k1, k2⟩ := key _ _ _ (fun po hpo => (mem_subjectPredicates ho).1 hpo) e
  have g1 := upLoop_grows (fun x s s' h => graphiter_grows h) e
  refine ⟨g1.up _ (List.mem_cons_self ..), ?_⟩
  intro y hy hys
  rcases k2 y hy hys with h | h
  · rcases List.mem_cons.1 h with h | h
    · have := hn y t hy ht h
      subst this
      exact .inr fun s p hpo hb => k1 (s, p) ((mem_subjectPredicates ho).2 hpo) hb
    · exact .inl h
  · exact .inr h

theorem up_closed (ho : Rearranges order) {target : Term} (hn : NamesDiffer g target) {fuel : Nat} {t : Term} {a : Int}
    {st st' : SubState} (ha : a < 0) (ht : Occurs g target t) (h : graphiter order g fuel t a 0 st = some st') :
    t.str ∈ st'.up ∧ ∀ y, Occurs g target y → y.str ∈ st'.up → y.str ∈ st.up ∨ ClosedUp g st' y := by
  induction fuel generalizing t a st st' with
  | zero => simp [graphiter] at h
  | succ fuel ih =>
    obtain ⟨st1, h1, h2⟩ := graphiter_phases h
    rcases h1 with ⟨hne, _⟩ | ⟨_, rfl⟩
    · exact absurd rfl hne
    rcases h2 with ⟨_, hm, e⟩ | ⟨h0 | hm, rfl⟩
    · exact up_closed_step ho hn (d := 0) ha ht ih e
    · omega
    · exact ⟨hm, fun _ _ h => .inl h⟩

theorem climbs_marked {target a b : Term} {n : Nat} {st : SubState} (h : Climbs g n a b) (hb : Occurs g target b)
    (hc : ∀ y, Occurs g target y → y.str ∈ st.up → ClosedUp g st y) (hm : b.str ∈ st.up) :
    Occurs g target a ∧ a.str ∈ st.up := by
  induction h with
  | here => exact ⟨hb, hm⟩
  | next p hm' hnb _ ih =>
    obtain ⟨h1, h2⟩ := ih hb hm
    exact ⟨.inr ⟨_, hm', .inl rfl⟩, ((hc _ h1 h2) _ _ hm' hnb).2⟩

end Verif.Lemmas
