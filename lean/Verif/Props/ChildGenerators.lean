import Verif.Spec.ChildGenerators
/-!
Property C115: going through the children of a text or passage one by one, with several generators in turns, over a source that may fail.
-/
namespace Verif.Props
open Verif.Py Verif.Model Verif.Spec

/-- What a generator has given, by its state. -/
private def GenFine (all : List Str) (given : List Pulled) : ChildGen → Prop
  | .fresh => given = []
  | .going l => ∃ pre, all = pre ++ l ∧ given = pre.map .child
  | .over => ∃ k, given = all.map .child ++ List.replicate (k + 1) .stop ∨
      ∃ pre post, all = pre ++ post ∧ given = pre.map .child ++ .error :: List.replicate k .stop

private def GenGood (all : List Str) (w : ChildWorld) : Prop :=
  (w.ids = none ∨ w.ids = some all) ∧ ∀ g, GenFine all (w.given g) (w.gen g)

private theorem gen_give {all : List Str} {w : ChildWorld} (hg : GenGood all w) (g : Nat) (c : ChildGen) (p : Pulled)
    (h : GenFine all (w.given g ++ [p]) c) : GenGood all (w.give g c p) := by
  refine ⟨hg.1, fun i => ?_⟩
  by_cases hi : i = g
  · subst hi; simpa [ChildWorld.give] using h
  · simpa [ChildWorld.give, hi] using hg.2 i

private theorem gen_advance {all : List Str} {w : ChildWorld} (hg : GenGood all w) (g : Nat) (ok : Bool) (pre l : List Str) (hl : all = pre ++ l)
    (hgiven : w.given g = pre.map .child) : GenGood all (w.advance g ok l) := by
  cases l with
  | nil =>
    refine gen_give hg g _ _ ⟨0, .inl ?_⟩
    simp [hgiven, hl]
  | cons x r =>
    simp only [ChildWorld.advance]
    split
    · exact gen_give hg g _ _ ⟨pre ++ [x], by simp [hl], by simp [hgiven]⟩
    · exact gen_give hg g _ _ ⟨0, .inr ⟨pre, x :: r, hl, by simp [hgiven]⟩⟩

private theorem gen_ids {all : List Str} {w : ChildWorld} (hg : GenGood all w) (ok : Bool) :
    GenGood all (w.childIds all ok).1 ∧ ((w.childIds all ok).2 = none ∨ (w.childIds all ok).2 = some all) ∧
      (w.childIds all ok).1.gen = w.gen ∧ (w.childIds all ok).1.given = w.given ∧ (ok = true → (w.childIds all ok).2 = some all) := by
  unfold ChildWorld.childIds
  rcases hg.1 with h | h
  · simp only [h]
    cases ok
    · exact ⟨⟨.inl rfl, hg.2⟩, .inl rfl, rfl, rfl, by simp⟩
    · exact ⟨⟨.inr rfl, hg.2⟩, .inr rfl, rfl, rfl, fun _ => rfl⟩
  · simp only [h]
    exact ⟨hg, by simp⟩

private theorem step_over {w : ChildWorld} {g : Nat} (all : List Str) (a b : Bool) (h : w.gen g = .over) :
    w.step all (.next g a b) = w.give g .over .stop := by
  simp only [ChildWorld.step, h]

private theorem step_going {w : ChildWorld} {g : Nat} {l : List Str} (all : List Str) (a b : Bool) (h : w.gen g = .going l) :
    w.step all (.next g a b) = w.advance g b l := by
  simp only [ChildWorld.step, h]

private theorem step_fresh {w : ChildWorld} {g : Nat} (all : List Str) (a b : Bool) (h : w.gen g = .fresh) :
    w.step all (.next g a b) = (match w.childIds all a with
      | (w', none) => w'.give g .over .error
      | (w', some l) => w'.advance g b l) := by
  simp only [ChildWorld.step, h]
  rfl

private theorem gen_step (all : List Str) (w : ChildWorld) (op : ChildOp) (hg : GenGood all w) : GenGood all (w.step all op) := by
  cases op with
  | look ok => exact (gen_ids hg ok).1
  | next g a b =>
    have hf := hg.2 g
    cases hc : w.gen g with
    | over =>
      rw [hc] at hf
      rw [step_over all a b hc]
      refine gen_give hg g _ _ ?_
      obtain ⟨k, h | ⟨pre, post, h1, h2⟩⟩ := hf
      · exact ⟨k + 1, .inl (by rw [h, List.append_assoc, ← List.replicate_succ'])⟩
      · exact ⟨k + 1, .inr ⟨pre, post, h1, by rw [h2, List.append_assoc, List.cons_append, ← List.replicate_succ']⟩⟩
    | going l =>
      rw [hc] at hf
      rw [step_going all a b hc]
      obtain ⟨pre, h1, h2⟩ := hf
      exact gen_advance hg g b pre l h1 h2
    | fresh =>
      obtain ⟨h1, h2, h3, h4, -⟩ := gen_ids hg a
      rw [hc] at hf
      simp only [GenFine] at hf
      rw [step_fresh all a b hc]
      generalize w.childIds all a = y at *
      obtain ⟨w', o⟩ := y
      rcases h2 with h2 | h2
      · simp only at h2 h4 h1
        subst h2
        exact gen_give h1 g .over .error ⟨0, .inr ⟨[], all, rfl, by rw [h4, hf]; rfl⟩⟩
      · simp only at h2 h4 h1
        subst h2
        exact gen_advance h1 g b [] all rfl (by rw [h4, hf]; rfl)

private theorem gen_run (all : List Str) (ops : List ChildOp) (w : ChildWorld) (hg : GenGood all w) : GenGood all (w.run all ops) := by
  induction ops generalizing w with
  | nil => exact hg
  | cons op r ih => exact ih _ (gen_step all w op hg)

private theorem gen_new (all : List Str) : GenGood all childWorld := ⟨.inl rfl, fun _ => rfl⟩

private theorem given_map (l : List Str) : childrenGiven (l.map .child) = l := by
  induction l with
  | nil => rfl
  | cons x r ih => simp [childrenGiven, ih]

private theorem given_append (a b : List Pulled) : childrenGiven (a ++ b) = childrenGiven a ++ childrenGiven b := by
  induction a with
  | nil => rfl
  | cons x r ih => cases x <;> simp [childrenGiven, ih]

private theorem given_stops (k : Nat) : childrenGiven (List.replicate k .stop) = [] := by
  induction k with
  | zero => rfl
  | succ k ih => simp [List.replicate_succ, childrenGiven, ih]

/-- C115. Whatever else is done, and whatever fails, what a generator has given are the first children, in order, none left out and none twice. -/
theorem C115_order (all : List Str) (ops : List ChildOp) (g : Nat) : childrenGiven ((childWorld.run all ops).given g) <+: all := by
  have hf := (gen_run all ops _ (gen_new all)).2 g
  generalize (childWorld.run all ops).given g = l at hf
  cases hc : (childWorld.run all ops).gen g with
  | fresh => rw [hc] at hf; simp only [GenFine] at hf; subst hf; simp [childrenGiven]
  | going r =>
    rw [hc] at hf
    obtain ⟨pre, h1, h2⟩ := hf
    subst h2
    rw [given_map, h1]
    exact List.prefix_append ..
  | over =>
    rw [hc] at hf
    obtain ⟨k, h | ⟨pre, post, h1, h2⟩⟩ := hf
    · rw [h, given_append, given_map, given_stops]; simp
    · rw [h2, given_append, given_map, h1]
      simp only [childrenGiven, given_stops, List.append_nil]
      exact List.prefix_append ..

/-- C115. A loop over the children that ends without an error has had all of them. -/
theorem C115_complete (all : List Str) (ops : List ChildOp) (g : Nat) (hend : .stop ∈ (childWorld.run all ops).given g)
    (hok : .error ∉ (childWorld.run all ops).given g) : childrenGiven ((childWorld.run all ops).given g) = all := by
  have hf := (gen_run all ops _ (gen_new all)).2 g
  generalize (childWorld.run all ops).given g = l at *
  cases hc : (childWorld.run all ops).gen g with
  | fresh => rw [hc] at hf; simp only [GenFine] at hf; subst hf; simp at hend
  | going r =>
    rw [hc] at hf
    obtain ⟨pre, h1, h2⟩ := hf
    subst h2
    simp at hend
  | over =>
    rw [hc] at hf
    obtain ⟨k, h | ⟨pre, post, h1, h2⟩⟩ := hf
    · rw [h, given_append, given_map, given_stops]; simp
    · rw [h2] at hok; simp at hok

private theorem own_step (all : List Str) (w : ChildWorld) (op : ChildOp) (g : Nat) (hg : GenGood all w)
    (hok : ∀ a b, op = .next g a b → a = true ∧ b = true) (hno : .error ∉ w.given g) :
    .error ∉ (w.step all op).given g ∧ ((w.step all op).given g).length = (w.given g).length + asksOf g [op] := by
  have hids := fun ok => (gen_ids hg ok).2.2.2.1
  cases op with
  | look ok =>
    have : (w.step all (.look ok)).given g = w.given g := by simp only [ChildWorld.step]; rw [hids]
    rw [this]
    exact ⟨hno, by simp [asksOf]⟩
  | next i a b =>
    by_cases hi : i = g
    · subst hi
      obtain ⟨rfl, rfl⟩ := hok a b rfl
      have hadv : ∀ (w : ChildWorld) l, .error ∉ w.given i →
          .error ∉ (w.advance i true l).given i ∧ ((w.advance i true l).given i).length = (w.given i).length + 1 := by
        intro w l h
        cases l <;> simp [ChildWorld.advance, ChildWorld.give, h]
      have h1 : asksOf i [ChildOp.next i true true] = 1 := by simp [asksOf]
      rw [h1]
      cases hc : w.gen i with
      | over => rw [step_over all _ _ hc]; simp [ChildWorld.give, hno]
      | going l => rw [step_going all _ _ hc]; exact hadv w l hno
      | fresh =>
        have h5 := (gen_ids hg true).2.2.2.2 rfl
        have h4 := hids true
        rw [step_fresh all _ _ hc]
        generalize w.childIds all true = y at *
        obtain ⟨w', o⟩ := y
        simp only at h5 h4
        subst h5
        have := hadv w' all (by rw [h4]; exact hno)
        rw [h4] at this
        exact this
    · have h1 : asksOf g [ChildOp.next i a b] = 0 := by simp [asksOf, hi]
      have hadv : ∀ (w : ChildWorld) l ok, (w.advance i ok l).given g = w.given g := by
        intro w l ok
        cases l with
        | nil => simp [ChildWorld.advance, ChildWorld.give, Ne.symm hi]
        | cons x r => simp only [ChildWorld.advance]; split <;> simp [ChildWorld.give, Ne.symm hi]
      have : (w.step all (.next i a b)).given g = w.given g := by
        cases hc : w.gen i with
        | over => rw [step_over all _ _ hc]; simp [ChildWorld.give, Ne.symm hi]
        | going l => rw [step_going all _ _ hc]; exact hadv w l b
        | fresh =>
          have h4 := hids a
          rw [step_fresh all _ _ hc]
          generalize w.childIds all a = y at *
          obtain ⟨w', o⟩ := y
          simp only at h4
          cases o with
          | none => simp [ChildWorld.give, Ne.symm hi, h4]
          | some l => simp only [hadv, h4]
      rw [this, h1]
      exact ⟨hno, rfl⟩

private theorem own_run (all : List Str) (ops : List ChildOp) (w : ChildWorld) (g : Nat) (hg : GenGood all w) (hok : SourceAnswers g ops)
    (hno : .error ∉ w.given g) : .error ∉ (w.run all ops).given g ∧ ((w.run all ops).given g).length = (w.given g).length + asksOf g ops := by
  induction ops generalizing w with
  | nil => exact ⟨hno, by simp [asksOf, ChildWorld.run]⟩
  | cons op r ih =>
    obtain ⟨h1, h2⟩ := own_step all w op g hg (fun a b h => hok a b (by simp [h])) hno
    obtain ⟨h3, h4⟩ := ih (w.step all op) (gen_step all w op hg) (fun a b h => hok a b (by simp [h])) h1
    refine ⟨h3, ?_⟩
    rw [ChildWorld.run, h4, h2]
    have : asksOf g (op :: r) = asksOf g [op] + asksOf g r := by
      rw [asksOf, asksOf, asksOf, ← List.length_append, ← List.filter_append]
      rfl
    omega

/-- C115. Generators do not disturb each other, nor do failures that others meet: when the source answers what generator `g` asks, its `n` calls of
`next` give the first children in order and then the end, whatever is done with others in between. -/
theorem C115_apart (all : List Str) (ops : List ChildOp) (g : Nat) (hok : SourceAnswers g ops) :
    (childWorld.run all ops).given g = firstCalls all (asksOf g ops) := by
  have hf := (gen_run all ops _ (gen_new all)).2 g
  obtain ⟨h1, h2⟩ := own_run all ops _ g (gen_new all) hok (by simp [childWorld])
  have h3 : (childWorld.given g).length = 0 := rfl
  rw [h3, Nat.zero_add] at h2
  unfold firstCalls
  rw [← h2]
  generalize (childWorld.run all ops).given g = l at *
  cases hc : (childWorld.run all ops).gen g with
  | fresh => rw [hc] at hf; simp only [GenFine] at hf; subst hf; simp
  | going r =>
    rw [hc] at hf
    obtain ⟨pre, h4, h5⟩ := hf
    subst h5
    rw [h4, List.map_append, List.append_assoc, List.take_left']
    rfl
  | over =>
    rw [hc] at hf
    obtain ⟨k, h | ⟨pre, post, h4, h5⟩⟩ := hf
    · have hlen : l.length = all.length + (k + 1) := by rw [h]; simp
      rw [hlen, List.take_append, List.length_map, List.take_of_length_le (by simp), List.take_replicate]
      rw [h]
      congr 2
      omega
    · rw [h5] at h1; simp at h1

/-- C115. The identifiers of the children are asked for until the source tells them, and not again. -/
theorem C115_ids_once (all : List Str) (ops : List ChildOp) : (childWorld.run all ops).asked ≤ refusals ops + 1 := by
  suffices H : ∀ (ops : List ChildOp) (w : ChildWorld),
      (w.run all ops).asked ≤ w.asked + (if w.ids = none then refusals ops + 1 else 0) from by
    have := H ops childWorld
    simpa [childWorld] using this
  intro ops
  induction ops with
  | nil => intro w; simp [ChildWorld.run]
  | cons op r ih =>
    intro w
    have hstep : ((w.step all op).asked = w.asked ∧ (w.step all op).ids = w.ids) ∨ (w.ids = none ∧ (w.step all op).asked = w.asked + 1 ∧
        ((w.step all op).ids = some all ∨ ((w.step all op).ids = none ∧ refusals [op] = 1))) := by
      have hadv : ∀ (w : ChildWorld) l i ok, (w.advance i ok l).asked = w.asked ∧ (w.advance i ok l).ids = w.ids := by
        intro w l i ok
        cases l with
        | nil => simp [ChildWorld.advance, ChildWorld.give]
        | cons x r => simp only [ChildWorld.advance]; split <;> simp [ChildWorld.give]
      cases op with
      | look ok =>
        simp only [ChildWorld.step, ChildWorld.childIds]
        cases hi : w.ids with
        | some l => simp [hi]
        | none => cases ok <;> simp [hi, refusals]
      | next g a b =>
        cases hc : w.gen g with
        | over => rw [step_over all _ _ hc]; simp [ChildWorld.give]
        | going l => rw [step_going all _ _ hc]; exact .inl (hadv w l g b)
        | fresh =>
          rw [step_fresh all _ _ hc]
          simp only [ChildWorld.childIds]
          cases hi : w.ids with
          | some l => simp only; exact .inl (by have := hadv w l g b; rw [hi] at this; exact this)
          | none =>
            cases a
            · simp [ChildWorld.give, hi, refusals]
            · simp only [if_true]
              have := hadv { w with ids := some all, asked := w.asked + 1 } all g b
              exact .inr ⟨trivial, this.1, .inl this.2⟩
    have href : refusals (op :: r) = refusals [op] + refusals r := by
      rw [refusals, refusals, refusals, ← List.length_append, ← List.filter_append]
      rfl
    have h := ih (w.step all op)
    rw [ChildWorld.run]
    rcases hstep with ⟨h1, h2⟩ | ⟨h0, h1, h2 | ⟨h2, h3⟩⟩
    · rw [h1, h2] at h
      split at h <;> simp_all <;> omega
    · rw [h1, h2] at h
      simp [h0] at h ⊢
      omega
    · rw [h1, h2] at h
      simp [h0] at h ⊢
      omega

/-- C115 (departure): a generator that has met an error is finished: it gives no more children, though the source answers again; a loop that goes on
with it sees an end, as if the children had been all there are. -/
theorem C115_fails_after_error (all : List Str) (ops : List ChildOp) (g : Nat) (l r : List Pulled)
    (h : (childWorld.run all ops).given g = l ++ .error :: r) : ∀ p ∈ r, p = .stop := by
  have hf := (gen_run all ops _ (gen_new all)).2 g
  rw [h] at hf
  cases hc : (childWorld.run all ops).gen g with
  | fresh => rw [hc] at hf; simp [GenFine] at hf
  | going x =>
    rw [hc] at hf
    obtain ⟨pre, -, h2⟩ := hf
    have : Pulled.error ∈ pre.map Pulled.child := by rw [← h2]; simp
    simp at this
  | over =>
    rw [hc] at hf
    obtain ⟨k, h1 | ⟨pre, post, -, h2⟩⟩ := hf
    · have : Pulled.error ∈ all.map Pulled.child ++ List.replicate (k + 1) Pulled.stop := by rw [← h1]; simp
      simp at this
    · have hnot : Pulled.error ∉ pre.map Pulled.child := by simp
      have hnot2 : Pulled.error ∉ List.replicate k Pulled.stop := by simp
      have key : ∀ (a : List Pulled) (l : List Pulled), .error ∉ a → l ++ .error :: r = a ++ .error :: List.replicate k .stop → r = List.replicate k .stop := by
        intro a
        induction a with
        | nil =>
          intro l _ e
          cases l with
          | nil => simpa using e
          | cons x l =>
            simp only [List.cons_append, List.nil_append, List.cons.injEq] at e
            exact absurd (by rw [← e.2]; simp) hnot2
        | cons y a ih =>
          intro l hn e
          cases l with
          | nil =>
            simp only [List.nil_append, List.cons_append, List.cons.injEq] at e
            exact absurd (by rw [← e.1]; simp) hn
          | cons x l =>
            simp only [List.cons_append, List.cons.injEq] at e
            exact ih l (fun hm => hn (by simp [hm])) e.2
      have := key _ l hnot h2
      rw [this]
      intro p hp
      exact (List.mem_replicate.1 hp).2

/-! ### Instances -/

/-- Two generators in turns; the second meets an error. -/
example : let w := childWorld.run [['1'], ['2'], ['3']] [.next 0 true true, .next 1 true true, .next 1 true false, .next 0 true true, .next 1 true true,
      .look false, .next 0 true true, .next 0 true true]
    w.given 0 = [.child ['1'], .child ['2'], .child ['3'], .stop] ∧ w.given 1 = [.child ['1'], .error, .stop] ∧ w.asked = 1 := by
  decide +kernel

/-- The source does not tell the identifiers at first. -/
example : let w := childWorld.run [['1']] [.look false, .next 0 false true, .next 1 true true, .next 0 true true]
    w.given 0 = [.error, .stop] ∧ w.given 1 = [.child ['1']] ∧ w.asked = 3 := by
  decide +kernel

example : SourceAnswers 0 [.next 0 true true, .next 1 false true, .look false] ∧ firstCalls [['1']] 3 = [.child ['1'], .stop, .stop] :=
  ⟨by intro a b h; simp at h; exact h, by decide⟩

end Verif.Props
