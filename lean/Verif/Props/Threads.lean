import Verif.Lemmas.Threads
/-!
Property C114: threads that share a DTS retriever, a DTS collection or a remote CTS passage. Whatever the schedule, and whatever requests fail, a thread that gets an answer
gets the right one — for routes, and for members when the pages of the endpoint say what is next.
-/
namespace Verif.Props
open Verif.Py Verif.Model Verif.Spec Verif.Lemmas

/-! ### Routes -/

/-- What holds of a thread that reads the routes. -/
private def RoutesFine {α : Type} (entry : α) (set : Bool) (n : Nat) : RoutesPc α → Prop
  | .look | .ask => n = 0
  | .again => n = 0 ∧ set = true
  | .assign a => n = 1 ∧ a = entry
  | .give => n = 1 ∧ set = true
  | .done a => n ≤ 1 ∧ a = entry ∧ set = true
  | .failed x => n = 1 ∧ x = .http

private def RoutesGood {α : Type} (entry : α) (w : RoutesWorld α) : Prop :=
  (∀ a, w.routes = some a → a = entry) ∧ ∀ t, RoutesFine entry w.routes.isSome (w.asked t) (w.pc t)

private theorem RoutesFine.mono {α : Type} {entry : α} {b b' : Bool} {n : Nat} {p : RoutesPc α} (h : b = true → b' = true)
    (hf : RoutesFine entry b n p) : RoutesFine entry b' n p := by
  cases p with
  | again => exact ⟨hf.1, h hf.2⟩
  | give => exact ⟨hf.1, h hf.2⟩
  | done a => exact ⟨hf.1, hf.2.1, h hf.2.2⟩
  | _ => exact hf

private theorem routes_next {α : Type} {entry : α} {w w' : RoutesWorld α} {t : Nat} {p : RoutesPc α} (hg : RoutesGood entry w)
    (hr : ∀ a, w'.routes = some a → a = entry) (hold : w.routes.isSome = true → w'.routes.isSome = true)
    (hpc : w'.pc = fun i => if i = t then p else w.pc i) (hasked : ∀ i, i ≠ t → w'.asked i = w.asked i)
    (hp : RoutesFine entry w'.routes.isSome (w'.asked t) p) : RoutesGood entry w' := by
  refine ⟨hr, fun i => ?_⟩
  rw [hpc]
  by_cases h : i = t
  · subst h; simpa using hp
  · simp only [h, if_false]
    rw [hasked i h]
    exact (hg.2 i).mono hold

private theorem routes_step {α : Type} (entry : α) (w : RoutesWorld α) (t : Nat) (ok : Bool) (hg : RoutesGood entry w) :
    RoutesGood entry (w.step entry t ok) := by
  have hf := hg.2 t
  have stay : ∀ p, RoutesFine entry w.routes.isSome (w.asked t) p → RoutesGood entry (w.goto t p) := fun p hp =>
    routes_next hg hg.1 id rfl (fun _ _ => rfl) hp
  unfold RoutesWorld.step
  generalize hpc : w.pc t = pc at hf
  cases pc with
  | look =>
    simp only
    split
    · rename_i hs
      exact stay _ ⟨hf, hs⟩
    · exact stay _ hf
  | again =>
    cases hr : w.routes with
    | none => have := hf.2; rw [hr] at this; simp at this
    | some a => exact stay _ ⟨by have := hf.1; omega, hg.1 a hr, hf.2⟩
  | ask =>
    simp only [RoutesFine] at hf
    simp only
    split
    · exact routes_next (t := t) hg hg.1 id rfl (fun i hi => by simp [RoutesWorld.goto, hi]) ⟨by simp [RoutesWorld.goto, hf], rfl⟩
    · exact routes_next (t := t) hg hg.1 id rfl (fun i hi => by simp [RoutesWorld.goto, hi]) ⟨by simp [RoutesWorld.goto, hf], rfl⟩
  | assign a =>
    refine routes_next (t := t) hg (fun b hb => ?_) (fun _ => rfl) rfl (fun _ _ => rfl) ⟨hf.1, rfl⟩
    simp only [RoutesWorld.goto, Option.some.injEq] at hb
    rw [← hb]
    exact hf.2
  | give =>
    cases hr : w.routes with
    | none => have := hf.2; rw [hr] at this; simp at this
    | some a => exact stay _ ⟨by have := hf.1; omega, hg.1 a hr, hf.2⟩
  | done a => exact hg
  | failed x => exact hg

private theorem routes_run {α : Type} (entry : α) (s : List (Nat × Bool)) (w : RoutesWorld α) (hg : RoutesGood entry w) :
    RoutesGood entry (w.run entry s) := by
  induction s generalizing w with
  | nil => exact hg
  | cons x r ih => exact ih _ (routes_step entry w x.1 x.2 hg)

private theorem routes_new {α : Type} (entry : α) : RoutesGood entry (newRetriever (α := α)) := ⟨by simp [newRetriever], fun _ => rfl⟩

/-- C114. Whatever the schedule, a thread that gets the routes gets those of the entry point; one that fails fails with an error of the endpoint; and
no thread requests the entry point more than once. -/
theorem C114_routes {α : Type} (entry : α) (s : List (Nat × Bool)) (t : Nat) :
    (∀ a, (newRetriever.run entry s).pc t = .done a → a = entry) ∧ (∀ x, (newRetriever.run entry s).pc t = .failed x → x = .http) ∧
      (newRetriever.run entry s).asked t ≤ 1 := by
  have hf := (routes_run entry s _ (routes_new entry)).2 t
  refine ⟨fun a h => ?_, fun x h => ?_, ?_⟩
  · rw [h] at hf; exact hf.2.1
  · rw [h] at hf; exact hf.2
  · generalize (newRetriever.run entry s).pc t = p at hf
    generalize (newRetriever.run entry s).asked t = n at hf
    cases p with
    | done a => exact hf.1
    | look => simp only [RoutesFine] at hf; omega
    | ask => simp only [RoutesFine] at hf; omega
    | again => have := hf.1; omega
    | assign a => have := hf.1; omega
    | give => have := hf.1; omega
    | failed x => have := hf.1; omega

private theorem routes_others {α : Type} (entry : α) (w : RoutesWorld α) (t i : Nat) (ok : Bool) (h : i ≠ t) :
    (w.step entry t ok).pc i = w.pc i ∧ (w.step entry t ok).asked i = w.asked i := by
  unfold RoutesWorld.step
  split <;> (try split) <;> simp [RoutesWorld.goto, h]

private theorem routes_kept {α : Type} (entry : α) (w : RoutesWorld α) (t : Nat) (ok : Bool) (h : w.routes.isSome = true) :
    (w.step entry t ok).routes.isSome = true := by
  unfold RoutesWorld.step
  split <;> (try split) <;> simp_all [RoutesWorld.goto]

/-- C114. Once a thread has the routes, a thread that begins to read them requests nothing, and gets them in its second step. -/
theorem C114_routes_later {α : Type} (entry : α) (s s' : List (Nat × Bool)) (u t : Nat) (a : α) (hu : (newRetriever.run entry s).pc u = .done a)
    (ht : (newRetriever.run entry s).pc t = .look) :
    let w := (newRetriever.run entry s).run entry s'
    w.asked t = 0 ∧ (2 ≤ stepsOf t s' → w.pc t = .done entry) := by
  have hg := routes_run entry s _ (routes_new entry)
  generalize hw : newRetriever.run entry s = w at *
  have hset : w.routes.isSome = true := by have := hg.2 u; rw [hu] at this; exact this.2.2
  have h0 : w.asked t = 0 := by have := hg.2 t; rw [ht] at this; exact this
  suffices H : ∀ (s' : List (Nat × Bool)) (w : RoutesWorld α), (∀ a, w.routes = some a → a = entry) → RoutesGood entry w → w.routes.isSome = true → w.asked t = 0 →
      ((w.pc t = .look → (w.run entry s').asked t = 0 ∧ (2 ≤ stepsOf t s' → (w.run entry s').pc t = .done entry)) ∧
       (w.pc t = .again → (w.run entry s').asked t = 0 ∧ (1 ≤ stepsOf t s' → (w.run entry s').pc t = .done entry)) ∧
       (w.pc t = .done entry → (w.run entry s').asked t = 0 ∧ (w.run entry s').pc t = .done entry)) from
    (H s' w hg.1 hg hset h0).1 ht
  clear hu ht h0 hset hg hw w
  intro s'
  induction s' with
  | nil =>
    intro w _ _ _ h0
    refine ⟨fun _ => ⟨h0, fun h => by simp [stepsOf] at h⟩, fun _ => ⟨h0, fun h => by simp [stepsOf] at h⟩, fun h => ⟨h0, h⟩⟩
  | cons x r ih =>
    intro w hr hg hset h0
    obtain ⟨i, ok⟩ := x
    have hg' := routes_step entry w i ok hg
    have hset' := routes_kept entry w i ok hset
    by_cases h : i = t
    · subst h
      have hs : stepsOf i ((i, ok) :: r) = stepsOf i r + 1 := by simp [stepsOf]
      rw [hs]
      refine ⟨fun hl => ?_, fun hl => ?_, fun hl => ?_⟩
      · have e1 : w.step entry i ok = w.goto i .again := by simp [RoutesWorld.step, hl, hset]
        have hq := (ih (w.step entry i ok) hg'.1 hg' hset' (by rw [e1]; exact h0)).2.1 (by rw [e1]; simp [RoutesWorld.goto])
        exact ⟨hq.1, fun hn => hq.2 (by omega)⟩
      · obtain ⟨a, ha⟩ := Option.isSome_iff_exists.1 hset
        have hae := hr a ha
        subst hae
        have e1 : w.step a i ok = w.goto i (.done a) := by simp [RoutesWorld.step, hl, ha]
        have hq := (ih (w.step a i ok) hg'.1 hg' hset' (by rw [e1]; exact h0)).2.2 (by rw [e1]; simp [RoutesWorld.goto])
        exact ⟨hq.1, fun _ => hq.2⟩
      · have e1 : w.step entry i ok = w := by simp [RoutesWorld.step, hl]
        have hq := (ih (w.step entry i ok) hg'.1 hg' hset' (by rw [e1]; exact h0)).2.2 (by rw [e1]; exact hl)
        exact hq
    · have hs : stepsOf t ((i, ok) :: r) = stepsOf t r := by simp [stepsOf, h]
      obtain ⟨hp, ha⟩ := routes_others entry w i t ok (Ne.symm h)
      have hq := ih (w.step entry i ok) hg'.1 hg' hset' (by rw [ha]; exact h0)
      rw [hp] at hq
      rw [hs]
      exact hq

/-- C114 (departure): what is requested once by one thread (C68) may be requested by every thread: there is a schedule by which each of the first `n`
threads requests the entry point. -/
theorem C114_fails_once {α : Type} (entry : α) (n : Nat) : ∃ s, ∀ t < n, (newRetriever.run entry s).asked t = 1 := by
  suffices H : ∀ (l : List Nat) (w : RoutesWorld α), w.routes = none → (∀ t ∈ l, w.pc t = .look ∧ w.asked t = 0) → l.Nodup →
      ∃ s, (∀ t ∈ l, (w.run entry s).asked t = 1) ∧ ∀ t, t ∉ l → (w.run entry s).asked t = w.asked t by
    obtain ⟨s, hs, -⟩ := H (List.range n) newRetriever rfl (fun t _ => ⟨rfl, rfl⟩) List.nodup_range
    exact ⟨s, fun t ht => hs t (List.mem_range.2 ht)⟩
  intro l
  induction l with
  | nil => exact fun w _ _ _ => ⟨[], by simp, fun _ _ => rfl⟩
  | cons i r ih =>
    intro w hr hl hn
    have hi := hl i (by simp)
    have hnot : i ∉ r := (List.nodup_cons.1 hn).1
    let w2 := (w.step entry i true).step entry i true
    have e1 : w.step entry i true = w.goto i .ask := by simp [RoutesWorld.step, hi.1, hr]
    have e2 : w2 = RoutesWorld.goto { w.goto i .ask with asked := fun j => if j = i then w.asked j + 1 else w.asked j } i (.assign entry) := by
      show (w.step entry i true).step entry i true = _
      rw [e1]
      simp [RoutesWorld.step, RoutesWorld.goto]
    obtain ⟨s, h1, h2⟩ := ih w2 (by rw [e2]; simp [RoutesWorld.goto, hr]) (by
      intro t ht
      have hne : t ≠ i := fun h => hnot (h ▸ ht)
      have := hl t (by simp [ht])
      rw [e2]
      simp [RoutesWorld.goto, hne, this]) (List.nodup_cons.1 hn).2
    refine ⟨(i, true) :: (i, true) :: s, fun t ht => ?_, fun t ht => ?_⟩
    · show (w2.run entry s).asked t = 1
      rcases List.mem_cons.1 ht with rfl | ht
      · rw [h2 t hnot, e2]
        simp [RoutesWorld.goto, hi.2]
      · exact h1 t ht
    · show (w2.run entry s).asked t = _
      simp only [List.mem_cons, not_or] at ht
      rw [h2 t ht.2, e2]
      simp [RoutesWorld.goto, ht.1]

/-! ### Neighbours -/

/-- What holds of a thread that asks for neighbours. -/
private def SibFine (k : Sought) (a : Neighbour × Neighbour) (prev next : Neighbour) (n : Nat) : SiblingsPc → Prop
  | .look | .ask => n = 0
  | .look2 => n = 0 ∧ k = .both ∧ next = a.2
  | .storePrev p q => n = 1 ∧ p = a.1 ∧ q = a.2
  | .storeNext q => n = 1 ∧ q = a.2 ∧ prev = a.1
  | .read => n ≤ 1 ∧ (k ≠ .next → prev = a.1) ∧ (k ≠ .prev → next = a.2)
  | .read2 p => n ≤ 1 ∧ k = .both ∧ p = a.1 ∧ next = a.2
  | .done p q => n ≤ 1 ∧ p = (if k = .next then none else some a.1) ∧ q = if k = .prev then none else some a.2
  | .failed x => n = 1 ∧ x = .http

private def SibGood (k : Nat → Sought) (a : Neighbour × Neighbour) (w : SiblingsWorld) : Prop :=
  (w.prev = none ∨ w.prev = a.1) ∧ (w.next = none ∨ w.next = a.2) ∧ ∀ t, SibFine (k t) a w.prev w.next (w.asked t) (w.pc t)

private theorem SibFine.mono {k : Sought} {a : Neighbour × Neighbour} {x y x' y' : Neighbour} {n : Nat} {p : SiblingsPc}
    (hx : x = a.1 → x' = a.1) (hy : y = a.2 → y' = a.2) (hf : SibFine k a x y n p) : SibFine k a x' y' n p := by
  cases p with
  | look2 => exact ⟨hf.1, hf.2.1, hy hf.2.2⟩
  | storeNext q => exact ⟨hf.1, hf.2.1, hx hf.2.2⟩
  | read => exact ⟨hf.1, fun h => hx (hf.2.1 h), fun h => hy (hf.2.2 h)⟩
  | read2 q => exact ⟨hf.1, hf.2.1, hf.2.2.1, hy hf.2.2.2⟩
  | _ => exact hf

private theorem sib_next {k : Nat → Sought} {a : Neighbour × Neighbour} {w w' : SiblingsWorld} {t : Nat} {p : SiblingsPc} (hg : SibGood k a w)
    (h1 : w'.prev = none ∨ w'.prev = a.1) (h2 : w'.next = none ∨ w'.next = a.2) (hx : w.prev = a.1 → w'.prev = a.1) (hy : w.next = a.2 → w'.next = a.2)
    (hpc : w'.pc = fun i => if i = t then p else w.pc i) (hasked : ∀ i, i ≠ t → w'.asked i = w.asked i)
    (hp : SibFine (k t) a w'.prev w'.next (w'.asked t) p) : SibGood k a w' := by
  refine ⟨h1, h2, fun i => ?_⟩
  rw [hpc]
  by_cases h : i = t
  · subst h; simpa using hp
  · simp only [h, if_false]
    rw [hasked i h]
    exact (hg.2.2 i).mono hx hy

private theorem sib_known {x y : Neighbour} (h : x = none ∨ x = y) (hn : ¬ x.isNone = true) : x = y := by
  rcases h with h | h
  · simp [h] at hn
  · exact h

private theorem sib_step (k : Nat → Sought) (a : Neighbour × Neighbour) (w : SiblingsWorld) (t : Nat) (ok : Bool) (hg : SibGood k a w) :
    SibGood k a (w.step k a t ok) := by
  have hf := hg.2.2 t
  have stay : ∀ p, SibFine (k t) a w.prev w.next (w.asked t) p → SibGood k a (w.goto t p) := fun p hp =>
    sib_next hg hg.1 hg.2.1 id id rfl (fun _ _ => rfl) hp
  unfold SiblingsWorld.step
  generalize hpc : w.pc t = pc at hf
  cases pc with
  | look =>
    simp only [SibFine] at hf
    simp only
    split
    · rename_i hk
      split
      · exact stay _ hf
      · rename_i hn
        exact stay _ ⟨by omega, fun _ => sib_known hg.1 hn, fun h => absurd hk h⟩
    · rename_i hk
      split
      · exact stay _ hf
      · rename_i hn
        exact stay _ ⟨by omega, fun h => absurd hk h, fun _ => sib_known hg.2.1 hn⟩
    · rename_i hk
      split
      · exact stay _ hf
      · rename_i hn
        exact stay _ ⟨hf, hk, sib_known hg.2.1 hn⟩
  | look2 =>
    simp only
    split
    · exact stay _ hf.1
    · rename_i hn
      exact stay _ ⟨by have := hf.1; omega, fun _ => sib_known hg.1 hn, fun _ => hf.2.2⟩
  | ask =>
    simp only [SibFine] at hf
    simp only
    split
    · exact sib_next (t := t) hg hg.1 hg.2.1 id id rfl (fun i hi => by simp [SiblingsWorld.goto, hi]) ⟨by simp [SiblingsWorld.goto, hf], rfl, rfl⟩
    · exact sib_next (t := t) hg hg.1 hg.2.1 id id rfl (fun i hi => by simp [SiblingsWorld.goto, hi]) ⟨by simp [SiblingsWorld.goto, hf], rfl⟩
  | storePrev p q =>
    exact sib_next (t := t) hg (.inr hf.2.1) hg.2.1 (fun _ => hf.2.1) id rfl (fun _ _ => rfl) ⟨hf.1, hf.2.2, hf.2.1⟩
  | storeNext q =>
    exact sib_next (t := t) hg hg.1 (.inr hf.2.1) id (fun _ => hf.2.1) rfl (fun _ _ => rfl) ⟨by have := hf.1; simp only [SiblingsWorld.goto]; omega, fun _ => hf.2.2, fun _ => hf.2.1⟩
  | read =>
    simp only
    split
    · rename_i hk
      exact stay _ ⟨hf.1, by simp [hk, hf.2.1 (by simp [hk])], by simp [hk]⟩
    · rename_i hk
      exact stay _ ⟨hf.1, by simp [hk], by simp [hk, hf.2.2 (by simp [hk])]⟩
    · rename_i hk
      exact stay _ ⟨hf.1, hk, hf.2.1 (by simp [hk]), hf.2.2 (by simp [hk])⟩
  | read2 p => exact stay _ ⟨hf.1, by simp [hf.2.1, hf.2.2.1], by simp [hf.2.1, hf.2.2.2]⟩
  | done p q => exact hg
  | failed x => exact hg

private theorem sib_run (k : Nat → Sought) (a : Neighbour × Neighbour) (s : List (Nat × Bool)) (w : SiblingsWorld) (hg : SibGood k a w) :
    SibGood k a (w.run k a s) := by
  induction s generalizing w with
  | nil => exact hg
  | cons x r ih => exact ih _ (sib_step k a w x.1 x.2 hg)

private theorem sib_new (k : Nat → Sought) (a : Neighbour × Neighbour) : SibGood k a freshPassage := ⟨.inl rfl, .inl rfl, fun _ => rfl⟩

/-- C114. Threads that ask a remote passage for the previous, for the next, or for both neighbours, in any mixture and by any schedule, get what the
endpoint says of them, or its errors; none asks more than once. -/
theorem C114_siblings (k : Nat → Sought) (a : Neighbour × Neighbour) (s : List (Nat × Bool)) (t : Nat) :
    (∀ p n, (freshPassage.run k a s).pc t = .done p n →
      p = (if k t = .next then none else some a.1) ∧ n = if k t = .prev then none else some a.2) ∧
    (∀ x, (freshPassage.run k a s).pc t = .failed x → x = .http) ∧ (freshPassage.run k a s).asked t ≤ 1 := by
  have hf := (sib_run k a s _ (sib_new k a)).2.2 t
  refine ⟨fun p n h => ?_, fun x h => ?_, ?_⟩
  · rw [h] at hf; exact hf.2
  · rw [h] at hf; exact hf.2
  · generalize (freshPassage.run k a s).pc t = p at hf
    generalize (freshPassage.run k a s).asked t = n at hf
    cases p with
    | look => simp only [SibFine] at hf; omega
    | ask => simp only [SibFine] at hf; omega
    | _ => have := hf.1; omega

private theorem sib_left_step (k : Nat → Sought) (a : Neighbour × Neighbour) (w : SiblingsWorld) (t i : Nat) (ok : Bool) (h : i ≠ t) :
    (w.step k a t ok).pc i = w.pc i ∧ (w.step k a t ok).asked i = w.asked i := by
  unfold SiblingsWorld.step
  split <;> (try split) <;> (try split) <;> simp [SiblingsWorld.goto, h]

/-- C114. Once a thread has had both neighbours from an endpoint that told them, threads that begin request nothing. -/
theorem C114_siblings_later (k : Nat → Sought) (a : Neighbour × Neighbour) (ha : a.1 ≠ none ∧ a.2 ≠ none) (s s' : List (Nat × Bool)) (u t : Nat)
    (p n : Option Neighbour) (hk : k u = .both) (hu : (freshPassage.run k a s).pc u = .done p n) (ht : (freshPassage.run k a s).pc t = .look) :
    ((freshPassage.run k a s).run k a s').asked t = 0 := by
  have hset : (freshPassage.run k a s).prev = a.1 ∧ (freshPassage.run k a s).next = a.2 := by
    suffices H : ∀ (s : List (Nat × Bool)) (w : SiblingsWorld), SibGood k a w →
        ((w.pc u = .read ∨ (∃ q, w.pc u = .read2 q) ∨ ∃ p n, w.pc u = .done p n) → w.prev = a.1 ∧ w.next = a.2) →
        ((w.run k a s).pc u = .read ∨ (∃ q, (w.run k a s).pc u = .read2 q) ∨ ∃ p n, (w.run k a s).pc u = .done p n) →
        (w.run k a s).prev = a.1 ∧ (w.run k a s).next = a.2 from
      H s _ (sib_new k a) (by simp [freshPassage]) (.inr (.inr ⟨p, n, hu⟩))
    intro s
    induction s with
    | nil => exact fun w _ h1 h2 => h1 h2
    | cons x r ih =>
      obtain ⟨i, ok⟩ := x
      intro w hg h1
      have hg' := sib_step k a w i ok hg
      refine ih (w.step k a i ok) hg' fun h2 => ?_
      have keep : w.prev = a.1 ∧ w.next = a.2 → (w.step k a i ok).prev = a.1 ∧ (w.step k a i ok).next = a.2 := by
        rintro ⟨hp, hn⟩
        have hf := hg.2.2 i
        unfold SiblingsWorld.step
        generalize w.pc i = pc at hf
        cases pc with
        | storePrev x y => exact ⟨hf.2.1, hn⟩
        | storeNext y => exact ⟨hp, hf.2.1⟩
        | look => simp only; (repeat' split) <;> exact ⟨hp, hn⟩
        | look2 => simp only; split <;> exact ⟨hp, hn⟩
        | ask => simp only; split <;> exact ⟨hp, hn⟩
        | read => simp only; split <;> exact ⟨hp, hn⟩
        | _ => exact ⟨hp, hn⟩
      by_cases hi : u = i
      · subst hi
        have hf := hg.2.2 u
        by_cases hold : (w.pc u = .read ∨ (∃ q, w.pc u = .read2 q) ∨ ∃ p n, w.pc u = .done p n)
        · exact keep (h1 hold)
        · have hf' := hg'.2.2 u
          rcases h2 with h2 | ⟨q, h2⟩ | ⟨p, n, h2⟩
          · rw [h2] at hf'
            exact ⟨hf'.2.1 (by simp [hk]), hf'.2.2 (by simp [hk])⟩
          · exfalso
            apply hold
            unfold SiblingsWorld.step at h2
            cases hpc : w.pc u <;> simp_all [SiblingsWorld.goto] <;> (try split at h2) <;> simp_all
          · exfalso
            apply hold
            unfold SiblingsWorld.step at h2
            cases hpc : w.pc u <;> simp_all [SiblingsWorld.goto] <;> (try split at h2) <;> simp_all
      · rw [(sib_left_step k a w i u ok hi).1] at h2
        exact keep (h1 h2)
  have hg := sib_run k a s _ (sib_new k a)
  generalize freshPassage.run k a s = w at *
  have h0 : w.asked t = 0 := by have := hg.2.2 t; rw [ht] at this; exact this
  suffices H : ∀ (s' : List (Nat × Bool)) (w : SiblingsWorld), SibGood k a w → w.prev = a.1 → w.next = a.2 → w.asked t = 0 →
      (w.pc t = .look ∨ w.pc t = .look2 ∨ w.pc t = .read ∨ (∃ q, w.pc t = .read2 q) ∨ ∃ p n, w.pc t = .done p n) → (w.run k a s').asked t = 0 from
    H s' w hg hset.1 hset.2 h0 (.inl ht)
  clear hu ht h0 hset hg w
  intro s'
  induction s' with
  | nil => exact fun w _ _ _ h0 _ => h0
  | cons x r ih =>
    obtain ⟨i, ok⟩ := x
    intro w hg hp hn h0 hpc
    have hg' := sib_step k a w i ok hg
    by_cases hi : t = i
    · subst hi
      rcases hpc with h | h | h | ⟨q, h⟩ | ⟨p, n, h⟩
      · cases hkt : k t <;> (refine ih _ hg' ?_ ?_ ?_ ?_ <;> simp [SiblingsWorld.step, h, hkt, SiblingsWorld.goto, hp, hn, h0, ha.1, ha.2])
      · refine ih _ hg' ?_ ?_ ?_ ?_ <;> simp [SiblingsWorld.step, h, SiblingsWorld.goto, hp, hn, h0, ha.1]
      · cases hkt : k t <;> (refine ih _ hg' ?_ ?_ ?_ ?_ <;> simp [SiblingsWorld.step, h, hkt, SiblingsWorld.goto, hp, hn, h0])
      · refine ih _ hg' ?_ ?_ ?_ ?_ <;> simp [SiblingsWorld.step, h, SiblingsWorld.goto, hp, hn, h0]
      · refine ih _ hg' ?_ ?_ ?_ ?_ <;> simp [SiblingsWorld.step, h, hp, hn, h0]
    · obtain ⟨h1, h2⟩ := sib_left_step k a w i t ok hi
      have hf := hg.2.2 i
      have keep : (w.step k a i ok).prev = a.1 ∧ (w.step k a i ok).next = a.2 := by
        unfold SiblingsWorld.step
        generalize w.pc i = pc at hf
        cases pc with
        | storePrev x y => exact ⟨hf.2.1, hn⟩
        | storeNext y => exact ⟨hp, hf.2.1⟩
        | look => simp only; (repeat' split) <;> exact ⟨hp, hn⟩
        | look2 => simp only; split <;> exact ⟨hp, hn⟩
        | ask => simp only; split <;> exact ⟨hp, hn⟩
        | read => simp only; split <;> exact ⟨hp, hn⟩
        | _ => exact ⟨hp, hn⟩
      exact ih _ hg' keep.1 keep.2 (by rw [h2]; exact h0) (by rw [h1]; exact hpc)

/-! ### Members -/

/-- C114. Whatever the schedule and whatever requests fail, a thread that lists the members of a collection gets all of them, in the order of the
pages, each once. -/
theorem C114_members (e : Listing) (he : Paged e) (s : List (Nat × Bool)) (t : Nat) (l : List Str) (h : (metCollection.run e s).pc t = .done l) :
    l = allMembers e := by
  obtain ⟨k, -, hg⟩ := good_run e he s _ _ (good_new e)
  have := hg.fine t
  rw [h] at this
  exact this.1

/-- C114. No thread requests more pages than there are. -/
theorem C114_members_requests (e : Listing) (he : Paged e) (s : List (Nat × Bool)) (t : Nat) : (metCollection.run e s).asked t ≤ e.last := by
  obtain ⟨k, -, hg⟩ := good_run e he s _ _ (good_new e)
  have hf := hg.fine t
  have hle := hg.le
  generalize (metCollection.run e s).pc t = pc at hf
  cases pc with
  | look u => cases u <;> simp only [Fine] at hf <;> omega
  | isProxy u => cases u <;> simp only [Fine] at hf <;> omega
  | readProxied u => cases u <;> simp only [Fine] at hf <;> omega
  | swap u => cases u <;> simp only [Fine] at hf <;> omega
  | ret u => cases u <;> simp only [Fine] at hf <;> omega
  | done l => exact hf.2.1
  | take => exact hf.2.1
  | _ => simp only [Fine] at hf <;> omega

private theorem py_run (e : Listing) (s : List (Nat × Bool)) (w : CrawlWorld) (t : Nat) (x : PyErr) (h0 : w.pc t ≠ .failed (.py x))
    (h : (w.run e s).pc t = .failed (.py x)) : x = .attributeError := by
  induction s generalizing w with
  | nil => exact absurd h h0
  | cons y r ih =>
    by_cases hn : (w.step e y.1 y.2).pc t = .failed (.py x)
    · rcases py_step e w t y.1 y.2 x hn with h1 | h1
      · exact absurd h1 h0
      · exact h1.1
    · exact ih _ hn h

/-- C114. A thread ends after at most `9 * n + 8` steps of its own, `n` being the number of pages, however many steps the others make. When all its
requests are answered it ends with all members, or, in the one way that `C114_fails_swap` shows, with `AttributeError`. -/
theorem C114_members_end (e : Listing) (he : Paged e) (s : List (Nat × Bool)) (t : Nat) (hs : 9 * e.last + 8 ≤ stepsOf t s) :
    (metCollection.run e s).pc t = .done (allMembers e) ∨ (metCollection.run e s).pc t = .failed (.py .attributeError) ∨
      ((metCollection.run e s).pc t = .failed .http ∧ ¬ AlwaysAnswered t s) := by
  have hl := left_run e he s _ _ t (good_new e)
  have h0 : left e (metCollection.pc t) = 9 * (e.last - 1) + 17 := rfl
  have hpos := he.1
  have hz : left e ((metCollection.run e s).pc t) = 0 := by omega
  cases hpc : (metCollection.run e s).pc t with
  | done l => rw [C114_members e he s t l hpc]; exact .inl rfl
  | failed x =>
    cases x with
    | http => exact .inr (.inr ⟨rfl, fun h => h (http_run e s _ t (by simp [metCollection]) hpc)⟩)
    | py x =>
      have := py_run e s _ t x (by simp [metCollection]) hpc
      subst this
      exact .inr (.inl rfl)
  | look u => rw [hpc] at hz; cases u <;> simp [left] at hz
  | isProxy u => rw [hpc] at hz; cases u <;> simp [left] at hz
  | readProxied u => rw [hpc] at hz; cases u <;> simp [left] at hz
  | swap u => rw [hpc] at hz; cases u <;> simp [left] at hz
  | ret u => rw [hpc] at hz; cases u <;> simp [left] at hz
  | _ => rw [hpc] at hz; simp [left] at hz

private theorem kept_step (e : Listing) (w : CrawlWorld) (t : Nat) (ok : Bool) (h : w.parsed = true) : (w.step e t ok).parsed = true := by
  unfold CrawlWorld.step
  split <;> (try split) <;> simp_all [CrawlWorld.goto]

private theorem swapped_step (e : Listing) (w : CrawlWorld) (t : Nat) (ok : Bool) (h : w.swapped = true) : (w.step e t ok).swapped = true := by
  unfold CrawlWorld.step
  split <;> (try split) <;> simp_all [CrawlWorld.goto]

/-- C114. Once a thread has listed the members, a thread that begins requests nothing. -/
theorem C114_members_later (e : Listing) (he : Paged e) (s s' : List (Nat × Bool)) (u t : Nat) (l : List Str)
    (hu : (metCollection.run e s).pc u = .done l) (ht : (metCollection.run e s).pc t = .look .list) :
    ((metCollection.run e s).run e s').asked t = 0 := by
  obtain ⟨k, -, hg⟩ := good_run e he s _ _ (good_new e)
  generalize metCollection.run e s = w at *
  have hp : w.parsed = true := by have := hg.fine u; rw [hu] at this; exact this.2.2
  have h0 : w.asked t = 0 := by have := hg.fine t; rw [ht] at this; exact this
  suffices H : ∀ (s' : List (Nat × Bool)) (w : CrawlWorld), w.parsed = true → w.asked t = 0 →
      (w.pc t = .look .list ∨ w.pc t = .isProxy .list ∨ w.pc t = .readProxied .list ∨ w.pc t = .swap .list ∨ (w.pc t = .ret .list ∧ w.swapped = true) ∨
        w.pc t = .take ∨ (∃ l, w.pc t = .done l) ∨ ∃ x, w.pc t = .failed x) → (w.run e s').asked t = 0 from H s' w hp h0 (.inl ht)
  clear hu ht h0 hp hg w
  intro s'
  induction s' with
  | nil => intro w _ h0 _; exact h0
  | cons x r ih =>
    obtain ⟨i, ok⟩ := x
    intro w hp h0 hpc
    have hp' := kept_step e w i ok hp
    by_cases h : t = i
    · subst h
      refine ih _ hp' ?_ ?_
      · rcases hpc with h | h | h | h | ⟨h, h2⟩ | h | ⟨l, h⟩ | ⟨x, h⟩ <;> simp only [CrawlWorld.step, h] <;> (try split) <;> simp [CrawlWorld.goto, h0]
      · rcases hpc with h | h | h | h | ⟨h, h2⟩ | h | ⟨l, h⟩ | ⟨x, h⟩
        · simp [CrawlWorld.step, h, hp, CrawlWorld.goto]
        · by_cases hs : w.swapped = true <;> simp [CrawlWorld.step, h, hs, CrawlWorld.goto]
        · by_cases hs : w.swapped = true <;> simp [CrawlWorld.step, h, hs, CrawlWorld.goto]
        · simp [CrawlWorld.step, h, CrawlWorld.goto]
        · simp [CrawlWorld.step, h, h2, CrawlWorld.goto]
        · simp [CrawlWorld.step, h, CrawlWorld.goto]
        · simp [CrawlWorld.step, h]
        · simp [CrawlWorld.step, h]
    · obtain ⟨h1, h2⟩ := step_others e w i t ok h
      refine ih _ hp' (by rw [h2]; exact h0) ?_
      rw [h1]
      rcases hpc with h | h | h | h | ⟨h, h2⟩ | h | ⟨l, h⟩ | ⟨x, h⟩
      · exact .inl h
      · exact .inr (.inl h)
      · exact .inr (.inr (.inl h))
      · exact .inr (.inr (.inr (.inl h)))
      · exact .inr (.inr (.inr (.inr (.inl ⟨h, swapped_step e w i ok h2⟩))))
      · exact .inr (.inr (.inr (.inr (.inr (.inl h)))))
      · exact .inr (.inr (.inr (.inr (.inr (.inr (.inl ⟨l, h⟩))))))
      · exact .inr (.inr (.inr (.inr (.inr (.inr (.inr ⟨x, h⟩))))))

/-- C114. All members: each once, and exactly those that are on a page. -/
theorem C114_members_all (e : Listing) (x : Str) :
    (allMembers e).Nodup ∧ (x ∈ allMembers e ↔ ∃ p, 1 ≤ p ∧ p ≤ e.last ∧ x ∈ (e.page p).members) := by
  refine ⟨?_, mem_membersUpTo e e.last x⟩
  have H : ∀ (l known : List Str), known.Nodup → (addKeys known l).Nodup := by
    intro l
    induction l with
    | nil => exact fun _ h => h
    | cons k r ih =>
      intro known h
      rw [addKeys]
      split
      · exact ih _ h
      · rename_i hk
        refine ih _ (List.nodup_append.2 ⟨h, by simp, ?_⟩)
        intro a ha b hb
        simp at hb
        subst hb
        exact fun hab => hk (hab ▸ ha)
  rw [allMembers, membersUpTo_eq]
  exact H _ [] List.nodup_nil

/-! ### Departures -/

/-- C114 (departure): when the one page of the listing has no view, `parse_member` says that all is parsed before the members are in the
dictionary: a second thread then finds none, though every request is answered. -/
theorem C114_fails_flag (e : Listing) (h1 : e.last = 1) (hv : (e.page 1).view = false) (hm : (e.page 1).members ≠ []) :
    ∃ s, AlwaysAnswered 0 s ∧ AlwaysAnswered 1 s ∧ (metCollection.run e s).pc 1 = .done [] ∧ (metCollection.run e s).pc 0 = .done (allMembers e) ∧
      allMembers e ≠ [] := by
  have hne : (e.page 1).members.isEmpty = false := by
    cases h : (e.page 1).members with
    | nil => exact absurd h hm
    | cons x l => rfl
  refine ⟨(List.replicate 7 (0, true)) ++ (List.replicate 6 (1, true)) ++ (List.replicate 4 (0, true)), by simp [AlwaysAnswered], by simp [AlwaysAnswered], ?_, ?_, ?_⟩
  · simp [List.replicate, CrawlWorld.run, CrawlWorld.step, CrawlWorld.goto, metCollection, hv, hne, h1]
  · simp only [allMembers, membersUpTo_eq, h1]
    simp [List.replicate, CrawlWorld.run, CrawlWorld.step, CrawlWorld.goto, metCollection, hv, hne, h1, List.range_succ]
  · intro h
    cases hx : (e.page 1).members with
    | nil => exact hm hx
    | cons x l =>
      have : x ∈ allMembers e := (C114_members_all e x).2.2 ⟨1, by omega, by omega, by rw [hx]; simp⟩
      rw [h] at this
      simp at this

/-- C114 (departure): a thread that has found the proxy still there, and then another thread takes it away, raises `AttributeError`. -/
theorem C114_fails_swap (e : Listing) (h1 : e.last = 1) (hv : (e.page 1).view = true) :
    ∃ s, (∀ t, AlwaysAnswered t s) ∧ (metCollection.run e s).pc 1 = .failed (.py .attributeError) ∧
      (metCollection.run e s).pc 2 = .done (allMembers e) := by
  refine ⟨(List.replicate 11 (0, true)) ++ (List.replicate 2 (1, true)) ++ (List.replicate 6 (2, true)) ++ [(1, true)], by simp [AlwaysAnswered], ?_, ?_⟩
  · simp [List.replicate, CrawlWorld.run, CrawlWorld.step, CrawlWorld.goto, metCollection, hv, h1]
  · simp only [allMembers, membersUpTo_eq, h1]
    simp [List.replicate, CrawlWorld.run, CrawlWorld.step, CrawlWorld.goto, metCollection, hv, h1, List.range_succ]

/-! ### Instances -/

/-- Three members on two pages. -/
def twoPages : Listing := ⟨2, fun p => if p = 1 then ⟨[['a'], ['b']], true⟩ else ⟨[['c'], ['a']], true⟩⟩

example : Paged twoPages := ⟨by decide, fun p _ _ => by unfold twoPages; simp only; split <;> rfl⟩

/-- Two threads that take turns both get them. -/
example : let w := metCollection.run twoPages ((List.replicate 30 [(0, true), (1, true)]).flatten)
    w.pc 0 = .done [['a'], ['b'], ['c']] ∧ w.pc 1 = .done [['a'], ['b'], ['c']] ∧ w.asked 0 = 2 ∧ w.asked 1 = 2 ∧ w.pc 2 = .look .list := by
  decide +kernel

example : allMembers twoPages = [['a'], ['b'], ['c']] := by decide +kernel

/-- One thread fails on the second page; the other, beginning later, goes on from the first and gets all. -/
example : let w := metCollection.run twoPages (List.replicate 9 (0, true) ++ [(0, false)] ++ List.replicate 26 (1, true))
    w.pc 0 = .failed .http ∧ w.pc 1 = .done [['a'], ['b'], ['c']] := by
  decide +kernel

example : let w := newRetriever.run 'r' [(0, true), (0, true), (0, true), (0, true), (1, true), (1, true)]
    w.pc 0 = .done 'r' ∧ w.pc 1 = .done 'r' ∧ w.asked 0 = 1 ∧ w.asked 1 = 0 := by
  decide +kernel

example : (newRetriever.run 'r' [(0, true), (1, true), (1, true), (0, true)]).pc 1 = .assign 'r' ∧ stepsOf 1 [(0, true), (1, true), (1, true)] = 2 := by
  decide +kernel

/-- One thread wants the previous passage, the other both; the second looks between the two assignments of the first, and asks for itself. -/
example : let w := freshPassage.run (fun t => if t = 0 then .prev else .both) (some none, some (some ['2'])) [(0, true), (0, true), (0, true), (1, true), (1, true), (0, true), (0, true), (1, true), (1, true), (1, true), (1, true)]
    w.pc 0 = .done (some (some none)) none ∧ w.pc 1 = .done (some (some none)) (some (some (some ['2']))) ∧ w.asked 1 = 1 := by
  decide +kernel

end Verif.Props
