import Verif.Spec.Threads
/-!
Invariants of threads.
-/
namespace Verif.Lemmas
open Verif.Py Verif.Model Verif.Spec

theorem addKeys_eq (known l : List Str) : addKeys known l = known ++ (l.filter fun k => decide (k ∉ known)).eraseDups := by
  induction l generalizing known with
  | nil => simp [addKeys]
  | cons k r ih =>
    rw [addKeys]
    by_cases h : k ∈ known
    · simp [h, ih]
    · rw [if_neg h, ih, List.filter_cons_of_pos (by simpa using h), List.eraseDups_cons, List.filter_filter, List.append_assoc]
      congr 2
      simp only [List.singleton_append]
      congr 2
      apply List.filter_congr
      intro x _
      simp only [List.mem_append, List.mem_singleton, not_or]
      by_cases h1 : x ∈ known <;> by_cases h2 : x = k <;> simp [h1, h2]

theorem addKeys_append (known a b : List Str) : addKeys known (a ++ b) = addKeys (addKeys known a) b := by
  induction a generalizing known with
  | nil => rfl
  | cons k r ih =>
    simp only [List.cons_append, addKeys]
    split <;> exact ih _

theorem mem_addKeys_members (known l : List Str) (x : Str) : x ∈ addKeys known l ↔ x ∈ known ∨ x ∈ l := by
  induction l generalizing known with
  | nil => simp [addKeys]
  | cons k r ih =>
    rw [addKeys]
    split
    · rename_i h
      rw [ih, List.mem_cons]
      constructor
      · rintro (h | h) <;> simp [h]
      · rintro (h | rfl | h)
        · exact .inl h
        · exact .inl h
        · exact .inr h
    · rw [ih]
      simp [or_assoc]

theorem addKeys_known (known l : List Str) (h : ∀ x ∈ l, x ∈ known) : addKeys known l = known := by
  induction l with
  | nil => rfl
  | cons k r ih => rw [addKeys, if_pos (h k (by simp)), ih fun x hx => h x (by simp [hx])]

theorem membersUpTo_eq (e : Listing) (n : Nat) : membersUpTo e n = addKeys [] ((List.range n).flatMap fun i => (e.page (i + 1)).members) := by
  rw [addKeys_eq, List.nil_append, List.filter_eq_self.2 (by simp)]
  rfl

theorem membersUpTo_succ (e : Listing) (n : Nat) : membersUpTo e (n + 1) = addKeys (membersUpTo e n) (e.page (n + 1)).members := by
  rw [membersUpTo_eq, membersUpTo_eq, List.range_succ, List.flatMap_append, addKeys_append]
  simp

theorem mem_membersUpTo (e : Listing) (n : Nat) (x : Str) : x ∈ membersUpTo e n ↔ ∃ p, 1 ≤ p ∧ p ≤ n ∧ x ∈ (e.page p).members := by
  rw [membersUpTo_eq, mem_addKeys_members]
  simp only [List.not_mem_nil, false_or, List.mem_flatMap, List.mem_range]
  constructor
  · rintro ⟨i, hi, hx⟩
    exact ⟨i + 1, by omega, by omega, hx⟩
  · rintro ⟨p, h1, h2, hx⟩
    exact ⟨p - 1, by omega, by rwa [Nat.sub_add_cancel h1]⟩

/-- What holds of a thread when the pages up to `k` are in the dictionary; `q` says whether `_parsed` is set. -/
def Fine (e : Listing) (k : Nat) (q : Bool) (asked : Nat) : CrawlPc → Prop
  | .look .list | .ret .list | .begin => asked = 0
  | .isProxy .list | .readProxied .list | .swap .list => asked = 0 ∧ q = true
  | .look (.update p) | .ret (.update p) | .flag p | .put p => 1 ≤ p ∧ p ≤ k + 1 ∧ p ≤ e.last ∧ asked ≤ p
  | .isProxy (.update p) | .readProxied (.update p) | .swap (.update p) => 1 ≤ p ∧ p ≤ k + 1 ∧ p ≤ e.last ∧ asked ≤ p ∧ q = true
  | .ask p => 1 ≤ p ∧ p ≤ k + 1 ∧ p ≤ e.last ∧ asked < p
  | .mark p => 1 ≤ p ∧ p ≤ k ∧ asked ≤ p
  | .finish => k = e.last ∧ asked ≤ e.last
  | .take => k = e.last ∧ asked ≤ e.last ∧ q = true
  | .done l => l = allMembers e ∧ asked ≤ e.last ∧ q = true
  | .failed _ => asked ≤ e.last

/-- What holds of the collection and its threads. -/
structure Good (e : Listing) (w : CrawlWorld) (k : Nat) : Prop where
  le : k ≤ e.last
  known : w.known = membersUpTo e k
  last : ∀ p, w.lastParsed = some p → 1 ≤ p ∧ p ≤ k
  parsed : w.parsed = true → k = e.last
  swapped : w.swapped = true → w.parsed = true
  fine : ∀ t, Fine e k w.parsed (w.asked t) (w.pc t)

theorem Fine.mono {e : Listing} {k k' : Nat} {q q' : Bool} {n : Nat} {pc : CrawlPc} (hk : k ≤ k') (hk' : k' ≤ e.last) (hq : q = true → q' = true)
    (h : Fine e k q n pc) : Fine e k' q' n pc := by
  cases pc with
  | look u => cases u <;> simp only [Fine] at h ⊢ <;> omega
  | isProxy u => cases u <;> simp only [Fine] at h ⊢ <;> simp_all <;> omega
  | readProxied u => cases u <;> simp only [Fine] at h ⊢ <;> simp_all <;> omega
  | swap u => cases u <;> simp only [Fine] at h ⊢ <;> simp_all <;> omega
  | ret u => cases u <;> simp only [Fine] at h ⊢ <;> omega
  | done l => exact ⟨h.1, h.2.1, hq h.2.2⟩
  | take => exact ⟨by have := h.1; omega, h.2.1, hq h.2.2⟩
  | failed x => exact h
  | _ => simp only [Fine] at h ⊢ <;> omega

/-- The next state is good when the thread that moved is fine and the rest is as before or further. -/
theorem Good.next {e : Listing} {w w' : CrawlWorld} {k k' t : Nat} {p : CrawlPc} (hg : Good e w k) (hk : k ≤ k') (hk' : k' ≤ e.last)
    (hknown : w'.known = membersUpTo e k') (hlast : ∀ p, w'.lastParsed = some p → 1 ≤ p ∧ p ≤ k') (hparsed : w'.parsed = true → k' = e.last)
    (hold : w.parsed = true → w'.parsed = true) (hswapped : w'.swapped = true → w'.parsed = true)
    (hpc : w'.pc = fun i => if i = t then p else w.pc i) (hasked : ∀ i, i ≠ t → w'.asked i = w.asked i)
    (hp : Fine e k' w'.parsed (w'.asked t) p) : Good e w' k' := by
  refine ⟨hk', hknown, hlast, hparsed, hswapped, fun i => ?_⟩
  rw [hpc]
  by_cases h : i = t
  · subst h; simpa using hp
  · simp only [h, if_false]
    rw [hasked i h]
    exact (hg.fine i).mono hk hk' hold

theorem good_step (e : Listing) (he : Paged e) (w : CrawlWorld) (k t : Nat) (ok : Bool) (hg : Good e w k) :
    ∃ k', k ≤ k' ∧ Good e (w.step e t ok) k' := by
  have hf := hg.fine t
  have hl := he.1
  have stay : ∀ p, Fine e k w.parsed (w.asked t) p → Good e (w.goto t p) k := fun p hp =>
    hg.next (Nat.le_refl _) hg.le hg.known hg.last hg.parsed id hg.swapped rfl (fun _ _ => rfl) hp
  unfold CrawlWorld.step
  generalize hpc : w.pc t = pc at hf
  cases pc with
  | look u =>
    refine ⟨k, Nat.le_refl _, ?_⟩
    simp only
    split
    · rename_i hq
      exact stay _ (by cases u <;> simp only [Fine] at hf ⊢ <;> simp_all)
    · exact stay _ (by cases u <;> simp only [Fine] at hf ⊢ <;> simp_all)
  | isProxy u =>
    refine ⟨k, Nat.le_refl _, ?_⟩
    simp only
    split
    · exact stay _ (by cases u <;> simp only [Fine] at hf ⊢ <;> simp_all)
    · exact stay _ (by cases u <;> simp only [Fine] at hf ⊢ <;> simp_all)
  | readProxied u =>
    refine ⟨k, Nat.le_refl _, ?_⟩
    simp only
    split
    · exact stay _ (by cases u <;> simp only [Fine] at hf ⊢ <;> omega)
    · exact stay _ (by cases u <;> simp only [Fine] at hf ⊢ <;> simp_all)
  | swap u =>
    refine ⟨k, Nat.le_refl _, ?_⟩
    have hq : w.parsed = true := by cases u <;> simp only [Fine] at hf <;> simp_all
    exact hg.next (Nat.le_refl _) hg.le hg.known hg.last hg.parsed id (fun _ => hq) rfl (fun _ _ => rfl)
      (by cases u <;> simp only [Fine] at hf ⊢ <;> simp_all [CrawlWorld.goto])
  | ret u =>
    refine ⟨k, Nat.le_refl _, ?_⟩
    cases u with
    | list =>
      simp only
      split
      · rename_i hs
        exact stay _ ⟨hg.parsed (hg.swapped hs), by simp only [Fine] at hf; omega, hg.swapped hs⟩
      · exact stay _ (by simp only [Fine] at hf ⊢; exact hf)
    | update p => exact stay _ (by simp only [Fine] at hf ⊢; exact hf)
  | begin =>
    refine ⟨k, Nat.le_refl _, stay _ ?_⟩
    simp only [Fine] at hf ⊢
    have hle := hg.le
    cases hlp : w.lastParsed with
    | none => simp only [Option.getD_none]; omega
    | some p => have := hg.last p hlp; simp only [Option.getD_some]; omega
  | ask p =>
    refine ⟨k, Nat.le_refl _, ?_⟩
    simp only [Fine] at hf
    simp only
    split
    · refine hg.next (t := t) (Nat.le_refl _) hg.le hg.known hg.last hg.parsed id hg.swapped rfl (fun i hi => by simp [CrawlWorld.goto, hi]) ?_
      simp only [Fine, CrawlWorld.goto, if_true]; omega
    · refine hg.next (t := t) (Nat.le_refl _) hg.le hg.known hg.last hg.parsed id hg.swapped rfl (fun i hi => by simp [CrawlWorld.goto, hi]) ?_
      simp only [Fine, CrawlWorld.goto, if_true]; omega
  | flag p =>
    refine ⟨k, Nat.le_refl _, ?_⟩
    simp only [Fine] at hf
    simp only [he.2 p hf.1 hf.2.2.1, Bool.not_true, Bool.and_false, Bool.false_eq_true, if_false]
    exact stay _ (by simp only [Fine]; exact hf)
  | put p =>
    simp only [Fine] at hf
    by_cases hpk : p ≤ k
    · refine ⟨k, Nat.le_refl _, hg.next (t := t) (p := .mark p) (Nat.le_refl _) hg.le ?_ hg.last hg.parsed id hg.swapped rfl (fun _ _ => rfl) ?_⟩
      · show addKeys w.known _ = _
        rw [hg.known]
        exact addKeys_known _ _ fun x hx => (mem_membersUpTo e k x).2 ⟨p, hf.1, hpk, hx⟩
      · simp only [Fine, CrawlWorld.goto]; omega
    · have hp : p = k + 1 := by omega
      subst hp
      refine ⟨k + 1, by omega, hg.next (t := t) (p := .mark (k + 1)) (by omega) hf.2.2.1 ?_ ?_ ?_ id hg.swapped rfl (fun _ _ => rfl) ?_⟩
      · show addKeys w.known _ = _
        rw [hg.known, membersUpTo_succ]
      · intro p hp
        have := hg.last p hp
        omega
      · intro hq
        have := hg.parsed hq
        omega
      · simp only [Fine, CrawlWorld.goto]; omega
  | mark p =>
    refine ⟨k, Nat.le_refl _, ?_⟩
    simp only [Fine] at hf
    have hle := hg.le
    have hlast : ∀ p', some p = some p' → 1 ≤ p' ∧ p' ≤ k := by
      intro p' h
      cases h
      omega
    simp only
    split
    · refine hg.next (t := t) (Nat.le_refl _) hg.le hg.known hlast hg.parsed id hg.swapped rfl (fun _ _ => rfl) ?_
      simp only [Fine, CrawlWorld.goto]; omega
    · refine hg.next (t := t) (Nat.le_refl _) hg.le hg.known hlast hg.parsed id hg.swapped rfl (fun _ _ => rfl) ?_
      simp only [Fine, CrawlWorld.goto]; omega
  | finish =>
    refine ⟨k, Nat.le_refl _, ?_⟩
    simp only [Fine] at hf
    refine hg.next (t := t) (Nat.le_refl _) hg.le hg.known hg.last (fun _ => hf.1) (fun _ => rfl) (fun _ => rfl) rfl (fun _ _ => rfl) ?_
    exact ⟨hf.1, hf.2, rfl⟩
  | take =>
    refine ⟨k, Nat.le_refl _, stay _ ?_⟩
    simp only [Fine] at hf ⊢
    refine ⟨?_, hf.2⟩
    rw [hg.known, hf.1]
    rfl
  | done l => exact ⟨k, Nat.le_refl _, hg⟩
  | failed x => exact ⟨k, Nat.le_refl _, hg⟩

theorem good_run (e : Listing) (he : Paged e) (s : List (Nat × Bool)) (w : CrawlWorld) (k : Nat) (hg : Good e w k) :
    ∃ k', k ≤ k' ∧ Good e (w.run e s) k' := by
  induction s generalizing w k with
  | nil => exact ⟨k, Nat.le_refl _, hg⟩
  | cons x r ih =>
    obtain ⟨k1, h1, g1⟩ := good_step e he w k x.1 x.2 hg
    obtain ⟨k2, h2, g2⟩ := ih _ _ g1
    exact ⟨k2, Nat.le_trans h1 h2, g2⟩

theorem good_new (e : Listing) : Good e metCollection 0 :=
  ⟨Nat.zero_le _, rfl, by simp [metCollection], by simp [metCollection], by simp [metCollection], fun _ => rfl⟩

/-- How many steps a thread may still make. -/
def left (e : Listing) : CrawlPc → Nat
  | .done _ | .failed _ => 0
  | .take => 1
  | .finish => 2
  | .mark p => 9 * (e.last - p) + 3
  | .put p => 9 * (e.last - p) + 4
  | .flag p => 9 * (e.last - p) + 5
  | .ret (.update p) => 9 * (e.last - p) + 6
  | .swap (.update p) => 9 * (e.last - p) + 7
  | .readProxied (.update p) => 9 * (e.last - p) + 8
  | .isProxy (.update p) => 9 * (e.last - p) + 9
  | .look (.update p) => 9 * (e.last - p) + 10
  | .ask p => 9 * (e.last - p) + 11
  | .begin => 9 * (e.last - 1) + 12
  | .ret .list => 9 * (e.last - 1) + 13
  | .swap .list => 9 * (e.last - 1) + 14
  | .readProxied .list => 9 * (e.last - 1) + 15
  | .isProxy .list => 9 * (e.last - 1) + 16
  | .look .list => 9 * (e.last - 1) + 17

theorem step_others (e : Listing) (w : CrawlWorld) (t i : Nat) (ok : Bool) (h : i ≠ t) :
    (w.step e t ok).pc i = w.pc i ∧ (w.step e t ok).asked i = w.asked i := by
  unfold CrawlWorld.step
  split <;> (try split) <;> simp [CrawlWorld.goto, h]

theorem left_step (e : Listing) (he : Paged e) (w : CrawlWorld) (k t : Nat) (ok : Bool) (hg : Good e w k) :
    left e ((w.step e t ok).pc t) ≤ left e (w.pc t) - 1 := by
  have hf := hg.fine t
  have hl := he.1
  unfold CrawlWorld.step
  generalize hpc : w.pc t = pc at hf
  cases pc with
  | look u => cases u <;> simp only <;> split <;> simp only [CrawlWorld.goto, if_true, left] <;> omega
  | isProxy u => cases u <;> simp only <;> split <;> simp only [CrawlWorld.goto, if_true, left] <;> omega
  | readProxied u => cases u <;> simp only <;> split <;> simp only [CrawlWorld.goto, if_true, left] <;> omega
  | swap u => cases u <;> simp only [CrawlWorld.goto, if_true, left] <;> omega
  | ret u =>
    cases u with
    | list => simp only; split <;> simp only [CrawlWorld.goto, if_true, left] <;> omega
    | update p => simp only [CrawlWorld.goto, if_true, left]; omega
  | begin =>
    simp only [CrawlWorld.goto, if_true, left]
    cases hlp : w.lastParsed with
    | none => simp only [Option.getD_none]; omega
    | some p => have := hg.last p hlp; simp only [Option.getD_some]; omega
  | ask p => simp only; split <;> simp only [CrawlWorld.goto, if_true, left] <;> omega
  | flag p => simp only; split <;> simp only [CrawlWorld.goto, if_true, left] <;> omega
  | put p => simp only [CrawlWorld.goto, if_true, left]; omega
  | mark p => simp only; split <;> simp only [CrawlWorld.goto, if_true, left] <;> omega
  | finish => simp only [CrawlWorld.goto, if_true, left]; omega
  | take => simp only [CrawlWorld.goto, if_true, left]; omega
  | done l => simp only; rw [hpc]; simp [left]
  | failed x => simp only; rw [hpc]; simp [left]

theorem left_run (e : Listing) (he : Paged e) (s : List (Nat × Bool)) (w : CrawlWorld) (k t : Nat) (hg : Good e w k) :
    left e ((w.run e s).pc t) ≤ left e (w.pc t) - stepsOf t s := by
  induction s generalizing w k with
  | nil => simp [CrawlWorld.run, stepsOf]
  | cons x r ih =>
    obtain ⟨i, ok⟩ := x
    obtain ⟨k1, h1, g1⟩ := good_step e he w k i ok hg
    have := ih _ _ g1
    rw [CrawlWorld.run]
    by_cases h : i = t
    · subst h
      have h2 := left_step e he w k i ok hg
      have h3 : stepsOf i ((i, ok) :: r) = stepsOf i r + 1 := by simp [stepsOf]
      omega
    · have h2 := (step_others e w i t ok (Ne.symm h)).1
      have h3 : stepsOf t ((i, ok) :: r) = stepsOf t r := by simp [stepsOf, h]
      rw [h2] at this
      omega

theorem http_step (e : Listing) (w : CrawlWorld) (t i : Nat) (ok : Bool) (h : (w.step e i ok).pc t = .failed .http) :
    w.pc t = .failed .http ∨ (i = t ∧ ok = false) := by
  by_cases hi : t = i
  · subst hi
    cases ok with
    | false => exact .inr ⟨rfl, rfl⟩
    | true =>
      left
      unfold CrawlWorld.step at h
      split at h <;> (try split at h) <;> simp_all [CrawlWorld.goto]
  · rw [(step_others e w i t ok hi).1] at h
    exact .inl h

theorem http_run (e : Listing) (s : List (Nat × Bool)) (w : CrawlWorld) (t : Nat) (h0 : w.pc t ≠ .failed .http) (h : (w.run e s).pc t = .failed .http) :
    (t, false) ∈ s := by
  induction s generalizing w with
  | nil => exact absurd h h0
  | cons x r ih =>
    obtain ⟨i, ok⟩ := x
    by_cases hn : (w.step e i ok).pc t = .failed .http
    · rcases http_step e w t i ok hn with h1 | ⟨rfl, rfl⟩
      · exact absurd h1 h0
      · simp
    · exact List.mem_cons_of_mem _ (ih _ hn h)

theorem py_step (e : Listing) (w : CrawlWorld) (t i : Nat) (ok : Bool) (x : PyErr) (h : (w.step e i ok).pc t = .failed (.py x)) :
    w.pc t = .failed (.py x) ∨ x = .attributeError ∧ i = t ∧ w.swapped = true ∧ ∃ u, w.pc t = .readProxied u := by
  by_cases hi : t = i
  · subst hi
    unfold CrawlWorld.step at h
    split at h <;> (try split at h) <;> simp_all [CrawlWorld.goto]
  · rw [(step_others e w i t ok hi).1] at h
    exact .inl h

end Verif.Lemmas
