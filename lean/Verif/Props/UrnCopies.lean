import Verif.Spec.UrnCopies
/-!
Property C117: copies of URNs.
-/
namespace Verif.Props
open Verif.Py Verif.Model Verif.Spec

private theorem step_view_on (w : UrnStore) (i : Nat) (op : UrnOp) (hi : i < w.num) : (w.step (.on i op)).view i = (w.view i).step op := by
  simp only [UrnStore.step, hi, if_true]
  simp [UrnStore.view, upd, UrnParts.urn, Urn.parts]

private theorem own_step_view (w : UrnStore) (op : UrnCopyOp) (hw : EachItsOwn w) (hop : ∀ i, op ≠ .copy i) :
    EachItsOwn (w.step op) ∧ w.num ≤ (w.step op).num ∧ ∀ i, i < w.num → (w.step op).view i = (w.view i).run (doneTo i [op]) := by
  cases op with
  | copy i => exact absurd rfl (hop i)
  | on j op =>
    by_cases hj : j < w.num
    · refine ⟨?_, ?_, fun i hi => ?_⟩
      · simp only [UrnStore.step, hj, if_true]; exact hw
      · simp [UrnStore.step, hj]
      · by_cases hij : j = i
        · subst hij
          rw [step_view_on w j op hj]
          simp [doneTo, Urn.run]
        · have hne : w.dict i ≠ w.dict j := fun e => hij (hw.2 i j hi hj e).symm
          simp only [UrnStore.step, hj, if_true, doneTo, hij, if_false, Urn.run, List.foldl_nil]
          simp [UrnStore.view, upd, hne, Ne.symm hij]
    · have : w.step (.on j op) = w := by simp [UrnStore.step, hj]
      rw [this]
      refine ⟨hw, Nat.le_refl _, fun i hi => ?_⟩
      have hij : j ≠ i := fun e => hj (e ▸ hi)
      simp [doneTo, hij, Urn.run]
  | deep j =>
    by_cases hj : j < w.num
    · simp only [UrnStore.step, hj, if_true]
      refine ⟨⟨fun i hi => ?_, fun a b ha hb hab => ?_⟩, Nat.le_succ _, fun i hi => ?_⟩
      · simp only [upd]
        split
        · exact Nat.lt_succ_self _
        · next h => exact Nat.lt_succ_of_lt (hw.1 i (by simp only at hi; omega))
      · simp only [upd] at hab
        simp only at ha hb
        split at hab <;> split at hab
        · next e e' => exact e.trans e'.symm
        · next e e' => exact absurd (hw.1 b (by omega)) (by omega)
        · next e e' => exact absurd (hw.1 a (by omega)) (by omega)
        · exact hw.2 a b (by omega) (by omega) hab
      · have h1 : i ≠ w.num := by omega
        have h2 : w.dict i ≠ w.used := Nat.ne_of_lt (hw.1 i hi)
        simp [UrnStore.view, upd, h1, h2, doneTo, Urn.run]
    · have : w.step (.deep j) = w := by simp [UrnStore.step, hj]
      rw [this]
      exact ⟨hw, Nat.le_refl _, fun i _ => by simp [doneTo, Urn.run]⟩

private theorem doneTo_cons (i : Nat) (op : UrnCopyOp) (r : List UrnCopyOp) : doneTo i (op :: r) = doneTo i [op] ++ doneTo i r := by
  cases op <;> simp [doneTo]
  split <;> simp

/-- C117. In a program that copies URNs deeply only, each URN is at any time as if it were the only one: what it was, with what was done to it since,
and nothing that was done to the others. -/
theorem C117_apart (w : UrnStore) (ops : List UrnCopyOp) (hw : EachItsOwn w) (hp : NoPlain ops) :
    EachItsOwn (w.run ops) ∧ ∀ i, i < w.num → (w.run ops).view i = (w.view i).run (doneTo i ops) := by
  suffices H : EachItsOwn (w.run ops) ∧ w.num ≤ (w.run ops).num ∧ ∀ i, i < w.num → (w.run ops).view i = (w.view i).run (doneTo i ops) from ⟨H.1, H.2.2⟩
  induction ops generalizing w with
  | nil => exact ⟨hw, Nat.le_refl _, fun _ _ => rfl⟩
  | cons op r ih =>
    obtain ⟨h1, h2, h3⟩ := own_step_view w op hw (fun i e => hp i (by simp [e]))
    obtain ⟨h4, h5, h6⟩ := ih (w.step op) h1 (fun i hi => hp i (by simp [hi]))
    refine ⟨h4, Nat.le_trans h2 h5, fun i hi => ?_⟩
    have := h6 i (Nat.lt_of_lt_of_le hi h2)
    rw [doneTo_cons]
    simp only [UrnStore.run, List.foldl_cons] at this ⊢
    rw [this, h3 i hi]
    simp only [Urn.run, List.foldl_append]

/-- C117. A program that begins with one URN begins so. -/
theorem C117_begins (u : Urn) : EachItsOwn (UrnStore.one u) ∧ (UrnStore.one u).view 0 = u := by
  refine ⟨⟨fun i hi => Nat.zero_lt_one, fun i j hi hj _ => ?_⟩, rfl⟩
  simp only [UrnStore.one] at hi hj
  omega

/-- C117. A copy, deep or plain, is a new URN that says what the original says, and making it changes none. -/
theorem C117_copy (w : UrnStore) (i : Nat) (hw : EachItsOwn w) (hi : i < w.num) :
    (w.step (.deep i)).num = w.num + 1 ∧ (w.step (.deep i)).view w.num = w.view i ∧ (∀ j, j < w.num → (w.step (.deep i)).view j = w.view j) ∧
    (w.step (.copy i)).num = w.num + 1 ∧ (w.step (.copy i)).view w.num = w.view i ∧ (∀ j, j < w.num → (w.step (.copy i)).view j = w.view j) := by
  simp only [UrnStore.step, hi, if_true, true_and]
  refine ⟨by simp [UrnStore.view, upd], fun j hj => ?_, by simp [UrnStore.view, upd], fun j hj => ?_⟩
  · have h1 : j ≠ w.num := by omega
    have h2 : w.dict j ≠ w.used := Nat.ne_of_lt (hw.1 j hj)
    simp [UrnStore.view, upd, h1, h2]
  · have h1 : j ≠ w.num := by omega
    simp [UrnStore.view, upd, h1]

/-- Reading the text keeps the components and the text. -/
private theorem read_keeps (u : Urn) : (u.step .readStr).parts = u.parts ∧ urnText (u.step .readStr) = urnText u := by
  simp only [Urn.step, Urn.str]
  cases hc : u.cache with
  | some t => simp [urnText, Urn.str, hc]
  | none =>
    cases hr : u.rebuild with
    | error e => simp [bind, Except.bind, urnText, Urn.str, hc, hr]
    | ok s => simp [bind, Except.bind, pure, Except.pure, Urn.parts, urnText, Urn.str, hc, hr, Functor.map, Except.map]

/-- C117. As long as nothing is assigned, plain copies do no harm: every URN keeps its components and its text. -/
theorem C117_reads (w : UrnStore) (ops : List UrnCopyOp) (hw : ∀ i, i < w.num → w.dict i < w.used) (hp : OnlyReads ops) (i : Nat) (hi : i < w.num) :
    ((w.run ops).view i).parts = (w.view i).parts ∧ urnText ((w.run ops).view i) = urnText (w.view i) := by
  induction ops generalizing w with
  | nil => exact ⟨rfl, rfl⟩
  | cons op r ih =>
    have key : (∀ j, j < (w.step op).num → (w.step op).dict j < (w.step op).used) ∧ i < (w.step op).num ∧
        ((w.step op).view i).parts = (w.view i).parts ∧ urnText ((w.step op).view i) = urnText (w.view i) := by
      cases op with
      | on j o =>
        have ho := hp j o (by simp)
        subst ho
        by_cases hj : j < w.num
        · refine ⟨by simp only [UrnStore.step, hj, if_true]; exact hw, by simpa only [UrnStore.step, hj, if_true] using hi, ?_⟩
          by_cases hij : j = i
          · subst hij
            rw [step_view_on w j _ hj]
            exact read_keeps _
          · have h1 := (read_keeps (w.view j)).1
            have h2 : (w.view j).parts = w.parts (w.dict j) := rfl
            have : (w.step (.on j .readStr)).view i = w.view i := by
              simp only [UrnStore.step, hj, if_true, UrnStore.view, upd, Ne.symm hij, if_false]
              split
              · next e => rw [e, show ((w.parts (w.dict j)).urn (w.cache j)) = w.view j from rfl, h1, h2]
              · rfl
            rw [this]
            exact ⟨rfl, rfl⟩
        · have : w.step (.on j .readStr) = w := by simp [UrnStore.step, hj]
          rw [this]
          exact ⟨hw, hi, rfl, rfl⟩
      | copy j =>
        by_cases hj : j < w.num
        · have h1 : i ≠ w.num := by omega
          simp only [UrnStore.step, hj, if_true]
          refine ⟨fun k hk => ?_, by omega, by simp [UrnStore.view, upd, h1], by simp [UrnStore.view, upd, h1]⟩
          simp only [upd]
          split
          · exact hw j hj
          · exact hw k (by omega)
        · have : w.step (.copy j) = w := by simp [UrnStore.step, hj]
          rw [this]
          exact ⟨hw, hi, rfl, rfl⟩
      | deep j =>
        by_cases hj : j < w.num
        · have h1 : i ≠ w.num := by omega
          have h2 : w.dict i ≠ w.used := Nat.ne_of_lt (hw i hi)
          simp only [UrnStore.step, hj, if_true]
          refine ⟨fun k hk => ?_, by omega, by simp [UrnStore.view, upd, h1, h2], by simp [UrnStore.view, upd, h1, h2]⟩
          simp only [upd]
          split
          · exact Nat.lt_succ_self _
          · exact Nat.lt_succ_of_lt (hw k (by omega))
        · have : w.step (.deep j) = w := by simp [UrnStore.step, hj]
          rw [this]
          exact ⟨hw, hi, rfl, rfl⟩
    obtain ⟨k1, k2, k3, k4⟩ := key
    obtain ⟨h1, h2⟩ := ih (w.step op) k1 (fun a b hab => hp a b (by simp [hab])) k2
    exact ⟨h1.trans k3, h2.trans k4⟩

/-- C117 (departure): an assignment to a plain copy changes the components of the original as well, while the text of the original stays what it was. -/
theorem C117_fails_plain (w : UrnStore) (i : Nat) (hi : i < w.num) (op : UrnOp) (t : Str) (ht : (w.view i).cache = some t) :
    let w' := w.run [.copy i, .on w.num op]
    (w'.view i).parts = ((w.view i).step op).parts ∧ urnText (w'.view i) = .ok t := by
  have h1 : i ≠ w.num := by omega
  have h2 : w.cache i = some t := ht
  simp only [UrnStore.run, List.foldl_cons, List.foldl_nil, UrnStore.step, hi, if_true, Nat.lt_succ_self]
  simp only [UrnStore.view, upd, h1, if_false, if_true, h2, UrnParts.urn, Urn.parts, urnText, Urn.str]
  exact ⟨trivial, rfl⟩

/-! ### Instances -/

private def homer : Urn := ⟨some "urn:cts:g:a.b".toList, some "cts".toList, some "g".toList, some "a".toList, some "b".toList, none, none⟩

example : Urn.parse "urn:cts:g:a.b".toList = .ok homer := by decide +kernel

/-- A deep copy and its original go their own ways; the original of a plain copy has another work and its old text. -/
example : let w := (UrnStore.one homer).run [.deep 0, .on 1 (.setWk (some ['c'])), .copy 0, .on 2 (.setWk (some ['d']))]
    (w.view 0).wk = some ['d'] ∧ urnText (w.view 0) = .ok "urn:cts:g:a.b".toList ∧ urnText (w.view 1) = .ok "urn:cts:g:a.c".toList ∧
      urnText (w.view 2) = .ok "urn:cts:g:a.d".toList := ⟨rfl, rfl, rfl, rfl⟩

example : NoPlain [.deep 0, .on 1 (.setWk none)] ∧ OnlyReads [.copy 0, .on 1 .readStr] ∧
    doneTo 1 [.deep 0, .on 1 (.setWk none), .on 0 .readStr] = [.setWk none] := by
  refine ⟨by simp [NoPlain], by simp [OnlyReads], by decide⟩

end Verif.Props
