import Verif.Spec.CitationCopies
/-!
The invariant of `deepcopy` on citations.
-/
namespace Verif.Lemmas
open Verif.Py Verif.Model Verif.Spec

/-- `n'` is `n` with children and root taken from the memo. -/
def CitTaken (memo : List (Nat × Nat)) (n n' : CitObj) : Prop :=
  n'.name = n.name ∧ n'.refsDecl = n.refsDecl ∧ n.children.map (fun c => memo.lookup c) = n'.children.map some ∧
    (n.root = none ∧ n'.root = none ∨ ∃ r r', n.root = some r ∧ n'.root = some r' ∧ memo.lookup r = some r')

/-- The memo names old and new objects, and the old ones are as they were. -/
structure CopierOk (old : CitObjs) (s : Copier) : Prop where
  le : old.length ≤ s.heap.length
  same : ∀ i, i < old.length → s.heap[i]? = old[i]?
  rng : ∀ x y, s.memo.lookup x = some y → x < old.length ∧ old.length ≤ y ∧ y < s.heap.length
  inj : ∀ x x' y, s.memo.lookup x = some y → s.memo.lookup x' = some y → x = x'

/-- The copy of `z` is complete. -/
def CitDone (old : CitObjs) (s : Copier) (z : Nat) : Prop :=
  ∃ y n n', s.memo.lookup z = some y ∧ old[z]? = some n ∧ s.heap[y]? = some n' ∧ CitTaken s.memo n n'

/-- What a call may do: note more objects, each of them complete in the end, and leave what was there. -/
structure CopierStep (old : CitObjs) (s s' : Copier) : Prop where
  len : s.heap.length ≤ s'.heap.length
  keep : ∀ i, i < s.heap.length → s'.heap[i]? = s.heap[i]?
  memo : ∀ x y, s.memo.lookup x = some y → s'.memo.lookup x = some y
  done : ∀ z y, s'.memo.lookup z = some y → s.memo.lookup z = some y ∨ CitDone old s' z

theorem citTaken_mono {m m' : List (Nat × Nat)} (h : ∀ x y, m.lookup x = some y → m'.lookup x = some y) {n n' : CitObj} (ht : CitTaken m n n') :
    CitTaken m' n n' := by
  obtain ⟨h1, h2, h3, h4⟩ := ht
  refine ⟨h1, h2, ?_, ?_⟩
  · generalize n.children = l at h3
    generalize n'.children = l' at h3
    induction l generalizing l' with
    | nil => cases l' <;> simp_all
    | cons a r ih =>
      cases l' with
      | nil => simp at h3
      | cons b r' =>
        simp only [List.map_cons, List.cons.injEq] at h3 ⊢
        exact ⟨h _ _ h3.1, ih _ h3.2⟩
  · rcases h4 with h4 | ⟨r, r', a, b, c⟩
    · exact .inl h4
    · exact .inr ⟨r, r', a, b, h _ _ c⟩

theorem copierStep_refl (old : CitObjs) (s : Copier) : CopierStep old s s :=
  ⟨Nat.le_refl _, fun _ _ => rfl, fun _ _ h => h, fun _ _ h => .inl h⟩

theorem copierStep_trans {old : CitObjs} {a b c : Copier} (hb : CopierOk old b) (h1 : CopierStep old a b) (h2 : CopierStep old b c) :
    CopierStep old a c := by
  refine ⟨Nat.le_trans h1.len h2.len, fun i hi => (h2.keep i (Nat.lt_of_lt_of_le hi h1.len)).trans (h1.keep i hi),
    fun x y h => h2.memo x y (h1.memo x y h), fun z y h => ?_⟩
  rcases h2.done z y h with h3 | h3
  · rcases h1.done z y h3 with h4 | ⟨y', n, n', a1, a2, a3, a4⟩
    · exact .inl h4
    · exact .inr ⟨y', n, n', h2.memo _ _ a1, a2, (h2.keep y' (hb.rng _ _ a1).2.2).trans a3, citTaken_mono h2.memo a4⟩
  · exact .inr h3

/-- What is to be shown of a call. -/
def CopierGood (old : CitObjs) (one : Copier → Nat → Option (Copier × Nat)) : Prop :=
  ∀ s x s' y, CopierOk old s → one s x = some (s', y) → x < old.length → CopierOk old s' ∧ CopierStep old s s' ∧ s'.memo.lookup x = some y

theorem deepAll_good {old : CitObjs} {one : Copier → Nat → Option (Copier × Nat)} (hone : CopierGood old one) :
    ∀ (l : List Nat) (s s' : Copier) (l' : List Nat), CopierOk old s → deepAll one s l = some (s', l') → (∀ c ∈ l, c < old.length) →
      CopierOk old s' ∧ CopierStep old s s' ∧ l.map (fun c => s'.memo.lookup c) = l'.map some := by
  intro l
  induction l with
  | nil =>
    intro s s' l' hs h _
    simp only [deepAll, Option.some.injEq, Prod.mk.injEq] at h
    obtain ⟨rfl, rfl⟩ := h
    exact ⟨hs, copierStep_refl _ _, rfl⟩
  | cons c r ih =>
    intro s s' l' hs h hl
    simp only [deepAll] at h
    cases h1 : one s c with
    | none => rw [h1] at h; simp at h
    | some p =>
      obtain ⟨s1, c'⟩ := p
      rw [h1] at h
      simp only at h
      cases h2 : deepAll one s1 r with
      | none => rw [h2] at h; simp at h
      | some q =>
        obtain ⟨s2, r'⟩ := q
        rw [h2] at h
        simp only [Option.some.injEq, Prod.mk.injEq] at h
        obtain ⟨rfl, rfl⟩ := h
        obtain ⟨a1, a2, a3⟩ := hone s c s1 c' hs h1 (hl c (by simp))
        obtain ⟨b1, b2, b3⟩ := ih s1 s2 r' a1 h2 (fun d hd => hl d (by simp [hd]))
        exact ⟨b1, copierStep_trans a1 a2 b2, by simp only [List.map_cons, b2.memo _ _ a3, b3]⟩

theorem deepRoot_good {old : CitObjs} {one : Copier → Nat → Option (Copier × Nat)} (hone : CopierGood old one) (o : Option Nat) (s s' : Copier)
    (o' : Option Nat) (hs : CopierOk old s) (h : deepRoot one s o = some (s', o')) (ho : ∀ r, o = some r → r < old.length) :
    CopierOk old s' ∧ CopierStep old s s' ∧ (o = none ∧ o' = none ∨ ∃ r r', o = some r ∧ o' = some r' ∧ s'.memo.lookup r = some r') := by
  cases o with
  | none =>
    simp only [deepRoot, Option.some.injEq, Prod.mk.injEq] at h
    obtain ⟨rfl, rfl⟩ := h
    exact ⟨hs, copierStep_refl _ _, .inl ⟨rfl, rfl⟩⟩
  | some r =>
    simp only [deepRoot] at h
    cases h1 : one s r with
    | none => rw [h1] at h; simp at h
    | some p =>
      obtain ⟨s1, r'⟩ := p
      rw [h1] at h
      simp only [Option.some.injEq, Prod.mk.injEq] at h
      obtain ⟨rfl, rfl⟩ := h
      obtain ⟨a1, a2, a3⟩ := hone s r s1 r' hs h1 (ho r rfl)
      exact ⟨a1, a2, .inr ⟨r, r', rfl, rfl, a3⟩⟩

theorem lookup_new (m : List (Nat × Nat)) (x y z : Nat) : List.lookup z ((x, y) :: m) = if z = x then some y else m.lookup z := by
  by_cases h : z = x
  · subst h; simp [List.lookup]
  · have : (z == x) = false := by simpa using h
    simp [List.lookup, this, h]

theorem copierOk_note {old : CitObjs} {s : Copier} (hs : CopierOk old s) (x : Nat) (hx : x < old.length) :
    CopierOk old ⟨s.heap ++ [blankCit], (x, s.heap.length) :: s.memo⟩ := by
  refine ⟨by simp; have := hs.le; omega, fun i hi => ?_, fun a b h => ?_, fun a b c h h' => ?_⟩
  · rw [List.getElem?_append_left (Nat.lt_of_lt_of_le hi hs.le)]; exact hs.same i hi
  · simp only [lookup_new] at h
    split at h
    · next e =>
      simp only [Option.some.injEq] at h
      subst h; subst e
      exact ⟨hx, hs.le, by simp⟩
    · obtain ⟨a1, a2, a3⟩ := hs.rng _ _ h
      exact ⟨a1, a2, by simp; omega⟩
  · simp only [lookup_new] at h h'
    split at h <;> split at h'
    · next e e' => exact e.trans e'.symm
    · simp only [Option.some.injEq] at h
      subst h
      exact absurd (hs.rng _ _ h').2.2 (Nat.lt_irrefl _)
    · simp only [Option.some.injEq] at h'
      subst h'
      exact absurd (hs.rng _ _ h).2.2 (Nat.lt_irrefl _)
    · exact hs.inj _ _ _ h h'

theorem deepCit_good {old : CitObjs} (hold : CitClosed old) : ∀ f, CopierGood old (deepCit f) := by
  intro f
  induction f with
  | zero => intro s x s' y _ h; simp [deepCit] at h
  | succ f ih =>
    intro s x s' y hs h hx
    simp only [deepCit] at h
    cases hm : s.memo.lookup x with
    | some z =>
      rw [hm] at h
      simp only [Option.some.injEq, Prod.mk.injEq] at h
      obtain ⟨rfl, rfl⟩ := h
      exact ⟨hs, copierStep_refl _ _, hm⟩
    | none =>
      rw [hm] at h
      have hn : s.heap[x]? = some old[x] := by rw [hs.same x hx, List.getElem?_eq_getElem hx]
      rw [hn] at h
      simp only at h
      obtain ⟨hc, hr⟩ := hold old[x] (List.getElem_mem hx)
      generalize hN : old[x] = n at *
      have ok1 := copierOk_note hs x hx
      generalize hs1 : (⟨s.heap ++ [blankCit], (x, s.heap.length) :: s.memo⟩ : Copier) = s1 at *
      cases h2 : deepAll (deepCit f) s1 n.children with
      | none => rw [h2] at h; simp at h
      | some p =>
        obtain ⟨s2, cs⟩ := p
        rw [h2] at h
        simp only at h
        obtain ⟨ok2, st2, m2⟩ := deepAll_good ih _ _ _ _ ok1 h2 hc
        cases h3 : deepRoot (deepCit f) s2 n.root with
        | none => rw [h3] at h; simp at h
        | some q =>
          obtain ⟨s3, r⟩ := q
          rw [h3] at h
          simp only [Option.some.injEq, Prod.mk.injEq] at h
          obtain ⟨rfl, rfl⟩ := h
          obtain ⟨ok3, st3, m3⟩ := deepRoot_good ih _ _ _ _ ok2 h3 hr
          have st := copierStep_trans ok2 st2 st3
          have hmx1 : s1.memo.lookup x = some s.heap.length := by subst hs1; simp [lookup_new]
          have hlen1 : s1.heap.length = s.heap.length + 1 := by subst hs1; simp
          have hmx := st.memo _ _ hmx1
          have hlt := (ok3.rng _ _ hmx).2.2
          have hcs : n.children.map (fun c => s3.memo.lookup c) = cs.map some := (citTaken_mono (n := ⟨none, none, n.children, none⟩)
            (n' := ⟨none, none, cs, none⟩) st3.memo ⟨rfl, rfl, m2, .inl ⟨rfl, rfl⟩⟩).2.2.1
          refine ⟨⟨by simpa using ok3.le, fun i hi => ?_, fun a b hab => ?_, ok3.inj⟩, ⟨?_, fun i hi => ?_, fun a b hab => ?_, fun z w hz => ?_⟩, hmx⟩
          · have := hs.le
            simp only [List.getElem?_set_ne (show s.heap.length ≠ i by omega)]
            exact ok3.same i hi
          · simpa using ok3.rng a b hab
          · simp only [List.length_set]; omega
          · simp only [List.getElem?_set_ne (show s.heap.length ≠ i by omega)]
            rw [st.keep i (by omega)]
            subst hs1
            exact List.getElem?_append_left hi
          · refine st.memo a b ?_
            subst hs1
            simp only [lookup_new]
            split
            · next e => subst e; rw [hm] at hab; simp at hab
            · exact hab
          · by_cases hzx : z = x
            · subst hzx
              refine .inr ⟨s.heap.length, n, { n with children := cs, root := r }, hmx, ?_, ?_, rfl, rfl, hcs, m3⟩
              · rw [List.getElem?_eq_getElem hx, hN]
              · exact List.getElem?_set_self hlt
            · rcases st.done z w hz with h4 | ⟨y', k, k', a1, a2, a3, a4⟩
              · subst hs1
                simp only [lookup_new, hzx, if_false] at h4
                exact .inl h4
              · refine .inr ⟨y', k, k', a1, a2, ?_, a4⟩
                have hne : s.heap.length ≠ y' := fun e => hzx (ok3.inj _ _ _ a1 (e ▸ hmx))
                simp only [List.getElem?_set_ne hne]
                exact a3

end Verif.Lemmas
