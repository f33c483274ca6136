import Verif.Lemmas.CitationCopies
import Mathlib.Data.List.Perm.Subperm
/-!
Property C116: copies of citation schemes.
-/
namespace Verif.Props
open Verif.Py Verif.Model Verif.Spec Verif.Lemmas

private theorem deep_end {f : Nat} {h h' : CitObjs} {x y : Nat} (hc : CitClosed h) (hx : x < h.length) (hd : deepCopyCit f h x = some (h', y)) :
    ∃ m, CopierOk h ⟨h', m⟩ ∧ CopierStep h ⟨h, []⟩ ⟨h', m⟩ ∧ m.lookup x = some y := by
  unfold deepCopyCit at hd
  have h0 : CopierOk h ⟨h, []⟩ := ⟨Nat.le_refl _, fun _ _ => rfl, by simp, by simp⟩
  cases hk : deepCit f ⟨h, []⟩ x with
  | none => rw [hk] at hd; simp at hd
  | some p =>
    obtain ⟨s, z⟩ := p
    rw [hk] at hd
    simp only [Option.some.injEq, Prod.mk.injEq] at hd
    obtain ⟨rfl, rfl⟩ := hd
    obtain ⟨a, b, c⟩ := deepCit_good hc f _ _ _ _ h0 hk hx
    exact ⟨s.memo, a, b, c⟩

private theorem taken_children {m : List (Nat × Nat)} {l l' : List Nat} (h : l.map (fun c => m.lookup c) = l'.map some) :
    (∀ z ∈ l, ∃ y, m.lookup z = some y) ∧ l' = l.map fun z => (m.lookup z).getD 0 := by
  induction l generalizing l' with
  | nil => cases l' <;> simp_all
  | cons a r ih =>
    cases l' with
    | nil => simp at h
    | cons b r' =>
      simp only [List.map_cons, List.cons.injEq] at h
      obtain ⟨i1, i2⟩ := ih h.2
      refine ⟨fun z hz => ?_, ?_⟩
      · rcases List.mem_cons.1 hz with rfl | hz
        · exact ⟨b, h.1⟩
        · exact i1 z hz
      · simp only [List.map_cons, h.1, Option.getD_some]
        rw [← i2]

private theorem deep_reach {h : CitObjs} {s : Copier} {x y : Nat} (hs : CopierStep h ⟨h, []⟩ s) (hxy : s.memo.lookup x = some y) (a : Nat)
    (ha : CitReach h x a) : ∃ b, s.memo.lookup a = some b := by
  have hdone : ∀ a b, s.memo.lookup a = some b → CitDone h s a := fun a b hab => by
    rcases hs.done a b hab with h1 | h1
    · simp at h1
    · exact h1
  induction ha with
  | here => exact ⟨y, hxy⟩
  | child _ hn hz ih =>
    obtain ⟨b, hb⟩ := ih
    obtain ⟨_, k, k', _, a2, _, -, -, a4, -⟩ := hdone _ _ hb
    rw [hn] at a2
    simp only [Option.some.injEq] at a2
    subst a2
    exact (taken_children a4).1 _ hz
  | root _ hn hz ih =>
    obtain ⟨b, hb⟩ := ih
    obtain ⟨_, k, k', _, a2, _, -, -, -, a4⟩ := hdone _ _ hb
    rw [hn] at a2
    simp only [Option.some.injEq] at a2
    subst a2
    rcases a4 with ⟨a4, -⟩ | ⟨r, r', b1, -, b3⟩
    · rw [a4] at hz; simp at hz
    · rw [b1] at hz
      simp only [Option.some.injEq] at hz
      subst hz
      exact ⟨r', b3⟩

/-- C116. A deep copy of a citation is a copy of all of its scheme, with new objects that correspond one to one to the old. -/
theorem C116_deep {f : Nat} {h h' : CitObjs} {x y : Nat} (hc : CitClosed h) (hx : x < h.length) (hd : deepCopyCit f h x = some (h', y)) :
    CitCopyOf h x h' y := by
  obtain ⟨m, ok, st, hxy⟩ := deep_end hc hx hd
  refine ⟨fun z => (m.lookup z).getD 0, by simp [hxy], fun a b ha hb hab => ?_, fun a ha => ?_⟩
  · obtain ⟨a', ha'⟩ := deep_reach st hxy a ha
    obtain ⟨b', hb'⟩ := deep_reach st hxy b hb
    simp only at ha' hb'
    simp only [ha', hb', Option.getD_some] at hab
    subst hab
    exact ok.inj _ _ _ ha' hb'
  · obtain ⟨b, hb⟩ := deep_reach st hxy a ha
    simp only at hb
    refine ⟨by simpa [hb] using (ok.rng _ _ hb).2.1, ?_⟩
    rcases st.done a b hb with h1 | ⟨y', n, n', a1, a2, a3, a4, a5, a6, a7⟩
    · simp at h1
    · simp only at a1 a3 a6 a7
      refine ⟨n, a2, ?_⟩
      simp only [a1, Option.getD_some]
      rw [a3, ← a4, ← a5, ← (taken_children a6).2]
      obtain ⟨n1, n2, n3, n4⟩ := n'
      simp only [Option.some.injEq, CitObj.mk.injEq, true_and]
      rcases a7 with ⟨c1, c2⟩ | ⟨r, r', c1, c2, c3⟩
      · simp only at c2; simp [c1, c2]
      · simp only at c2; simp [c1, c2, c3]

/-- C116. The citations that there were are as they were. -/
theorem C116_untouched {f : Nat} {h h' : CitObjs} {x y : Nat} (hc : CitClosed h) (hx : x < h.length) (hd : deepCopyCit f h x = some (h', y)) (i : Nat)
    (hi : i < h.length) : h'[i]? = h[i]? := by
  obtain ⟨m, ok, -, -⟩ := deep_end hc hx hd
  exact ok.same i hi

/-- C116. Nothing that the copy leads to is one of the citations that there were. -/
theorem C116_apart {f : Nat} {h h' : CitObjs} {x y : Nat} (hc : CitClosed h) (hx : x < h.length) (hd : deepCopyCit f h x = some (h', y)) (z : Nat)
    (hz : CitReach h' y z) : h.length ≤ z := by
  obtain ⟨φ, h1, -, h3⟩ := C116_deep hc hx hd
  suffices H : ∃ a, CitReach h x a ∧ φ a = z from by
    obtain ⟨a, ha, rfl⟩ := H
    exact (h3 a ha).1
  induction hz with
  | here => exact ⟨x, .here, h1⟩
  | child _ hn hz ih =>
    obtain ⟨a, ha, rfl⟩ := ih
    obtain ⟨-, n, b1, b2⟩ := h3 a ha
    rw [hn] at b2
    simp only [Option.some.injEq] at b2
    subst b2
    simp only [List.mem_map] at hz
    obtain ⟨c, c1, c2⟩ := hz
    exact ⟨c, .child ha b1 c1, c2⟩
  | root _ hn hz ih =>
    obtain ⟨a, ha, rfl⟩ := ih
    obtain ⟨-, n, b1, b2⟩ := h3 a ha
    rw [hn] at b2
    simp only [Option.some.injEq] at b2
    subst b2
    simp only [Option.map_eq_some_iff] at hz
    obtain ⟨c, c1, c2⟩ := hz
    exact ⟨c, .root ha b1 c1, c2⟩

private def Keyed (old : CitObjs) (s : Copier) : Prop := (s.memo.map (·.1)).Nodup ∧ ∀ k ∈ s.memo.map (·.1), k < old.length

private theorem lookup_none {m : List (Nat × Nat)} {x : Nat} (h : m.lookup x = none) : x ∉ m.map (·.1) := by
  induction m with
  | nil => simp
  | cons p r ih =>
    obtain ⟨a, b⟩ := p
    rw [lookup_new] at h
    split at h
    · simp at h
    · next e => simp only [List.map_cons, List.mem_cons, not_or]; exact ⟨e, ih h⟩

private def Finishes (old : CitObjs) (f : Nat) (one : Copier → Nat → Option (Copier × Nat)) : Prop :=
  ∀ s x, CopierOk old s → Keyed old s → x < old.length → old.length < f + s.memo.length →
    ∃ s' y, one s x = some (s', y) ∧ Keyed old s' ∧ s.memo.length ≤ s'.memo.length

private theorem all_finishes {old : CitObjs} {f : Nat} {one : Copier → Nat → Option (Copier × Nat)} (hone : CopierGood old one)
    (hfin : Finishes old f one) : ∀ (l : List Nat) (s : Copier), CopierOk old s → Keyed old s → (∀ c ∈ l, c < old.length) →
      old.length < f + s.memo.length → ∃ s' l', deepAll one s l = some (s', l') ∧ Keyed old s' ∧ s.memo.length ≤ s'.memo.length := by
  intro l
  induction l with
  | nil => intro s _ hk _ _; exact ⟨s, [], rfl, hk, Nat.le_refl _⟩
  | cons c r ih =>
    intro s hs hk hl hf
    obtain ⟨s1, c', a1, a2, a3⟩ := hfin s c hs hk (hl c (by simp)) hf
    obtain ⟨b1, -, -⟩ := hone _ _ _ _ hs a1 (hl c (by simp))
    obtain ⟨s2, r', c1, c2, c3⟩ := ih s1 b1 a2 (fun d hd => hl d (by simp [hd])) (by omega)
    exact ⟨s2, c' :: r', by simp only [deepAll, a1, c1], c2, by omega⟩

private theorem cit_finishes {old : CitObjs} (hc : CitClosed old) : ∀ f, Finishes old f (deepCit f) := by
  intro f
  induction f with
  | zero =>
    intro s x _ hk _ hf
    have := (hk.1.subperm (l₂ := List.range old.length) (fun k hk' => List.mem_range.2 (hk.2 k hk'))).length_le
    simp at this
    omega
  | succ f ih =>
    intro s x hs hk hx hf
    cases hm : s.memo.lookup x with
    | some y => exact ⟨s, y, by simp only [deepCit, hm], hk, Nat.le_refl _⟩
    | none =>
      have hn : s.heap[x]? = some old[x] := by rw [hs.same x hx, List.getElem?_eq_getElem hx]
      obtain ⟨hch, hr⟩ := hc old[x] (List.getElem_mem hx)
      have ok1 := copierOk_note hs x hx
      have k1 : Keyed old ⟨s.heap ++ [blankCit], (x, s.heap.length) :: s.memo⟩ :=
        ⟨List.nodup_cons.2 ⟨lookup_none hm, hk.1⟩, fun k hk' => by
          rcases List.mem_cons.1 hk' with rfl | hk'
          · exact hx
          · exact hk.2 k hk'⟩
      obtain ⟨s1, cs, a1, a2, a3⟩ := all_finishes (deepCit_good hc f) ih old[x].children _ ok1 k1 hch (by simp; omega)
      obtain ⟨ok2, -, -⟩ := deepAll_good (deepCit_good hc f) _ _ _ _ ok1 a1 hch
      simp only [List.length_cons] at a3
      cases hroot : old[x].root with
      | none =>
        refine ⟨⟨s1.heap.set s.heap.length { old[x] with children := cs, root := none }, s1.memo⟩, s.heap.length, ?_, a2, ?_⟩
        · simp only [deepCit, hm, hn, a1, hroot, deepRoot]
        · simp only; omega
      | some r =>
        obtain ⟨s2, r', b1, b2, b3⟩ := ih s1 r ok2 a2 (hr r hroot) (by omega)
        refine ⟨⟨s2.heap.set s.heap.length { old[x] with children := cs, root := some r' }, s2.memo⟩, s.heap.length, ?_, b2, ?_⟩
        · simp only [deepCit, hm, hn, a1, hroot, deepRoot, b1]
        · simp only; omega

/-- C116. Copying ends, though citations point to their roots and these back to them: no more calls are nested than there are citations, and one. -/
theorem C116_ends {h : CitObjs} {x : Nat} (hc : CitClosed h) (hx : x < h.length) (f : Nat) (hf : h.length < f) :
    ∃ h' y, deepCopyCit f h x = some (h', y) := by
  obtain ⟨s, y, h1, -⟩ := cit_finishes hc f ⟨h, []⟩ x ⟨Nat.le_refl _, fun _ _ => rfl, by simp, by simp⟩ ⟨by simp, by simp⟩ hx (by simpa using hf)
  exact ⟨s.heap, y, by simp only [deepCopyCit, h1]⟩

private theorem iterAll_map {P : Nat → Prop} {φ : Nat → Nat} {one one' : Nat → Option (List Nat)}
    (h : ∀ c, P c → one' (φ c) = (one c).map (List.map φ)) : ∀ l : List Nat, (∀ c ∈ l, P c) →
      citIterAll one' (l.map φ) = (citIterAll one l).map (List.map φ) := by
  intro l
  induction l with
  | nil => intro _; rfl
  | cons c r ih =>
    intro hl
    simp only [List.map_cons, citIterAll, h c (hl c (by simp)), ih fun d hd => hl d (by simp [hd])]
    cases one c <;> cases citIterAll one r <;> simp

private theorem iter_map {h h' : CitObjs} {x : Nat} {φ : Nat → Nat} (hφ : ∀ a, CitReach h x a → ∃ n, h[a]? = some n ∧
    h'[φ a]? = some ⟨n.name, n.refsDecl, n.children.map φ, n.root.map φ⟩) : ∀ k a, CitReach h x a → citIter k h' (φ a) = (citIter k h a).map (List.map φ) := by
  intro k
  induction k with
  | zero => intro a _; rfl
  | succ k ih =>
    intro a ha
    obtain ⟨n, h1, h2⟩ := hφ a ha
    simp only [citIter, h1, h2]
    rw [iterAll_map (P := CitReach h x) ih n.children fun c hc => .child ha h1 hc]
    cases citIterAll (citIter k h) n.children <;> simp

private theorem iterAll_reach {P : Nat → Prop} {one : Nat → Option (List Nat)} (h : ∀ c l, P c → one c = some l → ∀ z ∈ l, P z) :
    ∀ (cs l : List Nat), (∀ c ∈ cs, P c) → citIterAll one cs = some l → ∀ z ∈ l, P z := by
  intro cs
  induction cs with
  | nil => intro l _ hl z hz; simp only [citIterAll, Option.some.injEq] at hl; subst hl; simp at hz
  | cons c r ih =>
    intro l hcs hl z hz
    simp only [citIterAll] at hl
    cases h1 : one c with
    | none => rw [h1] at hl; simp at hl
    | some a =>
      cases h2 : citIterAll one r with
      | none => rw [h1, h2] at hl; simp at hl
      | some b =>
        rw [h1, h2] at hl
        simp only [Option.some.injEq] at hl
        subst hl
        rcases List.mem_append.1 hz with hz | hz
        · exact h c a (hcs c (by simp)) h1 z hz
        · exact ih b (fun d hd => hcs d (by simp [hd])) h2 z hz

private theorem iter_reach {h : CitObjs} {x : Nat} : ∀ k a l, CitReach h x a → citIter k h a = some l → ∀ z ∈ l, CitReach h x z := by
  intro k
  induction k with
  | zero => intro a l _ hl; simp [citIter] at hl
  | succ k ih =>
    intro a l ha hl z hz
    simp only [citIter] at hl
    cases hn : h[a]? with
    | none => rw [hn] at hl; simp at hl
    | some n =>
      rw [hn] at hl
      simp only at hl
      cases h1 : citIterAll (citIter k h) n.children with
      | none => rw [h1] at hl; simp at hl
      | some l' =>
        rw [h1] at hl
        simp only [Option.some.injEq] at hl
        subst hl
        rcases List.mem_cons.1 hz with rfl | hz
        · exact ha
        · exact iterAll_reach (P := CitReach h x) ih n.children l' (fun c hc => .child ha hn hc) h1 z hz

private theorem seen_map {h h' : CitObjs} {x : Nat} {φ : Nat → Nat} (hφ : ∀ a, CitReach h x a → ∃ n, h[a]? = some n ∧
    h'[φ a]? = some ⟨n.name, n.refsDecl, n.children.map φ, n.root.map φ⟩) (l : List Nat) (hl : ∀ z ∈ l, CitReach h x z) :
    citSeen h' (l.map φ) = citSeen h l := by
  simp only [citSeen, List.map_map]
  refine List.map_congr_left fun z hz => ?_
  obtain ⟨n, h1, h2⟩ := hφ z (hl z hz)
  simp [h1, h2]

/-- C116. Going through the copy shows what going through the original shows, and goes on doing so whatever is later done to the old citations. -/
theorem C116_iter {f : Nat} {h h' : CitObjs} {x y : Nat} (hc : CitClosed h) (hx : x < h.length) (hd : deepCopyCit f h x = some (h', y))
    (h2 : CitObjs) (hold : ∀ i, h.length ≤ i → h2[i]? = h'[i]?) (k : Nat) :
    (citIter k h2 y).map (citSeen h2) = (citIter k h x).map (citSeen h) := by
  obtain ⟨φ, rfl, -, h3⟩ := C116_deep hc hx hd
  have hφ : ∀ a, CitReach h x a → ∃ n, h[a]? = some n ∧ h2[φ a]? = some ⟨n.name, n.refsDecl, n.children.map φ, n.root.map φ⟩ := fun a ha => by
    obtain ⟨b1, n, b2, b3⟩ := h3 a ha
    exact ⟨n, b2, (hold _ b1).trans b3⟩
  rw [iter_map hφ k x .here]
  cases hl : citIter k h x with
  | none => rfl
  | some l => simp only [Option.map_some]; rw [seen_map hφ l (iter_reach k x l .here hl)]

/-- C116. The copy of a citation finds the levels that the original finds, also when it is not the root of its scheme. -/
theorem C116_match {f : Nat} {h h' : CitObjs} {x y : Nat} (hc : CitClosed h) (hx : x < h.length) (hd : deepCopyCit f h x = some (h', y))
    (h2 : CitObjs) (hold : ∀ i, h.length ≤ i → h2[i]? = h'[i]?) (k d : Nat) :
    (citMatch k h2 y d).map (fun r => r.map fun c => citSeen h2 [c]) = (citMatch k h x d).map (fun r => r.map fun c => citSeen h [c]) := by
  obtain ⟨φ, rfl, -, h3⟩ := C116_deep hc hx hd
  have hφ : ∀ a, CitReach h x a → ∃ n, h[a]? = some n ∧ h2[φ a]? = some ⟨n.name, n.refsDecl, n.children.map φ, n.root.map φ⟩ := fun a ha => by
    obtain ⟨b1, n, b2, b3⟩ := h3 a ha
    exact ⟨n, b2, (hold _ b1).trans b3⟩
  obtain ⟨n, h4, h5⟩ := hφ x .here
  have key : ∀ r, CitReach h x r → (match citIter k h2 (φ r) with
      | none => none
      | some l => match l[d]? with
        | none => some (Except.error PyErr.keyError)
        | some c => some (.ok c) : Option (Except PyErr Nat)).map (fun r => r.map fun c => citSeen h2 [c]) = (match citIter k h r with
      | none => none
      | some l => match l[d]? with
        | none => some (Except.error PyErr.keyError)
        | some c => some (.ok c) : Option (Except PyErr Nat)).map (fun r => r.map fun c => citSeen h [c]) := by
    intro r hr
    rw [iter_map hφ k r hr]
    cases hl : citIter k h r with
    | none => rfl
    | some l =>
      simp only [Option.map_some, List.getElem?_map]
      cases hd' : l[d]? with
      | none => rfl
      | some c =>
        have := seen_map hφ [c] (fun z hz => by
          simp only [List.mem_singleton] at hz
          subst hz
          exact iter_reach k r l hr hl _ (List.mem_of_getElem? hd'))
        simp only [List.map_cons, List.map_nil] at this
        simp only [Option.map_some, Except.map, this]
  simp only [citMatch, citRoot, h4, h5]
  cases hr : n.root with
  | none => exact key x .here
  | some r => exact key r (.root .here h4 hr)

/-- C116. Going through a scheme with one level under the other gives the levels in order. -/
theorem C116_levels (h : CitObjs) (a : Nat) (r : List Nat) (hch : CitChain h (a :: r)) (k : Nat) (hk : r.length < k) : citIter k h a = some (a :: r) := by
  induction r generalizing a k with
  | nil =>
    obtain ⟨n, h1, h2⟩ := hch
    cases k with
    | zero => simp at hk
    | succ k => simp [citIter, h1, h2, citIterAll]
  | cons b r ih =>
    obtain ⟨⟨n, h1, h2⟩, h3⟩ := hch
    cases k with
    | zero => simp at hk
    | succ k =>
      have := ih b h3 k (by simp at hk; omega)
      simp [citIter, h1, h2, citIterAll, this]

/-- C116. So any citation of the scheme, and of its copies, matches a reference of depth `d + 1` to the level of that depth, or raises `KeyError`. -/
theorem C116_level (h : CitObjs) (x a : Nat) (r : List Nat) (hch : CitChain h (a :: r)) (hx : citRoot h x = some a) (k : Nat) (hk : r.length < k)
    (d : Nat) : (∀ hd : d < (a :: r).length, citMatch k h x d = some (.ok (a :: r)[d])) ∧
      ((a :: r).length ≤ d → citMatch k h x d = some (.error .keyError)) := by
  simp only [citMatch, hx, C116_levels h a r hch k hk]
  refine ⟨fun hd => ?_, fun hd => ?_⟩
  · simp only [List.getElem?_eq_getElem hd]
  · simp only [List.getElem?_eq_none hd]

private theorem iterAll_congr {P : Nat → Prop} {one one' : Nat → Option (List Nat)} (h : ∀ c, P c → one' c = one c) :
    ∀ l : List Nat, (∀ c ∈ l, P c) → citIterAll one' l = citIterAll one l := by
  intro l
  induction l with
  | nil => intro _; rfl
  | cons c r ih =>
    intro hl
    simp only [citIterAll, h c (hl c (by simp)), ih fun d hd => hl d (by simp [hd])]

private theorem iter_old {h h2 : CitObjs} (hc : CitClosed h) (hold : ∀ i, i < h.length → h2[i]? = h[i]?) :
    ∀ k x, x < h.length → citIter k h2 x = citIter k h x := by
  intro k
  induction k with
  | zero => intro x _; rfl
  | succ k ih =>
    intro x hx
    simp only [citIter, hold x hx, List.getElem?_eq_getElem hx]
    rw [iterAll_congr (P := (· < h.length)) ih _ (hc _ (List.getElem_mem hx)).1]

/-- C116. Whatever is done to the copy and the citations it leads to, going through the original gives the same citations as before, and they show the
same. -/
theorem C116_original {f : Nat} {h h' : CitObjs} {x y : Nat} (hc : CitClosed h) (hx : x < h.length) (hd : deepCopyCit f h x = some (h', y))
    (h2 : CitObjs) (hnew : ∀ i, i < h.length → h2[i]? = h'[i]?) (k : Nat) :
    citIter k h2 x = citIter k h x ∧ ∀ l, (∀ z ∈ l, z < h.length) → citSeen h2 l = citSeen h l := by
  have hsame : ∀ i, i < h.length → h2[i]? = h[i]? := fun i hi => (hnew i hi).trans (C116_untouched hc hx hd i hi)
  refine ⟨iter_old hc hsame k x hx, fun l hl => ?_⟩
  exact List.map_congr_left fun z hz => by rw [hsame z (hl z hz)]

/-- C116. A plain copy of a citation is a new object with the same name and declaration, and going through it gives it and then the citations that
follow the original. -/
theorem C116_plain {h h' : CitObjs} {x y : Nat} (hc : CitClosed h) (hx : x < h.length) (hd : copyCit h x = some (h', y)) (k : Nat) :
    h.length ≤ y ∧ citSeen h' [y] = citSeen h [x] ∧ citIter k h' y = (citIter k h x).map (fun l => y :: l.tail) ∧
      ∀ i, i < h.length → h'[i]? = h[i]? := by
  simp only [copyCit, List.getElem?_eq_getElem hx, Option.some.injEq, Prod.mk.injEq] at hd
  obtain ⟨rfl, rfl⟩ := hd
  have hsame : ∀ i, i < h.length → (h ++ [h[x]])[i]? = h[i]? := fun i hi => List.getElem?_append_left hi
  have hnew : (h ++ [h[x]])[h.length]? = some h[x] := by simp
  refine ⟨Nat.le_refl _, by simp [citSeen, List.getElem?_eq_getElem hx], ?_, hsame⟩
  cases k with
  | zero => rfl
  | succ k =>
    simp only [citIter, hnew, List.getElem?_eq_getElem hx]
    rw [iterAll_congr (P := (· < h.length)) (iter_old hc hsame k) _ (hc _ (List.getElem_mem hx)).1]
    cases citIterAll (citIter k h) h[x].children <;> simp

/-- C116 (departure): the children of a plain copy of the root of a scheme have the original as their root, not the copy; what they match is found
in the original. -/
theorem C116_fails_plain {h h' : CitObjs} {x y c : Nat} {n : CitObj} (hc : CitClosed h) (hn : h[x]? = some n) (hcn : c ∈ n.children)
    (hroot : citRoot h c = some x) (hd : copyCit h x = some (h', y)) :
    (∃ n', h'[y]? = some n' ∧ c ∈ n'.children) ∧ citRoot h' c = some x ∧ x ≠ y := by
  have hx : x < h.length := (List.getElem?_eq_some_iff.1 hn).1
  have hlt : c < h.length := (hc n (List.mem_of_getElem? hn)).1 c hcn
  simp only [copyCit, hn, Option.some.injEq, Prod.mk.injEq] at hd
  obtain ⟨rfl, rfl⟩ := hd
  refine ⟨⟨n, by simp, hcn⟩, ?_, by omega⟩
  simp only [citRoot, List.getElem?_append_left hlt]
  simpa [citRoot] using hroot

/-! ### Instances -/

/-- Book, poem and line. -/
private def threeLevels : CitObjs :=
  [⟨some ['b'], some ['1'], [1], none⟩, ⟨some ['p'], some ['2'], [2], some 0⟩, ⟨some ['l'], some ['3'], [], some 0⟩]

example : CitClosed threeLevels ∧ (∃ h' y, deepCopyCit 4 threeLevels 1 = some (h', y) ∧ y = 3 ∧ h'.length = 6 ∧ citRoot h' y = some 5 ∧
    citMatch 4 h' y 2 = some (.ok 4) ∧ (citIter 4 h' y).map (citSeen h') = some [some (some ['p'], some ['2']), some (some ['l'], some ['3'])]) := by
  refine ⟨by simp [CitClosed, threeLevels], _, _, rfl, ?_⟩
  decide +kernel

example : CitChain threeLevels [0, 1, 2] ∧ citRoot threeLevels 2 = some 0 :=
  ⟨⟨⟨_, rfl, rfl⟩, ⟨_, rfl, rfl⟩, ⟨_, rfl, rfl⟩⟩, rfl⟩

/-- One level fewer is not enough. -/
example : deepCopyCit 2 threeLevels 1 = none := by decide +kernel

example : ∃ h' y, copyCit threeLevels 0 = some (h', y) ∧ citRoot h' y = some 3 ∧ citRoot h' 1 = some 0 := by
  refine ⟨_, _, rfl, ?_⟩
  decide +kernel

end Verif.Props
