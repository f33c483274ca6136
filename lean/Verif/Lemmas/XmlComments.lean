import Verif.Lemmas.Xml
import Verif.Spec.XmlComments
/-! Lemmas for documents with comments. -/
namespace Verif.Lemmas
open Verif.Py Verif.Model Verif.Spec

theorem copyNodeFull_ok {n : Node} (h : n.isComment = false) : copyNodeFull n = .ok (complete n) := by
  simp [copyNodeFull, h, copyFull_eq]

theorem copyNodeBare_ok {n : Node} (h : n.isComment = false) (r : Except PyErr (List Node)) :
    copyNodeBare n r = wrap n r := by simp [copyNodeBare, h]

/-- The outcome of copying something that may hold a comment at the wrong place. -/
def orType {α : Type} (stops : Bool) (a : α) : Except PyErr α := if stops then .error .typeError else .ok a

theorem sideSiblingsC_after (eq : Nat → Bool) (mid : Except PyErr Node) (ks : List Node) (k : Nat)
    (h : ∀ j, k ≤ j → j < k + ks.length → eq j = false) :
    sideSiblingsC eq mid false true true (ks.zipIdx k) = orType (ks.any (·.isComment)) (ks.map complete) := by
  induction ks generalizing k with
  | nil => rfl
  | cons c r ih =>
    have hk := h k (by omega) (by simp)
    rw [List.zipIdx_cons]
    simp only [sideSiblingsC, hk]
    rw [ih (k + 1) (fun j h1 h2 => h j (by omega) (by simp; omega))]
    by_cases hc : c.isComment = true
    · simp [copyNodeFull, hc, orType]
    · simp only [Bool.not_eq_true] at hc
      rw [copyNodeFull_ok hc]
      by_cases hr : r.any (·.isComment) = true <;> simp [orType, hc, hr] <;> rfl

theorem sideSiblingsC_foll (eq : Nat → Bool) (stops : Bool) (m : Node) (ks : List Node) (k i : Nat) (h1 : k ≤ i)
    (h2 : i < k + ks.length) (h : ∀ j, k ≤ j → j < k + ks.length → (eq j = true ↔ j = i)) :
    sideSiblingsC eq (orType stops m) false true false (ks.zipIdx k) =
      orType (stops || (ks.drop (i - k + 1)).any (·.isComment)) (m :: (ks.drop (i - k + 1)).map complete) := by
  induction ks generalizing k with
  | nil => simp at h2; omega
  | cons c r ih =>
    simp at h2
    rw [List.zipIdx_cons]
    by_cases hk : k = i
    · subst hk
      simp only [sideSiblingsC, (h k (by omega) (by simp)).2 rfl]
      rw [sideSiblingsC_after eq _ r (k + 1)]
      · cases stops
        · by_cases hr : r.any (·.isComment) = true <;> simp [orType, hr] <;> rfl
        · simp [orType]
      · intro j h3 h4
        have := h j (by omega) (by simp; omega)
        cases hj : eq j with
        | false => rfl
        | true => have := this.1 hj; omega
    · have he : eq k = false := by
        cases hj : eq k with
        | false => rfl
        | true => exact absurd ((h k (by omega) (by simp)).1 hj) hk
      simp only [sideSiblingsC, he]
      rw [show i - k + 1 = (i - (k + 1) + 1) + 1 by omega, List.drop_succ_cons]
      simp only [Bool.false_eq_true, Bool.and_false, if_false, Bool.false_and, Bool.or_self]
      exact ih (k + 1) (by omega) (by omega) (fun j h3 h4 => h j (by omega) (by simp; omega))

theorem sideSiblingsC_prec (eq : Nat → Bool) (stops : Bool) (m : Node) (ks : List Node) (k i : Nat) (h1 : k ≤ i)
    (h2 : i < k + ks.length) (h : ∀ j, k ≤ j → j < k + ks.length → (eq j = true ↔ j = i)) :
    sideSiblingsC eq (orType stops m) true false false (ks.zipIdx k) =
      orType ((ks.take (i - k)).any (·.isComment) || stops) ((ks.take (i - k)).map complete ++ [m]) := by
  induction ks generalizing k with
  | nil => simp at h2; omega
  | cons c r ih =>
    simp at h2
    rw [List.zipIdx_cons]
    by_cases hk : k = i
    · subst hk
      cases stops <;> simp [sideSiblingsC, (h k (by omega) (by simp)).2 rfl, orType]
    · have he : eq k = false := by
        cases hj : eq k with
        | false => rfl
        | true => exact absurd ((h k (by omega) (by simp)).1 hj) hk
      simp only [sideSiblingsC, he]
      rw [show i - k = (i - (k + 1)) + 1 by omega, List.take_succ_cons]
      simp only [Bool.false_eq_true, if_false, Bool.not_false, Bool.and_self, if_true, Bool.true_or]
      rw [ih (k + 1) (by omega) (by omega) (fun j h3 h4 => h j (by omega) (by simp; omega))]
      by_cases hc : c.isComment = true
      · simp [copyNodeFull, hc, orType]
      · simp only [Bool.not_eq_true] at hc
        rw [copyNodeFull_ok hc]
        simp only [List.any_cons, hc, Bool.false_or, List.map_cons, List.cons_append]
        unfold orType
        split <;> rfl

theorem rangeSiblingsC_after (eq1 eq2 : Nat → Bool) (first : Node → Except PyErr Node) (ks : List Node)
    (k i : Nat) (h1 : k ≤ i) (h2 : i < k + ks.length) (h : ∀ j, k ≤ j → j < k + ks.length → (eq2 j = true ↔ j = i)) :
    rangeSiblingsC eq1 eq2 first true (ks.zipIdx k) =
      orType ((ks.take (i - k)).any (·.isComment)) ((ks.take (i - k)).map complete) := by
  induction ks generalizing k with
  | nil => simp at h2; omega
  | cons c r ih =>
    simp at h2
    rw [List.zipIdx_cons]
    by_cases hk : k = i
    · subst hk
      simp [rangeSiblingsC, (h k (by omega) (by simp)).2 rfl, orType]
    · have he : eq2 k = false := by
        cases hj : eq2 k with
        | false => rfl
        | true => exact absurd ((h k (by omega) (by simp)).1 hj) hk
      simp only [rangeSiblingsC, he]
      rw [show i - k = (i - (k + 1)) + 1 by omega, List.take_succ_cons]
      simp only [Bool.false_eq_true, if_false]
      rw [ih (k + 1) (by omega) (by omega) (fun j h3 h4 => h j (by omega) (by simp; omega))]
      by_cases hc : c.isComment = true
      · simp [copyNodeFull, hc, orType]
      · simp only [Bool.not_eq_true] at hc
        rw [copyNodeFull_ok hc]
        simp only [List.any_cons, hc, Bool.false_or, List.map_cons]
        unfold orType
        split <;> rfl

theorem rangeSiblingsC_eq (eq1 eq2 : Nat → Bool) (first : Node → Except PyErr Node) (ks : List Node)
    (k i1 i2 : Nat) (c m : Node) (stops : Bool) (h1 : k ≤ i1) (h12 : i1 < i2) (h2 : i2 < k + ks.length)
    (hc : ks[i1 - k]? = some c) (hm : first c = orType stops m)
    (he1 : ∀ j, k ≤ j → j < k + ks.length → (eq1 j = true ↔ j = i1))
    (he2 : ∀ j, k ≤ j → j < k + ks.length → (eq2 j = true ↔ j = i2)) :
    rangeSiblingsC eq1 eq2 first false (ks.zipIdx k) =
      orType (stops || ((ks.drop (i1 - k + 1)).take (i2 - i1 - 1)).any (·.isComment))
        (m :: ((ks.drop (i1 - k + 1)).take (i2 - i1 - 1)).map complete) := by
  induction ks generalizing k with
  | nil => simp at h2; omega
  | cons d r ih =>
    simp at h2
    rw [List.zipIdx_cons]
    by_cases hk : k = i1
    · subst hk
      simp at hc; subst hc
      simp only [rangeSiblingsC, (he1 k (by omega) (by simp)).2 rfl, if_true, hm]
      rw [rangeSiblingsC_after eq1 eq2 first r (k + 1) i2 (by omega) (by omega)
        (fun j h3 h4 => he2 j (by omega) (by simp; omega))]
      simp only [Nat.sub_self, Nat.zero_add, List.drop_succ_cons, List.drop_zero,
        show i2 - (k + 1) = i2 - k - 1 by omega]
      cases stops
      · simp only [orType, Bool.false_or]
        by_cases hr : (r.take (i2 - k - 1)).any (·.isComment) = true
        · rw [if_pos hr, if_pos hr]; rfl
        · rw [if_neg hr, if_neg hr]; rfl
      · simp [orType]
    · have he : eq1 k = false := by
        cases hj : eq1 k with
        | false => rfl
        | true => exact absurd ((he1 k (by omega) (by simp)).1 hj) hk
      simp only [rangeSiblingsC, he]
      rw [show i1 - k + 1 = (i1 - (k + 1) + 1) + 1 by omega, List.drop_succ_cons]
      rw [show i1 - k = (i1 - (k + 1)) + 1 by omega, List.getElem?_cons_succ] at hc
      simp only [Bool.false_eq_true, if_false]
      exact ih (k + 1) (by omega) (by omega) hc (fun j h3 h4 => he1 j (by omega) (by simp; omega))
        (fun j h3 h4 => he2 j (by omega) (by simp; omega))

/-- Does the start side of a range meet a comment? -/
def startStops (n : Node) : List Nat → Bool
  | [] => false
  | i :: t =>
    match n.kids[i]? with
    | none => false
    | some c => startStops c t || (n.kids.drop (i + 1)).any (·.isComment)

/-- Does the end side of a range meet a comment? -/
def endStops (n : Node) : List Nat → Bool
  | [] => false
  | i :: t =>
    match n.kids[i]? with
    | none => false
    | some c => (n.kids.take i).any (·.isComment) || endStops c t

/-- Does a range meet a comment? -/
def rangeStops (n : Node) : List Nat → List Nat → Bool
  | i :: t, j :: u =>
    match n.kids[i]?, n.kids[j]? with
    | some c, some d =>
      if i = j then rangeStops c t u
      else (startStops c t || ((n.kids.drop (i + 1)).take (j - i - 1)).any (·.isComment)) || endStops d u
    | _, _ => false
  | _, _ => false

theorem leaves_kid {n c : Node} {i : Nat} {p : List Step} {t : List Nat} (hl : CommentsAreLeaves n)
    (hp : ∀ s ∈ p, NamesElements s) (hk : n.kids[i]? = some c) (h : Sel n p (i :: t)) :
    CommentsAreLeaves c := by
  refine ⟨?_, fun pos d hd => hl.2 (i :: pos) d (by simp [nodeAt, hk, hd])⟩
  cases hc : c.isComment with
  | false => rfl
  | true =>
    exfalso
    obtain ⟨ha, -, hks⟩ := hl.2 [i] c (by simp [nodeAt, hk]) hc
    generalize hit : i :: t = it at h
    cases h with
    | nil => simp at hit
    | @child _ c' s q i' t' hk' ht hs =>
      obtain ⟨rfl, rfl⟩ := by simpa using hit
      rw [hk] at hk'; simp at hk'; subst hk'
      obtain ⟨h1, h2⟩ := hp s (by simp)
      simp only [Step.test, Bool.and_eq_true, Bool.or_eq_true, beq_iff_eq] at ht
      rcases ht.1 with h3 | h3
      · have hne := h2 h3
        cases hts : s.tests with
        | nil => exact hne hts
        | cons a r =>
          rw [hts] at ht
          simp only [List.all_cons, Bool.and_eq_true] at ht
          cases a with
          | has a => simp [ATest.holds, Node.get, ha] at ht
          | eq a q v => simp [ATest.holds, Node.get, ha] at ht
      · simp only [Node.isComment, beq_iff_eq] at hc
        exact h1 (h3.trans hc)
    | @desc _ c' s q i' t' hk' hd hs =>
      obtain ⟨rfl, rfl⟩ := by simpa using hit
      rw [hk] at hk'; simp at hk'; subst hk'
      cases hs with
      | child hk2 _ _ => simp [hks] at hk2
      | desc hk2 _ _ => simp [hks] at hk2

theorem stepInto_queue {n c : Node} {p q : List Step} {i : Nat} (h : stepInto n p = .ok (c, i, q)) :
    q = p ∨ q = p.tail := by
  unfold stepInto at h
  cases hx : performXpath n p with
  | error e => simp [hx] at h
  | ok r =>
    obtain ⟨a, b, l⟩ := r
    simp only [hx, Except.ok.injEq, Prod.mk.injEq] at h
    cases l <;> simp_all

theorem stepInto_names {n c : Node} {p q : List Step} {i : Nat} (hp : ∀ s ∈ p, NamesElements s)
    (h : stepInto n p = .ok (c, i, q)) : ∀ s ∈ q, NamesElements s := by
  rcases stepInto_queue h with rfl | rfl
  · exact hp
  · exact fun s hs => hp s (List.mem_of_mem_tail hs)

theorem orType_wrap {c : Node} {stops : Bool} {ks : List Node} :
    wrap c (orType stops ks) = orType stops (emptied c ks) := by
  cases stops <;> simp [orType, wrap, copyBare_eq]

theorem sideLoopC_foll (same : Same) (fuel : Nat) (n : Node) (p : List Step) (t : List Nat)
    (hf : n.height ≤ fuel) (hp : p ≠ []) (h : Uniq n p t) (hs : TellsApart same n)
    (hl : CommentsAreLeaves n) (hn : ∀ s ∈ p, NamesElements s) :
    sideLoopC same false true fuel n p = orType (startStops n t) (startKids n t) := by
  induction fuel generalizing n p t with
  | zero => have := height_pos n; omega
  | succ fuel ih =>
    obtain ⟨i, t, rfl⟩ : ∃ i u, t = i :: u := by
      cases t with
      | nil => exact absurd rfl (uniq_ne_nil h hp)
      | cons i u => exact ⟨i, u, rfl⟩
    obtain ⟨c, q, h1, h2, h3⟩ := stepInto_uniq h
    have hlc := leaves_kid hl hn h2 ((h _).2 rfl)
    have hnq := stepInto_names hn h1
    rw [sideLoopC, h1]
    simp only [Bool.or_true, if_true]
    have hi := lt_of_kid h2
    have hmid : (if q.isEmpty then copyNodeFull c else copyNodeBare c (sideLoopC same false true fuel c q)) =
        (orType (startStops c t) (if t = [] then complete c else emptied c (startKids c t)) : Except PyErr Node) := by
      by_cases hq : q.isEmpty = true
      · have ht := (uniq_isEmpty h3).1 hq
        subst ht
        simp [hq, copyNodeFull_ok hlc.1, startStops, orType]
      · have ht : t ≠ [] := fun e => hq ((uniq_isEmpty h3).2 e)
        have hq' : q ≠ [] := by rintro rfl; simp at hq
        have := height_lt_of_mem (kid_mem h2)
        rw [if_neg hq, if_neg ht, ih c q t (by omega) hq' h3 (tellsApart_kid hs h2) hlc hnq, copyNodeBare_ok hlc.1,
          orType_wrap]
    rw [hmid, sideSiblingsC_foll _ _ _ n.kids 0 i (by omega) (by omega)
      (fun j _ hj => tellsApart_self hs j i (by omega) hi)]
    simp [startKids, startStops, h2]

theorem sideLoopC_prec (same : Same) (fuel : Nat) (n : Node) (p : List Step) (t : List Nat)
    (hf : n.height ≤ fuel) (hp : p ≠ []) (h : Uniq n p t) (hs : TellsApart same n)
    (hl : CommentsAreLeaves n) (hn : ∀ s ∈ p, NamesElements s) :
    sideLoopC same true false fuel n p = orType (endStops n t) (endKids n t) := by
  induction fuel generalizing n p t with
  | zero => have := height_pos n; omega
  | succ fuel ih =>
    obtain ⟨i, t, rfl⟩ : ∃ i u, t = i :: u := by
      cases t with
      | nil => exact absurd rfl (uniq_ne_nil h hp)
      | cons i u => exact ⟨i, u, rfl⟩
    obtain ⟨c, q, h1, h2, h3⟩ := stepInto_uniq h
    have hlc := leaves_kid hl hn h2 ((h _).2 rfl)
    have hnq := stepInto_names hn h1
    rw [sideLoopC, h1]
    simp only [Bool.true_or, if_true]
    have hi := lt_of_kid h2
    have hmid : (if q.isEmpty then copyNodeFull c else copyNodeBare c (sideLoopC same true false fuel c q)) =
        (orType (endStops c t) (if t = [] then complete c else emptied c (endKids c t)) : Except PyErr Node) := by
      by_cases hq : q.isEmpty = true
      · have ht := (uniq_isEmpty h3).1 hq
        subst ht
        simp [hq, copyNodeFull_ok hlc.1, endStops, orType]
      · have ht : t ≠ [] := fun e => hq ((uniq_isEmpty h3).2 e)
        have hq' : q ≠ [] := by rintro rfl; simp at hq
        have := height_lt_of_mem (kid_mem h2)
        rw [if_neg hq, if_neg ht, ih c q t (by omega) hq' h3 (tellsApart_kid hs h2) hlc hnq, copyNodeBare_ok hlc.1,
          orType_wrap]
    rw [hmid, sideSiblingsC_prec _ _ _ n.kids 0 i (by omega) (by omega)
      (fun j _ hj => tellsApart_self hs j i (by omega) hi)]
    simp [endKids, endStops, h2]

theorem pairLoopC_range (same : Same) (fuel : Nat) (n : Node) (p1 p2 : List Step) (t1 t2 : List Nat)
    (hf : n.height ≤ fuel) (h1 : Uniq n p1 t1) (h2 : Uniq n p2 t2) (hlt : Precedes t1 t2)
    (hs : TellsApart same n) (hl : CommentsAreLeaves n) (hn1 : ∀ s ∈ p1, NamesElements s)
    (hn2 : ∀ s ∈ p2, NamesElements s) :
    pairLoopC same fuel n p1 p2 = orType (rangeStops n t1 t2) (rangeKids n t1 t2) := by
  induction fuel generalizing n p1 p2 t1 t2 with
  | zero => have := height_pos n; omega
  | succ fuel ih =>
    match t1, t2, hlt with
    | i :: t, j :: u, hlt =>
    obtain ⟨c, q1, ha1, ha2, ha3⟩ := stepInto_uniq h1
    obtain ⟨d, q2, hb1, hb2, hb3⟩ := stepInto_uniq h2
    have hlc := leaves_kid hl hn1 ha2 ((h1 _).2 rfl)
    have hld := leaves_kid hl hn2 hb2 ((h2 _).2 rfl)
    have hnq1 := stepInto_names hn1 ha1
    have hnq2 := stepInto_names hn2 hb1
    have hne : p1 ≠ p2 := by
      rintro rfl
      have := (h1 _).1 ((h2 _).2 rfl)
      rw [this] at hlt
      exact precedes_irrefl _ hlt
    rw [pairLoopC, ha1]
    simp only
    rw [if_neg hne, hb1]
    simp only
    have hi := lt_of_kid ha2
    have hj := lt_of_kid hb2
    have hc := height_lt_of_mem (kid_mem ha2)
    have hd := height_lt_of_mem (kid_mem hb2)
    have hsame := tellsApart_self hs i j hi hj
    by_cases hij : i = j
    · subst hij
      rw [ha2] at hb2; simp at hb2; subst hb2
      rw [if_pos (hsame.2 rfl)]
      have hlt' : Precedes t u := by simpa [Precedes] using hlt
      have ht : t ≠ [] := by rintro rfl; simp [Precedes] at hlt'
      have hq : ¬ q1.isEmpty = true := fun e => ht ((uniq_isEmpty ha3).1 e)
      rw [if_neg hq, ih c q1 q2 t u (by omega) ha3 hb3 hlt' (tellsApart_kid hs ha2) hlc hnq1 hnq2,
        copyNodeBare_ok hlc.1, orType_wrap]
      simp only [rangeStops, rangeKids, ha2, if_true]
      cases rangeStops c t u <;> simp [orType]
    · rw [if_neg (fun e => hij (hsame.1 e))]
      have hlt' : i < j := by
        simp only [Precedes] at hlt
        rcases hlt with h | ⟨h, _⟩
        · exact h
        · exact absurd h hij
      unfold rangeBranchC
      have hfirst : (if q1.isEmpty then copyNodeFull c else copyNodeBare c (sideLoopC same false true fuel c q1)) =
          (orType (startStops c t) (if t = [] then complete c else emptied c (startKids c t)) : Except PyErr Node) := by
        by_cases hq : q1.isEmpty = true
        · have ht := (uniq_isEmpty ha3).1 hq
          subst ht
          simp [hq, copyNodeFull_ok hlc.1, startStops, orType]
        · have ht : t ≠ [] := fun e => hq ((uniq_isEmpty ha3).2 e)
          have hq' : q1 ≠ [] := by rintro rfl; simp at hq
          rw [if_neg hq, if_neg ht, sideLoopC_foll same fuel c q1 t (by omega) hq' ha3 (tellsApart_kid hs ha2) hlc hnq1,
            copyNodeBare_ok hlc.1, orType_wrap]
      have hlast : (if q2.isEmpty then copyNodeFull d else copyNodeBare d (sideLoopC same true false fuel d q2)) =
          (orType (endStops d u) (if u = [] then complete d else emptied d (endKids d u)) : Except PyErr Node) := by
        by_cases hq : q2.isEmpty = true
        · have ht := (uniq_isEmpty hb3).1 hq
          subst ht
          simp [hq, copyNodeFull_ok hld.1, endStops, orType]
        · have ht : u ≠ [] := fun e => hq ((uniq_isEmpty hb3).2 e)
          have hq' : q2 ≠ [] := by rintro rfl; simp at hq
          rw [if_neg hq, if_neg ht, sideLoopC_prec same fuel d q2 u (by omega) hq' hb3 (tellsApart_kid hs hb2) hld hnq2,
            copyNodeBare_ok hld.1, orType_wrap]
      rw [rangeSiblingsC_eq _ _ _ n.kids 0 i j c _ _ (by omega) hlt' (by omega) (by simpa using ha2) hfirst
        (fun k _ hk => tellsApart_self hs k i (by omega) hi) (fun k _ hk => tellsApart_self hs k j (by omega) hj),
        hlast]
      simp only [rangeStops, rangeKids, ha2, hb2, if_neg hij, Nat.sub_zero]
      generalize (startStops c t || ((n.kids.drop (i + 1)).take (j - i - 1)).any (·.isComment)) = b1
      generalize endStops d u = b2
      cases b1 <;> cases b2 <;> simp [orType]

theorem pairLoopC_same (same : Same) (hr : ∀ n i, same n i i = true) (fuel : Nat) (n : Node) (p : List Step)
    (t : List Nat) (hf : n.height ≤ fuel) (hp : p ≠ []) (h : Uniq n p t)
    (hl : CommentsAreLeaves n) (hn : ∀ s ∈ p, NamesElements s) :
    pairLoopC same fuel n p p = .ok (chainTo n t) := by
  induction fuel generalizing n p t with
  | zero => have := height_pos n; omega
  | succ fuel ih =>
    obtain ⟨i, t, rfl⟩ : ∃ i u, t = i :: u := by
      cases t with
      | nil => exact absurd rfl (uniq_ne_nil h hp)
      | cons i u => exact ⟨i, u, rfl⟩
    obtain ⟨c, q, h1, h2, h3⟩ := stepInto_uniq h
    have hlc := leaves_kid hl hn h2 ((h _).2 rfl)
    have hnq := stepInto_names hn h1
    have := height_lt_of_mem (kid_mem h2)
    rw [pairLoopC, h1]
    simp only [if_true, hr]
    by_cases hq : q.isEmpty = true
    · have ht := (uniq_isEmpty h3).1 hq
      subst ht
      simp [hq, copyNodeFull_ok hlc.1, chainTo, h2]
    · have ht : t ≠ [] := fun e => hq ((uniq_isEmpty h3).2 e)
      have hq' : q ≠ [] := by rintro rfl; simp at hq
      rw [if_neg hq, ih c q t (by omega) hq' h3 hlc hnq, copyNodeBare_ok hlc.1]
      simp [wrap, chainTo, h2, ht, copyBare_eq]

theorem any_drop {ks : List Node} {i : Nat} : (ks.drop (i + 1)).any (·.isComment) = true ↔
    ∃ j c, i < j ∧ ks[j]? = some c ∧ c.isComment = true := by
  rw [List.any_eq_true]
  constructor
  · rintro ⟨c, hc, h⟩
    obtain ⟨k, hk⟩ := List.mem_iff_getElem?.1 hc
    rw [List.getElem?_drop] at hk
    exact ⟨_, c, by omega, hk, h⟩
  · rintro ⟨j, c, hj, hc, h⟩
    refine ⟨c, List.mem_iff_getElem?.2 ⟨j - (i + 1), ?_⟩, h⟩
    rw [List.getElem?_drop, show i + 1 + (j - (i + 1)) = j by omega, hc]

theorem any_take {ks : List Node} {i : Nat} : (ks.take i).any (·.isComment) = true ↔
    ∃ j c, j < i ∧ ks[j]? = some c ∧ c.isComment = true := by
  rw [List.any_eq_true]
  constructor
  · rintro ⟨c, hc, h⟩
    obtain ⟨k, hk⟩ := List.mem_iff_getElem?.1 hc
    rw [List.getElem?_take] at hk
    split at hk
    · exact ⟨k, c, by omega, hk, h⟩
    · simp at hk
  · rintro ⟨j, c, hj, hc, h⟩
    refine ⟨c, List.mem_iff_getElem?.2 ⟨j, ?_⟩, h⟩
    rw [List.getElem?_take, if_pos hj, hc]

theorem any_between {ks : List Node} {i j : Nat} : ((ks.drop (i + 1)).take (j - i - 1)).any (·.isComment) = true ↔
    ∃ k c, i < k ∧ k < j ∧ ks[k]? = some c ∧ c.isComment = true := by
  rw [List.any_eq_true]
  constructor
  · rintro ⟨c, hc, h⟩
    obtain ⟨k, hk⟩ := List.mem_iff_getElem?.1 hc
    rw [List.getElem?_take] at hk
    split at hk
    · rw [List.getElem?_drop] at hk
      exact ⟨_, c, by omega, by omega, hk, h⟩
    · simp at hk
  · rintro ⟨k, c, hk, hj, hc, h⟩
    refine ⟨c, List.mem_iff_getElem?.2 ⟨k - (i + 1), ?_⟩, h⟩
    rw [List.getElem?_take, if_pos (by omega), List.getElem?_drop, show i + 1 + (k - (i + 1)) = k by omega, hc]

theorem above_cons {i j : Nat} {t u : List Nat} : Above (i :: t) (j :: u) ↔ i = j ∧ Above t u := by
  simp only [Above, List.cons_prefix_cons, ne_eq, List.cons.injEq, not_and]
  constructor
  · rintro ⟨⟨h1, h2⟩, h3⟩; exact ⟨h1, h2, h3 h1⟩
  · rintro ⟨h1, h2, h3⟩; exact ⟨⟨h1, h2⟩, fun _ => h3⟩

theorem above_nil {t : List Nat} : ¬ Above t [] := by
  rintro ⟨h1, h2⟩; exact h2 (List.prefix_nil.1 h1)

theorem nil_above {i : Nat} {t : List Nat} : Above [] (i :: t) := by simp [Above]

theorem not_precedes_nil (t : List Nat) : ¬ Precedes t [] := by cases t <;> simp [Precedes]

theorem nil_not_precedes (t : List Nat) : ¬ Precedes [] t := by simp [Precedes]

theorem startStops_iff (n : Node) (t : List Nat) (hn : (nodeAt n t).isSome) : startStops n t = true ↔
    ∃ parent i c, nodeAt n (parent ++ [i]) = some c ∧ c.isComment = true ∧ Precedes t (parent ++ [i]) ∧ Above parent t := by
  induction t generalizing n with
  | nil =>
    simp only [startStops, Bool.false_eq_true, false_iff]
    rintro ⟨_, _, _, -, -, h, -⟩
    exact nil_not_precedes _ h
  | cons a t ih =>
    simp only [nodeAt] at hn
    cases hk : n.kids[a]? with
    | none => simp [hk] at hn
    | some d =>
      simp only [hk] at hn
      simp only [startStops, hk, Bool.or_eq_true, ih d hn, any_drop]
      constructor
      · rintro (⟨par, i, c, h1, h2, h3, h4⟩ | ⟨j, c, h1, h2, h3⟩)
        · exact ⟨a :: par, i, c, by simp [nodeAt, hk, h1], h2, by simp [Precedes, h3], above_cons.2 ⟨rfl, h4⟩⟩
        · exact ⟨[], j, c, by simp [nodeAt, h2], h3, by simp [Precedes, h1], nil_above⟩
      · rintro ⟨par, i, c, h1, h2, h3, h4⟩
        cases par with
        | nil =>
          refine .inr ⟨i, c, ?_, ?_, h2⟩
          · simp only [List.nil_append, Precedes] at h3
            rcases h3 with h | ⟨_, h⟩
            · exact h
            · first | exact h.elim | exact absurd h (not_precedes_nil _)
          · simp only [List.nil_append, nodeAt] at h1
            cases hi : n.kids[i]? with
            | none => simp [hi] at h1
            | some e => simpa [hi] using h1
        | cons b par =>
          obtain ⟨rfl, h6⟩ := above_cons.1 h4
          exact .inl ⟨par, i, c, by simpa [nodeAt, hk] using h1, h2, by simpa [Precedes] using h3, h6⟩

theorem endStops_iff (n : Node) (t : List Nat) (hn : (nodeAt n t).isSome) : endStops n t = true ↔
    ∃ parent i c, nodeAt n (parent ++ [i]) = some c ∧ c.isComment = true ∧ Precedes (parent ++ [i]) t ∧ Above parent t := by
  induction t generalizing n with
  | nil =>
    simp only [endStops, Bool.false_eq_true, false_iff]
    rintro ⟨_, _, _, -, -, h, -⟩
    exact not_precedes_nil _ h
  | cons a t ih =>
    simp only [nodeAt] at hn
    cases hk : n.kids[a]? with
    | none => simp [hk] at hn
    | some d =>
      simp only [hk] at hn
      simp only [endStops, hk, Bool.or_eq_true, ih d hn, any_take]
      constructor
      · rintro (⟨j, c, h1, h2, h3⟩ | ⟨par, i, c, h1, h2, h3, h4⟩)
        · exact ⟨[], j, c, by simp [nodeAt, h2], h3, by simp [Precedes, h1], nil_above⟩
        · exact ⟨a :: par, i, c, by simp [nodeAt, hk, h1], h2, by simp [Precedes, h3], above_cons.2 ⟨rfl, h4⟩⟩
      · rintro ⟨par, i, c, h1, h2, h3, h4⟩
        cases par with
        | nil =>
          refine .inl ⟨i, c, ?_, ?_, h2⟩
          · simp only [List.nil_append, Precedes] at h3
            rcases h3 with h | ⟨_, h⟩
            · exact h
            · first | exact h.elim | exact absurd h (nil_not_precedes _)
          · simp only [List.nil_append, nodeAt] at h1
            cases hi : n.kids[i]? with
            | none => simp [hi] at h1
            | some e => simpa [hi] using h1
        | cons b par =>
          obtain ⟨rfl, h6⟩ := above_cons.1 h4
          exact .inr ⟨par, i, c, by simpa [nodeAt, hk] using h1, h2, by simpa [Precedes] using h3, h6⟩

theorem rangeStops_iff (n : Node) (t u : List Nat) (hlt : Precedes t u) (ht : (nodeAt n t).isSome)
    (hu : (nodeAt n u).isSome) : rangeStops n t u = true ↔ CommentBetween n t u := by
  induction t generalizing n u with
  | nil => exact absurd hlt (nil_not_precedes _)
  | cons a t ih =>
    cases u with
    | nil => exact absurd hlt (not_precedes_nil _)
    | cons b u =>
      simp only [nodeAt] at ht hu
      cases hk : n.kids[a]? with
      | none => simp [hk] at ht
      | some d =>
        cases hk2 : n.kids[b]? with
        | none => simp [hk2] at hu
        | some e =>
          simp only [hk] at ht
          simp only [hk2] at hu
          simp only [rangeStops, hk, hk2]
          by_cases hab : a = b
          · subst hab
            have hlt' : Precedes t u := by simpa [Precedes] using hlt
            rw [hk] at hk2; simp at hk2; subst hk2
            rw [if_pos rfl, ih d u hlt' ht hu]
            constructor
            · rintro ⟨par, i, c, h1, h2, h3, h4, h5⟩
              refine ⟨a :: par, i, c, by simp [nodeAt, hk, h1], h2, by simp [Precedes, h3], by simp [Precedes, h4], ?_⟩
              exact h5.imp (fun h => above_cons.2 ⟨rfl, h⟩) (fun h => above_cons.2 ⟨rfl, h⟩)
            · rintro ⟨par, i, c, h1, h2, h3, h4, h5⟩
              cases par with
              | nil =>
                simp only [List.nil_append, Precedes] at h3 h4
                have := not_precedes_nil t
                have := nil_not_precedes u
                exfalso
                rcases h3 with h | ⟨_, h⟩
                · rcases h4 with h' | ⟨_, h'⟩
                  · omega
                  · contradiction
                · contradiction
              | cons b par =>
                have hb : b = a := by rcases h5 with h | h <;> exact (above_cons.1 h).1
                subst hb
                refine ⟨par, i, c, by simpa [nodeAt, hk] using h1, h2, by simpa [Precedes] using h3,
                  by simpa [Precedes] using h4, ?_⟩
                exact h5.imp (fun h => (above_cons.1 h).2) (fun h => (above_cons.1 h).2)
          · have hlt' : a < b := by
              simp only [Precedes] at hlt
              rcases hlt with h | ⟨h, _⟩
              · exact h
              · exact absurd h hab
            rw [if_neg hab]
            simp only [Bool.or_eq_true, startStops_iff d t ht, endStops_iff e u hu, any_between]
            constructor
            · rintro ((⟨par, i, c, h1, h2, h3, h4⟩ | ⟨k, c, h1, h2, h3, h4⟩) | ⟨par, i, c, h1, h2, h3, h4⟩)
              · exact ⟨a :: par, i, c, by simp [nodeAt, hk, h1], h2, by simp [Precedes, h3], by simp [Precedes, hlt'],
                  .inl (above_cons.2 ⟨rfl, h4⟩)⟩
              · exact ⟨[], k, c, by simp [nodeAt, h3], h4, by simp [Precedes, h1], by simp [Precedes, h2], .inl nil_above⟩
              · exact ⟨b :: par, i, c, by simp [nodeAt, hk2, h1], h2, by simp [Precedes, hlt'], by simp [Precedes, h3],
                  .inr (above_cons.2 ⟨rfl, h4⟩)⟩
            · rintro ⟨par, i, c, h1, h2, h3, h4, h5⟩
              cases par with
              | nil =>
                simp only [List.nil_append, Precedes] at h3 h4
                have n1 := not_precedes_nil t
                have n2 := nil_not_precedes u
                refine .inl (.inr ⟨i, c, ?_, ?_, ?_, h2⟩)
                · rcases h3 with h | ⟨_, h⟩
                  · exact h
                  · contradiction
                · rcases h4 with h | ⟨_, h⟩
                  · exact h
                  · contradiction
                · simp only [List.nil_append, nodeAt] at h1
                  cases hi : n.kids[i]? with
                  | none => simp [hi] at h1
                  | some e => simpa [hi] using h1
              | cons k par =>
                rcases h5 with h5 | h5
                · obtain ⟨rfl, h6⟩ := above_cons.1 h5
                  exact .inl (.inl ⟨par, i, c, by simpa [nodeAt, hk] using h1, h2, by simpa [Precedes] using h3, h6⟩)
                · obtain ⟨rfl, h6⟩ := above_cons.1 h5
                  exact .inr ⟨par, i, c, by simpa [nodeAt, hk2] using h1, h2, by simpa [Precedes] using h4, h6⟩

end Verif.Lemmas
