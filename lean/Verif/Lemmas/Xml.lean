import Verif.Spec.Xml
/-! Helper lemmas about XPath selection and `passageLoop`. -/
namespace Verif.Model
open Verif.Py Verif.Spec

theorem height_lt_of_mem {n c : Node} (h : c ∈ n.kids) : c.height < n.height := by
  cases n with
  | mk t a x ks y =>
    simp only [Node.kids] at h
    simp only [Node.height]
    suffices c.height ≤ heightAll ks by omega
    induction ks with
    | nil => simp at h
    | cons d r ih =>
      simp only [heightAll]
      rcases List.mem_cons.1 h with rfl | h
      · omega
      · have := ih h; omega

theorem height_pos (n : Node) : 0 < n.height := by cases n; simp [Node.height]

theorem kid_mem {n c : Node} {i : Nat} (h : n.kids[i]? = some c) : c ∈ n.kids := List.mem_of_getElem? h

mutual
theorem mem_paths (n : Node) (t : List Nat) : t ∈ n.paths ↔ t ≠ [] ∧ (nodeAt n t).isSome := by
  cases n with
  | mk tg a x ks y =>
    simp only [Node.paths]
    rw [mem_pathsFrom ks 0 t]
    cases t with
    | nil => simp
    | cons i t =>
      simp only [nodeAt, Node.kids]
      cases hk : ks[i]? with
      | none => simp [hk]
      | some c =>
        constructor
        · rintro ⟨k, u, d, h1, h2, h3⟩
          simp at h1
          obtain ⟨rfl, rfl⟩ := h1
          rw [hk] at h2; simp at h2; subst h2
          exact ⟨by simp, h3⟩
        · rintro ⟨_, h⟩
          exact ⟨i, t, c, by simp, hk, h⟩
theorem mem_pathsFrom (ks : List Node) (k : Nat) (t : List Nat) :
    t ∈ pathsFrom k ks ↔ ∃ i u c, t = (k + i) :: u ∧ ks[i]? = some c ∧ (nodeAt c u).isSome := by
  cases ks with
  | nil => simp [pathsFrom]
  | cons c r =>
    simp only [pathsFrom, List.cons_append, List.mem_cons, List.mem_append, List.mem_map]
    constructor
    · rintro (rfl | ⟨u, hu, rfl⟩ | h)
      · exact ⟨0, [], c, by simp, by simp, by simp [nodeAt]⟩
      · rw [mem_paths c u] at hu
        exact ⟨0, u, c, by simp, by simp, hu.2⟩
      · rw [mem_pathsFrom r (k + 1) t] at h
        obtain ⟨i, u, d, h1, h2, h3⟩ := h
        exact ⟨i + 1, u, d, by rw [h1]; congr 1; omega, by simpa using h2, h3⟩
    · rintro ⟨i, u, d, rfl, h2, h3⟩
      cases i with
      | zero =>
        simp at h2; subst h2
        cases u with
        | nil => simp
        | cons j u => exact Or.inr (Or.inl ⟨j :: u, by rw [mem_paths]; exact ⟨by simp, h3⟩, by simp⟩)
      | succ i =>
        refine Or.inr (Or.inr ?_)
        rw [mem_pathsFrom r (k + 1)]
        exact ⟨i, u, d, by congr 1; omega, by simpa using h2, h3⟩
end

theorem matchPath_iff (n : Node) (p : List Step) (t : List Nat) : matchPath n p t = true ↔ Sel n p t := by
  induction t generalizing n p with
  | nil =>
    cases p with
    | nil => simp [matchPath]; exact .nil
    | cons s q => simp only [matchPath]; simp; intro h; cases h
  | cons i t ih =>
    cases p with
    | nil => simp only [matchPath]; simp; intro h; cases h
    | cons s q =>
      simp only [matchPath]
      cases hk : n.kids[i]? with
      | none =>
        simp only [Bool.false_eq_true, false_iff]
        intro h
        cases h with
        | child h1 _ _ => rw [hk] at h1; simp at h1
        | desc h1 _ _ => rw [hk] at h1; simp at h1
      | some c =>
        simp only [Bool.or_eq_true, Bool.and_eq_true]
        rw [ih, ih]
        constructor
        · rintro (⟨h1, h2⟩ | ⟨h1, h2⟩)
          · exact .child hk h1 h2
          · exact .desc hk h1 h2
        · intro h
          cases h with
          | child h1 h2 h3 => rw [hk] at h1; simp at h1; subst h1; exact Or.inl ⟨h2, h3⟩
          | desc h1 h2 h3 => rw [hk] at h1; simp at h1; subst h1; exact Or.inr ⟨h2, h3⟩

theorem sel_nodeAt {n : Node} {p : List Step} {t : List Nat} (h : Sel n p t) : (nodeAt n t).isSome := by
  induction h with
  | nil => simp [nodeAt]
  | child h1 _ _ ih => simp [nodeAt, h1, ih]
  | desc h1 _ _ ih => simp [nodeAt, h1, ih]

theorem sel_ne_nil {n : Node} {p : List Step} {t : List Nat} (h : Sel n p t) (hp : p ≠ []) : t ≠ [] := by
  cases h with
  | nil => exact absurd rfl hp
  | child _ _ _ => simp
  | desc _ _ _ => simp

theorem sel_nil {n : Node} {t : List Nat} : Sel n [] t ↔ t = [] := by
  constructor
  · intro h; cases h; rfl
  · rintro rfl; exact .nil

theorem mem_select {n : Node} {p : List Step} {t : List Nat} (hp : p ≠ []) : t ∈ select n p ↔ Sel n p t := by
  unfold select
  rw [List.mem_filter, matchPath_iff, mem_paths]
  exact ⟨fun h => h.2, fun h => ⟨⟨sel_ne_nil h hp, sel_nodeAt h⟩, h⟩⟩

theorem select_isEmpty {n : Node} {p : List Step} (hp : p ≠ []) :
    (!(select n p).isEmpty) = true ↔ ∃ t, Sel n p t := by
  simp only [Bool.not_eq_true', List.isEmpty_eq_false_iff_exists_mem, mem_select hp]

theorem stepHit_iff {s : Step} {q : List Step} {c : Node} :
    stepHit s q c = true ↔ s.test c = true ∧ ∃ t, Sel c q t := by
  unfold stepHit
  rw [Bool.and_eq_true]
  cases q with
  | nil => simp [sel_nil]
  | cons a q =>
    rw [Bool.or_eq_true, select_isEmpty (by simp)]
    simp

theorem mem_zipIdx {ks : List Node} {c : Node} {i : Nat} : (c, i) ∈ ks.zipIdx ↔ ks[i]? = some c := by
  rw [List.mem_zipIdx_iff_getElem?]

theorem firstResult_cases (l : List (Node × Nat)) :
    (l = [] ∧ firstResult l = .error .indexError) ∨ ∃ c i, (c, i) ∈ l ∧ firstResult l = .ok (c, i) := by
  cases l with
  | nil => exact Or.inl ⟨rfl, rfl⟩
  | cons a r => exact Or.inr ⟨a.1, a.2, by simp, rfl⟩

/-- `performXpath` finds the way to a uniquely selected element. -/
theorem stepInto_uniq {n : Node} {p : List Step} {i : Nat} {t : List Nat} (h : Uniq n p (i :: t)) :
    ∃ c q, stepInto n p = .ok (c, i, q) ∧ n.kids[i]? = some c ∧ Uniq c q t := by
  have hsel := (h (i :: t)).2 rfl
  cases p with
  | nil => rw [sel_nil] at hsel; simp at hsel
  | cons s q =>
    unfold stepInto
    simp only [performXpath]
    rcases firstResult_cases (n.kids.zipIdx.filter fun c => stepHit s q c.1) with ⟨he, hr⟩ | ⟨c, j, hm, hr⟩
    · have hno : ∀ (c : Node) (j : Nat), n.kids[j]? = some c → stepHit s q c = false := by
        intro c j hc
        have := List.filter_eq_nil_iff.1 he (c, j) (mem_zipIdx.2 hc)
        simpa using this
      rw [hr]
      simp only
      cases hsel with
      | child h1 h2 h3 =>
        have := hno _ _ h1
        rw [stepHit_iff.2 ⟨h2, _, h3⟩] at this
        simp at this
      | desc h1 h2 h3 =>
        rw [if_pos h2]
        rcases firstResult_cases (n.kids.zipIdx.filter fun c => !(select c.1 (s :: q)).isEmpty) with
          ⟨he, _⟩ | ⟨c, j, hm, hr⟩
        · have := List.filter_eq_nil_iff.1 he (_, i) (mem_zipIdx.2 h1)
          exact absurd ((select_isEmpty (by simp)).2 ⟨_, h3⟩) this
        · rw [hr]
          simp only [List.mem_filter] at hm
          rw [mem_zipIdx, select_isEmpty (by simp)] at hm
          obtain ⟨hk, u, hu⟩ := hm
          have e := (h _).1 (.desc hk h2 hu)
          simp at e
          obtain ⟨rfl, rfl⟩ := e
          refine ⟨c, s :: q, rfl, hk, fun v => ⟨fun hv => ?_, fun hv => hv ▸ hu⟩⟩
          have e := (h _).1 (.desc hk h2 hv)
          simpa using e
    · rw [hr]
      simp only [List.mem_filter] at hm
      rw [mem_zipIdx, stepHit_iff] at hm
      obtain ⟨hk, ht, u, hu⟩ := hm
      have e := (h _).1 (.child hk ht hu)
      simp at e
      obtain ⟨rfl, rfl⟩ := e
      refine ⟨c, q, rfl, hk, fun v => ⟨fun hv => ?_, fun hv => hv ▸ hu⟩⟩
      have e := (h _).1 (.child hk ht hv)
      simpa using e

/-- `performXpath` fails when nothing is selected. -/
theorem stepInto_none {n : Node} {p : List Step} (h : ∀ t, ¬ Sel n p t) :
    stepInto n p = .error .indexError := by
  cases p with
  | nil => exact absurd .nil (h [])
  | cons s q =>
    unfold stepInto
    simp only [performXpath]
    rcases firstResult_cases (n.kids.zipIdx.filter fun c => stepHit s q c.1) with ⟨he, hr⟩ | ⟨c, j, hm, hr⟩
    · rw [hr]
      simp only
      by_cases hd : s.desc = true
      · rw [if_pos hd]
        rcases firstResult_cases (n.kids.zipIdx.filter fun c => !(select c.1 (s :: q)).isEmpty) with
          ⟨he, hr⟩ | ⟨c, j, hm, hr⟩
        · rw [hr]
        · simp only [List.mem_filter] at hm
          rw [mem_zipIdx, select_isEmpty (by simp)] at hm
          obtain ⟨hk, u, hu⟩ := hm
          exact absurd (.desc hk hd hu) (h _)
      · rw [if_neg hd]
    · simp only [List.mem_filter] at hm
      rw [mem_zipIdx, stepHit_iff] at hm
      obtain ⟨hk, ht, u, hu⟩ := hm
      exact absurd (.child hk ht hu) (h _)

theorem sideLoop_succ (same : Same) (prec foll : Bool) (fuel : Nat) (parent : Node) (path : List Step) :
    sideLoop same prec foll (fuel + 1) parent path =
      match stepInto parent path with
      | .error e => .error e
      | .ok (c, i, queue) =>
        if prec || foll then
          sideSiblings (fun j => same parent j i)
            (if queue.isEmpty then .ok (copyFull c) else wrap c (sideLoop same prec foll fuel c queue))
            prec foll false parent.kids.zipIdx
        else .ok [] := by
  rw [sideLoop]
  unfold stepInto
  cases performXpath parent path <;> rfl

theorem copyFull_eq (n : Node) : copyFull n = complete n := by cases n; rfl

theorem copyBare_eq (n : Node) (ks : List Node) : copyBare ks n = emptied n ks := by cases n; rfl

theorem uniq_nil {n : Node} {t : List Nat} (h : Uniq n [] t) : t = [] := sel_nil.1 ((h t).2 rfl)

theorem uniq_ne_nil {n : Node} {p : List Step} {t : List Nat} (h : Uniq n p t) (hp : p ≠ []) : t ≠ [] :=
  sel_ne_nil ((h t).2 rfl) hp

theorem uniq_isEmpty {n : Node} {p : List Step} {t : List Nat} (h : Uniq n p t) : p.isEmpty = true ↔ t = [] := by
  cases p with
  | nil => simp [uniq_nil h]
  | cons s q => simp [uniq_ne_nil h]

/-- A single passage. -/
theorem pairLoop_same (same : Same) (hr : ∀ n i, same n i i = true) (fuel : Nat) (n : Node) (p : List Step)
    (t : List Nat) (hf : n.height ≤ fuel) (hp : p ≠ []) (h : Uniq n p t) :
    pairLoop same fuel n p p = .ok (chainTo n t) := by
  induction fuel generalizing n p t with
  | zero => have := height_pos n; omega
  | succ fuel ih =>
    obtain ⟨i, t, rfl⟩ : ∃ i u, t = i :: u := by
      cases t with
      | nil => exact absurd rfl (uniq_ne_nil h hp)
      | cons i u => exact ⟨i, u, rfl⟩
    obtain ⟨c, q, h1, h2, h3⟩ := stepInto_uniq h
    rw [pairLoop, h1]
    simp only [if_true, hr]
    by_cases hq : q.isEmpty = true
    · have ht := (uniq_isEmpty h3).1 hq
      subst ht
      simp [hq, chainTo, h2, copyFull_eq]
    · have ht : t ≠ [] := fun e => hq ((uniq_isEmpty h3).2 e)
      have hq' : q ≠ [] := by rintro rfl; simp at hq
      have := height_lt_of_mem (kid_mem h2)
      rw [if_neg hq, ih c q t (by omega) hq' h3]
      simp [chainTo, h2, ht, copyBare_eq]

theorem pairLoop_none (same : Same) (fuel : Nat) (n : Node) (p q : List Step) (h : ∀ t, ¬ Sel n p t) :
    pairLoop same fuel n p q = .error .indexError := by
  cases fuel with
  | zero => rfl
  | succ fuel => rw [pairLoop, stepInto_none h]

/-! ### Ranges -/

theorem sideSiblings_after (eq : Nat → Bool) (mid : Except PyErr Node) (ks : List Node) (k : Nat)
    (h : ∀ j, k ≤ j → j < k + ks.length → eq j = false) :
    sideSiblings eq mid false true true (ks.zipIdx k) = .ok (ks.map complete) := by
  induction ks generalizing k with
  | nil => rfl
  | cons c r ih =>
    have hk := h k (by omega) (by simp)
    rw [List.zipIdx_cons]
    simp only [sideSiblings, hk]
    rw [ih (k + 1) (fun j h1 h2 => h j (by omega) (by simp; omega))]
    simp [copyFull_eq]

theorem sideSiblings_foll (eq : Nat → Bool) (m : Node) (ks : List Node) (k i : Nat) (h1 : k ≤ i)
    (h2 : i < k + ks.length) (h : ∀ j, k ≤ j → j < k + ks.length → (eq j = true ↔ j = i)) :
    sideSiblings eq (.ok m) false true false (ks.zipIdx k) = .ok (m :: (ks.drop (i - k + 1)).map complete) := by
  induction ks generalizing k with
  | nil => simp at h2; omega
  | cons c r ih =>
    simp at h2
    rw [List.zipIdx_cons]
    by_cases hk : k = i
    · subst hk
      simp only [sideSiblings, (h k (by omega) (by simp)).2 rfl]
      rw [sideSiblings_after eq _ r (k + 1)]
      · simp
      · intro j h3 h4
        have := h j (by omega) (by simp; omega)
        cases hj : eq j with
        | false => rfl
        | true => have := this.1 hj; omega
    · have he : eq k = false := by
        cases hj : eq k with
        | false => rfl
        | true => exact absurd ((h k (by omega) (by simp)).1 hj) hk
      simp only [sideSiblings, he]
      rw [show i - k + 1 = (i - (k + 1) + 1) + 1 by omega, List.drop_succ_cons]
      simp only [Bool.false_eq_true, Bool.and_false, if_false, Bool.false_and]
      exact ih (k + 1) (by omega) (by omega) (fun j h3 h4 => h j (by omega) (by simp; omega))

theorem sideSiblings_prec (eq : Nat → Bool) (m : Node) (ks : List Node) (k i : Nat) (h1 : k ≤ i)
    (h2 : i < k + ks.length) (h : ∀ j, k ≤ j → j < k + ks.length → (eq j = true ↔ j = i)) :
    sideSiblings eq (.ok m) true false false (ks.zipIdx k) = .ok ((ks.take (i - k)).map complete ++ [m]) := by
  induction ks generalizing k with
  | nil => simp at h2; omega
  | cons c r ih =>
    simp at h2
    rw [List.zipIdx_cons]
    by_cases hk : k = i
    · subst hk
      simp [sideSiblings, (h k (by omega) (by simp)).2 rfl]
    · have he : eq k = false := by
        cases hj : eq k with
        | false => rfl
        | true => exact absurd ((h k (by omega) (by simp)).1 hj) hk
      simp only [sideSiblings, he]
      rw [show i - k = (i - (k + 1)) + 1 by omega, List.take_succ_cons]
      simp only [Bool.false_eq_true, if_false, Bool.not_false, Bool.and_self, if_true]
      rw [ih (k + 1) (by omega) (by omega) (fun j h3 h4 => h j (by omega) (by simp; omega))]
      simp [copyFull_eq]

theorem rangeSiblings_after (eq1 eq2 : Nat → Bool) (first : Node → Except PyErr Node) (ks : List Node)
    (k i : Nat) (h1 : k ≤ i) (h2 : i < k + ks.length) (h : ∀ j, k ≤ j → j < k + ks.length → (eq2 j = true ↔ j = i)) :
    rangeSiblings eq1 eq2 first true (ks.zipIdx k) = .ok ((ks.take (i - k)).map complete) := by
  induction ks generalizing k with
  | nil => simp at h2; omega
  | cons c r ih =>
    simp at h2
    rw [List.zipIdx_cons]
    by_cases hk : k = i
    · subst hk
      simp [rangeSiblings, (h k (by omega) (by simp)).2 rfl]
    · have he : eq2 k = false := by
        cases hj : eq2 k with
        | false => rfl
        | true => exact absurd ((h k (by omega) (by simp)).1 hj) hk
      simp only [rangeSiblings, he]
      rw [show i - k = (i - (k + 1)) + 1 by omega, List.take_succ_cons]
      simp only [Bool.false_eq_true, if_false]
      rw [ih (k + 1) (by omega) (by omega) (fun j h3 h4 => h j (by omega) (by simp; omega))]
      simp [copyFull_eq]

theorem rangeSiblings_eq (eq1 eq2 : Nat → Bool) (first : Node → Except PyErr Node) (ks : List Node)
    (k i1 i2 : Nat) (c m : Node) (h1 : k ≤ i1) (h12 : i1 < i2) (h2 : i2 < k + ks.length)
    (hc : ks[i1 - k]? = some c) (hm : first c = .ok m)
    (he1 : ∀ j, k ≤ j → j < k + ks.length → (eq1 j = true ↔ j = i1))
    (he2 : ∀ j, k ≤ j → j < k + ks.length → (eq2 j = true ↔ j = i2)) :
    rangeSiblings eq1 eq2 first false (ks.zipIdx k) =
      .ok (m :: ((ks.drop (i1 - k + 1)).take (i2 - i1 - 1)).map complete) := by
  induction ks generalizing k with
  | nil => simp at h2; omega
  | cons d r ih =>
    simp at h2
    rw [List.zipIdx_cons]
    by_cases hk : k = i1
    · subst hk
      simp at hc; subst hc
      simp only [rangeSiblings, (he1 k (by omega) (by simp)).2 rfl, if_true, hm]
      rw [rangeSiblings_after eq1 eq2 first r (k + 1) i2 (by omega) (by omega)
        (fun j h3 h4 => he2 j (by omega) (by simp; omega))]
      simp [show i2 - (k + 1) = i2 - k - 1 by omega]
    · have he : eq1 k = false := by
        cases hj : eq1 k with
        | false => rfl
        | true => exact absurd ((he1 k (by omega) (by simp)).1 hj) hk
      simp only [rangeSiblings, he]
      rw [show i1 - k + 1 = (i1 - (k + 1) + 1) + 1 by omega, List.drop_succ_cons]
      rw [show i1 - k = (i1 - (k + 1)) + 1 by omega, List.getElem?_cons_succ] at hc
      simp only [Bool.false_eq_true, if_false]
      exact ih (k + 1) (by omega) (by omega) hc (fun j h3 h4 => he1 j (by omega) (by simp; omega))
        (fun j h3 h4 => he2 j (by omega) (by simp; omega))

/-- What the start side of a range keeps below an element. -/
def startKids (n : Node) : List Nat → List Node
  | [] => []
  | i :: t =>
    match n.kids[i]? with
    | none => []
    | some c => (if t = [] then complete c else emptied c (startKids c t)) :: (n.kids.drop (i + 1)).map complete

/-- What the end side of a range keeps below an element. -/
def endKids (n : Node) : List Nat → List Node
  | [] => []
  | i :: t =>
    match n.kids[i]? with
    | none => []
    | some c => (n.kids.take i).map complete ++ [if t = [] then complete c else emptied c (endKids c t)]

/-- What a range keeps below an element. -/
def rangeKids (n : Node) : List Nat → List Nat → List Node
  | i :: t, j :: u =>
    match n.kids[i]?, n.kids[j]? with
    | some c, some d =>
      if i = j then [emptied c (rangeKids c t u)]
      else (if t = [] then complete c else emptied c (startKids c t)) ::
        ((n.kids.drop (i + 1)).take (j - i - 1)).map complete ++
        [if u = [] then complete d else emptied d (endKids d u)]
    | _, _ => []
  | _, _ => []

theorem tellsApart_kid {same : Same} {n c : Node} {i : Nat} (h : TellsApart same n) (hk : n.kids[i]? = some c) :
    TellsApart same c := by
  intro pos p hp
  exact h (i :: pos) p (by simp [nodeAt, hk, hp])

theorem tellsApart_self {same : Same} {n : Node} (h : TellsApart same n) (i j : Nat) (hi : i < n.kids.length)
    (hj : j < n.kids.length) : same n i j = true ↔ i = j := h [] n rfl i j hi hj

theorem lt_of_kid {n c : Node} {i : Nat} (h : n.kids[i]? = some c) : i < n.kids.length :=
  (List.getElem?_eq_some_iff.1 h).1

theorem sideLoop_foll (same : Same) (fuel : Nat) (n : Node) (p : List Step) (t : List Nat)
    (hf : n.height ≤ fuel) (hp : p ≠ []) (h : Uniq n p t) (hs : TellsApart same n) :
    sideLoop same false true fuel n p = .ok (startKids n t) := by
  induction fuel generalizing n p t with
  | zero => have := height_pos n; omega
  | succ fuel ih =>
    obtain ⟨i, t, rfl⟩ : ∃ i u, t = i :: u := by
      cases t with
      | nil => exact absurd rfl (uniq_ne_nil h hp)
      | cons i u => exact ⟨i, u, rfl⟩
    obtain ⟨c, q, h1, h2, h3⟩ := stepInto_uniq h
    rw [sideLoop_succ, h1]
    simp only [Bool.or_true, if_true]
    have hi := lt_of_kid h2
    have hmid : (if q.isEmpty then .ok (copyFull c) else wrap c (sideLoop same false true fuel c q)) =
        (.ok (if t = [] then complete c else emptied c (startKids c t)) : Except PyErr Node) := by
      by_cases hq : q.isEmpty = true
      · simp [hq, (uniq_isEmpty h3).1 hq, copyFull_eq]
      · have ht : t ≠ [] := fun e => hq ((uniq_isEmpty h3).2 e)
        have hq' : q ≠ [] := by rintro rfl; simp at hq
        have := height_lt_of_mem (kid_mem h2)
        rw [if_neg hq, if_neg ht, ih c q t (by omega) hq' h3 (tellsApart_kid hs h2)]
        simp [wrap, copyBare_eq]
    rw [hmid, sideSiblings_foll _ _ n.kids 0 i (by omega) (by omega)
      (fun j _ hj => tellsApart_self hs j i (by omega) hi)]
    simp [startKids, h2]

theorem sideLoop_prec (same : Same) (fuel : Nat) (n : Node) (p : List Step) (t : List Nat)
    (hf : n.height ≤ fuel) (hp : p ≠ []) (h : Uniq n p t) (hs : TellsApart same n) :
    sideLoop same true false fuel n p = .ok (endKids n t) := by
  induction fuel generalizing n p t with
  | zero => have := height_pos n; omega
  | succ fuel ih =>
    obtain ⟨i, t, rfl⟩ : ∃ i u, t = i :: u := by
      cases t with
      | nil => exact absurd rfl (uniq_ne_nil h hp)
      | cons i u => exact ⟨i, u, rfl⟩
    obtain ⟨c, q, h1, h2, h3⟩ := stepInto_uniq h
    rw [sideLoop_succ, h1]
    simp only [Bool.true_or, if_true]
    have hi := lt_of_kid h2
    have hmid : (if q.isEmpty then .ok (copyFull c) else wrap c (sideLoop same true false fuel c q)) =
        (.ok (if t = [] then complete c else emptied c (endKids c t)) : Except PyErr Node) := by
      by_cases hq : q.isEmpty = true
      · simp [hq, (uniq_isEmpty h3).1 hq, copyFull_eq]
      · have ht : t ≠ [] := fun e => hq ((uniq_isEmpty h3).2 e)
        have hq' : q ≠ [] := by rintro rfl; simp at hq
        have := height_lt_of_mem (kid_mem h2)
        rw [if_neg hq, if_neg ht, ih c q t (by omega) hq' h3 (tellsApart_kid hs h2)]
        simp [wrap, copyBare_eq]
    rw [hmid, sideSiblings_prec _ _ n.kids 0 i (by omega) (by omega)
      (fun j _ hj => tellsApart_self hs j i (by omega) hi)]
    simp [endKids, h2]

theorem precedes_irrefl (t : List Nat) : ¬ Precedes t t := by
  induction t with
  | nil => simp [Precedes]
  | cons i t ih => simp [Precedes, ih]

theorem pairLoop_range (same : Same) (fuel : Nat) (n : Node) (p1 p2 : List Step) (t1 t2 : List Nat)
    (hf : n.height ≤ fuel) (h1 : Uniq n p1 t1) (h2 : Uniq n p2 t2) (hlt : Precedes t1 t2)
    (hs : TellsApart same n) : pairLoop same fuel n p1 p2 = .ok (rangeKids n t1 t2) := by
  induction fuel generalizing n p1 p2 t1 t2 with
  | zero => have := height_pos n; omega
  | succ fuel ih =>
    match t1, t2, hlt with
    | i :: t, j :: u, hlt =>
    obtain ⟨c, q1, ha1, ha2, ha3⟩ := stepInto_uniq h1
    obtain ⟨d, q2, hb1, hb2, hb3⟩ := stepInto_uniq h2
    have hne : p1 ≠ p2 := by
      rintro rfl
      have := (h1 _).1 ((h2 _).2 rfl)
      rw [this] at hlt
      exact precedes_irrefl _ hlt
    rw [pairLoop, ha1]
    simp only
    rw [if_neg hne, hb1]
    simp only
    have hi := lt_of_kid ha2
    have hj := lt_of_kid hb2
    have hc := height_lt_of_mem (kid_mem ha2)
    have hd := height_lt_of_mem (kid_mem hb2)
    have hsame := tellsApart_self hs i j hi hj
    by_cases hij : i = j
    · subst hij
      rw [ha2] at hb2; simp at hb2; subst hb2
      rw [if_pos (hsame.2 rfl)]
      have hlt' : Precedes t u := by simpa [Precedes] using hlt
      have ht : t ≠ [] := by rintro rfl; simp [Precedes] at hlt'
      have hq : ¬ q1.isEmpty = true := fun e => ht ((uniq_isEmpty ha3).1 e)
      rw [if_neg hq, ih c q1 q2 t u (by omega) ha3 hb3 hlt' (tellsApart_kid hs ha2)]
      simp [rangeKids, ha2, copyBare_eq]
    · rw [if_neg (fun e => hij (hsame.1 e))]
      have hlt' : i < j := by
        simp only [Precedes] at hlt
        rcases hlt with h | ⟨h, _⟩
        · exact h
        · exact absurd h hij
      unfold rangeBranch
      have hfirst : (if q1.isEmpty then .ok (copyFull c) else wrap c (sideLoop same false true fuel c q1)) =
          (.ok (if t = [] then complete c else emptied c (startKids c t)) : Except PyErr Node) := by
        by_cases hq : q1.isEmpty = true
        · simp [hq, (uniq_isEmpty ha3).1 hq, copyFull_eq]
        · have ht : t ≠ [] := fun e => hq ((uniq_isEmpty ha3).2 e)
          have hq' : q1 ≠ [] := by rintro rfl; simp at hq
          rw [if_neg hq, if_neg ht, sideLoop_foll same fuel c q1 t (by omega) hq' ha3 (tellsApart_kid hs ha2)]
          simp [wrap, copyBare_eq]
      have hlast : (if q2.isEmpty then .ok (copyFull d) else wrap d (sideLoop same true false fuel d q2)) =
          (.ok (if u = [] then complete d else emptied d (endKids d u)) : Except PyErr Node) := by
        by_cases hq : q2.isEmpty = true
        · simp [hq, (uniq_isEmpty hb3).1 hq, copyFull_eq]
        · have ht : u ≠ [] := fun e => hq ((uniq_isEmpty hb3).2 e)
          have hq' : q2 ≠ [] := by rintro rfl; simp at hq
          rw [if_neg hq, if_neg ht, sideLoop_prec same fuel d q2 u (by omega) hq' hb3 (tellsApart_kid hs hb2)]
          simp [wrap, copyBare_eq]
      rw [rangeSiblings_eq _ _ _ n.kids 0 i j c _ (by omega) hlt' (by omega) (by simpa using ha2) hfirst
        (fun k _ hk => tellsApart_self hs k i (by omega) hi) (fun k _ hk => tellsApart_self hs k j (by omega) hj),
        hlast]
      simp [rangeKids, ha2, hb2, hij]

/-! ### The cut -/

theorem docLe_append (a t u : List Nat) : docLe (a ++ t) (a ++ u) = docLe t u := by
  induction a with
  | nil => rfl
  | cons i a ih => simp [docLe, ih]

theorem above_append (a t u : List Nat) : Above (a ++ t) (a ++ u) ↔ Above t u := by
  simp [Above, List.prefix_append_right_inj]

theorem not_above_of_precedes {t u : List Nat} (h : Precedes t u) (v : List Nat) :
    ¬ Above (t ++ v) u ∧ ¬ Above (u ++ v) t ∧ docLe (t ++ v) u = true ∧ docLe u (t ++ v) = false ∧
      docLe t (u ++ v) = true ∧ docLe (u ++ v) t = false := by
  induction t generalizing u with
  | nil => simp [Precedes] at h
  | cons i t ih =>
    cases u with
    | nil => simp [Precedes] at h
    | cons j u =>
      simp only [Precedes] at h
      by_cases hij : i = j
      · subst hij
        have h' : Precedes t u := by simpa using h
        obtain ⟨h1, h2, h3, h4, h5, h6⟩ := ih h'
        refine ⟨?_, ?_, ?_, ?_, ?_, ?_⟩
        · intro ha; exact h1 (by simpa [Above, List.cons_prefix_cons] using ha)
        · intro ha; exact h2 (by simpa [Above, List.cons_prefix_cons] using ha)
        all_goals simp [docLe, *]
      · have hlt : i < j := by
          rcases h with h | ⟨h, _⟩
          · exact h
          · exact absurd h hij
        have hij' : ¬ j = i := fun e => hij e.symm
        have hnl : ¬ j < i := by omega
        simp [Above, List.cons_prefix_cons, docLe, hij, hij', hlt, hnl]

theorem cutNode_eq (st en pos : List Nat) (n : Node) : cutNode st en pos n =
    if Above pos st ∨ Above pos en then [emptied n (cutKids st en pos 0 n.kids)]
    else if docLe st pos && docLe pos en then [complete n] else [] := by
  cases n; simp only [cutNode, Node.kids]

/-- Children that all lie between the ends. -/
theorem cutKids_full (st en pos : List Nat) (k : Nat) (ks : List Node)
    (h : ∀ j, k ≤ j → j < k + ks.length → ¬ Above (pos ++ [j]) st ∧ ¬ Above (pos ++ [j]) en ∧
      docLe st (pos ++ [j]) = true ∧ docLe (pos ++ [j]) en = true) :
    cutKids st en pos k ks = ks.map complete := by
  induction ks generalizing k with
  | nil => simp [cutKids]
  | cons c r ih =>
    obtain ⟨h1, h2, h3, h4⟩ := h k (by omega) (by simp)
    rw [cutKids, cutNode_eq, if_neg (by simp [h1, h2]), ih (k + 1) (fun j a b => h j (by omega) (by simp; omega))]
    simp [h3, h4]

/-- Children that all lie outside. -/
theorem cutKids_none (st en pos : List Nat) (k : Nat) (ks : List Node)
    (h : ∀ j, k ≤ j → j < k + ks.length → ¬ Above (pos ++ [j]) st ∧ ¬ Above (pos ++ [j]) en ∧
      (docLe st (pos ++ [j]) = false ∨ docLe (pos ++ [j]) en = false)) :
    cutKids st en pos k ks = [] := by
  induction ks generalizing k with
  | nil => simp [cutKids]
  | cons c r ih =>
    obtain ⟨h1, h2, h3⟩ := h k (by omega) (by simp)
    rw [cutKids, cutNode_eq, if_neg (by simp [h1, h2]), ih (k + 1) (fun j a b => h j (by omega) (by simp; omega))]
    rcases h3 with h3 | h3 <;> simp [h3]

theorem cutKids_append (st en pos : List Nat) (k : Nat) (a b : List Node) :
    cutKids st en pos k (a ++ b) = cutKids st en pos k a ++ cutKids st en pos (k + a.length) b := by
  induction a generalizing k with
  | nil => simp [cutKids]
  | cons c r ih =>
    simp only [List.cons_append, cutKids, ih, List.append_assoc, List.length_cons]
    rw [show k + 1 + r.length = k + (r.length + 1) by omega]

theorem above_single {j i : Nat} {t : List Nat} : Above [j] (i :: t) ↔ j = i ∧ t ≠ [] := by
  constructor
  · rintro ⟨h1, h2⟩
    rw [List.cons_prefix_cons] at h1
    refine ⟨h1.1, ?_⟩
    rintro rfl
    exact h2 (by simp [h1.1])
  · rintro ⟨rfl, h⟩
    exact ⟨by simp, by simpa using Ne.symm h⟩

theorem kids_split {n c : Node} {i : Nat} (h : n.kids[i]? = some c) :
    n.kids = n.kids.take i ++ c :: n.kids.drop (i + 1) := by
  obtain ⟨hi, rfl⟩ := List.getElem?_eq_some_iff.1 h
  simp

/-- Positions below `pos`, on the start side. -/
theorem start_facts {pos en : List Nat} (he : Precedes pos en) (i : Nat) (t : List Nat) (j : Nat) :
    (Above (pos ++ [j]) (pos ++ i :: t) ↔ j = i ∧ t ≠ []) ∧ ¬ Above (pos ++ [j]) en ∧
    docLe (pos ++ i :: t) (pos ++ [j]) = (decide (i < j) || (i == j && t.isEmpty)) ∧ docLe (pos ++ [j]) en = true := by
  obtain ⟨h1, _, h3, _⟩ := not_above_of_precedes he [j]
  refine ⟨?_, h1, ?_, h3⟩
  · rw [above_append, above_single]
  · rw [docLe_append]; cases t <;> simp [docLe]

theorem end_facts {pos st : List Nat} (he : Precedes st pos) (i : Nat) (t : List Nat) (j : Nat) :
    (Above (pos ++ [j]) (pos ++ i :: t) ↔ j = i ∧ t ≠ []) ∧ ¬ Above (pos ++ [j]) st ∧
    docLe (pos ++ [j]) (pos ++ i :: t) = (decide (j < i) || (j == i)) ∧ docLe st (pos ++ [j]) = true := by
  obtain ⟨_, h2, _, _, h5, _⟩ := not_above_of_precedes he [j]
  refine ⟨?_, h2, ?_, h5⟩
  · rw [above_append, above_single]
  · rw [docLe_append]; simp [docLe]

theorem precedes_append {t u : List Nat} (h : Precedes t u) (v w : List Nat) : Precedes (t ++ v) (u ++ w) := by
  induction t generalizing u with
  | nil => simp [Precedes] at h
  | cons i t ih =>
    cases u with
    | nil => simp [Precedes] at h
    | cons j u =>
      simp only [Precedes] at h
      simp only [List.cons_append, Precedes]
      rcases h with h | ⟨h, h'⟩
      · exact Or.inl h
      · exact Or.inr ⟨h, ih h'⟩

theorem precedes_diverge {i j : Nat} (h : i < j) (pos t u : List Nat) : Precedes (pos ++ i :: t) (pos ++ j :: u) := by
  induction pos with
  | nil => simp [Precedes, h]
  | cons a pos ih => simp [Precedes, ih]

theorem cut_start (n : Node) (t en pos : List Nat) (he : Precedes pos en) (ht : t ≠ []) (hn : (nodeAt n t).isSome) :
    cutKids (pos ++ t) en pos 0 n.kids = startKids n t := by
  induction t generalizing n pos with
  | nil => exact absurd rfl ht
  | cons i t ih =>
    simp only [nodeAt] at hn
    cases hk : n.kids[i]? with
    | none => simp [hk] at hn
    | some c =>
      simp only [hk] at hn
      have hi := lt_of_kid hk
      simp only [startKids, hk]
      conv => lhs; rw [kids_split hk]
      rw [cutKids_append, cutKids]
      have hl : (n.kids.take i).length = i := by simp; omega
      rw [hl, Nat.zero_add]
      rw [cutKids_none _ _ _ 0 (n.kids.take i), cutKids_full _ _ _ (i + 1)]
      · simp only [List.nil_append]
        rw [cutNode_eq]
        obtain ⟨h1, h2, h3, h4⟩ := start_facts he i t i
        by_cases ht' : t = []
        · subst ht'
          simp [h1, h2, h3, h4]
        · rw [if_pos (Or.inl (h1.2 ⟨rfl, ht'⟩)), if_neg ht']
          have := ih c (pos ++ [i]) (by simpa using precedes_append he [i] []) ht' hn
          rw [show pos ++ i :: t = pos ++ [i] ++ t by simp, this]
          rfl
      · intro j h5 h6
        obtain ⟨h1, h2, h3, h4⟩ := start_facts he i t j
        refine ⟨fun h => ?_, h2, ?_, h4⟩
        · have := (h1.1 h).1; omega
        · rw [h3]; simp; omega
      · intro j h5 h6
        rw [hl] at h6
        obtain ⟨h1, h2, h3, h4⟩ := start_facts he i t j
        refine ⟨fun h => ?_, h2, Or.inl ?_⟩
        · have := (h1.1 h).1; omega
        · rw [h3]; simp; omega

theorem cut_end (n : Node) (t st pos : List Nat) (he : Precedes st pos) (ht : t ≠ []) (hn : (nodeAt n t).isSome) :
    cutKids st (pos ++ t) pos 0 n.kids = endKids n t := by
  induction t generalizing n pos with
  | nil => exact absurd rfl ht
  | cons i t ih =>
    simp only [nodeAt] at hn
    cases hk : n.kids[i]? with
    | none => simp [hk] at hn
    | some c =>
      simp only [hk] at hn
      have hi := lt_of_kid hk
      simp only [endKids, hk]
      conv => lhs; rw [kids_split hk]
      rw [cutKids_append, cutKids]
      have hl : (n.kids.take i).length = i := by simp; omega
      rw [hl, Nat.zero_add]
      rw [cutKids_none _ _ _ (i + 1) (n.kids.drop (i + 1)), cutKids_full _ _ _ 0]
      · congr 1
        simp only [List.append_nil]
        rw [cutNode_eq]
        obtain ⟨h1, h2, h3, h4⟩ := end_facts he i t i
        by_cases ht' : t = []
        · subst ht'
          simp [h1, h2, h3, h4]
        · rw [if_pos (Or.inr (h1.2 ⟨rfl, ht'⟩)), if_neg ht']
          have := ih c (pos ++ [i]) (by simpa using precedes_append he [] [i]) ht' hn
          rw [show pos ++ i :: t = pos ++ [i] ++ t by simp, this]
      · intro j h5 h6
        rw [hl] at h6
        obtain ⟨h1, h2, h3, h4⟩ := end_facts he i t j
        refine ⟨h2, fun h => ?_, h4, ?_⟩
        · have := (h1.1 h).1; omega
        · rw [h3]; simp; omega
      · intro j h5 h6
        obtain ⟨h1, h2, h3, h4⟩ := end_facts he i t j
        refine ⟨h2, fun h => ?_, Or.inr ?_⟩
        · have := (h1.1 h).1; omega
        · rw [h3]; simp; omega

/-- The structural description is the cut. -/
theorem cut_range (n : Node) (t u pos : List Nat) (h : Precedes t u) (ht : (nodeAt n t).isSome)
    (hu : (nodeAt n u).isSome) :
    cutKids (pos ++ t) (pos ++ u) pos 0 n.kids = rangeKids n t u := by
  induction t generalizing n pos u with
  | nil => simp [Precedes] at h
  | cons i t ih =>
    cases u with
    | nil => simp [Precedes] at h
    | cons j u =>
      simp only [nodeAt] at ht hu
      cases hk : n.kids[i]? with
      | none => simp [hk] at ht
      | some c =>
      cases hk2 : n.kids[j]? with
      | none => simp [hk2] at hu
      | some d =>
      simp only [hk] at ht
      simp only [hk2] at hu
      have hi := lt_of_kid hk
      have hj := lt_of_kid hk2
      have facts : ∀ k, (Above (pos ++ [k]) (pos ++ i :: t) ↔ k = i ∧ t ≠ []) ∧
          (Above (pos ++ [k]) (pos ++ j :: u) ↔ k = j ∧ u ≠ []) ∧
          docLe (pos ++ i :: t) (pos ++ [k]) = (decide (i < k) || (i == k && t.isEmpty)) ∧
          docLe (pos ++ [k]) (pos ++ j :: u) = (decide (k < j) || (k == j)) := by
        intro k
        refine ⟨by rw [above_append, above_single], by rw [above_append, above_single], ?_, ?_⟩
        · rw [docLe_append]; cases t <;> simp [docLe]
        · rw [docLe_append]; simp [docLe]
      simp only [rangeKids, hk, hk2]
      have hl : (n.kids.take i).length = i := by simp; omega
      by_cases hij : i = j
      · subst hij
        rw [hk] at hk2; simp at hk2; subst hk2
        have h' : Precedes t u := by simpa [Precedes] using h
        have ht' : t ≠ [] := by rintro rfl; simp [Precedes] at h'
        rw [if_pos rfl]
        conv => lhs; rw [kids_split hk]
        rw [cutKids_append, cutKids, hl, Nat.zero_add]
        rw [cutKids_none _ _ _ 0 (n.kids.take i), cutKids_none _ _ _ (i + 1)]
        · rw [cutNode_eq, if_pos (Or.inl ((facts i).1.2 ⟨rfl, ht'⟩))]
          have := ih c u (pos ++ [i]) h' ht hu
          rw [show pos ++ i :: t = pos ++ [i] ++ t by simp, show pos ++ i :: u = pos ++ [i] ++ u by simp, this]
          rfl
        · intro k h5 h6
          obtain ⟨h1, h2, h3, h4⟩ := facts k
          refine ⟨fun h => ?_, fun h => ?_, Or.inr ?_⟩
          · have := (h1.1 h).1; omega
          · have := (h2.1 h).1; omega
          · rw [h4]; simp; omega
        · intro k h5 h6
          rw [hl] at h6
          obtain ⟨h1, h2, h3, h4⟩ := facts k
          refine ⟨fun h => ?_, fun h => ?_, Or.inl ?_⟩
          · have := (h1.1 h).1; omega
          · have := (h2.1 h).1; omega
          · rw [h3]; simp; omega
      · have hlt : i < j := by
          simp only [Precedes] at h
          rcases h with h | ⟨h, _⟩
          · exact h
          · exact absurd h hij
        rw [if_neg hij]
        have hsplit2 : n.kids.drop (i + 1) =
            (n.kids.drop (i + 1)).take (j - i - 1) ++ d :: n.kids.drop (j + 1) := by
          have := List.take_append_drop (j - i - 1) (n.kids.drop (i + 1))
          rw [List.drop_drop, show i + 1 + (j - i - 1) = j by omega] at this
          have hd : n.kids.drop j = d :: n.kids.drop (j + 1) := by
            obtain ⟨_, rfl⟩ := List.getElem?_eq_some_iff.1 hk2
            rw [List.drop_eq_getElem_cons hj]
          rw [hd] at this
          exact this.symm
        have hl2 : ((n.kids.drop (i + 1)).take (j - i - 1)).length = j - i - 1 := by simp; omega
        conv => lhs; rw [kids_split hk, hsplit2]
        rw [cutKids_append, cutKids, cutKids_append, cutKids, hl, hl2, Nat.zero_add,
          show i + 1 + (j - i - 1) = j by omega]
        rw [cutKids_none _ _ _ 0 (n.kids.take i), cutKids_none _ _ _ (j + 1),
          cutKids_full _ _ _ (i + 1)]
        · simp only [List.nil_append, List.append_nil]
          have hA : cutNode (pos ++ i :: t) (pos ++ j :: u) (pos ++ [i]) c =
              [if t = [] then complete c else emptied c (startKids c t)] := by
            rw [cutNode_eq]
            obtain ⟨h1, h2, h3, h4⟩ := facts i
            have hne : ¬ Above (pos ++ [i]) (pos ++ j :: u) := fun e => hij (h2.1 e).1
            by_cases ht' : t = []
            · subst ht'
              simp [h1, hne, h3, h4, hlt]
            · rw [if_pos (Or.inl (h1.2 ⟨rfl, ht'⟩)), if_neg ht']
              have hp : Precedes (pos ++ [i]) (pos ++ j :: u) := precedes_diverge hlt pos [] u
              rw [show pos ++ i :: t = pos ++ [i] ++ t by simp, cut_start c t _ (pos ++ [i]) hp ht' ht]
          have hB : cutNode (pos ++ i :: t) (pos ++ j :: u) (pos ++ [j]) d =
              [if u = [] then complete d else emptied d (endKids d u)] := by
            rw [cutNode_eq]
            obtain ⟨h1, h2, h3, h4⟩ := facts j
            have hne : ¬ Above (pos ++ [j]) (pos ++ i :: t) := fun e => hij (h1.1 e).1.symm
            by_cases ht' : u = []
            · subst ht'
              simp [h2, hne, h3, h4, hlt]
            · rw [if_pos (Or.inr (h2.2 ⟨rfl, ht'⟩)), if_neg ht']
              have hp : Precedes (pos ++ i :: t) (pos ++ [j]) := precedes_diverge hlt pos t []
              rw [show pos ++ j :: u = pos ++ [j] ++ u by simp, cut_end d u _ (pos ++ [j]) hp ht' hu]
          rw [hA, hB]
          simp
        · intro k h5 h6
          rw [hl2] at h6
          obtain ⟨h1, h2, h3, h4⟩ := facts k
          refine ⟨fun h => ?_, fun h => ?_, ?_, ?_⟩
          · have := (h1.1 h).1; omega
          · have := (h2.1 h).1; omega
          · rw [h3]; simp; omega
          · rw [h4]; simp; omega
        · intro k h5 h6
          obtain ⟨h1, h2, h3, h4⟩ := facts k
          refine ⟨fun h => ?_, fun h => ?_, Or.inr ?_⟩
          · have := (h1.1 h).1; omega
          · have := (h2.1 h).1; omega
          · rw [h4]; simp; omega
        · intro k h5 h6
          rw [hl] at h6
          obtain ⟨h1, h2, h3, h4⟩ := facts k
          refine ⟨fun h => ?_, fun h => ?_, Or.inl ?_⟩
          · have := (h1.1 h).1; omega
          · have := (h2.1 h).1; omega
          · rw [h3]; simp; omega

end Verif.Model

namespace Verif.Model
open Verif.Py Verif.Spec

theorem stepInto_error {n : Node} {p : List Step} {e : PyErr} (h : stepInto n p = .error e) : e = .indexError := by
  cases p with
  | nil => simp [stepInto, performXpath] at h; exact h.symm
  | cons s q =>
    unfold stepInto at h
    simp only [performXpath] at h
    rcases firstResult_cases (n.kids.zipIdx.filter fun c => stepHit s q c.1) with ⟨he, hr⟩ | ⟨c, j, hm, hr⟩
    · rw [hr] at h
      simp only at h
      by_cases hd : s.desc = true
      · rw [if_pos hd] at h
        rcases firstResult_cases (n.kids.zipIdx.filter fun c => !(select c.1 (s :: q)).isEmpty) with
          ⟨he, hr⟩ | ⟨c, j, hm, hr⟩
        · rw [hr] at h; simp at h; exact h.symm
        · rw [hr] at h; simp at h
      · rw [if_neg hd] at h; simp at h; exact h.symm
    · rw [hr] at h; simp at h

theorem pairLoop_none_end (same : Same) (fuel : Nat) (n : Node) (p q : List Step) (h : ∀ t, ¬ Sel n q t) :
    pairLoop same fuel n p q = .error .indexError := by
  by_cases hpq : p = q
  · subst hpq; exact pairLoop_none same fuel n p p h
  · cases fuel with
    | zero => rfl
    | succ fuel =>
      rw [pairLoop]
      cases h1 : stepInto n p with
      | error e => simp [stepInto_error h1]
      | ok r =>
        obtain ⟨c, i, q1⟩ := r
        simp only
        rw [if_neg hpq, stepInto_none h]

/-! ### Document order -/

theorem docLe_refl (t : List Nat) : docLe t t = true := by
  induction t with
  | nil => rfl
  | cons i t ih => simp [docLe, ih]

theorem docLe_antisymm {t u : List Nat} (h1 : docLe t u = true) (h2 : docLe u t = true) : t = u := by
  induction t generalizing u with
  | nil => cases u with
    | nil => rfl
    | cons j u => simp [docLe] at h2
  | cons i t ih => cases u with
    | nil => simp [docLe] at h1
    | cons j u =>
      simp only [docLe, Bool.or_eq_true, decide_eq_true_eq, Bool.and_eq_true, beq_iff_eq] at h1 h2
      have : i = j := by omega
      subst this
      simp only [Nat.lt_irrefl, false_or, true_and] at h1 h2
      rw [ih h1 h2]

end Verif.Model

namespace Verif.Model
open Verif.Py Verif.Spec

theorem docLe_total (t u : List Nat) : docLe t u = true ∨ docLe u t = true := by
  induction t generalizing u with
  | nil => exact Or.inl rfl
  | cons i t ih => cases u with
    | nil => exact Or.inr rfl
    | cons j u =>
      simp only [docLe, Bool.or_eq_true, decide_eq_true_eq, Bool.and_eq_true, beq_iff_eq]
      rcases Nat.lt_trichotomy i j with h | h | h
      · exact Or.inl (Or.inl h)
      · subst h
        rcases ih u with h | h
        · exact Or.inl (Or.inr ⟨rfl, h⟩)
        · exact Or.inr (Or.inr ⟨rfl, h⟩)
      · exact Or.inr (Or.inl h)

theorem docLe_trans {t u v : List Nat} (h1 : docLe t u = true) (h2 : docLe u v = true) : docLe t v = true := by
  induction t generalizing u v with
  | nil => rfl
  | cons i t ih =>
    cases u with
    | nil => simp [docLe] at h1
    | cons j u =>
      cases v with
      | nil => simp [docLe] at h2
      | cons k v =>
        simp only [docLe, Bool.or_eq_true, decide_eq_true_eq, Bool.and_eq_true, beq_iff_eq] at h1 h2 ⊢
        rcases h1 with h1 | ⟨rfl, h1⟩
        · rcases h2 with h2 | ⟨rfl, h2⟩
          · exact Or.inl (Nat.lt_trans h1 h2)
          · exact Or.inl h1
        · rcases h2 with h2 | ⟨rfl, h2⟩
          · exact Or.inl h2
          · exact Or.inr ⟨rfl, ih h1 h2⟩

theorem pathsFrom_head (ks : List Node) (k : Nat) (t : List Nat) (h : t ∈ pathsFrom k ks) :
    ∃ i u, t = i :: u ∧ k ≤ i := by
  rw [mem_pathsFrom] at h
  obtain ⟨i, u, c, rfl, _⟩ := h
  exact ⟨k + i, u, rfl, by omega⟩

mutual
theorem paths_sorted : ∀ (n : Node), n.paths.Pairwise fun t u => docLe t u = true ∧ t ≠ u
  | .mk _ _ _ ks _ => by rw [Node.paths]; exact pathsFrom_sorted ks 0
theorem pathsFrom_sorted : ∀ (ks : List Node) (k : Nat), (pathsFrom k ks).Pairwise fun t u => docLe t u = true ∧ t ≠ u
  | [], _ => by simp [pathsFrom]
  | c :: r, k => by
    rw [pathsFrom, List.cons_append, List.pairwise_cons, List.pairwise_append, List.pairwise_map]
    refine ⟨?_, ?_, pathsFrom_sorted r (k + 1), ?_⟩
    · intro u hu
      rw [List.mem_append, List.mem_map] at hu
      rcases hu with ⟨v, hv, rfl⟩ | hu
      · refine ⟨by simp [docLe], ?_⟩
        have := ((mem_paths c v).1 hv).1
        simpa using fun h => this h
      · obtain ⟨i, u, rfl, hi⟩ := pathsFrom_head _ _ _ hu
        constructor
        · simp [docLe]; omega
        · simp; omega
    · refine (paths_sorted c).imp ?_
      rintro t u ⟨h1, h2⟩
      simp [docLe, h1, h2]
    · intro t ht u hu
      rw [List.mem_map] at ht
      obtain ⟨v, hv, rfl⟩ := ht
      obtain ⟨i, u, rfl, hi⟩ := pathsFrom_head _ _ _ hu
      constructor
      · simp [docLe]; omega
      · simp; omega
end

theorem select_sorted (n : Node) (p : List Step) :
    (select n p).Pairwise fun t u => docLe t u = true ∧ t ≠ u := (paths_sorted n).filter _

/-- Two strictly sorted lists with the same elements are equal. -/
theorem sorted_ext {l m : List (List Nat)} (hl : l.Pairwise fun t u => docLe t u = true ∧ t ≠ u)
    (hm : m.Pairwise fun t u => docLe t u = true ∧ t ≠ u) (h : ∀ t, t ∈ l ↔ t ∈ m) : l = m := by
  induction l generalizing m with
  | nil =>
    cases m with
    | nil => rfl
    | cons b m => exact absurd ((h b).2 (by simp)) (by simp)
  | cons a l ih =>
    cases m with
    | nil => exact absurd ((h a).1 (by simp)) (by simp)
    | cons b m =>
      rw [List.pairwise_cons] at hl hm
      have hab : a = b := by
        have h1 := (h a).1 (by simp)
        have h2 := (h b).2 (by simp)
        rw [List.mem_cons] at h1 h2
        rcases h1 with h1 | h1
        · exact h1
        · rcases h2 with h2 | h2
          · exact h2.symm
          · exact docLe_antisymm (hl.1 _ h2).1 (hm.1 _ h1).1
      subst hab
      rw [ih hl.2 hm.2]
      intro t
      have := h t
      rw [List.mem_cons, List.mem_cons] at this
      constructor
      · intro ht
        rcases this.1 (Or.inr ht) with e | e
        · exact absurd e.symm (hl.1 _ ht).2
        · exact e
      · intro ht
        rcases this.2 (Or.inr ht) with e | e
        · exact absurd e.symm (hm.1 _ ht).2
        · exact e

/-- The first child with a property, in a list with numbers. -/
theorem firstResult_first {ks : List Node} {f : Node → Bool} {i : Nat} {c : Node} (hi : ks[i]? = some c)
    (hc : f c = true) (hmin : ∀ (j : Nat) (d : Node), ks[j]? = some d → f d = true → i ≤ j) :
    firstResult (ks.zipIdx.filter fun x => f x.1) = .ok (c, i) := by
  have gen : ∀ (ks : List Node) (k i : Nat), ks[i]? = some c → (∀ (j : Nat) (d : Node), ks[j]? = some d → f d = true → i ≤ j) →
      firstResult ((ks.zipIdx k).filter fun x => f x.1) = .ok (c, k + i) := by
    intro ks
    induction ks with
    | nil => intro k i h; simp at h
    | cons d r ih =>
      intro k i h hmin
      rw [List.zipIdx_cons, List.filter_cons]
      by_cases hd : f d = true
      · have := hmin 0 d rfl hd
        have e : i = 0 := by omega
        subst e
        simp at h
        subst h
        simp [hd, firstResult]
      · simp only [hd]
        cases i with
        | zero => simp at h; subst h; exact absurd hc hd
        | succ i =>
          have := ih (k + 1) i (by simpa using h) (fun j d hj hf => by
            have := hmin (j + 1) d (by simpa using hj) hf
            omega)
          rw [show k + (i + 1) = k + 1 + i by omega]
          simpa using this
  have := gen ks 0 i hi hmin
  simpa using this

/-- For child steps, the element found is the first selected one in document order. -/
theorem pairLoop_first (same : Same) (hr : ∀ n i, same n i i = true) (fuel : Nat) (n : Node) (p : List Step)
    (t : List Nat) (hf : n.height ≤ fuel) (hp : p ≠ []) (hd : ∀ s ∈ p, s.desc = false) (h : Sel n p t)
    (hmin : ∀ u, Sel n p u → docLe t u = true) :
    pairLoop same fuel n p p = .ok (chainTo n t) := by
  induction fuel generalizing n p t with
  | zero => have := height_pos n; omega
  | succ fuel ih =>
    cases h with
    | nil => exact absurd rfl hp
    | desc _ h2 _ => exact absurd h2 (by simp [hd _ (List.mem_cons_self ..)])
    | @child _ c s q i t h1 h2 h3 =>
      have hfst : firstResult (n.kids.zipIdx.filter fun x => stepHit s q x.1) = .ok (c, i) := by
        apply firstResult_first h1 (stepHit_iff.2 ⟨h2, t, h3⟩)
        intro j d hj hs
        obtain ⟨ht, u, hu⟩ := stepHit_iff.1 hs
        have := hmin _ (.child hj ht hu)
        simp only [docLe, Bool.or_eq_true, decide_eq_true_eq, Bool.and_eq_true, beq_iff_eq] at this
        omega
      have hst : stepInto n (s :: q) = .ok (c, i, q) := by
        simp [stepInto, performXpath, hfst]
      rw [pairLoop, hst]
      simp only [if_true, hr]
      cases q with
      | nil => rw [sel_nil] at h3; subst h3; simp [chainTo, h1, copyFull_eq]
      | cons s2 q2 =>
        have ht : t ≠ [] := sel_ne_nil h3 (by simp)
        have := height_lt_of_mem (kid_mem h1)
        rw [if_neg (by simp), ih c (s2 :: q2) t (by omega) (by simp) (fun s hs => hd s (List.mem_cons_of_mem _ hs)) h3]
        · simp [chainTo, h1, ht, copyBare_eq]
        · intro u hu
          have := hmin _ (.child h1 h2 hu)
          simpa [docLe] using this

end Verif.Model

namespace Verif.Model
open Verif.Py Verif.Spec

theorem pairLoop_above_end (same : Same) (hr : ∀ n i, same n i i = true) (fuel : Nat) (n : Node) (p1 p2 : List Step)
    (t1 t2 : List Nat) (h1 : Uniq n p1 t1) (h2 : Uniq n p2 t2) (ha : Above t2 t1) :
    pairLoop same fuel n p1 p2 = .error .indexError := by
  induction fuel generalizing n p1 p2 t1 t2 with
  | zero => rfl
  | succ fuel ih =>
    obtain ⟨⟨v, rfl⟩, hne⟩ := ha
    cases t2 with
    | nil =>
      have : p2 = [] := by simpa using (uniq_isEmpty h2).2 rfl
      subst this
      rw [pairLoop]
      cases hs : stepInto n p1 with
      | error e => simp [stepInto_error hs]
      | ok r =>
        obtain ⟨c, i, q1⟩ := r
        simp only
        rw [if_neg]
        · simp [stepInto, performXpath]
        · rintro rfl
          simp [stepInto, performXpath] at hs
    | cons i u =>
      rw [List.cons_append] at h1
      obtain ⟨c1, q1, s1, k1, u1⟩ := stepInto_uniq h1
      obtain ⟨c2, q2, s2, k2, u2⟩ := stepInto_uniq h2
      rw [k1] at k2
      simp at k2
      subst k2
      have hp : p1 ≠ p2 := by
        rintro rfl
        have := (h2 _).1 ((h1 _).2 rfl)
        exact hne (by simpa using this.symm)
      have hv : v ≠ [] := by rintro rfl; simp at hne
      rw [pairLoop, s1]
      simp only
      rw [if_neg hp, s2]
      simp only [hr, if_true]
      rw [if_neg]
      · rw [ih c1 q1 q2 (u ++ v) u u1 u2 ⟨⟨v, rfl⟩, by simpa using hv⟩]
      · intro hq
        have := (uniq_isEmpty u1).1 hq
        simp at this
        exact hv this.2

theorem pairLoop_above_start (same : Same) (hr : ∀ n i, same n i i = true) (fuel : Nat) (n : Node) (p1 p2 : List Step)
    (t1 t2 : List Nat) (hf : n.height ≤ fuel) (hp1 : p1 ≠ []) (h1 : Uniq n p1 t1) (h2 : Uniq n p2 t2)
    (ha : Above t1 t2) : pairLoop same fuel n p1 p2 = .ok (chainTo n t1) := by
  induction fuel generalizing n p1 p2 t1 t2 with
  | zero => have := height_pos n; omega
  | succ fuel ih =>
    obtain ⟨⟨v, rfl⟩, hne⟩ := ha
    cases t1 with
    | nil => exact absurd rfl (uniq_ne_nil h1 hp1)
    | cons i u =>
      rw [List.cons_append] at h2
      obtain ⟨c1, q1, s1, k1, u1⟩ := stepInto_uniq h1
      obtain ⟨c2, q2, s2, k2, u2⟩ := stepInto_uniq h2
      rw [k1] at k2
      simp at k2
      subst k2
      have hp : p1 ≠ p2 := by
        rintro rfl
        have := (h2 _).1 ((h1 _).2 rfl)
        exact hne (by simpa using this)
      have hv : v ≠ [] := by rintro rfl; simp at hne
      rw [pairLoop, s1]
      simp only
      rw [if_neg hp, s2]
      simp only [hr, if_true]
      by_cases hq : q1.isEmpty = true
      · have ht := (uniq_isEmpty u1).1 hq
        subst ht
        simp [hq, chainTo, k1, copyFull_eq]
      · have ht : u ≠ [] := fun e => hq ((uniq_isEmpty u1).2 e)
        have hq' : q1 ≠ [] := by rintro rfl; simp at hq
        have := height_lt_of_mem (kid_mem k1)
        rw [if_neg hq, ih c1 q1 q2 u (u ++ v) (by omega) hq' u1 u2 ⟨⟨v, rfl⟩, by simpa using hv⟩]
        simp [chainTo, k1, ht, copyBare_eq]

end Verif.Model
