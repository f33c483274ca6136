import Verif.Spec.CitationHeap
import Verif.Lemmas.Str
/-!
Properties C19 and C24: roots of citations, matching references.
-/
namespace Verif.Props
open Verif.Py Verif.Model Verif.Spec

/-! Helpers -/

theorem climb_top {h : CHeap} {x t : Nat} (hc : Climb h x t) : (h t).root = none := by
  induction hc with
  | top h => exact h
  | up _ _ ih => exact ih

theorem climb_unique {h : CHeap} {x t t' : Nat} (hc : Climb h x t) (hc' : Climb h x t') : t = t' := by
  induction hc with
  | top h1 =>
    cases hc' with
    | top _ => rfl
    | up h2 _ => rw [h1] at h2; simp at h2
  | up h1 _ ih =>
    cases hc' with
    | top h2 => rw [h1] at h2; simp at h2
    | up h2 h3 => rw [h1] at h2; simp at h2; subst h2; exact ih h3

theorem foldl_setRoot (cs : List Nat) (p : Nat) (h : CHeap) (hp : p ∉ cs) (x : Nat) :
    (cs.foldl (fun h c => h.setRoot c (some (h.rootOf p))) h) x =
      if x ∈ cs then { h x with root := some (h.rootOf p) } else h x := by
  induction cs generalizing h with
  | nil => simp
  | cons c r ih =>
    simp at hp
    have hpr : (h.setRoot c (some (h.rootOf p))).rootOf p = h.rootOf p := by
      simp [CHeap.setRoot, CHeap.set, CHeap.rootOf, hp.1]
    rw [List.foldl_cons, ih _ hp.2, hpr]
    by_cases hx : x = c
    · subst hx; simp [CHeap.setRoot, CHeap.set]
    · simp [CHeap.setRoot, CHeap.set, hx]

theorem setChildren_apply (h : CHeap) (p : Nat) (cs : List Nat) (hp : p ∉ cs) (x : Nat) :
    h.setChildren p cs x =
      ⟨if x ∈ cs then some (h.rootOf p) else (h x).root, if x = p then cs else (h x).children⟩ := by
  unfold CHeap.setChildren
  simp only [CHeap.set, foldl_setRoot cs p h hp]
  by_cases hx : x = p
  · subst hx; simp [hp]
  · by_cases hc : x ∈ cs <;> simp [hx, hc]

/-- The invariant: roots lead somewhere, and a child's root leads where its parent's does. -/
structure RootInv (h : CHeap) : Prop where
  ends : ∀ x, ∃ t, Climb h x t
  coherent : ∀ p c, c ∈ (h p).children → ∀ t, Climb h p t → Climb h c t

theorem rootInv_setChildren {h : CHeap} (inv : RootInv h) (p : Nat) (cs : List Nat)
    (hl : ∀ c ∈ cs, (h c).root = none ∧ ¬ Climb h p c) : RootInv (h.setChildren p cs) := by
  obtain ⟨T, hT⟩ := inv.ends p
  have hTc : T ∉ cs := fun hm => (hl T hm).2 hT
  have hp : p ∉ cs := by
    intro hm
    obtain ⟨h1, h2⟩ := hl p hm
    exact h2 (.top h1)
  have hap := setChildren_apply h p cs hp
  have hroot : ∀ x, x ∉ cs → (h.setChildren p cs x).root = (h x).root := by
    intro x hx; rw [hap]; simp [hx]
  have A : ∀ x t, Climb h x t → t ∉ cs → Climb (h.setChildren p cs) x t := by
    intro x t hc ht
    induction hc with
    | top h1 => exact .top (by rw [hroot _ ht]; exact h1)
    | @up x y t h1 h2 ih =>
      refine .up ?_ (ih ht)
      rw [hroot x (fun hm => by rw [(hl x hm).1] at h1; simp at h1)]; exact h1
  have B : Climb (h.setChildren p cs) (h.rootOf p) T := by
    refine A _ _ ?_ hTc
    cases hr : (h p).root with
    | none => simpa [CHeap.rootOf, hr] using hT
    | some y =>
      simp only [CHeap.rootOf, hr, Option.getD_some]
      cases hT with
      | top h1 => rw [hr] at h1; simp at h1
      | up h1 h2 => rw [hr] at h1; simp at h1; subst h1; exact h2
  have C : ∀ x t, Climb h x t → t ∈ cs → Climb (h.setChildren p cs) x T := by
    intro x t hc ht
    induction hc with
    | top h1 => exact .up (by rw [hap]; simp [ht]) B
    | @up x y t h1 h2 ih =>
      refine .up ?_ (ih ht)
      rw [hroot x (fun hm => by rw [(hl x hm).1] at h1; simp at h1)]; exact h1
  have key : ∀ x t, Climb h x t → ∃ t', Climb (h.setChildren p cs) x t' ∧ (∀ y, Climb h y t → Climb (h.setChildren p cs) y t') := by
    intro x t hc
    by_cases ht : t ∈ cs
    · exact ⟨T, C x t hc ht, fun y hy => C y t hy ht⟩
    · exact ⟨t, A x t hc ht, fun y hy => A y t hy ht⟩
  refine ⟨?_, ?_⟩
  · intro x
    obtain ⟨t, ht⟩ := inv.ends x
    obtain ⟨t', h1, _⟩ := key x t ht
    exact ⟨t', h1⟩
  · intro q c hc t' hq
    rw [hap] at hc
    simp only at hc
    by_cases hqp : q = p
    · subst hqp
      simp at hc
      have := climb_unique hq (A q T hT hTc)
      subst this
      exact C c c (.top (hl c hc).1) hc
    · simp [hqp] at hc
      obtain ⟨t, ht⟩ := inv.ends q
      obtain ⟨t'', h1, h2⟩ := key q t ht
      have := climb_unique hq h1
      subst this
      exact h2 c (inv.coherent q c hc t ht)

theorem setChild_eq (h : CHeap) (p v : Nat) (hpv : p ≠ v) : h.setChild p (some v) = h.setChildren p [v] := by
  have hap := setChildren_apply h p [v] (by simpa using hpv)
  have hp : (h.setChildren p [v] p).root = (h p).root := by rw [hap]; simp [hpv]
  funext x
  simp only [CHeap.setChild]
  cases hr : (h p).root with
  | none =>
    rw [if_pos (by rw [hp, hr])]
    by_cases hx : x = v
    · subst hx; simp [CHeap.setRoot, CHeap.set, hap, CHeap.rootOf, hr]
    · simp [CHeap.setRoot, CHeap.set, hx]
  | some y =>
    rw [if_neg (by rw [hp, hr]; simp)]
    by_cases hx : x = v
    · subst hx; simp [CHeap.setRoot, CHeap.set, hap, CHeap.rootOf, hr, hpv]
    · simp [CHeap.setRoot, CHeap.set, hx]

theorem new_eq (h : CHeap) (n : Nat) (cs : List Nat) (hn : h n = ⟨none, []⟩) (hc : n ∉ cs) :
    h.step (.new n cs) = h.setChildren n cs := by
  have hset : h.set n ⟨none, []⟩ = h := by
    funext x; by_cases hx : x = n
    · subst hx; simp [CHeap.set, hn]
    · simp [CHeap.set, hx]
  simp only [CHeap.step, hset]
  funext x
  by_cases hx : x = n
  · subst hx; simp [CHeap.setRoot, CHeap.set, setChildren_apply h x cs hc, hc, hn]
  · simp [CHeap.setRoot, CHeap.set, hx]

theorem rootInv_step {h : CHeap} (inv : RootInv h) (o : CiteOp) (hl : LegalStep h o) : RootInv (h.step o) := by
  cases o with
  | new n cs =>
    obtain ⟨hf, hc⟩ := hl
    rw [new_eq h n cs hf.1 (fun hm => (hc n hm).1 rfl)]
    refine rootInv_setChildren inv n cs ?_
    intro c hm
    refine ⟨(hc c hm).2, ?_⟩
    intro hcl
    have := climb_unique hcl (.top (by rw [hf.1]))
    exact (hc c hm).1 this
  | children p cs => exact rootInv_setChildren inv p cs hl
  | child p v =>
    cases v with
    | none => exact rootInv_setChildren inv p [] (by simp)
    | some v =>
      have hpv : p ≠ v := by rintro rfl; exact hl.2 (.top hl.1)
      simp only [CHeap.step]
      rw [setChild_eq h p v hpv]
      exact rootInv_setChildren inv p [v] (by intro c hc; rw [List.mem_singleton.1 hc]; exact hl)

theorem rootInv_run {h : CHeap} (inv : RootInv h) (ops : List CiteOp) (hl : Legal h ops) :
    RootInv (ops.foldl CHeap.step h) := by
  induction ops generalizing h with
  | nil => exact inv
  | cons o r ih => exact ih (rootInv_step inv o hl.1) hl.2

theorem rootInv_empty : RootInv CHeap.empty :=
  ⟨fun x => ⟨x, .top rfl⟩, fun p c hc => by simp [CHeap.empty] at hc⟩

theorem climb_of_below {h : CHeap} (inv : RootInv h) {t x : Nat} (ht : (h t).root = none) (hb : Below h t x) :
    Climb h x t := by
  induction hb with
  | self => exact .top ht
  | child _ hc ih => exact inv.coherent _ _ hc t ih

/-! ## C24 -/

/-- C24. After any history of constructing citations, assigning children and assigning a child, in which
only unplaced citations are placed and none above itself, following `.root` from any citation of a
scheme leads to the top of the scheme. -/
theorem C24_roots_lead_to_the_top (ops : List CiteOp) (hl : Legal CHeap.empty ops) (t x : Nat)
    (ht : ((ops.foldl CHeap.step CHeap.empty) t).root = none)
    (hb : Below (ops.foldl CHeap.step CHeap.empty) t x) :
    Climb (ops.foldl CHeap.step CHeap.empty) x t :=
  climb_of_below (rootInv_run rootInv_empty ops hl) ht hb

/-- C24. In such a history a citation that is nobody's child is the top of its scheme: it has no root,
and a citation that was placed has one. -/
theorem C24_placed_citation_has_a_root (h : CHeap) (p : Nat) (cs : List Nat) (hp : p ∉ cs) (c : Nat) (hc : c ∈ cs) :
    (h.setChildren p cs c).root = some (h.rootOf p) := by
  rw [setChildren_apply h p cs hp]; simp [hc]

/-- The scheme of the documentation, built from the deepest level: the line keeps the poem as root, and
the poem leads to the book. -/
example : let ops := [CiteOp.new 2 [], .new 1 [2], .new 0 [1]]
    Legal CHeap.empty ops ∧ (ops.foldl CHeap.step CHeap.empty 2).root = some 1 ∧
    (ops.foldl CHeap.step CHeap.empty 1).root = some 0 ∧ (ops.foldl CHeap.step CHeap.empty 0).root = none := by
  refine ⟨⟨?_, ?_, ?_, trivial⟩, rfl, rfl, rfl⟩
  · exact ⟨⟨rfl, fun x => by simp [CHeap.empty]⟩, by simp⟩
  · refine ⟨⟨rfl, fun x => ?_⟩, ?_⟩
    · simp [CHeap.step, CHeap.setChildren, CHeap.set, CHeap.setRoot, CHeap.empty]
    · simp [CHeap.step, CHeap.setChildren, CHeap.set, CHeap.setRoot]
  · refine ⟨⟨rfl, fun x => ?_⟩, ?_⟩
    · simp [CHeap.step, CHeap.setChildren, CHeap.set, CHeap.setRoot, CHeap.empty, CHeap.rootOf]
      by_cases hx : x = 1 <;> by_cases hx2 : x = 2 <;> simp [hx, hx2]
    · simp [CHeap.step, CHeap.setChildren, CHeap.set, CHeap.setRoot]

/-- C24 fails when an assembled part is moved to another scheme: the part gets the new root, what is below
it keeps the old one (here 1 was placed below 0 before 2 was placed below 1, then 1 is moved to 3). -/
theorem C24_fails_on_move :
    let h := [CiteOp.new 2 [], .new 1 [], .new 0 [1], .child 1 (some 2), .new 3 [1]].foldl CHeap.step CHeap.empty
    Below h 3 2 ∧ (h 3).root = none ∧ Climb h 2 0 ∧ ¬ Climb h 2 3 := by
  refine ⟨?_, rfl, ?_, ?_⟩
  · exact .child (.child .self (p := 3) (c := 1) (by decide)) (by decide)
  · exact .up (y := 0) rfl (.top rfl)
  · intro hc
    have h2 : Climb ([CiteOp.new 2 [], .new 1 [], .new 0 [1], .child 1 (some 2), .new 3 [1]].foldl
      CHeap.step CHeap.empty) 2 0 := .up (y := 0) rfl (.top rfl)
    exact absurd (climb_unique h2 hc) (by decide)

/-- C24 fails for `add_child`, which sets no root: the child stays its own root. -/
theorem C24_fails_with_add_child :
    let h := ([CiteOp.new 0 [], .new 1 []].foldl CHeap.step CHeap.empty).addChild 0 1
    1 ∈ (h 0).children ∧ (h 1).root = none := by decide

/-! ### Ingestion of a refsDecl -/

theorem ingestLoop_apply (h : CHeap) (base : Nat) (hfresh : ∀ i, h (base + i) = ⟨none, []⟩) (n : Nat) :
    (∀ i, n ≤ i → (h.ingestLoop base n) (base + i) = ⟨none, []⟩) ∧
    (∀ i, i < n → (h.ingestLoop base n (base + i)).children = if i = 0 then [] else [base + i - 1]) ∧
    (∀ i, i + 1 = n → (h.ingestLoop base n (base + i)).root = none) := by
  induction n with
  | zero => exact ⟨fun i _ => hfresh i, fun i hi => by omega, fun i hi => by omega⟩
  | succ n ih =>
    obtain ⟨h1, h2, h3⟩ := ih
    have hmem : base + n ∉ (if n = 0 then [] else [base + n - 1] : List Nat) := by
      by_cases hn : n = 0
      · simp [hn]
      · simp [hn]; omega
    have e : h.ingestLoop base (n + 1) =
        (h.ingestLoop base n).setChildren (base + n) (if n = 0 then [] else [base + n - 1]) := by
      rw [CHeap.ingestLoop]; exact new_eq _ _ _ (h1 n (Nat.le_refl _)) hmem
    have hap := setChildren_apply (h.ingestLoop base n) (base + n) _ hmem
    rw [e]
    refine ⟨?_, ?_, ?_⟩
    · intro i hi
      rw [hap]
      have hni : base + i ∉ (if n = 0 then [] else [base + n - 1] : List Nat) := by
        by_cases hn : n = 0
        · simp [hn]
        · simp [hn]; omega
      rw [if_neg hni, if_neg (by omega), h1 i (by omega)]
    · intro i hi
      rw [hap]
      by_cases hin : i = n
      · subst hin; simp
      · simp only [Nat.add_left_cancel_iff, hin, if_false]
        exact h2 i (by omega)
    · intro i hi
      have : i = n := by omega
      subst this
      rw [hap]
      simp only [if_neg hmem, h1 i (Nat.le_refl _)]

theorem ingest_roots (h : CHeap) (base r : Nat) (l : List Nat) (x : Nat) :
    (l.foldl (fun h i => h.setRoot (base + i) (some r)) h) x =
      if ∃ i ∈ l, x = base + i then { h x with root := some r } else h x := by
  induction l generalizing h with
  | nil => simp
  | cons i l ih =>
    rw [List.foldl_cons, ih]
    by_cases hx : x = base + i
    · subst hx
      simp [CHeap.setRoot, CHeap.set]
    · have : (∃ j ∈ i :: l, x = base + j) ↔ ∃ j ∈ l, x = base + j := by simp [hx]
      simp [CHeap.setRoot, CHeap.set, hx]

/-- C24 for ingestion: `n` patterns, deepest first, become a scheme with one citation per level; the last
one is the top, and it is the root of every other one. -/
theorem C24_ingest (h : CHeap) (base n : Nat) (hfresh : ∀ i, h (base + i) = ⟨none, []⟩) (hn : 0 < n) :
    (∀ i, i < n → (h.ingest base n (base + i)).children = if i = 0 then [] else [base + i - 1]) ∧
    (h.ingest base n (base + n - 1)).root = none ∧
    (∀ i, i + 1 < n → (h.ingest base n (base + i)).root = some (base + n - 1)) := by
  obtain ⟨_, h2, h3⟩ := ingestLoop_apply h base hfresh n
  unfold CHeap.ingest
  refine ⟨?_, ?_, ?_⟩
  · intro i hi
    rw [ingest_roots]
    split
    · exact h2 i hi
    · exact h2 i hi
  · rw [ingest_roots, if_neg]
    · have := h3 (n - 1) (by omega)
      rwa [show base + (n - 1) = base + n - 1 by omega] at this
    · rintro ⟨i, hi, he⟩
      simp at hi; omega
  · intro i hi
    rw [ingest_roots, if_pos ⟨i, by simp; omega, rfl⟩]

example : ∀ i, CHeap.empty (5 + i) = ⟨none, []⟩ := fun _ => rfl

/-! ## C19 -/

theorem iter_chain (h : CHeap) (x : Nat) (r : List Nat) (hc : IsChain h x r) (fuel : Nat) (hf : r.length < fuel) :
    h.iter fuel x = some (x :: r) := by
  induction r generalizing x fuel with
  | nil =>
    obtain ⟨k, rfl⟩ : ∃ k, fuel = k + 1 := ⟨fuel - 1, by simp at hf; omega⟩
    simp only [IsChain] at hc
    simp [CHeap.iter, hc]
  | cons y r ih =>
    obtain ⟨k, rfl⟩ : ∃ k, fuel = k + 1 := ⟨fuel - 1, by simp at hf; omega⟩
    simp only [IsChain] at hc
    simp only [CHeap.iter, hc.1]
    rw [List.mapM_cons, ih y hc.2 k (by simp at hf; omega)]
    simp

theorem ref_depth_pos (r : Ref) : 1 ≤ r.depth := by
  unfold Ref.depth plist
  rw [length_split]; omega

theorem getItem_chain (h : CHeap) (t : Nat) (r : List Nat) (hc : IsChain h t r) (ref : Ref) (fuel : Nat)
    (hf : r.length < fuel) :
    h.getItem fuel t ((ref.depth : Int) - 1) = some (match (t :: r)[ref.depth - 1]? with
      | some y => .ok y
      | none => .error .keyError) := by
  have hd := ref_depth_pos ref
  unfold CHeap.getItem
  rw [iter_chain h t r hc fuel hf]
  simp only
  by_cases hlt : ref.depth - 1 < (t :: r).length
  · rw [if_neg (by omega)]
    have : pyGet (t :: r) ((ref.depth : Int) - 1) = (t :: r)[ref.depth - 1]? := by
      unfold pyGet
      rw [if_pos (by omega), show ((ref.depth : Int) - 1).toNat = ref.depth - 1 by omega]
    rw [this, List.getElem?_eq_getElem hlt]
  · rw [if_pos (by omega), List.getElem?_eq_none (by omega)]

theorem matchRef_climb (h : CHeap) (x t : Nat) (hc : Climb h x t) (r : List Nat) (hch : IsChain h t r) (ref : Ref) :
    ∃ F, ∀ fuel, F ≤ fuel → h.matchRef fuel x ref = some (match (t :: r)[ref.depth - 1]? with
      | some y => .ok y
      | none => .error .keyError) := by
  induction hc with
  | top h1 =>
    refine ⟨r.length + 2, fun fuel hf => ?_⟩
    obtain ⟨k, rfl⟩ : ∃ k, fuel = k + 1 := ⟨fuel - 1, by omega⟩
    simp only [CHeap.matchRef, h1]
    exact getItem_chain h _ r hch ref k (by omega)
  | up h1 _ ih =>
    obtain ⟨F, hF⟩ := ih hch
    refine ⟨F + 1, fun fuel hf => ?_⟩
    obtain ⟨k, rfl⟩ : ∃ k, fuel = k + 1 := ⟨fuel - 1, by omega⟩
    simp only [CHeap.matchRef, h1]
    exact hF k (by omega)

theorem below_chain {h : CHeap} {t : Nat} {x : Nat} {r : List Nat} (hc : IsChain h x r) (hb : Below h t x) :
    ∀ y ∈ x :: r, Below h t y := by
  induction r generalizing x with
  | nil => simpa using hb
  | cons z r ih =>
    intro y hy
    simp only [IsChain] at hc
    rcases List.mem_cons.1 hy with rfl | hy
    · exact hb
    · exact ih hc.2 (.child hb (by simp [hc.1])) y hy

/-- C19. In a scheme with one citation per level, assembled by any history as in C24, `match` called on any
citation of the scheme returns the level equal to the depth of the reference, and raises `KeyError`
when the reference is deeper than the scheme. -/
theorem C19_match (ops : List CiteOp) (hl : Legal CHeap.empty ops) (t : Nat) (r : List Nat)
    (ht : ((ops.foldl CHeap.step CHeap.empty) t).root = none)
    (hc : IsChain (ops.foldl CHeap.step CHeap.empty) t r) (x : Nat) (hx : x ∈ t :: r) (ref : Ref) :
    ∃ F, ∀ fuel, F ≤ fuel → (ops.foldl CHeap.step CHeap.empty).matchRef fuel x ref =
      some (match (t :: r)[ref.depth - 1]? with
        | some y => .ok y
        | none => .error .keyError) :=
  matchRef_climb _ x t (C24_roots_lead_to_the_top ops hl t x ht (below_chain hc .self x hx)) r hc ref

/-- Book, poem, line: the history of the C24 example gives such a scheme. -/
example : let h := [CiteOp.new 2 [], .new 1 [2], .new 0 [1]].foldl CHeap.step CHeap.empty
    (h 0).root = none ∧ IsChain h 0 [1, 2] ∧
    h.matchRef 10 2 ⟨['1', '.', '2'], none, ['1', '.', '2']⟩ = some (.ok 1) ∧
    h.matchRef 10 1 ⟨"1.2.3.4".toList, none, "1.2.3.4".toList⟩ = some (.error .keyError) := by
  refine ⟨rfl, by simp [IsChain]; decide, by decide +kernel, by decide +kernel⟩

/-- C19 for a scheme ingested from a refsDecl of `n` patterns: level `d` of the scheme is pattern number
`n - d` (they are given deepest first). -/
theorem C19_match_ingested (h : CHeap) (base n : Nat) (hfresh : ∀ i, h (base + i) = ⟨none, []⟩) (i : Nat)
    (hi : i < n) (ref : Ref) :
    ∃ F, ∀ fuel, F ≤ fuel → (h.ingest base n).matchRef fuel (base + i) ref =
      some (if ref.depth ≤ n then .ok (base + (n - ref.depth)) else .error .keyError) := by
  obtain ⟨h1, h2, h3⟩ := C24_ingest h base n hfresh (by omega)
  have hch : ∀ k, k < n → IsChain (h.ingest base n) (base + k) ((List.range k).reverse.map (base + ·)) := by
    intro k
    induction k with
    | zero => intro hk; have := h1 0 hk; simpa [IsChain] using this
    | succ k ih =>
      intro hk
      rw [List.range_succ, List.reverse_append]
      simp only [List.reverse_cons, List.reverse_nil, List.nil_append, List.cons_append, List.map_cons, IsChain]
      refine ⟨?_, ih (by omega)⟩
      rw [h1 (k + 1) hk]; simp
  have hcl : Climb (h.ingest base n) (base + i) (base + (n - 1)) := by
    rw [show base + (n - 1) = base + n - 1 by omega]
    by_cases hin : i + 1 = n
    · rw [show base + i = base + n - 1 by omega]; exact .top h2
    · exact .up (h3 i (by omega)) (.top h2)
  obtain ⟨F, hF⟩ := matchRef_climb _ _ _ hcl _ (hch (n - 1) (by omega)) ref
  refine ⟨F, fun fuel hf => ?_⟩
  rw [hF fuel hf]
  have hd := ref_depth_pos ref
  congr 1
  have key : ∀ j, ((base + (n - 1)) :: (List.range (n - 1)).reverse.map (base + ·))[j]? =
      if j < n then some (base + (n - 1 - j)) else none := by
    intro j
    cases j with
    | zero => simp; omega
    | succ j =>
      simp only [List.getElem?_cons_succ, List.getElem?_map]
      by_cases hj : j < n - 1
      · rw [List.getElem?_reverse (by simpa using hj)]
        simp only [List.length_range]
        rw [List.getElem?_range (by omega)]
        simp; constructor <;> omega
      · rw [List.getElem?_eq_none (by simp; omega)]
        simp; omega
  rw [key]
  by_cases hle : ref.depth ≤ n
  · rw [if_pos hle, if_pos (by omega)]
    simp only
    congr 2
    omega
  · rw [if_neg hle, if_neg (by omega)]

end Verif.Props
