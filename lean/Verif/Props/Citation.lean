import Verif.Spec.Citation
/-!
Properties C18, C23, C25: citation trees.
-/
namespace Verif.Props
open Verif.Py Verif.Model Verif.Spec Verif.Model.Cite

variable {α : Type}

/-! Helpers -/

/-- Induction over citations and lists of citations together. -/
theorem cite_induction {P : Cite α → Prop} {Q : List (Cite α) → Prop}
    (h1 : ∀ d ks, Q ks → P (.mk d ks)) (h2 : Q []) (h3 : ∀ c r, P c → Q r → Q (c :: r)) :
    (∀ c, P c) ∧ (∀ ks, Q ks) := by
  have hc : ∀ c, P c := fun c =>
    Cite.rec (motive_1 := P) (motive_2 := Q) h1 h2 (fun c r hc hr => h3 c r hc hr) c
  exact ⟨hc, fun ks => by
    induction ks with
    | nil => exact h2
    | cons c r ih => exact h3 c r (hc c) ih⟩

theorem iter_eq (c : Cite α) : c.iter = c :: iterAll c.kids := by cases c; simp [iter, kids]

theorem iterAll_eq (ks : List (Cite α)) : iterAll ks = ks.flatMap iter := by
  induction ks with
  | nil => simp [iterAll]
  | cons c r ih => simp [iterAll, ih]

theorem depth_eq (c : Cite α) : c.depth = 1 + depthAll c.kids := by
  cases c with
  | mk d ks => cases ks <;> simp [depth, kids, depthAll]

theorem depthAll_le_iff (ks : List (Cite α)) (n : Nat) : depthAll ks ≤ n ↔ ∀ c ∈ ks, c.depth ≤ n := by
  induction ks with
  | nil => simp [depthAll]
  | cons c r ih => simp [depthAll, Nat.max_le, ih]

/-- Levels from 0 on, below `n`, one after the other. -/
def levels (ks : List (Cite α)) (n : Nat) : List (Cite α) := (List.range n).flatMap fun k => atLevel k ks

theorem atLevel_append (k : Nat) (a b : List (Cite α)) : atLevel k (a ++ b) = atLevel k a ++ atLevel k b := by
  cases k <;> simp [atLevel]

theorem atLevel_nil (k : Nat) : atLevel k ([] : List (Cite α)) = [] := by
  cases k <;> simp [atLevel]

theorem atLevel_beyond (k : Nat) (ks : List (Cite α)) (h : depthAll ks ≤ k) : atLevel k ks = [] := by
  induction k generalizing ks with
  | zero =>
    cases ks with
    | nil => rfl
    | cons c r => simp [depthAll, depth_eq] at h
  | succ n ih =>
    simp only [atLevel, List.flatMap_eq_nil_iff]
    intro c hc
    apply ih
    have := (depthAll_le_iff ks (n + 1)).1 h c hc
    rw [depth_eq] at this; omega

theorem perm_levels (n : Nat) (ks : List (Cite α)) (h : depthAll ks ≤ n) :
    (levels ks n).Perm (iterAll ks) := by
  induction n generalizing ks with
  | zero =>
    cases ks with
    | nil => simp [levels, iterAll]
    | cons c r => simp [depthAll, depth_eq] at h
  | succ n ih =>
    -- levels ks (n+1) = ks ++ flatMap over children
    have e1 : levels ks (n + 1) = ks ++ (List.range n).flatMap fun k => ks.flatMap fun c => atLevel k c.kids := by
      simp [levels, List.range_succ_eq_map, List.flatMap_map, atLevel]
    rw [e1]
    have e2 : ((List.range n).flatMap fun k => ks.flatMap fun c => atLevel k c.kids).Perm
        (ks.flatMap fun c => levels c.kids n) := by
      clear e1 h
      induction ks with
      | nil => simp
      | cons c r ihr =>
        simp only [List.flatMap_cons]
        refine List.Perm.trans ?_ (ihr.append_left _)
        unfold levels
        generalize List.range n = l
        induction l with
        | nil => simp
        | cons x l ihl =>
          simp only [List.flatMap_cons, List.append_assoc]
          refine List.Perm.append_left _ ?_
          refine (ihl.append_left _).trans ?_
          rw [← List.append_assoc, ← List.append_assoc]
          exact List.perm_append_comm.append_right _
    refine (e2.append_left ks).trans ?_
    have h2 : ∀ c ∈ ks, (levels c.kids n).Perm (iterAll c.kids) := by
      intro c hc
      apply ih
      have := (depthAll_le_iff ks (n + 1)).1 h c hc
      rw [depth_eq] at this; omega
    clear e1 e2 h
    induction ks with
    | nil => simp [iterAll]
    | cons c r ihr =>
      simp only [List.flatMap_cons, iterAll, iter_eq, List.cons_append, List.append_assoc]
      refine List.Perm.cons _ ?_
      have hA : (r ++ (levels c.kids n ++ r.flatMap fun c => levels c.kids n)).Perm
          (levels c.kids n ++ (r ++ r.flatMap fun c => levels c.kids n)) := by
        rw [← List.append_assoc, ← List.append_assoc]
        exact List.perm_append_comm.append_right _
      refine hA.trans ?_
      exact (h2 c (by simp)).append (ihr fun x hx => h2 x (by simp [hx]))

theorem len_eq : (∀ c : Cite α, c.len = (iterAll c.kids).length) ∧
    (∀ ks : List (Cite α), lenAll ks = (iterAll ks).length) := by
  refine cite_induction (P := fun c => c.len = (iterAll c.kids).length)
    (Q := fun ks => lenAll ks = (iterAll ks).length) ?_ ?_ ?_
  · intro d ks h; simpa [len, kids, lenAll] using h
  · simp [lenAll, lenSum, iterAll]
  · intro c r hc hr
    simp only [lenAll, lenSum, List.length_cons, iterAll, iter_eq, List.length_append] at *
    omega

/-! ## C18 -/

/-- C18. Iterating a scheme with one citation per level yields the levels from the highest to the
deepest; `len()` is their number. -/
theorem C18_chain_enumeration (d : α) (r : List α) :
    (chain d r).iter.map Cite.data = d :: r ∧ (chain d r).ctsLen = r.length + 1 := by
  have : ∀ (r : List α) d, (chain d r).iter.map Cite.data = d :: r := by
    intro r
    induction r with
    | nil => intro d; simp [chain, iter, iterAll, data]
    | cons e r ih => intro d; simp [chain, iter, iterAll, data, ih]
  refine ⟨this r d, ?_⟩
  have h := congrArg List.length (this r d)
  simpa [ctsLen] using h

/-- C18. Any citation, branching or not: itself comes first, then the children in order, each followed by
what is below it. -/
theorem C18_preorder (c : Cite α) : c.iter = c :: c.kids.flatMap iter := by
  rw [iter_eq, iterAll_eq]

/-- C18. Indexing: `c[i]` is the i-th citation of the iteration, negative indices count from the end,
`KeyError` beyond the last one, `IndexError` before the first one. -/
theorem C18_index (c : Cite α) (i : Int) :
    (∀ k : Nat, i = k → k < c.iter.length → (Except.toOption (c.ctsGet i)) = c.iter[k]?) ∧
    (∀ k : Nat, i = -((k : Int) + 1) → k < c.iter.length → (Except.toOption (c.ctsGet i)) = c.iter.reverse[k]?) ∧
    ((c.iter.length : Int) ≤ i → c.ctsGet i = .error .keyError) ∧
    (i < -(c.iter.length : Int) → c.ctsGet i = .error .indexError) := by
  refine ⟨?_, ?_, ?_, ?_⟩
  · rintro k rfl hk
    unfold ctsGet ctsLen
    rw [if_neg (by omega)]
    simp only [pyGet]
    rw [if_pos (by omega)]
    simp [List.getElem?_eq_getElem hk, Except.toOption]
  · rintro k rfl hk
    unfold ctsGet ctsLen
    rw [if_neg (by omega)]
    simp only [pyGet]
    rw [if_neg (by omega), if_pos (by omega)]
    have e : (-((k : Int) + 1) + (c.iter.length : Int)).toNat = c.iter.length - 1 - k := by omega
    rw [e, List.getElem?_reverse hk, List.getElem?_eq_getElem (by omega)]
    simp [Except.toOption]
  · intro h
    unfold ctsGet ctsLen
    rw [if_pos (by omega)]
  · intro h
    unfold ctsGet ctsLen
    rw [if_neg (by omega)]
    simp only [pyGet]
    rw [if_neg (by omega), if_neg (by omega)]

/-- C18. `c[-1]` of a scheme with one citation per level is the deepest level. -/
theorem C18_last (d : α) (r : List α) :
    (Except.toOption ((chain d r).ctsGet (-1))).map Cite.data = some ((d :: r).getLast (by simp)) := by
  have h := (C18_index (chain d r) (-1)).2.1 0 (by simp) (by simp [iter_eq])
  have hd := (C18_chain_enumeration d r).1
  have hl := congrArg List.getLast? hd
  have e : (chain d r).iter.reverse[0]? = (chain d r).iter.getLast? := by
    rw [← List.head?_eq_getElem?, List.head?_reverse]
  rw [h, e, ← List.getLast?_map, hd]
  exact List.getLast?_eq_some_getLast (by simp)

example : (chain "book".toList ["poem".toList, "line".toList]).iter.map Cite.data =
    ["book".toList, "poem".toList, "line".toList] := by
  simp [chain, iter, iterAll, data]

/-! ## C23 -/

/-- C23. Level `k` of a citation set holds exactly the citations reached by a path of `k + 1` child
positions. -/
theorem C23_level_members (ks : List (Cite α)) (k : Nat) (c : Cite α) :
    c ∈ atLevel k ks ↔ ∃ p, p.length = k + 1 ∧ sub ks p = some c := by
  induction k generalizing ks with
  | zero =>
    simp only [atLevel, Nat.zero_add, List.length_eq_one_iff]
    constructor
    · intro h
      obtain ⟨i, hi⟩ := List.mem_iff_getElem?.1 h
      exact ⟨[i], ⟨i, rfl⟩, by simpa [sub] using hi⟩
    · rintro ⟨p, ⟨i, rfl⟩, hp⟩
      exact List.mem_iff_getElem?.2 ⟨i, by simpa [sub] using hp⟩
  | succ n ih =>
    simp only [atLevel, List.mem_flatMap]
    constructor
    · rintro ⟨x, hx, hc⟩
      obtain ⟨p, hp, hs⟩ := (ih x.kids).1 hc
      obtain ⟨i, hi⟩ := List.mem_iff_getElem?.1 hx
      cases p with
      | nil => simp at hp
      | cons j p => exact ⟨i :: j :: p, by simpa using hp, by simp [sub, hi, hs]⟩
    · rintro ⟨p, hp, hs⟩
      match p with
      | [] => simp at hp
      | [i] => simp at hp
      | i :: j :: p =>
        simp only [sub] at hs
        split at hs
        · rename_i x hx
          exact ⟨x, List.mem_iff_getElem?.2 ⟨i, hx⟩, (ih x.kids).2 ⟨j :: p, by simpa using hp, hs⟩⟩
        · simp at hs

/-- C23. `depth` is the number of levels that are not empty. -/
theorem C23_depth (ks : List (Cite α)) (k : Nat) : atLevel k ks ≠ [] ↔ k < depthAll ks := by
  constructor
  · intro h
    refine Nat.lt_of_not_le fun hk => h (atLevel_beyond k ks hk)
  · intro h
    induction k generalizing ks with
    | zero => cases ks <;> simp_all [atLevel, depthAll]
    | succ n ih =>
      simp only [atLevel, ne_eq, List.flatMap_eq_nil_iff]
      intro hall
      have : depthAll ks ≤ n + 1 := by
        rw [depthAll_le_iff]
        intro c hc
        rw [depth_eq]
        have := mt (ih c.kids) (by simpa using hall c hc)
        omega
      omega

/-- C23. The levels, one after the other, hold every citation of the iteration exactly as often as the
iteration does: every citation is at exactly one level. -/
theorem C23_levels_partition (ks : List (Cite α)) :
    ((List.range (depthAll ks)).flatMap fun k => atLevel k ks).Perm (iterAll ks) :=
  perm_levels _ ks (Nat.le_refl _)

/-- C23. Indexing a citation set: level `i` for `i ≥ 0` (empty from the depth on), counted from the
deepest level for negative `i`, `CitationDepthError` when it counts past the highest one. -/
theorem C23_index (ks : List (Cite α)) (i : Int) :
    (∀ k : Nat, i = k → setGet ks i = .ok (atLevel k ks)) ∧
    ((depthAll ks : Int) ≤ i → setGet ks i = .ok []) ∧
    (∀ k : Nat, i = -((k : Int) + 1) → k < depthAll ks →
      setGet ks i = .ok (atLevel (depthAll ks - 1 - k) ks)) ∧
    (setGet ks i = .error .citationDepth ↔ i < -(depthAll ks : Int)) := by
  refine ⟨?_, ?_, ?_, ?_⟩
  · rintro k rfl
    simp only [setGet, getLevel]
    rw [if_neg (by omega)]; simp
  · intro h
    simp only [setGet, getLevel]
    rw [if_neg (by omega), atLevel_beyond _ _ (by omega)]
  · rintro k rfl hk
    simp only [setGet, getLevel]
    rw [if_pos (by omega), if_neg (by omega)]
    congr 2
    omega
  · simp only [setGet, getLevel]
    split
    · split
      · simp; omega
      · simp; omega
    · simp; omega

/-- C23. `len()` of a citation set is the number of citations it iterates over. -/
theorem C23_len (ks : List (Cite α)) : lenAll ks = (iterAll ks).length := len_eq.2 ks

/-- `len()` of a citation (not CTS) does not count the citation itself, although iterating it does. -/
theorem C23_len_of_citation (c : Cite α) : c.len + 1 = c.iter.length := by
  rw [len_eq.1, iter_eq]; rfl

/-- C23 fails for a single citation (not CTS): the negative index -1 never reaches its deepest level, it is
always empty, because the depth counts the citation itself; -2 is the deepest level below it. -/
theorem C23_negative_index_of_citation_shifted (c : Cite α) :
    c.citeGet (-1) = .ok [] ∧
    (∀ k : Nat, k ≤ depthAll c.kids → c.citeGet (-((k : Int) + 1)) = .ok (atLevel (depthAll c.kids - k) c.kids)) := by
  have h2 : ∀ k : Nat, k ≤ depthAll c.kids →
      c.citeGet (-((k : Int) + 1)) = .ok (atLevel (depthAll c.kids - k) c.kids) := by
    intro k hk
    simp only [citeGet, getLevel, depth_eq]
    rw [if_pos (by omega), if_neg (by push_cast; omega)]
    congr 2
    push_cast; omega
  refine ⟨?_, h2⟩
  have := h2 0 (by omega)
  simp only [Nat.sub_zero, atLevel_beyond _ _ (Nat.le_refl _)] at this
  simpa using this

example : let b : Cite Nat := .mk 2 [.mk 3 [], .mk 4 [.mk 5 []]]
    let a : Cite Nat := .mk 1 [b]
    depthAll [a, b] = 4 ∧ (iterAll [a, b]).map data = [1, 2, 3, 4, 5, 2, 3, 4, 5] ∧
    (atLevel 2 [a, b]).map data = [3, 4, 5] := by
  refine ⟨?_, ?_, ?_⟩
  · simp [depthAll, depth]
  · simp [iterAll, iter, data]
  · simp [atLevel, kids, data]

/-! ## C25 -/

mutual
theorem ingestCite_shape (b : Bool) : ∀ e : ExpCite, TypesFilled e →
    ∃ c, ingestCite b e = .ok c ∧ shape c = sourceShape e ∧ ∀ x ∈ c.iter, x.data.rootIsSet = b
  | .mk ct cs, h => by
    simp only [TypesFilled] at h
    obtain ⟨ks, hks, hs, hr⟩ := ingestKids_shape b cs h.2
    have hn : ∃ n, ingestName ct = .ok n ∧ n = ct.bind fun l => l.head?.join := by
      match ct, h.1 with
      | none, _ => exact ⟨none, rfl, rfl⟩
      | some [], h => exact absurd rfl h
      | some (v :: _), _ => exact ⟨v, rfl, by simp⟩
    obtain ⟨n, hn, hn'⟩ := hn
    refine ⟨.mk ⟨n, b⟩ ks, by simp [ingestCite, hn, hks], by simp [shape, sourceShape, hs, hn'], ?_⟩
    intro x hx
    simp only [iter, List.mem_cons] at hx
    rcases hx with rfl | hx
    · rfl
    · exact hr x hx
theorem ingestKids_shape (b : Bool) : ∀ o : Option (List ExpCite), TypesFilledOpt o →
    ∃ ks, ingestKids b o = .ok ks ∧ shapes ks = sourceOpt o ∧ ∀ x ∈ iterAll ks, x.data.rootIsSet = b
  | none, _ => ⟨[], rfl, by simp [shapes, sourceOpt], by simp [iterAll]⟩
  | some l, h => by
    obtain ⟨ks, h1, h2, h3⟩ := ingestList_shape b l (by simpa [TypesFilledOpt] using h)
    exact ⟨ks, by simp [ingestKids, h1], by simp [sourceOpt, h2], h3⟩
theorem ingestList_shape (b : Bool) : ∀ l : List ExpCite, TypesFilledAll l →
    ∃ ks, ingestList b l = .ok ks ∧ shapes ks = sourceShapes l ∧ ∀ x ∈ iterAll ks, x.data.rootIsSet = b
  | [], _ => ⟨[], by simp [ingestList], by simp [shapes, sourceShapes], by simp [iterAll]⟩
  | c :: r, h => by
    simp only [TypesFilledAll] at h
    obtain ⟨x, h1, h2, h3⟩ := ingestCite_shape b c h.1
    obtain ⟨xs, k1, k2, k3⟩ := ingestList_shape b r h.2
    refine ⟨x :: xs, by simp [ingestList, h1, k1], by simp [shapes, sourceShapes, h2, k2], ?_⟩
    intro y hy
    simp only [iterAll, List.mem_append] at hy
    rcases hy with hy | hy
    · exact h3 y hy
    · exact k3 y hy
end

/-- C25. Ingesting a citation structure gives the names and the nesting of the source, and every
citation has the set as its root. -/
theorem C25_ingest (l : List ExpCite) (h : TypesFilledAll l) :
    ∃ ks, ingestSet l = .ok ks ∧ shapes ks = sourceShapes l ∧ ∀ x ∈ iterAll ks, x.data.rootIsSet = true :=
  ingestList_shape true l h

theorem export_shape : (∀ c : Cite DtsData, outShape (exportCite c) = shape c) ∧
    (∀ ks : List (Cite DtsData), outShapes (exportSet ks) = shapes ks) := by
  refine cite_induction (P := fun c => outShape (exportCite c) = shape c)
    (Q := fun ks => outShapes (exportSet ks) = shapes ks) ?_ ?_ ?_
  · intro d ks h
    cases ks with
    | nil => simp [exportCite, outShape, outOpt, shape, shapes]
    | cons c r => simp only [exportCite, List.isEmpty_cons, Bool.false_eq_true, if_false, outShape, outOpt, h, shape]
  · simp [exportSet, outShapes, shapes]
  · intro c r hc hr
    simp [exportSet, outShapes, shapes, hc, hr]

/-- C25. Exporting writes the names and the nesting. -/
theorem C25_export (ks : List (Cite DtsData)) : outShapes (exportSet ks) = shapes ks := export_shape.2 ks

mutual
theorem expand_shape : ∀ o : OutCite, sourceShape (expandCite o) = outShape o ∧ TypesFilled (expandCite o)
  | .mk n cs => by
    obtain ⟨h1, h2⟩ := expandOpt_shape cs
    refine ⟨?_, ?_⟩
    · cases n <;> simp [expandCite, sourceShape, outShape, h1]
    · cases n <;> simp [expandCite, TypesFilled, h2]
theorem expandOpt_shape : ∀ o : Option (List OutCite),
    sourceOpt (expandOpt o) = outOpt o ∧ TypesFilledOpt (expandOpt o)
  | none => by simp [expandOpt, sourceOpt, outOpt, TypesFilledOpt]
  | some l => by
    obtain ⟨h1, h2⟩ := expandList_shape l
    simp [expandOpt, sourceOpt, outOpt, TypesFilledOpt, h1, h2]
theorem expandList_shape : ∀ l : List OutCite,
    sourceShapes (expandList l) = outShapes l ∧ TypesFilledAll (expandList l)
  | [] => by simp [expandList, sourceShapes, outShapes, TypesFilledAll]
  | c :: r => by
    obtain ⟨h1, h2⟩ := expand_shape c
    obtain ⟨k1, k2⟩ := expandList_shape r
    simp [expandList, sourceShapes, outShapes, TypesFilledAll, h1, h2, k1, k2]
end

/-- C25. Exporting an ingested structure gives back the names and the nesting of the source. -/
theorem C25_ingest_export (l : List ExpCite) (h : TypesFilledAll l) :
    ∃ ks, ingestSet l = .ok ks ∧ outShapes (exportSet ks) = sourceShapes l := by
  obtain ⟨ks, h1, h2, _⟩ := C25_ingest l h
  exact ⟨ks, h1, by rw [C25_export, h2]⟩

/-- C25. Ingesting the (JSON-LD expanded) export of any citation set gives a set with the same names and
the same nesting. -/
theorem C25_export_ingest (ks : List (Cite DtsData)) :
    ∃ ks', ingestSet (expandList (exportSet ks)) = .ok ks' ∧ shapes ks' = shapes ks := by
  obtain ⟨h1, h2⟩ := expandList_shape (exportSet ks)
  obtain ⟨ks', k1, k2, _⟩ := C25_ingest _ h2
  exact ⟨ks', k1, by rw [k2, h1, C25_export]⟩

/-- C25. An empty list of types makes ingestion fail, an absent one does not. -/
theorem C25_empty_type_list (cs : Option (List ExpCite)) (b : Bool) :
    ingestCite b (.mk (some []) cs) = .error .indexError := by
  simp [ingestCite, ingestName]

/-- Ingesting a single citation without giving a root leaves every citation below it its own root. -/
theorem C25_ingest_without_root (e : ExpCite) (h : TypesFilled e) :
    ∃ c, ingestCite false e = .ok c ∧ ∀ x ∈ c.iter, x.data.rootIsSet = false := by
  obtain ⟨c, h1, _, h3⟩ := ingestCite_shape false e h
  exact ⟨c, h1, h3⟩

example : TypesFilledAll [.mk (some [some "book".toList]) (some [.mk (some [some "poem".toList]) none,
    .mk none (some [])])] := by
  simp [TypesFilledAll, TypesFilled, TypesFilledOpt]

end Verif.Props
