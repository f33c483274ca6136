import Verif.Lemmas.Xml
import Verif.Lemmas.Str
/-!
Properties C26-C28: XPath step lists, single passages, ranges.
-/
namespace Verif.Props
open Verif.Py Verif.Model Verif.Spec

/-! ## C26 -/

theorem normalize_go_step (p : List (Bool × Str)) (h : ∀ s ∈ p, s.2 ≠ [] ∧ '/' ∉ s.2) (prev : Option Str)
    (hp : prev ≠ some []) : normalizeXpath.go prev ((split '/' (pathText p)).drop 1) = p.map stepEntry := by
  induction p generalizing prev with
  | nil => simp [pathText, normalizeXpath.go]
  | cons s r ih =>
    obtain ⟨d, x⟩ := s
    obtain ⟨hx, hxs⟩ := h (d, x) (by simp)
    have hr := fun s hs => h s (List.mem_cons_of_mem _ hs)
    have key : ∀ _ : Nat, split '/' (x ++ pathText r) = x :: (split '/' (pathText r)).drop 1 := by
      intro _
      cases r with
      | nil => simp [pathText, split_of_not_mem hxs]
      | cons s2 r2 =>
        have : pathText (s2 :: r2) = '/' :: (pathText (s2 :: r2)).drop 1 := by
          simp only [pathText, List.flatMap_cons]; split <;> simp
        rw [this, split_append _ hxs]
        simp
    cases d with
    | false =>
      have e : pathText ((false, x) :: r) = '/' :: (x ++ pathText r) := by simp [pathText]
      rw [e, split_cons_self, key 0]
      simp only [List.drop_succ_cons, List.drop_zero, normalizeXpath.go]
      rw [if_neg hp, if_pos hx, ih hr (some x) (by simpa using hx)]
      simp [stepEntry]
    | true =>
      have e : pathText ((true, x) :: r) = '/' :: '/' :: (x ++ pathText r) := by simp [pathText]
      rw [e, split_cons_self, split_cons_self, key 0]
      simp only [List.drop_succ_cons, List.drop_zero, normalizeXpath.go]
      rw [if_neg hp, if_neg (by simp), if_pos trivial, ih hr (some x) (by simpa using hx)]
      simp [stepEntry]

/-- C26. Splitting a written path on slashes and normalising gives one entry per step, in order, with
descendant steps marked by a leading slash. -/
theorem C26_normalize (p : List (Bool × Str)) (h : ∀ s ∈ p, s.2 ≠ [] ∧ '/' ∉ s.2) :
    normalizeXpath ((split '/' (pathText p)).drop 1) = p.map stepEntry :=
  normalize_go_step p h none (by simp)

/-- C26, as `getTextualNode` uses it: the first step (the document element) is cut off. -/
theorem C26_normalize_below_root (x : Str) (p : List (Bool × Str)) (hx : '/' ∉ x)
    (h : ∀ s ∈ p, s.2 ≠ [] ∧ '/' ∉ s.2) :
    normalizeXpath ((split '/' (pathText ((false, x) :: p))).drop 2) = p.map stepEntry := by
  have : (split '/' (pathText ((false, x) :: p))).drop 2 = (split '/' (pathText p)).drop 1 := by
    have e : pathText ((false, x) :: p) = '/' :: (x ++ pathText p) := by simp [pathText]
    rw [e, split_cons_self]
    cases p with
    | nil => simp [pathText, split_of_not_mem hx]
    | cons s2 r2 =>
      have : pathText (s2 :: r2) = '/' :: (pathText (s2 :: r2)).drop 1 := by
        simp only [pathText, List.flatMap_cons]; split <;> simp
      rw [this, split_append _ hx]
      simp
  rw [this]
  exact normalize_go_step p h none (by simp)

/-- C26. Joining the entries with slashes, after a leading slash, gives the path back. -/
theorem C26_join (p : List (Bool × Str)) (hp : p ≠ []) : '/' :: join ['/'] (p.map stepEntry) = pathText p := by
  induction p with
  | nil => exact absurd rfl hp
  | cons s r ih =>
    obtain ⟨d, x⟩ := s
    cases r with
    | nil => cases d <;> simp [pathText, stepEntry]
    | cons s2 r2 =>
      have := ih (by simp)
      rw [List.map_cons, List.map_cons, join]
      rw [List.map_cons] at this
      have e : pathText ((d, x) :: s2 :: r2) = '/' :: stepEntry (d, x) ++ pathText (s2 :: r2) := by
        cases d <;> simp [pathText, stepEntry]
      rw [e, ← this]
      simp

/-- A path whose first step is a descendant step loses the mark when its start is cut off as
`getTextualNode` does: `//tei:div` is then searched among the children of the document element only. -/
theorem C26_leading_descendant_lost :
    normalizeXpath ((split '/' "//tei:div[@n='1']/tei:l".toList).drop 2) =
      ["tei:div[@n='1']".toList, "tei:l".toList] := by decide

example : normalizeXpath ((split '/' "/tei:TEI/tei:text//tei:l[@n='1']".toList).drop 2) =
    ["tei:text".toList, "/tei:l[@n='1']".toList] := by decide

/-! ## C27 -/

/-- What a path selects: the positions reached step by step, in document order and each once. -/
theorem C27_selection (n : Node) (p : List Step) (hp : p ≠ []) :
    (∀ t, t ∈ select n p ↔ Sel n p t) ∧ (select n p).Pairwise fun t u => docLe t u = true ∧ t ≠ u :=
  ⟨fun _ => mem_select hp, select_sorted n p⟩

/-- C27. When exactly one element is selected, the passage is the chain of its ancestors, each emptied of
its text and other children, ending in a complete copy of the element. -/
theorem C27_single_passage (same : Same) (hr : ∀ n i, same n i i = true) (root : Node) (p : List Step)
    (t : List Nat) (hp : p ≠ []) (h : Uniq root p t) :
    passageTree same root p p = .ok (emptied root (chainTo root t)) := by
  unfold passageTree
  rw [pairLoop_same same hr _ root p t (Nat.le_refl _) hp h]
  simp [wrap, copyBare_eq]

/-- C27. When nothing is selected, the request raises `IndexError`. -/
theorem C27_unknown (same : Same) (root : Node) (p q : List Step) (h : ∀ t, ¬ Sel root p t) :
    passageTree same root p q = .error .indexError := by
  unfold passageTree
  rw [pairLoop_none same _ root p q h]
  rfl

/-- C27. For paths of child steps only, several elements may be selected: the passage is the first one in
document order. -/
theorem C27_first_in_document_order (same : Same) (hr : ∀ n i, same n i i = true) (root : Node) (p : List Step)
    (t : List Nat) (hp : p ≠ []) (hd : ∀ s ∈ p, s.desc = false) (h : Sel root p t)
    (hmin : ∀ u, Sel root p u → docLe t u = true) :
    passageTree same root p p = .ok (emptied root (chainTo root t)) := by
  unfold passageTree
  rw [pairLoop_first same hr _ root p t (Nat.le_refl _) hp hd h hmin]
  simp [wrap, copyBare_eq]

/-- The chain is the document cut down to that element. -/
theorem C27_chain_is_cut (root : Node) (t : List Nat) (ht : t ≠ []) (hn : (nodeAt root t).isSome) :
    emptied root (chainTo root t) = cut root t t := by
  suffices ∀ (n : Node) (t pos : List Nat), t ≠ [] → (nodeAt n t).isSome →
      cutKids (pos ++ t) (pos ++ t) pos 0 n.kids = chainTo n t by
    unfold cut
    have := this root t [] ht hn
    simp only [List.nil_append] at this
    rw [this]
  intro n t
  induction t generalizing n with
  | nil => intro pos h; exact absurd rfl h
  | cons i t ih =>
    intro pos _ hn
    simp only [nodeAt] at hn
    cases hk : n.kids[i]? with
    | none => simp [hk] at hn
    | some c =>
      simp only [hk] at hn
      have hi := lt_of_kid hk
      have facts : ∀ k, (Above (pos ++ [k]) (pos ++ i :: t) ↔ k = i ∧ t ≠ []) ∧
          docLe (pos ++ i :: t) (pos ++ [k]) = (decide (i < k) || (i == k && t.isEmpty)) ∧
          docLe (pos ++ [k]) (pos ++ i :: t) = (decide (k < i) || (k == i)) := by
        intro k
        refine ⟨by rw [above_append, above_single], ?_, ?_⟩
        · rw [docLe_append]; cases t <;> simp [docLe]
        · rw [docLe_append]; simp [docLe]
      simp only [chainTo, hk]
      have hl : (n.kids.take i).length = i := by simp; omega
      conv => lhs; rw [kids_split hk]
      rw [cutKids_append, cutKids, hl, Nat.zero_add]
      rw [cutKids_none _ _ _ 0 (n.kids.take i), cutKids_none _ _ _ (i + 1)]
      · simp only [List.nil_append, List.append_nil]
        obtain ⟨h1, h3, h4⟩ := facts i
        rw [cutNode_eq]
        by_cases ht' : t = []
        · subst ht'
          simp [h1, h3]
        · rw [if_pos (Or.inl (h1.2 ⟨rfl, ht'⟩)), if_neg ht', show pos ++ i :: t = pos ++ [i] ++ t by simp,
            ih c (pos ++ [i]) ht' hn]
      · intro k h5 h6
        obtain ⟨h1, h3, h4⟩ := facts k
        refine ⟨fun h => ?_, fun h => ?_, Or.inr ?_⟩
        · have := (h1.1 h).1; omega
        · have := (h1.1 h).1; omega
        · rw [h4]; simp; omega
      · intro k h5 h6
        rw [hl] at h6
        obtain ⟨h1, h3, h4⟩ := facts k
        refine ⟨fun h => ?_, fun h => ?_, Or.inl ?_⟩
        · have := (h1.1 h).1; omega
        · have := (h1.1 h).1; omega
        · rw [h3]; simp; omega

/-! ## C28 -/

/-- C28. For a start and an end that are each selected exactly once, the start preceding the end, the
passage is the document cut down to the part from start to end: everything before the start and after
the end is gone, the elements that contain one of them are kept without their text, everything between
is complete. -/
theorem C28_range (same : Same) (root : Node) (hs : TellsApart same root) (p1 p2 : List Step) (t1 t2 : List Nat)
    (h1 : Uniq root p1 t1) (h2 : Uniq root p2 t2) (hlt : Precedes t1 t2) :
    passageTree same root p1 p2 = .ok (cut root t1 t2) := by
  unfold passageTree cut
  rw [pairLoop_range same _ root p1 p2 t1 t2 (Nat.le_refl _) h1 h2 hlt hs]
  have := cut_range root t1 t2 [] hlt (sel_nodeAt ((h1 _).2 rfl)) (sel_nodeAt ((h2 _).2 rfl))
  simp only [List.nil_append] at this
  rw [this]
  simp [wrap, copyBare_eq]

/-- C28. When nothing is selected by the end, the request raises `IndexError`. -/
theorem C28_unknown_end (same : Same) (root : Node) (p q : List Step) (h : ∀ t, ¬ Sel root q t) :
    passageTree same root p q = .error .indexError := by
  unfold passageTree
  rw [pairLoop_none_end same _ root p q h]
  rfl

/-- C28. When the start contains the end (`1-1.2`), the passage is the whole of the start. -/
theorem C28_start_contains_end (same : Same) (hr : ∀ n i, same n i i = true) (root : Node) (p1 p2 : List Step)
    (t1 t2 : List Nat) (hp : p1 ≠ []) (h1 : Uniq root p1 t1) (h2 : Uniq root p2 t2) (ha : Above t1 t2) :
    passageTree same root p1 p2 = .ok (emptied root (chainTo root t1)) := by
  unfold passageTree
  rw [pairLoop_above_start same hr _ root p1 p2 t1 t2 (Nat.le_refl _) hp h1 h2 ha]
  simp [wrap, copyBare_eq]

/-- C28. When the end contains the start (`1.1-1`), the request raises `IndexError`. -/
theorem C28_end_contains_start (same : Same) (hr : ∀ n i, same n i i = true) (root : Node) (p1 p2 : List Step)
    (t1 t2 : List Nat) (h1 : Uniq root p1 t1) (h2 : Uniq root p2 t2) (ha : Above t2 t1) :
    passageTree same root p1 p2 = .error .indexError := by
  unfold passageTree
  rw [pairLoop_above_end same hr _ root p1 p2 t1 t2 h1 h2 ha]
  rfl

/-- Comparison by identity always tells children apart. -/
theorem C28_identity_tells_apart (root : Node) : TellsApart sameIdentity root := by
  intro pos p _ i j _ _
  simp [sameIdentity]

/-- The comparison of `lxml.objectify` tells children apart when no two children without children of their
own have the same text. -/
theorem C28_objectify_tells_apart (root : Node) (h : ∀ pos p, nodeAt root pos = some p →
    ∀ (i j : Nat) (a b : Node), p.kids[i]? = some a → p.kids[j]? = some b → a.kids = [] → b.kids = [] → a.text = b.text → i = j) :
    TellsApart sameObjectify root := by
  intro pos p hp i j hi hj
  obtain ⟨a, ha⟩ : ∃ a, p.kids[i]? = some a := ⟨_, List.getElem?_eq_getElem hi⟩
  obtain ⟨b, hb⟩ : ∃ b, p.kids[j]? = some b := ⟨_, List.getElem?_eq_getElem hj⟩
  simp only [sameObjectify, ha, hb]
  split
  · rename_i hl
    simp only [Bool.and_eq_true, List.isEmpty_iff] at hl
    constructor
    · intro he
      exact h pos p hp i j a b ha hb hl.1 hl.2 (by simpa using he)
    · rintro rfl
      rw [ha] at hb; simp at hb; subst hb
      simp
  · simp

/-- A line of verse. -/
def line (n text : String) : Node := .mk ['l'] [(['n'], n.toList)] text.toList [] []

/-- The step `l[@n='n']`. -/
def lineStep (n : String) : Step := ⟨false, ['l'], [.eq ['n'] '\'' n.toList]⟩

/-- A poem of three lines, the first and third with the same text. -/
def refrain : Node := .mk "body".toList [] [] [line "1" "a", line "2" "b", line "3" "a"] []

/-- C28 fails with the comparison of `lxml.objectify` when two lines have the same text: the range from
line 1 to line 3 is line 1 alone. -/
theorem C28_fails_with_equal_texts :
    passageTree sameObjectify refrain [lineStep "1"] [lineStep "3"] =
      .ok (.mk "body".toList [] [] [line "1" "a"] []) ∧
    passageTree sameIdentity refrain [lineStep "1"] [lineStep "3"] = .ok refrain := by decide

/-- A range whose end precedes its start is not rejected: it gives everything after the start, then the
end. -/
theorem C28_reversed_not_rejected :
    passageTree sameIdentity refrain [lineStep "2"] [lineStep "1"] =
      .ok (.mk "body".toList [] [] [line "2" "b", line "3" "a", line "1" "a"] []) := by decide

/-- A two-level example that meets the hypotheses of C28. -/
def poems : Node := .mk "body".toList [] [] [
  .mk ['d'] [(['n'], ['1'])] [] [line "1" "a", line "2" "b"] [],
  .mk ['d'] [(['n'], ['2'])] [] [line "1" "c", line "2" "d"] []] []

theorem uniq_of_select {n : Node} {p : List Step} {t : List Nat} (hp : p ≠ []) (h : select n p = [t]) :
    Uniq n p t := by
  intro u
  rw [← mem_select hp, h]
  simp

/-- The step `d[@n='n']`. -/
def poemStep (n : String) : Step := ⟨false, ['d'], [.eq ['n'] '\'' n.toList]⟩

example : Uniq poems [poemStep "1", lineStep "2"] [0, 1] ∧ Uniq poems [⟨true, ['l'], [.eq ['n'] '\'' ['1']]⟩, ] [0, 0] = False ∧
    Uniq poems [poemStep "2", lineStep "1"] [1, 0] ∧ Precedes [0, 1] [1, 0] ∧
    passageTree sameObjectify poems [poemStep "1", lineStep "2"] [poemStep "2", lineStep "1"] =
      .ok (.mk "body".toList [] [] [.mk ['d'] [(['n'], ['1'])] [] [line "2" "b"] [],
        .mk ['d'] [(['n'], ['2'])] [] [line "1" "c"] []] []) := by
  refine ⟨uniq_of_select (by simp) (by decide), ?_, uniq_of_select (by simp) (by decide), Or.inl (by decide), by decide⟩
  simp only [eq_iff_iff, iff_false]
  intro h
  have h1 := (h [1, 0]).1 ((mem_select (by simp)).1 (by decide))
  simp at h1

example : Uniq poems [poemStep "1", lineStep "2"] [0, 1] ∧ Uniq poems [poemStep "1"] [0] ∧ Above [0] [0, 1] :=
  ⟨uniq_of_select (by simp) (by decide), uniq_of_select (by simp) (by decide), by decide⟩

/-- With a descendant step, a matching child is preferred to an earlier match deeper in the document. -/
theorem C27_descendant_prefers_child :
    passageTree sameIdentity (.mk ['b'] [] [] [.mk ['d'] [] [] [line "1" "a"] [], line "1" "b"] [])
        [⟨true, ['l'], []⟩] [⟨true, ['l'], []⟩] =
      .ok (.mk ['b'] [] [] [line "1" "b"] []) := by decide

example : Sel refrain [⟨false, ['l'], []⟩] [0] ∧ ∀ u, Sel refrain [⟨false, ['l'], []⟩] u → docLe [0] u = true := by
  refine ⟨(mem_select (by simp)).1 (by decide), fun u hu => ?_⟩
  have := (mem_select (by simp)).2 hu
  rw [show select refrain [⟨false, ['l'], []⟩] = [[0], [1], [2]] by decide] at this
  simp at this
  rcases this with rfl | rfl | rfl <;> decide

example : ∀ t, ¬ Sel refrain [lineStep "4"] t := by
  intro t h
  have := (mem_select (by simp)).2 h
  rw [show select refrain [lineStep "4"] = [] by decide] at this
  simp at this

end Verif.Props
