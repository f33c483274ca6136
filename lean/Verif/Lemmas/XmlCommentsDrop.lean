import Verif.Lemmas.XmlComments
/-! Lemmas for documents with comments: taking the comments out. -/
namespace Verif.Lemmas
open Verif.Py Verif.Model Verif.Spec

theorem addTail_kids (s : Str) (n : Node) : (addTail s n).kids = n.kids := by cases n; rfl
theorem addTail_tag (s : Str) (n : Node) : (addTail s n).tag = n.tag := by cases n; rfl
theorem addTail_attrs (s : Str) (n : Node) : (addTail s n).attrs = n.attrs := by cases n; rfl
theorem addTail_text (s : Str) (n : Node) : (addTail s n).text = n.text := by cases n; rfl
theorem addTail_height (s : Str) (n : Node) : (addTail s n).height = n.height := by cases n; rfl
theorem drop_tag (n : Node) : (dropComments n).tag = n.tag := by cases n; rfl
theorem drop_attrs (n : Node) : (dropComments n).attrs = n.attrs := by cases n; rfl
theorem drop_kids (n : Node) : (dropComments n).kids = dropCommentsAll n.kids := by cases n; rfl

theorem complete_addTail (s : Str) (n : Node) : complete (addTail s n) = complete n := by cases n; rfl
theorem emptied_addTail (s : Str) (n : Node) (ks : List Node) : emptied (addTail s n) ks = emptied n ks := by cases n; rfl

/-- What stands for the child `c` when comments are taken out, before the text after it is completed. -/
def elementsOf (ks : List Node) : List Node := ks.filter fun c => !c.isComment

theorem dropAll_complete (ks : List Node) :
    (dropCommentsAll ks).map complete = (elementsOf ks).map fun c => complete (dropComments c) := by
  induction ks with
  | nil => rfl
  | cons c r ih =>
    rw [dropCommentsAll]
    by_cases hc : c.isComment = true
    · simp [hc, ih, elementsOf]
    · simp only [Bool.not_eq_true] at hc
      simp [hc, ih, elementsOf, complete_addTail]

theorem elementsOf_eq_self {ks : List Node} (h : ks.any (·.isComment) = false) : elementsOf ks = ks := by
  unfold elementsOf
  rw [List.filter_eq_self]
  intro c hc
  rw [List.any_eq_false] at h
  simpa using h c hc

/-- The number of a child once comments are taken out. -/
def place (ks : List Node) (i : Nat) : Nat := (elementsOf (ks.take i)).length

theorem dropAll_length (ks : List Node) : (dropCommentsAll ks).length = (elementsOf ks).length := by
  have := congrArg List.length (dropAll_complete ks)
  simpa using this

theorem dropAll_get {ks : List Node} {i : Nat} {c : Node} (h : ks[i]? = some c) (hc : c.isComment = false) :
    (dropCommentsAll ks)[place ks i]? = some (addTail (leadText (ks.drop (i + 1))) (dropComments c)) := by
  induction ks generalizing i with
  | nil => simp at h
  | cons d r ih =>
    cases i with
    | zero =>
      simp at h; subst h
      simp [place, elementsOf, dropCommentsAll, hc]
    | succ i =>
      simp only [List.getElem?_cons_succ] at h
      rw [dropCommentsAll]
      by_cases hd : d.isComment = true
      · rw [if_pos hd]
        simpa [place, elementsOf, hd] using ih h
      · rw [if_neg hd]
        simp only [Bool.not_eq_true] at hd
        simpa [place, elementsOf, hd] using ih h

theorem dropAll_get_inv {ks : List Node} {k : Nat} {d : Node} (h : (dropCommentsAll ks)[k]? = some d) :
    ∃ (i : Nat) (c : Node) (s : Str), ks[i]? = some c ∧ c.isComment = false ∧ d = addTail s (dropComments c) := by
  induction ks generalizing k with
  | nil => simp [dropCommentsAll] at h
  | cons e r ih =>
    rw [dropCommentsAll] at h
    by_cases he : e.isComment = true
    · rw [if_pos he] at h
      obtain ⟨i, c, s, h1, h2⟩ := ih h
      exact ⟨i + 1, c, s, by simpa using h1, h2⟩
    · rw [if_neg he] at h
      cases k with
      | zero =>
        simp at h
        exact ⟨0, e, _, by simp, by simpa using he, h.symm⟩
      | succ k =>
        simp only [List.getElem?_cons_succ] at h
        obtain ⟨i, c, s, h1, h2⟩ := ih h
        exact ⟨i + 1, c, s, by simpa using h1, h2⟩

theorem test_drop (s : Step) (x : Str) (c : Node) : s.test (addTail x (dropComments c)) = s.test c := by
  have : ∀ a, (addTail x (dropComments c)).get a = c.get a := by
    intro a; simp [Node.get, addTail_attrs, drop_attrs]
  unfold Step.test
  rw [addTail_tag, drop_tag]
  congr 1
  apply List.all_congr rfl
  intro a
  cases a <;> simp [ATest.holds, this]

theorem leaves_child {n c : Node} {i : Nat} (hl : ∀ pos c, nodeAt n pos = some c → c.isComment = true → c.attrs = [] ∧ c.text = [] ∧ c.kids = [])
    (hk : n.kids[i]? = some c) :
    ∀ pos d, nodeAt c pos = some d → d.isComment = true → d.attrs = [] ∧ d.text = [] ∧ d.kids = [] :=
  fun pos d hd => hl (i :: pos) d (by simp [nodeAt, hk, hd])

/-- A comment fails a test and selects nothing. -/
theorem comment_test {s : Step} {c : Node} (hs : NamesElements s) (hc : c.isComment = true) (ha : c.attrs = []) :
    s.test c = false := by
  cases ht : s.test c with
  | false => rfl
  | true =>
    exfalso
    obtain ⟨h1, h2⟩ := hs
    simp only [Step.test, Bool.and_eq_true, Bool.or_eq_true, beq_iff_eq] at ht
    rcases ht.1 with h3 | h3
    · have hne := h2 h3
      cases hts : s.tests with
      | nil => exact hne hts
      | cons a r =>
        rw [hts] at ht
        simp only [List.all_cons, Bool.and_eq_true] at ht
        cases a with
        | has a => simp [ATest.holds, Node.get, ha] at ht
        | eq a q v => simp [ATest.holds, Node.get, ha] at ht
    · simp only [Node.isComment, beq_iff_eq] at hc
      exact h1 (h3.trans hc)

theorem sel_no_kids {c : Node} {s : Step} {q : List Step} {t : List Nat} (h : c.kids = []) : ¬ Sel c (s :: q) t := by
  intro hs
  cases hs with
  | child hk2 _ _ => simp [h] at hk2
  | desc hk2 _ _ => simp [h] at hk2

/-- Everywhere in the element, comments are leaves. -/
def LeavesIn (n : Node) : Prop := ∀ pos c, nodeAt n pos = some c → c.isComment = true → c.attrs = [] ∧ c.text = [] ∧ c.kids = []

theorem sel_drop {n : Node} {p : List Step} {t : List Nat} (h : Sel n p t) (hl : LeavesIn n)
    (hp : ∀ s ∈ p, NamesElements s) (x : Str) : ∃ u, Sel (addTail x (dropComments n)) p u := by
  induction h generalizing x with
  | nil => exact ⟨[], .nil⟩
  | @child n c s q i t hk ht hs ih =>
    have hc : c.isComment = false := by
      cases hc : c.isComment with
      | false => rfl
      | true =>
        rw [comment_test (hp s (by simp)) hc (hl [i] c (by simp [nodeAt, hk]) hc).1] at ht
        simp at ht
    obtain ⟨u, hu⟩ := ih (leaves_child hl hk) (fun s hs => hp s (by simp [hs])) (leadText (n.kids.drop (i + 1)))
    refine ⟨place n.kids i :: u, .child ?_ ?_ hu⟩
    · rw [addTail_kids, drop_kids]; exact dropAll_get hk hc
    · rw [test_drop]; exact ht
  | @desc n c s q i t hk hd hs ih =>
    have hc : c.isComment = false := by
      cases hc : c.isComment with
      | false => rfl
      | true => exact absurd hs (sel_no_kids (hl [i] c (by simp [nodeAt, hk]) hc).2.2)
    obtain ⟨u, hu⟩ := ih (leaves_child hl hk) hp (leadText (n.kids.drop (i + 1)))
    exact ⟨place n.kids i :: u, .desc (by rw [addTail_kids, drop_kids]; exact dropAll_get hk hc) hd hu⟩

theorem sel_undrop {n m : Node} {p : List Step} {t : List Nat} (h : Sel m p t) (x : Str)
    (hm : m = addTail x (dropComments n)) : ∃ u, Sel n p u := by
  induction h generalizing n x with
  | nil => exact ⟨[], .nil⟩
  | @child m' c s q i t hk ht hs ih =>
    subst hm
    rw [addTail_kids, drop_kids] at hk
    obtain ⟨j, d, y, h1, h2, h3⟩ := dropAll_get_inv hk
    obtain ⟨u, hu⟩ := ih y h3
    exact ⟨j :: u, .child h1 (by rw [h3, test_drop] at ht; exact ht) hu⟩
  | @desc m' c s q i t hk hd hs ih =>
    subst hm
    rw [addTail_kids, drop_kids] at hk
    obtain ⟨j, d, y, h1, h2, h3⟩ := dropAll_get_inv hk
    obtain ⟨u, hu⟩ := ih y h3
    exact ⟨j :: u, .desc h1 hd hu⟩

theorem select_drop {n : Node} {p : List Step} (hp0 : p ≠ []) (hl : LeavesIn n) (hp : ∀ s ∈ p, NamesElements s) (x : Str) :
    (select (addTail x (dropComments n)) p).isEmpty = (select n p).isEmpty := by
  rw [Bool.eq_iff_iff]
  have e : ∀ m : Node, (select m p).isEmpty = true ↔ ¬ ∃ t, Sel m p t := by
    intro m
    rw [List.isEmpty_iff, List.eq_nil_iff_forall_not_mem]
    simp only [mem_select hp0, not_exists]
  rw [e, e]
  refine not_congr ⟨?_, ?_⟩
  · rintro ⟨t, ht⟩; exact sel_undrop ht x rfl
  · rintro ⟨t, ht⟩; exact sel_drop ht hl hp x

theorem firstResult_drop (f g : Node → Bool) (ks : List Node) (k k' : Nat)
    (hf : ∀ c ∈ ks, c.isComment = true → f c = false) (hg : ∀ c ∈ ks, c.isComment = false → ∀ x, g (addTail x (dropComments c)) = f c) :
    match firstResult ((ks.zipIdx k).filter fun c => f c.1) with
    | .error e => firstResult (((dropCommentsAll ks).zipIdx k').filter fun c => g c.1) = .error e
    | .ok (c, i) => k ≤ i ∧ ks[i - k]? = some c ∧ c.isComment = false ∧
        firstResult (((dropCommentsAll ks).zipIdx k').filter fun c => g c.1) =
          .ok (addTail (leadText (ks.drop (i - k + 1))) (dropComments c), k' + place ks (i - k)) := by
  induction ks generalizing k k' with
  | nil => simp [firstResult, dropCommentsAll]
  | cons d r ih =>
    rw [dropCommentsAll, List.zipIdx_cons]
    by_cases hd : d.isComment = true
    · rw [if_pos hd]
      have hfd := hf d (by simp) hd
      rw [List.filter_cons_of_neg (by simp [hfd])]
      have := ih (k + 1) k' (fun c hc => hf c (by simp [hc])) (fun c hc => hg c (by simp [hc]))
      cases hr : firstResult ((r.zipIdx (k + 1)).filter fun c => f c.1) with
      | error e => rw [hr] at this; exact this
      | ok ci =>
        obtain ⟨c, i⟩ := ci
        rw [hr] at this
        obtain ⟨h1, h2, h3, h4⟩ := this
        refine ⟨by omega, ?_, h3, ?_⟩
        · rw [show i - k = (i - (k + 1)) + 1 by omega]; simpa using h2
        · rw [h4, show i - k = (i - (k + 1)) + 1 by omega]
          simp [place, elementsOf, hd]
    · rw [if_neg hd]
      simp only [Bool.not_eq_true] at hd
      have hgd := hg d (by simp) hd
      rw [List.zipIdx_cons]
      by_cases hfd : f d = true
      · rw [List.filter_cons_of_pos (by simpa using hfd), List.filter_cons_of_pos (by simp [hgd, hfd])]
        simp [firstResult, hd, place, elementsOf]
      · rw [List.filter_cons_of_neg (by simpa using hfd), List.filter_cons_of_neg (by simp [hgd, hfd])]
        have := ih (k + 1) (k' + 1) (fun c hc => hf c (by simp [hc])) (fun c hc => hg c (by simp [hc]))
        cases hr : firstResult ((r.zipIdx (k + 1)).filter fun c => f c.1) with
        | error e => rw [hr] at this; exact this
        | ok ci =>
          obtain ⟨c, i⟩ := ci
          rw [hr] at this
          obtain ⟨h1, h2, h3, h4⟩ := this
          refine ⟨by omega, ?_, h3, ?_⟩
          · rw [show i - k = (i - (k + 1)) + 1 by omega]; simpa using h2
          · rw [h4, show i - k = (i - (k + 1)) + 1 by omega]
            simp [place, elementsOf, hd]
            omega

theorem select_comment {c : Node} {p : List Step} (hp0 : p ≠ []) (hk : c.kids = []) : (select c p).isEmpty = true := by
  rw [List.isEmpty_iff, List.eq_nil_iff_forall_not_mem]
  intro t ht
  rw [mem_select hp0] at ht
  cases p with
  | nil => exact hp0 rfl
  | cons s q => exact sel_no_kids hk ht

theorem leavesIn_mem {n c : Node} (hl : LeavesIn n) (hc : c ∈ n.kids) : LeavesIn c := by
  obtain ⟨i, hi⟩ := List.mem_iff_getElem?.1 hc
  exact leaves_child hl hi

theorem leavesIn_comment {n c : Node} (hl : LeavesIn n) (hc : c ∈ n.kids) (h : c.isComment = true) :
    c.attrs = [] ∧ c.kids = [] := by
  obtain ⟨i, hi⟩ := List.mem_iff_getElem?.1 hc
  have := hl [i] c (by simp [nodeAt, hi]) h
  exact ⟨this.1, this.2.2⟩

theorem stepHit_drop {s : Step} {q : List Step} {c : Node} (hl : LeavesIn c) (hq : ∀ s ∈ q, NamesElements s) (x : Str) :
    stepHit s q (addTail x (dropComments c)) = stepHit s q c := by
  unfold stepHit
  rw [test_drop]
  by_cases hq0 : q = []
  · simp [hq0]
  · rw [select_drop hq0 hl hq]

/-- Taking comments out does not change which child the path goes to. -/
theorem stepInto_drop {n : Node} {p : List Step} (hl : LeavesIn n) (hp : ∀ s ∈ p, NamesElements s) (x : Str) :
    match stepInto n p with
    | .error e => stepInto (addTail x (dropComments n)) p = .error e
    | .ok (c, i, q) => n.kids[i]? = some c ∧ c.isComment = false ∧
        stepInto (addTail x (dropComments n)) p =
          .ok (addTail (leadText (n.kids.drop (i + 1))) (dropComments c), place n.kids i, q) := by
  cases p with
  | nil => simp [stepInto, performXpath]
  | cons s q =>
    have hs : NamesElements s := hp s (by simp)
    have hq : ∀ s ∈ q, NamesElements s := fun s h => hp s (by simp [h])
    have A := firstResult_drop (stepHit s q) (stepHit s q) n.kids 0 0
      (fun c hc h => by
        unfold stepHit
        rw [comment_test hs h (leavesIn_comment hl hc h).1]; rfl)
      (fun c hc _ x => stepHit_drop (leavesIn_mem hl hc) hq x)
    have B := firstResult_drop (fun c => !(select c (s :: q)).isEmpty) (fun c => !(select c (s :: q)).isEmpty) n.kids 0 0
      (fun c hc h => by
        rw [select_comment (by simp) (leavesIn_comment hl hc h).2]; rfl)
      (fun c hc _ x => by rw [select_drop (by simp) (leavesIn_mem hl hc) hp])
    unfold stepInto performXpath
    rw [addTail_kids, drop_kids]
    cases h1 : firstResult (n.kids.zipIdx.filter fun c => stepHit s q c.1) with
    | ok ci =>
      obtain ⟨c, i⟩ := ci
      rw [h1] at A
      obtain ⟨-, A2, A3, A4⟩ := A
      simp only [Nat.sub_zero, Nat.zero_add] at A2 A4
      simp only [A4, h1]
      exact ⟨A2, A3, trivial⟩
    | error e =>
      rw [h1] at A
      simp only at A
      simp only [A, h1]
      by_cases hd : s.desc = true
      · simp only [if_pos hd]
        cases h2 : firstResult (n.kids.zipIdx.filter fun c => !(select c.1 (s :: q)).isEmpty) with
        | ok ci =>
          obtain ⟨c, i⟩ := ci
          rw [h2] at B
          obtain ⟨-, B2, B3, B4⟩ := B
          simp only [Nat.sub_zero, Nat.zero_add] at B2 B4
          simp only [B4, h2]
          exact ⟨B2, B3, trivial⟩
        | error e =>
          rw [h2] at B
          simp only at B
          simp only [B, h2]
      · simp only [if_neg hd]

/-! ### The loops -/

theorem elementsOf_split {ks : List Node} {i : Nat} {c : Node} (h : ks[i]? = some c) (hc : c.isComment = false) :
    elementsOf ks = elementsOf (ks.take i) ++ c :: elementsOf (ks.drop (i + 1)) := by
  have h1 : ks = ks.take i ++ c :: ks.drop (i + 1) := by
    obtain ⟨hi, rfl⟩ := List.getElem?_eq_some_iff.1 h
    rw [List.getElem_cons_drop, List.take_append_drop]
  rw [h1]
  simp only [elementsOf, List.filter_append]
  rw [List.filter_cons_of_pos (by simp [hc])]
  rw [← h1]

theorem place_lt {ks : List Node} {i : Nat} {c : Node} (h : ks[i]? = some c) (hc : c.isComment = false) :
    place ks i < (dropCommentsAll ks).length := by
  rw [dropAll_length, elementsOf_split h hc]
  simp [place]

theorem place_mono {ks : List Node} {i j : Nat} {c : Node} (h : ks[i]? = some c) (hc : c.isComment = false)
    (hij : i < j) : place ks i < place ks j := by
  have h1 : (ks.take j)[i]? = some c := by rw [List.getElem?_take, if_pos hij, h]
  have := elementsOf_split h1 hc
  unfold place
  rw [this, List.take_take, Nat.min_eq_left (by omega)]
  simp

theorem dropAll_take {ks : List Node} {i : Nat} (h : (ks.take i).any (·.isComment) = false) (hi : i ≤ ks.length) :
    ((dropCommentsAll ks).take (place ks i)).map complete = ((ks.take i).map complete).map dropComments := by
  rw [List.map_take, dropAll_complete]
  have h1 : elementsOf ks = elementsOf (ks.take i) ++ elementsOf (ks.drop i) := by
    simp only [elementsOf, ← List.filter_append, List.take_append_drop]
  rw [h1, ← List.map_take, List.take_append_of_le_length (by simp [place]), place, List.take_length, elementsOf_eq_self h]
  simp only [List.map_map]
  apply List.map_congr_left
  intro c _
  cases c; rfl

theorem dropAll_drop {ks : List Node} {i : Nat} {c : Node} (hk : ks[i]? = some c) (hc : c.isComment = false)
    (h : (ks.drop (i + 1)).any (·.isComment) = false) :
    ((dropCommentsAll ks).drop (place ks i + 1)).map complete = ((ks.drop (i + 1)).map complete).map dropComments := by
  rw [List.map_drop, dropAll_complete, elementsOf_split hk hc, ← List.map_drop, List.drop_append]
  rw [List.drop_of_length_le (by simp [place])]
  simp only [place, Nat.add_sub_cancel_left, List.nil_append, List.drop_succ_cons, List.drop_zero]
  rw [elementsOf_eq_self h]
  simp only [List.map_map]
  apply List.map_congr_left
  intro c _
  cases c; rfl

theorem dropAll_between {ks : List Node} {i j : Nat} {c d : Node} (hk : ks[i]? = some c) (hc : c.isComment = false)
    (hk2 : ks[j]? = some d) (hij : i < j)
    (h : ((ks.drop (i + 1)).take (j - i - 1)).any (·.isComment) = false) :
    (((dropCommentsAll ks).drop (place ks i + 1)).take (place ks j - place ks i - 1)).map complete =
      (((ks.drop (i + 1)).take (j - i - 1)).map complete).map dropComments := by
  have hj := (List.getElem?_eq_some_iff.1 hk2).1
  rw [List.map_take, List.map_drop, dropAll_complete, elementsOf_split hk hc, ← List.map_drop, List.drop_append]
  rw [List.drop_of_length_le (by simp [place])]
  simp only [place, Nat.add_sub_cancel_left, List.nil_append, List.drop_succ_cons, List.drop_zero]
  have h1 : (elementsOf (ks.take j)).length = (elementsOf (ks.take i)).length + 1 + (j - i - 1) := by
    have h2 : (ks.take j)[i]? = some c := by rw [List.getElem?_take, if_pos hij, hk]
    rw [elementsOf_split h2 hc, List.take_take, Nat.min_eq_left (by omega), List.drop_take,
      show j - (i + 1) = j - i - 1 by omega, elementsOf_eq_self h]
    simp
    omega
  rw [h1, ← List.map_take]
  have h3 : elementsOf (ks.drop (i + 1)) = (ks.drop (i + 1)).take (j - i - 1) ++ elementsOf ((ks.drop (i + 1)).drop (j - i - 1)) := by
    conv => lhs; rw [← List.take_append_drop (j - i - 1) (ks.drop (i + 1))]
    simp only [elementsOf, List.filter_append]
    congr 1
    exact elementsOf_eq_self h
  rw [h3, show (elementsOf (ks.take i)).length + 1 + (j - i - 1) - (elementsOf (ks.take i)).length - 1 = j - i - 1 by omega,
    List.take_append_of_le_length (by simp; omega), List.take_take, Nat.min_self]
  simp only [List.map_map]
  apply List.map_congr_left
  intro c _
  cases c; rfl

theorem sideSiblings_error (eq : Nat → Bool) (e : PyErr) (prec foll : Bool) (hpf : prec = true ∨ foll = true) (ks : List Node) (k i : Nat)
    (h1 : k ≤ i) (h2 : i < k + ks.length) (h : ∀ j, k ≤ j → j < k + ks.length → (eq j = true ↔ j = i)) :
    sideSiblings eq (.error e) prec foll false (ks.zipIdx k) = .error e := by
  induction ks generalizing k with
  | nil => simp at h2; omega
  | cons c r ih =>
    simp at h2
    rw [List.zipIdx_cons]
    by_cases hk : k = i
    · subst hk
      simp [sideSiblings, (h k (by omega) (by simp)).2 rfl]
    · have he : eq k = false := by
        cases hj : eq k with
        | false => rfl
        | true => exact absurd ((h k (by omega) (by simp)).1 hj) hk
      simp only [sideSiblings, he]
      rw [ih (k + 1) (by omega) (by omega) (fun j h3 h4 => h j (by omega) (by simp; omega))]
      cases prec <;> simp <;> rfl

theorem sideSiblingsC_error (eq : Nat → Bool) (e : PyErr) (prec foll : Bool) (ks : List Node) (k i : Nat)
    (h1 : k ≤ i) (h2 : i < k + ks.length) (h : ∀ j, k ≤ j → j < k + ks.length → (eq j = true ↔ j = i)) :
    sideSiblingsC eq (.error e) prec foll false (ks.zipIdx k) = .error e ∨
    sideSiblingsC eq (.error e) prec foll false (ks.zipIdx k) = .error .typeError := by
  induction ks generalizing k with
  | nil => simp at h2; omega
  | cons c r ih =>
    simp at h2
    rw [List.zipIdx_cons]
    by_cases hk : k = i
    · subst hk
      simp [sideSiblingsC, (h k (by omega) (by simp)).2 rfl]
    · have he : eq k = false := by
        cases hj : eq k with
        | false => rfl
        | true => exact absurd ((h k (by omega) (by simp)).1 hj) hk
      simp only [sideSiblingsC, he]
      have := ih (k + 1) (by omega) (by omega) (fun j h3 h4 => h j (by omega) (by simp; omega))
      cases prec
      · simpa using this
      · by_cases hc : c.isComment = true
        · simp [copyNodeFull, hc]
        · simp only [Bool.not_eq_true] at hc
          rw [copyNodeFull_ok hc]
          rcases this with h | h <;> simp [h] <;> first | exact .inl rfl | exact .inr rfl

theorem rangeSiblings_error (eq1 eq2 : Nat → Bool) (first : Node → Except PyErr Node) (ks : List Node)
    (k i : Nat) (c : Node) (e : PyErr) (h1 : k ≤ i) (h2 : i < k + ks.length) (hc : ks[i - k]? = some c)
    (hm : first c = .error e) (he1 : ∀ j, k ≤ j → j < k + ks.length → (eq1 j = true ↔ j = i)) :
    rangeSiblings eq1 eq2 first false (ks.zipIdx k) = .error e ∧
    rangeSiblingsC eq1 eq2 first false (ks.zipIdx k) = .error e := by
  induction ks generalizing k with
  | nil => simp at h2; omega
  | cons d r ih =>
    simp at h2
    rw [List.zipIdx_cons]
    by_cases hk : k = i
    · subst hk
      simp at hc; subst hc
      simp [rangeSiblings, rangeSiblingsC, (he1 k (by omega) (by simp)).2 rfl, hm]
    · have he : eq1 k = false := by
        cases hj : eq1 k with
        | false => rfl
        | true => exact absurd ((he1 k (by omega) (by simp)).1 hj) hk
      simp only [rangeSiblings, rangeSiblingsC, he]
      rw [show i - k = (i - (k + 1)) + 1 by omega, List.getElem?_cons_succ] at hc
      simp only [Bool.false_eq_true, if_false]
      exact ih (k + 1) (by omega) (by omega) hc (fun j h3 h4 => he1 j (by omega) (by simp; omega))

theorem rangeSiblings_rest (eq1 eq2 : Nat → Bool) (first : Node → Except PyErr Node) (ks : List Node) (k : Nat)
    (h : ∀ j, k ≤ j → j < k + ks.length → eq2 j = false) :
    rangeSiblings eq1 eq2 first true (ks.zipIdx k) = .ok (ks.map complete) ∧
    rangeSiblingsC eq1 eq2 first true (ks.zipIdx k) = orType (ks.any (·.isComment)) (ks.map complete) := by
  induction ks generalizing k with
  | nil => exact ⟨rfl, rfl⟩
  | cons c r ih =>
    have hk := h k (by omega) (by simp)
    obtain ⟨ih1, ih2⟩ := ih (k + 1) (fun j h1 h2 => h j (by omega) (by simp; omega))
    rw [List.zipIdx_cons]
    simp only [rangeSiblings, rangeSiblingsC, hk, ih1, ih2]
    refine ⟨by simp [copyFull_eq], ?_⟩
    by_cases hc : c.isComment = true
    · simp [copyNodeFull, hc, orType]
    · simp only [Bool.not_eq_true] at hc
      rw [copyNodeFull_ok hc]
      simp only [List.any_cons, hc, Bool.false_or, List.map_cons, Bool.false_eq_true, if_false]
      unfold orType
      split <;> rfl

/-- A range whose end is not after its start: all that follows the start. -/
theorem rangeSiblings_past (eq1 eq2 : Nat → Bool) (firstC first : Node → Except PyErr Node) (ks : List Node)
    (k i : Nat) (c m : Node) (h1 : k ≤ i) (h2 : i < k + ks.length) (hc : ks[i - k]? = some c)
    (he1 : ∀ j, k ≤ j → j < k + ks.length → (eq1 j = true ↔ j = i))
    (he2 : ∀ j, i < j → j < k + ks.length → eq2 j = false) :
    (first c = .ok m → rangeSiblings eq1 eq2 first false (ks.zipIdx k) = .ok (m :: (ks.drop (i - k + 1)).map complete)) ∧
    (firstC c = .ok m → rangeSiblingsC eq1 eq2 firstC false (ks.zipIdx k) =
      orType ((ks.drop (i - k + 1)).any (·.isComment)) (m :: (ks.drop (i - k + 1)).map complete)) := by
  induction ks generalizing k with
  | nil => simp at h2; omega
  | cons d r ih =>
    simp at h2
    rw [List.zipIdx_cons]
    by_cases hk : k = i
    · subst hk
      simp at hc; subst hc
      have := rangeSiblings_rest eq1 eq2 first r (k + 1) (fun j h3 h4 => he2 j (by omega) (by simp; omega))
      have this2 := rangeSiblings_rest eq1 eq2 firstC r (k + 1) (fun j h3 h4 => he2 j (by omega) (by simp; omega))
      simp only [rangeSiblings, rangeSiblingsC, (he1 k (by omega) (by simp)).2 rfl, if_true]
      constructor
      · intro hm; simp [hm, this.1]
      · intro hm
        simp only [hm, this2.2, Nat.sub_self, Nat.zero_add, List.drop_succ_cons, List.drop_zero]
        unfold orType
        split <;> rfl
    · have he : eq1 k = false := by
        cases hj : eq1 k with
        | false => rfl
        | true => exact absurd ((he1 k (by omega) (by simp)).1 hj) hk
      simp only [rangeSiblings, rangeSiblingsC, he]
      rw [show i - k + 1 = (i - (k + 1) + 1) + 1 by omega, List.drop_succ_cons]
      rw [show i - k = (i - (k + 1)) + 1 by omega, List.getElem?_cons_succ] at hc
      simp only [Bool.false_eq_true, if_false]
      exact ih (k + 1) (by omega) (by omega) hc (fun j h3 h4 => he1 j (by omega) (by simp; omega))
        (fun j h3 h4 => he2 j (by omega) (by simp; omega))

/-- Copies made in a document with comments, and copies made in the document without them. -/
def SameCopies (r r' : Except PyErr (List Node)) : Prop :=
  match r with
  | .ok ks => ks.any (·.isComment) = false ∧ r' = .ok (ks.map dropComments)
  | .error e => e = .typeError ∨ r' = .error e

/-- The same for one copy. -/
def SameCopy (r r' : Except PyErr Node) : Prop :=
  match r with
  | .ok m => m.isComment = false ∧ r' = .ok (dropComments m)
  | .error e => e = .typeError ∨ r' = .error e

theorem leadText_none {ks : List Node} (h : ks.any (·.isComment) = false) : leadText ks = [] := by
  cases ks with
  | nil => rfl
  | cons c r =>
    simp only [List.any_cons, Bool.or_eq_false_iff] at h
    simp [leadText, h.1]

theorem addTail_nil (n : Node) : addTail [] n = n := by cases n; simp [addTail]

theorem dropAll_none {ks : List Node} (h : ks.any (·.isComment) = false) : dropCommentsAll ks = ks.map dropComments := by
  induction ks with
  | nil => rfl
  | cons c r ih =>
    simp only [List.any_cons, Bool.or_eq_false_iff] at h
    simp [dropCommentsAll, h.1, leadText_none h.2, addTail_nil, ih h.2]

theorem drop_emptied {c : Node} {ks : List Node} (h : ks.any (·.isComment) = false) :
    dropComments (emptied c ks) = emptied (dropComments c) (ks.map dropComments) := by
  cases c
  simp [emptied, dropComments, leadText_none h, dropAll_none h, Node.tag, Node.attrs]

theorem sameCopy_mid {c : Node} (hc : c.isComment = false) (x : Str) {q : List Step} {r r' : Except PyErr (List Node)}
    (h : q ≠ [] → SameCopies r r') :
    SameCopy (if q.isEmpty then copyNodeFull c else copyNodeBare c r)
      (if q.isEmpty then .ok (copyFull (addTail x (dropComments c))) else wrap (addTail x (dropComments c)) r') := by
  cases q with
  | nil =>
    simp only [List.isEmpty_nil, if_true, copyNodeFull_ok hc]
    exact ⟨hc, by cases c; rfl⟩
  | cons s q =>
    have := h (by simp)
    simp only [List.isEmpty_cons, Bool.false_eq_true, if_false, copyNodeBare_ok hc]
    cases r with
    | ok ks =>
      obtain ⟨h1, h2⟩ := this
      subst h2
      refine ⟨by cases c; exact hc, ?_⟩
      simp [wrap, copyBare_eq, emptied_addTail, drop_emptied h1]
    | error e =>
      rcases this with h1 | h1
      · exact .inl h1
      · subst h1; exact .inr rfl

theorem no_comment_complete {ks : List Node} (h : ks.any (·.isComment) = false) : (ks.map complete).any (·.isComment) = false := by
  rw [List.any_eq_false] at h ⊢
  intro c hc
  obtain ⟨d, hd, rfl⟩ := List.mem_map.1 hc
  exact h d hd

theorem sameCopies_foll {same : Same} {n c : Node} {i : Nat} (hs : TellsApart same n) (hk : n.kids[i]? = some c)
    (hc : c.isComment = false) {mid mid' : Except PyErr Node} (hm : SameCopy mid mid') :
    SameCopies (sideSiblingsC (fun j => same n j i) mid false true false n.kids.zipIdx)
      (sideSiblings (fun j => j == place n.kids i) mid' false true false (dropCommentsAll n.kids).zipIdx) := by
  have hi := lt_of_kid hk
  have hp := place_lt hk hc
  cases mid with
  | error e =>
    rcases sideSiblingsC_error (fun j => same n j i) e false true n.kids 0 i (by omega) (by omega)
      (fun j _ hj => tellsApart_self hs j i (by omega) hi) with h | h
    · rw [h]
      rcases hm with hm | hm
      · exact .inl hm
      · subst hm
        exact .inr (sideSiblings_error _ e false true (.inr rfl) _ 0 (place n.kids i) (by omega) (by omega) (by simp))
    · rw [h]; exact .inl rfl
  | ok m =>
    obtain ⟨h1, h2⟩ := hm
    subst h2
    have := sideSiblingsC_foll (fun j => same n j i) false m n.kids 0 i (by omega) (by omega)
      (fun j _ hj => tellsApart_self hs j i (by omega) hi)
    simp only [orType, Bool.false_eq_true, if_false, Nat.sub_zero, Bool.false_or] at this
    rw [this]
    cases hr : (n.kids.drop (i + 1)).any (·.isComment) with
    | true => exact .inl rfl
    | false =>
      refine ⟨by simp only [List.any_cons, h1, Bool.false_or]; exact no_comment_complete hr, ?_⟩
      rw [sideSiblings_foll _ _ _ 0 (place n.kids i) (by omega) (by omega) (by simp), Nat.sub_zero, dropAll_drop hk hc hr]
      rfl

theorem sameCopies_prec {same : Same} {n c : Node} {i : Nat} (hs : TellsApart same n) (hk : n.kids[i]? = some c)
    (hc : c.isComment = false) {mid mid' : Except PyErr Node} (hm : SameCopy mid mid') :
    SameCopies (sideSiblingsC (fun j => same n j i) mid true false false n.kids.zipIdx)
      (sideSiblings (fun j => j == place n.kids i) mid' true false false (dropCommentsAll n.kids).zipIdx) := by
  have hi := lt_of_kid hk
  have hp := place_lt hk hc
  cases mid with
  | error e =>
    rcases sideSiblingsC_error (fun j => same n j i) e true false n.kids 0 i (by omega) (by omega)
      (fun j _ hj => tellsApart_self hs j i (by omega) hi) with h | h
    · rw [h]
      rcases hm with hm | hm
      · exact .inl hm
      · subst hm
        exact .inr (sideSiblings_error _ e true false (.inl rfl) _ 0 (place n.kids i) (by omega) (by omega) (by simp))
    · rw [h]; exact .inl rfl
  | ok m =>
    obtain ⟨h1, h2⟩ := hm
    subst h2
    have := sideSiblingsC_prec (fun j => same n j i) false m n.kids 0 i (by omega) (by omega)
      (fun j _ hj => tellsApart_self hs j i (by omega) hi)
    simp only [orType, Bool.false_eq_true, if_false, Nat.sub_zero, Bool.or_false] at this
    rw [this]
    cases hr : (n.kids.take i).any (·.isComment) with
    | true => exact .inl rfl
    | false =>
      refine ⟨by rw [List.any_append, no_comment_complete hr]; simp [h1], ?_⟩
      rw [sideSiblings_prec _ _ _ 0 (place n.kids i) (by omega) (by omega) (by simp), Nat.sub_zero, dropAll_take hr (by omega)]
      simp

theorem sameIdentity_eq (n : Node) (i : Nat) : (fun j => sameIdentity n j i) = fun j => j == i := rfl

theorem height_kid {n c : Node} {i : Nat} (hk : n.kids[i]? = some c) : c.height < n.height := height_lt_of_mem (kid_mem hk)

theorem dropHeight_kid {n c : Node} {i : Nat} (x : Str) (hk : n.kids[i]? = some c) (hc : c.isComment = false) :
    (addTail x (dropComments c)).height < (dropComments n).height := by
  have h := dropAll_get hk hc
  rw [← drop_kids] at h
  have := height_kid h
  rwa [addTail_height] at this ⊢

theorem sideLoop_drop (same : Same) (prec foll : Bool) (hpf : prec = !foll) (f g : Nat) (n : Node) (p : List Step) (x : Str)
    (hf : n.height ≤ f) (hg : (dropComments n).height ≤ g) (hs : TellsApart same n) (hl : LeavesIn n)
    (hp : ∀ s ∈ p, NamesElements s) :
    SameCopies (sideLoopC same prec foll f n p) (sideLoop sameIdentity prec foll g (addTail x (dropComments n)) p) := by
  induction f generalizing g n p x with
  | zero => have := height_pos n; omega
  | succ f ih =>
    cases g with
    | zero => have := height_pos (dropComments n); omega
    | succ g =>
      rw [sideLoopC, sideLoop_succ]
      have A := stepInto_drop (p := p) hl hp x
      cases h1 : stepInto n p with
      | error e => rw [h1] at A; simp only at A; rw [A]; exact .inr rfl
      | ok r =>
        obtain ⟨c, i, q⟩ := r
        rw [h1] at A
        obtain ⟨hk, hc, A⟩ := A
        rw [A]
        have hor : (prec || foll) = true := by subst hpf; cases foll <;> rfl
        simp only [hor, if_true, addTail_kids, drop_kids, sameIdentity_eq]
        have hm := sameCopy_mid hc (leadText (n.kids.drop (i + 1))) (q := q)
          (fun _ => ih g c q (leadText (n.kids.drop (i + 1))) (by have := height_kid hk; omega)
            (by have := dropHeight_kid [] hk hc; rw [addTail_nil] at this; omega) (tellsApart_kid hs hk) (leaves_child hl hk)
            (stepInto_names hp h1))
        cases foll with
        | true => subst hpf; exact sameCopies_foll hs hk hc hm
        | false => subst hpf; exact sameCopies_prec hs hk hc hm

theorem rangeBranch_drop (same : Same) (f g : Nat) (n : Node) (x : Str) (c1 c2 : Node) (i1 i2 : Nat) (q1 q2 : List Step)
    (hf : n.height ≤ f + 1) (hg : (dropComments n).height ≤ g + 1) (hs : TellsApart same n) (hl : LeavesIn n)
    (hk1 : n.kids[i1]? = some c1) (hc1 : c1.isComment = false) (hk2 : n.kids[i2]? = some c2) (hc2 : c2.isComment = false)
    (hne : i1 ≠ i2) (hq1 : ∀ s ∈ q1, NamesElements s) (hq2 : ∀ s ∈ q2, NamesElements s) (y : Str) :
    SameCopies (rangeBranchC same f n c2 i1 i2 q1 q2)
      (rangeBranch sameIdentity g (addTail x (dropComments n)) (addTail y (dropComments c2))
        (place n.kids i1) (place n.kids i2) q1 q2) := by
  have hi1 := lt_of_kid hk1
  have hi2 := lt_of_kid hk2
  have hp1 := place_lt hk1 hc1
  have hp2 := place_lt hk2 hc2
  have hh1 := height_kid hk1
  have hh2 := height_kid hk2
  have hd1 := dropHeight_kid [] hk1 hc1
  have hd2 := dropHeight_kid [] hk2 hc2
  rw [addTail_nil] at hd1 hd2
  have hfst := sameCopy_mid hc1 (leadText (n.kids.drop (i1 + 1))) (q := q1)
    (fun _ => sideLoop_drop same false true rfl f g c1 q1 (leadText (n.kids.drop (i1 + 1))) (by omega) (by omega)
      (tellsApart_kid hs hk1) (leaves_child hl hk1) hq1)
  have hlst := sameCopy_mid hc2 y (q := q2)
    (fun _ => sideLoop_drop same true false rfl f g c2 q2 y (by omega) (by omega)
      (tellsApart_kid hs hk2) (leaves_child hl hk2) hq2)
  have hget : (dropCommentsAll n.kids)[place n.kids i1 - 0]? = some (addTail (leadText (n.kids.drop (i1 + 1))) (dropComments c1)) := by
    simpa using dropAll_get hk1 hc1
  unfold rangeBranchC rangeBranch
  simp only [addTail_kids, drop_kids, sameIdentity_eq]
  generalize hF : (fun s => if q1.isEmpty then copyNodeFull s else copyNodeBare s (sideLoopC same false true f s q1)) = F
  generalize hG : (fun s => if q1.isEmpty then (.ok (copyFull s) : Except PyErr Node) else wrap s (sideLoop sameIdentity false true g s q1)) = G
  generalize hL : (if q2.isEmpty then copyNodeFull c2 else copyNodeBare c2 (sideLoopC same true false f c2 q2)) = L at hlst
  generalize hL' : (if q2.isEmpty then (.ok (copyFull (addTail y (dropComments c2))) : Except PyErr Node) else
    wrap (addTail y (dropComments c2)) (sideLoop sameIdentity true false g (addTail y (dropComments c2)) q2)) = L' at hlst
  have hfst' : SameCopy (F c1) (G (addTail (leadText (n.kids.drop (i1 + 1))) (dropComments c1))) := by
    rw [← hF, ← hG]; exact hfst
  clear hfst hF hG hL hL'
  have he1 : ∀ j, 0 ≤ j → j < 0 + n.kids.length → (same n j i1 = true ↔ j = i1) :=
    fun j _ hj => tellsApart_self hs j i1 (by omega) hi1
  have he2 : ∀ j, 0 ≤ j → j < 0 + n.kids.length → (same n j i2 = true ↔ j = i2) :=
    fun j _ hj => tellsApart_self hs j i2 (by omega) hi2
  cases h1 : F c1 with
  | error e =>
    rw [h1] at hfst'
    rw [(rangeSiblings_error (fun j => same n j i1) (fun j => same n j i2) F n.kids 0 i1 c1 e (by omega) (by omega)
      (by simpa using hk1) h1 he1).2]
    rcases hfst' with h | h
    · exact .inl h
    · rw [(rangeSiblings_error _ (fun j => j == place n.kids i2) G (dropCommentsAll n.kids) 0 (place n.kids i1) _ e
        (by omega) (by omega) hget h (by simp)).1]
      exact .inr rfl
  | ok m =>
    rw [h1] at hfst'
    obtain ⟨hm, hG⟩ := hfst'
    have key : SameCopies (rangeSiblingsC (fun j => same n j i1) (fun j => same n j i2) F false n.kids.zipIdx)
        (rangeSiblings (fun j => j == place n.kids i1) (fun j => j == place n.kids i2) G false (dropCommentsAll n.kids).zipIdx) := by
      by_cases hlt : i1 < i2
      · have hpl := place_mono hk1 hc1 hlt
        rw [rangeSiblingsC_eq (fun j => same n j i1) (fun j => same n j i2) F n.kids 0 i1 i2 c1 m false (by omega) hlt (by omega)
          (by simpa using hk1) (by rw [h1]; rfl) he1 he2,
          rangeSiblings_eq _ _ G (dropCommentsAll n.kids) 0 (place n.kids i1) (place n.kids i2) _ _ (by omega) hpl (by omega)
          hget hG (by simp) (by simp)]
        simp only [Nat.sub_zero, Bool.false_or]
        cases hr : ((n.kids.drop (i1 + 1)).take (i2 - i1 - 1)).any (·.isComment) with
        | true => exact .inl rfl
        | false =>
          refine ⟨by simp only [List.any_cons, hm, Bool.false_or]; exact no_comment_complete hr, ?_⟩
          rw [dropAll_between hk1 hc1 hk2 hlt hr]; rfl
      · have hlt' : i2 < i1 := by omega
        have hpl := place_mono hk2 hc2 hlt'
        rw [(rangeSiblings_past (fun j => same n j i1) (fun j => same n j i2) F F n.kids 0 i1 c1 m (by omega) (by omega)
          (by simpa using hk1) he1 (fun j h3 h4 => by
            cases hj : same n j i2 with
            | false => rfl
            | true => have := (he2 j (by omega) h4).1 hj; omega)).2 h1,
          (rangeSiblings_past _ (fun j => j == place n.kids i2) G G (dropCommentsAll n.kids) 0 (place n.kids i1) _ _ (by omega) (by omega)
          hget (by simp) (fun j h3 h4 => by simp; omega)).1 hG]
        simp only [Nat.sub_zero]
        cases hr : (n.kids.drop (i1 + 1)).any (·.isComment) with
        | true => exact .inl rfl
        | false =>
          refine ⟨by simp only [List.any_cons, hm, Bool.false_or]; exact no_comment_complete hr, ?_⟩
          rw [dropAll_drop hk1 hc1 hr]; rfl
    cases hR : rangeSiblingsC (fun j => same n j i1) (fun j => same n j i2) F false n.kids.zipIdx with
    | error e =>
      rw [hR] at key
      rcases key with h | h
      · exact .inl h
      · rw [h]; exact .inr rfl
    | ok ks =>
      rw [hR] at key
      obtain ⟨hks, h⟩ := key
      rw [h]
      simp only
      cases L with
      | error e =>
        rcases hlst with h | h
        · exact .inl h
        · subst h; exact .inr rfl
      | ok m2 =>
        obtain ⟨hm2, h⟩ := hlst
        subst h
        exact ⟨by rw [List.any_append, hks]; simp [hm2], by simp⟩

theorem pairLoop_drop (same : Same) (f g : Nat) (n : Node) (p1 p2 : List Step) (x : Str)
    (hf : n.height ≤ f) (hg : (dropComments n).height ≤ g) (hs : TellsApart same n) (hl : LeavesIn n)
    (hp1 : ∀ s ∈ p1, NamesElements s) (hp2 : ∀ s ∈ p2, NamesElements s) :
    SameCopies (pairLoopC same f n p1 p2) (pairLoop sameIdentity g (addTail x (dropComments n)) p1 p2) := by
  induction f generalizing g n p1 p2 x with
  | zero => have := height_pos n; omega
  | succ f ih =>
    cases g with
    | zero => have := height_pos (dropComments n); omega
    | succ g =>
      rw [pairLoopC, pairLoop]
      have A := stepInto_drop (p := p1) hl hp1 x
      have B := stepInto_drop (p := p2) hl hp2 x
      cases h1 : stepInto n p1 with
      | error e => rw [h1] at A; simp only at A; rw [A]; exact .inr rfl
      | ok r =>
        obtain ⟨c1, i1, q1⟩ := r
        rw [h1] at A
        obtain ⟨hk1, hc1, A⟩ := A
        rw [A]
        simp only
        have hq1 := stepInto_names hp1 h1
        have hh1 := height_kid hk1
        have hd1 := dropHeight_kid [] hk1 hc1
        rw [addTail_nil] at hd1
        have hi1 := lt_of_kid hk1
        have inner : ∀ q2, (∀ s ∈ q2, NamesElements s) →
            SameCopies (match (if q1.isEmpty then copyNodeFull c1 else copyNodeBare c1 (pairLoopC same f c1 q1 q2)) with
              | .error e => .error e
              | .ok m => .ok [m])
            (if q1.isEmpty then .ok [copyFull (addTail (leadText (n.kids.drop (i1 + 1))) (dropComments c1))]
              else match pairLoop sameIdentity g (addTail (leadText (n.kids.drop (i1 + 1))) (dropComments c1)) q1 q2 with
              | .error e => .error e
              | .ok ks => .ok [copyBare ks (addTail (leadText (n.kids.drop (i1 + 1))) (dropComments c1))]) := by
          intro q2 hq2
          have hm := sameCopy_mid hc1 (leadText (n.kids.drop (i1 + 1))) (q := q1)
            (fun _ => ih g c1 q1 q2 (leadText (n.kids.drop (i1 + 1))) (by omega) (by omega) (tellsApart_kid hs hk1)
              (leaves_child hl hk1) hq1 hq2)
          have e2 : (if q1.isEmpty then (.ok [copyFull (addTail (leadText (n.kids.drop (i1 + 1))) (dropComments c1))] : Except PyErr (List Node))
              else match pairLoop sameIdentity g (addTail (leadText (n.kids.drop (i1 + 1))) (dropComments c1)) q1 q2 with
              | .error e => .error e
              | .ok ks => .ok [copyBare ks (addTail (leadText (n.kids.drop (i1 + 1))) (dropComments c1))]) =
              (match (if q1.isEmpty then (.ok (copyFull (addTail (leadText (n.kids.drop (i1 + 1))) (dropComments c1))) : Except PyErr Node) else
                wrap (addTail (leadText (n.kids.drop (i1 + 1))) (dropComments c1))
                  (pairLoop sameIdentity g (addTail (leadText (n.kids.drop (i1 + 1))) (dropComments c1)) q1 q2)) with
              | .error e => .error e
              | .ok m => .ok [m]) := by
            by_cases hq : q1.isEmpty = true
            · simp [hq]
            · simp only [if_neg hq]
              cases pairLoop sameIdentity g (addTail (leadText (n.kids.drop (i1 + 1))) (dropComments c1)) q1 q2 <;> rfl
          rw [e2]
          revert hm
          generalize (if q1.isEmpty then copyNodeFull c1 else copyNodeBare c1 (pairLoopC same f c1 q1 q2)) = R
          generalize (if q1.isEmpty then (.ok (copyFull (addTail (leadText (n.kids.drop (i1 + 1))) (dropComments c1))) : Except PyErr Node) else
                wrap (addTail (leadText (n.kids.drop (i1 + 1))) (dropComments c1))
                  (pairLoop sameIdentity g (addTail (leadText (n.kids.drop (i1 + 1))) (dropComments c1)) q1 q2)) = R'
          intro hm
          cases R with
          | error e =>
            rcases hm with h | h
            · exact .inl h
            · subst h; exact .inr rfl
          | ok m =>
            obtain ⟨h1, h⟩ := hm
            subst h
            exact ⟨by simp [h1], by simp⟩
        by_cases hpp : p1 = p2
        · subst hpp
          simp only [if_true]
          rw [if_pos ((tellsApart_self hs i1 i1 hi1 hi1).2 rfl), if_pos (show sameIdentity (addTail x (dropComments n)) (place n.kids i1) (place n.kids i1) = true by simp [sameIdentity])]
          exact inner q1 hq1
        · rw [if_neg hpp, if_neg hpp]
          cases h2 : stepInto n p2 with
          | error e => rw [h2] at B; simp only at B; rw [B]; exact .inr rfl
          | ok r =>
            obtain ⟨c2, i2, q2⟩ := r
            rw [h2] at B
            obtain ⟨hk2, hc2, B⟩ := B
            rw [B]
            simp only
            have hq2 := stepInto_names hp2 h2
            have hi2 := lt_of_kid hk2
            by_cases hii : i1 = i2
            · subst hii
              rw [if_pos ((tellsApart_self hs i1 i1 hi1 hi1).2 rfl), if_pos (show sameIdentity (addTail x (dropComments n)) (place n.kids i1) (place n.kids i1) = true by simp [sameIdentity])]
              exact inner q2 hq2
            · have hpl : place n.kids i1 ≠ place n.kids i2 := by
                rcases Nat.lt_or_gt_of_ne hii with h | h
                · have := place_mono hk1 hc1 h; omega
                · have := place_mono hk2 hc2 h; omega
              rw [if_neg (fun e => hii ((tellsApart_self hs i1 i2 hi1 hi2).1 e)), if_neg (show ¬ sameIdentity (addTail x (dropComments n)) (place n.kids i1) (place n.kids i2) = true by simp [sameIdentity, hpl])]
              exact rangeBranch_drop same f g n x c1 c2 i1 i2 q1 q2 hf hg hs hl hk1 hc1 hk2 hc2 hii hq1 hq2 _

/-! ### Selected elements -/

/-- What remains of paths after going to a child. -/
def afterStep (c : Node) : List Step → List (List Step)
  | [] => []
  | s :: q => (if s.test c then [q] else []) ++ (if s.desc then [s :: q] else [])

mutual
/-- Names and attributes of the elements that one of the paths selects, in document order. -/
def hits (L : List (List Step)) : Node → List (Option (Str × List (Str × Str)))
  | .mk _ _ _ ks _ => hitsAll L ks
/-- The same for a list of children. -/
def hitsAll (L : List (List Step)) : List Node → List (Option (Str × List (Str × Str)))
  | [] => []
  | c :: r => (if [] ∈ L.flatMap (afterStep c) then [some (c.tag, c.attrs)] else []) ++ hits (L.flatMap (afterStep c)) c ++ hitsAll L r
end

theorem matchPath_after (n c : Node) (i : Nat) (t : List Nat) (hk : n.kids[i]? = some c) (p : List Step) :
    matchPath n p (i :: t) = (afterStep c p).any fun q => matchPath c q t := by
  cases p with
  | nil => simp [matchPath, afterStep]
  | cons s q =>
    simp only [matchPath, hk, afterStep]
    cases s.test c <;> cases s.desc <;> simp

theorem any_after (n c : Node) (i : Nat) (t : List Nat) (hk : n.kids[i]? = some c) (L : List (List Step)) :
    (L.any fun p => matchPath n p (i :: t)) = (L.flatMap (afterStep c)).any fun q => matchPath c q t := by
  rw [List.any_flatMap]
  congr 1
  funext p
  exact matchPath_after n c i t hk p

theorem matchPath_empty (c : Node) (q : List Step) : matchPath c q [] = decide (q = []) := by
  cases q <;> simp [matchPath]

mutual
theorem paths_hits : ∀ (n : Node) (L : List (List Step)),
    ((n.paths.filter fun t => L.any fun p => matchPath n p t).map fun t => (nodeAt n t).map fun c => (c.tag, c.attrs)) = hits L n
  | .mk t a x ks y, L => by
    rw [Node.paths, hits]
    exact pathsFrom_hits (.mk t a x ks y) ks 0 L (fun j => by simp [Node.kids])
theorem pathsFrom_hits (n : Node) : ∀ (ks : List Node) (k : Nat) (L : List (List Step)), (∀ j, n.kids[k + j]? = ks[j]?) →
    (((pathsFrom k ks).filter fun t => L.any fun p => matchPath n p t).map fun t => (nodeAt n t).map fun c => (c.tag, c.attrs)) =
      hitsAll L ks
  | [], k, L, _ => by simp [pathsFrom, hitsAll]
  | c :: r, k, L, h => by
    have hk : n.kids[k]? = some c := by simpa using h 0
    have ihr := pathsFrom_hits n r (k + 1) L (fun j => by
      rw [show k + 1 + j = k + (j + 1) by omega, h (j + 1)]; simp)
    have ihc := paths_hits c (L.flatMap (afterStep c))
    have hself : (L.any fun p => matchPath n p [k]) = decide ([] ∈ L.flatMap (afterStep c)) := by
      rw [any_after n c k [] hk]
      rw [Bool.eq_iff_iff]
      simp [matchPath_empty]
    rw [pathsFrom, hitsAll, List.filter_append, List.map_append, ihr]
    congr 1
    rw [List.filter_cons, hself, List.filter_map]
    have hcomp : ((fun t => L.any fun p => matchPath n p t) ∘ fun t => k :: t) =
        fun t => (L.flatMap (afterStep c)).any fun q => matchPath c q t := by
      funext t; exact any_after n c k t hk L
    have hmap : ((fun t => (nodeAt n t).map fun c => (c.tag, c.attrs)) ∘ fun t => k :: t) =
        fun t => (nodeAt c t).map fun c => (c.tag, c.attrs) := by
      funext t; simp [nodeAt, hk]
    by_cases hm : [] ∈ L.flatMap (afterStep c)
    · rw [if_pos (by simpa using hm), if_pos hm, List.map_cons, List.map_map, hcomp, hmap, ihc]
      simp [nodeAt, hk]
    · rw [if_neg (by simpa using hm), if_neg hm, List.map_map, hcomp, hmap, ihc]
      simp
end

theorem select_hits (n : Node) (p : List Step) (_hp : p ≠ []) :
    ((select n p).map fun t => (nodeAt n t).map fun c => (c.tag, c.attrs)) = hits [p] n := by
  rw [← paths_hits n [p]]
  simp [select]

theorem afterStep_drop (x : Str) (c : Node) (p : List Step) : afterStep (addTail x (dropComments c)) p = afterStep c p := by
  cases p with
  | nil => rfl
  | cons s q => simp [afterStep, test_drop]

theorem afterStep_names {L : List (List Step)} (hL : ∀ p ∈ L, ∀ s ∈ p, NamesElements s) (c : Node) :
    ∀ p ∈ L.flatMap (afterStep c), ∀ s ∈ p, NamesElements s := by
  intro p hp s hs
  obtain ⟨q, hq, hpq⟩ := List.mem_flatMap.1 hp
  cases q with
  | nil => simp [afterStep] at hpq
  | cons a q =>
    simp only [afterStep, List.mem_append] at hpq
    rcases hpq with h | h
    · split at h
      · simp at h; subst h; exact hL _ hq s (by simp [hs])
      · simp at h
    · split at h
      · simp at h; subst h; exact hL _ hq s hs
      · simp at h

mutual
theorem hits_drop (L : List (List Step)) : ∀ (n : Node), LeavesIn n → (∀ p ∈ L, ∀ s ∈ p, NamesElements s) →
    hits L (dropComments n) = hits L n
  | .mk t a x ks y, hl, hL => by
    rw [dropComments, hits, hits]
    exact hitsAll_drop L ks (fun c hc => leavesIn_mem hl hc) (fun c hc h => leavesIn_comment hl hc h) hL
theorem hitsAll_drop (L : List (List Step)) : ∀ (ks : List Node), (∀ c ∈ ks, LeavesIn c) →
    (∀ c ∈ ks, c.isComment = true → c.attrs = [] ∧ c.kids = []) → (∀ p ∈ L, ∀ s ∈ p, NamesElements s) →
    hitsAll L (dropCommentsAll ks) = hitsAll L ks
  | [], _, _, _ => rfl
  | c :: r, hl, hk, hL => by
    have ihr := hitsAll_drop L r (fun d hd => hl d (by simp [hd])) (fun d hd => hk d (by simp [hd])) hL
    have ihc := hits_drop (L.flatMap (afterStep c)) c (hl c (by simp)) (afterStep_names hL c)
    rw [dropCommentsAll]
    by_cases hc : c.isComment = true
    · rw [if_pos hc, ihr]
      obtain ⟨h1, h2⟩ := hk c (by simp) hc
      have hno : [] ∉ L.flatMap (afterStep c) := by
        intro hm
        obtain ⟨q, hq, hpq⟩ := List.mem_flatMap.1 hm
        cases q with
        | nil => simp [afterStep] at hpq
        | cons a q =>
          rw [afterStep, comment_test (hL _ hq a (by simp)) hc h1] at hpq
          simp at hpq
      have hkids : ∀ M, hits M c = [] := by
        intro M
        cases c with
        | mk t a x ks y => simp only [Node.kids] at h2; subst h2; simp [hits, hitsAll]
      rw [hitsAll, if_neg hno, hkids]; simp
    · rw [if_neg hc]
      rw [hitsAll, hitsAll, ihr]
      have hA : afterStep (addTail (leadText r) (dropComments c)) = afterStep c := by
        funext p; exact afterStep_drop _ c p
      have hH : ∀ M, hits M (addTail (leadText r) (dropComments c)) = hits M (dropComments c) := by
        intro M; cases c; simp [dropComments, addTail, hits]
      rw [hA, hH, ihc, addTail_tag, drop_tag, addTail_attrs, drop_attrs]
end

end Verif.Lemmas
