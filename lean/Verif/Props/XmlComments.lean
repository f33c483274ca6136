import Verif.Lemmas.XmlCommentsDrop
import Verif.Lemmas.Export
import Verif.Props.Xml
import Verif.Props.Export
/-!
Property C110: documents with comments and processing instructions. A passage of one unit is taken as if there were no
comments. A range raises `TypeError` exactly when it would have to copy a comment on its own; otherwise it is
the same passage as in the document without comments, with the comments inside the units kept.
-/
namespace Verif.Props
open Verif.Py Verif.Model Verif.Spec Verif.Lemmas

/-- C110. A passage of one unit is not disturbed by comments, wherever they stand: it is the chain of the ancestors of the unit,
emptied, and a complete copy of the unit, with the comments in it. -/
theorem C110_single_passage (same : Same) (hr : ∀ n i, same n i i = true) (root : Node) (p : List Step) (t : List Nat)
    (hp : p ≠ []) (hn : ∀ s ∈ p, NamesElements s) (hl : CommentsAreLeaves root) (h : Uniq root p t) :
    passageTreeC same root p p = .ok (emptied root (chainTo root t)) := by
  unfold passageTreeC
  rw [pairLoopC_same same hr _ root p t (Nat.le_refl _) hp h hl hn, copyNodeBare_ok hl.1]
  simp [wrap, copyBare_eq]

/-- C110. A range is the document cut down to the part from the start to the end, unless a comment stands between them
whose parent contains the start or the end: then the request raises `TypeError`. -/
theorem C110_range (same : Same) (root : Node) (hs : TellsApart same root) (p1 p2 : List Step) (t1 t2 : List Nat)
    (hn1 : ∀ s ∈ p1, NamesElements s) (hn2 : ∀ s ∈ p2, NamesElements s) (hl : CommentsAreLeaves root)
    (h1 : Uniq root p1 t1) (h2 : Uniq root p2 t2) (hlt : Precedes t1 t2) :
    (CommentBetween root t1 t2 → passageTreeC same root p1 p2 = .error .typeError) ∧
    (¬ CommentBetween root t1 t2 → passageTreeC same root p1 p2 = .ok (cut root t1 t2)) := by
  have e := rangeStops_iff root t1 t2 hlt (sel_nodeAt ((h1 _).2 rfl)) (sel_nodeAt ((h2 _).2 rfl))
  have hc := C28_range same root hs p1 p2 t1 t2 h1 h2 hlt
  unfold passageTree at hc
  rw [pairLoop_range same _ root p1 p2 t1 t2 (Nat.le_refl _) h1 h2 hlt hs] at hc
  unfold passageTreeC
  rw [pairLoopC_range same _ root p1 p2 t1 t2 (Nat.le_refl _) h1 h2 hlt hs hl hn1 hn2, copyNodeBare_ok hl.1]
  constructor
  · intro h
    rw [e.2 h]; rfl
  · intro h
    have : rangeStops root t1 t2 = false := by simpa [← e] using h
    rw [this]
    exact hc

/-- C110. Whatever the two paths select, in any order: what a document with comments answers is, once the comments are taken
out of it, what the document answers from which they were taken out before. Other failures are the same
failures; only `TypeError` is new. -/
theorem C110_comments_taken_out (same : Same) (root : Node) (hs : TellsApart same root) (p1 p2 : List Step)
    (hn1 : ∀ s ∈ p1, NamesElements s) (hn2 : ∀ s ∈ p2, NamesElements s) (hl : CommentsAreLeaves root) :
    match passageTreeC same root p1 p2 with
    | .ok d => passageTree sameIdentity (dropComments root) p1 p2 = .ok (dropComments d)
    | .error e => e = .typeError ∨ passageTree sameIdentity (dropComments root) p1 p2 = .error e := by
  have := pairLoop_drop same root.height (dropComments root).height root p1 p2 [] (Nat.le_refl _) (Nat.le_refl _) hs hl.2 hn1 hn2
  rw [addTail_nil] at this
  unfold passageTreeC passageTree
  rw [copyNodeBare_ok hl.1]
  revert this
  generalize pairLoopC same root.height root p1 p2 = r
  generalize pairLoop sameIdentity (dropComments root).height (dropComments root) p1 p2 = r'
  intro h
  cases r with
  | error e =>
    rcases h with h | h
    · exact .inl h
    · subst h; exact .inr rfl
  | ok ks =>
    obtain ⟨h1, h2⟩ := h
    subst h2
    simp [wrap, copyBare_eq, drop_emptied h1]

/-- C110. A document without comments is treated as C27 and C28 say. -/
theorem C110_no_comments (same : Same) (root : Node) (hs : TellsApart same root) (p1 p2 : List Step) (t1 t2 : List Nat)
    (hn1 : ∀ s ∈ p1, NamesElements s) (hn2 : ∀ s ∈ p2, NamesElements s)
    (hno : ∀ pos c, nodeAt root pos = some c → c.isComment = false)
    (h1 : Uniq root p1 t1) (h2 : Uniq root p2 t2) (hlt : Precedes t1 t2) :
    passageTreeC same root p1 p2 = passageTree same root p1 p2 := by
  have hl : CommentsAreLeaves root :=
    ⟨hno [] root rfl, fun pos c hc h => by rw [hno pos c hc] at h; simp at h⟩
  rw [(C110_range same root hs p1 p2 t1 t2 hn1 hn2 hl h1 h2 hlt).2
    (by rintro ⟨par, i, c, hc, h, -⟩; rw [hno _ c hc] at h; simp at h), C28_range same root hs p1 p2 t1 t2 h1 h2 hlt]

mutual
/-- Taking comments out keeps the visible text of an element. -/
theorem visible_drop (ex : List Str) : ∀ (n : Node), LeavesIn n → (visible ex (dropComments n)).flatten = (visible ex n).flatten
  | .mk t a x ks y, hl => by
    have hk : ∀ c ∈ ks, LeavesIn c := fun c hc => leavesIn_mem hl hc
    have hk2 : ∀ c ∈ ks, c.isComment = true → c.text = [] ∧ c.kids = [] := by
      intro c hc h
      obtain ⟨i, hi⟩ := List.mem_iff_getElem?.1 hc
      have hi' : (Node.mk t a x ks y).kids[i]? = some c := hi
      have := hl [i] c (by simp [nodeAt, hi']) h
      exact ⟨this.2.1, this.2.2⟩
    have := visibleKids_drop ex ks hk hk2
    simp only [dropComments, visible]
    split
    · rfl
    · rw [List.flatten_append, List.flatten_append, ← this]
      have hp : ∀ s : Str, (piece s).flatten = s := by intro s; unfold piece; split <;> simp_all
      rw [hp, hp]; simp
/-- The same for its children. -/
theorem visibleKids_drop (ex : List Str) : ∀ (ks : List Node), (∀ c ∈ ks, LeavesIn c) →
    (∀ c ∈ ks, c.isComment = true → c.text = [] ∧ c.kids = []) →
    leadText ks ++ (visibleKids ex (dropCommentsAll ks)).flatten = (visibleKids ex ks).flatten
  | [], _, _ => by simp [leadText, dropCommentsAll, visibleKids]
  | c :: r, hl, hk => by
    have hp : ∀ s : Str, (piece s).flatten = s := by intro s; unfold piece; split <;> simp_all
    have ih := visibleKids_drop ex r (fun c hc => hl c (by simp [hc])) (fun c hc => hk c (by simp [hc]))
    by_cases hc : c.isComment = true
    · obtain ⟨h1, h2⟩ := hk c (by simp) hc
      have hv : visible ex c = [] := by
        cases c with
        | mk t a x ks y =>
          simp only [Node.text, Node.kids] at h1 h2
          subst h1 h2
          simp [visible, visibleKids, piece]
      simp [leadText, hc, dropCommentsAll, visibleKids, hv, hp, ← ih]
    · have ihc := visible_drop ex c (hl c (by simp))
      have ht : ∀ s, visible ex (addTail s (dropComments c)) = visible ex (dropComments c) := by
        intro s; cases c; simp [dropComments, addTail, visible]
      have ht2 : ∀ s, (addTail s (dropComments c)).tail = c.tail ++ s := by
        intro s; cases c; simp [dropComments, addTail, Node.tail]
      simp only [Bool.not_eq_true] at hc
      simp [leadText, hc, dropCommentsAll, visibleKids, ht, ht2, hp, ihc, ← ih]
end

/-- C110. The text that is left when elements are excluded is, character for character, the text of the document without
comments: comments are not part of it, and nothing after them is lost. -/
theorem C110_text (ex : List Str) (n : Node) (hl : CommentsAreLeaves n) :
    (visible ex (dropComments n)).flatten = (visible ex n).flatten := visible_drop ex n hl.2

/-- C110. So the plain text is the same when the pieces are put together without separator; and with a separator of spaces it
differs at most in spaces. -/
theorem C110_plaintext (ex : List Str) (n : Node) (hl : CommentsAreLeaves n) :
    plainText [] [] ex n = plainText [] [] ex (dropComments n) ∧
    ∀ sep : Str, (∀ c ∈ sep, c = ' ') →
      (plainText sep [] ex n).filter (· ≠ ' ') = (plainText sep [] ex (dropComments n)).filter (· ≠ ' ') := by
  refine ⟨?_, fun sep hs => ?_⟩
  · rw [C35_plain_text, C35_plain_text, Lemmas.join_nil_sep, Lemmas.join_nil_sep, C110_text ex n hl]
  · have hsep : sep.filter (· ≠ ' ') = [] := by
      rw [List.filter_eq_nil_iff]; intro c hc; simp [hs c hc]
    rw [C35_plain_text, C35_plain_text, squeeze_filter _ (by decide), squeeze_filter _ (by decide), filter_join _ _ hsep,
      filter_join _ _ hsep, C110_text ex n hl]

/-- C110. A path selects the same elements, by name and attributes, in the same order: the units of a document, and so its
references, do not depend on comments. -/
theorem C110_units (n : Node) (p : List Step) (hp : p ≠ []) (hn : ∀ s ∈ p, NamesElements s) (hl : CommentsAreLeaves n) :
    ((select (dropComments n) p).map fun t => (nodeAt (dropComments n) t).map fun c => (c.tag, c.attrs)) =
      (select n p).map fun t => (nodeAt n t).map fun c => (c.tag, c.attrs) := by
  rw [select_hits (dropComments n) p hp, select_hits n p hp, hits_drop [p] n hl.2 (by simpa using hn)]

/-! ### Instances -/

/-- A comment, and the text after it. -/
def aComment (tail : String) : Node := .mk commentName [] [] [] tail.toList

/-- Two poems: a comment in the middle of a line, one at the head of a poem, and one between lines. -/
def commented : Node := .mk "body".toList [] [] [
  aComment "",
  .mk ['d'] [(['n'], ['1'])] [] [
    .mk ['l'] [(['n'], ['1'])] "ar".toList [aComment "ma"] [],
    line "2" "b", line "3" "c"] [],
  .mk ['d'] [(['n'], ['2'])] [] [line "1" "c", aComment "", line "2" "d"] []] []

/-- Are the comments of a document leaves? -/
def leavesCheck : Nat → Node → Bool
  | 0, _ => false
  | k + 1, n => (!n.isComment || (n.attrs.isEmpty && n.text.isEmpty && n.kids.isEmpty)) && n.kids.all (leavesCheck k)

theorem leavesIn_of_check (k : Nat) (n : Node) (h : leavesCheck k n = true) : LeavesIn n := by
  induction k generalizing n with
  | zero => simp [leavesCheck] at h
  | succ k ih =>
    simp only [leavesCheck, Bool.and_eq_true, List.all_eq_true] at h
    intro pos c hc hcc
    cases pos with
    | nil =>
      simp only [nodeAt, Option.some.injEq] at hc
      subst hc
      have := h.1
      simpa [hcc, and_assoc] using this
    | cons i t =>
      simp only [nodeAt] at hc
      cases hi : n.kids[i]? with
      | none => simp [hi] at hc
      | some d =>
        simp only [hi] at hc
        exact ih d (h.2 d (kid_mem hi)) t c hc hcc

theorem commented_leaves : CommentsAreLeaves commented :=
  ⟨by decide +kernel, leavesIn_of_check 5 commented (by decide +kernel)⟩

theorem poem_names (a b : String) : ∀ s ∈ [poemStep a, lineStep b], NamesElements s := by
  intro s hs
  simp only [List.mem_cons, List.not_mem_nil, or_false] at hs
  rcases hs with rfl | rfl
  · exact ⟨show ['d'] ≠ commentName by decide, fun h => absurd h (show ['d'] ≠ ['*'] by decide)⟩
  · exact ⟨show ['l'] ≠ commentName by decide, fun h => absurd h (show ['l'] ≠ ['*'] by decide)⟩

/-- The hypotheses of the theorems are met; the range within the first poem is given, with the comment in the first line. -/
example : Uniq commented [poemStep "1", lineStep "1"] [1, 0] ∧ Uniq commented [poemStep "1", lineStep "3"] [1, 2] ∧
    Precedes [1, 0] [1, 2] ∧ TellsApart sameIdentity commented ∧
    passageTreeC sameIdentity commented [poemStep "1", lineStep "1"] [poemStep "1", lineStep "3"] =
      .ok (.mk "body".toList [] [] [.mk ['d'] [(['n'], ['1'])] [] [
        .mk ['l'] [(['n'], ['1'])] "ar".toList [aComment "ma"] [], line "2" "b", line "3" "c"] []] []) := by
  refine ⟨uniq_of_select (by simp) (by decide +kernel), uniq_of_select (by simp) (by decide +kernel), .inr ⟨rfl, .inl (by decide)⟩,
    C28_identity_tells_apart _, by decide +kernel⟩

/-- The comments taken out of it: the line has its whole word. -/
example : dropComments commented = .mk "body".toList [] [] [
    .mk ['d'] [(['n'], ['1'])] [] [.mk ['l'] [(['n'], ['1'])] "arma".toList [] [], line "2" "b", line "3" "c"] [],
    .mk ['d'] [(['n'], ['2'])] [] [line "1" "c", line "2" "d"] []] [] := by decide +kernel

/-- The same unit stands at another position once the comments are out. -/
example : select commented [poemStep "2", lineStep "2"] = [[2, 2]] ∧
    select (dropComments commented) [poemStep "2", lineStep "2"] = [[1, 1]] := by
  constructor <;> decide +kernel

/-! ### Departures -/

/-- C110 (departure): a comment between two lines makes the range from one to the other fail, though each line can be had and
the range can be had once the comment is taken out. -/
theorem C110_fails_range :
    passageTreeC sameIdentity commented [poemStep "2", lineStep "1"] [poemStep "2", lineStep "2"] = .error .typeError ∧
    passageTree sameIdentity (dropComments commented) [poemStep "2", lineStep "1"] [poemStep "2", lineStep "2"] =
      .ok (.mk "body".toList [] [] [.mk ['d'] [(['n'], ['2'])] [] [line "1" "c", line "2" "d"] []] []) ∧
    CommentBetween commented [2, 0] [2, 2] := by
  refine ⟨by decide +kernel, by decide +kernel, [2], 1, aComment "", by decide +kernel, by decide +kernel, ?_, ?_, by decide⟩
  · exact .inr ⟨rfl, .inl (by decide)⟩
  · exact .inr ⟨rfl, .inl (by decide)⟩

/-- C110 (departure): a comment in the middle of a word puts a space into it in the plain text, because the pieces of text
around it are joined by a space. -/
theorem C110_fails_plaintext :
    plainText defaultJoin [] [] commented ≠ plainText defaultJoin [] [] (dropComments commented) ∧
    plainText defaultJoin [] [] (.mk ['l'] [] "ar".toList [aComment "ma"] []) = "ar ma".toList ∧
    plainText defaultJoin [] [] (dropComments (.mk ['l'] [] "ar".toList [aComment "ma"] [])) = "arma".toList := by
  refine ⟨?_, ?_, ?_⟩ <;> decide +kernel

end Verif.Props
