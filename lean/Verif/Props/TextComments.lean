import Verif.Model.TextComments
import Verif.Spec.TextComments
import Verif.Lemmas.UnitsComments
import Verif.Props.XmlComments
import Verif.Props.XmlObjects
import Verif.Props.LocalText
/-!
Property C110, for local texts: what `getReffs` and `getTextualNode` answer for a document with comments, against what they
answer for the document from which the comments were taken out.
-/
namespace Verif.Props
open Verif.Py Verif.Model Verif.Spec Verif.Lemmas

/-- C110. The references that a text lists are the same with comments and without, at every level. -/
theorem C110_reffs (root : Node) (ls : List Level) (same same' : Same) (hc : Citable root ls) (hs : NoBareStar ls)
    (hl : CommentsAreLeaves root) (level : Nat) (h1 : 1 ≤ level) :
    getValidReff (textOf (dropComments root) same' ls) (some level) none =
      getValidReff (textOf root same ls) (some level) none := by
  have hc' := citable_drop hc hs hl.2
  have hu := units_drop (ls.take level) (fun l h => hc.wf l (List.mem_of_mem_take h)) (fun l h => hs l (List.mem_of_mem_take h)) root hl.2
  have e : ∀ n : Node, ((units (ls.take level) n).map fun u => some (single u.1)) =
      ((units (ls.take level) n).map (·.1)).map fun i => some (single i) := by
    intro n; simp
  have e2 : ∀ n : Node, (units (ls.take level) n).isEmpty = ((units (ls.take level) n).map (·.1)).isEmpty := by
    intro n; simp
  rw [C29_lists_units _ ls same' hc' level h1, C29_lists_units _ ls same hc level h1, e, e2, e root, e2 root, hu]

/-- C110. So are the references below a passage, whatever level is asked for. -/
theorem C110_reffs_below (root : Node) (ls : List Level) (same same' : Same) (hc : Citable root ls) (hs : NoBareStar ls)
    (hl : CommentsAreLeaves root) (ids : List Str) (hne : ids ≠ []) (hi : ∀ v ∈ ids, IsId v) (level : Option Int) :
    getValidReff (textOf (dropComments root) same' ls) level (some (single ids)) =
      getValidReff (textOf root same ls) level (some (single ids)) := by
  rw [C30_level_below_passage _ ls same' (citable_drop hc hs hl.2) ids hne hi level,
    C30_level_below_passage _ ls same hc ids hne hi level, listing_drop hc.wf hs hl.2]

/-- C110. Every reference, to a passage or a range, known or not, is answered as by the text without comments, but for the
comments inside the units; only `TypeError` is new. The scheme may be anything that the steps are read from, but for
steps that are a bare `*`. -/
theorem C110_textual_node (root : Node) (decls : List Str) (same : Same) (hs : TellsApart same root) (hl : CommentsAreLeaves root)
    (r : Ref)
    (hstar : ∀ p1 p2, pathsBetween decls (plist r.start) (plist (r.stop.getD r.start)) = .ok (p1, p2) →
      ∀ s ∈ p1 ++ p2, s.name = ['*'] → s.tests ≠ []) :
    match getTextualNodeC ⟨root, decls, same⟩ r with
    | .ok d => getTextualNode ⟨dropComments root, decls, sameIdentity⟩ r = .ok (dropComments d)
    | .error e => e = .typeError ∨ getTextualNode ⟨dropComments root, decls, sameIdentity⟩ r = .error e := by
  rw [getTextualNode_paths]
  simp only [getTextualNodeC]
  by_cases hd : pdepth r.start > decls.length
  · rw [if_pos hd, if_pos hd]
    exact .inr rfl
  · rw [if_neg hd, if_neg hd]
    cases hp : pathsBetween decls (plist r.start) (plist (r.stop.getD r.start)) with
    | error e => exact .inr rfl
    | ok p =>
      obtain ⟨p1, p2⟩ := p
      have hn := pathsBetween_names hp
      have hb := hstar p1 p2 hp
      exact C110_comments_taken_out same root hs p1 p2
        (fun s h => ⟨stepName_not_comment (hn s (by simp [h])), hb s (by simp [h])⟩)
        (fun s h => ⟨stepName_not_comment (hn s (by simp [h])), hb s (by simp [h])⟩) hl

/-- C110. Every reference that the text lists can be retrieved, comments or not: the passage is the unit under its emptied
ancestors. -/
theorem C110_units_retrievable (root : Node) (ls : List Level) (same : Same) (hr : ∀ n i, same n i i = true)
    (hc : Citable root ls) (hs : NoBareStar ls) (hl : CommentsAreLeaves root) (k : Nat) (hk1 : 1 ≤ k) (hk : k ≤ ls.length)
    (ids : List Str) (t : List Nat) (h : (ids, t) ∈ units (ls.take k) root) :
    getTextualNodeC (textOf root same ls) (single ids) = .ok (emptied root (chainTo root t)) := by
  have hlen := mem_units_length h
  simp at hlen
  have hne : ids ≠ [] := by rintro rfl; simp at hlen; omega
  have hi : ∀ v ∈ ids, IsId v := fun v hv => hc.ids _ _ h v hv
  have hcomp : ∀ v ∈ ids, IsComponent v := fun v hv => (hi v hv).1
  have hk' : k = ids.length := by omega
  subst hk'
  simp only [getTextualNodeC, single, textOf, pdepth_dotted hne hcomp, plist_dotted hne hcomp, length_declsOf, Option.getD_none]
  rw [if_neg (by omega), pathsBetween_ids hc hne hne (by omega) (by omega) hi hi]
  exact C110_single_passage same hr root _ t (idPath_ne_nil hne (by omega)) (idPath_names hc.wf hs ids) hl (uniq_idPath hc h)

/-- C110. And a range of two listed references, the first before the second, is the document cut down to it, or `TypeError`
when a comment stands in between where it would be copied on its own. -/
theorem C110_text_range (root : Node) (ls : List Level) (same : Same) (hsame : TellsApart same root)
    (hc : Citable root ls) (hs : NoBareStar ls) (hl : CommentsAreLeaves root) (a b : List Str) (t u : List Nat)
    (hane : a ≠ []) (hbne : b ≠ [])
    (ha : (a, t) ∈ units (ls.take a.length) root) (hb : (b, u) ∈ units (ls.take b.length) root) (hlt : Precedes t u) :
    (CommentBetween root t u →
      getTextualNodeC (textOf root same ls) (mkRef2 (dotted a) (dotted b)) = .error .typeError) ∧
    (¬ CommentBetween root t u →
      getTextualNodeC (textOf root same ls) (mkRef2 (dotted a) (dotted b)) = .ok (cut root t u)) := by
  have hla := mem_units_length ha
  have hlb := mem_units_length hb
  simp at hla hlb
  have hia : ∀ v ∈ a, IsId v := fun v hv => hc.ids _ _ ha v hv
  have hib : ∀ v ∈ b, IsId v := fun v hv => hc.ids _ _ hb v hv
  have hca : ∀ v ∈ a, IsComponent v := fun v hv => (hia v hv).1
  have hcb : ∀ v ∈ b, IsComponent v := fun v hv => (hib v hv).1
  simp only [getTextualNodeC, mkRef2, textOf, pdepth_dotted hane hca, plist_dotted hane hca, plist_dotted hbne hcb, length_declsOf,
    Option.getD_some]
  rw [if_neg (by omega), pathsBetween_ids hc hane hbne (by omega) (by omega) hia hib]
  exact C110_range same root hsame _ _ t u (idPath_names hc.wf hs a) (idPath_names hc.wf hs b) hl (uniq_idPath hc ha) (uniq_idPath hc hb) hlt

/-! ### An edition with comments that meets the hypotheses -/

/-- The poems with comments in a TEI document. -/
def commentedEdition : Node := .mk "TEI".toList [] [] [commented] []

theorem commentedEdition_leaves : CommentsAreLeaves commentedEdition :=
  ⟨by decide +kernel, leavesIn_of_check 6 commentedEdition (by decide +kernel)⟩

theorem commentedEdition_units : units editionLevels commentedEdition =
    [([['1'], ['1']], [0, 1, 0]), ([['1'], ['2']], [0, 1, 1]), ([['1'], ['3']], [0, 1, 2]),
      ([['2'], ['1']], [0, 2, 0]), ([['2'], ['2']], [0, 2, 2])] := by
  decide +kernel

theorem editionLevels_stars : NoBareStar editionLevels := by
  intro l hl
  simp only [editionLevels, List.mem_cons, List.not_mem_nil, or_false] at hl
  rcases hl with rfl | rfl
  · intro s hs h
    simp only [List.mem_singleton] at hs
    subst hs
    exact absurd h (by decide)
  · intro s hs; simp at hs

theorem isId_three : IsId ['3'] := by
  refine ⟨?_, by decide, by decide⟩
  unfold IsComponent; decide

theorem commentedEdition_citable : Citable commentedEdition editionLevels where
  tag := by decide
  few := by decide
  wf := edition_citable.wf
  ids := by
    intro k u hu v hv
    have h0 : units (editionLevels.take 0) commentedEdition = [([], [])] := rfl
    have h1 : units (editionLevels.take 1) commentedEdition = [([['1']], [0, 1]), ([['2']], [0, 2])] := by decide +kernel
    have hk : k = 0 ∨ k = 1 ∨ 2 ≤ k := by omega
    rcases hk with rfl | rfl | hk
    · rw [h0] at hu; simp at hu; subst hu; simp at hv
    · rw [h1] at hu; simp at hu
      rcases hu with rfl | rfl <;> simp at hv <;> subst hv
      · exact isId_digit (.inl rfl)
      · exact isId_digit (.inr rfl)
    · rw [List.take_of_length_le (by simpa [editionLevels] using hk), commentedEdition_units] at hu
      simp at hu
      rcases hu with rfl | rfl | rfl | rfl | rfl <;> simp at hv <;>
        first
        | (rcases hv with rfl | rfl <;> first | exact isId_digit (.inl rfl) | exact isId_digit (.inr rfl) | exact isId_three)
        | (subst hv; first | exact isId_digit (.inl rfl) | exact isId_digit (.inr rfl))
  distinct := by
    intro k u hu w hw e
    have h0 : units (editionLevels.take 0) commentedEdition = [([], [])] := rfl
    have h1 : units (editionLevels.take 1) commentedEdition = [([['1']], [0, 1]), ([['2']], [0, 2])] := by decide +kernel
    have hk : k = 0 ∨ k = 1 ∨ 2 ≤ k := by omega
    rcases hk with rfl | rfl | hk
    · rw [h0] at hu hw; simp at hu hw; rw [hu, hw]
    · rw [h1] at hu hw; simp at hu hw
      rcases hu with rfl | rfl <;> rcases hw with rfl | rfl <;> first | rfl | (exact absurd e (by decide))
    · rw [List.take_of_length_le (by simpa [editionLevels] using hk), commentedEdition_units] at hu hw
      simp at hu hw
      rcases hu with rfl | rfl | rfl | rfl | rfl <;> rcases hw with rfl | rfl | rfl | rfl | rfl <;>
        first | rfl | (exact absurd e (by decide))

/-- The lists of references agree; the commented edition has five lines, and the range over the comment in the second poem
fails while the ends can be had. -/
example : getValidReff (textOf (dropComments commentedEdition) sameIdentity editionLevels) (some 2) none =
      getValidReff (textOf commentedEdition sameIdentity editionLevels) (some 2) none ∧
    getTextualNodeC (textOf commentedEdition sameIdentity editionLevels) (single [['2'], ['1']]) =
      .ok (emptied commentedEdition (chainTo commentedEdition [0, 2, 0])) ∧
    getTextualNodeC (textOf commentedEdition sameIdentity editionLevels)
      (mkRef2 (dotted [['2'], ['1']]) (dotted [['2'], ['2']])) = .error .typeError := by
  refine ⟨C110_reffs _ _ _ _ commentedEdition_citable editionLevels_stars commentedEdition_leaves 2 (by decide),
    C110_units_retrievable _ _ _ (by simp [sameIdentity]) commentedEdition_citable editionLevels_stars commentedEdition_leaves 2
      (by decide) (by decide) _ _ (by rw [List.take_of_length_le (by decide), commentedEdition_units]; simp),
    (C110_text_range _ _ _ (C28_identity_tells_apart _) commentedEdition_citable editionLevels_stars commentedEdition_leaves
      [['2'], ['1']] [['2'], ['2']] [0, 2, 0] [0, 2, 2] (by decide) (by decide)
      (by rw [List.take_of_length_le (by decide), commentedEdition_units]; simp)
      (by rw [List.take_of_length_le (by decide), commentedEdition_units]; simp)
      (.inr ⟨rfl, .inr ⟨rfl, .inl (by decide)⟩⟩)).1 ?_⟩
  exact ⟨[0, 2], 1, aComment "", by decide +kernel, by decide +kernel, .inr ⟨rfl, .inr ⟨rfl, .inl (by decide)⟩⟩,
    .inr ⟨rfl, .inr ⟨rfl, .inl (by decide)⟩⟩, by decide⟩

end Verif.Props
