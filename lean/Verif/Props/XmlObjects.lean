import Verif.Lemmas.XmlObjects
import Verif.Model.TextObjects
import Verif.Props.LocalResolver
/-!
C109: passages are copies.

The document and the passages are objects that can be changed in place, and appending an element to another takes it away
from where it was. Taking a passage changes nothing that existed before, whether it succeeds or fails; the passage
consists of new elements only, and holds what the functions on values say. So whatever a program does to the passages it
got, the passages it takes afterwards are right. Simple passages are elements of the document itself.
-/
namespace Verif.Props
open Verif.Py Verif.Model Verif.Spec Verif.Lemmas

/-- C109 (passages): taking a passage changes no element that existed, also when it fails; it fails as on values, and
otherwise gives a new element without parent that holds the value, all of whose elements are new. -/
theorem C109_passage (h : Elements) (root : Nat) (n : Node) (hr : HoldsNode h.cell h.next n root) (d : Nat) (hd : n.height ≤ d) (same : Same)
    (p1 p2 : List Step) :
    (∀ a < h.next, (h.passage d same root p1 p2).1.cell a = h.cell a) ∧ h.next ≤ (h.passage d same root p1 p2).1.next ∧
    (∀ e, passageTree same n p1 p2 = .error e ↔ (h.passage d same root p1 p2).2 = .error e) ∧
    ∀ tree, passageTree same n p1 p2 = .ok tree → ∃ a, (h.passage d same root p1 p2).2 = .ok a ∧
      Built (h.passage d same root p1 p2).1.cell (h.passage d same root p1 p2).1.next tree h.next none a := by
  have hlt := reads_lt hr
  obtain ⟨t, at', x, ks, tl⟩ := n
  have hcell : (h.cell root).tag = t ∧ (h.cell root).attrs = at' := by simp only [HoldsNode] at hr; exact ⟨hr.2.1, hr.2.2.1⟩
  have hnew : h.copyNode d root false none = h.alloc ⟨t, at', [], [], [], none⟩ := by
    simp only [Elements.copyNode, Elements.newElement, hcell.1, hcell.2]
    rfl
  have hv := view_reads h _ root d hr hd
  have g : KeptApart h.cell h.next (h.alloc ⟨t, at', [], [], [], none⟩).1 (h.alloc ⟨t, at', [], [], [], none⟩).2 := by
    refine ⟨fun a ha => ?_, Nat.le_refl _, by simp [Elements.alloc]⟩
    simp only [Elements.alloc, if_neg (show a ≠ h.next by omega)]
  have o := pairLoop_outcome (same := same) (fuel := (Node.mk t at' x ks tl).height) (path1 := p1) (path2 := p2) hr hd g
  simp only [passageTree, Elements.passage, hnew, hv]
  revert o
  cases Elements.pairLoop d same (Node.mk t at' x ks tl).height root (h.alloc ⟨t, at', [], [], [], none⟩).2 p1 p2 (h.alloc ⟨t, at', [], [], [], none⟩).1 with
  | mk h1 y =>
    cases pairLoop same (Node.mk t at' x ks tl).height (.mk t at' x ks tl) p1 p2 with
    | error er =>
      intro o
      cases y with
      | ok u => exact o.elim
      | error e' =>
        obtain ⟨rfl, o1, o2⟩ := o
        simp only [Elements.alloc] at o1 o2
        refine ⟨fun a ha => ?_, by simp only; omega, fun e => by simp [wrap], by intro tree ht; cases ht⟩
        simp only
        rw [o2 a (by omega) (by omega), if_neg (by omega)]
    | ok ns =>
      intro o
      cases y with
      | error e' => exact o.elim
      | ok u =>
        obtain ⟨m1, m2, m3⟩ := made_alloc h t at' [] [] ns h1 o
        exact ⟨m2, m1, fun e => by simp [wrap], by intro tree ht; cases ht; exact ⟨_, rfl, m3⟩⟩

/-- C109 (others): all that elements held they hold after a passage was taken: the document, and passages taken before. -/
theorem C109_others (h : Elements) (root : Nat) (n : Node) (hr : HoldsNode h.cell h.next n root) (d : Nat) (hd : n.height ≤ d) (same : Same)
    (p1 p2 : List Step) (m : Node) (a : Nat) (hm : HoldsNode h.cell h.next m a) :
    HoldsNode (h.passage d same root p1 p2).1.cell (h.passage d same root p1 p2).1.next m a := by
  obtain ⟨h1, h2, _, _⟩ := C109_passage h root n hr d hd same p1 p2
  exact reads_congr h1 h2 m a hm

/-- C109 (history): whatever passages were taken, and whatever was done to elements other than those of the document, the
document is as it was. -/
theorem C109_document (h : Elements) (root : Nat) (n : Node) (base : Nat) (hb : base ≤ h.next) (hr : HoldsNode h.cell base n root) (d : Nat)
    (hd : n.height ≤ d) (same : Same) (us : List Use) (hu : ChangesFrom base us) :
    (∀ a < base, (afterUses d same root h us).cell a = h.cell a) ∧ HoldsNode (afterUses d same root h us).cell base n root ∧
      base ≤ (afterUses d same root h us).next := by
  induction us generalizing h with
  | nil => exact ⟨fun _ _ => rfl, hr, hb⟩
  | cons u us ih =>
    have hu' : ChangesFrom base us := fun a c hm => hu a c (List.mem_cons_of_mem _ hm)
    cases u with
    | take p1 p2 =>
      obtain ⟨h1, h2, _, _⟩ := C109_passage h root n (reads_congr (fun _ _ => rfl) hb n root hr) d hd same p1 p2
      have hk : ∀ a < base, (h.passage d same root p1 p2).1.cell a = h.cell a := fun a ha => h1 a (by omega)
      obtain ⟨i1, i2, i3⟩ := ih (h.passage d same root p1 p2).1 (by omega) (reads_congr hk (Nat.le_refl _) n root hr) hu'
      exact ⟨fun a ha => (i1 a ha).trans (hk a ha), i2, i3⟩
    | change b c =>
      have hbb := hu b c (by simp)
      have hk : ∀ a < base, (h.put b c).cell a = h.cell a := by
        intro a ha
        simp only [Elements.put, if_neg (show a ≠ b by omega)]
      obtain ⟨i1, i2, i3⟩ := ih (h.put b c) hb (reads_congr hk (Nat.le_refl _) n root hr) hu'
      exact ⟨fun a ha => (i1 a ha).trans (hk a ha), i2, i3⟩

/-- C109 (history of passages): and the passages taken afterwards hold what they would have held at first, or fail as they
would have failed. -/
theorem C109_history (h : Elements) (root : Nat) (n : Node) (base : Nat) (hb : base ≤ h.next) (hr : HoldsNode h.cell base n root) (d : Nat)
    (hd : n.height ≤ d) (same : Same) (us : List Use) (hu : ChangesFrom base us) (p1 p2 : List Step) :
    (∀ e, passageTree same n p1 p2 = .error e ↔ ((afterUses d same root h us).passage d same root p1 p2).2 = .error e) ∧
    ∀ tree, passageTree same n p1 p2 = .ok tree → ∃ a, ((afterUses d same root h us).passage d same root p1 p2).2 = .ok a ∧
      HoldsNode ((afterUses d same root h us).passage d same root p1 p2).1.cell ((afterUses d same root h us).passage d same root p1 p2).1.next tree a ∧
      (afterUses d same root h us).next ≤ a := by
  obtain ⟨_, h2, h3⟩ := C109_document h root n base hb hr d hd same us hu
  obtain ⟨_, _, p3, p4⟩ := C109_passage _ root n (reads_congr (fun _ _ => rfl) h3 n root h2) d hd same p1 p2
  refine ⟨p3, fun tree ht => ?_⟩
  obtain ⟨a, e, b⟩ := p4 tree ht
  refine ⟨a, e, reads_of_built _ _ _ _ b, ?_⟩
  cases tree
  simp only [Built] at b
  exact b.1

/-! ### References of a text -/

theorem getTextualNode_paths (root : Node) (decls : List Str) (same : Same) (r : Ref) :
    getTextualNode ⟨root, decls, same⟩ r =
      if pdepth r.start > decls.length then .error .citationDepth
      else match pathsBetween decls (plist r.start) (plist (r.stop.getD r.start)) with
        | .error e => .error e
        | .ok (p1, p2) => passageTree same root p1 p2 := by
  have h : ∀ start stop, passageBetween ⟨root, decls, same⟩ start stop =
      match pathsBetween decls start stop with
      | .error e => .error e
      | .ok (p1, p2) => passageTree same root p1 p2 := by
    intro start stop
    simp only [passageBetween, pathsBetween, passageOf]
    cases citationAt decls ((start.length : Int) - 1) with
    | error e => rfl
    | ok d1 =>
      cases citationAt decls ((stop.length : Int) - 1) with
      | error e => rfl
      | ok d2 =>
        simp only
        cases fill d1 (.list (start.map some)) with
        | error e => rfl
        | ok f1 =>
          simp only
          cases fill d2 (.list (stop.map some)) with
          | error e => rfl
          | ok f2 =>
            simp only
            cases parseEntries (pathEntries f1) with
            | error e => rfl
            | ok p1 =>
              simp only
              cases parseEntries (pathEntries f2) <;> rfl
  simp only [getTextualNode]
  split
  · rfl
  · cases r.stop with
    | none => exact h _ _
    | some e => exact h _ _

/-- C109 (references): whatever passages were taken and whatever was done to elements other than those of the document,
asking a text for a reference changes no element, fails as the text would have failed at first, and otherwise gives a new
element that holds what the text would have given at first. -/
theorem C109_text (h : Elements) (t : TextObj) (n : Node) (base : Nat) (hb : base ≤ h.next) (hr : HoldsNode h.cell base n t.root) (d : Nat)
    (hd : n.height ≤ d) (us : List Use) (hu : ChangesFrom base us) (r : Ref) (h1 : Elements) (he : h1 = afterUses d t.same t.root h us) :
    (∀ a < h1.next, (t.node d r h1).1.cell a = h1.cell a) ∧
    (∀ e, getTextualNode ⟨n, t.decls, t.same⟩ r = .error e ↔ (t.node d r h1).2 = .error e) ∧
    ∀ tree, getTextualNode ⟨n, t.decls, t.same⟩ r = .ok tree → ∃ a, (t.node d r h1).2 = .ok a ∧ h1.next ≤ a ∧
      HoldsNode (t.node d r h1).1.cell (t.node d r h1).1.next tree a := by
  subst he
  rw [getTextualNode_paths]
  simp only [TextObj.node]
  split
  · exact ⟨fun _ _ => rfl, fun e => by simp, by simp⟩
  · cases pathsBetween t.decls (plist r.start) (plist (r.stop.getD r.start)) with
    | error e => exact ⟨fun _ _ => rfl, fun e => by simp, by simp⟩
    | ok p =>
      obtain ⟨p1, p2⟩ := p
      obtain ⟨_, d2, d3⟩ := C109_document h t.root n base hb hr d hd t.same us hu
      obtain ⟨q1, _, _, _⟩ := C109_passage _ t.root n (reads_congr (fun _ _ => rfl) d3 n t.root d2) d hd t.same p1 p2
      obtain ⟨q3, q4⟩ := C109_history h t.root n base hb hr d hd t.same us hu p1 p2
      refine ⟨q1, q3, fun tree ht => ?_⟩
      obtain ⟨a, e1, e2, e3⟩ := q4 tree ht
      exact ⟨a, e1, e3, e2⟩

/-- C109 (units and ranges): for a document that fits its citation scheme, the element holds the unit with its emptied
ancestors, or the document cut to the range, whatever happened before. -/
theorem C109_units (h : Elements) (t : TextObj) (n : Node) (ls : List Level) (hc : Citable n ls) (hdecl : t.decls = declsOf n.tag ls)
    (hs : TellsApart t.same n) (hs' : ∀ m i, t.same m i i = true) (base : Nat) (hb : base ≤ h.next) (hr : HoldsNode h.cell base n t.root) (d : Nat)
    (hd : n.height ≤ d) (us : List Use) (hu : ChangesFrom base us) (h1 : Elements) (he : h1 = afterUses d t.same t.root h us) :
    (∀ k, 1 ≤ k → k ≤ ls.length → ∀ ids pos, (ids, pos) ∈ units (ls.take k) n →
      ∃ a, (t.node d (single ids) h1).2 = .ok a ∧ h1.next ≤ a ∧
        HoldsNode (t.node d (single ids) h1).1.cell (t.node d (single ids) h1).1.next (emptied n (chainTo n pos)) a) ∧
    (∀ a b t1 t2, a ≠ [] → b ≠ [] → a.length ≤ ls.length → b.length ≤ ls.length → (a, t1) ∈ units (ls.take a.length) n →
      (b, t2) ∈ units (ls.take b.length) n → Precedes t1 t2 →
      ∃ x, (t.node d (mkRef2 (dotted a) (dotted b)) h1).2 = .ok x ∧ h1.next ≤ x ∧
        HoldsNode (t.node d (mkRef2 (dotted a) (dotted b)) h1).1.cell (t.node d (mkRef2 (dotted a) (dotted b)) h1).1.next (cut n t1 t2) x) := by
  have htext : (⟨n, t.decls, t.same⟩ : LocalText) = textOf n t.same ls := by rw [hdecl]; rfl
  constructor
  · intro k hk1 hk ids pos hm
    have := C31_units_retrievable n ls t.same hs' hc k hk1 hk ids pos hm
    rw [← htext] at this
    exact (C109_text h t n base hb hr d hd us hu (single ids) h1 he).2.2 _ this
  · intro a b t1 t2 ha hb' hal hbl hma hmb hp
    have := C28_range_of_text n ls t.same hs hc a b t1 t2 ha hb' hal hbl hma hmb hp
    rw [← htext] at this
    exact (C109_text h t n base hb hr d hd us hu _ h1 he).2.2 _ this

/-! ### A concrete case -/

/-- Elements that hold the poems, the document element first. -/
def exElements : Elements := (Elements.install published ⟨fun _ => ⟨[], [], [], [], [], none⟩, 0⟩).1

/-- They hold them: the hypotheses of the theorems are met. -/
theorem exElements_reads : HoldsNode exElements.cell exElements.next published 0 :=
  reads_of_built _ _ _ _ (install_made published ⟨fun _ => ⟨[], [], [], [], [], none⟩, 0⟩).2.2

/-- The text with this document. -/
def exTextObj : TextObj := ⟨0, declsOf published.tag editionLevels, sameIdentity⟩

/-- After passages were taken and elements made by them changed, the second line of the first poem, and the range from it
to the first line of the second: the hypotheses of `C109_units` are met. -/
example (us : List Use) (hu : ChangesFrom exElements.next us) (h1 : Elements) (he : h1 = afterUses 10 sameIdentity 0 exElements us) :
    (∃ a, (exTextObj.node 10 (single [['1'], ['2']]) h1).2 = .ok a ∧ h1.next ≤ a ∧
      HoldsNode (exTextObj.node 10 (single [['1'], ['2']]) h1).1.cell (exTextObj.node 10 (single [['1'], ['2']]) h1).1.next
        (emptied published (chainTo published [1, 0, 1])) a) ∧
    ∃ x, (exTextObj.node 10 (mkRef2 (dotted [['1'], ['2']]) (dotted [['2'], ['1']])) h1).2 = .ok x := by
  obtain ⟨u1, u2⟩ := C109_units exElements exTextObj published editionLevels published_citable rfl (C28_identity_tells_apart _) (by simp [exTextObj, sameIdentity])
    exElements.next (Nat.le_refl _) exElements_reads 10 (by decide +kernel) us hu h1 he
  have hm : ∀ u ∈ [([['1'], ['2']], [1, 0, 1]), ([['2'], ['1']], [1, 1, 0])], u ∈ units (editionLevels.take 2) published := by
    rw [List.take_of_length_le (by simp [editionLevels]), published_units]
    simp
  refine ⟨u1 2 (by decide) (by decide) _ _ (hm _ (by simp)), ?_⟩
  obtain ⟨x, hx, _⟩ := u2 [['1'], ['2']] [['2'], ['1']] [1, 0, 1] [1, 1, 0] (by simp) (by simp) (by decide) (by decide) (hm _ (by simp)) (hm _ (by simp)) (by simp [Precedes])
  exact ⟨x, hx⟩

/-- The steps to a line of a poem. -/
def exLineSteps (a b : Str) : List Step :=
  [⟨false, "body".toList, []⟩, ⟨false, "d".toList, [.eq "n".toList '\'' a]⟩, ⟨false, "l".toList, [.eq "n".toList '\'' b]⟩]

/-- A range of lines across poems: what the new element holds is the value. -/
example : (match exElements.passage 10 sameIdentity 0 (exLineSteps ['1'] ['2']) (exLineSteps ['2'] ['1']) with
      | (h, .ok a) => some (h.view 10 a)
      | _ => none) = (passageTree sameIdentity published (exLineSteps ['1'] ['2']) (exLineSteps ['2'] ['1'])).toOption ∧
    (passageTree sameIdentity published (exLineSteps ['1'] ['2']) (exLineSteps ['2'] ['1'])).toOption ≠ none := by
  constructor <;> decide +kernel

/-- A line that does not exist: elements were made and nothing else happened. -/
example : ∃ h, exElements.passage 10 sameIdentity 0 (exLineSteps ['1'] ['2']) (exLineSteps ['2'] ['9']) = (h, .error .indexError) ∧ exElements.next ≤ h.next :=
  ⟨_, rfl, by decide +kernel⟩

/-! ### Departures -/

/-- C109 (departure): a simple passage is an element of the document. Changing its text changes the document, and the
passages taken afterwards. -/
theorem C109_fails_simple :
    (match exElements.simplePassage 10 0 (exLineSteps ['1'] ['2']) with
      | .ok a =>
        some (decide (a < exElements.next),
          match (exElements.put a { exElements.cell a with text := "changed".toList }).passage 10 sameIdentity 0 (exLineSteps ['1'] ['2']) (exLineSteps ['1'] ['2']) with
          | (h, .ok b) => some (decide (some (h.view 10 b) = (passageTree sameIdentity published (exLineSteps ['1'] ['2']) (exLineSteps ['1'] ['2'])).toOption))
          | _ => none)
      | .error _ => none) = some (true, some false) := by
  decide +kernel

end Verif.Props
