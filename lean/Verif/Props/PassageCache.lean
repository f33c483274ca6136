import Verif.Lemmas.PassageCache
import Verif.Props.Siblings
/-!
C107: local texts and passages that remember their children and siblings.
-/
namespace Verif.Props
open Verif.Py Verif.Model Verif.Spec Verif.Lemmas

theorem passage_children (t : LocalText) (p : Passage) : liveChildren (p.live t) = p.childIds t := by
  simp only [liveChildren, Passage.live, Passage.childIds]
  split <;> rename_i h
  · split at h
    · cases h; rename_i hd; rw [if_pos hd]
    · split at h
      · cases h; rename_i hd hd'; rw [if_neg hd, if_pos hd']
      · cases h
  · split at h
    · cases h
    · split at h
      · cases h
      · rename_i hd hd'; rw [if_neg hd, if_neg hd']

theorem passage_siblings (t : LocalText) (p : Passage) : liveSiblings (p.live t) = p.siblingsId t := by
  simp only [liveSiblings, Passage.live, Passage.siblingsId]
  split <;> rename_i h
  · split at h
    · cases h; rename_i hd; rw [if_pos hd]
    · cases h
  · split at h
    · cases h
    · rename_i hd
      rw [if_neg hd]
      rcases p.src.getReffs t (pdepth p.ref.start) with e | l
      · rfl
      · cases p.ref.stop with
        | none => rfl
        | some e => cases p.getReffs t 0 <;> rfl

theorem passage_fresh (t : LocalText) (p : Passage) (q : IdQuestion) : liveAnswer (p.live t) q = freshIds t p q := by
  cases q
  · simp only [liveAnswer, freshIds, passage_children]
  · simp only [liveAnswer, freshIds, passage_siblings]
  · simp only [liveAnswer, freshIds, passage_siblings]
  · simp only [liveAnswer, freshIds, passage_siblings]
  · simp only [liveAnswer, freshIds, passage_children, Passage.firstId]
    rcases p.childIds t with e | (_ | ⟨r, l⟩) <;> rfl
  · simp only [liveAnswer, freshIds, passage_children, Passage.lastId]
    rcases p.childIds t with e | l <;> rfl

theorem passage_first (t : LocalText) (p : Passage) : SameFirst fun n => p.live (withDoc t n) := fun _ _ => ⟨rfl, rfl⟩

/-- The identifiers a question for a passage starts from. -/
def idsFor : Question → IdQuestion
  | .ids q => q
  | .next => .nextId
  | .prev => .prevId
  | .first => .firstId
  | .last => .lastId

/-- What is retrieved then. -/
def retrieve (now : LocalText) (p : Passage) : Question → Except PyErr IdAnswer → Except PyErr Answer
  | .ids _, r => .ids <$> r
  | _, .error e => .error e
  | _, .ok (.ref none) => .ok (.passage none)
  | .next, .ok (.ref (some r)) => (fun x => .passage (some x)) <$> p.step now r
  | .prev, .ok (.ref (some r)) => (fun x => .passage (some x)) <$> p.step now r
  | .first, .ok (.ref (some r)) => (fun x => .passage (some x)) <$> p.getTextualNode now r
  | .last, .ok (.ref (some r)) => (fun x => .passage (some x)) <$> p.getTextualNode now r
  | _, .ok a => .ok (.ids a)

theorem askKept_eq (t : LocalText) (o : PassageObj) (q : Question) : askKept t o q =
    ({ o with memory := (askIds (o.passage.live t) o.memory (idsFor q)).1 },
      retrieve t o.passage q (askIds (o.passage.live t) o.memory (idsFor q)).2) := by
  cases q with
  | ids q => rfl
  | next =>
    simp only [askKept, PassageObj.next, idsFor, askIds, nextId_eq]
    have ha := fun s => siblingsId_again (v := o.passage.live t) (m := o.memory) (s := s)
    rcases hs : o.memory.siblingsId (o.passage.live t) with ⟨m, e | ⟨a, _ | b⟩⟩
    · rfl
    · rfl
    · rw [hs] at ha
      have ha := ha _ rfl
      simp only at ha
      simp only [Functor.map, Except.map, ha, retrieve]
      cases o.passage.step t b <;> rfl
  | prev =>
    simp only [askKept, PassageObj.prev, idsFor, askIds, prevId_eq]
    have ha := fun s => siblingsId_again (v := o.passage.live t) (m := o.memory) (s := s)
    rcases hs : o.memory.siblingsId (o.passage.live t) with ⟨m, e | ⟨_ | b, a⟩⟩
    · rfl
    · rfl
    · rw [hs] at ha
      have ha := ha _ rfl
      simp only at ha
      simp only [Functor.map, Except.map, ha, retrieve]
      cases o.passage.step t b <;> rfl
  | first =>
    simp only [askKept, PassageObj.first, idsFor, askIds, firstId_eq]
    have ha := fun l => childIds_again (v := o.passage.live t) (m := o.memory) (l := l)
    rcases hs : o.memory.childIds (o.passage.live t) with ⟨m, e | l⟩
    · rfl
    · rw [hs] at ha
      have ha := ha _ rfl
      simp only at ha
      cases hh : l.head?.getD none with
      | none => simp only [Functor.map, Except.map, hh, retrieve]
      | some b =>
        simp only [Functor.map, Except.map, hh, ha, retrieve]
        cases o.passage.getTextualNode t b <;> rfl
  | last =>
    simp only [askKept, PassageObj.last, idsFor, askIds, lastId_eq]
    have ha := fun l => childIds_again (v := o.passage.live t) (m := o.memory) (l := l)
    rcases hs : o.memory.childIds (o.passage.live t) with ⟨m, e | l⟩
    · rfl
    · rw [hs] at ha
      have ha := ha _ rfl
      simp only at ha
      cases hh : l.getLast?.getD none with
      | none => simp only [Functor.map, Except.map, hh, retrieve]
      | some b =>
        simp only [Functor.map, Except.map, hh, ha, retrieve]
        cases o.passage.getTextualNode t b <;> rfl

theorem passageAfter_passage (t : LocalText) (p : Passage) (history : List (Node × Question)) : (passageAfter t p history).passage = p := by
  have : ∀ (history : List (Node × Question)) (o : PassageObj), o.passage = p →
      (history.foldl (fun o x => (askKept (withDoc t x.1) o x.2).1) o).passage = p := by
    intro history
    induction history with
    | nil => intro o h; exact h
    | cons x rest ih =>
      intro o h
      refine ih _ ?_
      dsimp only
      rw [askKept_eq]
      exact h
  exact this history _ rfl

theorem retrieve_fresh (then_ now : LocalText) (p : Passage) (q : Question) :
    retrieve now p q (freshIds then_ p (idsFor q)) = freshAnswer then_ now p q := by
  cases q with
  | ids q => rfl
  | next =>
    simp only [idsFor, freshIds, freshAnswer]
    rcases p.siblingsId then_ with e | ⟨a, _ | b⟩
    · rfl
    · rfl
    · simp only [Functor.map, Except.map, retrieve, bind, Except.bind]
      cases p.step now b <;> rfl
  | prev =>
    simp only [idsFor, freshIds, freshAnswer]
    rcases p.siblingsId then_ with e | ⟨_ | b, a⟩
    · rfl
    · rfl
    · simp only [Functor.map, Except.map, retrieve, bind, Except.bind]
      cases p.step now b <;> rfl
  | first =>
    simp only [idsFor, freshIds, freshAnswer]
    rcases p.firstId then_ with e | (_ | b)
    · rfl
    · rfl
    · simp only [Functor.map, Except.map, retrieve, bind, Except.bind]
      cases p.getTextualNode now b <;> rfl
  | last =>
    simp only [idsFor, freshIds, freshAnswer]
    rcases p.lastId then_ with e | (_ | b)
    · rfl
    · rfl
    · simp only [Functor.map, Except.map, retrieve, bind, Except.bind]
      cases p.getTextualNode now b <;> rfl

theorem passageAfter_snoc (t : LocalText) (p : Passage) (history : List (Node × Question)) (x : Node × Question) :
    passageAfter t p (history ++ [x]) = (askKept (withDoc t x.1) (passageAfter t p history) x.2).1 := by
  simp [passageAfter]

theorem passageAfter_remembers (t : LocalText) (p : Passage) (history : List (Node × Question)) :
    Remembers (fun n => p.live (withDoc t n)) (history.map Prod.fst) (passageAfter t p history).memory := by
  induction history using history_induction with
  | nil => exact remembers_nothing _ rfl rfl
  | append_singleton l x ih =>
    rw [passageAfter_snoc, askKept_eq, passageAfter_passage]
    refine (askIds_over (passage_first t p) ih x.1 _).2.mono (mem_snoc_fst l x)

/-- C107. A passage whose document may change between questions: whatever it was asked before, an answer is that of a passage that
remembers nothing, which lists its references in the document as it was at one of the times of asking, and retrieves from the document as
it is now. Errors are answered and not remembered. -/
theorem C107_changes (t : LocalText) (p : Passage) (history : List (Node × Question)) (now : Node) (q : Question) :
    ∃ n ∈ now :: history.map Prod.fst, answerAfter t p history now q = freshAnswer (withDoc t n) (withDoc t now) p q := by
  obtain ⟨⟨k, hk, e⟩, _⟩ := askIds_over (passage_first t p) (passageAfter_remembers t p history) now (idsFor q)
  refine ⟨k, hk, ?_⟩
  rw [answerAfter, askKept_eq, passageAfter_passage]
  simp only at e ⊢
  rw [e, passage_fresh, retrieve_fresh]

/-- C107. While the document stays as it is, a passage gives at every time the answers of one that remembers nothing. -/
theorem C107_history (t : LocalText) (p : Passage) (history : List Question) (q : Question) :
    answerAfter t p (history.map fun q => (t.root, q)) t.root q = freshAnswer t t p q := by
  obtain ⟨n, hn, e⟩ := C107_changes t p (history.map fun q => (t.root, q)) t.root q
  have : n = t.root := by
    simp only [List.map_map, List.mem_cons, List.mem_map] at hn
    rcases hn with h | ⟨_, _, h⟩
    · exact h
    · exact h.symm
  subst this
  exact e

/-- C107. What such a passage says is what the theorems on passages are about. -/
theorem C107_fresh (t : LocalText) (p : Passage) :
    freshAnswer t t p .next = .passage <$> p.next t ∧ freshAnswer t t p .prev = .passage <$> p.prev t ∧
    freshAnswer t t p (.ids .childIds) = (fun l => .ids (.refs l)) <$> p.childIds t ∧
    freshAnswer t t p (.ids .siblingsId) = (fun l => .ids (.pair l)) <$> p.siblingsId t := by
  refine ⟨?_, ?_, ?_, ?_⟩
  · simp only [freshAnswer, Passage.next]
    rcases p.siblingsId t with e | ⟨a, _ | b⟩
    · rfl
    · rfl
    · simp only [bind, Except.bind, Functor.map, Except.map]
      cases p.step t b <;> rfl
  · simp only [freshAnswer, Passage.prev]
    rcases p.siblingsId t with e | ⟨_ | b, a⟩
    · rfl
    · rfl
    · simp only [bind, Except.bind, Functor.map, Except.map]
      cases p.step t b <;> rfl
  · simp only [freshAnswer, freshIds]
    cases p.childIds t <;> rfl
  · simp only [freshAnswer, freshIds]
    cases p.siblingsId t <;> rfl

theorem passageAfter_extends (t : LocalText) (p : Passage) (history more : List (Node × Question)) :
    Extends (passageAfter t p history).memory (passageAfter t p (history ++ more)).memory := by
  induction more using history_induction with
  | nil => rw [List.append_nil]; exact .refl _
  | append_singleton l x ih =>
    rw [← List.append_assoc, passageAfter_snoc, askKept_eq]
    exact ih.trans (askIds_extends _ _ _)

/-- C107. Identifiers that were answered once are answered for ever, whatever happens to the document and whatever is asked between. -/
theorem C107_steady (t : LocalText) (p : Passage) (history between : List (Node × Question)) (n n' : Node) (q : IdQuestion) (a : Answer)
    (h : answerAfter t p history n (.ids q) = .ok a) :
    answerAfter t p (history ++ (n, .ids q) :: between) n' (.ids q) = .ok a := by
  rw [answerAfter, askKept_eq, passageAfter_passage] at h ⊢
  simp only [idsFor, retrieve] at h ⊢
  cases hx : (askIds (p.live (withDoc t n)) (passageAfter t p history).memory q).2 with
  | error e => rw [hx] at h; cases h
  | ok b =>
    rw [hx] at h
    have he := passageAfter_extends t p (history ++ [(n, .ids q)]) between
    rw [List.append_assoc, List.singleton_append, passageAfter_snoc, askKept_eq, passageAfter_passage] at he
    rw [askIds_steady (v := p.live (withDoc t n)) (v' := p.live (withDoc t n')) rfl rfl hx he]
    exact h

/-! ### Texts and simple passages -/

/-- C107. The same for the children of a text. -/
theorem C107_text (t : LocalText) (history : List (Node × IdQuestion)) (now : Node) :
    (∃ n ∈ now :: history.map Prod.fst, textAnswer t history now .childIds = .refs <$> getValidReff (withDoc t n) (some 1) none) ∧
    (∀ l, textAnswer t history now .childIds = .ok (.refs l) → ∀ between later,
      textAnswer t (history ++ (now, .childIds) :: between) later .childIds = .ok (.refs l)) := by
  have hF : SameFirst fun n => (withDoc t n).live := fun _ _ => ⟨rfl, rfl⟩
  have hsnoc : ∀ history x, textMemory t (history ++ [x]) = (askIds (withDoc t x.1).live (textMemory t history) x.2).1 := by
    intro history x
    simp [textMemory]
  have hr : Remembers (fun n => (withDoc t n).live) (history.map Prod.fst) (textMemory t history) := by
    induction history using history_induction with
    | nil => exact remembers_nothing _ rfl rfl
    | append_singleton l x ih =>
      rw [hsnoc]
      refine (askIds_over hF ih x.1 _).2.mono (mem_snoc_fst l x)
  refine ⟨?_, fun l h between later => ?_⟩
  · obtain ⟨⟨k, hk, e⟩, _⟩ := askIds_over hF hr now .childIds
    exact ⟨k, hk, e⟩
  · have he : Extends (textMemory t (history ++ [(now, .childIds)])) (textMemory t ((history ++ [(now, .childIds)]) ++ between)) := by
      induction between using history_induction with
      | nil => rw [List.append_nil]; exact .refl _
      | append_singleton l x ih =>
        rw [← List.append_assoc, hsnoc _ x]
        exact ih.trans (askIds_extends _ _ _)
    rw [List.append_assoc, List.singleton_append, hsnoc] at he
    exact askIds_steady (v := (withDoc t now).live) (v' := (withDoc t later).live) rfl rfl h he

theorem simple_live {t : LocalText} {s s' : SimpleObj} (h1 : s.ref = s'.ref) (h2 : s.depth = s'.depth) : s.live t = s'.live t := by
  cases s
  cases s'
  simp only at h1 h2
  subst h1
  subst h2
  rfl

theorem simple_siblings (t : LocalText) (r : Ref) : simpleSiblingsAt t r.depth r = simpleSiblings t r := rfl

/-- C107. The same for a simple passage to which no other reference is assigned. -/
theorem C107_simple (t : LocalText) (r : Ref) (history : List (Node × IdQuestion)) (now : Node) (q : IdQuestion) :
    ∃ n ∈ now :: history.map Prod.fst,
      simpleAnswer t r (history.map fun x => (x.1, .ask x.2)) now q = freshSimple (withDoc t n) r q := by
  have hF : SameFirst fun n => (newSimple r).live (withDoc t n) := fun _ _ => ⟨rfl, rfl⟩
  have hr : (simpleAfter t r (history.map fun x => (x.1, .ask x.2))).ref = r ∧
      (simpleAfter t r (history.map fun x => (x.1, .ask x.2))).depth = r.depth ∧
      Remembers (fun n => (newSimple r).live (withDoc t n)) (history.map Prod.fst) (simpleAfter t r (history.map fun x => (x.1, .ask x.2))).memory := by
    induction history using history_induction with
    | nil => exact ⟨rfl, rfl, remembers_nothing _ rfl rfl⟩
    | append_singleton l x ih =>
      obtain ⟨h1, h2, h3⟩ := ih
      have hs : simpleAfter t r ((l ++ [x]).map fun x => (x.1, .ask x.2)) =
          { simpleAfter t r (l.map fun x => (x.1, .ask x.2)) with
            memory := (askIds ((simpleAfter t r (l.map fun x => (x.1, .ask x.2))).live (withDoc t x.1))
              (simpleAfter t r (l.map fun x => (x.1, .ask x.2))).memory x.2).1 } := by
        simp [simpleAfter]
      rw [hs]
      refine ⟨h1, h2, ?_⟩
      have hl : (simpleAfter t r (l.map fun x => (x.1, .ask x.2))).live (withDoc t x.1) = (newSimple r).live (withDoc t x.1) := by
        exact simple_live h1 h2
      rw [hl]
      refine (askIds_over hF h3 x.1 _).2.mono (mem_snoc_fst l x)
  obtain ⟨h1, h2, h3⟩ := hr
  obtain ⟨⟨k, hk, e⟩, _⟩ := askIds_over hF h3 now q
  refine ⟨k, hk, ?_⟩
  have hl : (simpleAfter t r (history.map fun x => (x.1, .ask x.2))).live (withDoc t now) = (newSimple r).live (withDoc t now) := by
    exact simple_live h1 h2
  have hc : liveChildren ((newSimple r).live (withDoc t k)) = simpleChildren (withDoc t k) r := by
    by_cases hd : r.depth ≥ (withDoc t k).decls.length
    · simp [liveChildren, SimpleObj.live, newSimple, simpleChildren, hd]
    · simp [liveChildren, SimpleObj.live, newSimple, simpleChildren, hd]
  have hs : liveSiblings ((newSimple r).live (withDoc t k)) = simpleSiblings (withDoc t k) r := rfl
  simp only [simpleAnswer]
  rw [hl, e]
  cases q <;> simp only [liveAnswer, freshSimple, hc, hs]

/-! ### Examples -/

/-- The text of the examples, and its document without its first poem. -/
def exKept : LocalText := textOf edition sameIdentity editionLevels
def exShorter : Node := .mk "TEI".toList [] [] [.mk "body".toList [] [] [.mk ['d'] [(['n'], ['2'])] [] [.mk ['l'] [(['n'], ['1'])] "arma".toList [] []] []] []] []

/-- Line 1.2, asked for everything and then for its siblings. -/
example : ∃ p, textPassage exKept (single [['1'], ['2']]) = .ok p ∧
    answerAfter exKept p ([.next, .first, .ids .childIds, .ids .siblingsId, .last, .prev].map fun q => (exKept.root, q)) exKept.root (.ids .siblingsId) =
      .ok (.ids (.pair (some (single [['1'], ['1']]), some (single [['2'], ['1']])))) := by
  obtain ⟨p, h1, h2⟩ := C32_siblings edition editionLevels sameIdentity (by simp [sameIdentity]) edition_citable 2 (by decide) (by decide)
    [([['1'], ['1']], [0, 0, 0])] [([['2'], ['1']], [0, 1, 0]), ([['2'], ['2']], [0, 1, 1])] ([['1'], ['2']], [0, 0, 1]) (by
      rw [List.take_of_length_le (by simp [editionLevels]), edition_units]; rfl)
  refine ⟨p, h1, ?_⟩
  rw [C107_history]
  have h2 : p.siblingsId exKept = .ok (some (single [['1'], ['1']]), some (single [['2'], ['1']])) := h2
  simp only [freshAnswer, freshIds, h2]
  rfl

/-- The same passage, asked for its siblings before its poem is taken out of the document and again afterwards. -/
example (later : Node) : ∃ p, textPassage exKept (single [['1'], ['2']]) = .ok p ∧
    answerAfter exKept p [(edition, .ids .siblingsId), (later, .ids .childIds)] later (.ids .siblingsId) =
      .ok (.ids (.pair (some (single [['1'], ['1']]), some (single [['2'], ['1']])))) := by
  obtain ⟨p, h1, h2⟩ := C32_siblings edition editionLevels sameIdentity (by simp [sameIdentity]) edition_citable 2 (by decide) (by decide)
    [([['1'], ['1']], [0, 0, 0])] [([['2'], ['1']], [0, 1, 0]), ([['2'], ['2']], [0, 1, 1])] ([['1'], ['2']], [0, 0, 1]) (by
      rw [List.take_of_length_le (by simp [editionLevels]), edition_units]; rfl)
  refine ⟨p, h1, C107_steady exKept p [] [(later, .ids .childIds)] edition later .siblingsId _ ?_⟩
  have h := C107_history exKept p [] (.ids .siblingsId)
  have h2 : p.siblingsId exKept = .ok (some (single [['1'], ['1']]), some (single [['2'], ['1']])) := h2
  simp only [freshAnswer, freshIds, h2] at h
  exact h

/-- The children of a text whose document changes. -/
example : textAnswer exKept [(edition, .childIds)] exShorter .childIds = .ok (.refs [some (single [['1']]), some (single [['2']])]) ∧
    textAnswer exKept [] exShorter .childIds = .ok (.refs [some (single [['2']])]) := by decide +kernel

example : simpleAnswer exKept (single [['1'], ['2']]) [(edition, .ask .childIds)] edition .prevId = .ok (.ref (some (single [['1'], ['1']]))) := by
  decide +kernel

/-! ### Where the memory shows -/

/-- C107. What a passage remembers is not forgotten when another reference is assigned to it: it has the reference 2.1 and the siblings of
1.1. Its depth stays too: asked first after the assignment of a line to a poem, it does not find itself. -/
theorem C107_fails_assigned :
    (simpleAfter exKept (single [['1'], ['1']]) [(edition, .ask .siblingsId), (edition, .assign (single [['2'], ['1']]))]).ref = single [['2'], ['1']] ∧
    simpleAnswer exKept (single [['1'], ['1']]) [(edition, .ask .siblingsId), (edition, .assign (single [['2'], ['1']]))] edition .siblingsId =
      .ok (.pair (none, some (single [['1'], ['2']]))) ∧
    simpleAnswer exKept (single [['1'], ['1']]) [(edition, .assign (single [['2'], ['1']]))] edition .siblingsId =
      .ok (.pair (some (single [['1'], ['2']]), some (single [['2'], ['2']]))) ∧
    simpleAnswer exKept (single [['1']]) [(edition, .assign (single [['2'], ['1']]))] edition .siblingsId = .error .valueError := by
  decide +kernel

/-- C107. After a change of the document the references remembered may lead nowhere: `nextId` names a passage that `next` does not find. -/
theorem C107_fails_gone : simpleAnswer exKept (single [['1'], ['1']]) [(edition, .ask .siblingsId)] exShorter .nextId =
      .ok (.ref (some (single [['1'], ['2']]))) ∧
    (∀ p, textPassage (withDoc exKept exShorter) (single [['1'], ['2']]) ≠ .ok p) ∧
    freshSimple (withDoc exKept exShorter) (single [['2'], ['1']]) .siblingsId = .ok (.pair (none, none)) := by
  refine ⟨by decide +kernel, ?_, by decide +kernel⟩
  intro p h
  have : (match textPassage (withDoc exKept exShorter) (single [['1'], ['2']]) with | .ok _ => true | .error _ => false) = false := by decide +kernel
  rw [h] at this
  cases this

end Verif.Props
