import Verif.Spec.DtsDocument
import Verif.Props.DtsResolver
/-!
C77: going from document to document with the DTS resolver. C78: the children of a document.
-/
namespace Verif.Props
open Verif.Py Verif.Model Verif.Spec

theorem linkOf_iff (ls : List DocLink) (rel : Str) (q : List (Str × Str)) : linkOf ls rel = some q ↔ LastLink ls rel q := by
  induction ls with
  | nil =>
    constructor
    · intro h; cases h
    · rintro ⟨a, b, h, _⟩; cases a <;> cases h
  | cons l ls ih =>
    rw [linkOf]
    cases h : linkOf ls rel with
    | some q' =>
      have hne : ∃ x ∈ ls, x.rel = rel := by
        clear ih
        induction ls with
        | nil => cases h
        | cons x xs ih2 =>
          rw [linkOf] at h
          cases h2 : linkOf xs rel with
          | some q2 =>
            rw [h2] at h
            obtain ⟨y, hy, e⟩ := ih2 (by rw [h2]; exact h)
            exact ⟨y, List.mem_cons_of_mem _ hy, e⟩
          | none =>
            rw [h2] at h
            by_cases e : x.rel = rel
            · exact ⟨x, List.mem_cons_self, e⟩
            · simp [e] at h
      rw [h] at ih
      simp only
      rw [ih]
      constructor
      · rintro ⟨a, b, rfl, hb⟩
        exact ⟨l :: a, b, rfl, hb⟩
      · rintro ⟨a, b, e, hb⟩
        cases a with
        | nil =>
          simp only [List.nil_append, List.cons.injEq] at e
          obtain ⟨rfl, rfl⟩ := e
          obtain ⟨x, hx, hr⟩ := hne
          exact absurd hr (hb x hx)
        | cons a0 a =>
          simp only [List.cons_append, List.cons.injEq] at e
          exact ⟨a, b, e.2, hb⟩
    | none =>
      have hno : ∀ x ∈ ls, x.rel ≠ rel := by
        clear ih
        induction ls with
        | nil => simp
        | cons x xs ih2 =>
          rw [linkOf] at h
          cases h2 : linkOf xs rel with
          | some q2 => rw [h2] at h; cases h
          | none =>
            rw [h2] at h
            intro y hy
            rcases List.mem_cons.mp hy with rfl | hy
            · intro e; simp [e] at h
            · exact ih2 h2 y hy
      simp only
      constructor
      · intro hq
        by_cases e : l.rel = rel
        · rw [if_pos e] at hq
          cases hq
          exact ⟨[], ls, by cases l; cases e; rfl, hno⟩
        · rw [if_neg e] at hq; cases hq
      · rintro ⟨a, b, e, hb⟩
        cases a with
        | nil =>
          simp only [List.nil_append, List.cons.injEq] at e
          obtain ⟨rfl, rfl⟩ := e
          simp
        | cons a0 a =>
          simp only [List.cons_append, List.cons.injEq] at e
          refine absurd rfl (hno ⟨rel, q⟩ ?_)
          rw [e.2]; simp

private theorem linkOf_mem {ls : List DocLink} {rel : Str} {q : List (Str × Str)} (h : linkOf ls rel = some q) : ⟨rel, q⟩ ∈ ls := by
  obtain ⟨a, b, rfl, _⟩ := (linkOf_iff ls rel q).mp h
  simp

private theorem queryValue_iff (q : List (Str × Str)) (hn : (q.map (·.1)).Nodup) (k v : Str) : queryValue q k = some v ↔ (k, v) ∈ q := by
  induction q with
  | nil => simp [queryValue]
  | cons p q ih =>
    obtain ⟨k', v'⟩ := p
    simp only [List.map_cons, List.nodup_cons] at hn
    have ih := ih hn.2
    by_cases e : k' = k
    · subst e
      simp only [queryValue, List.find?_cons, beq_self_eq_true, Option.map_some, Option.some.injEq, List.mem_cons, Prod.mk.injEq, true_and]
      constructor
      · intro h; exact Or.inl h.symm
      · rintro (h | h)
        · exact h.symm
        · exact absurd (List.mem_map_of_mem (f := (·.1)) h) hn.1
    · have hb : (k' == k) = false := by simp [e]
      rw [queryValue] at ih ⊢
      rw [List.find?_cons, hb, ih]
      simp only [List.mem_cons, Prod.mk.injEq]
      constructor
      · exact Or.inr
      · rintro (⟨h, _⟩ | h)
        · exact absurd h.symm e
        · exact h

private theorem dictToRef_iff (q : List (Str × Str)) (hn : (q.map (·.1)).Nodup) (r : DtsRef) : dictToRef q = some r ↔ PointsTo q r := by
  have k1 : ("ref".toList) = kRef := by decide
  have k2 : ("start".toList) = kStart := by decide
  have k3 : ("end".toList) = kEnd := by decide
  have hv := queryValue_iff q hn
  rw [PointsTo, k1, k2, k3]
  rw [dictToRef]
  obtain ⟨start, stop, type⟩ := r
  simp only
  have second : (∀ v, (kRef, v) ∈ q → v = []) → ((match queryValue q kStart, queryValue q kEnd with
      | some (c :: s), some (c' :: e) => some (⟨c :: s, some (c' :: e), none⟩ : DtsRef)
      | _, _ => none) = some ⟨start, stop, type⟩ ↔ type = none ∧ ((kRef, start) ∈ q ∧ start ≠ [] ∧ stop = none ∨
      (∀ v, (kRef, v) ∈ q → v = []) ∧ (kStart, start) ∈ q ∧ start ≠ [] ∧ ∃ e, stop = some e ∧ (kEnd, e) ∈ q ∧ e ≠ [])) := by
    intro h0
    have hl : ¬ ((kRef, start) ∈ q ∧ start ≠ [] ∧ stop = none) := fun h => h.2.1 (h0 _ h.1)
    simp only [hl, false_or]
    constructor
    · intro h
      split at h
      · rename_i c s c' e hs he
        simp only [Option.some.injEq, DtsRef.mk.injEq] at h
        obtain ⟨rfl, rfl, rfl⟩ := h
        exact ⟨rfl, h0, (hv _ _).mp hs, by simp, _, rfl, (hv _ _).mp he, by simp⟩
      · cases h
    · rintro ⟨rfl, -, hs, hs', e, rfl, he, he'⟩
      rw [(hv _ _).mpr hs, (hv _ _).mpr he]
      cases start with
      | nil => exact absurd rfl hs'
      | cons c s =>
        cases e with
        | nil => exact absurd rfl he'
        | cons c' e => rfl
  cases h : queryValue q kRef with
  | none =>
    refine second fun v hv' => ?_
    rw [(hv _ _).mpr hv'] at h; cases h
  | some w =>
    cases w with
    | nil =>
      refine second fun v hv' => ?_
      rw [(hv _ _).mpr hv'] at h; cases h; rfl
    | cons c w =>
      have hm := (hv _ _).mp h
      simp only [Option.some.injEq, DtsRef.mk.injEq]
      constructor
      · rintro ⟨rfl, rfl, rfl⟩
        exact ⟨rfl, Or.inl ⟨hm, by simp, rfl⟩⟩
      · rintro ⟨rfl, ⟨h1, h2, rfl⟩ | ⟨h1, _⟩⟩
        · have := (hv _ _).mpr h1
          rw [h] at this
          exact ⟨Option.some.inj this, rfl, rfl⟩
        · exact absurd (h1 _ hm) (by simp)

private theorem dictToRef_nil : dictToRef [] = none := rfl

/-- The value of a link that is its own guard. -/
private theorem linkRef_self (ls : List DocLink) (hd : Dictionaries ls) (rel : Str) :
    ∃ o, linkRef ls rel rel = .ok o ∧ LinksTo ls rel o := by
  rw [linkRef]
  cases h : linkOf ls rel with
  | none =>
    refine ⟨none, rfl, ?_⟩
    rintro ⟨q, r, h1, _⟩
    rw [(linkOf_iff _ _ _).mpr h1] at h; cases h
  | some q =>
    have hn := hd _ (linkOf_mem h)
    have hk : LinksTo ls rel (dictToRef q) := by
      cases h2 : dictToRef q with
      | some r => exact ⟨q, (linkOf_iff _ _ _).mp h, (dictToRef_iff q hn r).mp h2⟩
      | none =>
        rintro ⟨q', r, h3, h4⟩
        rw [(linkOf_iff _ _ _).mpr h3] at h
        cases h
        rw [(dictToRef_iff q hn r).mpr h4] at h2; cases h2
    cases q with
    | nil => exact ⟨none, rfl, by rw [← dictToRef_nil]; exact hk⟩
    | cons p q => exact ⟨dictToRef (p :: q), by simp only [h], hk⟩

theorem LinksTo.unique {ls : List DocLink} {rel : Str} {o o' : Option DtsRef} (hd : Dictionaries ls)
    (h : LinksTo ls rel o) (h' : LinksTo ls rel o') : o = o' := by
  cases o with
  | none =>
    cases o' with
    | none => rfl
    | some r' => obtain ⟨q, h1, h2⟩ := h'; exact absurd ⟨q, r', h1, h2⟩ h
  | some r =>
    obtain ⟨q, h1, h2⟩ := h
    cases o' with
    | none => exact absurd ⟨q, r, h1, h2⟩ h'
    | some r' =>
      obtain ⟨q', h3, h4⟩ := h'
      have e1 := (linkOf_iff _ _ _).mpr h1
      rw [(linkOf_iff _ _ _).mpr h3] at e1
      cases e1
      have hn := hd _ (linkOf_mem ((linkOf_iff _ _ _).mpr h1))
      rw [← (dictToRef_iff _ hn _).mpr h2, ← (dictToRef_iff _ hn _).mpr h4]

private theorem relNames : "next".toList = relNext ∧ "prev".toList = relPrev ∧ "parent".toList = relParent ∧ "up".toList = relUp ∧
    "last".toList = relLast ∧ "collection".toList = relCollection := by decide

private theorem linkRef_up (ls : List DocLink) (rel : Str) :
    ((∃ q, LastLink ls relParent q ∧ q ≠ []) ∧ (¬ ∃ q, LastLink ls rel q) ∧ linkRef ls relParent rel = .error .attributeError) ∨
    (¬ (∃ q, LastLink ls relParent q ∧ q ≠ []) ∧ linkRef ls relParent rel = .ok none) ∨
    ((∃ q, LastLink ls relParent q ∧ q ≠ []) ∧ ∃ q, LastLink ls rel q ∧ linkRef ls relParent rel = .ok (dictToRef q)) := by
  rw [linkRef]
  cases h : linkOf ls relParent with
  | none =>
    refine Or.inr (Or.inl ⟨?_, rfl⟩)
    rintro ⟨q, h1, _⟩
    rw [(linkOf_iff _ _ _).mpr h1] at h; cases h
  | some q =>
    cases q with
    | nil =>
      refine Or.inr (Or.inl ⟨?_, rfl⟩)
      rintro ⟨q, h1, h2⟩
      rw [(linkOf_iff _ _ _).mpr h1] at h; cases h; exact h2 rfl
    | cons p q =>
      have hp : ∃ q, LastLink ls relParent q ∧ q ≠ [] := ⟨_, (linkOf_iff _ _ _).mp h, by simp⟩
      cases h2 : linkOf ls rel with
      | none =>
        refine Or.inl ⟨hp, ?_, rfl⟩
        rintro ⟨q', h1⟩
        rw [(linkOf_iff _ _ _).mpr h1] at h2; cases h2
      | some q' => exact Or.inr (Or.inr ⟨hp, q', (linkOf_iff _ _ _).mp h2, rfl⟩)

/-- C77. A reply can be read exactly when a `parent` link whose address has a query comes with an `up` and a `last` link;
otherwise `AttributeError` is raised. -/
theorem C77_opens {γ : Type} (id : Str) (ref : DtsRefArg) (ls : List DocLink) (hd : Dictionaries ls) :
    (Openable ls → ∃ d : DtsDoc γ, openDocument id ref ls = .ok d) ∧
    (¬ Openable ls → openDocument (γ := γ) id ref ls = .error .attributeError) := by
  obtain ⟨e1, e2, e3, e4, e5, e6⟩ := relNames
  obtain ⟨n, hn, _⟩ := linkRef_self ls hd relNext
  obtain ⟨p, hp, _⟩ := linkRef_self ls hd relPrev
  obtain ⟨c, hc, _⟩ := linkRef_self ls hd relCollection
  rw [Openable, e3, e4, e5, openDocument]
  simp only [hn, hp, hc]
  rcases linkRef_up ls relUp with ⟨h1, h2, h3⟩ | ⟨h1, h3⟩ | ⟨h1, q, h2, h3⟩
  · simp only [h3]
    exact ⟨fun h => absurd (h h1).1 h2, fun _ => trivial⟩
  · simp only [h3]
    rcases linkRef_up ls relLast with ⟨g1, g2, g3⟩ | ⟨g1, g3⟩ | ⟨g1, q, g2, g3⟩
    · exact absurd g1 h1
    · simp only [g3]
      exact ⟨fun _ => ⟨_, rfl⟩, fun h => absurd (fun x => absurd x h1) h⟩
    · exact absurd g1 h1
  · simp only [h3]
    rcases linkRef_up ls relLast with ⟨g1, g2, g3⟩ | ⟨g1, g3⟩ | ⟨g1, q', g2, g3⟩
    · simp only [g3]
      exact ⟨fun h => absurd (h h1).2 g2, fun _ => trivial⟩
    · exact absurd h1 g1
    · simp only [g3]
      exact ⟨fun _ => ⟨_, rfl⟩, fun h => absurd (fun _ => ⟨⟨q, h2⟩, ⟨q', g2⟩⟩) h⟩

/-- C77. What a document knows of the passages around it: the passages that the last `next` link and the last `prev` link
name, and, when there is a `parent` link whose address has a query, the passage that the last `up` link names. -/
theorem C77_links {γ : Type} (id : Str) (ref : DtsRefArg) (ls : List DocLink) (hd : Dictionaries ls) (d : DtsDoc γ)
    (h : openDocument id ref ls = .ok d) :
    d.id = id ∧ d.ref = ref ∧ LinksTo ls "next".toList d.next ∧ LinksTo ls "prev".toList d.prev ∧
    ((∃ q, LastLink ls "parent".toList q ∧ q ≠ []) → LinksTo ls "up".toList d.parent) ∧
    ((¬ ∃ q, LastLink ls "parent".toList q ∧ q ≠ []) → d.parent = none) ∧
    (∀ r, d.coll = .ref r ↔ ∃ q, LastLink ls "collection".toList q ∧ PointsTo q r) ∧ (∀ c, d.coll ≠ .coll c) := by
  obtain ⟨e1, e2, e3, e4, e5, e6⟩ := relNames
  obtain ⟨n, hn, hn'⟩ := linkRef_self ls hd relNext
  obtain ⟨p, hp, hp'⟩ := linkRef_self ls hd relPrev
  obtain ⟨c, hc, hc'⟩ := linkRef_self ls hd relCollection
  rw [e1, e2, e3, e4, e6]
  rw [openDocument] at h
  simp only [hn, hp, hc] at h
  split at h
  · cases h
  · rename_i par hpar
    split at h
    · cases h
    · cases h
      refine ⟨rfl, rfl, hn', hp', ?_, ?_, ?_, ?_⟩
      · intro hq
        rcases linkRef_up ls relUp with ⟨h1, h2, h3⟩ | ⟨h1, h3⟩ | ⟨h1, q, h2, h3⟩
        · rw [h3] at hpar; cases hpar
        · exact absurd hq h1
        · rw [h3] at hpar
          cases hpar
          have hl := (linkOf_iff _ _ _).mpr h2
          have hnd := hd _ (linkOf_mem hl)
          cases h4 : dictToRef q with
          | some r => exact ⟨q, h2, (dictToRef_iff q hnd r).mp h4⟩
          | none =>
            rintro ⟨q', r, h5, h6⟩
            rw [(linkOf_iff _ _ _).mpr h5] at hl
            cases hl
            rw [(dictToRef_iff _ hnd r).mpr h6] at h4; cases h4
      · intro hq
        rcases linkRef_up ls relUp with ⟨h1, h2, h3⟩ | ⟨h1, h3⟩ | ⟨h1, q, h2, h3⟩
        · exact absurd h1 hq
        · rw [h3] at hpar; cases hpar; rfl
        · exact absurd h1 hq
      · intro r
        cases c with
        | none =>
          constructor
          · intro h; cases h
          · rintro ⟨q, h1, h2⟩; exact absurd ⟨q, r, h1, h2⟩ hc'
        | some r' =>
          constructor
          · intro h; cases h; exact hc'
          · rintro ⟨q, h1, h2⟩
            have := LinksTo.unique hd hc' (o' := some r) ⟨q, h1, h2⟩
            cases this; rfl
      · intro x
        cases c <;> (intro h; cases h)

/-- A position of a walk. -/
private structure AtUnit {γ : Type} (id : Str) (refs : List DtsRef) (i : Nat) (d : DtsDoc γ) : Prop where
  id_eq : d.id = id
  ref_eq : ∃ r, refs[i]? = some r ∧ d.ref = r.arg
  next_eq : d.next = refs[i + 1]?
  prev_eq : d.prev = unitBefore refs i

private theorem at_resolve {γ : Type} {net : DtsNet γ} {id : Str} {refs : List DtsRef} (hs : ServesUnits net id refs) (log : List DocReq)
    {i : Nat} {r : DtsRef} (hr : refs[i]? = some r) :
    ∃ d, resolveDoc net log id r.arg = (log ++ [docRequest net id r], .ok d) ∧ AtUnit id refs i d := by
  obtain ⟨ls, h1, h2, h3, h4, h5⟩ := hs.served i r hr
  obtain ⟨d, hd⟩ := (C77_opens (γ := γ) id r.arg ls h2).1 h3
  obtain ⟨g1, g2, g3, g4, _⟩ := C77_links id r.arg ls h2 d hd
  refine ⟨d, ?_, g1, ⟨r, hr, g2⟩, LinksTo.unique h2 g3 h4, LinksTo.unique h2 g4 h5⟩
  rw [resolveDoc]
  simp only [h1, hd]
  rfl

private theorem at_node {γ : Type} {net : DtsNet γ} {id : Str} {refs : List DtsRef} (hs : ServesUnits net id refs) (log : List DocReq)
    {d : DtsDoc γ} (hid : d.id = id) {i : Nat} {r : DtsRef} (hr : refs[i]? = some r) :
    ∃ d', d.node net log r.arg = (log ++ [docRequest net id r], .ok d') ∧ AtUnit id refs i d' ∧ d'.coll = d.coll := by
  obtain ⟨o, h1, h2⟩ := at_resolve hs log hr
  refine ⟨{ o with coll := d.coll }, ?_, ⟨h2.1, h2.2, h2.3, h2.4⟩, rfl⟩
  rw [DtsDoc.node, hid, h1]

private theorem walk_from {γ : Type} {net : DtsNet γ} {id : Str} {refs : List DtsRef} (hs : ServesUnits net id refs) :
    ∀ (moves : List Move) (log : List DocReq) (i : Nat) (d : DtsDoc γ), AtUnit id refs i d →
    match moved refs.length i moves with
    | some j => ∃ d' r, docNavigate net log d moves = (log ++ (visited i moves).filterMap (fun k => (refs[k]?).map (docRequest net id)), .ok (some d')) ∧
        refs[j]? = some r ∧ d'.ref = r.arg ∧ d'.id = id ∧ d'.coll = d.coll
    | none => (docNavigate net log d moves).2 = .ok none := by
  intro moves
  induction moves with
  | nil =>
    intro log i d ha
    obtain ⟨r, hr, hr'⟩ := ha.ref_eq
    rw [moved]
    exact ⟨d, r, by simp [docNavigate, visited], hr, hr', ha.id_eq, rfl⟩
  | cons m moves ih =>
    intro log i d ha
    obtain ⟨r, hr, hr'⟩ := ha.ref_eq
    have hi : i < refs.length := (List.getElem?_eq_some_iff.mp hr).1
    cases m with
    | next =>
      rw [moved]
      by_cases hlt : i + 1 < refs.length
      · rw [if_pos hlt]
        have hr1 : refs[i + 1]? = some refs[i + 1] := List.getElem?_eq_getElem hlt
        obtain ⟨d', h1, h2, h3⟩ := at_node hs log ha.id_eq hr1
        have hm : docMove net log d .next = (log ++ [docRequest net id refs[i + 1]], .ok (some d')) := by
          rw [docMove, DtsDoc.goNext, ha.next_eq, hr1, DtsDoc.sibling, h1]
        have := ih (log ++ [docRequest net id refs[i + 1]]) (i + 1) d' h2
        rw [docNavigate, hm]
        simp only
        cases hmv : moved refs.length (i + 1) moves with
        | none => rw [hmv] at this; exact this
        | some j =>
          rw [hmv] at this
          obtain ⟨d'', r'', g1, g2, g3, g4, g5⟩ := this
          refine ⟨d'', r'', ?_, g2, g3, g4, g5.trans h3⟩
          rw [g1, visited, List.filterMap_cons, hr1]
          simp
      · rw [if_neg hlt]
        have hn : refs[i + 1]? = none := List.getElem?_eq_none (by omega)
        simp only [docNavigate, docMove, DtsDoc.goNext, ha.next_eq, hn, DtsDoc.sibling]
    | prev =>
      rw [moved]
      by_cases h0 : i = 0
      · rw [if_pos h0]
        simp only [docNavigate, docMove, DtsDoc.goPrev, ha.prev_eq, unitBefore, if_pos h0, DtsDoc.sibling]
      · rw [if_neg h0]
        have hlt : i - 1 < refs.length := by omega
        have hr1 : refs[i - 1]? = some refs[i - 1] := List.getElem?_eq_getElem hlt
        obtain ⟨d', h1, h2, h3⟩ := at_node hs log ha.id_eq hr1
        have hm : docMove net log d .prev = (log ++ [docRequest net id refs[i - 1]], .ok (some d')) := by
          rw [docMove, DtsDoc.goPrev, ha.prev_eq, unitBefore, if_neg h0, hr1, DtsDoc.sibling, h1]
        have := ih (log ++ [docRequest net id refs[i - 1]]) (i - 1) d' h2
        rw [docNavigate, hm]
        simp only
        cases hmv : moved refs.length (i - 1) moves with
        | none => rw [hmv] at this; exact this
        | some j =>
          rw [hmv] at this
          obtain ⟨d'', r'', g1, g2, g3, g4, g5⟩ := this
          refine ⟨d'', r'', ?_, g2, g3, g4, g5.trans h3⟩
          rw [g1, visited, List.filterMap_cons, hr1]
          simp

/-- C77. With an endpoint that announces the passage before and the passage after each passage, any sequence of readings of
`next` and `prev` from the document of a passage leads to the document of the passage that is there, or to `None` when it
leaves the text; one document is requested for each passage on the way, and nothing else. -/
theorem C77_walk {γ : Type} (net : DtsNet γ) (id : Str) (refs : List DtsRef) (hs : ServesUnits net id refs) (log : List DocReq)
    (i : Nat) (r : DtsRef) (hr : refs[i]? = some r) (moves : List Move) :
    ∃ d, resolveDoc net log id r.arg = (log ++ [docRequest net id r], .ok d) ∧
    match moved refs.length i moves with
    | some j => ∃ d' r', docNavigate net (log ++ [docRequest net id r]) d moves =
          (log ++ [docRequest net id r] ++ (visited i moves).filterMap (fun k => (refs[k]?).map (docRequest net id)), .ok (some d')) ∧
        refs[j]? = some r' ∧ d'.ref = r'.arg ∧ d'.id = id
    | none => (docNavigate net (log ++ [docRequest net id r]) d moves).2 = .ok none := by
  obtain ⟨d, h1, h2⟩ := at_resolve hs log hr
  refine ⟨d, h1, ?_⟩
  have := walk_from hs moves (log ++ [docRequest net id r]) i d h2
  cases hm : moved refs.length i moves with
  | none => rw [hm] at this; exact this
  | some j =>
    rw [hm] at this
    obtain ⟨d', r', g1, g2, g3, g4, _⟩ := this
    exact ⟨d', r', g1, g2, g3, g4⟩

/-- C77. The request of the document of a passage asks for the text and the passage under `ref`, or under `start` and `end`
when the passage is a range; parameters of the route itself win. -/
theorem C77_request {γ : Type} (net : DtsNet γ) (hq : (net.docQuery.map (·.1)).Nodup) (log : List DocReq) (id : Str) (r : DtsRef)
    (he : r.stop ≠ some []) :
    ∃ ps, (resolveDoc net log id r.arg).1 = log ++ [.document ps] ∧ ∀ k vs, (k, vs) ∈ ps ↔
      (k, vs) ∈ net.docQuery ∨ ((∀ ws, (k, ws) ∉ net.docQuery) ∧ ((k = "id".toList ∧ vs = [id]) ∨
        (r.stop = none ∧ k = "ref".toList ∧ vs = [r.start]) ∨
        ∃ e, r.stop = some e ∧ ((k = "start".toList ∧ vs = [r.start]) ∨ (k = "end".toList ∧ vs = [e])))) := by
  refine ⟨_, rfl, fun k vs => ?_⟩
  rw [C58_document _ hq]
  refine or_congr Iff.rfl (and_congr Iff.rfl ?_)
  rw [or_comm]
  refine or_congr Iff.rfl ?_
  obtain ⟨a, b, t⟩ := r
  cases b with
  | none => simp [RefSent, DtsRef.arg, Val.ofOption, Val.truthy, Val.text]
  | some b =>
    cases b with
    | nil => exact absurd rfl he
    | cons c b => simp [RefSent, DtsRef.arg, Val.ofOption, Val.truthy, Val.text]

private theorem node_coll {γ : Type} {net : DtsNet γ} {log log' : List DocReq} {d d' : DtsDoc γ} {r : DtsRefArg}
    (h : d.node net log r = (log', .ok d')) : d'.coll = d.coll := by
  rw [DtsDoc.node] at h
  split at h
  · cases h
  · cases h; rfl

private theorem node_log {γ : Type} (net : DtsNet γ) (log : List DocReq) (d : DtsDoc γ) (r : DtsRefArg) :
    (d.node net log r).1 = log ++ [.document (getDocument net.docQuery d.id r)] := by
  have h1 : (resolveDoc net log d.id r).1 = log ++ [.document (getDocument net.docQuery d.id r)] := rfl
  rw [DtsDoc.node]
  split <;> (rename_i h; rw [h] at h1; exact h1)

private theorem sibling_facts {γ : Type} (net : DtsNet γ) (log : List DocReq) (d : DtsDoc γ) (o : Option DtsRef) :
    (((d.sibling net log o).1).countP OfCollections = log.countP OfCollections) ∧
    ∀ d', (d.sibling net log o).2 = .ok (some d') → d'.coll = d.coll := by
  cases o with
  | none => exact ⟨rfl, fun d' h => by cases h⟩
  | some r =>
    rw [DtsDoc.sibling]
    have hl := node_log net log d r.arg
    cases h : d.node net log r.arg with
    | mk log' out =>
      rw [h] at hl
      simp only at hl
      subst hl
      cases out with
      | error e => exact ⟨by simp [OfCollections], fun d' h => by cases h⟩
      | ok d0 => exact ⟨by simp [OfCollections], fun d' hd' => by cases hd'; exact node_coll h⟩

private theorem node_facts {γ : Type} (net : DtsNet γ) (log : List DocReq) (d : DtsDoc γ) (r : DtsRefArg) :
    (((d.node net log r).1).countP OfCollections = log.countP OfCollections) ∧
    ∀ d', (some <$> (d.node net log r).2) = Except.ok (some d') → d'.coll = d.coll := by
  have hl := node_log net log d r
  cases h : d.node net log r with
  | mk log' out =>
    rw [h] at hl
    simp only at hl
    subst hl
    cases out with
    | error e => exact ⟨by simp [OfCollections], fun d' h => by cases h⟩
    | ok d0 => exact ⟨by simp [OfCollections], fun d' hd' => by cases hd'; exact node_coll h⟩

/-- A step makes no request of the collections route when something is known of the collection, and otherwise at most one,
after which it is known. -/
private theorem step_facts {γ : Type} (net : DtsNet γ) (log : List DocReq) (d : DtsDoc γ) (s : DocStep) :
    (d.coll ≠ .unset → (docStep net log d s).1.countP OfCollections = log.countP OfCollections ∧
      ∀ d', (docStep net log d s).2 = .ok (some d') → d'.coll = d.coll) ∧
    (d.coll = .unset →
      ((docStep net log d s).1.countP OfCollections = log.countP OfCollections ∧ ∀ d', (docStep net log d s).2 = .ok (some d') → d'.coll = .unset) ∨
      ((docStep net log d s).1.countP OfCollections = log.countP OfCollections + 1 ∧ ∀ d', (docStep net log d s).2 = .ok (some d') → d'.coll ≠ .unset)) := by
  have via : ∀ (o : List DocReq × Except PyErr (Option (DtsDoc γ))), docStep net log d s = o →
      o.1.countP OfCollections = log.countP OfCollections → (∀ d', o.2 = .ok (some d') → d'.coll = d.coll) →
      (d.coll ≠ .unset → (docStep net log d s).1.countP OfCollections = log.countP OfCollections ∧
      ∀ d', (docStep net log d s).2 = .ok (some d') → d'.coll = d.coll) ∧
      (d.coll = .unset →
      ((docStep net log d s).1.countP OfCollections = log.countP OfCollections ∧ ∀ d', (docStep net log d s).2 = .ok (some d') → d'.coll = .unset) ∨
      ((docStep net log d s).1.countP OfCollections = log.countP OfCollections + 1 ∧ ∀ d', (docStep net log d s).2 = .ok (some d') → d'.coll ≠ .unset)) := by
    intro o e h1 h2
    rw [e]
    exact ⟨fun _ => ⟨h1, h2⟩, fun hu => Or.inl ⟨h1, fun d' h => (h2 d' h).trans hu⟩⟩
  cases s with
  | next => exact via _ rfl (sibling_facts net log d d.next).1 (sibling_facts net log d d.next).2
  | prev => exact via _ rfl (sibling_facts net log d d.prev).1 (sibling_facts net log d d.prev).2
  | parent => exact via _ rfl (node_facts net log d _).1 (node_facts net log d _).2
  | passage r => exact via _ rfl (node_facts net log d r).1 (node_facts net log d r).2
  | collection =>
    cases hc : d.coll with
    | unset =>
      refine ⟨fun h => absurd rfl h, fun _ => Or.inr ?_⟩
      simp only [docStep, DtsDoc.collection, hc]
      cases hr : net.collections (getCollection net.colQuery (some d.id) Model.children .none) with
      | error e => exact ⟨by simp [OfCollections], fun d' h => by cases h⟩
      | ok c => exact ⟨by simp [OfCollections], fun d' h => by cases h; simp⟩
    | ref r =>
      refine ⟨fun _ => ?_, fun h => by cases h⟩
      simp only [docStep, DtsDoc.collection, hc]
      exact ⟨trivial, fun d' h => by cases h; exact hc⟩
    | coll c =>
      refine ⟨fun _ => ?_, fun h => by cases h⟩
      simp only [docStep, DtsDoc.collection, hc]
      exact ⟨trivial, fun d' h => by cases h; exact hc⟩
  | depth =>
    cases hdp : d.depth with
    | some n =>
      exact via (log, .ok (some d)) (by simp only [docStep, DtsDoc.getDepth, hdp]; rfl) rfl (fun d' h => by cases h; rfl)
    | none =>
      cases hc : d.coll with
      | unset =>
        refine ⟨fun h => absurd rfl h, fun _ => Or.inr ?_⟩
        simp only [docStep, DtsDoc.getDepth, hdp, DtsDoc.collection, hc]
        cases hr : net.collections (getCollection net.colQuery (some d.id) Model.children .none) with
        | error e => exact ⟨by simp [OfCollections], fun d' h => by cases h⟩
        | ok c => exact ⟨by simp [OfCollections], fun d' h => by cases h; simp⟩
      | ref r =>
        refine ⟨fun _ => ?_, fun h => by cases h⟩
        simp only [docStep, DtsDoc.getDepth, hdp, DtsDoc.collection, hc]
        exact ⟨trivial, fun d' h => by cases h⟩
      | coll c =>
        refine ⟨fun _ => ?_, fun h => by cases h⟩
        simp only [docStep, DtsDoc.getDepth, hdp, DtsDoc.collection, hc]
        exact ⟨trivial, fun d' h => by cases h; rfl⟩

/-- C77. Once a document has its collection, whatever is read and wherever one goes from there, the documents at hand have
this collection, and it is not requested again. -/
theorem C77_collection_kept {γ : Type} (d : DtsDoc γ) (c : γ) (hc : d.coll = .coll c) (steps : List (DtsNet γ × DocStep)) (log : List DocReq) :
    (docHistory log d steps).1.countP OfCollections = log.countP OfCollections ∧
    ∀ d', (docHistory log d steps).2 = .ok (some d') → d'.coll = .coll c := by
  induction steps generalizing log d with
  | nil => exact ⟨rfl, fun d' h => by cases h; exact hc⟩
  | cons s rest ih =>
    obtain ⟨net, s⟩ := s
    have h := (step_facts net log d s).1 (by rw [hc]; simp)
    rw [docHistory]
    cases hs : docStep net log d s with
    | mk log' out =>
      rw [hs] at h
      cases out with
      | error e => exact ⟨h.1, fun d' h => by cases h⟩
      | ok o =>
        cases o with
        | none => exact ⟨h.1, fun d' h => by cases h⟩
        | some d' =>
          have := ih d' ((h.2 d' rfl).trans hc) log'
          exact ⟨this.1.trans h.1, this.2⟩

private theorem known_history {γ : Type} (steps : List (DtsNet γ × DocStep)) : ∀ (d : DtsDoc γ) (log : List DocReq), d.coll ≠ .unset →
    (docHistory log d steps).1.countP OfCollections = log.countP OfCollections := by
  induction steps with
  | nil => intro d log _; rfl
  | cons s rest ih =>
    intro d log hd
    obtain ⟨net, s⟩ := s
    have h := (step_facts net log d s).1 hd
    rw [docHistory]
    cases hs : docStep net log d s with
    | mk log' out =>
      rw [hs] at h
      cases out with
      | error e => exact h.1
      | ok o =>
        cases o with
        | none => exact h.1
        | some d' => exact (ih d' log' (by rw [h.2 d' rfl]; exact hd)).trans h.1

/-- C77. In any history of readings and of going from document to document, with an endpoint that may change, the collection
is requested at most once. -/
theorem C77_collection_once {γ : Type} (d : DtsDoc γ) (steps : List (DtsNet γ × DocStep)) (log : List DocReq) :
    (docHistory log d steps).1.countP OfCollections ≤ log.countP OfCollections + 1 := by
  induction steps generalizing log d with
  | nil => exact Nat.le_succ _
  | cons s rest ih =>
    obtain ⟨net, s⟩ := s
    by_cases hd : d.coll = .unset
    · have h := (step_facts net log d s).2 hd
      rw [docHistory]
      cases hs : docStep net log d s with
      | mk log' out =>
        rw [hs] at h
        cases out with
        | error e => rcases h with h | h <;> (have := h.1; simp only at this ⊢; omega)
        | ok o =>
          cases o with
          | none => rcases h with h | h <;> (have := h.1; simp only at this ⊢; omega)
          | some d' =>
            rcases h with h | h
            · have h1 := h.1
              simp only at h1 ⊢
              have := ih d' log'
              omega
            · have h1 := h.1
              simp only at h1 ⊢
              have := known_history rest d' log' (h.2 d' rfl)
              omega
    · have := known_history ((net, s) :: rest) d log hd
      omega

/-- C77. The first reading of `depth` of a document whose reply had no `collection` link requests the collection of the text
and gives the depth that it announces; later readings give the same without a request, whatever the endpoint then answers. -/
theorem C77_depth {γ : Type} (net net' : DtsNet γ) (log log' : List DocReq) (d : DtsDoc γ) (hd : d.depth = none) (hc : d.coll = .unset) (c : γ)
    (h : net.collections (getCollection net.colQuery (some d.id) "children".toList .none) = .ok c) :
    ∃ d', d.getDepth net log = (log ++ [.collection (getCollection net.colQuery (some d.id) "children".toList .none)], d', .ok (net.depthOf c)) ∧
      d'.getDepth net' log' = (log', d', .ok (net.depthOf c)) := by
  have e : "children".toList = Model.children := by decide
  rw [e] at h ⊢
  refine ⟨{ { d with coll := .coll c } with depth := some (net.depthOf c) }, ?_, rfl⟩
  simp only [DtsDoc.getDepth, hd, DtsDoc.collection, hc, h]

/-- C77. `parent` of a document whose parent was not announced is the whole text: the request is that of a text without a
passage. -/
theorem C77_parent_whole {γ : Type} (net : DtsNet γ) (log : List DocReq) (d : DtsDoc γ) (hp : d.parent = none) :
    d.goParent net log = d.node net log .none ∧
    (d.goParent net log).1 = log ++ [.document (getDocument net.docQuery d.id .none)] := by
  rw [DtsDoc.goParent, hp]
  exact ⟨rfl, node_log net log d .none⟩

/-- C77. `parent` of a document whose parent was announced is the document of this passage. -/
theorem C77_parent {γ : Type} (net : DtsNet γ) (log : List DocReq) (d : DtsDoc γ) (r : DtsRef) (hp : d.parent = some r) :
    d.goParent net log = d.node net log r.arg ∧ (d.goParent net log).1 = log ++ [docRequest net d.id r] := by
  rw [DtsDoc.goParent, hp]
  exact ⟨rfl, node_log net log d r.arg⟩

/-- C77. An `up` link alone, the link of the parent in the protocol, is not read: `parent` is the whole text. -/
theorem C77_fails_up {γ : Type} (net : DtsNet γ) (log : List DocReq) (id : Str) (ref : DtsRefArg) (ls : List DocLink) (hd : Dictionaries ls)
    (h : ∀ l ∈ ls, l.rel ≠ "parent".toList) :
    ∃ d : DtsDoc γ, openDocument id ref ls = .ok d ∧ d.parent = none ∧
      (d.goParent net log).1 = log ++ [.document (getDocument net.docQuery id .none)] := by
  have hno : ¬ ∃ q, LastLink ls "parent".toList q ∧ q ≠ [] := by
    rintro ⟨q, ⟨a, b, rfl, _⟩, _⟩
    exact h ⟨"parent".toList, q⟩ (by simp) rfl
  obtain ⟨d, hd'⟩ := (C77_opens (γ := γ) id ref ls hd).1 (fun x => absurd x hno)
  obtain ⟨g1, -, -, -, -, g6, -⟩ := C77_links id ref ls hd d hd'
  refine ⟨d, hd', g6 hno, ?_⟩
  rw [(C77_parent_whole net log d (g6 hno)).2, g1]

/-- C77. With a `collection` link that names a passage, the collection of the document is this reference: it is not
requested, and `depth` raises `AttributeError`. -/
theorem C77_fails_collection_link {γ : Type} (net : DtsNet γ) (log : List DocReq) (id : Str) (ref : DtsRefArg) (ls : List DocLink)
    (hd : Dictionaries ls) (d : DtsDoc γ) (ho : openDocument id ref ls = .ok d) (q : List (Str × Str)) (r : DtsRef)
    (hl : LastLink ls "collection".toList q) (hp : PointsTo q r) :
    d.collection net log = (log, d, .ok (.ref r)) ∧ d.getDepth net log = (log, d, .error .attributeError) := by
  obtain ⟨-, -, -, -, -, -, g, -⟩ := C77_links id ref ls hd d ho
  have hc := (g r).mpr ⟨q, hl, hp⟩
  have hn : d.depth = none := by
    rw [openDocument] at ho
    repeat' split at ho
    all_goals first | (cases ho; done) | (cases ho; rfl)
  constructor
  · simp only [DtsDoc.collection, hc]
  · simp only [DtsDoc.getDepth, hn, DtsDoc.collection, hc]

/-! A text of three passages, the second of them a range. -/

private def exRefs : List DtsRef := [⟨"1".toList, none, none⟩, ⟨"2".toList, some "3".toList, none⟩, ⟨"4".toList, none, none⟩]

private def exToFirst (rel : Str) : DocLink := ⟨rel, [("id".toList, "urn:x".toList), ("ref".toList, "1".toList)]⟩
private def exToSecond (rel : Str) : DocLink := ⟨rel, [("id".toList, "urn:x".toList), ("start".toList, "2".toList), ("end".toList, "3".toList)]⟩
private def exToThird (rel : Str) : DocLink := ⟨rel, [("id".toList, "urn:x".toList), ("ref".toList, "4".toList)]⟩

private def exLinks (ps : List (Str × List Str)) : List DocLink :=
  if ps = [("id".toList, ["urn:x".toList]), ("ref".toList, ["1".toList])] then [exToThird "next".toList, exToSecond "next".toList, exToSecond "up".toList]
  else if ps = [("id".toList, ["urn:x".toList]), ("start".toList, ["2".toList]), ("end".toList, ["3".toList])] then
    [exToFirst "prev".toList, exToThird "next".toList, exToFirst "parent".toList, exToThird "up".toList, exToThird "last".toList]
  else if ps = [("id".toList, ["urn:x".toList]), ("ref".toList, ["4".toList])] then [exToSecond "prev".toList, exToFirst "collection".toList]
  else []

private def exMember (ref : Str) : NavMember := ⟨some ref, none, none, none⟩

private def exNet : DtsNet Nat where
  documents := fun ps => .ok (exLinks ps)
  collections := fun ps => if ps = [("id".toList, ["urn:x".toList])] then .ok 2 else .error .unknownCollection
  navigation := fun ps =>
    if ("ref".toList, ["1".toList]) ∈ ps then .ok (some ⟨some 2, none, [exMember "1.1".toList, exMember "1.2".toList], none⟩)
    else if ("ref".toList, ["4".toList]) ∈ ps then .ok (some ⟨some 2, none, [exMember "4.1".toList], none⟩)
    else .ok (some ⟨some 2, none, [], none⟩)
  docQuery := []
  colQuery := []
  navQuery := []
  depthOf := fun n => n
  turns := 3

private theorem lastLink_one (rel rel' : Str) (q : List (Str × Str)) (a b : List DocLink) (h : rel' = rel) (hb : ∀ l ∈ b, l.rel ≠ rel) :
    LastLink (a ++ ⟨rel', q⟩ :: b) rel q := ⟨a, b, by rw [h], hb⟩

private theorem exNoLink {ls : List DocLink} {rel : Str} (h : ∀ l ∈ ls, l.rel ≠ rel) : LinksTo ls rel none := by
  rintro ⟨q, r, ⟨a, b, rfl, _⟩, _⟩
  exact h ⟨rel, q⟩ (by simp) rfl

private theorem exOpenable {ls : List DocLink} (h : ∀ l ∈ ls, l.rel ≠ "parent".toList) : Openable ls := by
  rintro ⟨q, ⟨a, b, rfl, _⟩, _⟩
  exact absurd rfl (h ⟨"parent".toList, q⟩ (by simp))

private theorem exServes : ServesUnits exNet "urn:x".toList exRefs := by
  constructor
  intro i r hr
  match i, hr with
  | 0, hr =>
    cases hr
    refine ⟨[exToThird "next".toList, exToSecond "next".toList, exToSecond "up".toList], by decide +kernel, by unfold Dictionaries; decide +kernel,
      exOpenable (by decide +kernel), ?_, exNoLink (by decide +kernel)⟩
    exact ⟨_, lastLink_one _ _ _ [_] [_] rfl (by decide +kernel), rfl, Or.inr ⟨by
      intro v hv
      simp only [List.mem_cons, Prod.mk.injEq, List.not_mem_nil, or_false] at hv
      exact absurd hv (by rintro (⟨h, _⟩ | ⟨h, _⟩ | ⟨h, _⟩) <;> exact absurd h (by decide +kernel)), by decide +kernel, by decide +kernel, _, rfl, by decide +kernel, by decide +kernel⟩⟩
  | 1, hr =>
    cases hr
    refine ⟨[exToFirst "prev".toList, exToThird "next".toList, exToFirst "parent".toList, exToThird "up".toList, exToThird "last".toList],
      by decide +kernel, by unfold Dictionaries; decide +kernel,
      fun _ => ⟨⟨_, lastLink_one _ _ _ [_, _, _] [_] rfl (by decide +kernel)⟩, ⟨_, lastLink_one _ _ _ [_, _, _, _] [] rfl (by decide +kernel)⟩⟩, ?_, ?_⟩
    · exact ⟨_, lastLink_one _ _ _ [_] [_, _, _] rfl (by decide +kernel), rfl, Or.inl ⟨by decide +kernel, by decide +kernel, rfl⟩⟩
    · exact ⟨_, lastLink_one _ _ _ [] [_, _, _, _] rfl (by decide +kernel), rfl, Or.inl ⟨by decide +kernel, by decide +kernel, rfl⟩⟩
  | 2, hr =>
    cases hr
    refine ⟨[exToSecond "prev".toList, exToFirst "collection".toList], by decide +kernel, by unfold Dictionaries; decide +kernel,
      exOpenable (by decide +kernel), exNoLink (by decide +kernel), ?_⟩
    exact ⟨_, lastLink_one _ _ _ [] [_] rfl (by decide +kernel), rfl, Or.inr ⟨by
      intro v hv
      simp only [List.mem_cons, Prod.mk.injEq, List.not_mem_nil, or_false] at hv
      exact absurd hv (by rintro (⟨h, _⟩ | ⟨h, _⟩ | ⟨h, _⟩) <;> exact absurd h (by decide +kernel)), by decide +kernel, by decide +kernel, _, rfl, by decide +kernel, by decide +kernel⟩⟩
  | (n + 3), hr => exact absurd hr (by simp [exRefs])

/-- The endpoint of the example meets the hypotheses of `C77_walk`; two moves to the right and one to the left lead from the
first passage to the second, with three requests after the first one. -/
example : ∃ d, resolveDoc exNet [] "urn:x".toList (.ref (.str "1".toList) .none) = ([docRequest exNet "urn:x".toList ⟨"1".toList, none, none⟩], .ok d) ∧
    ∃ d' r', docNavigate exNet [docRequest exNet "urn:x".toList ⟨"1".toList, none, none⟩] d [.next, .next, .prev] =
      ([docRequest exNet "urn:x".toList ⟨"1".toList, none, none⟩] ++
        [docRequest exNet "urn:x".toList ⟨"2".toList, some "3".toList, none⟩, docRequest exNet "urn:x".toList ⟨"4".toList, none, none⟩,
         docRequest exNet "urn:x".toList ⟨"2".toList, some "3".toList, none⟩], .ok (some d')) ∧ exRefs[1]? = some r' ∧ d'.ref = r'.arg ∧ d'.id = "urn:x".toList :=
  C77_walk exNet "urn:x".toList exRefs exServes [] 0 _ rfl [.next, .next, .prev]

/-- Leaving the text. -/
example : ∃ d, resolveDoc exNet [] "urn:x".toList (.ref (.str "1".toList) .none) = ([docRequest exNet "urn:x".toList ⟨"1".toList, none, none⟩], .ok d) ∧
    (docNavigate exNet [docRequest exNet "urn:x".toList ⟨"1".toList, none, none⟩] d [.next, .prev, .prev]).2 = .ok none :=
  C77_walk exNet "urn:x".toList exRefs exServes [] 0 _ rfl [.next, .prev, .prev]

/-- In the example, reading the depth twice, going on and reading it again requests the collection once. -/
example : ∃ d, (resolveDoc exNet [] "urn:x".toList (.ref (.str "1".toList) .none)).2 = .ok d ∧
    (docHistory [] d [(exNet, .depth), (exNet, .depth), (exNet, .next), (exNet, .depth), (exNet, .parent), (exNet, .collection)]).1.countP OfCollections = 1 :=
  ⟨_, rfl, by decide +kernel⟩

/-- The parent of the second passage is the one that `up` names. -/
example : ∃ d, (resolveDoc exNet [] "urn:x".toList (.ref (.str "2".toList) (.str "3".toList))).2 = .ok d ∧ d.parent = some ⟨"4".toList, none, none⟩ :=
  ⟨_, rfl, by decide +kernel⟩

/-- The reply of the first passage has an `up` link and no `parent` link, as `C77_fails_up` assumes. -/
example : Dictionaries (exLinks [("id".toList, ["urn:x".toList]), ("ref".toList, ["1".toList])]) ∧
    ∀ l ∈ exLinks [("id".toList, ["urn:x".toList]), ("ref".toList, ["1".toList])], l.rel ≠ "parent".toList := by
  unfold Dictionaries; decide +kernel

/-- The third passage has a collection link that names a passage. -/
example : ∃ d, (resolveDoc exNet [] "urn:x".toList (.ref (.str "4".toList) .none)).2 = .ok d ∧
    (d.getDepth exNet []).2.2 = .error .attributeError := ⟨_, rfl, by decide +kernel⟩

/-- A `parent` link without an `up` link. -/
example : ¬ Openable [exToFirst "parent".toList] := by
  intro h
  obtain ⟨⟨q, a, b, e, _⟩, _⟩ := h ⟨_, lastLink_one _ _ _ [] [] rfl (by simp), by decide⟩
  cases a with
  | nil => simp only [List.nil_append, List.cons.injEq, exToFirst, DocLink.mk.injEq] at e; exact absurd e.1.1 (by decide)
  | cons x a => simp at e

/-- C77. The links of the parent as the protocol has them, an `up` link to the passage around, are lost, and a `parent` link
alone makes the document unreadable. -/
theorem C77_fails_parent :
    (∃ d : DtsDoc Nat, openDocument "urn:x".toList .none [exToFirst "up".toList] = .ok d ∧ d.parent = none) ∧
    openDocument (γ := Nat) "urn:x".toList .none [exToFirst "parent".toList] = .error .attributeError := by
  exact ⟨⟨_, rfl, rfl⟩, rfl⟩

/-! ### The children of a document -/

/-- The question that a document asks of the navigation route: the references one level below its passage, one by one. -/
private abbrev kidsQuery {γ : Type} (d : DtsDoc γ) : NavQuery := ⟨d.id, .int 1, d.ref, .none, .int 1⟩

/-- C78. With an endpoint whose pages list the references `refs` below the passage of a document, and that are not one only,
these are its `childIds`, in order; the first and the last of them are its `firstId` and `lastId`. The pages are requested
at the first reading, and no later reading makes a request, whatever the endpoint then answers. -/
theorem C78_childIds {γ : Type} (net net' : DtsNet γ) (log log' : List DocReq) (d : DtsDoc γ) (hk : d.kids = none)
    (chain : List (Option Str × NavPage)) (refs : List DtsRef)
    (hc : NavChain (fun p => net.navigation (getNavigation net.navQuery d.id (.int 1) d.ref (.int 1) .none .none (.ofOption p))) none chain)
    (hr : ChainReads chain refs) (hl : refs.length ≠ 1) (ht : chain.length ≤ net.turns) :
    ∃ d', d.childIds net log = some (log ++ chain.map (fun c => .navigation (getNavigation net.navQuery d.id (.int 1) d.ref (.int 1) .none .none (.ofOption c.1))), d', .ok (refs.map .ref)) ∧
      d'.childIds net' log' = some (log', d', .ok (refs.map .ref)) ∧
      d'.firstId net' log' = some (log', d', .ok ((refs.head?).map .ref)) ∧
      d'.lastId net' log' = some (log', d', .ok ((refs.getLast?).map .ref)) ∧
      d'.id = d.id ∧ d'.ref = d.ref ∧ d'.next = d.next ∧ d'.prev = d.prev ∧ d'.parent = d.parent ∧ d'.coll = d.coll := by
  obtain ⟨set, last, h1, -, -, -, h2⟩ := C59_chain net.navigation net.navQuery (kidsQuery d) chain refs hc hr net.turns ht
  refine ⟨{ d with kids := some set.items }, ?_, ?_, ?_, ?_, rfl, rfl, rfl, rfl, rfl, rfl⟩
  · simp only [DtsDoc.childIds, hk, DtsDoc.reffs]
    have h1' : dtsReffs net.navigation net.navQuery ⟨d.id, .int 1, d.ref, .none, .int 1⟩ net.turns = _ := h1
    simp only [h1', h2 hl, List.map_map]
    rfl
  · simp only [DtsDoc.childIds, h2 hl]
  · simp only [DtsDoc.firstId, DtsDoc.childIds, h2 hl, List.head?_map]
  · simp only [DtsDoc.lastId, DtsDoc.childIds, h2 hl, List.getLast?_map]

private theorem nodes_of {γ : Type} (net : DtsNet γ) (d : DtsDoc γ) (items : List RefItem) (log : List DocReq)
    (h : ∀ i ∈ items, ∃ ls, net.documents (getDocument net.docQuery d.id i.arg) = .ok ls ∧ Dictionaries ls ∧ Openable ls) :
    ∃ ds, d.nodes net log items = (log ++ items.map (fun i => .document (getDocument net.docQuery d.id i.arg)), .ok ds) ∧
      ds.map (fun x => (x.id, x.ref, x.coll)) = items.map fun i => (d.id, i.arg, d.coll) := by
  induction items generalizing log with
  | nil => exact ⟨[], by simp [DtsDoc.nodes], rfl⟩
  | cons i items ih =>
    obtain ⟨ls, h1, h2, h3⟩ := h i List.mem_cons_self
    obtain ⟨o, ho⟩ := (C77_opens (γ := γ) d.id i.arg ls h2).1 h3
    obtain ⟨g1, g2, -⟩ := C77_links d.id i.arg ls h2 o ho
    have hn : d.node net log i.arg = (log ++ [.document (getDocument net.docQuery d.id i.arg)], .ok { o with coll := d.coll }) := by
      simp only [DtsDoc.node, resolveDoc, h1, ho]
    obtain ⟨ds, h4, h5⟩ := ih (log ++ [.document (getDocument net.docQuery d.id i.arg)]) (fun j hj => h j (List.mem_cons_of_mem _ hj))
    refine ⟨{ o with coll := d.coll } :: ds, ?_, ?_⟩
    · simp only [DtsDoc.nodes, hn, h4]
      simp
    · simp only [List.map_cons, h5, g1, g2]

/-- C78. Reading `children` to its end gives one document of the same text for each of the references below the passage, in
order, and requests one document for each; they have the collection that the document has. -/
theorem C78_children {γ : Type} (net : DtsNet γ) (log : List DocReq) (d : DtsDoc γ) (refs : List DtsRef) (hk : d.kids = some (refs.map .ref))
    (h : ∀ r ∈ refs, ∃ ls, net.documents (getDocument net.docQuery d.id r.arg) = .ok ls ∧ Dictionaries ls ∧ Openable ls) :
    ∃ ds, d.children net log = some (log ++ refs.map (docRequest net d.id), d, .ok ds) ∧
      ds.map (fun x => (x.id, x.ref, x.coll)) = refs.map fun r => (d.id, r.arg, d.coll) := by
  obtain ⟨ds, h1, h2⟩ := nodes_of net d (refs.map .ref) log (by
    intro i hi
    obtain ⟨r, hr, rfl⟩ := List.mem_map.mp hi
    exact h r hr)
  refine ⟨ds, ?_, ?_⟩
  · simp only [DtsDoc.children, DtsDoc.childIds, hk, h1, List.map_map]
    rfl
  · rw [h2, List.map_map]
    rfl

/-- C78. `first` and `last` are the documents of the first and of the last of these references. -/
theorem C78_first_last {γ : Type} (net : DtsNet γ) (log : List DocReq) (d : DtsDoc γ) (refs : List DtsRef) (hk : d.kids = some (refs.map .ref))
    (a b : DtsRef) (ha : refs.head? = some a) (hb : refs.getLast? = some b) (da db : DtsDoc γ)
    (h1 : (d.node net log a.arg).2 = .ok da) (h2 : (d.node net log b.arg).2 = .ok db) :
    d.goFirst net log = some (log ++ [docRequest net d.id a], d, .ok (some da)) ∧
    d.goLast net log = some (log ++ [docRequest net d.id b], d, .ok (some db)) := by
  have e1 : d.node net log a.arg = (log ++ [docRequest net d.id a], .ok da) := Prod.ext (node_log net log d a.arg) h1
  have e2 : d.node net log b.arg = (log ++ [docRequest net d.id b], .ok db) := Prod.ext (node_log net log d b.arg) h2
  constructor
  · simp only [DtsDoc.goFirst, DtsDoc.firstId, DtsDoc.childIds, hk, List.head?_map, ha, Option.map_some, DtsDoc.child, RefItem.arg, e1]
  · simp only [DtsDoc.goLast, DtsDoc.lastId, DtsDoc.childIds, hk, List.getLast?_map, hb, Option.map_some, DtsDoc.child, RefItem.arg, e2]

/-- C78. Without references below it, a document has no first and no last child and reading them requests nothing more. -/
theorem C78_leaf {γ : Type} (net : DtsNet γ) (log : List DocReq) (d : DtsDoc γ) (hk : d.kids = some []) :
    d.goFirst net log = some (log, d, .ok none) ∧ d.goLast net log = some (log, d, .ok none) ∧ d.children net log = some (log, d, .ok []) := by
  refine ⟨?_, ?_, ?_⟩
  · simp only [DtsDoc.goFirst, DtsDoc.firstId, DtsDoc.childIds, hk, List.head?_nil, DtsDoc.child]
  · simp only [DtsDoc.goLast, DtsDoc.lastId, DtsDoc.childIds, hk, List.getLast?_nil, DtsDoc.child]
  · simp only [DtsDoc.children, DtsDoc.childIds, hk, DtsDoc.nodes]

/-- C78. Where one passage only is listed below a document, `last` is `None`, and `children` requests the passage and then
the whole text. -/
theorem C78_fails_single {γ : Type} (net : DtsNet γ) (log : List DocReq) (d : DtsDoc γ) (hk : d.kids = none)
    (chain : List (Option Str × NavPage)) (r : DtsRef) (hstop : r.stop = none)
    (hc : NavChain (fun p => net.navigation (getNavigation net.navQuery d.id (.int 1) d.ref (.int 1) .none .none (.ofOption p))) none chain)
    (hr : ChainReads chain [r]) (ht : chain.length ≤ net.turns)
    (ls ls' : List DocLink) (h1 : net.documents (getDocument net.docQuery d.id r.arg) = .ok ls) (g1 : Dictionaries ls) (g1' : Openable ls)
    (h2 : net.documents (getDocument net.docQuery d.id .none) = .ok ls') (g2 : Dictionaries ls') (g2' : Openable ls') (hs : r.start ≠ []) :
    ∃ log' d', d.goLast net log = some (log', d', .ok none) ∧
      ∃ a b, d'.children net log' = some (log' ++ [docRequest net d.id r, .document (getDocument net.docQuery d.id .none)], d', .ok [a, b]) ∧
        b.ref = .none ∧ b.id = d.id := by
  obtain ⟨clog, set, e1, e2⟩ := C59_single net.navigation net.navQuery (kidsQuery d) chain r hc hr net.turns ht
  have e1' : dtsReffs net.navigation net.navQuery ⟨d.id, .int 1, d.ref, .none, .int 1⟩ net.turns = _ := e1
  have ek : d.childIds net log = some (log ++ clog.map .navigation, { d with kids := some set.items }, .ok set.items) := by
    simp only [DtsDoc.childIds, hk, DtsDoc.reffs, e1']
  have ea : getDocument net.docQuery d.id (RefItem.part (some r.start)).arg = getDocument net.docQuery d.id r.arg := by
    cases hss : r.start with
    | nil => exact absurd hss hs
    | cons c s => simp [getDocument, RefItem.arg, DtsRef.arg, hstop, hss, refParameters, Val.ofOption, Val.truthy]
  refine ⟨log ++ clog.map .navigation, { d with kids := some set.items }, ?_, ?_⟩
  · simp only [DtsDoc.goLast, DtsDoc.lastId, ek, e2, hstop]
    rfl
  · obtain ⟨ds, k1, k2⟩ := nodes_of net { d with kids := some set.items } set.items (log ++ clog.map .navigation) (by
      intro i hi
      rw [e2] at hi
      simp only [List.mem_cons, List.not_mem_nil, or_false] at hi
      rcases hi with rfl | rfl
      · exact ⟨ls, by rw [ea]; exact h1, g1, g1'⟩
      · exact ⟨ls', by rw [hstop]; exact h2, g2, g2'⟩)
    have e2' : set.items = [.part (some r.start), .part none] := by rw [e2, hstop]
    rw [e2'] at k1 k2
    have h2 : ds.length = 2 := by simpa only [List.length_map, List.length_cons, List.length_nil] using congrArg List.length k2
    obtain ⟨a, ds, rfl⟩ := List.exists_cons_of_length_eq_add_one h2
    obtain ⟨b, ds, rfl⟩ := List.exists_cons_of_length_eq_add_one (Nat.succ.inj h2)
    obtain rfl := List.eq_nil_of_length_eq_zero (Nat.succ.inj (Nat.succ.inj h2))
    refine ⟨a, b, ?_, ?_, ?_⟩
    · simp only [DtsDoc.children, DtsDoc.childIds, e2', k1, docRequest]
      rw [List.map_cons, List.map_cons, List.map_nil, ea, show (RefItem.part none).arg = .none from rfl]
    · simp only [List.map_cons, List.map_nil, List.cons.injEq, Prod.mk.injEq] at k2
      exact k2.2.1.2.1
    · simp only [List.map_cons, List.map_nil, List.cons.injEq, Prod.mk.injEq] at k2
      exact k2.2.1.1

private theorem loop_requests (serve : List (Str × List Str) → Except PyErr (Option NavPage)) (query : List (Str × List Str)) (q : NavQuery) :
    ∀ (fuel : Nat) (page : Option Str) (refs : List DtsRef) (log : List (List (Str × List Str))) (out : Except PyErr (List DtsRef × Option Int × Option Str)),
    reffsLoop serve query q fuel page refs = some (log, out) → ∀ ps ∈ log, ∃ p, ps = navRequest query q p := by
  intro fuel
  induction fuel with
  | zero => intro page refs log out h; cases h
  | succ n ih =>
    intro page refs log out h ps hp
    rw [reffsLoop] at h
    split at h
    · cases h; simp only [List.mem_singleton] at hp; exact ⟨page, hp⟩
    · cases h; simp only [List.mem_singleton] at hp; exact ⟨page, hp⟩
    · split at h
      · cases h; simp only [List.mem_singleton] at hp; exact ⟨page, hp⟩
      · split at h
        · cases h; simp only [List.mem_singleton] at hp; exact ⟨page, hp⟩
        · split at h
          · cases h; simp only [List.mem_singleton] at hp; exact ⟨page, hp⟩
          · split at h
            · cases h
            · rename_i log' out' hrec
              cases h
              rcases List.mem_cons.mp hp with rfl | hp
              · exact ⟨page, rfl⟩
              · exact ih _ _ _ _ hrec ps hp

/-- C78. Whatever the level that `getReffs` is asked for, the references of the first level below the passage are
requested. -/
theorem C78_fails_level {γ : Type} (net : DtsNet γ) (hq : (net.navQuery.map (·.1)).Nodup) (hl : ∀ ws, ("level".toList, ws) ∉ net.navQuery)
    (log log' : List DocReq) (d : DtsDoc γ) (level : Val) (sub : Option DtsRef) (out : Except PyErr DtsRefSet)
    (h : d.reffs net log level sub = some (log', out)) :
    ∃ reqs : List (List (Str × List Str)), log' = log ++ reqs.map .navigation ∧ ∀ ps ∈ reqs, ("level".toList, ["1".toList]) ∈ ps := by
  simp only [DtsDoc.reffs] at h
  split at h
  · cases h
  · rename_i nlog nout hn
    cases h
    refine ⟨nlog, rfl, fun ps hp => ?_⟩
    have hex : ∃ o, reffsLoop net.navigation net.navQuery ⟨d.id, .int 1, (match sub with | some r => r.arg | none => d.ref), .none, .int 1⟩ net.turns none [] = some (nlog, o) := by
      rw [dtsReffs] at hn
      split at hn
      · cases hn
      · cases hn; rename_i hh; exact ⟨_, hh⟩
      · cases hn; rename_i hh; exact ⟨_, hh⟩
    obtain ⟨o, ho⟩ := hex
    obtain ⟨p, rfl⟩ := loop_requests _ _ _ _ _ _ _ _ ho ps hp
    rw [C59_request _ hq]
    refine Or.inr ⟨hl, Or.inr (Or.inr ⟨.int 1, ?_, by decide +kernel⟩)⟩
    exact ⟨by simp, by simp⟩

/-- The first passage of the example has two passages below it, as `C78_childIds` assumes. -/
example : ∃ d chain, (resolveDoc exNet [] "urn:x".toList (.ref (.str "1".toList) .none)).2 = .ok d ∧ d.kids = none ∧
    NavChain (fun p => exNet.navigation (getNavigation exNet.navQuery d.id (.int 1) d.ref (.int 1) .none .none (.ofOption p))) none chain ∧
    ChainReads chain [⟨"1.1".toList, none, none⟩, ⟨"1.2".toList, none, none⟩] ∧ chain.length ≤ exNet.turns :=
  ⟨_, [(none, ⟨some 2, none, [exMember "1.1".toList, exMember "1.2".toList], none⟩)], rfl, rfl, .last (by decide +kernel) rfl,
    .cons (rs := [_, _]) (more := []) (.cons ⟨Or.inl ⟨rfl, rfl⟩, rfl⟩ (.cons ⟨Or.inl ⟨rfl, rfl⟩, rfl⟩ .nil)) .nil, by decide⟩

/-- Its children. -/
example : ∃ d d' ds log, (resolveDoc exNet [] "urn:x".toList (.ref (.str "1".toList) .none)).2 = .ok d ∧ d.children exNet [] = some (log, d', .ok ds) ∧
    ds.map (fun x => x.ref) = [.ref (.str "1.1".toList) .none, .ref (.str "1.2".toList) .none] ∧ log.length = 3 := by
  refine ⟨_, _, _, _, rfl, rfl, ?_, ?_⟩ <;> decide +kernel

/-- The third passage has one passage below it, as `C78_fails_single` assumes. -/
example : ∃ d chain, (resolveDoc exNet [] "urn:x".toList (.ref (.str "4".toList) .none)).2 = .ok d ∧ d.kids = none ∧
    NavChain (fun p => exNet.navigation (getNavigation exNet.navQuery d.id (.int 1) d.ref (.int 1) .none .none (.ofOption p))) none chain ∧
    ChainReads chain [⟨"4.1".toList, none, none⟩] ∧ chain.length ≤ exNet.turns ∧
    exNet.documents (getDocument exNet.docQuery d.id (.ref (.str "4.1".toList) .none)) = .ok [] ∧ exNet.documents (getDocument exNet.docQuery d.id .none) = .ok [] :=
  ⟨_, [(none, ⟨some 2, none, [exMember "4.1".toList], none⟩)], rfl, rfl, .last (by decide +kernel) rfl,
    .cons (rs := [_]) (more := []) (.cons ⟨Or.inl ⟨rfl, rfl⟩, rfl⟩ .nil) .nil, by decide, by decide +kernel, by decide +kernel⟩

/-- A listing at level 3 requests level 1, as in `C78_fails_level`. -/
example : ∃ d, (resolveDoc exNet [] "urn:x".toList (.ref (.str "1".toList) .none)).2 = .ok d ∧
    (d.reffs exNet [] (.int 3) none).isSome = true := ⟨_, rfl, by decide +kernel⟩

end Verif.Props
