import Verif.Lemmas.DtsJson
import Verif.Lemmas.IntStr
import Verif.Props.Metadata
/-!
Lemmas for C75: what each step of the parser of DTS documents puts into the graph, and when it succeeds.
-/
namespace Verif.Lemmas
open Verif.Py Verif.Model Verif.Spec Verif.Props

theorem mem_setValue {g : Graph} {t u : Triple} : t ∈ g.setValue u ↔ (t ∈ g ∧ ¬ (t.s = u.s ∧ t.p = u.p)) ∨ t = u := by
  rw [Graph.setValue, mem_insert, mem_removeAll]
  simp [eq_comm (a := u.s), eq_comm (a := u.p)]

theorem untagged_iff {v : ExpValue} {o : Term} : untagged v = some o ↔ ∃ a, v.get = .ok a ∧ o = a.term := by
  cases v with
  | node i => simp [untagged, ExpValue.get]
  | value a l =>
    cases a <;> simp only [untagged, ExpValue.get, Atom.term, intStr_toString] <;> simp [eq_comm] <;> rfl

theorem meant_iff {v : ExpValue} {o : Term} : meant v = some o ↔ dictTerm v = .ok o := by
  cases v with
  | node i => simp [meant, untagged, dictTerm]
  | value a l => cases a <;> simp only [meant, untagged, dictTerm, Atom.term, intStr_toString] <;> simp <;> rfl

theorem addValues_ok {node : Term} {ps : List Term} : ∀ {vs : List ExpValue} {g g' : Graph}, addValues node ps g vs = .ok g' →
    ∀ t, t ∈ g' ↔ t ∈ g ∨ (t.s = node ∧ t.p ∈ ps ∧ ∃ v ∈ vs, untagged v = some t.o) := by
  intro vs
  induction vs with
  | nil => intro g g' h t; simp only [addValues, Except.ok.injEq] at h; subst h; simp
  | cons v vs ih =>
    intro g g' h t
    rw [addValues] at h
    split at h
    · cases h
    · rename_i a ha
      have fold : ∀ (l : List Term) (g : Graph), t ∈ l.foldl (fun g p => Graph.insert g ⟨node, p, a.term⟩) g ↔
          t ∈ g ∨ (t.s = node ∧ t.p ∈ l ∧ t.o = a.term) := by
        intro l
        induction l with
        | nil => intro g; simp
        | cons p l ihl =>
          intro g
          rw [List.foldl_cons, ihl, mem_insert]
          constructor
          · rintro ((h1 | rfl) | ⟨a1, a2, a3⟩)
            · exact .inl h1
            · exact .inr ⟨rfl, by simp, rfl⟩
            · exact .inr ⟨a1, by simp [a2], a3⟩
          · rintro (h1 | ⟨a1, a2, a3⟩)
            · exact .inl (.inl h1)
            · rw [List.mem_cons] at a2
              rcases a2 with a2 | a2
              · refine .inl (.inr ?_)
                cases t; simp_all
              · exact .inr ⟨a1, a2, a3⟩
      rw [ih h, fold]
      constructor
      · rintro ((h1 | ⟨a1, a2, a3⟩) | ⟨a1, a2, w, hw, hu⟩)
        · exact .inl h1
        · exact .inr ⟨a1, a2, v, by simp, untagged_iff.2 ⟨a, ha, a3⟩⟩
        · exact .inr ⟨a1, a2, w, by simp [hw], hu⟩
      · rintro (h1 | ⟨a1, a2, w, hw, hu⟩)
        · exact .inl (.inl h1)
        · rw [List.mem_cons] at hw
          rcases hw with rfl | hw
          · obtain ⟨b, hb, he⟩ := untagged_iff.1 hu
            rw [ha] at hb
            cases hb
            exact .inl (.inr ⟨a1, a2, he⟩)
          · exact .inr ⟨a1, a2, w, hw, hu⟩

theorem addValues_some {node : Term} {ps : List Term} : ∀ {vs : List ExpValue} {g : Graph},
    (∃ g', addValues node ps g vs = .ok g') ↔ AllValues vs := by
  intro vs
  induction vs with
  | nil => intro g; simp [addValues, AllValues]
  | cons v vs ih =>
    intro g
    rw [addValues]
    cases v with
    | node i =>
      simp only [ExpValue.get]
      constructor
      · rintro ⟨_, h⟩; cases h
      · intro h; obtain ⟨a, l, h⟩ := h (.node i) (by simp); cases h
    | value a l =>
      simp only [ExpValue.get]
      rw [ih]
      simp [AllValues]

theorem addDicts_ok {node p : Term} : ∀ {vs : List ExpValue} {g g' : Graph}, addDicts node p g vs = .ok g' →
    ∀ t, t ∈ g' ↔ t ∈ g ∨ (t.s = node ∧ t.p = p ∧ ∃ v ∈ vs, meant v = some t.o) := by
  intro vs
  induction vs with
  | nil => intro g g' h t; simp only [addDicts, Except.ok.injEq] at h; subst h; simp
  | cons v vs ih =>
    intro g g' h t
    rw [addDicts] at h
    split at h
    · cases h
    · rename_i o ho
      rw [ih h, mem_insert]
      constructor
      · rintro ((h1 | rfl) | ⟨a1, a2, w, hw, hu⟩)
        · exact .inl h1
        · exact .inr ⟨rfl, rfl, v, by simp, meant_iff.2 ho⟩
        · exact .inr ⟨a1, a2, w, by simp [hw], hu⟩
      · rintro (h1 | ⟨a1, a2, w, hw, hu⟩)
        · exact .inl (.inl h1)
        · rw [List.mem_cons] at hw
          rcases hw with rfl | hw
          · have := meant_iff.1 hu
            rw [ho] at this
            cases t
            simp only at a1 a2 this
            cases this; subst a1 a2
            exact .inl (.inr rfl)
          · exact .inr ⟨a1, a2, w, hw, hu⟩

theorem addDicts_some {node p : Term} : ∀ {vs : List ExpValue} {g : Graph},
    (∃ g', addDicts node p g vs = .ok g') ↔ AllValues vs := by
  intro vs
  induction vs with
  | nil => intro g; simp [addDicts, AllValues]
  | cons v vs ih =>
    intro g
    rw [addDicts]
    cases v with
    | node i =>
      simp only [dictTerm]
      constructor
      · rintro ⟨_, h⟩; cases h
      · intro h; obtain ⟨a, l, h⟩ := h (.node i) (by simp); cases h
    | value a l =>
      cases a <;> simp only [dictTerm] <;> rw [ih] <;> simp [AllValues]

theorem addTerms_ok {node : Term} : ∀ {c : List (Str × List ExpValue)} {g g' : Graph}, addTerms node g c = .ok g' →
    ∀ t, t ∈ g' ↔ t ∈ g ∨ (t.s = node ∧ ∃ k vs v, (k, vs) ∈ c ∧ v ∈ vs ∧ t.p = .uri k ∧ meant v = some t.o) := by
  intro c
  induction c with
  | nil => intro g g' h t; simp only [addTerms, Except.ok.injEq] at h; subst h; simp
  | cons e c ih =>
    intro g g' h t
    obtain ⟨k, vs⟩ := e
    rw [addTerms] at h
    split at h
    · cases h
    · rename_i g1 h1
      rw [ih h, addDicts_ok h1]
      constructor
      · rintro ((h1 | ⟨a1, a2, w, hw, hu⟩) | ⟨a1, k', vs', w, hm, hw, hp, hu⟩)
        · exact .inl h1
        · exact .inr ⟨a1, k, vs, w, by simp, hw, a2, hu⟩
        · exact .inr ⟨a1, k', vs', w, by simp [hm], hw, hp, hu⟩
      · rintro (h1 | ⟨a1, k', vs', w, hm, hw, hp, hu⟩)
        · exact .inl (.inl h1)
        · rw [List.mem_cons] at hm
          rcases hm with hm | hm
          · cases hm
            exact .inl (.inr ⟨a1, hp, w, hw, hu⟩)
          · exact .inr ⟨a1, k', vs', w, hm, hw, hp, hu⟩

theorem addTerms_some {node : Term} : ∀ {c : List (Str × List ExpValue)} {g : Graph},
    (∃ g', addTerms node g c = .ok g') ↔ ∀ e ∈ c, AllValues e.2 := by
  intro c
  induction c with
  | nil => intro g; simp [addTerms]
  | cons e c ih =>
    intro g
    obtain ⟨k, vs⟩ := e
    rw [addTerms]
    constructor
    · rintro ⟨g', h⟩
      split at h
      · cases h
      · rename_i g1 h1
        have h2 := ih.1 ⟨g', h⟩
        have h3 := addDicts_some.1 ⟨g1, h1⟩
        intro e he
        rw [List.mem_cons] at he
        rcases he with rfl | he
        · exact h3
        · exact h2 e he
    · intro h
      obtain ⟨g1, h1⟩ := (addDicts_some (node := node) (p := .uri k) (g := g)).2 (h (k, vs) (by simp))
      rw [h1]
      exact ih.2 fun e he => h e (by simp [he])

theorem addContainer_ok {node : Term} {g g' : Graph} {part : Option (List (List (Str × List ExpValue)))}
    (h : addContainer node g part = .ok g') (t : Triple) : t ∈ g' ↔ t ∈ g ∨ (t.s = node ∧ inPart part t.p t.o) := by
  match part, h with
  | none, h => simp only [addContainer, Except.ok.injEq] at h; subst h; simp [inPart]
  | some (c :: r), h =>
    rw [addContainer] at h
    rw [addTerms_ok h]
    simp [inPart]

theorem addContainer_some {node : Term} {g : Graph} {part : Option (List (List (Str × List ExpValue)))} :
    (∃ g', addContainer node g part = .ok g') ↔ PartOk part := by
  match part with
  | none => simp [addContainer, PartOk]
  | some [] => simp [addContainer, PartOk]
  | some (c :: r) =>
    rw [addContainer, addTerms_some]
    simp [PartOk]

/-- The type that a document leaves, or the one before. -/
theorem setTypes_mem {node : Term} : ∀ {types : List Str} {g : Graph} {t : Triple},
    t ∈ setTypes node g types ↔ (types = [] ∧ t ∈ g) ∨ (types ≠ [] ∧ t ∈ g ∧ ¬ (t.s = node ∧ t.p = pType)) ∨
      ∃ y, types.getLast? = some y ∧ t = ⟨node, pType, .uri y⟩ := by
  intro types
  induction types with
  | nil => intro g t; simp [setTypes]
  | cons x types ih =>
    intro g t
    have e : setTypes node g (x :: types) = setTypes node (g.setValue ⟨node, pType, .uri x⟩) types := rfl
    rw [e, ih, mem_setValue]
    cases types with
    | nil => simp
    | cons y r =>
      have hl : (x :: y :: r).getLast? = (y :: r).getLast? := rfl
      rw [hl]
      constructor
      · rintro (⟨h, -⟩ | ⟨-, (⟨h1, h2⟩ | rfl), h3⟩ | h)
        · cases h
        · exact .inr (.inl ⟨by simp, h1, h3⟩)
        · exact absurd ⟨rfl, rfl⟩ h3
        · exact .inr (.inr h)
      · rintro (⟨h, -⟩ | ⟨-, h1, h3⟩ | h)
        · cases h
        · exact .inr (.inl ⟨by simp, .inl ⟨h1, h3⟩, h3⟩)
        · exact .inr (.inr h)

theorem newCollection_mem {node : Term} {g : Graph} {t : Triple} : t ∈ newCollection node g ↔
    (t ∈ g ∧ ¬ (t.s = node ∧ (t.p = pType ∨ t.p = pModel))) ∨ t = ⟨node, pType, dtsCollectionUri⟩ ∨ t = ⟨node, pModel, dtsCollectionUri⟩ := by
  have hne : pType ≠ pModel := by decide
  rw [newCollection, mem_setValue, mem_setValue]
  constructor
  · rintro (⟨⟨h1, h2⟩ | rfl, h3⟩ | rfl)
    · exact .inl ⟨h1, fun ⟨a, b⟩ => b.elim (fun b => h2 ⟨a, b⟩) (fun b => h3 ⟨a, b⟩)⟩
    · exact .inr (.inl rfl)
    · exact .inr (.inr rfl)
  · rintro (⟨h1, h2⟩ | rfl | rfl)
    · exact .inl ⟨.inl ⟨h1, fun ⟨a, b⟩ => h2 ⟨a, .inl b⟩⟩, fun ⟨a, b⟩ => h2 ⟨a, .inr b⟩⟩
    · exact .inl ⟨.inr rfl, fun ⟨_, b⟩ => hne b⟩
    · exact .inr rfl

/-- The steps of `parseData`. -/
structure DataSteps (node : Term) (g : Graph) (d : ExpData) (g5 : Graph) (c : DtsCites) : Prop where
  steps : ∃ titles types totals g1 g2 g3 g4, d.title = some titles ∧ addValues node [pPrefLabel, pLabel] g titles = .ok g1 ∧ d.types = some types ∧
    parseTrees d.citeStructure = .ok c.trees ∧ parseDepth d.citeDepth = .ok c.announced ∧ d.total = some totals ∧
    addValues node [pTotal] (setTypes node g1 types) totals = .ok g2 ∧ addValues node [pDescription] g2 d.description = .ok g3 ∧
    addContainer node g3 d.dublincore = .ok g4 ∧ addContainer node g4 d.extensions = .ok g5

theorem needKey_ok {α : Type} {o : Option α} {x : α} (h : needKey o = .ok x) : o = some x := by
  cases o with
  | none => cases h
  | some y => cases h; rfl

theorem parseData_iff {node : Term} {g g5 : Graph} {d : ExpData} {c : DtsCites} : parseData node g d = .ok (g5, c) ↔ DataSteps node g d g5 c := by
  constructor
  · intro h
    simp only [parseData] at h
    split at h
    · cases h
    rename_i titles h1
    split at h
    · cases h
    rename_i g1 h2
    split at h
    · cases h
    rename_i types h3
    split at h
    · cases h
    rename_i trees h4
    split at h
    · cases h
    rename_i depth h5
    split at h
    · cases h
    rename_i totals h6
    split at h
    · cases h
    rename_i g2 h7
    split at h
    · cases h
    rename_i g3 h8
    split at h
    · cases h
    rename_i g4 h9
    split at h
    · cases h
    rename_i g5 h10
    cases h
    exact ⟨titles, types, totals, g1, g2, g3, g4, needKey_ok h1, h2, needKey_ok h3, h4, h5, needKey_ok h6, h7, h8, h9, h10⟩
  · rintro ⟨titles, types, totals, g1, g2, g3, g4, h1, h2, h3, h4, h5, h6, h7, h8, h9, h10⟩
    simp only [parseData, h1, h2, h3, h4, h5, h6, h7, h8, h9, h10, needKey]

theorem parseData_mem {i : Str} {g g' : Graph} {d : ExpData} {c : DtsCites} (h : parseData (.uri i) (newCollection (.uri i) g) d = .ok (g', c)) (t : Triple) :
    t ∈ g' ↔ StatedHere i d t ∨ (t ∈ g ∧ ¬ (t.s = .uri i ∧ (t.p = pType ∨ t.p = pModel))) := by
  obtain ⟨titles, types, totals, g1, g2, g3, g4, h1, h2, h3, h4, h5, h6, h7, h8, h9, h10⟩ := (parseData_iff.1 h).steps
  have n1 : pType ≠ pModel := by decide
  have n2 : pType ≠ pPrefLabel := by decide
  have n3 : pType ≠ pLabel := by decide
  rw [addContainer_ok h10, addContainer_ok h9, addValues_ok h8, addValues_ok h7, setTypes_mem]
  simp only [addValues_ok h2, newCollection_mem]
  constructor
  · rintro ((((h | ⟨a, b, v, hv, hu⟩) | ⟨a, b, v, hv, hu⟩) | ⟨a, hp⟩) | ⟨a, hp⟩)
    · have common : ((t ∈ g ∧ ¬ (t.s = .uri i ∧ (t.p = pType ∨ t.p = pModel))) ∨ t = ⟨.uri i, pModel, dtsCollectionUri⟩) ∨
          (t.s = .uri i ∧ t.p ∈ [pPrefLabel, pLabel] ∧ ∃ v ∈ titles, untagged v = some t.o) →
          StatedHere i d t ∨ (t ∈ g ∧ ¬ (t.s = .uri i ∧ (t.p = pType ∨ t.p = pModel))) := by
        rintro ((h | rfl) | ⟨a, b, v, hv, hu⟩)
        · exact .inr h
        · exact .inl .model
        · cases t
          simp only [List.mem_cons, List.not_mem_nil, or_false] at a b hu
          subst a
          rcases b with rfl | rfl
          · exact .inl (.prefLabel (by rw [h1]; exact hv) hu)
          · exact .inl (.label (by rw [h1]; exact hv) hu)
      rcases h with ⟨he, h⟩ | ⟨hne, h, hnt⟩ | ⟨y, hy, rfl⟩
      · rcases h with (h | rfl | h) | h
        · exact common (.inl (.inl h))
        · left
          have := StatedHere.type (i := i) (d := d)
          rw [docType, h3, he] at this
          exact this
        · exact common (.inl (.inr h))
        · exact common (.inr h)
      · rcases h with (h | rfl | h) | h
        · exact common (.inl (.inl h))
        · exact absurd ⟨rfl, rfl⟩ hnt
        · exact common (.inl (.inr h))
        · exact common (.inr h)
      · left
        have := StatedHere.type (i := i) (d := d)
        rw [docType, h3, Option.getD_some, hy] at this
        exact this
    · cases t
      simp only [List.mem_singleton] at a b hu
      subst a b
      exact .inl (.total (by rw [h6]; exact hv) hu)
    · cases t
      simp only [List.mem_singleton] at a b hu
      subst a b
      exact .inl (.description hv hu)
    · cases t
      simp only at a hp
      subst a
      exact .inl (.dublincore hp)
    · cases t
      simp only at a hp
      subst a
      exact .inl (.extensions hp)
  · rintro (h | ⟨h, hn⟩)
    · cases h with
      | type =>
        refine .inl (.inl (.inl (.inl ?_)))
        rw [docType, h3, Option.getD_some]
        cases hl : types.getLast? with
        | none =>
          rw [List.getLast?_eq_none_iff] at hl
          exact .inl ⟨hl, .inl (.inr (.inl rfl))⟩
        | some y => exact .inr (.inr ⟨y, rfl, rfl⟩)
      | model =>
        refine .inl (.inl (.inl (.inl ?_)))
        by_cases e : types = []
        · exact .inl ⟨e, .inl (.inr (.inr rfl))⟩
        · exact .inr (.inl ⟨e, .inl (.inr (.inr rfl)), fun ⟨_, b⟩ => n1 b.symm⟩)
      | @label v o hv hu =>
        refine .inl (.inl (.inl (.inl ?_)))
        rw [h1] at hv
        have x := (⟨rfl, by simp; exact .inr rfl, v, hv, hu⟩ : (⟨.uri i, .uri "http://www.w3.org/2000/01/rdf-schema#label".toList, o⟩ : Triple).s = .uri i ∧
          (⟨.uri i, .uri "http://www.w3.org/2000/01/rdf-schema#label".toList, o⟩ : Triple).p ∈ [pPrefLabel, pLabel] ∧
          ∃ v ∈ titles, untagged v = some (⟨.uri i, .uri "http://www.w3.org/2000/01/rdf-schema#label".toList, o⟩ : Triple).o)
        by_cases e : types = []
        · exact .inl ⟨e, .inr x⟩
        · exact .inr (.inl ⟨e, .inr x, fun ⟨_, b⟩ => n3 b.symm⟩)
      | @prefLabel v o hv hu =>
        refine .inl (.inl (.inl (.inl ?_)))
        rw [h1] at hv
        have x := (⟨rfl, by simp; exact .inl rfl, v, hv, hu⟩ : (⟨.uri i, .uri "http://www.w3.org/2004/02/skos/core#prefLabel".toList, o⟩ : Triple).s = .uri i ∧
          (⟨.uri i, .uri "http://www.w3.org/2004/02/skos/core#prefLabel".toList, o⟩ : Triple).p ∈ [pPrefLabel, pLabel] ∧
          ∃ v ∈ titles, untagged v = some (⟨.uri i, .uri "http://www.w3.org/2004/02/skos/core#prefLabel".toList, o⟩ : Triple).o)
        by_cases e : types = []
        · exact .inl ⟨e, .inr x⟩
        · exact .inr (.inl ⟨e, .inr x, fun ⟨_, b⟩ => n2 b.symm⟩)
      | @total v o hv hu =>
        rw [h6] at hv
        exact .inl (.inl (.inl (.inr ⟨rfl, by simp; rfl, v, hv, hu⟩)))
      | @description v o hv hu => exact .inl (.inl (.inr ⟨rfl, by simp; rfl, v, hv, hu⟩))
      | dublincore hp => exact .inl (.inr ⟨rfl, hp⟩)
      | extensions hp => exact .inr ⟨rfl, hp⟩
    · refine .inl (.inl (.inl (.inl ?_)))
      by_cases e : types = []
      · exact .inl ⟨e, .inl (.inl ⟨h, hn⟩)⟩
      · exact .inr (.inl ⟨e, .inl (.inl ⟨h, hn⟩), fun ⟨a, b⟩ => hn ⟨a, .inl b⟩⟩)

theorem parseTrees_some {o : Option (List ExpCite)} : (∃ ts, parseTrees o = .ok ts) ↔ ∀ l, o = some l → ∃ ts, ingestSet l = .ok ts := by
  cases o <;> simp [parseTrees]

theorem parseDepth_some {o : Option (List ExpValue)} : (∃ n, parseDepth o = .ok n) ↔ ∀ v r, o = some (v :: r) → ∃ a l, v = .value a l := by
  match o with
  | none => simp [parseDepth]
  | some [] => simp [parseDepth]
  | some (.node i :: r) => simp [parseDepth, ExpValue.get]
  | some (.value a l :: r) => cases a <;> simp [parseDepth, ExpValue.get]

theorem parseData_some {node : Term} {g : Graph} {d : ExpData} {i : Str} (hi : d.id = some i) :
    (∃ r, parseData node g d = .ok r) ↔ Complete d := by
  constructor
  · rintro ⟨⟨g5, c⟩, h⟩
    obtain ⟨titles, types, totals, g1, g2, g3, g4, h1, h2, h3, h4, h5, h6, h7, h8, h9, h10⟩ := (parseData_iff.1 h).steps
    exact ⟨⟨i, hi⟩, ⟨types, h3⟩, ⟨titles, h1, addValues_some.1 ⟨_, h2⟩⟩, ⟨totals, h6, addValues_some.1 ⟨_, h7⟩⟩, addValues_some.1 ⟨_, h8⟩,
      addContainer_some.1 ⟨_, h9⟩, addContainer_some.1 ⟨_, h10⟩, parseTrees_some.1 ⟨_, h4⟩, parseDepth_some.1 ⟨_, h5⟩⟩
  · rintro ⟨-, ⟨types, h3⟩, ⟨titles, h1, h2⟩, ⟨totals, h6, h7⟩, h8, h9, h10, h4, h5⟩
    obtain ⟨g1, h2⟩ := (addValues_some (node := node) (ps := [pPrefLabel, pLabel]) (g := g)).2 h2
    obtain ⟨g2, h7⟩ := (addValues_some (node := node) (ps := [pTotal]) (g := setTypes node g1 types)).2 h7
    obtain ⟨g3, h8⟩ := (addValues_some (node := node) (ps := [pDescription]) (g := g2)).2 h8
    obtain ⟨g4, h9⟩ := (addContainer_some (node := node) (g := g3)).2 h9
    obtain ⟨g5, h10⟩ := (addContainer_some (node := node) (g := g4)).2 h10
    obtain ⟨ts, h4⟩ := parseTrees_some.2 h4
    obtain ⟨n, h5⟩ := parseDepth_some.2 h5
    exact ⟨(g5, ⟨ts, n⟩), parseData_iff.2 ⟨titles, types, totals, g1, g2, g3, g4, h1, h2, h3, h4, h5, h6, h7, h8, h9, h10⟩⟩

theorem parseData_cites {node : Term} {g g' : Graph} {d : ExpData} {c : DtsCites} (h : parseData node g d = .ok (g', c)) : CitesOf d c := by
  obtain ⟨titles, types, totals, g1, g2, g3, g4, h1, h2, h3, h4, h5, h6, h7, h8, h9, h10⟩ := (parseData_iff.1 h).steps
  refine ⟨?_, fun n l r e => ?_, fun e => ?_⟩
  · cases e : d.citeStructure with
    | none => rw [e] at h4; exact h4
    | some l => rw [e] at h4; exact h4
  · rw [e] at h5
    simp only [parseDepth, ExpValue.get, Except.ok.injEq] at h5
    exact h5.symm
  · rw [e] at h5
    simp only [parseDepth, Except.ok.injEq] at h5
    exact h5.symm

theorem statedHere_s {i : Str} {d : ExpData} {t : Triple} (h : StatedHere i d t) : t.s = .uri i := by cases h <;> rfl

end Verif.Lemmas
