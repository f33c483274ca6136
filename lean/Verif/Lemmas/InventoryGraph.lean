import Verif.Spec.InventoryGraph
import Verif.Lemmas.RemoteText
import Verif.Lemmas.DtsParse
import Verif.Lemmas.StructuredMetadataParse
import Verif.Props.CtsMetadata
/-!
What parsing an inventory does to the graph, element by element (C86).
-/
namespace Verif.Lemmas
open Verif.Py Verif.Model Verif.Spec Verif.Props

/-! ### Names -/

theorem pType_eq : pType = typePredicate := by decide +kernel
theorem pModel_eq : pModel = modelPredicate := by decide +kernel
theorem dcLanguage_eq : dcLanguage = dc "language" := by decide +kernel
theorem capParent_eq : capParent = .uri "http://purl.org/capitains/ns/1.0#parent".toList := by decide +kernel
theorem ctsGroupname_eq : ctsTerm kGroupname = cts "groupname" := by decide +kernel
theorem ctsTitle_eq : ctsTerm kTitle = cts "title" := by decide +kernel
theorem ctsLabel_eq : ctsTerm kLabel = cts "label" := by decide +kernel
theorem ctsDescription_eq : ctsTerm kDescription = cts "description" := by decide +kernel
theorem ctsAbout_eq : ctsTerm ['a', 'b', 'o', 'u', 't'] = cts "about" := by decide +kernel
theorem ctsTextgroup_eq : ctsTerm ['t', 'e', 'x', 't', 'g', 'r', 'o', 'u', 'p'] = cts "textgroup" := by decide +kernel
theorem ctsWork_eq : ctsTerm ['w', 'o', 'r', 'k'] = cts "work" := by decide +kernel
theorem ctsInventory_eq : ctsTerm ['T', 'e', 'x', 't', 'I', 'n', 'v', 'e', 'n', 't', 'o', 'r', 'y'] = cts "TextInventory" := by decide +kernel
theorem ctsKind_eq (k : Kind) : ctsTerm (kindTag k) = cts (kindName k) := by cases k <;> decide +kernel
theorem resource_eq : (Term.uri (nsDts ++ ['r', 'e', 's', 'o', 'u', 'r', 'c', 'e']) : Term) = .uri "https://w3id.org/dts/api#resource".toList := by decide +kernel
theorem collection_eq : (Term.uri (nsDts ++ ['c', 'o', 'l', 'l', 'e', 'c', 't', 'i', 'o', 'n']) : Term) = .uri "https://w3id.org/dts/api#collection".toList := by decide +kernel

theorem namedKids_children {tag : Str} {name : String} (h : name.toList = tag) (n : Node) : namedKids tag n = childrenCalled name n := by
  rw [namedKids, childrenCalled, h]

theorem literalText_label (c : Node) : literalText c = labelText c := by
  rw [literalText, labelText]; rfl

theorem valueText_get (o : Option Str) : valueText o = o.getD "None".toList := by
  cases o <;> rfl

/-! ### The steps -/

theorem mem_newObject {g : Graph} {id ty md : Str} {s p o : Term} : (⟨s, p, o⟩ : Triple) ∈ newObject g id ty md ↔
    (s = .uri id ∧ ((p = typePredicate ∧ o = ctsTerm ty) ∨ (p = modelPredicate ∧ o = .uri (nsDts ++ md)))) ∨
    ((⟨s, p, o⟩ : Triple) ∈ g ∧ ¬ (s = .uri id ∧ (p = typePredicate ∨ p = modelPredicate))) := by
  have hne : typePredicate ≠ modelPredicate := by decide +kernel
  rw [newObject, mem_setValue, mem_setValue, pType_eq, pModel_eq]
  generalize typePredicate = a at *
  generalize modelPredicate = b at *
  simp only [Triple.mk.injEq]
  by_cases hs : s = .uri id
  · by_cases ha : p = a
    · subst ha; simp [hs, hne]
    · by_cases hb : p = b
      · subst hb; simp [hs, ha]
      · simp [hs, ha, hb]
  · simp [hs]

theorem mem_newParent {g : Graph} {id : Str} {parent : Option Str} {s p o : Term} : (⟨s, p, o⟩ : Triple) ∈ newParent g id parent ↔
    (⟨s, p, o⟩ : Triple) ∈ g ∨ (s = .uri id ∧ p = .uri "http://purl.org/capitains/ns/1.0#parent".toList ∧ ∃ i, parent = some i ∧ o = .uri i) := by
  cases parent with
  | none => simp [newParent]
  | some i =>
    rw [newParent, mem_insert, capParent_eq]
    generalize (Term.uri "http://purl.org/capitains/ns/1.0#parent".toList) = a
    simp

theorem mem_setLang_all {g : Graph} {n s p o : Term} {l : Str} : (⟨s, p, o⟩ : Triple) ∈ setLang g n l ↔
    (s = n ∧ p = dc "language" ∧ o = .lit l none none) ∨ ((⟨s, p, o⟩ : Triple) ∈ g ∧ ¬ (s = n ∧ p = dc "language")) := by
  rw [setLang, mem_setValue, dcLanguage_eq]
  generalize dc "language" = a
  simp only [Triple.mk.injEq]
  constructor
  · rintro (h | h)
    · exact .inr h
    · exact .inl h
  · rintro (h | h)
    · exact .inr h
    · exact .inl h

/-- What the children of one name say. -/
def GivesFrom (tag : Str) (n : Node) (o : Term) : Prop :=
  ∃ c ∈ namedKids tag n, ∃ l, c.get ['x', 'm', 'l', ':', 'l', 'a', 'n', 'g'] = some l ∧ o = .lit (labelText c) (some l) none

theorem mem_readProperty {cls : CtsClass} {tag prop id : Str} {n : Node} {g : Graph} {s p o : Term} :
    (⟨s, p, o⟩ : Triple) ∈ readProperty cls tag prop id g n ↔
      (⟨s, p, o⟩ : Triple) ∈ g ∨ (s = .uri id ∧ (p = ctsTerm prop ∨ (cls.titleKey = some prop ∧ p ∈ labelPredicates)) ∧ GivesFrom tag n o) := by
  unfold readProperty GivesFrom
  induction namedKids tag n generalizing g with
  | nil => simp
  | cons c r ih =>
    rw [List.foldl_cons, ih]
    cases hl : c.get ['x', 'm', 'l', ':', 'l', 'a', 'n', 'g'] with
    | none =>
      simp only [List.mem_cons]
      refine or_congr_right (and_congr_right fun _ => and_congr_right fun _ => ?_)
      constructor
      · rintro ⟨c', h1, h2⟩; exact ⟨c', .inr h1, h2⟩
      · rintro ⟨c', rfl | h1, l, h2, h3⟩
        · rw [hl] at h2; cases h2
        · exact ⟨c', h1, l, h2, h3⟩
    | some l =>
      simp only [mem_setCtsProperty, propertyValue, labelValue, literalText_label, Triple.mk.injEq, List.mem_cons]
      constructor
      · rintro ((h | ⟨h1, h2, h3⟩ | ⟨h1, q, h2, h3, h4, h5⟩) | ⟨h1, h2, c', h3, h4⟩)
        · exact .inl h
        · exact .inr ⟨h1, .inl h2, c, .inl rfl, l, hl, h3⟩
        · exact .inr ⟨h3, .inr ⟨h1, h4 ▸ h2⟩, c, .inl rfl, l, hl, h5⟩
        · exact .inr ⟨h1, h2, c', .inr h3, h4⟩
      · rintro (h | ⟨h1, h2, c', rfl | h3, l', h4, h5⟩)
        · exact .inl (.inl h)
        · rw [hl] at h4
          cases h4
          rcases h2 with h2 | ⟨h2, h6⟩
          · exact .inl (.inr (.inl ⟨h1, h2, h5⟩))
          · exact .inl (.inr (.inr ⟨h2, p, h6, h1, rfl, h5⟩))
        · exact .inr ⟨h1, h2, c', h3, l', h4, h5⟩

theorem mem_readAbout {id : Str} {n : Node} {g : Graph} {s p o : Term} :
    (⟨s, p, o⟩ : Triple) ∈ readAbout id g n ↔
      (⟨s, p, o⟩ : Triple) ∈ g ∨ (s = .uri id ∧ p = cts "about" ∧ ∃ c ∈ childrenCalled "ti:about" n, o = .uri ((c.get "urn".toList).getD "None".toList)) := by
  unfold readAbout
  rw [namedKids_children (name := "ti:about") (by decide +kernel), ctsAbout_eq]
  have hu : "urn".toList = ['u', 'r', 'n'] := by decide +kernel
  rw [hu]
  simp only [setLink, metaAdd, valueText_get]
  generalize cts "about" = a
  generalize "None".toList = none'
  induction childrenCalled "ti:about" n generalizing g with
  | nil => simp
  | cons c r ih =>
    rw [List.foldl_cons]
    refine ih.trans ?_
    rw [mem_insert]
    simp only [toTerm, Triple.mk.injEq, List.mem_cons]
    constructor
    · rintro ((h | ⟨h1, h2, h3⟩) | ⟨h1, h2, c', h3, h4⟩)
      · exact .inl h
      · exact .inr ⟨h1, h2, c, .inl rfl, h3⟩
      · exact .inr ⟨h1, h2, c', .inr h3, h4⟩
    · rintro (h | ⟨h1, h2, c', rfl | h3, h4⟩)
      · exact .inl (.inl h)
      · exact .inl (.inr ⟨h1, h2, h4⟩)
      · exact .inr ⟨h1, h2, c', h3, h4⟩

theorem structuredValue_eq (nsmap : List (Str × Str)) (ob : Str → Objectified) (m : Node) :
    toTerm (structuredValue nsmap ob m).1 (structuredValue nsmap ob m).2 = blockValue nsmap ob m := by
  unfold structuredValue blockValue
  by_cases hk : LooksLikeLink (ob m.text).shown
  · rw [if_pos ((isLink_iff _).2 hk), if_pos hk]; rfl
  · rw [if_neg (fun h => hk ((isLink_iff _).1 h)), if_neg hk]
    show toTerm (match m.get ['x', 'm', 'l', ':', 'l', 'a', 'n', 'g'] with
      | some l => _
      | none => _ : Value × Option Str).1 _ = match m.get ['x', 'm', 'l', ':', 'l', 'a', 'n', 'g'], m.get ['{', 'h', 't', 't', 'p', ':', '/', '/', 'w', 'w', 'w', '.', 'w', '3', '.', 'o', 'r', 'g', '/', '1', '9', '9', '9', '/', '0', '2', '/', '2', '2', '-', 'r', 'd', 'f', '-', 's', 'y', 'n', 't', 'a', 'x', '-', 'n', 's', '#', '}', 'd', 'a', 't', 'a', 't', 'y', 'p', 'e'], (ob m.text).kind with
        | some l, _, _ => _
        | none, some d, _ => _
        | none, none, .int => _
        | none, none, .float => _
        | none, none, .other => _
    have hsw : ∀ d : Str, (startsWith d ['h', 't', 't', 'p'] = true) ↔ ['h', 't', 't', 'p'] <+: d := by
      intro d; unfold startsWith; exact List.isPrefixOf_iff_prefix
    cases h1 : m.get ['x', 'm', 'l', ':', 'l', 'a', 'n', 'g'] with
    | some l => rfl
    | none =>
      dsimp only
      cases h2 : m.get ['{', 'h', 't', 't', 'p', ':', '/', '/', 'w', 'w', 'w', '.', 'w', '3', '.', 'o', 'r', 'g', '/', '1', '9', '9', '9', '/', '0', '2', '/', '2', '2', '-', 'r', 'd', 'f', '-', 's', 'y', 'n', 't', 'a', 'x', '-', 'n', 's', '#', '}', 'd', 'a', 't', 'a', 't', 'y', 'p', 'e'] with
      | some d =>
        dsimp only
        simp only [hsw]
        rfl
      | none =>
        dsimp only
        cases (ob m.text).kind <;> rfl

theorem append_brace_inj {a b c d : Str} (ha : '}' ∉ a) (hc : '}' ∉ c) (h : a ++ '}' :: b = c ++ '}' :: d) : a = c ∧ b = d := by
  induction a generalizing c with
  | nil =>
    cases c with
    | nil => simp at h; exact ⟨rfl, h⟩
    | cons x r => simp at h; exact absurd (by rw [← h.1]; simp) hc
  | cons x r ih =>
    cases c with
    | nil => simp at h; exact absurd (by simp [h.1]) ha
    | cons y q =>
      simp at h ha hc
      obtain ⟨h1, h2⟩ := ih ha.2 hc.2 h.2
      exact ⟨by rw [h.1, h1], h2⟩

theorem mem_structuredStep {nsmap : List (Str × Str)} {ob : Str → Objectified} {node : Term} {g g' : Graph} {m : Node} (ht : ProperTag m.tag)
    (h : structuredStep nsmap ob node g m = .ok g') {s p o : Term} : (⟨s, p, o⟩ : Triple) ∈ g' ↔
      (⟨s, p, o⟩ : Triple) ∈ g ∨ (s = node ∧ ∃ u, Named m.tag u ∧ p = .uri u ∧ o = blockValue nsmap ob m) := by
  have hb1 : "{".toList = ['{'] := rfl
  have hb2 : "}".toList = ['}'] := rfl
  have hti : "ti:".toList = ['t', 'i', ':'] := by decide +kernel
  have hcts : ctsNamespace = ['h', 't', 't', 'p', ':', '/', '/', 'c', 'h', 's', '.', 'h', 'a', 'r', 'v', 'a', 'r', 'd', '.', 'e', 'd', 'u', '/', 'x', 'm', 'l', 'n', 's', '/', 'c', 't', 's'] := by decide +kernel
  have hsw : (startsWith m.tag ['t', 'i', ':'] = true) ↔ ['t', 'i', ':'] <+: m.tag := by unfold startsWith; exact List.isPrefixOf_iff_prefix
  unfold Named
  rw [hb1, hb2, hti, hcts]
  unfold structuredStep at h
  rcases ht with ⟨h1, h2⟩ | ⟨ns, name, n1, n2, n3, n4, e⟩
  · by_cases hp : ['t', 'i', ':'] <+: m.tag
    · obtain ⟨name, e⟩ := hp
      have hc : clarkTag m.tag = '{' :: (['h', 't', 't', 'p', ':', '/', '/', 'c', 'h', 's', '.', 'h', 'a', 'r', 'v', 'a', 'r', 'd', '.', 'e', 'd', 'u', '/', 'x', 'm', 'l', 'n', 's', '/', 'c', 't', 's'] ++ '}' :: name) := by
        rw [clarkTag, if_pos (hsw.2 ⟨name, e⟩), ← e]; rfl
      have hn : '}' ∉ name := by
        intro hm
        exact h2 (e ▸ List.mem_append_right _ hm)
      rw [hc, if_pos (by simp), ← List.cons_append, split_two (by decide) hn] at h
      simp only [metaAdd, structuredValue_eq, Except.ok.injEq] at h
      rw [← h, mem_insert]
      refine or_congr_right ?_
      simp only [Triple.mk.injEq]
      constructor
      · rintro ⟨a1, a2, a3⟩
        exact ⟨a1, _, .inl ⟨name, e.symm, rfl⟩, a2, a3⟩
      · rintro ⟨a1, u, (⟨n', b1, b2⟩ | ⟨ns', n', b1, b2⟩), a2, a3⟩
        · rw [← e] at b1
          have := List.append_cancel_left b1
          subst this
          exact ⟨a1, by rw [a2, b2]; rfl, a3⟩
        · exact absurd (by rw [b1]; simp) h1
    · have hc : clarkTag m.tag = m.tag := by rw [clarkTag, if_neg (fun hx => hp (hsw.1 hx))]
      rw [hc, if_neg h1] at h
      cases h
      constructor
      · exact .inl
      · rintro (h | ⟨_, u, (⟨n', b1, _⟩ | ⟨ns', n', b1, _⟩), _⟩)
        · exact h
        · exact absurd ⟨n', b1.symm⟩ hp
        · exact absurd (by rw [b1]; simp) h1
  · rw [hb1, hb2] at e
    have e' : m.tag = ('{' :: ns) ++ '}' :: name := by rw [e]; simp
    have hc : clarkTag m.tag = m.tag := by
      rw [clarkTag, if_neg]
      intro hx
      obtain ⟨r, hr⟩ := hsw.1 hx
      rw [e'] at hr
      simp at hr
    rw [hc, e', if_pos (by simp), split_two (by simpa using n2) n4] at h
    simp only [metaAdd, structuredValue_eq, Except.ok.injEq] at h
    rw [← h, mem_insert]
    refine or_congr_right ?_
    simp only [Triple.mk.injEq]
    constructor
    · rintro ⟨a1, a2, a3⟩
      exact ⟨a1, _, .inr ⟨ns, name, e, n2, rfl⟩, a2, a3⟩
    · rintro ⟨a1, u, (⟨n', b1, b2⟩ | ⟨ns', n', b1, b3, b2⟩), a2, a3⟩
      · rw [e'] at b1
        simp at b1
      · have e2 : '{' :: (ns ++ '}' :: name) = '{' :: (ns' ++ '}' :: n') := by
          rw [← List.cons_append, ← e', b1]; simp
        obtain ⟨c1, c2⟩ := append_brace_inj n2 b3 (List.cons.inj e2).2
        subst c1 c2
        exact ⟨a1, by rw [a2, b2]; rfl, a3⟩

theorem block_tag : "{http://purl.org/capitains/ns/1.0#}structured-metadata".toList = ['{', 'h', 't', 't', 'p', ':', '/', '/', 'p', 'u', 'r', 'l', '.', 'o', 'r', 'g', '/', 'c', 'a', 'p', 'i', 't', 'a', 'i', 'n', 's', '/', 'n', 's', '/', '1', '.', '0', '#', '}', 's', 't', 'r', 'u', 'c', 't', 'u', 'r', 'e', 'd', '-', 'm', 'e', 't', 'a', 'd', 'a', 't', 'a'] := by decide +kernel

/-- What the structured metadata of an object say. -/
def ToldInBlock (nsmap : List (Str × Str)) (ob : Str → Objectified) (x : Thing) (p o : Term) : Prop :=
  ∃ m ∈ x.block, ∃ u, Named m.tag u ∧ p = .uri u ∧ o = blockValue nsmap ob m

theorem mem_structuredLoop {nsmap : List (Str × Str)} {ob : Str → Objectified} {node : Term} {g g' : Graph} {ms : List Node} (ht : ∀ m ∈ ms, ProperTag m.tag)
    (h : structuredLoop nsmap ob node g ms = .ok g') {s p o : Term} : (⟨s, p, o⟩ : Triple) ∈ g' ↔
      (⟨s, p, o⟩ : Triple) ∈ g ∨ (s = node ∧ ∃ m ∈ ms, ∃ u, Named m.tag u ∧ p = .uri u ∧ o = blockValue nsmap ob m) := by
  induction ms generalizing g with
  | nil => rw [structuredLoop] at h; cases h; simp
  | cons m r ih =>
    rw [structuredLoop] at h
    cases h1 : structuredStep nsmap ob node g m with
    | error e => rw [h1] at h; cases h
    | ok g1 =>
      rw [h1] at h
      rw [ih (fun m hm => ht m (by simp [hm])) h, mem_structuredStep (ht m (by simp)) h1]
      simp only [List.mem_cons]
      constructor
      · rintro ((a | ⟨a, b⟩) | ⟨a, m', b, c⟩)
        · exact .inl a
        · exact .inr ⟨a, m, .inl rfl, b⟩
        · exact .inr ⟨a, m', .inr b, c⟩
      · rintro (a | ⟨a, m', rfl | b, c⟩)
        · exact .inl (.inl a)
        · exact .inl (.inr ⟨a, c⟩)
        · exact .inr ⟨a, m', b, c⟩

theorem mem_parseStructured {nsmap : List (Str × Str)} {ob : Str → Objectified} {id : Str} {g g' : Graph} {x : Thing} (ht : ∀ m ∈ x.block, ProperTag m.tag)
    (h : parseStructured nsmap ob id g x.element = .ok g') {s p o : Term} : (⟨s, p, o⟩ : Triple) ∈ g' ↔
      (⟨s, p, o⟩ : Triple) ∈ g ∨ (s = .uri id ∧ ToldInBlock nsmap ob x p o) := by
  have hx : x.block = (namedKids ['{', 'h', 't', 't', 'p', ':', '/', '/', 'p', 'u', 'r', 'l', '.', 'o', 'r', 'g', '/', 'c', 'a', 'p', 'i', 't', 'a', 'i', 'n', 's', '/', 'n', 's', '/', '1', '.', '0', '#', '}', 's', 't', 'r', 'u', 'c', 't', 'u', 'r', 'e', 'd', '-', 'm', 'e', 't', 'a', 'd', 'a', 't', 'a'] x.element).flatMap Node.kids := by
    rw [Thing.block, namedKids_children block_tag]
  rw [parseStructured, ← hx] at h
  exact mem_structuredLoop ht h

/-! ### One element -/

theorem parseId_urn {n : Node} {id : Str} (h : parseId n = .ok id) : id = urnOf n := by
  have hu : "urn".toList = ['u', 'r', 'n'] := by decide +kernel
  rw [urnOf, hu]
  unfold parseId at h
  cases hg : n.get ['u', 'r', 'n'] with
  | none => rw [hg] at h; cases h
  | some u =>
    rw [hg] at h
    dsimp only at h
    cases hp : Urn.parse u with
    | error e => rw [hp] at h; cases h
    | ok r => rw [hp] at h; cases h; rfl

theorem getLang_spoken {order : Order} (ho : Rearranges order) (g : Graph) (n : Term) : SpokenIn g n (getLang order g n) := by
  have hn : "None".toList = ['N', 'o', 'n', 'e'] := by decide +kernel
  unfold SpokenIn getLang
  rw [dcLanguage_eq, hn]
  cases h : g.objects order n (dc "language") with
  | nil =>
    refine .inr ⟨fun o ho' => ?_, rfl⟩
    have := (mem_objects ho).2 ho'
    rw [h] at this
    cases this
  | cons o r => exact .inl ⟨o, (mem_objects ho).1 (by rw [h]; simp), rfl⟩

/-- What an element says of its object before its members are read. -/
def ToldOpen (x : Thing) (p o : Term) : Prop :=
  (∃ name ∈ x.properties, p = cts name ∧ Gives x name o) ∨ (p ∈ labelPredicates ∧ Gives x x.title o) ∨
  (∃ w k e, x = .text w k e ∧ p = cts "about" ∧ ∃ c ∈ childrenCalled "ti:about" e, o = .uri ((c.get "urn".toList).getD "None".toList)) ∨
  (p = .uri "http://purl.org/capitains/ns/1.0#parent".toList ∧ ∃ i, x.parent = some i ∧ o = .uri i)

theorem told_iff {nsmap : List (Str × Str)} {ob : Str → Objectified} {x : Thing} {p o : Term} :
    Told nsmap ob x p o ↔ ToldOpen x p o ∨ ToldInBlock nsmap ob x p o := by
  constructor
  · rintro (⟨h1, h2⟩ | ⟨h1, h2⟩ | h1 | h1 | ⟨h1, h2⟩)
    · exact .inl (.inl ⟨_, h1, rfl, h2⟩)
    · exact .inl (.inr (.inl ⟨h1, h2⟩))
    · exact .inl (.inr (.inr (.inl ⟨_, _, _, rfl, rfl, _, h1, rfl⟩)))
    · exact .inl (.inr (.inr (.inr ⟨rfl, _, h1, rfl⟩)))
    · exact .inr ⟨_, h1, _, h2, rfl, rfl⟩
  · rintro ((⟨name, h1, rfl, h2⟩ | ⟨h1, h2⟩ | ⟨w, k, e, rfl, rfl, c, h1, rfl⟩ | ⟨rfl, i, h1, rfl⟩) | ⟨m, h1, u, h2, rfl, rfl⟩)
    · exact .property h1 h2
    · exact .title h1 h2
    · exact .about h1
    · exact .parent h1
    · exact .block h1 h2

/-- The class, the model and the language of an object. -/
def HeadOf (x : Thing) (v : Str) (p o : Term) : Prop :=
  (p = typePredicate ∧ o = x.type) ∨ (p = modelPredicate ∧ o = x.model) ∨ (p = dc "language" ∧ x.speaks ∧ o = .lit v none none)

/-- The predicates whose values are replaced. -/
def Replaces (x : Thing) (p : Term) : Prop := p = typePredicate ∨ p = modelPredicate ∨ (p = dc "language" ∧ x.speaks)

/-- The graph after an element was read as far as its members. -/
def Opened (g g' : Graph) (x : Thing) (v : Str) : Prop := ∀ s p o, (⟨s, p, o⟩ : Triple) ∈ g' ↔
  (s = x.node ∧ (ToldOpen x p o ∨ HeadOf x v p o)) ∨ ((⟨s, p, o⟩ : Triple) ∈ g ∧ ¬ (s = x.node ∧ Replaces x p))

/-- The language that a text gets, where `g` is the graph when it is read. -/
def SpeaksNow (g : Graph) (v : Str) (w : Node) (k : Kind) (e : Node) : Prop :=
  match (if k = .edition then none else e.get "xml:lang".toList) with
  | some l => v = l
  | none => SpokenIn g (.uri (urnOf w)) v

theorem gives_iff {x : Thing} {name : String} {tag : Str} {o : Term} (h : ("ti:" ++ name).toList = tag) :
    GivesFrom tag x.element o ↔ Gives x name o := by
  have hl : "xml:lang".toList = ['x', 'm', 'l', ':', 'l', 'a', 'n', 'g'] := by decide +kernel
  unfold GivesFrom Gives
  rw [namedKids_children h, hl]

theorem lang_ne : dc "language" ≠ typePredicate ∧ dc "language" ≠ modelPredicate ∧ typePredicate ≠ modelPredicate := by decide +kernel

theorem capParent_ne : (Term.uri "http://purl.org/capitains/ns/1.0#parent".toList) ∉ replacedPredicates := by decide +kernel

theorem mem_readTextLang {order : Order} (ho : Rearranges order) {k : Kind} {w n : Node} {g : Graph} : ∃ v, SpeaksNow g v w k n ∧
    ∀ s p o, (⟨s, p, o⟩ : Triple) ∈ readTextLang order k (some (urnOf w)) (urnOf n) g n ↔
      (s = .uri (urnOf n) ∧ p = dc "language" ∧ o = .lit v none none) ∨ ((⟨s, p, o⟩ : Triple) ∈ g ∧ ¬ (s = .uri (urnOf n) ∧ p = dc "language")) := by
  have hl : "xml:lang".toList = ['x', 'm', 'l', ':', 'l', 'a', 'n', 'g'] := by decide +kernel
  unfold SpeaksNow readTextLang
  rw [hl]
  by_cases hk : k = .edition
  · rw [if_pos hk]
    exact ⟨_, getLang_spoken ho g _, fun s p o => by simp only [if_pos hk, newTextLang, Option.map_some]; exact mem_setLang_all⟩
  · rw [if_neg hk]
    cases hg : n.get ['x', 'm', 'l', ':', 'l', 'a', 'n', 'g'] with
    | none => exact ⟨_, getLang_spoken ho g _, fun s p o => by simp only [if_neg hk, newTextLang, Option.map_some]; exact mem_setLang_all⟩
    | some l =>
      refine ⟨l, rfl, fun s p o => ?_⟩
      simp only [if_neg hk, newTextLang, Option.map_some]
      rw [mem_setLang_all, mem_setLang_all]
      constructor
      · rintro (h | ⟨h | h, h2⟩)
        · exact .inl h
        · exact absurd ⟨h.1, h.2.1⟩ h2
        · exact .inr ⟨h.1, h2⟩
      · rintro (h | ⟨h, h2⟩)
        · exact .inl h
        · exact .inr ⟨.inr ⟨h, h2⟩, h2⟩

theorem spokenIn_congr {g g' : Graph} {n : Term} {v : Str} (h : ∀ o, (⟨n, dc "language", o⟩ : Triple) ∈ g ↔ (⟨n, dc "language", o⟩ : Triple) ∈ g') :
    SpokenIn g n v ↔ SpokenIn g' n v := by
  unfold SpokenIn
  simp only [h]

theorem speaksNow_congr {g g' : Graph} {w : Node} {k : Kind} {e : Node} {v : Str}
    (h : ∀ o, (⟨.uri (urnOf w), dc "language", o⟩ : Triple) ∈ g ↔ (⟨.uri (urnOf w), dc "language", o⟩ : Triple) ∈ g') :
    SpeaksNow g v w k e ↔ SpeaksNow g' v w k e := by
  unfold SpeaksNow
  split
  · rfl
  · exact spokenIn_congr h

theorem mem_head_lang {g : Graph} {id ty md : Str} {parent : Option Str} {s o : Term} :
    (⟨s, dc "language", o⟩ : Triple) ∈ newParent (newObject g id ty md) id parent ↔ (⟨s, dc "language", o⟩ : Triple) ∈ g := by
  rw [mem_newParent, mem_newObject]
  have h1 := lang_ne
  have h2 := capParent_ne
  unfold replacedPredicates at h2
  generalize dc "language" = a at *
  generalize typePredicate = b at *
  generalize modelPredicate = c at *
  generalize (Term.uri "http://purl.org/capitains/ns/1.0#parent".toList) = d at *
  grind

theorem text_open {order : Order} (ho : Rearranges order) {w n : Node} {k : Kind} {g : Graph} : ∃ v, SpeaksNow g v w k n ∧
    Opened g (readAbout (urnOf n) (readProperty .text ['t', 'i', ':', 'l', 'a', 'b', 'e', 'l'] kLabel (urnOf n) (readProperty .text ['t', 'i', ':', 'd', 'e', 's', 'c', 'r', 'i', 'p', 't', 'i', 'o', 'n'] kDescription (urnOf n)
      (readTextLang order k (some (urnOf w)) (urnOf n) (newParent (newObject g (urnOf n) (kindTag k) ['r', 'e', 's', 'o', 'u', 'r', 'c', 'e']) (urnOf n) (some (urnOf w))) n) n) n) n)
      (.text w k n) v := by
  obtain ⟨v, hv, hm⟩ := mem_readTextLang ho (k := k) (w := w) (n := n) (g := newParent (newObject g (urnOf n) (kindTag k) ['r', 'e', 's', 'o', 'u', 'r', 'c', 'e']) (urnOf n) (some (urnOf w)))
  refine ⟨v, (speaksNow_congr fun o => mem_head_lang).1 hv, fun s p o => ?_⟩
  have k1 : CtsClass.text.titleKey = some kLabel := rfl
  have k2 : ¬ CtsClass.text.titleKey = some kDescription := by decide
  have hd : GivesFrom ['t', 'i', ':', 'd', 'e', 's', 'c', 'r', 'i', 'p', 't', 'i', 'o', 'n'] n o ↔ Gives (.text w k n) "description" o := gives_iff (x := .text w k n) (by decide +kernel)
  have hl : GivesFrom ['t', 'i', ':', 'l', 'a', 'b', 'e', 'l'] n o ↔ Gives (.text w k n) "label" o := gives_iff (x := .text w k n) (by decide +kernel)
  rw [mem_readAbout, mem_readProperty, mem_readProperty, hm, mem_newParent, mem_newObject, hd, hl, ctsLabel_eq, ctsDescription_eq, ctsKind_eq, resource_eq]
  simp only [k1, k2, false_and, or_false, true_and]
  simp only [ToldOpen, HeadOf, Replaces, Thing.properties, Thing.title, Thing.type, Thing.model, Thing.speaks, Thing.parent, Thing.node, Thing.element,
    List.mem_cons, List.not_mem_nil, or_false, Thing.text.injEq]
  have h1 := lang_ne
  have h2 := capParent_ne
  unfold replacedPredicates at h2
  generalize dc "language" = a at *
  generalize typePredicate = b at *
  generalize modelPredicate = c at *
  generalize (Term.uri "http://purl.org/capitains/ns/1.0#parent".toList) = d at *
  generalize childrenCalled "ti:about" = f at *
  generalize cts (kindName k) = t at *
  generalize (Term.uri "https://w3id.org/dts/api#resource".toList) = r at *
  generalize "urn".toList = u at *
  generalize "None".toList = z at *
  have e1 : (∃ name, (name = "label" ∨ name = "description") ∧ p = cts name ∧ Gives (.text w k n) name o) ↔
      (p = cts "label" ∧ Gives (.text w k n) "label" o) ∨ (p = cts "description" ∧ Gives (.text w k n) "description" o) := by
    constructor
    · rintro ⟨_, rfl | rfl, h⟩
      · exact .inl h
      · exact .inr h
    · rintro (h | h)
      · exact ⟨_, .inl rfl, h⟩
      · exact ⟨_, .inr rfl, h⟩
  have e2 : (∃ w' k' e, (w = w' ∧ k = k' ∧ n = e) ∧ p = cts "about" ∧ ∃ c, c ∈ f e ∧ o = Term.uri ((c.get u).getD z)) ↔
      p = cts "about" ∧ ∃ c, c ∈ f n ∧ o = Term.uri ((c.get u).getD z) := by
    constructor
    · rintro ⟨_, _, _, ⟨rfl, rfl, rfl⟩, h⟩; exact h
    · intro h; exact ⟨_, _, _, ⟨rfl, rfl, rfl⟩, h⟩
  rw [e1, e2]
  generalize cts "label" = q1 at *
  generalize cts "description" = q2 at *
  generalize cts "about" = q3 at *
  generalize Gives (.text w k n) "label" o = G1 at *
  generalize Gives (.text w k n) "description" o = G2 at *
  generalize (∃ c, c ∈ f n ∧ o = Term.uri ((c.get u).getD z)) = G3 at *
  generalize (∃ i, some (urnOf w) = some i ∧ o = Term.uri i) = G4 at *
  clear e1 e2 hd hl
  by_cases hs : s = .uri (urnOf n)
  · subst hs
    grind
  · grind

theorem work_open {n : Node} {parent : Option Str} {g : Graph} : ∃ v, ((Thing.work parent n).speaks → (Thing.work parent n).Speaks g v) ∧
    Opened g (readProperty .work ['t', 'i', ':', 't', 'i', 't', 'l', 'e'] kTitle (urnOf n)
      (match n.get ['x', 'm', 'l', ':', 'l', 'a', 'n', 'g'] with
      | some l => setLang (newParent (newObject g (urnOf n) ['w', 'o', 'r', 'k'] ['c', 'o', 'l', 'l', 'e', 'c', 't', 'i', 'o', 'n']) (urnOf n) parent) (.uri (urnOf n)) l
      | none => newParent (newObject g (urnOf n) ['w', 'o', 'r', 'k'] ['c', 'o', 'l', 'l', 'e', 'c', 't', 'i', 'o', 'n']) (urnOf n) parent) n)
      (.work parent n) v := by
  have hl : "xml:lang".toList = ['x', 'm', 'l', ':', 'l', 'a', 'n', 'g'] := by decide +kernel
  have k1 : CtsClass.work.titleKey = some kTitle := rfl
  have hgv : ∀ o, GivesFrom ['t', 'i', ':', 't', 'i', 't', 'l', 'e'] n o ↔ Gives (.work parent n) "title" o := fun o => gives_iff (x := .work parent n) (by decide +kernel)
  refine ⟨(n.get ['x', 'm', 'l', ':', 'l', 'a', 'n', 'g']).getD [], ?_, fun s p o => ?_⟩
  · simp only [Thing.speaks, Thing.Speaks, hl]
    cases n.get ['x', 'm', 'l', ':', 'l', 'a', 'n', 'g'] <;> simp
  · rw [mem_readProperty, hgv, ctsTitle_eq]
    simp only [ToldOpen, HeadOf, Replaces, Thing.properties, Thing.title, Thing.type, Thing.model, Thing.speaks, Thing.parent, Thing.node, Thing.element,
      List.mem_singleton, k1, true_and, hl]
    have e1 : (∃ name, name = "title" ∧ p = cts name ∧ Gives (.work parent n) name o) ↔ p = cts "title" ∧ Gives (.work parent n) "title" o := by
      constructor
      · rintro ⟨_, rfl, h⟩; exact h
      · intro h; exact ⟨_, rfl, h⟩
    have e2 : ∀ (P : Node → Kind → Node → Prop), (∃ w k e, Thing.work parent n = Thing.text w k e ∧ P w k e) ↔ False := by
      intro P
      constructor
      · rintro ⟨_, _, _, h, _⟩; cases h
      · exact False.elim
    rw [e1, e2, ← ctsWork_eq, ← collection_eq]
    cases hg : n.get ['x', 'm', 'l', ':', 'l', 'a', 'n', 'g'] with
    | none =>
      simp only [mem_newParent, mem_newObject, ne_eq, not_true_eq_false]
      have h1 := lang_ne
      have h2 := capParent_ne
      unfold replacedPredicates at h2
      generalize dc "language" = a at *
      generalize typePredicate = b at *
      generalize modelPredicate = c at *
      generalize (Term.uri "http://purl.org/capitains/ns/1.0#parent".toList) = d at *
      generalize cts "title" = q1 at *
      generalize Gives (.work parent n) "title" o = G1 at *
      generalize (∃ i, parent = some i ∧ o = Term.uri i) = G4 at *
      generalize ctsTerm ['w', 'o', 'r', 'k'] = t1 at *
      generalize (Term.uri (nsDts ++ ['c', 'o', 'l', 'l', 'e', 'c', 't', 'i', 'o', 'n']) : Term) = t2 at *
      clear e1 e2 hgv hl
      by_cases hs : s = .uri (urnOf n)
      · subst hs; grind
      · grind
    | some l =>
      simp only [mem_setLang_all, mem_newParent, mem_newObject, ne_eq, reduceCtorEq, not_false_eq_true, Option.getD_some]
      have h1 := lang_ne
      have h2 := capParent_ne
      unfold replacedPredicates at h2
      generalize dc "language" = a at *
      generalize typePredicate = b at *
      generalize modelPredicate = c at *
      generalize (Term.uri "http://purl.org/capitains/ns/1.0#parent".toList) = d at *
      generalize cts "title" = q1 at *
      generalize Gives (.work parent n) "title" o = G1 at *
      generalize (∃ i, parent = some i ∧ o = Term.uri i) = G4 at *
      generalize ctsTerm ['w', 'o', 'r', 'k'] = t1 at *
      generalize (Term.uri (nsDts ++ ['c', 'o', 'l', 'l', 'e', 'c', 't', 'i', 'o', 'n']) : Term) = t2 at *
      clear e1 e2 hgv hl
      by_cases hs : s = .uri (urnOf n)
      · subst hs; grind
      · grind

theorem group_open {n : Node} {parent : Option Str} {g : Graph} :
    Opened g (readProperty .textgroup ['t', 'i', ':', 'g', 'r', 'o', 'u', 'p', 'n', 'a', 'm', 'e'] kGroupname (urnOf n) (newParent (newObject g (urnOf n) ['t', 'e', 'x', 't', 'g', 'r', 'o', 'u', 'p'] ['c', 'o', 'l', 'l', 'e', 'c', 't', 'i', 'o', 'n']) (urnOf n) parent) n)
      (.textgroup parent n) [] := by
  have k1 : CtsClass.textgroup.titleKey = some kGroupname := rfl
  have hgv : ∀ o, GivesFrom ['t', 'i', ':', 'g', 'r', 'o', 'u', 'p', 'n', 'a', 'm', 'e'] n o ↔ Gives (.textgroup parent n) "groupname" o := fun o => gives_iff (x := .textgroup parent n) (by decide +kernel)
  intro s p o
  rw [mem_readProperty, hgv, ctsGroupname_eq]
  simp only [ToldOpen, HeadOf, Replaces, Thing.properties, Thing.title, Thing.type, Thing.model, Thing.speaks, Thing.parent, Thing.node, Thing.element,
    List.mem_singleton, k1, true_and]
  have e1 : (∃ name, name = "groupname" ∧ p = cts name ∧ Gives (.textgroup parent n) name o) ↔ p = cts "groupname" ∧ Gives (.textgroup parent n) "groupname" o := by
    constructor
    · rintro ⟨_, rfl, h⟩; exact h
    · intro h; exact ⟨_, rfl, h⟩
  have e2 : ∀ (P : Node → Kind → Node → Prop), (∃ w k e, Thing.textgroup parent n = Thing.text w k e ∧ P w k e) ↔ False := by
    intro P
    constructor
    · rintro ⟨_, _, _, h, _⟩; cases h
    · exact False.elim
  rw [e1, e2, ← ctsTextgroup_eq, ← collection_eq]
  simp only [mem_newParent, mem_newObject]
  have h1 := lang_ne
  have h2 := capParent_ne
  unfold replacedPredicates at h2
  generalize dc "language" = a at *
  generalize typePredicate = b at *
  generalize modelPredicate = c at *
  generalize (Term.uri "http://purl.org/capitains/ns/1.0#parent".toList) = d at *
  generalize cts "groupname" = q1 at *
  generalize Gives (.textgroup parent n) "groupname" o = G1 at *
  generalize (∃ i, parent = some i ∧ o = Term.uri i) = G4 at *
  generalize ctsTerm ['t', 'e', 'x', 't', 'g', 'r', 'o', 'u', 'p'] = t1 at *
  generalize (Term.uri (nsDts ++ ['c', 'o', 'l', 'l', 'e', 'c', 't', 'i', 'o', 'n']) : Term) = t2 at *
  clear e1 e2 hgv
  by_cases hs : s = .uri (urnOf n)
  · subst hs; grind
  · grind

/-! ### Lists of elements -/

/-- Under predicates that are not replaced, the elements add what they say. -/
def Adds (nsmap : List (Str × Str)) (ob : Str → Objectified) (g g' : Graph) (xs : List Thing) : Prop :=
  ∀ s p o, p ∉ replacedPredicates → ((⟨s, p, o⟩ : Triple) ∈ g' ↔ (⟨s, p, o⟩ : Triple) ∈ g ∨ ∃ x ∈ xs, s = x.node ∧ Told nsmap ob x p o)

/-- Nothing else changes. -/
def Leaves (g g' : Graph) (xs : List Thing) : Prop :=
  ∀ s p o, (∀ x ∈ xs, s ≠ x.node) → ((⟨s, p, o⟩ : Triple) ∈ g' ↔ (⟨s, p, o⟩ : Triple) ∈ g)

/-- All that is said of each of the objects afterwards. -/
def Settles (nsmap : List (Str × Str)) (ob : Str → Objectified) (g g' : Graph) (xs : List Thing) : Prop :=
  ∀ x ∈ xs, ∃ v, (x.speaks → x.Speaks g v) ∧ ∀ p o, (⟨x.node, p, o⟩ : Triple) ∈ g' ↔ SaidAfter nsmap ob g x v p o

theorem node_ne {x y : Thing} : x.node ≠ y.node ↔ urnOf x.element ≠ urnOf y.element := by
  simp [Thing.node]

theorem Adds.nil {nsmap ob} {g : Graph} : Adds nsmap ob g g [] := by intro s p o _; simp

theorem Adds.append {nsmap ob} {g g1 g2 : Graph} {xs ys : List Thing} (h1 : Adds nsmap ob g g1 xs) (h2 : Adds nsmap ob g1 g2 ys) : Adds nsmap ob g g2 (xs ++ ys) := by
  intro s p o hp
  rw [h2 s p o hp, h1 s p o hp]
  simp only [List.mem_append]
  grind

theorem Leaves.nil {g : Graph} : Leaves g g [] := fun _ _ _ _ => .rfl

theorem Leaves.append {g g1 g2 : Graph} {xs ys : List Thing} (h1 : Leaves g g1 xs) (h2 : Leaves g1 g2 ys) : Leaves g g2 (xs ++ ys) := by
  intro s p o h
  rw [h2 s p o fun x hx => h x (by simp [hx]), h1 s p o fun x hx => h x (by simp [hx])]

theorem saidAfter_congr {nsmap ob} {g g' : Graph} {x : Thing} {v : Str} {p o : Term}
    (h : (⟨x.node, p, o⟩ : Triple) ∈ g ↔ (⟨x.node, p, o⟩ : Triple) ∈ g') : SaidAfter nsmap ob g x v p o ↔ SaidAfter nsmap ob g' x v p o := by
  unfold SaidAfter
  rw [h]

/-- The members of a list are read one after the other. -/
theorem into_rel {α : Type} {key : α → Str} {f : Graph → Node → Except PyErr (α × Graph)} (R : Graph → Graph → List Thing → Prop) (T : Node → List Thing)
    (hnil : ∀ g, R g g []) (hcons : ∀ g g1 g2 xs ys, R g g1 xs → R g1 g2 ys → R g g2 (xs ++ ys)) {ns : List Node}
    (hf : ∀ n ∈ ns, ∀ g x g1, f g n = .ok (x, g1) → R g g1 (T n)) {l l' : List α} {g g' : Graph} (h : parseIntoS key f l g ns = .ok (l', g')) :
    R g g' (ns.flatMap T) := by
  induction ns generalizing l g with
  | nil => rw [parseIntoS] at h; cases h; exact hnil _
  | cons n r ih =>
    rw [parseIntoS] at h
    cases h1 : f g n with
    | error e => rw [h1] at h; cases h
    | ok y =>
      obtain ⟨x, g1⟩ := y
      rw [h1] at h
      rw [List.flatMap_cons]
      exact hcons _ _ _ _ _ (hf n (by simp) _ _ _ h1) (ih (fun m hm => hf m (by simp [hm])) h)

theorem headOf_replaced {x : Thing} {v : Str} {p o : Term} (h : HeadOf x v p o) : p ∈ replacedPredicates := by
  unfold replacedPredicates
  rcases h with ⟨h, _⟩ | ⟨h, _⟩ | ⟨h, _⟩ <;> simp [h]

theorem replaces_replaced {x : Thing} {p : Term} (h : Replaces x p) : p ∈ replacedPredicates := by
  unfold replacedPredicates
  rcases h with h | h | ⟨h, _⟩ <;> simp [h]

/-- The additions of an element whose members are read between its own statements and its structured metadata. -/
theorem around_adds {nsmap ob} {g g1 g2 g' : Graph} {x : Thing} {v : Str} {ys : List Thing} (ho : Opened g g1 x v) (ha : Adds nsmap ob g1 g2 ys)
    (hc : ∀ s p o, (⟨s, p, o⟩ : Triple) ∈ g' ↔ (⟨s, p, o⟩ : Triple) ∈ g2 ∨ (s = x.node ∧ ToldInBlock nsmap ob x p o)) : Adds nsmap ob g g' (x :: ys) := by
  intro s p o hp
  rw [hc, ha s p o hp, ho s p o]
  have h1 : ¬ HeadOf x v p o := fun h => hp (headOf_replaced h)
  have h2 : ¬ Replaces x p := fun h => hp (replaces_replaced h)
  simp only [List.mem_cons, told_iff (x := x), h1, h2, or_false, and_false, not_false_eq_true, and_true]
  constructor
  · rintro ((( ⟨a, b⟩ | a) | ⟨y, a, b⟩) | ⟨a, b⟩)
    · exact .inr ⟨x, .inl rfl, a, told_iff.2 (.inl b)⟩
    · exact .inl a
    · exact .inr ⟨y, .inr a, b⟩
    · exact .inr ⟨x, .inl rfl, a, told_iff.2 (.inr b)⟩
  · rintro (a | ⟨y, rfl | a, b, c⟩)
    · exact .inl (.inl (.inr a))
    · rcases told_iff.1 c with c | c
      · exact .inl (.inl (.inl ⟨b, c⟩))
      · exact .inr ⟨b, c⟩
    · exact .inl (.inr ⟨y, a, b, c⟩)

theorem around_leaves {nsmap ob} {g g1 g2 g' : Graph} {x : Thing} {v : Str} {ys : List Thing} (ho : Opened g g1 x v) (ha : Leaves g1 g2 ys)
    (hc : ∀ s p o, (⟨s, p, o⟩ : Triple) ∈ g' ↔ (⟨s, p, o⟩ : Triple) ∈ g2 ∨ (s = x.node ∧ ToldInBlock nsmap ob x p o)) : Leaves g g' (x :: ys) := by
  intro s p o h
  have hx : s ≠ x.node := h x (by simp)
  rw [hc, ha s p o fun y hy => h y (by simp [hy]), ho s p o]
  simp [hx]

theorem around_self {nsmap ob} {g g1 g2 g' : Graph} {x : Thing} {v : Str} {ys : List Thing} (ho : Opened g g1 x v) (ha : Leaves g1 g2 ys)
    (hc : ∀ s p o, (⟨s, p, o⟩ : Triple) ∈ g' ↔ (⟨s, p, o⟩ : Triple) ∈ g2 ∨ (s = x.node ∧ ToldInBlock nsmap ob x p o)) (hd : ∀ y ∈ ys, x.node ≠ y.node) (p o : Term) :
    (⟨x.node, p, o⟩ : Triple) ∈ g' ↔ SaidAfter nsmap ob g x v p o := by
  rw [hc, ha _ p o hd, ho]
  unfold SaidAfter
  rw [told_iff]
  unfold HeadOf Replaces
  simp only [true_and]
  generalize ToldOpen x p o = A
  generalize ToldInBlock nsmap ob x p o = B
  generalize x.speaks = C
  generalize ((⟨x.node, p, o⟩ : Triple) ∈ g) = D
  generalize dc "language" = a
  generalize typePredicate = b
  generalize modelPredicate = c
  generalize x.type = e
  generalize x.model = f
  grind

theorem around_member {nsmap ob} {g g1 g2 g' : Graph} {x : Thing} {v : Str} {y : Thing} (ho : Opened g g1 x v)
    (hc : ∀ s p o, (⟨s, p, o⟩ : Triple) ∈ g' ↔ (⟨s, p, o⟩ : Triple) ∈ g2 ∨ (s = x.node ∧ ToldInBlock nsmap ob x p o)) (hd : x.node ≠ y.node) {u : Str}
    (h : ∀ p o, (⟨y.node, p, o⟩ : Triple) ∈ g2 ↔ SaidAfter nsmap ob g1 y u p o) (p o : Term) :
    (⟨y.node, p, o⟩ : Triple) ∈ g' ↔ SaidAfter nsmap ob g y u p o := by
  rw [hc, h]
  simp only [hd.symm, false_and, or_false]
  apply saidAfter_congr
  rw [ho]
  simp [hd.symm]

/-- What reading texts of a work does. -/
def TextsRead (nsmap : List (Str × Str)) (ob : Str → Objectified) (w : Node) (g g' : Graph) (xs : List Thing) : Prop :=
  Adds nsmap ob g g' xs ∧ Leaves g g' xs ∧ (Distinct xs → (∀ x ∈ xs, urnOf x.element ≠ urnOf w) → ∀ x ∈ xs, ∃ v k e, x = .text w k e ∧ SpeaksNow g v w k e ∧
    ∀ p o, (⟨x.node, p, o⟩ : Triple) ∈ g' ↔ SaidAfter nsmap ob g x v p o)

theorem distinct_append {xs ys : List Thing} (h : Distinct (xs ++ ys)) : Distinct xs ∧ Distinct ys ∧ ∀ x ∈ xs, ∀ y ∈ ys, x.node ≠ y.node := by
  unfold Distinct at *
  rw [List.map_append, List.nodup_append] at h
  refine ⟨h.1, h.2.1, fun x hx y hy => node_ne.2 (h.2.2 _ (List.mem_map_of_mem hx) _ (List.mem_map_of_mem hy))⟩

theorem distinct_cons {x : Thing} {ys : List Thing} (h : Distinct (x :: ys)) : Distinct ys ∧ ∀ y ∈ ys, x.node ≠ y.node := by
  have h := distinct_append (xs := [x]) (ys := ys) h
  exact ⟨h.2.1, h.2.2 x (by simp)⟩

theorem TextsRead.append {nsmap ob} {w : Node} {g g1 g2 : Graph} {xs ys : List Thing} (h1 : TextsRead nsmap ob w g g1 xs) (h2 : TextsRead nsmap ob w g1 g2 ys) :
    TextsRead nsmap ob w g g2 (xs ++ ys) := by
  refine ⟨h1.1.append h2.1, h1.2.1.append h2.2.1, fun hd hw x hx => ?_⟩
  obtain ⟨d1, d2, d3⟩ := distinct_append hd
  rcases List.mem_append.1 hx with hx | hx
  · obtain ⟨v, k, e, a, b, c⟩ := h1.2.2 d1 (fun y hy => hw y (by simp [hy])) x hx
    refine ⟨v, k, e, a, b, fun p o => ?_⟩
    rw [h2.2.1 _ p o fun y hy => d3 x hx y hy, c]
  · obtain ⟨v, k, e, a, b, c⟩ := h2.2.2 d2 (fun y hy => hw y (by simp [hy])) x hx
    refine ⟨v, k, e, a, (speaksNow_congr fun o => ?_).1 b, fun p o => ?_⟩
    · refine h1.2.1 _ _ o fun y hy h => hw y (by simp [hy]) ?_
      simp only [Thing.node, Term.uri.injEq] at h
      exact h.symm
    · rw [c]
      exact saidAfter_congr (h1.2.1 _ p o fun y hy => (d3 y hy x hx).symm)

theorem text_read {order : Order} (ho : Rearranges order) {nsmap ob} {k : Kind} {w n : Node} {g : Graph} {t : GText} {g' : Graph}
    (hp : ∀ m ∈ (Thing.text w k n).block, ProperTag m.tag) (h : parseTextG order nsmap ob k (some (urnOf w)) g n = .ok (t, g')) :
    t = ⟨urnOf n, k, ingestOnline n⟩ ∧ TextsRead nsmap ob w g g' [.text w k n] := by
  unfold parseTextG at h
  cases hid : parseId n with
  | error e => rw [hid] at h; cases h
  | ok id =>
    rw [hid] at h
    have := parseId_urn hid
    subst this
    dsimp only at h
    split at h
    · cases h
    · rename_i g2 hs
      cases h
      obtain ⟨v, hv, hopen⟩ := text_open ho (w := w) (n := n) (k := k) (g := g)
      have hc := fun s p o => mem_parseStructured (x := .text w k n) hp hs (s := s) (p := p) (o := o)
      refine ⟨rfl, around_adds hopen Adds.nil hc, around_leaves hopen Leaves.nil hc, fun _ _ x hx => ?_⟩
      rw [List.mem_singleton] at hx
      subst hx
      exact ⟨v, k, n, rfl, hv, around_self hopen Leaves.nil hc (by simp)⟩

theorem texts_read {order : Order} (ho : Rearranges order) {nsmap ob} {w : Node} {g : Graph} {l : List GText} {g' : Graph}
    (hp : ProperBlocks (textElements w)) (h : parseTextsG order nsmap ob (urnOf w) g w = .ok (l, g')) : TextsRead nsmap ob w g g' (textElements w) := by
  unfold parseTextsG at h
  have t1 : ("ti:" ++ kindName .edition).toList = ['t', 'i', ':', 'e', 'd', 'i', 't', 'i', 'o', 'n'] := by decide +kernel
  have t2 : ("ti:" ++ kindName .translation).toList = ['t', 'i', ':', 't', 'r', 'a', 'n', 's', 'l', 'a', 't', 'i', 'o', 'n'] := by decide +kernel
  have t3 : ("ti:" ++ kindName .commentary).toList = ['t', 'i', ':', 'c', 'o', 'm', 'm', 'e', 'n', 't', 'a', 'r', 'y'] := by decide +kernel
  rw [namedKids_children t1, namedKids_children t2, namedKids_children t3] at h
  have hmem : ∀ k ∈ [Kind.edition, .translation, .commentary], ∀ n ∈ childrenCalled ("ti:" ++ kindName k) w, Thing.text w k n ∈ textElements w := by
    intro k hk n hn
    unfold textElements
    exact List.mem_flatMap.2 ⟨k, hk, List.mem_map_of_mem hn⟩
  have hone : ∀ k ∈ [Kind.edition, .translation, .commentary], ∀ {l l' : List GText} {g g' : Graph},
      parseIntoS GText.id (parseTextG order nsmap ob k (some (urnOf w))) l g (childrenCalled ("ti:" ++ kindName k) w) = .ok (l', g') →
      TextsRead nsmap ob w g g' ((childrenCalled ("ti:" ++ kindName k) w).map (.text w k)) := by
    intro k hk l l' g g' h
    have := into_rel (TextsRead nsmap ob w) (fun n => [.text w k n]) (fun g => ⟨Adds.nil, Leaves.nil, fun _ _ x hx => by cases hx⟩)
      (fun _ _ _ _ _ a b => a.append b) (fun n hn g x g1 hx => (text_read ho (hp _ (hmem k hk n hn)) hx).2) h
    rwa [← List.map_eq_flatMap] at this
  split at h
  · cases h
  · rename_i l1 g1 e1
    split at h
    · cases h
    · rename_i l2 g2 e2
      have := ((hone .edition (by simp) e1).append (hone .translation (by simp) e2)).append (hone .commentary (by simp) h)
      unfold textElements
      simpa using this

/-- The texts of a list have their works in it. -/
def Closed (xs : List Thing) : Prop := ∀ w k e, Thing.text w k e ∈ xs → ∃ y ∈ xs, y.node = .uri (urnOf w)

/-- What reading works and textgroups does. -/
def ThingsRead (nsmap : List (Str × Str)) (ob : Str → Objectified) (g g' : Graph) (xs : List Thing) : Prop :=
  Adds nsmap ob g g' xs ∧ Leaves g g' xs ∧ Closed xs ∧ (Distinct xs → Settles nsmap ob g g' xs)

theorem speaks_congr {g g' : Graph} {x : Thing} {v : Str}
    (h : ∀ w k e, x = .text w k e → ∀ o, (⟨.uri (urnOf w), dc "language", o⟩ : Triple) ∈ g ↔ (⟨.uri (urnOf w), dc "language", o⟩ : Triple) ∈ g') :
    x.Speaks g v ↔ x.Speaks g' v := by
  cases x with
  | textgroup => rfl
  | work => rfl
  | text w k e =>
    have := spokenIn_congr (v := v) (h w k e rfl)
    simp only [Thing.Speaks]
    split
    · rfl
    · rfl
    · exact this

theorem ThingsRead.nil {nsmap ob} {g : Graph} : ThingsRead nsmap ob g g [] :=
  ⟨Adds.nil, Leaves.nil, (fun _ _ _ h => by cases h), (fun _ x hx => by cases hx)⟩

theorem ThingsRead.append {nsmap ob} {g g1 g2 : Graph} {xs ys : List Thing} (h1 : ThingsRead nsmap ob g g1 xs) (h2 : ThingsRead nsmap ob g1 g2 ys) :
    ThingsRead nsmap ob g g2 (xs ++ ys) := by
  refine ⟨h1.1.append h2.1, h1.2.1.append h2.2.1, ?_, fun hd x hx => ?_⟩
  · intro w k e h
    rcases List.mem_append.1 h with h | h
    · obtain ⟨y, hy, e⟩ := h1.2.2.1 w k e h
      exact ⟨y, by simp [hy], e⟩
    · obtain ⟨y, hy, e⟩ := h2.2.2.1 w k e h
      exact ⟨y, by simp [hy], e⟩
  · obtain ⟨d1, d2, d3⟩ := distinct_append hd
    rcases List.mem_append.1 hx with hx | hx
    · obtain ⟨v, b, c⟩ := h1.2.2.2 d1 x hx
      refine ⟨v, b, fun p o => ?_⟩
      rw [h2.2.1 _ p o fun y hy => d3 x hx y hy, c]
    · obtain ⟨v, b, c⟩ := h2.2.2.2 d2 x hx
      refine ⟨v, fun hs => (speaks_congr fun w k e he o => ?_).1 (b hs), fun p o => ?_⟩
      · subst he
        obtain ⟨z, hz, ez⟩ := h2.2.2.1 w k e hx
        rw [← ez]
        exact h1.2.1 _ _ o fun y hy => (d3 y hy z hz).symm
      · rw [c]
        exact saidAfter_congr (h1.2.1 _ p o fun y hy => (d3 y hy x hx).symm)

theorem toldOpen_language {x : Thing} {o : Term} : ¬ ToldOpen x (dc "language") o := by
  have h1 : ∀ name ∈ ["groupname", "title", "label", "description", "about"], dc "language" ≠ cts name := by decide +kernel
  have h2 : dc "language" ∉ labelPredicates := by decide +kernel
  have h3 : dc "language" ≠ (Term.uri "http://purl.org/capitains/ns/1.0#parent".toList) := by decide +kernel
  rintro (⟨name, a, b, _⟩ | ⟨a, _⟩ | ⟨w, k, e, _, a, _⟩ | ⟨a, _⟩)
  · refine h1 name ?_ b
    cases x <;> simp [Thing.properties, Thing.title] at a <;> rcases a with rfl | rfl <;> decide
  · exact h2 a
  · exact h1 "about" (by decide) a
  · exact h3 a

/-- The language of a text whose work was just read. -/
theorem speaks_of_now {g g1 : Graph} {w : Node} {parent : Option Str} {u v : Str} {k : Kind} {e : Node} (ho : Opened g g1 (.work parent w) u)
    (hu : (Thing.work parent w).speaks → (Thing.work parent w).Speaks g u) (h : SpeaksNow g1 v w k e) : (Thing.text w k e).Speaks g v := by
  unfold SpeaksNow at h
  simp only [Thing.Speaks]
  have hm : ∀ o, (⟨.uri (urnOf w), dc "language", o⟩ : Triple) ∈ g1 ↔
      ((Thing.work parent w).speaks ∧ o = .lit u none none) ∨ ((⟨.uri (urnOf w), dc "language", o⟩ : Triple) ∈ g ∧ ¬ (Thing.work parent w).speaks) := by
    intro o
    have := ho (.uri (urnOf w)) (dc "language") o
    rw [this]
    have h1 := lang_ne
    simp only [Thing.node, Thing.element, true_and, toldOpen_language, false_or, HeadOf, Replaces, h1.1, h1.2.1, false_and, true_and]
  cases hk : (if k = Kind.edition then none else e.get "xml:lang".toList) with
  | some l => rw [hk] at h; exact h
  | none =>
    rw [hk] at h
    dsimp only at h
    cases hw : w.get "xml:lang".toList with
    | some l =>
      dsimp only
      have hs : (Thing.work parent w).speaks := by show w.get "xml:lang".toList ≠ none; rw [hw]; simp
      have hl : u = l := by
        have h3 : w.get "xml:lang".toList = some u := hu hs
        rw [hw] at h3
        cases h3
        rfl
      subst hl
      unfold SpokenIn at h
      simp only [hm, hs, true_and, not_true_eq_false, and_false, or_false] at h
      rcases h with ⟨o, rfl, h⟩ | ⟨h, _⟩
      · exact h
      · exact absurd rfl (h _)
    | none =>
      dsimp only
      have hs : ¬ (Thing.work parent w).speaks := by show ¬ (w.get "xml:lang".toList ≠ none); rw [hw]; simp
      refine (spokenIn_congr fun o => ?_).1 h
      rw [hm]
      simp [hs]

theorem work_read {order : Order} (ho : Rearranges order) {nsmap ob} {parent : Option Str} {n : Node} {g : Graph} {t : GWork} {g' : Graph}
    (hp : ProperBlocks (workAndTexts parent n)) (h : parseWorkG order nsmap ob parent g n = .ok (t, g')) :
    ThingsRead nsmap ob g g' (workAndTexts parent n) := by
  unfold parseWorkG at h
  cases hid : parseId n with
  | error e => rw [hid] at h; cases h
  | ok id =>
    rw [hid] at h
    have := parseId_urn hid
    subst this
    dsimp only at h
    obtain ⟨v, hv, hopen⟩ := work_open (n := n) (parent := parent) (g := g)
    split at h
    · cases h
    · rename_i texts g2 ht
      split at h
      · cases h
      · rename_i g3 hs
        cases h
        have htr := texts_read ho (fun x hx => hp x (by simp [workAndTexts, hx])) ht
        have hc := fun s p o => mem_parseStructured (x := .work parent n) (hp _ (by simp [workAndTexts])) hs (s := s) (p := p) (o := o)
        refine ⟨around_adds hopen htr.1 hc, around_leaves hopen htr.2.1 hc, ?_, fun hd x hx => ?_⟩
        · intro w k e hm
          refine ⟨.work parent n, by simp [workAndTexts], ?_⟩
          simp only [workAndTexts, List.mem_cons, reduceCtorEq, false_or, textElements, List.mem_flatMap, List.mem_map] at hm
          obtain ⟨_, _, _, _, hm⟩ := hm
          cases hm
          rfl
        · obtain ⟨d1, d2⟩ := distinct_cons hd
          rcases List.mem_cons.1 hx with rfl | hx
          · exact ⟨v, hv, around_self hopen htr.2.1 hc d2⟩
          · obtain ⟨u, k, e, rfl, b, c⟩ := htr.2.2 d1 (fun y hy => (node_ne.1 (d2 y hy)).symm) x hx
            exact ⟨u, fun _ => speaks_of_now hopen hv b, around_member hopen hc (d2 _ hx) c⟩

theorem group_read {order : Order} (ho : Rearranges order) {nsmap ob} {parent : Option Str} {n : Node} {g : Graph} {t : GGroup} {g' : Graph}
    (hp : ProperBlocks (groupAndBelow parent n)) (h : parseGroupG order nsmap ob parent g n = .ok (t, g')) :
    ThingsRead nsmap ob g g' (groupAndBelow parent n) := by
  unfold parseGroupG at h
  cases hid : parseId n with
  | error e => rw [hid] at h; cases h
  | ok id =>
    rw [hid] at h
    have := parseId_urn hid
    subst this
    dsimp only at h
    have hopen := group_open (n := n) (parent := parent) (g := g)
    rw [namedKids_children (name := "ti:work") (by decide +kernel)] at h
    split at h
    · cases h
    · rename_i works g2 ht
      split at h
      · cases h
      · rename_i g3 hs
        cases h
        have htr := into_rel (ThingsRead nsmap ob) (workAndTexts (some (urnOf n))) (fun g => ThingsRead.nil) (fun _ _ _ _ _ a b => a.append b)
          (fun m hm g x g1 hx => work_read ho (fun x hx => hp x (by
            simp only [groupAndBelow, List.mem_cons, List.mem_flatMap]
            exact .inr ⟨m, hm, hx⟩)) hx) ht
        have hc := fun s p o => mem_parseStructured (x := .textgroup parent n) (hp _ (by simp [groupAndBelow])) hs (s := s) (p := p) (o := o)
        refine ⟨around_adds hopen htr.1 hc, around_leaves hopen htr.2.1 hc, ?_, fun hd x hx => ?_⟩
        · intro w k e hm
          simp only [groupAndBelow, List.mem_cons, reduceCtorEq, false_or] at hm
          obtain ⟨y, hy, ey⟩ := htr.2.2.1 w k e hm
          exact ⟨y, by simp only [groupAndBelow, List.mem_cons]; exact .inr hy, ey⟩
        · obtain ⟨d1, d2⟩ := distinct_cons hd
          rcases List.mem_cons.1 hx with rfl | hx
          · exact ⟨[], (fun hs => by cases hs), around_self hopen htr.2.1 hc d2⟩
          · obtain ⟨u, b, c⟩ := htr.2.2.2 d1 x hx
            refine ⟨u, fun hs => (speaks_congr fun w k e he o => ?_).1 (b hs), around_member hopen hc (d2 _ hx) c⟩
            subst he
            obtain ⟨z, hz, ez⟩ := htr.2.2.1 w k e hx
            rw [← ez, hopen]
            simp [(d2 z hz).symm]

theorem named_eq {name : String} {tag : Str} (h : name.toList = tag) (n : Node) : (n.allNodes.filter fun c => c.tag = tag) = named name n := by
  rw [named, allNodes_elements, h]

/-- A whole inventory. -/
theorem inv_read {order : Order} (ho : Rearranges order) {nsmap ob} {n : Node} {g : Graph} {t : GInv} {g' : Graph}
    (hp : ProperBlocks (things n)) (h : parseInvG order nsmap ob g n = .ok (t, g')) : t.id = inventoryId n ∧
    ThingsRead nsmap ob (newObject g (inventoryId n) ['T', 'e', 'x', 't', 'I', 'n', 'v', 'e', 'n', 't', 'o', 'r', 'y'] ['c', 'o', 'l', 'l', 'e', 'c', 't', 'i', 'o', 'n']) g' (things n) := by
  unfold parseInvG at h
  rw [named_eq (name := "ti:TextInventory") (by decide +kernel), named_eq (name := "ti:textgroup") (by decide +kernel)] at h
  have ht : "tiid".toList = ['t', 'i', 'i', 'd'] := by decide +kernel
  cases hn : named "ti:TextInventory" n with
  | nil => rw [hn] at h; cases h
  | cons e r =>
    have hid : inventoryId n = (e.get ['t', 'i', 'i', 'd']).getD [] := by rw [inventoryId, hn, ht]
    rw [hn] at h
    dsimp only at h
    rw [← hid] at h
    split at h
    · cases h
    · rename_i groups g2 hg
      cases h
      refine ⟨rfl, ?_⟩
      exact into_rel (ThingsRead nsmap ob) (groupAndBelow (some (inventoryId n))) (fun g => ThingsRead.nil) (fun _ _ _ _ _ a b => a.append b)
        (fun m hm g x g1 hx => group_read ho (fun x hx => hp x (List.mem_flatMap.2 ⟨m, hm, hx⟩)) hx) hg

end Verif.Lemmas
