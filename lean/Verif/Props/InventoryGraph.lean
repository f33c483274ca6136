import Verif.Lemmas.InventoryGraphObjects
/-!
C86: what the one graph of the library says after an inventory has been parsed.

Spec: Verif/Spec/InventoryGraph.lean; model: Verif/Model/InventoryGraph.lean.
-/
namespace Verif.Props
open Verif.Py Verif.Model Verif.Spec Verif.Lemmas

/-! ### An inventory with a textgroup, a work and two texts -/

def exUrn (s : String) : Str := ("urn:cts:latinLit:phi1294" ++ s).toList

/-- An element with a language. -/
def exSaid (tag lang text : String) : Node := .mk tag.toList [("xml:lang".toList, lang.toList)] text.toList [] []

def exCreator : Node := .mk "{http://purl.org/dc/elements/1.1/}creator".toList [("xml:lang".toList, "lat".toList)] "Martialis".toList [] []

def exBlock (ms : List Node) : Node := .mk "{http://purl.org/capitains/ns/1.0#}structured-metadata".toList [] [] ms []

def exGEdition : Node := .mk "ti:edition".toList [("urn".toList, exUrn ".phi002.perseus-lat2")] []
  [exSaid "ti:label" "eng" "Epigrammata", exSaid "ti:description" "eng" "Leipzig 1886", exBlock [exCreator]] []

def exGTranslation : Node := .mk "ti:translation".toList [("urn".toList, exUrn ".phi002.perseus-eng2"), ("xml:lang".toList, "eng".toList)] []
  [exSaid "ti:label" "eng" "Epigrams", exSaid "ti:label" "fre" "Épigrammes", .mk "ti:about".toList [("urn".toList, exUrn ".phi002")] [] [] []] []

def exGWork (attrs : List (Str × Str)) (texts : List Node) : Node :=
  .mk "ti:work".toList (("urn".toList, exUrn ".phi002") :: attrs) [] (exSaid "ti:title" "lat" "Epigrammata" :: texts) []

def exGGroup (name : String) (works : List Node) : Node :=
  .mk "ti:textgroup".toList [("urn".toList, exUrn "")] [] (exSaid "ti:groupname" "eng" name :: works) []

def exGDoc (groups : List Node) : Node := .mk "ti:TextInventory".toList [("tiid".toList, "annotsrc".toList)] [] groups []

def exInventory : Node := exGDoc [exGGroup "Martial" [exGWork [("xml:lang".toList, "lat".toList)] [exGEdition, exGTranslation]]]

/-- `lxml.objectify` of texts that are no numbers. -/
def exPlain : Str → Objectified := fun s => ⟨s, .other⟩

/-- The graph after a document, or nothing. -/
def graphAfter (g : Graph) (doc : Node) : Graph := match parseInvG id [] exPlain g doc with
  | .ok (_, g) => g
  | .error _ => []

theorem exId : Rearranges id := fun g => List.Perm.refl g

theorem exThings : things exInventory =
    [.textgroup (some "annotsrc".toList) (exGGroup "Martial" [exGWork [("xml:lang".toList, "lat".toList)] [exGEdition, exGTranslation]]),
     .work (some (exUrn "")) (exGWork [("xml:lang".toList, "lat".toList)] [exGEdition, exGTranslation]),
     .text (exGWork [("xml:lang".toList, "lat".toList)] [exGEdition, exGTranslation]) .edition exGEdition,
     .text (exGWork [("xml:lang".toList, "lat".toList)] [exGEdition, exGTranslation]) .translation exGTranslation] := by
  rfl

theorem exOk : ∃ o, parseInvG id [] exPlain [] exInventory = .ok (o, graphAfter [] exInventory) := by
  have h : (match parseInvG id [] exPlain [] exInventory with | .ok _ => true | .error _ => false) = true := by decide +kernel
  unfold graphAfter
  cases h1 : parseInvG id [] exPlain [] exInventory with
  | error e => rw [h1] at h; cases h
  | ok y => exact ⟨y.1, rfl⟩

theorem exBlocks : ∀ x ∈ things exInventory, ∀ m ∈ x.block, m = exCreator := by
  rw [exThings]
  intro x hx m hm
  simp only [List.mem_cons, List.not_mem_nil, or_false] at hx
  rcases hx with rfl | rfl | rfl | rfl
  · have h : m ∈ ([] : List Node) := hm
    cases h
  · have h : m ∈ ([] : List Node) := hm
    cases h
  · have h : m ∈ [exCreator] := hm
    simpa using h
  · have h : m ∈ ([] : List Node) := hm
    cases h

theorem exProper : ProperBlocks (things exInventory) := by
  intro x hx m hm
  rw [exBlocks x hx m hm]
  exact Or.inr ⟨"http://purl.org/dc/elements/1.1/".toList, "creator".toList, by decide +kernel, by decide +kernel, by decide +kernel, by decide +kernel, by decide +kernel⟩

theorem exDistinct : Distinct (things exInventory) := by
  rw [exThings]
  show List.Nodup [exUrn "", exUrn ".phi002", exUrn ".phi002.perseus-lat2", exUrn ".phi002.perseus-eng2"]
  decide +kernel

theorem exInventoryId : ∀ x ∈ things exInventory, urnOf x.element ≠ inventoryId exInventory := by
  have h1 : inventoryId exInventory = "annotsrc".toList := rfl
  have h2 : ∀ u ∈ [exUrn "", exUrn ".phi002", exUrn ".phi002.perseus-lat2", exUrn ".phi002.perseus-eng2"], u ≠ "annotsrc".toList := by decide +kernel
  rw [exThings, h1]
  intro x hx
  apply h2
  simp only [List.mem_cons, List.not_mem_nil, or_false] at hx
  rcases hx with rfl | rfl | rfl | rfl
  · exact List.mem_cons_self
  · exact .tail _ List.mem_cons_self
  · exact .tail _ (.tail _ List.mem_cons_self)
  · exact .tail _ (.tail _ (.tail _ List.mem_cons_self))

theorem exApart : BlocksApart (things exInventory) := by
  intro x hx m hm u hu
  rw [exBlocks x hx m hm] at hu
  have h : u = "http://purl.org/dc/elements/1.1/creator".toList := by
    rcases hu with ⟨name, h, _⟩ | ⟨ns, name, h, h1, rfl⟩
    · have e : exCreator.tag = '{' :: "http://purl.org/dc/elements/1.1/}creator".toList := by decide +kernel
      have e2 : "ti:".toList = ['t', 'i', ':'] := by decide +kernel
      rw [e, e2] at h
      cases h
    · have e : exCreator.tag = '{' :: ("http://purl.org/dc/elements/1.1/".toList ++ '}' :: "creator".toList) := by decide +kernel
      have e2 : "{".toList = ['{'] := by decide +kernel
      have e3 : "}".toList = ['}'] := by decide +kernel
      have h2 : '}' ∉ "http://purl.org/dc/elements/1.1/".toList := by decide +kernel
      have h4 : "http://purl.org/dc/elements/1.1/creator".toList = "http://purl.org/dc/elements/1.1/".toList ++ "creator".toList := by decide +kernel
      rw [e, e2, e3] at h
      rw [h4]
      generalize "http://purl.org/dc/elements/1.1/".toList = a at *
      generalize "creator".toList = b at *
      have h : a ++ '}' :: b = ns ++ '}' :: name := by simpa using h
      have h3 : a = ns := by
        have := congrArg (List.takeWhile (· ≠ '}')) h
        rw [List.takeWhile_append_of_pos (by grind), List.takeWhile_append_of_pos (by grind)] at this
        simpa using this
      subst h3
      have h := List.append_cancel_left h
      cases h
      rfl
  subst h
  decide +kernel

theorem exFresh : Unmentioned [] (things exInventory) := by intro x _ p o h; cases h

/-! ### What is said -/

section
variable {order : Order} (ho : Rearranges order) {nsmap : List (Str × Str)} {ob : Str → Objectified} {g g' : Graph}
include ho

/-- C86. Under every predicate but those of classes, models and languages, parsing an inventory adds to the graph what the
elements of the document say, and keeps all that was there. The document may use identifiers more than once. -/
theorem C86_statements {doc : Node} {o : GInv} (hp : ProperBlocks (things doc)) (h : parseInvG order nsmap ob g doc = .ok (o, g')) (s p v : Term) (hr : p ∉ replacedPredicates) :
    (⟨s, p, v⟩ : Triple) ∈ g' ↔ (⟨s, p, v⟩ : Triple) ∈ g ∨ ∃ x ∈ things doc, s = x.node ∧ Told nsmap ob x p v := by
  refine ((inv_read ho hp h).2.1 s p v hr).trans (or_congr ?_ Iff.rfl)
  rw [mem_newObject]
  simp only [replacedPredicates, List.mem_cons, List.not_mem_nil, or_false, not_or] at hr
  simp [hr]

example : ∀ s p v, p ∉ replacedPredicates → ((⟨s, p, v⟩ : Triple) ∈ graphAfter [] exInventory ↔ ∃ x ∈ things exInventory, s = x.node ∧ Told [] exPlain x p v) := by
  intro s p v hr
  obtain ⟨o, h⟩ := exOk
  simpa using C86_statements exId exProper h s p v hr

/-- C86. When no two elements share their identifier, what is said of an object afterwards is what its element says, its class, its
model and its language, and what was said of it before under other predicates. -/
theorem C86_objects {doc : Node} {o : GInv} (hp : ProperBlocks (things doc)) (hd : Distinct (things doc)) (h : parseInvG order nsmap ob g doc = .ok (o, g')) :
    ∀ x ∈ things doc, ∃ lang, (x.speaks → x.Speaks g lang) ∧ ∀ p v, (⟨x.node, p, v⟩ : Triple) ∈ g' ↔ SaidAfter nsmap ob g x lang p v := by
  intro x hx
  obtain ⟨v, hv, hs⟩ := (inv_read ho hp h).2.2.2.2 hd x hx
  have hl := lang_ne
  refine ⟨v, fun hsp => (speaks_congr fun w k e he o => ?_).1 (hv hsp), fun p o => (hs p o).trans ?_⟩
  · rw [mem_newObject]
    simp [hl]
  · unfold SaidAfter
    rw [mem_newObject]
    grind

example : ∀ x ∈ things exInventory, ∃ lang, (x.speaks → x.Speaks [] lang) ∧
    ∀ p v, (⟨x.node, p, v⟩ : Triple) ∈ graphAfter [] exInventory ↔ SaidAfter [] exPlain [] x lang p v := by
  obtain ⟨o, h⟩ := exOk
  exact C86_objects exId exProper exDistinct h

/-- C86. The inventory gets its class and its model; nothing else that is said of nodes outside the document changes. -/
theorem C86_others {doc : Node} {o : GInv} (hp : ProperBlocks (things doc)) (h : parseInvG order nsmap ob g doc = .ok (o, g')) (s p v : Term) (hs : ∀ x ∈ things doc, s ≠ x.node) :
    (⟨s, p, v⟩ : Triple) ∈ g' ↔ (s = .uri (inventoryId doc) ∧ ((p = typePredicate ∧ v = cts "TextInventory") ∨
        (p = modelPredicate ∧ v = .uri "https://w3id.org/dts/api#collection".toList))) ∨
      ((⟨s, p, v⟩ : Triple) ∈ g ∧ ¬ (s = .uri (inventoryId doc) ∧ (p = typePredicate ∨ p = modelPredicate))) := by
  refine ((inv_read ho hp h).2.2.1 s p v hs).trans ?_
  rw [mem_newObject, ctsInventory_eq, collection_eq]

example : ∀ p v, (⟨.uri "annotsrc".toList, p, v⟩ : Triple) ∈ graphAfter [] exInventory ↔
    (p = typePredicate ∧ v = cts "TextInventory") ∨ (p = modelPredicate ∧ v = .uri "https://w3id.org/dts/api#collection".toList) := by
  intro p v
  obtain ⟨o, h⟩ := exOk
  have := C86_others exId exProper h (.uri "annotsrc".toList) p v (fun x hx e => exInventoryId x hx (Term.uri.inj e).symm)
  simpa [show inventoryId exInventory = "annotsrc".toList from rfl] using this

/-- C86. The same for the document of one textgroup, read with or without a parent. -/
theorem C86_textgroup {parent : Option Str} {doc : Node} {o : GGroup} (hp : ProperBlocks (groupAndBelow parent doc)) (h : parseGroupG order nsmap ob parent g doc = .ok (o, g')) :
    (∀ s p v, p ∉ replacedPredicates → ((⟨s, p, v⟩ : Triple) ∈ g' ↔ (⟨s, p, v⟩ : Triple) ∈ g ∨ ∃ x ∈ groupAndBelow parent doc, s = x.node ∧ Told nsmap ob x p v)) ∧
    (∀ s p v, (∀ x ∈ groupAndBelow parent doc, s ≠ x.node) → ((⟨s, p, v⟩ : Triple) ∈ g' ↔ (⟨s, p, v⟩ : Triple) ∈ g)) ∧
    (Distinct (groupAndBelow parent doc) → ∀ x ∈ groupAndBelow parent doc, ∃ lang, (x.speaks → x.Speaks g lang) ∧
      ∀ p v, (⟨x.node, p, v⟩ : Triple) ∈ g' ↔ SaidAfter nsmap ob g x lang p v) := by
  obtain ⟨a, b, _, d⟩ := group_read ho hp h
  exact ⟨a, b, d⟩

example : ∃ o g', parseGroupG id [] exPlain (some "annotsrc".toList) [] (exGGroup "Martial" [exGWork [("xml:lang".toList, "lat".toList)] [exGEdition, exGTranslation]]) = .ok (o, g') ∧
    ∀ x ∈ things exInventory, ∃ lang, (x.speaks → x.Speaks [] lang) ∧ ∀ p v, (⟨x.node, p, v⟩ : Triple) ∈ g' ↔ SaidAfter [] exPlain [] x lang p v := by
  have e : groupAndBelow (some "annotsrc".toList) (exGGroup "Martial" [exGWork [("xml:lang".toList, "lat".toList)] [exGEdition, exGTranslation]]) = things exInventory := by
    rw [exThings]; rfl
  have h : (match parseGroupG id [] exPlain (some "annotsrc".toList) [] (exGGroup "Martial" [exGWork [("xml:lang".toList, "lat".toList)] [exGEdition, exGTranslation]]) with
    | .ok _ => true | .error _ => false) = true := by decide +kernel
  cases h1 : parseGroupG id [] exPlain (some "annotsrc".toList) [] (exGGroup "Martial" [exGWork [("xml:lang".toList, "lat".toList)] [exGEdition, exGTranslation]]) with
  | error e => rw [h1] at h; cases h
  | ok y =>
    have := (C86_textgroup exId (by rw [e]; exact exProper) h1).2.2 (by rw [e]; exact exDistinct)
    rw [e] at this
    exact ⟨y.1, y.2, rfl, this⟩

/-- C86. The same for the document of one work. -/
theorem C86_work {parent : Option Str} {doc : Node} {o : GWork} (hp : ProperBlocks (workAndTexts parent doc)) (h : parseWorkG order nsmap ob parent g doc = .ok (o, g')) :
    (∀ s p v, p ∉ replacedPredicates → ((⟨s, p, v⟩ : Triple) ∈ g' ↔ (⟨s, p, v⟩ : Triple) ∈ g ∨ ∃ x ∈ workAndTexts parent doc, s = x.node ∧ Told nsmap ob x p v)) ∧
    (∀ s p v, (∀ x ∈ workAndTexts parent doc, s ≠ x.node) → ((⟨s, p, v⟩ : Triple) ∈ g' ↔ (⟨s, p, v⟩ : Triple) ∈ g)) ∧
    (Distinct (workAndTexts parent doc) → ∀ x ∈ workAndTexts parent doc, ∃ lang, (x.speaks → x.Speaks g lang) ∧
      ∀ p v, (⟨x.node, p, v⟩ : Triple) ∈ g' ↔ SaidAfter nsmap ob g x lang p v) := by
  obtain ⟨a, b, _, d⟩ := work_read ho hp h
  exact ⟨a, b, d⟩

example : ∃ o g', parseWorkG id [] exPlain none [] (exGWork [("xml:lang".toList, "lat".toList)] [exGEdition, exGTranslation]) = .ok (o, g') ∧
    ∀ v, (⟨.uri (exUrn ".phi002"), cts "title", v⟩ : Triple) ∈ g' → v = .lit "Epigrammata".toList (some "lat".toList) none := by
  have h : (match parseWorkG id [] exPlain none [] (exGWork [("xml:lang".toList, "lat".toList)] [exGEdition, exGTranslation]) with
    | .ok (_, g) => g.all fun t => decide (t.s = .uri (exUrn ".phi002") → t.p = cts "title" → t.o = .lit "Epigrammata".toList (some "lat".toList) none)
    | .error _ => false) = true := by decide +kernel
  cases h1 : parseWorkG id [] exPlain none [] (exGWork [("xml:lang".toList, "lat".toList)] [exGEdition, exGTranslation]) with
  | error e => rw [h1] at h; cases h
  | ok y =>
    obtain ⟨o, g'⟩ := y
    rw [h1] at h
    refine ⟨o, g', rfl, fun v hv => ?_⟩
    have := List.all_eq_true.1 h _ hv
    simpa using this

/-- C86. After two documents, what is said under those predicates is what both say: their order does not matter. -/
theorem C86_order {doc1 doc2 : Node} {o1 o2 p1 p2 : GInv} {ga gab gb gba : Graph} (h1 : ProperBlocks (things doc1)) (h2 : ProperBlocks (things doc2))
    (a : parseInvG order nsmap ob g doc1 = .ok (o1, ga)) (ab : parseInvG order nsmap ob ga doc2 = .ok (o2, gab))
    (b : parseInvG order nsmap ob g doc2 = .ok (p2, gb)) (ba : parseInvG order nsmap ob gb doc1 = .ok (p1, gba)) (s p v : Term) (hr : p ∉ replacedPredicates) :
    ((⟨s, p, v⟩ : Triple) ∈ gab ↔ (⟨s, p, v⟩ : Triple) ∈ gba) ∧ o1 = p1 ∧ o2 = p2 := by
  refine ⟨?_, ?_, ?_⟩
  · rw [C86_statements ho h2 ab s p v hr, C86_statements ho h1 a s p v hr, C86_statements ho h1 ba s p v hr, C86_statements ho h2 b s p v hr]
    grind
  · have e := (inv_object order nsmap ob g [] doc1).trans (inv_object order nsmap ob gb [] doc1).symm
    rw [a, ba] at e
    exact Except.ok.inj e
  · have e := (inv_object order nsmap ob ga [] doc2).trans (inv_object order nsmap ob g [] doc2).symm
    rw [ab, b] at e
    exact Except.ok.inj e

example : ∃ o1 o2 p1 p2 ga gab gb gba, parseInvG id [] exPlain [] exInventory = .ok (o1, ga) ∧ parseInvG id [] exPlain ga (exGDoc []) = .ok (o2, gab) ∧
    parseInvG id [] exPlain [] (exGDoc []) = .ok (p2, gb) ∧ parseInvG id [] exPlain gb exInventory = .ok (p1, gba) ∧ o1 = p1 ∧ o2 = p2 := by
  obtain ⟨o, h⟩ := exOk
  have h2 : ∀ g, parseInvG id [] exPlain g (exGDoc []) = .ok (⟨"annotsrc".toList, []⟩, newObject g "annotsrc".toList "TextInventory".toList "collection".toList) := fun g => rfl
  have e := inv_object id [] exPlain (newObject [] "annotsrc".toList "TextInventory".toList "collection".toList) [] exInventory
  rw [← inv_object id [] exPlain [] [] exInventory, h] at e
  cases h3 : parseInvG id [] exPlain (newObject [] "annotsrc".toList "TextInventory".toList "collection".toList) exInventory with
  | error x => rw [h3] at e; cases e
  | ok y => exact ⟨_, _, y.1, _, _, _, _, y.2, h, h2 _, h2 _, h3, (C86_order exId exProper (by intro x hx; cases hx) h (h2 _) (h2 _) h3 (.uri []) (.uri []) (.uri []) (by decide +kernel)).2⟩

/-! ### What the getters answer -/

/-- C86. The class and the model of every object are those of its element, whatever the graph said before. -/
theorem C86_type {doc : Node} {o : GInv} (hp : ProperBlocks (things doc)) (hd : Distinct (things doc)) (hb : BlocksApart (things doc))
    (h : parseInvG order nsmap ob g doc = .ok (o, g')) : ∀ x ∈ things doc, typeOf order g' (urnOf x.element) = .ok x.type ∧ modelOf order g' (urnOf x.element) = .ok x.model := by
  intro x hx
  obtain ⟨v, _, hs⟩ := C86_objects ho hp hd h x hx
  have hl := lang_ne
  have ht : ∀ o, o ∈ g'.objects order (.uri (urnOf x.element)) pType ↔ o = x.type := by
    intro o
    rw [mem_objects ho, pType_eq]
    refine (hs _ o).trans ?_
    have := told_replaced (nsmap := nsmap) (ob := ob) (o := o) (hb x hx) (p := typePredicate) (by simp [replacedPredicates])
    unfold SaidAfter
    simp [this, hl.1.symm, hl.2.2]
  have hm : ∀ o, o ∈ g'.objects order (.uri (urnOf x.element)) pModel ↔ o = x.model := by
    intro o
    rw [mem_objects ho, pModel_eq]
    refine (hs _ o).trans ?_
    have := told_replaced (nsmap := nsmap) (ob := ob) (o := o) (hb x hx) (p := modelPredicate) (by simp [replacedPredicates])
    unfold SaidAfter
    simp [this, hl.2.1.symm, hl.2.2.symm]
  constructor
  · unfold typeOf
    cases e : g'.objects order (.uri (urnOf x.element)) pType with
    | nil => exact absurd ((ht _).2 rfl) (by rw [e]; simp)
    | cons a r => rw [(ht a).1 (by rw [e]; simp)]
  · unfold modelOf
    cases e : g'.objects order (.uri (urnOf x.element)) pModel with
    | nil => exact absurd ((hm _).2 rfl) (by rw [e]; simp)
    | cons a r => rw [(hm a).1 (by rw [e]; simp)]

example : typeOf id (graphAfter [] exInventory) (exUrn ".phi002.perseus-eng2") = .ok (cts "translation") := by
  obtain ⟨o, h⟩ := exOk
  exact (C86_type exId exProper exDistinct exApart h (.text _ .translation exGTranslation) (by rw [exThings]; exact .tail _ (.tail _ (.tail _ List.mem_cons_self)))).1

/-- C86. The language of a work with `xml:lang` and of a text is the one that the document gives, or that of the work. -/
theorem C86_language {doc : Node} {o : GInv} (hp : ProperBlocks (things doc)) (hd : Distinct (things doc)) (hb : BlocksApart (things doc))
    (h : parseInvG order nsmap ob g doc = .ok (o, g')) : ∀ x ∈ things doc, x.speaks → x.Speaks g (getLang order g' x.node) := by
  intro x hx hsp
  obtain ⟨v, hv, hs⟩ := C86_objects ho hp hd h x hx
  have hl := lang_ne
  have e : getLang order g' x.node = v := getLang_of ho fun o => by
    rw [dcLanguage_eq, hs]
    have := told_replaced (nsmap := nsmap) (ob := ob) (o := o) (hb x hx) (p := dc "language") (by simp [replacedPredicates])
    unfold SaidAfter
    simp [this, hl, hsp]
  rw [e]
  exact hv hsp

example : getLang id (graphAfter [] exInventory) (.uri (exUrn ".phi002.perseus-eng2")) = "eng".toList := by
  obtain ⟨o, h⟩ := exOk
  exact C86_language exId exProper exDistinct exApart h (.text _ .translation exGTranslation) (by rw [exThings]; exact .tail _ (.tail _ (.tail _ List.mem_cons_self))) trivial

/-- C86. The label of an object of which nothing was known is a title that an element of its identifier gives, in the language
that is asked for if one does. -/
theorem C86_label {doc : Node} {o : GInv} (hp : ProperBlocks (things doc)) (hb : BlocksApart (things doc)) (hf : Unmentioned g (things doc))
    (h : parseInvG order nsmap ob g doc = .ok (o, g')) (lang : Option Str) : ∀ x ∈ things doc,
    ∃ r, getLabel order g' x.node lang = .ok r ∧ Answers (fun v => ∃ y ∈ things doc, y.node = x.node ∧ Gives y y.title v) lang r := by
  intro x hx
  have h1 : ∀ p ∈ labelPredicates, p ∉ replacedPredicates ∧ p ≠ .uri "http://purl.org/capitains/ns/1.0#parent".toList := by decide +kernel
  have hl : (Term.uri "http://www.w3.org/2000/01/rdf-schema#label".toList) ∈ labelPredicates := by simp [labelPredicates]
  have hm : ∀ v, (⟨x.node, .uri "http://www.w3.org/2000/01/rdf-schema#label".toList, v⟩ : Triple) ∈ g' ↔ ∃ y ∈ things doc, y.node = x.node ∧ Gives y y.title v := by
    intro v
    rw [C86_statements ho hp h _ _ v (h1 _ hl).1]
    have := hf x hx (.uri "http://www.w3.org/2000/01/rdf-schema#label".toList) v
    constructor
    · rintro (e | ⟨y, hy, e, ht⟩)
      · exact absurd e this
      · refine ⟨y, hy, e.symm, ?_⟩
        rw [told_iff] at ht
        rcases ht with (⟨name', a, b, c⟩ | ⟨_, a⟩ | ⟨w', k', e', _, a, _⟩ | ⟨a, _⟩) | ⟨m, hm, u, hu, e, _⟩
        · exact absurd (b ▸ hl) (readNames_apart name' (properties_read name' a).1).1
        · exact a
        · exact absurd (a ▸ hl) (readNames_apart "about" (by decide)).1
        · exact absurd a (h1 _ hl).2
        · exact absurd e.symm (hb y hy m hm u hu _ (List.mem_append_left _ (List.mem_append_right _ hl)))
    · rintro ⟨y, hy, e, ht⟩
      exact .inr ⟨y, hy, e.symm, .title hl ht⟩
  obtain ⟨r, a, b, c, d⟩ := C79_label order ho g' x.node lang (fun v hv => by
    obtain ⟨y, _, _, c, _, l, _, rfl⟩ := (hm v).1 hv
    exact ⟨_, _, _, rfl⟩)
  refine ⟨r, a, fun v hv => (hm v).1 (b v hv), fun l hl hv => c l hl ?_, ?_⟩
  · obtain ⟨v, hv, hin⟩ := hv
    exact ⟨v, (hm v).2 hv, hin⟩
  · rw [d]
    exact forall_congr' fun v => not_congr (hm v)

example : getLabel id (graphAfter [] exInventory) (.uri (exUrn ".phi002.perseus-eng2")) (some "fre".toList) = .ok (some (.lit "Épigrammes".toList (some "fre".toList) none)) := by
  decide +kernel

/-! ### The objects and what the export reads of them -/

omit ho in
/-- C86. Whether parsing fails, and how, does not depend on the graph, and neither do the objects. -/
theorem C86_graph_irrelevant (order' : Order) (g1 g2 : Graph) (doc : Node) :
    (∀ e, parseInvG order nsmap ob g1 doc = .error e ↔ parseInvG order' nsmap ob g2 doc = .error e) ∧
    (∀ o, (∃ g', parseInvG order nsmap ob g1 doc = .ok (o, g')) ↔ ∃ g', parseInvG order' nsmap ob g2 doc = .ok (o, g')) := by
  have e := (inv_object order nsmap ob g1 [] doc).trans (inv_object order' nsmap ob g2 [] doc).symm
  cases h1 : parseInvG order nsmap ob g1 doc with
  | error e1 =>
    cases h2 : parseInvG order' nsmap ob g2 doc with
    | error e2 => rw [h1, h2] at e; cases e; simp
    | ok y => rw [h1, h2] at e; cases e
  | ok x =>
    cases h2 : parseInvG order' nsmap ob g2 doc with
    | error e2 => rw [h1, h2] at e; cases e
    | ok y =>
      rw [h1, h2] at e
      obtain ⟨x, gx⟩ := x
      obtain ⟨y, gy⟩ := y
      have e : x = y := Except.ok.inj e
      subst e
      simp

/-- C86. When nothing was known of the objects, their identifiers differ and the structured metadata use no predicate of the
library, the objects and what the export reads of them in the graph are the inventory of C71 and C83, where every object carries its
own metadata, up to the order of values. -/
theorem C86_same {doc : Node} {o : GInv} (hg : g.Nodup) (hp : ProperBlocks (things doc)) (hd : Distinct (things doc)) (hb : BlocksApart (things doc)) (hf : Unmentioned g (things doc))
    (hi : ∀ x ∈ things doc, urnOf x.element ≠ inventoryId doc) (h : parseInvG order nsmap ob g doc = .ok (o, g')) :
    ∃ i gs, parseInvS nsmap ob [] doc = .ok (i, gs) ∧ InvAlike (seenInv order g' o) i := by
  have e := inv_object order nsmap ob g [] doc
  rw [h] at e
  cases h1 : parseInvS nsmap ob [] doc with
  | error e1 => rw [h1] at e; cases e
  | ok y =>
    obtain ⟨i, gs⟩ := y
    rw [h1] at e
    have e : o = bareInv i := Except.ok.inj e
    subst e
    refine ⟨i, gs, rfl, ?_⟩
    rw [inv_from hd h1]
    refine inv_alike ho (nodup_inv h hg) (nsmap := nsmap) (ob := ob) (p := some (inventoryId doc)) ⟨?_, hb, (inv_read ho hp h).2.2.2.2 hd⟩
    intro x hx p v hm
    rw [mem_newObject] at hm
    rcases hm with ⟨hm, _⟩ | ⟨hm, _⟩
    · exact hi x hx (Term.uri.inj hm)
    · exact hf x hx p v hm

example : ∃ o i gs, parseInvG id [] exPlain [] exInventory = .ok (o, graphAfter [] exInventory) ∧ parseInvS [] exPlain [] exInventory = .ok (i, gs) ∧
    InvAlike (seenInv id (graphAfter [] exInventory) o) i := by
  obtain ⟨o, h⟩ := exOk
  obtain ⟨i, gs, a, b⟩ := C86_same exId List.nodup_nil exProper exDistinct exApart exFresh exInventoryId h
  exact ⟨o, i, gs, h, a, b⟩

omit ho in
theorem work_of_text {doc : Node} {w e : Node} {k : Kind} (h : Thing.text w k e ∈ things doc) : ∃ q, Thing.work q w ∈ things doc := by
  unfold things at *
  obtain ⟨n, hn, h⟩ := List.mem_flatMap.1 h
  unfold groupAndBelow at h
  rcases List.mem_cons.1 h with h | h
  · cases h
  obtain ⟨w', hw, h⟩ := List.mem_flatMap.1 h
  unfold workAndTexts at h
  rcases List.mem_cons.1 h with h | h
  · cases h
  unfold textElements at h
  obtain ⟨k', _, h⟩ := List.mem_flatMap.1 h
  obtain ⟨e', _, h⟩ := List.mem_map.1 h
  cases h
  refine ⟨some (urnOf n), List.mem_flatMap.2 ⟨n, hn, ?_⟩⟩
  unfold groupAndBelow
  exact .tail _ (List.mem_flatMap.2 ⟨w, hw, by simp [workAndTexts]⟩)

/-- C86. Parsing the same document again changes nothing, if every work has a language or none is known of it. -/
theorem C86_again {doc : Node} {o o2 : GInv} {g2 : Graph} (hp : ProperBlocks (things doc)) (hd : Distinct (things doc))
    (hl : ∀ p w, Thing.work p w ∈ things doc → w.get "xml:lang".toList = none →
      ∀ v, (⟨.uri (urnOf w), dc "language", v⟩ : Triple) ∉ g ∧ ¬ Told nsmap ob (.work p w) (dc "language") v)
    (h1 : parseInvG order nsmap ob g doc = .ok (o, g')) (h2 : parseInvG order nsmap ob g' doc = .ok (o2, g2)) : o2 = o ∧ ∀ t, t ∈ g2 ↔ t ∈ g' := by
  constructor
  · have e := (inv_object order nsmap ob g [] doc).trans (inv_object order nsmap ob g' [] doc).symm
    rw [h1, h2] at e
    exact (Except.ok.inj e).symm
  rintro ⟨s, p, v⟩
  by_cases hs : ∃ x ∈ things doc, s = x.node
  · obtain ⟨x, hx, rfl⟩ := hs
    obtain ⟨l1, a1, b1⟩ := C86_objects ho hp hd h1 x hx
    obtain ⟨l2, a2, b2⟩ := C86_objects ho hp hd h2 x hx
    have hle : x.speaks → l1 = l2 := by
      intro hsp
      have a1 := a1 hsp
      have a2 := a2 hsp
      cases x with
      | textgroup => cases hsp
      | work i e =>
        simp only [Thing.Speaks] at a1 a2
        rw [a1] at a2
        exact Option.some.inj a2
      | text w k e =>
        simp only [Thing.Speaks] at a1 a2
        generalize (if k = .edition then none else e.get "xml:lang".toList) = el at a1 a2
        cases el with
        | some l => exact a1.trans a2.symm
        | none =>
          cases hw : w.get "xml:lang".toList with
          | some l => rw [hw] at a1 a2; exact a1.trans a2.symm
          | none =>
            rw [hw] at a1 a2
            obtain ⟨q, hq⟩ := work_of_text hx
            have hn := hl q w hq hw
            have hn' : ∀ o, (⟨.uri (urnOf w), dc "language", o⟩ : Triple) ∉ g' := by
              intro o hm
              obtain ⟨l, _, b⟩ := C86_objects ho hp hd h1 _ hq
              have hns : ¬ (Thing.work q w).speaks := fun h => h hw
              have := (b (dc "language") o).1 hm
              have hne := lang_ne
              unfold SaidAfter at this
              simp only [hne.1, hne.2.1, hns, false_and, and_false, false_or, (hn o).2] at this
              exact (hn o).1 this.1
            rcases a1 with ⟨o, a1, _⟩ | ⟨_, a1⟩
            · exact absurd a1 (hn o).1
            rcases a2 with ⟨o, a2, _⟩ | ⟨_, a2⟩
            · exact absurd a2 (hn' o)
            exact a1.trans a2.symm
    rw [b2]
    show SaidAfter nsmap ob g' x l2 p v ↔ (⟨x.node, p, v⟩ : Triple) ∈ g'
    unfold SaidAfter
    rw [b1]
    unfold SaidAfter
    grind
  · have hs : ∀ x ∈ things doc, s ≠ x.node := fun x hx e => hs ⟨x, hx, e⟩
    rw [C86_others ho hp h2 s p v hs, C86_others ho hp h1 s p v hs]
    grind

end

example : ∃ o o2 g2, parseInvG id [] exPlain [] exInventory = .ok (o, graphAfter [] exInventory) ∧
    parseInvG id [] exPlain (graphAfter [] exInventory) exInventory = .ok (o2, g2) ∧ o2 = o ∧ ∀ t, t ∈ g2 ↔ t ∈ graphAfter [] exInventory := by
  obtain ⟨o, h⟩ := exOk
  obtain ⟨g2, h2⟩ := ((C86_graph_irrelevant id [] (graphAfter [] exInventory) exInventory).2 o).1 ⟨_, h⟩
  obtain ⟨a, b⟩ := C86_again exId exProper exDistinct (by
    intro p w hw hn
    rw [exThings] at hw
    simp only [List.mem_cons, List.not_mem_nil, or_false, reduceCtorEq, false_or] at hw
    obtain ⟨_, rfl⟩ := Thing.work.inj hw
    exact absurd hn (by decide +kernel)) h h2
  exact ⟨o, o, g2, h, h2, rfl, b⟩

/-! ### Where the shared graph shows -/

/-- The document without the language of the work. -/
def exMute : Node := exGDoc [exGGroup "Martial" [exGWork [] [exGEdition]]]

/-- C86. A text whose document gives no language at all gets the one that an earlier document gave to its work. -/
theorem C86_fails_language_leak :
    getLang id (graphAfter [] exMute) (.uri (exUrn ".phi002.perseus-lat2")) = "None".toList ∧
    getLang id (graphAfter (graphAfter [] exInventory) exMute) (.uri (exUrn ".phi002.perseus-lat2")) = "lat".toList := by
  decide +kernel

/-- A work whose language stands in its structured metadata. -/
def exInBlock : Node := exGDoc [exGGroup "Martial" [exGWork [] [exGEdition, exBlock [.mk "{http://purl.org/dc/elements/1.1/}language".toList [] "lat".toList [] []]]]]

/-- C86. Parsing again is not idempotent: a language in the structured metadata of a work is read after its texts, which get it
only the second time. -/
theorem C86_fails_again :
    getLang id (graphAfter [] exInBlock) (.uri (exUrn ".phi002")) = "lat".toList ∧
    getLang id (graphAfter [] exInBlock) (.uri (exUrn ".phi002.perseus-lat2")) = "None".toList ∧
    getLang id (graphAfter (graphAfter [] exInBlock) exInBlock) (.uri (exUrn ".phi002.perseus-lat2")) = "lat".toList := by
  decide +kernel

/-- An edition and a translation with one identifier. -/
def exTwice : Node := exGDoc [exGGroup "Martial" [exGWork [("xml:lang".toList, "lat".toList)]
  [exGEdition, .mk "ti:translation".toList [("urn".toList, exUrn ".phi002.perseus-lat2"), ("xml:lang".toList, "eng".toList)] [] [exSaid "ti:label" "eng" "Epigrams"] []]]]

/-- C86. Of two elements with one identifier the first is the member of the work, and it has the class and the language of the
last and the labels of both. -/
theorem C86_fails_duplicate : ∃ o g', parseInvG id [] exPlain [] exTwice = .ok (o, g') ∧
    o.groups.map (fun x => x.works.map fun w => w.texts.map fun t => (t.id, t.kind)) = [[[(exUrn ".phi002.perseus-lat2", .edition)]]] ∧
    typeOf id g' (exUrn ".phi002.perseus-lat2") = .ok (cts "translation") ∧
    getLang id g' (.uri (exUrn ".phi002.perseus-lat2")) = "eng".toList ∧
    g'.objects id (.uri (exUrn ".phi002.perseus-lat2")) (cts "label") = [.lit "Epigrammata".toList (some "eng".toList) none, .lit "Epigrams".toList (some "eng".toList) none] := by
  have h : (match parseInvG id [] exPlain [] exTwice with
    | .ok (o, g') => decide (o.groups.map (fun x => x.works.map fun w => w.texts.map fun t => (t.id, t.kind)) = [[[(exUrn ".phi002.perseus-lat2", Kind.edition)]]]) &&
      decide (g'.objects id (.uri (exUrn ".phi002.perseus-lat2")) pType = [cts "translation"]) &&
      decide (getLang id g' (.uri (exUrn ".phi002.perseus-lat2")) = "eng".toList) &&
      decide (g'.objects id (.uri (exUrn ".phi002.perseus-lat2")) (cts "label") = [.lit "Epigrammata".toList (some "eng".toList) none, .lit "Epigrams".toList (some "eng".toList) none])
    | .error _ => false) = true := by decide +kernel
  cases h1 : parseInvG id [] exPlain [] exTwice with
  | error e => rw [h1] at h; cases h
  | ok y =>
    obtain ⟨o, g'⟩ := y
    rw [h1] at h
    simp only [Bool.and_eq_true, decide_eq_true_eq] at h
    exact ⟨o, g', rfl, h.1.1.1, by rw [typeOf, h.1.1.2], h.1.2, h.2⟩

/-- C86. A corrected inventory does not replace the name that the first one gave: both remain. -/
theorem C86_fails_correction :
    (graphAfter (graphAfter [] (exGDoc [exGGroup "Matrial" []])) (exGDoc [exGGroup "Martial" []])).objects id (.uri (exUrn "")) (cts "groupname") =
      [.lit "Matrial".toList (some "eng".toList) none, .lit "Martial".toList (some "eng".toList) none] := by
  decide +kernel

end Verif.Props
