import Verif.Model.CtsObjects
import Verif.Props.CtsMetadata
import Verif.Props.DtsJson
import Verif.Props.InventoryXml
import Verif.Props.Urn
/-!
C91: creator, title, description and subject of texts in collections. C92: equality of CTS collections. C94: exports of the collection of
inventories.
-/
namespace Verif.Props
open Verif.Py Verif.Model Verif.Spec Verif.Lemmas

/-! ## C91 -/

theorem single_answering {order : Order} (ho : Rearranges order) {g : Graph} {n k : Term} (lang : Option Str)
    (h : ∀ o, (⟨n, k, o⟩ : Triple) ∈ g → IsLiteral o) :
    ∃ r, metaGetSingle order g n k lang = .ok r ∧ Answers (fun o => (⟨n, k, o⟩ : Triple) ∈ g) lang r := by
  cases lang with
  | none =>
    obtain ⟨r, h1, h2, h3⟩ := C49_single_any order ho g n k
    exact ⟨r, h1, h2, by simp, h3⟩
  | some l =>
    obtain ⟨r, h1, h2, h3, h4⟩ := C49_single order ho g n k l h
    exact ⟨r, h1, h2, fun l' e => (by injection e with e; subst e; exact h3), h4⟩

/-- C91. The description of a text is a value of `cts:description`, and its subject is a label of it: one in the language if there is one,
otherwise another one, and `None` exactly when there is none. -/
theorem C91_description_subject (order : Order) (ho : Rearranges order) (g : Graph) (n : Term) (lang : Option Str)
    (h1 : ∀ o, (⟨n, cts "description", o⟩ : Triple) ∈ g → IsLiteral o)
    (h2 : ∀ o, (⟨n, .uri "http://www.w3.org/2000/01/rdf-schema#label".toList, o⟩ : Triple) ∈ g → IsLiteral o) :
    (∃ r, textDescription order g n lang = .ok r ∧ Answers (fun o => (⟨n, cts "description", o⟩ : Triple) ∈ g) lang r) ∧
    (∃ r, textSubject order g n lang = .ok r ∧
      Answers (fun o => (⟨n, .uri "http://www.w3.org/2000/01/rdf-schema#label".toList, o⟩ : Triple) ∈ g) lang r) := by
  have hk : ctsTerm kDescription = cts "description" := by decide +kernel
  refine ⟨?_, C79_label order ho g n lang h2⟩
  rw [textDescription, hk]
  exact single_answering ho lang h1

/-- C91. After any calls that set properties and labels of collections, on a graph that said nothing before, the description of a text is one that
was set for this text, and in the language asked for when such a one was set; the subject likewise for `cts:label`. -/
theorem C91_after_calls (order : Order) (ho : Rearranges order) (ops : List CtsOp) (hl : ∀ op ∈ ops, ∀ m p v, op ≠ .link m p v) (n : Term)
    (l : Str) :
    (∃ r, textDescription order (runCts [] ops) n (some l) = .ok r ∧
      (∀ o, r = some o → ∃ cls v m, CtsOp.property cls n "description".toList v m ∈ ops ∧ o = propertyValue v m) ∧
      (∀ cls s, CtsOp.property cls n "description".toList (.str s) (some l) ∈ ops → ∃ o, r = some o ∧ InLanguage l o)) ∧
    (∃ r, textSubject order (runCts [] ops) n (some l) = .ok r ∧
      (∀ s, CtsOp.property .text n "label".toList (.str s) (some l) ∈ ops → ∃ o, r = some o ∧ InLanguage l o)) := by
  have says : ∀ o, (⟨n, cts "description", o⟩ : Triple) ∈ runCts [] ops ↔
      ∃ cls v m, CtsOp.property cls n "description".toList v m ∈ ops ∧ o = propertyValue v m := by
    intro o
    rw [C79_history]
    simp only [List.not_mem_nil, false_or]
    constructor
    · rintro ⟨op, hop, hs⟩
      generalize hc : cts "description" = q at hs
      cases hs with
      | property =>
        rename_i cls prop v lang
        simp only [cts, Term.uri.injEq, List.append_cancel_left_eq] at hc
        subst hc
        exact ⟨cls, v, lang, hop, rfl⟩
      | title h1 h2 =>
        subst hc
        exact absurd h2 (by decide +kernel)
      | label h2 =>
        subst hc
        exact absurd h2 (by decide +kernel)
      | link => exact absurd rfl (hl _ hop _ _ _)
    · rintro ⟨cls, v, m, hop, rfl⟩
      exact ⟨_, hop, .property⟩
  have lit : ∀ o, (⟨n, cts "description", o⟩ : Triple) ∈ runCts [] ops → IsLiteral o := by
    intro o ho'
    obtain ⟨_, v, m, _, rfl⟩ := (says o).1 ho'
    obtain ⟨s, k, e⟩ := propertyValue_lit v m
    rw [e]
    exact ⟨s, k, none, rfl⟩
  have hk : ctsTerm kDescription = cts "description" := by decide +kernel
  constructor
  · rw [textDescription, hk]
    obtain ⟨r, h1, h2, h3, h4⟩ := single_answering ho (some l) lit
    refine ⟨r, h1, fun o e => (says o).1 (h2 o e), fun cls s hm => h3 l rfl ⟨.lit s (some l) none, (says _).2 ⟨cls, _, _, hm, rfl⟩, ?_⟩⟩
    exact ⟨s, none, rfl⟩
  · obtain ⟨r, h1, h2, h3⟩ := C79_title_is_label order ho ops n l hl
    exact ⟨r, h1, fun s hm => h3 .text "label" s rfl hm⟩

example : textDescription id (runCts [] [.property .text (.uri "urn:a".toList) "description".toList (.str "Latin text".toList) (some "eng".toList),
      .property .text (.uri "urn:a".toList) "label".toList (.str "Epigrammata".toList) (some "eng".toList)]) (.uri "urn:a".toList) (some "eng".toList) =
    .ok (some (.lit "Latin text".toList (some "eng".toList) none)) := by decide +kernel

/-- C91. The four getters of other readable collections answer with the Dublin Core elements of these names. -/
theorem C91_resource (order : Order) (ho : Rearranges order) (g : Graph) (n : Term) (lang : Option Str)
    (h : ∀ name ∈ ["creator", "title", "description", "subject"], ∀ o, (⟨n, dc name, o⟩ : Triple) ∈ g → IsLiteral o) :
    (∃ r, resourceCreator order g n lang = .ok r ∧ Answers (fun o => (⟨n, dc "creator", o⟩ : Triple) ∈ g) lang r) ∧
    (∃ r, resourceTitle order g n lang = .ok r ∧ Answers (fun o => (⟨n, dc "title", o⟩ : Triple) ∈ g) lang r) ∧
    (∃ r, resourceDescription order g n lang = .ok r ∧ Answers (fun o => (⟨n, dc "description", o⟩ : Triple) ∈ g) lang r) ∧
    (∃ r, resourceSubject order g n lang = .ok r ∧ Answers (fun o => (⟨n, dc "subject", o⟩ : Triple) ∈ g) lang r) := by
  have e1 : dcCreator = dc "creator" := by decide +kernel
  have e2 : dcTitle = dc "title" := by decide +kernel
  have e3 : dcDescription = dc "description" := by decide +kernel
  have e4 : dcSubject = dc "subject" := by decide +kernel
  rw [resourceCreator, resourceTitle, resourceDescription, resourceSubject, e1, e2, e3, e4]
  exact ⟨single_answering ho lang (h _ (by simp)), single_answering ho lang (h _ (by simp)), single_answering ho lang (h _ (by simp)),
    single_answering ho lang (h _ (by simp))⟩

example : resourceTitle id [⟨.uri "a".toList, dc "title", .lit "T".toList (some "la".toList) none⟩] (.uri "a".toList) (some "en".toList) =
    .ok (some (.lit "T".toList (some "la".toList) none)) := by decide +kernel

theorem no_getLabel (r : Except PyErr (Option Term)) : callMetadata "get_label".toList r = .error .attributeError := by
  have h : "get_label".toList ∉ metadataMethods := by decide +kernel
  rw [callMetadata, if_neg h]

/-- C91. The metadata of a collection answer to these names and to no other. -/
theorem C91_methods (name : Str) (r : Except PyErr (Option Term)) :
    (name ∈ ["export_capacities", "__export__", "export", "asNode", "graph", "set", "add", "get", "get_single", "__getitem__", "remove", "unlink",
        "predicate_object", "getOr"].map String.toList → callMetadata name r = r) ∧
    (name ∉ ["export_capacities", "__export__", "export", "asNode", "graph", "set", "add", "get", "get_single", "__getitem__", "remove", "unlink",
        "predicate_object", "getOr"].map String.toList → callMetadata name r = .error .attributeError) := by
  have e : metadataMethods = ["export_capacities", "__export__", "export", "asNode", "graph", "set", "add", "get", "get_single", "__getitem__", "remove", "unlink",
      "predicate_object", "getOr"].map String.toList := by decide +kernel
  rw [← e]
  exact ⟨fun h => by rw [callMetadata, if_pos h], fun h => by rw [callMetadata, if_neg h]⟩

example : "get_single".toList ∈ ["get", "get_single"].map String.toList := by decide +kernel

/-- C91 fails for creator and title of texts in inventories: asking for them raises `AttributeError`, whatever work and textgroup are called, because
the label is asked of the metadata of the collection, which have no such method. -/
theorem C91_fails_creator_title (order : Order) (g : Graph) (parents : List Term) (lang : Option Str) :
    textCreator order g parents lang = .error .attributeError ∧ textTitle order g parents lang = .error .attributeError := by
  constructor
  · match parents with
    | [] => rfl
    | [_] => rfl
    | _ :: t :: _ => simp only [textCreator]; exact no_getLabel _
  · match parents with
    | [] => rfl
    | w :: _ => simp only [textTitle]; exact no_getLabel _

/-- The hypotheses of the natural statement: the work has a title, which is its label; the text does not answer with it. -/
example : getLabel id (runCts [] [.property .work (.uri "urn:w".toList) "title".toList (.str "Epigrammata".toList) (some "lat".toList)]) (.uri "urn:w".toList) none =
      .ok (some (.lit "Epigrammata".toList (some "lat".toList) none)) ∧
    textTitle id (runCts [] [.property .work (.uri "urn:w".toList) "title".toList (.str "Epigrammata".toList) (some "lat".toList)]) [.uri "urn:w".toList] none =
      .error .attributeError := by constructor <;> decide +kernel

/-! ## C92 -/

theorem beq_decide (a b : Str) : (a == b) = decide (a = b) := by
  by_cases h : a = b <;> simp [h]

theorem sub_antisymm (a b : CollCls) (h1 : a.sub b = true) (h2 : b.sub a = true) : a = b := by
  cases a <;> cases b <;> first | rfl | (exfalso; revert h1 h2; decide)

theorem sub_self (a : CollCls) : a.sub a = true := by cases a <;> rfl

/-- Equality as Python computes it, with the subclass rule worked out. -/
theorem pyEq_eq (a b : CollObj) : a.pyEq b = if a.ident = b.ident then .ok true else if a.cls = b.cls then urnAttrEq a.urn b.urn else .ok false := by
  unfold CollObj.pyEq CollObj.eqMethod
  by_cases hi : a.ident = b.ident
  · simp [hi]
  · rw [if_neg hi]
    by_cases hc : a.cls = b.cls
    · simp [hc, hi, sub_self]
    · rw [if_neg hc, if_neg hi, if_neg (Ne.symm hi)]
      by_cases hs : b.cls.sub a.cls = true
      · rw [if_pos ⟨Ne.symm hc, hs⟩]
        rw [if_neg]
        intro hs'
        exact hc (sub_antisymm _ _ hs' hs)
      · rw [if_neg (fun h => hs h.2), if_neg hs]

/-- The classes whose collections have a name in place of a URN. -/
def NamedClass (c : CollCls) : Prop := c ∈ [CollCls.proto, .inventory, .inventories, .xmlInventory]

instance (c : CollCls) : Decidable (NamedClass c) := by unfold NamedClass; infer_instance

theorem hasUrn_iff (c : CollCls) : c.hasUrn = true ↔ ¬ NamedClass c := by cases c <;> decide

/-- A URN string without its fragment. -/
def withoutFragment (s : Str) : Str := s.takeWhile (· != '#')

/-- C92. Two texts, works or textgroups are equal exactly when they are the same object, or of the same class and made from the same URN; the
fragment of a URN does not count. -/
theorem C92_equality (i j : Nat) (c d : CollCls) (hc : ¬ NamedClass c) (hd : ¬ NamedClass d) (s t : Str) (a b : CollObj)
    (ha : newColl i c s = .ok a) (hb : newColl j d t = .ok b) :
    a.pyEq b = .ok (decide (i = j ∨ c = d ∧ withoutFragment s = withoutFragment t)) := by
  rw [newColl, if_pos ((hasUrn_iff c).2 hc)] at ha
  rw [newColl, if_pos ((hasUrn_iff d).2 hd)] at hb
  cases hu : Urn.parse s with
  | error e => rw [hu] at ha; cases ha
  | ok u =>
    cases hv : Urn.parse t with
    | error e => rw [hv] at hb; cases hb
    | ok v =>
      rw [hu] at ha; rw [hv] at hb
      injection ha with ha; injection hb with hb
      subst ha hb
      obtain ⟨x, hx⟩ := C10_urn_round_trip s u hu
      obtain ⟨y, hy⟩ := C10_urn_round_trip t v hv
      rw [pyEq_eq]
      by_cases hij : i = j
      · simp [hij]
      · by_cases hcd : c = d
        · simp only [hij, hcd, if_false, if_true, urnAttrEq, Urn.eq, hx, hy, withoutFragment, false_or, true_and]
          simp only [bind, Except.bind, pure, Except.pure, beq_decide]
        · simp [hij, hcd]

example : (do
    let a ← newColl 0 .xmlEdition "urn:cts:latinLit:phi1294.phi002.perseus-lat2".toList
    let b ← newColl 1 .xmlEdition "urn:cts:latinLit:phi1294.phi002.perseus-lat2#x".toList
    let c ← newColl 2 .edition "urn:cts:latinLit:phi1294.phi002.perseus-lat2".toList
    let x ← a.pyEq b
    let y ← a.pyEq c
    let z ← c.pyEq a
    return [x, y, z]) = .ok [true, false, false] := by decide +kernel

/-- C92. Equality is that of an equivalence relation: every collection equals itself, the order of the two does not matter, and what equals one of two
equal collections equals the other. -/
theorem C92_equivalence (obj : Nat → CollObj) (hid : ∀ i, (obj i).ident = i) (hmade : ∀ i, ∃ c s, newColl i c s = .ok (obj i)) (i j k : Nat) :
    (obj i).pyEq (obj i) = .ok true ∧ (obj i).pyEq (obj j) = (obj j).pyEq (obj i) ∧
    ((obj i).pyEq (obj j) = .ok true → (obj j).pyEq (obj k) = .ok true → (obj i).pyEq (obj k) = .ok true) := by
  -- each object has a key, and objects are equal when their keys are
  have key : ∃ f : Nat → Option Str, ∀ i j, urnAttrEq (obj i).urn (obj j).urn = .ok (decide (f i = f j)) := by
    have each : ∀ i, (obj i).urn = none ∨ ∃ u s w, (obj i).urn = some u ∧ u.str = .ok (s, w) := by
      intro i
      obtain ⟨c, s, h⟩ := hmade i
      rw [newColl] at h
      split at h
      · cases hu : Urn.parse s with
        | error e => rw [hu] at h; cases h
        | ok u =>
          rw [hu] at h; injection h with h
          obtain ⟨w, hw⟩ := C10_urn_round_trip s u hu
          exact .inr ⟨u, _, w, by rw [← h], hw⟩
      · injection h with h
        exact .inl (by rw [← h])
    refine ⟨fun i => (obj i).urn.bind fun u => match u.str with | .ok p => some p.1 | .error _ => none, fun i j => ?_⟩
    rcases each i with h1 | ⟨u, s, w, h1, h3⟩ <;> rcases each j with h1' | ⟨u', s', w', h1', h3'⟩
    · simp [h1, h1', urnAttrEq]
    · simp [h1, h1', h3', urnAttrEq]
    · simp [h1, h1', h3, urnAttrEq]
    · simp only [h1, h1', urnAttrEq, Urn.eq, h3, h3', bind, Except.bind, pure, Except.pure, Option.bind, Option.some.injEq, beq_decide]
  obtain ⟨f, hf⟩ := key
  have eq : ∀ i j, (obj i).pyEq (obj j) = .ok (decide (i = j ∨ (obj i).cls = (obj j).cls ∧ f i = f j)) := by
    intro i j
    rw [pyEq_eq, hid, hid, hf]
    by_cases h1 : i = j
    · simp [h1]
    · by_cases h2 : (obj i).cls = (obj j).cls <;> simp [h1, h2]
  refine ⟨by rw [eq]; simp, ?_, ?_⟩
  · rw [eq, eq]
    congr 1
    rw [decide_eq_decide]
    constructor
    · rintro (rfl | ⟨h1, h2⟩)
      · exact .inl rfl
      · exact .inr ⟨h1.symm, h2.symm⟩
    · rintro (rfl | ⟨h1, h2⟩)
      · exact .inl rfl
      · exact .inr ⟨h1.symm, h2.symm⟩
  · rw [eq, eq, eq]
    simp only [Except.ok.injEq, decide_eq_true_eq]
    rintro (rfl | ⟨h1, h2⟩) (rfl | ⟨h3, h4⟩)
    · exact .inl rfl
    · exact .inr ⟨h3, h4⟩
    · exact .inr ⟨h1, h2⟩
    · exact .inr ⟨h1.trans h3, h2.trans h4⟩

/-- Works made from two URNs in turn: those with even numbers are equal to each other and not to the others. -/
example : ∃ obj : Nat → CollObj, (∀ i, (obj i).ident = i) ∧ (∀ i, ∃ c s, newColl i c s = .ok (obj i)) ∧
    (obj 0).pyEq (obj 2) = .ok true ∧ (obj 0).pyEq (obj 1) = .ok false := by
  obtain ⟨u, hu⟩ : ∃ u, Urn.parse "urn:cts:latinLit:phi1294.phi002".toList = .ok u := ⟨_, rfl⟩
  obtain ⟨v, hv⟩ : ∃ v, Urn.parse "urn:cts:latinLit:phi1294.phi003".toList = .ok v := ⟨_, rfl⟩
  have mk : ∀ i s w, Urn.parse s = .ok w → newColl i .work s = .ok ⟨i, .work, some w⟩ := by
    intro i s w h; simp only [newColl, CollCls.hasUrn, if_true, h]
  refine ⟨fun i => ⟨i, .work, some (if i % 2 = 0 then u else v)⟩, fun _ => rfl, fun i => ?_, ?_, ?_⟩
  · by_cases h : i % 2 = 0
    · exact ⟨.work, _, by simp only [h, if_true]; exact mk i _ u hu⟩
    · exact ⟨.work, _, by simp only [h, if_false]; exact mk i _ v hv⟩
  · exact C92_equality 0 2 .work .work (by decide) (by decide) _ _ _ _ (mk 0 _ u hu) (mk 2 _ u hu)
  · exact C92_equality 0 1 .work .work (by decide) (by decide) _ _ _ _ (mk 0 _ u hu) (mk 1 _ v hv)

/-- C92. When components of the URN are assigned, collections are compared by what the URN reads then. -/
theorem C92_after_assignments (i j : Nat) (hij : i ≠ j) (c : CollCls) (hc : ¬ NamedClass c) (s t : Str) (a b : CollObj)
    (ha : newColl i c s = .ok a) (hb : newColl j c t = .ok b) (ops ops' : List UrnOp) (u v : Urn) (hu : Urn.parse s = .ok u) (hv : Urn.parse t = .ok v)
    (x y : Str) (hx : (·.1) <$> (u.run ops).str = .ok x) (hy : (·.1) <$> (v.run ops').str = .ok y) :
    (a.assign ops).pyEq (b.assign ops') = .ok (decide (x = y)) := by
  rw [newColl, if_pos ((hasUrn_iff c).2 hc), hu] at ha
  rw [newColl, if_pos ((hasUrn_iff c).2 hc), hv] at hb
  injection ha with ha; injection hb with hb
  subst ha hb
  rw [pyEq_eq]
  cases h1 : (u.run ops).str with
  | error e => rw [h1] at hx; cases hx
  | ok p =>
    cases h2 : (v.run ops').str with
    | error e => rw [h2] at hy; cases hy
    | ok q =>
      rw [h1] at hx; rw [h2] at hy
      injection hx with hx; injection hy with hy
      subst hx hy
      simp only [CollObj.assign, hij, if_false, if_true, Option.map_some, urnAttrEq, Urn.eq, h1, h2, bind, Except.bind, pure, Except.pure, beq_decide]

example : (do
    let a ← newColl 0 .work "urn:cts:latinLit:phi1294.phi002".toList
    let b ← newColl 1 .work "urn:cts:latinLit:phi1294.phi003".toList
    let x ← a.pyEq b
    let y ← (a.assign [.setWk (some "phi003".toList)]).pyEq b
    return [x, y]) = .ok [false, true] := by decide +kernel

/-- C92 fails for inventories: any two inventories of one class are equal, whatever their names and what they hold, because they have no URN. -/
theorem C92_fails_inventories (i j : Nat) (c : CollCls) (hc : NamedClass c) (s t : Str) :
    ∃ a b, newColl i c s = .ok a ∧ newColl j c t = .ok b ∧ a.pyEq b = .ok true := by
  have h : c.hasUrn = false := by
    cases e : c.hasUrn with
    | false => rfl
    | true => exact absurd hc ((hasUrn_iff c).1 e)
  refine ⟨⟨i, c, none⟩, ⟨j, c, none⟩, by simp [newColl, h], by simp [newColl, h], ?_⟩
  rw [pyEq_eq]
  simp [urnAttrEq]

/-! ## C94 -/

/-- C94. The XML of a collection of inventories reads as one inventory of its name with the textgroups of all inventories. -/
theorem C94_xml (order order' : Order) (cut : Cut) (native : Str → Str → Atom) (g : Graph) (pf : Str) (preds : List (Str × Str)) (hp : HeaderSafe pf preds)
    (self : DtsObj) (members : List RootMember) (hid : AttrSafe self.id) (hi : ∀ m ∈ members, InvSafe m.xml)
    (hn : ((members.flatMap (·.xml.groups)).map XGroup.id).Nodup) :
    ∃ s n, rootExport order order' cut native g pf preds self members .cts = .ok (.xml s) ∧
      rootExport order order' cut native g pf preds self members .etree = .ok (.tree s) ∧ readCts s = some n ∧
      parseInv n = .ok { id := self.id, groups := (members.flatMap (·.xml.groups)).map groupRead } := by
  have e : (members.map (·.xml)).flatMap XInv.groups = members.flatMap (·.xml.groups) := by
    rw [List.flatMap_map]
  obtain ⟨s, n, h1, h2, h3⟩ := C71_collection pf preds hp self.id (members.map (·.xml)) hid
    (by intro i hi'; obtain ⟨m, hm, rfl⟩ := List.mem_map.1 hi'; exact hi m hm) (by rw [e]; exact hn)
  exact ⟨s, n, by simp [rootExport, h1, Except.map], by simp [rootExport, h1, Except.map], h2, by rw [h3, e]⟩

example : ∃ s n, rootExport id id sampleCut sampleNative [] [] exPreds ⟨"default".toList, some 1⟩ [⟨exXInv, ⟨"annotsrc".toList, some 2⟩, []⟩] .cts = .ok (.xml s) ∧
    readCts s = some n ∧ parseInv n = .ok { id := "default".toList, groups := exXInv.groups.map groupRead } := by
  have := C94_xml id id sampleCut sampleNative [] [] exPreds exPreds_safe ⟨"default".toList, some 1⟩ [⟨exXInv, ⟨"annotsrc".toList, some 2⟩, []⟩]
    (by decide +kernel) (by simp only [List.mem_singleton, forall_eq]; exact exXInv_safe) (by decide +kernel)
  obtain ⟨s, n, h1, _, h2, h3⟩ := this
  exact ⟨s, n, h1, h2, by simpa using h3⟩

/-- C94. The DTS document of a collection with two inventories or more is that of the collection, with the inventories as members; that of a collection
with one inventory is that of the inventory, with its textgroups as members. -/
theorem C94_dts (order order' : Order) (ho : Rearranges order) (ho' : Rearranges order') (cut : Cut) (native : Str → Str → Atom) (g : Graph) (pf : Str)
    (preds : List (Str × Str)) (self : DtsObj) (members : List RootMember) (j : DtsJson)
    (h : rootExport order order' cut native g pf preds self members .dts = .ok (.dts j)) :
    (∀ m, members = [m] → BaseOf cut g m.obj j.base ∧ (j.base.total ≠ 0 → ∃ bs, j.member = some bs ∧ AllTwo (BaseOf cut g) m.groups bs)) ∧
    (2 ≤ members.length → BaseOf cut g self j.base ∧
      (j.base.total ≠ 0 → ∃ bs, j.member = some bs ∧ AllTwo (BaseOf cut g) (members.map (·.obj)) bs)) := by
  have go : ∀ o ms, (exportDts order order' cut native g o ms none).map RootOut.dts = .ok (.dts j) →
      BaseOf cut g o j.base ∧ (j.base.total ≠ 0 → ∃ bs, j.member = some bs ∧ AllTwo (BaseOf cut g) ms bs) := by
    intro o ms hx
    cases hd : exportDts order order' cut native g o ms none with
    | error e => rw [hd] at hx; cases hx
    | ok j' =>
      rw [hd] at hx
      injection hx with hx; injection hx with hx
      subst hx
      refine ⟨C74_base order order' ho ho' cut native g o ms none j' hd, fun ht => ?_⟩
      rcases C74_members order order' ho cut native g o ms none j' hd with ⟨h0, _⟩ | ⟨_, hb⟩
      · exact absurd h0 ht
      · exact hb
  refine ⟨?_, ?_⟩
  · rintro m rfl
    simp only [rootExport] at h
    exact go _ _ h
  · intro hl
    simp only [rootExport, show members.length > 1 from hl, if_true] at h
    exact go _ _ h

/-- A collection with the inventory `a` of the sample, and one with this inventory and another: the documents are of `a` and of the collection. -/
example : ((rootExport id List.reverse sampleCut sampleNative priapeia [] [] ⟨['b'], some 1⟩ [⟨exXInv, ⟨['a'], none⟩, [⟨['b'], none⟩]⟩] .dts).map fun
      | .dts j => (j.base.id, j.member.map (·.map (·.id)))
      | _ => ([], none)) = .ok (['a'], some [['b']]) ∧
    ((rootExport id List.reverse sampleCut sampleNative priapeia [] [] ⟨['b'], some 2⟩ [⟨exXInv, ⟨['a'], none⟩, []⟩, ⟨exXInv, ⟨['b'], none⟩, []⟩] .dts).map fun
      | .dts j => (j.base.id, j.member.map (·.map (·.id)))
      | _ => ([], none)) = .ok (['b'], some [['a'], ['b']]) := by constructor <;> decide +kernel

/-- C94 fails for the CapiTainS format, which is announced and gives `None`, for a collection without inventories, which has no DTS document, and for the
two RDF formats. -/
theorem C94_fails_formats (order order' : Order) (cut : Cut) (native : Str → Str → Atom) (g : Graph) (pf : Str) (preds : List (Str × Str))
    (self : DtsObj) (members : List RootMember) :
    rootExport order order' cut native g pf preds self members .capitains = .ok .nothing ∧
    rootExport order order' cut native g pf preds self [] .dts = .error .indexError ∧
    rootExport order order' cut native g pf preds self members .jsonLd = .error .attributeError ∧
    rootExport order order' cut native g pf preds self members .rdfXml = .error .attributeError :=
  ⟨rfl, rfl, rfl, rfl⟩

end Verif.Props
