import Verif.Spec.Resolvers
import Verif.Props.Serving
import Verif.Props.LocalResolver
/-!
C98: the local resolver and the resolver of a CTS endpoint, for the same texts.
-/
namespace Verif.Props
open Verif.Py Verif.Model Verif.Spec Verif.Lemmas

/-! ### What is offered -/

theorem offered_urn {lv : Levels} {r : RootV} {parts : TextV → UrnParts} (hl : Library lv r parts) {files : Files} {serve : DocEndpoint} {d : Option Str}
    {env : List Str} {t : TextV} {root : Node} {ls : List Level} (h : Offered files r serve d env t root ls) :
    IsTextUrn t.id (parts t) ∧ Asks r parts (parts t) t ∧ (parts t).write = t.id := by
  obtain ⟨hw, hid, _, hv, hn⟩ := hl.written t h.member
  exact ⟨⟨hw, hid, fun e => hv (hw.verWk e), hn⟩, ⟨hw, h.once, .inl ⟨h.member, hv, hid⟩⟩, hid.symm⟩

theorem labelled_not_elsewhere {doc x : Node} (h : (∀ e ∈ elements doc, e.tag ≠ "ti:citation".toList) ∨ ∃ e ∈ below x, e.tag = "ti:citation".toList)
    (c : List CiteLevel) : ¬ SchemeElsewhere doc x c := by
  rintro ⟨_, ⟨e, he, ht⟩, hn⟩
  rcases h with h | ⟨e', he', ht'⟩
  · exact h e he ht
  · exact hn e' he' ht'

mutual
theorem situated_mem (around : List Str) : ∀ (n : Node), ∀ p ∈ situated around n, p.2 ∈ elements n
  | .mk t a x ks l => by
    intro p hp
    rw [situated, List.mem_cons] at hp
    rw [elements, List.mem_cons, below]
    rcases hp with rfl | hp
    · exact .inl rfl
    · exact .inr (situatedAll_mem _ ks p hp)
theorem situatedAll_mem (around : List Str) : ∀ (ks : List Node), ∀ p ∈ situatedAll around ks, p.2 ∈ belowAll ks
  | [] => by simp [situatedAll]
  | c :: r => by
    intro p hp
    rw [situatedAll, List.mem_append] at hp
    rw [belowAll, List.mem_cons, List.mem_append]
    rcases hp with hp | hp
    · have := situated_mem around c p hp
      rw [elements, List.mem_cons] at this
      rcases this with h | h
      · exact .inl h
      · exact .inr (.inl h)
    · exact .inr (.inr (situatedAll_mem around r p hp))
end

theorem labelled_whole {doc : Node} (h : Labelled doc) : ¬ SchemeElsewhere doc doc [] := by
  obtain ⟨x, rest, hx, h⟩ := h
  have hm : x ∈ elements doc := by
    have : x ∈ within "ti:reply" "ti:label" doc := by rw [hx]; simp
    obtain ⟨p, hp, rfl⟩ := List.mem_map.1 this
    exact situated_mem [] doc p (List.mem_filter.1 hp).1
  rintro ⟨_, ⟨e, he, ht⟩, hn⟩
  rcases h with h | ⟨e', he', ht'⟩
  · exact h e he ht
  · exact hn e' (below_trans doc x e' hm he') ht'

theorem plus_made {serve : DocEndpoint} {d : Option Str} {s : RemoteText} {text : Str} {w : Urn} (hs : s.urn.str = .ok (text, w)) {sub : Option Str}
    (hsub : ∀ r ∈ sub, r ≠ []) {u : Urn} (hu : Urn.parse (wholeOr text sub) = .ok u) {doc : Node}
    (hd : serve (ctsPassagePlus d (wholeOr text sub) none none) = .ok doc) (hr : Labelled doc) {env : List Str}
    {tree : Node} (hg : GivesText doc env tree) (fresh : Term) :
    ∃ s' p, s.plus serve d sub fresh = (s', .ok p) ∧ s'.log = s.log ++ [ctsPassagePlus d (wholeOr text sub) none none] ∧
      p.nav.urn = u ∧ p.nav.prev = (readPrevNext (replyOf doc)).1 ∧ p.nav.next = (readPrevNext (replyOf doc)).2 ∧
      (∀ a ∈ p.around, a ∈ env) ∧ SameElement p.element tree := by
  obtain ⟨p, e2, hp⟩ := openWhole_made_of hu (labelled_whole hr) hg fresh (s.log ++ [ctsPassagePlus d (wholeOr text sub) none none])
  obtain ⟨x, rest, hx, h⟩ := hr
  have hx' : elementsIn ['t', 'i', ':', 'r', 'e', 'p', 'l', 'y'] ['t', 'i', ':', 'l', 'a', 'b', 'e', 'l'] doc = x :: rest :=
    (within_eq "ti:reply" "ti:label" doc).trans hx
  have hw := withPassage_eq text hsub
  have hsch := C84_scheme doc x s.graph p.obj
  cases hq : parseRequest doc x s.graph p.obj with
  | mk g o =>
    cases o with
    | error e =>
      rw [hq] at hsch
      exact absurd ((hsch.2 e).1 rfl).2 (labelled_not_elsewhere h _)
    | ok o =>
      refine ⟨{ { s with log := s.log ++ [ctsPassagePlus d (wholeOr text sub) none none] } with graph := g, obj := { s.obj with cite := o.cite } },
        { p with obj := o }, ?_, rfl, hp.urn, hp.prev, hp.next, hp.around, hp.element⟩
      simp only [RemoteText.plus, hs, hw, hd, e2, hx', hq]

/-- The passage that the resolver of the endpoint gives for a unit. -/
theorem apiOpen_unit {lv : Levels} {r : RootV} {parts : TextV → UrnParts} (hl : Library lv r parts) {files : Files} {serve : DocEndpoint} {d : Option Str}
    {env : List Str} {t : TextV} {root : Node} {ls : List Level} (h : Offered files r serve d env t root ls) {k : Nat} (hk1 : 1 ≤ k) (hk : k ≤ ls.length)
    {before after : List (List Str × List Nat)} {u : List Str × List Nat} (hb : units (ls.take k) root = before ++ u :: after) {sub : PassageArg}
    (hsub : sub = .text (dotted u.1) ∨ sub = .ref (single u.1)) (prevnext metadata : Bool) (g : Graph) (fresh fresh' : Term) :
    ∃ s p v doc, apiOpen serve d t.id (some sub) prevnext metadata g fresh fresh' = .ok (s, .ok p) ∧
      s.log = [if prevnext = true ∨ metadata = true then ctsPassagePlus d (t.id ++ ':' :: dotted u.1) none none
        else ctsPassage d (t.id ++ ':' :: dotted u.1) none none] ∧
      Urn.parse (t.id ++ ':' :: dotted u.1) = .ok v ∧ p.nav.urn = v ∧
      p.nav.prev = (readPrevNext (replyOf doc)).1 ∧ p.nav.next = (readPrevNext (replyOf doc)).2 ∧
      (∀ a ∈ p.around, a ∈ env) ∧ SameElement p.element (emptied root (chainTo root u.2)) ∧
      (announcedIn doc = none ∨ announcedIn doc =
        some (before.getLast?.map fun w => t.id ++ ':' :: dotted w.1, after.head?.map fun w => t.id ++ ':' :: dotted w.1)) := by
  obtain ⟨ht, _, _⟩ := offered_urn hl h
  have hu : u ∈ units (ls.take k) root := by rw [hb]; simp
  have hcs := unit_components h.held.citable h.document hk1 hk hu
  obtain ⟨v, hv, _⟩ := parse_passage ht (plainRef_dotted hcs)
  obtain ⟨w, hw, _, _, hstr, _⟩ := parse_text ht
  have hsh : sub.shown = dotted u.1 := by rcases hsub with rfl | rfl <;> rfl
  by_cases hc : prevnext = true ∨ metadata = true
  · have hb' : (metadata || prevnext) = true := by rcases hc with e | e <;> simp [e]
    obtain ⟨doc, h1, h2, h3, h4⟩ := h.plus.units k before after u hk1 hk hb
    obtain ⟨s', p, e1, e2, e3, e4, e5, e6, e7⟩ := plus_made (s := ⟨w, ⟨fresh, []⟩, g, []⟩) (sub := some (dotted u.1)) hstr
      (by rintro _ ⟨⟩; exact (plainRef_dotted hcs).1) hv h1 h2 h3 fresh'
    refine ⟨s', p, v, doc, ?_, by rw [if_pos hc]; exact e2, hv, e3, e4, e5, e6, e7, .inr h4⟩
    simp only [apiOpen, apiText, hw, hb', if_true, Option.map_some, hsh, e1]
  · have hb' : (metadata || prevnext) = false := by cases prevnext <;> cases metadata <;> simp at hc ⊢
    obtain ⟨doc, h1, h2, h3, h4⟩ := h.document.passages k before after u hk1 hk hb
    have ha : NamesUnit t.id u.1 (subArg (some sub)) := by
      rcases hsub with rfl | rfl
      · exact .inl rfl
      · rfl
    obtain ⟨s', p, e1, _, e3, _, hm⟩ := getNode_made (s := ⟨w, ⟨fresh, []⟩, g, []⟩) (C97_naming t.id (parts t) ht w hw u.1 hcs _ ha) hv h1 h2 h3 fresh'
    refine ⟨s', p, v, doc, ?_, by rw [if_neg hc]; exact e3, hv, hm.urn, hm.prev, hm.next, hm.around, hm.element, h4⟩
    simp only [apiOpen, apiText, hw, hb', Bool.false_eq_true, if_false, e1]

/-- C98. The passage of any unit, named by a string or a reference and with any options: the resolver of the endpoint sends one request, and its
passage agrees with the one of the local resolver in URN, element and plain text, and has the same siblings. -/
theorem C98_node (lv : Levels) (r : RootV) (parts : TextV → UrnParts) (hl : Library lv r parts) (files : Files) (serve : DocEndpoint) (d : Option Str)
    (env : List Str) (t : TextV) (root : Node) (ls : List Level) (h : Offered files r serve d env t root ls) (same : Same)
    (hs : ∀ n i, same n i i = true) (k : Nat) (hk1 : 1 ≤ k) (hk : k ≤ ls.length) (u : List Str × List Nat) (hu : u ∈ units (ls.take k) root)
    (sub : PassageArg) (hsub : sub = .text (dotted u.1) ∨ sub = .ref (single u.1)) (prevnext metadata : Bool) (g : Graph) (fresh fresh' : Term) :
    ∃ s p q prev next, apiOpen serve d t.id (some sub) prevnext metadata g fresh fresh' = .ok (s, .ok p) ∧
      resolverNode files same r t.id (some sub) = .ok (.part (t.id ++ ':' :: dotted u.1) q) ∧
      s.log = [if prevnext = true ∨ metadata = true then ctsPassagePlus d (t.id ++ ':' :: dotted u.1) none none
        else ctsPassage d (t.id ++ ':' :: dotted u.1) none none] ∧
      q.ref = single u.1 ∧ Agree t.id env p q ∧
      q.siblingsId (textOf root same ls) = .ok (prev, next) ∧ (p.nav.siblingsId serve.replies d).2 = .ok (sibOf prev, sibOf next) := by
  obtain ⟨ht, ha, hid⟩ := offered_urn hl h
  obtain ⟨before, after, hb⟩ := unit_split hu
  have hcs := unit_components h.held.citable h.document hk1 hk hu
  obtain ⟨s, p, v, doc, e1, e2, hv, e3, e4, e5, e6, e7, e8⟩ := apiOpen_unit hl h hk1 hk hb hsub prevnext metadata g fresh fresh'
  have hl1 := C82_unit lv r parts hl (parts t) t ha files root ls h.held same hs k hk1 hk u.1 u.2 hu (h.document.plainIds k u hu)
  rw [hid] at hl1
  have hl2 : resolverNode files same r t.id (some sub) = .ok (.part (t.id ++ ':' :: dotted u.1) ⟨single u.1, emptied root (chainTo root u.2), .text⟩) := by
    rcases hsub with rfl | rfl
    · exact hl1
    · rw [← hl1]
      have hm := mkRef_dotted hcs.1 (fun v hv => (hcs.2 v hv).1)
      simp only [resolverNode, optMake, PassageArg.make, hm]
      rfl
  refine ⟨s, p, _, _, _, e1, hl2, e2, rfl, ?_, siblingsId_single h.held.citable hk1 hk hb _, ?_⟩
  · refine ⟨?_, e7, ?_⟩
    · obtain ⟨u', hu', _, _, hs', _⟩ := parse_passage ht (plainRef_dotted hcs)
      rw [hv] at hu'; cases hu'
      exact ⟨v, by rw [e3]; exact hs'⟩
    · intro ex hex
      rw [OpenedPassage.plain, plainText_around (fun e he hn => hex e he (e6 e hn)), plainText_same e7]
  · exact (made_siblings ht h.held.citable h.document hk1 hk hb (by rw [e3]; exact hv) e4 e5 e8).1

/-- C98. All of the text, without reference: the same URN, the same root and the same plain text. -/
theorem C98_whole (lv : Levels) (r : RootV) (parts : TextV → UrnParts) (hl : Library lv r parts) (files : Files) (serve : DocEndpoint) (d : Option Str)
    (env : List Str) (t : TextV) (root : Node) (ls : List Level) (h : Offered files r serve d env t root ls) (same : Same)
    (prevnext metadata : Bool) (g : Graph) (fresh fresh' : Term) :
    ∃ s p, apiOpen serve d t.id none prevnext metadata g fresh fresh' = .ok (s, .ok p) ∧
      resolverNode files same r t.id none = .ok (.whole t.id root) ∧
      s.log = [if prevnext = true ∨ metadata = true then ctsPassagePlus d t.id none none else ctsPassage d t.id none none] ∧
      AtUrn p.nav t.id ∧ SameElement p.element root ∧
      ∀ ex : List Str, (∀ e ∈ ex, e ∉ env) → p.plain ex = plainText defaultJoin [] ex root := by
  obtain ⟨ht, ha, hid⟩ := offered_urn hl h
  obtain ⟨w, hw, _, _, hstr, _⟩ := parse_text ht
  have hloc := (C82_whole lv r parts hl (parts t) t ha files root ls h.held same).1
  rw [hid] at hloc
  have key : ∃ s p, apiOpen serve d t.id none prevnext metadata g fresh fresh' = .ok (s, .ok p) ∧
      s.log = [if prevnext = true ∨ metadata = true then ctsPassagePlus d t.id none none else ctsPassage d t.id none none] ∧
      p.nav.urn = w ∧ (∀ a ∈ p.around, a ∈ env) ∧ SameElement p.element root := by
    by_cases hc : prevnext = true ∨ metadata = true
    · have hb' : (metadata || prevnext) = true := by rcases hc with e | e <;> simp [e]
      obtain ⟨doc, h1, h2, h3⟩ := h.plus.whole
      obtain ⟨s', p, e1, e2, e3, _, _, e6, e7⟩ := plus_made (s := ⟨w, ⟨fresh, []⟩, g, []⟩) (sub := none) hstr (by simp) hw h1 h2 h3 fresh'
      refine ⟨s', p, ?_, by rw [if_pos hc]; exact e2, e3, e6, e7⟩
      simp only [apiOpen, apiText, hw, hb', if_true, Option.map_none, e1]
    · have hb' : (metadata || prevnext) = false := by cases prevnext <;> cases metadata <;> simp at hc ⊢
      obtain ⟨scheme, hsc⟩ := h.whole
      obtain ⟨s', p, doc, e1, _, e3, hm, _⟩ := whole_made ht hsc (s := ⟨w, ⟨fresh, []⟩, g, []⟩) hw fresh'
      refine ⟨s', p, ?_, by rw [if_neg hc]; exact e3, hm.urn, hm.around, hm.element⟩
      simp only [apiOpen, apiText, hw, hb', Bool.false_eq_true, if_false, subArg, e1]
  obtain ⟨s, p, e1, e2, e3, e4, e5⟩ := key
  refine ⟨s, p, e1, hloc, e2, ⟨w, by rw [e3]; exact hstr⟩, e5, fun ex hex => ?_⟩
  rw [OpenedPassage.plain, plainText_around (fun e he hn => hex e he (e4 e hn)), plainText_same e5]

/-- C98. The siblings of any unit: the resolver of the endpoint sends one request and gives those that the local resolver gives, as strings. -/
theorem C98_siblings (lv : Levels) (r : RootV) (parts : TextV → UrnParts) (hl : Library lv r parts) (files : Files) (serve : DocEndpoint) (d : Option Str)
    (env : List Str) (t : TextV) (root : Node) (ls : List Level) (h : Offered files r serve d env t root ls) (same : Same)
    (hs : ∀ n i, same n i i = true) (k : Nat) (hk1 : 1 ≤ k) (hk : k ≤ ls.length) (before after : List (List Str × List Nat)) (u : List Str × List Nat)
    (hb : units (ls.take k) root = before ++ u :: after) :
    resolverSiblings files same r t.id (.text (dotted u.1)) = .ok (before.getLast?.map (single ·.1), after.head?.map (single ·.1)) ∧
    apiSiblings serve.replies d t.id (dotted u.1) = .ok (ctsPrevNextUrn d (t.id ++ ':' :: dotted u.1) none,
      .ok (sibOf (before.getLast?.map (single ·.1)), sibOf (after.head?.map (single ·.1)))) := by
  obtain ⟨ht, ha, hid⟩ := offered_urn hl h
  have hu : u ∈ units (ls.take k) root := by rw [hb]; simp
  have h1 := C82_siblings lv r parts hl (parts t) t ha files root ls h.held same hs k hk1 hk before after u hb (h.document.plainIds k u hu)
  rw [hid] at h1
  refine ⟨h1, ?_⟩
  obtain ⟨doc, g1, g2⟩ := h.document.siblings k before after u hk1 hk hb
  have hd : serve.replies (ctsPrevNextUrn d (t.id ++ ':' :: dotted u.1) none) = .ok (replyOf doc) := by
    show replyOf <$> serve _ = _
    rw [g1]; rfl
  obtain ⟨w, hw, _, _, _, hnp⟩ := parse_text ht
  have hr : prevNextRequest d w (dotted u.1) = .ok (ctsPrevNextUrn d (t.id ++ ':' :: dotted u.1) none) := by
    simp [prevNextRequest, hnp, bind, Except.bind, pure, Except.pure, colon]
  have hmem : ∀ w, w ∈ before ∨ w ∈ after → UrnComponents w.1 := by
    intro w hw
    refine unit_components h.held.citable h.document hk1 hk (u := w) ?_
    rw [hb]
    simp only [List.mem_append, List.mem_cons]
    rcases hw with hw | hw
    · exact .inl hw
    · exact .inr (.inr hw)
  simp only [apiSiblings, hw, hr, hd]
  have hx : readPrevNext (replyOf doc) = (sibOf (before.getLast?.map (single ·.1)), sibOf (after.head?.map (single ·.1))) := by
    rw [readPrevNext, announced_eq, g2]
    simp only
    rw [sib_urn fun w hw => hmem w (.inl (List.mem_of_getLast? hw)), sib_urn fun w hw => hmem w (.inr (List.mem_of_head? hw))]
  rw [← hx]; rfl

/-- C98. The references of a level, in all of the text or in a unit of a higher level: the resolver of the endpoint sends one request and lists what
the local resolver lists, as strings and in the same order. -/
theorem C98_lists (lv : Levels) (r : RootV) (parts : TextV → UrnParts) (hl : Library lv r parts) (files : Files) (serve : DocEndpoint) (d : Option Str)
    (env : List Str) (t : TextV) (root : Node) (ls : List Level) (h : Offered files r serve d env t root ls) (same : Same)
    (hs : ∀ n i, same n i i = true) (level : Nat) (hlev : level ≤ ls.length) (under : List Str) (hj : under.length < level) (pos : List Nat)
    (hu : (under, pos) ∈ units (ls.take under.length) root) (g : Graph) (fresh : Term) :
    ∃ s refs, apiList serve d t.id level ((refOf under).map .text) g fresh = .ok (s, .ok ((listing root ls level under).map dotted)) ∧
      s.log = [ctsValidReff d (wholeOr t.id (refOf under)) none (some (level : Int))] ∧
      resolverReffs files same r t.id (some level) ((refOf under).map .text) = .ok refs ∧
      refs.map refText = (listing root ls level under).map dotted ∧ listing root ls level under ≠ [] := by
  obtain ⟨ht, ha, hid⟩ := offered_urn hl h
  obtain ⟨w, hw, hnr, _, hstr, _⟩ := parse_text ht
  have hfull := h.full level under pos hj hlev hu
  obtain ⟨doc, h1, h2, h3⟩ := h.document.lists level under hj hlev ⟨pos, hu⟩
  have hne : refOf under ≠ some [] := by
    rw [refOf]
    split
    · simp
    · rename_i hn
      have hcs := unit_components h.held.citable h.document (k := under.length) (by cases under <;> simp at hn ⊢) (by omega) hu
      intro e
      exact (plainRef_dotted hcs).1 (Option.some.inj e)
  obtain ⟨s', e1, _, _, e4⟩ := getValidReff_readable (serve := serve) (d := d) (s := ⟨w, ⟨fresh, []⟩, g, []⟩) hstr hne h1 h2
  rw [listed_units h3 (listing_components h.held.citable h.document (by omega) hlev)] at e1
  have hmap : ((refOf under).map PassageArg.text).map PassageArg.shown = refOf under := by cases refOf under <;> rfl
  refine ⟨s', (listing root ls level under).map fun ids => some (single ids), ?_, e4, ?_, by rw [List.map_map]; rfl, hfull⟩
  · simp only [apiList, apiText, hw, RemoteText.getReffs, remoteLevel, hnr, hmap]
    rw [e1]
  · rw [refOf]
    by_cases hn : under = []
    · subst hn
      have := C82_reffs lv r parts hl (parts t) t ha files root ls h.held same level (by omega)
      rw [hid, if_neg (by omega)] at this
      rw [if_pos rfl, listing_all] at *
      rw [Option.map_none, this, if_neg (by simpa using hfull), List.map_map]
      rfl
    · have := C82_reffs_under lv r parts hl (parts t) t ha files root ls h.held same hs under.length (by cases under <;> simp at hn ⊢) (by omega)
        under pos hu (h.document.plainIds _ _ hu) level hj
      rw [hid, if_neg (by omega), if_neg (by simpa using hfull)] at this
      rw [if_neg hn, Option.map_some, this]

/-! ### Programs -/

theorem components_dotted : ∀ {ids : List Str}, ids ≠ [] → (∀ v ∈ ids, IsComponent v) → components (dotted ids) = ids.length
  | [], h, _ => absurd rfl h
  | [a], _, hc => by
    have : '.' ∉ a := (hc a (by simp)).2.1
    simp [components, dotted, List.count_eq_zero_of_not_mem this]
  | a :: b :: l, _, hc => by
    have ih := components_dotted (ids := b :: l) (by simp) (fun v hv => hc v (List.mem_cons_of_mem _ hv))
    have : '.' ∉ a := (hc a (by simp)).2.1
    simp only [components] at ih ⊢
    rw [show dotted (a :: b :: l) = a ++ '.' :: dotted (b :: l) from rfl]
    simp only [List.count_append, List.count_cons_self, List.count_eq_zero_of_not_mem this, List.length_cons] at ih ⊢
    omega

theorem bare_same {x y : Node} (h : SameElement x y) : bare x = bare y := by
  obtain ⟨h1, h2, h3, h4⟩ := h
  rw [bare, bare, h1, h2, h3, h4]

/-- What a program may know: references of units. -/
def UnitOf (root : TextV → Node) (ls : TextV → List Level) (texts : List TextV) (x : Str × Str) : Prop :=
  ∃ t ∈ texts, x.1 = t.id ∧ ∃ k u, 1 ≤ k ∧ k ≤ (ls t).length ∧ u ∈ units ((ls t).take k) (root t) ∧ x.2 = dotted u.1

theorem sibRefs_unit {o : Option (List Str × List Nat)} {r : Str} (h : r ∈ sibRefs (sibOf (o.map (single ·.1)))) : ∃ w ∈ o, r = dotted w.1 := by
  cases o with
  | none => simp [sibOf, sibRefs] at h
  | some w =>
    simp only [Option.map_some, sibOf, sibRefs, List.mem_singleton] at h
    exact ⟨w, rfl, h⟩

/-- C98. No program that finds its way by what it is told can tell the two resolvers apart: with either of them it ends, without an error and
with the same result. -/
theorem C98_programs (lv : Levels) (r : RootV) (parts : TextV → UrnParts) (hl : Library lv r parts) (files : Files) (serve : DocEndpoint) (d : Option Str)
    (env : List Str) (texts : List TextV) (root : TextV → Node) (ls : TextV → List Level)
    (h : ∀ t ∈ texts, Offered files r serve d env t (root t) (ls t)) (same : Same) (hs : ∀ n i, same n i i = true) (g : Graph) (fresh fresh' : Term)
    {α : Type} (c : Client α) (hc : Guided (texts.map fun t => (t.id, (ls t).length)) [] c) :
    ∃ a, c.run (localView files same r) = .ok a ∧ c.run (remoteView serve d g fresh fresh') = .ok a := by
  have main : ∀ (c : Client α) (known : List (Str × Str)), Guided (texts.map fun t => (t.id, (ls t).length)) known c → (∀ x ∈ known, UnitOf root ls texts x) →
      ∃ a, c.run (localView files same r) = .ok a ∧ c.run (remoteView serve d g fresh fresh') = .ok a := by
    intro c known hc
    induction hc with
    | @done known a => exact fun _ => ⟨a, rfl, rfl⟩
    | @whole known t n p m go ht _ ih =>
      intro hk
      obtain ⟨t, htm, e⟩ := List.mem_map.1 ht
      simp only [Prod.mk.injEq] at e
      obtain ⟨rfl, rfl⟩ := e
      obtain ⟨s, q, e1, e2, _, ⟨w, e4⟩, e5, e6⟩ := C98_whole lv r parts hl files serve d env t (root t) (ls t) (h t htm) same p m g fresh fresh'
      have e7 := e6 [] (by simp)
      obtain ⟨a, a1, a2⟩ := ih ⟨t.id, bare (root t), plainText defaultJoin [] [] (root t)⟩ hk
      refine ⟨a, ?_, ?_⟩
      · simp only [Client.run, localView, Option.map_none, e2]
        exact a1
      · simp only [Client.run, remoteView, Option.map_none, e1, seenOpened, e4, e7, bare_same e5]
        exact a2
    | @node known t r' p m go hr _ ih =>
      intro hk
      obtain ⟨t, htm, rfl, k, u, hk1, hk2, hu, rfl⟩ := hk _ hr
      obtain ⟨s, q, q', prev, next, e1, e2, _, e4, ⟨⟨w, e5⟩, e6, e7⟩, _⟩ := C98_node lv r parts hl files serve d env t (root t) (ls t) (h t htm) same hs k hk1 hk2 u hu
        (.text (dotted u.1)) (.inl rfl) p m g fresh fresh'
      have e8 := e7 [] (by simp)
      have e9 : q'.ref.str = dotted u.1 := by rw [e4]; rfl
      rw [e9] at e5
      obtain ⟨a, a1, a2⟩ := ih ⟨t.id ++ ':' :: dotted u.1, bare q'.tree, plainText defaultJoin [] [] q'.tree⟩ hk
      refine ⟨a, ?_, ?_⟩
      · simp only [Client.run, localView, Option.map_some, e2]
        exact a1
      · simp only [Client.run, remoteView, Option.map_some, e1, seenOpened, e5, e8, bare_same e6]
        exact a2
    | @siblings known t r' go hr _ ih =>
      intro hk
      obtain ⟨t, htm, rfl, k, u, hk1, hk2, hu, rfl⟩ := hk _ hr
      obtain ⟨before, after, hb⟩ := unit_split hu
      obtain ⟨e1, e2⟩ := C98_siblings lv r parts hl files serve d env t (root t) (ls t) (h t htm) same hs k hk1 hk2 before after u hb
      obtain ⟨a, a1, a2⟩ := ih (sibOf (before.getLast?.map (single ·.1)), sibOf (after.head?.map (single ·.1))) (by
        intro x hx
        rcases List.mem_append.1 hx with hx | hx
        · exact hk x hx
        · obtain ⟨y, hy, rfl⟩ := List.mem_map.1 hx
          have hw : ∃ w ∈ units ((ls t).take k) (root t), y = dotted w.1 := by
            rcases List.mem_append.1 hy with hy | hy
            · obtain ⟨w, hw, e⟩ := sibRefs_unit hy
              exact ⟨w, by rw [hb]; exact List.mem_append_left _ (List.mem_of_getLast? hw), e⟩
            · obtain ⟨w, hw, e⟩ := sibRefs_unit hy
              exact ⟨w, by rw [hb]; exact List.mem_append_right _ (List.mem_cons_of_mem _ (List.mem_of_head? hw)), e⟩
          obtain ⟨w, hw, e⟩ := hw
          exact ⟨t, htm, rfl, k, w, hk1, hk2, hw, e⟩)
      refine ⟨a, ?_, ?_⟩
      · simp only [Client.run, localView, e1]
        exact a1
      · simp only [Client.run, remoteView, e2]
        exact a2
    | @reffs known t n go level ht h1 h2 _ ih =>
      intro hk
      obtain ⟨t, htm, e⟩ := List.mem_map.1 ht
      simp only [Prod.mk.injEq] at e
      obtain ⟨rfl, rfl⟩ := e
      obtain ⟨s, refs, e1, _, e3, e4, _⟩ := C98_lists lv r parts hl files serve d env t (root t) (ls t) (h t htm) same hs level h2 [] (by simp only [List.length_nil]; omega) []
        (by simp [units]) g fresh
      obtain ⟨a, a1, a2⟩ := ih ((listing (root t) (ls t) level []).map dotted) (by
        intro x hx
        rcases List.mem_append.1 hx with hx | hx
        · exact hk x hx
        · obtain ⟨y, hy, rfl⟩ := List.mem_map.1 hx
          obtain ⟨ids, hi, rfl⟩ := List.mem_map.1 hy
          obtain ⟨pos, hm, _⟩ := mem_listing.1 hi
          exact ⟨t, htm, rfl, level, (ids, pos), h1, h2, hm, rfl⟩)
      simp only [refOf, if_true, Option.map_none] at e1 e3
      refine ⟨a, ?_, ?_⟩
      · simp only [Client.run, localView, Option.map_none, e3]
        show Client.run _ (go (refs.map refText)) = _
        rw [e4]; exact a1
      · simp only [Client.run, remoteView, Option.map_none, e1]
        exact a2
    | @inside known t n r' go level ht hr h1 h2 _ ih =>
      intro hk
      obtain ⟨t, htm, e⟩ := List.mem_map.1 ht
      simp only [Prod.mk.injEq] at e
      obtain ⟨rfl, rfl⟩ := e
      obtain ⟨t', htm', he, k, u, hk1, hk2, hu, rfl⟩ := hk _ hr
      have : t' = t := (h t htm).once t' (h t' htm').member he.symm
      subst this
      have hcs := unit_components (h t' htm).held.citable (h t' htm).document hk1 hk2 hu
      have hlen := mem_units_length hu
      rw [List.length_take, Nat.min_eq_left hk2] at hlen
      rw [components_dotted hcs.1 fun v hv => (hcs.2 v hv).1] at h1
      obtain ⟨s, refs, e1, _, e3, e4, _⟩ := C98_lists lv r parts hl files serve d env t' (root t') (ls t') (h t' htm) same hs level h2 u.1 h1 u.2
        (by rw [hlen]; exact hu) g fresh
      obtain ⟨a, a1, a2⟩ := ih ((listing (root t') (ls t') level u.1).map dotted) (by
        intro x hx
        rcases List.mem_append.1 hx with hx | hx
        · exact hk x hx
        · obtain ⟨y, hy, rfl⟩ := List.mem_map.1 hx
          obtain ⟨ids, hi, rfl⟩ := List.mem_map.1 hy
          obtain ⟨pos, hm, _⟩ := mem_listing.1 hi
          exact ⟨t', htm, rfl, level, (ids, pos), by omega, h2, hm, rfl⟩)
      rw [refOf, if_neg hcs.1] at e1 e3
      simp only [Option.map_some] at e1 e3
      refine ⟨a, ?_, ?_⟩
      · simp only [Client.run, localView, Option.map_some, e3]
        show Client.run _ (go (refs.map refText)) = _
        rw [e4]; exact a1
      · simp only [Client.run, remoteView, Option.map_some, e1]
        exact a2
  exact main c [] hc (by simp)

/-! ### The same resolver as in C70 -/

theorem openWhole_nav {urn : Str} {doc : Node} {fresh : Term} {log : List (List (Str × Str))} {p : OpenedPassage}
    (h : openWhole urn doc fresh log = .ok p) : openPassage urn (replyOf doc) log = .ok p.nav := by
  rw [openWhole] at h
  split at h
  · split at h <;> cases h
  · rw [openRemote] at h
    cases ho : openPassage urn (replyOf doc) log with
    | error e => rw [ho] at h; cases h
    | ok q =>
      rw [ho] at h
      simp only at h
      cases ha : adoptScheme doc doc [] with
      | error e => rw [ha] at h; cases h
      | ok c => rw [ha] at h; cases h; rfl

/-- C98. The resolver is the one of C70: what it returns for a string, and the requests it sends, are what C70 says of them. -/
theorem C98_same_resolver (serve : DocEndpoint) (d : Option Str) (text : Str) (sub : Option Str) (prevnext metadata : Bool) (g : Graph) (fresh fresh' : Term)
    (s : RemoteText) (p : OpenedPassage) (h : apiOpen serve d text (sub.map .text) prevnext metadata g fresh fresh' = .ok (s, .ok p)) :
    apiNode serve.replies d text sub prevnext metadata = .ok (s.log, .ok p.nav) := by
  have hsh : (sub.map PassageArg.text).map PassageArg.shown = sub := by cases sub <;> rfl
  simp only [apiOpen, apiText, apiNode] at h ⊢
  cases hu : Urn.parse text with
  | error e => rw [hu] at h; cases h
  | ok u =>
    rw [hu] at h
    simp only at h ⊢
    cases hb : (metadata || prevnext) with
    | true =>
      rw [hb] at h
      simp only [if_true, hsh, RemoteText.plus, Except.ok.injEq] at h ⊢
      cases hs : u.str with
      | error e => rw [hs] at h; cases h
      | ok w =>
        obtain ⟨t, w⟩ := w
        rw [hs] at h
        simp only [remotePlus, DocEndpoint.replies] at h ⊢
        cases hd : serve (ctsPassagePlus d (withPassage t sub) none none) with
        | error e => rw [hd] at h; cases h
        | ok doc =>
          rw [hd] at h
          simp only [List.nil_append] at h
          have hf : (replyOf <$> Except.ok doc : Except PyErr CtsReply) = .ok (replyOf doc) := rfl
          simp only [hf]
          cases ho : openWhole (withPassage t sub) doc fresh' [ctsPassagePlus d (withPassage t sub) none none] with
          | error e => rw [ho] at h; cases h
          | ok q =>
            rw [ho] at h
            simp only at h
            have hn := openWhole_nav ho
            split at h
            · cases h
            · split at h
              · cases h
              · simp only [Prod.mk.injEq, Except.ok.injEq] at h
                obtain ⟨rfl, rfl⟩ := h
                simp only [hn]
    | false =>
      rw [hb] at h
      simp only [Bool.false_eq_true, if_false, Except.ok.injEq] at h ⊢
      have h1 : (RemoteText.getNode serve d (subArg (sub.map .text)) fresh' ⟨u, ⟨fresh, []⟩, g, []⟩).1 =
          (RemoteText.getTextualNode serve d sub fresh' ⟨u, ⟨fresh, []⟩, g, []⟩).1 ∧
          (fun p => (p.nav, p.obj)) <$> (RemoteText.getNode serve d (subArg (sub.map .text)) fresh' ⟨u, ⟨fresh, []⟩, g, []⟩).2 =
          (RemoteText.getTextualNode serve d sub fresh' ⟨u, ⟨fresh, []⟩, g, []⟩).2 := by
        cases sub with
        | none => exact C97_same_node serve d none fresh' _
        | some v => exact C97_same_node serve d (some v) fresh' _
      have h2 := C84_node_navigation serve d sub fresh' ⟨u, ⟨fresh, []⟩, g, []⟩
      rw [h] at h1
      obtain ⟨h1, h1'⟩ := h1
      rw [← h1] at h2
      rw [← h1'] at h2
      simp only [Functor.map, Except.map] at h2
      rcases h2 with ⟨h2, h3 | h3⟩
      · exact Prod.ext h2.symm h3.symm
      · cases h3

/-! ### Where the resolvers differ -/

/-- C98, where the code departs from the natural claim: a level that does not lie below the reference. The local resolver lists the level below the
reference; the resolver of the endpoint asks for the level as it is given. -/
theorem C98_fails_level_of_passage (lv : Levels) (r : RootV) (parts : TextV → UrnParts) (hl : Library lv r parts) (files : Files) (serve : DocEndpoint)
    (d : Option Str) (env : List Str) (t : TextV) (root : Node) (ls : List Level) (h : Offered files r serve d env t root ls) (same : Same)
    (hs : ∀ n i, same n i i = true) (k : Nat) (hk1 : 1 ≤ k) (hk : k < ls.length) (u : List Str × List Nat) (hu : u ∈ units (ls.take k) root)
    (level : Nat) (h1 : 1 ≤ level) (h2 : level ≤ k) (g : Graph) (fresh : Term) :
    resolverReffs files same r t.id (some level) (some (.text (dotted u.1))) = .ok ((listing root ls (k + 1) u.1).map fun ids => some (single ids)) ∧
    ∃ s out, apiList serve d t.id level (some (.text (dotted u.1))) g fresh = .ok (s, out) ∧
      s.log = [ctsValidReff d (t.id ++ ':' :: dotted u.1) none (some (level : Int))] := by
  obtain ⟨ht, ha, hid⟩ := offered_urn hl h
  have hcs := unit_components h.held.citable h.document hk1 (by omega) hu
  have hlen := mem_units_length hu
  rw [List.length_take, Nat.min_eq_left (by omega)] at hlen
  have hfull := h.full (k + 1) u.1 u.2 (by omega) (by omega) (by rw [hlen]; exact hu)
  constructor
  · have hn := C82_unit lv r parts hl (parts t) t ha files root ls h.held same hs k hk1 (by omega) u.1 u.2 hu (h.document.plainIds k u hu)
    rw [resolverNode, fetchTextId_held hl ha h.held] at hn
    rw [resolverReffs, ← hid, fetchTextId_held hl ha h.held]
    have hne' : (dotted u.1).isEmpty = false := by
      cases e : dotted u.1 with
      | nil => exact absurd e (plainRef_dotted hcs).1
      | cons _ _ => rfl
    simp only [noSub, hne', Bool.false_eq_true, if_false]
    simp only [optMake, PassageArg.make, mkRef_dotted hcs.1 fun v hv => (hcs.2 v hv).1] at hn ⊢
    rw [hn]
    have hb : levelBelow u.1.length (some (level : Int)) = (k : Int) + 1 := by
      simp only [levelBelow]
      split <;> omega
    have := C30_level_below_passage root ls same h.held.citable u.1 hcs.1 (fun v hv => h.held.citable.ids k u hu v hv) (some level)
    rw [hb, if_neg (by omega), show ((k : Int) + 1).toNat = k + 1 by omega, if_neg (by simpa using hfull)] at this
    exact this
  · obtain ⟨w, hw, _⟩ := parse_text ht
    have := C97_fails_relative_level serve d t.id (dotted u.1) (parts t) ht (plainRef_dotted hcs).1 ⟨w, ⟨fresh, []⟩, g, []⟩ hw level
    refine ⟨_, (RemoteText.getReffs serve d level (some (dotted u.1)) ⟨w, ⟨fresh, []⟩, g, []⟩).2, ?_, this⟩
    simp only [apiList, apiText, hw, Option.map_some, PassageArg.shown]

theorem reff_minus_one (root : Node) (ls : List Level) (same : Same) (hl : 2 ≤ ls.length) :
    getValidReff (textOf root same ls) (some (-1)) none = .ok [none] := by
  have h2 := length_declsOf root.tag ls
  have hp : ∃ x, citationAt (declsOf root.tag ls) (-1 - 1) = .ok x := by
    simp only [citationAt]
    rw [if_neg (by omega)]
    cases hg : pyGet (declsOf root.tag ls) (-1 - 1) with
    | some x => exact ⟨x, rfl⟩
    | none =>
      exfalso
      revert hg
      simp only [pyGet]
      rw [if_neg (by omega), if_pos (by omega), List.getElem?_eq_none_iff]
      omega
  obtain ⟨x, hx⟩ := hp
  simp only [getValidReff, reffStart, textOf, effLevel, Option.getD_some, Option.isSome_none, Bool.false_eq_true, and_false, if_false]
  unfold reffsAt
  rw [if_neg (by omega)]
  simp only [List.length_nil, List.map_nil]
  rw [show ((-1 : Int) - ((0 : Nat) : Int)).toNat = 0 by decide]
  simp only [reffRounds, finishReffs, joinAll, allSome, join, mkRefs, mkRef]
  rw [hx]
  rfl

/-- C98, where the code departs from the natural claim: level `-1`. The local resolver gives a list of one `None` for a text with two levels or more; the
resolver of the endpoint lists the first level. -/
theorem C98_fails_level_minus_one (lv : Levels) (r : RootV) (parts : TextV → UrnParts) (hl : Library lv r parts) (files : Files) (serve : DocEndpoint)
    (d : Option Str) (env : List Str) (t : TextV) (root : Node) (ls : List Level) (h : Offered files r serve d env t root ls) (same : Same)
    (hlen : 2 ≤ ls.length) (g : Graph) (fresh : Term) :
    resolverReffs files same r t.id (some (-1)) none = .ok [none] ∧
    ∃ s, apiList serve d t.id (-1) none g fresh = .ok (s, .ok ((units (ls.take 1) root).map fun u => dotted u.1)) := by
  obtain ⟨ht, ha, hid⟩ := offered_urn hl h
  constructor
  · rw [resolverReffs, ← hid, fetchTextId_held hl ha h.held]
    exact reff_minus_one root ls same hlen
  · obtain ⟨w, hw, hnr, _, hstr, _⟩ := parse_text ht
    obtain ⟨s, e1, _⟩ := C97_lists serve d t.id (parts t) ht env root ls same h.held.citable h.document ⟨w, ⟨fresh, []⟩, g, []⟩ hw 1 (by omega) (by omega)
    refine ⟨s, ?_⟩
    have : RemoteText.getReffs serve d (-1) none ⟨w, ⟨fresh, []⟩, g, []⟩ = RemoteText.getReffs serve d ((1 : Nat) : Int) none ⟨w, ⟨fresh, []⟩, g, []⟩ := by
      simp only [RemoteText.getReffs, remoteLevel, hnr, RemoteText.getValidReff, hstr]
      rfl
    simp only [apiList, apiText, hw, Option.map_none, this, e1]

/-- C98, where the code departs from the natural claim: the empty reference. For the local resolver it means all of the text. The resolver of the endpoint
asks for a passage with an empty reference, unless siblings or metadata are asked for too. -/
theorem C98_fails_empty_reference (lv : Levels) (r : RootV) (parts : TextV → UrnParts) (hl : Library lv r parts) (files : Files) (serve : DocEndpoint)
    (d : Option Str) (env : List Str) (t : TextV) (root : Node) (ls : List Level) (h : Offered files r serve d env t root ls) (same : Same)
    (g : Graph) (fresh fresh' : Term) :
    resolverNode files same r t.id (some (.text [])) = .ok (.whole t.id root) ∧
    (∃ s out, apiOpen serve d t.id (some (.text [])) false false g fresh fresh' = .ok (s, out) ∧ s.log = [ctsPassage d (t.id ++ [':']) none none]) ∧
    ∃ s p, apiOpen serve d t.id (some (.text [])) true true g fresh fresh' = .ok (s, .ok p) ∧ SameElement p.element root := by
  obtain ⟨ht, ha, hid⟩ := offered_urn hl h
  have hloc := (C82_whole lv r parts hl (parts t) t ha files root ls h.held same).2
  rw [hid] at hloc
  obtain ⟨w, hw, _, hup, hstr, _⟩ := parse_text ht
  refine ⟨hloc, ?_, ?_⟩
  · refine ⟨(RemoteText.getNode serve d (.text []) fresh' ⟨w, ⟨fresh, []⟩, g, []⟩).1, (RemoteText.getNode serve d (.text []) fresh' ⟨w, ⟨fresh, []⟩, g, []⟩).2,
      by simp only [apiOpen, apiText, hw, Bool.or_self, Bool.false_eq_true, if_false, subArg], ?_⟩
    have hn : nodeUrnOf w (.text []) = .ok (t.id ++ [':']) := by
      rw [nodeUrnOf, nodeUrn, if_neg (by simp), hup]; rfl
    simp only [RemoteText.getNode, hn]
    cases serve (ctsPassage d (t.id ++ [':']) none none) with
    | error e => rfl
    | ok doc =>
      simp only
      have hlog := take_log ⟨w, ⟨fresh, []⟩, g, [] ++ [ctsPassage d (t.id ++ [':']) none none]⟩ doc
        (doc.allNodes.filter fun c => c.tag = ['t', 'i', ':', 'r', 'e', 'q', 'u', 'e', 's', 't'])
      revert hlog
      generalize RemoteText.take _ doc _ = o
      obtain ⟨s', e | _⟩ := o <;> exact id
  · obtain ⟨s, p, e1, _, _, _, e5, _⟩ := C98_whole lv r parts hl files serve d env t root ls h same true true g fresh fresh'
    refine ⟨s, p, ?_, e5⟩
    rw [← e1]
    simp only [apiOpen, apiText, hw, Bool.or_self, if_true, Option.map_some, PassageArg.shown, Option.map_none, RemoteText.plus, hstr]
    rfl

/-! ### A text in a file and at an endpoint -/

/-- The published poems under the name that endpoints give the root. -/
def publishedTei : Node :=
  .mk "tei:TEI".toList [] [] [.mk "tei:teiHeader".toList [] [] [.mk "tei:refsDecl".toList [("n".toList, "CTS".toList)] []
    [.mk "tei:cRefPattern".toList [("n".toList, "line".toList), ("replacementPattern".toList, "#xpath(/tei:TEI/body/d[@n='$1']/l[@n='$2'])".toList)] [] [] [],
     .mk "tei:cRefPattern".toList [("n".toList, "poem".toList), ("replacementPattern".toList, "#xpath(/tei:TEI/body/d[@n='$1'])".toList)] [] [] []] []] [], poems] []

theorem publishedTei_units : units editionLevels publishedTei = units editionLevels published ∧
    units (editionLevels.take 1) publishedTei = units (editionLevels.take 1) published := by decide +kernel

theorem publishedTei_take (k : Nat) : units (editionLevels.take k) publishedTei = units (editionLevels.take k) published := by
  match k with
  | 0 => rfl
  | 1 => exact publishedTei_units.2
  | k + 2 => rw [List.take_of_length_le (by simp [editionLevels])]; exact publishedTei_units.1

theorem publishedTei_citable : Citable publishedTei editionLevels where
  tag := by decide
  few := published_citable.few
  wf := published_citable.wf
  ids := by intro k u hu; rw [publishedTei_take] at hu; exact published_citable.ids k u hu
  distinct := by intro k u hu; rw [publishedTei_take] at hu ⊢; exact published_citable.distinct k u hu

theorem publishedTei_declares : DeclaresLevels publishedTei editionLevels := by
  refine ⟨_, [⟨some "line".toList, some "/tei:TEI/body/d[@n='$1']/l[@n='$2']".toList⟩, ⟨some "poem".toList, some "/tei:TEI/body/d[@n='$1']".toList⟩],
    ⟨[_, _], _, rfl, ⟨rfl, rfl⟩, ?_⟩, ?_, by decide +kernel⟩
  · intro x hx
    simp only [List.mem_cons, List.not_mem_nil, or_false] at hx
    rcases hx with rfl | rfl <;> (rintro ⟨h, _⟩; revert h; decide)
  · exact .cons ⟨_, rfl, rfl, by decide +kernel⟩ (.cons ⟨_, rfl, rfl, by decide +kernel⟩ .nil)

/-- The URN of the text. -/
def bothText : Str := "urn:cts:a:g.w.e1".toList

def bothFiles : Files := fun s => if s = "data/g/w/g.w.e1.xml".toList then some (.ok publishedTei) else none

/-- What the endpoint answers to every request it knows. -/
def bothReplies : List (List (Str × Str) × Node) :=
  let urn (ids : List Str) : Str := bothText ++ ':' :: dotted ids
  let passage (n : Node) : Node := .mk "ti:passage".toList [] [] [n] []
  let label : Node := .mk "ti:label".toList [] [] (leafNode "ti:title" "Poems".toList :: twoLevels) []
  (ctsPassage none bothText none none, envelope [] [passage publishedTei]) ::
  (ctsPassagePlus none bothText none none, envelope [] [label, passage publishedTei]) ::
  ([1, 2].flatMap fun k =>
    let us := units (editionLevels.take k) publishedTei
    (ctsValidReff none bothText none (some (k : Int)), listReply (us.map fun u => urn u.1)) ::
    (us.map fun u => (ctsValidReff none (urn u.1) none (some 2), listReply ((listing publishedTei editionLevels 2 u.1).map urn))) ++
    (List.range us.length).flatMap fun i =>
      match us[i]? with
      | none => []
      | some u =>
        let sibs := sibNodes ((us.take i).getLast?.map fun w => urn w.1) ((us.drop (i + 1)).head?.map fun w => urn w.1)
        let p := passage (emptied publishedTei (chainTo publishedTei u.2))
        [(ctsPassage none (urn u.1) none none, envelope [] [p]), (ctsPassagePlus none (urn u.1) none none, envelope [] [label, sibs, p]),
          (ctsPrevNextUrn none (urn u.1) none, envelope [] [sibs])])

/-- The endpoint. -/
def bothServe : DocEndpoint := fun r => (bothReplies.lookup r).elim (.error .unknownObject) .ok

def labelledB (doc : Node) : Bool :=
  match within "ti:reply" "ti:label" doc with
  | [] => false
  | x :: _ => ((elements doc).all fun e => e.tag ≠ "ti:citation".toList) || (below x).any fun e => e.tag = "ti:citation".toList

theorem labelled_of_B {doc : Node} (h : labelledB doc = true) : Labelled doc := by
  unfold labelledB at h
  split at h
  · cases h
  · rename_i x rest hx
    refine ⟨x, rest, hx, ?_⟩
    rw [Bool.or_eq_true, List.all_eq_true, List.any_eq_true] at h
    rcases h with h | ⟨e, he, ht⟩
    · exact .inl fun e he => of_decide_eq_true (h e he)
    · exact .inr ⟨e, he, of_decide_eq_true ht⟩

/-- What is asked of an endpoint beyond `servesB`, as a check. -/
def plusB (serve : DocEndpoint) (text : Str) (env : List Str) (root : Node) (ls : List Level) : Bool :=
  ((List.range (ls.length + 1)).all fun k =>
    let us := units (ls.take k) root
    (k == 0 || (List.range us.length).all fun i =>
      match us[i]? with
      | none => false
      | some u =>
        let sibs := (((us.take i).getLast?.map fun w => text ++ ':' :: dotted w.1), ((us.drop (i + 1)).head?.map fun w => text ++ ':' :: dotted w.1))
        match serve (ctsPassagePlus none (text ++ ':' :: dotted u.1) none none) with
        | .error _ => false
        | .ok doc => labelledB doc && givesTextB doc env (emptied root (chainTo root u.2)) && decide (announcedIn doc = some sibs))) &&
  match serve (ctsPassagePlus none text none none) with
  | .error _ => false
  | .ok doc => labelledB doc && givesTextB doc env root

theorem plus_of_B {serve : DocEndpoint} {text : Str} {env : List Str} {root : Node} {ls : List Level} (h : plusB serve text env root ls = true) :
    ServesPlus serve none text env root ls := by
  unfold plusB at h
  rw [Bool.and_eq_true, List.all_eq_true] at h
  obtain ⟨h, hw⟩ := h
  refine ⟨fun k before after u hk1 hk hb => ?_, ?_⟩
  · have := h k (List.mem_range.2 (by omega))
    rw [Bool.or_eq_true, List.all_eq_true] at this
    have := (this.resolve_left (by simp; omega)) before.length (List.mem_range.2 (by rw [hb]; simp))
    rw [hb] at this
    simp only [List.getElem?_append_right (Nat.le_refl _), Nat.sub_self, List.getElem?_cons_zero] at this
    split at this
    · cases this
    · rename_i doc hd
      rw [Bool.and_eq_true, Bool.and_eq_true, decide_eq_true_eq] at this
      refine ⟨doc, hd, labelled_of_B this.1.1, givesText_of_B this.1.2, ?_⟩
      have := this.2
      simpa using this
  · split at hw
    · cases hw
    · rename_i doc hd
      rw [Bool.and_eq_true] at hw
      exact ⟨doc, hd, labelled_of_B hw.1, givesText_of_B hw.2⟩

theorem bothServe_whole : ∃ scheme, ServesWhole bothServe none bothText servedEnv publishedTei scheme := by
  have key : ((bothServe (ctsPassage none bothText none none)).toOption.any fun doc => readableB doc && givesTextB doc servedEnv publishedTei &&
      (adoptScheme doc doc []).toOption.isSome) = true := by decide +kernel
  cases hd : bothServe (ctsPassage none bothText none none) with
  | error e => rw [hd] at key; cases key
  | ok doc =>
    rw [hd] at key
    simp only [Except.toOption, Option.any_some, Bool.and_eq_true] at key
    obtain ⟨⟨h1, h2⟩, h3⟩ := key
    rcases adoptScheme_spec doc doc [] with ⟨c, e, hc⟩ | ⟨e, _⟩
    · exact ⟨c, ⟨doc, hd, readable_of_B h1, givesText_of_B h2, hc⟩⟩
    · rw [e] at h3; cases h3

theorem publishedTei_plain (k : Nat) : ∀ u ∈ units (editionLevels.take k) publishedTei, ∀ v ∈ u.1, ':' ∉ v ∧ '#' ∉ v := by
  match k with
  | 0 => decide +kernel
  | 1 => decide +kernel
  | k + 2 =>
    rw [List.take_of_length_le (by simp [editionLevels])]
    decide +kernel

theorem publishedTei_full (k : Nat) (under : List Str) (pos : List Nat) (h1 : under.length < k) (h2 : k ≤ editionLevels.length)
    (h : (under, pos) ∈ units (editionLevels.take under.length) publishedTei) : listing publishedTei editionLevels k under ≠ [] := by
  have key : ∀ k ≤ 2, ∀ j < k, ∀ u ∈ units (editionLevels.take j) publishedTei, listing publishedTei editionLevels k u.1 ≠ [] := by decide +kernel
  exact key k h2 under.length h1 _ h

/-- The text is offered in both ways. -/
theorem both_offered : ∃ t, t.id = bothText ∧ Offered bothFiles exParsed bothServe none servedEnv t publishedTei editionLevels := by
  obtain ⟨hl, t, ha, hh⟩ := exParsed_library
  have hid : t.id = bothText := by
    rcases ha.which with ⟨_, _, e⟩ | ⟨_, e, _⟩
    · rw [e]; decide +kernel
    · exact absurd e (by decide)
  have hp : t.path = "data/g/w/g.w.e1.xml".toList := by
    have := hh.file
    unfold exFiles at this
    split at this
    · assumption
    · cases this
  refine ⟨t, hid, asks_mem ha, ha.once, ⟨?_, publishedTei_declares, by decide, publishedTei_citable⟩, ?_, ?_, ?_, publishedTei_full⟩
  · rw [hp, bothFiles, if_pos rfl]
  · rw [hid]; exact serves_of_B (by decide +kernel) publishedTei_plain
  · rw [hid]; exact bothServe_whole
  · rw [hid]; exact plus_of_B (by decide +kernel)

/-- A program that reads all passages of a list of references, one after the other, and then gives their plain texts. -/
def readEach (text : Str) : List Str → List Str → Client (List Str)
  | done, [] => .done done
  | done, r :: rest => .node text (some r) false true fun x => readEach text (done ++ [x.plain]) rest

/-- A program that asks for the references of a level and reads every passage it is told of. -/
def readAll (text : Str) (level : Nat) : Client (List Str) := .reffs text level none fun l => readEach text [] l

theorem readEach_guided {texts : List (Str × Nat)} {text : Str} : ∀ (l done : List Str) (known : List (Str × Str)),
    (∀ r ∈ l, (text, r) ∈ known) → Guided texts known (readEach text done l)
  | [], _, _, _ => .done
  | r :: l, done, known, h => .node (h r (by simp)) fun _ => readEach_guided l _ known fun r' h' => h r' (List.mem_cons_of_mem _ h')

theorem readAll_guided {texts : List (Str × Nat)} {text : Str} {n level : Nat} (h : (text, n) ∈ texts) (h1 : 1 ≤ level) (h2 : level ≤ n) :
    Guided texts [] (readAll text level) :=
  .reffs h h1 h2 fun l => readEach_guided l [] _ fun r hr => by simpa using hr

/-- With either resolver, reading all lines gives the four lines. -/
example : (readAll bothText 2).run (localView bothFiles sameIdentity exParsed) = .ok ["a".toList, "b".toList, "c".toList, "d".toList] ∧
    (readAll bothText 2).run (remoteView bothServe none [] (.bnode []) (.bnode [])) = .ok ["a".toList, "b".toList, "c".toList, "d".toList] := by
  decide +kernel

example (level : Nat) (h1 : 1 ≤ level) (h2 : level ≤ 2) : ∃ a, (readAll bothText level).run (localView bothFiles sameIdentity exParsed) = .ok a ∧
    (readAll bothText level).run (remoteView bothServe none [] (.bnode []) (.bnode [])) = .ok a := by
  obtain ⟨t, hid, ho⟩ := both_offered
  refine C98_programs (ctsLevels "tic".toList) exParsed _ exParsed_library.1 bothFiles bothServe none servedEnv [t] (fun _ => publishedTei) (fun _ => editionLevels)
    (by intro t' h'; rw [List.mem_singleton.1 h']; exact ho) sameIdentity (by simp [sameIdentity]) [] _ _ _ (readAll_guided (n := 2) ?_ h1 h2)
  simp [hid, editionLevels]

/-- A program that goes to the next line as long as there is one, with a limit, and collects the references. -/
def goOn (text : Str) : Nat → Str → List Str → Client (List Str)
  | 0, _, acc => .done acc
  | n + 1, r, acc => .siblings text r fun x =>
    match x.2 with
    | .known r' => goOn text n r' (acc ++ [r'])
    | _ => .done acc

/-- The units inside the first unit of level 1, and then onward from the first of them. -/
def wander (text : Str) : Client (List Str) :=
  .reffs text 1 none fun l =>
    match l with
    | [] => .done []
    | r :: _ =>
      if components r < 2 then
        .reffs text 2 (some r) fun l' =>
          match l' with
          | [] => .done []
          | r' :: _ => goOn text 5 r' [r']
      else .done []

theorem goOn_guided {texts : List (Str × Nat)} {text : Str} : ∀ (n : Nat) (r : Str) (acc : List Str) (known : List (Str × Str)),
    (text, r) ∈ known → Guided texts known (goOn text n r acc)
  | 0, _, _, _, _ => .done
  | n + 1, r, acc, known, h => by
    rw [goOn]
    refine .siblings h fun x => ?_
    obtain ⟨a, b⟩ := x
    cases b with
    | known r' => exact goOn_guided n r' _ _ (by simp [sibRefs])
    | _ => exact .done

theorem wander_guided {texts : List (Str × Nat)} {text : Str} (h : (text, 2) ∈ texts) : Guided texts [] (wander text) := by
  refine .reffs (level := 1) h (by omega) (by omega) fun l => ?_
  cases l with
  | nil => exact .done
  | cons r l =>
    simp only
    split
    · rename_i hr
      refine .inside (level := 2) h (by simp) hr (by omega) fun l' => ?_
      cases l' with
      | nil => exact .done
      | cons r' l' => exact goOn_guided 5 r' _ _ (by simp)
    · exact .done

example : (wander bothText).run (localView bothFiles sameIdentity exParsed) = .ok ["1.1".toList, "1.2".toList, "2.1".toList, "2.2".toList] ∧
    (wander bothText).run (remoteView bothServe none [] (.bnode []) (.bnode [])) = .ok ["1.1".toList, "1.2".toList, "2.1".toList, "2.2".toList] := by
  decide +kernel

end Verif.Props
