import Verif.Spec.DtsReading
import Verif.Props.DtsDocument
import Verif.Props.Reading
import Verif.Props.Serving
/-!
C100: Reading a text through a DTS endpoint agrees with reading the document it serves.
-/
namespace Verif.Props
open Verif.Py Verif.Model Verif.Spec Verif.Lemmas

/-! ## Elements in envelopes -/

theorem plainText_wraps {env : List Str} {x tree : Node} (h : Wraps env x tree) (sep : Str) {ex : List Str} (hx : ∀ n ∈ ex, n ∉ env) :
    ∀ around : List Str, (∀ a ∈ around, a ∈ env) → plainText sep around ex x = plainText sep [] ex tree := by
  induction h with
  | same h =>
    intro around ha
    rw [plainText_same h, plainText_around (fun e he hm => hx e he (ha e hm))]
  | @within x k tree h1 h2 h3 h4 _ ih =>
    intro around ha
    rw [← ih (x.tag :: around) (by intro a hm; rcases List.mem_cons.1 hm with rfl | hm; exact h1; exact ha a hm)]
    cases x with
    | mk t a s ks tl =>
      simp only [Node.text, Node.kids] at h2 h3
      subst h2; subst h3
      simp only [plainText, Node.textNodes, textNodesAll, textNode, h4, if_true, List.nil_append, List.append_nil, Node.tag]

/-! ## Requests -/

theorem dotted_ne {root : Node} {ls : List Level} (hc : Citable root ls) {k : Nat} (hk1 : 1 ≤ k) (hk : k ≤ ls.length)
    {u : List Str × List Nat} (hu : u ∈ units (ls.take k) root) : dotted u.1 ≠ [] := by
  have hl := mem_units_length hu
  rw [List.length_take, Nat.min_eq_left hk] at hl
  have hi := hc.ids k u hu
  match h : u.1, hl, hi with
  | [], hl, _ => simp at hl; omega
  | v :: r, _, hi =>
    have := (hi v (by simp)).1
    intro e
    cases r with
    | nil => exact this.1 e
    | cons w r =>
      have hv : v ≠ [] := this.1
      cases v with
      | nil => exact hv rfl
      | cons c v => simp [dotted] at e

theorem names_request {ids : List Str} (h : dotted ids ≠ []) {arg : DtsRefArg} (ha : NamesDts ids arg) (ps : List (Str × Val)) :
    refParameters ps arg = refParameters ps (dtsUnit ids).arg := by
  rcases ha with rfl | rfl
  · rfl
  · cases hd : dotted ids with
    | nil => exact absurd hd h
    | cons c s => simp [refParameters, Val.truthy, dtsUnit, DtsRef.arg, Val.ofOption, hd]

theorem names_document {ids : List Str} (h : dotted ids ≠ []) {arg : DtsRefArg} (ha : NamesDts ids arg) (query : List (Str × List Str)) (id : Str) :
    getDocument query id arg = getDocument query id (dtsUnit ids).arg := by
  simp only [getDocument, names_request h ha]

/-! ## One document -/

/-- A document made of a reply. -/
structure IsDoc {γ : Type} (id : Str) (arg : DtsRefArg) (env : List Str) (tree : Node) (prev next : Option DtsRef) (t : TextDoc γ) : Prop where
  id : t.doc.id = id
  ref : t.doc.ref = arg
  kids : t.doc.kids = none
  prev : t.doc.prev = prev
  next : t.doc.next = next
  body : Wraps env t.element tree

theorem agree_of_doc {γ : Type} {id : Str} {arg : DtsRefArg} {env : List Str} {tree : Node} {prev next : Option DtsRef} {t : TextDoc γ}
    (h : IsDoc id arg env tree prev next t) : AgreeDts env t tree :=
  ⟨h.body, fun _ hx => plainText_wraps h.body _ hx [] (by simp)⟩

theorem openDocument_kids {γ : Type} {id : Str} {ref : DtsRefArg} {ls : List DocLink} {d : DtsDoc γ} (h : openDocument id ref ls = .ok d) :
    d.kids = none := by
  unfold openDocument at h
  repeat' split at h
  all_goals cases h
  all_goals rfl

theorem resolveText_served {γ : Type} {e : DtsTexts γ} {id : Str} {arg arg' : DtsRefArg} {env : List Str} {tree : Node} {prev next : Option DtsRef}
    (h : ServesPassage e id arg env tree prev next) (he : getDocument e.docQuery id arg' = getDocument e.docQuery id arg) (log : List DocReq) :
    ∃ t, resolveText e log id arg' = (log ++ [.document (getDocument e.docQuery id arg)], .ok t) ∧ IsDoc id arg' env tree prev next t := by
  obtain ⟨⟨ls, h1, h2, h3, h4, h5⟩, hb⟩ := h
  obtain ⟨d, hd⟩ := (C77_opens (γ := γ) id arg' ls h2).1 h3
  obtain ⟨i1, i2, i3, i4, _⟩ := C77_links id arg' ls h2 d hd
  refine ⟨⟨d, e.bodies (getDocument e.docQuery id arg)⟩, ?_, i1, i2, openDocument_kids hd, LinksTo.unique h2 i4 h5, LinksTo.unique h2 i3 h4, hb⟩
  simp only [resolveText, resolveDoc, he, h1, hd]

theorem node_served {γ : Type} {e : DtsTexts γ} {id : Str} {arg : DtsRefArg} {env : List Str} {tree : Node} {prev next : Option DtsRef}
    (h : ServesPassage e id arg env tree prev next) (log : List DocReq) (t : TextDoc γ) (ht : t.doc.id = id) :
    ∃ o, t.node e log arg = (log ++ [.document (getDocument e.docQuery id arg)], .ok o) ∧ IsDoc id arg env tree prev next o ∧
      o.doc.coll = t.doc.coll := by
  obtain ⟨o, h1, h2⟩ := resolveText_served h rfl log
  refine ⟨{ o with doc := { o.doc with coll := t.doc.coll } }, ?_, ⟨h2.id, h2.ref, h2.kids, h2.prev, h2.next, h2.body⟩, rfl⟩
  simp only [TextDoc.node, ht, h1]

/-! ## Lists of references -/

theorem reffs_served {γ : Type} {e : DtsTexts γ} {q : NavQuery} {ss : List Str} (h : ServesList e q ss) :
    ∃ log set, dtsReffs e.navigation e.navQuery q e.turns = some (log, .ok set) ∧
      (ss.length ≠ 1 → ∃ refs : List DtsRef, set.items = refs.map .ref ∧ refs.map (fun r => (r.start, r.stop)) = ss.map fun s => (s, none)) := by
  obtain ⟨chain, refs, h1, h2, h3, h4⟩ := h
  obtain ⟨set, _, e1, _, _, _, e2⟩ := C59_chain e.navigation e.navQuery q chain refs h1 h2 e.turns h3
  refine ⟨_, set, e1, fun hn => ⟨refs, e2 ?_, h4⟩⟩
  have := congrArg List.length h4
  simp only [List.length_map] at this
  omega

/-- C100. The references of a level: the resolver of an endpoint lists what the local text lists, in the same order, however the
endpoint splits the list into pages. -/
theorem C100_lists {γ : Type} (e : DtsTexts γ) (id : Str) (env : List Str) (root : Node) (ls : List Level) (same : Same) (hc : Citable root ls)
    (h : ServesDts e id env root ls) (k : Nat) (hk1 : 1 ≤ k) (hk : k ≤ ls.length) (hn : 2 ≤ (units (ls.take k) root).length) :
    ∃ refs log set, ∃ items : List DtsRef, getValidReff (textOf root same ls) (some k) none = .ok refs ∧
      dtsReffs e.navigation e.navQuery ⟨id, .int k, .none, .none, .int 1⟩ e.turns = some (log, .ok set) ∧
      set.items = items.map .ref ∧ items.map (fun r => (r.start, r.stop)) = refs.map fun r => (refText r, none) := by
  obtain ⟨log, set, h1, h2⟩ := reffs_served (h.lists k hk1 hk)
  obtain ⟨items, h3, h4⟩ := h2 (by rw [List.length_map]; omega)
  have := C29_lists_units root ls same hc k hk1
  rw [if_neg (by omega), if_neg (by intro e; rw [List.isEmpty_iff] at e; rw [e] at hn; simp at hn)] at this
  refine ⟨_, log, set, items, this, h1, h3, ?_⟩
  rw [h4]
  simp only [List.map_map]
  rfl

/-! ## Passages -/

/-- C100. Opening a unit of any level, named by a reference or by a string, makes one request and gives a document with the element
and the plain text of the local passage, and with its siblings. -/
theorem C100_passage {γ : Type} (e : DtsTexts γ) (id : Str) (env : List Str) (root : Node) (ls : List Level) (same : Same)
    (hr : ∀ n i, same n i i = true) (hc : Citable root ls)
    (h : ServesDts e id env root ls) (k : Nat) (hk1 : 1 ≤ k) (hk : k ≤ ls.length) (u : List Str × List Nat) (hu : u ∈ units (ls.take k) root)
    (arg : DtsRefArg) (ha : NamesDts u.1 arg) (log : List DocReq) :
    ∃ t q prev next, resolveText e log id arg = (log ++ [docRequest e.toDtsNet id (dtsUnit u.1)], .ok t) ∧
      textPassage (textOf root same ls) (single u.1) = .ok q ∧ q.siblingsId (textOf root same ls) = .ok (prev, next) ∧
      t.doc.id = id ∧ AgreeDts env t q.tree ∧
      t.doc.prev = prev.map (fun r => ⟨r.str, none, none⟩) ∧ t.doc.next = next.map fun r => ⟨r.str, none, none⟩ := by
  obtain ⟨before, after, hb⟩ := unit_split hu
  obtain ⟨t, h1, h2⟩ := resolveText_served (h.passages k before after u hk1 hk hb) (names_document (dotted_ne hc hk1 hk hu) ha _ id) log
  refine ⟨t, _, _, _, h1, unit_passage hr hc hk1 hk hu, siblingsId_single hc hk1 hk hb _, h2.id, agree_of_doc h2, ?_, ?_⟩
  · rw [h2.prev, Option.map_map]; rfl
  · rw [h2.next, Option.map_map]; rfl

/-- C100. The text without a reference: the document has the element and the plain text of all of the local document. -/
theorem C100_whole {γ : Type} (e : DtsTexts γ) (id : Str) (env : List Str) (root : Node) (ls : List Level)
    (h : ServesDts e id env root ls) (log : List DocReq) :
    ∃ t ps, resolveText e log id .none = (log ++ [.document ps], .ok t) ∧ t.doc.id = id ∧ AgreeDts env t root := by
  obtain ⟨t, h1, h2⟩ := resolveText_served h.whole rfl log
  exact ⟨t, _, h1, h2.id, agree_of_doc h2⟩

/-! ## Children -/

/-- The passages of some units, one after the other, as the documents that a reader gets. -/
def AllAgree {γ : Type} (id : Str) (env : List Str) (root : Node) (us : List (List Str × List Nat)) (ds : List (TextDoc γ)) : Prop :=
  ds.length = us.length ∧ ∀ (i : Nat) d u, ds[i]? = some d → us[i]? = some u →
    d.doc.id = id ∧ d.doc.ref = (dtsUnit u.1).arg ∧ AgreeDts env d (emptied root (chainTo root u.2))

theorem AllAgree.cons {γ : Type} {id : Str} {env : List Str} {root : Node} {us : List (List Str × List Nat)} {ds : List (TextDoc γ)}
    (h : AllAgree id env root us ds) {u : List Str × List Nat} {d : TextDoc γ} (h1 : d.doc.id = id) (h2 : d.doc.ref = (dtsUnit u.1).arg)
    (h3 : AgreeDts env d (emptied root (chainTo root u.2))) : AllAgree id env root (u :: us) (d :: ds) := by
  refine ⟨by simp [h.1], ?_⟩
  intro i d' u' hd hu
  cases i with
  | zero =>
    simp only [List.getElem?_cons_zero, Option.some.injEq] at hd hu
    subst hd; subst hu
    exact ⟨h1, h2, h3⟩
  | succ i => exact h.2 i d' u' hd hu

theorem arg_of_parts {r : DtsRef} {ids : List Str} (h : (r.start, r.stop) = (dotted ids, none)) : r.arg = (dtsUnit ids).arg := by
  simp only [Prod.mk.injEq] at h
  simp only [DtsRef.arg, dtsUnit, h.1, h.2]

theorem nodes_served {γ : Type} {e : DtsTexts γ} {id : Str} {env : List Str} {root : Node} (t : TextDoc γ) (ht : t.doc.id = id) :
    ∀ (us : List (List Str × List Nat)) (refs : List DtsRef) (log : List DocReq),
    refs.map (fun r => (r.start, r.stop)) = us.map (fun u => (dotted u.1, none)) →
    (∀ u ∈ us, ∃ prev next, ServesPassage e id (dtsUnit u.1).arg env (emptied root (chainTo root u.2)) prev next) →
    ∃ ds, t.nodes e log (refs.map .ref) = (log ++ us.map (fun u => docRequest e.toDtsNet id (dtsUnit u.1)), .ok ds) ∧
      AllAgree id env root us ds ∧ ∀ d ∈ ds, d.doc.coll = t.doc.coll
  | [], [], log, _, _ => ⟨[], by simp [TextDoc.nodes], ⟨rfl, by simp⟩, by simp⟩
  | [], r :: refs, log, h, _ => by simp at h
  | u :: us, [], log, h, _ => by simp at h
  | u :: us, r :: refs, log, hm, h => by
    rw [List.map_cons, List.map_cons, List.cons.injEq] at hm
    obtain ⟨prev, next, hp⟩ := h u (by simp)
    obtain ⟨o, h1, h2, h3⟩ := node_served hp log t ht
    obtain ⟨ds, g1, g2, g3⟩ := nodes_served t ht us refs (log ++ [.document (getDocument e.docQuery id (dtsUnit u.1).arg)]) hm.2
      (fun r hr => h r (by simp [hr]))
    refine ⟨o :: ds, ?_, g2.cons h2.id h2.ref (agree_of_doc h2), ?_⟩
    · simp only [List.map_cons, TextDoc.nodes, RefItem.arg, arg_of_parts hm.1, h1, g1, docRequest, List.append_assoc, List.singleton_append]
    · intro d hd
      rcases List.mem_cons.1 hd with rfl | hd
      · exact h3
      · exact g3 d hd

theorem mapM_passages {root : Node} {ls : List Level} {same : Same} (hr : ∀ n i, same n i i = true) (hc : Citable root ls) {k : Nat}
    (hk1 : 1 ≤ k) (hk : k ≤ ls.length) : ∀ us : List (List Str × List Nat), (∀ u ∈ us, u ∈ units (ls.take k) root) →
    us.mapM (fun u => textPassage (textOf root same ls) (single u.1)) = .ok (us.map fun u => ⟨single u.1, emptied root (chainTo root u.2), .text⟩)
  | [], _ => rfl
  | u :: us, h => by
    rw [List.mapM_cons, unit_passage hr hc hk1 hk (h u (by simp))]
    simp only [bind, Except.bind, mapM_passages hr hc hk1 hk us fun w hw => h w (by simp [hw])]
    rfl

theorem serves_unit {γ : Type} {e : DtsTexts γ} {id : Str} {env : List Str} {root : Node} {ls : List Level} (h : ServesDts e id env root ls)
    {k : Nat} (hk1 : 1 ≤ k) (hk : k ≤ ls.length) {u : List Str × List Nat} (hu : u ∈ units (ls.take k) root) :
    ∃ prev next, ServesPassage e id (dtsUnit u.1).arg env (emptied root (chainTo root u.2)) prev next := by
  obtain ⟨before, after, hb⟩ := unit_split hu
  exact ⟨_, _, h.passages k before after u hk1 hk hb⟩

/-- C100. The children of a document: for a unit with several units of the next level, `children` gives a document for each of the
references that the local text lists in the unit, in the same order, with the element and the plain text of the local passage. -/
theorem C100_children {γ : Type} (e : DtsTexts γ) (id : Str) (env : List Str) (root : Node) (ls : List Level) (same : Same)
    (hr : ∀ n i, same n i i = true) (hc : Citable root ls)
    (h : ServesDts e id env root ls) (k : Nat) (hk1 : 1 ≤ k) (hk : k < ls.length) (u : List Str × List Nat) (hu : u ∈ units (ls.take k) root)
    (hn : 2 ≤ (listing root ls (k + 1) u.1).length) (arg : DtsRefArg) (ha : NamesDts u.1 arg) (log : List DocReq) :
    ∃ log1 t, ∃ (refs : List Ref) (qs : List Passage), ∃ log2 t' ds, resolveText e log id arg = (log1, .ok t) ∧
      getValidReff (textOf root same ls) (some (k + 1 : Nat)) (some (single u.1)) = .ok (refs.map some) ∧
      refs.mapM (textPassage (textOf root same ls)) = .ok qs ∧
      t.children e log1 = some (log2, t', .ok ds) ∧ ds.length = qs.length ∧
      ∀ (i : Nat) d q, ds[i]? = some d → qs[i]? = some q →
        d.doc.id = id ∧ d.doc.ref = .ref (.str q.ref.str) .none ∧ d.doc.coll = t.doc.coll ∧ AgreeDts env d q.tree := by
  have hne := dotted_ne hc hk1 (Nat.le_of_lt hk) hu
  obtain ⟨before, after, hb⟩ := unit_split hu
  obtain ⟨t, h1, h2⟩ := resolveText_served (h.passages k before after u hk1 (Nat.le_of_lt hk) hb) (names_document hne ha _ id) log
  let us := (units (ls.take (k + 1)) root).filter fun w => u.1.isPrefixOf w.1
  have hus : listing root ls (k + 1) u.1 = us.map (·.1) := rfl
  have hmem : ∀ w ∈ us, w ∈ units (ls.take (k + 1)) root := fun w hw => (List.mem_filter.1 hw).1
  obtain ⟨log', set, e1, e2⟩ := reffs_served (h.inside k hk1 hk u hu)
  obtain ⟨items, e3, e4⟩ := e2 (by rw [List.length_map]; omega)
  rw [hus, List.map_map, List.map_map] at e4
  have hq : dtsReffs e.navigation e.navQuery ⟨t.doc.id, .int 1, t.doc.ref, .none, .int 1⟩ e.turns = some (log', .ok set) := by
    rw [← e1, h2.id, h2.ref]
    have hnav : ∀ p, navRequest e.navQuery ⟨id, .int 1, arg, .none, .int 1⟩ p = navRequest e.navQuery ⟨id, .int 1, (dtsUnit u.1).arg, .none, .int 1⟩ p := by
      intro p
      simp only [navRequest, getNavigation, names_request hne ha]
    have hloop : ∀ fuel p rs, reffsLoop e.navigation e.navQuery ⟨id, .int 1, arg, .none, .int 1⟩ fuel p rs =
        reffsLoop e.navigation e.navQuery ⟨id, .int 1, (dtsUnit u.1).arg, .none, .int 1⟩ fuel p rs := by
      intro fuel
      induction fuel with
      | zero => intro p rs; rfl
      | succ fuel ih => intro p rs; simp only [reffsLoop, hnav, ih]
    simp only [dtsReffs, hloop]
  let log1 := log ++ [.document (getDocument e.docQuery id (dtsUnit u.1).arg)]
  let t' : TextDoc γ := { t with doc := { t.doc with kids := some (items.map .ref) } }
  obtain ⟨ds, g1, g2, g3⟩ := nodes_served (env := env) (root := root) (e := e) t' h2.id us items (log1 ++ log'.map .navigation) e4
    (fun w hw => serves_unit h (by omega) hk (hmem w hw))
  have hv := C29_lists_units_under root ls same hc u.1 (by intro e; rw [e] at hne; exact hne rfl) (fun v hv => hc.ids k u hu v hv) (k + 1)
    (by
      have := mem_units_length hu
      rw [List.length_take, Nat.min_eq_left (Nat.le_of_lt hk)] at this
      omega)
  rw [if_neg (by omega), if_neg (by intro e; rw [List.isEmpty_iff] at e; rw [e] at hn; simp at hn)] at hv
  refine ⟨log1, t, us.map fun w => single w.1, us.map fun w => ⟨single w.1, emptied root (chainTo root w.2), .text⟩,
    log1 ++ log'.map .navigation ++ us.map (fun u => docRequest e.toDtsNet id (dtsUnit u.1)), t', ds, h1, ?_, ?_, ?_,
    by rw [List.length_map]; exact g2.1, ?_⟩
  · rw [hv, hus, List.map_map, List.map_map]; rfl
  · rw [← mapM_passages hr hc (by omega) hk us hmem]
    generalize us = l
    induction l with
    | nil => rfl
    | cons w l ih => rw [List.map_cons, List.mapM_cons, List.mapM_cons, ih]
  · simp only [TextDoc.children, DtsDoc.childIds, h2.kids, DtsDoc.reffs, hq, e3]
    rw [g1]
  · intro i d q hd hq'
    rw [List.getElem?_map] at hq'
    obtain ⟨w, hw, rfl⟩ := Option.map_eq_some_iff.1 hq'
    obtain ⟨a, b, c⟩ := g2.2 i d w hd hw
    exact ⟨a, b, g3 d (List.mem_of_getElem? hd), c⟩

/-! ## Reading on -/

theorem readNext_units {γ : Type} {e : DtsTexts γ} {id : Str} {env : List Str} {root : Node} {ls : List Level} (h : ServesDts e id env root ls)
    {k : Nat} (hk1 : 1 ≤ k) (hk : k ≤ ls.length) : ∀ (after before : List (List Str × List Nat)) (u : List Str × List Nat) (fuel : Nat)
    (log : List DocReq) (t : TextDoc γ), units (ls.take k) root = before ++ u :: after → after.length < fuel →
    t.doc.id = id → t.doc.next = after.head?.map (dtsUnit ·.1) →
    ∃ ds, readNext e fuel log t = (log ++ after.map (fun w => docRequest e.toDtsNet id (dtsUnit w.1)), .ok (t :: ds)) ∧ AllAgree id env root after ds
  | _, _, _, 0, _, _, _, hf, _, _ => by simp at hf
  | [], before, u, fuel + 1, log, t, hb, hf, h1, h2 => by
    refine ⟨[], ?_, rfl, by simp⟩
    simp only [readNext, TextDoc.goNext, h2, List.head?_nil, Option.map_none, TextDoc.sibling, List.map_nil, List.append_nil]
  | w :: after, before, u, fuel + 1, log, t, hb, hf, h1, h2 => by
    have hb' : units (ls.take k) root = (before ++ [u]) ++ w :: after := by rw [hb]; simp
    obtain ⟨o, g1, g2, _⟩ := node_served (h.passages k (before ++ [u]) after w hk1 hk hb') log t h1
    obtain ⟨ds, i1, i2⟩ := readNext_units h hk1 hk after (before ++ [u]) w fuel (log ++ [.document (getDocument e.docQuery id (dtsUnit w.1).arg)]) o
      hb' (by simp at hf; omega) g2.id g2.next
    refine ⟨o :: ds, ?_, i2.cons g2.id g2.ref (agree_of_doc g2)⟩
    simp only [readNext, TextDoc.goNext, h2, List.head?_cons, Option.map_some, TextDoc.sibling, g1, i1, List.map_cons, docRequest, List.append_assoc,
      List.singleton_append]

/-- C100. A reader who opens a unit and goes on with `next` until there is none reads the same passages from the endpoint as from the
local document, with one request for each. -/
theorem C100_reading {γ : Type} (e : DtsTexts γ) (id : Str) (env : List Str) (root : Node) (ls : List Level) (same : Same)
    (hr : ∀ n i, same n i i = true) (hc : Citable root ls) (h : ServesDts e id env root ls) (k : Nat) (hk1 : 1 ≤ k) (hk : k ≤ ls.length)
    (before after : List (List Str × List Nat)) (u : List Str × List Nat) (hb : units (ls.take k) root = before ++ u :: after)
    (arg : DtsRefArg) (ha : NamesDts u.1 arg) (log : List DocReq) (fuel : Nat) (hf : after.length < fuel) :
    ∃ ds qs, readDts e id fuel log arg = (log ++ qs.map (fun q => docRequest e.toDtsNet id ⟨q.ref.str, none, none⟩), .ok ds) ∧
      readOn (textOf root same ls) fuel (single u.1) = .ok qs ∧ qs.map (·.ref) = (u :: after).map (single ·.1) ∧
      ds.length = qs.length ∧ ∀ (i : Nat) d q, ds[i]? = some d → qs[i]? = some q → d.doc.id = id ∧ AgreeDts env d q.tree := by
  have hu : u ∈ units (ls.take k) root := by rw [hb]; simp
  obtain ⟨t, h1, h2⟩ := resolveText_served (h.passages k before after u hk1 hk hb) (names_document (dotted_ne hc hk1 hk hu) ha _ id) log
  obtain ⟨ds, g1, g2⟩ := readNext_units h hk1 hk after before u fuel (log ++ [.document (getDocument e.docQuery id (dtsUnit u.1).arg)]) t hb hf h2.id h2.next
  refine ⟨t :: ds, _, ?_, readOn_units hr hc hk1 hk after before u fuel hb hf, by rw [List.map_map]; rfl, by simp [g2.1], ?_⟩
  · simp only [readDts, h1, g1, List.map_cons, List.map_map, List.append_assoc, List.singleton_append]
    rfl
  · intro i d q hd hq
    rw [List.getElem?_map] at hq
    obtain ⟨w, hw, rfl⟩ := Option.map_eq_some_iff.1 hq
    cases i with
    | zero =>
      simp only [List.getElem?_cons_zero, Option.some.injEq] at hd hw
      subst hd; subst hw
      exact ⟨h2.id, agree_of_doc h2⟩
    | succ i => exact ⟨(g2.2 i d w hd hw).1, (g2.2 i d w hd hw).2.2⟩

theorem readPrev_units {γ : Type} {e : DtsTexts γ} {id : Str} {env : List Str} {root : Node} {ls : List Level} (h : ServesDts e id env root ls)
    {k : Nat} (hk1 : 1 ≤ k) (hk : k ≤ ls.length) : ∀ (back after : List (List Str × List Nat)) (u : List Str × List Nat) (fuel : Nat)
    (log : List DocReq) (t : TextDoc γ), units (ls.take k) root = back.reverse ++ u :: after → back.length < fuel →
    t.doc.id = id → t.doc.prev = back.head?.map (dtsUnit ·.1) →
    ∃ ds, readPrev e fuel log t = (log ++ back.map (fun w => docRequest e.toDtsNet id (dtsUnit w.1)), .ok (t :: ds)) ∧ AllAgree id env root back ds
  | _, _, _, 0, _, _, _, hf, _, _ => by simp at hf
  | [], after, u, fuel + 1, log, t, hb, hf, h1, h2 => by
    refine ⟨[], ?_, rfl, by simp⟩
    simp only [readPrev, TextDoc.goPrev, h2, List.head?_nil, Option.map_none, TextDoc.sibling, List.map_nil, List.append_nil]
  | w :: back, after, u, fuel + 1, log, t, hb, hf, h1, h2 => by
    have hb' : units (ls.take k) root = back.reverse ++ w :: (u :: after) := by rw [hb]; simp
    obtain ⟨o, g1, g2, _⟩ := node_served (h.passages k back.reverse (u :: after) w hk1 hk hb') log t h1
    obtain ⟨ds, i1, i2⟩ := readPrev_units h hk1 hk back (u :: after) w fuel (log ++ [.document (getDocument e.docQuery id (dtsUnit w.1).arg)]) o
      hb' (by simp at hf; omega) g2.id (by rw [g2.prev, List.getLast?_reverse])
    refine ⟨o :: ds, ?_, i2.cons g2.id g2.ref (agree_of_doc g2)⟩
    simp only [readPrev, TextDoc.goPrev, h2, List.head?_cons, Option.map_some, TextDoc.sibling, g1, i1, List.map_cons, docRequest, List.append_assoc,
      List.singleton_append]

/-- C100. The same backwards, with `prev`. -/
theorem C100_backward {γ : Type} (e : DtsTexts γ) (id : Str) (env : List Str) (root : Node) (ls : List Level) (same : Same)
    (hr : ∀ n i, same n i i = true) (hc : Citable root ls) (h : ServesDts e id env root ls) (k : Nat) (hk1 : 1 ≤ k) (hk : k ≤ ls.length)
    (before after : List (List Str × List Nat)) (u : List Str × List Nat) (hb : units (ls.take k) root = before ++ u :: after)
    (arg : DtsRefArg) (ha : NamesDts u.1 arg) (log : List DocReq) (fuel : Nat) (hf : before.length < fuel) :
    ∃ ds qs, readDtsBack e id fuel log arg = (log ++ qs.map (fun q => docRequest e.toDtsNet id ⟨q.ref.str, none, none⟩), .ok ds) ∧
      readBack (textOf root same ls) fuel (single u.1) = .ok qs ∧ qs.map (·.ref) = (before ++ [u]).reverse.map (single ·.1) ∧
      ds.length = qs.length ∧ ∀ (i : Nat) d q, ds[i]? = some d → qs[i]? = some q → d.doc.id = id ∧ AgreeDts env d q.tree := by
  have hu : u ∈ units (ls.take k) root := by rw [hb]; simp
  obtain ⟨t, h1, h2⟩ := resolveText_served (h.passages k before after u hk1 hk hb) (names_document (dotted_ne hc hk1 hk hu) ha _ id) log
  obtain ⟨ds, g1, g2⟩ := readPrev_units h hk1 hk before.reverse after u fuel (log ++ [.document (getDocument e.docQuery id (dtsUnit u.1).arg)]) t
    (by rw [List.reverse_reverse]; exact hb) (by rw [List.length_reverse]; exact hf) h2.id (by rw [h2.prev, List.head?_reverse])
  have hrev : (before ++ [u]).reverse = u :: before.reverse := by simp
  refine ⟨t :: ds, _, ?_, readBack_units hr hc hk1 hk fuel before after u hb hf, by rw [List.map_map]; rfl,
    by rw [List.length_map, hrev, List.length_cons, List.length_cons, g2.1], ?_⟩
  · rw [hrev]
    simp only [readDtsBack, h1, g1, List.map_cons, List.map_map, List.append_assoc, List.singleton_append]
    rfl
  · intro i d q hd hq
    rw [List.getElem?_map, hrev] at hq
    obtain ⟨w, hw, rfl⟩ := Option.map_eq_some_iff.1 hq
    cases i with
    | zero =>
      simp only [List.getElem?_cons_zero, Option.some.injEq] at hd hw
      subst hd; subst hw
      exact ⟨h2.id, agree_of_doc h2⟩
    | succ i => exact ⟨(g2.2 i d w hd hw).1, (g2.2 i d w hd hw).2.2⟩

theorem flatMap_agree {α β : Type} {f : α → Str} {g : β → Str} : ∀ {as : List α} {bs : List β}, as.length = bs.length →
    (∀ (i : Nat) a b, as[i]? = some a → bs[i]? = some b → f a = g b) → as.flatMap f = bs.flatMap g
  | [], [], _, _ => rfl
  | [], _ :: _, h, _ => by simp at h
  | _ :: _, [], h, _ => by simp at h
  | a :: as, b :: bs, h, hi => by
    rw [List.flatMap_cons, List.flatMap_cons, hi 0 a b rfl rfl,
      flatMap_agree (as := as) (bs := bs) (by simpa using h) fun i x y hx hy => hi (i + 1) x y hx hy]

/-- C100. No text is lost: a reader who opens the first unit of a level and goes on with `next` gets the text of the document, in its
order, but for spaces, when the units are apart and all text that counts stands in one of them. -/
theorem C100_text_complete {γ : Type} (e : DtsTexts γ) (id : Str) (env : List Str) (root : Node) (ls : List Level) (hc : Citable root ls)
    (hs : Separate root ls) (h : ServesDts e id env root ls) (k : Nat) (hk1 : 1 ≤ k) (hk : k ≤ ls.length)
    (u : List Str × List Nat) (after : List (List Str × List Nat)) (hb : units (ls.take k) root = u :: after)
    (arg : DtsRefArg) (ha : NamesDts u.1 arg) (log : List DocReq) (fuel : Nat) (hf : after.length < fuel)
    (p : Char → Bool) (hp : p ' ' = false) (ex : List Str) (hx : ∀ x ∈ ex, x ∉ env) (hin : Covered p ex root (units (ls.take k) root)) :
    ∃ log' ds, readDts e id fuel log arg = (log', .ok ds) ∧ textOfDocs p ex ds = (plainText defaultJoin [] ex root).filter p := by
  let same : Same := fun _ i j => decide (i = j)
  have hr : ∀ n i, same n i i = true := by simp [same]
  obtain ⟨ds, qs, h1, h2, _, h4, h5⟩ := C100_reading e id env root ls same hr hc h k hk1 hk [] after u (by rw [hb]; rfl) arg ha log fuel hf
  obtain ⟨ps, g1, g2⟩ := C95_text_complete root ls same hr hc hs k hk1 hk u after hb fuel hf p hp defaultJoin (by simp [defaultJoin, hp]) ex hin
  rw [h2] at g1
  cases g1
  refine ⟨_, ds, h1, ?_⟩
  rw [← g2]
  exact flatMap_agree h4 fun i d q hd hq => by rw [(h5 i d q hd hq).2.plain ex hx]

/-! ## Reading from a list -/

theorem openAll_served {γ : Type} {e : DtsTexts γ} {id : Str} {env : List Str} {root : Node} :
    ∀ (us : List (List Str × List Nat)) (refs : List DtsRef) (log : List DocReq),
    refs.map (fun r => (r.start, r.stop)) = us.map (fun u => (dotted u.1, none)) →
    (∀ u ∈ us, ∃ prev next, ServesPassage e id (dtsUnit u.1).arg env (emptied root (chainTo root u.2)) prev next) →
    ∃ ds, openAll e id log (refs.map .ref) = (log ++ us.map (fun u => docRequest e.toDtsNet id (dtsUnit u.1)), .ok ds) ∧ AllAgree id env root us ds
  | [], [], log, _, _ => ⟨[], by simp [openAll], rfl, by simp⟩
  | [], r :: refs, log, h, _ => by simp at h
  | u :: us, [], log, h, _ => by simp at h
  | u :: us, r :: refs, log, hm, h => by
    rw [List.map_cons, List.map_cons, List.cons.injEq] at hm
    obtain ⟨prev, next, hp⟩ := h u (by simp)
    obtain ⟨o, h1, h2⟩ := resolveText_served hp rfl log
    obtain ⟨ds, g1, g2⟩ := openAll_served us refs (log ++ [.document (getDocument e.docQuery id (dtsUnit u.1).arg)]) hm.2
      (fun r hr => h r (by simp [hr]))
    refine ⟨o :: ds, ?_, g2.cons h2.id h2.ref (agree_of_doc h2)⟩
    simp only [List.map_cons, openAll, RefItem.arg, arg_of_parts hm.1, h1, g1, docRequest, List.append_assoc, List.singleton_append]

/-- C100. A reader who asks for the references of a level and opens each reads what one reads who does so with the local text. -/
theorem C100_listed {γ : Type} (e : DtsTexts γ) (id : Str) (env : List Str) (root : Node) (ls : List Level) (same : Same)
    (hr : ∀ n i, same n i i = true) (hc : Citable root ls) (h : ServesDts e id env root ls) (k : Nat) (hk1 : 1 ≤ k) (hk : k ≤ ls.length)
    (hn : 2 ≤ (units (ls.take k) root).length) (log : List DocReq) :
    ∃ (refs : List Ref) (qs : List Passage), ∃ log' ds, getValidReff (textOf root same ls) (some k) none = .ok (refs.map some) ∧
      refs.mapM (textPassage (textOf root same ls)) = .ok qs ∧ readListed e id k log = some (log', .ok ds) ∧ ds.length = qs.length ∧
      ∀ (i : Nat) d q, ds[i]? = some d → qs[i]? = some q → d.doc.id = id ∧ AgreeDts env d q.tree := by
  obtain ⟨log1, set, h1, h2⟩ := reffs_served (h.lists k hk1 hk)
  obtain ⟨items, h3, h4⟩ := h2 (by rw [List.length_map]; omega)
  rw [List.map_map] at h4
  obtain ⟨ds, g1, g2⟩ := openAll_served (env := env) (root := root) (e := e) (units (ls.take k) root) items (log ++ log1.map .navigation) h4
    (fun w hw => serves_unit h hk1 hk hw)
  have hv := C29_lists_units root ls same hc k hk1
  rw [if_neg (by omega), if_neg (by intro e; rw [List.isEmpty_iff] at e; rw [e] at hn; simp at hn)] at hv
  refine ⟨(units (ls.take k) root).map fun w => single w.1,
    (units (ls.take k) root).map fun w => ⟨single w.1, emptied root (chainTo root w.2), .text⟩,
    log ++ log1.map .navigation ++ (units (ls.take k) root).map (fun u => docRequest e.toDtsNet id (dtsUnit u.1)), ds, ?_, ?_, ?_, by rw [List.length_map]; exact g2.1, ?_⟩
  · rw [hv, List.map_map]; rfl
  · rw [← mapM_passages hr hc hk1 hk _ fun _ hw => hw]
    generalize units (ls.take k) root = l
    induction l with
    | nil => rfl
    | cons w l ih => rw [List.map_cons, List.mapM_cons, List.mapM_cons, ih]
  · simp only [readListed, h1, h3, g1]
  · intro i d q hd hq'
    rw [List.getElem?_map] at hq'
    obtain ⟨w, hw, rfl⟩ := Option.map_eq_some_iff.1 hq'
    obtain ⟨a, _, c⟩ := g2.2 i d w hd hw
    exact ⟨a, c⟩

/-- C100. When a level has one unit only, a reader who asks for its references and opens each gets two documents: the passage, and then
all of the text. (A single reference is taken apart into its start and its end, which is `None`.) -/
theorem C100_fails_single {γ : Type} (e : DtsTexts γ) (id : Str) (env : List Str) (root : Node) (ls : List Level) (same : Same)
    (hr : ∀ n i, same n i i = true) (hc : Citable root ls) (h : ServesDts e id env root ls) (k : Nat) (hk1 : 1 ≤ k) (hk : k ≤ ls.length)
    (u : List Str × List Nat) (hn : units (ls.take k) root = [u]) (log : List DocReq) :
    ∃ q log' t w, textPassage (textOf root same ls) (single u.1) = .ok q ∧ readListed e id k log = some (log', .ok [t, w]) ∧
      AgreeDts env t q.tree ∧ AgreeDts env w root := by
  have hu : u ∈ units (ls.take k) root := by rw [hn]; simp
  obtain ⟨chain, refs, h1, h2, h3, h4⟩ := h.lists k hk1 hk
  rw [hn, List.map_cons, List.map_nil, List.map_cons, List.map_nil] at h4
  obtain ⟨r, rfl⟩ : ∃ r, refs = [r] := List.length_eq_one_iff.1 (by simpa using congrArg List.length h4)
  simp only [List.map_cons, List.map_nil, List.cons.injEq, Prod.mk.injEq, and_true] at h4
  obtain ⟨log1, set, g1, g2⟩ := C59_single e.navigation e.navQuery _ chain r h1 h2 e.turns h3
  rw [h4.1, h4.2] at g2
  obtain ⟨prev, next, hp⟩ := serves_unit h hk1 hk hu
  obtain ⟨t, t1, t2⟩ := resolveText_served (arg' := .other (.str (dotted u.1))) hp
    (names_document (dotted_ne hc hk1 hk hu) (.inr rfl) _ id) (log ++ log1.map .navigation)
  obtain ⟨w, w1, w2⟩ := resolveText_served h.whole rfl (log ++ log1.map .navigation ++ [.document (getDocument e.docQuery id (dtsUnit u.1).arg)])
  refine ⟨_, log ++ log1.map .navigation ++ [.document (getDocument e.docQuery id (dtsUnit u.1).arg)] ++ [.document (getDocument e.docQuery id .none)],
    t, w, unit_passage hr hc hk1 hk hu, ?_, agree_of_doc t2, agree_of_doc w2⟩
  simp only [readListed, g1, g2, openAll, RefItem.arg, t1, w1]

/-! ## The nested export -/

theorem splitArg_request (query : List (Str × List Str)) (hq : (query.map (·.1)).Nodup) (hr : ∀ ws, ("ref".toList, ws) ∉ query) (id : Str) (i : RefItem) :
    ∃ v, ("ref".toList, ['[' :: v]) ∈ getDocument query id i.splitArg := by
  refine ⟨join [',', ' '] ((split '.' i.shown).map reprOf) ++ [']'], ?_⟩
  rw [C58_document query hq]
  exact .inr ⟨hr, .inl ⟨rfl, rfl, rfl⟩⟩

theorem node_refused {γ : Type} {e : DtsTexts γ} {t : TextDoc γ} {ref : DtsRefArg} {x : PyErr}
    (h : e.documents (getDocument e.docQuery t.doc.id ref) = .error x) (log : List DocReq) :
    t.node e log ref = (log ++ [.document (getDocument e.docQuery t.doc.id ref)], .error x) := by
  simp only [TextDoc.node, resolveText, resolveDoc, h]

/-- C100. The nested export does not work for documents of a DTS endpoint: it asks for passages by the `str` of a list, which begins with
`[`. Whatever the endpoint lists, if it refuses passages with such names, the export raises what this raises, with one request of a
passage, unless nothing is listed: then it is empty. -/
theorem C100_fails_nested {γ : Type} (e : DtsTexts γ) (hq : (e.docQuery.map (·.1)).Nodup) (hr : ∀ ws, ("ref".toList, ws) ∉ e.docQuery)
    (t : TextDoc γ) (passages : List Str) (h : ServesList e ⟨t.doc.id, .int 1, t.doc.ref, .none, .int 1⟩ passages) (x : PyErr)
    (hx : ∀ ps v, ("ref".toList, ['[' :: v]) ∈ ps → e.documents ps = .error x) (log : List DocReq) (exclude : List Str) :
    (passages = [] → ∃ log', t.exportNested e log exclude = some (log', .ok (.dict []))) ∧
    (passages ≠ [] → ∃ (navs : List (List (Str × List Str))), ∃ r v, t.exportNested e log exclude = some (log ++ navs.map .navigation ++ [.document r], .error x) ∧
      ("ref".toList, ['[' :: v]) ∈ r) := by
  obtain ⟨chain, refs, h1, h2, h3, h4⟩ := h
  obtain ⟨set, _, e1, _, _, _, e2⟩ := C59_chain e.navigation e.navQuery _ chain refs h1 h2 e.turns h3
  have hlen := congrArg List.length h4
  simp only [List.length_map] at hlen
  constructor
  · intro hp
    rw [hp] at hlen
    rw [List.length_eq_zero_iff.1 hlen] at e2
    exact ⟨log ++ _, by simp only [TextDoc.exportNested, DtsDoc.reffs, e1, e2 (by simp), List.map_nil, TextDoc.nestedLoop]; rfl⟩
  · intro hp
    have hi : ∃ i is, set.items = i :: is := by
      by_cases hl : refs.length = 1
      · obtain ⟨r, rfl⟩ := List.length_eq_one_iff.1 hl
        obtain ⟨_, set', g1, g2⟩ := C59_single e.navigation e.navQuery _ chain r h1 h2 e.turns h3
        rw [e1] at g1
        cases g1
        exact ⟨_, _, g2⟩
      · rw [e2 hl]
        cases refs with
        | nil => exact absurd (List.length_eq_zero_iff.1 hlen.symm) hp
        | cons r refs => exact ⟨_, _, rfl⟩
    obtain ⟨i, is, hi⟩ := hi
    obtain ⟨v, hv⟩ := splitArg_request e.docQuery hq hr t.doc.id i
    refine ⟨chain.map fun c => navRequest e.navQuery ⟨t.doc.id, .int 1, t.doc.ref, .none, .int 1⟩ c.1, _, v, ?_, hv⟩
    simp only [TextDoc.exportNested, DtsDoc.reffs, e1, hi, TextDoc.nestedLoop, node_refused (hx _ v hv)]

theorem split_plain {c : Char} {s : Str} (h : c ∉ s) : split c s = [s] := by
  induction s with
  | nil => rfl
  | cons x s ih =>
    simp only [List.mem_cons, not_or] at h
    rw [split, if_neg (fun e => h.1 e.symm), ih h.2]

theorem reprChars_plain {quote : Char} : ∀ {s : Str}, (∀ c ∈ s, c ≠ '\\' ∧ c ≠ quote ∧ c ≠ '\n' ∧ c ≠ '\r' ∧ c ≠ '\t') → s.flatMap (reprChar quote) = s
  | [], _ => rfl
  | c :: s, h => by
    obtain ⟨h1, h2, h3, h4, h5⟩ := h c (by simp)
    rw [List.flatMap_cons, reprChars_plain fun x hx => h x (by simp [hx])]
    simp [reprChar, h1, h2, h3, h4, h5]

/-- C100. The name that the nested export asks for, for a reference of one component without a type: its `repr` in quotes and brackets. -/
theorem C100_nested_name (query : List (Str × List Str)) (hq : (query.map (·.1)).Nodup) (hr : ∀ ws, ("ref".toList, ws) ∉ query) (id s : Str)
    (hs : s ≠ []) (hp : ∀ c ∈ s, c ≠ '.' ∧ c ≠ '\\' ∧ c ≠ '\'' ∧ c ≠ '\n' ∧ c ≠ '\r' ∧ c ≠ '\t') :
    ("ref".toList, ["['<DtsReference <".toList ++ s ++ "> [None]>']".toList]) ∈ getDocument query id (RefItem.ref ⟨s, none, none⟩).splitArg := by
  rw [C58_document query hq]
  refine .inr ⟨hr, .inl ⟨rfl, rfl, ?_⟩⟩
  have hshown : (RefItem.ref ⟨s, none, none⟩).shown = "<DtsReference <".toList ++ s ++ "> [None]>".toList := by
    simp [RefItem.shown, DtsRef.shown, hs, noneText]
  have hplain : ∀ c ∈ "<DtsReference <".toList ++ s ++ "> [None]>".toList,
      c ≠ '.' ∧ c ≠ '\\' ∧ c ≠ '\'' ∧ c ≠ '\n' ∧ c ≠ '\r' ∧ c ≠ '\t' := by
    intro c hc
    rw [List.mem_append, List.mem_append] at hc
    rcases hc with (hc | hc) | hc
    · revert c; decide
    · exact hp c hc
    · revert c; decide
  have hsplit : split '.' (RefItem.ref ⟨s, none, none⟩).shown = ["<DtsReference <".toList ++ s ++ "> [None]>".toList] := by
    rw [hshown, split_plain fun h => (hplain _ h).1 rfl]
  have hquote : '\'' ∉ "<DtsReference <".toList ++ s ++ "> [None]>".toList := fun h => (hplain _ h).2.2.1 rfl
  have hchars := reprChars_plain (quote := '\'') fun c hc => ⟨(hplain c hc).2.1, (hplain c hc).2.2.1, (hplain c hc).2.2.2⟩
  show _ = [strList _]
  rw [hsplit, strList, List.map_cons, List.map_nil, join]
  simp only [reprOf, hquote, false_and, if_false]
  rw [hchars]
  simp

/-! ## An endpoint -/

/-- The ways to cut a list at an element. -/
def cuts {α : Type} : List α → List α → List (List α × α × List α)
  | _, [] => []
  | before, u :: after => (before, u, after) :: cuts (before ++ [u]) after

theorem mem_cuts {α : Type} (b : List α) (u : α) (a : List α) : ∀ acc, (acc ++ b, u, a) ∈ cuts acc (b ++ u :: a) := by
  induction b with
  | nil => intro acc; simp [cuts]
  | cons w b ih =>
    intro acc
    have := ih (acc ++ [w])
    rw [List.append_assoc] at this
    exact List.mem_cons_of_mem _ this

/-- Links to the siblings. -/
def docLinks (prev next : Option DtsRef) : List DocLink :=
  next.toList.map (fun r => ⟨relNext, [(kRef, r.start)]⟩) ++ prev.toList.map fun r => ⟨relPrev, [(kRef, r.start)]⟩

/-- A reply of the documents route: the passage in a fragment. -/
def fragment (tree : Node) : Node := .mk "tei:TEI".toList [] [] [.mk "dts:fragment".toList [] [] [tree] []] []

/-- The identifier of the text. -/
def dtsId : Str := "urn:x".toList

/-- What the endpoint answers to requests of passages. -/
def dtsPassages (root : Node) (ls : List Level) : List (List (Str × List Str) × Node × Option DtsRef × Option DtsRef) :=
  (getDocument [] dtsId .none, fragment root, none, none) :: (List.range ls.length).flatMap fun k =>
    (cuts [] (units (ls.take (k + 1)) root)).map fun c => (getDocument [] dtsId (dtsUnit c.2.1.1).arg,
      fragment (emptied root (chainTo root c.2.1.2)), c.1.getLast?.map (dtsUnit ·.1), c.2.2.head?.map (dtsUnit ·.1))

/-- A page of a list. -/
def dtsPage (ss : List Str) (next : Option Str) : NavPage := ⟨none, none, ss.map fun s => ⟨some s, none, none, none⟩, next⟩

/-- The query of a list. -/
def dtsQuery (level : Int) (ref : DtsRefArg) : NavQuery := ⟨dtsId, .int level, ref, .none, .int 1⟩

/-- What the endpoint answers to requests of lists: those of a level on two pages, those in a unit on one. -/
def dtsLists (root : Node) (ls : List Level) : List (List (Str × List Str) × NavPage) :=
  ((List.range ls.length).flatMap fun k : Nat =>
    let ss := (units (ls.take (k + 1)) root).map fun u => dotted u.1
    [(navRequest [] (dtsQuery (k + 1 : Nat) .none) none, dtsPage (ss.take 1) (some "?page=2".toList)),
     (navRequest [] (dtsQuery (k + 1 : Nat) .none) (some "2".toList), dtsPage (ss.drop 1) none)]) ++
  (List.range (ls.length - 1)).flatMap fun k : Nat => (units (ls.take (k + 1)) root).map fun u =>
    (navRequest [] (dtsQuery 1 (dtsUnit u.1).arg) none, dtsPage ((listing root ls (k + 2) u.1).map dotted) none)

/-- An endpoint that serves a document. -/
def dtsServer (root : Node) (ls : List Level) : DtsTexts Unit where
  documents r := ((dtsPassages root ls).lookup r).elim (.error .unknownObject) fun p => .ok (docLinks p.2.1 p.2.2)
  bodies r := ((dtsPassages root ls).lookup r).elim (fragment root) (·.1)
  collections _ := .error .unknownCollection
  navigation r := .ok ((dtsLists root ls).lookup r)
  docQuery := []
  colQuery := []
  navQuery := []
  depthOf _ := ls.length
  turns := 10

theorem mem_of_lookup_some {κ α : Type} [BEq κ] [LawfulBEq κ] : ∀ {l : List (κ × α)} {k : κ} {a : α}, l.lookup k = some a → (k, a) ∈ l
  | [], _, _, h => by simp at h
  | (k', a') :: l, k, a, h => by
    rw [List.lookup] at h
    split at h
    · rename_i hk
      cases h
      rw [eq_of_beq hk]
      simp
    · exact List.mem_cons_of_mem _ (mem_of_lookup_some h)

theorem lookup_of_mem {κ α : Type} [BEq κ] [LawfulBEq κ] : ∀ {l : List (κ × α)} {k : κ} {a : α}, (l.map (·.1)).Nodup → (k, a) ∈ l → l.lookup k = some a
  | [], _, _, _, h => by simp at h
  | (k', a') :: l, k, a, hn, h => by
    rw [List.map_cons, List.nodup_cons] at hn
    rcases List.mem_cons.1 h with h | hm
    · cases h; simp [List.lookup]
    · have hne : k ≠ k' := fun e => hn.1 (List.mem_map.2 ⟨_, hm, e⟩)
      rw [List.lookup, beq_eq_false_iff_ne.2 hne]
      exact lookup_of_mem hn.2 hm

theorem pointsTo_ref {s : Str} (h : s ≠ []) : PointsTo [(kRef, s)] ⟨s, none, none⟩ :=
  ⟨rfl, .inl ⟨by simp [kRef], h, rfl⟩⟩

theorem docLinks_good {prev next : Option DtsRef} (hp : ∀ r ∈ prev, r = ⟨r.start, none, none⟩ ∧ r.start ≠ [])
    (hn : ∀ r ∈ next, r = ⟨r.start, none, none⟩ ∧ r.start ≠ []) :
    Dictionaries (docLinks prev next) ∧ Openable (docLinks prev next) ∧ LinksTo (docLinks prev next) "next".toList next ∧
      LinksTo (docLinks prev next) "prev".toList prev := by
  have hrel : ∀ l ∈ docLinks prev next, (l.rel = relNext ∨ l.rel = relPrev) ∧ ∃ s, l.query = [(kRef, s)] := by
    intro l hl
    simp only [docLinks, List.mem_append, List.mem_map] at hl
    rcases hl with ⟨r, _, rfl⟩ | ⟨r, _, rfl⟩ <;> simp
  refine ⟨?_, ?_, ?_, ?_⟩
  · intro l hl
    obtain ⟨_, s, hs⟩ := hrel l hl
    rw [hs]; simp
  · rintro ⟨q, ⟨a, b, h, _⟩, _⟩
    have := (hrel ⟨"parent".toList, q⟩ (by rw [h]; simp)).1
    revert this
    simp [relNext, relPrev]
  · cases next with
    | none =>
      rintro ⟨q, r, ⟨a, b, h, _⟩, _⟩
      have : (⟨"next".toList, q⟩ : DocLink) ∈ docLinks prev none := by rw [h]; simp
      simp only [docLinks, Option.toList_none, List.map_nil, List.nil_append, List.mem_map, DocLink.mk.injEq] at this
      obtain ⟨_, _, h, _⟩ := this
      revert h; simp [relPrev]
    | some r =>
      obtain ⟨h1, h2⟩ := hn r rfl
      refine ⟨[(kRef, r.start)], ⟨[], prev.toList.map fun r => ⟨relPrev, [(kRef, r.start)]⟩, rfl, ?_⟩, by rw [h1]; exact pointsTo_ref h2⟩
      intro l hl
      obtain ⟨_, _, rfl⟩ := List.mem_map.1 hl
      show relPrev ≠ "next".toList
      decide
  · cases prev with
    | none =>
      rintro ⟨q, r, ⟨a, b, h, _⟩, _⟩
      have : (⟨"prev".toList, q⟩ : DocLink) ∈ docLinks none next := by rw [h]; simp
      simp only [docLinks, Option.toList_none, List.map_nil, List.append_nil, List.mem_map, DocLink.mk.injEq] at this
      obtain ⟨_, _, h, _⟩ := this
      revert h; simp [relNext]
    | some r =>
      obtain ⟨h1, h2⟩ := hp r rfl
      exact ⟨[(kRef, r.start)], ⟨next.toList.map fun r => ⟨relNext, [(kRef, r.start)]⟩, [], rfl, by simp⟩, by rw [h1]; exact pointsTo_ref h2⟩

/-- The names of the elements around a passage. -/
def dtsEnv : List Str := ["tei:TEI".toList, "dts:fragment".toList]

theorem wraps_fragment {tree : Node} (h : tree.tail = []) : Wraps dtsEnv (fragment tree) tree :=
  .within (by simp [fragment, Node.tag, dtsEnv]) rfl rfl rfl
    (.within (by simp [Node.tag, dtsEnv]) rfl rfl h (.same ⟨rfl, rfl, rfl, rfl⟩))

theorem dtsServer_passage {root : Node} {ls : List Level} (hd : ((dtsPassages root ls).map (·.1)).Nodup) {ref : DtsRefArg} {tree : Node}
    {prev next : Option DtsRef}
    (hm : (getDocument [] dtsId ref, fragment tree, prev, next) ∈ dtsPassages root ls) (ht : tree.tail = [])
    (hp : ∀ r ∈ prev, r = ⟨r.start, none, none⟩ ∧ r.start ≠ []) (hn : ∀ r ∈ next, r = ⟨r.start, none, none⟩ ∧ r.start ≠ []) :
    ServesPassage (dtsServer root ls) dtsId ref dtsEnv tree prev next := by
  have h : (dtsPassages root ls).lookup (getDocument [] dtsId ref) = some (fragment tree, prev, next) := lookup_of_mem hd hm
  obtain ⟨h1, h2, h3, h4⟩ := docLinks_good hp hn
  refine ⟨⟨docLinks prev next, ?_, h1, h2, h3, h4⟩, ?_⟩
  · show ((dtsPassages root ls).lookup (getDocument [] dtsId ref)).elim _ _ = _
    rw [h]; rfl
  · show Wraps dtsEnv (((dtsPassages root ls).lookup (getDocument [] dtsId ref)).elim _ _) tree
    rw [h]; exact wraps_fragment ht

theorem readsAll_page (ss : List Str) (next : Option Str) :
    ReadsAll (dtsPage ss next).citeType (dtsPage ss next).members (ss.map fun s => ⟨s, none, none⟩) := by
  induction ss with
  | nil => exact .nil
  | cons s ss ih => exact .cons ⟨.inl ⟨rfl, rfl⟩, rfl⟩ ih

/-- The endpoint serves the document, if it can tell its requests apart. -/
theorem dtsServer_serves {root : Node} {ls : List Level} (hc : Citable root ls) (ht : root.tail = [])
    (he : ∀ t, (emptied root (chainTo root t)).tail = [])
    (hd : ((dtsPassages root ls).map (·.1)).Nodup) (hl : ((dtsLists root ls).map (·.1)).Nodup) :
    ServesDts (dtsServer root ls) dtsId dtsEnv root ls where
  lists := by
    intro k hk1 hk
    obtain ⟨k, rfl⟩ : ∃ j, k = j + 1 := ⟨k - 1, by omega⟩
    let ss := (units (ls.take (k + 1)) root).map fun u => dotted u.1
    have hm : (navRequest [] (dtsQuery (k + 1 : Nat) .none) none, dtsPage (ss.take 1) (some "?page=2".toList)) ∈ dtsLists root ls ∧
        (navRequest [] (dtsQuery (k + 1 : Nat) .none) (some "2".toList), dtsPage (ss.drop 1) none) ∈ dtsLists root ls :=
      ⟨List.mem_append_left _ (List.mem_flatMap.2 ⟨k, List.mem_range.2 hk, by simp [ss]⟩),
        List.mem_append_left _ (List.mem_flatMap.2 ⟨k, List.mem_range.2 hk, by simp [ss]⟩)⟩
    refine ⟨[(none, dtsPage (ss.take 1) (some "?page=2".toList)), (some "2".toList, dtsPage (ss.drop 1) none)],
      (ss.take 1).map (fun s => ⟨s, none, none⟩) ++ ((ss.drop 1).map (fun s => ⟨s, none, none⟩) ++ []), ?_, ?_, by show 2 ≤ 10; decide, ?_⟩
    · exact .step (congrArg Except.ok (lookup_of_mem hl hm.1)) rfl ((regexPage_iff _ _).mp (by decide +kernel)) (.last (congrArg Except.ok (lookup_of_mem hl hm.2)) rfl)
    · exact .cons (readsAll_page _ _) (.cons (readsAll_page _ _) .nil)
    · rw [List.append_nil, ← List.map_append, List.take_append_drop, List.map_map]; rfl
  inside := by
    intro k hk1 hk u hu
    obtain ⟨k, rfl⟩ : ∃ j, k = j + 1 := ⟨k - 1, by omega⟩
    have hm : (navRequest [] (dtsQuery 1 (dtsUnit u.1).arg) none, dtsPage ((listing root ls (k + 2) u.1).map dotted) none) ∈ dtsLists root ls :=
      List.mem_append_right _ (List.mem_flatMap.2 ⟨k, List.mem_range.2 (by omega), List.mem_map.2 ⟨u, hu, rfl⟩⟩)
    refine ⟨[(none, _)], _ ++ [], .last (congrArg Except.ok (lookup_of_mem hl hm)) rfl, .cons (readsAll_page _ _) .nil, by show 1 ≤ 10; decide, ?_⟩
    rw [List.append_nil, List.map_map]; rfl
  passages := by
    intro k before after u hk1 hk hb
    have hne : ∀ w, w ∈ before ∨ w ∈ after → dotted w.1 ≠ [] := fun w hw =>
      dotted_ne hc hk1 hk (by rw [hb, List.mem_append, List.mem_cons]; rcases hw with hw | hw; exact .inl hw; exact .inr (.inr hw))
    obtain ⟨k, rfl⟩ : ∃ j, k = j + 1 := ⟨k - 1, by omega⟩
    refine dtsServer_passage hd (List.mem_cons_of_mem _ (List.mem_flatMap.2 ⟨k, List.mem_range.2 hk, List.mem_map.2 ⟨(before, u, after), ?_, rfl⟩⟩))
      (he _) ?_ ?_
    · rw [hb]
      exact mem_cuts before u after []
    · intro r hr
      obtain ⟨w, hw, rfl⟩ := Option.map_eq_some_iff.1 hr
      exact ⟨rfl, hne w (.inl (List.mem_of_getLast? hw))⟩
    · intro r hr
      obtain ⟨w, hw, rfl⟩ := Option.map_eq_some_iff.1 hr
      exact ⟨rfl, hne w (.inr (List.mem_of_head? hw))⟩
  whole := dtsServer_passage hd (by simp [dtsPassages]) ht (by simp) (by simp)

/-- The endpoint of the edition. -/
def servedDts : DtsTexts Unit := dtsServer edition editionLevels

theorem servedDts_serves : ServesDts servedDts dtsId dtsEnv edition editionLevels :=
  dtsServer_serves edition_citable rfl (fun _ => rfl) (by decide +kernel) (by decide +kernel)

example : ∃ refs log set, ∃ items : List DtsRef, getValidReff (textOf edition sameIdentity editionLevels) (some 2) none = .ok refs ∧
    dtsReffs servedDts.navigation servedDts.navQuery ⟨dtsId, .int 2, .none, .none, .int 1⟩ servedDts.turns = some (log, .ok set) ∧
    set.items = items.map .ref ∧ items.map (fun r => (r.start, r.stop)) = refs.map fun r => (refText r, none) :=
  C100_lists servedDts dtsId dtsEnv edition editionLevels sameIdentity edition_citable servedDts_serves 2 (by decide) (by decide) (by decide +kernel)

example (arg : DtsRefArg) (ha : NamesDts [['1'], ['2']] arg) : ∃ t : TextDoc Unit,
    (resolveText servedDts [] dtsId arg).2 = .ok t ∧ t.doc.prev = some ⟨"1.1".toList, none, none⟩ ∧ t.doc.next = some ⟨"2.1".toList, none, none⟩ := by
  rcases ha with rfl | rfl <;> exact ⟨_, rfl, by decide +kernel, by decide +kernel⟩

example (arg : DtsRefArg) (ha : NamesDts [['1'], ['2']] arg) : ∃ t q prev next,
    resolveText servedDts [] dtsId arg = ([docRequest servedDts.toDtsNet dtsId (dtsUnit [['1'], ['2']])], .ok t) ∧
    textPassage (textOf edition sameIdentity editionLevels) (single [['1'], ['2']]) = .ok q ∧
    q.siblingsId (textOf edition sameIdentity editionLevels) = .ok (prev, next) ∧ t.doc.id = dtsId ∧ AgreeDts dtsEnv t q.tree ∧
    t.doc.prev = prev.map (fun r => ⟨r.str, none, none⟩) ∧ t.doc.next = next.map fun r => ⟨r.str, none, none⟩ :=
  C100_passage servedDts dtsId dtsEnv edition editionLevels sameIdentity (by simp [sameIdentity]) edition_citable servedDts_serves 2 (by decide)
    (by decide) ([['1'], ['2']], [0, 0, 1]) (by decide +kernel) arg ha []

example : ∃ t ps, resolveText servedDts [] dtsId .none = ([.document ps], .ok t) ∧ t.doc.id = dtsId ∧ AgreeDts dtsEnv t edition :=
  C100_whole servedDts dtsId dtsEnv edition editionLevels servedDts_serves []

example : ∃ log1 t, ∃ (refs : List Ref) (qs : List Passage), ∃ log2 t' ds, resolveText servedDts [] dtsId (.other (.str "2".toList)) = (log1, .ok t) ∧
    getValidReff (textOf edition sameIdentity editionLevels) (some (1 + 1 : Nat)) (some (single [['2']])) = .ok (refs.map some) ∧
    refs.mapM (textPassage (textOf edition sameIdentity editionLevels)) = .ok qs ∧
    t.children servedDts log1 = some (log2, t', .ok ds) ∧ ds.length = qs.length ∧
    ∀ (i : Nat) d q, ds[i]? = some d → qs[i]? = some q →
      d.doc.id = dtsId ∧ d.doc.ref = .ref (.str q.ref.str) .none ∧ d.doc.coll = t.doc.coll ∧ AgreeDts dtsEnv d q.tree :=
  C100_children servedDts dtsId dtsEnv edition editionLevels sameIdentity (by simp [sameIdentity]) edition_citable servedDts_serves 1 (by decide)
    (by decide) ([['2']], [0, 1]) (by decide +kernel) (by decide +kernel) _ (.inr rfl) []

example : ∃ log' ds, readDts servedDts dtsId 4 [] (.other (.str "1.1".toList)) = (log', .ok ds) ∧
    textOfDocs noSpace [] ds = (plainText defaultJoin [] [] edition).filter noSpace :=
  C100_text_complete servedDts dtsId dtsEnv edition editionLevels edition_citable edition_separate servedDts_serves 2 (by decide) (by decide)
    _ _ edition_lines _ (.inr rfl) [] 4 (by decide) noSpace (by decide) [] (by simp) edition_covered

example : ∃ ds qs, readDtsBack servedDts dtsId 4 [] (.other (.str "2.1".toList)) =
      (qs.map (fun q => docRequest servedDts.toDtsNet dtsId ⟨q.ref.str, none, none⟩), .ok ds) ∧
    readBack (textOf edition sameIdentity editionLevels) 4 (single [['2'], ['1']]) = .ok qs ∧
    qs.map (·.ref) = [single [['2'], ['1']], single [['1'], ['2']], single [['1'], ['1']]] ∧
    ds.length = qs.length ∧ ∀ (i : Nat) d q, ds[i]? = some d → qs[i]? = some q → d.doc.id = dtsId ∧ AgreeDts dtsEnv d q.tree :=
  C100_backward servedDts dtsId dtsEnv edition editionLevels sameIdentity (by simp [sameIdentity]) edition_citable servedDts_serves 2 (by decide)
    (by decide) [([['1'], ['1']], [0, 0, 0]), ([['1'], ['2']], [0, 0, 1])] [([['2'], ['2']], [0, 1, 1])] ([['2'], ['1']], [0, 1, 0]) edition_lines
    _ (.inr rfl) [] 4 (by decide)

example : ∃ (refs : List Ref) (qs : List Passage), ∃ log' ds,
    getValidReff (textOf edition sameIdentity editionLevels) (some (2 : Nat)) none = .ok (refs.map some) ∧
    refs.mapM (textPassage (textOf edition sameIdentity editionLevels)) = .ok qs ∧ readListed servedDts dtsId 2 [] = some (log', .ok ds) ∧
    ds.length = qs.length ∧ ∀ (i : Nat) d q, ds[i]? = some d → qs[i]? = some q → d.doc.id = dtsId ∧ AgreeDts dtsEnv d q.tree :=
  C100_listed servedDts dtsId dtsEnv edition editionLevels sameIdentity (by simp [sameIdentity]) edition_citable servedDts_serves 2 (by decide)
    (by decide) (by decide +kernel) []

/-- The whole edition as a document. -/
def servedWhole : TextDoc Unit := ⟨⟨dtsId, .none, none, none, none, .unset, none, none⟩, fragment edition⟩

theorem servedDts_refuses (ps : List (Str × List Str)) (v : Str) (h : ("ref".toList, ['[' :: v]) ∈ ps) :
    servedDts.documents ps = .error .unknownObject := by
  have hn : ∀ p ∈ dtsPassages edition editionLevels, ∀ x ∈ p.1, x.2.all (fun s => s.head? != some '[') = true := by decide +kernel
  have hl : (dtsPassages edition editionLevels).lookup ps = none := by
    cases hl : (dtsPassages edition editionLevels).lookup ps with
    | none => rfl
    | some p =>
      have hm : (ps, p) ∈ dtsPassages edition editionLevels := mem_of_lookup_some hl
      have := hn _ hm _ h
      simp at this
  show ((dtsPassages edition editionLevels).lookup ps).elim _ _ = _
  rw [hl]; rfl

example (exclude : List Str) : ∃ (navs : List (List (Str × List Str))), ∃ r v,
    servedWhole.exportNested servedDts [] exclude = some (navs.map .navigation ++ [.document r], .error .unknownObject) ∧
    ("ref".toList, ['[' :: v]) ∈ r :=
  (C100_fails_nested servedDts (by decide) (by intro ws h; cases h) servedWhole _ (servedDts_serves.lists 1 (by decide) (by decide)) .unknownObject
    servedDts_refuses [] exclude).2 (by decide +kernel)

example : ("ref".toList, ["['<DtsReference <1> [None]>']".toList]) ∈ getDocument [] dtsId (RefItem.ref ⟨['1'], none, none⟩).splitArg :=
  C100_nested_name [] (by decide) (by intro ws h; cases h) dtsId ['1'] (by decide) (by decide)

/-- A text of a single poem. -/
def onePoem : Node := .mk "TEI".toList [] [] [.mk "body".toList [] [] [.mk ['d'] [(['n'], ['1'])] [] [line "1" "a", line "2" "b"] []] []] []

theorem onePoem_units (k : Nat) : units ((editionLevels.take 1).take (k + 1)) onePoem = [([['1']], [0, 0])] := by
  rw [List.take_of_length_le (by simp [editionLevels])]
  decide +kernel

theorem onePoem_citable : Citable onePoem (editionLevels.take 1) where
  tag := by decide
  few := by decide
  wf := fun l hl => edition_citable.wf l (List.mem_of_mem_take hl)
  ids := by
    intro k u hu v hv
    cases k with
    | zero => simp [units] at hu; subst hu; simp at hv
    | succ k =>
      rw [onePoem_units] at hu
      simp at hu
      subst hu
      simp at hv
      subst hv
      exact isId_digit (Or.inl rfl)
  distinct := by
    intro k
    cases k with
    | zero => simp [units]
    | succ k => rw [onePoem_units]; simp

theorem onePoem_serves : ServesDts (dtsServer onePoem (editionLevels.take 1)) dtsId dtsEnv onePoem (editionLevels.take 1) :=
  dtsServer_serves onePoem_citable rfl (fun _ => rfl) (by decide +kernel) (by decide +kernel)

example : ∃ q log' t w, textPassage (textOf onePoem sameIdentity (editionLevels.take 1)) (single [['1']]) = .ok q ∧
    readListed (dtsServer onePoem (editionLevels.take 1)) dtsId 1 [] = some (log', .ok [t, w]) ∧ AgreeDts dtsEnv t q.tree ∧ AgreeDts dtsEnv w onePoem :=
  C100_fails_single _ dtsId dtsEnv onePoem (editionLevels.take 1) sameIdentity (by simp [sameIdentity]) onePoem_citable onePoem_serves 1
    (by decide) (by decide) ([['1']], [0, 0]) (onePoem_units 0) []

end Verif.Props
