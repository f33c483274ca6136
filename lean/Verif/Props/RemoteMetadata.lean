import Verif.Spec.RemoteMetadata
import Verif.Lemmas.RemoteText
import Verif.Props.InventoryXml
import Verif.Props.Retriever
/-!
C85: the metadata that a resolver takes from a CTS endpoint.
-/
namespace Verif.Props
open Verif.Py Verif.Model Verif.Spec Verif.Lemmas

theorem id_identifier (o : XObject) : o.id = identifier o := by cases o <;> rfl

theorem mem_invDescendants {i : XInv} {o : XObject} {above : List XObject} :
    (o, above) ∈ (XObject.inventory i, []) :: invDescendants i ↔ StandsIn i o above := by
  simp only [List.mem_cons, invDescendants, groupDescendants, workDescendants, List.mem_append, List.mem_map, List.mem_flatMap, Prod.mk.injEq]
  constructor
  · rintro (⟨rfl, rfl⟩ | ⟨g, hg, rfl, rfl⟩ | ⟨g, hg, ⟨w, hw, rfl, rfl⟩ | ⟨w, hw, t, ht, rfl, rfl⟩⟩)
    · exact .inventory
    · exact .textgroup hg
    · exact .work hg hw
    · exact .text hg hw ht
  · rintro (_ | hg | ⟨hg, hw⟩ | ⟨hg, hw, ht⟩)
    · exact .inl ⟨rfl, rfl⟩
    · exact .inr (.inl ⟨_, hg, rfl, rfl⟩)
    · exact .inr (.inr ⟨_, hg, .inl ⟨_, hw, rfl, rfl⟩⟩)
    · exact .inr (.inr ⟨_, hg, .inr ⟨_, hw, _, ht, rfl, rfl⟩⟩)

/-- C85. `getMetadata` sends one request, `GetCapabilities`, with the identifier as URN, or without one with the URN asked for, and with
the inventory asked for or else that of the endpoint; the retriever sends the same for an identifier. -/
theorem C85_request (serve : DocEndpoint) (d objectId inventory urn : Option Str) (k v : Str) :
    ((k, v) ∈ (apiMetadata serve d objectId inventory urn).1 ↔ CtsSent d inventory "GetCapabilities" (objectId.or urn) none k v) ∧
    ((k, v) ∈ retrieverMetadata d objectId inventory urn ↔ CtsSent d inventory "GetCapabilities" objectId none k v) := by
  constructor
  · have := (C57_requests d inventory [] k v).1 (objectId.or urn)
    cases objectId <;> exact this
  · exact (C57_requests d inventory [] k v).1 objectId

/-- C85. Without an identifier, or with an empty one, the result is the inventory of the reply. -/
theorem C85_inventory (serve : DocEndpoint) (d objectId inventory urn : Option Str) (h : objectId = none ∨ objectId = some []) (doc : Node) (i : XInv)
    (hd : serve (apiMetadata serve d objectId inventory urn).1 = .ok doc) (hi : parseInv doc = .ok i) :
    (apiMetadata serve d objectId inventory urn).2 = .ok (.inventory i, []) := by
  rcases h with rfl | rfl
  · simp only [apiMetadata] at hd ⊢
    rw [hd]; simp only [hi]
  · simp only [apiMetadata] at hd ⊢
    rw [hd]; simp only [hi]

theorem apiMetadata_id {serve : DocEndpoint} {d inventory urn : Option Str} {id : Str} (hid : id ≠ []) {doc : Node} {i : XInv}
    (hd : serve (apiMetadata serve d (some id) inventory urn).1 = .ok doc) (hi : parseInv doc = .ok i) :
    (apiMetadata serve d (some id) inventory urn).2 =
      match ((XObject.inventory i, []) :: invDescendants i).filter fun x => x.1.id = id with
      | [] => .error .indexError
      | x :: _ => .ok x := by
  cases id with
  | nil => exact absurd rfl hid
  | cons c o =>
    simp only [apiMetadata] at hd ⊢
    rw [hd]; simp only [hi]
    rfl

/-- C85. With an identifier, the result is an object of the inventory with that identifier, with its parents, and `IndexError` is raised
exactly when there is none. -/
theorem C85_object (serve : DocEndpoint) (d inventory urn : Option Str) (id : Str) (hid : id ≠ []) (doc : Node) (i : XInv)
    (hd : serve (apiMetadata serve d (some id) inventory urn).1 = .ok doc) (hi : parseInv doc = .ok i) :
    (∀ o above, (apiMetadata serve d (some id) inventory urn).2 = .ok (o, above) → StandsIn i o above ∧ identifier o = id) ∧
    (∀ e, (apiMetadata serve d (some id) inventory urn).2 = .error e ↔ e = .indexError ∧ ∀ o above, StandsIn i o above → identifier o ≠ id) := by
  rw [apiMetadata_id hid hd hi]
  cases hf : ((XObject.inventory i, []) :: invDescendants i).filter fun x => x.1.id = id with
  | nil =>
    refine ⟨fun o above h => by simp at h, fun e => ⟨fun h => ?_, fun h => by rw [h.1]⟩⟩
    injection h with h
    refine ⟨h.symm, fun o above ho e => ?_⟩
    have : (o, above) ∈ ((XObject.inventory i, []) :: invDescendants i).filter fun x => x.1.id = id :=
      List.mem_filter.2 ⟨mem_invDescendants.2 ho, decide_eq_true (by rw [id_identifier]; exact e)⟩
    rw [hf] at this
    cases this
  | cons x r =>
    have hx : x ∈ ((XObject.inventory i, []) :: invDescendants i).filter fun x => x.1.id = id := by rw [hf]; exact List.mem_cons_self ..
    obtain ⟨h1, h2⟩ := List.mem_filter.1 hx
    have h3 : StandsIn i x.1 x.2 := mem_invDescendants.1 h1
    have h4 : identifier x.1 = id := by rw [← id_identifier]; exact of_decide_eq_true h2
    refine ⟨fun o above h => ?_, fun e => ⟨fun h => by simp at h, fun h => absurd h4 (h.2 _ _ h3)⟩⟩
    injection h with h
    subst h
    exact ⟨h3, h4⟩

/-- C85. When the identifiers of the inventory are unique, every object of it is the answer to its identifier. -/
theorem C85_unique (serve : DocEndpoint) (d inventory urn : Option Str) (doc : Node) (i : XInv) (hu : UniqueIds i) (o : XObject) (above : List XObject)
    (ho : StandsIn i o above) (hid : identifier o ≠ []) (hd : serve (apiMetadata serve d (some (identifier o)) inventory urn).1 = .ok doc)
    (hi : parseInv doc = .ok i) : (apiMetadata serve d (some (identifier o)) inventory urn).2 = .ok (o, above) := by
  obtain ⟨h1, h2⟩ := C85_object serve d inventory urn _ hid doc i hd hi
  cases h : (apiMetadata serve d (some (identifier o)) inventory urn).2 with
  | error e => exact absurd rfl (((h2 e).1 h).2 o above ho)
  | ok x =>
    obtain ⟨a, b⟩ := h1 x.1 x.2 h
    obtain ⟨e1, e2⟩ := hu _ _ _ _ a ho b
    rw [← e1, ← e2]

/-- C85. What fails: the request, or the reading of the reply, and a reply without inventory raises `IndexError`. -/
theorem C85_errors (serve : DocEndpoint) (d objectId inventory urn : Option Str) :
    (∀ e, serve (apiMetadata serve d objectId inventory urn).1 = .error e → (apiMetadata serve d objectId inventory urn).2 = .error e) ∧
    (∀ doc e, serve (apiMetadata serve d objectId inventory urn).1 = .ok doc → parseInv doc = .error e →
      (apiMetadata serve d objectId inventory urn).2 = .error e) ∧
    (∀ doc, serve (apiMetadata serve d objectId inventory urn).1 = .ok doc → named "ti:TextInventory" doc = [] →
      (apiMetadata serve d objectId inventory urn).2 = .error .indexError) := by
  have h2 : ∀ doc e, serve (apiMetadata serve d objectId inventory urn).1 = .ok doc → parseInv doc = .error e →
      (apiMetadata serve d objectId inventory urn).2 = .error e := by
    intro doc e hd hp
    simp only [apiMetadata] at hd ⊢
    rw [hd]; simp only [hp]
  refine ⟨fun e he => ?_, h2, fun doc hd hn => h2 doc _ hd ?_⟩
  · simp only [apiMetadata] at he ⊢
    rw [he]
  · have := filter_named "ti:TextInventory" doc
    rw [hn] at this
    have h : parseInv doc = match doc.allNodes.filter fun c => c.tag = "ti:TextInventory".toList with
      | [] => .error .indexError
      | t :: _ =>
        match parseInto XGroup.id parseGroup [] (doc.allNodes.filter fun c => c.tag = "ti:textgroup".toList) with
        | .error e => .error e
        | .ok groups => .ok { id := (t.get "tiid".toList).getD [], groups := groups } := rfl
    rw [h, this]

/-- C85. An inventory is read from a reply as from a document of its own. -/
theorem C85_reply (reply doc : Node) (h : Carries reply doc) : parseInv reply = parseInv doc := by
  have e : ∀ n, parseInv n = match n.allNodes.filter fun c => c.tag = "ti:TextInventory".toList with
      | [] => .error .indexError
      | t :: _ =>
        match parseInto XGroup.id parseGroup [] (n.allNodes.filter fun c => c.tag = "ti:textgroup".toList) with
        | .error e => .error e
        | .ok groups => .ok { id := (t.get "tiid".toList).getD [], groups := groups } := fun n => rfl
  rw [e, e, filter_named, filter_named, filter_named, filter_named, h.1, h.2]

/-- C85. The reply of the protocol holds the inventory in it, whatever request it repeats without naming inventories or textgroups. -/
theorem C85_capabilities (request : List Node) (doc : Node)
    (h : ∀ e ∈ belowAll request, e.tag ≠ "ti:TextInventory".toList ∧ e.tag ≠ "ti:textgroup".toList) : Carries (capabilities request doc) doc := by
  have hb : ∀ tg : Str, tg ≠ "ti:GetCapabilities".toList → tg ≠ "ti:request".toList → tg ≠ "ti:reply".toList →
      (∀ e ∈ belowAll request, e.tag ≠ tg) → (elements (capabilities request doc)).filter (fun e => e.tag = tg) = (elements doc).filter fun e => e.tag = tg := by
    intro tg h1 h2 h3 h4
    rw [capabilities, elements, below, belowAll, belowAll, belowAll, below, below, belowAll, belowAll, elements]
    have hr : (belowAll request).filter (fun e => decide (e.tag = tg)) = [] := by
      rw [List.filter_eq_nil_iff]
      intro e he
      simpa using h4 e he
    simp only [List.append_nil, List.filter_cons, List.filter_append, hr, List.nil_append]
    rw [if_neg, if_neg, if_neg]
    · intro e; exact h3 (of_decide_eq_true e).symm
    · intro e; exact h2 (of_decide_eq_true e).symm
    · intro e; exact h1 (of_decide_eq_true e).symm
  exact ⟨hb _ (by decide +kernel) (by decide +kernel) (by decide +kernel) fun e he => (h e he).1,
    hb _ (by decide +kernel) (by decide +kernel) (by decide +kernel) fun e he => (h e he).2⟩

/-- C85. From an endpoint that answers with an exported inventory, every object of it is found by its identifier, as it is after an
export (C71), with its parents. -/
theorem C85_exported (serve : DocEndpoint) (d inventory urn : Option Str) (pf : Str) (preds : List (Str × Str)) (hp : HeaderSafe pf preds)
    (i : XInv) (h : InvSafe i) (hu : UniqueIds (invRead i)) (o : XObject) (above : List XObject) (ho : StandsIn (invRead i) o above)
    (hid : identifier o ≠ []) (s : Str) (hs : exportInv pf (some preds) i = .ok s) (n reply : Node) (hn : readCts s = some n)
    (hc : Carries reply n) (hd : serve (apiMetadata serve d (some (identifier o)) inventory urn).1 = .ok reply) :
    (apiMetadata serve d (some (identifier o)) inventory urn).2 = .ok (o, above) := by
  obtain ⟨s', n', h1, h2, h3⟩ := C71_inventory pf preds hp i h
  rw [hs] at h1
  injection h1 with h1
  subst h1
  rw [hn] at h2
  injection h2 with h2
  subst h2
  exact C85_unique serve d inventory urn reply _ hu o above ho hid hd ((C85_reply reply n hc).trans h3)

/-- C85 fails for an inventory that has the name of one of its objects: the inventory is the answer. -/
theorem C85_fails_name (serve : DocEndpoint) (d inventory urn : Option Str) (doc : Node) (i : XInv) (hid : i.id ≠ [])
    (hd : serve (apiMetadata serve d (some i.id) inventory urn).1 = .ok doc) (hi : parseInv doc = .ok i) :
    (apiMetadata serve d (some i.id) inventory urn).2 = .ok (.inventory i, []) := by
  rw [apiMetadata_id hid hd hi, List.filter_cons, if_pos (decide_eq_true (show (XObject.inventory i).id = i.id from rfl))]

/-! ### Examples -/

theorem exRead_unique : UniqueIds (invRead exXInv) := by
  have h : (((XObject.inventory (invRead exXInv), []) :: invDescendants (invRead exXInv)).map fun x => x.1.id).Nodup := by decide +kernel
  intro o above o' above' h1 h2 e
  have m1 := mem_invDescendants.2 h1
  have m2 := mem_invDescendants.2 h2
  generalize (XObject.inventory (invRead exXInv), []) :: invDescendants (invRead exXInv) = l at *
  rw [← id_identifier, ← id_identifier] at e
  clear h1 h2
  have key : ∀ (l : List (XObject × List XObject)), (l.map fun x => x.1.id).Nodup → ∀ x ∈ l, ∀ y ∈ l, x.1.id = y.1.id → x = y := by
    intro l
    induction l with
    | nil => intro _ x hx; cases hx
    | cons a r ih =>
      intro hn x hx y hy exy
      rw [List.map_cons, List.nodup_cons] at hn
      rcases List.mem_cons.1 hx with ex | mx <;> rcases List.mem_cons.1 hy with ey | my
      · rw [ex, ey]
      · rw [ex] at exy; exact absurd (List.mem_map.2 ⟨y, my, exy.symm⟩) hn.1
      · rw [ey] at exy; exact absurd (List.mem_map.2 ⟨x, mx, exy⟩) hn.1
      · exact ih hn.2 x mx y my exy
  have := key l h _ m1 _ m2 e
  exact Prod.mk.inj this

example : ∃ (serve : DocEndpoint) (o : XObject) (above : List XObject), above.length = 3 ∧ StandsIn (invRead exXInv) o above ∧
    (apiMetadata serve none (some (identifier o)) none none).2 = .ok (o, above) := by
  obtain ⟨s, n, h1, h2, h3⟩ := C71_inventory [] exPreds exPreds_safe exXInv exXInv_safe
  have hne : ((invDescendants (invRead exXInv)).filter fun x => x.2.length = 3 ∧ identifier x.1 ≠ []) ≠ [] := by decide +kernel
  obtain ⟨x, hx⟩ := List.exists_mem_of_ne_nil _ hne
  obtain ⟨m1, m2⟩ := List.mem_filter.1 hx
  have hs : StandsIn (invRead exXInv) x.1 x.2 := mem_invDescendants.1 (List.mem_cons_of_mem _ m1)
  exact ⟨fun _ => .ok (capabilities [] n), x.1, x.2, (of_decide_eq_true m2).1, hs,
    C85_exported _ none none none [] exPreds exPreds_safe exXInv exXInv_safe exRead_unique x.1 x.2 hs (of_decide_eq_true m2).2 s h1 n
      (capabilities [] n) h2 (C85_capabilities [] n fun e he => by simp [belowAll] at he) rfl⟩

end Verif.Props
