import Verif.Spec.DtsBrowse
import Verif.Lemmas.Dict
import Verif.Lemmas.DtsResolver
/-! Lemmas on trees of remote DTS collections. -/
namespace Verif.Lemmas
open Verif.Py Verif.Model Verif.Spec

variable {γ : Type}

/-! ## Dictionaries -/

theorem addKeys_append_new (l ks : List Str) (h : (ks ++ l).Nodup) : addKeys ks l = ks ++ l := by
  induction l generalizing ks with
  | nil => simp [addKeys]
  | cons k l ih =>
    have hk : k ∉ ks := by
      intro hk
      rw [List.nodup_append] at h
      exact h.2.2 k hk k (by simp) rfl
    show addKeys (if k ∈ ks then ks else ks ++ [k]) l = _
    rw [if_neg hk, ih _ (by simpa using h)]
    simp

/-- A dictionary that holds the first names of a list takes the values of the list. -/
theorem updateKeys_over (d ms : List (Str × γ)) (hn : (ms.map (·.1)).Nodup) (hp : d.map (·.1) <+: ms.map (·.1)) : updateKeys d ms = ms := by
  obtain ⟨r, hr⟩ := hp
  have hk : (updateKeys d ms).map (·.1) = ms.map (·.1) := by
    rw [keys_updateKeys, ← hr]
    have h1 : addKeys (d.map (·.1)) (d.map (·.1) ++ r) = addKeys (addKeys (d.map (·.1)) (d.map (·.1))) r := List.foldl_append
    rw [h1, addKeys_of_mem _ _ (fun x hx => hx)]
    exact addKeys_append_new _ _ (by rw [hr]; exact hn)
  refine dict_ext _ _ hk (by rw [hk]; exact hn) fun k => ?_
  rw [dictGet_updateKeys, lastGet_nodup ms hn]
  cases hg : dictGet ms k with
  | some v => rfl
  | none =>
    have hnone : ∀ p ∈ ms, p.1 ≠ k := by
      simp only [dictGet, Option.map_eq_none_iff, List.find?_eq_none] at hg
      intro p hp; simpa using hg p hp
    have : dictGet d k = none := by
      simp only [dictGet, Option.map_eq_none_iff, List.find?_eq_none]
      intro p hp
      have hm : p.1 ∈ ms.map (·.1) := by
        rw [← hr]; exact List.mem_append_left _ (List.mem_map_of_mem hp)
      obtain ⟨q, hq, e⟩ := List.mem_map.mp hm
      have := hnone q hq
      simp only [beq_iff_eq]
      rw [← e]; exact this
    rw [this]; rfl

/-! ## Crawling -/

theorem absorb_page (s : RemoteColl γ) (page : Nat) (data : CollPage γ) (h1 : s.parsedKids = false) (h2 : s.size ≠ 0) (hn : (s.kids.map (·.1)).Nodup) :
    s.absorb .children page data = { s with
      parsedKids := decide (data.members ≠ [] ∧ data.view = none), kids := updateKeys s.kids data.members, lastKids := some page } := by
  have ht : s.touchKids = s := by rw [RemoteColl.touchKids, if_pos h1, if_pos h2]
  simp only [RemoteColl.absorb, ht, RemoteColl.memberFlags, h2, and_false, or_false]
  by_cases hm : data.members ≠ []
  · rw [if_pos hm]
    by_cases hv : data.view = none
    · simp [hv, hm, updateKeys_dict _ _ hn]
    · simp [hv, h1, updateKeys_dict _ _ hn]
  · rw [if_neg hm]; simp [hm, h1, updateKeys_dict _ _ hn]

theorem nodup_updateKeys (d l : List (Str × γ)) (h : (d.map (·.1)).Nodup) : ((updateKeys d l).map (·.1)).Nodup := by
  rw [keys_updateKeys]; exact addKeys_nodup _ _ h

theorem crawl_listing {serve : List (Str × List Str) → Except PyErr (CollPage γ)} {query : List (Str × List Str)} {id : Str} {n : Nat}
    {chain : List (Nat × CollPage γ)} (hc : CollChain (fun n => serve (collRequest query id .children n)) n chain) :
    n ≠ 0 → ∀ (fuel : Nat) (s : RemoteColl γ), chain.length ≤ fuel → s.id = id → s.size ≠ 0 → s.parsedKids = false → (s.kids.map (·.1)).Nodup →
      ∃ m, crawl serve query .children fuel n s = some ({ s with
        kids := updateKeys s.kids (chainMembers chain), parsedKids := true, lastKids := some m,
        log := s.log ++ chain.map fun c => collRequest query id .children c.1 }, .ok ()) := by
  induction hc with
  | @last n pg h1 h2 =>
    intro hn fuel s hfu hid hs hp hk
    obtain ⟨f, rfl⟩ : ∃ f, fuel = f + 1 := ⟨fuel - 1, by simp at hfu; omega⟩
    subst hid
    have h1' : serve (collRequest query s.id .children n) = .ok pg := h1
    have hab := absorb_page { s with log := s.log ++ [collRequest query s.id .children n] } n pg hp hs hk
    refine ⟨n, ?_⟩
    rw [crawl, if_neg hn]
    rcases h2 with h2 | h2 <;> simp only [h1', hab, h2, RemoteColl.markParsed, chainMembers, List.flatMap_cons, List.flatMap_nil, List.append_nil,
      List.map_cons, List.map_nil]
  | @step n pg link p rest h1 h2 h3 h4 h5 ih =>
    intro hn fuel s hfu hid hs hp hk
    obtain ⟨f, rfl⟩ : ∃ f, fuel = f + 1 := ⟨fuel - 1, by simp at hfu; omega⟩
    subst hid
    have h1' : serve (collRequest query s.id .children n) = .ok pg := h1
    have hab := absorb_page { s with log := s.log ++ [collRequest query s.id .children n] } n pg hp hs hk
    have hflag : decide (pg.members ≠ [] ∧ pg.view = none) = false := by simp [h2]
    rw [hflag] at hab
    obtain ⟨m, hm⟩ := ih h4 f ({ s with parsedKids := false, kids := updateKeys s.kids pg.members, lastKids := some n, log := s.log ++ [collRequest query s.id .children n] })
      (by simpa using hfu) rfl hs rfl (nodup_updateKeys _ _ hk)
    refine ⟨m, ?_⟩
    rw [crawl, if_neg hn]
    simp only [h1', hab, h2, (regexPage_iff _ _).mpr h3]
    rw [hm]
    simp only [chainMembers, List.flatMap_cons, updateKeys_append, List.map_cons, List.append_assoc, List.singleton_append]

/-- The members are listed by a chain of pages and none was read. -/
theorem read_unread {serve : List (Str × List Str) → Except PyErr (CollPage γ)} {query : List (Str × List Str)}
    {chain : List (Nat × CollPage γ)} (s : RemoteColl γ) (hc : CollChain (fun n => serve (collRequest query s.id .children n)) 1 chain)
    (fuel : Nat) (hf : chain.length ≤ fuel) (hs : s.size ≠ 0) (hp : s.parsedKids = false) (hx : s.kidsProxy = true) (hfo : s.parsedFolks = false)
    (hl : s.lastKids = none) (hk : (s.kids.map (·.1)).Nodup) :
    ∃ m, s.read serve query fuel .iterKids = some ({ s with
        kids := updateKeys s.kids (chainMembers chain), parsedKids := true, lastKids := some m,
        log := s.log ++ chain.map fun c => collRequest query s.id .children c.1 }, .ok (.dict (updateKeys s.kids (chainMembers chain)))) := by
  obtain ⟨m, hm⟩ := crawl_listing hc (by decide) fuel s hf rfl hs hp hk
  refine ⟨m, ?_⟩
  have ht : s.touchKids = s := by rw [RemoteColl.touchKids, if_pos hp, if_pos hs]
  rw [RemoteColl.read]
  simp only [ht, hx, if_true, runProxy, hfo, Bool.false_eq_true, if_false, parsePaginated, hl, hm]

/-- The members were read. -/
theorem read_known (serve : List (Str × List Str) → Except PyErr (CollPage γ)) (query : List (Str × List Str)) (fuel : Nat) (s : RemoteColl γ)
    (hp : s.parsedKids = true) : s.read serve query fuel .iterKids = some ({ s with kidsProxy := false }, .ok (.dict s.kids)) := by
  have ht : s.touchKids = { s with kidsProxy := false } := by rw [RemoteColl.touchKids, if_neg (by simp [hp])]
  rw [RemoteColl.read]
  simp only [ht, Bool.false_eq_true, if_false]

/-- There are none. -/
theorem read_empty (serve : List (Str × List Str) → Except PyErr (CollPage γ)) (query : List (Str × List Str)) (fuel : Nat) (s : RemoteColl γ)
    (hs : s.size = 0) : s.read serve query fuel .iterKids = some ({ s with kidsProxy := false, parsedKids := true }, .ok (.dict s.kids)) := by
  have ht : s.touchKids = { s with kidsProxy := false, parsedKids := true } := by
    rw [RemoteColl.touchKids]
    cases h : s.parsedKids
    · simp [hs]
    · simp only [Bool.true_eq_false, if_false]
  rw [RemoteColl.read]
  simp only [ht, Bool.false_eq_true, if_false]

/-! ## Members of a reply -/

/-- A member as it is parsed. -/
def freshObj (parent : Option Str) (e : DtsEntry) : DtsShelf :=
  .mk e.resource { parseColl e.id e.items false ⟨[], none⟩ with folks := parent.toList }

theorem parseDtsMembers_plain (parent : Option Str) (es : List DtsEntry) (h : ∀ e ∈ es, e.nested = false) :
    parseDtsMembers parent es = .ok (es.map fun e => (e.id, freshObj parent e)) := by
  induction es with
  | nil => rfl
  | cons e es ih =>
    have he := h e (by simp)
    simp only [parseDtsMembers, DtsEntry.parse, he, Bool.false_eq_true, if_false, ih (fun x hx => h x (by simp [hx])), List.map_cons, freshObj]

/-- The chain of pages of a listing, parsed. -/
theorem chain_parsed {net : DtsCatalogue} {query : List (Str × List Str)} {id : Str} {n : Nat} {chain : List (Nat × CollPage DtsEntry)}
    (hc : CollChain (listingOf net query id) n chain) : (∀ p ∈ chainMembers chain, p.2.nested = false) →
    ∃ chain' : List (Nat × CollPage DtsShelf), CollChain (fun n => net.pages id .children (collRequest query id .children n)) n chain' ∧ chain'.map (·.1) = chain.map (·.1) ∧
      chainMembers chain' = (chainMembers chain).map fun p => (p.2.id, freshObj (some id) p.2) := by
  have hreply : ∀ {n : Nat} {pg : CollPage DtsEntry}, listingOf net query id n = .ok pg → (∀ p ∈ pg.members, p.2.nested = false) →
      net.pages id .children (collRequest query id .children n) = .ok ⟨pg.members.map fun p => (p.2.id, freshObj (some id) p.2), pg.view⟩ := by
    intro n pg h hn
    unfold listingOf at h
    cases hr : net (collRequest query id .children n) with
    | error e => rw [hr] at h; cases h
    | ok a =>
      rw [hr] at h
      simp only [fmap_ok, Except.ok.injEq] at h
      subst h
      simp only [DtsCatalogue.pages, hr, DtsListing.page, if_true]
      rw [parseDtsMembers_plain _ _ (fun e he => hn (e.id, e) (List.mem_map_of_mem he))]
      simp [DtsListing.raw, List.map_map, Function.comp_def]
  induction hc with
  | @last n pg h1 h2 =>
    intro hn
    exact ⟨[(n, _)], .last (hreply h1 (fun p hp => hn p (by simpa [chainMembers] using hp))) h2, rfl, by simp [chainMembers]⟩
  | @step n pg link p rest h1 h2 h3 h4 h5 ih =>
    intro hn
    obtain ⟨rest', i1, i2, i3⟩ := ih (fun p hp => hn p (by simp only [chainMembers, List.flatMap_cons, List.mem_append]; exact .inr hp))
    refine ⟨(n, _) :: rest', .step (hreply h1 (fun p hp => hn p (by simp only [chainMembers, List.flatMap_cons, List.mem_append]; exact .inl hp))) h2 h3 h4 i1, by simp [i2], ?_⟩
    simp only [chainMembers, List.flatMap_cons, List.map_append]
    congr 1

/-! ## States of a collection -/

/-- The object of a collection of which nothing below was read. `first` are the members known from the reply that gave it. -/
structure Unread (t : Shelf) (o : DtsShelf) : Prop where
  label : o.label = t.label
  size : o.coll.size = t.items
  folks : o.coll.parsedFolks = false
  flags : t.items ≠ 0 → o.coll.parsedKids = false ∧ o.coll.kidsProxy = true ∧ o.coll.lastKids = none
  first : o.coll.kids.map (·.1) <+: t.inside.map Shelf.id

theorem freshObj_unread (parent : Option Str) (t : Shelf) : Unread t (freshObj parent t.entry) := by
  by_cases h : t.items = 0
  · refine ⟨?_, ?_, ?_, fun hn => absurd h hn, ?_⟩ <;>
      simp [freshObj, parseColl, RemoteColl.memberFlags, RemoteColl.touchKids, Shelf.entry, h, DtsShelf.label, DtsShelf.coll, DtsShelf.readable, Shelf.label, updateKeys]
  · refine ⟨?_, ?_, ?_, fun hn => ⟨?_, ?_, ?_⟩, ?_⟩ <;>
      simp [freshObj, parseColl, RemoteColl.memberFlags, RemoteColl.touchKids, Shelf.entry, h, DtsShelf.label, DtsShelf.coll, DtsShelf.readable, Shelf.label, updateKeys]

/-- The object of a collection whose members were read, these being in the states `P`. -/
structure Known (P : Shelf → DtsShelf → Prop) (t : Shelf) (o : DtsShelf) : Prop where
  label : o.label = t.label
  flag : o.coll.parsedKids = true
  names : o.coll.kids.map (·.1) = t.inside.map Shelf.id
  kids : ∀ p ∈ o.coll.kids.zip t.inside, P p.2 p.1.2

/-- The object of a collection of which all below was read. -/
inductive Complete : Shelf → DtsShelf → Prop where
  | mk {t : Shelf} {o : DtsShelf} : o.label = t.label → o.coll.parsedKids = true → o.coll.kids.map (·.1) = t.inside.map Shelf.id →
    (∀ p ∈ o.coll.kids.zip t.inside, Complete p.2 p.1.2) → Complete t o

theorem _root_.Verif.Lemmas.Complete.known {t : Shelf} {o : DtsShelf} (h : Complete t o) : Known Complete t o := by
  cases h with
  | mk h1 h2 h3 h4 => exact ⟨h1, h2, h3, h4⟩

/-- Labels of kids. -/
theorem kids_labels {P : Shelf → DtsShelf → Prop} (hP : ∀ t o, P t o → o.label = t.label) : ∀ (kids : List (Str × DtsShelf)) (inside : List Shelf),
    kids.map (·.1) = inside.map Shelf.id → (∀ p ∈ kids.zip inside, P p.2 p.1.2) → (kids.map (·.2)).map DtsShelf.label = inside.map Shelf.label
  | [], [], _, _ => rfl
  | [], _ :: _, h, _ => by simp at h
  | _ :: _, [], h, _ => by simp at h
  | (k, o) :: kids, t :: inside, h, hk => by
    simp only [List.map_cons, List.cons.injEq] at h ⊢
    exact ⟨hP _ _ (hk ((k, o), t) (by simp)), kids_labels hP kids inside h.2 fun p hp => hk p (by simp [hp])⟩

theorem members_known {P : Shelf → DtsShelf → Prop} (hP : ∀ t o, P t o → o.label = t.label) (net : DtsCatalogue) (query : List (Str × List Str)) (fuel : Nat)
    (log : List (List (Str × List Str))) {t : Shelf} {o : DtsShelf} (h : Known P t o) :
    ∃ o' ms, o.members net query fuel log = some (log, o', .ok ms) ∧ Known P t o' ∧ o'.coll.kids = o.coll.kids ∧ ms.map DtsShelf.label = t.inside.map Shelf.label := by
  refine ⟨.mk o.readable { o.coll with log := log, kidsProxy := false }, _, ?_, ⟨h.label, h.flag, h.names, h.kids⟩, rfl, kids_labels hP _ _ h.names h.kids⟩
  simp only [DtsShelf.members, read_known _ query fuel ({ o.coll with log := log } : RemoteColl DtsShelf) h.flag]

/-- The members that are given are those that the object holds. -/
theorem members_kids {net : DtsCatalogue} {query : List (Str × List Str)} {fuel : Nat} {log log' : List (List (Str × List Str))} {o o' : DtsShelf} {ms : List DtsShelf}
    (h : o.members net query fuel log = some (log', o', .ok ms)) : ms = o'.coll.kids.map (·.2) := by
  unfold DtsShelf.members at h
  have key : ∀ (s c : RemoteColl DtsShelf) d serve, s.read serve query fuel .iterKids = some (c, .ok (.dict d)) → d = c.kids := by
    intro s c d serve hr
    simp only [RemoteColl.read] at hr
    split at hr
    · split at hr <;> cases hr
      rfl
    · cases hr; rfl
  split at h
  · cases h
  · cases h
  · rename_i c d hr
    simp only [Option.some.injEq, Prod.mk.injEq, Except.ok.injEq] at h
    obtain ⟨_, rfl, rfl⟩ := h
    rw [key _ _ _ _ hr]; rfl
  · cases h

theorem zip_map_self {α β : Type} (f : α → β) (l : List α) : ∀ p ∈ (l.map f).zip l, p.1 = f p.2 := by
  induction l with
  | nil => simp
  | cons a l ih =>
    intro p hp
    simp only [List.map_cons, List.zip_cons_cons, List.mem_cons] at hp
    rcases hp with rfl | hp
    · rfl
    · exact ih p hp

theorem members_unread {net : DtsCatalogue} {query : List (Str × List Str)} {t : Shelf} (h : Offers net query t) (fuel : Nat) (hf : t.pages.length ≤ fuel)
    (log : List (List (Str × List Str))) {o : DtsShelf} (ho : Unread t o) :
    ∃ o' ms, o.members net query fuel log = some (log ++ t.ownRequests query, o', .ok ms) ∧ Known Unread t o' ∧ ms.map DtsShelf.label = t.inside.map Shelf.label ∧
      (t.items ≠ 0 → o'.coll.kids = t.inside.map fun s => (s.id, freshObj (some t.id) s.entry)) := by
  cases h with
  | @mk id items resource pages inside h1 h2 h3 h4 =>
    have hid : o.coll.id = id := congrArg Prod.fst ho.label
    by_cases hz : items = 0
    · obtain ⟨rfl, rfl⟩ := h1 hz
      have hk : o.coll.kids = [] := by
        have := ho.first
        simp only [Shelf.inside, List.map_nil, List.prefix_nil, List.map_eq_nil_iff] at this
        exact this
      refine ⟨.mk o.readable { o.coll with log := log, kidsProxy := false, parsedKids := true }, o.coll.kids.map (·.2), ?_, ⟨ho.label, rfl, ?_, ?_⟩, ?_, fun hn => absurd hz hn⟩
      · have hs : o.coll.size = 0 := by rw [ho.size]; exact hz
        simp only [DtsShelf.members, read_empty _ query fuel ({ o.coll with log := log } : RemoteColl DtsShelf) hs, Shelf.ownRequests, Shelf.pages, List.map_nil, List.append_nil]
      · simp [DtsShelf.coll, hk, Shelf.inside]; exact hk
      · simp [Shelf.inside]
      · simp [hk, Shelf.inside]
    · obtain ⟨chain, hc, hp, hm⟩ := h2 hz
      have hmem : ∀ p ∈ chainMembers chain, ∃ s ∈ inside, p.2 = s.entry := by
        intro p hp
        have : p.2 ∈ (chainMembers chain).map (·.2) := List.mem_map_of_mem hp
        rw [hm] at this
        obtain ⟨s, hs, e⟩ := List.mem_map.mp this
        exact ⟨s, hs, e.symm⟩
      obtain ⟨chain', c1, c2, c3⟩ := chain_parsed hc (fun p hp => by obtain ⟨s, _, e⟩ := hmem p hp; rw [e]; rfl)
      have hall : chainMembers chain' = inside.map fun s => (s.id, freshObj (some id) s.entry) := by
        rw [c3, show ((chainMembers chain).map fun p => (p.2.id, freshObj (some id) p.2)) = ((chainMembers chain).map (·.2)).map fun e => (e.id, freshObj (some id) e) by
          rw [List.map_map]; rfl, hm, List.map_map]
        rfl
      have hkeys : (chainMembers chain').map (·.1) = inside.map Shelf.id := by rw [hall, List.map_map]; rfl
      obtain ⟨f1, f2, f3⟩ := ho.flags hz
      have hnk : (o.coll.kids.map (·.1)).Nodup := by
        obtain ⟨r, hr⟩ := ho.first
        have : (o.coll.kids.map (·.1) ++ r).Nodup := by rw [hr]; exact h3
        exact (List.nodup_append.mp this).1
      have hover : updateKeys o.coll.kids (chainMembers chain') = chainMembers chain' :=
        updateKeys_over _ _ (by rw [hkeys]; exact h3) (by rw [hkeys]; exact ho.first)
      subst hid
      obtain ⟨m, hr⟩ := read_unread (serve := net.pages o.coll.id .children) (query := query) (chain := chain') ({ o.coll with log := log } : RemoteColl DtsShelf) c1 fuel
        (by
          have : chain'.length = pages.length := by rw [← hp, ← List.length_map (as := chain'), c2, List.length_map]
          rw [this]; exact hf) (by rw [show ({ o.coll with log := log } : RemoteColl DtsShelf).size = o.coll.size from rfl, ho.size]; exact hz) f1 f2 ho.folks f3 hnk
      have hreq : (chain'.map fun c => collRequest query o.coll.id .children c.1) = Shelf.ownRequests query (.mk o.coll.id items resource pages inside) := by
        rw [show (chain'.map fun c => collRequest query o.coll.id .children c.1) = (chain'.map (·.1)).map fun n => collRequest query o.coll.id .children n by
          rw [List.map_map]; rfl, c2, hp]
        rfl
      rw [hover] at hr
      have hkids : Known Unread (.mk o.coll.id items resource pages inside) (.mk o.readable { o.coll with
          kids := chainMembers chain', parsedKids := true, lastKids := some m, log := log ++ Shelf.ownRequests query (.mk o.coll.id items resource pages inside) }) := by
        refine ⟨ho.label, rfl, hkeys, fun p hp => ?_⟩
        rw [show (DtsShelf.mk o.readable { o.coll with
          kids := chainMembers chain', parsedKids := true, lastKids := some m, log := log ++ Shelf.ownRequests query (.mk o.coll.id items resource pages inside) }).coll.kids
          = inside.map fun s => (s.id, freshObj (some o.coll.id) s.entry) from hall] at hp
        rw [zip_map_self _ _ p hp]
        exact freshObj_unread _ _
      refine ⟨_, _, ?_, hkids, kids_labels (fun _ _ h => h.label) _ _ hkids.names hkids.kids, fun _ => hall⟩
      simp only [DtsShelf.members]
      rw [hr]
      simp only [hreq]
      rfl

/-! ## Descendants -/

theorem requestsAll_flatMap (query : List (Str × List Str)) (l : List Shelf) : requestsAll query l = l.flatMap (Shelf.requests query) := by
  induction l with
  | nil => simp [requestsAll]
  | cons t l ih => simp [requestsAll, ih]

theorem eachKid_of {P : Shelf → DtsShelf → Prop} {r : Shelf → List (List (Str × List Str))}
    {f : List (List (Str × List Str)) → DtsShelf → Option (List (List (Str × List Str)) × DtsShelf × Except PyErr (List (Str × Bool)))} :
    ∀ (kids : List (Str × DtsShelf)) (inside : List Shelf) (log : List (List (Str × List Str))), kids.map (·.1) = inside.map Shelf.id → (∀ p ∈ kids.zip inside, P p.2 p.1.2) →
      (∀ t ∈ inside, ∀ log o, P t o → ∃ o', f log o = some (log ++ r t, o', .ok t.under) ∧ Complete t o') →
      ∃ kids', eachKid f log kids = some (log ++ inside.flatMap r, kids', .ok (underAll inside)) ∧ kids'.map (·.1) = inside.map Shelf.id ∧
        ∀ p ∈ kids'.zip inside, Complete p.2 p.1.2
  | [], [], log, _, _, _ => ⟨[], by simp [eachKid, underAll], rfl, by simp⟩
  | [], _ :: _, _, h, _, _ => by simp at h
  | _ :: _, [], _, h, _, _ => by simp at h
  | (k, o) :: kids, t :: inside, log, h, hk, hf => by
    simp only [List.map_cons, List.cons.injEq] at h
    obtain ⟨o', e, hc⟩ := hf t (by simp) log o (hk ((k, o), t) (by simp))
    obtain ⟨kids', e', hn, hc'⟩ := eachKid_of kids inside (log ++ r t) h.2 (fun p hp => hk p (by simp [hp])) (fun t ht => hf t (by simp [ht]))
    refine ⟨(k, o') :: kids', ?_, by simp [h.1, hn], ?_⟩
    · simp only [eachKid, e, e', List.flatMap_cons, List.append_assoc, underAll]
    · intro p hp
      simp only [List.zip_cons_cons, List.mem_cons] at hp
      rcases hp with rfl | hp
      · exact hc
      · exact hc' p hp

/-- Once the members are read, the descendants are those of each. -/
theorem descendants_step {P : Shelf → DtsShelf → Prop} (hP : ∀ t o, P t o → o.label = t.label) {r : Shelf → List (List (Str × List Str))} (net : DtsCatalogue)
    (query : List (Str × List Str)) (fuel depth : Nat) {t : Shelf} {o o1 : DtsShelf} {log log1 : List (List (Str × List Str))} {ms : List DtsShelf}
    (hm : o.members net query fuel log = some (log1, o1, .ok ms)) (h1 : Known P t o1) (hms : ms.map DtsShelf.label = t.inside.map Shelf.label)
    (hf : ∀ s ∈ t.inside, ∀ log o, P s o → ∃ o', o.descendants net query fuel depth log = some (log ++ r s, o', .ok s.under) ∧ Complete s o') :
    ∃ o', o.descendants net query fuel (depth + 1) log = some (log1 ++ t.inside.flatMap r, o', .ok t.under) ∧ Complete t o' := by
  obtain ⟨o2, ms2, e2, h2, hk, _⟩ := members_known hP net query fuel log1 h1
  obtain ⟨kids', e3, hn, hc⟩ := eachKid_of o2.coll.kids t.inside log1 h2.names h2.kids hf
  refine ⟨.mk o2.readable { o2.coll with kids := kids' }, ?_, .mk h2.label h2.flag hn hc⟩
  have hu : t.under = t.inside.map Shelf.label ++ underAll t.inside := by cases t; rw [Shelf.under]; rfl
  simp only [DtsShelf.descendants, hm, e2, e3, hms, hu]

theorem common_bound {P : Shelf → Nat → Prop} (hmono : ∀ t b b', b ≤ b' → P t b → P t b') : ∀ (l : List Shelf), (∀ t ∈ l, ∃ b, P t b) → ∃ b, ∀ t ∈ l, P t b
  | [], _ => ⟨0, by simp⟩
  | t :: l, h => by
    obtain ⟨b1, h1⟩ := h t (by simp)
    obtain ⟨b2, h2⟩ := common_bound hmono l (fun t ht => h t (by simp [ht]))
    refine ⟨max b1 b2, fun s hs => ?_⟩
    rcases List.mem_cons.mp hs with rfl | hs
    · exact hmono _ _ _ (Nat.le_max_left ..) h1
    · exact hmono _ _ _ (Nat.le_max_right ..) (h2 s hs)

/-- From some bounds on, the descendants of an unread object of a collection are all below it. -/
def Reads (net : DtsCatalogue) (query : List (Str × List Str)) (t : Shelf) (b : Nat) : Prop :=
  ∀ fuel depth, b ≤ fuel → b ≤ depth → ∀ log o, Unread t o →
    ∃ o', o.descendants net query fuel depth log = some (log ++ t.requests query, o', .ok t.under) ∧ Complete t o'

theorem reads_of_offers {net : DtsCatalogue} {query : List (Str × List Str)} {t : Shelf} (h : Offers net query t) : ∃ b, Reads net query t b := by
  have h0 := h
  induction h with
  | @mk id items resource pages inside h1 h2 h3 h4 ih =>
    obtain ⟨b, hb⟩ := common_bound (P := Reads net query) (fun t b b' hle h fuel depth hf hd => h fuel depth (by omega) (by omega)) inside (fun t ht => ih t ht (h4 t ht))
    refine ⟨max (b + 1) pages.length, fun fuel depth hf hd log o ho => ?_⟩
    obtain ⟨d, rfl⟩ : ∃ d, depth = d + 1 := ⟨depth - 1, by omega⟩
    obtain ⟨o1, ms, e1, k1, hms, _⟩ := members_unread h0 fuel (by show pages.length ≤ fuel; omega) log ho
    obtain ⟨o', e, hc⟩ := descendants_step (fun _ _ h => Unread.label h) (r := Shelf.requests query) net query fuel d e1 k1 hms
      (fun s hs log o hu => hb s hs fuel d (by omega) (by omega) log o hu)
    refine ⟨o', ?_, hc⟩
    rw [e]
    simp only [Shelf.requests, requestsAll_flatMap, List.append_assoc]
    rfl

/-- From some depth on, the descendants of what was read are the same, whatever the endpoint, and without a request. -/
def Rereads (t : Shelf) (b : Nat) : Prop :=
  ∀ (net : DtsCatalogue) (query : List (Str × List Str)) (fuel depth : Nat), b ≤ depth → ∀ log o, Complete t o →
    ∃ o', o.descendants net query fuel depth log = some (log, o', .ok t.under) ∧ Complete t o'

theorem rereads_of_offers {net : DtsCatalogue} {query : List (Str × List Str)} {t : Shelf} (h : Offers net query t) : ∃ b, Rereads t b := by
  induction h with
  | @mk id items resource pages inside h1 h2 h3 h4 ih =>
    obtain ⟨b, hb⟩ := common_bound (P := Rereads) (fun t b b' hle h net query fuel depth hd => h net query fuel depth (by omega)) inside ih
    refine ⟨b + 1, fun net query fuel depth hd log o ho => ?_⟩
    obtain ⟨d, rfl⟩ : ∃ d, depth = d + 1 := ⟨depth - 1, by omega⟩
    have hl : ∀ t o, Complete t o → o.label = t.label := fun _ _ h => h.known.label
    obtain ⟨o1, ms, e1, k1, _, hms⟩ := members_known hl net query fuel log ho.known
    obtain ⟨o', e, hc⟩ := descendants_step hl (r := fun _ => []) net query fuel d e1 k1 hms
      (fun s hs log o hu => by
        obtain ⟨o', e, hc⟩ := hb s hs net query fuel d (by omega) log o hu
        exact ⟨o', by rw [e, List.append_nil], hc⟩)
    exact ⟨o', by rw [e]; simp, hc⟩

end Verif.Lemmas
