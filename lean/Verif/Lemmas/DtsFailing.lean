import Verif.Lemmas.DtsBrowse
/-! Lemmas on trees of remote DTS collections whose endpoint fails at times. -/
namespace Verif.Lemmas
open Verif.Py Verif.Model Verif.Spec

variable {γ : Type}

theorem mem_setKey (k : Str) (v : γ) (p : Str × γ) : ∀ (d : List (Str × γ)), (d.map (·.1)).Nodup → p ∈ setKey d k v → p = (k, v) ∨ (p ∈ d ∧ p.1 ≠ k)
  | [], _, h => by simp only [setKey, List.mem_singleton] at h; exact .inl h
  | (a, b) :: d, hn, h => by
    rw [List.map_cons, List.nodup_cons] at hn
    rw [setKey] at h
    split at h
    · rename_i hk
      rcases List.mem_cons.mp h with rfl | h
      · exact .inl rfl
      · refine .inr ⟨List.mem_cons_of_mem _ h, fun e => hn.1 ?_⟩
        show a ∈ _
        rw [hk, ← e]; exact List.mem_map_of_mem h
    · rename_i hk
      rcases List.mem_cons.mp h with rfl | h
      · exact .inr ⟨List.mem_cons_self .., hk⟩
      · rcases mem_setKey k v p d hn.2 h with h | ⟨h, h'⟩
        · exact .inl h
        · exact .inr ⟨List.mem_cons_of_mem _ h, h'⟩

theorem mem_updateKeys (p : Str × γ) : ∀ (l d : List (Str × γ)), (d.map (·.1)).Nodup → p ∈ updateKeys d l → p ∈ l ∨ (p ∈ d ∧ p.1 ∉ l.map (·.1))
  | [], d, _, h => .inr ⟨h, by simp⟩
  | (a, b) :: l, d, hn, h => by
    have hn' : ((setKey d a b).map (·.1)).Nodup := by
      rw [keys_setKey]
      split
      · exact hn
      · rename_i h'
        rw [List.nodup_append]
        exact ⟨hn, by simp, fun x hx y hy e => by rw [List.mem_singleton] at hy; subst hy; subst e; exact h' hx⟩
    rcases mem_updateKeys p l (setKey d a b) hn' h with h | ⟨h, h'⟩
    · exact .inl (List.mem_cons_of_mem _ h)
    · rcases mem_setKey a b p d hn h with rfl | ⟨h, h''⟩
      · exact .inl (List.mem_cons_self ..)
      · exact .inr ⟨h, by simp only [List.map_cons, List.mem_cons, not_or]; exact ⟨h'', h'⟩⟩

/-- A dictionary that holds the first names of a list takes the next ones. -/
theorem addKeys_between {ks done m r : List Str} (hn : (done ++ m ++ r).Nodup) (h1 : done <+: ks) (h2 : ks <+: done ++ m ++ r) :
    done ++ m <+: addKeys ks m ∧ addKeys ks m <+: done ++ m ++ r := by
  rcases List.prefix_or_prefix_of_prefix h2 (List.prefix_append (done ++ m) r) with h | h
  · obtain ⟨m1, rfl⟩ := h1
    obtain ⟨m2, e⟩ := h
    rw [List.append_assoc] at e
    obtain rfl : m1 ++ m2 = m := List.append_cancel_left e
    have : addKeys (done ++ m1) (m1 ++ m2) = done ++ (m1 ++ m2) := by
      rw [show addKeys (done ++ m1) (m1 ++ m2) = addKeys (addKeys (done ++ m1) m1) m2 from List.foldl_append,
        addKeys_of_mem m1 (done ++ m1) (fun x hx => List.mem_append_right _ hx), addKeys_append_new m2 (done ++ m1) ?_, List.append_assoc]
      rw [List.append_assoc]
      exact (List.nodup_append.mp hn).1
    rw [this]
    exact ⟨List.prefix_rfl, List.prefix_append ..⟩
  · have : addKeys ks m = ks := addKeys_of_mem _ _ fun x hx => h.subset (by simp [hx])
    rw [this]; exact ⟨h, h2⟩

theorem page_failing {serve net : DtsCatalogue} {query : List (Str × List Str)} {id : Str} {n : Nat} {pg : CollPage DtsEntry} (hf : Truthful serve net)
    (h : listingOf net query id n = .ok pg) (hn : ∀ p ∈ pg.members, p.2.nested = false) :
    (∃ e, serve.pages id .children (collRequest query id .children n) = .error e ∧ Fails serve net e) ∨
      serve.pages id .children (collRequest query id .children n) = .ok ⟨pg.members.map fun p => (p.2.id, freshObj (some id) p.2), pg.view⟩ := by
  unfold listingOf at h
  cases hs : serve (collRequest query id .children n) with
  | error e =>
    refine .inl ⟨e, by simp only [DtsCatalogue.pages, hs], collRequest query id .children n, ?_⟩
    cases hr : net (collRequest query id .children n) with
    | error e => rw [hr] at h; cases h
    | ok a => exact ⟨a, hs, rfl⟩
  | ok a =>
    rw [hf _ _ hs] at h
    simp only [fmap_ok, Except.ok.injEq] at h
    subst h
    refine .inr ?_
    simp only [DtsCatalogue.pages, hs, DtsListing.page, if_true]
    rw [parseDtsMembers_plain _ _ (fun e he => hn (e.id, e) (List.mem_map_of_mem he))]
    simp [DtsListing.raw, List.map_map, Function.comp_def]

/-- The names in the pages of a chain. -/
def namesOf (chain : List (Nat × CollPage DtsEntry)) : List Str := (chainMembers chain).map fun p => p.2.id

/-- How far the listing of a collection was read: the members named `done` are there, and the next page to be read is the first of `suffix`. -/
structure Position (net : DtsCatalogue) (query : List (Str × List Str)) (id : Str) (ids : List Str) (entries : List DtsEntry) (kids : List Str) (last : Option Nat)
    (done : List Str) (len start : Nat) (suffix : List (Nat × CollPage DtsEntry)) : Prop where
  chain : CollChain (listingOf net query id) start suffix
  proper : start ≠ 0
  length : suffix.length ≤ len
  next : (last = none ∧ start = 1) ∨ last = some start
  rest : done ++ namesOf suffix = ids
  entry : ∀ p ∈ chainMembers suffix, p.2 ∈ entries
  lower : done <+: kids
  upper : kids <+: ids

theorem crawl_failing {serve net : DtsCatalogue} {query : List (Str × List Str)} {id : Str} {ids : List Str} {entries : List DtsEntry} (hids : ids.Nodup)
    (hplain : ∀ e ∈ entries, e.nested = false) (hf : Truthful serve net) {Q : Str → DtsShelf → Prop} (hQ : ∀ e ∈ entries, Q e.id (freshObj (some id) e))
    {n : Nat} {suffix : List (Nat × CollPage DtsEntry)} (hc : CollChain (listingOf net query id) n suffix) :
    n ≠ 0 → ∀ (fuel : Nat) (s : RemoteColl DtsShelf) (done : List Str), suffix.length ≤ fuel → s.id = id → s.size ≠ 0 → s.parsedKids = false →
      done ++ namesOf suffix = ids → (∀ p ∈ chainMembers suffix, p.2 ∈ entries) → done <+: s.kids.map (·.1) → s.kids.map (·.1) <+: ids →
      (∀ p ∈ s.kids, p.1 ∈ done → Q p.1 p.2) →
      ∃ s' out, crawl (serve.pages id .children) query .children fuel n s = some (s', out) ∧ s'.id = id ∧ s'.size = s.size ∧ s'.parsedFolks = s.parsedFolks ∧
        s'.kidsProxy = s.kidsProxy ∧
        ((out = .ok () ∧ s'.parsedKids = true ∧ s'.kids.map (·.1) = ids ∧ ∀ p ∈ s'.kids, Q p.1 p.2) ∨
         (∃ e, out = .error e ∧ Fails serve net e ∧ s'.parsedKids = false ∧
          ((s'.kids = s.kids ∧ s'.lastKids = s.lastKids) ∨
           ∃ done' start suffix', Position net query id ids entries (s'.kids.map (·.1)) s'.lastKids done' suffix.length start suffix' ∧ ∀ p ∈ s'.kids, p.1 ∈ done' → Q p.1 p.2))) := by
  induction hc with
  | @last n pg h1 h2 =>
    intro hn fuel s done hfu hid hs hp hrest hent hlo hup hq
    obtain ⟨f, rfl⟩ : ∃ f, fuel = f + 1 := ⟨fuel - 1, by simp at hfu; omega⟩
    subst hid
    have hmem : ∀ p ∈ pg.members, p.2 ∈ entries := fun p hp => hent p (by simpa [chainMembers] using hp)
    have hnk : (s.kids.map (·.1)).Nodup := List.Sublist.nodup hup.sublist hids
    rw [crawl, if_neg hn]
    rcases page_failing hf h1 (fun p hp => hplain _ (hmem p hp)) with ⟨e, he, hfail⟩ | hok
    · simp only [he]
      exact ⟨_, _, rfl, rfl, rfl, rfl, rfl, .inr ⟨e, rfl, hfail, hp, .inl ⟨rfl, rfl⟩⟩⟩
    · have hab := absorb_page { s with log := s.log ++ [collRequest query s.id .children n] } n ⟨pg.members.map fun p => (p.2.id, freshObj (some s.id) p.2), pg.view⟩ hp hs hnk
      have hnames : ((pg.members.map fun p => (p.2.id, freshObj (some s.id) p.2)).map (·.1)) = namesOf [(n, pg)] := by simp [namesOf, chainMembers, List.map_map, Function.comp_def]
      have hk : (updateKeys s.kids (pg.members.map fun p => (p.2.id, freshObj (some s.id) p.2))).map (·.1) = ids := by
        rw [keys_updateKeys, hnames]
        obtain ⟨b1, b2⟩ := addKeys_between (ks := s.kids.map (·.1)) (done := done) (m := namesOf [(n, pg)]) (r := []) (by rw [List.append_nil, hrest]; exact hids) hlo
          (by rw [List.append_nil, hrest]; exact hup)
        rw [List.append_nil] at b2
        rw [← hrest]
        exact (b2.eq_of_length_le b1.length_le)
      have hq' : ∀ p ∈ updateKeys s.kids (pg.members.map fun p => (p.2.id, freshObj (some s.id) p.2)), Q p.1 p.2 := by
        intro p hp
        rcases mem_updateKeys p _ _ hnk hp with h | ⟨h, h'⟩
        · obtain ⟨x, hx, rfl⟩ := List.mem_map.mp h
          exact hQ _ (hmem x hx)
        · refine hq p h ?_
          have hi : p.1 ∈ ids := hup.subset (List.mem_map_of_mem h)
          rw [← hrest, ← hnames] at hi
          exact (List.mem_append.mp hi).resolve_right h'
      rcases h2 with h2 | h2 <;> rw [h2] at hok hab <;> simp only [hok, hab, RemoteColl.markParsed] <;>
        exact ⟨_, _, rfl, rfl, rfl, rfl, rfl, .inl ⟨rfl, rfl, hk, hq'⟩⟩
  | @step n pg link p rest h1 h2 h3 h4 h5 ih =>
    intro hn fuel s done hfu hid hs hp hrest hent hlo hup hq
    obtain ⟨f, rfl⟩ : ∃ f, fuel = f + 1 := ⟨fuel - 1, by simp at hfu; omega⟩
    subst hid
    have hmem : ∀ p ∈ pg.members, p.2 ∈ entries := fun p hp => hent p (by simp only [chainMembers, List.flatMap_cons, List.mem_append]; exact .inl hp)
    have hnk : (s.kids.map (·.1)).Nodup := List.Sublist.nodup hup.sublist hids
    rw [crawl, if_neg hn]
    rcases page_failing hf h1 (fun p hp => hplain _ (hmem p hp)) with ⟨e, he, hfail⟩ | hok
    · simp only [he]
      exact ⟨_, _, rfl, rfl, rfl, rfl, rfl, .inr ⟨e, rfl, hfail, hp, .inl ⟨rfl, rfl⟩⟩⟩
    · have hab := absorb_page { s with log := s.log ++ [collRequest query s.id .children n] } n ⟨pg.members.map fun p => (p.2.id, freshObj (some s.id) p.2), pg.view⟩ hp hs hnk
      have hnames : ((pg.members.map fun p => (p.2.id, freshObj (some s.id) p.2)).map (·.1)) = namesOf [(n, pg)] := by simp [namesOf, chainMembers, List.map_map, Function.comp_def]
      have hsplit : namesOf ((n, pg) :: rest) = namesOf [(n, pg)] ++ namesOf rest := by simp [namesOf, chainMembers]
      have hflag : decide ((pg.members.map fun p => (p.2.id, freshObj (some s.id) p.2)) ≠ [] ∧ pg.view = none) = false := by simp [h2]
      simp only at hab
      rw [hflag] at hab
      rw [hsplit, ← List.append_assoc] at hrest
      obtain ⟨b1, b2⟩ := addKeys_between (ks := s.kids.map (·.1)) (done := done) (m := namesOf [(n, pg)]) (r := namesOf rest) (by rw [hrest]; exact hids) hlo
        (by rw [hrest]; exact hup)
      have hkeys : (updateKeys s.kids (pg.members.map fun p => (p.2.id, freshObj (some s.id) p.2))).map (·.1) = addKeys (s.kids.map (·.1)) (namesOf [(n, pg)]) := by
        rw [keys_updateKeys, hnames]
      have hq' : ∀ p ∈ updateKeys s.kids (pg.members.map fun p => (p.2.id, freshObj (some s.id) p.2)), p.1 ∈ done ++ namesOf [(n, pg)] → Q p.1 p.2 := by
        intro p hp hd
        rcases mem_updateKeys p _ _ hnk hp with h | ⟨h, h'⟩
        · obtain ⟨x, hx, rfl⟩ := List.mem_map.mp h
          exact hQ _ (hmem x hx)
        · rw [hnames] at h'
          exact hq p h ((List.mem_append.mp hd).resolve_right h')
      obtain ⟨s', out, e, i1, i2, i3, i4, i5⟩ := ih h4 f
        ({ s with parsedKids := false, kids := updateKeys s.kids (pg.members.map fun p => (p.2.id, freshObj (some s.id) p.2)), lastKids := some n,
                  log := s.log ++ [collRequest query s.id .children n] }) (done ++ namesOf [(n, pg)])
        (by simpa using hfu) rfl hs rfl hrest (fun p hp => hent p (by simp only [chainMembers, List.flatMap_cons, List.mem_append]; exact .inr hp))
        (by rw [hkeys]; exact b1) (by rw [hkeys, ← hrest]; exact b2) hq'
      rw [h2] at hok hab
      simp only [hok, hab, (regexPage_iff _ _).mpr h3]
      refine ⟨s', out, e, i1, i2, i3, i4, ?_⟩
      rcases i5 with i5 | ⟨x, j1, j2, j3, j4⟩
      · exact .inl i5
      · refine .inr ⟨x, j1, j2, j3, .inr ?_⟩
        rcases j4 with ⟨j4, j5⟩ | ⟨done', start, suffix', hpos, hqq⟩
        · refine ⟨done, n, (n, pg) :: rest, ⟨.step h1 h2 h3 h4 h5, hn, Nat.le_refl _, .inr j5, ?_, hent, ?_, ?_⟩, ?_⟩
          · rw [hsplit, ← List.append_assoc, hrest]
          · rw [j4, hkeys]; exact (List.prefix_append ..).trans b1
          · rw [j4, hkeys, ← hrest]; exact b2
          · intro p hp hd
            rw [j4] at hp
            exact hq' p hp (by simp [hd])
        · exact ⟨done', start, suffix', { hpos with length := by have := hpos.length; simp; omega }, hqq⟩

/-! ## Objects of which some was read, with failures -/

theorem eq_of_nodup_map {α β : Type} (f : α → β) : ∀ (l : List α), (l.map f).Nodup → ∀ a ∈ l, ∀ b ∈ l, f a = f b → a = b
  | [], _, a, ha => by simp at ha
  | x :: l, h, a, ha => by
    intro b hb e
    rw [List.map_cons, List.nodup_cons] at h
    rcases List.mem_cons.mp ha with rfl | ha' <;> rcases List.mem_cons.mp hb with rfl | hb'
    · rfl
    · exact absurd (e ▸ List.mem_map_of_mem hb') h.1
    · exact absurd (e ▸ List.mem_map_of_mem ha') h.1
    · exact eq_of_nodup_map f l h.2 a ha' b hb' e

theorem read_run {serve : List (Str × List Str) → Except PyErr (CollPage γ)} {query : List (Str × List Str)} {fuel : Nat} {s s' : RemoteColl γ} {out : Except PyErr Unit}
    (hp : s.parsedKids = false) (hz : s.size ≠ 0) (hx : s.kidsProxy = true) (hfo : s.parsedFolks = false) (h : parsePaginated serve query fuel .children s = some (s', out)) :
    s.read serve query fuel .iterKids = some (s', (fun _ => .dict s'.kids) <$> out) := by
  have ht : s.touchKids = s := by rw [RemoteColl.touchKids, if_pos hp, if_pos hz]
  rw [RemoteColl.read]
  simp only [ht, hx, if_true, runProxy, hfo, Bool.false_eq_true, if_false, h]
  cases out <;> rfl

/-- The object of a collection of which some was read: the members named `done`, in turn, are such objects. -/
inductive Sound (net : DtsCatalogue) (query : List (Str × List Str)) : Shelf → DtsShelf → Prop where
  | mk {t : Shelf} {o : DtsShelf} (done : List Str) : o.label = t.label → o.coll.size = t.items → o.coll.parsedFolks = false →
    (∀ p ∈ o.coll.kids, p.1 ∈ done → ∀ s ∈ t.inside, s.id = p.1 → Sound net query s p.2) →
    (o.coll.parsedKids = true → done = t.inside.map Shelf.id ∧ o.coll.kids.map (·.1) = t.inside.map Shelf.id) →
    (o.coll.parsedKids = false → t.items ≠ 0 → o.coll.kidsProxy = true ∧ ∃ start suffix,
      Position net query t.id (t.inside.map Shelf.id) (t.inside.map Shelf.entry) (o.coll.kids.map (·.1)) o.coll.lastKids done t.pages.length start suffix) →
    (t.items = 0 → o.coll.kids = []) →
    Sound net query t o

theorem sound_label {net : DtsCatalogue} {query : List (Str × List Str)} {t : Shelf} {o : DtsShelf} (h : Sound net query t o) : o.label = t.label := by
  cases h with
  | mk _ h => exact h

theorem sound_unread {net : DtsCatalogue} {query : List (Str × List Str)} {t : Shelf} (hof : Offers net query t) {o : DtsShelf} (h : Unread t o) : Sound net query t o := by
  by_cases hz : t.items = 0
  · have hin : t.inside = [] := by
      cases hof with
      | mk h1 _ _ _ => exact (h1 hz).2
    have hk : o.coll.kids = [] := by have := h.first; rw [hin] at this; simpa using this
    refine .mk [] h.label h.size h.folks (by simp) (fun _ => by simp [hin, hk]) (fun _ hn => absurd hz hn) (fun _ => hk)
  · obtain ⟨f1, f2, f3⟩ := h.flags hz
    refine .mk [] h.label h.size h.folks (by simp) (fun hp => by rw [f1] at hp; cases hp) (fun _ _ => ⟨f2, 1, ?_⟩) (fun e => absurd e hz)
    cases hof with
    | @mk id items resource pages inside h1 h2 h3 h4 =>
      obtain ⟨chain, hc, hp, hm⟩ := h2 hz
      refine ⟨chain, ⟨hc, by decide, by show chain.length ≤ pages.length; rw [← hp, List.length_map]; exact Nat.le_refl _, .inl ⟨f3, rfl⟩, ?_, ?_, List.nil_prefix, h.first⟩⟩
      · show [] ++ (chainMembers chain).map (fun p => p.2.id) = inside.map Shelf.id
        rw [List.nil_append, show ((chainMembers chain).map fun p => p.2.id) = ((chainMembers chain).map (·.2)).map DtsEntry.id by rw [List.map_map]; rfl, hm, List.map_map]
        rfl
      · intro p hp
        show p.2 ∈ inside.map Shelf.entry
        rw [← hm]; exact List.mem_map_of_mem hp

theorem zip_names : ∀ (l : List (Str × DtsShelf)) (m : List Shelf), l.map (·.1) = m.map Shelf.id → ∀ p ∈ l.zip m, p.2.id = p.1.1
  | [], m, _, p, hp => by simp at hp
  | _ :: _, [], _, p, hp => by simp at hp
  | a :: l, b :: m, hm, p, hp => by
    simp only [List.map_cons, List.cons.injEq] at hm
    rcases List.mem_cons.mp hp with rfl | hp
    · exact hm.1.symm
    · exact zip_names l m hm.2 p hp

theorem mem_zip_names : ∀ (l : List (Str × DtsShelf)) (m : List Shelf), l.map (·.1) = m.map Shelf.id → ∀ p ∈ l, ∃ s, (p, s) ∈ l.zip m
  | [], _, _, p, hp => by simp at hp
  | _ :: _, [], h, _, _ => by simp at h
  | a :: l, b :: m, hm, p, hp => by
    simp only [List.map_cons, List.cons.injEq] at hm
    rcases List.mem_cons.mp hp with rfl | hp
    · exact ⟨b, by simp⟩
    · obtain ⟨s, hs⟩ := mem_zip_names l m hm.2 p hp
      exact ⟨s, List.mem_cons_of_mem _ hs⟩

theorem sound_known {net : DtsCatalogue} {query : List (Str × List Str)} {t : Shelf} (hof : Offers net query t) {o : DtsShelf} (h : Known Unread t o) (hsize : o.coll.size = t.items)
    (hfolks : o.coll.parsedFolks = false) : Sound net query t o := by
  have hin : ∀ s ∈ t.inside, Offers net query s := by
    cases hof with
    | mk _ _ _ h4 => exact h4
  have hnd : (t.inside.map Shelf.id).Nodup := by
    cases hof with
    | mk _ _ h3 _ => exact h3
  refine .mk (t.inside.map Shelf.id) h.label hsize hfolks (fun p hp _ s hs hn => ?_) (fun _ => ⟨rfl, h.names⟩) (fun hp => ?_) (fun hz => ?_)
  · obtain ⟨s', hs'⟩ := mem_zip_names _ _ h.names p hp
    have : s' = s := eq_of_nodup_map Shelf.id _ hnd _ (List.of_mem_zip hs').2 _ hs ((zip_names _ _ h.names _ hs').trans hn.symm)
    subst this
    exact sound_unread (hin _ hs) (h.kids _ hs')
  · rw [h.flag] at hp; cases hp
  · have : t.inside = [] := by
      cases hof with
      | mk h1 _ _ _ => exact (h1 hz).2
    have hk := h.names
    rw [this] at hk
    simpa using hk

theorem members_failing {net serve : DtsCatalogue} {query : List (Str × List Str)} {t : Shelf} (hof : Offers net query t) (hf : Truthful serve net) (fuel : Nat)
    (hfu : t.pages.length ≤ fuel) (log : List (List (Str × List Str))) {o : DtsShelf} (h : Sound net query t o) :
    ∃ log' o' out, o.members serve query fuel log = some (log', o', out) ∧ Sound net query t o' ∧
      ((∃ ms, out = .ok ms ∧ o'.coll.parsedKids = true) ∨ ∃ e, out = .error e ∧ Fails serve net e) := by
  have h0 := h
  cases h with
  | mk done g1 g2 g3 g4 g5 g6 g7 =>
    have hid : o.coll.id = t.id := congrArg Prod.fst g1
    cases hp : o.coll.parsedKids with
    | true =>
      refine ⟨log, .mk o.readable { o.coll with log := log, kidsProxy := false }, .ok (o.coll.kids.map (·.2)), ?_, .mk done g1 g2 g3 g4 g5 (fun h => ?_) g7, .inl ⟨_, rfl, hp⟩⟩
      · simp only [DtsShelf.members, read_known _ query fuel ({ o.coll with log := log } : RemoteColl DtsShelf) hp]
      · have h' : o.coll.parsedKids = false := h
        rw [hp] at h'; cases h'
    | false =>
      by_cases hz : t.items = 0
      · have hin : t.inside = [] := by
          cases hof with
          | mk h1 _ _ _ => exact (h1 hz).2
        have hk := g7 hz
        refine ⟨log, .mk o.readable { o.coll with log := log, kidsProxy := false, parsedKids := true }, .ok (o.coll.kids.map (·.2)), ?_, .mk [] g1 g2 g3 (by simp) (fun _ => ?_) (fun h => ?_) g7, .inl ⟨_, rfl, rfl⟩⟩
        · have hs : o.coll.size = 0 := by rw [g2]; exact hz
          simp only [DtsShelf.members, read_empty _ query fuel ({ o.coll with log := log } : RemoteColl DtsShelf) hs]
        · exact ⟨by simp [hin], by simp [DtsShelf.coll, hin]; exact hk⟩
        · cases h
      · obtain ⟨hx, start, suffix, hpos⟩ := g6 hp hz
        have hnd : (t.inside.map Shelf.id).Nodup := by
          cases hof with
          | mk _ _ h3 _ => exact h3
        have hin : ∀ s ∈ t.inside, Offers net query s := by
          cases hof with
          | mk _ _ _ h4 => exact h4
        obtain ⟨s', out, e, i1, i2, i3, i4, i5⟩ := crawl_failing (Q := fun k o => ∀ s ∈ t.inside, s.id = k → Sound net query s o) hnd
          (fun e he => by obtain ⟨s, _, rfl⟩ := List.mem_map.mp he; rfl) hf
          (fun e he s hs hk => by
            obtain ⟨s', hs', rfl⟩ := List.mem_map.mp he
            have : s = s' := eq_of_nodup_map Shelf.id _ hnd s hs s' hs' hk
            subst this
            exact sound_unread (hin _ hs) (freshObj_unread _ _)) hpos.chain hpos.proper fuel ({ o.coll with log := log } : RemoteColl DtsShelf) done
          (by have := hpos.length; omega) hid (by rw [show ({ o.coll with log := log } : RemoteColl DtsShelf).size = o.coll.size from rfl, g2]; exact hz) hp hpos.rest hpos.entry hpos.lower hpos.upper g4
        have hread : ({ o.coll with log := log } : RemoteColl DtsShelf).read (serve.pages o.coll.id .children) query fuel .iterKids =
            some (s', (fun _ => .dict s'.kids) <$> out) := by
          refine read_run hp (by rw [show ({ o.coll with log := log } : RemoteColl DtsShelf).size = o.coll.size from rfl, g2]; exact hz) hx g3 ?_
          rw [parsePaginated, ← e, hid]
          rcases hpos.next with ⟨n1, n2⟩ | n1
          · simp only [n1, n2]
          · simp only [n1]
            have := hpos.proper
            cases start with
            | zero => exact absurd rfl this
            | succ n => rfl
        have hlab : (DtsShelf.mk o.readable s').label = t.label := by
          rw [← g1]; exact Prod.ext (i1.trans hid.symm) rfl
        rcases i5 with ⟨rfl, j1, j2, j3⟩ | ⟨x, rfl, j1, j2, j3⟩
        · refine ⟨s'.log, .mk o.readable s', .ok (s'.kids.map (·.2)), ?_, .mk (t.inside.map Shelf.id) hlab (i2.trans g2) (i3.trans g3) (fun p hp _ => j3 p hp) (fun _ => ⟨rfl, j2⟩)
            (fun h => ?_) (fun e => absurd e hz), .inl ⟨_, rfl, j1⟩⟩
          · simp only [DtsShelf.members, hread, fmap_ok]
          · have h' : s'.parsedKids = false := h
            rw [j1] at h'; cases h'
        · refine ⟨s'.log, .mk o.readable s', .error x, ?_, ?_, .inr ⟨x, rfl, j1⟩⟩
          · simp only [DtsShelf.members, hread]; rfl
          · rcases j3 with ⟨k1, k2⟩ | ⟨done', start', suffix', hpos', hq⟩
            · refine .mk done hlab (i2.trans g2) (i3.trans g3) (fun p hp => g4 p (by rw [← show s'.kids = o.coll.kids from k1]; exact hp)) (fun h => ?_) (fun _ _ => ⟨i4.trans hx, start, suffix, ?_⟩) (fun e => absurd e hz)
              · have h' : s'.parsedKids = true := h
                rw [j2] at h'; cases h'
              · show Position _ _ _ _ _ (s'.kids.map (·.1)) s'.lastKids _ _ _ _
                rw [k1, k2]; exact hpos
            · refine .mk done' hlab (i2.trans g2) (i3.trans g3) hq (fun h => ?_) (fun _ _ => ⟨i4.trans hx, start', suffix', ?_⟩) (fun e => absurd e hz)
              · have h' : s'.parsedKids = true := h
                rw [j2] at h'; cases h'
              · exact { hpos' with length := by have := hpos'.length; have := hpos.length; omega }

/-! ## Descendants -/

theorem sound_kids {net : DtsCatalogue} {query : List (Str × List Str)} {t : Shelf} {o : DtsShelf} (h : Sound net query t o) (hp : o.coll.parsedKids = true) :
    o.coll.kids.map (·.1) = t.inside.map Shelf.id ∧ ∀ p ∈ o.coll.kids.zip t.inside, Sound net query p.2 p.1.2 := by
  cases h with
  | mk done g1 g2 g3 g4 g5 g6 g7 =>
    obtain ⟨rfl, hk⟩ := g5 hp
    refine ⟨hk, fun p hp => ?_⟩
    have h1 := (List.of_mem_zip hp).1
    have h2 := (List.of_mem_zip hp).2
    have hname : p.2.id = p.1.1 := zip_names _ _ hk p hp
    exact g4 p.1 h1 (by rw [← hname]; exact List.mem_map_of_mem h2) p.2 h2 hname

theorem eachKid_failing {P : Shelf → DtsShelf → Prop} {F : PyErr → Prop}
    {f : List (List (Str × List Str)) → DtsShelf → Option (List (List (Str × List Str)) × DtsShelf × Except PyErr (List (Str × Bool)))} :
    ∀ (kids : List (Str × DtsShelf)) (inside : List Shelf) (log : List (List (Str × List Str))), kids.map (·.1) = inside.map Shelf.id → (∀ p ∈ kids.zip inside, P p.2 p.1.2) →
      (∀ t ∈ inside, ∀ log o, P t o → ∃ log' o' out, f log o = some (log', o', out) ∧ P t o' ∧ (out = .ok t.under ∨ ∃ e, out = .error e ∧ F e)) →
      ∃ log' kids' out, eachKid f log kids = some (log', kids', out) ∧ kids'.map (·.1) = inside.map Shelf.id ∧ (∀ p ∈ kids'.zip inside, P p.2 p.1.2) ∧
        (out = .ok (underAll inside) ∨ ∃ e, out = .error e ∧ F e)
  | [], [], log, _, _, _ => ⟨log, [], _, rfl, rfl, by simp, .inl (by simp [underAll])⟩
  | [], _ :: _, _, h, _, _ => by simp at h
  | _ :: _, [], _, h, _, _ => by simp at h
  | (k, o) :: kids, t :: inside, log, h, hk, hf => by
    simp only [List.map_cons, List.cons.injEq] at h
    obtain ⟨log1, o', out, e, hc, hout⟩ := hf t (by simp) log o (hk ((k, o), t) (by simp))
    rcases hout with rfl | ⟨x, rfl, hx⟩
    · obtain ⟨log2, kids', out', e', hn, hc', hout'⟩ := eachKid_failing kids inside log1 h.2 (fun p hp => hk p (by simp [hp])) (fun t ht => hf t (by simp [ht]))
      have hnew : ∀ p ∈ ((k, o') :: kids').zip (t :: inside), P p.2 p.1.2 := by
        intro p hp
        simp only [List.zip_cons_cons, List.mem_cons] at hp
        rcases hp with rfl | hp
        · exact hc
        · exact hc' p hp
      rcases hout' with rfl | ⟨y, rfl, hy⟩
      · exact ⟨log2, (k, o') :: kids', .ok (t.under ++ underAll inside), by simp only [eachKid, e, e'], by simp [h.1, hn], hnew, .inl (by simp [underAll])⟩
      · exact ⟨log2, (k, o') :: kids', .error y, by simp only [eachKid, e, e'], by simp [h.1, hn], hnew, .inr ⟨y, rfl, hy⟩⟩
    · refine ⟨log1, (k, o') :: kids, .error x, by simp only [eachKid, e], by simp [h.1, h.2], ?_, .inr ⟨x, rfl, hx⟩⟩
      intro p hp
      simp only [List.zip_cons_cons, List.mem_cons] at hp
      rcases hp with rfl | hp
      · exact hc
      · exact hk p (by simp [hp])

/-- From some bounds on, the descendants are all below or there is a failure. -/
def ReadsOrFails (net : DtsCatalogue) (query : List (Str × List Str)) (t : Shelf) (b : Nat) : Prop :=
  ∀ serve, Truthful serve net → ∀ fuel depth, b ≤ fuel → b ≤ depth → ∀ log o, Sound net query t o →
    ∃ log' o' out, o.descendants serve query fuel depth log = some (log', o', out) ∧ Sound net query t o' ∧ (out = .ok t.under ∨ ∃ e, out = .error e ∧ Fails serve net e)

theorem readsOrFails_of_offers {net : DtsCatalogue} {query : List (Str × List Str)} {t : Shelf} (h : Offers net query t) : ∃ b, t.pages.length ≤ b ∧ ReadsOrFails net query t b := by
  have h0 := h
  induction h with
  | @mk id items resource pages inside h1 h2 h3 h4 ih =>
    obtain ⟨b, hb⟩ := common_bound (P := ReadsOrFails net query) (fun t b b' hle h serve hs fuel depth hf hd => h serve hs fuel depth (by omega) (by omega)) inside
      (fun t ht => (ih t ht (h4 t ht)).imp fun _ h => h.2)
    refine ⟨max (b + 1) pages.length, by show pages.length ≤ _; omega, fun serve hs fuel depth hf hd log o ho => ?_⟩
    obtain ⟨d, rfl⟩ : ∃ d, depth = d + 1 := ⟨depth - 1, by omega⟩
    rw [DtsShelf.descendants]
    obtain ⟨log1, o1, out1, e1, k1, c1⟩ := members_failing h0 hs fuel (by show pages.length ≤ fuel; omega) log ho
    rcases c1 with ⟨ms, rfl, p1⟩ | ⟨x, rfl, hx⟩
    rotate_left
    · simp only [e1]
      exact ⟨_, _, _, rfl, k1, .inr ⟨x, rfl, hx⟩⟩
    obtain ⟨log2, o2, out2, e2, k2, c2⟩ := members_failing h0 hs fuel (by show pages.length ≤ fuel; omega) log1 k1
    rcases c2 with ⟨ms2, rfl, p2⟩ | ⟨x, rfl, hx⟩
    rotate_left
    · simp only [e1, e2]
      exact ⟨_, _, _, rfl, k2, .inr ⟨x, rfl, hx⟩⟩
    obtain ⟨n1, z1⟩ := sound_kids k1 p1
    obtain ⟨n2, z2⟩ := sound_kids k2 p2
    obtain ⟨log3, kids', out3, e3, n3, z3, c3⟩ := eachKid_failing (P := Sound net query) (F := Fails serve net) o2.coll.kids inside log2 n2 z2
      (fun t ht log o ho => hb t ht serve hs fuel d (by omega) (by omega) log o ho)
    have hsound : Sound net query (.mk id items resource pages inside) (.mk o2.readable { o2.coll with kids := kids' }) := by
      cases k2 with
      | mk done g1 g2 g3 g4 g5 g6 g7 =>
        refine .mk (inside.map Shelf.id) g1 g2 g3 (fun p hp _ s hs hn => ?_) (fun _ => ⟨rfl, n3⟩) (fun h => ?_) (fun e => ?_)
        · have hp' : p ∈ kids' := hp
          obtain ⟨s', hs'⟩ := mem_zip_names _ _ n3 p hp'
          have : s' = s := eq_of_nodup_map Shelf.id _ h3 _ (List.of_mem_zip hs').2 _ hs ((zip_names _ _ n3 _ hs').trans hn.symm)
          subst this
          exact z3 _ hs'
        · have h' : o2.coll.parsedKids = false := h
          rw [p2] at h'; cases h'
        · have : inside = [] := (h1 e).2
          subst this
          show kids' = []
          simpa using n3
    have hms : ms.map DtsShelf.label = inside.map Shelf.label := by
      rw [members_kids e1]
      exact kids_labels (fun _ _ h => sound_label h) _ _ n1 z1
    rcases c3 with rfl | ⟨x, rfl, hx⟩
    · simp only [e1, e2, e3]
      refine ⟨_, _, _, rfl, hsound, .inl ?_⟩
      rw [Shelf.under, hms]
    · simp only [e1, e2, e3]
      exact ⟨_, _, _, rfl, hsound, .inr ⟨x, rfl, hx⟩⟩

end Verif.Lemmas
