import Verif.Lemmas.DtsFailing
/-!
C101: browsing the collections of a DTS endpoint.
-/
namespace Verif.Props
open Verif.Py Verif.Model Verif.Spec Verif.Lemmas

/-! ## How much was read -/

/-- The object of a collection of which nothing, the members, or all below was read. -/
private def Stage (t : Shelf) : Nat → DtsShelf → Prop
  | 0 => Unread t
  | 1 => Known Unread t
  | _ => Complete t

/-- What is requested to come from one stage to the other. -/
private def gained (query : List (Str × List Str)) (own : List (List (Str × List Str))) (t : Shelf) : Nat → Nat → List (List (Str × List Str))
  | 0, 0 => []
  | 0, 1 => own
  | 0, _ => own ++ requestsAll query t.inside
  | 1, 0 => []
  | 1, 1 => []
  | 1, _ => requestsAll query t.inside
  | _, _ => []

private theorem needed_gained (query : List (Str × List Str)) (own : List (List (Str × List Str))) (t : Shelf) (n m : Nat) :
    t.needed query own n ++ gained query own t n m = t.needed query own (max n m) := by
  match n, m with
  | 0, 0 => rfl
  | 0, 1 => rfl
  | 0, m + 2 => simp [Shelf.needed, gained]
  | 1, 0 => simp [Shelf.needed, gained]
  | 1, 1 => simp [Shelf.needed, gained]
  | 1, m + 2 =>
    rw [show max 1 (m + 2) = m + 2 by omega]
    simp [Shelf.needed, gained]
  | n + 2, m =>
    obtain ⟨k, hk⟩ : ∃ k, max (n + 2) m = k + 2 := ⟨max (n + 2) m - 2, by omega⟩
    rw [hk]; simp [Shelf.needed, gained]

private theorem under_eq (t : Shelf) : t.under = t.inside.map Shelf.label ++ underAll t.inside := by cases t; rw [Shelf.under]; rfl

private theorem stage_label {t : Shelf} {n : Nat} {o : DtsShelf} (h : Stage t n o) : o.label = t.label := by
  match n, h with
  | 0, h => exact Unread.label h
  | 1, h => exact Known.label h
  | _ + 2, h => exact (Complete.known h).label

private theorem stage_members {net : DtsCatalogue} {query : List (Str × List Str)} {t : Shelf} (hof : Offers net query t) {own : List (List (Str × List Str))} {n : Nat}
    (hown : n = 0 → own = t.ownRequests query) (fuel : Nat) (hf : t.pages.length ≤ fuel) (log : List (List (Str × List Str))) {o : DtsShelf} (h : Stage t n o) :
    ∃ o' ms, o.members net query fuel log = some (log ++ gained query own t n 1, o', .ok ms) ∧ Stage t (max n 1) o' ∧ ms.map DtsShelf.label = t.inside.map Shelf.label := by
  match n, h with
  | 0, h =>
    obtain ⟨o', ms, e, k, hm, _⟩ := members_unread hof fuel hf log h
    exact ⟨o', ms, by rw [e]; simp only [gained, hown rfl], k, hm⟩
  | 1, h =>
    obtain ⟨o', ms, e, k, _, hm⟩ := members_known (fun _ _ h => Unread.label h) net query fuel log h
    exact ⟨o', ms, by rw [e]; simp [gained], k, hm⟩
  | n + 2, h =>
    obtain ⟨o', ms, e, k, _, hm⟩ := members_known (fun _ _ h => (Complete.known h).label) net query fuel log (Complete.known h)
    refine ⟨o', ms, by rw [e]; simp [gained], ?_, hm⟩
    rw [show max (n + 2) 1 = n + 2 by omega]
    exact .mk k.label k.flag k.names k.kids

private theorem stage_descendants {net : DtsCatalogue} {query : List (Str × List Str)} {t : Shelf} (hof : Offers net query t) :
    ∃ b, t.pages.length ≤ b ∧ Rereads t b ∧ ∀ fuel depth, b ≤ fuel → b ≤ depth → ∀ (own : List (List (Str × List Str))) (n : Nat), (n = 0 → own = t.ownRequests query) →
      ∀ log o, Stage t n o → ∃ o', o.descendants net query fuel depth log = some (log ++ gained query own t n 2, o', .ok t.under) ∧ Complete t o' := by
  obtain ⟨b1, h1⟩ := reads_of_offers hof
  obtain ⟨b2, h2⟩ := rereads_of_offers hof
  have hin : ∀ s ∈ t.inside, Offers net query s := by
    cases hof with
    | mk _ _ _ h4 => exact h4
  obtain ⟨b3, h3⟩ := common_bound (P := Reads net query) (fun t b b' hle h fuel depth hf hd => h fuel depth (by omega) (by omega)) t.inside (fun s hs => reads_of_offers (hin s hs))
  refine ⟨max (max b1 b2) (max (b3 + 1) t.pages.length), by omega, fun net query fuel depth hd => h2 net query fuel depth (by omega), fun fuel depth hf hd own n hown log o h => ?_⟩
  match n, h with
  | 0, h =>
    obtain ⟨o', e, hc⟩ := h1 fuel depth (by omega) (by omega) log o h
    refine ⟨o', ?_, hc⟩
    rw [e]
    simp only [gained, hown rfl]
    cases t; rw [Shelf.requests]; rfl
  | 1, h =>
    obtain ⟨d, rfl⟩ : ∃ d, depth = d + 1 := ⟨depth - 1, by omega⟩
    obtain ⟨o1, ms, e1, k1, _, hms⟩ := members_known (fun _ _ h => Unread.label h) net query fuel log h
    obtain ⟨o', e, hc⟩ := descendants_step (fun _ _ h => Unread.label h) (r := Shelf.requests query) net query fuel d e1 k1 hms
      (fun s hs log o hu => h3 s hs fuel d (by omega) (by omega) log o hu)
    exact ⟨o', by rw [e]; simp only [gained, requestsAll_flatMap], hc⟩
  | n + 2, h =>
    obtain ⟨o', e, hc⟩ := h2 net query fuel depth (by omega) log o h
    exact ⟨o', by rw [e]; simp [gained], hc⟩

private theorem find_label (ms : List DtsShelf) (key : Str) :
    (ms.find? fun x => x.coll.id == key).map DtsShelf.label = (ms.map DtsShelf.label).find? fun x => x.1 == key := by
  rw [List.find?_map]; rfl

private theorem stage_le {t : Shelf} {n : Nat} {o : DtsShelf} (m : Nat) (hm : m ≤ 2) (h : Complete t o) : Stage t (max n 2) o := by
  obtain ⟨k, hk⟩ : ∃ k, max n 2 = k + 2 := ⟨max n 2 - 2, by omega⟩
  rw [hk]; exact h

private theorem gained_two (query : List (Str × List Str)) (own : List (List (Str × List Str))) (t : Shelf) (n : Nat) :
    gained query own t n 1 ++ gained query own t (max n 1) 2 = gained query own t n 2 := by
  match n with
  | 0 => rfl
  | 1 => rfl
  | n + 2 => rw [show max (n + 2) 1 = n + 2 by omega]; rfl

private theorem any_under (t : Shelf) (key : Str) : ((t.under ++ [t.label]).any fun x => x.1 == key) = decide (key ∈ (t.label :: t.under).map (·.1)) := by
  rw [Bool.eq_iff_iff, List.any_eq_true, decide_eq_true_iff, List.mem_map]
  constructor
  · rintro ⟨x, hx, e⟩
    refine ⟨x, ?_, by simpa using e⟩
    rcases List.mem_append.mp hx with hx | hx
    · exact List.mem_cons_of_mem _ hx
    · rw [List.mem_singleton.mp hx]; exact List.mem_cons_self ..
  · rintro ⟨x, hx, e⟩
    refine ⟨x, ?_, by simpa using e⟩
    rcases List.mem_cons.mp hx with rfl | hx
    · exact List.mem_append_right _ (List.mem_singleton.mpr rfl)
    · exact List.mem_append_left _ hx

/-- One reading gives what it should, and requests what it lacks. -/
private theorem stage_read {net : DtsCatalogue} {query : List (Str × List Str)} {t : Shelf} (fuel depth : Nat) (own : List (List (Str × List Str))) (n : Nat)
    (log : List (List (Str × List Str))) (o : DtsShelf) (h : Stage t n o)
    (hmem : ∃ o' ms, o.members net query fuel log = some (log ++ gained query own t n 1, o', .ok ms) ∧ Stage t (max n 1) o' ∧ ms.map DtsShelf.label = t.inside.map Shelf.label)
    (hb : ∀ n', n ≤ n' → ∀ log o, Stage t n' o → ∃ o', o.descendants net query fuel depth log = some (log ++ gained query own t n' 2, o', .ok t.under) ∧ Complete t o')
    (op : BrowseOp) :
    ∃ o', readOp net query fuel depth log o op = some (log ++ gained query own t n (t.reach op), o', t.answer op) ∧ Stage t (max n (t.reach op)) o' := by
  have hid : o.coll.id = t.id := congrArg Prod.fst (stage_label h)
  cases op with
  | members =>
    obtain ⟨o', ms, e, k, hm⟩ := hmem
    exact ⟨o', by simp only [readOp, e, Option.map_some, fmap_ok, hm, Shelf.reach, Shelf.answer], k⟩
  | descendants =>
    obtain ⟨o', e, hc⟩ := hb n (Nat.le_refl _) log o h
    exact ⟨o', by simp only [readOp, e, Option.map_some, fmap_ok, Shelf.reach, Shelf.answer], stage_le 2 (by omega) hc⟩
  | readable =>
    obtain ⟨o', e, hc⟩ := hb n (Nat.le_refl _) log o h
    exact ⟨o', by simp only [readOp, DtsShelf.readableDescendants, e, Option.map_some, fmap_ok, Shelf.reach, Shelf.answer], stage_le 2 (by omega) hc⟩
  | contains key =>
    obtain ⟨o', e, hc⟩ := hb n (Nat.le_refl _) log o h
    refine ⟨o', ?_, stage_le 2 (by omega) hc⟩
    simp only [readOp, DtsShelf.contains, e, Option.map_some, fmap_ok, Shelf.reach, Shelf.answer, hc.known.label, any_under]
  | get key =>
    by_cases h0 : key = t.id
    · refine ⟨o, ?_, by simpa only [Shelf.reach, if_pos h0, Nat.max_zero] using h⟩
      have hg : gained query own t n 0 = [] := by
        match n with
        | 0 => rfl
        | 1 => rfl
        | _ + 2 => rfl
      have : (t.label.1 == key) = true := by simp [Shelf.label, h0]
      simp only [readOp, DtsShelf.get, hid, if_pos h0, Shelf.reach, Shelf.answer, hg, List.append_nil, Option.map_some, fmap_ok, stage_label h, List.find?_cons, this]
    · have hne : (t.label.1 == key) = false := by simpa [Shelf.label] using fun e => h0 e.symm
      obtain ⟨o1, ms, e1, k1, hm⟩ := hmem
      have hfl := find_label ms key
      rw [hm] at hfl
      cases hfi : ms.find? (fun x => x.coll.id == key) with
      | some x =>
        rw [hfi, Option.map_some] at hfl
        have hmem : key ∈ t.inside.map Shelf.id := by
          have h1 := List.mem_of_find?_eq_some hfl.symm
          have h2 : x.label.1 = key := by have := List.find?_some hfl.symm; simpa using this
          obtain ⟨s, hs, e⟩ := List.mem_map.mp h1
          exact List.mem_map.mpr ⟨s, hs, by rw [← h2, ← e]; rfl⟩
        refine ⟨o1, ?_, by simpa only [Shelf.reach, if_neg h0, if_pos hmem] using k1⟩
        simp only [readOp, DtsShelf.get, hid, if_neg h0, e1, hfi, Option.map_some, fmap_ok, Shelf.reach, if_pos hmem, Shelf.answer, List.find?_cons, hne, under_eq,
          List.find?_append, ← hfl, Option.some_or]
      | none =>
        rw [hfi, Option.map_none] at hfl
        have hmem : key ∉ t.inside.map Shelf.id := by
          intro hc
          obtain ⟨s, hs, e⟩ := List.mem_map.mp hc
          have := List.find?_eq_none.mp hfl.symm s.label (List.mem_map_of_mem hs)
          simp [Shelf.label, e] at this
        obtain ⟨o2, e2, hc⟩ := hb (max n 1) (by omega) (log ++ gained query own t n 1) o1 k1
        rw [List.append_assoc, gained_two] at e2
        refine ⟨o2, ?_, by simpa only [Shelf.reach, if_neg h0, if_neg hmem] using stage_le 2 (by omega) hc⟩
        simp only [readOp, DtsShelf.get, hid, if_neg h0, e1, hfi, e2, Shelf.reach, if_neg hmem, Shelf.answer, List.find?_cons, hne]
        cases t.under.find? fun x => x.1 == key <;> simp

private theorem stage_browse {net : DtsCatalogue} {query : List (Str × List Str)} {t : Shelf} (hof : Offers net query t) {b : Nat} (hpg : t.pages.length ≤ b)
    (hb : ∀ fuel depth, b ≤ fuel → b ≤ depth → ∀ (own : List (List (Str × List Str))) (n : Nat), (n = 0 → own = t.ownRequests query) →
      ∀ log o, Stage t n o → ∃ o', o.descendants net query fuel depth log = some (log ++ gained query own t n 2, o', .ok t.under) ∧ Complete t o')
    (fuel depth : Nat) (hf : b ≤ fuel) (hd : b ≤ depth) (own : List (List (Str × List Str))) :
    ∀ (ops : List BrowseOp) (n : Nat), (n = 0 → own = t.ownRequests query) → ∀ (log : List (List (Str × List Str))) (o : DtsShelf), Stage t n o →
    ∃ o', browse query fuel depth (log ++ t.needed query own n) o (ops.map fun op => (net, op)) =
        some (log ++ t.needed query own ((ops.map t.reach).foldl max n), o', ops.map t.answer) ∧ Stage t ((ops.map t.reach).foldl max n) o'
  | [], n, _, log, o, h => ⟨o, rfl, h⟩
  | op :: ops, n, hown, log, o, h => by
    obtain ⟨o1, e1, h1⟩ := stage_read fuel depth own n (log ++ t.needed query own n) o h
      (stage_members hof hown fuel (by omega) _ h) (fun n' hn => hb fuel depth hf hd own n' (fun e => hown (by omega))) op
    rw [List.append_assoc, needed_gained] at e1
    obtain ⟨o2, e2, h2⟩ := stage_browse hof hpg hb fuel depth hf hd own ops (max n (t.reach op)) (fun e => hown (by omega)) log o1 h1
    refine ⟨o2, ?_, h2⟩
    simp only [List.map_cons, browse, e1, e2, List.foldl_cons]

/-- What was read can be read again without the endpoint. -/
private theorem complete_browse {query : List (Str × List Str)} {t : Shelf} {b : Nat} (hb : Rereads t b) (fuel depth : Nat) (hd : b ≤ depth) :
    ∀ (later : List (DtsCatalogue × BrowseOp)) (log : List (List (Str × List Str))) (o : DtsShelf), Complete t o →
    ∃ o', browse query fuel depth log o later = some (log, o', later.map fun x => t.answer x.2)
  | [], log, o, _ => ⟨o, rfl⟩
  | (net, op) :: later, log, o, h => by
    obtain ⟨o1, ms, e, k, _, hm⟩ := members_known (fun _ _ h => (Complete.known h).label) net query fuel log (Complete.known h)
    obtain ⟨o2, e2, h2⟩ := stage_read (net := net) (query := query) fuel depth [] 2 log o h
      ⟨o1, ms, by rw [e, show gained query [] t 2 1 = [] from rfl, List.append_nil], .mk k.label k.flag k.names k.kids, hm⟩
      (fun n' hn log o ho => by
        obtain ⟨m, rfl⟩ : ∃ m, n' = m + 2 := ⟨n' - 2, by omega⟩
        obtain ⟨o', e, hc⟩ := hb net query fuel depth hd log o ho
        exact ⟨o', by rw [e]; simp [gained], hc⟩) op
    have hc : Complete t o2 := by
      obtain ⟨m, hm⟩ : ∃ m, max 2 (t.reach op) = m + 2 := ⟨max 2 (t.reach op) - 2, by omega⟩
      rw [hm] at h2; exact h2
    obtain ⟨o3, e3⟩ := complete_browse (query := query) hb fuel depth hd later log o2 hc
    refine ⟨o3, ?_⟩
    have hg : gained query [] t 2 (t.reach op) = [] := rfl
    rw [hg, List.append_nil] at e2
    simp only [browse, e2, e3, List.map_cons]

/-! ## C101 -/

private theorem chain_first {net : DtsCatalogue} {query : List (Str × List Str)} {id : Str} {chain : List (Nat × CollPage DtsEntry)}
    (hc : CollChain (listingOf net query id) 1 chain) {a : DtsListing} (ha : net (collRequest query id .children 1) = .ok a) :
    ∃ rest, chain = (1, a.raw) :: rest ∧ (a.view = none → rest = []) := by
  have hr : listingOf net query id 1 = .ok a.raw := by simp [listingOf, ha]
  cases hc with
  | last h1 h2 => rw [hr] at h1; cases h1; exact ⟨[], rfl, fun _ => rfl⟩
  | step h1 h2 h3 h4 h5 =>
    rw [hr] at h1; cases h1
    refine ⟨_, rfl, fun hv => ?_⟩
    have h2' : a.view = _ := h2
    rw [hv] at h2'; cases h2'

private theorem stage_final {t : Shelf} {l : List Nat} {n : Nat} {o' : DtsShelf} (hs : Stage t (l.foldl max n) o') (h2 : 2 ∈ l) : Complete t o' := by
  have hge : ∀ (l : List Nat) (n : Nat), n ≤ l.foldl max n ∧ ∀ x ∈ l, x ≤ l.foldl max n := by
    intro l
    induction l with
    | nil => intro n; simp
    | cons y l ih =>
      intro n
      simp only [List.foldl_cons, List.mem_cons, forall_eq_or_imp]
      obtain ⟨i1, i2⟩ := ih (max n y)
      exact ⟨by omega, by omega, i2⟩
  obtain ⟨k, hk⟩ : ∃ k, l.foldl max n = k + 2 := ⟨l.foldl max n - 2, by have := (hge l n).2 2 h2; omega⟩
  rw [hk] at hs; exact hs

/-- What `getMetadata` gives. -/
private theorem metadata_start {net : DtsCatalogue} {query : List (Str × List Str)} {t : Shelf} (h : Offers net query t) {a : DtsListing}
    (hid : a.about.id = t.id) (hitems : a.about.items = t.items) (hres : a.about.resource = t.resource)
    (hfirst : if t.items = 0 then a.members = [] else net (collRequest query t.id .children 1) = .ok a) :
    ∃ kids, a.page a.about.id .children = .ok ⟨kids, a.view⟩ ∧
      (a.members ≠ [] ∧ a.view = none → Stage t 1 (.mk a.about.resource (parseColl a.about.id a.about.items true ⟨kids, a.view⟩))) ∧
      (¬ (a.members ≠ [] ∧ a.view = none) → Stage t 0 (.mk a.about.resource (parseColl a.about.id a.about.items true ⟨kids, a.view⟩))) ∧
      (parseColl a.about.id a.about.items true ⟨kids, a.view⟩).kids.map (·.1) = a.members.map DtsEntry.id := by
  rw [hid, hitems, hres]
  by_cases hz : t.items = 0
  · rw [if_pos hz] at hfirst
    refine ⟨[], by simp [DtsListing.page, hfirst, parseDtsMembers], fun hw => absurd hfirst hw.1, fun _ => ?_,
      by simp [parseColl, RemoteColl.memberFlags, RemoteColl.touchKids, hz, updateKeys, hfirst]⟩
    refine ⟨?_, ?_, ?_, fun hn => absurd hz hn, ?_⟩ <;>
      simp [parseColl, RemoteColl.memberFlags, RemoteColl.touchKids, hz, DtsShelf.label, DtsShelf.coll, DtsShelf.readable, Shelf.label, updateKeys]
  · rw [if_neg hz] at hfirst
    cases h with
    | @mk id items resource pages inside h1 h2 h3 h4 =>
      obtain ⟨chain, hc, hp, hm⟩ := h2 hz
      obtain ⟨rest, rfl, hrest⟩ := chain_first hc hfirst
      simp only [chainMembers, List.flatMap_cons, List.map_append, DtsListing.raw, List.map_map] at hm
      rw [show (a.members.map ((fun x => x.2) ∘ fun e => (e.id, e)) : List DtsEntry) = a.members by simp [Function.comp_def]] at hm
      have hnest : ∀ e ∈ a.members, e.nested = false := by
        intro e he
        have : e ∈ inside.map Shelf.entry := by rw [← hm]; exact List.mem_append_left _ he
        obtain ⟨s, _, rfl⟩ := List.mem_map.mp this
        rfl
      have hpre : (a.members.map DtsEntry.id) <+: inside.map Shelf.id := by
        have := congrArg (List.map DtsEntry.id) hm
        have e : (inside.map Shelf.entry).map DtsEntry.id = inside.map Shelf.id := by rw [List.map_map]; rfl
        rw [List.map_append, e] at this
        exact ⟨_, this⟩
      have hnd : (a.members.map DtsEntry.id).Nodup := by
        obtain ⟨r, hr⟩ := hpre
        have : (a.members.map DtsEntry.id ++ r).Nodup := by rw [hr]; exact h3
        exact (List.nodup_append.mp this).1
      have hkeys : ((a.members.map fun e => (e.id, freshObj (some id) e)).map (·.1)) = a.members.map DtsEntry.id := by rw [List.map_map]; rfl
      have hdict : updateKeys [] (updateKeys [] (a.members.map fun e => (e.id, freshObj (some id) e))) = a.members.map fun e => (e.id, freshObj (some id) e) := by
        rw [updateKeys_dict _ _ (by simp), updateKeys_over [] _ (by rw [hkeys]; exact hnd) (by simp)]
      have hz' : items ≠ 0 := hz
      refine ⟨a.members.map fun e => (e.id, freshObj (some id) e), ?_, fun hw => ?_, fun hw => ?_, ?_⟩
      · simp only [DtsListing.page, if_true, parseDtsMembers_plain _ _ hnest, Shelf.id]
      · obtain rfl := hrest hw.2
        simp only [List.flatMap_nil, List.map_nil, List.append_nil] at hm
        have hk : (parseColl id items true ⟨a.members.map fun e => (e.id, freshObj (some id) e), a.view⟩).kids = inside.map fun s => (s.id, freshObj (some id) s.entry) := by
          have : (parseColl id items true ⟨a.members.map fun e => (e.id, freshObj (some id) e), a.view⟩).kids =
              updateKeys [] (updateKeys [] (a.members.map fun e => (e.id, freshObj (some id) e))) := by
            simp [parseColl, RemoteColl.memberFlags, RemoteColl.touchKids, hw.1, hw.2]
          rw [this, hdict, hm, List.map_map]; rfl
        refine ⟨?_, ?_, ?_, fun p hp => ?_⟩
        · simp [parseColl, RemoteColl.memberFlags, RemoteColl.touchKids, hw.1, hw.2, DtsShelf.label, DtsShelf.coll, DtsShelf.readable, Shelf.label, Shelf.id]
        · simp [parseColl, RemoteColl.memberFlags, RemoteColl.touchKids, hw.1, hw.2, DtsShelf.coll]
        · show (parseColl id items true _).kids.map (·.1) = _
          rw [hk, List.map_map]; rfl
        · change p ∈ (parseColl id items true ⟨a.members.map fun e => (e.id, freshObj (some id) e), a.view⟩).kids.zip inside at hp
          rw [hk] at hp
          rw [zip_map_self _ _ p hp]
          exact freshObj_unread _ _
      · have hc' : parseColl id items true ⟨a.members.map fun e => (e.id, freshObj (some id) e), a.view⟩ =
            ⟨id, items, a.members.map (fun e => (e.id, freshObj (some id) e)), [], true, true, false, false, true, none, none, []⟩ := by
          by_cases hm0 : a.members = []
          · simp [parseColl, RemoteColl.memberFlags, RemoteColl.touchKids, hm0, hz', updateKeys]
          · have hv : a.view ≠ none := fun hv => hw ⟨hm0, hv⟩
            simp [parseColl, RemoteColl.memberFlags, RemoteColl.touchKids, hm0, hz', hv, hdict]
        show Unread _ (.mk resource (parseColl id items true _))
        rw [hc']
        exact ⟨rfl, rfl, rfl, fun _ => ⟨rfl, rfl, rfl⟩, by
          show (a.members.map fun e => (e.id, freshObj (some id) e)).map (·.1) <+: inside.map Shelf.id
          rw [hkeys]; exact hpre⟩
      · rw [← hkeys]
        refine congrArg (List.map Prod.fst) ?_
        have ht : ∀ c : RemoteColl DtsShelf, c.touchKids.kids = c.kids := fun c => by unfold RemoteColl.touchKids; grind
        have hf : ∀ (c : RemoteColl DtsShelf) p, (c.memberFlags .children p).kids = c.kids := fun c p => by unfold RemoteColl.memberFlags; grind
        simp only [parseColl, ht, hf]
        exact hdict

/-- C101. Browsing an endpoint that offers a hierarchy of collections. `getMetadata` makes one request. Whatever is then read
of the collection, one thing after the other (its members, all below it, the readable ones, whether and what something
below it is), is what the hierarchy says, in its order. The requests are exactly those for the listings needed so far, each
once: none for the collection itself, those of its own listing for the members, those of all listings, depth first, for
what is below; its own listing is not asked for when the first reply was all of it. Once all was read, it can be read
again without the endpoint. -/
theorem C101_browsing (net : DtsCatalogue) (query : List (Str × List Str)) (t : Shelf) (h : Offers net query t) (log : List (List (Str × List Str)))
    (objectId : Option Str) (a : DtsListing) (hreply : net (getCollection query objectId children .none) = .ok a)
    (hid : a.about.id = t.id) (hitems : a.about.items = t.items) (hres : a.about.resource = t.resource)
    (hfirst : if t.items = 0 then a.members = [] else net (collRequest query t.id .children 1) = .ok a) :
    ∃ o b, dtsMetadata net query log objectId = (log ++ [getCollection query objectId children .none], .ok o) ∧
      ∀ fuel depth, b ≤ fuel → b ≤ depth → ∀ ops : List BrowseOp,
        ∃ o', browse query fuel depth (log ++ [getCollection query objectId children .none]) o (ops.map fun op => (net, op)) =
            some (log ++ [getCollection query objectId children .none] ++
              t.needed query (if a.members ≠ [] ∧ a.view = none then [] else t.ownRequests query) ((ops.map t.reach).foldl max 0), o', ops.map t.answer) ∧
          (2 ∈ ops.map t.reach → ∀ (later : List (DtsCatalogue × BrowseOp)) (log' : List (List (Str × List Str))),
            ∃ o'', browse query fuel depth log' o' later = some (log', o'', later.map fun x => t.answer x.2)) := by
  obtain ⟨b, hpg, hre, hb⟩ := stage_descendants h
  obtain ⟨kids, hpage, hstart⟩ := metadata_start h hid hitems hres hfirst
  refine ⟨.mk a.about.resource (parseColl a.about.id a.about.items true ⟨kids, a.view⟩), b, ?_, fun fuel depth hf hd ops => ?_⟩
  · simp only [dtsMetadata, hreply, hpage]
  · by_cases hw : a.members ≠ [] ∧ a.view = none
    · obtain ⟨o', e, hs⟩ := stage_browse h hpg hb fuel depth hf hd [] ops 1 (by omega) (log ++ [getCollection query objectId children .none]) _ (hstart.1 hw)
      refine ⟨o', ?_, fun h2 later log' => complete_browse hre fuel depth hd later log' o' (stage_final hs h2)⟩
      rw [if_pos hw]
      have h1 : t.needed query [] ((ops.map t.reach).foldl max 1) = t.needed query [] ((ops.map t.reach).foldl max 0) := by
        have hmax : ∀ (l : List Nat) (n : Nat), l.foldl max (max 1 n) = max 1 (l.foldl max n) := by
          intro l
          induction l with
          | nil => intro n; rfl
          | cons y l ih => intro n; simp only [List.foldl_cons]; rw [Nat.max_assoc, ih]
        rw [show (ops.map t.reach).foldl max 1 = max 1 ((ops.map t.reach).foldl max 0) from hmax _ 0]
        match (ops.map t.reach).foldl max 0 with
        | 0 => rfl
        | 1 => rfl
        | k + 2 => rw [show max 1 (k + 2) = k + 2 by omega]
      rw [← h1]
      simpa [Shelf.needed] using e
    · obtain ⟨o', e, hs⟩ := stage_browse h hpg hb fuel depth hf hd (t.ownRequests query) ops 0 (fun _ => rfl) (log ++ [getCollection query objectId children .none]) _ (hstart.2.1 hw)
      refine ⟨o', ?_, fun h2 later log' => complete_browse hre fuel depth hd later log' o' (stage_final hs h2)⟩
      rw [if_neg hw]
      simpa [Shelf.needed] using e

/-- C101. A member is browsed as the collection itself: it is parsed without a request, what is read of it is what the
hierarchy says of it, each listing is requested once, and its own members are objects of the same kind. -/
theorem C101_member (net : DtsCatalogue) (query : List (Str × List Str)) (t : Shelf) (h : Offers net query t) (parent : Option Str) :
    ∃ o b, t.entry.parse parent = .ok o ∧ ∀ fuel depth, b ≤ fuel → b ≤ depth → ∀ log,
      (∀ ops : List BrowseOp, ∃ o', browse query fuel depth log o (ops.map fun op => (net, op)) =
            some (log ++ t.needed query (t.ownRequests query) ((ops.map t.reach).foldl max 0), o', ops.map t.answer) ∧
          (2 ∈ ops.map t.reach → ∀ (later : List (DtsCatalogue × BrowseOp)) (log' : List (List (Str × List Str))),
            ∃ o'', browse query fuel depth log' o' later = some (log', o'', later.map fun x => t.answer x.2))) ∧
      ∃ o' ms, o.members net query fuel log = some (log ++ t.ownRequests query, o', .ok ms) ∧ ms.map Except.ok = t.inside.map fun s => s.entry.parse (some t.id) := by
  obtain ⟨b, hpg, hre, hb⟩ := stage_descendants h
  have hparse : ∀ (p : Option Str) (s : Shelf), s.entry.parse p = .ok (freshObj p s.entry) := fun p s => by simp [DtsEntry.parse, Shelf.entry, freshObj]
  refine ⟨freshObj parent t.entry, b, hparse parent t, fun fuel depth hf hd log => ⟨fun ops => ?_, ?_⟩⟩
  · obtain ⟨o', e, hs⟩ := stage_browse h hpg hb fuel depth hf hd (t.ownRequests query) ops 0 (fun _ => rfl) log _ (freshObj_unread parent t)
    exact ⟨o', by simpa [Shelf.needed] using e, fun h2 later log' => complete_browse hre fuel depth hd later log' o' (stage_final hs h2)⟩
  · obtain ⟨o', ms, e, k, hm, hk⟩ := members_unread h fuel (by omega) log (freshObj_unread parent t)
    refine ⟨o', ms, e, ?_⟩
    by_cases hz : t.items = 0
    · have hin : t.inside = [] := by
        cases h with
        | mk h1 _ _ _ => exact (h1 hz).2
      rw [hin] at hm
      have : ms = [] := by simpa using hm
      rw [this, hin]; rfl
    · rw [members_kids e, hk hz, List.map_map, List.map_map]
      exact List.map_congr_left fun s _ => (hparse _ s).symm

/-! ### With failures -/

/-- One reading gives what it should or fails as the endpoint does. -/
private theorem sound_read {net serve : DtsCatalogue} {query : List (Str × List Str)} {t : Shelf} (hof : Offers net query t) (hs : Truthful serve net) (fuel depth : Nat)
    (hf : t.pages.length ≤ fuel)
    (hb : ∀ log o, Sound net query t o → ∃ log' o' out, o.descendants serve query fuel depth log = some (log', o', out) ∧ Sound net query t o' ∧
      (out = .ok t.under ∨ ∃ e, out = .error e ∧ Fails serve net e))
    (log : List (List (Str × List Str))) (o : DtsShelf) (h : Sound net query t o) (op : BrowseOp) :
    ∃ log' o' out, readOp serve query fuel depth log o op = some (log', o', out) ∧ Sound net query t o' ∧ (out = t.answer op ∨ ∃ e, out = .error e ∧ Fails serve net e) := by
  have hid : o.coll.id = t.id := congrArg Prod.fst (sound_label h)
  cases op with
  | members =>
    obtain ⟨log', o', out, e, k, c⟩ := members_failing hof hs fuel hf log h
    rcases c with ⟨ms, rfl, hp⟩ | ⟨x, rfl, hx⟩
    · obtain ⟨n1, z1⟩ := sound_kids k hp
      have hm : ms.map DtsShelf.label = t.inside.map Shelf.label := by rw [members_kids e]; exact kids_labels (fun _ _ h => sound_label h) _ _ n1 z1
      exact ⟨log', o', _, by simp only [readOp, e, Option.map_some, fmap_ok, hm, Shelf.answer], k, .inl rfl⟩
    · exact ⟨log', o', .error x, by simp only [readOp, e, Option.map_some]; rfl, k, .inr ⟨x, rfl, hx⟩⟩
  | descendants =>
    obtain ⟨log', o', out, e, k, c⟩ := hb log o h
    rcases c with rfl | ⟨x, rfl, hx⟩
    · exact ⟨log', o', _, by simp only [readOp, e, Option.map_some, fmap_ok, Shelf.answer], k, .inl rfl⟩
    · exact ⟨log', o', .error x, by simp only [readOp, e, Option.map_some]; rfl, k, .inr ⟨x, rfl, hx⟩⟩
  | readable =>
    obtain ⟨log', o', out, e, k, c⟩ := hb log o h
    rcases c with rfl | ⟨x, rfl, hx⟩
    · exact ⟨log', o', _, by simp only [readOp, DtsShelf.readableDescendants, e, Option.map_some, fmap_ok, Shelf.answer], k, .inl rfl⟩
    · exact ⟨log', o', .error x, by simp only [readOp, DtsShelf.readableDescendants, e, Option.map_some]; rfl, k, .inr ⟨x, rfl, hx⟩⟩
  | contains key =>
    obtain ⟨log', o', out, e, k, c⟩ := hb log o h
    rcases c with rfl | ⟨x, rfl, hx⟩
    · refine ⟨log', o', t.answer (.contains key), ?_, k, .inl rfl⟩
      simp only [readOp, DtsShelf.contains, e, Option.map_some, fmap_ok, Shelf.answer, sound_label k, any_under]
    · exact ⟨log', o', .error x, by simp only [readOp, DtsShelf.contains, e, Option.map_some]; rfl, k, .inr ⟨x, rfl, hx⟩⟩
  | get key =>
    by_cases h0 : key = t.id
    · have : (t.label.1 == key) = true := by simp [Shelf.label, h0]
      refine ⟨log, o, t.answer (.get key), ?_, h, .inl rfl⟩
      simp only [readOp, DtsShelf.get, hid, if_pos h0, Shelf.answer, Option.map_some, fmap_ok, sound_label h, List.find?_cons, this]
    · have hne : (t.label.1 == key) = false := by simpa [Shelf.label] using fun e => h0 e.symm
      obtain ⟨log1, o1, out, e1, k, c⟩ := members_failing hof hs fuel hf log h
      rcases c with ⟨ms, rfl, hp⟩ | ⟨x, rfl, hx⟩
      · obtain ⟨n1, z1⟩ := sound_kids k hp
        have hm : ms.map DtsShelf.label = t.inside.map Shelf.label := by rw [members_kids e1]; exact kids_labels (fun _ _ h => sound_label h) _ _ n1 z1
        have hfl := find_label ms key
        rw [hm] at hfl
        cases hfi : ms.find? (fun x => x.coll.id == key) with
        | some x =>
          rw [hfi, Option.map_some] at hfl
          refine ⟨log1, o1, t.answer (.get key), ?_, k, .inl rfl⟩
          simp only [readOp, DtsShelf.get, hid, if_neg h0, e1, hfi, Option.map_some, fmap_ok, Shelf.answer, List.find?_cons, hne, under_eq, List.find?_append, ← hfl, Option.some_or]
        | none =>
          obtain ⟨log2, o2, out2, e2, k2, c2⟩ := hb log1 o1 k
          rcases c2 with rfl | ⟨x, rfl, hx⟩
          · refine ⟨log2, o2, t.answer (.get key), ?_, k2, .inl rfl⟩
            simp only [readOp, DtsShelf.get, hid, if_neg h0, e1, hfi, e2, Shelf.answer, List.find?_cons, hne]
            cases t.under.find? fun x => x.1 == key <;> simp
          · exact ⟨log2, o2, .error x, by simp only [readOp, DtsShelf.get, hid, if_neg h0, e1, hfi, e2, Option.map_some]; rfl, k2, .inr ⟨x, rfl, hx⟩⟩
      · exact ⟨log1, o1, .error x, by simp only [readOp, DtsShelf.get, hid, if_neg h0, e1, Option.map_some]; rfl, k, .inr ⟨x, rfl, hx⟩⟩

private theorem parseColl_size {γ : Type} (id : Str) (n : Nat) (b : Bool) (p : CollPage γ) : (parseColl id n b p).size = n := by
  simp only [parseColl, RemoteColl.memberFlags, RemoteColl.touchKids]; grind

private theorem parseColl_folks_unread {γ : Type} (id : Str) (n : Nat) (b : Bool) (p : CollPage γ) : (parseColl id n b p).parsedFolks = false := by
  simp only [parseColl, RemoteColl.memberFlags, RemoteColl.touchKids]; grind

/-- C101. When the endpoint fails at times: a reading that needs a request that fails ends with that failure; every other
reading gives what the hierarchy says, whatever failed before it; and nothing fails while the endpoint answers. -/
theorem C101_failures (net : DtsCatalogue) (query : List (Str × List Str)) (t : Shelf) (h : Offers net query t) (log : List (List (Str × List Str)))
    (objectId : Option Str) (a : DtsListing) (hreply : net (getCollection query objectId children .none) = .ok a)
    (hid : a.about.id = t.id) (hitems : a.about.items = t.items) (hres : a.about.resource = t.resource)
    (hfirst : if t.items = 0 then a.members = [] else net (collRequest query t.id .children 1) = .ok a) :
    ∃ o b, dtsMetadata net query log objectId = (log ++ [getCollection query objectId children .none], .ok o) ∧
      ∀ fuel depth, b ≤ fuel → b ≤ depth → ∀ (log : List (List (Str × List Str))) (ops : List (DtsCatalogue × BrowseOp)), (∀ x ∈ ops, Truthful x.1 net) →
        ∃ log' o' answers, browse query fuel depth log o ops = some (log', o', answers) ∧ answers.length = ops.length ∧
          ∀ p ∈ ops.zip answers, p.2 = t.answer p.1.2 ∨ ∃ e, p.2 = .error e ∧ Fails p.1.1 net e := by
  obtain ⟨b, hpg, hb⟩ := readsOrFails_of_offers h
  obtain ⟨kids, hpage, hstart⟩ := metadata_start h hid hitems hres hfirst
  refine ⟨.mk a.about.resource (parseColl a.about.id a.about.items true ⟨kids, a.view⟩), b, by simp only [dtsMetadata, hreply, hpage], fun fuel depth hf hd => ?_⟩
  have main : ∀ (ops : List (DtsCatalogue × BrowseOp)) (log : List (List (Str × List Str))) (o : DtsShelf), Sound net query t o → (∀ x ∈ ops, Truthful x.1 net) →
      ∃ log' o' answers, browse query fuel depth log o ops = some (log', o', answers) ∧ answers.length = ops.length ∧
        ∀ p ∈ ops.zip answers, p.2 = t.answer p.1.2 ∨ ∃ e, p.2 = .error e ∧ Fails p.1.1 net e := by
    intro ops
    induction ops with
    | nil => intro log o _ _; exact ⟨log, o, [], rfl, rfl, by simp⟩
    | cons x ops ih =>
      intro log o ho hx
      obtain ⟨serve, op⟩ := x
      have hs : Truthful serve net := hx (serve, op) (by simp)
      obtain ⟨log1, o1, out, e1, k1, c1⟩ := sound_read h hs fuel depth (by omega) (fun log o ho => hb serve hs fuel depth hf hd log o ho) log o ho op
      obtain ⟨log2, o2, answers, e2, hl, hall⟩ := ih log1 o1 k1 (fun x hm => hx x (by simp [hm]))
      refine ⟨log2, o2, out :: answers, by simp only [browse, e1, e2], by simp [hl], fun p hp => ?_⟩
      rcases List.mem_cons.mp hp with rfl | hp
      · exact c1
      · exact hall p hp
  refine fun log ops => main ops log _ ?_
  by_cases hw : a.members ≠ [] ∧ a.view = none
  · exact sound_known h (hstart.1 hw) (by rw [← hitems]; exact parseColl_size ..) (parseColl_folks_unread ..)
  · exact sound_unread h (hstart.2.1 hw)

/-- Departure: a reply whose members have members of their own cannot be parsed. -/
theorem C101_fails_nested (net : DtsCatalogue) (query : List (Str × List Str)) (log : List (List (Str × List Str))) (objectId : Option Str) (a : DtsListing)
    (hreply : net (getCollection query objectId children .none) = .ok a) (e : DtsEntry) (he : e ∈ a.members) (hn : e.nested = true) :
    dtsMetadata net query log objectId = (log ++ [getCollection query objectId children .none], .error .typeError) := by
  have key : ∀ (p : Option Str) (l : List DtsEntry), e ∈ l → parseDtsMembers p l = .error .typeError := by
    intro p l
    induction l with
    | nil => intro h; simp at h
    | cons x l ih =>
      intro h
      rw [parseDtsMembers]
      by_cases hx : x.nested = true
      · simp [DtsEntry.parse, hx]
      · have hm : e ∈ l := by
          rcases List.mem_cons.mp h with rfl | h
          · exact absurd hn hx
          · exact h
        simp [DtsEntry.parse, hx, ih hm]
  simp only [dtsMetadata, hreply, DtsListing.page, key _ _ he]

/-- Departure: a member announced without items has none for ever, whatever the endpoint lists for it: it is never asked. -/
theorem C101_fails_zero (net : DtsCatalogue) (query : List (Str × List Str)) (fuel : Nat) (log : List (List (Str × List Str))) (e : DtsEntry) (hz : e.items = 0)
    (hn : e.nested = false) (parent : Option Str) :
    ∃ o o', e.parse parent = .ok o ∧ o.members net query fuel log = some (log, o', .ok []) := by
  refine ⟨freshObj parent e, .mk e.resource { (freshObj parent e).coll with log := log, kidsProxy := false, parsedKids := true }, by simp [DtsEntry.parse, hn, freshObj], ?_⟩
  have hs : (freshObj parent e).coll.size = 0 := by
    simp [freshObj, parseColl, RemoteColl.memberFlags, RemoteColl.touchKids, hz, DtsShelf.coll]
  have hk : (freshObj parent e).coll.kids = [] := by
    simp [freshObj, parseColl, RemoteColl.memberFlags, RemoteColl.touchKids, hz, DtsShelf.coll, updateKeys]
  simp only [DtsShelf.members, read_empty _ query fuel ({ (freshObj parent e).coll with log := log } : RemoteColl DtsShelf) hs]
  rw [hk]; rfl

private theorem getKid_held {c : RemoteColl DtsShelf} {k : Str} {y : DtsShelf} {serve : List (Str × List Str) → Except PyErr (CollPage DtsShelf)} {query : List (Str × List Str)} {fuel : Nat}
    (hp : c.parsedKids = false) (hz : c.size ≠ 0) (hf : c.kids.find? (fun p => p.1 == k) = some (k, y)) :
    c.read serve query fuel (.getKid k) = some (c, .ok (.item y)) := by
  have ht : c.touchKids = c := by unfold RemoteColl.touchKids; rw [if_pos hp, if_pos hz]
  simp only [RemoteColl.read, ht, hf, dictItem]
  rw [if_neg (by simp)]

/-- Departure: when the first reply is one page of several, its members are objects that can be used at once (`children` gives
one of them by its name without a request). Whatever they became in the meantime, listing the members asks for the first page
again and puts new objects, of which nothing was read, in their places. -/
theorem C101_fails_replaced (net : DtsCatalogue) (query : List (Str × List Str)) (t : Shelf) (h : Offers net query t) (hz : t.items ≠ 0)
    (log : List (List (Str × List Str))) (objectId : Option Str) (a : DtsListing) (hreply : net (getCollection query objectId children .none) = .ok a)
    (hid : a.about.id = t.id) (hitems : a.about.items = t.items) (hres : a.about.resource = t.resource)
    (hfirst : net (collRequest query t.id .children 1) = .ok a) (hpart : a.view ≠ none) :
    ∃ o, dtsMetadata net query log objectId = (log ++ [getCollection query objectId children .none], .ok o) ∧
      o.coll.kids.map (·.1) = a.members.map (·.id) ∧
      ∀ (kids' : List (Str × DtsShelf)), kids'.map (·.1) = o.coll.kids.map (·.1) →
        (∀ fuel k x, (k, x) ∈ kids' → ∃ c y, ({ o.coll with kids := kids' } : RemoteColl DtsShelf).read (net.pages t.id .children) query fuel (.getKid k) = some (c, .ok (.item y)) ∧
          (k, y) ∈ kids' ∧ c.log = o.coll.log) ∧
        ∀ fuel log', t.pages.length ≤ fuel → ∃ o' ms, (DtsShelf.mk o.readable { o.coll with kids := kids' }).members net query fuel log' =
            some (log' ++ t.ownRequests query, o', .ok ms) ∧ ms.map Except.ok = t.inside.map fun s => s.entry.parse (some t.id) := by
  obtain ⟨kids, hpage, hstart⟩ := metadata_start h hid hitems hres (by rw [if_neg hz]; exact hfirst)
  have hs : Unread t _ := hstart.2.1 (fun hw => hpart hw.2)
  refine ⟨.mk a.about.resource (parseColl a.about.id a.about.items true ⟨kids, a.view⟩), by simp only [dtsMetadata, hreply, hpage], ?_, fun kids' hk => ⟨fun fuel k x hx => ?_, fun fuel log' hf => ?_⟩⟩
  · exact hstart.2.2
  · obtain ⟨f1, f2, f3⟩ := hs.flags hz
    have hf : ∃ p, kids'.find? (fun p => p.1 == k) = some p ∧ p.1 = k ∧ p ∈ kids' := by
      cases hc : kids'.find? fun p => p.1 == k with
      | none => exact absurd (List.find?_eq_none.mp hc (k, x) hx) (by simp)
      | some p => exact ⟨p, rfl, by simpa using List.find?_some hc, List.mem_of_find?_eq_some hc⟩
    obtain ⟨⟨k', y⟩, hfind, hk', hmem⟩ := hf
    obtain rfl : k' = k := hk'
    refine ⟨_, y, getKid_held f1 ?_ hfind, hmem, rfl⟩
    show (DtsShelf.coll _).size ≠ 0
    rw [hs.size]; exact hz
  · have hu : Unread t (DtsShelf.mk a.about.resource { (parseColl a.about.id a.about.items true ⟨kids, a.view⟩ : RemoteColl DtsShelf) with kids := kids' }) :=
      ⟨hs.label, hs.size, hs.folks, hs.flags, by
        show kids'.map (·.1) <+: _
        rw [hk]; exact hs.first⟩
    obtain ⟨o', ms, e, _, _, hkids⟩ := members_unread h fuel hf log' hu
    refine ⟨o', ms, e, ?_⟩
    rw [members_kids e, hkids hz, List.map_map, List.map_map]
    exact List.map_congr_left fun s _ => by simp [DtsEntry.parse, Shelf.entry, freshObj]

/-- Departure: a member holds the collection it was listed in as a parent, and reading its parents adds what the endpoint lists:
when the endpoint lists that collection, it is there twice. -/
theorem C101_fails_parents (net : DtsCatalogue) (query : List (Str × List Str)) (fuel : Nat) (e : DtsEntry) (hn : e.nested = false) (parent : Str)
    (a : DtsListing) (hreply : net (collRequest query e.id .parents 1) = .ok a) (hone : a.view = none) (hplain : ∀ x ∈ a.members, x.nested = false)
    (hd : (a.members.map (·.id)).Nodup) (hp : parent ∈ a.members.map (·.id)) :
    ∃ o c ids, e.parse (some parent) = .ok o ∧
      o.coll.read (net.pages e.id .parents) query (fuel + 1) .iterFolks = some (c, .ok (.ids ids)) ∧ c.log = o.coll.log ++ [collRequest query e.id .parents 1] ∧
      ids.count parent = 2 ∧ ∀ x, x ≠ parent → ids.count x = (a.members.map (·.id)).count x := by
  have hpage : net.pages e.id .parents (collRequest query e.id .parents 1) = .ok ⟨a.members.map fun x => (x.id, freshObj none x), none⟩ := by
    simp only [DtsCatalogue.pages, hreply, DtsListing.page]
    rw [if_neg (by decide), parseDtsMembers_plain _ _ hplain, hone]
  have hm : (a.members.map fun x => (x.id, freshObj none x)) ≠ [] := fun h => by
    rw [List.map_eq_nil_iff] at h
    rw [h] at hp; simp at hp
  have hids : ((a.members.map fun x => (x.id, freshObj none x)).map (·.1)) = a.members.map (·.id) := by rw [List.map_map]; rfl
  have hc : ∃ c : RemoteColl DtsShelf, freshObj (some parent) e = .mk e.resource c ∧ c.id = e.id ∧ c.folks = [parent] ∧ c.parsedFolks = false ∧ c.folksProxy = true ∧ c.lastFolks = none := by
    refine ⟨_, rfl, ?_, rfl, ?_, ?_, ?_⟩ <;> simp only [parseColl, RemoteColl.memberFlags, RemoteColl.touchKids] <;> grind
  obtain ⟨c, hcc, c1, c2, c3, c4, c5⟩ := hc
  refine ⟨freshObj (some parent) e, { c with folks := parent :: a.members.map (·.id), parsedFolks := true, lastFolks := some 1, log := c.log ++ [collRequest query e.id .parents 1] },
    parent :: a.members.map (·.id), by simp [DtsEntry.parse, hn, freshObj], ?_, ?_, ?_, ?_⟩
  · rw [hcc]
    simp only [DtsShelf.coll, RemoteColl.read, RemoteColl.touchFolks, c3, Bool.false_eq_true, if_false, c4, if_true, runProxy, parsePaginated, c5, crawl, c1, hpage,
      Nat.one_ne_zero, RemoteColl.absorb, RemoteColl.memberFlags, RemoteColl.markParsed, ne_eq, hm, not_false_eq_true, true_or, c2, hids, List.cons_append, List.nil_append]
  · rw [hcc]; rfl
  · rw [List.count_cons_self, hd.count, if_pos hp]
  · intro x hx
    rw [List.count_cons_of_ne (Ne.symm hx)]

/-! ## An endpoint with three levels, the first of which is listed on two pages -/

/-- The endpoint: a root with two collections on two pages, the first of which has one text. -/
private def shopNet : DtsCatalogue := fun r =>
  let root : DtsEntry := ⟨"r".toList, 2, false, false⟩
  let lat : DtsEntry := ⟨"lat".toList, 1, false, false⟩
  let grc : DtsEntry := ⟨"grc".toList, 0, false, false⟩
  let txt : DtsEntry := ⟨"txt".toList, 0, true, false⟩
  if r = getCollection [] none children .none ∨ r = collRequest [] ("r".toList) .children 1 then .ok ⟨root, [lat], some (some ("?page=2".toList))⟩
  else if r = collRequest [] ("r".toList) .children 2 then .ok ⟨root, [grc], some none⟩
  else if r = collRequest [] ("lat".toList) .children 1 then .ok ⟨lat, [txt], none⟩
  else if r = collRequest [] ("lat".toList) .parents 1 then .ok ⟨lat, [root], none⟩
  else .error .valueError

private def shop : Shelf :=
  .mk ("r".toList) 2 false [1, 2] [.mk ("lat".toList) 1 false [1] [.mk ("txt".toList) 0 true [] []], .mk ("grc".toList) 0 false [] []]

private theorem shop_offers : Offers shopNet [] shop := by
  have hleaf : ∀ id r, Offers shopNet [] (.mk id 0 r [] []) := fun id r => .mk (fun _ => ⟨rfl, rfl⟩) (fun h => absurd rfl h) (by simp) (by simp)
  have hlat : Offers shopNet [] (.mk ("lat".toList) 1 false [1] [.mk ("txt".toList) 0 true [] []]) := by
    refine .mk (by simp) (fun _ => ⟨[(1, ⟨[("txt".toList, ⟨"txt".toList, 0, true, false⟩)], none⟩)], .last (by decide +kernel) (.inl rfl), rfl, rfl⟩) (by simp) (by simp; exact hleaf _ _)
  refine .mk (by simp) (fun _ => ⟨[(1, ⟨[("lat".toList, ⟨"lat".toList, 1, false, false⟩)], some (some ("?page=2".toList))⟩), (2, ⟨[("grc".toList, ⟨"grc".toList, 0, false, false⟩)], some none⟩)],
    .step (p := "2".toList) (by decide +kernel) rfl ((regexPage_iff _ _).1 (by decide +kernel)) (by decide) (.last (by decide +kernel) (.inr rfl)), rfl, rfl⟩) (by decide) (by simp; exact ⟨hlat, hleaf _ _⟩)

example : ∃ o b, dtsMetadata shopNet [] [] none = ([getCollection [] none children .none], .ok o) ∧ ∀ fuel depth, b ≤ fuel → b ≤ depth →
    ∃ o', browse [] fuel depth [getCollection [] none children .none] o [(shopNet, .get "lat".toList), (shopNet, .readable), (shopNet, .get "x".toList)] =
      some ([getCollection [] none children .none, collRequest [] "r".toList .children 1, collRequest [] "r".toList .children 2, collRequest [] "lat".toList .children 1], o',
        [.ok (.found ("lat".toList, false)), .ok (.labels [("txt".toList, true)]), .error .unknownCollection]) := by
  obtain ⟨o, b, h1, h2⟩ := C101_browsing shopNet [] shop shop_offers [] none _ rfl rfl rfl rfl rfl
  refine ⟨o, b, h1, fun fuel depth hf hd => ?_⟩
  obtain ⟨o', h3, _⟩ := h2 fuel depth hf hd [.get "lat".toList, .readable, .get "x".toList]
  exact ⟨o', h3⟩

/-- The same, executed. -/
example : (match dtsMetadata shopNet [] [] none with
    | (log, .ok o) => (browse [] 5 5 log o [(shopNet, .get "lat".toList), (shopNet, .readable), (fun _ => .error .valueError, .contains "txt".toList)]).map fun x => (x.1.length, x.2.2)
    | _ => none) = some (4, [.ok (.found ("lat".toList, false)), .ok (.labels [("txt".toList, true)]), .ok (.yes true)]) := by decide +kernel

/-- The endpoint, failing at the second page of the root or at the text. -/
private def shopDown (k : Nat) : DtsCatalogue := fun r =>
  if (k = 0 ∧ r = collRequest [] "r".toList .children 2) ∨ (k = 1 ∧ r = collRequest [] "lat".toList .children 1) then .error .valueError else shopNet r

private theorem shop_down (k : Nat) : Truthful (shopDown k) shopNet := by
  intro r a h
  unfold shopDown at h
  split at h
  · cases h
  · exact h

example : ∃ o b, dtsMetadata shopNet [] [] none = ([getCollection [] none children .none], .ok o) ∧ ∀ fuel depth, b ≤ fuel → b ≤ depth →
    ∃ log' o' x y z, browse [] fuel depth [] o [(shopDown 0, .members), (shopDown 1, .descendants), (shopNet, .readable)] = some (log', o', [x, y, z]) ∧
      z = .ok (.labels [("txt".toList, true)]) := by
  obtain ⟨o, b, h1, h2⟩ := C101_failures shopNet [] shop shop_offers [] none _ rfl rfl rfl rfl rfl
  refine ⟨o, b, h1, fun fuel depth hf hd => ?_⟩
  obtain ⟨log', o', answers, h3, hl, h4⟩ := h2 fuel depth hf hd [] [(shopDown 0, .members), (shopDown 1, .descendants), (shopNet, .readable)]
    (by intro x hx; simp only [List.mem_cons, List.not_mem_nil, or_false] at hx; rcases hx with rfl | rfl | rfl
        · exact shop_down 0
        · exact shop_down 1
        · exact fun _ _ h => h)
  match answers, hl with
  | [x, y, z], _ =>
    refine ⟨log', o', x, y, z, h3, ?_⟩
    rcases h4 ((shopNet, .readable), z) (by simp) with h | ⟨e, _, r, a, f1, f2⟩
    · exact h
    · cases f1.symm.trans f2

/-- Executed: the first two readings fail, each when it comes to the request that fails, and the third gives all. -/
example : (match dtsMetadata shopNet [] [] none with
    | (_, .ok o) => (browse [] 5 5 [] o [(shopDown 0, .members), (shopDown 1, .descendants), (shopNet, .readable)]).map fun x => (x.1.length, x.2.2)
    | _ => none) = some (6, [.error .valueError, .error .valueError, .ok (.labels [("txt".toList, true)])]) := by decide +kernel

example : ∃ o b, (DtsEntry.mk "lat".toList 1 false false).parse (some "r".toList) = .ok o ∧ ∀ fuel depth, b ≤ fuel → b ≤ depth → ∀ log,
    ∃ o', browse [] fuel depth log o [(shopNet, .members)] = some (log ++ [collRequest [] "lat".toList .children 1], o', [.ok (.labels [("txt".toList, true)])]) := by
  have hlat : Offers shopNet [] (.mk "lat".toList 1 false [1] [.mk "txt".toList 0 true [] []]) := by
    cases shop_offers with
    | mk _ _ _ h4 => exact h4 _ (by simp)
  obtain ⟨o, b, h1, h2⟩ := C101_member shopNet [] _ hlat (some "r".toList)
  refine ⟨o, b, h1, fun fuel depth hf hd log => ?_⟩
  obtain ⟨o', h3, _⟩ := (h2 fuel depth hf hd log).1 [.members]
  exact ⟨o', h3⟩

/-- The first reply is one page of two. -/
example : ∃ o, dtsMetadata shopNet [] [] none = ([getCollection [] none children .none], .ok o) ∧ o.coll.kids.map (·.1) = ["lat".toList] := by
  obtain ⟨o, h1, h2, _⟩ := C101_fails_replaced shopNet [] shop shop_offers (by decide) [] none _ rfl rfl rfl rfl rfl (by decide)
  exact ⟨o, h1, h2⟩

example : ∃ o c ids, (DtsEntry.mk "lat".toList 1 false false).parse (some "r".toList) = .ok o ∧
    o.coll.read (shopNet.pages "lat".toList .parents) [] 1 .iterFolks = some (c, .ok (.ids ids)) ∧ ids.count "r".toList = 2 := by
  obtain ⟨o, c, ids, h1, h2, _, h3, _⟩ := C101_fails_parents shopNet [] 0 ⟨"lat".toList, 1, false, false⟩ rfl "r".toList _ rfl rfl (by decide +kernel) (by decide +kernel) (by decide +kernel)
  exact ⟨o, c, ids, h1, h2, h3⟩

example : dtsMetadata (fun _ => .ok ⟨⟨"r".toList, 1, false, false⟩, [⟨"a".toList, 1, false, true⟩], none⟩) [] [] none = ([getCollection [] none children .none], .error .typeError) :=
  C101_fails_nested _ _ _ _ _ rfl ⟨"a".toList, 1, false, true⟩ (by simp) rfl

example : ∃ o o', (DtsEntry.mk "lat".toList 0 false false).parse none = .ok o ∧ o.members shopNet [] 9 [] = some ([], o', .ok []) :=
  C101_fails_zero shopNet [] 9 [] ⟨"lat".toList, 0, false, false⟩ rfl rfl none

end Verif.Props
