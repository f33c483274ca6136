import Verif.Lemmas.Units
/-! Helper lemmas: the rounds of `getValidReff`. -/
namespace Verif.Model
open Verif.Py Verif.Spec

theorem take_succ_eq {α} {l : List α} {k : Nat} {x : α} (h : l[k]? = some x) : l.take (k + 1) = l.take k ++ [x] := by
  rw [List.take_add_one, h]; rfl

theorem mem_units_length {ls : List Level} {n : Node} {u : List Str × List Nat} (h : u ∈ units ls n) :
    u.1.length = ls.length := ((mem_units ls n u.1 u.2).1 h).1

theorem mem_kidsOf_prefix {l : Level} {n : Node} {u w : List Str × List Nat} (h : w ∈ kidsOf l n u) :
    ∃ v, w.1 = u.1 ++ [v] := by
  unfold kidsOf at h
  split at h
  · simp at h
  · simp only [List.mem_map] at h
    obtain ⟨t, _, rfl⟩ := h
    exact ⟨_, rfl⟩

theorem kidsOf_pos_nodup (l : Level) (n : Node) (u : List Str × List Nat) :
    (kidsOf l n u).Pairwise fun a b => a.2 ≠ b.2 := by
  unfold kidsOf
  split
  · exact List.Pairwise.nil
  · rw [List.pairwise_map]
    refine (select_sorted _ _).imp ?_
    rintro a b ⟨_, h⟩
    simpa using h

theorem flatMap_pairwise {α β : Type} {R : β → β → Prop} {f : α → List β} {l : List α}
    (h1 : ∀ a ∈ l, (f a).Pairwise R) (h2 : l.Pairwise fun a b => ∀ x ∈ f a, ∀ y ∈ f b, R x y) :
    (l.flatMap f).Pairwise R := by
  induction l with
  | nil => simp
  | cons a l ih =>
    rw [List.pairwise_cons] at h2
    rw [List.flatMap_cons, List.pairwise_append]
    refine ⟨h1 a (by simp), ih (fun b hb => h1 b (List.mem_cons_of_mem _ hb)) h2.2, ?_⟩
    intro x hx y hy
    rw [List.mem_flatMap] at hy
    obtain ⟨b, hb, hy⟩ := hy
    exact h2.1 b hb x hx y hy

/-- When units of a level have distinct identifiers, each is listed once. -/
theorem units_nodup {root : Node} {ls : List Level}
    (hd : ∀ k, ∀ u ∈ units (ls.take k) root, ∀ w ∈ units (ls.take k) root, u.1 = w.1 → u.2 = w.2) (k : Nat) :
    (units (ls.take k) root).Pairwise fun a b => a.1 ≠ b.1 := by
  induction k with
  | zero => simp [units]
  | succ k ih =>
    cases hk : ls[k]? with
    | none =>
      rw [List.take_add_one, hk]
      simpa using ih
    | some l =>
      rw [take_succ_eq hk, units_snoc]
      apply flatMap_pairwise
      · intro a ha
        have := kidsOf_pos_nodup l root a
        refine List.Pairwise.imp_of_mem ?_ this
        intro x y hx hy hne e
        apply hne
        refine hd (k + 1) x ?_ y ?_ e
        · rw [take_succ_eq hk, units_snoc, List.mem_flatMap]; exact ⟨a, ha, hx⟩
        · rw [take_succ_eq hk, units_snoc, List.mem_flatMap]; exact ⟨a, ha, hy⟩
      · refine ih.imp ?_
        intro a b hne x hx y hy e
        obtain ⟨v, hv⟩ := mem_kidsOf_prefix hx
        obtain ⟨w, hw⟩ := mem_kidsOf_prefix hy
        rw [hv, hw] at e
        exact hne (List.append_inj_left' e rfl)

theorem flatMap_eq_of_unique {α β : Type} {f : α → List β} {l : List α} {x : α} (hx : x ∈ l)
    (hn : l.Pairwise fun a b => ¬ (f a ≠ [] ∧ f b ≠ [])) (ho : ∀ y ∈ l, y ≠ x → f y = []) :
    l.flatMap f = f x := by
  induction l with
  | nil => simp at hx
  | cons a l ih =>
    rw [List.pairwise_cons] at hn
    rw [List.flatMap_cons]
    by_cases hax : a = x
    · subst hax
      by_cases hf : f a = []
      · have : l.flatMap f = [] := by
          rw [List.flatMap_eq_nil_iff]
          intro y hy
          by_cases e : y = a
          · rw [e]; exact hf
          · exact ho y (List.mem_cons_of_mem _ hy) e
        simp [this]
      · have : l.flatMap f = [] := by
          rw [List.flatMap_eq_nil_iff]
          intro y hy
          by_cases e : f y = []
          · exact e
          · exact absurd ⟨hf, e⟩ (hn.1 y hy)
        simp [this]
    · rw [ho a (by simp) hax, List.nil_append]
      rw [List.mem_cons] at hx
      rcases hx with hx | hx
      · exact absurd hx.symm hax
      · exact ih hx hn.2 fun y hy => ho y (List.mem_cons_of_mem _ hy)

/-- Identifiers of the units one level below the given ones. -/
def childIds (root : Node) (ls : List Level) (ids : List Str) : List (List Str) :=
  listing root ls (ids.length + 1) ids

/-- What a query finds: the units one level below. -/
theorem query_eq {root : Node} {ls : List Level} {l : Level}
    (hd : ∀ k, ∀ u ∈ units (ls.take k) root, ∀ w ∈ units (ls.take k) root, u.1 = w.1 → u.2 = w.2)
    (ids : List Str) (hl : ls[ids.length]? = some l) :
    ((select root (fillSteps (ls.take ids.length) (ids.map some) ++ l.anyId)).filterMap (nodeAt root)).map
      (fun c => (ids.map some) ++ [c.get l.attr]) = (childIds root ls ids).map (·.map some) := by
  have hlen : ids.length < ls.length := by
    have := List.getElem?_eq_some_iff.1 hl
    exact this.1
  have htl : (ls.take ids.length).length = ids.length := by simp; omega
  have hc : childIds root ls ids = (((units (ls.take ids.length) root).flatMap (kidsOf l root)).filter
      fun u => ids.isPrefixOf u.1).map (·.1) := by
    rw [childIds, listing, take_succ_eq hl, units_snoc]
  have hfil : ∀ u ∈ units (ls.take ids.length) root, ∀ w ∈ kidsOf l root u, (ids.isPrefixOf w.1 = true ↔ u.1 = ids) := by
    intro u hu w hw
    obtain ⟨v, hv⟩ := mem_kidsOf_prefix hw
    have h1 := mem_units_length hu
    rw [List.isPrefixOf_iff_prefix, hv]
    constructor
    · rintro ⟨r, hr⟩
      exact (List.append_inj hr (by omega)).1.symm
    · intro e; exact ⟨[v], by rw [e]⟩
  rw [hc, List.filter_flatMap]
  by_cases hex : ∃ t, (ids, t) ∈ units (ls.take ids.length) root
  · obtain ⟨t, ht⟩ := hex
    have hsel := ((mem_units _ _ _ _).1 ht).2
    have huniq : Uniq root (fillSteps (ls.take ids.length) (ids.map some)) t := by
      intro u
      constructor
      · intro hu
        exact hd _ (ids, u) ((mem_units _ _ _ _).2 ⟨htl.symm, hu⟩) (ids, t) ht rfl
      · rintro rfl; exact hsel
    obtain ⟨c, hc⟩ := Option.isSome_iff_exists.1 (sel_nodeAt hsel)
    rw [select_append_uniq (anyId_ne_nil l) huniq hc]
    rw [flatMap_eq_of_unique ht]
    · have hall : (kidsOf l root (ids, t)).filter (fun u => ids.isPrefixOf u.1) = kidsOf l root (ids, t) := by
        rw [List.filter_eq_self]
        intro w hw
        exact (hfil _ ht w hw).2 rfl
      rw [hall]
      simp only [kidsOf, hc, List.map_map, List.filterMap_map]
      have : ∀ ts : List (List Nat), (∀ t ∈ ts, Sel c l.anyId t) →
          (ts.filterMap (nodeAt root ∘ fun x => t ++ x)).map (fun c => (ids.map some) ++ [c.get l.attr]) =
          ts.map ((fun x => x.map some) ∘ (fun x => x.1) ∘ fun s => (ids ++ [((nodeAt c s).bind (·.get l.attr)).getD []], t ++ s)) := by
        intro ts hts
        induction ts with
        | nil => rfl
        | cons s ts ih =>
          obtain ⟨d, v, h1, h2⟩ := sel_anyId_get (hts s (by simp))
          have h3 : nodeAt root (t ++ s) = some d := by simp [nodeAt_append, hc, h1]
          rw [List.filterMap_cons]
          simp only [Function.comp_apply, h3, List.map_cons, h1, Option.bind_some, h2, Option.getD_some]
          rw [← ih fun t ht => hts t (List.mem_cons_of_mem _ ht)]
          simp [Function.comp_def]
      rw [this _ fun t ht => (mem_select (anyId_ne_nil l)).1 ht]
    · refine List.Pairwise.imp_of_mem ?_ (units_nodup hd ids.length)
      rintro a b ha hb hne ⟨h1, h2⟩
      apply hne
      obtain ⟨x, hx⟩ := List.exists_mem_of_ne_nil _ h1
      obtain ⟨y, hy⟩ := List.exists_mem_of_ne_nil _ h2
      rw [List.mem_filter] at hx hy
      rw [(hfil a ha x hx.1).1 hx.2, (hfil b hb y hy.1).1 hy.2]
    · intro y hy hne
      rw [List.filter_eq_nil_iff]
      intro w hw hp
      have h1 := (hfil y hy w hw).1 hp
      apply hne
      have h2 := hd _ y hy _ ht h1
      exact Prod.ext h1 h2
  · have hno : ∀ t, ¬ Sel root (fillSteps (ls.take ids.length) (ids.map some)) t := by
      intro t ht
      exact hex ⟨t, (mem_units _ _ _ _).2 ⟨htl.symm, ht⟩⟩
    rw [select_append_none hno (anyId_ne_nil l)]
    have : ((units (ls.take ids.length) root).flatMap fun a => (kidsOf l root a).filter fun u => ids.isPrefixOf u.1) = [] := by
      rw [List.flatMap_eq_nil_iff]
      intro u hu
      rw [List.filter_eq_nil_iff]
      intro w hw hp
      have h1 := (hfil u hu w hw).1 hp
      exact hex ⟨u.2, by subst h1; exact hu⟩
    rw [this]
    rfl

/-- The listing one level further down. -/
theorem listing_succ {root : Node} {ls : List Level} {l : Level} {k : Nat} (hl : ls[k]? = some l) (under : List Str)
    (hu : under.length ≤ k)
    (hd : ∀ k, ∀ u ∈ units (ls.take k) root, ∀ w ∈ units (ls.take k) root, u.1 = w.1 → u.2 = w.2) :
    listing root ls (k + 1) under = (listing root ls k under).flatMap (childIds root ls) := by
  have hk : k < ls.length := (List.getElem?_eq_some_iff.1 hl).1
  have htl : (ls.take k).length = k := by simp; omega
  have key : ∀ u ∈ units (ls.take k) root, childIds root ls u.1 = (kidsOf l root u).map (·.1) := by
    intro u hu'
    have h1 := mem_units_length hu'
    rw [htl] at h1
    rw [childIds, listing, h1, take_succ_eq hl, units_snoc, List.filter_flatMap]
    have hfil : ∀ a ∈ units (ls.take k) root, ∀ w ∈ kidsOf l root a, (u.1.isPrefixOf w.1 = true ↔ a.1 = u.1) := by
      intro a ha w hw
      obtain ⟨v, hv⟩ := mem_kidsOf_prefix hw
      have h2 := mem_units_length ha
      rw [List.isPrefixOf_iff_prefix, hv]
      constructor
      · rintro ⟨r, hr⟩
        exact (List.append_inj hr (by omega)).1.symm
      · intro e; exact ⟨[v], by rw [e]⟩
    rw [flatMap_eq_of_unique hu']
    · congr 1
      rw [List.filter_eq_self]
      intro w hw
      exact (hfil _ hu' w hw).2 rfl
    · refine List.Pairwise.imp_of_mem ?_ (units_nodup hd k)
      rintro a b ha hb hne ⟨h1, h2⟩
      apply hne
      obtain ⟨x, hx⟩ := List.exists_mem_of_ne_nil _ h1
      obtain ⟨y, hy⟩ := List.exists_mem_of_ne_nil _ h2
      rw [List.mem_filter] at hx hy
      rw [(hfil a ha x hx.1).1 hx.2, (hfil b hb y hy.1).1 hy.2]
    · intro y hy hne
      rw [List.filter_eq_nil_iff]
      intro w hw hp
      have h1 := (hfil y hy w hw).1 hp
      exact hne (Prod.ext h1 (hd _ y hy _ hu' h1))
  rw [listing, take_succ_eq hl, units_snoc, List.filter_flatMap, List.map_flatMap, listing, List.flatMap_map]
  have gen : ∀ us : List (List Str × List Nat), (∀ u ∈ us, u ∈ units (ls.take k) root) →
      (us.flatMap fun a => ((kidsOf l root a).filter fun u => under.isPrefixOf u.1).map (·.1)) =
      (us.filter fun u => under.isPrefixOf u.1).flatMap fun u => childIds root ls u.1 := by
    intro us hus
    induction us with
    | nil => rfl
    | cons u us ih =>
      have hm := hus u (by simp)
      have h1 := mem_units_length hm
      rw [htl] at h1
      have hpre : ∀ w ∈ kidsOf l root u, under.isPrefixOf w.1 = under.isPrefixOf u.1 := by
        intro w hw
        obtain ⟨v, hv⟩ := mem_kidsOf_prefix hw
        rw [Bool.eq_iff_iff, List.isPrefixOf_iff_prefix, List.isPrefixOf_iff_prefix, hv]
        constructor
        · intro h
          exact List.prefix_of_prefix_length_le h (List.prefix_append _ _) (by omega)
        · intro h; exact h.trans (List.prefix_append _ _)
      rw [List.flatMap_cons, ih fun u hu => hus u (List.mem_cons_of_mem _ hu), List.filter_cons]
      cases hb : under.isPrefixOf u.1 with
      | true =>
        rw [if_pos rfl, List.flatMap_cons, key u hm]
        congr 2
        rw [List.filter_eq_self]
        intro w hw; rw [hpre w hw, hb]
      | false =>
        have : ((kidsOf l root u).filter fun u => under.isPrefixOf u.1) = [] := by
          rw [List.filter_eq_nil_iff]
          intro w hw; rw [hpre w hw, hb]; simp
        rw [this]
        simp
  exact gen _ fun _ h => h

theorem mem_listing {root : Node} {ls : List Level} {k : Nat} {under ids : List Str} :
    ids ∈ listing root ls k under ↔ ∃ t, (ids, t) ∈ units (ls.take k) root ∧ under <+: ids := by
  simp only [listing, List.mem_map, List.mem_filter, List.isPrefixOf_iff_prefix]
  constructor
  · rintro ⟨⟨a, t⟩, ⟨h1, h2⟩, rfl⟩; exact ⟨t, h1, h2⟩
  · rintro ⟨t, h1, h2⟩; exact ⟨(ids, t), ⟨h1, h2⟩, rfl⟩

theorem declsOf_get {rootName : Str} {ls : List Level} {i : Nat} (h : i < ls.length) :
    (declsOf rootName ls)[i]? = some (declText rootName (ls.take (i + 1))) := by
  simp [declsOf, h]

theorem length_declsOf (rootName : Str) (ls : List Level) : (declsOf rootName ls).length = ls.length := by
  simp [declsOf]

/-- One query. -/
theorem queryOne {root : Node} {ls : List Level} {l : Level} (hc : Citable root ls) (ids : List Str)
    (hl : ls[ids.length]? = some l) (hq : ∀ v ∈ ids, '\'' ∉ v) :
    (declsOf root.tag ls)[(ids.map some).length]? = some (declText root.tag (ls.take (ids.length + 1))) ∧
    citationAttribute (declText root.tag (ls.take (ids.length + 1))) = .ok l.attr ∧
    ∃ f, fill (declText root.tag (ls.take (ids.length + 1))) (.list (ids.map some ++ [none])) = .ok f ∧
      evalXpath root f = .ok ((select root (fillSteps (ls.take ids.length) (ids.map some) ++ l.anyId)).filterMap (nodeAt root)) := by
  have hlen : ids.length < ls.length := (List.getElem?_eq_some_iff.1 hl).1
  have htl : (ls.take ids.length).length = ids.length := by simp; omega
  have hwf : ∀ x ∈ ls.take (ids.length + 1), x.WF := fun x hx => hc.wf x (List.mem_of_mem_take hx)
  have hfew : (ls.take (ids.length + 1)).length < 1000 := by
    have := hc.few
    simp
    omega
  refine ⟨?_, ?_, ?_⟩
  · rw [List.length_map]; exact declsOf_get hlen
  · rw [take_succ_eq hl] at hwf hfew ⊢
    exact attribute_decl hc.tag hwf hfew
  · refine ⟨_, fill_decl hc.tag hwf hfew _ (by simp; omega), ?_⟩
    have e : fillSteps (ls.take (ids.length + 1)) (ids.map some ++ [none]) =
        fillSteps (ls.take ids.length) (ids.map some) ++ l.anyId := by
      rw [take_succ_eq hl, fillSteps_append (by simp; omega)]
      simp [fillSteps]
    rw [← e]
    apply evalXpath_text hc.tag
    · rw [e]; simp [anyId_ne_nil]
    · apply fillSteps_ok hwf
      intro v hv
      simp at hv
      exact hq v hv

theorem readNodes_eq {refs : List (Option Str)} {d a : Str} (h : citationAttribute d = .ok a) (ns : List Node) :
    readNodes refs d ns = .ok (ns.map fun n => refs ++ [n.get a]) := by
  induction ns with
  | nil => rfl
  | cons n ns ih => simp [readNodes, h, ih]

/-- One round. -/
theorem reffRound_eq {root : Node} {ls : List Level} (hc : Citable root ls) (k : Nat) (hk : k < ls.length)
    (P : List (List Str)) (hP : ∀ ids ∈ P, ids.length = k ∧ ∀ v ∈ ids, '\'' ∉ v) :
    reffRound (declsOf root.tag ls) root (P.map (·.map some)) =
      if (P.flatMap (childIds root ls)).isEmpty then .error .keyError
      else .ok ((P.flatMap (childIds root ls)).map (·.map some)) := by
  obtain ⟨l, hl⟩ : ∃ l, ls[k]? = some l := ⟨_, List.getElem?_eq_getElem hk⟩
  have gen : ∀ P : List (List Str), (∀ ids ∈ P, ids.length = k ∧ ∀ v ∈ ids, '\'' ∉ v) →
      ∃ qs, queryAll (declsOf root.tag ls) root (P.map (·.map some)) = .ok qs ∧
        readAll qs = .ok ((P.flatMap (childIds root ls)).map (·.map some)) := by
    intro P hP
    induction P with
    | nil => exact ⟨[], rfl, rfl⟩
    | cons ids P ih =>
      obtain ⟨qs, h1, h2⟩ := ih fun i hi => hP i (List.mem_cons_of_mem _ hi)
      obtain ⟨hlen, hq⟩ := hP ids (by simp)
      have hl' : ls[ids.length]? = some l := by rw [hlen]; exact hl
      obtain ⟨q1, q2, f, q3, q4⟩ := queryOne hc ids hl' hq
      refine ⟨((select root (fillSteps (ls.take ids.length) (ids.map some) ++ l.anyId)).filterMap (nodeAt root),
        ids.map some, declText root.tag (ls.take (ids.length + 1))) :: qs, ?_, ?_⟩
      · simp only [List.map_cons, queryAll]
        rw [q1]
        simp only
        rw [q3]
        simp only
        rw [q4]
        simp only
        rw [h1]
      · simp only [readAll]
        rw [readNodes_eq q2, h2]
        simp only
        rw [query_eq hc.distinct ids hl', List.flatMap_cons, List.map_append]
  obtain ⟨qs, h1, h2⟩ := gen P hP
  rw [reffRound, h1]
  simp only
  rw [h2]
  simp only [List.isEmpty_map]

/-- All rounds. -/
theorem reffRounds_eq {root : Node} {ls : List Level} (hc : Citable root ls) (under : List Str) (n k : Nat)
    (P : List (List Str)) (hk : k + n ≤ ls.length) (hu : under.length ≤ k) (hP : P = listing root ls k under) (hne : P ≠ []) :
    reffRounds (declsOf root.tag ls) root n (P.map (·.map some)) =
      if (listing root ls (k + n) under).isEmpty then .error .keyError
      else .ok ((listing root ls (k + n) under).map (·.map some)) := by
  induction n generalizing k P with
  | zero => 
    rw [reffRounds, Nat.add_zero, ← hP, if_neg]
    simpa using hne
  | succ n ih =>
    obtain ⟨l, hl⟩ : ∃ l, ls[k]? = some l := ⟨_, List.getElem?_eq_getElem (by omega)⟩
    have hids : ∀ ids ∈ P, ids.length = k ∧ ∀ v ∈ ids, '\'' ∉ v := by
      intro ids hi
      rw [hP, mem_listing] at hi
      obtain ⟨t, ht, _⟩ := hi
      have h1 := mem_units_length ht
      simp at h1
      refine ⟨by omega, fun v hv => (hc.ids k _ ht v hv).2.1⟩
    have hs := listing_succ hl under hu hc.distinct
    rw [reffRounds, reffRound_eq hc k (by omega) P hids, hP, ← hs]
    by_cases he : (listing root ls (k + 1) under).isEmpty = true
    · rw [if_pos he]
      simp only
      have : ∀ m, k + 1 + m ≤ ls.length → listing root ls (k + 1 + m) under = [] := by
        intro m hm
        induction m with
        | zero => simpa using he
        | succ m ihm =>
          obtain ⟨l', hl'⟩ : ∃ l, ls[k + 1 + m]? = some l := ⟨_, List.getElem?_eq_getElem (by omega)⟩
          rw [show k + 1 + (m + 1) = k + 1 + m + 1 by omega, listing_succ hl' under (by omega) hc.distinct, ihm (by omega)]
          rfl
      rw [if_pos]
      rw [show k + (n + 1) = k + 1 + n by omega, this n (by omega)]
      rfl
    · rw [if_neg he]
      simp only
      rw [ih (k + 1) _ (by omega) (by omega) rfl (by simpa using he), show k + 1 + n = k + (n + 1) by omega]

/-- The search from a reference. -/
theorem reffRounds_from {root : Node} {ls : List Level} (hc : Citable root ls) (under : List Str) (n : Nat)
    (hk : under.length + (n + 1) ≤ ls.length) (hq : ∀ v ∈ under, '\'' ∉ v) :
    reffRounds (declsOf root.tag ls) root (n + 1) [under.map some] =
      if (listing root ls (under.length + (n + 1)) under).isEmpty then .error .keyError
      else .ok ((listing root ls (under.length + (n + 1)) under).map (·.map some)) := by
  have h1 := reffRound_eq hc under.length (by omega) [under] (by simpa using hq)
  simp only [List.map_cons, List.map_nil, List.flatMap_cons, List.flatMap_nil, List.append_nil] at h1
  rw [reffRounds, h1, childIds]
  by_cases he : (listing root ls (under.length + 1) under).isEmpty = true
  · rw [if_pos he]
    simp only
    have : ∀ m, under.length + 1 + m ≤ ls.length → listing root ls (under.length + 1 + m) under = [] := by
      intro m hm
      induction m with
      | zero => simpa using he
      | succ m ihm =>
        obtain ⟨l', hl'⟩ : ∃ l, ls[under.length + 1 + m]? = some l := ⟨_, List.getElem?_eq_getElem (by omega)⟩
        rw [show under.length + 1 + (m + 1) = under.length + 1 + m + 1 by omega,
          listing_succ hl' under (by omega) hc.distinct, ihm (by omega)]
        rfl
    rw [if_pos]
    rw [show under.length + (n + 1) = under.length + 1 + n by omega, this n (by omega)]
    rfl
  · rw [if_neg he]
    simp only
    rw [reffRounds_eq hc under n (under.length + 1) _ (by omega) (by omega) rfl (by simpa using he),
      show under.length + 1 + n = under.length + (n + 1) by omega]

theorem allSome_map (l : List Str) : allSome (l.map some) = .ok l := by
  induction l with
  | nil => rfl
  | cons s l ih => simp [allSome, ih]

theorem joinAll_map (L : List (List Str)) : joinAll (L.map (·.map some)) = .ok (L.map dotted) := by
  induction L with
  | nil => rfl
  | cons p L ih => simp [joinAll, allSome_map, ih, join_dot_eq_dotted]

theorem mkRefs_dotted {L : List (List Str)} (h : ∀ ids ∈ L, ids ≠ [] ∧ ∀ v ∈ ids, IsComponent v) :
    mkRefs (L.map dotted) = .ok (L.map fun ids => some (single ids)) := by
  induction L with
  | nil => rfl
  | cons p L ih =>
    obtain ⟨h1, h2⟩ := h p (by simp)
    simp [mkRefs, mkRef_dotted h1 h2, ih fun i hi => h i (List.mem_cons_of_mem _ hi), single]

theorem citationAt_ok {decls : List Str} {level : Int} (h1 : 1 ≤ level) (h2 : level ≤ decls.length) :
    ∃ d, citationAt decls (level - 1) = .ok d := by
  unfold citationAt
  rw [if_neg (by omega)]
  unfold pyGet
  rw [if_pos (by omega)]
  have : (level - 1).toNat < decls.length := by omega
  rw [List.getElem?_eq_getElem this]
  exact ⟨_, rfl⟩

/-- `getValidReff` once the level is known. -/
theorem reffsAt_eq {root : Node} {ls : List Level} (hc : Citable root ls) (under : List Str) (level : Nat)
    (h1 : under.length < level) (hq : ∀ v ∈ under, '\'' ∉ v) :
    reffsAt (declsOf root.tag ls) root under level =
      if ls.length < level then .error .citationDepth
      else if (listing root ls level under).isEmpty then .error .keyError
      else .ok ((listing root ls level under).map fun ids => some (single ids)) := by
  unfold reffsAt
  rw [length_declsOf]
  by_cases hl : ls.length < level
  · rw [if_pos hl, if_pos (by omega)]
  · rw [if_neg hl, if_neg (by omega)]
    obtain ⟨n, rfl⟩ : ∃ n, level = under.length + (n + 1) := ⟨level - under.length - 1, by omega⟩
    rw [show (((under.length + (n + 1) : Nat) : Int) - under.length).toNat = n + 1 by omega,
      reffRounds_from hc under n (by omega) hq]
    by_cases he : (listing root ls (under.length + (n + 1)) under).isEmpty = true
    · rw [if_pos he, if_pos he]
    · rw [if_neg he, if_neg he]
      simp only
      rw [finishReffs, joinAll_map]
      simp only
      rw [mkRefs_dotted]
      · obtain ⟨d, hd⟩ := citationAt_ok (decls := declsOf root.tag ls) (level := ((under.length + (n + 1) : Nat) : Int))
          (by omega) (by rw [length_declsOf]; omega)
        simp only
        rw [hd]
      · intro ids hi
        rw [mem_listing] at hi
        obtain ⟨t, ht, _⟩ := hi
        have hlen := mem_units_length ht
        simp at hlen
        refine ⟨?_, fun v hv => (hc.ids _ _ ht v hv).1⟩
        rintro rfl
        simp at hlen
        omega

end Verif.Model
