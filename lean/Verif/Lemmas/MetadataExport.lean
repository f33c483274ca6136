import Verif.Spec.MetadataExport
import Verif.Props.Metadata
/-! Lemmas about the selection of triples and the dictionary of the JSON export of metadata. -/
namespace Verif.Lemmas
open Verif.Py Verif.Model Verif.Spec

section Entries
variable {κ β : Type} [DecidableEq κ]

theorem getEntry_putEntry (d : List (κ × β)) (k : κ) (v : β) (k' : κ) :
    getEntry (putEntry d k v) k' = if k' = k then some v else getEntry d k' := by
  induction d with
  | nil =>
    simp only [putEntry, getEntry]
    by_cases e : k' = k
    · rw [if_pos e.symm, if_pos e]
    · rw [if_neg (Ne.symm e), if_neg e]
  | cons x d ih =>
    obtain ⟨a, w⟩ := x
    rw [putEntry]
    by_cases h : a = k
    · subst h
      rw [if_pos rfl, getEntry, getEntry]
      by_cases e : a = k'
      · subst e; rw [if_pos rfl, if_pos rfl]
      · rw [if_neg e, if_neg e, if_neg (Ne.symm e)]
    · rw [if_neg h, getEntry, getEntry, ih]
      by_cases e : a = k'
      · subst e; rw [if_pos rfl, if_pos rfl, if_neg h]
      · rw [if_neg e, if_neg e]

end Entries

theorem addValue_get {d : ByLang} {lang : Option Str} {vs : List Str} (h : getEntry d lang = shownAs vs) (v : Str) (l : Option Str) :
    getEntry (addValue d lang v) l = if l = lang then shownAs (vs ++ [v]) else getEntry d l := by
  rw [addValue, h]
  match vs with
  | [] => simp only [shownAs, getEntry_putEntry, List.nil_append]
  | [a] => simp only [shownAs, getEntry_putEntry, List.cons_append, List.nil_append]
  | a :: b :: r => simp only [shownAs, getEntry_putEntry, List.cons_append]

/-- The texts of the triples of a predicate in a language, in their order. -/
def textsIn (ts : List Triple) (k : Str) (lang : Option Str) : List Str :=
  (ts.filter fun t => t.p.str = k).filterMap fun t => textIn lang t.o

/-- The dictionary shows the triples read so far. -/
structure Shows (title : Str → Str) (ts : List Triple) (out : JDict) : Prop where
  keys : ∀ k, (getEntry out k).isSome ↔ ∃ t ∈ ts, t.p.str = k
  values : ∀ k lang, getEntry (entryFor out k) lang = shownAs ((textsIn ts k lang).map title)

theorem shows_step {title : Str → Str} {ts : List Triple} {out : JDict} (h : Shows title ts out) (t : Triple) :
    Shows title (ts ++ [t]) (jsonStep title out t) := by
  have keys : ∀ d k, (getEntry (putEntry out t.p.str d) k).isSome ↔ ∃ x ∈ ts ++ [t], x.p.str = k := by
    intro d k
    rw [getEntry_putEntry]
    by_cases e : k = t.p.str
    · rw [if_pos e]
      exact ⟨fun _ => ⟨t, by simp, e.symm⟩, fun _ => rfl⟩
    · rw [if_neg e, h.keys]
      constructor
      · rintro ⟨x, hx, hk⟩; exact ⟨x, by simp [hx], hk⟩
      · rintro ⟨x, hx, hk⟩
        rcases List.mem_append.1 hx with hx | hx
        · exact ⟨x, hx, hk⟩
        · rw [List.mem_singleton] at hx; subst hx; exact absurd hk.symm e
  have entry : ∀ d k, entryFor (putEntry out t.p.str d) k = if k = t.p.str then d else entryFor out k := by
    intro d k
    rw [entryFor, getEntry_putEntry]
    by_cases e : k = t.p.str
    · rw [if_pos e, if_pos e]; rfl
    · rw [if_neg e, if_neg e, entryFor]
  have other : ∀ k lang, k ≠ t.p.str → textsIn (ts ++ [t]) k lang = textsIn ts k lang := by
    intro k lang e
    rw [textsIn, List.filter_append, textsIn]
    simp [Ne.symm e]
  have same : ∀ lang, textsIn (ts ++ [t]) t.p.str lang = textsIn ts t.p.str lang ++ (textIn lang t.o).toList := by
    intro lang
    rw [textsIn, List.filter_append, List.filterMap_append, textsIn]
    cases hx : textIn lang t.o <;> simp [hx]
  unfold jsonStep
  split
  · rename_i s lg dt ho
    refine ⟨keys _, fun k lang => ?_⟩
    rw [entry]
    by_cases e : k = t.p.str
    · rw [if_pos e, e, addValue_get (h.values t.p.str lg), same, ho, textIn]
      by_cases el : lang = lg
      · subst el; rw [if_pos rfl, if_pos rfl]; simp
      · rw [if_neg el, if_neg (Ne.symm el), h.values]; simp
    · rw [if_neg e, other k lang e, h.values]
  · rename_i hno
    refine ⟨keys _, fun k lang => ?_⟩
    rw [entry]
    have hn : textIn lang t.o = none := by
      cases ho : t.o with
      | lit s l d => exact absurd ho (hno s l d)
      | uri s => rfl
      | bnode s => rfl
    by_cases e : k = t.p.str
    · rw [if_pos e, e, same, hn, h.values]; simp
    · rw [if_neg e, other k lang e, h.values]

theorem shows_foldl {title : Str → Str} (r : List Triple) : ∀ {ts : List Triple} {out : JDict}, Shows title ts out →
    Shows title (ts ++ r) (r.foldl (jsonStep title) out) := by
  induction r with
  | nil => intro ts out h; simpa using h
  | cons t r ih =>
    intro ts out h
    have := ih (shows_step h t)
    rwa [List.append_assoc] at this

theorem shows_all (title : Str → Str) (ts : List Triple) : Shows title ts (ts.foldl (jsonStep title) []) := by
  have := shows_foldl (title := title) ts (ts := []) (out := []) ⟨by simp [getEntry], by
    intro k lang; simp [entryFor, getEntry, textsIn, shownAs]⟩
  simpa using this

/-! ### Selection -/

/-- The namespace of the predicate is listed. -/
def nsIn (nsOf : Str → Except PyErr Str) (strs : List Str) (p : Term) : Bool :=
  match nsOf p.str with
  | .ok ns => strs.contains ns
  | .error _ => false

theorem nsIn_iff {nsOf : Str → Except PyErr Str} {strs : List Str} {p : Term} :
    nsIn nsOf strs p = true ↔ ∃ ns, nsOf p.str = .ok ns ∧ ns ∈ strs := by
  unfold nsIn
  cases h : nsOf p.str with
  | error e => simp
  | ok ns => simp

/-- The namespace can be computed. -/
def HasNs (nsOf : Str → Except PyErr Str) (p : Term) : Prop := ∃ ns, nsOf p.str = .ok ns

theorem extendOnly_ok {nsOf : Str → Except PyErr Str} {strs : List Str} : ∀ {ps : List Term} {only only' : List Choice},
    extendOnly nsOf strs only ps = .ok only' →
    only' = only ++ (ps.filter fun p => !strs.contains p.str && nsIn nsOf strs p).map .term ∧
      ∀ p ∈ ps, p.str ∉ strs → HasNs nsOf p
  | [], only, only', h => by
    rw [extendOnly] at h
    cases h
    simp
  | p :: r, only, only', h => by
    rw [extendOnly] at h
    by_cases hp : p.str ∈ strs
    · rw [if_pos hp] at h
      have ⟨h1, h2⟩ := extendOnly_ok h
      refine ⟨by simp [h1, hp], ?_⟩
      intro q hq hn
      rcases List.mem_cons.1 hq with rfl | hq
      · exact absurd hp hn
      · exact h2 q hq hn
    · rw [if_neg hp] at h
      split at h
      · cases h
      · rename_i ns hns
        have ⟨h1, h2⟩ := extendOnly_ok h
        refine ⟨?_, ?_⟩
        · rw [h1, List.filter_cons]
          by_cases hm : ns ∈ strs <;> simp [hm, hp, nsIn, hns]
        · intro q hq hn
          rcases List.mem_cons.1 hq with rfl | hq
          · exact ⟨ns, hns⟩
          · exact h2 q hq hn

theorem extendOnly_some {nsOf : Str → Except PyErr Str} {strs : List Str} : ∀ {ps : List Term} {only : List Choice},
    (∀ p ∈ ps, p.str ∉ strs → HasNs nsOf p) → ∃ only', extendOnly nsOf strs only ps = .ok only'
  | [], only, _ => ⟨only, rfl⟩
  | p :: r, only, h => by
    rw [extendOnly]
    by_cases hp : p.str ∈ strs
    · rw [if_pos hp]
      exact extendOnly_some fun q hq => h q (List.mem_cons_of_mem _ hq)
    · rw [if_neg hp]
      obtain ⟨ns, hns⟩ := h p (by simp) hp
      rw [hns]
      exact extendOnly_some fun q hq => h q (List.mem_cons_of_mem _ hq)

theorem restOf_ok {nsOf : Str → Except PyErr Str} {strs : List Str} : ∀ {ps : List Term} {only only' : List Choice},
    restOf nsOf strs only ps = .ok only' →
    only' = only ++ (ps.filter fun p => !strs.contains p.str && !nsIn nsOf strs p).map .term ∧ ∀ p ∈ ps, HasNs nsOf p
  | [], only, only', h => by
    rw [restOf] at h
    cases h
    simp
  | p :: r, only, only', h => by
    rw [restOf] at h
    split at h
    · cases h
    · rename_i ns hns
      have ⟨h1, h2⟩ := restOf_ok h
      refine ⟨?_, ?_⟩
      · rw [h1, List.filter_cons]
        by_cases hm : ns ∈ strs <;> by_cases hp : p.str ∈ strs <;> simp [hm, hp, nsIn, hns]
      · intro q hq
        rcases List.mem_cons.1 hq with rfl | hq
        · exact ⟨ns, hns⟩
        · exact h2 q hq

theorem restOf_some {nsOf : Str → Except PyErr Str} {strs : List Str} : ∀ {ps : List Term} {only : List Choice},
    (∀ p ∈ ps, HasNs nsOf p) → ∃ only', restOf nsOf strs only ps = .ok only'
  | [], only, _ => ⟨only, rfl⟩
  | p :: r, only, h => by
    rw [restOf]
    obtain ⟨ns, hns⟩ := h p (by simp)
    rw [hns]
    exact restOf_some fun q hq => h q (List.mem_cons_of_mem _ hq)

theorem foldl_insert (node : Term) (keep : Term → Bool) : ∀ (pairs : List (Term × Term)) (c : Graph), pairs.Nodup →
    (∀ x ∈ pairs, (⟨node, x.1, x.2⟩ : Triple) ∉ c) →
    pairs.foldl (fun c x => if keep x.1 then Graph.insert c ⟨node, x.1, x.2⟩ else c) c =
      c ++ (pairs.filter fun x => keep x.1).map fun x => ⟨node, x.1, x.2⟩
  | [], c, _, _ => by simp
  | x :: r, c, hd, hc => by
    rw [List.foldl_cons, List.filter_cons]
    have hx := List.nodup_cons.1 hd
    by_cases hk : keep x.1 = true
    · rw [if_pos hk, if_pos hk, Graph.insert, if_neg (hc x (by simp)), foldl_insert node keep r _ hx.2]
      · simp
      · intro y hy hm
        rcases List.mem_append.1 hm with hm | hm
        · exact hc y (List.mem_cons_of_mem _ hy) hm
        · have he := List.mem_singleton.1 hm
          injection he with _ h1 h2
          exact hx.1 (by rw [show x = y from Prod.ext h1.symm h2.symm]; exact hy)
    · rw [if_neg hk, if_neg hk]
      exact foldl_insert node keep r _ hx.2 fun y hy => hc y (List.mem_cons_of_mem _ hy)

/-- The triples of the pairs of a node. -/
theorem pairs_triples (l : List Triple) (node : Term) (keep : Term → Bool) :
    ((((l.filter fun t => t.s = node).map fun t => (t.p, t.o)).filter fun x => keep x.1).map fun x => (⟨node, x.1, x.2⟩ : Triple)) =
      l.filter fun t => decide (t.s = node) && keep t.p := by
  induction l with
  | nil => rfl
  | cons t l ih =>
    rw [List.filter_cons, List.filter_cons]
    by_cases e : t.s = node
    · rw [if_pos (by simpa using e), List.map_cons, List.filter_cons]
      by_cases hk : keep t.p = true
      · rw [if_pos hk, if_pos (by simp [e, hk]), List.map_cons, ih, ← e]
      · rw [if_neg hk, if_neg (by simp [hk]), ih]
    · rw [if_neg (by simpa using e), if_neg (by simp [e]), ih]

theorem nodup_pairs {l : List Triple} (h : l.Nodup) (node : Term) :
    ((l.filter fun t => t.s = node).map fun t => (t.p, t.o)).Nodup := by
  induction l with
  | nil => simp
  | cons t l ih =>
    have ⟨h1, h2⟩ := List.nodup_cons.1 h
    rw [List.filter_cons]
    by_cases e : t.s = node
    · rw [if_pos (by simpa using e), List.map_cons]
      refine List.nodup_cons.2 ⟨?_, ih h2⟩
      intro hm
      obtain ⟨u, hu, he⟩ := List.mem_map.1 hm
      have ⟨hu1, hu2⟩ := List.mem_filter.1 hu
      have hs : u.s = node := by simpa using hu2
      injection he with ep eo
      apply h1
      have : u = t := by
        cases u; cases t; simp only at ep eo hs e; rw [ep, eo, hs, e]
      rw [← this]; exact hu1
    · rw [if_neg (by simpa using e)]; exact ih h2

theorem copyListed_eq {order : Order} (ho : Rearranges order) {g : Graph} (hg : g.Nodup) (node : Term) (only : List Choice) :
    copyListed node only (pairsOf order g node) = (order g).filter fun t => decide (t.s = node) && decide (Choice.term t.p ∈ only) := by
  have := foldl_insert node (fun p => decide (Choice.term p ∈ only)) (pairsOf order g node) []
    (nodup_pairs ((ho g).nodup_iff.2 hg) node) (by simp)
  rw [copyListed]
  simp only [decide_eq_true_eq] at this
  rw [this, List.nil_append]
  exact pairs_triples (order g) node fun p => decide (Choice.term p ∈ only)

theorem copyAll_eq {order : Order} (ho : Rearranges order) {g : Graph} (hg : g.Nodup) (node : Term) :
    (pairsOf order g node).foldl (fun c x => Graph.insert c ⟨node, x.1, x.2⟩) [] = (order g).filter fun t => decide (t.s = node) := by
  have := foldl_insert node (fun _ => true) (pairsOf order g node) [] (nodup_pairs ((ho g).nodup_iff.2 hg) node) (by simp)
  simp only [if_true] at this
  rw [this, List.nil_append]
  have := pairs_triples (order g) node fun _ => true
  simp only [Bool.and_true] at this
  exact this

theorem mem_predicatesOf {order : Order} (ho : Rearranges order) {g : Graph} {node p : Term} :
    p ∈ predicatesOf order g node ↔ ∃ t ∈ g, t.s = node ∧ t.p = p := by
  rw [predicatesOf, List.mem_eraseDups, pairsOf]
  constructor
  · intro h
    obtain ⟨x, hx, rfl⟩ := List.mem_map.1 h
    obtain ⟨t, ht, rfl⟩ := List.mem_map.1 hx
    have ⟨h1, h2⟩ := List.mem_filter.1 ht
    exact ⟨t, (ho g).mem_iff.1 h1, by simpa using h2, rfl⟩
  · rintro ⟨t, ht, hs, rfl⟩
    exact List.mem_map.2 ⟨(t.p, t.o), List.mem_map.2 ⟨t, List.mem_filter.2 ⟨(ho g).mem_iff.2 ht, by simpa using hs⟩, rfl⟩, rfl⟩

/-- The exported triples are those of the node whose predicate the export is asked for. -/
theorem selectTriples_ok {order : Order} (ho : Rearranges order) {nsOf : Str → Except PyErr Str} {g : Graph} (hg : g.Nodup)
    {node : Term} {only exclude : Option (List Choice)} (hl : ListedAsTerms g node only) {sel : Selected}
    (h : selectTriples order nsOf g node only exclude = .ok sel) :
    ∃ keep : Term → Bool, sel.graph = ((order g).filter fun t => decide (t.s = node) && keep t.p) ∧
      ∀ t ∈ g, t.s = node → (keep t.p = true ↔ InExport nsOf only exclude t.p) := by
  unfold selectTriples at h
  split at h
  · rename_i only
    split at h
    · cases h
    · rename_i only' hx
      cases h
      refine ⟨fun p => decide (Choice.term p ∈ only'), copyListed_eq ho hg _ _, fun t ht hs => ?_⟩
      have ⟨h1, _⟩ := extendOnly_ok hx
      simp only [decide_eq_true_eq, h1, List.mem_append, List.mem_map, List.mem_filter, InExport, Asked]
      constructor
      · rintro (hc | ⟨q, ⟨_, hq⟩, he⟩)
        · exact .inl hc
        · injection he with he
          subst he
          simp only [Bool.and_eq_true] at hq
          exact .inr (by simpa using nsIn_iff.1 hq.2)
      · rintro (hc | hc)
        · exact .inl hc
        · by_cases hm : t.p.str ∈ only.map Choice.str
          · obtain ⟨c, hc1, hc2⟩ := List.mem_map.1 hm
            exact .inl (hl t ht hs c hc1 hc2 ▸ hc1)
          · refine .inr ⟨t.p, ⟨(mem_predicatesOf ho).2 ⟨t, ht, hs, rfl⟩, ?_⟩, rfl⟩
            simp only [Bool.and_eq_true, nsIn_iff]
            exact ⟨by simpa using hm, by simpa using hc⟩
  · split at h
    · rename_i ex
      split at h
      · cases h
      · rename_i l hx
        cases h
        refine ⟨fun p => decide (Choice.term p ∈ l), copyListed_eq ho hg _ _, fun t ht hs => ?_⟩
        have ⟨h1, _⟩ := restOf_ok hx
        simp only [decide_eq_true_eq, h1, List.nil_append, List.mem_map, List.mem_filter, InExport, Refused]
        constructor
        · rintro ⟨q, ⟨_, hq⟩, he⟩
          injection he with he
          subst he
          simp only [Bool.and_eq_true, Bool.not_eq_true', Bool.eq_false_iff, ne_eq, nsIn_iff] at hq
          rintro (hm | hm)
          · exact hq.1 (by simpa using hm)
          · exact hq.2 (by simpa using hm)
        · intro hn
          refine ⟨t.p, ⟨(mem_predicatesOf ho).2 ⟨t, ht, hs, rfl⟩, ?_⟩, rfl⟩
          simp only [Bool.and_eq_true, Bool.not_eq_true', Bool.eq_false_iff, ne_eq, nsIn_iff]
          exact ⟨fun hm => hn (.inl (by simpa using hm)), fun hm => hn (.inr (by simpa using hm))⟩
    · cases h
      refine ⟨fun _ => true, ?_, fun t _ _ => by simp [InExport]⟩
      simp only [Bool.and_true]
      exact copyAll_eq ho hg node

end Verif.Lemmas
