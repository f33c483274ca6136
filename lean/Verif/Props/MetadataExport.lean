import Verif.Lemmas.MetadataExport
/-!
C72: the JSON export of metadata shows, for every predicate that is asked for, exactly its literals by language.
-/
namespace Verif.Props
open Verif.Py Verif.Model Verif.Spec Verif.Lemmas

/-- C72 (predicates): the keys of the export are the predicates of the object that are asked for. -/
theorem C72_predicates (order order' : Order) (ho : Rearranges order) (ho' : Rearranges order') (nsOf : Str → Except PyErr Str)
    (title : Str → Str) (g : Graph) (hg : g.Nodup) (node : Term) (only exclude : Option (List Choice))
    (hl : ListedAsTerms g node only) (out : JDict) (left : Option (List Choice))
    (h : exportJson order order' nsOf title g node only exclude = .ok (out, left)) (k : Str) :
    (getEntry out k).isSome ↔ ∃ t ∈ g, t.s = node ∧ t.p.str = k ∧ InExport nsOf only exclude t.p := by
  unfold exportJson at h
  split at h
  · cases h
  · rename_i sel hs
    cases h
    obtain ⟨keep, h1, h2⟩ := selectTriples_ok ho hg hl hs
    rw [(shows_all title _).keys]
    constructor
    · rintro ⟨t, ht, hk⟩
      have ht := (ho' _).mem_iff.1 ht
      rw [h1, List.mem_filter, (ho g).mem_iff] at ht
      simp only [Bool.and_eq_true, decide_eq_true_eq] at ht
      exact ⟨t, ht.1, ht.2.1, hk, (h2 t ht.1 ht.2.1).1 ht.2.2⟩
    · rintro ⟨t, ht, hn, hk, hi⟩
      refine ⟨t, (ho' _).mem_iff.2 ?_, hk⟩
      rw [h1, List.mem_filter, (ho g).mem_iff]
      exact ⟨ht, by simp [hn, (h2 t ht hn).2 hi]⟩

/-- C72 (values): for a predicate that is asked for, the export shows in every language the texts of all literals of
the object in this language, each as often as it is there, through `title`: one text as such, several as a list. -/
theorem C72_values (order order' : Order) (ho : Rearranges order) (ho' : Rearranges order') (nsOf : Str → Except PyErr Str)
    (title : Str → Str) (g : Graph) (hg : g.Nodup) (node : Term) (hu : UriPredicates g node) (only exclude : Option (List Choice))
    (hl : ListedAsTerms g node only) (out : JDict) (left : Option (List Choice))
    (h : exportJson order order' nsOf title g node only exclude = .ok (out, left))
    (p : Term) (hp : ∃ t ∈ g, t.s = node ∧ t.p = p) (hi : InExport nsOf only exclude p) :
    ∃ d, getEntry out p.str = some d ∧
      ∀ lang, ∃ vs : List Str, vs.Perm (textsOf g node p lang) ∧ getEntry d lang = shownAs (vs.map title) := by
  obtain ⟨t0, ht0, hn0, rfl⟩ := hp
  have hk := (C72_predicates order order' ho ho' nsOf title g hg node only exclude hl out left h t0.p.str).2
    ⟨t0, ht0, hn0, rfl, hi⟩
  obtain ⟨d, hd⟩ := Option.isSome_iff_exists.1 hk
  refine ⟨d, hd, fun lang => ?_⟩
  unfold exportJson at h
  split at h
  · cases h
  · rename_i sel hs
    cases h
    obtain ⟨keep, h1, h2⟩ := selectTriples_ok ho hg hl hs
    have hv := (shows_all title (order' sel.graph)).values t0.p.str lang
    rw [entryFor, hd, Option.getD_some] at hv
    refine ⟨_, ?_, hv⟩
    have hperm : (order' sel.graph).Perm (g.filter fun t => decide (t.s = node) && keep t.p) :=
      (ho' _).trans (by rw [h1]; exact (ho g).filter _)
    have := (hperm.filter fun t => decide (t.p.str = t0.p.str)).filterMap fun t => textIn lang t.o
    refine this.trans (List.Perm.of_eq ?_)
    rw [textsOf, List.filter_filter]
    congr 1
    apply List.filter_congr
    intro t ht
    by_cases hn : t.s = node
    · by_cases he : t.p = t0.p
      · rw [he]
        simp [hn, (h2 t0 ht0 hn0).2 hi]
      · have : t.p.str ≠ t0.p.str := by
          obtain ⟨a, ha⟩ := hu t ht hn
          obtain ⟨b, hb⟩ := hu t0 ht0 hn0
          rw [ha, hb] at he ⊢
          intro e
          exact he (congrArg _ e)
        simp [hn, he, this]
    · simp [hn]

/-- C72 (success): an export without filters succeeds; with `only`, when every predicate that is not listed has a
namespace; with `exclude`, when every predicate has one. In the other cases it raises. -/
theorem C72_success (order order' : Order) (ho : Rearranges order) (nsOf : Str → Except PyErr Str) (title : Str → Str) (g : Graph)
    (node : Term) (only exclude : Option (List Choice)) :
    (∃ r, exportJson order order' nsOf title g node only exclude = .ok r) ↔
      ∀ t ∈ g, t.s = node → (match only, exclude with
        | some l, _ => t.p.str ∉ l.map Choice.str → ∃ ns, nsOf t.p.str = .ok ns
        | none, some _ => ∃ ns, nsOf t.p.str = .ok ns
        | none, none => True) := by
  have sel : (∃ r, exportJson order order' nsOf title g node only exclude = .ok r) ↔
      ∃ s, selectTriples order nsOf g node only exclude = .ok s := by
    unfold exportJson
    cases selectTriples order nsOf g node only exclude with
    | error e => simp
    | ok s => simp
  rw [sel]
  unfold selectTriples
  cases only with
  | some l =>
    simp only
    constructor
    · rintro ⟨s, hs⟩ t ht hn hm
      split at hs
      · cases hs
      · rename_i l' hx
        exact (extendOnly_ok hx).2 t.p ((mem_predicatesOf ho).2 ⟨t, ht, hn, rfl⟩) hm
    · intro h
      obtain ⟨l', hx⟩ := extendOnly_some (only := l) (nsOf := nsOf) (strs := l.map Choice.str) (ps := predicatesOf order g node) (by
        intro p hp hm
        obtain ⟨t, ht, hn, rfl⟩ := (mem_predicatesOf ho).1 hp
        exact h t ht hn hm)
      exact ⟨_, by rw [hx]⟩
  | none =>
    cases exclude with
    | some l =>
      simp only
      constructor
      · rintro ⟨s, hs⟩ t ht hn
        split at hs
        · cases hs
        · rename_i l' hx
          exact (restOf_ok hx).2 t.p ((mem_predicatesOf ho).2 ⟨t, ht, hn, rfl⟩)
      · intro h
        obtain ⟨l', hx⟩ := restOf_some (only := []) (nsOf := nsOf) (strs := l.map Choice.str) (ps := predicatesOf order g node) (by
          intro p hp
          obtain ⟨t, ht, hn, rfl⟩ := (mem_predicatesOf ho).1 hp
          exact h t ht hn)
        exact ⟨_, by rw [hx]⟩
    | none => simp

/-- Entries that an export adds to `only`. -/
structure Added (nsOf : Str → Except PyErr Str) (strs : List Str) (added : List Choice) : Prop where
  uri : ∀ c ∈ added, ∃ s, c = .term (.uri s) ∧ s ∉ strs ∧ ∃ ns, nsOf s = .ok ns ∧ ns ∈ strs

theorem added_ns {nsOf : Str → Except PyErr Str} (hns : ∀ p q ns, nsOf p = .ok ns → nsOf q ≠ .ok p) {strs : List Str}
    {added : List Choice} (h : Added nsOf strs added) {q n : Str} (hq : nsOf q = .ok n) :
    n ∈ strs ++ added.map Choice.str ↔ n ∈ strs := by
  refine ⟨fun hm => ?_, fun hm => List.mem_append.2 (.inl hm)⟩
  rcases List.mem_append.1 hm with hm | hm
  · exact hm
  · obtain ⟨c, hc, rfl⟩ := List.mem_map.1 hm
    obtain ⟨s, rfl, _, ns, h1, _⟩ := h.uri c hc
    exact absurd hq (hns s q ns h1)

theorem extendOnly_same {nsOf : Str → Except PyErr Str} (hns : ∀ p q ns, nsOf p = .ok ns → nsOf q ≠ .ok p) {strs : List Str}
    {added : List Choice} (h : Added nsOf strs added) : ∀ (ps : List Term) (a b : List Choice), (∀ p ∈ ps, ∃ s, p = .uri s) →
    (extendOnly nsOf (strs ++ added.map Choice.str) a ps).map (fun _ => ()) = (extendOnly nsOf strs b ps).map (fun _ => ())
  | [], a, b, _ => rfl
  | p :: r, a, b, hu => by
    have hr := fun a b => extendOnly_same hns h r a b fun q hq => hu q (List.mem_cons_of_mem _ hq)
    rw [extendOnly, extendOnly]
    by_cases h1 : p.str ∈ strs
    · rw [if_pos (List.mem_append.2 (.inl h1)), if_pos h1]
      exact hr a b
    · rw [if_neg h1]
      by_cases h2 : p.str ∈ added.map Choice.str
      · rw [if_pos (List.mem_append.2 (.inr h2))]
        obtain ⟨c, hc, he⟩ := List.mem_map.1 h2
        obtain ⟨s, rfl, _, ns, h3, _⟩ := h.uri c hc
        rw [show p.str = s from he.symm, h3]
        exact hr _ _
      · rw [if_neg (fun hm => (List.mem_append.1 hm).elim h1 h2)]
        cases nsOf p.str with
        | error e => rfl
        | ok ns => exact hr _ _

theorem copyListed_congr {node : Term} {a b : List Choice} {pairs : List (Term × Term)}
    (h : ∀ x ∈ pairs, Choice.term x.1 ∈ a ↔ Choice.term x.1 ∈ b) : copyListed node a pairs = copyListed node b pairs := by
  unfold copyListed
  generalize ([] : Graph) = c
  induction pairs generalizing c with
  | nil => rfl
  | cons x r ih =>
    rw [List.foldl_cons, List.foldl_cons]
    have hx := h x (by simp)
    have hr := fun c => ih (fun y hy => h y (List.mem_cons_of_mem _ hy)) c
    by_cases e : Choice.term x.1 ∈ a
    · rw [if_pos e, if_pos (hx.1 e)]; exact hr _
    · rw [if_neg e, if_neg fun k => e (hx.2 k)]; exact hr _

/-- C72 (lists of the caller): an export with `only` adds entries to the list of the caller; any later export with the
longer list, of any object in any graph, gives what it would have given with the first list. -/
theorem C72_only_again (order order' order2 order2' : Order) (ho : Rearranges order) (ho2 : Rearranges order2)
    (nsOf : Str → Except PyErr Str) (hns : ∀ p q ns, nsOf p = .ok ns → nsOf q ≠ .ok p) (title : Str → Str)
    (g g2 : Graph) (node : Term) (hu : UriPredicates g node) (node2 : Term) (hu2 : UriPredicates g2 node2) (only longer : List Choice)
    (out : JDict) (h : exportJson order order' nsOf title g node (some only) none = .ok (out, some longer)) :
    (exportJson order2 order2' nsOf title g2 node2 (some longer) none).map Prod.fst =
      (exportJson order2 order2' nsOf title g2 node2 (some only) none).map Prod.fst := by
  unfold exportJson selectTriples at h
  simp only at h
  split at h
  · cases h
  rename_i sel hs
  split at hs
  · cases hs
  rename_i l hx
  cases hs
  cases h
  have ⟨h1, _⟩ := extendOnly_ok hx
  generalize hadd : ((predicatesOf order g node).filter fun p => !(only.map Choice.str).contains p.str &&
    nsIn nsOf (only.map Choice.str) p).map Choice.term = added at h1
  have ha : Added nsOf (only.map Choice.str) added := ⟨by
    intro c hc
    rw [← hadd] at hc
    obtain ⟨p, hp, rfl⟩ := List.mem_map.1 hc
    have ⟨hp1, hp2⟩ := List.mem_filter.1 hp
    obtain ⟨t, ht, hn, rfl⟩ := (mem_predicatesOf ho).1 hp1
    obtain ⟨s, es⟩ := hu t ht hn
    simp only [Bool.and_eq_true, nsIn_iff] at hp2
    rw [es] at hp2 ⊢
    exact ⟨s, rfl, by simpa [Term.str] using hp2.1, hp2.2⟩⟩
  have hp2 : ∀ p ∈ predicatesOf order2 g2 node2, ∃ s, p = .uri s := by
    intro p hp
    obtain ⟨t, ht, hn, rfl⟩ := (mem_predicatesOf ho2).1 hp
    exact hu2 t ht hn
  unfold exportJson selectTriples
  have same := extendOnly_same hns ha (predicatesOf order2 g2 node2) longer only hp2
  rw [← List.map_append, ← h1] at same
  simp only
  cases e1 : extendOnly nsOf (longer.map Choice.str) longer (predicatesOf order2 g2 node2) with
  | error e =>
    rw [e1] at same
    cases e2 : extendOnly nsOf (only.map Choice.str) only (predicatesOf order2 g2 node2) with
    | error e' => rw [e2] at same; injection same with same; rw [same]
    | ok b => rw [e2] at same; cases same
  | ok a =>
    rw [e1] at same
    cases e2 : extendOnly nsOf (only.map Choice.str) only (predicatesOf order2 g2 node2) with
    | error e' => rw [e2] at same; cases same
    | ok b =>
      simp only [Except.map]
      have ⟨f1, _⟩ := extendOnly_ok e1
      have ⟨f2, _⟩ := extendOnly_ok e2
      rw [copyListed_congr (a := a) (b := b)]
      intro x hx
      have hxp : x.1 ∈ predicatesOf order2 g2 node2 := by
        rw [predicatesOf, List.mem_eraseDups]; exact List.mem_map.2 ⟨x, hx, rfl⟩
      obtain ⟨s, es⟩ := hp2 x.1 hxp
      rw [f1, f2, h1]
      simp only [List.mem_append, List.mem_map, List.mem_filter, Bool.and_eq_true, nsIn_iff, Bool.not_eq_true',
        List.contains_eq_mem, decide_eq_false_iff_not]
      constructor
      · rintro ((hc | hc) | ⟨q, ⟨hq, hq1, ns, hq2, hq3⟩, he⟩)
        · exact .inl hc
        · obtain ⟨s', e', n1, ns, n2, n3⟩ := ha.uri _ hc
          injection e' with e'
          refine .inr ⟨x.1, ⟨hxp, ?_, ns, ?_, ?_⟩, rfl⟩
          · rw [e']; simpa [Term.str] using n1
          · rw [e']; exact n2
          · simpa using n3
        · injection he with he
          subst he
          refine .inr ⟨x.1, ⟨hq, fun hm => hq1 ?_, ns, hq2, ?_⟩, rfl⟩
          · obtain ⟨c, hc, e⟩ := hm; exact ⟨c, .inl hc, e⟩
          · have := (added_ns hns ha hq2).1 (by
              rw [← List.map_append, List.mem_map]
              obtain ⟨c, hc, e⟩ := hq3
              exact ⟨c, List.mem_append.2 hc, e⟩)
            simpa using this
      · rintro (hc | ⟨q, ⟨hq, hq1, ns, hq2, hq3⟩, he⟩)
        · exact .inl (.inl hc)
        · injection he with he
          subst he
          by_cases hm : Choice.term x.1 ∈ added
          · exact .inl (.inr hm)
          · refine .inr ⟨x.1, ⟨hq, ?_, ns, hq2, ?_⟩, rfl⟩
            · rintro ⟨c, hc | hc, e⟩
              · exact hq1 ⟨c, hc, e⟩
              · obtain ⟨s', rfl, _⟩ := ha.uri c hc
                rw [es] at hm e
                have e : s' = s := e
                rw [e] at hc
                exact hm hc
            · obtain ⟨c, hc, e⟩ := hq3
              exact ⟨c, .inl hc, e⟩

/-! ### A text with titles in two languages, a link, and a date -/

/-- The namespaces of the names of the example: up to the last `/` or `#`. -/
def exNsOf (s : Str) : Except PyErr Str :=
  match s.reverse.span fun c => c ≠ '/' ∧ c ≠ '#' with
  | ([], _) => .error .valueError
  | (_, []) => .error .valueError
  | (_, r) => .ok r.reverse

def exDc (s : String) : Term := .uri ("http://purl.org/dc/elements/1.1/".toList ++ s.toList)
def exNode : Term := .uri "urn:cts:latinLit:phi1294.phi002".toList
def exMetaGraph : Graph :=
  [⟨exNode, exDc "title", .lit "epigrammata".toList (some "lat".toList) none⟩,
   ⟨exNode, exDc "title", .lit "Epigrams".toList (some "eng".toList) none⟩,
   ⟨exNode, exDc "title", .lit "The Epigrams".toList (some "eng".toList) none⟩,
   ⟨exNode, .uri "http://schema.org/about".toList, .uri "http://example.org/martial".toList⟩,
   ⟨.uri "other".toList, exDc "title", .lit "Other".toList none none⟩]

set_option synthInstance.maxSize 1000 in
set_option synthInstance.maxHeartbeats 200000 in
instance : DecidableEq (JDict × Option (List Choice)) := inferInstance

example : exportJson id id exNsOf (asciiTitle false) exMetaGraph exNode none none =
    .ok ([((exDc "title").str, [(some "lat".toList, .one "Epigrammata".toList),
        (some "eng".toList, .many ["Epigrams".toList, "The Epigrams".toList])]),
      ("http://schema.org/about".toList, [])], none) := by decide +kernel

example : ListedAsTerms exMetaGraph exNode (some [.text "http://purl.org/dc/elements/1.1/".toList]) := by
  show ∀ t ∈ exMetaGraph, t.s = exNode → ∀ c ∈ [Choice.text "http://purl.org/dc/elements/1.1/".toList], c.str = t.p.str → c = .term t.p
  decide +kernel

example : exportJson id id exNsOf (asciiTitle false) exMetaGraph exNode (some [.text "http://purl.org/dc/elements/1.1/".toList]) none =
    .ok ([((exDc "title").str, [(some "lat".toList, .one "Epigrammata".toList),
        (some "eng".toList, .many ["Epigrams".toList, "The Epigrams".toList])])],
      some [.text "http://purl.org/dc/elements/1.1/".toList, .term (exDc "title")]) := by decide +kernel

example : UriPredicates exMetaGraph exNode ∧ exMetaGraph.Nodup := by
  refine ⟨?_, by decide +kernel⟩
  intro t ht _
  simp only [exMetaGraph, List.mem_cons, List.not_mem_nil, or_false] at ht
  rcases ht with rfl | rfl | rfl | rfl | rfl <;> exact ⟨_, rfl⟩

/-- C72 fails to show the values as they are: they are written in title case. -/
theorem C72_fails_title : exportJson id id exNsOf (asciiTitle false)
    [⟨exNode, exDc "title", .lit "de bello Gallico, ed. MRT".toList (some "lat".toList) none⟩] exNode none none =
    .ok ([((exDc "title").str, [(some "lat".toList, .one "De Bello Gallico, Ed. Mrt".toList)])], none) := by decide +kernel

/-- C72 fails for a predicate that `only` lists as a plain string: nothing is exported, even when its namespace
is listed as well. -/
theorem C72_fails_plain_string : (exportJson id id exNsOf id exMetaGraph exNode
    (some [.text (exDc "title").str, .text "http://purl.org/dc/elements/1.1/".toList]) none).map Prod.fst = .ok [] := by decide +kernel

/-- C72 fails to leave the list of the caller alone. -/
theorem C72_fails_list_grows : (exportJson id id exNsOf id exMetaGraph exNode
    (some [.text "http://purl.org/dc/elements/1.1/".toList]) none).map Prod.snd =
    .ok (some [.text "http://purl.org/dc/elements/1.1/".toList, .term (exDc "title")]) := by decide +kernel

end Verif.Props
