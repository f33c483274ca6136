import Verif.Lemmas.DtsJson
/-!
C74: DTS documents of collections. The namespaces of a graph and the Python values of typed literals are parameters; the order in
which the graphs are read is any rearrangement.
-/
namespace Verif.Props
open Verif.Py Verif.Model Verif.Spec Verif.Lemmas

/-- The parts of an export that succeeds. -/
structure Exported (order order' : Order) (cut : Cut) (native : Str → Str → Atom) (g : Graph) (o : DtsObj) (ms : List DtsObj)
    (cites : Option DtsCites) (j : DtsJson) (out : Graph) : Prop where
  nodup : out.Nodup
  mem : ∀ t, t ∈ out ↔ t ∈ g ∧ t.s = .uri o.id ∧ t.o.isBNode = false
  context : ∃ b, bindingsLoop cut [] ((order' out).map (·.p)).eraseDups = .ok b ∧ j.context = putEntry b vocabKey nsHydra
  containers : containerLoop cut native ⟨[], []⟩ (order' out) = .ok ⟨j.extensions, j.dublincore⟩
  base : exportBase order cut g (order' out) o = .ok j.base
  member : (if j.base.total ≠ 0 then (exportBases order cut g ms).map some else .ok none) = .ok j.member
  depth : j.citeDepth = match cites with
               | some cs => if cs.depth ≠ 0 then some cs.depth else none
               | none => none
  structure' : j.citeStructure = match cites with
               | some cs => if cs.trees.isEmpty then none else some (exportSet cs.trees)
               | none => none

theorem exported {order order' : Order} (ho : Rearranges order) {cut : Cut} {native : Str → Str → Atom} {g : Graph} {o : DtsObj}
    {ms : List DtsObj} {cites : Option DtsCites} {j : DtsJson} (h : exportDts order order' cut native g o ms cites = .ok j) :
    ∃ out, Exported order order' cut native g o ms cites j out := by
  obtain ⟨st, hst, hn, hm⟩ := derived ho g o.node
  simp only [exportDts, hst] at h
  split at h
  · cases h
  · rename_i ctx hctx
    split at h
    · cases h
    · rename_i c hc
      split at h
      · cases h
      · rename_i b hb
        split at h
        · cases h
        · rename_i member hmem
          cases h
          exact ⟨st.out, hn, hm, ⟨ctx, hctx, rfl⟩, hc, hb, hmem, by cases cites <;> rfl, by cases cites <;> rfl⟩

theorem nsHydra_eq : nsHydra = "https://www.w3.org/ns/hydra/core#".toList := rfl

theorem reserved_iff {ns : Str} : ns ∈ [nsCapitains, nsHydra, nsRdf, nsRdfs, nsDts] ↔ Reserved ns := by
  simp only [List.mem_cons, List.not_mem_nil, or_false, Reserved]; rfl

theorem placeOf_reserved {ns : Str} (h : Reserved ns) : placeOf ns = none := by rw [placeOf, if_pos (reserved_iff.2 h)]
theorem placeOf_dc {ns : Str} (h : DublinCore ns) : placeOf ns = some true := by
  have e : ns = nsDcterms := h
  subst e; decide
theorem placeOf_ext {ns : Str} (h : ¬ Reserved ns) (h' : ¬ DublinCore ns) : placeOf ns = some false := by
  have e : ns ≠ nsDcterms := h'
  rw [placeOf, if_neg (fun hm => h (reserved_iff.1 hm)), decide_eq_false e]

/-- The values that a key gets are those of its predicate. -/
theorem entries_perm {cut : Cut} (hq : QNames cut) {native : Str → Str → Atom} {order' : Order} (ho' : Rearranges order')
    {g out : Graph} {id : Str} (hg : g.Nodup) (hp : UriPredicates g (.uri id)) (hn : out.Nodup)
    (hm : ∀ t, t ∈ out ↔ t ∈ g ∧ t.s = .uri id ∧ t.o.isBNode = false) {p pre ns name : Str} (hc : cut p = .ok (pre, ns, name)) (dc : Bool) :
    (entriesFor cut native dc (order' out) (qnameOf pre name)).Perm
      (if placeOf ns = some dc then (valuesOf g (.uri id) (.uri p)).map (jsonOf native) else []) := by
  have key : entriesFor cut native dc (order' out) (qnameOf pre name) =
      if placeOf ns = some dc then (((order' out).filter fun t => t.p = .uri p).map (·.o)).map (jsonOf native) else [] := by
    have : ∀ l : List Triple, (∀ t ∈ l, ∃ s, t.p = .uri s) → l.filterMap (adds cut native dc (qnameOf pre name)) =
        if placeOf ns = some dc then ((l.filter fun t => t.p = .uri p).map (·.o)).map (jsonOf native) else [] := by
      intro l
      induction l with
      | nil => intro _; simp
      | cons t l ih =>
        intro hu
        have ih := ih (fun x hx => hu x (by simp [hx]))
        obtain ⟨s, hs⟩ := hu t (by simp)
        rw [List.filterMap_cons]
        by_cases e : s = p
        · have ea : adds cut native dc (qnameOf pre name) t = if placeOf ns = some dc then some (jsonOf native t.o) else none := by
            rw [adds, hs, Term.str, e, hc]
            simp [jsonOf_eq]
          have ef : (t :: l).filter (fun t => decide (t.p = .uri p)) = t :: l.filter (fun t => decide (t.p = .uri p)) := by
            rw [List.filter_cons, if_pos (by rw [hs, e]; simp)]
          rw [ea, ef, ih]
          by_cases hpl : placeOf ns = some dc
          · simp only [if_pos hpl, List.map_cons]
          · simp only [if_neg hpl]
        · have ea : adds cut native dc (qnameOf pre name) t = none := by
            rw [adds, hs, Term.str]
            split
            · rfl
            · rename_i pre' ns' name' hc'
              rw [if_neg]
              rintro ⟨-, hk⟩
              exact e (cut_inj hq hc' hc hk)
          have ef : (t :: l).filter (fun t => decide (t.p = .uri p)) = l.filter (fun t => decide (t.p = .uri p)) := by
            rw [List.filter_cons, if_neg (by rw [hs]; simpa using e)]
          rw [ea, ef, ih]
    exact this _ (fun t ht => hp t ((hm t).1 ((ho' out).mem_iff.1 ht)).1 ((hm t).1 ((ho' out).mem_iff.1 ht)).2.1)
  rw [key]
  split
  · refine List.Perm.map _ ?_
    have hnd : ∀ l : List Triple, l.Nodup → (∀ t ∈ l, t.s = .uri id ∧ t.p = .uri p) → (l.map (·.o)).Nodup := by
      intro l hl hs
      induction l with
      | nil => simp
      | cons t l ih =>
        rw [List.nodup_cons] at hl
        rw [List.map_cons, List.nodup_cons]
        refine ⟨fun hmem => ?_, ih hl.2 (fun x hx => hs x (by simp [hx]))⟩
        obtain ⟨u, hu, he⟩ := List.mem_map.1 hmem
        obtain ⟨a1, a2⟩ := hs t (by simp)
        obtain ⟨b1, b2⟩ := hs u (by simp [hu])
        have : u = t := by cases u; cases t; simp_all
        exact hl.1 (this ▸ hu)
    have e1 : ∀ t ∈ (order' out).filter (fun t => t.p = .uri p), t.s = .uri id ∧ t.p = .uri p := by
      intro t ht
      rw [List.mem_filter] at ht
      exact ⟨((hm t).1 ((ho' out).mem_iff.1 ht.1)).2.1, by simpa using ht.2⟩
    have e2 : ∀ t ∈ g.filter (fun t => t.s = .uri id && t.p = .uri p && !t.o.isBNode), t.s = .uri id ∧ t.p = .uri p := by
      intro t ht
      rw [List.mem_filter] at ht
      have := ht.2
      simp only [Bool.and_eq_true, decide_eq_true_eq] at this
      exact this.1
    rw [valuesOf]
    refine (List.perm_ext_iff_of_nodup (hnd _ (((ho' out).nodup_iff.2 hn).filter _) e1) (hnd _ (hg.filter _) e2)).2 fun v => ?_
    simp only [List.mem_map, List.mem_filter, Bool.and_eq_true, decide_eq_true_eq, Bool.not_eq_true', (ho' out).mem_iff, hm]
    constructor
    · rintro ⟨t, ⟨⟨a, b, c⟩, d⟩, e⟩; exact ⟨t, ⟨a, ⟨b, d⟩, c⟩, e⟩
    · rintro ⟨t, ⟨a, ⟨b, d⟩, c⟩, e⟩; exact ⟨t, ⟨⟨a, b, c⟩, d⟩, e⟩
  · exact .nil

theorem holding_export {order order' : Order} {cut : Cut} {native : Str → Str → Atom} {g : Graph} {o : DtsObj}
    {ms : List DtsObj} {cites : Option DtsCites} {j : DtsJson} {out : Graph} (h : Exported order order' cut native g o ms cites j out) :
    Holding cut native (order' out) ⟨j.extensions, j.dublincore⟩ := by
  have := containerLoop_ok (ts := []) (c := ⟨[], []⟩) (cut := cut) (native := native) (c' := ⟨j.extensions, j.dublincore⟩) ⟨fun k => rfl, fun k => rfl⟩ h.containers
  simpa using this

theorem listedAs_nil_iff {vs : List DValue} : listedAs vs = none ↔ vs = [] :=
  ⟨fun h => Classical.byContradiction fun hn => listedAs_ne_nil hn h, fun h => h ▸ rfl⟩

/-- C74. Under the key of a predicate the document shows exactly the values that the collection has for it, each once: in the Dublin
Core part when its namespace is that of Dublin Core terms, nowhere when the namespace has its own place in the document, and else in the extensions. -/
theorem C74_values (order order' : Order) (ho : Rearranges order) (ho' : Rearranges order') (cut : Cut) (hq : QNames cut)
    (native : Str → Str → Atom) (g : Graph) (hg : g.Nodup) (o : DtsObj) (hp : UriPredicates g (.uri o.id)) (ms : List DtsObj) (cites : Option DtsCites) (j : DtsJson)
    (h : exportDts order order' cut native g o ms cites = .ok j) (p pre ns name : Str) (hc : cut p = .ok (pre, ns, name)) :
    ∃ vs : List DValue, vs.Perm ((valuesOf g (.uri o.id) (.uri p)).map (jsonOf native)) ∧
      (Reserved ns → getEntry j.dublincore (qnameOf pre name) = none ∧ getEntry j.extensions (qnameOf pre name) = none) ∧
      (DublinCore ns → getEntry j.dublincore (qnameOf pre name) = listedAs vs ∧ getEntry j.extensions (qnameOf pre name) = none) ∧
      (¬ Reserved ns → ¬ DublinCore ns →
        getEntry j.dublincore (qnameOf pre name) = none ∧ getEntry j.extensions (qnameOf pre name) = listedAs vs) := by
  obtain ⟨out, he⟩ := exported ho h
  have hh := holding_export he
  have pd := entries_perm hq (native := native) ho' hg hp he.nodup he.mem hc true
  have pe := entries_perm hq (native := native) ho' hg hp he.nodup he.mem hc false
  have hd := hh.dc (qnameOf pre name)
  have hx := hh.ext (qnameOf pre name)
  by_cases r : Reserved ns
  · rw [placeOf_reserved r] at pd pe
    simp only [reduceCtorEq, if_false, List.perm_nil] at pd pe
    rw [pd] at hd; rw [pe] at hx
    refine ⟨_, .refl _, fun _ => ⟨hd, hx⟩, fun hdc => ?_, fun hn => absurd r hn⟩
    have := placeOf_dc hdc
    rw [placeOf_reserved r] at this; cases this
  · by_cases d : DublinCore ns
    · rw [placeOf_dc d] at pd pe
      simp only [if_true, Option.some.injEq, reduceCtorEq, if_false, List.perm_nil] at pd pe
      rw [pe] at hx
      exact ⟨_, pd, fun hr => absurd hr r, fun _ => ⟨hd, hx⟩, fun _ hn => absurd d hn⟩
    · rw [placeOf_ext r d] at pd pe
      simp only [if_true, Option.some.injEq, reduceCtorEq, if_false, List.perm_nil] at pd pe
      rw [pd] at hd
      exact ⟨_, pe, fun hr => absurd hr r, fun hn => absurd hn d, fun _ _ => ⟨hd, hx⟩⟩

theorem key_source {cut : Cut} {native : Str → Str → Atom} {order' : Order} (ho' : Rearranges order') {out : Graph} (dc : Bool) {k : Str}
    (hk : entriesFor cut native dc (order' out) k ≠ []) :
    ∃ t ∈ out, ∃ pre ns name, cut t.p.str = .ok (pre, ns, name) ∧ placeOf ns = some dc ∧ k = qnameOf pre name := by
  obtain ⟨v, hv⟩ := List.exists_mem_of_ne_nil _ hk
  obtain ⟨t, ht, ha⟩ := List.mem_filterMap.1 hv
  rw [adds] at ha
  split at ha
  · cases ha
  · rename_i pre ns name hc
    split at ha
    · rename_i hcond
      exact ⟨t, (ho' out).mem_iff.1 ht, pre, ns, name, hc, hcond.1, hcond.2.symm⟩
    · cases ha

/-- C74. Every key of the two parts is the qualified name of a predicate for which the collection has a value, and JSON-LD expansion
with the `@context` of the document gives the URI of that predicate back. -/
theorem C74_keys (order order' : Order) (ho : Rearranges order) (ho' : Rearranges order') (cut : Cut) (hq : QNames cut)
    (native : Str → Str → Atom) (g : Graph) (o : DtsObj) (hp : UriPredicates g (.uri o.id)) (ms : List DtsObj) (cites : Option DtsCites) (j : DtsJson)
    (h : exportDts order order' cut native g o ms cites = .ok j) (k : Str) (e : DEntry)
    (hk : getEntry j.dublincore k = some e ∨ getEntry j.extensions k = some e) :
    ∃ p pre ns name, cut p = .ok (pre, ns, name) ∧ k = qnameOf pre name ∧ valuesOf g (.uri o.id) (.uri p) ≠ [] ∧ expandName j.context k = p := by
  obtain ⟨out, he⟩ := exported ho h
  have hh := holding_export he
  have src : ∃ dc, entriesFor cut native dc (order' out) k ≠ [] := by
    rcases hk with hk | hk
    · refine ⟨true, fun hn => ?_⟩
      have := hh.dc k
      rw [hn] at this
      exact absurd (hk.symm.trans this) (by simp [listedAs])
    · refine ⟨false, fun hn => ?_⟩
      have := hh.ext k
      rw [hn] at this
      exact absurd (hk.symm.trans this) (by simp [listedAs])
  obtain ⟨dc, hs⟩ := src
  obtain ⟨t, ht, pre, ns, name, hc, hpl, hkey⟩ := key_source ho' dc hs
  obtain ⟨hgm, hsub, hbn⟩ := (he.mem t).1 ht
  obtain ⟨p, hpp⟩ := hp t hgm hsub
  rw [hpp, Term.str] at hc
  have hres : ¬ Reserved ns := fun hr => by rw [placeOf_reserved hr] at hpl; cases hpl
  have hne : pre ≠ [] := fun e => by
    subst e
    exact hres (.inr (.inl (hq.vocab _ _ _ hc)))
  refine ⟨p, pre, ns, name, hc, hkey, ?_, ?_⟩
  · intro hn
    have : t.o ∈ valuesOf g (.uri o.id) (.uri p) := by
      rw [valuesOf, List.mem_map]
      exact ⟨t, by rw [List.mem_filter]; simp [hgm, hsub, hpp, hbn], rfl⟩
    rw [hn] at this; cases this
  · obtain ⟨b, hb, hctx⟩ := he.context
    have hbind := (bindingsLoop_ok hq (b := []) (by intro _ _ h; cases h) hb).2.2 (.uri p)
      (by rw [List.mem_eraseDups, List.mem_map]; exact ⟨t, (ho' out).mem_iff.2 ht, hpp⟩) pre ns name hc
      (fun hm => hres (reserved_iff.1 (by simp only [List.mem_cons, List.not_mem_nil, or_false] at hm ⊢; rcases hm with h | h | h | h <;> simp [h])))
    obtain ⟨hcol, hat⟩ := hq.prefixes _ _ _ _ hc
    have hv : pre ≠ vocabKey := fun e => hat (by rw [e]; decide)
    rw [hkey, expandName, qnameOf, if_neg hne, find_append _ hcol]
    simp only [List.take_left, hctx, getEntry_putEntry]
    rw [if_neg hv, hbind]
    simp only
    rw [hq.whole _ _ _ _ hc]
    congr 1
    rw [List.drop_append]
    simp

theorem head_objects {order : Order} (ho : Rearranges order) {g : Graph} {s p v : Term} (h : (g.objects order s p).head? = some v) :
    (⟨s, p, v⟩ : Triple) ∈ g := (mem_objects ho).1 (List.mem_of_head? h)

theorem no_objects {order : Order} (ho : Rearranges order) {g : Graph} {s p : Term} (h : (g.objects order s p).head? = none) (v : Term) :
    (⟨s, p, v⟩ : Triple) ∉ g := fun hm => by
  have := (mem_objects ho).2 hm
  rw [List.head?_eq_none_iff] at h
  rw [h] at this; cases this

theorem total_of {order : Order} (ho : Rearranges order) {g : Graph} {o : DtsObj} {n : Int} (h : objSize order g o = .ok n) :
    (∀ k, o.counted = some k → n = k) ∧
    (o.counted = none → (∀ v, (⟨.uri o.id, .uri "https://www.w3.org/ns/hydra/core#totalItems".toList, v⟩ : Triple) ∉ g) → n = 0) ∧
    (o.counted = none → ∀ v, (⟨.uri o.id, .uri "https://www.w3.org/ns/hydra/core#totalItems".toList, v⟩ : Triple) ∈ g →
      ∃ w, (⟨.uri o.id, .uri "https://www.w3.org/ns/hydra/core#totalItems".toList, w⟩ : Triple) ∈ g ∧
        (∀ c ∈ w.str, isDigit c = true) ∧ n = (digitsVal w.str : Int)) := by
  rw [objSize] at h
  split at h
  · rename_i k hk
    cases h
    refine ⟨fun k' hk' => ?_, fun hn => ?_, fun hn => ?_⟩
    · rw [hk] at hk'; cases hk'; rfl
    · rw [hk] at hn; cases hn
    · rw [hk] at hn; cases hn
  · rename_i hk
    refine ⟨fun k' hk' => (by rw [hk] at hk'; cases hk'), fun _ hno => ?_, fun _ v hv => ?_⟩
    · split at h
      · cases h; rfl
      · rename_i w hw
        exact absurd (head_objects ho hw) (hno w)
    · split at h
      · rename_i hl
        exact absurd hv (no_objects ho hl v)
      · rename_i w hw
        refine ⟨w, head_objects ho hw, ?_⟩
        split at h
        · rename_i hs
          cases h
          rw [hs]
          exact ⟨by simp, rfl⟩
        · rw [pyInt] at h
          split at h
          · rename_i hd
            cases h
            exact ⟨by simpa [List.all_eq_true] using hd.2, rfl⟩
          · cases h

theorem base_of {order : Order} (ho : Rearranges order) {cut : Cut} {g : Graph} {descs : List Triple} {o : DtsObj} {b : DtsBase}
    (hsub : ∀ t ∈ descs, t ∈ g) (hall : ∀ t ∈ g, t.s = .uri o.id → t.o.isBNode = false → t ∈ descs)
    (h : exportBase order cut g descs o = .ok b) : BaseOf cut g o b := by
  rw [exportBase] at h
  split at h
  · cases h
  · rename_i ty hty
    split at h
    · cases h
    · rename_i q hqn
      split at h
      · cases h
      · rename_i n hsz
        cases h
        refine ⟨rfl, ?_, ?_, (total_of ho hsz).1, (total_of ho hsz).2.1, (total_of ho hsz).2.2, ?_, ?_⟩
        · rw [objType] at hty
          split at hty
          · cases hty
          · rename_i t' ht'
            cases hty
            rw [Cut.qname] at hqn
            split at hqn
            · cases hqn
            · rename_i pre ns name hc
              cases hqn
              exact ⟨ty, pre, ns, name, head_objects ho ht', hc, rfl⟩
        · show (∃ l, _ ∧ objTitle order g o = _) ∨ _ ∧ objTitle order g o = _
          rw [objTitle]
          split
          · rename_i hl
            exact .inr ⟨no_objects ho hl, rfl⟩
          · rename_i t hl
            exact .inl ⟨t, head_objects ho hl, rfl⟩
        · intro s hs
          simp only [Option.map_eq_some_iff] at hs
          obtain ⟨t, ht, rfl⟩ := hs
          have hm := List.mem_of_getLast? ht
          rw [List.mem_filter] at hm
          have hs' := hm.2
          simp only [Bool.and_eq_true, decide_eq_true_eq] at hs'
          refine ⟨t.o, ?_, rfl⟩
          have := hsub t hm.1
          cases t
          simp only at hs'
          obtain ⟨rfl, rfl⟩ := hs'
          exact this
        · intro hn
          simp only [Option.map_eq_none_iff, List.getLast?_eq_none_iff] at hn
          rw [valuesOf, List.map_eq_nil_iff, List.filter_eq_nil_iff]
          intro t ht hcond
          simp only [Bool.and_eq_true, decide_eq_true_eq, Bool.not_eq_true'] at hcond
          have hmem := hall t ht hcond.1.1 hcond.2
          have := List.filter_eq_nil_iff.1 hn t hmem
          apply this
          have h2 : t.p = pDescription := hcond.1.2
          simp [hcond.1.1, h2, DtsObj.node]

/-- C74. The names without prefix belong to Hydra: `@vocab` of the context. -/
theorem C74_vocabulary (order order' : Order) (ho : Rearranges order) (cut : Cut) (native : Str → Str → Atom) (g : Graph) (o : DtsObj)
    (ms : List DtsObj) (cites : Option DtsCites) (j : DtsJson) (h : exportDts order order' cut native g o ms cites = .ok j) :
    getEntry j.context "@vocab".toList = some "https://www.w3.org/ns/hydra/core#".toList := by
  obtain ⟨out, he⟩ := exported ho h
  obtain ⟨b, _, hb⟩ := he.context
  have e1 : vocabKey = "@vocab".toList := by decide +kernel
  have e2 : nsHydra = "https://www.w3.org/ns/hydra/core#".toList := by decide +kernel
  rw [hb, getEntry_putEntry, if_pos (by rw [e1]), e2]

/-- C74. The document begins with the identifier, the type, a title, the number of members and a description of the collection. -/
theorem C74_base (order order' : Order) (ho : Rearranges order) (ho' : Rearranges order') (cut : Cut) (native : Str → Str → Atom) (g : Graph) (o : DtsObj)
    (ms : List DtsObj) (cites : Option DtsCites) (j : DtsJson) (h : exportDts order order' cut native g o ms cites = .ok j) :
    BaseOf cut g o j.base := by
  obtain ⟨out, he⟩ := exported ho h
  exact base_of ho (fun t ht => ((he.mem t).1 ((ho' out).mem_iff.1 ht)).1)
    (fun t ht hs hb => (ho' out).mem_iff.2 ((he.mem t).2 ⟨ht, hs, hb⟩)) he.base

theorem exportBases_all {order : Order} (ho : Rearranges order) {cut : Cut} {g : Graph} : ∀ {ms : List DtsObj} {bs : List DtsBase},
    exportBases order cut g ms = .ok bs → AllTwo (BaseOf cut g) ms bs := by
  intro ms
  induction ms with
  | nil => intro bs h; simp only [exportBases, Except.ok.injEq] at h; exact h ▸ .nil
  | cons m ms ih =>
    intro bs h
    rw [exportBases] at h
    split at h
    · cases h
    · rename_i b hb
      split at h
      · cases h
      · rename_i bs' hbs
        cases h
        exact .cons (base_of ho (fun t ht => (ho g).mem_iff.1 ht) (fun t ht _ _ => (ho g).mem_iff.2 ht) hb) (ih hbs)

/-- C74. The members are listed when the number of members is not 0, one after the other, each with its base information. -/
theorem C74_members (order order' : Order) (ho : Rearranges order) (cut : Cut) (native : Str → Str → Atom) (g : Graph) (o : DtsObj)
    (ms : List DtsObj) (cites : Option DtsCites) (j : DtsJson) (h : exportDts order order' cut native g o ms cites = .ok j) :
    (j.base.total = 0 ∧ j.member = none) ∨
    (j.base.total ≠ 0 ∧ ∃ bs, j.member = some bs ∧ AllTwo (BaseOf cut g) ms bs) := by
  obtain ⟨out, he⟩ := exported ho h
  have hm := he.member
  by_cases e : j.base.total = 0
  · rw [if_neg (by simpa using e)] at hm
    cases hm' : j.member with
    | none => exact .inl ⟨e, rfl⟩
    | some x => rw [hm'] at hm; cases hm
  · rw [if_pos e] at hm
    cases hb : exportBases order cut g ms with
    | error x => rw [hb] at hm; cases hm
    | ok bs =>
      rw [hb] at hm
      have : some bs = j.member := by simpa [Except.map] using hm
      exact .inr ⟨e, bs, this.symm, exportBases_all ho hb⟩

/-- C74. The citation structure of a collection is in its document, with its depth. -/
theorem C74_citations (order order' : Order) (ho : Rearranges order) (cut : Cut) (native : Str → Str → Atom) (g : Graph) (o : DtsObj)
    (ms : List DtsObj) (cites : DtsCites) (j : DtsJson) (h : exportDts order order' cut native g o ms (some cites) = .ok j) :
    (cites.depth ≠ 0 → j.citeDepth = some cites.depth) ∧ (cites.depth = 0 → j.citeDepth = none) ∧
    (cites.trees ≠ [] → j.citeStructure = some (exportSet cites.trees)) ∧ (cites.trees = [] → j.citeStructure = none) := by
  obtain ⟨out, he⟩ := exported ho h
  rw [he.depth, he.structure']
  refine ⟨fun hn => if_pos hn, fun hz => if_neg (by simpa using hz), fun hn => if_neg ?_, fun hz => ?_⟩
  · cases ht : cites.trees with
    | nil => exact absurd ht hn
    | cons a l => simp
  · simp [hz]

theorem exportBase_some {order : Order} (ho : Rearranges order) {cut : Cut} {g : Graph} {o : DtsObj} (h : Presentable cut g o) (descs : List Triple) :
    ∃ b, exportBase order cut g descs o = .ok b := by
  rw [exportBase]
  have ht : ∃ t, objType order g o = .ok t ∧ ∃ x, cut t.str = .ok x := by
    rw [objType]
    cases hh : (g.objects order o.node pType).head? with
    | none =>
      obtain ⟨t, ht⟩ := h.typed
      exact absurd ht (no_objects ho hh t)
    | some t => exact ⟨t, rfl, h.cuttable t (head_objects ho hh)⟩
  obtain ⟨t, ht, ⟨pre, ns, name⟩, hx⟩ := ht
  have hs : ∃ n, objSize order g o = .ok n := by
    rw [objSize]
    cases hc : o.counted with
    | some n => exact ⟨_, rfl⟩
    | none =>
      cases hh : (g.objects order o.node pTotal).head? with
      | none => exact ⟨_, rfl⟩
      | some v =>
        have := h.number hc v (head_objects ho hh)
        simp only
        by_cases e : v.str = []
        · rw [if_pos e]; exact ⟨_, rfl⟩
        · rw [if_neg e, pyInt, if_pos ⟨e, List.all_eq_true.2 this⟩]; exact ⟨_, rfl⟩
  obtain ⟨n, hn⟩ := hs
  simp only [ht, Cut.qname, hx, hn]
  exact ⟨_, rfl⟩

theorem exportBases_some {order : Order} (ho : Rearranges order) {cut : Cut} {g : Graph} : ∀ {ms : List DtsObj}, (∀ m ∈ ms, Presentable cut g m) →
    ∃ bs, exportBases order cut g ms = .ok bs := by
  intro ms
  induction ms with
  | nil => intro _; exact ⟨[], rfl⟩
  | cons m ms ih =>
    intro h
    obtain ⟨b, hb⟩ := exportBase_some ho (h m (by simp)) (order g)
    obtain ⟨bs, hbs⟩ := ih (fun x hx => h x (by simp [hx]))
    exact ⟨b :: bs, by rw [exportBases, hb]; simp only [hbs]⟩

/-- C74. The export succeeds when the collection and its members have types and numbers that can be written, and the predicates of the
collection have qualified names. -/
theorem C74_success (order order' : Order) (ho : Rearranges order) (ho' : Rearranges order') (cut : Cut) (native : Str → Str → Atom) (g : Graph) (o : DtsObj)
    (ms : List DtsObj) (cites : Option DtsCites) (hp : ∀ t ∈ g, t.s = .uri o.id → t.o.isBNode = false → ∃ x, cut t.p.str = .ok x)
    (h : Presentable cut g o) (hm : ∀ m ∈ ms, Presentable cut g m) :
    ∃ j, exportDts order order' cut native g o ms cites = .ok j := by
  obtain ⟨st, hst, hn, hmem⟩ := derived ho g o.node
  have hcut : ∀ t ∈ order' st.out, ∃ x, cut t.p.str = .ok x := fun t ht => by
    obtain ⟨a, b, c⟩ := (hmem t).1 ((ho' st.out).mem_iff.1 ht)
    exact hp t a b c
  obtain ⟨ctx, hctx⟩ := (bindingsLoop_some (cut := cut) (b := []) (ps := ((order' st.out).map (·.p)).eraseDups)).2 (fun p hpm => by
    rw [List.mem_eraseDups, List.mem_map] at hpm
    obtain ⟨t, ht, rfl⟩ := hpm
    exact hcut t ht)
  obtain ⟨c, hc⟩ := (containerLoop_some (cut := cut) (native := native) (c := ⟨[], []⟩)).2 hcut
  obtain ⟨b, hb⟩ := exportBase_some ho h (order' st.out)
  obtain ⟨bs, hbs⟩ := exportBases_some ho hm
  simp only [exportDts, hst, hctx, hc, hb, hbs]
  by_cases e : b.total ≠ 0
  · rw [if_pos e]; exact ⟨_, rfl⟩
  · rw [if_neg e]; exact ⟨_, rfl⟩

/-! ## A case that meets the hypotheses -/

/-- Qualified names by a table of prefixes. -/
theorem tableCut_qnames {table : List (Str × Str)} (h1 : ∀ e ∈ table, ∀ e' ∈ table, e.1 = e'.1 → e.2 = e'.2)
    (h2 : ∀ e ∈ table, e.1 = [] → e.2 = "https://www.w3.org/ns/hydra/core#".toList) (h3 : ∀ e ∈ table, ':' ∉ e.1 ∧ '@' ∉ e.1) : QNames (tableCut table) := by
  have key : ∀ u pre ns name, tableCut table u = .ok (pre, ns, name) → (pre, ns) ∈ table ∧ u = ns ++ name ∧ ':' ∉ name := by
    intro u pre ns name h
    rw [tableCut] at h
    split at h
    · rename_i e he
      cases h
      have hm := List.mem_of_find?_eq_some he
      have hs := List.find?_some he
      simp only [Bool.and_eq_true, Bool.not_eq_true', startsWith] at hs
      refine ⟨hm, ?_, fun hc => ?_⟩
      · have := List.isPrefixOf_iff_prefix.1 hs.1
        exact (List.prefix_iff_eq_append.1 this).symm
      · have := hs.2
        rw [List.contains_iff_mem.2 hc] at this
        cases this
    · cases h
  constructor
  · intro u pre ns name h; exact (key u pre ns name h).2.1
  · intro u v pre ns ns' name name' hu hv; exact h1 _ (key _ _ _ _ hu).1 _ (key _ _ _ _ hv).1 rfl
  · intro u ns name h; exact h2 _ (key _ _ _ _ h).1 rfl
  · intro u pre ns name h; exact h3 _ (key _ _ _ _ h).1
  · intro u pre ns name h; exact (key _ _ _ _ h).2.2

theorem sampleCut_qnames : QNames sampleCut := tableCut_qnames (by decide +kernel) (by decide +kernel) (by decide +kernel)

/-- A collection with two titles, a creator, an extension and a member, in two orders of reading. -/
def priapeia : Graph :=
  [⟨.uri ['a'], pType, .uri (nsHydra ++ ['C', 'o', 'l', 'l', 'e', 'c', 't', 'i', 'o', 'n'])⟩, ⟨.uri ['a'], pModel, dtsCollectionUri⟩, ⟨.uri ['a'], pLabel, .lit ['P', 'r', 'i', 'a', 'p', 'e', 'i', 'a'] none none⟩,
   ⟨.uri ['a'], .uri (nsDcterms ++ ['t', 'i', 't', 'l', 'e']), .lit ['P', 'r', 'i', 'a', 'p', 'e', 'i', 'a'] (some ['l', 'a', 't']) none⟩, ⟨.uri ['a'], .uri (nsDcterms ++ ['t', 'i', 't', 'l', 'e']), .lit ['P', 'r', 'i', 'a', 'p', 'e', 'a'] (some ['e', 'n', 'g']) none⟩,
   ⟨.uri ['a'], .uri (nsDcterms ++ ['c', 'r', 'e', 'a', 't', 'o', 'r']), .lit ['A', 'n', 'o', 'n', 'y', 'm', 'o', 'u', 's'] none none⟩, ⟨.uri ['a'], .uri (nsDcterms ++ ['s', 'o', 'u', 'r', 'c', 'e']), .uri ['h', 't', 't', 'p', ':', '/', '/', 'e', 'x', 'a', 'm', 'p', 'l', 'e', '.', 'o', 'r', 'g', '/']⟩,
   ⟨.uri ['a'], pPrefLabel, .lit ['P', 'r', 'i', 'a', 'p', 'e', 'i', 'a'] none none⟩, ⟨.uri ['a'], pTotal, .lit ['1'] none (some xsdInteger)⟩,
   ⟨.uri ['b'], pType, .uri (nsHydra ++ ['R', 'e', 's', 'o', 'u', 'r', 'c', 'e'])⟩, ⟨.uri ['b'], pLabel, .lit ['E', 'd', 'i', 't', 'i', 'o', 'n'] none none⟩, ⟨.uri ['b'], pDescription, .lit ['B', 'a', 'e', 'h', 'r', 'e', 'n', 's'] none none⟩,
   ⟨.uri ['b'], pTotal, .lit ['0'] none (some xsdInteger)⟩, ⟨.uri ['b'], .uri (nsDcterms ++ ['t', 'i', 't', 'l', 'e']), .lit ['P', 'r', 'i', 'a', 'p', 'e', 'i', 'a'] (some ['l', 'a', 't']) none⟩]

/-- The export of that collection. -/
def priapeiaJson : Except PyErr DtsJson :=
  exportDts id List.reverse sampleCut sampleNative priapeia ⟨['a'], none⟩ [⟨['b'], none⟩] (some ⟨[.mk ⟨some ['p', 'o', 'e', 'm'], true⟩ [.mk ⟨some ['l', 'i', 'n', 'e'], true⟩ []]], none⟩)

example : priapeiaJson.map (fun j => (j.base, j.context, j.dublincore, j.extensions, j.member, j.citeDepth)) =
    .ok (⟨['a'], ['C', 'o', 'l', 'l', 'e', 'c', 't', 'i', 'o', 'n'], ['P', 'r', 'i', 'a', 'p', 'e', 'i', 'a'], 1, none⟩,
      [(['s', 'k', 'o', 's'], nsSkos), (['d', 'c', 't'], nsDcterms), (['d', 't', 's'], nsDts), ("@vocab".toList, nsHydra)],
      [(['d', 'c', 't', ':', 's', 'o', 'u', 'r', 'c', 'e'], .many [.link ['h', 't', 't', 'p', ':', '/', '/', 'e', 'x', 'a', 'm', 'p', 'l', 'e', '.', 'o', 'r', 'g', '/']]), (['d', 'c', 't', ':', 'c', 'r', 'e', 'a', 't', 'o', 'r'], .one (.plain (.text ['A', 'n', 'o', 'n', 'y', 'm', 'o', 'u', 's']))),
        (['d', 'c', 't', ':', 't', 'i', 't', 'l', 'e'], .many [.tagged ['P', 'r', 'i', 'a', 'p', 'e', 'a'] ['e', 'n', 'g'], .tagged ['P', 'r', 'i', 'a', 'p', 'e', 'i', 'a'] ['l', 'a', 't']])],
      [(['s', 'k', 'o', 's', ':', 'p', 'r', 'e', 'f', 'L', 'a', 'b', 'e', 'l'], .one (.plain (.text ['P', 'r', 'i', 'a', 'p', 'e', 'i', 'a'])))],
      some [⟨['b'], ['R', 'e', 's', 'o', 'u', 'r', 'c', 'e'], ['E', 'd', 'i', 't', 'i', 'o', 'n'], 0, some ['B', 'a', 'e', 'h', 'r', 'e', 'n', 's']⟩], some 2) := rfl

/-- All predicates are URIs. -/
theorem uriPredicates_of {g : Graph} (node : Term) (h : (g.all fun t => match t.p with | .uri _ => true | _ => false) = true) :
    UriPredicates g node := by
  intro t ht _
  have := List.all_eq_true.1 h t ht
  split at this
  · exact ⟨_, by assumption⟩
  · cases this

example : priapeia.Nodup ∧ Rearranges id ∧ Rearranges List.reverse ∧ UriPredicates priapeia (.uri ['a']) := by
  exact ⟨by decide +kernel, fun g => .refl _, fun g => List.reverse_perm g, uriPredicates_of _ (by decide +kernel)⟩

/-! ## Where it falls short -/

/-- The two RDF formats that a collection announces cannot be had, nor can the DTS format with a namespace manager. -/
theorem C74_fails_formats (order order' : Order) (cut : Cut) (native : Str → Str → Atom) (g : Graph) (o : DtsObj) (ms : List DtsObj) (cites : Option DtsCites) (m : Bool) :
    exportColl order order' cut native g o ms cites .jsonLd m = .error .attributeError ∧
    exportColl order order' cut native g o ms cites .rdfXml m = .error .attributeError ∧
    exportColl order order' cut native g o ms cites .dts true = .error .attributeError := ⟨rfl, rfl, rfl⟩

/-- The prefix of the type can be missing from the `@context`, so that the type is not that of the collection for one who reads the document:
a work of CTS without CTS properties. -/
theorem C74_fails_type : ∃ (g : Graph) (o : DtsObj) (j : DtsJson) (t : Str), g.Nodup ∧ UriPredicates g (.uri o.id) ∧ (⟨.uri o.id, pType, .uri t⟩ : Triple) ∈ g ∧
    (∀ t', (⟨.uri o.id, pType, t'⟩ : Triple) ∈ g → t' = .uri t) ∧
    exportDts id id sampleCut sampleNative g o [] none = .ok j ∧ expandName j.context j.base.type ≠ t := by
  refine ⟨[⟨.uri ['w'], pType, .uri ['h', 't', 't', 'p', ':', '/', '/', 'c', 'h', 's', '.', 'h', 'a', 'r', 'v', 'a', 'r', 'd', '.', 'e', 'd', 'u', '/', 'x', 'm', 'l', 'n', 's', '/', 'c', 't', 's', '/', 'w', 'o', 'r', 'k']⟩, ⟨.uri ['w'], pLabel, .lit ['W', 'o', 'r', 'k'] none none⟩], ⟨['w'], some 0⟩,
    ⟨[("@vocab".toList, nsHydra)], ⟨['w'], ['c', 't', 's', ':', 'w', 'o', 'r', 'k'], ['W', 'o', 'r', 'k'], 0, none⟩, [], [], none, none, none⟩, ['h', 't', 't', 'p', ':', '/', '/', 'c', 'h', 's', '.', 'h', 'a', 'r', 'v', 'a', 'r', 'd', '.', 'e', 'd', 'u', '/', 'x', 'm', 'l', 'n', 's', '/', 'c', 't', 's', '/', 'w', 'o', 'r', 'k'], by decide +kernel, uriPredicates_of _ (by decide +kernel),
    by decide +kernel, ?_, rfl, by decide +kernel⟩
  · intro t' ht
    simp only [List.mem_cons, List.not_mem_nil, or_false, Triple.mk.injEq, true_and] at ht
    rcases ht with h | ⟨h, -⟩
    · exact h
    · exact absurd h (by decide)

end Verif.Props
