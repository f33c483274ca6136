import Verif.Spec.DtsJson
import Verif.Lemmas.MetadataExport
import Verif.Lemmas.Str
import Verif.Props.Subgraph
/-! Lemmas about the export of collections as DTS documents. -/
namespace Verif.Lemmas
open Verif.Py Verif.Model Verif.Spec Verif.Props

theorem jsonOf_eq (native : Str → Str → Atom) (t : Term) : literalToDict native t = jsonOf native t := by
  rcases t with s | s | ⟨s, _ | l, _ | d⟩ <;> rfl

/-! ### The derived graph -/

theorem downLoop_nodup {visit : Term → SubState → Option SubState} {target : Term} : ∀ {L : List (Term × Term)} {s s' : SubState},
    downLoop visit target 0 L s = some s' → s.out.Nodup → s'.out.Nodup := by
  intro L
  induction L with
  | nil => intro s s' h hn; simp only [downLoop, Option.some.injEq] at h; exact h ▸ hn
  | cons x L ih =>
    intro s s' h hn
    obtain ⟨p, o⟩ := x
    rw [downLoop] at h
    split at h
    · exact ih h hn
    · simp only [ne_eq, not_true_eq_false, false_and, if_false] at h
      exact ih h (nodup_insert hn)

/-- The triples that the export reads: those of the node whose object is not a blank node. -/
theorem derived {order : Order} (ho : Rearranges order) (g : Graph) (node : Term) :
    ∃ st, graphiter order g 1 node 0 1 .new = some st ∧ st.out.Nodup ∧
      ∀ t, t ∈ st.out ↔ t ∈ g ∧ t.s = node ∧ t.o.isBNode = false := by
  obtain ⟨st, h, -⟩ := C52_one_level order ho g 0 node ⟨node, node, node⟩
  refine ⟨st, h, ?_, fun t => ?_⟩
  · rw [graphiter, if_pos (by simp [SubState.new])] at h
    change (match downLoop _ node 0 _ _ with | none => none | some st1 => _) = _ at h
    split at h
    · cases h
    · rename_i st1 h1
      simp only [ne_eq, not_true_eq_false, false_and, if_false, Option.some.injEq] at h
      subst h
      exact downLoop_nodup h1 (by simp [SubState.new])
  · obtain ⟨st', h', ht⟩ := C52_one_level order ho g 0 node t
    have : st' = st := Option.some.inj (h'.symm.trans h)
    exact this ▸ ht

/-! ### Containers -/

theorem listedAs_ne_nil {vs : List DValue} (h : vs ≠ []) : listedAs vs ≠ none := by
  match vs with
  | [] => exact absurd rfl h
  | [.plain a] => simp [listedAs]
  | [.tagged a b] => simp [listedAs]
  | [.link a] => simp [listedAs]
  | a :: b :: r => simp [listedAs]

theorem addEntry_get {m : Container} {k : Str} {vs : List DValue} (h : getEntry m k = listedAs vs) (v : DValue) (k' : Str) :
    getEntry (addEntry m k v) k' = if k' = k then listedAs (vs ++ [v]) else getEntry m k' := by
  rw [addEntry, h]
  match vs with
  | [] => cases v <;> simp [listedAs, getEntry_putEntry, DValue.isDict]
  | [.plain a] => cases v <;> simp [listedAs, getEntry_putEntry]
  | [.tagged a b] => cases v <;> simp [listedAs, getEntry_putEntry]
  | [.link a] => cases v <;> simp [listedAs, getEntry_putEntry]
  | a :: b :: r => simp only [listedAs, getEntry_putEntry, List.cons_append]

/-- Where the values of a namespace go: nowhere, to Dublin Core, or to the extensions. -/
def placeOf (ns : Str) : Option Bool :=
  if ns ∈ [nsCapitains, nsHydra, nsRdf, nsRdfs, nsDts] then none else some (decide (ns = nsDcterms))

/-- The value that a triple adds under a key. -/
def adds (cut : Cut) (native : Str → Str → Atom) (dc : Bool) (k : Str) (t : Triple) : Option DValue :=
  match cut t.p.str with
  | .error _ => none
  | .ok (pre, ns, name) => if placeOf ns = some dc ∧ qnameOf pre name = k then some (literalToDict native t.o) else none

/-- The values under a key. -/
def entriesFor (cut : Cut) (native : Str → Str → Atom) (dc : Bool) (ts : List Triple) (k : Str) : List DValue :=
  ts.filterMap (adds cut native dc k)

/-- The two containers hold the triples read so far. -/
structure Holding (cut : Cut) (native : Str → Str → Atom) (ts : List Triple) (c : Containers) : Prop where
  dc : ∀ k, getEntry c.dublincore k = listedAs (entriesFor cut native true ts k)
  ext : ∀ k, getEntry c.extensions k = listedAs (entriesFor cut native false ts k)

theorem entriesFor_snoc (cut : Cut) (native : Str → Str → Atom) (dc : Bool) (ts : List Triple) (t : Triple) (k : Str) :
    entriesFor cut native dc (ts ++ [t]) k = entriesFor cut native dc ts k ++ (adds cut native dc k t).toList := by
  rw [entriesFor, List.filterMap_append, entriesFor]
  cases h : adds cut native dc k t <;> simp [h]

theorem holding_step {cut : Cut} {native : Str → Str → Atom} {ts : List Triple} {c : Containers} (h : Holding cut native ts c) {t : Triple}
    {pre ns name : Str} (hc : cut t.p.str = .ok (pre, ns, name)) :
    Holding cut native (ts ++ [t])
      (if ns ∈ [nsCapitains, nsHydra, nsRdf, nsRdfs, nsDts] then c
        else if ns = nsDcterms then { c with dublincore := addEntry c.dublincore (qnameOf pre name) (literalToDict native t.o) }
        else { c with extensions := addEntry c.extensions (qnameOf pre name) (literalToDict native t.o) }) := by
  have ha : ∀ dc k, adds cut native dc k t = if placeOf ns = some dc ∧ qnameOf pre name = k then some (literalToDict native t.o) else none := by
    intro dc k; rw [adds, hc]
  split
  · rename_i hn
    have hp : placeOf ns = none := by rw [placeOf, if_pos hn]
    constructor <;> intro k <;> rw [entriesFor_snoc, ha, hp]
    · simpa using h.dc k
    · simpa using h.ext k
  · rename_i hn
    split
    · rename_i hd
      have hp : placeOf ns = some true := by rw [placeOf, if_neg hn]; simp [hd]
      constructor <;> intro k <;> rw [entriesFor_snoc, ha, hp]
      · show getEntry (addEntry _ _ _) k = _
        rw [addEntry_get (h.dc _)]
        by_cases e : k = qnameOf pre name
        · subst e; simp
        · rw [if_neg e, h.dc]; simp [Ne.symm e]
      · simpa using h.ext k
    · rename_i hd
      have hp : placeOf ns = some false := by rw [placeOf, if_neg hn]; simp [hd]
      constructor <;> intro k <;> rw [entriesFor_snoc, ha, hp]
      · simpa using h.dc k
      · show getEntry (addEntry _ _ _) k = _
        rw [addEntry_get (h.ext _)]
        by_cases e : k = qnameOf pre name
        · subst e; simp
        · rw [if_neg e, h.ext]; simp [Ne.symm e]

theorem containerLoop_ok {cut : Cut} {native : Str → Str → Atom} : ∀ {r ts : List Triple} {c c' : Containers}, Holding cut native ts c →
    containerLoop cut native c r = .ok c' → Holding cut native (ts ++ r) c' := by
  intro r
  induction r with
  | nil => intro ts c c' h hl; simp only [containerLoop, Except.ok.injEq] at hl; rw [List.append_nil]; exact hl ▸ h
  | cons t r ih =>
    intro ts c c' h hl
    rw [containerLoop] at hl
    split at hl
    · cases hl
    · rename_i pre ns name hc
      have := ih (holding_step h hc) hl
      rwa [List.append_assoc] at this

theorem containerLoop_some {cut : Cut} {native : Str → Str → Atom} : ∀ {r : List Triple} {c : Containers},
    (∃ c', containerLoop cut native c r = .ok c') ↔ ∀ t ∈ r, ∃ x, cut t.p.str = .ok x := by
  intro r
  induction r with
  | nil => intro c; simp [containerLoop]
  | cons t r ih =>
    intro c
    rw [containerLoop]
    split
    · rename_i e hc
      constructor
      · rintro ⟨_, h⟩; cases h
      · intro h; obtain ⟨x, hx⟩ := h t (by simp); rw [hc] at hx; cases hx
    · rename_i pre ns name hc
      rw [ih]
      simp [hc]

/-! ### The context -/

theorem bindingsLoop_some {cut : Cut} : ∀ {ps : List Term} {b : List (Str × Str)},
    (∃ b', bindingsLoop cut b ps = .ok b') ↔ ∀ p ∈ ps, ∃ x, cut p.str = .ok x := by
  intro ps
  induction ps with
  | nil => intro b; simp [bindingsLoop]
  | cons p ps ih =>
    intro b
    rw [bindingsLoop]
    split
    · rename_i e hc
      constructor
      · rintro ⟨_, h⟩; cases h
      · intro h; obtain ⟨x, hx⟩ := h p (by simp); rw [hc] at hx; cases hx
    · rename_i pre ns name hc
      rw [ih]
      simp [hc]

/-- Every prefix in the bindings stands for its namespace. -/
def BindsRight (cut : Cut) (b : List (Str × Str)) : Prop :=
  ∀ pre ns, getEntry b pre = some ns → ∃ u name, cut u = .ok (pre, ns, name)

theorem bindingsLoop_ok {cut : Cut} (hq : QNames cut) : ∀ {ps : List Term} {b b' : List (Str × Str)}, BindsRight cut b →
    bindingsLoop cut b ps = .ok b' → BindsRight cut b' ∧ (∀ pre ns, getEntry b pre = some ns → getEntry b' pre = some ns) ∧
      ∀ p ∈ ps, ∀ pre ns name, cut p.str = .ok (pre, ns, name) → ns ∉ [nsCapitains, nsHydra, nsRdf, nsRdfs] → getEntry b' pre = some ns := by
  intro ps
  induction ps with
  | nil => intro b b' hb h; simp only [bindingsLoop, Except.ok.injEq] at h; subst h; exact ⟨hb, fun _ _ h => h, by simp⟩
  | cons p ps ih =>
    intro b b' hb h
    rw [bindingsLoop] at h
    split at h
    · cases h
    · rename_i pre ns name hc
      have hb1 : BindsRight cut (if getEntry b pre = none ∧ ns ∉ [nsCapitains, nsHydra, nsRdf, nsRdfs] then putEntry b pre ns else b) := by
        split
        · intro pre' ns' hg
          rw [getEntry_putEntry] at hg
          split at hg
          · rename_i e; cases hg; exact ⟨p.str, name, e ▸ hc⟩
          · exact hb _ _ hg
        · exact hb
      have keep : ∀ pre' ns', getEntry b pre' = some ns' →
          getEntry (if getEntry b pre = none ∧ ns ∉ [nsCapitains, nsHydra, nsRdf, nsRdfs] then putEntry b pre ns else b) pre' = some ns' := by
        intro pre' ns' hg
        split
        · rename_i hcond
          rw [getEntry_putEntry, if_neg (fun e => by rw [e, hcond.1] at hg; cases hg)]; exact hg
        · exact hg
      obtain ⟨h1, h2, h3⟩ := ih hb1 h
      refine ⟨h1, fun pre' ns' hg => h2 _ _ (keep _ _ hg), fun q hq' pre' ns' name' hc' hn => ?_⟩
      rcases List.mem_cons.1 hq' with rfl | hq'
      · rw [hc] at hc'
        cases hc'
        apply h2
        split
        · rw [getEntry_putEntry, if_pos rfl]
        · rename_i hcond
          cases hg : getEntry b pre with
          | none => exact absurd ⟨hg, hn⟩ hcond
          | some ns' =>
            obtain ⟨u, nm, hu⟩ := hb _ _ hg
            rw [hq.apart _ _ _ _ _ _ _ hu hc]
      · exact h3 q hq' pre' ns' name' hc' hn

/-! ### Qualified names -/

theorem qnameOf_inj {p p' n n' : Str} (hp : ':' ∉ p) (hp' : ':' ∉ p') (hn : ':' ∉ n) (hn' : ':' ∉ n') (h : qnameOf p n = qnameOf p' n') :
    p = p' ∧ n = n' := by
  unfold qnameOf at h
  by_cases e : p = [] <;> by_cases e' : p' = []
  · rw [if_pos e, if_pos e'] at h; exact ⟨e.trans e'.symm, h⟩
  · rw [if_pos e, if_neg e'] at h; exact absurd (h ▸ hn) (by simp)
  · rw [if_neg e, if_pos e'] at h; exact absurd (h ▸ hn') (by simp)
  · rw [if_neg e, if_neg e'] at h
    have hf := congrArg (find ':') h
    rw [find_append _ hp, find_append _ hp'] at hf
    have hl : p.length = p'.length := by simpa using hf
    have := List.append_inj h hl
    exact ⟨this.1, by simpa using this.2⟩

theorem cut_inj {cut : Cut} (hq : QNames cut) {u v p p' ns ns' n n' : Str} (hu : cut u = .ok (p, ns, n)) (hv : cut v = .ok (p', ns', n'))
    (h : qnameOf p n = qnameOf p' n') : u = v := by
  obtain ⟨rfl, rfl⟩ := qnameOf_inj (hq.prefixes _ _ _ _ hu).1 (hq.prefixes _ _ _ _ hv).1 (hq.names _ _ _ _ hu) (hq.names _ _ _ _ hv) h
  rw [hq.whole _ _ _ _ hu, hq.whole _ _ _ _ hv, hq.apart _ _ _ _ _ _ _ hu hv]

end Verif.Lemmas
