import Verif.Props.InventoryParse
import Verif.Props.Urn
/-!
C45, C47: the filters of the metadata search and the choice of an edition.
-/
namespace Verif.Props
open Verif.Py Verif.Model Verif.Spec Verif.Lemmas

/-! ### Identifiers that are URNs tell the level -/

/-- Levels as CTS URNs tell them: the collection of inventories by its name, inventories by not being the URN of
anything below a namespace. -/
def ctsLevels (rootId : Str) : Levels where
  level s := if s = rootId then 0 else
    match Urn.parse s with
    | .ok u => u.len - 1
    | .error _ => 1
  owner s :=
    match Urn.parse s with
    | .ok u =>
      match u.upTo 1 with
      | .ok g => g
      | .error _ => []
    | .error _ => []

/-- C44. CTS URNs meet the condition on identifiers: the URN of a textgroup, of a work and of a text are of three
different levels, and the URN of a work tells its textgroup. -/
theorem C44_cts_identifiers (rootId : Str) (p : UrnParts) (h : p.WF) (hr : p.write ≠ rootId) (htg : p.tg ≠ none) :
    (p.wk = none → (ctsLevels rootId).level p.write = 2) ∧
    (p.wk ≠ none → p.ver = none → (ctsLevels rootId).level p.write = 3) ∧
    (p.ver ≠ none → (ctsLevels rootId).level p.write = 4) ∧
    (ctsLevels rootId).owner p.write = cutTextgroup p := by
  obtain ⟨u, hu, _⟩ := C12_urn_components p h
  have hl := (C16_length p h u hu).1
  have h1 := (C14_upTo_values p h u hu).2.2.1 htg
  have hlen : (ctsLevels rootId).level p.write = u.len - 1 := by simp [ctsLevels, hr, hu]
  have t1 : p.tg.toList.length = 1 := by
    cases e : p.tg with
    | none => exact absurd e htg
    | some x => rfl
  refine ⟨?_, ?_, ?_, by simp [ctsLevels, hu, h1]⟩
  · intro hw
    rw [hlen, hl, t1, hw, h.verWk hw]; rfl
  · intro hw hv
    rw [hlen, hl, t1, hv]
    cases e : p.wk with
    | none => exact absurd e hw
    | some x => rfl
  · intro hv
    rw [hlen, hl, t1]
    cases e : p.wk with
    | none => exact absurd (h.verWk e) hv
    | some x =>
      cases e' : p.ver with
      | none => exact absurd e' hv
      | some y => rfl

example : (ctsLevels "defaultTic".toList).level "urn:cts:latinLit:phi1294.phi002".toList = 3 ∧
    (ctsLevels "defaultTic".toList).owner "urn:cts:latinLit:phi1294.phi002".toList = "urn:cts:latinLit:phi1294".toList ∧
    (ctsLevels "defaultTic".toList).level "default".toList = 1 ∧ (ctsLevels "defaultTic".toList).level "urn:perseus:latinLit".toList = 1 ∧
    (ctsLevels "defaultTic".toList).level "defaultTic".toList = 0 := by decide +kernel

/-! ### C45: the metadata search -/

theorem write_inj {p q : UrnParts} (hp : p.WF) (hq : q.WF) (h : p.write = q.write) : p = q := by
  obtain ⟨u, hu, h1, h2, h3, h4, h5, h6⟩ := C12_urn_components p hp
  obtain ⟨v, hv, k1, k2, k3, k4, k5, k6⟩ := C12_urn_components q hq
  rw [h, hv] at hu
  cases hu
  cases p; cases q
  simp only [UrnParts.mk.injEq]
  refine ⟨?_, ?_, ?_, ?_, ?_, ?_⟩ <;> simp_all

theorem wf_cut {p : UrnParts} (h : p.WF) :
    UrnParts.WF { p with tg := none, wk := none, ver := none, ref := none } ∧ UrnParts.WF { p with wk := none, ver := none, ref := none } ∧
    UrnParts.WF { p with ver := none, ref := none } ∧ UrnParts.WF { p with ref := none } := by
  refine ⟨⟨h.ns, h.cts, ?_, ?_, ?_, ?_, ?_, ?_, ?_⟩, ⟨h.ns, h.cts, h.tg, ?_, ?_, ?_, ?_, ?_, ?_⟩, ⟨h.ns, h.cts, h.tg, h.wk, ?_, ?_, h.wkTg, ?_, ?_⟩,
    ⟨h.ns, h.cts, h.tg, h.wk, h.ver, ?_, h.wkTg, h.verWk, ?_⟩⟩ <;> simp

/-- The key of the search for a URN, and the test that it makes on a text. -/
theorem urnTest_eq (t : TextV) (p q : UrnParts) (hp : p.WF) (hq : q.WF) (hid : Urn.parse p.write = .ok t.urn) (hv : p.ver ≠ none)
    (hr : q.ref = none) : ∃ key, searchKey (some (.text q.write)) = .ok key ∧
      urnTest t (some (.text q.write)) key = .ok (decide (UnderUrn q p)) := by
  obtain ⟨v, hvp, _⟩ := C12_urn_components q hq
  have hl := (C16_length q hq v hvp).1
  obtain ⟨c1, c2, c3, c4⟩ := wf_cut hp
  have hup := C14_upTo_values p hp t.urn hid
  have hwk : p.wk ≠ none := fun e => hv (hp.verWk e)
  have htg : p.tg ≠ none := fun e => hwk (hp.wkTg e)
  have h0 := hup.2.1
  have h1 := hup.2.2.1 htg
  have h2 := hup.2.2.2.1 hwk
  have h3 := hup.2.2.2.2.1 hv
  have fin : ∀ (c : UrnParts) (k : Int), c.WF → t.urn.upTo k = .ok c.write → (c = q ↔ UnderUrn q p) →
      urnTest t (some (.text q.write)) (some k) = .ok (decide (UnderUrn q p)) := by
    intro c k hc hk hiff
    simp only [urnTest, Option.getD_some, hk]
    congr 1
    rw [Bool.eq_iff_iff, beq_iff_eq, decide_eq_true_eq, ← hiff]
    exact ⟨fun e => write_inj hc hq e, fun e => by rw [e]⟩
  simp only [searchKey, hvp]
  cases e1 : q.tg with
  | none =>
    have e2 := hq.wkTg e1
    have e3 := hq.verWk e2
    rw [e1, e2, e3] at hl
    refine ⟨some 0, by rw [hl]; rfl, fin _ 0 c1 h0 ?_⟩
    cases p; cases q
    simp_all [UnderUrn]
  | some g =>
    cases e2 : q.wk with
    | none =>
      have e3 := hq.verWk e2
      rw [e1, e2, e3] at hl
      refine ⟨some 1, by rw [hl]; rfl, fin _ 1 c2 h1 ?_⟩
      cases p; cases q
      simp_all [UnderUrn]
    | some w =>
      cases e3 : q.ver with
      | none =>
        rw [e1, e2, e3] at hl
        refine ⟨some 2, by rw [hl]; rfl, fin _ 2 c3 h2 ?_⟩
        cases p; cases q
        simp_all [UnderUrn]
      | some x =>
        rw [e1, e2, e3] at hl
        refine ⟨some 3, by rw [hl]; rfl, fin _ 3 c4 h3 ?_⟩
        cases p; cases q
        simp_all [UnderUrn]

theorem kind_name (c : Str) (k : Kind) : (!(categories.contains c) || c == k.name) = true ↔ ∀ k', kindNamed c = some k' → k = k' := by
  have one : ∀ K : Kind, (∀ k', some K = some k' → k = k') ↔ k = K := by
    intro K
    constructor
    · intro h; exact h K rfl
    · rintro rfl k' e; cases e; rfl
  by_cases h1 : c = "edition".toList
  · subst h1
    rw [show kindNamed "edition".toList = some .edition by decide +kernel, one]
    cases k <;> decide +kernel
  · by_cases h2 : c = "translation".toList
    · subst h2
      rw [show kindNamed "translation".toList = some .translation by decide +kernel, one]
      cases k <;> decide +kernel
    · by_cases h3 : c = "commentary".toList
      · subst h3
        rw [show kindNamed "commentary".toList = some .commentary by decide +kernel, one]
        cases k <;> decide +kernel
      · rw [kindNamed, if_neg h1, if_neg h2, if_neg h3]
        have : categories.contains c = false := by
          rw [Bool.eq_false_iff]
          intro h
          simp only [categories, List.contains_iff_mem, List.mem_cons, List.not_mem_nil, or_false] at h
          rcases h with h | h | h
          · exact h1 h
          · exact h2 h
          · exact h3 h
        rw [this]; simp

open Classical in
theorem textTest_eq (t : TextV) (p : UrnParts) (q : Option UrnParts) (arg : Option UrnArg) (key : Option Int) (lang category : Option Str)
    (hu : urnTest t arg key = .ok (decide (∀ x, q = some x → UnderUrn x p))) :
    textTest t arg key lang category = .ok (decide (Wanted q lang category t p)) := by
  rw [textTest.eq_def]
  by_cases hl : lang = none ∨ lang = some t.lang
  · rw [if_pos hl, hu]
    have hl' : ∀ l, lang = some l → t.lang = l := by
      intro l e
      rcases hl with h | h
      · rw [e] at h; cases h
      · rw [e] at h; cases h; rfl
    by_cases hx : ∀ x, q = some x → UnderUrn x p
    · rw [decide_eq_true hx]
      simp only
      by_cases hc : t.cite.isSome = true
      · rw [if_pos hc]
        have hc' : t.cite ≠ none := by intro e; rw [e] at hc; cases hc
        cases category with
        | none =>
          simp only
          rw [decide_eq_true ⟨hc', hx, hl', by simp⟩]
        | some c =>
          simp only
          congr 1
          rw [Bool.eq_iff_iff, kind_name, decide_eq_true_eq]
          constructor
          · intro h
            exact ⟨hc', hx, hl', fun c' k e hk => by cases e; exact h k hk⟩
          · intro h k hk
            exact h.category c k rfl hk
      · rw [if_neg hc, decide_eq_false]
        intro h
        apply hc
        cases e : t.cite with
        | none => exact absurd e h.cited
        | some _ => rfl
    · rw [decide_eq_false hx]
      simp only
      rw [decide_eq_false (fun h => hx h.urn)]
  · rw [if_neg hl, decide_eq_false]
    intro h
    apply hl
    cases e : lang with
    | none => exact Or.inl rfl
    | some l => rw [h.lang l e]; exact Or.inr rfl

theorem textLoop_eq {urn : Option UrnArg} {key : Option Int} {lang category : Option Str} {l : List TextV} (f : TextV → Bool)
    (h : ∀ t ∈ l, textTest t urn key lang category = .ok (f t)) : textLoop urn key lang category l = .ok (l.filter f) := by
  induction l with
  | nil => rfl
  | cons t r ih =>
    rw [textLoop, h t (List.mem_cons_self ..), ih (fun x hx => h x (List.mem_cons_of_mem _ hx))]
    simp only [List.filter_cons]

open Classical in
/-- C45. The texts returned for a URN (given as a text, without passage), a language and a category are exactly those of
the inventory that satisfy every filter given and whose citation scheme is known, in the order of the inventory. -/
theorem C45_filters (r : RootV) (parts : TextV → UrnParts) (ht : TextsWritten r parts) (q : Option UrnParts)
    (hq : ∀ x, q = some x → x.WF ∧ x.ref = none) (lang category : Option Str) :
    getTextMetadata r (q.map fun x => .text x.write) lang category
      = .ok ((rootTexts r).filter fun t => decide (Wanted q lang category t (parts t))) := by
  rw [getTextMetadata]
  cases q with
  | none =>
    simp only [Option.map_none, searchKey]
    refine textLoop_eq _ (fun t _ => textTest_eq t (parts t) none none none lang category ?_)
    simp [urnTest]
  | some x =>
    obtain ⟨hx, hxr⟩ := hq x rfl
    simp only [Option.map_some]
    cases hk : searchKey (some (.text x.write)) with
    | error e =>
      -- impossible: the URN is written
      obtain ⟨v, hvp, _⟩ := C12_urn_components x hx
      have hb := C16_length_bounds _ v hvp
      simp only [searchKey, hvp] at hk
      have : v.len = 2 ∨ v.len = 3 ∨ v.len = 4 ∨ v.len = 5 := by omega
      rcases this with h | h | h | h <;> rw [h] at hk <;> cases hk
    | ok key =>
      simp only
      refine textLoop_eq _ (fun t htm => textTest_eq t (parts t) (some x) _ key lang category ?_)
      obtain ⟨hw, hid, hparse, hver, _⟩ := ht t htm
      rw [hid] at hparse
      obtain ⟨key', hk', h⟩ := urnTest_eq t (parts t) x hw hx hparse hver hxr
      rw [hk] at hk'
      cases hk'
      rw [h]
      congr 1
      rw [Bool.eq_iff_iff, decide_eq_true_eq, decide_eq_true_eq]
      exact ⟨fun h y e => by cases e; exact h, fun h => h x rfl⟩

/-- A text whose identifier is the given URN. -/
def urnTextOf (id : String) (k : Kind := .edition) (lang : String := "lat") (cite : Option Nat := some 0) : TextV :=
  match Urn.parse id.toList with
  | .ok u => { id := id.toList, urn := u, kind := k, lang := lang.toList, cite := cite, path := [] }
  | .error _ => exText id

/-- An inventory for the examples: two works of one author. -/
def exLibrary : RootV :=
  { id := "tic".toList, invs := [⟨"default".toList, [⟨"urn:cts:a:g".toList,
    [⟨"urn:cts:a:g.w1".toList, "lat".toList, [urnTextOf "urn:cts:a:g.w1.t1" .translation "fre"]⟩,
     ⟨"urn:cts:a:g.w10".toList, "lat".toList, [urnTextOf "urn:cts:a:g.w10.e1", urnTextOf "urn:cts:a:g.w10.e2" .edition "grc" none]⟩]⟩]⟩] }

/-- The components of the URNs of its texts. -/
def exParts (t : TextV) : UrnParts :=
  ⟨"cts".toList, "a".toList, some "g".toList, some (if t.kind = .translation then "w1".toList else "w10".toList),
    some (t.id.reverse.take 2).reverse, none⟩

theorem exLibrary_written : TextsWritten exLibrary exParts := by
  intro t ht
  have : t ∈ [urnTextOf "urn:cts:a:g.w1.t1" .translation "fre", urnTextOf "urn:cts:a:g.w10.e1", urnTextOf "urn:cts:a:g.w10.e2" .edition "grc" none] := ht
  simp only [List.mem_cons, List.not_mem_nil, or_false] at this
  rcases this with rfl | rfl | rfl
  · exact ⟨⟨by decide, by decide, by intro s hs; cases hs; decide, by intro s hs; cases hs; decide, by intro s hs; cases hs; decide,
      by simp [exParts], by simp [exParts], by simp [exParts], by simp [exParts]⟩, by decide +kernel, by decide +kernel, by simp [exParts], rfl⟩
  · exact ⟨⟨by decide, by decide, by intro s hs; cases hs; decide, by intro s hs; cases hs; decide, by intro s hs; cases hs; decide,
      by simp [exParts], by simp [exParts], by simp [exParts], by simp [exParts]⟩, by decide +kernel, by decide +kernel, by simp [exParts], rfl⟩
  · exact ⟨⟨by decide, by decide, by intro s hs; cases hs; decide, by intro s hs; cases hs; decide, by intro s hs; cases hs; decide,
      by simp [exParts], by simp [exParts], by simp [exParts], by simp [exParts]⟩, by decide +kernel, by decide +kernel, by simp [exParts], rfl⟩

example : (getTextMetadata exLibrary (some (.text "urn:cts:a:g.w1".toList)) none none).map (·.map TextV.id) = .ok ["urn:cts:a:g.w1.t1".toList] ∧
    (getTextMetadata exLibrary (some (.text "urn:cts:a:g".toList)) none (some "edition".toList)).map (·.map TextV.id)
      = .ok ["urn:cts:a:g.w10.e1".toList] := by decide +kernel

/-- C45. Where the code departs: a URN object as filter matches no text at all. -/
theorem C45_urn_object (r : RootV) (u : Urn) (lang category : Option Str) (l : List TextV)
    (h : getTextMetadata r (some (.object u)) lang category = .ok l) : l = [] := by
  rw [getTextMetadata] at h
  split at h
  · cases h
  · rename_i key _
    have loop : ∀ (ts l : List TextV), textLoop (some (.object u)) key lang category ts = .ok l → l = [] := by
      intro ts
      induction ts with
      | nil => intro l hl; simp only [textLoop] at hl; cases hl; rfl
      | cons t rest ih =>
        intro l hl
        rw [textLoop] at hl
        split at hl
        · cases hl
        · rename_i b hb
          split at hl
          · cases hl
          · rename_i l' hl'
            have hbf : b = false := by
              cases hbv : b with
              | false => rfl
              | true =>
                rw [hbv, textTest.eq_def] at hb
                split at hb
                · simp only [urnTest] at hb
                  cases hu : t.urn.upTo (key.getD noKey) with
                  | error e => rw [hu] at hb; cases hb
                  | ok s => rw [hu] at hb; cases hb
                · cases hb
            cases hl
            rw [hbf, ih l' hl']; rfl
    exact loop _ _ h

example : ∃ u, Urn.parse "urn:cts:a:g".toList = .ok u ∧ getTextMetadata exLibrary (some (.object u)) none none = .ok [] ∧
    getTextMetadata exLibrary (some (.text "urn:cts:a:g".toList)) none none ≠ .ok [] := ⟨_, rfl, by decide +kernel, by decide +kernel⟩

/-! ### C47: the edition of a work -/

/-- Looking up the identifier of a text finds a text with this identifier. -/
theorem objGet_text {lv : Levels} {r : RootV} (hr : FitsRoot lv r) {t : TextV} (ht : t ∈ rootTexts r) :
    ∃ t' ∈ rootTexts r, t'.id = t.id ∧ objGet (.root r) t.id = .ok (.text t') := by
  have hmem : ∀ t : TextV, t ∈ rootTexts r ↔ Obj.text t ∈ rootDesc r := by
    intro t
    simp only [rootTexts, List.mem_filterMap]
    constructor
    · rintro ⟨o, ho, e⟩
      cases o <;> cases e
      exact ho
    · intro h; exact ⟨_, h, rfl⟩
  obtain ⟨g, hg, w, hw, t0, ht0, e⟩ : ∃ g ∈ allTgs r, ∃ w ∈ g.works, ∃ t0 ∈ w.texts, Obj.text t = .text t0 := by
    rcases mem_rootDesc.mp ((hmem t).mp ht) with ⟨_, _, e⟩ | ⟨_, _, e⟩ | ⟨_, _, _, _, e⟩ | h
    · cases e
    · cases e
    · cases e
    · exact h
  cases e
  have hl := (fits_of_mem hr hg).text w hw t ht0
  obtain ⟨o, ho⟩ := objGet_some ((hmem t).mp ht)
  simp only [Obj.id] at ho
  obtain ⟨h1, h2⟩ := objGet_ok ho
  rcases h1 with rfl | h1
  · have := hr.root; simp only [Obj.id] at h2; rw [h2, hl] at this; cases this
  · rcases mem_rootDesc.mp h1 with ⟨i, hi, rfl⟩ | ⟨g', hg', rfl⟩ | ⟨g', hg', w', hw', rfl⟩ | ⟨g', hg', w', hw', t', ht', rfl⟩
    · have := hr.inv i hi; simp only [Obj.id] at h2; rw [h2, hl] at this; cases this
    · have := (fits_of_mem hr hg').tg; simp only [Obj.id] at h2; rw [h2, hl] at this; cases this
    · have := ((fits_of_mem hr hg').work w' hw').1; simp only [Obj.id] at h2; rw [h2, hl] at this; cases this
    · exact ⟨t', (hmem t').mpr h1, h2, ho⟩

/-- C47. Asking for the URN of a version gives the text of the inventory with this identifier, or `UnknownCollection`
when nothing has it. -/
theorem C47_version (lv : Levels) (r : RootV) (hr : FitsRoot lv r) (q : UrnParts) (hq : q.WF) (hver : q.ver ≠ none) (u : Urn)
    (hu : Urn.parse q.write = .ok u) :
    (∀ t ∈ rootTexts r, t.id = q.write → ∃ t' ∈ rootTexts r, t'.id = q.write ∧ getText r u = .ok t') ∧
    ((q.write ≠ r.id ∧ ∀ o ∈ rootDesc r, o.id ≠ q.write) → getText r u = .error .unknownCollection) := by
  have hl := (C16_length q hq u hu).1
  have hwk : q.wk ≠ none := fun e => hver (hq.verWk e)
  have htg : q.tg ≠ none := fun e => hwk (hq.wkTg e)
  have h5 : u.len = 5 := by
    rw [hl]
    cases e1 : q.tg <;> cases e2 : q.wk <;> cases e3 : q.ver <;> simp_all
  obtain ⟨u', hs⟩ := C10_urn_round_trip_plain _ (hash_write hq) u hu
  have hc : chooseUrn r u = .ok q.write := by rw [chooseUrn, if_pos h5, hs]
  constructor
  · intro t ht hid
    obtain ⟨t', ht', e, hg⟩ := objGet_text hr ht
    rw [hid] at hg e
    exact ⟨t', ht', e, by rw [getText, hc]; simp only; rw [hg]⟩
  · rintro ⟨h0, hno⟩
    rw [getText, hc]
    simp only
    cases ho : objGet (.root r) q.write with
    | ok o =>
      obtain ⟨h1, h2⟩ := objGet_ok ho
      rcases h1 with rfl | h1
      · exact absurd h2.symm h0
      · exact absurd h2 (hno o h1)
    | error e =>
      rw [objGet] at ho
      split at ho
      · cases ho
      · split at ho
        · cases ho
        · split at ho
          · cases ho
          · cases ho; rfl

/-- C47. Asking for the URN of a work, with or without a passage, when no other work has a URN that begins with it: the
text used is the first edition of this work in the inventory; when the work has no edition `UnknownObjectError` is
raised. -/
theorem C47_work (lv : Levels) (r : RootV) (hr : FitsRoot lv r) (parts : TextV → UrnParts) (ht : TextsWritten r parts)
    (hids : ((rootTexts r).map TextV.id).Nodup) (q : UrnParts) (hq : q.WF) (hwk : q.wk ≠ none) (hver : q.ver = none) (u : Urn)
    (hu : Urn.parse q.write = .ok u)
    (hno : ∀ t ∈ rootTexts r, startsWith t.id (cutWork q) = true → UnderUrn { q with ref := none } (parts t)) :
    (∀ pre t post, rootTexts r = pre ++ t :: post → t.kind = .edition → UnderUrn { q with ref := none } (parts t) →
      (∀ x ∈ pre, x.kind = .edition → ¬ UnderUrn { q with ref := none } (parts x)) → getText r u = .ok t) ∧
    ((∀ t ∈ rootTexts r, t.kind = .edition → ¬ UnderUrn { q with ref := none } (parts t)) → getText r u = .error .unknownObject) := by
  have hl := (C16_length q hq u hu).1
  have htg : q.tg ≠ none := fun e => hwk (hq.wkTg e)
  have h4 : u.len = 4 := by
    rw [hl]
    cases e1 : q.tg <;> cases e2 : q.wk <;> simp_all
  have hup := (C14_upTo_values q hq u hu).2.2.2.1 hwk
  have htest : ∀ t ∈ rootTexts r, (startsWith t.id (cutWork q) && t.kind == .edition) = true ↔
      t.kind = .edition ∧ UnderUrn { q with ref := none } (parts t) := by
    intro t htm
    rw [Bool.and_eq_true, beq_iff_eq]
    constructor
    · rintro ⟨h1, h2⟩; exact ⟨h2, hno t htm h1⟩
    · rintro ⟨h1, h2⟩
      refine ⟨?_, h1⟩
      obtain ⟨hw, hid, _, hv, hrf⟩ := ht t htm
      obtain ⟨e1, e2, e3, e4, _⟩ := h2
      simp only at e1 e2 e3 e4
      rw [hid, startsWith, List.isPrefixOf_iff_prefix, UrnParts.write, cutWork, UrnParts.write]
      rw [e1, e2, e3 htg, e4 hwk, hrf]
      exact ⟨after '.' (parts t).ver, by simp [after]⟩
  rw [getText, chooseUrn, if_neg (by omega), if_pos h4, hup]
  simp only
  constructor
  · intro pre t post e hk hund hfirst
    have htm : t ∈ rootTexts r := by rw [e]; simp
    have hfil : (rootTexts r).filter (fun t => startsWith t.id (cutWork q) && t.kind == .edition)
        = t :: post.filter (fun t => startsWith t.id (cutWork q) && t.kind == .edition) := by
      rw [e, List.filter_append, List.filter_eq_nil_iff.mpr, List.nil_append, List.filter_cons_of_pos]
      · exact (htest t htm).mpr ⟨hk, hund⟩
      · intro x hx hp
        have := (htest x (by rw [e]; exact List.mem_append_left _ hx)).mp hp
        exact hfirst x hx this.1 this.2
    rw [hfil]
    simp only
    obtain ⟨hw, hid, hparse, _, _⟩ := ht t htm
    rw [hparse]
    simp only
    have hparse' := hparse
    rw [hid] at hparse'
    obtain ⟨u', hs⟩ := C10_urn_round_trip_plain _ (hash_write hw) t.urn hparse'
    rw [hs]
    simp only
    obtain ⟨t', ht', e', hg⟩ := objGet_text hr htm
    rw [← hid, hg]
    simp only
    rw [eq_of_key (key := TextV.id) hids ht' htm e']
  · intro hnone
    rw [List.filter_eq_nil_iff.mpr]
    intro x hx hp
    have := (htest x hx).mp hp
    exact hnone x hx this.1 this.2

/-- C47. URNs shorter than a work are refused. -/
theorem C47_refused (r : RootV) (q : UrnParts) (hq : q.WF) (hwk : q.wk = none) (u : Urn) (hu : Urn.parse q.write = .ok u) :
    getText r u = .error .invalidURN := by
  have hl := (C16_length q hq u hu).1
  have hv := hq.verWk hwk
  have : u.len ≠ 5 ∧ u.len ≠ 4 := by
    rw [hl, hwk, hv]
    cases q.tg <;> simp
  rw [getText, chooseUrn, if_neg this.1, if_neg this.2]

/-- C47. Where the code departs: the identifiers are compared by their beginning only, so that the edition of another
work is used when the work has none. -/
theorem C47_other_work : ∃ u t, Urn.parse "urn:cts:a:g.w1:1".toList = .ok u ∧ getText exLibrary u = .ok t ∧
    t.id = "urn:cts:a:g.w10.e1".toList := ⟨_, _, rfl, rfl, rfl⟩

theorem exLibrary_fits : FitsRoot (ctsLevels "tic".toList) exLibrary where
  root := by decide +kernel
  invs := by decide +kernel
  inv := by decide +kernel
  tgs := by decide +kernel
  tg := by
    intro i hi g hg
    simp only [exLibrary, List.mem_singleton] at hi
    subst hi
    simp only [List.mem_singleton] at hg
    subst hg
    exact ⟨⟨by decide +kernel, by unfold DictWork; decide +kernel⟩, by decide +kernel, by decide +kernel, by decide +kernel⟩

/-- The hypotheses of `C47_work` are met by a work of the example. -/
example : ∀ t ∈ rootTexts exLibrary, startsWith t.id (cutWork ⟨"cts".toList, "a".toList, some "g".toList, some "w10".toList, none, some "1".toList⟩) = true →
    UnderUrn ⟨"cts".toList, "a".toList, some "g".toList, some "w10".toList, none, none⟩ (exParts t) := by decide +kernel
example : ((rootTexts exLibrary).map TextV.id).Nodup := by decide +kernel

example : ∃ u, Urn.parse "urn:cts:a:g.w10:1".toList = .ok u ∧ (getText exLibrary u).map TextV.id = .ok "urn:cts:a:g.w10.e1".toList := ⟨_, rfl, rfl⟩

end Verif.Props
