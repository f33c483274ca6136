import Verif.Spec.CtsMetadata
import Verif.Props.Metadata
import Verif.Lemmas.MetadataExport
/-!
C79: properties, labels, links and languages of CTS collections. C80: the metadata a passage takes from its collections.
-/
namespace Verif.Props
open Verif.Py Verif.Model Verif.Spec Verif.Lemmas

theorem labelPredicates_eq : labelPredicates = [pLabel, pPrefLabel] := by decide +kernel

theorem label_eq (v : CtsValue) (l : Option Str) : v.label l = labelValue v l := by
  cases v <;> cases l <;> rfl

theorem literal_term (v : CtsValue) (l : Option Str) : (v.literal l).term = propertyValue v l := by
  cases v <;> rfl

theorem literal_label (v : CtsValue) (l : Option Str) : (v.literal l).label l = labelValue v l := by
  cases v <;> cases l <;> rfl

theorem labelValue_lit (v : CtsValue) (l : Option Str) : ∃ s m, labelValue v l = .lit s m none := by
  cases v with
  | str s => exact ⟨s, l, rfl⟩
  | lit s m => exact ⟨s, _, rfl⟩

theorem propertyValue_lit (v : CtsValue) (l : Option Str) : ∃ s m, propertyValue v l = .lit s m none := by
  cases v with
  | str s => exact ⟨s, l, rfl⟩
  | lit s m => exact ⟨s, _, rfl⟩

theorem titleKey_eq (c : CtsClass) : c.titleKey = (titleOfClass c).map String.toList := by
  cases c <;> decide +kernel

theorem mem_setLabel {g : Graph} {n : Term} {v : CtsValue} {l : Option Str} {t : Triple} :
    t ∈ setLabel g n v l ↔ t ∈ g ∨ ∃ p ∈ labelPredicates, t = ⟨n, p, v.label l⟩ := by
  obtain ⟨s, m, e⟩ := labelValue_lit v l
  rw [setLabel, metaAdd, mem_insert, mem_insert, labelPredicates_eq, label_eq, e, toTerm]
  simp only [List.mem_cons, List.not_mem_nil, or_false]
  constructor
  · rintro ((h | h) | h)
    · exact .inl h
    · exact .inr ⟨_, .inr rfl, h⟩
    · exact .inr ⟨_, .inl rfl, h⟩
  · rintro (h | ⟨p, rfl | rfl, h⟩)
    · exact .inl (.inl h)
    · exact .inr h
    · exact .inl (.inr h)

theorem mem_setCtsProperty {g : Graph} {n : Term} {c : CtsClass} {p : Str} {v : CtsValue} {l : Option Str} {t : Triple} :
    t ∈ setCtsProperty g n c p v l ↔ t ∈ g ∨ t = ⟨n, ctsTerm p, propertyValue v l⟩ ∨
      c.titleKey = some p ∧ ∃ q ∈ labelPredicates, t = ⟨n, q, labelValue v l⟩ := by
  obtain ⟨s, m, e⟩ := propertyValue_lit v l
  simp only [setCtsProperty]
  rw [metaAdd, mem_insert, literal_term, e]
  simp only [toTerm]
  by_cases h : c.titleKey = some p
  · rw [if_pos h, mem_setLabel, literal_label]
    constructor
    · rintro ((h1 | h1) | h1)
      · exact .inl h1
      · exact .inr (.inr ⟨h, h1⟩)
      · exact .inr (.inl h1)
    · rintro (h1 | h1 | ⟨_, h1⟩)
      · exact .inl (.inl h1)
      · exact .inr h1
      · exact .inl (.inr h1)
  · rw [if_neg h]
    constructor
    · rintro (h1 | h1)
      · exact .inl h1
      · exact .inr (.inl h1)
    · rintro (h1 | h1 | ⟨h2, _⟩)
      · exact .inl h1
      · exact .inr h1
      · exact absurd h2 h

theorem mem_ctsRun {g : Graph} {op : CtsOp} {n p o : Term} :
    (⟨n, p, o⟩ : Triple) ∈ op.run g ↔ (⟨n, p, o⟩ : Triple) ∈ g ∨ SaysOf op n p o := by
  cases op with
  | property c m q v l =>
    rw [CtsOp.run, mem_setCtsProperty, titleKey_eq]
    refine or_congr_right ?_
    constructor
    · rintro (h | ⟨h, r, hr, e⟩)
      · injection h with h1 h2 h3
        subst h1 h2 h3
        exact .property
      · injection e with h1 h2 h3
        subst h1 h2 h3
        rw [Option.map_eq_some_iff] at h
        obtain ⟨a, ha, rfl⟩ := h
        exact .title ha hr
    · intro h
      cases h with
      | property => exact .inl rfl
      | title h1 h2 => exact .inr ⟨by rw [h1]; rfl, _, h2, rfl⟩
  | label m v l =>
    rw [CtsOp.run, mem_setLabel, label_eq]
    refine or_congr_right ?_
    constructor
    · rintro ⟨r, hr, e⟩
      injection e with h1 h2 h3
      subst h1 h2 h3
      exact .label hr
    · intro h
      cases h with
      | label hr => exact ⟨_, hr, rfl⟩
  | link m q v =>
    rw [CtsOp.run, setLink, metaAdd, mem_insert]
    refine or_congr_right ?_
    simp only [toTerm]
    constructor
    · intro e
      injection e with h1 h2 h3
      subst h1 h2 h3
      exact .link
    · intro h
      cases h with
      | link => rfl

/-- C79. After any calls of `set_cts_property`, `set_label` and `set_link` on any collections, a statement holds exactly when
it held before or one of the calls made it: a property in the CTS namespace, in the language given or the literal's own; the
same text as a label when the property is the title of the class; a link. Nothing is replaced, and other collections keep
what they have. -/
theorem C79_history (g : Graph) (ops : List CtsOp) (n p o : Term) :
    (⟨n, p, o⟩ : Triple) ∈ runCts g ops ↔ (⟨n, p, o⟩ : Triple) ∈ g ∨ ∃ op ∈ ops, SaysOf op n p o := by
  induction ops generalizing g with
  | nil => simp [runCts]
  | cons op r ih =>
    show _ ∈ runCts (op.run g) r ↔ _
    rw [ih, mem_ctsRun]
    simp only [List.mem_cons]
    constructor
    · rintro ((h | h) | ⟨x, hx, h⟩)
      · exact .inl h
      · exact .inr ⟨op, .inl rfl, h⟩
      · exact .inr ⟨x, .inr hx, h⟩
    · rintro (h | ⟨x, rfl | hx, h⟩)
      · exact .inl (.inl h)
      · exact .inl (.inr h)
      · exact .inr ⟨x, hx, h⟩

theorem langDict_ok {os : List Term} {d : List (Option Str × Term)} (h : ∀ o ∈ os, IsLiteral o) :
    ∃ x, langDict d os = .ok x ∧ ∀ l, match getEntry x l with
      | some v => (v ∈ os ∧ HasLanguage l v) ∨ ((∀ o ∈ os, ¬ HasLanguage l o) ∧ getEntry d l = some v)
      | none => (∀ o ∈ os, ¬ HasLanguage l o) ∧ getEntry d l = none := by
  induction os generalizing d with
  | nil =>
    refine ⟨d, rfl, fun l => ?_⟩
    cases e : getEntry d l with
    | none => simp
    | some v => simp
  | cons o r ih =>
    obtain ⟨s, la, dt, rfl⟩ := h o (List.mem_cons_self ..)
    obtain ⟨x, h1, h2⟩ := ih (d := putEntry d la (.lit s la dt)) fun o ho => h o (List.mem_cons_of_mem _ ho)
    refine ⟨x, by simpa only [langDict, Term.language] using h1, fun l => ?_⟩
    have := h2 l
    rw [getEntry_putEntry] at this
    have hno : ¬ l = la → ∀ o, o ∈ Term.lit s la dt :: r → (∀ o ∈ r, ¬ HasLanguage l o) → ¬ HasLanguage l o := by
      intro hl o ho hr
      rw [List.mem_cons] at ho
      rcases ho with rfl | ho
      · rintro ⟨s', d', e⟩
        injection e with _ e
        exact hl e.symm
      · exact hr o ho
    cases e : getEntry x l with
    | none =>
      rw [e] at this
      obtain ⟨a, b⟩ := this
      by_cases hl : l = la
      · rw [if_pos hl] at b; cases b
      · rw [if_neg hl] at b
        exact ⟨fun o ho => hno hl o ho a, b⟩
    | some v =>
      rw [e] at this
      rcases this with ⟨a, b⟩ | ⟨a, b⟩
      · exact .inl ⟨List.mem_cons_of_mem _ a, b⟩
      · by_cases hl : l = la
        · rw [if_pos hl] at b
          injection b with b
          subst b
          exact .inl ⟨List.mem_cons_self .., s, dt, by rw [hl]⟩
        · rw [if_neg hl] at b
          exact .inr ⟨fun o ho => hno hl o ho a, b⟩

theorem putEntry_nodup {κ β : Type} [DecidableEq κ] (d : List (κ × β)) (k : κ) (v : β) (h : (d.map (·.1)).Nodup) :
    ((putEntry d k v).map (·.1)).Nodup ∧ ∀ x, x ∈ (putEntry d k v).map (·.1) → x = k ∨ x ∈ d.map (·.1) := by
  induction d with
  | nil => simp [putEntry]
  | cons a r ih =>
    obtain ⟨k', w⟩ := a
    rw [List.map_cons, List.nodup_cons] at h
    obtain ⟨i1, i2⟩ := ih h.2
    rw [putEntry]
    by_cases e : k' = k
    · subst e
      rw [if_pos rfl]
      simp only [List.map_cons, List.nodup_cons]
      exact ⟨h, fun x hx => .inr hx⟩
    · rw [if_neg e]
      simp only [List.map_cons, List.nodup_cons, List.mem_cons]
      refine ⟨⟨fun hm => ?_, i1⟩, fun x hx => ?_⟩
      · rcases i2 _ hm with h1 | h1
        · exact e h1
        · exact h.1 h1
      · rcases hx with rfl | hx
        · exact .inr (.inl rfl)
        · rcases i2 _ hx with h1 | h1
          · exact .inl h1
          · exact .inr (.inr h1)

theorem langDict_nodup {os : List Term} {d x : List (Option Str × Term)} (h : (d.map (·.1)).Nodup) (e : langDict d os = .ok x) :
    (x.map (·.1)).Nodup := by
  induction os generalizing d with
  | nil => cases e; exact h
  | cons o r ih =>
    rw [langDict] at e
    split at e
    · cases e
    · exact ih (putEntry_nodup _ _ _ h).1 e

theorem getEntry_mem {κ β : Type} [DecidableEq κ] {d : List (κ × β)} (h : (d.map (·.1)).Nodup) {k : κ} {v : β} :
    getEntry d k = some v ↔ (k, v) ∈ d := by
  induction d with
  | nil => simp [getEntry]
  | cons a r ih =>
    obtain ⟨k', w⟩ := a
    rw [List.map_cons, List.nodup_cons] at h
    rw [getEntry, List.mem_cons]
    by_cases e : k' = k
    · subst e
      rw [if_pos rfl]
      constructor
      · intro h1; injection h1 with h1; subst h1; exact .inl rfl
      · rintro (h1 | h1)
        · injection h1 with _ h1; rw [h1]
        · exact absurd (List.mem_map.2 ⟨_, h1, rfl⟩) h.1
    · rw [if_neg e, ih h.2]
      constructor
      · exact .inr
      · rintro (h1 | h1)
        · injection h1 with h1; exact absurd h1.symm e
        · exact h1

/-- C79. `get_cts_property(prop)`, when the values are texts, is a dictionary with one entry for each language in which the
property has a value, and the entry of a language is one of the values in that language. -/
theorem C79_property (order : Order) (ho : Rearranges order) (g : Graph) (n : Term) (prop : String)
    (h : ∀ o, (⟨n, cts prop, o⟩ : Triple) ∈ g → IsLiteral o) :
    ∃ d, getCtsProperties order g n prop.toList = .ok d ∧ (d.map (·.1)).Nodup ∧
      (∀ l v, (l, v) ∈ d → (⟨n, cts prop, v⟩ : Triple) ∈ g ∧ HasLanguage l v) ∧
      ∀ l o, (⟨n, cts prop, o⟩ : Triple) ∈ g → HasLanguage l o → l ∈ d.map (·.1) := by
  have hm : ∀ o, o ∈ g.objects order n (ctsTerm prop.toList) ↔ (⟨n, cts prop, o⟩ : Triple) ∈ g := fun o => mem_objects ho
  obtain ⟨d, h1, h2⟩ := langDict_ok (d := []) (os := g.objects order n (ctsTerm prop.toList)) fun o hx => h o ((hm o).1 hx)
  have hn := langDict_nodup (by simp) h1
  refine ⟨d, h1, hn, ?_, ?_⟩
  · intro l v hv
    have := h2 l
    rw [(getEntry_mem hn).2 hv] at this
    rcases this with ⟨a, b⟩ | ⟨_, b⟩
    · exact ⟨(hm v).1 a, b⟩
    · cases b
  · intro l o hg hl
    have := h2 l
    cases e : getEntry d l with
    | none =>
      rw [e] at this
      exact absurd hl (this.1 o ((hm o).2 hg))
    | some v => exact List.mem_map.2 ⟨_, (getEntry_mem hn).1 e, rfl⟩

/-- C79. `get_cts_property(prop, lang)` gives a value in the language when there is one, otherwise some value, and raises
`StopIteration` exactly when the property has no value. -/
theorem C79_property_language (order : Order) (ho : Rearranges order) (g : Graph) (n : Term) (prop : String) (lang : Str)
    (h : ∀ o, (⟨n, cts prop, o⟩ : Triple) ∈ g → IsLiteral o) :
    (∃ v, getCtsProperty order g n prop.toList lang = .ok v ∧ (⟨n, cts prop, v⟩ : Triple) ∈ g ∧
      ((∃ o, (⟨n, cts prop, o⟩ : Triple) ∈ g ∧ InLanguage lang o) → InLanguage lang v)) ∨
    ((∀ o, (⟨n, cts prop, o⟩ : Triple) ∉ g) ∧ getCtsProperty order g n prop.toList lang = .error .stopIteration) := by
  obtain ⟨d, h1, hn, h2, h3⟩ := C79_property order ho g n prop h
  simp only [getCtsProperty, h1]
  cases e : getEntry d (some lang) with
  | some v =>
    obtain ⟨a, b⟩ := h2 _ _ ((getEntry_mem hn).1 e)
    exact .inl ⟨v, rfl, a, fun _ => b⟩
  | none =>
    have hno : ∀ o, (⟨n, cts prop, o⟩ : Triple) ∈ g → ¬ InLanguage lang o := by
      intro o hg hl
      obtain ⟨⟨k, v⟩, hm, rfl⟩ := List.mem_map.1 (h3 _ o hg hl)
      rw [(getEntry_mem hn).2 hm] at e
      cases e
    cases d with
    | nil =>
      refine .inr ⟨fun o hg => ?_, rfl⟩
      obtain ⟨s, l, dt, rfl⟩ := h o hg
      simpa using h3 l _ hg ⟨s, dt, rfl⟩
    | cons a r =>
      exact .inl ⟨a.2, rfl, (h2 a.1 a.2 (List.mem_cons_self ..)).1, fun ⟨o, hg, hl⟩ => absurd hl (hno o hg)⟩

/-- C79. `get_label(lang)` gives a label in the language when there is one, otherwise some label, and `None` exactly when there
is none; without a language it gives some label. -/
theorem C79_label (order : Order) (ho : Rearranges order) (g : Graph) (n : Term) (lang : Option Str)
    (h : ∀ o, (⟨n, .uri "http://www.w3.org/2000/01/rdf-schema#label".toList, o⟩ : Triple) ∈ g → IsLiteral o) :
    ∃ r, getLabel order g n lang = .ok r ∧
      (∀ o, r = some o → (⟨n, .uri "http://www.w3.org/2000/01/rdf-schema#label".toList, o⟩ : Triple) ∈ g) ∧
      (∀ l, lang = some l → (∃ o, (⟨n, .uri "http://www.w3.org/2000/01/rdf-schema#label".toList, o⟩ : Triple) ∈ g ∧ InLanguage l o) → ∃ o, r = some o ∧ InLanguage l o) ∧
      (r = none ↔ ∀ o, (⟨n, .uri "http://www.w3.org/2000/01/rdf-schema#label".toList, o⟩ : Triple) ∉ g) := by
  have hp : (.uri "http://www.w3.org/2000/01/rdf-schema#label".toList : Term) = pLabel := by decide +kernel
  rw [hp] at h ⊢
  cases lang with
  | none =>
    obtain ⟨r, h1, h2, h3⟩ := C49_single_any order ho g n pLabel
    exact ⟨r, h1, h2, by simp, h3⟩
  | some l =>
    obtain ⟨r, h1, h2, h3, h4⟩ := C49_single order ho g n pLabel l h
    exact ⟨r, h1, h2, fun l' e => (by injection e with e; subst e; exact h3), h4⟩

/-- C79. The titles of a collection are its labels: on a collection about which nothing is said, after any calls, none of which
sets a link, `get_label(lang)` is a text that was given as its title or label, and it is in the language when one was. -/
theorem C79_title_is_label (order : Order) (ho : Rearranges order) (ops : List CtsOp) (n : Term) (lang : Str)
    (hlink : ∀ op ∈ ops, ∀ m p v, op ≠ .link m p v) :
    ∃ r, getLabel order (runCts [] ops) n (some lang) = .ok r ∧
      (∀ o, r = some o → ∃ op ∈ ops, ∃ v l, o = labelValue v l ∧
        (op = .label n v l ∨ ∃ cls name, titleOfClass cls = some name ∧ op = .property cls n name.toList v l)) ∧
      (∀ cls name s, titleOfClass cls = some name → CtsOp.property cls n name.toList (.str s) (some lang) ∈ ops →
        ∃ o, r = some o ∧ InLanguage lang o) := by
  have key : ∀ o, (⟨n, .uri "http://www.w3.org/2000/01/rdf-schema#label".toList, o⟩ : Triple) ∈ runCts [] ops →
      ∃ op ∈ ops, ∃ v l, o = labelValue v l ∧
        (op = .label n v l ∨ ∃ cls name, titleOfClass cls = some name ∧ op = .property cls n name.toList v l) := by
    intro o hm
    rcases (C79_history [] ops n _ o).1 hm with h | ⟨op, hop, h⟩
    · cases h
    · refine ⟨op, hop, ?_⟩
      generalize hq : (Term.uri "http://www.w3.org/2000/01/rdf-schema#label".toList) = q at h
      cases h with
      | @property cls m prop v l =>
        exfalso
        injection hq with hq
        have h0 := congrArg (fun l : List Char => l.take 10) hq
        simp only [List.take_append] at h0
        revert h0
        have : ("http://chs.harvard.edu/xmlns/cts/".toList).length = 33 := by decide +kernel
        rw [this]
        simp only [show 10 - 33 = 0 from rfl, List.take_zero, List.append_nil]
        decide +kernel
      | @title cls m name v l p h1 h2 => exact ⟨v, l, rfl, .inr ⟨cls, name, h1, rfl⟩⟩
      | @label m v l p h2 => exact ⟨v, l, rfl, .inl rfl⟩
      | @link m p v => exact absurd rfl (hlink _ hop _ _ _)
  obtain ⟨r, h1, h2, h3, h4⟩ := C79_label order ho (runCts [] ops) n (some lang) (by
    intro o hm
    obtain ⟨_, _, v, l, rfl, _⟩ := key o hm
    obtain ⟨s, m, e⟩ := labelValue_lit v l
    exact ⟨s, m, none, e⟩)
  refine ⟨r, h1, fun o e => key o (h2 o e), ?_⟩
  intro cls name s hc hop
  refine h3 lang rfl ⟨.lit s (some lang) none, ?_, s, none, rfl⟩
  exact (C79_history [] ops n _ _).2 (.inr ⟨_, hop, SaysOf.title (v := .str s) (lang := some lang) hc (by simp [labelPredicates])⟩)

/-- C79. `get_link(prop)` lists the links and whatever else was said with that predicate, each once. -/
theorem C79_links (order : Order) (ho : Rearranges order) (g : Graph) (hg : g.Nodup) (ops : List CtsOp) (n p : Term) :
    (getLink order (runCts g ops) n p).Nodup ∧
    ∀ o, o ∈ getLink order (runCts g ops) n p ↔ (⟨n, p, o⟩ : Triple) ∈ g ∨ ∃ op ∈ ops, SaysOf op n p o := by
  refine ⟨?_, fun o => by rw [getLink, mem_objects ho, C79_history]⟩
  have hn : (runCts g ops).Nodup := by
    clear ho
    induction ops generalizing g with
    | nil => exact hg
    | cons op r ih =>
      refine ih (op.run g) ?_
      cases op with
      | property c m q v l =>
        rw [CtsOp.run, setCtsProperty]
        refine nodup_insert ?_
        split
        · exact nodup_insert (nodup_insert hg)
        · exact hg
      | label m v l => exact nodup_insert (nodup_insert hg)
      | link m q v => exact nodup_insert hg
  exact C48_no_duplicates order ho (runCts g ops) hn [] n p |> fun h => by simpa [metaGet, runOps, getLink] using h

/-! ### Languages -/

/-- The language of `n` is `l`, and it has no other. -/
def LangIs (g : Graph) (n : Term) (l : Str) : Prop := ∀ o, (⟨n, dcLanguage, o⟩ : Triple) ∈ g ↔ o = .lit l none none

theorem getLang_of {order : Order} (ho : Rearranges order) {g : Graph} {n : Term} {l : Str} (h : LangIs g n l) : getLang order g n = l := by
  have hm : ∀ o, o ∈ g.objects order n dcLanguage ↔ o = .lit l none none := fun o => (mem_objects ho).trans (h o)
  rw [getLang]
  cases e : g.objects order n dcLanguage with
  | nil => exact absurd ((hm _).2 rfl) (by rw [e]; simp)
  | cons a r =>
    have := (hm a).1 (by rw [e]; simp)
    subst this
    rfl

theorem mem_setLang {g : Graph} {n m o : Term} {l : Str} : (⟨m, dcLanguage, o⟩ : Triple) ∈ setLang g n l ↔
    if m = n then o = .lit l none none else (⟨m, dcLanguage, o⟩ : Triple) ∈ g := by
  rw [setLang, Graph.setValue, mem_insert, mem_removeAll]
  by_cases h : m = n
  · subst h
    simp
  · rw [if_neg h]
    simp [h, Ne.symm h]

theorem setLang_same (g : Graph) (n : Term) (l : Str) : LangIs (setLang g n l) n l := fun o => by rw [mem_setLang, if_pos rfl]

theorem setLang_other {g : Graph} {n m : Term} {l k : Str} (h : m ≠ n) (hl : LangIs g m k) : LangIs (setLang g n l) m k := fun o => by
  rw [mem_setLang, if_neg h, hl]

theorem langs_other {g : Graph} {m : Term} {k : Str} {ops : List (Term × Str)} (h : ∀ x ∈ ops, x.1 ≠ m) (hl : LangIs g m k) :
    LangIs (ops.foldl (fun g x => setLang g x.1 x.2) g) m k := by
  induction ops generalizing g with
  | nil => exact hl
  | cons a r ih =>
    exact ih (fun x hx => h x (List.mem_cons_of_mem _ hx)) (setLang_other (Ne.symm (h a (List.mem_cons_self ..))) hl)

/-- C79. The language of a work or text is the one that was set last, whatever is set on others. -/
theorem C79_lang (order : Order) (ho : Rearranges order) (g : Graph) (pre post : List (Term × Str)) (n : Term) (l : Str)
    (h : ∀ x ∈ post, x.1 ≠ n) :
    getLang order ((pre ++ (n, l) :: post).foldl (fun g x => setLang g x.1 x.2) g) n = l := by
  rw [List.foldl_append, List.foldl_cons]
  exact getLang_of ho (langs_other h (setLang_same _ n l))

/-- C79. A new text is in the language it is given, and without one in the language its work has then; when the work gets
another language later, the text keeps its own. -/
theorem C79_lang_of_new_text (order : Order) (ho : Rearranges order) (g : Graph) (n work : Term) (h : work ≠ n) (l later : Str) :
    getLang order (newTextLang order g n (some work) (some l)) n = l ∧
    getLang order (setLang (newTextLang order (setLang g work l) n (some work) none) work later) n = l := by
  refine ⟨getLang_of ho (setLang_same g n l), getLang_of ho (setLang_other (Ne.symm h) ?_)⟩
  have := getLang_of ho (setLang_same g work l)
  rw [newTextLang, this]
  exact setLang_same _ n l

/-- C79. Of the texts of a work, each with a language of its own, `get_translation_in(key)` gives the translations in that
language, and without a key all translations, in the order in which the work has them. -/
theorem C79_translations (order : Order) (ho : Rearranges order) (g : Graph) (texts : List (Kind × Term × Str))
    (hd : (texts.map (·.2.1)).Nodup) (key : Str) :
    let g' := (texts.map (·.2)).foldl (fun g x => setLang g x.1 x.2) g
    translationsIn order g' (texts.map fun t => (t.1, t.2.1)) (some key) =
      (texts.filter fun t => t.1 = .translation ∧ t.2.2 = key).map (fun t => (t.1, t.2.1)) ∧
    translationsIn order g' (texts.map fun t => (t.1, t.2.1)) none =
      (texts.filter fun t => t.1 = .translation).map (fun t => (t.1, t.2.1)) := by
  have key' : ∀ t ∈ texts, getLang order ((texts.map (·.2)).foldl (fun g x => setLang g x.1 x.2) g) t.2.1 = t.2.2 := by
    intro t ht
    obtain ⟨a, b, rfl⟩ := List.append_of_mem ht
    rw [List.map_append, List.map_cons]
    refine C79_lang order ho g _ _ t.2.1 t.2.2 ?_
    intro x hx e
    rw [List.map_append, List.map_cons, List.nodup_append, List.nodup_cons] at hd
    obtain ⟨y, hy, rfl⟩ := List.mem_map.1 hx
    exact hd.2.1.1 (List.mem_map.2 ⟨y, hy, e⟩)
  constructor
  · simp only [translationsIn, List.filter_map]
    congr 1
    refine List.filter_congr fun t ht => ?_
    simp only [Function.comp_apply, key' t ht]
  · simp only [translationsIn, List.filter_map]
    rfl

/-- C79 fails for a property without a value: asking for it in a language raises `StopIteration`. -/
theorem C79_fails_empty (order : Order) (ho : Rearranges order) (n : Term) (prop : String) (lang : Str) :
    getCtsProperties order [] n prop.toList = .ok [] ∧ getCtsProperty order [] n prop.toList lang = .error .stopIteration := by
  have : order [] = [] := List.perm_nil.1 (ho [])
  have e : getCtsProperties order [] n prop.toList = .ok [] := by simp [getCtsProperties, Graph.objects, this, langDict]
  exact ⟨e, by simp [getCtsProperty, e, getEntry]⟩

/-- C79 fails for two values in one language: the dictionary has one of them only, and which one depends on the order in
which the graph is read. -/
theorem C79_fails_two_values : ∃ (g : Graph) (n : Term) (o1 o2 : Order) (a b : Term), Rearranges o1 ∧ Rearranges o2 ∧ a ≠ b ∧
    g = runCts [] [.property .textgroup n "groupname".toList (.str "Martial".toList) (some "eng".toList),
      .property .textgroup n "groupname".toList (.str "Epigrammatist".toList) (some "eng".toList)] ∧
    getCtsProperties o1 g n "groupname".toList = .ok [(some "eng".toList, a)] ∧
    getCtsProperties o2 g n "groupname".toList = .ok [(some "eng".toList, b)] :=
  ⟨_, .uri "urn:cts:latinLit:phi1294".toList, id, List.reverse, .lit "Epigrammatist".toList (some "eng".toList) none,
    .lit "Martial".toList (some "eng".toList) none, fun _ => .refl _, fun g => List.reverse_perm g, by decide +kernel, rfl,
    by decide +kernel, by decide +kernel⟩

/-- C79 fails for a work without a language: its language reads `None`, as a string, and so does that of its texts. -/
theorem C79_fails_no_language (order : Order) (ho : Rearranges order) (n work : Term) :
    getLang order [] work = "None".toList ∧ getLang order (newTextLang order [] n (some work) none) n = "None".toList := by
  have : order [] = [] := List.perm_nil.1 (ho [])
  have e : getLang order [] work = "None".toList := by
    simp only [getLang, Graph.objects, this, List.filter_nil, List.map_nil, List.head?_nil]
    decide +kernel
  refine ⟨e, ?_⟩
  rw [newTextLang, e]
  exact getLang_of ho (setLang_same [] n _)

/-- C79 fails for a literal with a language of its own: given as a title in another language, the property is in the one and
the label in the other. -/
theorem C79_fails_two_languages : ∃ (n : Term) (v : CtsValue), ∀ order, Rearranges order →
    let g := runCts [] [.property .work n "title".toList v (some "eng".toList)]
    (⟨n, cts "title", .lit "Epigrammata".toList (some "lat".toList) none⟩ : Triple) ∈ g ∧
    (⟨n, .uri "http://www.w3.org/2000/01/rdf-schema#label".toList, .lit "Epigrammata".toList (some "eng".toList) none⟩ : Triple) ∈ g ∧
    (⟨n, cts "title", .lit "Epigrammata".toList (some "eng".toList) none⟩ : Triple) ∉ g :=
  ⟨.uri "urn:cts:latinLit:phi1294.phi002".toList, .lit "Epigrammata".toList (some "lat".toList), fun _ _ => by decide +kernel⟩

/-- Three calls on a textgroup and its work: names in two languages, a title, a link. -/
def ctsCalls : List CtsOp :=
  [.property .textgroup (.uri "urn:cts:latinLit:phi1294".toList) "groupname".toList (.str "Martial".toList) (some "eng".toList),
   .property .textgroup (.uri "urn:cts:latinLit:phi1294".toList) "groupname".toList (.str "Martialis".toList) (some "lat".toList),
   .property .work (.uri "urn:cts:latinLit:phi1294.phi002".toList) "title".toList (.str "Epigrammata".toList) (some "lat".toList),
   .label (.uri "urn:cts:latinLit:phi1294.phi002".toList) (.str "Epigrams".toList) (some "eng".toList)]

example : getCtsProperty id (runCts [] ctsCalls) (.uri "urn:cts:latinLit:phi1294".toList) "groupname".toList "lat".toList =
    .ok (.lit "Martialis".toList (some "lat".toList) none) := by decide +kernel
example : getLabel id (runCts [] ctsCalls) (.uri "urn:cts:latinLit:phi1294.phi002".toList) (some "eng".toList) =
    .ok (some (.lit "Epigrams".toList (some "eng".toList) none)) := by decide +kernel
example : ∀ op ∈ ctsCalls, ∀ m p v, op ≠ .link m p v := by
  intro op h m p v e; subst e; simp [ctsCalls] at h
example : ∀ o, (⟨.uri "urn:cts:latinLit:phi1294".toList, cts "groupname", o⟩ : Triple) ∈ runCts [] ctsCalls → IsLiteral o := by
  intro o h
  rcases (C79_history [] ctsCalls _ _ o).1 h with h | ⟨op, hop, h⟩
  · cases h
  · cases h with
    | property => obtain ⟨s, m, e⟩ := propertyValue_lit _ _; exact ⟨s, m, none, e⟩
    | title => obtain ⟨s, m, e⟩ := labelValue_lit _ _; exact ⟨s, m, none, e⟩
    | label => obtain ⟨s, m, e⟩ := labelValue_lit _ _; exact ⟨s, m, none, e⟩
    | link => simp [ctsCalls] at hop
example : translationsIn id (setLang (setLang [] (.uri ['a']) "eng".toList) (.uri ['b']) "fre".toList)
    [(.translation, .uri ['a']), (.translation, .uri ['b'])] (some "fre".toList) = [(.translation, .uri ['b'])] := by decide +kernel

/-! ## C80 -/

theorem copyValues_ok {node p q : Term} {os : List Term} {g : Graph} (h : ∀ o ∈ os, IsLiteral o) :
    ∃ g', copyValues node p q g os = .ok g' ∧ ∀ t, t ∈ g' ↔ t ∈ g ∨
      ∃ s l d, .lit s l d ∈ os ∧ (t = ⟨node, p, .lit s l none⟩ ∨ t = ⟨node, q, .lit s l none⟩) := by
  induction os generalizing g with
  | nil => exact ⟨g, rfl, by simp⟩
  | cons o r ih =>
    obtain ⟨s, l, d, rfl⟩ := h o (List.mem_cons_self ..)
    obtain ⟨g', h1, h2⟩ := ih (g := metaAdd (metaAdd g node p (.str s) l) node q (.str s) l) fun o ho => h o (List.mem_cons_of_mem _ ho)
    refine ⟨g', by simpa only [copyValues, Term.language, Term.str] using h1, fun t => ?_⟩
    rw [h2, metaAdd, mem_insert, metaAdd, mem_insert]
    simp only [toTerm, mkLiteral, List.mem_cons]
    constructor
    · rintro (((h | h) | h) | ⟨s', l', d', hm, h⟩)
      · exact .inl h
      · exact .inr ⟨s, l, d, .inl rfl, .inl h⟩
      · exact .inr ⟨s, l, d, .inl rfl, .inr h⟩
      · exact .inr ⟨s', l', d', .inr hm, h⟩
    · rintro (h | ⟨s', l', d', e | hm, h'⟩)
      · exact .inl (.inl (.inl h))
      · injection e with e1 e2 e3
        subst e1 e2 e3
        rcases h' with h' | h'
        · exact .inl (.inl (.inr h'))
        · exact .inl (.inr h')
      · exact .inr ⟨s', l', d', hm, h'⟩

theorem copyValues_error {node p q : Term} {os : List Term} {g : Graph} (h : ∃ o ∈ os, ¬ IsLiteral o) :
    copyValues node p q g os = .error .attributeError := by
  induction os generalizing g with
  | nil => obtain ⟨o, ho, _⟩ := h; cases ho
  | cons o r ih =>
    rw [copyValues]
    cases o with
    | uri s => rfl
    | bnode s => rfl
    | lit s l d =>
      simp only [Term.language]
      refine ih ?_
      obtain ⟨x, hx, hn⟩ := h
      rw [List.mem_cons] at hx
      rcases hx with rfl | hx
      · exact absurd ⟨s, l, d, rfl⟩ hn
      · exact ⟨x, hx, hn⟩

theorem cts_keys : cts "groupname" = ctsTerm kGroupname ∧ cts "title" = ctsTerm kTitle ∧ cts "label" = ctsTerm kLabel ∧
    cts "description" = ctsTerm kDescription ∧ dc "creator" = dcCreator ∧ dc "title" = dcTitle ∧ dc "subject" = dcSubject ∧
    dc "description" = dcDescription := by decide +kernel

theorem copy_apart {g g' : Graph} {node p q : Term} {os : List Term}
    (h : ∀ t, t ∈ g' ↔ t ∈ g ∨ ∃ s l d, .lit s l d ∈ os ∧ (t = ⟨node, p, .lit s l none⟩ ∨ t = ⟨node, q, .lit s l none⟩))
    {x r o : Term} (hp : r ≠ p) (hq : r ≠ q) : (⟨x, r, o⟩ : Triple) ∈ g' ↔ (⟨x, r, o⟩ : Triple) ∈ g := by
  rw [h]
  constructor
  · rintro (h | ⟨s, l, d, _, e | e⟩)
    · exact h
    · injection e with _ e; exact absurd e hp
    · injection e with _ e; exact absurd e hq
  · exact .inl

theorem keys_apart : (ctsTerm kTitle ≠ ctsTerm kGroupname ∧ ctsTerm kTitle ≠ dcCreator) ∧
    (ctsTerm kLabel ≠ ctsTerm kGroupname ∧ ctsTerm kLabel ≠ dcCreator ∧ ctsTerm kLabel ≠ ctsTerm kTitle ∧ ctsTerm kLabel ≠ dcTitle) ∧
    (ctsTerm kDescription ≠ ctsTerm kGroupname ∧ ctsTerm kDescription ≠ dcCreator ∧ ctsTerm kDescription ≠ ctsTerm kTitle ∧
      ctsTerm kDescription ≠ dcTitle ∧ ctsTerm kDescription ≠ ctsTerm kLabel ∧ ctsTerm kDescription ≠ dcSubject) := by decide +kernel

/-- C80. `set_metadata_from_collection` repeats about the passage, as texts in their languages, the names of the textgroup, the
titles of the work, and the labels and descriptions of the text, under the CTS predicate and under the one of Dublin Core, and
changes nothing else in the graph. -/
theorem C80_graph (order : Order) (ho : Rearranges order) (g : Graph) (node edition work textgroup : Term) (above : List Term)
    (h : AllText g edition work textgroup) :
    ∃ g', setFromCollections order g node (edition :: work :: textgroup :: above) = .ok g' ∧
      ∀ t, t ∈ g' ↔ t ∈ g ∨ Repeats g node edition work textgroup t := by
  obtain ⟨k1, k2, k3, k4, k5, k6, k7, k8⟩ := cts_keys
  obtain ⟨⟨a1, a2⟩, ⟨b1, b2, b3, b4⟩, ⟨c1, c2, c3, c4, c5, c6⟩⟩ := keys_apart
  simp only [AllText, taken, List.mem_cons, List.not_mem_nil, or_false, forall_eq_or_imp, forall_eq, k1, k2, k3, k4] at h
  obtain ⟨t1, t2, t3, t4⟩ := h
  obtain ⟨g1, e1, m1⟩ := copyValues_ok (node := node) (p := ctsTerm kGroupname) (q := dcCreator) (g := g)
    (os := g.objects order textgroup (ctsTerm kGroupname)) fun o hm => t1 o ((mem_objects ho).1 hm)
  have r1 : ∀ o, (⟨work, ctsTerm kTitle, o⟩ : Triple) ∈ g1 ↔ (⟨work, ctsTerm kTitle, o⟩ : Triple) ∈ g := fun o => copy_apart m1 a1 a2
  obtain ⟨g2, e2, m2⟩ := copyValues_ok (node := node) (p := ctsTerm kTitle) (q := dcTitle) (g := g1)
    (os := g1.objects order work (ctsTerm kTitle)) fun o hm => t2 o ((r1 o).1 ((mem_objects ho).1 hm))
  have r2 : ∀ o, (⟨edition, ctsTerm kLabel, o⟩ : Triple) ∈ g2 ↔ (⟨edition, ctsTerm kLabel, o⟩ : Triple) ∈ g := fun o =>
    (copy_apart m2 b3 b4).trans (copy_apart m1 b1 b2)
  obtain ⟨g3, e3, m3⟩ := copyValues_ok (node := node) (p := ctsTerm kLabel) (q := dcSubject) (g := g2)
    (os := g2.objects order edition (ctsTerm kLabel)) fun o hm => t3 o ((r2 o).1 ((mem_objects ho).1 hm))
  have r3 : ∀ o, (⟨edition, ctsTerm kDescription, o⟩ : Triple) ∈ g3 ↔ (⟨edition, ctsTerm kDescription, o⟩ : Triple) ∈ g := fun o =>
    (copy_apart m3 c5 c6).trans ((copy_apart m2 c3 c4).trans (copy_apart m1 c1 c2))
  obtain ⟨g4, e4, m4⟩ := copyValues_ok (node := node) (p := ctsTerm kDescription) (q := dcDescription) (g := g3)
    (os := g3.objects order edition (ctsTerm kDescription)) fun o hm => t4 o ((r3 o).1 ((mem_objects ho).1 hm))
  refine ⟨g4, by simp only [setFromCollections, e1, e2, e3, e4], fun t => ?_⟩
  rw [m4 t, m3 t, m2 t, m1 t]
  simp only [Repeats, taken, List.mem_cons, List.not_mem_nil, or_false, exists_eq_or_imp, exists_eq_left, k1, k2, k3, k4, k5, k6, k7, k8,
    mem_objects ho, r1, r2, r3, or_assoc]

/-- C80. Doing it again changes nothing. -/
theorem C80_twice (order order' : Order) (ho : Rearranges order) (ho' : Rearranges order') (g g' : Graph) (node edition work textgroup : Term)
    (above : List Term) (h : AllText g edition work textgroup)
    (e : setFromCollections order g node (edition :: work :: textgroup :: above) = .ok g') :
    ∃ g'', setFromCollections order' g' node (edition :: work :: textgroup :: above) = .ok g'' ∧ ∀ t, t ∈ g'' ↔ t ∈ g' := by
  obtain ⟨x, h1, h2⟩ := C80_graph order ho g node edition work textgroup above h
  rw [h1] at e
  injection e with e
  subst e
  have back : ∀ y ∈ taken edition work textgroup, ∀ o, (⟨y.1, y.2.1, o⟩ : Triple) ∈ x → IsLiteral o := by
    intro y hy o hm
    rcases (h2 _).1 hm with hm | ⟨z, _, s, l, d, _, e | e⟩
    · exact h y hy o hm
    · injection e with _ _ e; exact ⟨s, l, none, e⟩
    · injection e with _ _ e; exact ⟨s, l, none, e⟩
  obtain ⟨g'', h3, h4⟩ := C80_graph order' ho' x node edition work textgroup above back
  refine ⟨g'', h3, fun t => ?_⟩
  rw [h4]
  refine ⟨?_, .inl⟩
  rintro (hm | ⟨y, hy, s, l, d, hm, e⟩)
  · exact hm
  · rw [h2] at hm
    rw [h2]
    rcases hm with hm | ⟨z, hz, s', l', d', hm', e'⟩
    · exact .inr ⟨y, hy, s, l, d, hm, e⟩
    · refine .inr ?_
      have hs : z.2.1 = y.2.1 ∧ z.2.2 = y.2.2 := by
        have apart : ∀ a ∈ taken edition work textgroup, ∀ b ∈ taken edition work textgroup,
            (a.2.1 = b.2.1 ∨ a.2.2 = b.2.1) → a.2.1 = b.2.1 ∧ a.2.2 = b.2.2 := by
          have : ∀ a ∈ [(cts "groupname", dc "creator"), (cts "title", dc "title"), (cts "label", dc "subject"), (cts "description", dc "description")],
              ∀ b ∈ [(cts "groupname", dc "creator"), (cts "title", dc "title"), (cts "label", dc "subject"), (cts "description", dc "description")],
              (a.1 = b.1 ∨ a.2 = b.1) → a.1 = b.1 ∧ a.2 = b.2 := by decide +kernel
          intro a ha b hb
          refine this a.2 ?_ b.2 ?_
          · have := List.mem_map_of_mem (f := (·.2)) ha; simpa [taken] using this
          · have := List.mem_map_of_mem (f := (·.2)) hb; simpa [taken] using this
        refine apart z hz y hy ?_
        rcases e' with e' | e'
        · injection e' with _ e'; exact .inl e'.symm
        · injection e' with _ e'; exact .inr e'.symm
      have ho : s = s' ∧ l = l' := by
        rcases e' with e' | e' <;> injection e' with _ _ e' <;> injection e' with a b _ <;> exact ⟨a, b⟩
      refine ⟨z, hz, s', l', d', hm', ?_⟩
      rw [hs.1, hs.2, ← ho.1, ← ho.2]
      exact e

/-- C80. It raises `ValueError` for a text that has no work with a textgroup above it. -/
theorem C80_orphan (order : Order) (g : Graph) (node : Term) (chain : List Term) (h : chain.length < 3) :
    setFromCollections order g node chain = .error .valueError := by
  match chain, h with
  | [], _ => rfl
  | [_], _ => rfl
  | [_, _], _ => rfl

/-- C80 fails for a link among the names of the textgroup: `AttributeError`. -/
theorem C80_fails_link (order : Order) (ho : Rearranges order) (g : Graph) (node edition work textgroup : Term) (above : List Term) (s : Str)
    (h : (⟨textgroup, cts "groupname", .uri s⟩ : Triple) ∈ g) :
    setFromCollections order g node (edition :: work :: textgroup :: above) = .error .attributeError := by
  rw [cts_keys.1] at h
  have := copyValues_error (node := node) (p := ctsTerm kGroupname) (q := dcCreator) (g := g)
    (os := g.objects order textgroup (ctsTerm kGroupname)) ⟨_, (mem_objects ho).2 h, fun ⟨_, _, _, e⟩ => by cases e⟩
  simp only [setFromCollections, this]

theorem single_answers (order : Order) (ho : Rearranges order) (g : Graph) (n k : Term) (lang : Option Str)
    (h : ∀ o, (⟨n, k, o⟩ : Triple) ∈ g → IsLiteral o) :
    ∃ r, metaGetSingle order g n k lang = .ok r ∧ Answers (fun o => (⟨n, k, o⟩ : Triple) ∈ g) lang r := by
  cases lang with
  | none =>
    obtain ⟨r, h1, h2, h3⟩ := C49_single_any order ho g n k
    exact ⟨r, h1, h2, by simp, h3⟩
  | some l =>
    obtain ⟨r, h1, h2, h3, h4⟩ := C49_single order ho g n k l h
    exact ⟨r, h1, h2, fun l' e => (by injection e with e; subst e; exact h3), h4⟩


theorem dc_values {g g' : Graph} {node edition work textgroup : Term}
    (h : ∀ t, t ∈ g' ↔ t ∈ g ∨ Repeats g node edition work textgroup t) {x : Term × Term × Term} (hx : x ∈ taken edition work textgroup)
    (hn : ∀ o, (⟨node, x.2.2, o⟩ : Triple) ∉ g) (o : Term) :
    (⟨node, x.2.2, o⟩ : Triple) ∈ g' ↔ plainTexts g x.1 x.2.1 o := by
  have hp : ∀ a ∈ taken edition work textgroup, ∀ b ∈ taken edition work textgroup, a.2.2 ≠ b.2.1 ∧ (a.2.2 = b.2.2 → a = b) := by
    have : dc "creator" ≠ dc "title" ∧ dc "creator" ≠ dc "subject" ∧ dc "creator" ≠ dc "description" ∧ dc "title" ≠ dc "subject" ∧
      dc "title" ≠ dc "description" ∧ dc "subject" ≠ dc "description" := by decide +kernel
    have h2 : ∀ a ∈ [dc "creator", dc "title", dc "subject", dc "description"],
        ∀ b ∈ [cts "groupname", cts "title", cts "label", cts "description"], a ≠ b := by decide +kernel
    obtain ⟨n1, n2, n3, n4, n5, n6⟩ := this
    intro a ha b hb
    refine ⟨h2 _ (by have := List.mem_map_of_mem (f := (·.2.2)) ha; simpa [taken] using this) _
      (by have := List.mem_map_of_mem (f := (·.2.1)) hb; simpa [taken] using this), ?_⟩
    clear h2
    simp only [taken, List.mem_cons, List.not_mem_nil, or_false] at ha hb
    clear h hx hn
    generalize dc "creator" = c1 at *
    generalize dc "title" = c2 at *
    generalize dc "subject" = c3 at *
    generalize dc "description" = c4 at *
    generalize cts "groupname" = d1 at *
    generalize cts "title" = d2 at *
    generalize cts "label" = d3 at *
    generalize cts "description" = d4 at *
    rcases ha with rfl | rfl | rfl | rfl <;> rcases hb with rfl | rfl | rfl | rfl <;> intro e <;>
      first
        | rfl
        | (exfalso; dsimp only at e; first | exact n1 e | exact n2 e | exact n3 e | exact n4 e | exact n5 e | exact n6 e | exact n1 e.symm | exact n2 e.symm | exact n3 e.symm | exact n4 e.symm | exact n5 e.symm | exact n6 e.symm)
  rw [h]
  constructor
  · rintro (hm | ⟨y, hy, s, l, d, hm, e | e⟩)
    · exact absurd hm (hn o)
    · injection e with _ e _
      exact absurd e (hp x hx y hy).1
    · injection e with _ e1 e2
      have := (hp x hx y hy).2 e1
      subst this
      exact ⟨s, l, d, hm, e2⟩
  · rintro ⟨s, l, d, hm, rfl⟩
    exact .inr ⟨x, hx, s, l, d, hm, .inr rfl⟩

theorem answers_congr {P Q : Term → Prop} (h : ∀ o, P o ↔ Q o) {lang : Option Str} {r : Option Term} (a : Answers P lang r) :
    Answers Q lang r := by
  have : P = Q := funext fun o => propext (h o)
  rwa [← this]

/-- C80. Afterwards a passage about which nothing was said under these predicates has, in any language asked for or without
one: as creator a name of the textgroup, as subject a label of the text, as description a description of the text; each in the
language when there is one in it. -/
theorem C80_getters (order order' : Order) (ho : Rearranges order) (ho' : Rearranges order') (g g' : Graph) (node edition work textgroup : Term)
    (above : List Term) (h : AllText g edition work textgroup)
    (e : setFromCollections order g node (edition :: work :: textgroup :: above) = .ok g')
    (hn : ∀ p ∈ [dc "creator", dc "subject", dc "description"], ∀ o, (⟨node, p, o⟩ : Triple) ∉ g) (lang : Option Str) :
    (∃ r, nodeCreator order' g' node lang = .ok r ∧ Answers (plainTexts g textgroup (cts "groupname")) lang r) ∧
    (∃ r, nodeSubject order' g' node lang = .ok r ∧ Answers (plainTexts g edition (cts "label")) lang r) ∧
    (∃ r, nodeDescription order' g' node lang = .ok r ∧ Answers (plainTexts g edition (cts "description")) lang r) := by
  obtain ⟨x, h1, h2⟩ := C80_graph order ho g node edition work textgroup above h
  rw [h1] at e
  injection e with e
  subst e
  obtain ⟨k1, k2, k3, k4, k5, k6, k7, k8⟩ := cts_keys
  have gen : ∀ y ∈ taken edition work textgroup, (∀ o, (⟨node, y.2.2, o⟩ : Triple) ∉ g) →
      ∃ r, metaGetSingle order' x node y.2.2 lang = .ok r ∧ Answers (plainTexts g y.1 y.2.1) lang r := by
    intro y hy hn
    have hv := dc_values h2 hy hn
    obtain ⟨r, e1, e2⟩ := single_answers order' ho' x node y.2.2 lang fun o hm => by
      obtain ⟨s, l, d, _, e⟩ := (hv o).1 hm
      exact ⟨s, l, none, e⟩
    exact ⟨r, e1, answers_congr hv e2⟩
  refine ⟨?_, ?_, ?_⟩
  · rw [nodeCreator, ← k5]
    exact gen (textgroup, cts "groupname", dc "creator") (by simp [taken]) (hn _ (by simp))
  · rw [nodeSubject, ← k7]
    exact gen (edition, cts "label", dc "subject") (by simp [taken]) (hn _ (by simp))
  · rw [nodeDescription, ← k8]
    exact gen (edition, cts "description", dc "description") (by simp [taken]) (hn _ (by simp))

/-- C80. And as title a title of the work, when no title is empty. -/
theorem C80_title (order order' : Order) (ho : Rearranges order) (ho' : Rearranges order') (g g' : Graph) (node edition work textgroup : Term)
    (above : List Term) (h : AllText g edition work textgroup)
    (e : setFromCollections order g node (edition :: work :: textgroup :: above) = .ok g')
    (hn : ∀ p ∈ [dc "title", .uri "http://purl.org/dc/terms/title".toList], ∀ o, (⟨node, p, o⟩ : Triple) ∉ g)
    (hw : ∀ l d, (⟨work, cts "title", .lit [] l d⟩ : Triple) ∉ g) (lang : Option Str) :
    ∃ r, nodeTitle order' g' node lang = .ok r ∧ Answers (plainTexts g work (cts "title")) lang r := by
  obtain ⟨x, h1, h2⟩ := C80_graph order ho g node edition work textgroup above h
  rw [h1] at e
  injection e with e
  subst e
  have k : dc "title" = dcTitle := cts_keys.2.2.2.2.2.1
  have k' : (.uri "http://purl.org/dc/terms/title".toList : Term) = dctTitle := by decide +kernel
  have hv := dc_values h2 (x := (work, cts "title", dc "title")) (by simp [taken]) (hn _ (by simp))
  simp only [k] at hv
  obtain ⟨r, e1, e2⟩ := single_answers order' ho' x node dcTitle lang fun o hm => by
    obtain ⟨s, l, d, _, e⟩ := (hv o).1 hm
    exact ⟨s, l, none, e⟩
  have e3 := answers_congr hv e2
  have hd : ∀ o, (⟨node, dctTitle, o⟩ : Triple) ∉ x := by
    intro o hm
    rcases (h2 _).1 hm with hm | ⟨y, hy, s, l, d, _, e⟩
    · exact hn dctTitle (by rw [← k']; simp) o hm
    · have : ∀ p ∈ [cts "groupname", cts "title", cts "label", cts "description", dc "creator", dc "title", dc "subject", dc "description"],
          dctTitle ≠ p := by decide +kernel
      simp only [taken, List.mem_cons, List.not_mem_nil, or_false] at hy
      rcases hy with rfl | rfl | rfl | rfl <;> rcases e with e | e <;> injection e with _ e <;> exact this _ (by simp) e
  cases r with
  | some t =>
    refine ⟨some t, ?_, e3⟩
    obtain ⟨s, l, d, hm, rfl⟩ := e3.1 t rfl
    have hs : s ≠ [] := fun hs => hw l d (hs ▸ hm)
    rw [nodeTitle, e1]
    simp [Term.truthy, Term.str, hs]
  | none =>
    obtain ⟨r', e4, e5⟩ := single_answers order' ho' x node dctTitle lang fun o hm => absurd hm (hd o)
    have : r' = none := e5.2.2.2 hd
    subst this
    exact ⟨none, by rw [nodeTitle, e1]; exact e4, e3⟩

/-- C80 fails for an empty title: in the language of the empty one the title of the passage is `None`, although the work has
another title, which is given in every other language. -/
theorem C80_fails_empty_title : ∃ (g g' : Graph) (node edition work textgroup : Term),
    setFromCollections id g node [edition, work, textgroup] = .ok g' ∧ AllText g edition work textgroup ∧
    nodeTitle id g' node (some "lat".toList) = .ok none ∧
    nodeTitle id g' node (some "eng".toList) = .ok (some (.lit "Epigrams".toList (some "eng".toList) none)) := by
  refine ⟨[⟨.uri ['w'], cts "title", .lit [] (some "lat".toList) none⟩, ⟨.uri ['w'], cts "title", .lit "Epigrams".toList (some "eng".toList) none⟩],
    _, .uri ['p'], .uri ['e'], .uri ['w'], .uri ['t'], rfl, ?_, by decide +kernel, by decide +kernel⟩
  intro x _ o hm
  simp only [List.mem_cons, List.not_mem_nil, or_false, Triple.mk.injEq] at hm
  rcases hm with ⟨_, _, rfl⟩ | ⟨_, _, rfl⟩
  · exact ⟨_, _, _, rfl⟩
  · exact ⟨_, _, _, rfl⟩

/-- C80. The citation scheme: a scheme of its own stays; otherwise the scheme of the text is taken if it is set. -/
theorem C80_citation {κ : Type} (isSet : κ → Bool) (own : κ) (edition : κ) :
    ∃ c, citationFrom isSet own (some edition) = .ok c ∧ (isSet own = true → c = own) ∧
      (isSet own = false → isSet edition = true → c = edition) ∧ (isSet c = (isSet own || isSet edition)) := by
  cases h : isSet own with
  | true => exact ⟨own, by simp [citationFrom, h], fun _ => rfl, nofun, by simp [h]⟩
  | false =>
    cases h' : isSet edition with
    | true => exact ⟨edition, by simp [citationFrom, h, h'], nofun, fun _ _ => rfl, by simp [h']⟩
    | false => exact ⟨own, by simp [citationFrom, h, h'], nofun, nofun, by simp [h]⟩

/-- C80 fails for a text without a citation, on a passage whose own is not set: `AttributeError`. -/
theorem C80_fails_no_citation {κ : Type} (isSet : κ → Bool) (own : κ) (h : isSet own = false) :
    citationFrom isSet own none = .error .attributeError := by simp [citationFrom, h]

/-- A passage of a translation of Martial. -/
def martialGraph : Graph :=
  runCts [] (ctsCalls ++ [.property .text (.uri "urn:cts:latinLit:phi1294.phi002.perseus-lat2".toList) "label".toList (.str "Epigrammata".toList) (some "lat".toList)])
def martialChain : List Term :=
  [.uri "urn:cts:latinLit:phi1294.phi002.perseus-lat2".toList, .uri "urn:cts:latinLit:phi1294.phi002".toList, .uri "urn:cts:latinLit:phi1294".toList]

example : (setFromCollections id martialGraph (.bnode ['p']) martialChain).bind
    (fun g => nodeCreator List.reverse g (.bnode ['p']) (some "lat".toList)) = .ok (some (.lit "Martialis".toList (some "lat".toList) none)) := by
  decide +kernel
example : (setFromCollections id martialGraph (.bnode ['p']) martialChain).bind
    (fun g => nodeTitle List.reverse g (.bnode ['p']) (some "ger".toList)) = .ok (some (.lit "Epigrammata".toList (some "lat".toList) none)) := by
  decide +kernel
example : ∀ p ∈ [dc "creator", dc "subject", dc "description", dc "title", .uri "http://purl.org/dc/terms/title".toList], ∀ t ∈ martialGraph,
    ¬ (t.s = .bnode ['p'] ∧ t.p = p) := by decide +kernel
example : AllText martialGraph (.uri "urn:cts:latinLit:phi1294.phi002.perseus-lat2".toList) (.uri "urn:cts:latinLit:phi1294.phi002".toList)
    (.uri "urn:cts:latinLit:phi1294".toList) := by
  intro x _ o hm
  have : ∀ t ∈ martialGraph, (match t.o with | .lit .. => true | _ => false) = true := by decide +kernel
  have := this _ hm
  cases o with
  | lit s l d => exact ⟨s, l, d, rfl⟩
  | _ => cases this

end Verif.Props
