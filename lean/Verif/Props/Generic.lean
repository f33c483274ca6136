import Verif.Lemmas.Generic
/-!
C53 namespaces, C54 spaces, C55 nested dictionaries, C56 escaping.
-/
namespace Verif.Props
open Verif.Py Verif.Model Verif.Spec Verif.Lemmas

/-! ## C54 -/

/-- C54. Every run of spaces becomes one space; nothing else changes. -/
theorem C54_runs_become_one (s : Str) : normalize s = squeeze s := normalize_eq s

/-- C54. No two adjacent spaces are left. -/
theorem C54_no_adjacent_spaces (s a b : Str) : normalize s ≠ a ++ ' ' :: ' ' :: b := by
  rw [normalize_eq]; exact (single_iff _).1 (single_squeeze s) a b

/-- C54. All other characters are kept, in order. -/
theorem C54_other_characters (s : Str) : (normalize s).filter (· ≠ ' ') = s.filter (· ≠ ' ') := by
  rw [normalize_eq]; exact squeeze_filter _ (by decide) s

/-- C54. The words are the same, and so is what stands at the two ends. -/
theorem C54_words (s : Str) : words (normalize s) = words s ∧ (normalize s).head? = s.head? ∧ (normalize s).getLast? = s.getLast? := by
  rw [normalize_eq]; exact ⟨words_squeeze s, squeeze_head s, squeeze_last s⟩

/-- C54. A string without adjacent spaces is not changed. -/
theorem C54_unchanged (s : Str) (h : ∀ a b, s ≠ a ++ ' ' :: ' ' :: b) : normalize s = s := by
  rw [normalize_eq]; exact squeeze_of_single ((single_iff s).2 h)

/-- C54. Normalising twice is normalising once. -/
theorem C54_idempotent (s : Str) : normalize (normalize s) = normalize s :=
  C54_unchanged _ (C54_no_adjacent_spaces s)

example : normalize "  arma   virumque cano  ".toList = " arma virumque cano ".toList := by decide +kernel
example : words "  arma   virumque cano  ".toList = ["arma".toList, "virumque".toList, "cano".toList] := by decide +kernel

/-! ## C55 -/

/-- C55. What `nested_get` reads is what stands at the path; when all keys are present it changes nothing. -/
theorem C55_get {α : Type} (d v : NDict α) (p : List Str) (h : valueAt d p = some v) : nestedGet d p = .ok (v, d) := by
  induction p generalizing d with
  | nil => simp [valueAt] at h; subst h; rfl
  | cons k ks ih =>
    cases d with
    | leaf a => simp [valueAt] at h
    | dict l =>
      simp only [valueAt] at h
      cases hl : l.lookup k with
      | none => simp [hl] at h
      | some sub =>
        simp only [hl] at h
        simp only [nestedGet, NDict.getItem, hl, ih sub h, putItem_same hl]

/-- C55. Reading a missing path gives an empty dictionary, which is created: `d` is a dictionary and `p` leaves
it at the first missing key. -/
theorem C55_get_missing {α : Type} (l : List (Str × NDict α)) (k : Str) (ks : List Str) (h : l.lookup k = none) :
    ∃ d', nestedGet (.dict l) (k :: ks) = .ok (.dict [], d') ∧ valueAt d' (k :: ks) = some (.dict []) ∧
      leaves d' = leaves (.dict l) := by
  have aux : ∀ ks : List Str, ∃ d' : NDict α, nestedGet (.dict []) ks = .ok (.dict [], d') ∧ valueAt d' ks = some (.dict []) ∧
      leaves d' = [] := by
    intro ks
    induction ks with
    | nil => exact ⟨.dict [], rfl, rfl, by simp [leaves, itemLeaves]⟩
    | cons k ks ih =>
      obtain ⟨d', h1, h2, h3⟩ := ih
      refine ⟨.dict [(k, d')], ?_, ?_, ?_⟩
      · simp [nestedGet, NDict.getItem, putItem, h1]
      · simp [valueAt, h2]
      · simp [leaves, itemLeaves, h3]
  obtain ⟨d', h1, h2, h3⟩ := aux ks
  refine ⟨.dict (putItem l k d'), ?_, ?_, ?_⟩
  · simp [nestedGet, NDict.getItem, h, h1, putItem_putItem]
  · simp [valueAt, lookup_putItem_self, h2]
  · simp only [leaves]
    clear h1 h2
    induction l with
    | nil => simp [putItem, itemLeaves, h3]
    | cons q r ih =>
      obtain ⟨x, w⟩ := q
      have hx : ¬ x = k := by
        intro e; subst e; simp at h
      have hr : r.lookup k = none := by
        rw [List.lookup_cons] at h
        have : (k == x) = false := by simp; exact fun e => hx e.symm
        rw [this] at h; exact h
      simp [putItem, hx, itemLeaves, ih hr]

/-- C55. After a successful `nested_set` the value stands at the path. -/
theorem C55_set_then_value {α : Type} (d d' v : NDict α) (p : List Str) (h : nestedSet d p v = .ok d') : valueAt d' p = some v := by
  induction p generalizing d d' with
  | nil => cases d <;> simp [nestedSet] at h
  | cons k ks ih =>
    cases d with
    | leaf a => simp [nestedSet] at h
    | dict l =>
      simp only [nestedSet] at h
      by_cases hk : ks = []
      · subst hk
        simp at h
        subst h
        simp [valueAt, lookup_putItem_self]
      · rw [if_neg hk] at h
        cases hg : (NDict.dict l).getItem k with
        | error e => simp [hg] at h
        | ok p =>
          obtain ⟨sub, l'⟩ := p
          simp only [hg] at h
          cases hs : nestedSet sub ks v with
          | error e => simp [hs] at h
          | ok sub' =>
            simp only [hs, Except.ok.injEq] at h
            subst h
            simp [valueAt, lookup_putItem_self, ih sub sub' hs]

/-- C55. `nested_set` followed by `nested_get` on the same path returns the value. -/
theorem C55_set_get {α : Type} (d d' v : NDict α) (p : List Str) (h : nestedSet d p v = .ok d') :
    nestedGet d' p = .ok (v, d') :=
  C55_get d' v p (C55_set_then_value d d' v p h)

/-- C55. A set leaves what stands at every other path that is neither a beginning nor a continuation of its
own path. -/
theorem C55_set_elsewhere {α : Type} (d d' v : NDict α) (p q : List Str) (h : nestedSet d p v = .ok d')
    (h1 : ¬ p <+: q) (h2 : ¬ q <+: p) : valueAt d' q = valueAt d q := by
  induction p generalizing d d' q with
  | nil => exact absurd (List.nil_prefix) h1
  | cons k ks ih =>
    cases d with
    | leaf a => simp [nestedSet] at h
    | dict l =>
      cases q with
      | nil => exact absurd (List.nil_prefix) h2
      | cons k' qs =>
        simp only [nestedSet] at h
        by_cases hkk : k' = k
        · subst hkk
          have h1' : ¬ ks <+: qs := fun e => h1 (by rw [List.cons_prefix_cons]; exact ⟨rfl, e⟩)
          have h2' : ¬ qs <+: ks := fun e => h2 (by rw [List.cons_prefix_cons]; exact ⟨rfl, e⟩)
          have hk : ¬ ks = [] := by rintro rfl; exact h1' List.nil_prefix
          have hq : qs ≠ [] := by rintro rfl; exact h2' List.nil_prefix
          rw [if_neg hk] at h
          simp only [NDict.getItem] at h
          cases hl : l.lookup k' with
          | some sub =>
            simp only [hl] at h
            cases hs : nestedSet sub ks v with
            | error e => simp [hs] at h
            | ok sub' =>
              simp only [hs, Except.ok.injEq] at h
              subst h
              simp [valueAt, lookup_putItem_self, hl, ih sub sub' qs hs h1' h2']
          | none =>
            simp only [hl] at h
            cases hs : nestedSet (.dict []) ks v with
            | error e => simp [hs] at h
            | ok sub' =>
              simp only [hs, Except.ok.injEq] at h
              subst h
              simp only [valueAt, lookup_putItem_self, hl, ih _ sub' qs hs h1' h2']
              cases qs with
              | nil => exact absurd rfl hq
              | cons a b => simp [valueAt]
        · by_cases hk : ks = []
          · subst hk
            simp at h; subst h
            simp [valueAt, lookup_putItem_ne _ _ hkk]
          · rw [if_neg hk] at h
            simp only [NDict.getItem] at h
            cases hl : l.lookup k with
            | some sub =>
              simp only [hl] at h
              cases hs : nestedSet sub ks v with
              | error e => simp [hs] at h
              | ok sub' =>
                simp only [hs, Except.ok.injEq] at h
                subst h
                simp [valueAt, lookup_putItem_ne _ _ hkk]
            | none =>
              simp only [hl] at h
              cases hs : nestedSet (.dict []) ks v with
              | error e => simp [hs] at h
              | ok sub' =>
                simp only [hs, Except.ok.injEq] at h
                subst h
                simp [valueAt, lookup_putItem_ne _ _ hkk]

/-- C55. A set succeeds exactly when the path is not empty and does not go through a stored value. -/
theorem C55_set_succeeds {α : Type} (d v : NDict α) (p : List Str) :
    (∃ d', nestedSet d p v = .ok d') ↔ p ≠ [] ∧ ∀ q a, q <+: p → q ≠ p → valueAt d q ≠ some (.leaf a) := by
  induction p generalizing d with
  | nil => cases d <;> simp [nestedSet]
  | cons k ks ih =>
    cases d with
    | leaf a =>
      simp only [nestedSet, reduceCtorEq, exists_false, false_iff, not_and]
      intro _ h
      exact h [] a List.nil_prefix (by simp) rfl
    | dict l =>
      simp only [nestedSet]
      by_cases hk : ks = []
      · subst hk
        simp only [if_true, Except.ok.injEq, exists_eq', true_iff]
        refine ⟨by simp, ?_⟩
        intro q a hq hne
        have : q = [] := by
          cases q with
          | nil => rfl
          | cons x r =>
            rw [List.cons_prefix_cons] at hq
            have := List.prefix_nil.1 hq.2
            exact absurd (by rw [hq.1, this]) hne
        subst this; simp [valueAt]
      · rw [if_neg hk]
        have key : ∀ sub : NDict α, (∀ q, q ≠ [] → valueAt (.dict l) (k :: q) = valueAt sub q) →
            (valueAt (.dict l) [k] = some sub ∨ (valueAt (.dict l) [k] = none ∧ sub = .dict [])) →
            ((∃ d', nestedSet sub ks v = .ok d') ↔
              (k :: ks) ≠ [] ∧ ∀ q a, q <+: (k :: ks) → q ≠ (k :: ks) → valueAt (.dict l) q ≠ some (.leaf a)) := by
          intro sub hv hsub
          rw [ih sub]
          constructor
          · rintro ⟨_, h⟩
            refine ⟨by simp, ?_⟩
            intro q a hq hne
            cases q with
            | nil => simp [valueAt]
            | cons x r =>
              rw [List.cons_prefix_cons] at hq
              obtain ⟨rfl, hr⟩ := hq
              by_cases hr0 : r = []
              · subst hr0
                rcases hsub with e | ⟨e, _⟩
                · rw [e]
                  have := h [] a List.nil_prefix (fun e => hk e.symm)
                  simpa [valueAt] using this
                · rw [e]; simp
              · rw [hv r hr0]
                exact h r a hr (fun e => hne (by rw [e]))
          · rintro ⟨_, h⟩
            refine ⟨hk, ?_⟩
            intro q a hq hne
            by_cases hq0 : q = []
            · subst hq0
              rcases hsub with e | ⟨_, e⟩
              · have := h [k] a (by rw [List.cons_prefix_cons]; exact ⟨rfl, List.nil_prefix⟩) (by simpa using fun e => hk e)
                rw [e] at this
                simpa [valueAt] using this
              · subst e; simp [valueAt]
            · rw [← hv q hq0]
              exact h (k :: q) a (by rw [List.cons_prefix_cons]; exact ⟨rfl, hq⟩) (by simpa using hne)
        simp only [NDict.getItem]
        cases hl : l.lookup k with
        | some sub =>
          rw [← key sub (fun q _ => by simp [valueAt, hl]) (.inl (by simp [valueAt, hl]))]
          constructor
          · rintro ⟨d', h⟩
            cases hs : nestedSet sub ks v with
            | error e => simp [hs] at h
            | ok s => exact ⟨s, rfl⟩
          · rintro ⟨d', h⟩
            exact ⟨.dict (putItem l k d'), by simp only [h]⟩
        | none =>
          rw [← key (.dict []) (fun q hq => by cases q with
            | nil => exact absurd rfl hq
            | cons => simp [valueAt, hl]) (.inr ⟨by simp [valueAt, hl], rfl⟩)]
          constructor
          · rintro ⟨d', h⟩
            cases hs : nestedSet (.dict []) ks v with
            | error e => simp [hs] at h
            | ok s => exact ⟨s, rfl⟩
          · rintro ⟨d', h⟩
            exact ⟨.dict (putItem (putItem l k (.dict [])) k d'), by simp only [h]⟩

example : ∃ d d' : NDict Str, nestedSet (.dict []) [['1'], ['1']] (.leaf ['a']) = .ok d ∧
    nestedSet d [['1'], ['2']] (.leaf ['b']) = .ok d' ∧ valueAt d' [['1'], ['1']] = some (.leaf ['a']) ∧
    leaves d' = [([['1'], ['1']], ['a']), ([['1'], ['2']], ['b'])] :=
  ⟨.dict [(['1'], .dict [(['1'], .leaf ['a'])])],
   .dict [(['1'], .dict [(['1'], .leaf ['a']), (['2'], .leaf ['b'])])], rfl, rfl, rfl, rfl⟩

/-! ## C53 -/

/-- C53. A string that begins with no registered prefix is not changed. -/
theorem C53_unknown_prefix (nsmap : List (Str × Str)) (s : Str) (h : ∀ ns uri, (ns, uri) ∈ nsmap → ¬ ns ++ [':'] <+: s) :
    expandNamespace nsmap s = s := by
  induction nsmap with
  | nil => rfl
  | cons p r ih =>
    obtain ⟨ns, uri⟩ := p
    rw [expandNamespace, if_neg, ih (fun n u hm => h n u (List.mem_cons_of_mem _ hm))]
    intro hs
    exact h ns uri (List.mem_cons_self ..) (List.isPrefixOf_iff_prefix.1 hs)

/-- C53. A registered prefix is replaced by its namespace, for tables whose prefixes hold no colon and names
in which the prefix with its colon does not occur again. -/
theorem C53_expand (nsmap : List (Str × Str)) (ns uri name : Str) (h : nsmap.lookup ns = some uri)
    (hcol : ∀ n u, (n, u) ∈ nsmap → ':' ∉ n) (hn : ∀ a b, name ≠ a ++ (ns ++ [':']) ++ b) :
    expandNamespace nsmap (ns ++ ':' :: name) = uri ++ name := by
  induction nsmap with
  | nil => simp at h
  | cons p r ih =>
    obtain ⟨n, u⟩ := p
    rw [expandNamespace]
    by_cases he : n = ns
    · subst he
      simp at h; subst h
      have e : n ++ ':' :: name = (n ++ [':']) ++ name := by simp
      rw [if_pos (by rw [e]; exact List.isPrefixOf_iff_prefix.2 ⟨_, rfl⟩), e]
      exact replace_first _ _ _ (by simp) hn
    · have hb : (ns == n) = false := by simp; exact fun e => he e.symm
      rw [List.lookup_cons, hb] at h
      have hns : ':' ∉ ns := by
        have : (ns, uri) ∈ r := by
          clear ih hcol hn
          induction r with
          | nil => simp at h
          | cons q r ih =>
            obtain ⟨x, y⟩ := q
            rw [List.lookup_cons] at h
            by_cases hx : ns = x
            · subst hx; simp at h; subst h; simp
            · have : (ns == x) = false := by simp [hx]
              rw [this] at h
              exact List.mem_cons_of_mem _ (ih h)
        exact hcol ns uri (List.mem_cons_of_mem _ this)
      rw [if_neg, ih h (fun n u hm => hcol n u (List.mem_cons_of_mem _ hm))]
      intro hs
      obtain ⟨t, ht⟩ := List.isPrefixOf_iff_prefix.1 hs
      have hcn := hcol n u (List.mem_cons_self ..)
      have e1 : (split ':' (ns ++ ':' :: name)).head? = some ns := by
        rw [split_append _ hns]; rfl
      have e2 : (split ':' (n ++ ':' :: t)).head? = some n := by
        rw [split_append _ hcn]; rfl
      have e3 : n ++ ':' :: t = ns ++ ':' :: name := by rw [← ht]; simp
      rw [e3, e1] at e2
      exact he (Option.some.inj e2).symm

example : expandNamespace [("dc".toList, "http://dc/".toList), ("ti".toList, "http://ti/".toList)] "ti:title".toList =
    "http://ti/title".toList := by decide +kernel

/-- The code replaces every occurrence: a second `ti:` inside the name is expanded too. -/
theorem C53_fails_on_second_occurrence :
    expandNamespace [("ti".toList, "http://ti/".toList)] "ti:anti:x".toList = "http://ti/anhttp://ti/x".toList := by decide +kernel

/-! ## C56 -/

/-- C56. Escaped text holds no `<` and no `>`. -/
theorem C56_no_markup (s : Str) : '<' ∉ xmlEscape s ∧ '>' ∉ xmlEscape s := by
  rw [xmlEscape_eq]
  constructor <;>
  · intro h
    obtain ⟨c, _, hc⟩ := List.mem_flatMap.1 h
    unfold escapeChar at hc
    split at hc
    · simp at hc
    · split at hc
      · simp at hc
      · split at hc
        · simp at hc
        · simp at hc; exact absurd hc.symm (by assumption)

/-- C56. Escaped text reads back as the text. -/
theorem C56_unescape (s : Str) : unescape (xmlEscape s) = s := by
  have := unescape_escape s []
  rw [List.append_nil] at this
  rw [xmlEscape_eq, this]
  simp [unescape]

theorem readAttrs_text (attrs : List (Str × Str)) (rest : Str) (n : Nat) (hn : attrs.length ≤ n)
    (h : ∀ a ∈ attrs, '=' ∉ a.1 ∧ '>' ∉ a.1 ∧ '"' ∉ a.2) :
    readAttrs n ((attrs.flatMap fun a => ' ' :: a.1 ++ ['=', '"'] ++ a.2 ++ ['"']) ++ '>' :: rest) = (attrs, '>' :: rest) := by
  induction attrs generalizing n with
  | nil => cases n <;> simp [readAttrs]
  | cons a r ih =>
    cases n with
    | zero => simp at hn
    | succ n =>
      obtain ⟨k, v⟩ := a
      obtain ⟨h1, h2, h3⟩ := h (k, v) (List.mem_cons_self ..)
      have hk : ∀ c ∈ k, (c != '=') = true := fun c hc => by simp; rintro rfl; exact h1 hc
      have hv : ∀ c ∈ v, (c != '"') = true := fun c hc => by simp; rintro rfl; exact h3 hc
      have ih := ih n (by simpa using hn) (fun a ha => h a (List.mem_cons_of_mem _ ha))
      simp only [List.flatMap_cons, List.append_assoc, List.cons_append, List.nil_append]
      generalize hq : (List.flatMap (fun a : Str × Str => ' ' :: (a.1 ++ '=' :: '"' :: (a.2 ++ ['"']))) r ++ '>' :: rest) = q
      have ih : readAttrs n q = (r, '>' :: rest) := by
        rw [← hq, ← ih]; simp
      rw [readAttrs.eq_2]
      · rw [takeWhile_append_stop _ hk (by simp), dropWhile_append_stop _ hk (by simp)]
        simp only [List.drop_succ_cons, List.drop_zero]
        rw [takeWhile_append_stop _ hv (by simp), dropWhile_append_stop _ hv (by simp)]
        simp [ih]
      · intro s hs
        cases k with
        | nil => simp at hs
        | cons c k => simp at hs; exact h2 (by simp [hs.1])

theorem attrsText_eq (attrs : List (Str × Str)) (h : attrs ≠ []) :
    ' ' :: attrsText attrs = attrs.flatMap fun a => ' ' :: a.1 ++ ['=', '"'] ++ a.2 ++ ['"'] := by
  unfold attrsText
  induction attrs with
  | nil => exact absurd rfl h
  | cons a r ih =>
    cases r with
    | nil => simp
    | cons b r =>
      have ih := ih (by simp)
      rw [List.map_cons, List.map_cons, join, List.flatMap_cons, ← ih]
      simp

/-- C56. A complete node is read back with its name, attributes and text. Attribute values are not escaped by
the code, so they must be free of the double quote. -/
theorem C56_node_reads_back (name text : Str) (attrs : List (Str × Str)) (hname : ' ' ∉ name ∧ '>' ∉ name)
    (h : ∀ a ∈ attrs, '=' ∉ a.1 ∧ '>' ∉ a.1 ∧ '"' ∉ a.2) :
    readNode (makeXmlNode name false (some attrs) text true []) = some (name, attrs, text, makeXmlNode name true none [] false []) ∧
    readNode (makeXmlNode name false none text true []) = some (name, [], text, makeXmlNode name true none [] false []) := by
  have hn : ∀ c ∈ name, (c != ' ' && c != '>') = true := fun c hc => by
    simp; exact ⟨by rintro rfl; exact hname.1 hc, by rintro rfl; exact hname.2 hc⟩
  have ht : ∀ c ∈ xmlEscape text, (c != '<') = true := fun c hc => by
    simp; rintro rfl; exact (C56_no_markup text).1 hc
  constructor
  · simp only [makeXmlNode, if_true, List.append_nil, List.cons_append, List.nil_append, List.append_assoc, Bool.false_eq_true, if_false]
    have hr : ∀ n, attrs.length ≤ n → readAttrs n (' ' :: (attrsText attrs ++ '>' :: (xmlEscape text ++ '<' :: '/' :: (name ++ ['>'])))) =
        (attrs, '>' :: (xmlEscape text ++ '<' :: '/' :: (name ++ ['>']))) := by
      intro n hn
      by_cases he : attrs = []
      · subst he; cases n <;> simp [attrsText, readAttrs]
      · rw [← readAttrs_text attrs _ n hn h, ← attrsText_eq attrs he]; simp
    rw [readNode]
    rw [dropWhile_append_stop _ hn (by simp), takeWhile_append_stop _ hn (by simp), hr]
    · dsimp only
      show some (name, attrs, unescape (List.takeWhile (fun x => x != '<') _), List.dropWhile (fun x => x != '<') (xmlEscape text ++ '<' :: '/' :: (name ++ ['>']))) = _
      rw [dropWhile_append_stop _ ht (by simp), takeWhile_append_stop _ ht (by simp), C56_unescape]
    · have : attrs.length ≤ (attrsText attrs).length + 1 := by
        by_cases he : attrs = []
        · simp [he]
        · have := congrArg List.length (attrsText_eq attrs he)
          simp only [List.length_cons, List.length_flatMap] at this
          rw [this]
          clear this hr he h
          induction attrs with
          | nil => simp
          | cons a r ih => simp at ih ⊢; omega
      simp; omega
  · simp only [makeXmlNode, if_true, List.append_nil, List.cons_append, List.nil_append, List.append_assoc, Bool.false_eq_true, if_false]
    rw [readNode]
    rw [dropWhile_append_stop _ hn (by simp), takeWhile_append_stop _ hn (by simp)]
    have : ∀ n r, readAttrs n ('>' :: r) = ([], '>' :: r) := by intro n r; cases n <;> simp [readAttrs]
    rw [this]
    dsimp only
    show some (name, [], unescape (List.takeWhile (fun x => x != '<') _), List.dropWhile (fun x => x != '<') (xmlEscape text ++ '<' :: '/' :: (name ++ ['>']))) = _
    rw [dropWhile_append_stop _ ht (by simp), takeWhile_append_stop _ ht (by simp), C56_unescape]

example : readNode (makeXmlNode "ti:title".toList false (some [("xml:lang".toList, "eng".toList)]) "A & <B>".toList true []) =
    some ("ti:title".toList, [("xml:lang".toList, "eng".toList)], "A & <B>".toList, "</ti:title>".toList) := by decide +kernel

/-- Attribute values are not escaped: a double quote in one changes the attributes that are read. -/
theorem C56_fails_with_quote_in_attribute :
    (readNode (makeXmlNode ['a'] false (some [(['u'], "x\" v=\"y".toList)]) [] true [])).map (·.2.1) =
      some [(['u'], ['x']), (['v'], ['y'])] := by decide +kernel

end Verif.Props
