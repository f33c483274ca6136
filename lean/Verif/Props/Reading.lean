import Verif.Lemmas.Reading
import Verif.Spec.Reading
import Verif.Props.Export
/-!
C95: reading a text from one passage to the next. Theorems are about the calls modelled in `Verif/Model/LocalText.lean`,
`Verif/Model/Siblings.lean` and `Verif/Model/Export.lean`; the programs of the reader are in `Verif/Spec/Reading.lean`.
-/
namespace Verif.Props
open Verif.Py Verif.Model Verif.Spec Verif.Lemmas

/-! ## Passage by passage -/

theorem unit_passage {root : Node} {ls : List Level} {same : Same} (hr : ∀ n i, same n i i = true) (hc : Citable root ls)
    {k : Nat} (hk1 : 1 ≤ k) (hk : k ≤ ls.length) {u : List Str × List Nat} (hu : u ∈ units (ls.take k) root) :
    textPassage (textOf root same ls) (single u.1) = .ok ⟨single u.1, emptied root (chainTo root u.2), .text⟩ := by
  unfold textPassage
  rw [C31_units_retrievable root ls same hr hc k hk1 hk u.1 u.2 hu]

theorem readOn_units {root : Node} {ls : List Level} {same : Same} (hr : ∀ n i, same n i i = true) (hc : Citable root ls)
    {k : Nat} (hk1 : 1 ≤ k) (hk : k ≤ ls.length) : ∀ (after before : List (List Str × List Nat)) (u : List Str × List Nat) (fuel : Nat),
    units (ls.take k) root = before ++ u :: after → after.length < fuel →
    readOn (textOf root same ls) fuel (single u.1) =
      .ok ((u :: after).map fun w => ⟨single w.1, emptied root (chainTo root w.2), .text⟩)
  | after, before, u, 0, h, hf => by simp at hf
  | after, before, u, fuel + 1, h, hf => by
    have hu : u ∈ units (ls.take k) root := by rw [h]; simp
    simp only [readOn, bind, Except.bind, unit_passage hr hc hk1 hk hu, siblingsId_single hc hk1 hk h]
    cases after with
    | nil => rfl
    | cons w after =>
      simp only [List.head?_cons, Option.map_some]
      rw [readOn_units hr hc hk1 hk after (before ++ [u]) w fuel (by rw [h]; simp) (by simpa using hf)]
      rfl

theorem readBack_units {root : Node} {ls : List Level} {same : Same} (hr : ∀ n i, same n i i = true) (hc : Citable root ls)
    {k : Nat} (hk1 : 1 ≤ k) (hk : k ≤ ls.length) : ∀ (fuel : Nat) (before after : List (List Str × List Nat)) (u : List Str × List Nat),
    units (ls.take k) root = before ++ u :: after → before.length < fuel →
    readBack (textOf root same ls) fuel (single u.1) =
      .ok ((before ++ [u]).reverse.map fun w => ⟨single w.1, emptied root (chainTo root w.2), .text⟩)
  | 0, before, after, u, h, hf => by simp at hf
  | fuel + 1, before, after, u, h, hf => by
    have hu : u ∈ units (ls.take k) root := by rw [h]; simp
    simp only [readBack, bind, Except.bind, unit_passage hr hc hk1 hk hu, siblingsId_single hc hk1 hk h]
    rcases List.eq_nil_or_concat before with rfl | ⟨b, w, rfl⟩
    · rfl
    · simp only [List.concat_eq_append, List.getLast?_append, List.getLast?_singleton, Option.some_or, Option.map_some]
      rw [readBack_units hr hc hk1 hk fuel b (u :: after) w (by rw [h]; simp) (by simp at hf; omega)]
      simp [pure, Except.pure]

/-- C95. A reader who starts at a unit and goes on with `nextId` gets that unit and every unit of its level after it, each once, in the
order of the listing, and then stops; each passage is what the text answers for its reference. -/
theorem C95_forward (root : Node) (ls : List Level) (same : Same) (hr : ∀ n i, same n i i = true) (hc : Citable root ls)
    (k : Nat) (hk1 : 1 ≤ k) (hk : k ≤ ls.length) (before after : List (List Str × List Nat)) (u : List Str × List Nat)
    (h : units (ls.take k) root = before ++ u :: after) (fuel : Nat) (hf : after.length < fuel) :
    ∃ ps, readOn (textOf root same ls) fuel (single u.1) = .ok ps ∧ ps.map (·.ref) = (u :: after).map (single ·.1) ∧
      ∀ p ∈ ps, getTextualNode (textOf root same ls) p.ref = .ok p.tree := by
  refine ⟨_, readOn_units hr hc hk1 hk after before u fuel h hf, by rw [List.map_map]; rfl, ?_⟩
  intro p hp
  obtain ⟨w, hw, rfl⟩ := List.mem_map.1 hp
  exact C31_units_retrievable root ls same hr hc k hk1 hk w.1 w.2 (by rw [h]; exact List.mem_append_right _ hw)

/-- C95. With `prevId` the reader gets that unit and every unit of its level before it, backwards. -/
theorem C95_backward (root : Node) (ls : List Level) (same : Same) (hr : ∀ n i, same n i i = true) (hc : Citable root ls)
    (k : Nat) (hk1 : 1 ≤ k) (hk : k ≤ ls.length) (before after : List (List Str × List Nat)) (u : List Str × List Nat)
    (h : units (ls.take k) root = before ++ u :: after) (fuel : Nat) (hf : before.length < fuel) :
    ∃ ps, readBack (textOf root same ls) fuel (single u.1) = .ok ps ∧ ps.map (·.ref) = (before ++ [u]).reverse.map (single ·.1) ∧
      ∀ p ∈ ps, getTextualNode (textOf root same ls) p.ref = .ok p.tree := by
  refine ⟨_, readBack_units hr hc hk1 hk fuel before after u h hf, by rw [List.map_map]; rfl, ?_⟩
  intro p hp
  obtain ⟨w, hw, rfl⟩ := List.mem_map.1 hp
  refine C31_units_retrievable root ls same hr hc k hk1 hk w.1 w.2 ?_
  rw [h]
  simp only [List.mem_reverse, List.mem_append, List.mem_singleton] at hw
  simp only [List.mem_append, List.mem_cons]
  exact hw.imp id .inl

/-! ## The text that is read -/

theorem filter_plain (p : Char → Bool) (hp : p ' ' = false) (sep : Str) (hsep : sep.filter p = []) (ex : List Str) (n : Node) :
    (plainText sep [] ex n).filter p = (visible ex n).flatten.filter p := by
  rw [C35_plain_text, squeeze_filter _ hp, filter_join _ _ hsep]

theorem filter_passage {root : Node} {ls : List Level} {k : Nat} (hk1 : 1 ≤ k) (hk : k ≤ ls.length) {u : List Str × List Nat}
    (hu : u ∈ units (ls.take k) root) (ex : List Str) :
    visible ex (emptied root (chainTo root u.2)) = ((visibleAt ex [] root).filter fun x => u.2.isPrefixOf x.1).map (·.2) := by
  have hl := mem_units_length hu
  rw [List.length_take, Nat.min_eq_left hk] at hl
  obtain ⟨ht, c, hn⟩ := unit_node (ids := u.1) (t := u.2) (by intro e; simp [e] at hl; omega) (by rw [hl]; exact hu)
  rw [visible_passage ex root c u.2 ht hn]
  have := filter_under ex u.2 root c [] hn
  simp only [List.nil_append] at this
  rw [this, ← List.not_any_eq_all_not]
  by_cases h : (namesTo root u.2).any (excluded ex) = true <;> simp [h]

theorem filter_pieces (p : Char → Bool) (q : List Nat × Str → Bool) (L : List (List Nat × Str))
    (h : ∀ x ∈ L, x.2.filter p ≠ [] → q x = true) :
    ((L.filter q).map (·.2)).flatten.filter p = (L.map (·.2)).flatten.filter p := by
  induction L with
  | nil => rfl
  | cons x L ih =>
    have ih := ih fun y hy => h y (List.mem_cons_of_mem _ hy)
    cases hq : q x with
    | true => simp [hq, ih]
    | false =>
      have : x.2.filter p = [] := by
        refine Classical.byContradiction fun hne => ?_
        have := h x (by simp) hne
        rw [hq] at this
        exact absurd this (by simp)
      simp [hq, ih, this]

theorem flatten_filter_flatMap {α : Type} (p : Char → Bool) (f : α → List Str) (l : List α) :
    (l.flatMap f).flatten.filter p = l.flatMap fun u => (f u).flatten.filter p := by
  induction l with
  | nil => rfl
  | cons a l ih => simp [ih]

theorem any_map_prefix (us : List (List Str × List Nat)) (t : List Nat) :
    ((us.map (·.2)).any fun s => s.isPrefixOf t) = us.any fun u => u.2.isPrefixOf t := by
  rw [List.any_map]; rfl

/-- C95. No text is lost: when the units of a level are apart and all text that counts stands in one of them, what a reader gets from the
first unit on is the text of the document, in its order, but for spaces. (`p` says which characters count: spaces and those of
the separator do not.) -/
theorem C95_text_complete (root : Node) (ls : List Level) (same : Same) (hr : ∀ n i, same n i i = true) (hc : Citable root ls)
    (hs : Separate root ls) (k : Nat) (hk1 : 1 ≤ k) (hk : k ≤ ls.length) (u : List Str × List Nat) (after : List (List Str × List Nat))
    (h : units (ls.take k) root = u :: after) (fuel : Nat) (hf : after.length < fuel)
    (p : Char → Bool) (hp : p ' ' = false) (sep : Str) (hsep : sep.filter p = []) (ex : List Str)
    (hin : Covered p ex root (units (ls.take k) root)) :
    ∃ ps, readOn (textOf root same ls) fuel (single u.1) = .ok ps ∧
      textOfAll p sep ex ps = (plainText sep [] ex root).filter p := by
  refine ⟨_, readOn_units hr hc hk1 hk after [] u fuel (by rw [h]; rfl) hf, ?_⟩
  rw [← h]
  simp only [textOfAll, List.flatMap_map, filter_plain p hp sep hsep]
  have e : ((units (ls.take k) root).flatMap fun w => (visible ex (emptied root (chainTo root w.2))).flatten.filter p) =
      (units (ls.take k) root).flatMap fun w =>
        (((visibleAt ex [] root).filter fun x => w.2.isPrefixOf x.1).map (·.2)).flatten.filter p := by
    rw [List.flatMap_def, List.flatMap_def]
    congr 1
    refine List.map_congr_left fun w hw => ?_
    rw [filter_passage hk1 hk hw]
  rw [e, ← flatten_filter_flatMap]
  have := visible_under_all ex root ((units (ls.take k) root).map (·.2)) (by
    rw [List.pairwise_map]; exact C29_document_order root ls hs k)
  rw [List.flatMap_map] at this
  rw [← this, ← visibleAt_snd ex [] root]
  refine filter_pieces p _ _ ?_
  intro x hx hne
  obtain ⟨w, hw, hpre⟩ := hin x hx hne
  rw [any_map_prefix, List.any_eq_true]
  exact ⟨w, hw, List.isPrefixOf_iff_prefix.2 hpre⟩

/-! ## Ranges -/

theorem inside_units {us : List (List Str × List Nat)} (hord : us.Pairwise fun a b => Precedes a.2 b.2)
    {before between after : List (List Str × List Nat)} {a b : List Str × List Nat}
    (h : us = before ++ a :: between ++ b :: after) {w : List Str × List Nat} (hw : w ∈ us) {t : List Nat} (hpre : w.2 <+: t) :
    inside a.2 b.2 t = (a :: between ++ [b]).any fun u => u.2.isPrefixOf t := by
  obtain ⟨v, rfl⟩ := hpre
  rw [h] at hw hord
  have hab : Precedes a.2 b.2 := by
    rw [List.pairwise_append] at hord
    exact hord.2.2 a (by simp) b (by simp)
  have hno : ∀ x y : List Str × List Nat, Precedes x.2 y.2 → ¬ (x.2 <+: w.2 ++ v ∧ y.2 <+: w.2 ++ v) := by
    rintro x y hxy ⟨⟨s1, h1⟩, ⟨s2, h2⟩⟩
    have := precedes_append hxy s1 s2
    rw [h1, h2] at this
    exact precedes_irrefl _ this
  have hpw : w.2 <+: w.2 ++ v := ⟨v, rfl⟩
  rw [Bool.eq_iff_iff, List.any_eq_true]
  simp only [inside, Bool.and_eq_true, Bool.or_eq_true, List.isPrefixOf_iff_prefix, Bool.not_eq_true']
  rw [List.append_assoc, List.mem_append] at hw
  rw [List.append_assoc, List.pairwise_append] at hord
  rcases hw with hw | hw
  · -- before
    have hwa := hord.2.2 w hw a (by simp)
    have hd := (not_above_of_precedes hwa v).2.2.2.1
    constructor
    · rintro ⟨h1, _⟩
      rw [hd] at h1; cases h1
    · rintro ⟨x, hx, hxt⟩
      refine absurd ⟨hpw, hxt⟩ (hno w x (hord.2.2 w hw x ?_))
      grind
  · have hord := hord.2.1
    rw [show a :: between ++ b :: after = (a :: between ++ [b]) ++ after by simp] at hw hord
    rw [List.mem_append] at hw
    rw [List.pairwise_append] at hord
    rcases hw with hw | hw
    · constructor
      · intro _; exact ⟨w, hw, hpw⟩
      · rintro -
        have hw' := hw
        rw [show a :: between ++ [b] = (a :: between) ++ [b] by simp, List.mem_append] at hw'
        have hord' := hord.1
        rw [show a :: between ++ [b] = (a :: between) ++ [b] by simp, List.pairwise_append] at hord'
        have h1 : docLe a.2 (w.2 ++ v) = true := by
          rw [List.cons_append, List.mem_cons] at hw
          rcases hw with rfl | hw
          · exact docLe_of_prefix hpw
          · have := hord.1
            rw [List.cons_append, List.pairwise_cons] at this
            exact (not_above_of_precedes (this.1 w hw) v).2.2.2.2.1
        refine ⟨h1, ?_⟩
        rcases hw' with hw' | hw'
        · have hwb := hord'.2.2 w hw' b (by simp)
          right
          refine ⟨(not_above_of_precedes hwb v).2.2.1, ?_⟩
          rw [Bool.eq_false_iff, ne_eq, List.isPrefixOf_iff_prefix]
          rintro ⟨x, hx⟩
          have := precedes_append hwb v []
          rw [List.append_nil, ← hx] at this
          exact (not_precedes_prefix ⟨x, rfl⟩).1 this
        · rw [List.mem_singleton] at hw'
          subst hw'
          exact .inl hpw
    · have hbw := hord.2.2 b (by simp) w hw
      constructor
      · rintro ⟨_, h2 | ⟨h2, _⟩⟩
        · exact absurd ⟨h2, hpw⟩ (hno b w hbw)
        · rw [(not_above_of_precedes hbw v).2.2.2.2.2] at h2; cases h2
      · rintro ⟨x, hx, hxt⟩
        exact absurd ⟨hxt, hpw⟩ (hno x w (hord.2.2 x hx w hw))

theorem visible_range_units {root : Node} {ls : List Level} (hs : Separate root ls) {k : Nat}
    {before between after : List (List Str × List Nat)} {a b : List Str × List Nat}
    (h : units (ls.take k) root = before ++ a :: between ++ b :: after)
    (p : Char → Bool) (ex : List Str) (hin : Covered p ex root (units (ls.take k) root)) :
    (visible ex (cut root a.2 b.2)).flatten.filter p =
      (a :: between ++ [b]).flatMap fun w => (((visibleAt ex [] root).filter fun x => w.2.isPrefixOf x.1).map (·.2)).flatten.filter p := by
  have hord := C29_document_order root ls hs k
  have hab : Precedes a.2 b.2 := by
    have := hord
    rw [h, List.pairwise_append] at this
    exact this.2.2 a (by simp) b (by simp)
  have hord' : (a :: between ++ [b]).Pairwise fun a b => Precedes a.2 b.2 := by
    have := hord
    rw [h, show before ++ a :: between ++ b :: after = before ++ ((a :: between ++ [b]) ++ after) by simp, List.pairwise_append,
      List.pairwise_append] at this
    exact this.2.1.1
  have := visible_under_all ex root ((a :: between ++ [b]).map (·.2)) (by rw [List.pairwise_map]; exact hord')
  rw [List.flatMap_map] at this
  rw [← flatten_filter_flatMap, ← this, visible_cut ex root a.2 b.2 hab]
  -- both filters agree on the pieces that count
  have key : ∀ (L : List (List Nat × Str)) (q r : List Nat × Str → Bool), (∀ x ∈ L, x.2.filter p ≠ [] → q x = r x) →
      ((L.filter q).map (·.2)).flatten.filter p = ((L.filter r).map (·.2)).flatten.filter p := by
    intro L q r
    induction L with
    | nil => intro _; rfl
    | cons x L ih =>
      intro hx
      have ih := ih fun y hy => hx y (List.mem_cons_of_mem _ hy)
      by_cases e : x.2.filter p = []
      · rw [List.filter_cons, List.filter_cons]
        split <;> split <;> simp [e, ih]
      · rw [List.filter_cons, List.filter_cons, hx x (by simp) e]
        split <;> simp [ih]
  refine key _ _ _ ?_
  intro x hx hne
  obtain ⟨w, hw, hpre⟩ := hin x hx hne
  rw [any_map_prefix]
  exact inside_units hord h hw hpre

theorem mapM_ok {α β : Type} (f : α → Except PyErr β) (g : α → β) : ∀ l : List α, (∀ u ∈ l, f u = .ok (g u)) → l.mapM f = .ok (l.map g)
  | [], _ => rfl
  | a :: l, h => by
    rw [List.mapM_cons, h a (by simp)]
    simp only [bind, Except.bind]
    rw [mapM_ok f g l fun u hu => h u (List.mem_cons_of_mem _ hu)]
    rfl

theorem range_passage {root : Node} {ls : List Level} {same : Same} (ht : TellsApart same root) (hc : Citable root ls)
    (hs : Separate root ls) {k : Nat} (hk1 : 1 ≤ k) (hk : k ≤ ls.length)
    {before between after : List (List Str × List Nat)} {a b : List Str × List Nat}
    (h : units (ls.take k) root = before ++ a :: between ++ b :: after) :
    textPassage (textOf root same ls) (mkRef2 (dotted a.1) (dotted b.1)) =
      .ok ⟨mkRef2 (dotted a.1) (dotted b.1), cut root a.2 b.2, .text⟩ := by
  have ha : (a.1, a.2) ∈ units (ls.take k) root := by rw [h]; simp
  have hb : (b.1, b.2) ∈ units (ls.take k) root := by rw [h]; simp
  have hla := mem_units_length ha
  have hlb := mem_units_length hb
  simp only [List.length_take] at hla hlb
  obtain ⟨hw, hn⟩ := units_writable hc hk1 hk
  have hwa := hw a.1 (List.mem_map_of_mem ha)
  have hwb := hw b.1 (List.mem_map_of_mem hb)
  have hord := C29_document_order root ls hs k
  rw [h, List.pairwise_append] at hord
  have hp := hord.2.2 a (by simp) b (by simp)
  have hka : a.1.length = k := by omega
  have hkb : b.1.length = k := by omega
  unfold textPassage
  rw [C28_range_of_text root ls same ht hc a.1 b.1 a.2 b.2 hwa.1 hwb.1 (by omega) (by omega) (hka.symm ▸ ha) (hkb.symm ▸ hb) hp]

/-- C95. What counts of the text of a range is the text of the units from its start to its end, one after the other. -/
theorem C95_range_is_its_units (root : Node) (ls : List Level) (same : Same) (hr : ∀ n i, same n i i = true) (ht : TellsApart same root)
    (hc : Citable root ls) (hs : Separate root ls) (k : Nat) (hk1 : 1 ≤ k) (hk : k ≤ ls.length)
    (before between after : List (List Str × List Nat)) (a b : List Str × List Nat)
    (h : units (ls.take k) root = before ++ a :: between ++ b :: after)
    (p : Char → Bool) (hp : p ' ' = false) (sep : Str) (hsep : sep.filter p = []) (ex : List Str)
    (hin : Covered p ex root (units (ls.take k) root)) :
    ∃ range ps, textPassage (textOf root same ls) (mkRef2 (dotted a.1) (dotted b.1)) = .ok range ∧
      (a :: between ++ [b]).mapM (fun u => textPassage (textOf root same ls) (single u.1)) = .ok ps ∧
      (plainText sep [] ex range.tree).filter p = textOfAll p sep ex ps := by
  have hm : ∀ u ∈ a :: between ++ [b], u ∈ units (ls.take k) root := by intro u hu; rw [h]; grind
  refine ⟨_, _, range_passage ht hc hs hk1 hk h, mapM_ok _ _ _ fun u hu => unit_passage hr hc hk1 hk (hm u hu), ?_⟩
  simp only [textOfAll, List.flatMap_map, filter_plain p hp sep hsep]
  rw [visible_range_units hs h p ex hin, List.flatMap_def, List.flatMap_def]
  congr 1
  refine List.map_congr_left fun w hw => ?_
  rw [filter_passage hk1 hk (hm w hw)]

/-! ## Reading in chunks -/

theorem readOn_chunks {root : Node} {ls : List Level} {same : Same} (ht : TellsApart same root) (hc : Citable root ls)
    (hs : Separate root ls) {k : Nat} (hk1 : 1 ≤ k) (hk : k ≤ ls.length) (n : Nat) :
    ∀ (fuel : Nat) (full : List (List (List Str × List Nat))) (before last : List (List Str × List Nat)),
    units (ls.take k) root = before ++ (full.flatten ++ last) → (∀ c ∈ full, c.length = n) → 2 ≤ n → 2 ≤ last.length →
    last.length ≤ n → full.length < fuel → ∀ r, ((full ++ [last]).head?.bind fun c => span (c.map (·.1))) = some r →
    ∃ ps, readOn (textOf root same ls) fuel r = .ok ps ∧
      ps.map (fun p => some p.ref) = (full ++ [last]).map (fun c => span (c.map (·.1))) ∧
      ∀ (p : Char → Bool), p ' ' = false → ∀ (sep : Str), sep.filter p = [] → ∀ (ex : List Str),
        Covered p ex root (units (ls.take k) root) → textOfAll p sep ex ps = (full.flatten ++ last).flatMap fun w =>
          (((visibleAt ex [] root).filter fun x => w.2.isPrefixOf x.1).map (·.2)).flatten.filter p := by
  intro fuel
  induction fuel with
  | zero => intro full before last h _ _ _ _ hf; simp at hf
  | succ fuel ih =>
    intro full before last h hfull hn hl hln hf r hr
    -- the chunk at hand, and what comes after it
    have step : ∀ (c rest : List (List Str × List Nat)), 2 ≤ c.length → units (ls.take k) root = before ++ (c ++ rest) →
        span (c.map (·.1)) = some r → ∃ q : Passage, q.ref = r ∧ textPassage (textOf root same ls) r = .ok q ∧
          (∃ prev, q.siblingsId (textOf root same ls) = .ok (prev, span ((rest.take c.length).map (·.1)))) ∧
          ∀ (p : Char → Bool), p ' ' = false → ∀ (sep : Str), sep.filter p = [] → ∀ (ex : List Str),
            Covered p ex root (units (ls.take k) root) → (plainText sep [] ex q.tree).filter p = c.flatMap fun w =>
              (((visibleAt ex [] root).filter fun x => w.2.isPrefixOf x.1).map (·.2)).flatten.filter p := by
      intro c rest hc2 hu hsp
      obtain ⟨a, between, b, rfl, hbl⟩ := two_ends hc2
      have hu' : units (ls.take k) root = before ++ a :: between ++ b :: rest := by rw [hu]; simp
      have er : r = mkRef2 (dotted a.1) (dotted b.1) := by
        simp only [span, List.cons_append, List.map_cons, List.map_append, List.map_nil, List.getLast?_append, List.getLast?_singleton,
          Option.some_or, Option.getD_some, Option.some.injEq] at hsp
        exact hsp.symm
      subst er
      refine ⟨⟨mkRef2 (dotted a.1) (dotted b.1), cut root a.2 b.2, .text⟩, rfl, range_passage ht hc hs hk1 hk hu',
        ⟨span ((lastN (between.length + 2) before).map (·.1)), ?_⟩, ?_⟩
      · rw [siblingsId_range ht hc hs hk1 hk hu', ← hbl]
      · intro p hp sep hsep ex hin
        simp only [filter_plain p hp sep hsep]
        exact visible_range_units hs hu' p ex hin
    cases full with
    | nil =>
      simp only [List.nil_append, List.head?_cons, Option.bind_some] at hr
      obtain ⟨q, hq1, hq2, ⟨prev, hq3⟩, hq4⟩ := step last [] hl (by simpa using h) hr
      refine ⟨[q], ?_, by simp [hq1, hr], ?_⟩
      · simp only [readOn, bind, Except.bind, hq2, hq3, List.take_nil]
        rfl
      · intro p hp sep hsep ex hin
        simp only [textOfAll, List.flatMap_cons, List.flatMap_nil, List.append_nil, List.flatten_nil, List.nil_append]
        exact hq4 p hp sep hsep ex hin
    | cons c full =>
      simp only [List.cons_append, List.head?_cons, Option.bind_some] at hr
      have hcn := hfull c (by simp)
      obtain ⟨q, hq1, hq2, ⟨prev, hq3⟩, hq4⟩ := step c (full.flatten ++ last) (by omega) (by rw [h]; simp) hr
      -- the next chunk
      have hnext : ∃ r', ((full ++ [last]).head?.bind fun c => span (c.map (·.1))) = some r' ∧
          span (((full.flatten ++ last).take c.length).map (·.1)) = some r' := by
        cases full with
        | nil =>
          have e : last.take c.length = last := List.take_of_length_le (by omega)
          simp only [List.nil_append, List.head?_cons, Option.bind_some, List.flatten_nil, e]
          cases last with
          | nil => simp at hl
          | cons x l => exact ⟨_, rfl, rfl⟩
        | cons d full =>
          have hdn := hfull d (by simp)
          have e : ((d :: full).flatten ++ last).take c.length = d := by
            rw [List.flatten_cons, List.append_assoc, List.take_append_of_le_length (by omega), List.take_of_length_le (by omega)]
          rw [e]
          simp only [List.cons_append, List.head?_cons, Option.bind_some]
          cases d with
          | nil => simp at hdn; omega
          | cons x l => exact ⟨_, rfl, rfl⟩
      obtain ⟨r', hr1, hr2⟩ := hnext
      obtain ⟨ps, h1, h2, h3⟩ := ih full (before ++ c) last (by rw [h]; simp) (fun d hd => hfull d (List.mem_cons_of_mem _ hd)) hn hl hln
        (by simpa using hf) r' hr1
      refine ⟨q :: ps, ?_, by simp [hq1, hr, h2], ?_⟩
      · simp only [readOn, bind, Except.bind, hq2, hq3, hr2, h1]
        rfl
      · intro p hp sep hsep ex hin
        have e1 := h3 p hp sep hsep ex hin
        have e2 := hq4 p hp sep hsep ex hin
        simp only [textOfAll] at e1
        simp only [textOfAll, List.flatMap_cons, e1, e2, List.flatten_cons, List.append_assoc, List.flatMap_append]

/-- C95. Reading in ranges: a reader who starts with the range of the first `n` units from some unit on and follows `nextId` gets the units from
there on in ranges of `n`, and the rest, of at least two units, in a last one. -/
theorem C95_chunks (root : Node) (ls : List Level) (same : Same) (ht : TellsApart same root) (hc : Citable root ls)
    (hs : Separate root ls) (k : Nat) (hk1 : 1 ≤ k) (hk : k ≤ ls.length) (n : Nat) (hn : 2 ≤ n)
    (before last : List (List Str × List Nat)) (full : List (List (List Str × List Nat)))
    (h : units (ls.take k) root = before ++ (full.flatten ++ last)) (hfull : ∀ c ∈ full, c.length = n) (hl : 2 ≤ last.length)
    (hln : last.length ≤ n) (fuel : Nat) (hf : full.length < fuel) (r : Ref)
    (hr : ((full ++ [last]).head?.bind fun c => span (c.map (·.1))) = some r) :
    ∃ ps, readOn (textOf root same ls) fuel r = .ok ps ∧ ps.map (fun p => some p.ref) = (full ++ [last]).map fun c => span (c.map (·.1)) := by
  obtain ⟨ps, h1, h2, _⟩ := readOn_chunks ht hc hs hk1 hk n fuel full before last h hfull hn hl hln hf r hr
  exact ⟨ps, h1, h2⟩

/-- C95. And from the first unit on, no text is lost in the ranges. -/
theorem C95_chunks_text_complete (root : Node) (ls : List Level) (same : Same) (ht : TellsApart same root) (hc : Citable root ls)
    (hs : Separate root ls) (k : Nat) (hk1 : 1 ≤ k) (hk : k ≤ ls.length) (n : Nat) (hn : 2 ≤ n)
    (last : List (List Str × List Nat)) (full : List (List (List Str × List Nat)))
    (h : units (ls.take k) root = full.flatten ++ last) (hfull : ∀ c ∈ full, c.length = n) (hl : 2 ≤ last.length)
    (hln : last.length ≤ n) (fuel : Nat) (hf : full.length < fuel) (r : Ref)
    (hr : ((full ++ [last]).head?.bind fun c => span (c.map (·.1))) = some r)
    (p : Char → Bool) (hp : p ' ' = false) (sep : Str) (hsep : sep.filter p = []) (ex : List Str)
    (hin : Covered p ex root (units (ls.take k) root)) :
    ∃ ps, readOn (textOf root same ls) fuel r = .ok ps ∧ textOfAll p sep ex ps = (plainText sep [] ex root).filter p := by
  obtain ⟨ps, h1, _, h3⟩ := readOn_chunks ht hc hs hk1 hk n fuel full [] last (by rw [h]; rfl) hfull hn hl hln hf r hr
  refine ⟨ps, h1, ?_⟩
  rw [h3 p hp sep hsep ex hin, ← h, ← flatten_filter_flatMap, filter_plain p hp sep hsep]
  have := visible_under_all ex root ((units (ls.take k) root).map (·.2)) (by
    rw [List.pairwise_map]; exact C29_document_order root ls hs k)
  rw [List.flatMap_map] at this
  rw [← this, ← visibleAt_snd ex [] root]
  refine filter_pieces p _ _ ?_
  intro x hx hne
  obtain ⟨w, hw, hpre⟩ := hin x hx hne
  rw [any_map_prefix, List.any_eq_true]
  exact ⟨w, hw, List.isPrefixOf_iff_prefix.2 hpre⟩

/-! ## Level by level -/

theorem flatMap_own (L : List (List Str × List Nat)) (hd : L.Pairwise fun a b => a.1 ≠ b.1) (k : Nat) (hl : ∀ u ∈ L, u.1.length = k) :
    ∀ M : List (List Str × List Nat), M.Sublist L → (M.flatMap fun u => L.filter fun w => u.1.isPrefixOf w.1) = M := by
  have own : ∀ u ∈ L, (L.filter fun w => u.1.isPrefixOf w.1) = [u] := by
    intro u hu
    have e : (L.filter fun w => u.1.isPrefixOf w.1) = L.filter fun w => decide (w.1 = u.1) := by
      refine List.filter_congr fun w hw => ?_
      rw [Bool.eq_iff_iff, List.isPrefixOf_iff_prefix, decide_eq_true_eq]
      constructor
      · intro h; exact (h.eq_of_length (by rw [hl u hu, hl w hw])).symm
      · intro h; rw [h]; exact List.prefix_refl _
    rw [e]
    clear e hl
    induction L with
    | nil => simp at hu
    | cons a L ih =>
      rw [List.pairwise_cons] at hd
      rw [List.mem_cons] at hu
      rcases hu with rfl | hu
      · rw [List.filter_cons_of_pos (by simp)]
        have : (L.filter fun w => decide (w.1 = u.1)) = [] := by
          rw [List.filter_eq_nil_iff]
          intro w hw h
          exact hd.1 w hw (of_decide_eq_true h).symm
        rw [this]
      · rw [List.filter_cons_of_neg (by simpa using hd.1 u hu)]
        exact ih hd.2 hu
  intro M hM
  induction M with
  | nil => rfl
  | cons a M ih =>
    rw [List.flatMap_cons, own a (hM.subset (by simp)), ih ((List.sublist_cons_self a M).trans hM)]
    rfl

theorem units_by_parent {root : Node} {ls : List Level} (hc : Citable root ls) (j : Nat) : ∀ d, j + d ≤ ls.length →
    units (ls.take (j + d)) root = (units (ls.take j) root).flatMap fun u => (units (ls.take (j + d)) root).filter fun w => u.1.isPrefixOf w.1
  | 0, h => by
    refine (flatMap_own _ (units_nodup hc.distinct j) j ?_ _ (List.Sublist.refl _)).symm
    intro u hu
    have := mem_units_length hu
    rw [List.length_take] at this
    omega
  | d + 1, h => by
    have ih := units_by_parent hc j d (by omega)
    have hk : ls[j + d]? = some ls[j + d] := List.getElem?_eq_getElem (by omega)
    rw [show j + (d + 1) = (j + d) + 1 by omega, take_succ_eq hk, units_snoc]
    have e : ((units (ls.take j) root).flatMap fun u => ((units (ls.take (j + d)) root).flatMap (kidsOf ls[j + d] root)).filter
          fun w => u.1.isPrefixOf w.1) =
        (units (ls.take j) root).flatMap fun u => ((units (ls.take (j + d)) root).filter fun w => u.1.isPrefixOf w.1).flatMap
          (kidsOf ls[j + d] root) := by
      rw [List.flatMap_def, List.flatMap_def]
      congr 1
      refine List.map_congr_left fun u hu => ?_
      have hlu := mem_units_length hu
      rw [List.length_take] at hlu
      have : ∀ V : List (List Str × List Nat), (∀ v ∈ V, v.1.length = j + d) →
          (V.flatMap (kidsOf ls[j + d] root)).filter (fun w => u.1.isPrefixOf w.1) =
            (V.filter fun w => u.1.isPrefixOf w.1).flatMap (kidsOf ls[j + d] root) := by
        intro V hV
        induction V with
        | nil => rfl
        | cons v V ih =>
          have ihV := ih fun x hx => hV x (List.mem_cons_of_mem _ hx)
          have hlv := hV v (by simp)
          rw [List.flatMap_cons, List.filter_append, ihV, List.filter_cons]
          by_cases hpre : u.1.isPrefixOf v.1 = true
          · rw [if_pos hpre, List.flatMap_cons]
            congr 1
            rw [List.filter_eq_self]
            intro w hw
            obtain ⟨x, hx⟩ := mem_kidsOf_prefix hw
            rw [List.isPrefixOf_iff_prefix] at hpre ⊢
            rw [hx]
            exact hpre.trans (List.prefix_append _ _)
          · rw [if_neg hpre]
            have : (kidsOf ls[j + d] root v).filter (fun w => u.1.isPrefixOf w.1) = [] := by
              rw [List.filter_eq_nil_iff]
              intro w hw hpw
              obtain ⟨x, hx⟩ := mem_kidsOf_prefix hw
              apply hpre
              rw [List.isPrefixOf_iff_prefix] at hpw ⊢
              rw [hx] at hpw
              exact List.prefix_of_prefix_length_le hpw (List.prefix_append _ _) (by omega)
            rw [this]
            rfl
      refine this _ fun v hv => ?_
      have := mem_units_length hv
      rw [List.length_take] at this
      omega
    rw [e, ← List.flatMap_assoc, ← ih]

/-- C95. Asking for the references of a deeper level under each reference of a level gives, one after the other, the references of the deeper level
of the whole text: when every unit of the level has such a unit under it (otherwise the call for that unit raises `KeyError`). -/
theorem C95_levels (root : Node) (ls : List Level) (same : Same) (hc : Citable root ls) (j k : Nat) (hj : 1 ≤ j) (hjk : j < k)
    (hk : k ≤ ls.length) (hsome : ∀ u ∈ units (ls.take j) root, ∃ w ∈ units (ls.take k) root, u.1 <+: w.1)
    (hne : units (ls.take j) root ≠ []) :
    ∃ refs all, getValidReff (textOf root same ls) (some j) none = .ok refs ∧ getValidReff (textOf root same ls) (some k) none = .ok all ∧
      listUnder (textOf root same ls) k refs = .ok all := by
  have hj' := C29_lists_units root ls same hc j hj
  have hk' := C29_lists_units root ls same hc k (by omega)
  have hne' : units (ls.take k) root ≠ [] := by
    obtain ⟨u, hu⟩ := List.exists_mem_of_ne_nil _ hne
    obtain ⟨w, hw, _⟩ := hsome u hu
    exact List.ne_nil_of_mem hw
  rw [if_neg (by omega), if_neg (by simpa using hne)] at hj'
  rw [if_neg (by omega), if_neg (by simpa using hne')] at hk'
  refine ⟨_, _, hj', hk', ?_⟩
  have key : ∀ M : List (List Str × List Nat), (∀ u ∈ M, u ∈ units (ls.take j) root) →
      listUnder (textOf root same ls) k (M.map fun u => some (single u.1)) =
        .ok ((M.flatMap fun u => (units (ls.take k) root).filter fun w => u.1.isPrefixOf w.1).map fun u => some (single u.1)) := by
    intro M hM
    induction M with
    | nil => rfl
    | cons u M ih =>
      have hu := hM u (by simp)
      have hlu := mem_units_length hu
      rw [List.length_take, Nat.min_eq_left (by omega)] at hlu
      have hu' := C29_lists_units_under root ls same hc u.1 (by intro e; simp [e] at hlu; omega) (hc.ids j u hu) k (by omega)
      obtain ⟨w, hw, hpre⟩ := hsome u hu
      have hle : (listing root ls k u.1).isEmpty = false := by
        rw [List.isEmpty_eq_false_iff]
        exact List.ne_nil_of_mem (mem_listing.2 ⟨w.2, hw, hpre⟩)
      rw [if_neg (by omega), hle] at hu'
      simp only [List.map_cons, listUnder, bind, Except.bind, hu', ih fun v hv => hM v (List.mem_cons_of_mem _ hv)]
      simp only [Bool.false_eq_true, if_false, pure, Except.pure, List.flatMap_cons, List.map_append, listing, List.map_map]
      rfl
  rw [key _ fun u hu => hu]
  have := units_by_parent hc j (k - j) (by omega)
  rw [show j + (k - j) = k by omega] at this
  rw [← this]

/-! ## Cases -/

theorem edition_lines : units (editionLevels.take 2) edition =
    [([['1'], ['1']], [0, 0, 0]), ([['1'], ['2']], [0, 0, 1]), ([['2'], ['1']], [0, 1, 0]), ([['2'], ['2']], [0, 1, 1])] := by
  rw [List.take_of_length_le (by simp [editionLevels]), edition_units]

/-- The characters that are no space. -/
def noSpace (c : Char) : Bool := c != ' '

theorem edition_covered : Covered noSpace [] edition (units (editionLevels.take 2) edition) := by
  rw [edition_lines]
  unfold Covered
  decide +kernel

example : ∃ ps, readOn (textOf edition sameIdentity editionLevels) 4 (single [['1'], ['1']]) = .ok ps ∧
    ps.map (·.ref) = [single [['1'], ['1']], single [['1'], ['2']], single [['2'], ['1']], single [['2'], ['2']]] := by
  obtain ⟨ps, h1, h2, _⟩ := C95_forward edition editionLevels sameIdentity (by simp [sameIdentity]) edition_citable 2 (by decide) (by decide) []
    _ _ edition_lines 4 (by decide)
  exact ⟨ps, h1, h2⟩

example : ∃ ps, readBack (textOf edition sameIdentity editionLevels) 3 (single [['2'], ['1']]) = .ok ps ∧
    ps.map (·.ref) = [single [['2'], ['1']], single [['1'], ['2']], single [['1'], ['1']]] := by
  obtain ⟨ps, h1, h2, _⟩ := C95_backward edition editionLevels sameIdentity (by simp [sameIdentity]) edition_citable 2 (by decide) (by decide)
    [([['1'], ['1']], [0, 0, 0]), ([['1'], ['2']], [0, 0, 1])] [([['2'], ['2']], [0, 1, 1])] ([['2'], ['1']], [0, 1, 0]) edition_lines 3 (by decide)
  exact ⟨ps, h1, h2⟩

example : ∃ ps, readOn (textOf edition sameIdentity editionLevels) 4 (single [['1'], ['1']]) = .ok ps ∧
    textOfAll noSpace defaultJoin [] ps = (plainText defaultJoin [] [] edition).filter noSpace :=
  C95_text_complete edition editionLevels sameIdentity (by simp [sameIdentity]) edition_citable edition_separate 2 (by decide) (by decide)
    _ _ edition_lines 4 (by decide) noSpace (by decide) defaultJoin (by decide) [] edition_covered

example : (plainText defaultJoin [] [] edition).filter noSpace ≠ [] := by decide +kernel

example : ∃ range ps, textPassage (textOf edition sameIdentity editionLevels) (mkRef2 (dotted [['1'], ['1']]) (dotted [['2'], ['1']])) = .ok range ∧
    [([['1'], ['1']], [0, 0, 0]), ([['1'], ['2']], [0, 0, 1]), (([['2'], ['1']], [0, 1, 0]) : List Str × List Nat)].mapM
      (fun u => textPassage (textOf edition sameIdentity editionLevels) (single u.1)) = .ok ps ∧
    (plainText defaultJoin [] [] range.tree).filter noSpace = textOfAll noSpace defaultJoin [] ps :=
  C95_range_is_its_units edition editionLevels sameIdentity (by simp [sameIdentity]) (C28_identity_tells_apart _) edition_citable
    edition_separate 2 (by decide) (by decide) [] [([['1'], ['2']], [0, 0, 1])] [([['2'], ['2']], [0, 1, 1])] _ _ edition_lines
    noSpace (by decide) defaultJoin (by decide) [] edition_covered

example : ∃ ps, readOn (textOf edition sameIdentity editionLevels) 2 (mkRef2 "1.1".toList "1.2".toList) = .ok ps ∧
    ps.map (fun p => some p.ref) = [some (mkRef2 "1.1".toList "1.2".toList), some (mkRef2 "2.1".toList "2.2".toList)] :=
  C95_chunks edition editionLevels sameIdentity (C28_identity_tells_apart _) edition_citable edition_separate 2 (by decide) (by decide) 2
    (by decide) [] [([['2'], ['1']], [0, 1, 0]), ([['2'], ['2']], [0, 1, 1])] [[([['1'], ['1']], [0, 0, 0]), ([['1'], ['2']], [0, 0, 1])]]
    edition_lines (by decide) (by decide) (by decide) 2 (by decide) _ rfl

example : ∃ ps, readOn (textOf edition sameIdentity editionLevels) 2 (mkRef2 "1.1".toList "1.2".toList) = .ok ps ∧
    textOfAll noSpace defaultJoin [] ps = (plainText defaultJoin [] [] edition).filter noSpace :=
  C95_chunks_text_complete edition editionLevels sameIdentity (C28_identity_tells_apart _) edition_citable edition_separate 2 (by decide)
    (by decide) 2 (by decide) [([['2'], ['1']], [0, 1, 0]), ([['2'], ['2']], [0, 1, 1])]
    [[([['1'], ['1']], [0, 0, 0]), ([['1'], ['2']], [0, 0, 1])]] edition_lines (by decide) (by decide) (by decide) 2 (by decide) _ rfl
    noSpace (by decide) defaultJoin (by decide) [] edition_covered

example : ∃ refs all, getValidReff (textOf edition sameIdentity editionLevels) (some 1) none = .ok refs ∧
    getValidReff (textOf edition sameIdentity editionLevels) (some 2) none = .ok all ∧
    listUnder (textOf edition sameIdentity editionLevels) 2 refs = .ok all :=
  C95_levels edition editionLevels sameIdentity edition_citable 1 2 (by decide) (by decide) (by decide) (by
    rw [edition_lines]; decide +kernel) (by decide +kernel)

/-! ## Where reading stops short -/

/-- C95 fails for ranges when one unit is left over: five lines read in twos end with `CitationDepthError` at the last line, in threes they
are all read. -/
theorem C95_fails_with_one_left :
    (readOn (lines [("1", "a"), ("2", "b"), ("3", "c"), ("4", "d"), ("5", "e")]) 10 (mkRef2 ['1'] ['2'])).map (·.map (·.ref)) =
      .error .citationDepth ∧
    (readOn (lines [("1", "a"), ("2", "b"), ("3", "c"), ("4", "d"), ("5", "e")]) 10 (mkRef2 ['1'] ['3'])).map (·.map (·.ref)) =
      .ok [mkRef2 ['1'] ['3'], mkRef2 ['4'] ['5']] := by
  constructor
  · decide +kernel
  · decide +kernel

/-- C95 fails level by level when a unit has nothing under it: the chapter 1.1 of this text has no lines, and listing the lines chapter
by chapter raises `KeyError`, though the listing of all lines does not. -/
theorem C95_fails_with_empty_unit :
    getValidReff (textOf shortEdition sameIdentity shortLevels) (some 2) none =
      .ok [some (single [['1'], ['1']]), some (single [['2'], ['1']])] ∧
    getValidReff (textOf shortEdition sameIdentity shortLevels) (some 3) none = .ok [some (single [['2'], ['1'], ['1']])] ∧
    listUnder (textOf shortEdition sameIdentity shortLevels) 3 [some (single [['1'], ['1']]), some (single [['2'], ['1']])] =
      .error .keyError := by
  decide +kernel

end Verif.Props
