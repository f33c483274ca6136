import Verif.Spec.Dispatching
import Verif.Props.Merge
/-!
Lemmas on dispatching textgroups as objects.
-/
namespace Verif.Lemmas
open Verif.Py Verif.Model Verif.Spec Verif.Props

/-! ### Lookup -/

theorem find_only {α : Type} {p : α → Bool} {l : List α} {x : α} (hx : x ∈ l) (hp : p x = true) (h : ∀ y ∈ l, p y = true → y = x) :
    l.find? p = some x := by
  induction l with
  | nil => cases hx
  | cons y r ih =>
    rw [List.find?_cons]
    cases hy : p y with
    | true => rw [h y (by simp) hy]
    | false =>
      simp only
      refine ih ?_ fun z hz => h z (by simp [hz])
      rcases List.mem_cons.1 hx with rfl | h
      · rw [hp] at hy; cases hy
      · exact h

theorem mem_members {s : MStore} {a x : Nat} : x ∈ s.members a ↔ ∃ e ∈ (s.heap a).children, e.2 = x := by
  simp [MStore.members]

theorem holds_inventories {c : MClass} : holds .inventories c ↔ c = .inventory := by cases c <;> simp [holds]
theorem holds_inventory {c : MClass} : holds .inventory c ↔ c = .textgroup := by cases c <;> simp [holds]
theorem holds_text {c : MClass} : ¬ holds .text c := by cases c <;> simp [holds]

variable {lv : Levels} {s : MStore} {root : Nat}

theorem _root_.Verif.Spec.LibraryObj.invHere (h : LibraryObj lv s root) {i : Str × Nat} (hi : i ∈ (s.heap root).children) :
    i.2 < s.next ∧ (s.heap i.2).cls = .inventory ∧ (s.heap i.2).id = i.1 := by
  refine ⟨h.sound.exist _ h.here i hi, ?_, h.sound.keyed _ h.here i hi⟩
  have := h.sound.nested _ h.here i hi
  rw [h.cls] at this
  exact holds_inventories.1 this

theorem _root_.Verif.Spec.LibraryObj.tgHere (h : LibraryObj lv s root) {i g : Str × Nat} (hi : i ∈ (s.heap root).children) (hg : g ∈ (s.heap i.2).children) :
    g.2 < s.next ∧ (s.heap g.2).cls = .textgroup ∧ (s.heap g.2).id = g.1 := by
  obtain ⟨h1, h2, _⟩ := h.invHere hi
  exact ⟨h.sound.exist _ h1 g hg, (h.tg i hi g hg).1.cls, h.sound.keyed _ h1 g hg⟩

theorem workHere (hs : Sound s) {g : Nat} (hg : g < s.next) (hf : FitsObj lv s g) {w : Str × Nat} (hw : w ∈ (s.heap g).children) :
    w.2 < s.next ∧ (s.heap w.2).cls = .work ∧ (s.heap w.2).id = w.1 := by
  refine ⟨hs.exist _ hg w hw, ?_, hs.keyed _ hg w hw⟩
  have := hs.nested _ hg w hw
  rw [hf.cls] at this
  exact holds_tg.1 this

theorem textHere (hs : Sound s) {w : Nat} (hw : w < s.next) (hc : (s.heap w).cls = .work) {t : Str × Nat} (ht : t ∈ (s.heap w).children) :
    t.2 < s.next ∧ (s.heap t.2).cls = .text ∧ (s.heap t.2).id = t.1 := by
  refine ⟨hs.exist _ hw t ht, ?_, hs.keyed _ hw t ht⟩
  have := hs.nested _ hw t ht
  rw [hc] at this
  exact holds_work.1 this

/-- What is below a library: inventories, textgroups, works and texts. -/
theorem _root_.Verif.Spec.LibraryObj.mem_desc (h : LibraryObj lv s root) {x : Nat} : x ∈ s.descendants root ↔
    ∃ i ∈ (s.heap root).children, x = i.2 ∨ ∃ g ∈ (s.heap i.2).children, x = g.2 ∨ ∃ w ∈ (s.heap g.2).children, x = w.2 ∨
      ∃ t ∈ (s.heap w.2).children, x = t.2 := by
  have e : ∀ n a, x ∈ s.below (n + 1) a ↔ ∃ i ∈ (s.heap a).children, x = i.2 ∨ x ∈ s.below n i.2 := by
    intro n a
    simp only [MStore.below, List.mem_append, mem_members, List.mem_flatMap]
    constructor
    · rintro (⟨i, hi, rfl⟩ | ⟨y, ⟨i, hi, rfl⟩, hx⟩)
      · exact ⟨i, hi, .inl rfl⟩
      · exact ⟨i, hi, .inr hx⟩
    · rintro ⟨i, hi, rfl | hx⟩
      · exact .inl ⟨i, hi, rfl⟩
      · exact .inr ⟨i.2, ⟨i, hi, rfl⟩, hx⟩
  have z : ∀ a, ¬ x ∈ s.below 0 a := by intro a h; simp [MStore.below] at h
  simp only [MStore.descendants, h.cls, MClass.height, e, z, or_false]

/-- The level of what is below a library. -/
theorem _root_.Verif.Spec.LibraryObj.levels (h : LibraryObj lv s root) {i g w t : Str × Nat} (hi : i ∈ (s.heap root).children) :
    lv.level (s.heap i.2).id = 1 ∧ (g ∈ (s.heap i.2).children → lv.level (s.heap g.2).id = 2 ∧
      (w ∈ (s.heap g.2).children → lv.level (s.heap w.2).id = 3 ∧ lv.owner (s.heap w.2).id = (s.heap g.2).id ∧
        (t ∈ (s.heap w.2).children → lv.level (s.heap t.2).id = 4))) := by
  refine ⟨by rw [(h.invHere hi).2.2]; exact (h.inv i hi).1, fun hg => ?_⟩
  have hf := (h.tg i hi g hg).1
  refine ⟨hf.level, fun hw => ?_⟩
  obtain ⟨w1, w2, w3⟩ := workHere h.sound (h.tgHere hi hg).1 hf hw
  rw [w3]
  refine ⟨(hf.work w hw).1, (hf.work w hw).2.1, fun ht => ?_⟩
  rw [(textHere h.sound w1 w2 ht).2.2]
  exact (hf.text w hw t ht).1

theorem _root_.Verif.Spec.LibraryObj.get_member (h : LibraryObj lv s root) {x : Nat} (hx : x ∈ s.descendants root) (hl : 2 ≤ lv.level (s.heap x).id)
    (hu : ∀ y ∈ s.descendants root, (s.heap y).id = (s.heap x).id → y = x) : s.get root (s.heap x).id = .ok x := by
  have h1 : (s.heap x).id ≠ (s.heap root).id := by
    intro e; rw [e, h.level] at hl; omega
  have h2 : (s.members root).find? (fun y => (s.heap x).id == (s.heap y).id) = none := by
    rw [List.find?_eq_none]
    intro y hy e
    obtain ⟨i, hi, rfl⟩ := mem_members.1 hy
    rw [eq_of_beq e, (h.levels (g := i) (w := i) (t := i) hi).1] at hl
    omega
  rw [MStore.get, if_neg h1, h2]
  simp only
  rw [find_only hx (by simp) fun y hy e => hu y hy (eq_of_beq e)]

theorem _root_.Verif.Spec.LibraryObj.get_tg (h : LibraryObj lv s root) {i g : Str × Nat} (hi : i ∈ (s.heap root).children) (hg : g ∈ (s.heap i.2).children) :
    s.get root g.1 = .ok g.2 := by
  have hid := (h.tgHere hi hg).2.2
  have hlv := ((h.levels (w := g) (t := g) hi).2 hg).1
  rw [← hid]
  refine h.get_member (h.mem_desc.2 ⟨i, hi, .inr ⟨g, hg, .inl rfl⟩⟩) (by omega) fun y hy e => ?_
  obtain ⟨i', hi', rfl | ⟨g', hg', rfl | ⟨w', hw', rfl | ⟨t', ht', rfl⟩⟩⟩⟩ := h.mem_desc.1 hy
  · have := (h.levels (g := g) (w := g) (t := g) hi').1; rw [e] at this; omega
  · have : g = g' := h.once i hi i' hi' g hg g' hg' (by rw [← hid, ← (h.tgHere hi' hg').2.2, e])
    rw [this]
  · have := (((h.levels (t := g) hi').2 hg').2 hw').1; rw [e] at this; omega
  · have := (((h.levels hi').2 hg').2 hw').2.2 ht'; rw [e] at this; omega

theorem _root_.Verif.Spec.LibraryObj.get_work (h : LibraryObj lv s root) {i g w : Str × Nat} (hi : i ∈ (s.heap root).children) (hg : g ∈ (s.heap i.2).children)
    (hw : w ∈ (s.heap g.2).children) : s.get root w.1 = .ok w.2 := by
  have hf := (h.tg i hi g hg).1
  have hid := (workHere h.sound (h.tgHere hi hg).1 hf hw).2.2
  have hlv := ((h.levels (t := g) hi).2 hg).2 hw
  rw [← hid]
  refine h.get_member (h.mem_desc.2 ⟨i, hi, .inr ⟨g, hg, .inr ⟨w, hw, .inl rfl⟩⟩⟩) (by omega) fun y hy e => ?_
  obtain ⟨i', hi', rfl | ⟨g', hg', rfl | ⟨w', hw', rfl | ⟨t', ht', rfl⟩⟩⟩⟩ := h.mem_desc.1 hy
  · have := (h.levels (g := g) (w := g) (t := g) hi').1; rw [e] at this; omega
  · have := ((h.levels (w := g) (t := g) hi').2 hg').1; rw [e] at this; omega
  · have hlv' := ((h.levels (t := g) hi').2 hg').2 hw'
    have hgg : g = g' := h.once i hi i' hi' g hg g' hg' (by
      rw [← (h.tgHere hi hg).2.2, ← (h.tgHere hi' hg').2.2, ← hlv.2.1, ← hlv'.2.1, e])
    subst hgg
    have h1 := getEntry_of_mem (h.sound.once _ (h.tgHere hi hg).1) hw
    have h2 := getEntry_of_mem (h.sound.once _ (h.tgHere hi hg).1) hw'
    have hid' := (workHere h.sound (h.tgHere hi hg).1 hf hw').2.2
    rw [← hid', e, hid, h1] at h2
    exact (Option.some.inj h2).symm
  · have := (((h.levels hi').2 hg').2 hw').2.2 ht'; rw [e] at this; omega

/-- A textgroup is found exactly when one with its identifier is there. -/
theorem _root_.Verif.Spec.LibraryObj.contains_tg (h : LibraryObj lv s root) {k : Str} (hk : lv.level k = 2) : s.contains root k = true ↔
    ∃ i ∈ (s.heap root).children, ∃ g ∈ (s.heap i.2).children, g.1 = k := by
  rw [MStore.contains, List.any_eq_true]
  constructor
  · rintro ⟨y, hy, e⟩
    have e := eq_of_beq e
    rcases List.mem_append.1 hy with hy | hy
    · obtain ⟨i', hi', rfl | ⟨g', hg', rfl | ⟨w', hw', rfl | ⟨t', ht', rfl⟩⟩⟩⟩ := h.mem_desc.1 hy
      · have := (h.levels (g := i') (w := i') (t := i') hi').1; rw [e] at this; omega
      · exact ⟨i', hi', g', hg', by rw [← (h.tgHere hi' hg').2.2, e]⟩
      · have := (((h.levels (t := i') hi').2 hg').2 hw').1; rw [e] at this; omega
      · have := (((h.levels hi').2 hg').2 hw').2.2 ht'; rw [e] at this; omega
    · rw [List.mem_singleton.1 hy] at e
      have := h.level; rw [e] at this; omega
  · rintro ⟨i, hi, g, hg, rfl⟩
    exact ⟨g.2, List.mem_append_left _ (h.mem_desc.2 ⟨i, hi, .inr ⟨g, hg, .inl rfl⟩⟩), by rw [(h.tgHere hi hg).2.2]; simp⟩

/-! ### Merging a work -/

/-- All that `work.update` does. -/
structure Took (s s' : MStore) (own other : Nat) : Prop where
  sound : Sound s'
  one : OneLanguage s'
  next : s'.next = s.next
  count : s'.graphCount = s.graphCount
  kids : ∀ e, e ∈ (s'.heap own).children ↔ e ∈ (s.heap other).children ∨ (e ∈ (s.heap own).children ∧ e.1 ∉ (s.heap other).children.map (·.1))
  texts : ∀ a ∈ heldBy s other, s'.heap a = { s.heap a with parent := some own, resource := none }
  frame : ∀ a, a ≠ own → a ∉ heldBy s other → s'.heap a = s.heap a
  rest : { s'.heap own with children := [] } = { s.heap own with children := [] }
  graphs : ∀ g, besides (s'.graphs g) = besides (s.graphs g)

theorem took {self other : Nat} (hs : Sound s) (one : OneLanguage s) (hself : self < s.next) (hother : other < s.next)
    (hcs : (s.heap self).cls = .work) (hco : (s.heap other).cls = .work) (hid : (s.heap self).id = (s.heap other).id) :
    ∃ s', s.workUpdate self other = .ok s' ∧ Took s s' self other := by
  obtain ⟨s', h1, h2, h3, h4, h5, h6, _⟩ := C96_work hs hself hother hcs hco hid
  have hl : ∀ e ∈ (s.heap other).children, e.2 ≠ self := by
    intro e he h
    have := hs.nested _ hother e he
    rw [hco, h, hcs] at this
    exact this
  obtain ⟨g1, g2, _, _, g3, _⟩ := takeTexts_eq (self := self) (s := s) (s.heap other).children hl (hs.keyed _ hother)
  have hs' : s' = (s.heap other).children.foldl (MStore.takeText self) s := by
    have := h1
    rw [MStore.workUpdate, if_neg (by simp [hco]), if_neg (by simp [hid])] at this
    exact (Except.ok.inj this).symm
  rw [← hs'] at g1 g2 g3
  refine ⟨s', h1, h2, ?_, g1, g2, h3, h4, h5, h6, g3⟩
  intro g hg n l l' a b
  have ne : (Term.uri "http://purl.org/dc/elements/1.1/language".toList) ≠ capParent := by rw [← language_eq]; exact language_ne_parent
  rw [mem_of_besides (g3 g) ne] at a b
  exact one g (by rw [← g2]; exact hg) n l l' a b

/-- A work whose texts are to go to the work with the same identifier in textgroup `x` of the library: it is that work, or it is not in the
library. -/
structure Ready (lv : Levels) (s : MStore) (root x : Nat) (e : Str × Nat) : Prop where
  here : e.2 < s.next
  cls : (s.heap e.2).cls = .work
  id : (s.heap e.2).id = e.1
  texts : ∀ t ∈ (s.heap e.2).children, lv.level t.1 = 4 ∧ (s.heap t.2).parent = some e.2
  place : ∃ y, (e.1, y) ∈ (s.heap x).children ∧
    (y = e.2 ∨ ∀ i ∈ (s.heap root).children, ∀ g ∈ (s.heap i.2).children, ∀ w ∈ (s.heap g.2).children, w.2 ≠ e.2)

theorem took_same {s' : MStore} {y w : Nat} (t : Took s s' y w) (a : Nat) : SameObj (s'.heap a) (s.heap a) := by
  by_cases h1 : a ∈ heldBy s w
  · rw [t.texts a h1]; exact sameObj_refl _
  · by_cases h2 : a = y
    · subst h2
      have := t.rest
      simp only [MObj.mk.injEq] at this
      obtain ⟨e1, e2, e3, e4, e5, e6, _, _, _, e7⟩ := this
      exact ⟨e1, e2, e3, e4, e5, e6, e7⟩
    · rw [t.frame a h2 h1]; exact sameObj_refl _

theorem sameObj_trans {a b c : MObj} (h : SameObj a b) (h' : SameObj b c) : SameObj a c := by
  obtain ⟨a1, a2, a3, a4, a5, a6, a7⟩ := h
  obtain ⟨b1, b2, b3, b4, b5, b6, b7⟩ := h'
  exact ⟨a1.trans b1, a2.trans b2, a3.trans b3, a4.trans b4, a5.trans b5, a6.trans b6, a7.trans b7⟩

/-- What merging a work leaves alone: all that is neither a work nor a text, and all other works. -/
theorem took_big {s' : MStore} {y w : Nat} (hs : Sound s) (hw : w < s.next) (hc : (s.heap w).cls = .work) (hy : (s.heap y).cls = .work)
    (t : Took s s' y w) (a : Nat) (ha : (s.heap a).cls ≠ .text) (hne : (s.heap a).cls ≠ .work ∨ a ≠ y) : s'.heap a = s.heap a := by
  refine t.frame a ?_ ?_
  · rcases hne with h | h
    · intro e; rw [e, hy] at h; exact h rfl
    · exact h
  · intro h
    obtain ⟨c, h1, rfl⟩ := List.mem_map.1 h
    exact ha (textHere hs hw hc h1).2.1

/-- One turn of the loop over the works. -/
theorem take_step (h : LibraryObj lv s root) {i g : Str × Nat} (hi : i ∈ (s.heap root).children) (hg : g ∈ (s.heap i.2).children) {e : Str × Nat}
    (hr : Ready lv s root g.2 e) : ∃ s' y, (e.1, y) ∈ (s.heap g.2).children ∧ s.get root e.1 = .ok y ∧ s.updateObj y e.2 = .ok s' ∧ Took s s' y e.2 ∧
      (s.heap y).cls = .work ∧ LibraryObj lv s' root := by
  obtain ⟨y, hy, hplace⟩ := hr.place
  have hf := (h.tg i hi g hg).1
  obtain ⟨y1, y2, y3⟩ := workHere h.sound (h.tgHere hi hg).1 hf hy
  simp only at y1 y2 y3
  obtain ⟨s', hok, t⟩ := took h.sound h.one y1 hr.here y2 hr.cls (y3.trans hr.id.symm)
  have big := took_big h.sound hr.here hr.cls y2 t
  have same := took_same t
  have hroot : s'.heap root = s.heap root := big root (by rw [h.cls]; simp) (.inl (by rw [h.cls]; simp))
  have hinv : ∀ i ∈ (s.heap root).children, s'.heap i.2 = s.heap i.2 := by
    intro i hi
    have := (h.invHere hi).2.1
    exact big _ (by rw [this]; simp) (.inl (by rw [this]; simp))
  have htg : ∀ i ∈ (s.heap root).children, ∀ g ∈ (s.heap i.2).children, s'.heap g.2 = s.heap g.2 := by
    intro i hi g hg
    have := (h.tgHere hi hg).2.1
    exact big _ (by rw [this]; simp) (.inl (by rw [this]; simp))
  refine ⟨s', y, hy, h.get_work hi hg hy, by rw [MStore.updateObj, y2]; exact hok, t, y2, ?_⟩
  constructor
  · exact t.sound
  · exact t.one
  · rw [t.next]; exact h.here
  · rw [hroot]; exact h.cls
  · rw [hroot]; exact h.level
  · intro i hi
    rw [hroot] at hi
    rw [hinv i hi]
    exact h.inv i hi
  · intro i' hi' g' hg'
    rw [hroot] at hi'
    rw [hinv i' hi'] at hg'
    have hf' := (h.tg i' hi' g' hg').1
    refine ⟨?_, by rw [htg i' hi' g' hg']; exact (h.tg i' hi' g' hg').2⟩
    constructor
    · rw [htg i' hi' g' hg']; exact hf'.cls
    · rw [htg i' hi' g' hg']; exact hf'.level
    · intro w hw
      rw [htg i' hi' g' hg'] at hw ⊢
      refine ⟨(hf'.work w hw).1, (hf'.work w hw).2.1, ?_⟩
      by_cases e1 : w.2 = y
      · have := t.rest
        simp only [MObj.mk.injEq] at this
        rw [e1, this.2.2.2.2.2.2.1, ← e1]
        exact (hf'.work w hw).2.2
      · rw [big w.2 (by rw [(workHere h.sound (h.tgHere hi' hg').1 hf' hw).2.1]; simp) (.inr e1)]
        exact (hf'.work w hw).2.2
    · intro w hw c hc
      rw [htg i' hi' g' hg'] at hw
      obtain ⟨w1, w2, w3⟩ := workHere h.sound (h.tgHere hi' hg').1 hf' hw
      have apart : ∀ c ∈ (s.heap w.2).children, w.2 ≠ e.2 → c.2 ∉ heldBy s e.2 := by
        intro c hc hne hin
        obtain ⟨c', h1, h2⟩ := List.mem_map.1 hin
        have a1 := (hf'.text w hw c hc).2
        have a2 := (hr.texts c' h1).2
        rw [h2, a1] at a2
        exact hne (Option.some.inj a2)
      have notWork : ∀ c ∈ (s.heap w.2).children, c.2 ≠ y := by
        intro c hc e
        have := (textHere h.sound w1 w2 hc).2.1
        rw [e, y2] at this
        cases this
      by_cases e1 : w.2 = y
      · rw [e1] at hc ⊢
        rcases (t.kids c).1 hc with h1 | ⟨h1, h2⟩
        · refine ⟨(hr.texts c h1).1, ?_⟩
          rw [t.texts c.2 (List.mem_map_of_mem (f := (·.2)) h1)]
        · rw [← e1] at h1
          have hne : w.2 ≠ e.2 := by
            intro e2
            rw [e2] at h1
            exact h2 (List.mem_map_of_mem (f := (·.1)) h1)
          rw [t.frame c.2 (notWork c h1) (apart c h1 hne), ← e1]
          exact hf'.text w hw c h1
      · rw [big w.2 (by rw [w2]; simp) (.inr e1)] at hc
        have hne : w.2 ≠ e.2 := by
          rcases hplace with h1 | h1
          · rw [← h1]; exact e1
          · exact h1 i' hi' g' hg' w hw
        rw [t.frame c.2 (notWork c hc) (apart c hc hne)]
        exact hf'.text w hw c hc
  · intro i1 hi1 i2 hi2 g1 hg1 g2 hg2 hk
    rw [hroot] at hi1 hi2
    rw [hinv i1 hi1] at hg1
    rw [hinv i2 hi2] at hg2
    exact h.once i1 hi1 i2 hi2 g1 hg1 g2 hg2 hk

/-- All that the loop over the works does. -/
structure TookAll (lv : Levels) (s s' : MStore) (root x : Nat) (l : List (Str × Nat)) : Prop where
  lib : LibraryObj lv s' root
  next : s'.next = s.next
  count : s'.graphCount = s.graphCount
  same : ∀ a, SameObj (s'.heap a) (s.heap a)
  big : ∀ a, (s.heap a).cls ≠ .text → (s.heap a).cls ≠ .work → s'.heap a = s.heap a
  frame : ∀ a, (∀ e ∈ l, a ∉ heldBy s e.2) → (∀ e ∈ l, (e.1, a) ∉ (s.heap x).children) → s'.heap a = s.heap a
  kids : ∀ k y, (k, y) ∈ (s.heap x).children → ∀ c, c ∈ (s'.heap y).children ↔ (∃ e ∈ l, e.1 = k ∧ c ∈ (s.heap e.2).children) ∨
    (c ∈ (s.heap y).children ∧ ∀ e ∈ l, e.1 = k → c.1 ∉ (s.heap e.2).children.map (·.1))
  graphs : ∀ g, besides (s'.graphs g) = besides (s.graphs g)

theorem take_works (d : ObjDispatcher) {i g : Str × Nat} (l : List (Str × Nat)) (h : LibraryObj lv s d.root) (hi : i ∈ (s.heap d.root).children)
    (hg : g ∈ (s.heap i.2).children) (hl : (l.map (·.1)).Nodup) (hr : ∀ e ∈ l, Ready lv s d.root g.2 e) :
    ∃ s', d.takeWorks g.1 s l = .ok s' ∧ TookAll lv s s' d.root g.2 l := by
  induction l generalizing s with
  | nil =>
    exact ⟨s, rfl, h, rfl, rfl, fun _ => sameObj_refl _, fun _ _ _ => rfl, fun _ _ _ => rfl, by simp, fun _ => rfl⟩
  | cons e r ih =>
    have hre := hr e (by simp)
    obtain ⟨s1, y, hy, hget, hok, t, hyc, hlib⟩ := take_step h hi hg hre
    simp only [List.map_cons, List.nodup_cons] at hl
    have big := took_big h.sound hre.here hre.cls hyc t
    have hroot : s1.heap d.root = s.heap d.root := big _ (by rw [h.cls]; simp) (.inl (by rw [h.cls]; simp))
    have hinv : ∀ i ∈ (s.heap d.root).children, s1.heap i.2 = s.heap i.2 := by
      intro i hi
      have := (h.invHere hi).2.1
      exact big _ (by rw [this]; simp) (.inl (by rw [this]; simp))
    have htg : ∀ i ∈ (s.heap d.root).children, ∀ g ∈ (s.heap i.2).children, s1.heap g.2 = s.heap g.2 := by
      intro i hi g hg
      have := (h.tgHere hi hg).2.1
      exact big _ (by rw [this]; simp) (.inl (by rw [this]; simp))
    obtain ⟨y1, y2, y3⟩ := workHere h.sound (h.tgHere hi hg).1 (h.tg i hi g hg).1 hy
    simp only at y1 y2 y3
    have key : ∀ e' ∈ r, e'.1 ≠ e.1 := fun e' he' hk => hl.1 (hk ▸ List.mem_map_of_mem (f := (·.1)) he')
    have hwork : ∀ e' ∈ r, s1.heap e'.2 = s.heap e'.2 := by
      intro e' he'
      have h' := hr e' (by simp [he'])
      refine big _ (by rw [h'.cls]; simp) (.inr ?_)
      intro e1
      exact key e' he' (by rw [← h'.id, e1, y3])
    have hr1 : ∀ e' ∈ r, Ready lv s1 d.root g.2 e' := by
      intro e' he'
      have h' := hr e' (by simp [he'])
      constructor
      · rw [t.next]; exact h'.here
      · rw [hwork e' he']; exact h'.cls
      · rw [hwork e' he']; exact h'.id
      · intro c hc
        rw [hwork e' he'] at hc
        have a1 := h'.texts c hc
        refine ⟨a1.1, ?_⟩
        rw [t.frame c.2]
        · exact a1.2
        · intro e1
          have := (textHere h.sound h'.here h'.cls hc).2.1
          rw [e1, hyc] at this; cases this
        · intro hin
          obtain ⟨c', h1, h2⟩ := List.mem_map.1 hin
          have a2 := (hre.texts c' h1).2
          rw [h2, a1.2] at a2
          have a3 := Option.some.inj a2
          exact key e' he' (by rw [← h'.id, a3, hre.id])
      · obtain ⟨y', h1, h2⟩ := h'.place
        refine ⟨y', by rw [htg i hi g hg]; exact h1, h2.imp id fun h2 i2 hi2 g2 hg2 w2 hw2 => ?_⟩
        rw [hroot] at hi2
        rw [hinv i2 hi2] at hg2
        rw [htg i2 hi2 g2 hg2] at hw2
        exact h2 i2 hi2 g2 hg2 w2 hw2
    obtain ⟨s', hok', m⟩ := ih hlib (by rw [hroot]; exact hi) (by rw [hinv i hi]; exact hg) hl.2 hr1
    have same := took_same t
    refine ⟨s', ?_, m.lib, m.next.trans t.next, m.count.trans t.count, fun a => sameObj_trans (m.same a) (same a), ?_, ?_, ?_, ?_⟩
    · rw [ObjDispatcher.takeWorks, h.get_tg hi hg]
      simp only
      rw [if_neg (by rw [(h.tgHere hi hg).2.1]; simp), if_pos (List.mem_map_of_mem (f := (·.1)) hy), hget]
      simp only
      rw [hok]
      exact hok'
    · intro a h1 h2
      have h3 := big a h1 (.inl h2)
      rw [m.big a (by rw [h3]; exact h1) (by rw [h3]; exact h2), h3]
    · intro a h1 h2
      have h3 : s1.heap a = s.heap a := t.frame a (by intro e1; subst e1; exact h2 e (by simp) hy) (h1 e (by simp))
      rw [m.frame a, h3]
      · intro e' he'
        unfold heldBy
        rw [hwork e' he']
        exact h1 e' (by simp [he'])
      · intro e' he'
        rw [htg i hi g hg]
        exact h2 e' (by simp [he'])
    · intro k z hz c
      rw [m.kids k z (by rw [htg i hi g hg]; exact hz) c]
      have e1 : (∃ e' ∈ r, e'.1 = k ∧ c ∈ (s1.heap e'.2).children) ↔ ∃ e' ∈ r, e'.1 = k ∧ c ∈ (s.heap e'.2).children :=
        exists_congr fun e' => and_congr_right fun he' => by rw [hwork e' he']
      have e2 : (∀ e' ∈ r, e'.1 = k → c.1 ∉ (s1.heap e'.2).children.map (·.1)) ↔ ∀ e' ∈ r, e'.1 = k → c.1 ∉ (s.heap e'.2).children.map (·.1) :=
        forall_congr' fun e' => forall_congr' fun he' => by rw [hwork e' he']
      rw [e1, e2]
      have once := h.sound.once _ (h.tgHere hi hg).1
      by_cases hk : k = e.1
      · subst hk
        have hzy : z = y := by
          have a1 := getEntry_of_mem once hz
          have a2 := getEntry_of_mem once hy
          simp only at a1 a2
          rw [a1] at a2
          exact Option.some.inj a2
        subst hzy
        rw [t.kids c]
        have n1 : ¬ ∃ e' ∈ r, e'.1 = e.1 ∧ c ∈ (s.heap e'.2).children := fun ⟨e', he', h', _⟩ => key e' he' h'
        have n2 : ∀ e' ∈ r, e'.1 = e.1 → c.1 ∉ (s.heap e'.2).children.map (·.1) := fun e' he' h' => absurd h' (key e' he')
        constructor
        · rintro (h1 | ⟨h1 | ⟨h1, h2⟩, _⟩)
          · exact absurd h1 n1
          · exact .inl ⟨e, by simp, rfl, h1⟩
          · refine .inr ⟨h1, fun e' he' hk => ?_⟩
            rcases List.mem_cons.1 he' with rfl | he'
            · exact h2
            · exact n2 e' he' hk
        · rintro (⟨e', he', hk, h1⟩ | ⟨h1, h2⟩)
          · rcases List.mem_cons.1 he' with rfl | he'
            · exact .inr ⟨.inl h1, n2⟩
            · exact absurd hk (key e' he')
          · exact .inr ⟨.inr ⟨h1, h2 e (by simp) rfl⟩, n2⟩
      · have hzy : z ≠ y := by
          intro e3
          have a1 := h.sound.keyed _ (h.tgHere hi hg).1 _ hz
          simp only at a1
          rw [e3, y3] at a1
          exact hk a1.symm
        have hzc := (workHere h.sound (h.tgHere hi hg).1 (h.tg i hi g hg).1 hz).2.1
        simp only at hzc
        rw [big z (by rw [hzc]; simp) (.inr hzy)]
        constructor
        · rintro (⟨e', he', h1⟩ | ⟨h1, h2⟩)
          · exact .inl ⟨e', by simp [he'], h1⟩
          · refine .inr ⟨h1, fun e' he' hk' => ?_⟩
            rcases List.mem_cons.1 he' with rfl | he'
            · exact absurd hk'.symm hk
            · exact h2 e' he' hk'
        · rintro (⟨e', he', h1, h2⟩ | ⟨h1, h2⟩)
          · rcases List.mem_cons.1 he' with rfl | he'
            · exact absurd h1.symm hk
            · exact .inl ⟨e', he', h1, h2⟩
          · exact .inr ⟨h1, fun e' he' => h2 e' (by simp [he'])⟩
    · intro gr; rw [m.graphs, t.graphs]

/-! ### A textgroup that is there already -/

theorem _root_.Verif.Spec.LibraryObj.not_loose (h : LibraryObj lv s root) {i g : Str × Nat} (hi : i ∈ (s.heap root).children)
    (hg : g ∈ (s.heap i.2).children) {g0 : Nat} (hl : Loose lv s g0) : g.2 ≠ g0 := by
  intro e
  have := (h.tg i hi g hg).2
  rw [e, hl.parent] at this
  cases this

/-- Works of different textgroups are different. -/
theorem works_apart {g g' : Nat} (hf : FitsObj lv s g) (hf' : FitsObj lv s g') (hne : g ≠ g') {w w' : Str × Nat} (hw : w ∈ (s.heap g).children)
    (hw' : w' ∈ (s.heap g').children) : w.2 ≠ w'.2 := by
  intro e
  have h1 := (hf.work w hw).2.2
  rw [e, (hf'.work w' hw').2.2] at h1
  exact hne (Option.some.inj h1).symm

/-- A textgroup of the library merged with one that was read. -/
theorem merge_step (h : LibraryObj lv s root) {i g : Str × Nat} (hi : i ∈ (s.heap root).children) (hg : g ∈ (s.heap i.2).children) {g0 : Nat}
    (hl : Loose lv s g0) (hid : (s.heap g0).id = g.1) : ∃ s1, s.updateObj g.2 g0 = .ok s1 ∧ Merged s s1 g.2 (s.heap g0).children ∧
      LibraryObj lv s1 root ∧
      (∀ a < s.next, a ≠ g.2 → (∀ w ∈ (s.heap g.2).children, w.2 ≠ a) → s1.heap a = s.heap a) ∧
      ∀ e ∈ (s.heap g0).children, Ready lv s1 root g.2 e := by
  obtain ⟨g1, g2, g3⟩ := h.tgHere hi hg
  have hf := (h.tg i hi g hg).1
  have hne := h.not_loose hi hg hl
  have hm : Mergeable s g.2 g0 := by
    refine ⟨h.sound, h.one, g1, hl.here, g2, hl.fits.cls, g3.trans hid.symm, ?_⟩
    intro w hw hw'
    obtain ⟨a, ha, rfl⟩ := List.mem_map.1 hw
    obtain ⟨b, hb, e⟩ := List.mem_map.1 hw'
    exact works_apart hf hl.fits hne hb ha e
  obtain ⟨s1, hok, m, _⟩ := merge_works hm (order := fun x => x) (fun g => List.Perm.refl _)
  have frame : ∀ a < s.next, a ≠ g.2 → (∀ w ∈ (s.heap g.2).children, w.2 ≠ a) → s1.heap a = s.heap a := by
    intro a ha h1 h2
    exact m.frame a ha h1 fun e _ he => h2 _ (mem_of_getEntry he) rfl
  have hroot : s1.heap root = s.heap root := by
    refine frame root h.here ?_ ?_
    · intro e; have := h.cls; rw [e, g2] at this; cases this
    · intro w hw e; have := (workHere h.sound g1 hf hw).2.1; rw [e, h.cls] at this; cases this
  have hinv : ∀ i ∈ (s.heap root).children, s1.heap i.2 = s.heap i.2 := by
    intro i hi
    obtain ⟨i1, i2, _⟩ := h.invHere hi
    refine frame _ i1 ?_ ?_
    · intro e; rw [e, g2] at i2; cases i2
    · intro w hw e; have := (workHere h.sound g1 hf hw).2.1; rw [e, i2] at this; cases this
  have htg : ∀ a < s.next, (s.heap a).cls = .textgroup → a ≠ g.2 → s1.heap a = s.heap a := by
    intro a ha hc hn
    refine frame _ ha hn ?_
    intro w hw e; have := (workHere h.sound g1 hf hw).2.1; rw [e, hc] at this; cases this
  have hwork : ∀ a < s.next, FitsObj lv s a → a ≠ g.2 → ∀ w ∈ (s.heap a).children, s1.heap w.2 = s.heap w.2 := by
    intro a ha hfa hn w hw
    obtain ⟨w1, w2, _⟩ := workHere h.sound ha hfa hw
    refine frame _ w1 ?_ ?_
    · intro e; rw [e, g2] at w2; cases w2
    · intro w' hw' e; exact works_apart hf hfa (Ne.symm hn) hw' hw e
  have htext : ∀ a < s.next, (s.heap a).cls = .text → s1.heap a = s.heap a := by
    intro a ha hc
    refine frame _ ha ?_ ?_
    · intro e; rw [e, g2] at hc; cases hc
    · intro w hw e; have := (workHere h.sound g1 hf hw).2.1; rw [e, hc] at this; cases this
  have hself := m.selfRest
  simp only [MObj.mk.injEq] at hself
  obtain ⟨e1, e2, e3, e4, e5, e6, e7, _, e8, e9⟩ := hself
  have hnext : g.2 < s1.next := Nat.lt_of_lt_of_le g1 m.next
  -- the members of the merged textgroup
  have keys : ∀ k y, (k, y) ∈ (s1.heap g.2).children → ((k, y) ∈ (s.heap g.2).children ∧ s1.heap y = s.heap y) ∨
      ∃ e ∈ (s.heap g0).children, e.1 = k ∧ (s1.heap y).parent = some g.2 := by
    intro k y hy
    have hy' := getEntry_of_mem (m.sound.once _ hnext) hy
    simp only at hy'
    by_cases hk : k ∈ (s.heap g0).children.map (·.1)
    · obtain ⟨e, he, rfl⟩ := List.mem_map.1 hk
      obtain ⟨y', h1, h2, _⟩ := m.came e he
      rw [hy'] at h1
      cases h1
      exact .inr ⟨e, he, rfl, h2⟩
    · rw [m.lookup k hk] at hy'
      have hin := mem_of_getEntry hy'
      refine .inl ⟨hin, ?_⟩
      refine m.frame y (h.sound.exist _ g1 _ hin) ?_ ?_
      · intro e
        have := (workHere h.sound g1 hf hin).2.1
        simp only at this
        rw [e, g2] at this; cases this
      · intro e he he'
        have a1 := h.sound.keyed _ g1 _ hin
        have a2 := h.sound.keyed _ g1 _ (mem_of_getEntry he')
        simp only at a1 a2
        exact hk (List.mem_map.2 ⟨e, he, a2.symm.trans a1⟩)
  have fits1 : FitsObj lv s1 g.2 := by
    constructor
    · rw [e1]; exact hf.cls
    · rw [e2]; exact hf.level
    · intro w hw
      rw [e2]
      rcases keys w.1 w.2 hw with ⟨h1, h2⟩ | ⟨e, he, h1, h2⟩
      · rw [h2]; exact hf.work _ h1
      · have := hl.fits.work e he
        rw [h1, hid, ← g3] at this
        exact ⟨this.1, this.2.1, h2⟩
    · intro w hw c hc
      have hw' := getEntry_of_mem (m.sound.once _ hnext) hw
      have hwn : w.2 < s1.next := m.sound.exist _ hnext _ hw
      have old : ∀ c, w.2 < s.next → c ∈ (s.heap w.2).children → lv.level c.1 = 4 ∧ (s1.heap c.2).parent = some w.2 := by
        intro c hwn hc
        rcases m.fresh _ _ hw' with h1 | ⟨h1, _⟩
        · have hin := mem_of_getEntry h1
          obtain ⟨w1, w2, w3⟩ := workHere h.sound g1 hf hin
          obtain ⟨c1, c2, c3⟩ := textHere h.sound w1 w2 hc
          rw [htext _ c1 c2]
          exact hf.text _ hin c hc
        · omega
      rcases m.whence _ _ hw' c hc with ⟨h1, h2⟩ | ⟨e, he, hk, h1⟩
      · exact old c h1 h2
      · obtain ⟨c0, hc0, hcc⟩ := List.mem_map.1 h1
        obtain ⟨y, hy, _, _, hct⟩ := m.came e he
        rw [hk, hw'] at hy
        cases hy
        obtain ⟨t, ht1, _, ht2, _⟩ := hct c0 hc0
        have h3 := getEntry_of_mem (m.sound.once _ hwn) hc
        rw [hcc, h3] at ht1
        cases ht1
        have := hl.fits.text e he c0 hc0
        rw [hcc] at this
        exact ⟨this.1, ht2 this.2⟩
  refine ⟨s1, by rw [MStore.updateObj, g2]; exact hok, m, ?_, frame, ?_⟩
  · constructor
    · exact m.sound
    · exact m.one
    · exact Nat.lt_of_lt_of_le h.here m.next
    · rw [hroot]; exact h.cls
    · rw [hroot]; exact h.level
    · intro i hi
      rw [hroot] at hi
      rw [hinv i hi]; exact h.inv i hi
    · intro i' hi' g' hg'
      rw [hroot] at hi'
      rw [hinv i' hi'] at hg'
      obtain ⟨hf', hp'⟩ := h.tg i' hi' g' hg'
      obtain ⟨k1, k2, k3⟩ := h.tgHere hi' hg'
      by_cases hgg : g'.2 = g.2
      · rw [hgg]
        refine ⟨fits1, ?_⟩
        rw [e7, ← hgg]; exact hp'
      · rw [htg _ k1 k2 hgg]
        refine ⟨?_, hp'⟩
        constructor
        · rw [htg _ k1 k2 hgg]; exact hf'.cls
        · rw [htg _ k1 k2 hgg]; exact hf'.level
        · intro w hw
          rw [htg _ k1 k2 hgg] at hw ⊢
          rw [hwork _ k1 hf' hgg w hw]
          exact hf'.work w hw
        · intro w hw c hc
          rw [htg _ k1 k2 hgg] at hw
          rw [hwork _ k1 hf' hgg w hw] at hc
          obtain ⟨w1, w2, w3⟩ := workHere h.sound k1 hf' hw
          obtain ⟨c1, c2, c3⟩ := textHere h.sound w1 w2 hc
          rw [htext _ c1 c2]
          exact hf'.text w hw c hc
    · intro i1 hi1 i2 hi2 g1 hg1 g2 hg2 hk
      rw [hroot] at hi1 hi2
      rw [hinv i1 hi1] at hg1
      rw [hinv i2 hi2] at hg2
      exact h.once i1 hi1 i2 hi2 g1 hg1 g2 hg2 hk
  · intro e he
    obtain ⟨w1, w2, w3⟩ := workHere h.sound hl.here hl.fits he
    have hwe := hwork _ hl.here hl.fits hne.symm e he
    constructor
    · exact Nat.lt_of_lt_of_le w1 m.next
    · rw [hwe]; exact w2
    · rw [hwe]; exact w3
    · intro c hc
      rw [hwe] at hc
      obtain ⟨c1, c2, c3⟩ := textHere h.sound w1 w2 hc
      rw [htext _ c1 c2]
      exact hl.fits.text e he c hc
    · obtain ⟨y, hy, _⟩ := m.came e he
      refine ⟨y, mem_of_getEntry hy, .inr ?_⟩
      intro i' hi' g' hg' w hw
      rw [hroot] at hi'
      rw [hinv i' hi'] at hg'
      obtain ⟨k1, k2, k3⟩ := h.tgHere hi' hg'
      by_cases hgg : g'.2 = g.2
      · rw [hgg] at hw
        rcases m.fresh _ _ (getEntry_of_mem (m.sound.once _ hnext) hw) with h1 | ⟨h1, _⟩
        · exact works_apart hf hl.fits hne (mem_of_getEntry h1) he
        · omega
      · rw [htg _ k1 k2 hgg] at hw
        exact works_apart (h.tg i' hi' g' hg').1 hl.fits (h.not_loose hi' hg' hl) hw he

/-! ### A textgroup that is new -/

theorem attach_step (h : LibraryObj lv s root) {i : Str × Nat} (hi : i ∈ (s.heap root).children) {g0 : Nat} (hl : Loose lv s g0)
    (hno : ∀ i ∈ (s.heap root).children, ∀ g ∈ (s.heap i.2).children, g.1 ≠ (s.heap g0).id) :
    LibraryObj lv (s.setParent g0 i.2) root ∧ (s.setParent g0 i.2).next = s.next ∧ (s.setParent g0 i.2).graphCount = s.graphCount ∧
    (s.setParent g0 i.2).heap g0 = { s.heap g0 with parent := some i.2 } ∧
    (s.setParent g0 i.2).heap i.2 = { s.heap i.2 with children := (s.heap i.2).children ++ [((s.heap g0).id, g0)] } ∧
    (∀ a, a ≠ g0 → a ≠ i.2 → (s.setParent g0 i.2).heap a = s.heap a) ∧
    (∀ g, besides ((s.setParent g0 i.2).graphs g) = besides (s.graphs g)) := by
  obtain ⟨i1, i2, i3⟩ := h.invHere hi
  have hne : g0 ≠ i.2 := by intro e; have := hl.fits.cls; rw [e, i2] at this; cases this
  have hnin : (s.heap g0).id ∉ (s.heap i.2).children.map (·.1) := by
    intro hin
    obtain ⟨g, hg, e⟩ := List.mem_map.1 hin
    exact hno i hi g hg e
  obtain ⟨p1, p2, _, p3, p4⟩ := C96_parent s g0 i.2 hne
  have p2 := p2 hnin
  have hadd : ∀ (s : MStore) p c, (s.addMember p c).next = s.next ∧ (s.addMember p c).graphCount = s.graphCount ∧ (s.addMember p c).graphs = s.graphs := by
    intro s p c
    unfold MStore.addMember
    split <;> exact ⟨rfl, rfl, rfl⟩
  have hnext : (s.setParent g0 i.2).next = s.next := by rw [MStore.setParent, (hadd _ _ _).1]; rfl
  have hcount : (s.setParent g0 i.2).graphCount = s.graphCount := by rw [MStore.setParent, (hadd _ _ _).2.1]; rfl
  have hgr : ∀ g, besides ((s.setParent g0 i.2).graphs g) = besides (s.graphs g) := by
    intro g
    have : (s.setParent g0 i.2).graphs g = if g = (s.heap g0).graph then (s.graphs g).insert ⟨s.node g0, capParent, s.node i.2⟩ else s.graphs g := by
      rw [MStore.setParent, (hadd _ _ _).2.2]
      simp only [MStore.say, MStore.setObj]
      split
      · rename_i e; rw [e]
      · rfl
    rw [this]
    split
    · exact besides_insert _ _ _
    · rfl
  generalize s.setParent g0 i.2 = s1 at *
  have same : ∀ a, SameObj (s1.heap a) (s.heap a) := by
    intro a
    by_cases h1 : a = g0
    · subst h1; rw [p1]; exact sameObj_refl _
    · by_cases h2 : a = i.2
      · subst h2; rw [p2]; exact sameObj_refl _
      · rw [p3 a h1 h2]; exact sameObj_refl _
  have sound1 : Sound s1 := by
    refine sound_change h.sound hnext hcount same i.2 ?_ ?_ ?_
    · intro a h1 _
      by_cases h2 : a = g0
      · subst h2; rw [p1]
      · rw [p3 a h2 h1]
    · intro e he
      rw [p2] at he
      rcases List.mem_append.1 he with he | he
      · exact ⟨h.sound.exist _ i1 e he, h.sound.keyed _ i1 e he, h.sound.nested _ i1 e he⟩
      · simp only [List.mem_singleton] at he
        subst he
        exact ⟨hl.here, rfl, by rw [i2, hl.fits.cls]; trivial⟩
    · rw [p2]
      simp only [List.map_append, List.map_cons, List.map_nil]
      rw [List.nodup_append]
      refine ⟨h.sound.once _ i1, by simp, ?_⟩
      intro a ha b hb e
      simp only [List.mem_singleton] at hb
      subst hb; subst e
      exact hnin ha
  have hroot : s1.heap root = s.heap root := by
    refine p3 root ?_ ?_
    · intro e; have := h.cls; rw [e, hl.fits.cls] at this; cases this
    · intro e; have := h.cls; rw [e, i2] at this; cases this
  have hwork : ∀ a, (s.heap a).cls = .work → s1.heap a = s.heap a := by
    intro a ha
    refine p3 a ?_ ?_
    · intro e; rw [e, hl.fits.cls] at ha; cases ha
    · intro e; rw [e, i2] at ha; cases ha
  have htext : ∀ a, (s.heap a).cls = .text → s1.heap a = s.heap a := by
    intro a ha
    refine p3 a ?_ ?_
    · intro e; rw [e, hl.fits.cls] at ha; cases ha
    · intro e; rw [e, i2] at ha; cases ha
  have fits1 : ∀ a < s.next, FitsObj lv s a → (s1.heap a).children = (s.heap a).children → FitsObj lv s1 a := by
    intro a ha hf hk
    constructor
    · rw [(same a).1]; exact hf.cls
    · rw [(same a).2.1]; exact hf.level
    · intro w hw
      rw [hk] at hw
      rw [(same a).2.1, hwork _ (workHere h.sound ha hf hw).2.1]
      exact hf.work w hw
    · intro w hw c hc
      rw [hk] at hw
      obtain ⟨w1, w2, w3⟩ := workHere h.sound ha hf hw
      rw [hwork _ w2] at hc
      rw [htext _ (textHere h.sound w1 w2 hc).2.1]
      exact hf.text w hw c hc
  have members : ∀ i' ∈ (s.heap root).children, ∀ g' ∈ (s1.heap i'.2).children,
      g' ∈ (s.heap i'.2).children ∨ (i'.2 = i.2 ∧ g' = ((s.heap g0).id, g0)) := by
    intro i' hi' g' hg'
    by_cases h1 : i'.2 = i.2
    · rw [h1, p2] at hg'
      rcases List.mem_append.1 hg' with h2 | h2
      · rw [h1]; exact .inl h2
      · exact .inr ⟨h1, List.mem_singleton.1 h2⟩
    · have : i'.2 ≠ g0 := by
        intro e; have := (h.invHere hi').2.1; rw [e, hl.fits.cls] at this; cases this
      rw [p3 _ this h1] at hg'
      exact .inl hg'
  refine ⟨?_, hnext, hcount, p1, p2, p3, hgr⟩
  constructor
  · exact sound1
  · intro g hg n l l' a b
    have ne : (Term.uri "http://purl.org/dc/elements/1.1/language".toList) ≠ capParent := by rw [← language_eq]; exact language_ne_parent
    rw [mem_of_besides (hgr g) ne] at a b
    exact h.one g (by rw [← hcount]; exact hg) n l l' a b
  · rw [hnext]; exact h.here
  · rw [hroot]; exact h.cls
  · rw [hroot]; exact h.level
  · intro i' hi'
    rw [hroot] at hi'
    refine ⟨(h.inv i' hi').1, ?_⟩
    have h0 := (h.inv i' hi').2
    by_cases h1 : i'.2 = i.2
    · rw [h1, p2]; rw [h1] at h0; exact h0
    · rw [p3 _ (by intro e; have := (h.invHere hi').2.1; rw [e, hl.fits.cls] at this; cases this) h1]; exact h0
  · intro i' hi' g' hg'
    rw [hroot] at hi'
    rcases members i' hi' g' hg' with h1 | ⟨h1, h2⟩
    · obtain ⟨k1, k2, k3⟩ := h.tgHere hi' h1
      obtain ⟨hf', hp'⟩ := h.tg i' hi' g' h1
      have hg0 := h.not_loose hi' h1 hl
      have : s1.heap g'.2 = s.heap g'.2 := p3 _ hg0 (by intro e; rw [e, i2] at k2; cases k2)
      exact ⟨fits1 _ k1 hf' (by rw [this]), by rw [this]; exact hp'⟩
    · subst h2
      exact ⟨fits1 _ hl.here hl.fits (by rw [p1]), by rw [p1, h1]⟩
  · intro a ha b hb ga hga gb hgb hk
    rw [hroot] at ha hb
    rcases members a ha ga hga with h1 | ⟨h1, h2⟩ <;> rcases members b hb gb hgb with h3 | ⟨h3, h4⟩
    · exact h.once a ha b hb ga h1 gb h3 hk
    · subst h4; exact absurd hk (hno a ha ga h1)
    · subst h2; exact absurd hk.symm (hno b hb gb h3)
    · rw [h2, h4]

/-! ### Both -/

theorem hasText_congr {s' : MStore} {z : Nat} (h : s'.heap z = s.heap z) (hw : ∀ w ∈ (s.heap z).children, s'.heap w.2 = s.heap w.2) (wid : Str) (t : Nat) :
    HasTextObj s' z wid t ↔ HasTextObj s z wid t := by
  unfold HasTextObj
  rw [h]
  exact exists_congr fun w => and_congr_right fun hm => by rw [hw w hm]

theorem inLibrary_congr {s' : MStore} (h : s'.heap root = s.heap root) (hi : ∀ i ∈ (s.heap root).children, s'.heap i.2 = s.heap i.2) (x : Nat) :
    InLibrary s' root x ↔ InLibrary s root x := by
  unfold InLibrary
  rw [h]
  exact exists_congr fun i => and_congr_right fun hm => by rw [hi i hm]

/-- All that taking a textgroup into the library does. -/
structure Received (lv : Levels) (s s' : MStore) (root g0 : Nat) (name : Str) : Prop where
  lib : LibraryObj lv s' root
  next : s.next ≤ s'.next
  same : ∀ a < s.next, SameObj (s'.heap a) (s.heap a)
  graphs : ∀ a < s.next, besides (s'.graphOf a) = besides (s.graphOf a)
  invs : s'.heap root = s.heap root
  loose : ∀ g', Loose lv s g' → g' ≠ g0 → ∀ a ∈ treeOf s g', s'.heap a = s.heap a
  holds : ∀ gid wid t, HoldsTextObj s' root gid wid t ↔ ((s.heap g0).id = gid ∧ HasTextObj s g0 wid t) ∨
    (HoldsTextObj s root gid wid t ∧ ¬ DescribesObj s g0 gid wid (s.heap t).id)
  shelf : ∀ n gid, OnShelf s' root n gid ↔ OnShelf s root n gid ∨ (n = name ∧ gid = (s.heap g0).id ∧ ¬ ∃ m, OnShelf s root m gid)
  stay : ∀ x, InLibrary s root x → InLibrary s' root x ∧
    (∀ w ∈ (s.heap x).children, w ∈ (s'.heap x).children) ∧
    ∀ w ∈ (s'.heap x).children, w ∈ (s.heap x).children ∨ (s.next ≤ w.2 ∧ (s.heap x).id = (s.heap g0).id ∧ w.1 ∈ (s.heap g0).children.map (·.1))
  own : (s'.heap g0).children = (s.heap g0).children ∧
    (InLibrary s' root g0 ↔ ¬ ∃ x, InLibrary s root x ∧ (s.heap x).id = (s.heap g0).id)

theorem mem_treeOf {a x : Nat} : x ∈ treeOf s a ↔ x = a ∨ (∃ w ∈ (s.heap a).children, x = w.2) ∨
    ∃ w ∈ (s.heap a).children, ∃ t ∈ (s.heap w.2).children, x = t.2 := by
  simp only [treeOf, heldBy, List.mem_append, List.mem_cons, List.mem_flatMap, List.mem_map, or_assoc]
  constructor
  · rintro (h | ⟨w, hw, rfl⟩ | ⟨y, ⟨w, hw, rfl⟩, t, ht, rfl⟩)
    · exact .inl h
    · exact .inr (.inl ⟨w, hw, rfl⟩)
    · exact .inr (.inr ⟨w, hw, t, ht, rfl⟩)
  · rintro (h | ⟨w, hw, rfl⟩ | ⟨w, hw, t, ht, rfl⟩)
    · exact .inl h
    · exact .inr (.inl ⟨w, hw, rfl⟩)
    · exact .inr (.inr ⟨w.2, ⟨w, hw, rfl⟩, t, ht, rfl⟩)

theorem onShelf_congr {s' : MStore} (h : s'.heap root = s.heap root) (hi : ∀ i ∈ (s.heap root).children, s'.heap i.2 = s.heap i.2) (n gid : Str) :
    OnShelf s' root n gid ↔ OnShelf s root n gid := by
  unfold OnShelf
  rw [h]
  exact exists_congr fun i => and_congr_right fun hm => by rw [hi i hm]

/-- Texts of textgroups that were read are held by no other work that was read. -/
theorem texts_apart {w w' : Nat} (hne : w ≠ w') (h : ∀ t ∈ (s.heap w).children, (s.heap t.2).parent = some w)
    (h' : ∀ t ∈ (s.heap w').children, (s.heap t.2).parent = some w') {t : Str × Nat} (ht : t ∈ (s.heap w).children) : t.2 ∉ heldBy s w' := by
  intro hin
  obtain ⟨t', h1, h2⟩ := List.mem_map.1 hin
  have a := h t ht
  have b := h' t' h1
  rw [h2, a] at b
  exact hne (Option.some.inj b)

theorem received_known (d : ObjDispatcher) (h : LibraryObj lv s d.root) {i g : Str × Nat} (hi : i ∈ (s.heap d.root).children)
    (hg : g ∈ (s.heap i.2).children) {g0 : Nat} (hl : Loose lv s g0) (hid : (s.heap g0).id = g.1) (path name : Str) :
    ∃ s', d.receive s g0 path = .ok s' ∧ Received lv s s' d.root g0 name := by
  obtain ⟨s1, hok, m, hlib1, frame, hready⟩ := merge_step h hi hg hl hid
  obtain ⟨g1, g2, g3⟩ := h.tgHere hi hg
  have hf := (h.tg i hi g hg).1
  have hne := h.not_loose hi hg hl
  have notWork : ∀ a, (s.heap a).cls ≠ .work → ∀ w ∈ (s.heap g.2).children, w.2 ≠ a := by
    intro a ha w hw e
    rw [← e] at ha
    exact ha (workHere h.sound g1 hf hw).2.1
  have hroot : s1.heap d.root = s.heap d.root :=
    frame _ h.here (by intro e; have := h.cls; rw [e, g2] at this; cases this) (notWork _ (by rw [h.cls]; simp))
  have hinv : ∀ i ∈ (s.heap d.root).children, s1.heap i.2 = s.heap i.2 := by
    intro i hi
    obtain ⟨i1, i2, _⟩ := h.invHere hi
    exact frame _ i1 (by intro e; rw [e, g2] at i2; cases i2) (notWork _ (by rw [i2]; simp))
  have hg0 : s1.heap g0 = s.heap g0 := frame _ hl.here hne.symm (notWork _ (by rw [hl.fits.cls]; simp))
  obtain ⟨s', hok', m'⟩ := take_works d (s := s1) (i := i) (g := g) (s.heap g0).children hlib1 (by rw [hroot]; exact hi) (by rw [hinv i hi]; exact hg)
    (h.sound.once _ hl.here) hready
  have hnext1 : g.2 < s1.next := Nat.lt_of_lt_of_le g1 m.next
  -- objects that neither step changes
  have still : ∀ a < s.next, a ≠ g.2 → (∀ w ∈ (s.heap g.2).children, w.2 ≠ a) → (∀ e ∈ (s.heap g0).children, a ∉ heldBy s e.2) → s'.heap a = s.heap a := by
    intro a ha h1 h2 h3
    rw [m'.frame a, frame a ha h1 h2]
    · intro e he
      obtain ⟨w1, w2, w3⟩ := workHere h.sound hl.here hl.fits he
      unfold heldBy
      rw [frame e.2 w1 (by intro e1; rw [e1, g2] at w2; cases w2) (fun w hw => works_apart hf hl.fits hne hw he)]
      exact h3 e he
    · intro e he hin
      rcases m.fresh _ _ (getEntry_of_mem (m.sound.once _ hnext1) hin) with h4 | ⟨h4, _⟩
      · exact h2 _ (mem_of_getEntry h4) rfl
      · simp only at h4; omega
  have hroot' : s'.heap d.root = s.heap d.root := by
    rw [m'.big _ (by rw [hroot, h.cls]; simp) (by rw [hroot, h.cls]; simp), hroot]
  have hinv' : ∀ i ∈ (s.heap d.root).children, s'.heap i.2 = s.heap i.2 := by
    intro i hi
    rw [m'.big _ (by rw [hinv i hi, (h.invHere hi).2.1]; simp) (by rw [hinv i hi, (h.invHere hi).2.1]; simp), hinv i hi]
  have heWork : ∀ e ∈ (s.heap g0).children, s1.heap e.2 = s.heap e.2 := by
    intro e he
    obtain ⟨w1, w2, w3⟩ := workHere h.sound hl.here hl.fits he
    exact frame e.2 w1 (by intro e1; rw [e1, g2] at w2; cases w2) (fun w hw => works_apart hf hl.fits hne hw he)
  have notText : ∀ a, (s.heap a).cls ≠ .text → ∀ e ∈ (s.heap g0).children, a ∉ heldBy s e.2 := by
    intro a ha e he hin
    obtain ⟨w1, w2, w3⟩ := workHere h.sound hl.here hl.fits he
    obtain ⟨c, hc, rfl⟩ := List.mem_map.1 hin
    exact ha (textHere h.sound w1 w2 hc).2.1
  have otherTg : ∀ z < s.next, FitsObj lv s z → z ≠ g.2 → z ≠ g0 →
      s'.heap z = s.heap z ∧ ∀ w ∈ (s.heap z).children, s'.heap w.2 = s.heap w.2 := by
    intro z hz hfz h1 h2
    refine ⟨still z hz h1 (notWork _ (by rw [hfz.cls]; simp)) (notText _ (by rw [hfz.cls]; simp)), fun w hw => ?_⟩
    obtain ⟨w1, w2, w3⟩ := workHere h.sound hz hfz hw
    exact still _ w1 (by intro e; rw [e, g2] at w2; cases w2) (fun w' hw' => works_apart hf hfz (Ne.symm h1) hw' hw) (notText _ (by rw [w2]; simp))
  refine ⟨s', ?_, m'.lib, ?_, ?_, ?_, hroot', ?_, ?_, ?_, ?_, ?_⟩
  · rw [ObjDispatcher.receive, if_pos ((h.contains_tg (by rw [hid, ← g3]; exact hf.level)).2 ⟨i, hi, g, hg, hid.symm⟩), hid, h.get_tg hi hg]
    simp only
    rw [hok]
    simp only
    rw [hg0, hid]
    exact hok'
  · rw [m'.next]; exact m.next
  · intro a ha
    exact sameObj_trans (m'.same a) (m.same a ha)
  · intro a ha
    have e1 : besides (s1.graphOf a) = besides (s.graphOf a) := by
      unfold MStore.graphOf
      rw [(m.same a ha).2.2.2.2.2.2, m.graphs _ (h.sound.graphs a ha)]
    rw [← e1]
    unfold MStore.graphOf
    rw [(m'.same a).2.2.2.2.2.2, m'.graphs]
  · intro g' hl' hg' a ha
    have hgg := h.not_loose hi hg hl'
    obtain ⟨o1, o2⟩ := otherTg g' hl'.here hl'.fits hgg.symm hg'
    rcases mem_treeOf.1 ha with rfl | ⟨w, hw, rfl⟩ | ⟨w, hw, t, ht, rfl⟩
    · exact o1
    · exact o2 w hw
    · obtain ⟨w1, w2, w3⟩ := workHere h.sound hl'.here hl'.fits hw
      obtain ⟨t1, t2, t3⟩ := textHere h.sound w1 w2 ht
      refine still _ t1 (by intro e; rw [e, g2] at t2; cases t2) (notWork _ (by rw [t2]; simp)) fun e he => ?_
      exact texts_apart (works_apart hl'.fits hl.fits hg' hw he) (fun t ht => (hl'.fits.text w hw t ht).2) (fun t ht => (hl.fits.text e he t ht).2) ht
  · intro gid wid t
    constructor
    · rintro ⟨z, hz, hzid, ht⟩
      rw [inLibrary_congr hroot' hinv'] at hz
      obtain ⟨i', hi', g', hg', rfl⟩ := hz
      obtain ⟨k1, k2, k3⟩ := h.tgHere hi' hg'
      have hzid : (s.heap g'.2).id = gid := by
        rw [← hzid]; exact ((sameObj_trans (m'.same _) (m.same _ k1)).2.1).symm
      by_cases hgg : g'.2 = g.2
      · rw [hgg] at ht hzid
        have hgid : gid = (s.heap g0).id := by rw [← hzid, g3, hid]
        obtain ⟨w, hw, rfl, c, hc, rfl⟩ := ht
        rw [m'.big _ (by rw [(m.same _ g1).1, g2]; simp) (by rw [(m.same _ g1).1, g2]; simp)] at hw
        have hw' := getEntry_of_mem (m.sound.once _ hnext1) hw
        rcases (m'.kids w.1 w.2 hw c).1 hc with ⟨e, he, hk, hce⟩ | ⟨hcy, hno⟩
        · rw [heWork e he] at hce
          exact .inl ⟨hgid.symm, e, he, hk, c, hce, rfl⟩
        · have hno' : ∀ e ∈ (s.heap g0).children, e.1 = w.1 → c.1 ∉ (s.heap e.2).children.map (·.1) := by
            intro e he hk
            rw [← heWork e he]
            exact hno e he hk
          rcases m.whence _ _ hw' c hcy with ⟨h1, h2⟩ | ⟨e, he, hk, h1⟩
          · rcases m.fresh _ _ hw' with h3 | ⟨h3, _⟩
            · have hin := mem_of_getEntry h3
              refine .inr ⟨⟨g.2, ⟨i, hi, g, hg, rfl⟩, hzid, (w.1, w.2), hin, rfl, c, h2, rfl⟩, ?_⟩
              rintro ⟨_, t', ⟨w0, hw0, hk0, c0, hc0, rfl⟩, hid'⟩
              obtain ⟨v1, v2, v3⟩ := workHere h.sound hl.here hl.fits hw0
              obtain ⟨u1, u2, u3⟩ := workHere h.sound g1 hf hin
              rw [(textHere h.sound v1 v2 hc0).2.2, (textHere h.sound u1 u2 h2).2.2] at hid'
              exact hno' w0 hw0 hk0 (List.mem_map.2 ⟨c0, hc0, hid'⟩)
            · omega
          · exact absurd h1 (hno' e he hk)
      · obtain ⟨o1, o2⟩ := otherTg g'.2 k1 (h.tg i' hi' g' hg').1 hgg (h.not_loose hi' hg' hl)
        rw [hasText_congr o1 o2] at ht
        refine .inr ⟨⟨g'.2, ⟨i', hi', g', hg', rfl⟩, hzid, ht⟩, ?_⟩
        rintro ⟨h1, _⟩
        have : g' = g := h.once i' hi' i hi g' hg' g hg (by rw [← k3, hzid, ← h1, hid])
        exact hgg (by rw [this])
    · have hx : InLibrary s' d.root g.2 := (inLibrary_congr hroot' hinv' _).2 ⟨i, hi, g, hg, rfl⟩
      have hxid : (s'.heap g.2).id = (s.heap g0).id := by
        rw [(sameObj_trans (m'.same _) (m.same _ g1)).2.1, g3, hid]
      have hxk : (s'.heap g.2).children = (s1.heap g.2).children := by
        rw [m'.big _ (by rw [(m.same _ g1).1, g2]; simp) (by rw [(m.same _ g1).1, g2]; simp)]
      rintro (⟨rfl, w, hw, rfl, c, hc, rfl⟩ | ⟨⟨z, ⟨i', hi', g', hg', rfl⟩, hzid, ht⟩, hno⟩)
      · obtain ⟨y, hy, _⟩ := m.came w hw
        have hy' := mem_of_getEntry hy
        refine ⟨g.2, hx, hxid, (w.1, y), by rw [hxk]; exact hy', rfl, c, ?_, rfl⟩
        exact (m'.kids w.1 y hy' c).2 (.inl ⟨w, hw, rfl, by rw [heWork w hw]; exact hc⟩)
      · obtain ⟨k1, k2, k3⟩ := h.tgHere hi' hg'
        by_cases hgg : g'.2 = g.2
        · rw [hgg] at ht hzid
          have hgid : gid = (s.heap g0).id := by rw [← hzid, g3, hid]
          obtain ⟨w, hw, rfl, c, hc, rfl⟩ := ht
          obtain ⟨u1, u2, u3⟩ := workHere h.sound g1 hf hw
          have hno' : ∀ e ∈ (s.heap g0).children, e.1 = w.1 → c.1 ∉ (s.heap e.2).children.map (·.1) := by
            intro e he hk hin
            obtain ⟨c0, hc0, e1⟩ := List.mem_map.1 hin
            obtain ⟨v1, v2, v3⟩ := workHere h.sound hl.here hl.fits he
            refine hno ⟨hgid.symm, c0.2, ⟨e, he, hk, c0, hc0, rfl⟩, ?_⟩
            rw [(textHere h.sound v1 v2 hc0).2.2, (textHere h.sound u1 u2 hc).2.2, e1]
          have hw1 := getEntry_of_mem (h.sound.once _ g1) hw
          have hin := mem_of_getEntry (m.held _ _ hw1)
          refine ⟨g.2, hx, by rw [hxid, hgid], (w.1, w.2), by rw [hxk]; exact hin, rfl, c, ?_, rfl⟩
          refine (m'.kids w.1 w.2 hin c).2 (.inr ⟨m.kept _ _ hw1 c hc hno', fun e he hk => ?_⟩)
          rw [heWork e he]
          exact hno' e he hk
        · obtain ⟨o1, o2⟩ := otherTg g'.2 k1 (h.tg i' hi' g' hg').1 hgg (h.not_loose hi' hg' hl)
          refine ⟨g'.2, (inLibrary_congr hroot' hinv' _).2 ⟨i', hi', g', hg', rfl⟩, by rw [o1]; exact hzid, ?_⟩
          rw [hasText_congr o1 o2]
          exact ht
  · intro n gid
    rw [onShelf_congr hroot' hinv']
    constructor
    · exact .inl
    · rintro (h1 | ⟨_, h1, h2⟩)
      · exact h1
      · exact absurd ⟨i.1, i, hi, rfl, List.mem_map.2 ⟨g, hg, by rw [h1, hid]⟩⟩ h2
  · intro x hx
    refine ⟨(inLibrary_congr hroot' hinv' x).2 hx, ?_⟩
    obtain ⟨i', hi', g', hg', rfl⟩ := hx
    obtain ⟨k1, k2, k3⟩ := h.tgHere hi' hg'
    by_cases hgg : g'.2 = g.2
    · rw [hgg, m'.big _ (by rw [(m.same _ g1).1, g2]; simp) (by rw [(m.same _ g1).1, g2]; simp)]
      refine ⟨fun w hw => mem_of_getEntry (m.held _ _ (getEntry_of_mem (h.sound.once _ g1) hw)), fun w hw => ?_⟩
      rcases m.fresh _ _ (getEntry_of_mem (m.sound.once _ hnext1) hw) with h3 | ⟨h3, h4⟩
      · exact .inl (mem_of_getEntry h3)
      · by_cases h5 : w.1 ∈ (s.heap g0).children.map (·.1)
        · exact .inr ⟨h3, by rw [g3, hid], h5⟩
        · have h6 := m.lookup _ h5
          rw [getEntry_of_mem (m.sound.once _ hnext1) hw] at h6
          exact .inl (mem_of_getEntry h6.symm)
    · obtain ⟨o1, o2⟩ := otherTg g'.2 k1 (h.tg i' hi' g' hg').1 hgg (h.not_loose hi' hg' hl)
      rw [o1]
      exact ⟨fun _ h => h, fun _ h => .inl h⟩
  · have hg0k : s'.heap g0 = s.heap g0 := still g0 hl.here hne.symm (notWork _ (by rw [hl.fits.cls]; simp)) (notText _ (by rw [hl.fits.cls]; simp))
    refine ⟨by rw [hg0k], ?_⟩
    rw [inLibrary_congr hroot' hinv']
    constructor
    · rintro ⟨i', hi', g', hg', e⟩
      exact absurd e (h.not_loose hi' hg' hl)
    · intro hno
      exact absurd ⟨g.2, ⟨i, hi, g, hg, rfl⟩, by rw [g3, hid]⟩ hno

theorem try_chosen (d : ObjDispatcher) {default : Str} {fs : List (Str × ObjFilter)} (hm : d.methods = (default, fun _ _ _ => .ok true) :: fs)
    {g : Nat} {path name : Str} (hc : ChosenObj fs default s g path name) : d.dispatch s g path = s.attachTo d.root g name := by
  have skip : ∀ l r : List (Str × ObjFilter), (∀ x ∈ l, x.2 s g path = .ok false) → s.tryFilters d.root g path (l ++ r) = s.tryFilters d.root g path r := by
    intro l r hl
    induction l with
    | nil => rfl
    | cons x l ih =>
      obtain ⟨n, f⟩ := x
      have := hl (n, f) (by simp)
      simp only at this
      rw [List.cons_append, MStore.tryFilters, this]
      exact ih fun y hy => hl y (by simp [hy])
  rw [ObjDispatcher.dispatch, hm, List.reverse_cons]
  rcases hc with ⟨pre, post, f, rfl, h1, h2⟩ | ⟨rfl, h⟩
  · rw [List.reverse_append, List.reverse_cons, List.append_assoc, List.append_assoc, skip _ _ (by simpa using h2), List.singleton_append,
      MStore.tryFilters, h1]
  · rw [skip _ _ (by simpa using h), MStore.tryFilters]

theorem received_new (d : ObjDispatcher) {default : Str} {fs : List (Str × ObjFilter)} (hm : d.methods = (default, fun _ _ _ => .ok true) :: fs)
    (h : LibraryObj lv s d.root) {g0 : Nat} (hl : Loose lv s g0)
    (hno : ∀ i ∈ (s.heap d.root).children, ∀ g ∈ (s.heap i.2).children, g.1 ≠ (s.heap g0).id) (path : Str) {i : Str × Nat}
    (hi : i ∈ (s.heap d.root).children) (hc : ChosenObj fs default s g0 path i.1) :
    ∃ s', d.receive s g0 path = .ok s' ∧ Received lv s s' d.root g0 i.1 := by
  obtain ⟨hlib1, n1, c1, p1, p2, p3, hgr⟩ := attach_step h hi hl hno
  have hdis : d.dispatch s g0 path = .ok (s.setParent g0 i.2) := by
    rw [try_chosen d hm hc, MStore.attachTo, getEntry_of_mem (h.sound.once _ h.here) hi]
  generalize s.setParent g0 i.2 = s1 at *
  obtain ⟨i1, i2, i3⟩ := h.invHere hi
  have hroot : s1.heap d.root = s.heap d.root := by
    refine p3 _ ?_ ?_
    · intro e; have := h.cls; rw [e, hl.fits.cls] at this; cases this
    · intro e; have := h.cls; rw [e, i2] at this; cases this
  have hwork : ∀ a, (s.heap a).cls = .work → s1.heap a = s.heap a := by
    intro a ha
    refine p3 a ?_ ?_
    · intro e; rw [e, hl.fits.cls] at ha; cases ha
    · intro e; rw [e, i2] at ha; cases ha
  have htext : ∀ a, (s.heap a).cls = .text → s1.heap a = s.heap a := by
    intro a ha
    refine p3 a ?_ ?_
    · intro e; rw [e, hl.fits.cls] at ha; cases ha
    · intro e; rw [e, i2] at ha; cases ha
  have same1 : ∀ a, SameObj (s1.heap a) (s.heap a) := by
    intro a
    by_cases h1 : a = g0
    · subst h1; rw [p1]; exact sameObj_refl _
    · by_cases h2 : a = i.2
      · subst h2; rw [p2]; exact sameObj_refl _
      · rw [p3 a h1 h2]; exact sameObj_refl _
  have kids0 : (s1.heap g0).children = (s.heap g0).children := by rw [p1]
  have hready : ∀ e ∈ (s.heap g0).children, Ready lv s1 d.root g0 e := by
    intro e he
    obtain ⟨w1, w2, w3⟩ := workHere h.sound hl.here hl.fits he
    constructor
    · rw [n1]; exact w1
    · rw [hwork _ w2]; exact w2
    · rw [hwork _ w2]; exact w3
    · intro c hc
      rw [hwork _ w2] at hc
      rw [htext _ (textHere h.sound w1 w2 hc).2.1]
      exact hl.fits.text e he c hc
    · exact ⟨e.2, by rw [kids0]; exact he, .inl rfl⟩
  have hi1 : i ∈ (s1.heap d.root).children := by rw [hroot]; exact hi
  have hg1 : ((s.heap g0).id, g0) ∈ (s1.heap i.2).children := by rw [p2]; simp
  obtain ⟨s', hok', m'⟩ := take_works d (s := s1) (i := i) (g := ((s.heap g0).id, g0)) (s.heap g0).children hlib1 hi1 hg1
    (h.sound.once _ hl.here) hready
  have big : ∀ a, (s.heap a).cls ≠ .text → (s.heap a).cls ≠ .work → s'.heap a = s1.heap a := by
    intro a h1 h2
    exact m'.big a (by rw [(same1 a).1]; exact h1) (by rw [(same1 a).1]; exact h2)
  have hroot' : s'.heap d.root = s.heap d.root := by rw [big _ (by rw [h.cls]; simp) (by rw [h.cls]; simp), hroot]
  have hinv' : ∀ i' ∈ (s.heap d.root).children, s'.heap i'.2 = s1.heap i'.2 := by
    intro i' hi'
    exact big _ (by rw [(h.invHere hi').2.1]; simp) (by rw [(h.invHere hi').2.1]; simp)
  have otherTg : ∀ z < s.next, FitsObj lv s z → z ≠ g0 → s'.heap z = s.heap z ∧ ∀ w ∈ (s.heap z).children, s'.heap w.2 = s.heap w.2 := by
    intro z hz hfz h1
    refine ⟨?_, fun w hw => ?_⟩
    · rw [big _ (by rw [hfz.cls]; simp) (by rw [hfz.cls]; simp), p3 _ h1]
      intro e; have := hfz.cls; rw [e, i2] at this; cases this
    · obtain ⟨w1, w2, w3⟩ := workHere h.sound hz hfz hw
      rw [m'.frame, hwork _ w2]
      · intro e he hin
        obtain ⟨v1, v2, v3⟩ := workHere h.sound hl.here hl.fits he
        unfold heldBy at hin
        rw [hwork _ v2] at hin
        obtain ⟨c, hc, e1⟩ := List.mem_map.1 hin
        have := (textHere h.sound v1 v2 hc).2.1
        rw [e1, w2] at this; cases this
      · intro e he hin
        simp only at hin
        rw [kids0] at hin
        exact works_apart hfz hl.fits h1 hw hin rfl
  have members : ∀ x, InLibrary s' d.root x ↔ InLibrary s d.root x ∨ x = g0 := by
    intro x
    unfold InLibrary
    rw [hroot']
    constructor
    · rintro ⟨i', hi', g', hg', rfl⟩
      rw [hinv' i' hi'] at hg'
      by_cases e : i'.2 = i.2
      · rw [e, p2] at hg'
        rcases List.mem_append.1 hg' with h1 | h1
        · exact .inl ⟨i, hi, g', h1, rfl⟩
        · exact .inr (by rw [List.mem_singleton.1 h1])
      · rw [p3 _ (by intro e; have := (h.invHere hi').2.1; rw [e, hl.fits.cls] at this; cases this) e] at hg'
        exact .inl ⟨i', hi', g', hg', rfl⟩
    · rintro (⟨i', hi', g', hg', rfl⟩ | rfl)
      · refine ⟨i', hi', g', ?_, rfl⟩
        rw [hinv' i' hi']
        by_cases e : i'.2 = i.2
        · rw [e, p2]; rw [e] at hg'; exact List.mem_append_left _ hg'
        · rw [p3 _ (by intro e; have := (h.invHere hi').2.1; rw [e, hl.fits.cls] at this; cases this) e]; exact hg'
      · exact ⟨i, hi, ((s.heap x).id, x), by rw [hinv' i hi]; exact hg1, rfl⟩
  have hg0' : (s'.heap g0).children = (s.heap g0).children := by
    rw [big _ (by rw [hl.fits.cls]; simp) (by rw [hl.fits.cls]; simp), kids0]
  have own : ∀ wid t, HasTextObj s' g0 wid t ↔ HasTextObj s g0 wid t := by
    intro wid t
    unfold HasTextObj
    rw [hg0']
    refine exists_congr fun w => and_congr_right fun hw => and_congr_right fun _ => exists_congr fun c => and_congr_left fun _ => ?_
    obtain ⟨w1, w2, w3⟩ := workHere h.sound hl.here hl.fits hw
    rw [m'.kids w.1 w.2 (by rw [kids0]; exact hw) c]
    constructor
    · rintro (⟨e, he, hk, hc⟩ | ⟨hc, _⟩)
      · have a1 := getEntry_of_mem (h.sound.once _ hl.here) hw
        have a2 := getEntry_of_mem (h.sound.once _ hl.here) he
        rw [hk, a1] at a2
        rw [← Option.some.inj a2, hwork _ w2] at hc; exact hc
      · rw [hwork _ w2] at hc; exact hc
    · intro hc
      exact .inl ⟨w, hw, rfl, by rw [hwork _ w2]; exact hc⟩
  have hid' : ∀ a, (s'.heap a).id = (s.heap a).id := fun a => (sameObj_trans (m'.same a) (same1 a)).2.1
  refine ⟨s', ?_, m'.lib, ?_, ?_, ?_, hroot', ?_, ?_, ?_, ?_, ?_⟩
  · have hcon : s.contains d.root (s.heap g0).id = false := by
      rw [Bool.eq_false_iff]
      intro e
      obtain ⟨i', hi', g', hg', e'⟩ := (h.contains_tg hl.fits.level).1 e
      exact hno i' hi' g' hg' e'
    rw [ObjDispatcher.receive, hcon]
    simp only [Bool.false_eq_true, if_false]
    rw [hdis]
    simp only
    rw [kids0, (same1 g0).2.1]
    exact hok'
  · rw [m'.next, n1]; exact Nat.le_refl _
  · intro a _
    exact sameObj_trans (m'.same a) (same1 a)
  · intro a _
    unfold MStore.graphOf
    rw [(sameObj_trans (m'.same a) (same1 a)).2.2.2.2.2.2, m'.graphs, hgr]
  · intro g' hl' hg' a ha
    obtain ⟨o1, o2⟩ := otherTg g' hl'.here hl'.fits hg'
    rcases mem_treeOf.1 ha with rfl | ⟨w, hw, rfl⟩ | ⟨w, hw, t, ht, rfl⟩
    · exact o1
    · exact o2 w hw
    · obtain ⟨w1, w2, w3⟩ := workHere h.sound hl'.here hl'.fits hw
      obtain ⟨t1, t2, t3⟩ := textHere h.sound w1 w2 ht
      rw [m'.frame, htext _ t2]
      · intro e he
        obtain ⟨v1, v2, v3⟩ := workHere h.sound hl.here hl.fits he
        unfold heldBy
        rw [hwork _ v2]
        exact texts_apart (works_apart hl'.fits hl.fits hg' hw he) (fun t ht => (hl'.fits.text w hw t ht).2) (fun t ht => (hl.fits.text e he t ht).2) ht
      · intro e he hin
        simp only at hin
        rw [kids0] at hin
        have := (workHere h.sound hl.here hl.fits hin).2.1
        simp only at this
        rw [t2] at this; cases this
  · intro gid wid t
    constructor
    · rintro ⟨z, hz, hzid, ht⟩
      rw [hid'] at hzid
      rcases (members z).1 hz with hz | rfl
      · obtain ⟨i', hi', g', hg', rfl⟩ := hz
        obtain ⟨k1, k2, k3⟩ := h.tgHere hi' hg'
        obtain ⟨o1, o2⟩ := otherTg g'.2 k1 (h.tg i' hi' g' hg').1 (h.not_loose hi' hg' hl)
        rw [hasText_congr o1 o2] at ht
        refine .inr ⟨⟨g'.2, ⟨i', hi', g', hg', rfl⟩, hzid, ht⟩, ?_⟩
        rintro ⟨h1, _⟩
        exact hno i' hi' g' hg' (by rw [← k3, hzid, h1])
      · exact .inl ⟨hzid, (own wid t).1 ht⟩
    · rintro (⟨h1, h2⟩ | ⟨⟨z, hz, hzid, ht⟩, _⟩)
      · exact ⟨g0, (members g0).2 (.inr rfl), by rw [hid']; exact h1, (own wid t).2 h2⟩
      · refine ⟨z, (members z).2 (.inl hz), by rw [hid']; exact hzid, ?_⟩
        obtain ⟨i', hi', g', hg', rfl⟩ := hz
        obtain ⟨k1, k2, k3⟩ := h.tgHere hi' hg'
        obtain ⟨o1, o2⟩ := otherTg g'.2 k1 (h.tg i' hi' g' hg').1 (h.not_loose hi' hg' hl)
        rw [hasText_congr o1 o2]
        exact ht
  · intro n gid
    have notG : ∀ i' ∈ (s.heap d.root).children, i'.2 ≠ g0 := by
      intro i' hi' e; have := (h.invHere hi').2.1; rw [e, hl.fits.cls] at this; cases this
    unfold OnShelf
    rw [hroot']
    constructor
    · rintro ⟨i', hi', rfl, hk⟩
      rw [hinv' i' hi'] at hk
      by_cases e : i'.2 = i.2
      · have hii : i' = i := by
          have a1 := h.sound.keyed _ h.here i' hi'
          have a2 := h.sound.keyed _ h.here i hi
          rw [e, a2] at a1
          exact Prod.ext a1.symm e
        subst hii
        rw [p2] at hk
        simp only [List.map_append, List.map_cons, List.map_nil, List.mem_append, List.mem_singleton] at hk
        rcases hk with hk | hk
        · exact .inl ⟨i', hi', rfl, hk⟩
        · refine .inr ⟨rfl, hk, ?_⟩
          rintro ⟨m, i2, hi2, _, hk2⟩
          obtain ⟨g', hg', e'⟩ := List.mem_map.1 hk2
          exact hno i2 hi2 g' hg' (by rw [e', hk])
      · rw [p3 _ (notG i' hi') e] at hk
        exact .inl ⟨i', hi', rfl, hk⟩
    · rintro (⟨i', hi', rfl, hk⟩ | ⟨rfl, rfl, _⟩)
      · refine ⟨i', hi', rfl, ?_⟩
        rw [hinv' i' hi']
        by_cases e : i'.2 = i.2
        · rw [e, p2]; rw [e] at hk
          simp only [List.map_append, List.mem_append]
          exact .inl hk
        · rw [p3 _ (notG i' hi') e]; exact hk
      · refine ⟨i, hi, rfl, ?_⟩
        rw [hinv' i hi]
        exact List.mem_map.2 ⟨_, hg1, rfl⟩
  · intro x hx
    refine ⟨(members x).2 (.inl hx), ?_⟩
    obtain ⟨i', hi', g', hg', rfl⟩ := hx
    obtain ⟨k1, k2, k3⟩ := h.tgHere hi' hg'
    rw [(otherTg g'.2 k1 (h.tg i' hi' g' hg').1 (h.not_loose hi' hg' hl)).1]
    exact ⟨fun _ h => h, fun _ h => .inl h⟩
  · refine ⟨hg0', fun _ => ?_, fun _ => (members g0).2 (.inr rfl)⟩
    rintro ⟨_, ⟨i', hi', g', hg', rfl⟩, e⟩
    exact hno i' hi' g' hg' (by rw [← (h.tgHere hi' hg').2.2, e])

theorem received (d : ObjDispatcher) {default : Str} {fs : List (Str × ObjFilter)} (hm : d.methods = (default, fun _ _ _ => .ok true) :: fs)
    (h : LibraryObj lv s d.root) {g0 : Nat} (hl : Loose lv s g0) (path : Str) {name : Str} (hn : name ∈ (s.heap d.root).children.map (·.1))
    (hc : ChosenObj fs default s g0 path name) : ∃ s', d.receive s g0 path = .ok s' ∧ Received lv s s' d.root g0 name := by
  obtain ⟨i, hi, rfl⟩ := List.mem_map.1 hn
  by_cases hk : ∃ i ∈ (s.heap d.root).children, ∃ g ∈ (s.heap i.2).children, g.1 = (s.heap g0).id
  · obtain ⟨i', hi', g, hg, e⟩ := hk
    exact received_known d h hi' hg hl e.symm path i.1
  · exact received_new d hm h hl (fun i' hi' g' hg' e => hk ⟨i', hi', g', hg', e⟩) path hi hc

end Verif.Lemmas
