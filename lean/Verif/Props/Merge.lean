import Verif.Lemmas.Merge
import Verif.Props.Inventory
/-!
C96: merging works and textgroups as objects. Theorems are about the calls modelled in `Verif/Model/Merge.lean`; what an
owner sees of a collection is defined in `Verif/Spec/Merge.lean`.
-/
namespace Verif.Props
open Verif.Py Verif.Model Verif.Spec Verif.Lemmas

/-- Two textgroups that can be merged: they exist, have the same identifier and share no work. -/
structure Mergeable (s : MStore) (tg other : Nat) : Prop where
  sound : Sound s
  one : OneLanguage s
  selfExists : tg < s.next
  otherExists : other < s.next
  selfClass : (s.heap tg).cls = .textgroup
  otherClass : (s.heap other).cls = .textgroup
  sameId : (s.heap tg).id = (s.heap other).id
  apart : ∀ w ∈ heldBy s other, w ∉ heldBy s tg

theorem parent_eq : capParent = .uri "http://purl.org/capitains/ns/1.0#parent".toList := by decide +kernel

theorem merge_works {s : MStore} {self other : Nat} (h : Mergeable s self other) {order : Order} (ho : Rearranges order) :
    ∃ s', s.tgUpdate self other = .ok s' ∧ Merged s s' self (s.heap other).children ∧
      tgLoop (tgView order s self).works (tgView order s other).works = .ok (tgView order s' self).works := by
  have he : ∀ e ∈ (s.heap other).children, e.2 < s.next ∧ (s.heap e.2).cls = .work ∧ (s.heap e.2).id = e.1 ∧ e.2 ∉ heldBy s self := by
    intro e he
    refine ⟨h.sound.exist _ h.otherExists e he, ?_, h.sound.keyed _ h.otherExists e he, h.apart _ (List.mem_map_of_mem (f := (·.2)) he)⟩
    have := h.sound.nested _ h.otherExists e he
    rw [h.otherClass] at this
    exact holds_tg.1 this
  obtain ⟨s', h1, h2, h3⟩ := merge_loop ho _ h.sound h.one h.selfExists h.selfClass (h.sound.once _ h.otherExists) he
  refine ⟨s', ?_, h2, h3⟩
  unfold MStore.tgUpdate
  rw [if_neg (by simp [h.otherClass]), if_neg (by rw [h.sameId]; simp), h1]

theorem mem_getEntry {s : MStore} (hs : Sound s) {a : Nat} (ha : a < s.next) {k : Str} {y : Nat} :
    getEntry (s.heap a).children k = some y ↔ (k, y) ∈ (s.heap a).children := by
  constructor
  · exact mem_of_getEntry
  · intro h
    exact getEntry_of_mem (hs.once a ha) h

theorem dictTg_view {order : Order} {s : MStore} (hs : Sound s) {a : Nat} (ha : a < s.next) : DictTg (tgView order s a) := by
  constructor
  · have : (tgView order s a).works.map WorkV.id = (s.heap a).children.map (·.1) := by
      simp only [tgView, List.map_map]
      refine List.map_congr_left fun e he => ?_
      exact hs.keyed a ha e he
    rw [this]
    exact hs.once a ha
  · intro w hw
    obtain ⟨e, he, rfl⟩ := List.mem_map.1 hw
    have hn := hs.exist a ha e he
    have : (workView order s e.2).texts.map TextV.id = (s.heap e.2).children.map (·.1) := by
      simp only [workView, List.map_map]
      refine List.map_congr_left fun c hc => ?_
      exact hs.keyed _ hn c hc
    unfold DictWork
    rw [this]
    exact hs.once _ hn

theorem merged_lang {s s' : MStore} {self : Nat} {l : List (Str × Nat)} (m : Merged s s' self l) (hs : Sound s) {a : Nat} (ha : a < s.next) :
    besides (s'.graphOf a) = besides (s.graphOf a) := by
  unfold MStore.graphOf
  rw [(m.same a ha).2.2.2.2.2.2, m.graphs _ (hs.graphs a ha)]

theorem merged_text {order : Order} (ho : Rearranges order) {s s' : MStore} {self : Nat} {l : List (Str × Nat)} (m : Merged s s' self l)
    (hs : Sound s) (one : OneLanguage s) {a : Nat} (ha : a < s.next) : textView order s' a = textView order s a := by
  obtain ⟨_, h1, h2, h3, h4, h5, _⟩ := m.same a ha
  unfold textView
  rw [lang_view ho one (hs.graphs a ha) h1 (merged_lang m hs ha), h1, h2, h3, h4, h5]

/-- C96. Merging a textgroup into another one with the same identifier succeeds. In the merged textgroup each work has the
texts that the other textgroup had in it, and those of its own that the other had not; the works are those of either. The
other textgroup is seen as before. -/
theorem C96_textgroup {s : MStore} {self other : Nat} (h : Mergeable s self other) {order : Order} (ho : Rearranges order) :
    ∃ s', s.tgUpdate self other = .ok s' ∧ Sound s' ∧ OneLanguage s' ∧
      (tgView order s' self).id = (tgView order s self).id ∧
      (∀ wid, wid ∈ (tgView order s' self).works.map WorkV.id ↔
        wid ∈ (tgView order s self).works.map WorkV.id ∨ wid ∈ (tgView order s other).works.map WorkV.id) ∧
      (∀ wid t, HasText (tgView order s' self) wid t ↔ HasText (tgView order s other) wid t ∨
        (HasText (tgView order s self) wid t ∧ ¬ ∃ t', HasText (tgView order s other) wid t' ∧ t'.id = t.id)) ∧
      (other ≠ self → tgView order s' other = tgView order s other) := by
  obtain ⟨s', h1, m, h2⟩ := merge_works h ho
  have hid : (tgView order s' self).id = (tgView order s self).id := (m.same self h.selfExists).2.1
  obtain ⟨g, hg, hgid, hgd, hw, ht⟩ := C41_textgroup (tgView order s self) (tgView order s other) (dictTg_view h.sound h.selfExists)
    (dictTg_view h.sound h.otherExists) h.sameId
  have hgv : g = tgView order s' self := by
    rw [tgUpdate, if_neg (by simp [tgView, h.sameId]), h2] at hg
    simp only [Except.ok.injEq] at hg
    rw [← hg]
    unfold tgView at hid ⊢
    simp only [TgV.mk.injEq, and_true] at hid ⊢
    exact hid.symm
  subst hgv
  refine ⟨s', h1, m.sound, m.one, hid, hw, ht, fun hne => ?_⟩
  have ho' : s'.heap other = s.heap other := by
    refine m.frame other h.otherExists hne fun e _ hk => ?_
    have := h.sound.nested _ h.selfExists _ (mem_of_getEntry hk)
    rw [h.selfClass, h.otherClass] at this
    exact this
  unfold tgView
  rw [ho']
  simp only [TgV.mk.injEq, true_and]
  refine List.map_congr_left fun e he => ?_
  have hn := h.sound.exist _ h.otherExists e he
  have hcl : (s.heap e.2).cls = .work := by
    have := h.sound.nested _ h.otherExists e he
    rw [h.otherClass] at this
    exact holds_tg.1 this
  have hw : s'.heap e.2 = s.heap e.2 := by
    refine m.frame e.2 hn ?_ fun x _ hk => ?_
    · intro h'; rw [h', h.selfClass] at hcl; cases hcl
    · exact h.apart _ (List.mem_map_of_mem (f := (·.2)) he) (List.mem_map_of_mem (f := (·.2)) (mem_of_getEntry hk))
  unfold workView
  rw [lang_view ho h.one (h.sound.graphs _ hn) (by rw [hw]) (merged_lang m h.sound hn), hw]
  simp only [WorkV.mk.injEq, true_and]
  refine List.map_congr_left fun c hc => ?_
  exact merged_text ho m h.sound h.one (h.sound.exist _ hn c hc)

/-- C96. Merging values as in `Model/Inventory`, where `deepcopy` changes nothing, gives what an owner sees after merging
objects. -/
theorem C96_values {s : MStore} {self other : Nat} (h : Mergeable s self other) {order : Order} (ho : Rearranges order) :
    ∃ s', s.tgUpdate self other = .ok s' ∧ tgUpdate (tgView order s self) (.tg (tgView order s other)) = .ok (tgView order s' self) := by
  obtain ⟨s', h1, m, h2⟩ := merge_works h ho
  refine ⟨s', h1, ?_⟩
  rw [tgUpdate, if_neg (by simp [tgView, h.sameId]), h2]
  simp only [Except.ok.injEq]
  unfold tgView
  simp only [TgV.mk.injEq, and_true]
  exact (m.same self h.selfExists).2.1.symm

/-- C96. Every object that existed, other than the textgroup merged into and its works, is as it was, attribute by
attribute. The textgroup merged into keeps everything but its children, its works keep their identifiers and graphs, and
it still has them. Graphs that existed gain nothing but the statement that a work present in both has the textgroup as its
parent. -/
theorem C96_rest_untouched {s s' : MStore} {self other : Nat} (h : Mergeable s self other) (hok : s.tgUpdate self other = .ok s') :
    (∀ a < s.next, a ≠ self → a ∉ heldBy s self → s'.heap a = s.heap a) ∧
    { s'.heap self with children := [] } = { s.heap self with children := [] } ∧
    (∀ e ∈ (s.heap self).children, e ∈ (s'.heap self).children ∧ (s'.heap e.2).id = (s.heap e.2).id ∧ (s'.heap e.2).graph = (s.heap e.2).graph) ∧
    (∀ g < s.graphCount, ∀ t, t ∈ s'.graphs g ↔ t ∈ s.graphs g ∨
      ∃ e ∈ (s.heap self).children, e.1 ∈ (s.heap other).children.map (·.1) ∧ (s.heap e.2).graph = g ∧
        t = ⟨.uri (s.heap e.2).id, .uri "http://purl.org/capitains/ns/1.0#parent".toList, .uri (s.heap self).id⟩) := by
  obtain ⟨s1, h1, m, _⟩ := merge_works h (order := id) (fun g => List.Perm.refl _)
  rw [hok] at h1
  cases h1
  refine ⟨?_, m.selfRest, ?_, ?_⟩
  · intro a ha hne hn
    refine m.frame a ha hne fun e _ hk => hn (List.mem_map_of_mem (f := (·.2)) (mem_of_getEntry hk))
  · intro e he
    have hn := h.sound.exist _ h.selfExists e he
    refine ⟨mem_of_getEntry (m.held e.1 e.2 ((mem_getEntry h.sound h.selfExists).2 he)), (m.same _ hn).2.1, (m.same _ hn).2.2.2.2.2.2⟩
  · intro g hg t
    rw [m.triples g hg, parent_eq]
    refine or_congr_right ⟨?_, ?_⟩
    · rintro ⟨e, he, x, hx, h2, rfl⟩
      exact ⟨(e.1, x), mem_of_getEntry hx, List.mem_map_of_mem (f := (·.1)) he, h2, rfl⟩
    · rintro ⟨e, he, hk, h2, rfl⟩
      obtain ⟨e', he', hk'⟩ := List.mem_map.1 hk
      exact ⟨e', he', e.2, by rw [hk']; exact (mem_getEntry h.sound h.selfExists).2 he, h2, rfl⟩

theorem mem_tree {s : MStore} {a b : Nat} : b ∈ treeOf s a ↔
    b = a ∨ (∃ e ∈ (s.heap a).children, b = e.2) ∨ ∃ e ∈ (s.heap a).children, ∃ c ∈ (s.heap e.2).children, b = c.2 := by
  simp only [treeOf, heldBy, List.mem_append, List.mem_cons, List.mem_map, List.mem_flatMap, or_assoc]
  constructor
  · rintro (h | ⟨e, he, rfl⟩ | ⟨_, ⟨e, he, rfl⟩, c, hc, rfl⟩)
    · exact .inl h
    · exact .inr (.inl ⟨e, he, rfl⟩)
    · exact .inr (.inr ⟨e, he, c, hc, rfl⟩)
  · rintro (h | ⟨e, he, rfl⟩ | ⟨e, he, c, hc, rfl⟩)
    · exact .inl h
    · exact .inr (.inl ⟨e, he, rfl⟩)
    · exact .inr (.inr ⟨_, ⟨e, he, rfl⟩, c, hc, rfl⟩)

/-- C96. Works and texts of the merged textgroup are those it had, or new objects with new graphs. So two textgroups that had
nothing in common have nothing in common after one was merged into the other. -/
theorem C96_nothing_shared {s s' : MStore} {self other : Nat} (h : Mergeable s self other) (hok : s.tgUpdate self other = .ok s') :
    (∀ a ∈ treeOf s' self, a ∈ treeOf s self ∨ (s.next ≤ a ∧ s.graphCount ≤ (s'.heap a).graph)) ∧
    ((∀ a ∈ treeOf s self, a ∉ treeOf s other) → ∀ a ∈ treeOf s' self, a ∉ treeOf s' other) := by
  obtain ⟨s1, h1, m, _⟩ := merge_works h (order := id) (fun g => List.Perm.refl _)
  rw [hok] at h1
  cases h1
  have hself' : self < s'.next := Nat.lt_of_lt_of_le h.selfExists m.next
  have first : ∀ a ∈ treeOf s' self, a ∈ treeOf s self ∨ (s.next ≤ a ∧ s.graphCount ≤ (s'.heap a).graph) := by
    intro a ha
    rcases mem_tree.1 ha with h2 | ⟨e, he, rfl⟩ | ⟨e, he, c, hc, rfl⟩
    · exact .inl (mem_tree.2 (.inl h2))
    · rcases m.fresh _ _ ((mem_getEntry m.sound hself').2 he) with h2 | h2
      · exact .inl (mem_tree.2 (.inr (.inl ⟨_, mem_of_getEntry h2, rfl⟩)))
      · exact .inr h2
    · have hk := (mem_getEntry m.sound hself').2 he
      rcases m.freshTexts _ _ hk c hc with ⟨h3, h4⟩ | h2
      · rcases m.fresh _ _ hk with h2 | ⟨h2, _⟩
        · exact .inl (mem_tree.2 (.inr (.inr ⟨_, mem_of_getEntry h2, c, h4, rfl⟩)))
        · omega
      · exact .inr h2
  refine ⟨first, fun hd a ha hb => ?_⟩
  have hne : other ≠ self := by
    intro h'
    exact hd self (mem_tree.2 (.inl rfl)) (by rw [h']; exact mem_tree.2 (.inl rfl))
  obtain ⟨u1, _, _, _⟩ := C96_rest_untouched h hok
  have frame : ∀ b ∈ treeOf s other, s'.heap b = s.heap b := by
    intro b hb
    have hbn : b ∉ treeOf s self := fun hb' => hd b hb' hb
    have hbl : b < s.next := by
      rcases mem_tree.1 hb with rfl | ⟨e, he, rfl⟩ | ⟨e, he, c, hc, rfl⟩
      · exact h.otherExists
      · exact h.sound.exist _ h.otherExists e he
      · exact h.sound.exist _ (h.sound.exist _ h.otherExists e he) c hc
    refine u1 b hbl ?_ ?_
    · intro h'; exact hbn (mem_tree.2 (.inl h'))
    · intro h'
      obtain ⟨e, he, rfl⟩ := List.mem_map.1 h'
      exact hbn (mem_tree.2 (.inr (.inl ⟨e, he, rfl⟩)))
  have sub : ∀ b ∈ treeOf s' other, b ∈ treeOf s other := by
    intro b hb
    have h0 := frame other (mem_tree.2 (.inl rfl))
    rcases mem_tree.1 hb with h2 | ⟨e, he, h2⟩ | ⟨e, he, c, hc, h2⟩
    · exact mem_tree.2 (.inl h2)
    · rw [h0] at he
      exact mem_tree.2 (.inr (.inl ⟨e, he, h2⟩))
    · rw [h0] at he
      have hw := frame e.2 (mem_tree.2 (.inr (.inl ⟨e, he, rfl⟩)))
      rw [hw] at hc
      exact mem_tree.2 (.inr (.inr ⟨e, he, c, hc, h2⟩))
  have hbo := sub a hb
  rcases first a ha with h2 | ⟨h2, _⟩
  · exact hd a h2 hbo
  · have : a < s.next := by
      rcases mem_tree.1 hbo with rfl | ⟨e, he, rfl⟩ | ⟨e, he, c, hc, rfl⟩
      · exact h.otherExists
      · exact h.sound.exist _ h.otherExists e he
      · exact h.sound.exist _ (h.sound.exist _ h.otherExists e he) c hc
    omega

/-- C96. What comes in says what it said. Each work of the other textgroup has a counterpart in the merged one, whose parent
is the merged textgroup; if the work was not there before, the counterpart has the same statements under every predicate
but the parent. Each text of it has a counterpart in that work, a new object with the same statements, and its parent is
the counterpart of the work if the parent of the text was the work. -/
theorem C96_copies_say {s s' : MStore} {self other : Nat} (h : Mergeable s self other) (hok : s.tgUpdate self other = .ok s')
    (e : Str × Nat) (he : e ∈ (s.heap other).children) :
    ∃ y, (e.1, y) ∈ (s'.heap self).children ∧ (s'.heap y).parent = some self ∧
      (e.1 ∉ (s.heap self).children.map (·.1) →
        ∀ p o, p ≠ .uri "http://purl.org/capitains/ns/1.0#parent".toList → (says s' y p o ↔ says s e.2 p o)) ∧
      ∀ c ∈ (s.heap e.2).children, ∃ t, (c.1, t) ∈ (s'.heap y).children ∧ s.next ≤ t ∧
        ((s.heap c.2).parent = some e.2 → (s'.heap t).parent = some y) ∧
        ∀ p o, p ≠ .uri "http://purl.org/capitains/ns/1.0#parent".toList → (says s' t p o ↔ says s c.2 p o) := by
  obtain ⟨s1, h1, m, _⟩ := merge_works h (order := id) (fun g => List.Perm.refl _)
  rw [hok] at h1
  cases h1
  have hself' : self < s'.next := Nat.lt_of_lt_of_le h.selfExists m.next
  have key : ∀ a b, (s'.heap a).id = (s.heap b).id → besides (s'.graphOf a) = besides (s.graphOf b) →
      ∀ p o, p ≠ .uri "http://purl.org/capitains/ns/1.0#parent".toList → (says s' a p o ↔ says s b p o) := by
    intro a b hid hb p o hp
    unfold says MStore.node
    rw [hid]
    exact mem_of_besides hb (by rw [parent_eq]; exact hp)
  have hn := h.sound.exist _ h.otherExists e he
  obtain ⟨y, hy, hyp, hyb, hyc⟩ := m.came e he
  have hym := mem_of_getEntry hy
  have hyn := m.sound.exist _ hself' _ hym
  refine ⟨y, hym, hyp, ?_, ?_⟩
  · intro hnew
    refine key y e.2 ?_ (hyb ?_)
    · rw [h.sound.keyed _ h.otherExists e he]
      exact m.sound.keyed _ hself' _ hym
    · cases hx : getEntry (s.heap self).children e.1 with
      | none => rfl
      | some x => exact absurd (List.mem_map_of_mem (f := (·.1)) (mem_of_getEntry hx)) hnew
  · intro c hc
    obtain ⟨t, ht, ht2, ht3, ht4⟩ := hyc c hc
    refine ⟨t, mem_of_getEntry ht, ht2, ht3, key t c.2 ?_ ht4⟩
    rw [h.sound.keyed _ hn c hc]
    exact m.sound.keyed _ hyn _ (mem_of_getEntry ht)

/-- C96. What existed says what it said, under every predicate but the parent. -/
theorem C96_old_say {s s' : MStore} {self other : Nat} (h : Mergeable s self other) (hok : s.tgUpdate self other = .ok s')
    (a : Nat) (ha : a < s.next) (p o : Term) (hp : p ≠ .uri "http://purl.org/capitains/ns/1.0#parent".toList) : says s' a p o ↔ says s a p o := by
  obtain ⟨s1, h1, m, _⟩ := merge_works h (order := id) (fun g => List.Perm.refl _)
  rw [hok] at h1
  cases h1
  unfold says MStore.node
  rw [(m.same a ha).2.1]
  exact mem_of_besides (merged_lang m h.sound ha) (by rw [parent_eq]; exact hp)

/-- C96. A work that comes in keeps a graph of its own: what is stated through it afterwards is not in the graph of the
textgroup, nor in that of any object that existed. So the metadata of a merged collection is not in one graph, as it is for
collections that were read together. -/
theorem C96_own_graphs {s s' : MStore} {self other : Nat} (h : Mergeable s self other) (hok : s.tgUpdate self other = .ok s')
    (k : Str) (y : Nat) (hy : (k, y) ∈ (s'.heap self).children) (hnew : k ∉ (s.heap self).children.map (·.1)) (t : Triple)
    (a : Nat) (ha : a < s.next) : (s'.say (s'.heap y).graph t).graphOf a = s'.graphOf a := by
  obtain ⟨s1, h1, m, _⟩ := merge_works h (order := id) (fun g => List.Perm.refl _)
  rw [hok] at h1
  cases h1
  have hself' : self < s'.next := Nat.lt_of_lt_of_le h.selfExists m.next
  rcases m.fresh _ _ ((mem_getEntry m.sound hself').2 hy) with h2 | ⟨_, h2⟩
  · exact absurd (List.mem_map_of_mem (f := (·.1)) (mem_of_getEntry h2)) hnew
  · have h3 : (s'.heap a).graph < s.graphCount := by rw [(m.same a ha).2.2.2.2.2.2]; exact h.sound.graphs a ha
    have h4 : (s'.heap a).graph ≠ (s'.heap y).graph := by omega
    simp [MStore.say, MStore.graphOf, h4]

/-- C96. What is not a textgroup is refused with `TypeError`, a textgroup with another URN with `InvalidURN`. -/
theorem C96_textgroup_refuses (s : MStore) (self other : Nat) :
    ((s.heap other).cls ≠ .textgroup → s.tgUpdate self other = .error .typeError) ∧
    ((s.heap other).cls = .textgroup → urnText (s.heap self).id ≠ urnText (s.heap other).id → s.tgUpdate self other = .error .invalidURN) := by
  unfold MStore.tgUpdate
  refine ⟨fun h => by rw [if_pos h], fun h h' => by rw [if_neg (by simp [h]), if_pos h']⟩

/-- C96. When the textgroup has, under the identifier of the first work of the other, something that is not a work, merging fails: with `TypeError`
if that is a textgroup, otherwise with `AttributeError`. -/
theorem C96_not_a_work (s : MStore) (tg other x : Nat) (e : Str × Nat) (r : List (Str × Nat)) (hc : (s.heap other).cls = .textgroup)
    (hid : (s.heap tg).id = (s.heap other).id) (he : (s.heap other).children = e :: r)
    (hf : getEntry (s.heap tg).children e.1 = some x) (hx : x < s.next) (hw : (s.heap x).cls ≠ .work) :
    s.tgUpdate tg other = .error (if (s.heap x).cls = .textgroup then .typeError else .attributeError) := by
  have hd : s.deepcopy.heap x = s.heap x := by
    show (if s.next ≤ x ∧ x < s.next + s.next then _ else s.heap x) = _
    rw [if_neg (by omega)]
  rw [MStore.tgUpdate, if_neg (by simp [hc]), if_neg (by simp [hid]), he, MStore.takeWorks, MStore.takeWork, hf]
  simp only [MStore.updateFound, hd]
  cases h : (s.heap x).cls <;> simp_all

/-- C96. Assigning a parent: the child has this parent, its graph says so, and the parent has it as its last member, unless it has a
member with that identifier already. Nothing else changes. -/
theorem C96_parent (s : MStore) (c p : Nat) (h : c ≠ p) :
    (s.setParent c p).heap c = { s.heap c with parent := some p } ∧
    ((s.heap c).id ∉ (s.heap p).children.map (·.1) →
      (s.setParent c p).heap p = { s.heap p with children := (s.heap p).children ++ [((s.heap c).id, c)] }) ∧
    ((s.heap c).id ∈ (s.heap p).children.map (·.1) → (s.setParent c p).heap p = s.heap p) ∧
    (∀ a, a ≠ c → a ≠ p → (s.setParent c p).heap a = s.heap a) ∧
    (∀ g t, t ∈ (s.setParent c p).graphs g ↔ t ∈ s.graphs g ∨ (g = (s.heap c).graph ∧
      t = ⟨.uri (s.heap c).id, .uri "http://purl.org/capitains/ns/1.0#parent".toList, .uri (s.heap p).id⟩)) := by
  have hp : ∀ (s1 : MStore), s1.heap p = s.heap p → (s1.heap c).id = (s.heap c).id →
      (s1.addMember p c).graphs = s1.graphs ∧ (∀ a, a ≠ p → (s1.addMember p c).heap a = s1.heap a) ∧
      (s1.addMember p c).heap p = if (s.heap c).id ∈ (s.heap p).children.map (·.1) then s.heap p
        else { s.heap p with children := (s.heap p).children ++ [((s.heap c).id, c)] } := by
    intro s1 h1 h2
    unfold MStore.addMember
    rw [h1, h2]
    split
    · exact ⟨rfl, fun _ _ => rfl, h1⟩
    · exact ⟨rfl, fun a ha => by simp [MStore.setObj, ha], by simp [MStore.setObj]⟩
  obtain ⟨e1, e2, e3⟩ := hp ((s.setObj c { s.heap c with parent := some p }).say (s.heap c).graph ⟨s.node c, capParent, s.node p⟩)
    (by simp [MStore.say, MStore.setObj, Ne.symm h]) (by simp [MStore.say, MStore.setObj])
  refine ⟨?_, ?_, ?_, ?_, ?_⟩
  · rw [MStore.setParent, e2 c h]; simp [MStore.say, MStore.setObj]
  · intro hn; rw [MStore.setParent, e3, if_neg hn]
  · intro hn; rw [MStore.setParent, e3, if_pos hn]
  · intro a ha hb; rw [MStore.setParent, e2 a hb]; simp [MStore.say, MStore.setObj, ha]
  · intro g t
    rw [MStore.setParent, e1, ← parent_eq]
    simp only [MStore.say, MStore.setObj, MStore.node]
    by_cases hg : g = (s.heap c).graph
    · subst hg; simp only [if_true, mem_insert, true_and]
    · simp [hg]

/-- C96. Merging a work into another one with the same identifier: the texts of the other become texts of this one, as the same objects, with this work as
their parent and without `resource`; they replace texts with the same identifier, and the remaining texts stay. Nothing else changes:
the other work still has its texts, which now have another parent. The two may be one object, as when a resolver merges the
works of a textgroup it has just taken into its collection. -/
theorem C96_work {s : MStore} {self other : Nat} (hs : Sound s) (hself : self < s.next) (hother : other < s.next)
    (hcs : (s.heap self).cls = .work) (hco : (s.heap other).cls = .work) (hid : (s.heap self).id = (s.heap other).id) :
    ∃ s', s.workUpdate self other = .ok s' ∧ Sound s' ∧
      (∀ e, e ∈ (s'.heap self).children ↔ e ∈ (s.heap other).children ∨ (e ∈ (s.heap self).children ∧ e.1 ∉ (s.heap other).children.map (·.1))) ∧
      (∀ a ∈ heldBy s other, s'.heap a = { s.heap a with parent := some self, resource := none }) ∧
      (∀ a, a ≠ self → a ∉ heldBy s other → s'.heap a = s.heap a) ∧
      { s'.heap self with children := [] } = { s.heap self with children := [] } ∧
      (∀ g t, t ∈ s'.graphs g ↔ t ∈ s.graphs g ∨ ∃ a ∈ heldBy s other, (s.heap a).graph = g ∧
        t = ⟨.uri (s.heap a).id, .uri "http://purl.org/capitains/ns/1.0#parent".toList, .uri (s.heap self).id⟩) := by
  have hl : ∀ e ∈ (s.heap other).children, e.2 ≠ self := by
    intro e he h
    have := hs.nested _ hother e he
    rw [hco, h, hcs] at this
    exact this
  obtain ⟨n1, c1, h1, h2, _, h4⟩ := takeTexts_eq (self := self) (s := s) (s.heap other).children hl (fun e he => hs.keyed _ hother e he)
  have hmem : ∀ e, e ∈ putAll (s.heap self).children (s.heap other).children ↔
      e ∈ (s.heap other).children ∨ (e ∈ (s.heap self).children ∧ e.1 ∉ (s.heap other).children.map (·.1)) := by
    intro e
    have hnd := nodup_putAll (s.heap other).children (hs.once _ hself)
    have hin : ∀ x ∈ (s.heap other).children, x ∈ putAll (s.heap self).children (s.heap other).children := fun x hx =>
      mem_of_getEntry (getEntry_putAll _ (hs.once _ hother) hx)
    constructor
    · intro he
      by_cases hk : e.1 ∈ (s.heap other).children.map (·.1)
      · obtain ⟨x, hx, hxk⟩ := List.mem_map.1 hk
        have h5 := getEntry_of_mem hnd (hin x hx)
        have h6 := getEntry_of_mem hnd he
        rw [hxk, h6] at h5
        simp only [Option.some.injEq] at h5
        have : e = x := Prod.ext hxk.symm h5
        exact .inl (this ▸ hx)
      · rcases mem_putAll he with h | h
        · exact .inr ⟨h, hk⟩
        · exact .inl h
    · rintro (h | ⟨h, hk⟩)
      · exact hin e h
      · refine mem_of_getEntry ?_
        rw [getEntry_putAll_other _ _ hk]
        exact getEntry_of_mem (hs.once _ hself) h
  refine ⟨_, by rw [MStore.workUpdate, if_neg (by simp [hco]), if_neg (by rw [hid]; simp)], ?_, ?_, ?_, ?_, ?_, ?_⟩
  · refine sound_change hs n1 c1 ?_ self ?_ ?_ ?_
    · intro a
      by_cases ha : a = self
      · subst ha; rw [h1]; exact ⟨rfl, rfl, rfl, rfl, rfl, rfl, rfl⟩
      · rw [h2 a ha]; split <;> exact ⟨rfl, rfl, rfl, rfl, rfl, rfl, rfl⟩
    · intro a ha _
      rw [h2 a ha]; split <;> rfl
    · intro e he
      rw [h1] at he
      rcases mem_putAll he with he | he
      · exact ⟨hs.exist _ hself e he, hs.keyed _ hself e he, hs.nested _ hself e he⟩
      · refine ⟨hs.exist _ hother e he, hs.keyed _ hother e he, ?_⟩
        have := hs.nested _ hother e he
        rw [hco] at this
        rw [hcs]; exact this
    · rw [h1]
      exact nodup_putAll _ (hs.once _ hself)
  · intro e
    rw [h1]
    exact hmem e
  · intro a ha
    have hne' : a ≠ self := by
      obtain ⟨e, he, rfl⟩ := List.mem_map.1 ha
      exact hl e he
    rw [h2 a hne', if_pos (show a ∈ (s.heap other).children.map (·.2) from ha)]
  · intro a ha hn
    rw [h2 a ha, if_neg (show a ∉ (s.heap other).children.map (·.2) from hn)]
  · rw [h1]
  · intro g t
    rw [h4, parent_eq]
    refine or_congr_right ⟨?_, ?_⟩
    · rintro ⟨e, he, hg, rfl⟩
      exact ⟨e.2, List.mem_map_of_mem (f := (·.2)) he, hg, rfl⟩
    · rintro ⟨a, ha, hg, rfl⟩
      obtain ⟨e, he, rfl⟩ := List.mem_map.1 ha
      exact ⟨e, he, hg, rfl⟩

/-- C96. A deep copy of a collection: every object below it has a counterpart that did not exist before, with the same
attributes, which refers to counterparts, and says exactly the same in a graph of its own. What existed is as it was. So
textgroups are seen as before in the copy. -/
theorem C96_copy {s : MStore} (hs : Sound s) (order : Order) :
    Sound s.deepcopy ∧
    (∀ a < s.next, s.deepcopy.heap a = s.heap a ∧ s.deepcopy.graphOf a = s.graphOf a) ∧
    (∀ a < s.next, ∃ b, s.next ≤ b ∧ s.graphCount ≤ (s.deepcopy.heap b).graph ∧
      tgView order s.deepcopy b = tgView order s a ∧
      (∀ c ∈ treeOf s.deepcopy b, s.next ≤ c ∧ s.graphCount ≤ (s.deepcopy.heap c).graph) ∧
      ∀ p o, says s.deepcopy b p o ↔ says s a p o) := by
  have gold : ∀ a < s.next, s.deepcopy.graphOf a = s.graphOf a := by
    intro a ha
    unfold MStore.graphOf
    rw [deepcopy_old ha, deepcopy_graph_old (hs.graphs a ha)]
  have gnew : ∀ a < s.next, s.deepcopy.graphOf (a + s.next) = s.graphOf a := by
    intro a ha
    unfold MStore.graphOf
    rw [deepcopy_new ha]
    exact deepcopy_graph_new (hs.graphs a ha)
  have idn : ∀ a < s.next, (s.deepcopy.heap (a + s.next)).id = (s.heap a).id := by
    intro a ha; rw [deepcopy_new ha]; rfl
  have gr : ∀ a < s.next, s.graphCount ≤ (s.deepcopy.heap (a + s.next)).graph := by
    intro a ha; rw [deepcopy_new ha]; simp only [MObj.shift]; omega
  have lang : ∀ a < s.next, getLang order (s.deepcopy.graphOf (a + s.next)) (s.deepcopy.node (a + s.next)) = getLang order (s.graphOf a) (s.node a) := by
    intro a ha
    rw [gnew a ha]
    unfold MStore.node
    rw [idn a ha]
  refine ⟨sound_deepcopy hs, fun a ha => ⟨deepcopy_old ha, gold a ha⟩, fun a ha => ⟨a + s.next, by omega, gr a ha, ?_, ?_, ?_⟩⟩
  · unfold tgView
    rw [idn a ha, deepcopy_new ha]
    simp only [MObj.shift, List.map_map, TgV.mk.injEq, true_and]
    refine List.map_congr_left fun e he => ?_
    have hn := hs.exist a ha e he
    simp only [Function.comp, workView]
    rw [idn _ hn, lang _ hn, deepcopy_new hn]
    simp only [MObj.shift, List.map_map, WorkV.mk.injEq, true_and]
    refine List.map_congr_left fun c hc => ?_
    have hm := hs.exist _ hn c hc
    simp only [Function.comp, textView]
    rw [idn _ hm, lang _ hm, deepcopy_new hm]
    rfl
  · intro c hc
    rcases mem_tree.1 hc with rfl | ⟨e, he, rfl⟩ | ⟨e, he, x, hx, rfl⟩
    · exact ⟨by omega, gr a ha⟩
    · rw [deepcopy_new ha] at he
      obtain ⟨e0, he0, rfl⟩ := List.mem_map.1 he
      exact ⟨by simp only; omega, gr _ (hs.exist a ha e0 he0)⟩
    · rw [deepcopy_new ha] at he
      obtain ⟨e0, he0, rfl⟩ := List.mem_map.1 he
      have hn := hs.exist a ha e0 he0
      simp only at hx
      rw [deepcopy_new hn] at hx
      obtain ⟨x0, hx0, rfl⟩ := List.mem_map.1 hx
      exact ⟨by simp only; omega, gr _ (hs.exist _ hn x0 hx0)⟩
  · intro p o
    unfold says
    rw [gnew a ha]
    unfold MStore.node
    rw [idn a ha]

/-! ## Two textgroups to merge -/

/-- The classes that hold each other can be compared. -/
instance (c d : MClass) : Decidable (holds c d) := by
  cases c <;> cases d <;> simp only [holds] <;> infer_instance

/-- Two textgroups with one identifier. The first (0) has the work `a` (1) with one text (2). The second (3) has the works `a`
(4), with the texts `x` (5) and `y` (6), and `b` (7), with the text `z` (8). All have one graph, which gives the language of
`y`. -/
def twoTextgroups : MStore :=
  let obj (cls : MClass) (id : String) (parent : Option Nat) (children : List (String × Nat)) : MObj :=
    { cls := cls, id := id.toList, urn := ⟨none, none, none, none, none, none, none⟩, kind := .edition, cite := none, path := [],
      parent := parent, children := children.map fun e => (e.1.toList, e.2), resource := some 0, graph := 0 }
  { next := 9
    heap := fun n => ([obj .textgroup "urn:cts:n:t" none [("urn:cts:n:t.a", 1)], obj .work "urn:cts:n:t.a" (some 0) [("urn:cts:n:t.a.x", 2)],
      obj .text "urn:cts:n:t.a.x" (some 1) [], obj .textgroup "urn:cts:n:t" none [("urn:cts:n:t.a", 4), ("urn:cts:n:t.b", 7)],
      obj .work "urn:cts:n:t.a" (some 3) [("urn:cts:n:t.a.x", 5), ("urn:cts:n:t.a.y", 6)], obj .text "urn:cts:n:t.a.x" (some 4) [],
      obj .text "urn:cts:n:t.a.y" (some 4) [], obj .work "urn:cts:n:t.b" (some 3) [("urn:cts:n:t.b.z", 8)],
      obj .text "urn:cts:n:t.b.z" (some 7) []][n]?).getD (obj .text "" none [])
    graphCount := 1
    graphs := fun _ => [⟨.uri "urn:cts:n:t.a.y".toList, .uri "http://purl.org/dc/elements/1.1/language".toList, .lit "fre".toList none none⟩] }

/-- The text `t.b.z` is given to the work `t.a`, and the work `t.a` to a textgroup that has it. -/
example : ((twoTextgroups.setParent 8 1).heap 1).children.map (·.2) = [2, 8] ∧ ((twoTextgroups.setParent 8 1).heap 8).parent = some 1 ∧
    ((twoTextgroups.setParent 4 0).heap 0).children.map (·.2) = [1] ∧ ((twoTextgroups.setParent 4 0).heap 4).parent = some 0 := by decide +kernel

/-- A textgroup that has a textgroup where the other has a work. -/
example : ((twoTextgroups.setObj 1 { twoTextgroups.heap 1 with cls := .textgroup }).tgUpdate 0 3).toOption.isNone = true ∧
    ((twoTextgroups.setObj 1 { twoTextgroups.heap 1 with cls := .textgroup }).heap 1).cls ≠ .work := by decide +kernel

theorem two_mergeable : Mergeable twoTextgroups 0 3 := by
  refine ⟨⟨by decide +kernel, by decide +kernel, by decide +kernel, by decide +kernel, by decide +kernel⟩, ?_, by decide +kernel, by decide +kernel,
    by decide +kernel, by decide +kernel, by decide +kernel, by decide +kernel⟩
  intro g _ n l l' h h'
  simp only [twoTextgroups, List.mem_singleton, Triple.mk.injEq] at h h'
  rw [h.2.2, h'.2.2]

-- The hypotheses can be met.
example : ∃ s', twoTextgroups.tgUpdate 0 3 = .ok s' ∧ HasText (tgView id s' 0) "urn:cts:n:t.b".toList (textView id twoTextgroups 8) := by
  obtain ⟨s', h, _, _, _, _, ht, _⟩ := C96_textgroup two_mergeable (order := id) (fun g => List.Perm.refl _)
  refine ⟨s', h, (ht _ _).2 (.inl ⟨workView id twoTextgroups 7, ?_, ?_, ?_⟩)⟩ <;> decide +kernel

-- After `update` the textgroup has works 1 and a new one, and work 1 has two new texts; the other still has works 4 and 7.
example : (match twoTextgroups.tgUpdate 0 3 with
    | .ok s => some (heldBy s 0, heldBy s 1, heldBy s 3, (heldBy s 0).map fun a => (s.heap a).graph)
    | .error _ => none) = some ([1, 25], [14, 15], [4, 7], [0, 2]) := by decide +kernel

/-- C96, where copying is not done: merging works makes the texts of the other work texts of this one, so a text of the other
work has a parent that is not that work. -/
theorem C96_fails_work_update : ∃ (s : MStore) (self other : Nat) (s' : MStore), Sound s ∧ self < s.next ∧ other < s.next ∧
    (∀ e ∈ (s.heap other).children, (s.heap e.2).parent = some other) ∧ s.workUpdate self other = .ok s' ∧
    ∃ e ∈ (s'.heap other).children, (s'.heap e.2).parent ≠ some other := by
  obtain ⟨s', h1, _, _, h2, h3, _⟩ := C96_work (self := 1) (other := 4) two_mergeable.sound (by decide +kernel) (by decide +kernel) (by decide +kernel)
    (by decide +kernel) (by decide +kernel)
  refine ⟨twoTextgroups, 1, 4, s', two_mergeable.sound, by decide +kernel, by decide +kernel, by decide +kernel, h1, ("urn:cts:n:t.a.x".toList, 5), ?_, ?_⟩
  · rw [h3 4 (by decide) (by decide +kernel)]; decide +kernel
  · rw [h2 5 (by decide +kernel)]; simp

-- The hypotheses of the theorems on the merged state are met by any state that `C96_textgroup` gives.
example : ∃ s', twoTextgroups.tgUpdate 0 3 = .ok s' ∧ (∀ a ∈ treeOf s' 0, a ∉ treeOf s' 3) ∧
    (∃ y, ("urn:cts:n:t.b".toList, y) ∈ (s'.heap 0).children ∧ (s'.heap y).parent = some 0) := by
  obtain ⟨s', h, _⟩ := C96_textgroup two_mergeable (order := id) (fun g => List.Perm.refl _)
  refine ⟨s', h, (C96_nothing_shared two_mergeable h).2 (by decide +kernel), ?_⟩
  obtain ⟨y, hy, hp, _⟩ := C96_copies_say two_mergeable h ("urn:cts:n:t.b".toList, 7) (by decide +kernel)
  exact ⟨y, hy, hp⟩

example : twoTextgroups.tgUpdate 0 4 = .error .typeError := (C96_textgroup_refuses _ _ _).1 (by decide +kernel)

end Verif.Props
