import Verif.Spec.MetadataGraph
import Verif.Lemmas.InventoryGraph
import Verif.Props.InventoryMetadata
/-!
Lemmas for C106: what `getMetadata` writes into the graph.
-/
namespace Verif.Lemmas
open Verif.Py Verif.Model Verif.Spec Verif.Props

/-- Nothing has two languages. -/
def Once (g : Graph) : Prop := ∀ s o o', (⟨s, dc "language", o⟩ : Triple) ∈ g → (⟨s, dc "language", o'⟩ : Triple) ∈ g → o = o'

theorem getLang_same {order : Order} (ho : Rearranges order) {g g' : Graph} (h : Once g) {s : Term}
    (he : ∀ o, (⟨s, dc "language", o⟩ : Triple) ∈ g' ↔ (⟨s, dc "language", o⟩ : Triple) ∈ g) : getLang order g' s = getLang order g s := by
  rcases getLang_spoken ho g' s with ⟨o, h1, h2⟩ | ⟨h1, h2⟩ <;> rcases getLang_spoken ho g s with ⟨o', h3, h4⟩ | ⟨h3, h4⟩
  · rw [h2, h4, h s o o' ((he o).1 h1) h3]
  · exact absurd ((he o).1 h1) (h3 o)
  · exact absurd ((he o').2 h3) (h1 o')
  · rw [h2, h4]

theorem getLang_setLang {order : Order} (ho : Rearranges order) {g : Graph} (h : Once g) (n s : Term) (l : Str) :
    getLang order (setLang g n l) s = if s = n then l else getLang order g s := by
  split
  · rename_i e
    subst e
    exact getLang_of ho (setLang_same g s l)
  · rename_i e
    exact getLang_same ho h fun o => by rw [mem_setLang_all]; simp [e]

theorem once_setLang {g : Graph} (h : Once g) (n : Term) (l : Str) : Once (setLang g n l) := by
  intro s o o' h1 h2
  rw [mem_setLang_all] at h1 h2
  rcases h1 with ⟨rfl, _, rfl⟩ | ⟨h1, h1'⟩
  · rcases h2 with ⟨_, _, rfl⟩ | ⟨h2, h2'⟩
    · rfl
    · exact absurd ⟨rfl, rfl⟩ h2'
  · rcases h2 with ⟨rfl, _, rfl⟩ | ⟨h2, h2'⟩
    · exact absurd ⟨rfl, rfl⟩ h1'
    · exact h s o o' h1 h2

theorem predicates_differ : dc "language" ≠ typePredicate ∧ dc "language" ≠ modelPredicate ∧ dc "language" ≠ parentPredicate ∧
    typePredicate ≠ parentPredicate ∧ modelPredicate ≠ parentPredicate := by decide +kernel

/-- The statement is not one that an answer may write. -/
def Kept (t : Triple) : Prop := t.p ≠ dc "language" ∧ t.s ≠ .uri madeUp ∧ ¬ (t.p = parentPredicate ∧ t.o = .uri madeUp)

/-- The same statements, but for languages and the inventory that is made up. -/
def Alike (g g' : Graph) : Prop := ∀ t, Kept t → (t ∈ g' ↔ t ∈ g)

theorem Alike.trans {a b c : Graph} (h : Alike a b) (h' : Alike b c) : Alike a c := fun t ht => (h' t ht).trans (h t ht)

/-- The same languages, statement by statement. -/
def AsSpoken (g g' : Graph) : Prop := ∀ s o, (⟨s, dc "language", o⟩ : Triple) ∈ g' ↔ (⟨s, dc "language", o⟩ : Triple) ∈ g

theorem AsSpoken.once {g g' : Graph} (h : AsSpoken g g') (ho : Once g) : Once g' :=
  fun s o o' h1 h2 => ho s o o' ((h s o).1 h1) ((h s o').1 h2)

theorem isA_alike {g g' : Graph} (h : Alike g g') {id : Str} {type model : String} (hid : id ≠ madeUp) (ha : IsA g id type model) : IsA g' id type model := by
  obtain ⟨_, _, _, d4, d5⟩ := predicates_differ
  have hs : (Term.uri id) ≠ .uri madeUp := fun e => hid (Term.uri.inj e)
  exact ⟨fun o => (h _ ⟨Ne.symm predicates_differ.1, hs, fun e => d4 e.1⟩).trans (ha.type o),
    fun o => (h _ ⟨Ne.symm predicates_differ.2.1, hs, fun e => d5 e.1⟩).trans (ha.model o)⟩

/-- An object is made again, with the type that it has. -/
theorem newObject_alike {g : Graph} {id ty md : Str} {type model : String} (h1 : ctsTerm ty = cts type)
    (h2 : (Term.uri (nsDts ++ md) : Term) = .uri ("https://w3id.org/dts/api#".toList ++ model.toList))
    (h : id = madeUp ∨ IsA g id type model) : Alike g (newObject g id ty md) := by
  rintro ⟨s, p, o⟩ ⟨_, hs, _⟩
  rw [mem_newObject, h1, h2]
  rcases h with rfl | h
  · constructor
    · rintro (⟨e, _⟩ | ⟨h, _⟩)
      · exact absurd e hs
      · exact h
    · exact fun h => .inr ⟨h, fun e => hs e.1⟩
  · constructor
    · rintro (⟨rfl, ⟨rfl, rfl⟩ | ⟨rfl, rfl⟩⟩ | ⟨h, _⟩)
      · exact (h.type _).2 rfl
      · exact (h.model _).2 rfl
      · exact h
    · intro hg
      by_cases e : s = .uri id ∧ (p = typePredicate ∨ p = modelPredicate)
      · obtain ⟨rfl, rfl | rfl⟩ := e
        · exact .inl ⟨rfl, .inl ⟨rfl, (h.type _).1 hg⟩⟩
        · exact .inl ⟨rfl, .inr ⟨rfl, (h.model _).1 hg⟩⟩
      · exact .inr ⟨hg, e⟩

theorem newObject_spoken (g : Graph) (id ty md : Str) : AsSpoken g (newObject g id ty md) := by
  obtain ⟨d1, d2, _⟩ := predicates_differ
  intro s o
  rw [mem_newObject]
  simp [d1, d2]

theorem newParent_alike {g : Graph} {id parent : Str} (h : parent = madeUp ∨ (⟨.uri id, parentPredicate, .uri parent⟩ : Triple) ∈ g) :
    Alike g (newParent g id (some parent)) := by
  rintro ⟨s, p, o⟩ ⟨_, _, hp⟩
  rw [mem_newParent]
  constructor
  · rintro (h' | ⟨rfl, rfl, i, e, rfl⟩)
    · exact h'
    · cases e
      rcases h with rfl | h
      · exact absurd ⟨rfl, rfl⟩ hp
      · exact h
  · exact .inl

theorem newParent_spoken (g : Graph) (id : Str) (parent : Option Str) : AsSpoken g (newParent g id parent) := by
  obtain ⟨_, _, d3, _⟩ := predicates_differ
  intro s o
  rw [mem_newParent]
  constructor
  · rintro (h | ⟨_, e, _⟩)
    · exact h
    · exact absurd e d3
  · exact .inl

theorem setLang_alike (g : Graph) (n : Term) (l : Str) : Alike g (setLang g n l) := by
  rintro ⟨s, p, o⟩ ⟨h, _⟩
  rw [mem_setLang_all]
  constructor
  · rintro (⟨_, e, _⟩ | ⟨h, _⟩)
    · exact absurd e h
    · exact h
  · exact fun h' => .inr ⟨h', fun e => h e.2⟩

theorem urnText_plain {id : Str} (h : '#' ∉ id) : urnText id = id := by
  unfold urnText
  induction id with
  | nil => rfl
  | cons c r ih =>
    rw [List.mem_cons, not_or] at h
    rw [List.takeWhile_cons, if_pos (bne_iff_ne.mpr (Ne.symm h.1)), ih h.2]

/-- What the steps need to know of a text that is found. -/
structure PlaceReady (g : Graph) (p : Placed) : Prop where
  plain : '#' ∉ p.tg ∧ '#' ∉ p.work ∧ '#' ∉ p.text.id
  named : p.inv ≠ madeUp ∧ p.tg ≠ madeUp ∧ p.work ≠ madeUp ∧ p.text.id ≠ madeUp
  inv : IsA g p.inv "TextInventory" "collection"
  group : IsA g p.tg "textgroup" "collection"
  work : IsA g p.work "work" "collection"
  text : p.text.kind ≠ .plain → IsA g p.text.id (kindName p.text.kind) "resource"
  groupUp : (⟨.uri p.tg, parentPredicate, .uri p.inv⟩ : Triple) ∈ g
  workUp : (⟨.uri p.work, parentPredicate, .uri p.tg⟩ : Triple) ∈ g
  textUp : (⟨.uri p.text.id, parentPredicate, .uri p.work⟩ : Triple) ∈ g

theorem parent_kept {a b : Str} (ha : a ≠ madeUp) (hb : b ≠ madeUp) : Kept ⟨.uri a, parentPredicate, .uri b⟩ :=
  ⟨Ne.symm predicates_differ.2.2.1, fun e => ha (Term.uri.inj e), fun e => hb (Term.uri.inj e.2)⟩

theorem PlaceReady.alike {g g' : Graph} {p : Placed} (h : PlaceReady g p) (ha : Alike g g') : PlaceReady g' p where
  plain := h.plain
  named := h.named
  inv := isA_alike ha h.named.1 h.inv
  group := isA_alike ha h.named.2.1 h.group
  work := isA_alike ha h.named.2.2.1 h.work
  text := fun hk => isA_alike ha h.named.2.2.2 (h.text hk)
  groupUp := (ha _ (parent_kept h.named.2.1 h.named.1)).2 h.groupUp
  workUp := (ha _ (parent_kept h.named.2.2.1 h.named.2.1)).2 h.workUp
  textUp := (ha _ (parent_kept h.named.2.2.2 h.named.2.2.1)).2 h.textUp

theorem metaGroup_keeps {i : InvV} {g : Graph} {p : Placed} (h : PlaceReady g p) (hi : i.id = madeUp ∨ i.id = p.inv) :
    Alike g (metaGroup i g p) ∧ AsSpoken g (metaGroup i g p) := by
  unfold metaGroup
  rw [urnText_plain h.plain.1]
  split
  · exact ⟨fun _ _ => Iff.rfl, fun _ _ => Iff.rfl⟩
  · have h1 : Alike g (newObject g p.tg ['t', 'e', 'x', 't', 'g', 'r', 'o', 'u', 'p'] ['c', 'o', 'l', 'l', 'e', 'c', 't', 'i', 'o', 'n']) :=
      newObject_alike (type := "textgroup") (model := "collection") (by decide +kernel) (by decide +kernel) (.inr h.group)
    refine ⟨h1.trans (newParent_alike ?_), fun s o => (newParent_spoken _ _ _ s o).trans (newObject_spoken _ _ _ _ s o)⟩
    rcases hi with e | e
    · exact .inl e
    · rw [e]; exact .inr (h.alike h1).groupUp

theorem metaWork_keeps {i : InvV} {g : Graph} {p : Placed} (h : PlaceReady g p) :
    Alike g (metaWork i g p) ∧ AsSpoken g (metaWork i g p) := by
  unfold metaWork
  rw [urnText_plain h.plain.1, urnText_plain h.plain.2.1]
  split
  · exact ⟨fun _ _ => Iff.rfl, fun _ _ => Iff.rfl⟩
  · have h1 : Alike g (newObject g p.work ['w', 'o', 'r', 'k'] ['c', 'o', 'l', 'l', 'e', 'c', 't', 'i', 'o', 'n']) :=
      newObject_alike (type := "work") (model := "collection") (by decide +kernel) (by decide +kernel) (.inr h.work)
    exact ⟨h1.trans (newParent_alike (.inr (h.alike h1).workUp)), fun s o => (newParent_spoken _ _ _ s o).trans (newObject_spoken _ _ _ _ s o)⟩

theorem metaText_keeps {order : Order} (ho : Rearranges order) {g : Graph} {p : Placed} (h : PlaceReady g p) (hg : Once g) :
    Alike g (metaText order g p) ∧ Once (metaText order g p) ∧
    ∀ s, getLang order (metaText order g p) s =
      if p.text.kind = .edition ∧ s = .uri p.text.id then getLang order g (.uri p.work) else getLang order g s := by
  have hobj : ∀ k, p.text.kind = k → k ≠ .plain →
      Alike g (newObject g p.text.id (kindTag k) ['r', 'e', 's', 'o', 'u', 'r', 'c', 'e']) := by
    rintro k rfl hk
    exact newObject_alike (type := kindName p.text.kind) (model := "resource") (ctsKind_eq _) (by decide +kernel) (.inr (h.text hk))
  have other : ∀ k, p.text.kind = k → k ≠ .plain → k ≠ .edition →
      let g' := newParent (newTextLang order (newObject g p.text.id (kindTag k) ['r', 'e', 's', 'o', 'u', 'r', 'c', 'e'])
        (.uri p.text.id) (some (.uri p.work)) (some (getLang order g (.uri p.text.id)))) p.text.id (some p.work)
      Alike g g' ∧ Once g' ∧ ∀ s, getLang order g' s = getLang order g s := by
    intro k hk h1 h2
    have a1 := hobj k hk h1
    have s1 := newObject_spoken g p.text.id (kindTag k) ['r', 'e', 's', 'o', 'u', 'r', 'c', 'e']
    have o1 := s1.once hg
    have a2 := a1.trans (setLang_alike _ (.uri p.text.id) (getLang order g (.uri p.text.id)))
    have o2 := once_setLang o1 (.uri p.text.id) (getLang order g (.uri p.text.id))
    have s3 := newParent_spoken (setLang (newObject g p.text.id (kindTag k) ['r', 'e', 's', 'o', 'u', 'r', 'c', 'e']) (.uri p.text.id)
      (getLang order g (.uri p.text.id))) p.text.id (some p.work)
    refine ⟨a2.trans (newParent_alike (.inr (h.alike a2).textUp)), s3.once o2, fun s => ?_⟩
    refine (getLang_same ho o2 (s3 s)).trans ?_
    rw [getLang_setLang ho o1]
    split
    · rename_i e; rw [e]
    · exact getLang_same ho hg (s1 s)
  unfold metaText
  rw [urnText_plain h.plain.2.1, urnText_plain h.plain.2.2]
  cases hk : p.text.kind with
  | plain => exact ⟨fun _ _ => Iff.rfl, hg, fun s => by simp⟩
  | translation =>
    obtain ⟨h1, h2, h3⟩ := other _ hk (by simp) (by simp)
    exact ⟨h1, h2, fun s => by rw [if_neg (by simp)]; exact h3 s⟩
  | commentary =>
    obtain ⟨h1, h2, h3⟩ := other _ hk (by simp) (by simp)
    exact ⟨h1, h2, fun s => by rw [if_neg (by simp)]; exact h3 s⟩
  | edition =>
    have a1 := hobj _ hk (by simp)
    have a2 := a1.trans (newParent_alike (.inr (h.alike a1).textUp))
    have s2 : AsSpoken g (newParent (newObject g p.text.id (kindTag .edition) ['r', 'e', 's', 'o', 'u', 'r', 'c', 'e']) p.text.id (some p.work)) :=
      fun s o => (newParent_spoken _ _ _ s o).trans (newObject_spoken _ _ _ _ s o)
    have o2 := s2.once hg
    refine ⟨a2.trans (setLang_alike _ _ _), once_setLang o2 _ _, fun s => ?_⟩
    refine (getLang_setLang ho o2 _ _ _).trans ?_
    by_cases e : s = .uri p.text.id
    · rw [if_pos e, if_pos ⟨rfl, e⟩]
      exact getLang_same ho hg (s2 _)
    · rw [if_neg e, if_neg (fun x => e x.2)]
      exact getLang_same ho hg (s2 _)

/-- One turn of the loop. -/
theorem metaStep_keeps {order : Order} (ho : Rearranges order) {i : InvV} {g : Graph} {p : Placed} (h : PlaceReady g p) (hg : Once g)
    (hi : i.id = madeUp ∨ i.id = p.inv) :
    Alike g (metaStep order (i, g) p).2 ∧ Once (metaStep order (i, g) p).2 ∧
    ∀ s, getLang order (metaStep order (i, g) p).2 s =
      if p.text.kind = .edition ∧ s = .uri p.text.id then getLang order g (.uri p.work) else getLang order g s := by
  obtain ⟨a1, s1⟩ := metaGroup_keeps h hi
  obtain ⟨a2, s2⟩ := metaWork_keeps (i := i) (h.alike a1)
  have s12 : AsSpoken g (metaWork i (metaGroup i g p) p) := fun s o => (s2 s o).trans (s1 s o)
  have a12 := a1.trans a2
  obtain ⟨a3, o3, l3⟩ := metaText_keeps ho (h.alike a12) (s12.once hg)
  refine ⟨a12.trans a3, o3, fun s => ?_⟩
  show getLang order (metaText order _ p) s = _
  rw [l3, getLang_same ho hg (s12 s), getLang_same ho hg (s12 _)]

/-- The whole loop: nothing but the language of the editions found. -/
theorem metaLoop_keeps {order : Order} (ho : Rearranges order) : ∀ (ps : List Placed) (i : InvV) (g : Graph), (∀ p ∈ ps, PlaceReady g p) → Once g →
    (∀ p ∈ ps, i.id = madeUp ∨ i.id = p.inv) →
    (∀ p ∈ ps, ∀ q ∈ ps, q.text.kind = .edition → p.work ≠ q.text.id) →
    (∀ p ∈ ps, ∀ q ∈ ps, p.text.id = q.text.id → p = q) →
    Alike g (ps.foldl (metaStep order) (i, g)).2 ∧ Once (ps.foldl (metaStep order) (i, g)).2 ∧
    (∀ s, (∀ p ∈ ps, p.text.kind = .edition → s ≠ .uri p.text.id) → getLang order (ps.foldl (metaStep order) (i, g)).2 s = getLang order g s) ∧
    ∀ p ∈ ps, p.text.kind = .edition → getLang order (ps.foldl (metaStep order) (i, g)).2 (.uri p.text.id) = getLang order g (.uri p.work)
  | [], i, g, _, hg, _, _, _ => ⟨fun _ _ => Iff.rfl, hg, fun _ _ => rfl, by simp⟩
  | p :: ps, i, g, h, hg, hi, hw, hu => by
    obtain ⟨a, o, l⟩ := metaStep_keeps ho (h p (by simp)) hg (hi p (by simp))
    obtain ⟨a', o', l', e'⟩ := metaLoop_keeps ho ps (metaStep order (i, g) p).1 (metaStep order (i, g) p).2 (fun q hq => (h q (by simp [hq])).alike a) o
      (fun q hq => hi q (by simp [hq])) (fun q hq q' hq' => hw q (by simp [hq]) q' (by simp [hq'])) (fun q hq q' hq' => hu q (by simp [hq]) q' (by simp [hq']))
    have hwork : ∀ q ∈ p :: ps, getLang order (metaStep order (i, g) p).2 (.uri q.work) = getLang order g (.uri q.work) := by
      intro q hq
      rw [l, if_neg]
      rintro ⟨hk, e⟩
      exact hw q hq p (by simp) hk (Term.uri.inj e)
    refine ⟨a.trans a', o', fun s hs => ?_, fun q hq hk => ?_⟩
    · refine (l' s fun q hq => hs q (by simp [hq])).trans ?_
      rw [l, if_neg fun e => hs p (by simp) e.1 e.2]
    · rcases List.mem_cons.1 hq with rfl | hq'
      · by_cases hin : q ∈ ps
        · exact (e' q hin hk).trans (hwork q hq)
        · refine (l' _ fun q' hq' hk' e => ?_).trans ?_
          · exact hin (hu q' (by simp [hq']) q (by simp) (Term.uri.inj e).symm ▸ hq')
          · rw [l, if_pos ⟨hk, rfl⟩]
      · exact (e' q hq' hk).trans (hwork q hq)

theorem rebuiltName_one (ps : List Placed) : rebuiltName ps = madeUp ∨ ∀ p ∈ ps, rebuiltName ps = p.inv := by
  have e : madeUp = ['d','e','f','a','u','l','t','I','n','v','e','n','t','o','r','y'] := by decide +kernel
  rw [e]
  cases ps with
  | nil => exact .inl rfl
  | cons p rest =>
    rw [rebuiltName]
    split
    · rename_i h
      refine .inr fun q hq => ?_
      rcases List.mem_cons.1 hq with rfl | hq
      · rfl
      · exact (beq_iff_eq.1 (List.all_eq_true.1 h q hq)).symm
    · exact .inl rfl

theorem metaGraph_keeps {order : Order} (ho : Rearranges order) {ps : List Placed} {g : Graph} (h : ∀ p ∈ ps, PlaceReady g p) (hg : Once g)
    (hw : ∀ p ∈ ps, ∀ q ∈ ps, q.text.kind = .edition → p.work ≠ q.text.id) (hu : ∀ p ∈ ps, ∀ q ∈ ps, p.text.id = q.text.id → p = q) :
    Alike g (metaGraph order g ps) ∧ Once (metaGraph order g ps) ∧
    (∀ s, (∀ p ∈ ps, p.text.kind = .edition → s ≠ .uri p.text.id) → getLang order (metaGraph order g ps) s = getLang order g s) ∧
    ∀ p ∈ ps, p.text.kind = .edition → getLang order (metaGraph order g ps) (.uri p.text.id) = getLang order g (.uri p.work) := by
  have hn := rebuiltName_one ps
  have a1 : Alike g (newObject g (rebuiltName ps) ['T', 'e', 'x', 't', 'I', 'n', 'v', 'e', 'n', 't', 'o', 'r', 'y'] ['c', 'o', 'l', 'l', 'e', 'c', 't', 'i', 'o', 'n']) := by
    refine newObject_alike (type := "TextInventory") (model := "collection") (by decide +kernel) (by decide +kernel) ?_
    cases ps with
    | nil => exact .inl (by decide +kernel)
    | cons p rest =>
      rcases hn with e | e
      · exact .inl e
      · rw [e p (by simp)]; exact .inr (h p (by simp)).inv
  have s1 := newObject_spoken g (rebuiltName ps) ['T', 'e', 'x', 't', 'I', 'n', 'v', 'e', 'n', 't', 'o', 'r', 'y'] ['c', 'o', 'l', 'l', 'e', 'c', 't', 'i', 'o', 'n']
  obtain ⟨a2, o2, l2, e2⟩ := metaLoop_keeps ho ps { id := rebuiltName ps, tgs := [] } _ (fun p hp => (h p hp).alike a1) (s1.once hg)
    (fun p hp => hn.imp id fun e => e p hp) hw hu
  exact ⟨a1.trans a2, o2, fun s hs => (l2 s hs).trans (getLang_same ho hg (s1 s)), fun p hp hk => (e2 p hp hk).trans (getLang_same ho hg (s1 _))⟩

end Verif.Lemmas
