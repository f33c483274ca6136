import Verif.Spec.Merge
import Verif.Lemmas.Keyed
import Verif.Lemmas.InventoryGraph
import Verif.Props.Metadata
import Verif.Lemmas.MetadataExport
/-!
Lemmas on merging collections as objects.
-/
namespace Verif.Lemmas
open Verif.Py Verif.Model Verif.Spec Verif.Props

/-! ### Languages -/

theorem language_eq : dcLanguage = .uri "http://purl.org/dc/elements/1.1/language".toList := by decide +kernel

theorem language_ne_parent : dcLanguage ≠ capParent := by decide +kernel

/-- What a graph says but for parents. -/
def besides (g : Graph) : Graph := g.filter fun t => t.p ≠ capParent

theorem besides_insert (g : Graph) (a b : Term) : besides (g.insert ⟨a, capParent, b⟩) = besides g := by
  unfold besides Graph.insert
  split <;> simp

theorem mem_of_besides {g g' : Graph} (h : besides g = besides g') {t : Triple} (ht : t.p ≠ capParent) : t ∈ g ↔ t ∈ g' := by
  have : t ∈ besides g ↔ t ∈ besides g' := by rw [h]
  simpa [besides, ht] using this

/-- The language does not depend on the order of reading when there is one at most. -/
theorem lang_eq {order : Order} (ho : Rearranges order) {g g' : Graph} {n : Term}
    (h1 : ∀ l l', ⟨n, dcLanguage, l⟩ ∈ g → ⟨n, dcLanguage, l'⟩ ∈ g → l = l')
    (h : ∀ l, (⟨n, dcLanguage, l⟩ : Triple) ∈ g ↔ ⟨n, dcLanguage, l⟩ ∈ g') : getLang order g n = getLang order g' n := by
  have key : ∀ (g : Graph) (o : Term), o ∈ g.objects order n dcLanguage ↔ ⟨n, dcLanguage, o⟩ ∈ g := by
    intro g o
    simp only [Graph.objects, List.mem_map, List.mem_filter, (ho g).mem_iff, Triple.matches]
    constructor
    · rintro ⟨⟨a, b, c⟩, ⟨hm, hp⟩, rfl⟩
      simp at hp
      obtain ⟨rfl, rfl⟩ := hp
      exact hm
    · intro hm
      exact ⟨_, ⟨hm, by simp⟩, rfl⟩
  unfold getLang
  cases e : (g.objects order n dcLanguage).head? with
  | none =>
    rw [List.head?_eq_none_iff] at e
    cases e' : (g'.objects order n dcLanguage).head? with
    | none => rfl
    | some o =>
      have := (key g' o).1 (List.mem_of_mem_head? e')
      have := (key g o).2 ((h o).2 this)
      rw [e] at this; cases this
  | some o =>
    have m := (key g o).1 (List.mem_of_mem_head? e)
    cases e' : (g'.objects order n dcLanguage).head? with
    | none =>
      rw [List.head?_eq_none_iff] at e'
      have := (key g' o).2 ((h o).1 m)
      rw [e'] at this; cases this
    | some o' =>
      have m' := (h o').2 ((key g' o').1 (List.mem_of_mem_head? e'))
      rw [h1 o o' m m']

/-! ### One turn -/

theorem adopt_of_key {s : MStore} {self x : Nat} (hx : x ≠ self) (hk : (s.heap x).id ∈ (s.heap self).children.map (·.1)) :
    s.adopt self x = ((s.setObj x { s.heap x with parent := some self, resource := none }).say (s.heap x).graph
      ⟨s.node x, capParent, s.node self⟩) := by
  have h1 : ((s.setObj x { s.heap x with parent := some self }).say (s.heap x).graph ⟨s.node x, capParent, s.node self⟩).addMember self x
      = (s.setObj x { s.heap x with parent := some self }).say (s.heap x).graph ⟨s.node x, capParent, s.node self⟩ := by
    unfold MStore.addMember
    rw [if_pos]
    simpa [MStore.say, MStore.setObj, Ne.symm hx] using hk
  simp only [MStore.adopt, MStore.setParent, h1]
  simp only [MStore.say, MStore.setObj, MStore.mk.injEq, true_and, and_true]
  funext y
  by_cases hy : y = x <;> simp [hy]

theorem keys_putEntry (d : List (Str × Nat)) (k : Str) (v : Nat) : k ∈ (putEntry d k v).map (·.1) := by
  induction d with
  | nil => simp [putEntry]
  | cons e r ih =>
    obtain ⟨k', w⟩ := e
    unfold putEntry
    split
    · simp
    · simp only [List.map_cons, List.mem_cons]; exact .inr ih

theorem takeText_eq {s : MStore} {self : Nat} {e : Str × Nat} (he : e.2 ≠ self) (hk : (s.heap e.2).id = e.1) :
    (MStore.takeText self s e).next = s.next ∧ (MStore.takeText self s e).graphCount = s.graphCount ∧
    (MStore.takeText self s e).heap self = { s.heap self with children := putEntry (s.heap self).children e.1 e.2 } ∧
    (MStore.takeText self s e).heap e.2 = { s.heap e.2 with parent := some self, resource := none } ∧
    (∀ a, a ≠ self → a ≠ e.2 → (MStore.takeText self s e).heap a = s.heap a) ∧
    (∀ g, (MStore.takeText self s e).graphs g = if g = (s.heap e.2).graph then (s.graphs g).insert ⟨s.node e.2, capParent, s.node self⟩ else s.graphs g) := by
  unfold MStore.takeText
  rw [adopt_of_key he]
  · refine ⟨rfl, rfl, ?_, ?_, ?_, ?_⟩
    · simp [MStore.say, MStore.setObj, Ne.symm he]
    · simp [MStore.say, MStore.setObj, he]
    · intro a h1 h2; simp [MStore.say, MStore.setObj, h1, h2]
    · intro g
      simp only [MStore.say, MStore.setObj, MStore.node, he, if_true, if_false]
      by_cases hg : g = (s.heap e.2).graph
      · subst hg; simp
      · simp [hg]
  · simp only [MStore.setObj, he, if_false, if_true]
    rw [hk]; exact keys_putEntry _ _ _

/-- The texts of a work put one after the other into the dictionary of another. -/
def putAll (d l : List (Str × Nat)) : List (Str × Nat) := l.foldl (fun d e => putEntry d e.1 e.2) d

theorem takeTexts_eq {self : Nat} (l : List (Str × Nat)) {s : MStore} (hl : ∀ e ∈ l, e.2 ≠ self) (hk : ∀ e ∈ l, (s.heap e.2).id = e.1) :
    (l.foldl (MStore.takeText self) s).next = s.next ∧ (l.foldl (MStore.takeText self) s).graphCount = s.graphCount ∧
    (l.foldl (MStore.takeText self) s).heap self = { s.heap self with children := putAll (s.heap self).children l } ∧
    (∀ a, a ≠ self → (l.foldl (MStore.takeText self) s).heap a =
      if a ∈ l.map (·.2) then { s.heap a with parent := some self, resource := none } else s.heap a) ∧
    (∀ g, besides ((l.foldl (MStore.takeText self) s).graphs g) = besides (s.graphs g)) ∧
    (∀ g t, t ∈ (l.foldl (MStore.takeText self) s).graphs g ↔
      t ∈ s.graphs g ∨ ∃ e ∈ l, (s.heap e.2).graph = g ∧ t = ⟨s.node e.2, capParent, s.node self⟩) := by
  induction l generalizing s with
  | nil => simp [putAll]
  | cons e r ih =>
    have he := hl e (by simp)
    have hke := hk e (by simp)
    obtain ⟨n1, c1, hs1, he1, ho1, g1⟩ := takeText_eq (s := s) he hke
    have idsame : ∀ a, ((MStore.takeText self s e).heap a).id = (s.heap a).id ∧ ((MStore.takeText self s e).heap a).graph = (s.heap a).graph := by
      intro a
      by_cases ha : a = self
      · subst ha; rw [hs1]; exact ⟨rfl, rfl⟩
      · by_cases hb : a = e.2
        · subst hb; rw [he1]; exact ⟨rfl, rfl⟩
        · rw [ho1 a ha hb]; exact ⟨rfl, rfl⟩
    obtain ⟨n2, c2, hs2, ho2, b2, g2⟩ := ih (s := MStore.takeText self s e) (fun x hx => hl x (by simp [hx]))
      (fun x hx => by rw [(idsame x.2).1]; exact hk x (by simp [hx]))
    simp only [List.foldl_cons]
    refine ⟨n2.trans n1, c2.trans c1, ?_, ?_, ?_, ?_⟩
    · rw [hs2, hs1]; rfl
    · intro a ha
      rw [ho2 a ha]
      by_cases hb : a = e.2
      · subst hb
        rw [he1]; simp
      · rw [ho1 a ha hb]
        have : (a ∈ (e :: r).map (·.2)) ↔ a ∈ r.map (·.2) := by simp only [List.map_cons, List.mem_cons, hb, false_or]
        by_cases hr : a ∈ r.map (·.2)
        · rw [if_pos hr, if_pos (this.2 hr)]
        · rw [if_neg hr, if_neg fun h => hr (this.1 h)]
    · intro g
      rw [b2, g1]
      split
      · rw [besides_insert]
      · rfl
    · intro g t
      rw [g2, g1]
      simp only [MStore.node, (idsame _).1, (idsame _).2, List.mem_cons, exists_eq_or_imp]
      by_cases hg : g = (s.heap e.2).graph
      · subst hg
        simp only [if_true, mem_insert, true_and]
        constructor
        · rintro ((h | h) | h)
          · exact .inl h
          · exact .inr (.inl h)
          · exact .inr (.inr h)
        · rintro (h | h | h)
          · exact .inl (.inl h)
          · exact .inl (.inr h)
          · exact .inr h
      · rw [if_neg hg]
        have : ¬ (s.heap e.2).graph = g := fun h => hg h.symm
        simp [this]


/-! ### Copies -/

theorem deepcopy_old {s : MStore} {a : Nat} (h : a < s.next) : s.deepcopy.heap a = s.heap a := by
  simp only [MStore.deepcopy]; rw [if_neg (by omega)]

theorem deepcopy_new {s : MStore} {a : Nat} (h : a < s.next) : s.deepcopy.heap (a + s.next) = (s.heap a).shift s.next s.graphCount := by
  simp only [MStore.deepcopy]; rw [if_pos (by omega), Nat.add_sub_cancel]

theorem deepcopy_graph_old {s : MStore} {g : Nat} (h : g < s.graphCount) : s.deepcopy.graphs g = s.graphs g := by
  simp only [MStore.deepcopy]; rw [if_neg (by omega)]

theorem deepcopy_graph_new {s : MStore} {g : Nat} (h : g < s.graphCount) : s.deepcopy.graphs (g + s.graphCount) = s.graphs g := by
  simp only [MStore.deepcopy]; rw [if_pos (by omega), Nat.add_sub_cancel]

theorem mem_of_getEntry {d : List (Str × Nat)} {k : Str} {x : Nat} (h : getEntry d k = some x) : (k, x) ∈ d := by
  induction d with
  | nil => simp [getEntry] at h
  | cons e r ih =>
    obtain ⟨k', w⟩ := e
    unfold getEntry at h
    split at h
    · rename_i hk; cases h; subst hk; simp
    · exact List.mem_cons_of_mem _ (ih h)

theorem getEntry_none {d : List (Str × Nat)} {k : Str} (h : getEntry d k = none) : k ∉ d.map (·.1) := by
  induction d with
  | nil => simp
  | cons e r ih =>
    obtain ⟨k', w⟩ := e
    unfold getEntry at h
    split at h
    · cases h
    · rename_i hk
      simp only [List.map_cons, List.mem_cons, not_or]
      exact ⟨fun h' => hk h'.symm, ih h⟩

theorem putEntry_none {d : List (Str × Nat)} {k : Str} {v : Nat} (h : k ∉ d.map (·.1)) : putEntry d k v = d ++ [(k, v)] := by
  induction d with
  | nil => rfl
  | cons e r ih =>
    obtain ⟨k', w⟩ := e
    simp only [List.map_cons, List.mem_cons, not_or] at h
    unfold putEntry
    rw [if_neg fun h' => h.1 h'.symm, ih h.2]; rfl

/-- A textgroup that has no such work gets a copy. -/
theorem takeWork_new {s : MStore} {self : Nat} {e : Str × Nat} (hself : self < s.next) (he : e.2 < s.next)
    (hk : (s.heap e.2).id = e.1) (hn : getEntry (s.heap self).children e.1 = none) :
    ∃ s', MStore.takeWork self s e = .ok s' ∧ s'.next = s.next + s.next ∧ s'.graphCount = s.graphCount + s.graphCount ∧
      s'.heap self = { s.heap self with children := (s.heap self).children ++ [(e.1, e.2 + s.next)] } ∧
      s'.heap (e.2 + s.next) = { (s.heap e.2).shift s.next s.graphCount with parent := some self, resource := none } ∧
      (∀ a, a ≠ self → a ≠ e.2 + s.next → s'.heap a = s.deepcopy.heap a) ∧
      (∀ g, s'.graphs g = if g = (s.heap e.2).graph + s.graphCount
        then (s.deepcopy.graphs g).insert ⟨s.node e.2, capParent, s.node self⟩ else s.deepcopy.graphs g) := by
  have hne : e.2 + s.next ≠ self := by omega
  have hd := deepcopy_old hself
  have hc := deepcopy_new he
  unfold MStore.takeWork
  rw [hn]
  refine ⟨_, rfl, ?_⟩
  rw [adopt_of_key hne]
  · refine ⟨rfl, rfl, ?_, ?_, ?_, ?_⟩
    · simp only [MStore.say, MStore.setObj, Ne.symm hne, if_true, if_false, hd]
      rw [putEntry_none (getEntry_none hn)]
    · simp only [MStore.say, MStore.setObj, hne, if_true, if_false, hc]
    · intro a h1 h2; simp only [MStore.say, MStore.setObj, h1, h2, if_false]
    · intro g
      simp only [MStore.say, MStore.setObj, MStore.node, hne, if_true, if_false, hc, hd]
      by_cases hg : g = (s.heap e.2).graph + s.graphCount
      · subst hg; simp only [MObj.shift, if_true]
      · rw [if_neg hg, if_neg (by simpa [MObj.shift] using hg)]
  · simp only [MStore.setObj, hne, if_true, if_false, hc]
    simp only [MObj.shift, hk]
    exact keys_putEntry _ _ _

/-- In a textgroup that has such a work the texts of the copy go to this work. -/
theorem takeWork_known {s : MStore} {self x : Nat} {e : Str × Nat} (hs : Sound s) (hself : self < s.next) (he : e.2 < s.next)
    (hct : (s.heap self).cls = .textgroup) (hcw : (s.heap e.2).cls = .work)
    (hk : (s.heap e.2).id = e.1) (hx : getEntry (s.heap self).children e.1 = some x) :
    ∃ s', MStore.takeWork self s e = .ok s' ∧ s'.next = s.next + s.next ∧ s'.graphCount = s.graphCount + s.graphCount ∧
      s'.heap x = { s.heap x with parent := some self, resource := none, children := putAll (s.heap x).children ((s.heap e.2).children.map fun c => (c.1, c.2 + s.next)) } ∧
      (∀ a, a ≠ x → s'.heap a = if a ∈ (s.heap e.2).children.map (fun c => c.2 + s.next) then
        { s.deepcopy.heap a with parent := some x, resource := none } else s.deepcopy.heap a) ∧
      (∀ g, besides (s'.graphs g) = besides (s.deepcopy.graphs g)) ∧
      (∀ g t, t ∈ s'.graphs g ↔ t ∈ s.deepcopy.graphs g ∨
        (∃ c ∈ (s.heap e.2).children, (s.heap c.2).graph + s.graphCount = g ∧ t = ⟨s.node c.2, capParent, s.node x⟩) ∨
        ((s.heap x).graph = g ∧ t = ⟨s.node x, capParent, s.node self⟩)) := by
  have hm := mem_of_getEntry hx
  have hxn : x < s.next := hs.exist self hself _ hm
  have hxk : (s.heap x).id = e.1 := hs.keyed self hself _ hm
  have hcx : (s.heap x).cls = .work := by
    have := hs.nested self hself _ hm
    rw [hct] at this
    simp only at this
    cases h : (s.heap x).cls <;> simp [holds, h] at this ⊢
  have hne : x ≠ self := by
    intro h; rw [h, hct] at hcx; cases hcx
  have hd := deepcopy_old hself
  have hdx := deepcopy_old hxn
  have hc := deepcopy_new he
  have hcl : s.deepcopy.updateFound x (e.2 + s.next) = .ok ((((s.heap e.2).children.map fun c => (c.1, c.2 + s.next))).foldl (MStore.takeText x) s.deepcopy) := by
    simp only [MStore.updateFound, hdx, hcx, MStore.workUpdate, hc]
    simp only [MObj.shift, hcw, hxk, hk]
    simp
  have hl1 : ∀ c ∈ ((s.heap e.2).children.map fun c => (c.1, c.2 + s.next)), c.2 ≠ x := by
    intro c hc'
    obtain ⟨c0, _, rfl⟩ := List.mem_map.1 hc'
    show c0.2 + s.next ≠ x
    omega
  have hl2 : ∀ c ∈ ((s.heap e.2).children.map fun c => (c.1, c.2 + s.next)), (s.deepcopy.heap c.2).id = c.1 := by
    intro c hc'
    obtain ⟨c0, h0, rfl⟩ := List.mem_map.1 hc'
    show (s.deepcopy.heap (c0.2 + s.next)).id = c0.1
    rw [deepcopy_new (hs.exist _ he _ h0)]
    exact hs.keyed _ he _ h0
  obtain ⟨n2, c2, hx2, ho2, b2, g2⟩ := takeTexts_eq _ hl1 hl2
  have hmem : ∀ a, a ∈ ((s.heap e.2).children.map fun c => (c.1, c.2 + s.next)).map (·.2) ↔ a ∈ (s.heap e.2).children.map (fun c => c.2 + s.next) := by
    intro a; simp
  have hselfmem : self ∉ ((s.heap e.2).children.map fun c => (c.1, c.2 + s.next)).map (·.2) := by
    rw [hmem]
    intro h
    obtain ⟨c0, _, h0⟩ := List.mem_map.1 h
    omega
  have hself2 := ho2 self hne.symm
  rw [if_neg hselfmem, hd] at hself2
  unfold MStore.takeWork
  rw [hx]
  simp only [hcl]
  refine ⟨_, rfl, ?_⟩
  rw [adopt_of_key hne]
  · refine ⟨by simp only [MStore.say, MStore.setObj, n2]; rfl, by simp only [MStore.say, MStore.setObj, c2]; rfl, ?_, ?_, ?_, ?_⟩
    · simp only [MStore.say, MStore.setObj, if_true, hx2, hdx]
    · intro a ha
      simp only [MStore.say, MStore.setObj, ha, if_false]
      rw [ho2 a ha]
      by_cases hin : a ∈ (s.heap e.2).children.map (fun c => c.2 + s.next)
      · rw [if_pos hin, if_pos ((hmem a).2 hin)]
      · rw [if_neg hin, if_neg fun h => hin ((hmem a).1 h)]
    · intro g
      simp only [MStore.say, MStore.setObj]
      split
      · rename_i hg; subst hg; rw [besides_insert, b2]
      · exact b2 g
    · intro g t
      have e1 : ∀ t, t ∈ (List.foldl (MStore.takeText x) s.deepcopy ((s.heap e.2).children.map fun c => (c.1, c.2 + s.next))).graphs g ↔
          t ∈ s.deepcopy.graphs g ∨ ∃ c ∈ (s.heap e.2).children, (s.heap c.2).graph + s.graphCount = g ∧ t = ⟨s.node c.2, capParent, s.node x⟩ := by
        intro t
        rw [g2]
        refine or_congr_right ⟨?_, ?_⟩
        · rintro ⟨c, hc', h1, h2⟩
          obtain ⟨c0, h0, rfl⟩ := List.mem_map.1 hc'
          have hh := deepcopy_new (hs.exist _ he _ h0)
          simp only [MStore.node, hh, hdx] at h1 h2
          exact ⟨c0, h0, h1, h2⟩
        · rintro ⟨c0, h0, h1, h2⟩
          have hh := deepcopy_new (hs.exist _ he _ h0)
          refine ⟨(c0.1, c0.2 + s.next), List.mem_map_of_mem h0, ?_, ?_⟩
          · simp only [hh]; exact h1
          · simp only [MStore.node, hh, hdx]; exact h2
      simp only [MStore.say, MStore.setObj, MStore.node, hx2, hself2, hdx]
      by_cases hg : (s.heap x).graph = g
      · subst hg
        rw [if_pos rfl, mem_insert, e1]
        simp only [MStore.node, true_and, or_assoc]
      · rw [if_neg fun h => hg h.symm, e1]
        simp only [MStore.node, hg, false_and, or_false]
  · rw [hx2, hself2, hdx]
    simp only [hxk]
    exact List.mem_map_of_mem (f := (·.1)) hm

/-! ### Soundness -/

theorem sound_deepcopy {s : MStore} (hs : Sound s) : Sound s.deepcopy := by
  have key : ∀ a, a < s.next + s.next → (a < s.next ∧ s.deepcopy.heap a = s.heap a) ∨
      ∃ b, b < s.next ∧ a = b + s.next ∧ s.deepcopy.heap a = (s.heap b).shift s.next s.graphCount := by
    intro a ha
    by_cases h : a < s.next
    · exact .inl ⟨h, deepcopy_old h⟩
    · refine .inr ⟨a - s.next, by omega, by omega, ?_⟩
      have : a = (a - s.next) + s.next := by omega
      rw [this, deepcopy_new (by omega), Nat.add_sub_cancel]
  constructor
  · intro a ha e he
    show e.2 < s.next + s.next
    rcases key a ha with ⟨h, h2⟩ | ⟨b, hb, rfl, h2⟩
    · rw [h2] at he; have := hs.exist a h e he; omega
    · rw [h2] at he
      obtain ⟨c, hc, rfl⟩ := List.mem_map.1 he
      have := hs.exist b hb c hc
      show c.2 + s.next < s.next + s.next
      omega
  · intro a ha e he
    rcases key a ha with ⟨h, h2⟩ | ⟨b, hb, rfl, h2⟩
    · rw [h2] at he; rw [deepcopy_old (hs.exist a h e he)]; exact hs.keyed a h e he
    · rw [h2] at he
      obtain ⟨c, hc, rfl⟩ := List.mem_map.1 he
      rw [deepcopy_new (hs.exist b hb c hc)]
      exact hs.keyed b hb c hc
  · intro a ha
    rcases key a ha with ⟨h, h2⟩ | ⟨b, hb, rfl, h2⟩
    · rw [h2]; exact hs.once a h
    · rw [h2]
      have : ((s.heap b).shift s.next s.graphCount).children.map (·.1) = (s.heap b).children.map (·.1) := by
        simp [MObj.shift]
      rw [this]; exact hs.once b hb
  · intro a ha e he
    rcases key a ha with ⟨h, h2⟩ | ⟨b, hb, rfl, h2⟩
    · rw [h2] at he ⊢; rw [deepcopy_old (hs.exist a h e he)]; exact hs.nested a h e he
    · rw [h2] at he ⊢
      obtain ⟨c, hc, rfl⟩ := List.mem_map.1 he
      rw [deepcopy_new (hs.exist b hb c hc)]
      exact hs.nested b hb c hc
  · intro a ha
    show _ < s.graphCount + s.graphCount
    rcases key a ha with ⟨h, h2⟩ | ⟨b, hb, rfl, h2⟩
    · rw [h2]; have := hs.graphs a h; omega
    · rw [h2]; have := hs.graphs b hb; simp only [MObj.shift]; omega

/-- Objects that are the same but for parent, children and resource. -/
def SameObj (o o' : MObj) : Prop :=
  o.cls = o'.cls ∧ o.id = o'.id ∧ o.urn = o'.urn ∧ o.kind = o'.kind ∧ o.cite = o'.cite ∧ o.path = o'.path ∧ o.graph = o'.graph

theorem sound_change {s s' : MStore} (hs : Sound s) (hn : s'.next = s.next) (hc : s'.graphCount = s.graphCount)
    (same : ∀ a, SameObj (s'.heap a) (s.heap a)) (b : Nat) (hb : ∀ a, a ≠ b → a < s.next → (s'.heap a).children = (s.heap a).children)
    (hbc : ∀ e ∈ (s'.heap b).children, e.2 < s.next ∧ (s.heap e.2).id = e.1 ∧ holds (s.heap b).cls (s.heap e.2).cls)
    (hbn : ((s'.heap b).children.map (·.1)).Nodup) : Sound s' := by
  constructor
  · intro a ha e he
    rw [hn] at ha ⊢
    by_cases h : a = b
    · subst h; exact (hbc e he).1
    · rw [hb a h ha] at he; exact hs.exist a ha e he
  · intro a ha e he
    rw [hn] at ha
    rw [(same e.2).2.1]
    by_cases h : a = b
    · subst h; exact (hbc e he).2.1
    · rw [hb a h ha] at he; exact hs.keyed a ha e he
  · intro a ha
    rw [hn] at ha
    by_cases h : a = b
    · subst h; exact hbn
    · rw [hb a h ha]; exact hs.once a ha
  · intro a ha e he
    rw [hn] at ha
    rw [(same e.2).1, (same a).1]
    by_cases h : a = b
    · subst h; exact (hbc e he).2.2
    · rw [hb a h ha] at he; exact hs.nested a ha e he
  · intro a ha
    rw [hn] at ha
    rw [hc, (same a).2.2.2.2.2.2]
    exact hs.graphs a ha

theorem mem_putEntry {d : List (Str × Nat)} {k : Str} {v : Nat} {e : Str × Nat} (h : e ∈ putEntry d k v) : e ∈ d ∨ e = (k, v) := by
  induction d with
  | nil => simp [putEntry] at h; exact .inr h
  | cons x r ih =>
    obtain ⟨k', w⟩ := x
    unfold putEntry at h
    split at h
    · rcases List.mem_cons.1 h with h | h
      · exact .inr h
      · exact .inl (List.mem_cons_of_mem _ h)
    · rcases List.mem_cons.1 h with h | h
      · exact .inl (by simp [h])
      · exact (ih h).imp (List.mem_cons_of_mem _) id

theorem mem_putAll {l d : List (Str × Nat)} {e : Str × Nat} (h : e ∈ putAll d l) : e ∈ d ∨ e ∈ l := by
  induction l generalizing d with
  | nil => exact .inl h
  | cons x r ih =>
    rcases ih (d := putEntry d x.1 x.2) h with h | h
    · rcases mem_putEntry h with h | h
      · exact .inl h
      · exact .inr (by simp [h])
    · exact .inr (List.mem_cons_of_mem _ h)

theorem mem_keys_putEntry {d : List (Str × Nat)} {k k' : Str} {v : Nat} : k' ∈ (putEntry d k v).map (·.1) ↔ k' = k ∨ k' ∈ d.map (·.1) := by
  induction d with
  | nil => simp [putEntry]
  | cons x r ih =>
    obtain ⟨k1, w⟩ := x
    unfold putEntry
    split
    · rename_i h; subst h; simp
    · simp only [List.map_cons, List.mem_cons, ih]; grind

theorem nodup_putEntry {d : List (Str × Nat)} {k : Str} {v : Nat} (h : (d.map (·.1)).Nodup) : ((putEntry d k v).map (·.1)).Nodup := by
  induction d with
  | nil => simp [putEntry]
  | cons x r ih =>
    obtain ⟨k1, w⟩ := x
    simp only [List.map_cons, List.nodup_cons] at h
    unfold putEntry
    split
    · rename_i hk; subst hk; simpa using h
    · rename_i hk
      simp only [List.map_cons, List.nodup_cons]
      refine ⟨?_, ih h.2⟩
      rw [mem_keys_putEntry]
      rintro (h' | h')
      · exact hk h'
      · exact h.1 h'

theorem nodup_putAll (l : List (Str × Nat)) {d : List (Str × Nat)} (h : (d.map (·.1)).Nodup) : ((putAll d l).map (·.1)).Nodup := by
  induction l generalizing d with
  | nil => exact h
  | cons x r ih => exact ih (nodup_putEntry h)

theorem holds_tg {c : MClass} : holds .textgroup c ↔ c = .work := by cases c <;> simp [holds]
theorem holds_work {c : MClass} : holds .work c ↔ c = .text := by cases c <;> simp [holds]

/-- All that a turn of the loop does. -/
structure Turn (s s' : MStore) (tg : Nat) (e : Str × Nat) : Prop where
  sound : Sound s'
  next : s'.next = s.next + s.next
  count : s'.graphCount = s.graphCount + s.graphCount
  same : ∀ a, SameObj (s'.heap a) (s.deepcopy.heap a)
  frame : ∀ a < s.next, a ≠ tg → getEntry (s.heap tg).children e.1 ≠ some a → s'.heap a = s.heap a
  kids : ∀ a, a ≠ tg → getEntry (s.heap tg).children e.1 ≠ some a → (s'.heap a).children = (s.deepcopy.heap a).children
  selfKids : (s'.heap tg).children =
    match getEntry (s.heap tg).children e.1 with
    | some _ => (s.heap tg).children
    | none => (s.heap tg).children ++ [(e.1, e.2 + s.next)]
  foundKids : ∀ x, getEntry (s.heap tg).children e.1 = some x →
    (s'.heap x).children = putAll (s.heap x).children ((s.heap e.2).children.map fun c => (c.1, c.2 + s.next))
  selfRest : { s'.heap tg with children := [] } = { s.heap tg with children := [] }
  adopted : ∃ y, getEntry (s'.heap tg).children e.1 = some y ∧ (s'.heap y).parent = some tg ∧
    (getEntry (s.heap tg).children e.1 = some y ∨ y = e.2 + s.next) ∧
    ((s.heap e.2).children.map (·.1)).Nodup ∧
    ∀ c ∈ (s.heap e.2).children, getEntry (s'.heap y).children c.1 = some (c.2 + s.next) ∧
      ((s.heap c.2).parent = some e.2 → (s'.heap (c.2 + s.next)).parent = some y)
  triples : ∀ g < s.graphCount, ∀ t, t ∈ s'.graphs g ↔ t ∈ s.graphs g ∨
    ∃ x, getEntry (s.heap tg).children e.1 = some x ∧ (s.heap x).graph = g ∧ t = ⟨s.node x, capParent, s.node tg⟩
  graphs : ∀ g, besides (s'.graphs g) = besides (s.deepcopy.graphs g)

theorem getEntry_of_mem {d : List (Str × Nat)} (hn : (d.map (·.1)).Nodup) {e : Str × Nat} (he : e ∈ d) : getEntry d e.1 = some e.2 := by
  induction d with
  | nil => cases he
  | cons x r ih =>
    obtain ⟨k', w⟩ := x
    simp only [List.map_cons, List.nodup_cons] at hn
    unfold getEntry
    rcases List.mem_cons.1 he with h | h
    · subst h; simp
    · rw [if_neg, ih hn.2 h]
      intro h'
      exact hn.1 (h' ▸ List.mem_map_of_mem (f := (·.1)) h)

theorem getEntry_putAll_other (l d : List (Str × Nat)) {k : Str} (hk : k ∉ l.map (·.1)) : getEntry (putAll d l) k = getEntry d k := by
  induction l generalizing d with
  | nil => rfl
  | cons x r ih =>
    simp only [List.map_cons, List.mem_cons, not_or] at hk
    show getEntry (putAll (putEntry d x.1 x.2) r) k = _
    rw [ih _ hk.2, getEntry_putEntry, if_neg hk.1]

theorem getEntry_putAll (l : List (Str × Nat)) {d : List (Str × Nat)} (hn : (l.map (·.1)).Nodup) {e : Str × Nat} (he : e ∈ l) :
    getEntry (putAll d l) e.1 = some e.2 := by
  induction l generalizing d with
  | nil => cases he
  | cons x r ih =>
    simp only [List.map_cons, List.nodup_cons] at hn
    show getEntry (putAll (putEntry d x.1 x.2) r) e.1 = _
    rcases List.mem_cons.1 he with h | h
    · subst h
      rw [getEntry_putAll_other _ _ hn.1, getEntry_putEntry, if_pos rfl]
    · exact ih hn.2 h

theorem getEntry_append {d : List (Str × Nat)} {k k' : Str} {v : Nat} (h : getEntry d k' = none) :
    getEntry (d ++ [(k', v)]) k = if k = k' then some v else getEntry d k := by
  rw [← putEntry_none (getEntry_none h), getEntry_putEntry]

theorem sameObj_refl (o : MObj) : SameObj o o := ⟨rfl, rfl, rfl, rfl, rfl, rfl, rfl⟩

theorem turn {s : MStore} {self : Nat} {e : Str × Nat} (hs : Sound s) (hself : self < s.next) (he : e.2 < s.next)
    (hct : (s.heap self).cls = .textgroup) (hcw : (s.heap e.2).cls = .work) (hk : (s.heap e.2).id = e.1) :
    ∃ s', MStore.takeWork self s e = .ok s' ∧ Turn s s' self e := by
  have hsd := sound_deepcopy hs
  have hd := deepcopy_old hself
  have hc := deepcopy_new he
  cases hx : getEntry (s.heap self).children e.1 with
  | none =>
    obtain ⟨s', h, n1, c1, hs1, he1, ho1, g1⟩ := takeWork_new hself he hk hx
    have hne : e.2 + s.next ≠ self := by omega
    have same : ∀ a, SameObj (s'.heap a) (s.deepcopy.heap a) := by
      intro a
      by_cases h1 : a = self
      · subst h1; rw [hs1, hd]; exact ⟨rfl, rfl, rfl, rfl, rfl, rfl, rfl⟩
      · by_cases h2 : a = e.2 + s.next
        · subst h2; rw [he1, hc]; exact ⟨rfl, rfl, rfl, rfl, rfl, rfl, rfl⟩
        · rw [ho1 a h1 h2]; exact sameObj_refl _
    have kids : ∀ a, a ≠ self → (s'.heap a).children = (s.deepcopy.heap a).children := by
      intro a h1
      by_cases h2 : a = e.2 + s.next
      · subst h2; rw [he1, hc]
      · rw [ho1 a h1 h2]
    have hself' : self < s.deepcopy.next := by show self < s.next + s.next; omega
    refine ⟨s', h, ?_, n1, c1, same, ?_, fun a h1 _ => kids a h1, by rw [hx, hs1], by simp [hx], by rw [hs1], ?_, ?_, ?_⟩
    · refine sound_change hsd n1 c1 same self (fun a h1 _ => kids a h1) ?_ ?_
      · rw [hs1]
        intro c hc'
        rcases List.mem_append.1 hc' with h1 | h1
        · rw [← hd] at h1
          exact ⟨hsd.exist _ hself' _ h1, hsd.keyed _ hself' _ h1, hsd.nested _ hself' _ h1⟩
        · simp only [List.mem_singleton] at h1
          subst h1
          refine ⟨by show e.2 + s.next < s.next + s.next; omega, ?_, ?_⟩
          · show (s.deepcopy.heap (e.2 + s.next)).id = e.1
            rw [hc]; exact hk
          · show holds (s.deepcopy.heap self).cls (s.deepcopy.heap (e.2 + s.next)).cls
            rw [hc, hd, hct]
            exact holds_tg.2 hcw
      · rw [hs1]
        simp only [List.map_append, List.map_cons, List.map_nil]
        rw [List.nodup_append]
        refine ⟨hs.once self hself, by simp, ?_⟩
        intro a ha b hb
        simp only [List.mem_singleton] at hb
        subst hb
        intro hab
        subst hab
        exact getEntry_none hx ha
    · intro a ha h1 _
      rw [ho1 a h1 (by omega), deepcopy_old ha]
    · refine ⟨e.2 + s.next, ?_, by rw [he1], .inr rfl, hs.once _ he, ?_⟩
      · rw [hs1]
        simp only [getEntry_append hx, if_true]
      · intro c hc'
        have hcn := hs.exist _ he c hc'
        constructor
        · rw [he1]
          have hmem : (c.1, c.2 + s.next) ∈ ((s.heap e.2).shift s.next s.graphCount).children := by
            simp only [MObj.shift]
            exact List.mem_map_of_mem (f := fun c : Str × Nat => (c.1, c.2 + s.next)) hc'
          have hnd : (((s.heap e.2).shift s.next s.graphCount).children.map (·.1)).Nodup := by
            have : ((s.heap e.2).shift s.next s.graphCount).children.map (·.1) = (s.heap e.2).children.map (·.1) := by simp [MObj.shift]
            rw [this]; exact hs.once _ he
          exact getEntry_of_mem hnd hmem
        · intro hp
          by_cases h2 : c.2 = e.2
          · exfalso
            have := hs.nested _ he c hc'
            rw [h2, hcw] at this
            exact this
          · rw [ho1 _ (by omega) (by omega), deepcopy_new hcn]
            simp only [MObj.shift, hp, Option.map_some]
    · intro g hg t
      rw [g1, if_neg (by omega), deepcopy_graph_old hg]
      simp [hx]
    · intro g
      rw [g1]
      split
      · rw [besides_insert]
      · rfl
  | some x =>
    obtain ⟨s', h, n1, c1, hx1, ho1, b1, g1⟩ := takeWork_known hs hself he hct hcw hk hx
    have hm := mem_of_getEntry hx
    have hxn : x < s.next := hs.exist self hself _ hm
    have hcx : (s.heap x).cls = .work := by
      have := hs.nested self hself _ hm
      rw [hct] at this
      exact holds_tg.1 this
    have hne : self ≠ x := by
      intro h; rw [← h, hct] at hcx; cases hcx
    have hdx := deepcopy_old hxn
    have same : ∀ a, SameObj (s'.heap a) (s.deepcopy.heap a) := by
      intro a
      by_cases h1 : a = x
      · subst h1; rw [hx1, hdx]; exact ⟨rfl, rfl, rfl, rfl, rfl, rfl, rfl⟩
      · rw [ho1 a h1]
        split
        · exact ⟨rfl, rfl, rfl, rfl, rfl, rfl, rfl⟩
        · exact sameObj_refl _
    have kids : ∀ a, a ≠ x → (s'.heap a).children = (s.deepcopy.heap a).children := by
      intro a h1
      rw [ho1 a h1]
      split <;> rfl
    have hlow : ∀ a < s.next, a ≠ x → s'.heap a = s.heap a := by
      intro a ha h1
      rw [ho1 a h1, if_neg, deepcopy_old ha]
      intro hin
      obtain ⟨c0, _, h0⟩ := List.mem_map.1 hin
      omega
    refine ⟨s', h, ?_, n1, c1, same, ?_, ?_, ?_, ?_, ?_, ?_, ?_, b1⟩
    · refine sound_change hsd n1 c1 same x (fun a h1 _ => kids a h1) ?_ ?_
      · rw [hx1]
        intro c hc'
        rcases mem_putAll hc' with h1 | h1
        · have h2 : c ∈ (s.deepcopy.heap x).children := by rw [hdx]; exact h1
          have hx' : x < s.deepcopy.next := by show x < s.next + s.next; omega
          exact ⟨hsd.exist _ hx' _ h2, hsd.keyed _ hx' _ h2, hsd.nested _ hx' _ h2⟩
        · have hx' : e.2 + s.next < s.deepcopy.next := by show e.2 + s.next < s.next + s.next; omega
          have h2 : c ∈ (s.deepcopy.heap (e.2 + s.next)).children := by rw [hc]; exact h1
          refine ⟨hsd.exist _ hx' _ h2, hsd.keyed _ hx' _ h2, ?_⟩
          have := hsd.nested _ hx' _ h2
          rw [hc] at this
          have h3 : ((s.heap e.2).shift s.next s.graphCount).cls = .work := hcw
          rw [h3] at this
          rw [hdx, hcx]; exact this
      · rw [hx1]
        exact nodup_putAll _ (hs.once x hxn)
    · intro a ha _ h1
      exact hlow a ha fun h' => h1 (by rw [hx, h'])
    · intro a _ h1
      exact kids a fun h' => h1 (by rw [hx, h'])
    · rw [hx, hlow self hself hne]
    · intro y hy
      rw [hx] at hy
      cases hy
      rw [hx1]
    · rw [hlow self hself hne]
    · refine ⟨x, by rw [hlow self hself hne, hx], by rw [hx1], .inl hx, hs.once _ he, ?_⟩
      intro c hc'
      have hcn := hs.exist _ he c hc'
      constructor
      · rw [hx1]
        refine getEntry_putAll _ (e := (c.1, c.2 + s.next)) ?_ (List.mem_map_of_mem (f := fun c : Str × Nat => (c.1, c.2 + s.next)) hc')
        have : ((s.heap e.2).children.map fun c => (c.1, c.2 + s.next)).map (·.1) = (s.heap e.2).children.map (·.1) := by simp
        rw [this]; exact hs.once _ he
      · intro _
        rw [ho1 _ (by omega), if_pos (List.mem_map_of_mem (f := fun c : Str × Nat => c.2 + s.next) hc')]
    · intro g hg t
      rw [g1, deepcopy_graph_old hg]
      refine or_congr_right ⟨?_, ?_⟩
      · rintro (⟨c, _, h1, _⟩ | ⟨h1, h2⟩)
        · omega
        · exact ⟨x, hx, h1, h2⟩
      · rintro ⟨y, hy, h1, h2⟩
        rw [hx] at hy
        cases hy
        exact .inr ⟨h1, h2⟩

/-! ### Views -/

theorem map_putEntry {β : Type} {key : β → Str} {f : Str × Nat → β} {d : List (Str × Nat)} {k : Str} {v : Nat}
    (hd : ∀ e ∈ d, key (f e) = e.1) (hv : key (f (k, v)) = k) : (putEntry d k v).map f = putKeyed key (d.map f) (f (k, v)) := by
  induction d with
  | nil => rfl
  | cons x r ih =>
    obtain ⟨k', w⟩ := x
    have h1 := hd (k', w) (by simp)
    simp only at h1
    unfold putEntry
    simp only [List.map_cons, putKeyed, h1, hv]
    split
    · simp
    · simp [ih fun e he => hd e (by simp [he])]

theorem map_putAll {β : Type} {key : β → Str} {f : Str × Nat → β} {l d : List (Str × Nat)}
    (hd : ∀ e ∈ d, key (f e) = e.1) (hl : ∀ e ∈ l, key (f e) = e.1) : (putAll d l).map f = (l.map f).foldl (putKeyed key) (d.map f) := by
  induction l generalizing d with
  | nil => rfl
  | cons x r ih =>
    simp only [List.map_cons, List.foldl_cons]
    rw [← map_putEntry hd (hl x (by simp))]
    refine ih ?_ fun e he => hl e (by simp [he])
    intro e he
    rcases mem_putEntry he with h | h
    · exact hd e h
    · rw [h]; exact hl x (by simp)

/-- Changing what is found under a key changes the list of views in this place. -/
theorem map_change {β : Type} {key : β → Str} {f f' : Str × Nat → β} {d : List (Str × Nat)} {k : Str} {x : Nat}
    (hn : (d.map (·.1)).Nodup) (hd : ∀ e ∈ d, key (f e) = e.1) (hx : getEntry d k = some x)
    (hv : key (f' (k, x)) = k) (hf : ∀ e ∈ d, e.1 ≠ k → f' e = f e) : d.map f' = putKeyed key (d.map f) (f' (k, x)) := by
  induction d with
  | nil => simp [getEntry] at hx
  | cons y r ih =>
    obtain ⟨k', w⟩ := y
    simp only [List.map_cons, List.nodup_cons] at hn
    have h1 := hd (k', w) (by simp)
    simp only at h1
    unfold getEntry at hx
    simp only [List.map_cons, putKeyed, h1, hv]
    split at hx
    · rename_i hk
      cases hx
      subst hk
      rw [if_pos rfl]
      congr 1
      refine List.map_congr_left fun e he => hf e (by simp [he]) ?_
      intro h2
      exact hn.1 (h2 ▸ List.mem_map_of_mem (f := (·.1)) he)
    · rename_i hk
      rw [if_neg hk, hf _ (by simp) hk, ih hn.2 (fun e he => hd e (by simp [he])) hx fun e he => hf e (by simp [he])]

theorem find_map_view {β : Type} {key : β → Str} {f : Str × Nat → β} {d : List (Str × Nat)} (k : Str)
    (hd : ∀ e ∈ d, key (f e) = e.1) : (d.map f).find? (fun b => key b == k) = (getEntry d k).map fun x => f (k, x) := by
  induction d with
  | nil => rfl
  | cons y r ih =>
    obtain ⟨k', w⟩ := y
    have h1 := hd (k', w) (by simp)
    simp only at h1
    unfold getEntry
    simp only [List.map_cons, List.find?_cons, h1]
    by_cases hk : k' = k
    · subst hk; simp
    · rw [if_neg hk, beq_false_of_ne hk]; exact ih fun e he => hd e (by simp [he])

section Views
variable {order : Order} {s s' : MStore} {self : Nat} {e : Str × Nat}

theorem lang_view (ho : Rearranges order) (one : OneLanguage s) {a a' : Nat} (hg : (s.heap a).graph < s.graphCount)
    (hid : (s'.heap a').id = (s.heap a).id) (hb : besides (s'.graphOf a') = besides (s.graphOf a)) :
    getLang order (s'.graphOf a') (s'.node a') = getLang order (s.graphOf a) (s.node a) := by
  have hn : s'.node a' = s.node a := by unfold MStore.node; rw [hid]
  rw [hn]
  symm
  refine lang_eq ho ?_ ?_
  · intro l l' h1 h2
    rw [language_eq] at h1 h2
    exact one _ hg _ l l' h1 h2
  · intro l
    exact mem_of_besides hb.symm language_ne_parent

theorem turn_graph_old (t : Turn s s' self e) (hs : Sound s) {a : Nat} (ha : a < s.next) : besides (s'.graphOf a) = besides (s.graphOf a) := by
  unfold MStore.graphOf
  have h := (t.same a).2.2.2.2.2.2
  rw [deepcopy_old ha] at h
  rw [h, t.graphs, deepcopy_graph_old (hs.graphs a ha)]

theorem turn_graph_new (t : Turn s s' self e) (hs : Sound s) {a : Nat} (ha : a < s.next) : besides (s'.graphOf (a + s.next)) = besides (s.graphOf a) := by
  unfold MStore.graphOf
  have h := (t.same (a + s.next)).2.2.2.2.2.2
  rw [deepcopy_new ha] at h
  rw [h, t.graphs]
  simp only [MObj.shift]
  rw [deepcopy_graph_new (hs.graphs a ha)]

theorem text_old (t : Turn s s' self e) (hs : Sound s) (ho : Rearranges order) (one : OneLanguage s) {a : Nat} (ha : a < s.next) :
    textView order s' a = textView order s a := by
  have h := t.same a
  rw [deepcopy_old ha] at h
  obtain ⟨_, h1, h2, h3, h4, h5, _⟩ := h
  unfold textView
  rw [lang_view ho one (hs.graphs a ha) h1 (turn_graph_old t hs ha), h1, h2, h3, h4, h5]

theorem text_new (t : Turn s s' self e) (hs : Sound s) (ho : Rearranges order) (one : OneLanguage s) {a : Nat} (ha : a < s.next) :
    textView order s' (a + s.next) = textView order s a := by
  have h := t.same (a + s.next)
  rw [deepcopy_new ha] at h
  obtain ⟨_, h1, h2, h3, h4, h5, _⟩ := h
  simp only [MObj.shift] at h1 h2 h3 h4 h5
  unfold textView
  rw [lang_view ho one (hs.graphs a ha) h1 (turn_graph_new t hs ha), h1, h2, h3, h4, h5]

theorem work_old (t : Turn s s' self e) (hs : Sound s) (ho : Rearranges order) (one : OneLanguage s) {a : Nat} (ha : a < s.next)
    (h1 : a ≠ self) (h2 : getEntry (s.heap self).children e.1 ≠ some a) : workView order s' a = workView order s a := by
  have h := t.frame a ha h1 h2
  unfold workView
  rw [lang_view ho one (hs.graphs a ha) (by rw [h]) (turn_graph_old t hs ha), h]
  congr 1
  exact List.map_congr_left fun c hc => text_old t hs ho one (hs.exist a ha c hc)

/-- The step of the loop on views. -/
theorem turn_view (t : Turn s s' self e) (hs : Sound s) (ho : Rearranges order) (one : OneLanguage s) (hself : self < s.next) (he : e.2 < s.next)
    (hct : (s.heap self).cls = .textgroup) (hcw : (s.heap e.2).cls = .work) (hk : (s.heap e.2).id = e.1) :
    tgStep (tgView order s self).works (workView order s e.2) = .ok (tgView order s' self).works := by
  have hkey : ∀ c ∈ (s.heap self).children, WorkV.id (workView order s c.2) = c.1 := fun c hc => hs.keyed self hself c hc
  have hnot : ∀ c ∈ (s.heap self).children, c.2 ≠ self := by
    intro c hc h
    have := hs.nested self hself c hc
    rw [h, hct] at this
    exact this
  unfold tgStep
  simp only [tgView]
  rw [find_map_view (key := WorkV.id) (f := fun c => workView order s c.2) (workView order s e.2).id hkey]
  have hwid : (workView order s e.2).id = e.1 := hk
  rw [hwid]
  have hsk := t.selfKids
  cases hx : getEntry (s.heap self).children e.1 with
  | none =>
    rw [hx] at hsk
    simp only [Option.map_none, hsk, List.map_append, List.map_cons, List.map_nil]
    rw [putKeyed_of_not_mem]
    · congr 2
      · refine List.map_congr_left fun c hc => ?_
        exact (work_old t hs ho one (hs.exist _ hself c hc) (hnot c hc) (by rw [hx]; simp)).symm
      · congr 1
        -- the copy
        unfold workView
        have h := t.same (e.2 + s.next)
        rw [deepcopy_new he] at h
        have h1 : (s'.heap (e.2 + s.next)).id = (s.heap e.2).id := h.2.1
        have hkids := t.kids (e.2 + s.next) (by omega) (by rw [hx]; simp)
        rw [deepcopy_new he] at hkids
        rw [lang_view ho one (hs.graphs _ he) h1 (turn_graph_new t hs he), h1, hkids]
        simp only [MObj.shift, List.map_map]
        congr 1
        refine List.map_congr_left fun c hc => ?_
        exact (text_new t hs ho one (hs.exist _ he c hc)).symm
    · rw [hwid]
      intro hin
      refine getEntry_none hx ?_
      obtain ⟨w, hw, h2⟩ := List.mem_map.1 hin
      obtain ⟨c, hc, rfl⟩ := List.mem_map.1 hw
      rw [hkey c hc] at h2
      exact h2 ▸ List.mem_map_of_mem (f := (·.1)) hc
  | some x =>
    rw [hx] at hsk
    have hm := mem_of_getEntry hx
    have hxn : x < s.next := hs.exist self hself _ hm
    have hxk : (s.heap x).id = e.1 := hs.keyed self hself _ hm
    have hfound := t.foundKids x hx
    have hxs := t.same x
    rw [deepcopy_old hxn] at hxs
    have hview : workView order s' x = { workView order s x with
        texts := (workView order s e.2).texts.foldl (putKeyed TextV.id) (workView order s x).texts } := by
      unfold workView
      rw [lang_view ho one (hs.graphs x hxn) hxs.2.1 (turn_graph_old t hs hxn), hxs.2.1, hfound]
      congr 1
      rw [map_putAll (key := TextV.id) (f := fun c => textView order s' c.2)]
      · simp only [List.map_map]
        have e1 : (s.heap e.2).children.map ((fun c => textView order s' c.2) ∘ fun c => (c.1, c.2 + s.next)) =
            (s.heap e.2).children.map fun c => textView order s c.2 :=
          List.map_congr_left fun c hc => text_new t hs ho one (hs.exist _ he c hc)
        have e2 : (s.heap x).children.map (fun c => textView order s' c.2) = (s.heap x).children.map fun c => textView order s c.2 :=
          List.map_congr_left fun c hc => text_old t hs ho one (hs.exist _ hxn c hc)
        rw [e1, e2]
      · intro c hc
        rw [text_old t hs ho one (hs.exist _ hxn c hc)]
        exact hs.keyed x hxn c hc
      · intro c hc
        obtain ⟨c0, h0, rfl⟩ := List.mem_map.1 hc
        simp only
        rw [text_new t hs ho one (hs.exist _ he c0 h0)]
        exact hs.keyed _ he c0 h0
    simp only [Option.map_some]
    have hup : workUpdate (workView order s x) (.work (workView order s e.2)) = .ok (workView order s' x) := by
      rw [hview, workUpdate, if_neg]
      simp only [workView, hxk, hk, ne_eq, not_true, not_false_eq_true]
    rw [hup]
    simp only
    congr 1
    rw [hsk]
    refine (map_change (key := WorkV.id) (f := fun c => workView order s c.2) (f' := fun c => workView order s' c.2)
      (hs.once self hself) hkey hx ?_ ?_).symm
    · simp only [workView, hxs.2.1, hxk]
    · intro c hc hne
      refine work_old t hs ho one (hs.exist _ hself c hc) (hnot c hc) ?_
      rw [hx]
      intro h
      cases h
      exact hne (by rw [← hs.keyed self hself c hc, hxk])

end Views

/-! ### The loop -/

theorem one_turn {s s' : MStore} {self : Nat} {e : Str × Nat} (t : Turn s s' self e) (one : OneLanguage s) : OneLanguage s' := by
  intro g hg n l l' h1 h2
  rw [t.count] at hg
  have ne : (Term.uri "http://purl.org/dc/elements/1.1/language".toList) ≠ capParent := by rw [← language_eq]; exact language_ne_parent
  rw [mem_of_besides (t.graphs g) ne] at h1 h2
  by_cases h : g < s.graphCount
  · rw [deepcopy_graph_old h] at h1 h2
    exact one g h n l l' h1 h2
  · have : g = (g - s.graphCount) + s.graphCount := by omega
    rw [this, deepcopy_graph_new (by omega)] at h1 h2
    exact one _ (by omega) n l l' h1 h2

theorem turn_lookup {s s' : MStore} {self : Nat} {e : Str × Nat} (t : Turn s s' self e) {k : Str} (hk : k ≠ e.1) :
    getEntry (s'.heap self).children k = getEntry (s.heap self).children k := by
  have h := t.selfKids
  cases hx : getEntry (s.heap self).children e.1 with
  | none =>
    rw [hx] at h
    rw [h]
    show getEntry ((s.heap self).children ++ [(e.1, e.2 + s.next)]) k = _
    rw [getEntry_append hx, if_neg hk]
  | some x =>
    rw [hx] at h
    rw [h]

/-- All that the loop does. -/
structure Merged (s s' : MStore) (tg : Nat) (l : List (Str × Nat)) : Prop where
  sound : Sound s'
  one : OneLanguage s'
  next : s.next ≤ s'.next
  count : s.graphCount ≤ s'.graphCount
  frame : ∀ a < s.next, a ≠ tg → (∀ e ∈ l, getEntry (s.heap tg).children e.1 ≠ some a) → s'.heap a = s.heap a
  same : ∀ a < s.next, SameObj (s'.heap a) (s.heap a)
  selfRest : { s'.heap tg with children := [] } = { s.heap tg with children := [] }
  graphs : ∀ g < s.graphCount, besides (s'.graphs g) = besides (s.graphs g)
  triples : ∀ g < s.graphCount, ∀ t, t ∈ s'.graphs g ↔ t ∈ s.graphs g ∨
    ∃ e ∈ l, ∃ x, getEntry (s.heap tg).children e.1 = some x ∧ (s.heap x).graph = g ∧ t = ⟨s.node x, capParent, s.node tg⟩
  lookup : ∀ k, k ∉ l.map (·.1) → getEntry (s'.heap tg).children k = getEntry (s.heap tg).children k
  held : ∀ k y, getEntry (s.heap tg).children k = some y → getEntry (s'.heap tg).children k = some y
  fresh : ∀ k y, getEntry (s'.heap tg).children k = some y →
    getEntry (s.heap tg).children k = some y ∨ (s.next ≤ y ∧ s.graphCount ≤ (s'.heap y).graph)
  freshTexts : ∀ k y, getEntry (s'.heap tg).children k = some y → ∀ c ∈ (s'.heap y).children,
    (y < s.next ∧ c ∈ (s.heap y).children) ∨ (s.next ≤ c.2 ∧ s.graphCount ≤ (s'.heap c.2).graph)
  whence : ∀ k y, getEntry (s'.heap tg).children k = some y → ∀ c ∈ (s'.heap y).children,
    (y < s.next ∧ c ∈ (s.heap y).children) ∨ ∃ e ∈ l, e.1 = k ∧ c.1 ∈ (s.heap e.2).children.map (·.1)
  kept : ∀ k y, getEntry (s.heap tg).children k = some y → ∀ c ∈ (s.heap y).children,
    (∀ e ∈ l, e.1 = k → c.1 ∉ (s.heap e.2).children.map (·.1)) → c ∈ (s'.heap y).children
  came : ∀ e ∈ l, ∃ y, getEntry (s'.heap tg).children e.1 = some y ∧ (s'.heap y).parent = some tg ∧
    (getEntry (s.heap tg).children e.1 = none → besides (s'.graphOf y) = besides (s.graphOf e.2)) ∧
    ∀ c ∈ (s.heap e.2).children, ∃ t, getEntry (s'.heap y).children c.1 = some t ∧ s.next ≤ t ∧
      ((s.heap c.2).parent = some e.2 → (s'.heap t).parent = some y) ∧ besides (s'.graphOf t) = besides (s.graphOf c.2)

theorem turn_child {s s' : MStore} {self : Nat} {e : Str × Nat} (t : Turn s s' self e) (hs : Sound s) (hself : self < s.next) (he : e.2 < s.next)
    {y : Nat} {k : Str} (hy : getEntry (s'.heap self).children k = some y) (c : Str × Nat) (hc : c ∈ (s'.heap y).children)
    (hne : ∀ k y, getEntry (s.heap self).children k = some y → y ≠ self) :
    (y < s.next ∧ c ∈ (s.heap y).children) ∨ (s.next ≤ c.2 ∧ s.graphCount ≤ (s'.heap c.2).graph) := by
  have fresh : ∀ b, b < s.next → s.next ≤ b + s.next ∧ s.graphCount ≤ (s'.heap (b + s.next)).graph := by
    intro b hb
    refine ⟨by omega, ?_⟩
    rw [(t.same _).2.2.2.2.2.2, deepcopy_new hb]
    simp only [MObj.shift]; omega
  have low : ∀ x, getEntry (s.heap self).children k = some x → x < s.next := fun x hx => hs.exist _ hself _ (mem_of_getEntry hx)
  have old : ∀ x, getEntry (s.heap self).children k = some x → getEntry (s.heap self).children e.1 ≠ some x → x = y →
      (y < s.next ∧ c ∈ (s.heap y).children) := by
    intro x hx hn e'
    subst e'
    have := t.kids x (hne k x hx) hn
    rw [deepcopy_old (low x hx)] at this
    rw [this] at hc
    exact ⟨low x hx, hc⟩
  by_cases hk : k = e.1
  · subst hk
    cases hx : getEntry (s.heap self).children e.1 with
    | none =>
      have h := t.selfKids
      rw [hx] at h
      rw [h] at hy
      simp only [getEntry_append hx, if_true, Option.some.injEq] at hy
      subst hy
      have hkids := t.kids (e.2 + s.next) (by omega) (by rw [hx]; simp)
      rw [hkids, deepcopy_new he] at hc
      obtain ⟨c0, h0, rfl⟩ := List.mem_map.1 hc
      exact .inr (fresh _ (hs.exist _ he c0 h0))
    | some x =>
      have h := t.selfKids
      rw [hx] at h
      rw [h, hx] at hy
      cases hy
      rw [t.foundKids _ hx] at hc
      rcases mem_putAll hc with h1 | h1
      · exact .inl ⟨low _ hx, h1⟩
      · obtain ⟨c0, h0, rfl⟩ := List.mem_map.1 h1
        exact .inr (fresh _ (hs.exist _ he c0 h0))
  · rw [turn_lookup t hk] at hy
    refine .inl (old y hy ?_ rfl)
    intro hx
    have h1 := hs.keyed _ hself _ (mem_of_getEntry hy)
    have h2 := hs.keyed _ hself _ (mem_of_getEntry hx)
    exact hk (h1.symm.trans h2)

theorem turn_whence {s s' : MStore} {self : Nat} {e : Str × Nat} (t : Turn s s' self e) (hs : Sound s) (hself : self < s.next) (he : e.2 < s.next)
    {y : Nat} {k : Str} (hy : getEntry (s'.heap self).children k = some y) (c : Str × Nat) (hc : c ∈ (s'.heap y).children)
    (hne : ∀ k y, getEntry (s.heap self).children k = some y → y ≠ self) :
    (y < s.next ∧ c ∈ (s.heap y).children) ∨ (k = e.1 ∧ c.1 ∈ (s.heap e.2).children.map (·.1)) := by
  have low : ∀ x, getEntry (s.heap self).children k = some x → x < s.next := fun x hx => hs.exist _ hself _ (mem_of_getEntry hx)
  by_cases hk : k = e.1
  · subst hk
    cases hx : getEntry (s.heap self).children e.1 with
    | none =>
      have h := t.selfKids
      rw [hx] at h
      rw [h] at hy
      simp only [getEntry_append hx, if_true, Option.some.injEq] at hy
      subst hy
      have hkids := t.kids (e.2 + s.next) (by omega) (by rw [hx]; simp)
      rw [hkids, deepcopy_new he] at hc
      obtain ⟨c0, h0, rfl⟩ := List.mem_map.1 hc
      exact .inr ⟨rfl, List.mem_map.2 ⟨c0, h0, rfl⟩⟩
    | some x =>
      have h := t.selfKids
      rw [hx] at h
      rw [h, hx] at hy
      cases hy
      rw [t.foundKids _ hx] at hc
      rcases mem_putAll hc with h1 | h1
      · exact .inl ⟨low _ hx, h1⟩
      · obtain ⟨c0, h0, rfl⟩ := List.mem_map.1 h1
        exact .inr ⟨rfl, List.mem_map.2 ⟨c0, h0, rfl⟩⟩
  · rw [turn_lookup t hk] at hy
    have hn : getEntry (s.heap self).children e.1 ≠ some y := by
      intro hx
      have h1 := hs.keyed _ hself _ (mem_of_getEntry hy)
      have h2 := hs.keyed _ hself _ (mem_of_getEntry hx)
      exact hk (h1.symm.trans h2)
    have := t.kids y (hne k y hy) hn
    rw [deepcopy_old (low y hy)] at this
    rw [this] at hc
    exact .inl ⟨low y hy, hc⟩

/-- The loop, with its effect on objects, graphs and views. -/
theorem merge_loop {order : Order} (ho : Rearranges order) {self : Nat} (l : List (Str × Nat)) {s : MStore} (hs : Sound s) (one : OneLanguage s)
    (hself : self < s.next) (hct : (s.heap self).cls = .textgroup) (hl : (l.map (·.1)).Nodup)
    (he : ∀ e ∈ l, e.2 < s.next ∧ (s.heap e.2).cls = .work ∧ (s.heap e.2).id = e.1 ∧ e.2 ∉ heldBy s self) :
    ∃ s', MStore.takeWorks self s l = .ok s' ∧ Merged s s' self l ∧
      tgLoop (tgView order s self).works (l.map fun e => workView order s e.2) = .ok (tgView order s' self).works := by
  induction l generalizing s with
  | nil =>
    refine ⟨s, rfl, ⟨hs, one, Nat.le_refl _, Nat.le_refl _, fun _ _ _ _ => rfl, fun a _ => sameObj_refl _, rfl, fun _ _ => rfl, by simp, fun _ _ => rfl, fun _ _ h => h,
      fun _ _ h => .inl h, ?_, ?_, fun _ _ _ _ hc _ => hc, by simp⟩, by simp [tgLoop]⟩
    · intro k y hy c hc
      have : y < s.next := hs.exist _ hself _ (mem_of_getEntry hy)
      exact .inl ⟨this, hc⟩
    · intro k y hy c hc
      have : y < s.next := hs.exist _ hself _ (mem_of_getEntry hy)
      exact .inl ⟨this, hc⟩
  | cons e r ih =>
    obtain ⟨h1, h2, h3, h4⟩ := he e (by simp)
    obtain ⟨s1, hok, t⟩ := turn hs hself h1 hct h2 h3
    have hself1 : self < s1.next := by rw [t.next]; omega
    have same1 : ∀ a < s.next, SameObj (s1.heap a) (s.heap a) := by
      intro a ha
      have := t.same a
      rwa [deepcopy_old ha] at this
    have hct1 : (s1.heap self).cls = .textgroup := by rw [(same1 self hself).1]; exact hct
    simp only [List.map_cons, List.nodup_cons] at hl
    have notSelf : ∀ k y, getEntry (s.heap self).children k = some y → y ≠ self := by
      intro k y hy h
      have := hs.nested _ hself _ (mem_of_getEntry hy)
      simp only [h, hct] at this
      exact this
    have held1 : ∀ a, a < s.next → a ∉ heldBy s self → a ∉ heldBy s1 self := by
      intro a ha hn hin
      obtain ⟨c, hc, h⟩ := List.mem_map.1 hin
      have hk := t.selfKids
      cases hx : getEntry (s.heap self).children e.1 with
      | some x =>
        rw [hx] at hk
        rw [hk] at hc
        exact hn (List.mem_map.2 ⟨c, hc, h⟩)
      | none =>
        rw [hx] at hk
        rw [hk] at hc
        rcases List.mem_append.1 hc with hc | hc
        · exact hn (List.mem_map.2 ⟨c, hc, h⟩)
        · simp only [List.mem_singleton] at hc
          subst hc
          simp only at h
          omega
    have notFound : ∀ a, a ∉ heldBy s self → ∀ k, getEntry (s.heap self).children k ≠ some a := by
      intro a hn k hk
      exact hn (List.mem_map.2 ⟨_, mem_of_getEntry hk, rfl⟩)
    have workNe : ∀ a, (s.heap a).cls ≠ .textgroup → a ≠ self := by
      intro a ha h; rw [h] at ha; exact ha hct
    have frameE : ∀ x ∈ r, s1.heap x.2 = s.heap x.2 := by
      intro x hx
      obtain ⟨x1, x2, x3, x4⟩ := he x (by simp [hx])
      exact t.frame _ x1 (workNe _ (by rw [x2]; simp)) (notFound _ x4 _)
    have he1 : ∀ x ∈ r, x.2 < s1.next ∧ (s1.heap x.2).cls = .work ∧ (s1.heap x.2).id = x.1 ∧ x.2 ∉ heldBy s1 self := by
      intro x hx
      obtain ⟨x1, x2, x3, x4⟩ := he x (by simp [hx])
      refine ⟨by rw [t.next]; omega, ?_, ?_, held1 _ x1 x4⟩
      · rw [(same1 _ x1).1]; exact x2
      · rw [(same1 _ x1).2.1]; exact x3
    obtain ⟨s', hok', m, hview⟩ := ih t.sound (one_turn t one) hself1 hct1 hl.2 he1
    have lookup1 : ∀ x ∈ r, getEntry (s1.heap self).children x.1 = getEntry (s.heap self).children x.1 := by
      intro x hx
      refine turn_lookup t ?_
      intro h
      exact hl.1 (h ▸ List.mem_map_of_mem (f := (·.1)) hx)
    -- objects of `s1` that the rest of the loop leaves alone
    have later : ∀ a < s1.next, a ≠ self → (∀ k, k ≠ e.1 → getEntry (s1.heap self).children k ≠ some a) → s'.heap a = s1.heap a := by
      intro a ha hne hk
      refine m.frame a ha hne fun x hx => hk x.1 ?_
      intro h
      exact hl.1 (h ▸ List.mem_map_of_mem (f := (·.1)) hx)
    have gNext : ∀ a, a < s1.next → besides (s'.graphOf a) = besides (s1.graphOf a) := by
      intro a ha
      unfold MStore.graphOf
      rw [(m.same a ha).2.2.2.2.2.2, m.graphs _ (t.sound.graphs a ha)]
    have lookupE : getEntry (s'.heap self).children e.1 = getEntry (s1.heap self).children e.1 := m.lookup _ hl.1
    have twoKeys : ∀ k k' a, getEntry (s1.heap self).children k = some a → getEntry (s1.heap self).children k' = some a → k = k' := by
      intro k k' a h h'
      have a1 := t.sound.keyed _ hself1 _ (mem_of_getEntry h)
      have a2 := t.sound.keyed _ hself1 _ (mem_of_getEntry h')
      exact a1.symm.trans a2
    refine ⟨s', by rw [MStore.takeWorks, hok]; exact hok', ⟨m.sound, m.one, ?_, ?_, ?_, ?_, ?_, ?_, ?_, ?_, ?_, ?_, ?_, ?_, ?_, ?_⟩, ?_⟩
    · have := m.next; have := t.next; omega
    · have := m.count; have := t.count; omega
    · intro a ha hne hk
      rw [m.frame a (by rw [t.next]; omega) hne, t.frame a ha hne (hk e (by simp))]
      intro x hx
      rw [lookup1 x hx]
      exact hk x (by simp [hx])
    · intro a ha
      obtain ⟨a1, a2, a3, a4, a5, a6, a7⟩ := m.same a (by rw [t.next]; omega)
      obtain ⟨b1, b2, b3, b4, b5, b6, b7⟩ := same1 a ha
      exact ⟨a1.trans b1, a2.trans b2, a3.trans b3, a4.trans b4, a5.trans b5, a6.trans b6, a7.trans b7⟩
    · exact m.selfRest.trans t.selfRest
    · intro g hg
      rw [m.graphs g (by rw [t.count]; omega), t.graphs, deepcopy_graph_old hg]
    · intro g hg tr
      rw [m.triples g (by rw [t.count]; omega), t.triples g hg]
      simp only [List.mem_cons, exists_eq_or_imp, or_assoc]
      refine or_congr_right (or_congr_right ⟨?_, ?_⟩)
      · rintro ⟨x, hx, y, hy, hg', ht⟩
        rw [lookup1 x hx] at hy
        have hyn : y < s.next := hs.exist _ hself _ (mem_of_getEntry hy)
        rw [(same1 y hyn).2.2.2.2.2.2] at hg'
        simp only [MStore.node, (same1 y hyn).2.1, (same1 self hself).2.1] at ht
        exact ⟨x, hx, y, hy, hg', ht⟩
      · rintro ⟨x, hx, y, hy, hg', ht⟩
        have hyn : y < s.next := hs.exist _ hself _ (mem_of_getEntry hy)
        refine ⟨x, hx, y, by rw [lookup1 x hx]; exact hy, by rw [(same1 y hyn).2.2.2.2.2.2]; exact hg', ?_⟩
        simp only [MStore.node, (same1 y hyn).2.1, (same1 self hself).2.1]
        exact ht
    · intro k hk
      simp only [List.map_cons, List.mem_cons, not_or] at hk
      rw [m.lookup k hk.2, turn_lookup t hk.1]
    · intro k y hy
      refine m.held k y ?_
      by_cases hk : k = e.1
      · subst hk
        have h := t.selfKids
        rw [hy] at h
        rw [h]; exact hy
      · rw [turn_lookup t hk]; exact hy
    · intro k y hy
      rcases m.fresh k y hy with h | ⟨h5, h6⟩
      · by_cases hk : k = e.1
        · subst hk
          have hsk := t.selfKids
          cases hx : getEntry (s.heap self).children e.1 with
          | none =>
            rw [hx] at hsk
            rw [hsk] at h
            simp only [getEntry_append hx, if_true, Option.some.injEq] at h
            subst h
            refine .inr ⟨by omega, ?_⟩
            rw [(m.same _ (by rw [t.next]; omega)).2.2.2.2.2.2, (t.same _).2.2.2.2.2.2, deepcopy_new h1]
            simp only [MObj.shift]; omega
          | some x =>
            rw [hx] at hsk
            rw [hsk, hx] at h
            exact .inl h
        · rw [turn_lookup t hk] at h
          exact .inl h
      · have a1 := t.next
        have a2 := t.count
        exact .inr ⟨by omega, by omega⟩
    · intro k y hy c hc
      rcases m.freshTexts k y hy c hc with ⟨hyn, hc1⟩ | ⟨h5, h6⟩
      · rcases m.fresh k y hy with h | ⟨h5, _⟩
        · rcases turn_child t hs hself h1 h c hc1 notSelf with h7 | ⟨h7, h8⟩
          · exact .inl h7
          · have hcn : c.2 < s1.next := t.sound.exist y hyn c hc1
            refine .inr ⟨h7, ?_⟩
            rw [(m.same _ hcn).2.2.2.2.2.2]
            exact h8
        · omega
      · have a1 := t.next
        have a2 := t.count
        exact .inr ⟨by omega, by omega⟩
    · intro k y hy c hc
      rcases m.whence k y hy c hc with ⟨hyn, hc1⟩ | ⟨x, hx, h5, h6⟩
      · rcases m.fresh k y hy with h | ⟨h5, _⟩
        · rcases turn_whence t hs hself h1 h c hc1 notSelf with h7 | ⟨h7, h8⟩
          · exact .inl h7
          · exact .inr ⟨e, by simp, h7.symm, h8⟩
        · omega
      · rw [frameE x hx] at h6
        exact .inr ⟨x, by simp [hx], h5, h6⟩
    · intro k y hy c hc hno
      have hyn : y < s.next := hs.exist _ hself _ (mem_of_getEntry hy)
      have hy1 : getEntry (s1.heap self).children k = some y := by
        by_cases hk : k = e.1
        · subst hk
          have h := t.selfKids
          rw [hy] at h
          rw [h]; exact hy
        · rw [turn_lookup t hk]; exact hy
      refine m.kept k y hy1 c ?_ ?_
      · by_cases hk : k = e.1
        · have hno' := hno e (by simp) hk.symm
          subst hk
          rw [t.foundKids _ hy]
          have h5 := getEntry_of_mem (hs.once y hyn) hc
          rw [← getEntry_putAll_other ((s.heap e.2).children.map fun c => (c.1, c.2 + s.next)) _ (by rw [List.map_map]; exact hno')] at h5
          exact mem_of_getEntry h5
        · rw [t.frame y hyn (notSelf k y hy)]
          · exact hc
          · intro hx
            exact hk ((hs.keyed _ hself _ (mem_of_getEntry hy)).symm.trans (hs.keyed _ hself _ (mem_of_getEntry hx)))
      · intro x hx hk
        rw [frameE x hx]
        exact hno x (by simp [hx]) hk
    · intro x hx
      rcases List.mem_cons.1 hx with hxe | hxr
      · subst hxe
        obtain ⟨y, hy, hyp, hyo, hnd, hyc⟩ := t.adopted
        have hyn : y < s1.next := t.sound.exist _ hself1 _ (mem_of_getEntry hy)
        have hyself : y ≠ self := by
          intro h
          have := t.sound.nested _ hself1 _ (mem_of_getEntry hy)
          simp only [h, hct1] at this
          exact this
        have hyl : s'.heap y = s1.heap y := later y hyn hyself fun k hk h => hk (twoKeys _ _ _ h hy)
        refine ⟨y, by rw [lookupE]; exact hy, by rw [hyl]; exact hyp, ?_, ?_⟩
        · intro hnone
          rcases hyo with h | h
          · rw [hnone] at h; cases h
          · subst h
            rw [gNext _ hyn, turn_graph_new t hs h1]
        · intro c hc
          obtain ⟨hc1, hc2⟩ := hyc c hc
          have hcn := hs.exist _ h1 c hc
          have htn : c.2 + s.next < s1.next := by rw [t.next]; omega
          have htext : (s1.heap (c.2 + s.next)).cls = .text := by
            rw [(t.same _).1, deepcopy_new hcn]
            have := hs.nested _ h1 c hc
            rw [h2] at this
            exact holds_work.1 this
          have htl : s'.heap (c.2 + s.next) = s1.heap (c.2 + s.next) := by
            refine later _ htn ?_ ?_
            · intro h; rw [h, hct1] at htext; cases htext
            · intro k _ hk
              have := t.sound.nested _ hself1 _ (mem_of_getEntry hk)
              rw [hct1] at this
              have := holds_tg.1 this
              rw [htext] at this; cases this
          refine ⟨c.2 + s.next, by rw [hyl]; exact hc1, by omega, ?_, ?_⟩
          · intro hp; rw [htl]; exact hc2 hp
          · rw [gNext _ htn, turn_graph_new t hs hcn]
      · obtain ⟨x1, x2, x3, x4⟩ := he x (by simp [hxr])
        obtain ⟨y, hy, hyp, hyo, hyc⟩ := m.came x hxr
        refine ⟨y, hy, hyp, ?_, ?_⟩
        · intro hnone
          rw [hyo (by rw [lookup1 x hxr]; exact hnone), turn_graph_old t hs x1]
        · intro c hc
          have hcn := hs.exist _ x1 c hc
          obtain ⟨t', ht1, ht2, ht3, ht4⟩ := hyc c (by rw [frameE x hxr]; exact hc)
          have htext : (s.heap c.2).cls = .text := by
            have := hs.nested _ x1 c hc
            rw [x2] at this
            exact holds_work.1 this
          have hfr : s1.heap c.2 = s.heap c.2 := by
            refine t.frame _ hcn ?_ ?_
            · intro h; rw [h, hct] at htext; cases htext
            · intro hk
              have := hs.nested _ hself _ (mem_of_getEntry hk)
              rw [hct] at this
              have := holds_tg.1 this
              rw [htext] at this; cases this
          refine ⟨t', ht1, by have := t.next; omega, ?_, ?_⟩
          · intro hp; exact ht3 (by rw [hfr]; exact hp)
          · rw [ht4, turn_graph_old t hs hcn]
    · simp only [List.map_cons]
      rw [tgLoop, turn_view t hs ho one hself h1 hct h2 h3]
      simp only
      rw [← hview]
      congr 1
      refine List.map_congr_left fun x hx => ?_
      obtain ⟨x1, x2, x3, x4⟩ := he x (by simp [hx])
      exact (work_old t hs ho one x1 (workNe _ (by rw [x2]; simp)) (notFound _ x4 _)).symm

end Verif.Lemmas
