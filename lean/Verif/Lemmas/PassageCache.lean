import Verif.Spec.PassageCache
/-!
Helper lemmas for C107: what memories hold.
-/
namespace Verif.Lemmas
open Verif.Py Verif.Model Verif.Spec

@[elab_as_elim]
theorem history_induction {α : Type} {P : List α → Prop} (l : List α) (nil : P []) (append_singleton : ∀ l x, P l → P (l ++ [x])) : P l := by
  have : ∀ l : List α, P l.reverse := by
    intro l
    induction l with
    | nil => exact nil
    | cons x l ih => rw [List.reverse_cons]; exact append_singleton _ x ih
  rw [← List.reverse_reverse l]
  exact this _

/-- The children and siblings without a memory. -/
def liveChildren (v : Live) : Except PyErr RefSet := match v.childrenFirst with
  | some r => r
  | none => v.list

def liveSiblings (v : Live) : Except PyErr (Option Ref × Option Ref) := match v.siblingsFirst with
  | some e => .error e
  | none => v.siblings

/-- The answers without a memory. -/
def liveAnswer (v : Live) : IdQuestion → Except PyErr IdAnswer
  | .childIds => .refs <$> liveChildren v
  | .siblingsId => .pair <$> liveSiblings v
  | .nextId => (fun s => .ref s.2) <$> liveSiblings v
  | .prevId => (fun s => .ref s.1) <$> liveSiblings v
  | .firstId => (fun l => .ref (l.head?.getD none)) <$> liveChildren v
  | .lastId => (fun l => .ref (l.getLast?.getD none)) <$> liveChildren v

/-- The memory a question leaves. -/
def usesChildren : IdQuestion → Bool
  | .childIds | .firstId | .lastId => true
  | _ => false

theorem childIds_again {v : Live} {m : Memory} {l : RefSet} (h : (m.childIds v).2 = .ok l) :
    (m.childIds v).1.childIds v = ((m.childIds v).1, .ok l) := by
  revert h
  unfold Memory.childIds
  cases v.childrenFirst with
  | some r => intro h; simp only at h ⊢; rw [h]
  | none =>
    cases hm : m.children with
    | some l' => intro h; simp only at h ⊢; rw [hm]; simp only [h]
    | none =>
      cases v.list with
      | error e => intro h; cases h
      | ok l' => intro h; simpa using h

theorem siblingsId_again {v : Live} {m : Memory} {s : Option Ref × Option Ref} (h : (m.siblingsId v).2 = .ok s) :
    (m.siblingsId v).1.siblingsId v = ((m.siblingsId v).1, .ok s) := by
  revert h
  unfold Memory.siblingsId
  cases v.siblingsFirst with
  | some r => intro h; cases h
  | none =>
    cases hm : m.prevNext with
    | some l' => intro h; simp only at h ⊢; rw [hm]; simp only [h]
    | none =>
      cases v.siblings with
      | error e => intro h; cases h
      | ok l' => intro h; simpa using h

theorem nextId_eq (v : Live) (m : Memory) : m.nextId v = ((m.siblingsId v).1, Prod.snd <$> (m.siblingsId v).2) := by
  unfold Memory.nextId
  rcases h : m.siblingsId v with ⟨m', _ | s⟩ <;> rfl

theorem prevId_eq (v : Live) (m : Memory) : m.prevId v = ((m.siblingsId v).1, Prod.fst <$> (m.siblingsId v).2) := by
  unfold Memory.prevId
  rcases h : m.siblingsId v with ⟨m', _ | s⟩ <;> rfl

theorem firstId_eq (v : Live) (m : Memory) :
    m.firstId v = ((m.childIds v).1, (fun l : RefSet => l.head?.getD none) <$> (m.childIds v).2) := by
  unfold Memory.firstId
  have ha := fun l => childIds_again (v := v) (m := m) (l := l)
  rcases h : m.childIds v with ⟨m', e | l⟩
  · rfl
  · rw [h] at ha
    have ha := ha l rfl
    simp only at ha ⊢
    rw [ha]
    simp only
    rw [ha]
    cases l <;> rfl

theorem lastId_eq (v : Live) (m : Memory) :
    m.lastId v = ((m.childIds v).1, (fun l : RefSet => l.getLast?.getD none) <$> (m.childIds v).2) := by
  unfold Memory.lastId
  have ha := fun l => childIds_again (v := v) (m := m) (l := l)
  rcases h : m.childIds v with ⟨m', e | l⟩
  · rfl
  · rw [h] at ha
    have ha := ha l rfl
    simp only at ha ⊢
    rw [ha]
    simp only
    rw [ha]
    rcases List.eq_nil_or_concat l with rfl | ⟨l', x, rfl⟩
    · rfl
    · have : pyGet (l' ++ [x]) (-1) = some x := by
        have e : ((-1 : Int) + ((l' ++ [x]).length : Nat)).toNat = l'.length := by simp; omega
        have h0 : (0 : Int) ≤ -1 + ((l' ++ [x]).length : Nat) := by simp; omega
        rw [pyGet, if_neg (by decide), if_pos h0, e]
        simp
      simp only [List.concat_eq_append] at *
      rw [this]
      simp

/-- Asking, by what is read. -/
theorem askIds_eq (v : Live) (m : Memory) (q : IdQuestion) : askIds v m q =
    if usesChildren q then ((m.childIds v).1, match q with
      | .childIds => .refs <$> (m.childIds v).2
      | .firstId => (fun l => .ref (l.head?.getD none)) <$> (m.childIds v).2
      | _ => (fun l => .ref (l.getLast?.getD none)) <$> (m.childIds v).2)
    else ((m.siblingsId v).1, match q with
      | .siblingsId => .pair <$> (m.siblingsId v).2
      | .nextId => (fun s => .ref s.2) <$> (m.siblingsId v).2
      | _ => (fun s => .ref s.1) <$> (m.siblingsId v).2) := by
  cases q
  · rfl
  · rfl
  · simp only [askIds, nextId_eq, usesChildren]
    cases (m.siblingsId v).2 <;> rfl
  · simp only [askIds, prevId_eq, usesChildren]
    cases (m.siblingsId v).2 <;> rfl
  · simp only [askIds, firstId_eq, usesChildren]
    cases (m.childIds v).2 <;> rfl
  · simp only [askIds, lastId_eq, usesChildren]
    cases (m.childIds v).2 <;> rfl

/-- What is asked of an object over time: what it answers before it looks into its memory does not change. -/
def SameFirst (F : Node → Live) : Prop := ∀ n n', (F n).childrenFirst = (F n').childrenFirst ∧ (F n).siblingsFirst = (F n').siblingsFirst

/-- A memory of what was read at these times. -/
structure Remembers (F : Node → Live) (seen : List Node) (m : Memory) : Prop where
  children : ∀ l, m.children = some l → ∃ n ∈ seen, (F n).list = .ok l
  siblings : ∀ s, m.prevNext = some s → ∃ n ∈ seen, (F n).siblings = .ok s

theorem Remembers.mono {F : Node → Live} {seen seen' : List Node} {m : Memory} (h : Remembers F seen m) (hs : ∀ n ∈ seen, n ∈ seen') :
    Remembers F seen' m :=
  ⟨fun l e => let ⟨n, a, b⟩ := h.children l e; ⟨n, hs n a, b⟩, fun l e => let ⟨n, a, b⟩ := h.siblings l e; ⟨n, hs n a, b⟩⟩

theorem remembers_nothing {F : Node → Live} {m : Memory} (seen : List Node) (h1 : m.children = none) (h2 : m.prevNext = none) :
    Remembers F seen m :=
  ⟨fun _ e => (by rw [h1] at e; cases e), fun _ e => (by rw [h2] at e; cases e)⟩

theorem mem_snoc_fst {α β : Type} (l : List (α × β)) (x : α × β) : ∀ n ∈ x.1 :: l.map Prod.fst, n ∈ (l ++ [x]).map Prod.fst := by
  intro n hn
  rw [List.map_append]
  rcases List.mem_cons.1 hn with rfl | h
  · simp
  · exact List.mem_append_left _ h

theorem childIds_over {F : Node → Live} (hF : SameFirst F) {seen : List Node} {m : Memory} (h : Remembers F seen m) (n : Node) :
    (∃ k ∈ n :: seen, (m.childIds (F n)).2 = liveChildren (F k)) ∧ Remembers F (n :: seen) (m.childIds (F n)).1 := by
  have hm := h.mono (seen' := n :: seen) (by simp +contextual)
  unfold Memory.childIds
  cases hc : (F n).childrenFirst with
  | some r => exact ⟨⟨n, by simp, by simp [liveChildren, hc]⟩, hm⟩
  | none =>
    cases hl : m.children with
    | some l =>
      obtain ⟨k, hk, e⟩ := hm.children l hl
      exact ⟨⟨k, hk, by simp [liveChildren, ← (hF n k).1, hc, e]⟩, hm⟩
    | none =>
      cases hv : (F n).list with
      | error e => exact ⟨⟨n, by simp, by simp [liveChildren, hc, hv]⟩, hm⟩
      | ok l => exact ⟨⟨n, by simp, by simp [liveChildren, hc, hv]⟩, ⟨fun l' e => ⟨n, by simp, by simp at e; rw [hv, e]⟩, hm.siblings⟩⟩

theorem siblingsId_over {F : Node → Live} (hF : SameFirst F) {seen : List Node} {m : Memory} (h : Remembers F seen m) (n : Node) :
    (∃ k ∈ n :: seen, (m.siblingsId (F n)).2 = liveSiblings (F k)) ∧ Remembers F (n :: seen) (m.siblingsId (F n)).1 := by
  have hm := h.mono (seen' := n :: seen) (by simp +contextual)
  unfold Memory.siblingsId
  cases hc : (F n).siblingsFirst with
  | some r => exact ⟨⟨n, by simp, by simp [liveSiblings, hc]⟩, hm⟩
  | none =>
    cases hl : m.prevNext with
    | some l =>
      obtain ⟨k, hk, e⟩ := hm.siblings l hl
      exact ⟨⟨k, hk, by simp [liveSiblings, ← (hF n k).2, hc, e]⟩, hm⟩
    | none =>
      cases hv : (F n).siblings with
      | error e => exact ⟨⟨n, by simp, by simp [liveSiblings, hc, hv]⟩, hm⟩
      | ok l => exact ⟨⟨n, by simp, by simp [liveSiblings, hc, hv]⟩, ⟨hm.children, fun l' e => ⟨n, by simp, by simp at e; rw [hv, e]⟩⟩⟩

theorem askIds_over {F : Node → Live} (hF : SameFirst F) {seen : List Node} {m : Memory} (h : Remembers F seen m) (n : Node) (q : IdQuestion) :
    (∃ k ∈ n :: seen, (askIds (F n) m q).2 = liveAnswer (F k) q) ∧ Remembers F (n :: seen) (askIds (F n) m q).1 := by
  rw [askIds_eq]
  obtain ⟨⟨k, hk, e⟩, hr⟩ := childIds_over hF h n
  obtain ⟨⟨k', hk', e'⟩, hr'⟩ := siblingsId_over hF h n
  cases q
  · exact ⟨⟨k, hk, by simp only [usesChildren, if_true, e, liveAnswer]⟩, by simpa [usesChildren] using hr⟩
  · exact ⟨⟨k', hk', by simp [usesChildren, e', liveAnswer]⟩, by simpa [usesChildren] using hr'⟩
  · exact ⟨⟨k', hk', by simp [usesChildren, e', liveAnswer]⟩, by simpa [usesChildren] using hr'⟩
  · exact ⟨⟨k', hk', by simp [usesChildren, e', liveAnswer]⟩, by simpa [usesChildren] using hr'⟩
  · exact ⟨⟨k, hk, by simp [usesChildren, e, liveAnswer]⟩, by simpa [usesChildren] using hr⟩
  · exact ⟨⟨k, hk, by simp [usesChildren, e, liveAnswer]⟩, by simpa [usesChildren] using hr⟩

/-- Nothing is forgotten. -/
structure Extends (m m' : Memory) : Prop where
  children : ∀ l, m.children = some l → m'.children = some l
  siblings : ∀ s, m.prevNext = some s → m'.prevNext = some s

theorem Extends.refl (m : Memory) : Extends m m := ⟨fun _ h => h, fun _ h => h⟩

theorem Extends.trans {a b c : Memory} (h : Extends a b) (h' : Extends b c) : Extends a c :=
  ⟨fun l e => h'.children l (h.children l e), fun l e => h'.siblings l (h.siblings l e)⟩

theorem childIds_extends (v : Live) (m : Memory) : Extends m (m.childIds v).1 := by
  unfold Memory.childIds
  cases v.childrenFirst with
  | some r => exact .refl m
  | none =>
    cases hl : m.children with
    | some l => exact .refl m
    | none =>
      cases v.list with
      | error e => exact .refl m
      | ok l => exact ⟨fun l' e => (by rw [hl] at e; cases e), fun _ e => e⟩

theorem siblingsId_extends (v : Live) (m : Memory) : Extends m (m.siblingsId v).1 := by
  unfold Memory.siblingsId
  cases v.siblingsFirst with
  | some r => exact .refl m
  | none =>
    cases hl : m.prevNext with
    | some l => exact .refl m
    | none =>
      cases v.siblings with
      | error e => exact .refl m
      | ok l => exact ⟨fun _ e => e, fun l' e => by rw [hl] at e; cases e⟩

theorem askIds_extends (v : Live) (m : Memory) (q : IdQuestion) : Extends m (askIds v m q).1 := by
  rw [askIds_eq]
  split
  · exact childIds_extends v m
  · exact siblingsId_extends v m

theorem childIds_steady {v v' : Live} (hf : v.childrenFirst = v'.childrenFirst) {m m' : Memory} {l : RefSet} (h : (m.childIds v).2 = .ok l)
    (he : Extends (m.childIds v).1 m') : (m'.childIds v').2 = .ok l := by
  revert h he
  unfold Memory.childIds
  rw [← hf]
  cases v.childrenFirst with
  | some r => intro h _; exact h
  | none =>
    cases hm : m.children with
    | some l' => intro h he; simp only at h he; rw [he.children _ hm, ← h]
    | none =>
      cases v.list with
      | error e => intro h; cases h
      | ok l' => intro h he; simp only at h he; rw [he.children _ rfl, ← h]

theorem siblingsId_steady {v v' : Live} (hf : v.siblingsFirst = v'.siblingsFirst) {m m' : Memory} {s : Option Ref × Option Ref}
    (h : (m.siblingsId v).2 = .ok s) (he : Extends (m.siblingsId v).1 m') : (m'.siblingsId v').2 = .ok s := by
  revert h he
  unfold Memory.siblingsId
  rw [← hf]
  cases v.siblingsFirst with
  | some r => intro h _; exact h
  | none =>
    cases hm : m.prevNext with
    | some l' => intro h he; simp only at h he; rw [he.siblings _ hm, ← h]
    | none =>
      cases v.siblings with
      | error e => intro h; cases h
      | ok l' => intro h he; simp only at h he; rw [he.siblings _ rfl, ← h]

theorem askIds_steady {v v' : Live} (hc : v.childrenFirst = v'.childrenFirst) (hs : v.siblingsFirst = v'.siblingsFirst) {m m' : Memory}
    {q : IdQuestion} {a : IdAnswer} (h : (askIds v m q).2 = .ok a) (he : Extends (askIds v m q).1 m') : (askIds v' m' q).2 = .ok a := by
  rw [askIds_eq] at h he ⊢
  by_cases hq : usesChildren q = true
  · simp only [hq, if_true] at h he ⊢
    cases hx : (m.childIds v).2 with
    | error e => rw [hx] at h; cases q <;> cases h
    | ok l =>
      rw [hx] at h
      rw [childIds_steady hc hx he]
      exact h
  · simp only [hq] at h he ⊢
    cases hx : (m.siblingsId v).2 with
    | error e => rw [hx] at h; cases q <;> cases h
    | ok l =>
      rw [hx] at h
      rw [siblingsId_steady hs hx he]
      exact h

end Verif.Lemmas
