import Verif.Model.Copying
import Verif.Lemmas.Str
/-!
Property C112: copies of references and of sets of references, by `copy`, `deepcopy` or `pickle`. CTS references and their sets survive; references of
the base class and of DTS do not.
-/
namespace Verif.Props
open Verif.Py Verif.Model

/-- C112. A copy of a CTS reference is the same reference: the same start, end and text. -/
theorem C112_cts (fresh : Nat) (dup : Nat → Nat) (r : Ref) : copyRef fresh dup (refObj r) = .ok (some (refObj r)) := by
  obtain ⟨a, b, x⟩ := r
  cases b <;> simp [copyRef, makeRef, newCts, refObj, mkRefTuple, RefObj.update, TStr.truthy]

/-- What `CtsReference` makes of its arguments has a start, maybe an end, and a text, and nothing else. -/
theorem C112_cts_form (fresh : Nat) (args : List Item) (r : RefObj) (h : makeRef fresh .cts args = .ok (some r)) : ∃ x, r = refObj x := by
  simp only [makeRef] at h
  unfold newCts at h
  split at h
  · simp at h
  · simp at h; exact ⟨_, h.symm⟩
  · simp at h
  · split at h
    · simp at h
    · split at h
      · simp at h
      · split at h
        · simp at h; exact ⟨_, h.symm⟩
        · split at h
          · simp at h; exact ⟨_, h.symm⟩
          · simp at h
    · simp at h
    · simp at h
    · simp at h; exact ⟨_, h.symm⟩
    · simp at h; exact ⟨_, h.symm⟩
    · simp at h

/-- C112. So is a copy of anything that `CtsReference` makes of its arguments. -/
theorem C112_cts_made (fresh fresh' : Nat) (dup : Nat → Nat) (args : List Item) (r : RefObj) (h : makeRef fresh' .cts args = .ok (some r)) :
    copyRef fresh dup r = .ok (some r) := by
  obtain ⟨x, rfl⟩ := C112_cts_form fresh' args r h
  exact C112_cts fresh dup x

/-- C112. The start and the end of anything that `CtsReference` makes, and so of each copy, are passage identifiers whose levels can be asked for,
not plain strings, although they may be given as plain strings. -/
theorem C112_cts_singles (fresh fresh' : Nat) (dup : Nat → Nat) (args : List Item) (r c : RefObj) (h : makeRef fresh' .cts args = .ok (some r))
    (hc : copyRef fresh dup r = .ok (some c)) (t : TStr) (ht : Item.str t ∈ c.items) : t = ⟨t.val, true⟩ := by
  rw [C112_cts_made fresh fresh' dup args r h] at hc
  obtain ⟨x, rfl⟩ := C112_cts_form fresh' args r h
  have : c = refObj x := by simpa using hc.symm
  subst this
  simp only [refObj, List.mem_cons, List.not_mem_nil, or_false, Item.str.injEq] at ht
  rcases ht with rfl | ht
  · rfl
  · cases hx : x.stop with
    | none => rw [hx] at ht; simp at ht
    | some e => rw [hx] at ht; simp only [Item.str.injEq] at ht; rw [ht]

/-- C112. A copy of a set of references holds the same references in the same order, with its level and citation. -/
theorem C112_set (s : RefSetObj) : copySet s = s := rfl

/-- C112. A deep copy, or a set that was pickled, too, when the references are CTS references; the citation is a copy. -/
theorem C112_cts_set (fresh : Nat) (dup dupCite : Nat → Nat) (s : RefSetObj) (h : ∀ m ∈ s.members, ∃ r, m = .ref (refObj r)) :
    deepCopySet fresh dup dupCite s = .ok ⟨s.members, s.level, s.citation.map dupCite⟩ := by
  obtain ⟨ms, lv, c⟩ := s
  have key : copyMembers fresh dup ms = .ok ms := by
    simp only at h
    induction ms with
    | nil => rfl
    | cons m ms ih =>
      obtain ⟨r, rfl⟩ := h m (by simp)
      simp [copyMembers, copyMember, C112_cts, ih fun m hm => h m (by simp [hm])]
  simp [deepCopySet, key, newSet]

/-- C112. What can be said of all references as they are made, a DTS reference having its metadata: there is a copy, of the same class and with the
metadata copied, and its end can be read exactly when the class is `CtsReference`; and then the copy is the same reference. -/
theorem C112_usable (fresh fresh' : Nat) (dup : Nat → Nat) (cls : RefCls) (args : List Item) (r : RefObj)
    (h : makeRef fresh' cls args = .ok (some r)) :
    ∃ y, copyRef fresh dup r = .ok (some y) ∧ y.cls = cls ∧ y.info = r.info.map dup ∧ ((∃ e, y.stop = .ok e) ↔ cls = .cts) ∧
      (cls = .cts → y = r) := by
  cases cls with
  | base =>
    simp only [makeRef, Except.ok.injEq, Option.some.injEq] at h
    subst h
    refine ⟨_, rfl, rfl, rfl, ?_, by simp⟩
    simp [RefObj.stop, RefObj.update, baseItems]
  | dts =>
    simp only [makeRef, Except.ok.injEq, Option.some.injEq] at h
    subst h
    refine ⟨_, rfl, rfl, rfl, ?_, by simp⟩
    simp [RefObj.stop, RefObj.update, baseItems]
  | cts =>
    obtain ⟨x, rfl⟩ := C112_cts_form fresh' args r h
    exact ⟨_, C112_cts fresh dup x, rfl, rfl, by simp only [iff_true]; exact ⟨_, rfl⟩, fun _ => rfl⟩

/-- C112. What is copied: a reference of any class made of one string that is no range, or of two, has these for start and end, and is a range exactly
when the second is there and not empty; a CTS reference made of a string with one hyphen has the parts, and has the string for its text. -/
theorem C112_made (fresh : Nat) (cls : RefCls) (a b : TStr) (ha : a.val ≠ []) (hd : '-' ∉ a.val) (hb : '-' ∉ b.val) :
    (∃ r, makeRef fresh cls [.str a] = .ok (some r) ∧ (∃ t, r.start = .ok (.str t) ∧ t.val = a.val) ∧ r.stop = .ok .none ∧ r.isRange = .ok false ∧
      (cls = .cts → r.repr = some a.val)) ∧
    (∃ r, makeRef fresh cls [.str a, .str b] = .ok (some r) ∧ (∃ t, r.start = .ok (.str t) ∧ t.val = a.val) ∧
      (∃ t, r.stop = .ok (.str t) ∧ t.val = b.val) ∧ (b.val ≠ [] → r.isRange = .ok true) ∧ (cls = .cts → r.repr = some (a.val ++ '-' :: b.val))) ∧
    (∃ r, makeRef fresh .cts [.str ⟨a.val ++ '-' :: b.val, false⟩] = .ok (some r) ∧ (∃ t, r.start = .ok (.str t) ∧ t.val = a.val) ∧
      (∃ t, r.stop = .ok (.str t) ∧ t.val = b.val) ∧ r.repr = some (a.val ++ '-' :: b.val)) := by
  have hta : a.truthy = true := by
    unfold TStr.truthy
    cases h : a.val with
    | nil => exact absurd h ha
    | cons x l => simp
  refine ⟨?_, ?_, ?_⟩
  · cases cls with
    | cts =>
      refine ⟨refObj ⟨a.val, none, a.val⟩, by simp [makeRef, newCts, hta, hd], ⟨_, rfl, rfl⟩, rfl, rfl, fun _ => rfl⟩
    | base => exact ⟨_, rfl, ⟨_, rfl, rfl⟩, rfl, rfl, by simp⟩
    | dts => exact ⟨_, rfl, ⟨_, rfl, rfl⟩, rfl, rfl, by simp⟩
  · have htb : b.val ≠ [] → b.truthy = true := by
      intro h
      unfold TStr.truthy
      cases h' : b.val with
      | nil => exact absurd h' h
      | cons x l => simp
    cases cls with
    | cts => exact ⟨_, rfl, ⟨_, rfl, rfl⟩, ⟨_, rfl, rfl⟩, fun _ => rfl, fun _ => by simp [refObj, mkRef2]⟩
    | base => exact ⟨_, rfl, ⟨_, rfl, rfl⟩, ⟨_, rfl, rfl⟩, fun h => congrArg Except.ok (htb h), by simp⟩
    | dts => exact ⟨_, rfl, ⟨_, rfl, rfl⟩, ⟨_, rfl, rfl⟩, fun h => congrArg Except.ok (htb h), by simp⟩
  · refine ⟨refObj ⟨a.val, some b.val, a.val ++ '-' :: b.val⟩, ?_, ⟨_, rfl, rfl⟩, ⟨_, rfl, rfl⟩, rfl⟩
    have hs : split '-' (a.val ++ '-' :: b.val) = [a.val, b.val] := by
      rw [Verif.Py.split_append b.val hd, Verif.Py.split_of_not_mem hb]
    simp [makeRef, newCts, TStr.truthy, hs]

/-! ### Departures -/

/-- C112 (departure): every copy of a reference of the base class or of DTS holds the tuple of the reference as its start, and has no end: `.end` and
`is_range()` raise `IndexError`. The metadata object goes with it. -/
theorem C112_fails_dts (fresh : Nat) (dup : Nat → Nat) (r : RefObj) (h : r.cls ≠ .cts) :
    ∃ y, copyRef fresh dup r = .ok (some y) ∧ y.cls = r.cls ∧ y.items = [.tup r.items] ∧ y.start = .ok (.tup r.items) ∧ y.stop = .error .indexError ∧
      y.isRange = .error .indexError ∧ (∀ i, r.info = some i → y.info = some (dup i)) := by
  obtain ⟨cls, items, rp, info⟩ := r
  cases cls with
  | cts => exact absurd rfl h
  | base => exact ⟨_, rfl, rfl, rfl, rfl, rfl, rfl, fun i hi => by simp only at hi; subst hi; rfl⟩
  | dts => exact ⟨_, rfl, rfl, rfl, rfl, rfl, rfl, fun i hi => by simp only at hi; subst hi; rfl⟩

/-- C112 (departure): so a set of DTS references that is copied deeply, or pickled, comes back with no usable reference, though with as many, and with its
level. -/
theorem C112_fails_dts_set (fresh : Nat) (dup dupCite : Nat → Nat) (s : RefSetObj)
    (h : ∀ m ∈ s.members, ∃ r, m = .ref r ∧ r.cls = .dts) :
    ∃ t, deepCopySet fresh dup dupCite s = .ok t ∧ t.members.length = s.members.length ∧ t.level = s.level ∧
      ∀ m ∈ t.members, ∃ r, m = .ref r ∧ r.stop = .error .indexError := by
  obtain ⟨ms, lv, c⟩ := s
  have key : ∃ ms', copyMembers fresh dup ms = .ok ms' ∧ ms'.length = ms.length ∧ ∀ m ∈ ms', ∃ r, m = .ref r ∧ r.stop = .error .indexError := by
    simp only at h
    induction ms with
    | nil => exact ⟨[], rfl, rfl, by simp⟩
    | cons m ms ih =>
      obtain ⟨r, rfl, hr⟩ := h m (by simp)
      obtain ⟨ms', h1, h2, h3⟩ := ih fun m hm => h m (by simp [hm])
      obtain ⟨y, hy, -, -, -, hstop, -⟩ := C112_fails_dts fresh dup r (by rw [hr]; simp)
      refine ⟨.ref y :: ms', by simp [copyMembers, copyMember, hy, h1], by simp [h2], ?_⟩
      intro m hm
      rcases List.mem_cons.1 hm with rfl | hm
      · exact ⟨y, rfl, hstop⟩
      · exact h3 m hm
  obtain ⟨ms', h1, h2, h3⟩ := key
  exact ⟨⟨ms', lv, c.map dupCite⟩, by simp [deepCopySet, h1, newSet], h2, rfl, h3⟩

/-! ### Instances -/

example : (∃ r, makeRef 0 .dts [.str ⟨"1.1".toList, false⟩] = .ok (some r) ∧ r.isRange = .ok false) ∧
    (∃ r, makeRef 0 .cts [.str ⟨"1.1-1.2".toList, false⟩] = .ok (some r) ∧ r.repr = some "1.1-1.2".toList) := by
  obtain ⟨⟨r, h1, -, -, h2, -⟩, -, -⟩ := C112_made 0 .dts ⟨"1.1".toList, false⟩ ⟨"1.2".toList, false⟩ (by decide) (by decide) (by decide)
  obtain ⟨-, -, ⟨q, h3, -, -, h4⟩⟩ := C112_made 0 .dts ⟨"1.1".toList, false⟩ ⟨"1.2".toList, false⟩ (by decide) (by decide) (by decide)
  exact ⟨⟨r, h1, h2⟩, ⟨q, h3, h4⟩⟩

example : makeRef 0 .cts [.str ⟨"1.1-1.2".toList, false⟩] = .ok (some (refObj ⟨"1.1".toList, some "1.2".toList, "1.1-1.2".toList⟩)) := rfl

/-- A range of DTS and its copy. -/
example : makeRef 0 .dts [.str ⟨['1'], false⟩, .str ⟨['2'], false⟩] = .ok (some ⟨.dts, [.str ⟨['1'], false⟩, .str ⟨['2'], false⟩], none, some 0⟩) ∧
    copyRef 1 id ⟨.dts, [.str ⟨['1'], false⟩, .str ⟨['2'], false⟩], none, some 0⟩ =
      .ok (some ⟨.dts, [.tup [.str ⟨['1'], false⟩, .str ⟨['2'], false⟩]], none, some 0⟩) := ⟨rfl, rfl⟩

/-- A set of two CTS references. -/
example : deepCopySet 0 id (· + 1) ⟨[.ref (refObj ⟨['1'], none, ['1']⟩), .ref (refObj ⟨['2'], none, ['2']⟩)], 2, some 0⟩ =
    .ok ⟨[.ref (refObj ⟨['1'], none, ['1']⟩), .ref (refObj ⟨['2'], none, ['2']⟩)], 2, some 1⟩ :=
  C112_cts_set 0 id (· + 1) _ (by
    intro m hm
    simp only [List.mem_cons, List.not_mem_nil, or_false] at hm
    rcases hm with rfl | rfl <;> exact ⟨_, rfl⟩)

end Verif.Props
