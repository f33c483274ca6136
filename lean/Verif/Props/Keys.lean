import Verif.Spec.Keys
/-!
Property C113: references as keys of dictionaries and elements of sets. CTS references, and the strings and pairs they are made of, may be used; DTS
references, URNs and CTS collections may not.
-/
namespace Verif.Props
open Verif.Py Verif.Model Verif.Spec

variable (hs : Str → Nat) (ht : List (Option Str) → Nat)

/-- C113. `None`, strings, passage identifiers, pairs, base references and CTS references have a hash; DTS references, URNs and CTS collections have
none. -/
theorem C113_who (k : KeyObj) : (∃ h, keyHash hs ht k = .ok h) ↔ CanBeKey k = true := by
  cases k with
  | tup c l x => cases c <;> simp [keyHash, CanBeKey]
  | _ => simp [keyHash, CanBeKey]

theorem C113_no_hash (k : KeyObj) (h : CanBeKey k = false) : keyHash hs ht k = .error .typeError := by
  cases k with
  | tup c l x => cases c <;> simp_all [keyHash, CanBeKey]
  | _ => simp_all [keyHash, CanBeKey]

/-- C113. Between objects that may be keys `==` says whether they have the same content, whatever their classes. -/
theorem C113_equal (a b : KeyObj) (ha : CanBeKey a = true) (hb : CanBeKey b = true) : keyEq a b = decide (content a = content b) := by
  cases a with
  | tup c l x =>
    cases b with
    | tup d m y => cases c <;> cases d <;> simp_all [CanBeKey, keyEq, rightFirst, dunderEq, TupCls.under, content, eq_comm]
    | _ => cases c <;> simp_all [CanBeKey, keyEq, rightFirst, dunderEq, content]
  | _ =>
    cases b with
    | tup d m y => cases d <;> simp_all [CanBeKey, keyEq, rightFirst, dunderEq, content]
    | _ => simp_all [CanBeKey, keyEq, rightFirst, dunderEq, content]

/-- C113. Two CTS references are equal exactly when they have the same start and the same end, however they were written. -/
theorem C113_references (a b : Ref) : keyEq a.key b.key = true ↔ a.start = b.start ∧ a.stop = b.stop := by
  rw [C113_equal _ _ rfl rfl]
  simp [content, Ref.key]

/-- C113. Equal objects have equal hashes, if both have one. -/
theorem C113_hash (a b : KeyObj) (x y : Nat) (ha : keyHash hs ht a = .ok x) (hb : keyHash hs ht b = .ok y) (h : keyEq a b = true) : x = y := by
  have ha' := (C113_who hs ht a).1 ⟨x, ha⟩
  have hb' := (C113_who hs ht b).1 ⟨y, hb⟩
  rw [C113_equal a b ha' hb', decide_eq_true_eq] at h
  cases a with
  | tup c l x =>
    cases b with
    | tup d m y => cases c <;> cases d <;> simp_all [CanBeKey, keyHash, content]
    | _ => cases c <;> simp_all [CanBeKey, keyHash, content]
  | _ =>
    cases b with
    | tup d m y => cases d <;> simp_all [CanBeKey, keyHash, content]
    | _ => simp_all [CanBeKey, keyHash, content]

/-- C113. Among objects that may be keys `==` is an equivalence. -/
theorem C113_equivalence (a b c : KeyObj) (ha : CanBeKey a = true) (hb : CanBeKey b = true) (hc : CanBeKey c = true) :
    keyEq a a = true ∧ keyEq a b = keyEq b a ∧ (keyEq a b = true → keyEq b c = true → keyEq a c = true) := by
  rw [C113_equal a a ha ha, C113_equal a b ha hb, C113_equal b a hb ha, C113_equal b c hb hc, C113_equal a c ha hc]
  simp only [decide_eq_true_eq, true_and]
  exact ⟨by simp [eq_comm], fun h k => h.trans k⟩

/-! ### Dictionaries -/

/-- Every entry has the hash of its key, and no two entries have the same key. -/
private def Sound {α : Type} (d : KeyDict α) : Prop :=
  (∀ e ∈ d, keyHash hs ht e.2.1 = .ok e.1) ∧ d.Pairwise fun e f => content e.2.1 ≠ content f.2.1

private theorem hit_eq {α : Type} (h : Nat) (k : KeyObj) (e : Nat × KeyObj × α) (hk : keyHash hs ht k = .ok h) (he : keyHash hs ht e.2.1 = .ok e.1) :
    KeyDict.hit h k e = decide (content e.2.1 = content k) := by
  have hk' := (C113_who hs ht k).1 ⟨h, hk⟩
  have he' := (C113_who hs ht e.2.1).1 ⟨_, he⟩
  have heq := C113_equal e.2.1 k he' hk'
  unfold KeyDict.hit
  rw [heq]
  by_cases hc : content e.2.1 = content k
  · have := C113_hash hs ht e.2.1 k e.1 h he hk (by rw [heq]; simp [hc])
    simp [hc, this]
  · simp [hc]

private theorem find_eq {α : Type} (d : KeyDict α) (hd : Sound hs ht d) (k : KeyObj) (h : Nat) (hk : keyHash hs ht k = .ok h) :
    d.find h k = (d.find? fun e => decide (content e.2.1 = content k)).map (·.2.2) := by
  induction d with
  | nil => rfl
  | cons e r ih =>
    rw [KeyDict.find, hit_eq hs ht h k e hk (hd.1 e (by simp)), List.find?_cons]
    by_cases hc : content e.2.1 = content k
    · simp [hc]
    · simp only [hc, decide_false, Bool.false_eq_true, if_false]
      exact ih ⟨fun f hf => hd.1 f (by simp [hf]), hd.2.of_cons⟩

private theorem mem_store {α : Type} (d : KeyDict α) (k : KeyObj) (h : Nat) (v : α) (f : Nat × KeyObj × α) (hf : f ∈ d.store h k v) :
    (f.1 = h ∧ f.2.1 = k) ∨ ∃ e ∈ d, e.1 = f.1 ∧ e.2.1 = f.2.1 := by
  induction d with
  | nil => simp [KeyDict.store] at hf; subst hf; simp
  | cons e r ih =>
    rw [KeyDict.store] at hf
    split at hf
    · rcases List.mem_cons.1 hf with rfl | hf
      · exact .inr ⟨e, by simp⟩
      · exact .inr ⟨f, by simp [hf]⟩
    · rcases List.mem_cons.1 hf with rfl | hf
      · exact .inr ⟨f, by simp⟩
      · rcases ih hf with h1 | ⟨e', h1, h2⟩
        · exact .inl h1
        · exact .inr ⟨e', by simp [h1], h2⟩

private theorem store_sound {α : Type} (d : KeyDict α) (hd : Sound hs ht d) (k : KeyObj) (h : Nat) (v : α) (hk : keyHash hs ht k = .ok h) :
    Sound hs ht (d.store h k v) := by
  refine ⟨fun f hf => ?_, ?_⟩
  · rcases mem_store d k h v f hf with ⟨h1, h2⟩ | ⟨e, he, h1, h2⟩
    · rw [h1, h2]; exact hk
    · rw [← h1, ← h2]; exact hd.1 e he
  · induction d with
    | nil => simp [KeyDict.store]
    | cons e r ih =>
      have he := hit_eq hs ht h k e hk (hd.1 e (by simp))
      have hr : Sound hs ht r := ⟨fun f hf => hd.1 f (by simp [hf]), hd.2.of_cons⟩
      rw [KeyDict.store, he]
      by_cases hc : content e.2.1 = content k
      · simp only [hc, decide_true, if_true]
        have := List.pairwise_cons.1 hd.2
        exact List.pairwise_cons.2 ⟨fun f hf => this.1 f hf, this.2⟩
      · simp only [hc, decide_false, Bool.false_eq_true, if_false]
        refine List.pairwise_cons.2 ⟨fun f hf => ?_, ih hr⟩
        rcases mem_store r k h v f hf with ⟨-, h2⟩ | ⟨e', he', -, h2⟩
        · rw [h2]; exact hc
        · rw [← h2]; exact (List.pairwise_cons.1 hd.2).1 e' he'

private theorem store_find {α : Type} (d : KeyDict α) (hd : Sound hs ht d) (k j : KeyObj) (h : Nat) (v : α) (hk : keyHash hs ht k = .ok h) :
    ((d.store h k v).find? fun e => decide (content e.2.1 = content j)).map (·.2.2) =
      if content k = content j then some v else (d.find? fun e => decide (content e.2.1 = content j)).map (·.2.2) := by
  induction d with
  | nil => by_cases hc : content k = content j <;> simp [KeyDict.store, hc]
  | cons e r ih =>
    have he := hit_eq hs ht h k e hk (hd.1 e (by simp))
    have hr : Sound hs ht r := ⟨fun f hf => hd.1 f (by simp [hf]), hd.2.of_cons⟩
    rw [KeyDict.store, he]
    by_cases hc : content e.2.1 = content k
    · simp only [hc, decide_true, if_true]
      by_cases hj : content k = content j
      · simp [hc, hj]
      · simp [hc, hj]
    · simp only [hc, decide_false, Bool.false_eq_true, if_false, List.find?_cons]
      by_cases hj : content e.2.1 = content j
      · have : content k ≠ content j := fun x => hc (hj.trans x.symm)
        simp [hj, this]
      · simp [hj, ih hr]

private theorem drop_sub {α : Type} (d : KeyDict α) (h : Nat) (k : KeyObj) : List.Sublist (d.drop h k) d := by
  induction d with
  | nil => exact List.Sublist.refl _
  | cons e r ih =>
    rw [KeyDict.drop]
    split
    · exact List.sublist_cons_self ..
    · exact ih.cons₂ e

private theorem drop_sound {α : Type} (d : KeyDict α) (hd : Sound hs ht d) (k : KeyObj) (h : Nat) : Sound hs ht (d.drop h k) :=
  ⟨fun e he => hd.1 e ((drop_sub d h k).subset he), hd.2.sublist (drop_sub d h k)⟩

private theorem drop_find {α : Type} (d : KeyDict α) (hd : Sound hs ht d) (k j : KeyObj) (h : Nat) (hk : keyHash hs ht k = .ok h) :
    ((d.drop h k).find? fun e => decide (content e.2.1 = content j)).map (·.2.2) =
      if content k = content j then none else (d.find? fun e => decide (content e.2.1 = content j)).map (·.2.2) := by
  induction d with
  | nil => simp [KeyDict.drop]
  | cons e r ih =>
    have he := hit_eq hs ht h k e hk (hd.1 e (by simp))
    have hr : Sound hs ht r := ⟨fun f hf => hd.1 f (by simp [hf]), hd.2.of_cons⟩
    have hp := (List.pairwise_cons.1 hd.2).1
    rw [KeyDict.drop, he]
    by_cases hc : content e.2.1 = content k
    · simp only [hc, decide_true, if_true]
      by_cases hj : content k = content j
      · simp only [hj, if_true, Option.map_eq_none_iff, List.find?_eq_none, decide_eq_true_eq]
        intro f hf x
        exact hp f hf (hc.trans (hj.trans x.symm))
      · simp [hc, hj]
    · simp only [hc, decide_false, Bool.false_eq_true, if_false, List.find?_cons]
      by_cases hj : content e.2.1 = content j
      · have : content k ≠ content j := fun x => hc (hj.trans x.symm)
        simp [hj, this]
      · simp [hj, ih hr]

private theorem step_spec {α : Type} (d : KeyDict α) (hd : Sound hs ht d) (op : DictOp α) (j : KeyObj) :
    let d' := match dictStep hs ht d op with | .error _ => d | .ok d' => d'
    Sound hs ht d' ∧ (d'.find? fun e => decide (content e.2.1 = content j)).map (·.2.2) =
      if About j op = true then (match op with | .put _ v => some v | .del _ => none)
      else (d.find? fun e => decide (content e.2.1 = content j)).map (·.2.2) := by
  cases op with
  | put k v =>
    by_cases hk : CanBeKey k = true
    · obtain ⟨h, hh⟩ := (C113_who hs ht k).2 hk
      simp only [dictStep, hh, About, hk, Bool.true_and, decide_eq_true_eq]
      exact ⟨store_sound hs ht d hd k h v hh, store_find hs ht d hd k j h v hh⟩
    · have hk' : CanBeKey k = false := by simpa using hk
      simp only [dictStep, C113_no_hash hs ht k hk', About, hk', Bool.false_and, Bool.false_eq_true, if_false]
      exact ⟨hd, trivial⟩
  | del k =>
    by_cases hk : CanBeKey k = true
    · obtain ⟨h, hh⟩ := (C113_who hs ht k).2 hk
      simp only [dictStep, hh, About, hk, Bool.true_and, decide_eq_true_eq]
      by_cases hf : (d.find h k).isSome = true
      · simp only [hf, if_true]
        exact ⟨drop_sound hs ht d hd k h, drop_find hs ht d hd k j h hh⟩
      · simp only [hf, Bool.false_eq_true, if_false]
        refine ⟨hd, ?_⟩
        by_cases hj : content k = content j
        · rw [find_eq hs ht d hd k h hh] at hf
          simp only [hj, if_true]
          rw [hj] at hf
          simpa using hf
        · simp [hj]
    · have hk' : CanBeKey k = false := by simpa using hk
      simp only [dictStep, C113_no_hash hs ht k hk', About, hk', Bool.false_and, Bool.false_eq_true, if_false]
      exact ⟨hd, trivial⟩

private theorem run_spec {α : Type} (ops : List (DictOp α)) (d : KeyDict α) (hd : Sound hs ht d) (j : KeyObj) :
    Sound hs ht (dictRun hs ht d ops) ∧ ((dictRun hs ht d ops).find? fun e => decide (content e.2.1 = content j)).map (·.2.2) =
      match (ops.filter (About j)).getLast? with
      | some (.put _ v) => some v
      | some (.del _) => none
      | none => (d.find? fun e => decide (content e.2.1 = content j)).map (·.2.2) := by
  induction ops generalizing d with
  | nil => exact ⟨hd, rfl⟩
  | cons op r ih =>
    have hs' := step_spec hs ht d hd op j
    have key : dictRun hs ht d (op :: r) = dictRun hs ht (match dictStep hs ht d op with | .error _ => d | .ok d' => d') r := by
      rw [dictRun]; split <;> simp_all
    rw [key]
    obtain ⟨h1, h2⟩ := ih _ hs'.1
    refine ⟨h1, h2.trans ?_⟩
    rw [hs'.2]
    by_cases ha : About j op = true
    · simp only [List.filter_cons, ha, if_true]
      cases hl : (List.filter (About j) r).getLast? with
      | none =>
        have : List.filter (About j) r = [] := by simpa using hl
        rw [this]
        cases op <;> rfl
      | some x =>
        rw [List.getLast?_cons, hl]
        cases x <;> rfl
    · simp only [List.filter_cons, ha, Bool.false_eq_true, if_false]

/-- C113. After any program of assignments and deletions, `d[k]` is the value last given to a key of the same content and not deleted since, or
`KeyError`; statements with objects that may not be keys change nothing. -/
theorem C113_lookup {α : Type} (ops : List (DictOp α)) (k : KeyObj) (hk : CanBeKey k = true) :
    dictGet hs ht (dictRun hs ht [] ops) k = (match lastSaid k ops with | some v => .ok v | none => .error .keyError) := by
  obtain ⟨h, hh⟩ := (C113_who hs ht k).2 hk
  obtain ⟨h1, h2⟩ := run_spec hs ht ops [] ⟨by simp, by simp⟩ k
  simp only [dictGet, hh]
  rw [find_eq hs ht _ h1 k h hh, h2]
  unfold lastSaid
  cases (List.filter (About k) ops).getLast? with
  | none => rfl
  | some x => cases x <;> rfl

/-- C113. For references: what was stored under a reference is found again by any reference with that start and end. -/
theorem C113_found {α : Type} (ops : List (DictOp α)) (a b : Ref) (v : α) (h : a.start = b.start ∧ a.stop = b.stop) :
    dictGet hs ht (dictRun hs ht [] (ops ++ [.put a.key v])) b.key = .ok v := by
  rw [C113_lookup hs ht _ _ rfl]
  have : About b.key (DictOp.put a.key v) = true := by simp [About, CanBeKey, Ref.key, content, h.1, h.2]
  simp [lastSaid, List.filter_append, this]

/-- C113. And storing under a reference leaves what is stored under every other reference. -/
theorem C113_others {α : Type} (ops : List (DictOp α)) (a b : Ref) (v : α) (h : ¬ (a.start = b.start ∧ a.stop = b.stop)) :
    dictGet hs ht (dictRun hs ht [] (ops ++ [.put a.key v])) b.key = dictGet hs ht (dictRun hs ht [] ops) b.key := by
  rw [C113_lookup hs ht _ _ rfl, C113_lookup hs ht _ _ rfl]
  have : About b.key (DictOp.put a.key v) = false := by simpa [About, CanBeKey, Ref.key, content] using h
  simp [lastSaid, List.filter_append, this]

/-! ### Sets -/

private theorem store_keys {α : Type} (d : KeyDict α) (hd : Sound hs ht d) (k : KeyObj) (h : Nat) (v : α) (hk : keyHash hs ht k = .ok h) :
    (d.store h k v).map (·.2.1) = if (∃ e ∈ d, content e.2.1 = content k) then d.map (·.2.1) else d.map (·.2.1) ++ [k] := by
  induction d with
  | nil => simp [KeyDict.store]
  | cons e r ih =>
    have he := hit_eq hs ht h k e hk (hd.1 e (by simp))
    have hr : Sound hs ht r := ⟨fun f hf => hd.1 f (by simp [hf]), hd.2.of_cons⟩
    rw [KeyDict.store, he]
    by_cases hc : content e.2.1 = content k
    · simp [hc]
    · simp only [hc, decide_false, Bool.false_eq_true, if_false, List.map_cons, ih hr]
      simp only [List.mem_cons, exists_eq_or_imp, hc, false_or]
      split <;> rfl

private theorem setOf_spec (l : List KeyObj) (hl : ∀ k ∈ l, CanBeKey k = true) (d : KeyDict Unit) (hd : Sound hs ht d) :
    ∃ s, setOf hs ht d l = .ok s ∧ Sound hs ht s ∧ (∀ k ∈ s.map (·.2.1), k ∈ d.map (·.2.1) ∨ k ∈ l) ∧
      (∀ e ∈ d, ∃ k ∈ s.map (·.2.1), content k = content e.2.1) ∧ (∀ k ∈ l, ∃ x ∈ s.map (·.2.1), content x = content k) := by
  induction l generalizing d with
  | nil => exact ⟨d, rfl, hd, fun k hk => .inl hk, fun e he => ⟨_, List.mem_map_of_mem (f := (·.2.1)) he, rfl⟩, by simp⟩
  | cons k r ih =>
    obtain ⟨h, hh⟩ := (C113_who hs ht k).2 (hl k (by simp))
    obtain ⟨s, h1, h2, h3, h4, h5⟩ := ih (fun x hx => hl x (by simp [hx])) _ (store_sound hs ht d hd k h () hh)
    have hkeys := store_keys hs ht d hd k h () hh
    have hput : ∃ e ∈ d.store h k (), content e.2.1 = content k := by
      by_cases hc : ∃ e ∈ d, content e.2.1 = content k
      · rw [if_pos hc] at hkeys
        obtain ⟨e, he, hek⟩ := hc
        have : e.2.1 ∈ (d.store h k ()).map (·.2.1) := by rw [hkeys]; exact List.mem_map_of_mem (f := (·.2.1)) he
        obtain ⟨f, hf, hfe⟩ := List.mem_map.1 this
        exact ⟨f, hf, by rw [hfe]; exact hek⟩
      · rw [if_neg hc] at hkeys
        have : k ∈ (d.store h k ()).map (·.2.1) := by rw [hkeys]; simp
        obtain ⟨f, hf, hfe⟩ := List.mem_map.1 this
        exact ⟨f, hf, by rw [hfe]⟩
    have hold : ∀ e ∈ d, ∃ f ∈ d.store h k (), f.2.1 = e.2.1 := by
      intro e he
      have : e.2.1 ∈ (d.store h k ()).map (·.2.1) := by
        rw [hkeys]
        have := List.mem_map_of_mem (f := fun x : Nat × KeyObj × Unit => x.2.1) he
        split
        · exact this
        · exact List.mem_append_left _ this
      obtain ⟨f, hf, hfe⟩ := List.mem_map.1 this
      exact ⟨f, hf, hfe⟩
    refine ⟨s, by simp [setOf, dictStep, hh, h1], h2, ?_, ?_, ?_⟩
    · intro x hx
      rcases h3 x hx with hx | hx
      · rw [hkeys] at hx
        split at hx
        · exact .inl hx
        · rcases List.mem_append.1 hx with hx | hx
          · exact .inl hx
          · exact .inr (by simp at hx; simp [hx])
      · exact .inr (by simp [hx])
    · intro e he
      obtain ⟨f, hf, hfe⟩ := hold e he
      rw [← hfe]
      exact h4 f hf
    · intro x hx
      rcases List.mem_cons.1 hx with rfl | hx
      · obtain ⟨e, he, hek⟩ := hput
        rw [← hek]
        exact h4 e he
      · exact h5 x hx

/-- C113. `set` of CTS references has each of them once: its elements are among them, no two have the same start and end, and for each there is
one with its start and end. -/
theorem C113_set (l : List Ref) :
    ∃ s, setOf hs ht [] (l.map Ref.key) = .ok s ∧ (∀ e ∈ s, ∃ r ∈ l, e.2.1 = r.key) ∧
      s.Pairwise (fun e f => content e.2.1 ≠ content f.2.1) ∧ (∀ r ∈ l, ∃ e ∈ s, ∃ x : Ref, e.2.1 = x.key ∧ x.start = r.start ∧ x.stop = r.stop) := by
  obtain ⟨s, h1, h2, h3, -, h5⟩ := setOf_spec hs ht (l.map Ref.key) (by
    intro k hk
    obtain ⟨r, -, rfl⟩ := List.mem_map.1 hk
    rfl) [] ⟨by simp, by simp⟩
  have hin : ∀ e ∈ s, ∃ r ∈ l, e.2.1 = r.key := by
    intro e he
    rcases h3 e.2.1 (List.mem_map_of_mem (f := (·.2.1)) he) with hx | hx
    · simp at hx
    · obtain ⟨r, hr, e'⟩ := List.mem_map.1 hx
      exact ⟨r, hr, e'.symm⟩
  refine ⟨s, h1, hin, h2.2, fun r hr => ?_⟩
  obtain ⟨k, hk, hc⟩ := h5 r.key (List.mem_map_of_mem hr)
  obtain ⟨e, he, rfl⟩ := List.mem_map.1 hk
  obtain ⟨x, -, hx⟩ := hin e he
  refine ⟨e, he, x, hx, ?_⟩
  rw [hx] at hc
  simpa [content, Ref.key] using hc

/-- C113. So a list of references no two of which have the same start and end has as many elements as its set. -/
theorem C113_set_length (l : List KeyObj) (hl : ∀ k ∈ l, CanBeKey k = true) (hp : l.Pairwise fun a b => content a ≠ content b) :
    ∃ s, setOf hs ht [] l = .ok s ∧ s.map (·.2.1) = l := by
  suffices H : ∀ (d : KeyDict Unit), Sound hs ht d → (∀ e ∈ d, ∀ k ∈ l, content e.2.1 ≠ content k) →
      ∃ s, setOf hs ht d l = .ok s ∧ s.map (·.2.1) = d.map (·.2.1) ++ l by
    obtain ⟨s, h1, h2⟩ := H [] ⟨by simp, by simp⟩ (by simp)
    exact ⟨s, h1, by simpa using h2⟩
  induction l with
  | nil => exact fun d _ _ => ⟨d, rfl, by simp⟩
  | cons k r ih =>
    intro d hd hdis
    obtain ⟨h, hh⟩ := (C113_who hs ht k).2 (hl k (by simp))
    have hkeys := store_keys hs ht d hd k h () hh
    rw [if_neg (by rintro ⟨e, he, hc⟩; exact hdis e he k (by simp) hc)] at hkeys
    obtain ⟨s, h1, h2⟩ := ih (fun x hx => hl x (by simp [hx])) (List.pairwise_cons.1 hp).2 _ (store_sound hs ht d hd k h () hh) (by
      intro e he x hx
      have : e.2.1 ∈ d.map (·.2.1) ++ [k] := hkeys ▸ List.mem_map_of_mem (f := (·.2.1)) he
      rcases List.mem_append.1 this with hm | hm
      · obtain ⟨f, hf, hfe⟩ := List.mem_map.1 hm
        rw [← hfe]
        exact hdis f hf x (by simp [hx])
      · simp at hm
        rw [hm]
        exact (List.pairwise_cons.1 hp).1 x hx)
    exact ⟨s, by simp [setOf, dictStep, hh, h1], by rw [h2, hkeys]; simp⟩

/-- C113. DTS references are equal when start, end and type are; and they equal no plain tuple and no reference without a class of its own, on
whichever side these stand, for Python asks the DTS reference first. -/
theorem C113_dts (l m : List (Option Str)) (x y z : Option Str) :
    keyEq (.tup .dts l x) (.tup .dts m y) = decide (l = m ∧ x = y) ∧
    keyEq (.tup .plain l z) (.tup .dts m x) = false ∧ keyEq (.tup .dts m x) (.tup .plain l z) = false ∧
    keyEq (.tup .base l z) (.tup .dts m x) = false ∧ keyEq (.tup .dts m x) (.tup .base l z) = false := by
  refine ⟨?_, ?_, ?_, ?_, ?_⟩
  · simp [keyEq, rightFirst, dunderEq, TupCls.under]
  all_goals simp [keyEq, rightFirst, dunderEq, TupCls.under]

/-- C113. Deleting a key that may be one removes it when it is there, so that it is not found, and raises `KeyError` when it is not. -/
theorem C113_delete {α : Type} (ops : List (DictOp α)) (k : KeyObj) (hk : CanBeKey k = true) :
    (∀ v, dictGet hs ht (dictRun hs ht [] ops) k = .ok v → ∃ d, dictStep hs ht (dictRun hs ht [] ops) (.del k) = .ok d ∧
      dictGet hs ht d k = .error .keyError) ∧
    (dictGet hs ht (dictRun hs ht [] ops) k = .error .keyError → dictStep hs ht (dictRun hs ht [] ops) (.del k) = .error .keyError) := by
  obtain ⟨h, hh⟩ := (C113_who hs ht k).2 hk
  refine ⟨fun v hv => ?_, fun hn => ?_⟩
  · simp only [dictGet, hh] at hv
    cases hf : (dictRun hs ht [] ops).find h k with
    | none => rw [hf] at hv; simp at hv
    | some v' =>
      refine ⟨(dictRun hs ht [] ops).drop h k, by simp only [dictStep, hh, hf, Option.isSome_some, if_true], ?_⟩
      have hrun : dictRun hs ht [] (ops ++ [.del k]) = (dictRun hs ht [] ops).drop h k := by
        have : ∀ (ops : List (DictOp α)) (d : KeyDict α), dictRun hs ht d (ops ++ [.del k]) = dictRun hs ht (dictRun hs ht d ops) [.del k] := by
          intro ops
          induction ops with
          | nil => intro d; rfl
          | cons o r ih =>
            intro d
            rw [List.cons_append]
            cases ho : dictStep hs ht d o with
            | error e =>
              have h1 : ∀ l, dictRun hs ht d (o :: l) = dictRun hs ht d l := fun l => by simp only [dictRun, ho]
              rw [h1, h1]
              exact ih d
            | ok d' =>
              have h1 : ∀ l, dictRun hs ht d (o :: l) = dictRun hs ht d' l := fun l => by simp only [dictRun, ho]
              rw [h1, h1]
              exact ih d'
        rw [this]
        simp only [dictRun, dictStep, hh, hf, Option.isSome_some, if_true]
      have := C113_lookup hs ht (ops ++ [.del k]) k hk
      rw [hrun] at this
      rw [this]
      have hab : About k (DictOp.del (α := α) k) = true := by simp [About, hk]
      have : lastSaid k (ops ++ [DictOp.del (α := α) k]) = none := by simp [lastSaid, List.filter_append, hab]
      rw [this]
  · simp only [dictGet, hh] at hn
    cases hf : (dictRun hs ht [] ops).find h k with
    | none => simp [dictStep, hh, hf]
    | some v' => rw [hf] at hn; simp at hn

/-! ### Departures -/

/-- C113 (departure): no dictionary and no set takes a DTS reference, a URN or a CTS collection: reading, storing, deleting and making a set raise
`TypeError`. -/
theorem C113_fails_unhashable {α : Type} (d : KeyDict α) (k : KeyObj) (v : α) (pre post : List KeyObj) (hk : CanBeKey k = false)
    (hpre : ∀ x ∈ pre, CanBeKey x = true) :
    dictGet hs ht d k = .error .typeError ∧ dictStep hs ht d (.put k v) = .error .typeError ∧ dictStep hs ht d (.del k) = .error .typeError ∧
      setOf hs ht [] (pre ++ k :: post) = .error .typeError := by
  have hn := C113_no_hash hs ht k hk
  refine ⟨by simp [dictGet, hn], by simp [dictStep, hn], by simp [dictStep, hn], ?_⟩
  generalize ([] : KeyDict Unit) = d
  induction pre generalizing d with
  | nil => simp [setOf, dictStep, hn]
  | cons x r ih =>
    obtain ⟨h, hh⟩ := (C113_who hs ht x).2 (hpre x (by simp))
    simp only [List.cons_append, setOf, dictStep, hh]
    exact ih (fun y hy => hpre y (by simp [hy])) _

/-- C113 (departure): a CTS reference equals a DTS reference with its start and end, whatever the type, but the DTS reference does not equal it; so
`==` is not symmetric, nor transitive. -/
theorem C113_fails_symmetric (r : Ref) (x y : Option Str) (hxy : x ≠ y) :
    keyEq r.key (.tup .dts [some r.start, r.stop] x) = true ∧ keyEq (.tup .dts [some r.start, r.stop] x) r.key = false ∧
      keyEq (.tup .dts [some r.start, r.stop] x) (.tup .dts [some r.start, r.stop] y) = false := by
  refine ⟨?_, ?_, ?_⟩
  · simp [keyEq, rightFirst, dunderEq, TupCls.under, Ref.key]
  · simp [keyEq, rightFirst, dunderEq, TupCls.under, Ref.key]
  · simp [keyEq, rightFirst, dunderEq, TupCls.under, hxy]

/-! ### Instances -/

/-- A range written in one piece and in two, with different texts; a dictionary finds one by the other. -/
example : dictGet (·.length) (·.length) (dictRun (·.length) (·.length) [] [.put (Ref.key ⟨['1'], some ['2'], "1-2".toList⟩) 'a',
    .put (Ref.key ⟨['1'], none, ['1']⟩) 'b', .put (.urn ['u']) 'c', .del (.str ['1'])]) (Ref.key ⟨['1'], some ['2'], []⟩) = .ok 'a' := by
  decide +kernel

example : (setOf (·.length) (·.length) [] (List.map Ref.key [⟨['1'], none, ['1']⟩, ⟨['2'], none, ['2']⟩, ⟨['1'], none, []⟩])).map List.length = .ok 2 := by
  decide +kernel

example : CanBeKey (.urn ['u']) = false ∧ CanBeKey (.tup .dts [some ['1'], none] none) = false ∧ CanBeKey (Ref.key ⟨['1'], none, ['1']⟩) = true :=
  ⟨rfl, rfl, rfl⟩

end Verif.Props
