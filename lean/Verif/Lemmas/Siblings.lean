import Verif.Lemmas.Prune
import Verif.Model.Siblings
import Verif.Spec.Siblings
/-! Helper lemmas: siblings in lists of references. -/
namespace Verif.Model
open Verif.Py Verif.Spec

/-- The set of references to some passages. -/
def refsOf (us : List (List Str)) : RefSet := us.map fun u => some (single u)

/-- Identifiers that can be written. -/
def Writable (us : List (List Str)) : Prop := ∀ u ∈ us, u ≠ [] ∧ ∀ v ∈ u, IsComponent v

theorem dotted_inj {a b : List Str} (ha : a ≠ [] ∧ ∀ v ∈ a, IsComponent v) (hb : b ≠ [] ∧ ∀ v ∈ b, IsComponent v)
    (h : dotted a = dotted b) : a = b := by
  rw [← plist_dotted ha.1 ha.2, h, plist_dotted hb.1 hb.2]

theorem itemEq_single {a b : List Str} (ha : a ≠ [] ∧ ∀ v ∈ a, IsComponent v) (hb : b ≠ [] ∧ ∀ v ∈ b, IsComponent v) :
    itemEq (some (single a)) (some (single b)) = decide (a = b) := by
  unfold itemEq
  rw [decide_eq_decide]
  simp only [Ref.eqv, single, and_true]
  exact ⟨dotted_inj ha hb, fun h => h ▸ rfl⟩

theorem index_refsOf {before after : List (List Str)} {u : List Str} (hw : Writable (before ++ u :: after))
    (hn : (before ++ u :: after).Nodup) : (refsOf (before ++ u :: after)).index (dotted u) = .ok before.length := by
  have hu := hw u (by simp)
  have : mkRef (dotted u) = .ok (some (single u)) := mkRef_dotted hu.1 hu.2
  simp only [RefSet.index, this, bind, Except.bind, RefSet.indexOf]
  have hf : (refsOf (before ++ u :: after)).findIdx? (fun x => itemEq x (some (single u))) = some before.length := by
    rw [refsOf, List.findIdx?_map, List.findIdx?_append]
    have h1 : before.findIdx? ((fun x => itemEq x (some (single u))) ∘ fun u => some (single u)) = none := by
      rw [List.findIdx?_eq_none_iff]
      intro x hx
      simp only [Function.comp]
      rw [itemEq_single (hw x (by simp [hx])) hu]
      rw [List.nodup_append] at hn
      simpa using hn.2.2 x hx u (by simp)
    rw [h1, List.findIdx?_cons]
    simp only [Function.comp, itemEq_single hu hu]
    simp
  rw [hf]

theorem tupleAt_refsOf {us : List (List Str)} {i : Nat} (h : i < us.length) {k : Int} (hk : k = i) :
    tupleAt (refsOf us) k = .ok (some (single us[i])) := by
  subst hk
  unfold tupleAt
  simp [pyGet, refsOf, h]

theorem tupleAt_last {us : List (List Str)} {x : List Str} : tupleAt (refsOf (us ++ [x])) (-1) = .ok (some (single x)) := by
  unfold tupleAt pyGet
  rw [if_neg (by omega), if_pos (by simp [refsOf]; omega)]
  have : ((-1 : Int) + ((refsOf (us ++ [x])).length : Int)).toNat = us.length := by simp [refsOf]; omega
  rw [this]
  simp [refsOf]

theorem make_item (u : List Str) : (SibArg.item (some (single u))).make = .ok (some (single u)) := by
  simp [SibArg.make, refeed, mkRefTuple, single, TStr.truthy]

theorem make_pair {a b : List Str} (ha : a ≠ [] ∧ ∀ v ∈ a, IsComponent v) (hb : b ≠ [] ∧ ∀ v ∈ b, IsComponent v) :
    (SibArg.text (refText (some (single a)) ++ ['-'] ++ refText (some (single b)))).make
      = .ok (some (mkRef2 (dotted a) (dotted b))) := by
  simp only [SibArg.make, refText, Ref.str, single, mkRef2]
  rw [List.append_assoc, List.singleton_append]
  exact mkRef_pair (not_mem_dotted (by decide) fun c hc => (ha.2 c hc).2.2.1)
    (not_mem_dotted (by decide) fun c hc => (hb.2 c hc).2.2.1)

/-- Siblings of one passage. -/
theorem siblings_single {before after : List (List Str)} {u : List Str} (hw : Writable (before ++ u :: after))
    (hn : (before ++ u :: after).Nodup) :
    siblingsOf (refsOf (before ++ u :: after)) (dotted u) (dotted u) 1 =
      .ok (before.getLast?.map single, after.head?.map single) := by
  have hp : ∃ p, prevArg (refsOf (before ++ u :: after)) before.length before.length 1 = .ok p ∧
      p.make = .ok (before.getLast?.map single) := by
    unfold prevArg
    cases hb : before.getLast? with
    | none =>
      rw [List.getLast?_eq_none_iff] at hb
      subst hb
      exact ⟨.none, by simp, rfl⟩
    | some x =>
      obtain ⟨b, rfl⟩ := List.getLast?_eq_some_iff.1 hb
      rw [if_neg (by simp; omega), if_neg (by simp), if_pos rfl]
      unfold itemAt
      rw [tupleAt_refsOf (i := b.length) (by simp) (by simp)]
      exact ⟨_, rfl, by simpa using make_item x⟩
  have hx : ∃ p, nextArg (refsOf (before ++ u :: after)) before.length before.length 1 = .ok p ∧
      p.make = .ok (after.head?.map single) := by
    unfold nextArg
    have hl : (refsOf (before ++ u :: after)).length = before.length + 1 + after.length := by simp [refsOf]; omega
    cases ha : after with
    | nil =>
      subst ha
      exact ⟨.none, by simp [refsOf], rfl⟩
    | cons x r =>
      rw [ha] at hl hw
      have hx := make_item x
      rw [if_neg (by rw [hl]; simp; omega)]
      rw [if_neg (by rw [hl]; simp; omega), if_pos rfl]
      unfold itemAt
      rw [tupleAt_refsOf (i := before.length + 1) (by simp) (by simp)]
      refine ⟨_, rfl, ?_⟩
      simpa using hx
  obtain ⟨p, hp1, hp2⟩ := hp
  obtain ⟨x, hx1, hx2⟩ := hx
  simp only [siblingsOf, index_refsOf hw hn, hp1, hx1, hp2, hx2]

theorem span_eq {l : List (List Str)} (h : l ≠ []) :
    span l = some (mkRef2 (dotted (l.head h)) (dotted (l.getLast h))) := by
  cases l with
  | nil => exact absurd rfl h
  | cons a r =>
    simp only [span, List.head_cons]
    congr 3
    cases r with
    | nil => rfl
    | cons b r => simp [List.getLast?_eq_some_getLast]

/-- Siblings of a range. -/
theorem siblings_range {before between after : List (List Str)} {a b : List Str}
    (hw : Writable (before ++ a :: between ++ b :: after)) (hn : (before ++ a :: between ++ b :: after).Nodup) :
    siblingsOf (refsOf (before ++ a :: between ++ b :: after)) (dotted a) (dotted b) ((between.length + 2 : Nat) : Int) =
      .ok (span (lastN (between.length + 2) before), span (after.take (between.length + 2))) := by
  have hia : (refsOf (before ++ a :: between ++ b :: after)).index (dotted a) = .ok before.length := by
    have := index_refsOf (before := before) (u := a) (after := between ++ b :: after) (by simpa using hw) (by simpa using hn)
    simpa using this
  have hib : (refsOf (before ++ a :: between ++ b :: after)).index (dotted b) = .ok (before.length + 1 + between.length) := by
    have := index_refsOf (before := before ++ a :: between) (u := b) (after := after) hw hn
    rw [this]; simp; omega
  have hl : (refsOf (before ++ a :: between ++ b :: after)).length = before.length + between.length + after.length + 2 := by
    simp [refsOf]; omega
  have hus : ∀ us : List (List Str), us = before ++ a :: between ++ b :: after → Writable us := fun us h => h ▸ hw
  generalize hUS : before ++ a :: between ++ b :: after = us at *
  have hlen : us.length = before.length + between.length + after.length + 2 := by rw [← hUS]; simp; omega
  have getb : ∀ i (h : i < before.length), us[i]'(by omega) = before[i] := by
    intro i h; subst hUS; simp [h]
  have geta : ∀ i (h : i < after.length), us[before.length + between.length + 2 + i]'(by omega) = after[i] := by
    intro i h; subst hUS
    simp only [List.append_assoc, List.cons_append]
    rw [List.getElem_append_right (by omega), List.getElem_cons, dif_neg (by omega),
      List.getElem_append_right (by omega), List.getElem_cons, dif_neg (by omega)]
    congr 1
    omega
  have hwb : ∀ i (h : i < before.length), before[i] ≠ [] ∧ ∀ v ∈ before[i], IsComponent v := by
    intro i h; apply hw; rw [← hUS]; simp
  have hwa : ∀ i (h : i < after.length), after[i] ≠ [] ∧ ∀ v ∈ after[i], IsComponent v := by
    intro i h; apply hw; rw [← hUS]; simp
  have hp : ∃ p, prevArg (refsOf us) before.length ((before.length + 1 + between.length : Nat) : Int) ((between.length + 2 : Nat) : Int) = .ok p ∧
      p.make = .ok (span (lastN (between.length + 2) before)) := by
    unfold prevArg
    by_cases h0 : before = []
    · subst h0
      exact ⟨.none, by simp, by simp [lastN, span, SibArg.make]⟩
    · have hpos : 0 < before.length := List.length_pos_iff.2 h0
      have hd : before.drop (before.length - (between.length + 2)) ≠ [] := by simp; omega
      rw [if_neg (by omega)]
      have hspan : span (lastN (between.length + 2) before) =
          some (mkRef2 (dotted (before[before.length - (between.length + 2)]'(by omega))) (dotted (before[before.length - 1]'(by omega)))) := by
        unfold lastN
        rw [span_eq hd]
        congr 3
        · rw [List.head_drop]
        · rw [List.getLast_drop, List.getLast_eq_getElem]
      rw [hspan]
      by_cases hlt : (before.length : Int) - ((between.length + 2 : Nat) : Int) < 0
      · rw [if_pos hlt, if_neg (by omega)]
        unfold pairAt
        rw [tupleAt_refsOf (i := 0) (by omega) (by simp), tupleAt_refsOf (i := before.length - 1) (by omega) (by omega)]
        rw [getb 0 (by omega), getb (before.length - 1) (by omega)]
        refine ⟨_, rfl, ?_⟩
        rw [make_pair (hwb _ _) (hwb _ _)]
        have : before.length - (between.length + 2) = 0 := by omega
        simp only [this]
      · rw [if_neg hlt, if_neg (by omega)]
        unfold pairAt
        rw [tupleAt_refsOf (i := before.length - (between.length + 2)) (by omega) (by omega),
          tupleAt_refsOf (i := before.length - 1) (by omega) (by omega)]
        rw [getb _ (by omega), getb _ (by omega)]
        exact ⟨_, rfl, make_pair (hwb _ _) (hwb _ _)⟩
  have hx : ∃ p, nextArg (refsOf us) before.length ((before.length + 1 + between.length : Nat) : Int) ((between.length + 2 : Nat) : Int) = .ok p ∧
      p.make = .ok (span (after.take (between.length + 2))) := by
    unfold nextArg
    rw [hl]
    by_cases h0 : after = []
    · subst h0
      refine ⟨.none, ?_, by simp [span, SibArg.make]⟩
      rw [if_pos]
      right; simp; omega
    · have hpos : 0 < after.length := List.length_pos_iff.2 h0
      have hd : after.take (between.length + 2) ≠ [] := by simp [h0]
      rw [if_neg (by omega)]
      have hspan : span (after.take (between.length + 2)) =
          some (mkRef2 (dotted (after[0]'(by omega))) (dotted (after[min (between.length + 2) after.length - 1]'(by omega)))) := by
        rw [span_eq hd]
        congr 3
        · rw [List.head_take, List.head_eq_getElem]
        · rw [List.getLast_eq_getElem, List.getElem_take]
          congr 1
          simp
      rw [hspan]
      by_cases hge : ((before.length + 1 + between.length : Nat) : Int) + ((between.length + 2 : Nat) : Int) ≥ ((before.length + between.length + after.length + 2 : Nat) : Int)
      · rw [if_pos hge, if_neg (by omega)]
        unfold pairAt
        have hlast : tupleAt (refsOf us) (-1) = .ok (some (single (after[after.length - 1]'(by omega)))) := by
          have e : us = us.dropLast ++ [us.getLast (by intro e; rw [e] at hlen; simp at hlen)] := (List.dropLast_concat_getLast _).symm
          rw [e, tupleAt_last, List.getLast_eq_getElem]
          have := geta (after.length - 1) (by omega)
          simp only [show us.length - 1 = before.length + between.length + 2 + (after.length - 1) by omega, this]
        rw [hlast, tupleAt_refsOf (i := before.length + between.length + 2 + 0) (by omega) (by omega)]
        rw [geta 0 (by omega)]
        refine ⟨_, rfl, ?_⟩
        rw [make_pair (hwa _ _) (hwa _ _)]
        have : min (between.length + 2) after.length - 1 = after.length - 1 := by omega
        simp only [this]
      · rw [if_neg hge, if_neg (by omega)]
        unfold pairAt
        rw [tupleAt_refsOf (i := before.length + between.length + 2 + 0) (by omega) (by omega),
          tupleAt_refsOf (i := before.length + between.length + 2 + (between.length + 1)) (by omega) (by omega)]
        rw [geta _ (by omega), geta _ (by omega)]
        refine ⟨_, rfl, ?_⟩
        rw [make_pair (hwa _ _) (hwa _ _)]
        have : min (between.length + 2) after.length - 1 = between.length + 1 := by omega
        simp only [this]
  obtain ⟨p, hp1, hp2⟩ := hp
  obtain ⟨x, hx1, hx2⟩ := hx
  simp only [siblingsOf, hia, hib, hp1, hx1, hp2, hx2]

end Verif.Model
