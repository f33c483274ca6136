import Verif.Model.Reference
import Verif.Spec.Reference
import Verif.Lemmas.Reference
/-!
Properties C01-C09: references.
-/
namespace Verif.Props
open Verif.Py Verif.Model Verif.Spec

/-! ## C01 -/

/-- C01. Every non-empty text with at most one `-` is accepted; it prints back as itself; it is a
range exactly when it holds a `-`; start and end are what stands before and after the `-`. -/
theorem C01_reference_round_trip (s : Str) (hne : s ≠ []) (hdash : s.count '-' ≤ 1) :
    ∃ r, mkRef s = .ok (some r) ∧ r.str = s ∧
      (r.isRange = true ↔ '-' ∈ s) ∧
      ('-' ∉ s → r.start = s ∧ r.stop = none) ∧
      (∀ a b, s = a ++ '-' :: b → r.start = a ∧ r.stop = some b) := by
  by_cases hm : '-' ∈ s
  · obtain ⟨a, b, rfl, ha⟩ := exists_append_of_mem hm
    have hb : '-' ∉ b := by
      have h0 : a.count '-' = 0 := by simpa [List.count_eq_zero] using ha
      simp [List.count_append, h0] at hdash
      simpa [List.count_eq_zero] using hdash
    refine ⟨⟨a, some b, a ++ '-' :: b⟩, mkRef_pair ha hb, rfl, by simp [Ref.isRange], by simp, ?_⟩
    intro a' b' h
    have h1 := split_append b ha
    have ha' : '-' ∉ a' := by
      intro hmem
      have c1 : (a ++ '-' :: b).count '-' ≤ 1 := hdash
      rw [h] at c1
      have : 1 ≤ a'.count '-' := by simpa [List.count_pos_iff] using hmem
      simp [List.count_append] at c1; omega
    have hb' : '-' ∉ b' := by
      intro hmem
      have c1 : (a ++ '-' :: b).count '-' ≤ 1 := hdash
      rw [h] at c1
      have : 1 ≤ b'.count '-' := by simpa [List.count_pos_iff] using hmem
      simp [List.count_append] at c1; omega
    have e1 := split_eq_pair.2 (⟨rfl, ha, hb⟩ : a ++ '-' :: b = a ++ '-' :: b ∧ _ ∧ _)
    have e2 := split_eq_pair.2 ⟨h, ha', hb'⟩
    rw [e1] at e2
    simp at e2
    simp [e2.1, e2.2]
  · refine ⟨⟨s, none, s⟩, mkRef_single hne hm, rfl, ?_, ?_, ?_⟩
    · simp [Ref.isRange, hm]
    · intro _; simp
    · intro a b h; exact absurd (by simp [h]) hm

example : "1.1-1.2@w[2]".toList ≠ [] ∧ "1.1-1.2@w[2]".toList.count '-' ≤ 1 := by decide

/-! ## C02 -/

/-- C02, first part: the constructor returns `None` exactly on the empty text. -/
theorem C02_none_iff_empty (s : Str) : mkRef s = .ok none ↔ s = [] := by
  constructor
  · intro h
    by_cases hs : s = []
    · exact hs
    · exfalso
      unfold mkRef at h
      rw [if_neg hs] at h
      split at h
      · simp at h
      · split at h <;> simp at h
  · intro h; simp [mkRef, h]

/-- C02, second part: it raises exactly when there are two or more `-`, and then `ValueError`. -/
theorem C02_error_iff_two_dashes (s : Str) (e : PyErr) :
    mkRef s = .error e ↔ e = .valueError ∧ 2 ≤ s.count '-' := by
  constructor
  · intro h
    by_cases hs : s = []
    · simp [mkRef, hs] at h
    · by_cases hc : s.count '-' ≤ 1
      · obtain ⟨r, hr, _⟩ := C01_reference_round_trip s hs hc
        rw [hr] at h; simp at h
      · refine ⟨?_, by omega⟩
        unfold mkRef at h
        rw [if_neg hs] at h
        split at h
        · simp at h
        · split at h
          · simp at h
          · simp at h; exact h.symm
  · rintro ⟨rfl, h⟩
    exact mkRef_many h

/-- C02, third part: everything else is accepted. -/
theorem C02_accepts_rest (s : Str) :
    (∃ r, mkRef s = .ok (some r)) ↔ s ≠ [] ∧ s.count '-' ≤ 1 := by
  constructor
  · rintro ⟨r, hr⟩
    refine ⟨?_, ?_⟩
    · intro h; rw [(C02_none_iff_empty s).2 h] at hr; simp at hr
    · by_cases h2 : 2 ≤ s.count '-'
      · rw [(C02_error_iff_two_dashes s .valueError).2 ⟨rfl, h2⟩] at hr; simp at hr
      · omega
  · rintro ⟨h1, h2⟩
    obtain ⟨r, hr, _⟩ := C01_reference_round_trip s h1 h2
    exact ⟨r, hr⟩

example : mkRef "1-2-3".toList = .error .valueError ∧ mkRef [] = .ok none := by
  constructor <;> rfl

/-! ## C03 -/

/-- C03. Components hold no dot, and components joined by dots followed by the subreference are the
identifier again, for every identifier with at most one `@`. -/
theorem C03_recompose (s : Str) (h : s.count '@' ≤ 1) :
    (∀ c ∈ plist s, '.' ∉ c) ∧ dotted (plist s) ++ (psub s).getD [] = s := by
  refine ⟨fun c hc => not_mem_of_mem_split hc, ?_⟩
  rw [← join_dot_eq_dotted, plist, join_split]
  by_cases hm : '@' ∈ s
  · obtain ⟨a, b, rfl, ha⟩ := exists_append_of_mem hm
    have hb : '@' ∉ b := by
      have h0 : a.count '@' = 0 := by simpa [List.count_eq_zero] using ha
      simp [List.count_append, h0] at h
      simpa [List.count_eq_zero] using h
    have := split_eq_pair.2 (⟨rfl, ha, hb⟩ : a ++ '@' :: b = a ++ '@' :: b ∧ _ ∧ _)
    simp [psub, this]
  · simp [psub, split_of_not_mem hm]

/-- C03 for identifiers with several `@` (no subreference is recognised then): the components are
those of the text before the first `@`. -/
theorem C03_several_at (a b : Str) (ha : '@' ∉ a) (hb : '@' ∈ b) :
    dotted (plist (a ++ '@' :: b)) = a ∧ psub (a ++ '@' :: b) = none := by
  refine ⟨?_, ?_⟩
  · rw [← join_dot_eq_dotted, plist, split_append _ ha]; simp [join_split]
  · obtain ⟨c, d, rfl, hc⟩ := exists_append_of_mem hb
    rw [psub, split_append _ ha, split_append _ hc]
    cases h : split '@' d with
    | nil => exact absurd h (split_ne_nil _ _)
    | cons x y => rfl

/-- C03. Without `@`, `depth` and `len()` are the number of components. -/
theorem C03_depth_partial (s : Str) (h : '@' ∉ s) : pdepth s = (plist s).length := by
  simp [plist, split_of_not_mem h, length_split, pdepth, count]

/-- C03, what is missing above: with a subreference that holds a dot, `depth` and `len()` are too
large, because the dots of the subreference are counted. -/
theorem C03_depth_fails_with_dotted_subreference :
    pdepth "1@a.b".toList = 2 ∧ plist "1@a.b".toList = ["1".toList] := by
  constructor <;> rfl

/-- C03, exact value of `depth` for identifiers with a subreference: the dots of the subreference
come on top of the number of components. -/
theorem C03_depth_exact (a b : Str) (ha : '@' ∉ a) :
    pdepth (a ++ '@' :: b) = (plist (a ++ '@' :: b)).length + b.count '.' := by
  simp [plist, split_append _ ha, length_split, pdepth, count, List.count_append, List.count_cons]
  omega

example : plist "1.pr.2@w[3]".toList = ["1".toList, "pr".toList, "2".toList] ∧
    psub "1.pr.2@w[3]".toList = some "@w[3]".toList := by decide

/-! ## C04 -/

/-- C04. For a passage text `p` without `@`, a word `w` made of word characters and a counter `n`,
the subreference of `p@w[n]` has word `w`, counter `n` and text `@w[n]`. -/
theorem C04_word_and_counter (isWord : Char → Bool) (hw : isWord '[' = false)
    (p w : Str) (n : Nat) (hp : '@' ∉ p) (hwa : '@' ∉ w) (hword : ∀ c ∈ w, isWord c = true) :
    psubref isWord (p ++ '@' :: (w ++ '[' :: (natStr n ++ [']']))) =
      some { text := '@' :: (w ++ '[' :: (natStr n ++ [']'])), word := w, counter := n } := by
  have hin : '@' ∉ w ++ '[' :: (natStr n ++ [']']) := by
    simp only [List.mem_append, List.mem_cons, not_or]
    refine ⟨hwa, by decide, ?_, by decide, by simp⟩
    intro h; have := isDigit_natStr n _ h; simp [isDigit] at this
  rw [psubref, split_eq_pair.2 ⟨rfl, hp, hin⟩]
  simp only [mkWordRef, subreferenceMatch, takeWhile_append_stop _ hword hw,
    dropWhile_append_stop _ hword hw]
  have hd : isDigit ']' = false := by decide
  rw [takeWhile_append_stop _ (isDigit_natStr n) hd]
  simp [natStr_ne_nil, digitsVal_natStr]

/-- C04. Without a counter the counter is 0. -/
theorem C04_word_only (isWord : Char → Bool)
    (p w : Str) (hp : '@' ∉ p) (hwa : '@' ∉ w) (hword : ∀ c ∈ w, isWord c = true) :
    psubref isWord (p ++ '@' :: w) = some { text := '@' :: w, word := w, counter := 0 } := by
  rw [psubref, split_eq_pair.2 ⟨rfl, hp, hwa⟩]
  simp [mkWordRef, subreferenceMatch, takeWhile_all hword, dropWhile_all hword]

/-- C04. The subreference of a reference is that of its passage; a range has none, whatever its ends. -/
theorem C04_reference (isWord : Char → Bool) (s : Str) (r : Ref) (h : mkRef s = .ok (some r)) :
    ('-' ∉ s → r.subreference isWord = psubref isWord s) ∧ ('-' ∈ s → r.subreference isWord = none) := by
  obtain ⟨hne, hd⟩ := (C02_accepts_rest s).1 ⟨r, h⟩
  obtain ⟨r', h', _, _, h1, h2⟩ := C01_reference_round_trip s hne hd
  rw [h] at h'
  injection h' with h'; injection h' with h'
  subst h'
  constructor
  · intro hs
    obtain ⟨e1, e2⟩ := h1 hs
    simp only [Ref.subreference, e2, e1]
  · intro hs
    obtain ⟨a, b, e, _⟩ := exists_append_of_mem hs
    obtain ⟨_, e2⟩ := h2 a b e
    simp only [Ref.subreference, e2]

example : (mkRef "1.1@a-1.2@b".toList).map (fun r => r.map (·.subreference Char.isAlphanum)) = .ok (some none) ∧
    (mkRef "1.1@a".toList).map (fun r => r.map (·.subreference Char.isAlphanum)) =
      .ok (some (some { text := "@a".toList, word := "a".toList, counter := 0 })) := by decide +kernel

example : psubref Char.isAlphanum "1.1@Achiles[12]".toList =
    some { text := "@Achiles[12]".toList, word := "Achiles".toList, counter := 12 } := by decide

/-! ## C05 -/

/-- C05. The parent of a single reference is the reference without the last component. -/
theorem C05_parent_single (cs : List Str) (hcs : ∀ c ∈ cs, IsComponent c) (hlen : 2 ≤ cs.length)
    (r : Ref) (hr : mkRef (dotted cs) = .ok (some r)) :
    ∃ q, r.parent = .ok (some q) ∧ q.str = dotted cs.dropLast ∧
      mkRef (dotted cs.dropLast) = .ok (some q) := by
  have hne : cs ≠ [] := by intro h; simp [h] at hlen
  rw [mkRef_dotted hne hcs] at hr
  simp at hr; subst hr
  have hd : cs.dropLast ≠ [] := by
    intro h; have := congrArg List.length h; simp at this; omega
  have hcd : ∀ c ∈ cs.dropLast, IsComponent c := fun c hc => hcs c (List.dropLast_subset _ hc)
  refine ⟨⟨dotted cs.dropLast, none, dotted cs.dropLast⟩, ?_, rfl, mkRef_dotted hd hcd⟩
  simp only [Ref.parent]
  rw [plist_dotted hne hcs, pdepth_dotted hne hcs, psub_dotted hcs, if_neg (by omega), dropLast]
  simp [join_dot_eq_dotted, mkRef_dotted hd hcd]

/-- C05. A reference with one component has no parent. -/
theorem C05_no_parent_at_depth_one (c : Str) (hc : IsComponent c) (r : Ref)
    (hr : mkRef c = .ok (some r)) : r.parent = .ok none := by
  have := mkRef_dotted (cs := [c]) (by simp) (by simpa using hc)
  simp only [dotted] at this
  rw [this] at hr; simp at hr; subst hr
  have h := pdepth_dotted (cs := [c]) (by simp) (by simpa using hc)
  simp [dotted] at h
  simp [Ref.parent, h]

/-- Applying `.parent` `k` times, stopping at `None`. -/
def parentN : Nat → Option Ref → Except PyErr (Option Ref)
  | 0, r => .ok r
  | _ + 1, none => .ok none
  | k + 1, some r => do parentN k (← r.parent)

/-- C05. From a reference with `d` components, `k < d` parents lead to the reference of the first
`d - k` components, and `d` parents lead to `None`. -/
theorem C05_parent_chain (cs : List Str) (hcs : ∀ c ∈ cs, IsComponent c) (hne : cs ≠ [])
    (r : Ref) (hr : mkRef (dotted cs) = .ok (some r)) :
    (∀ k, k < cs.length →
      ∃ q, parentN k (some r) = .ok (some q) ∧ q.str = dotted (cs.take (cs.length - k))) ∧
    parentN cs.length (some r) = .ok none := by
  generalize hn : cs.length = n
  induction n generalizing cs r with
  | zero => simp at hn; exact absurd hn hne
  | succ n ih =>
    by_cases h1 : n = 0
    · subst h1
      obtain ⟨c, rfl⟩ := List.length_eq_one_iff.1 hn
      have hp := C05_no_parent_at_depth_one c (hcs c (by simp)) r (by simpa [dotted] using hr)
      refine ⟨?_, ?_⟩
      · intro k hk
        have : k = 0 := by omega
        subst this
        rw [mkRef_dotted hne hcs] at hr; simp at hr; subst hr
        exact ⟨_, rfl, by simp [Ref.str]⟩
      · simp [parentN, hp, bind, Except.bind]
    · obtain ⟨q, hq, hqs, hqm⟩ := C05_parent_single cs hcs (by omega) r hr
      have hd : cs.dropLast ≠ [] := by
        intro h; have := congrArg List.length h; simp at this; omega
      obtain ⟨ih1, ih2⟩ := ih cs.dropLast (fun c hc => hcs c (List.dropLast_subset _ hc)) hd q hqm
        (by simp; omega)
      refine ⟨?_, ?_⟩
      · intro k hk
        cases k with
        | zero =>
          rw [mkRef_dotted hne hcs] at hr; simp at hr; subst hr
          exact ⟨_, rfl, by simp [Ref.str, ← hn]⟩
        | succ k =>
          obtain ⟨q', hq', hs'⟩ := ih1 k (by omega)
          refine ⟨q', by simp [parentN, hq, hq', bind, Except.bind], ?_⟩
          rw [hs', List.dropLast_eq_take, List.take_take]
          congr 2; omega
      · simp [parentN, hq, ih2, bind, Except.bind]

example : ∃ r, mkRef "1.2.3".toList = .ok (some r) ∧ parentN 3 (some r) = .ok none ∧
    (∀ c ∈ ["1".toList, "2".toList, "3".toList], IsComponent c) := by
  refine ⟨_, rfl, rfl, ?_⟩; decide

/-! ## C06 -/

/-- C06. Both ends deeper than one level: the common parent when both ends share it and carry no
subreference, else the range of the two parents with the subreferences kept. -/
theorem C06_parent_range (cs ds : List Str) (u v : Option Str)
    (hcs : ∀ c ∈ cs, IsComponent c) (hds : ∀ c ∈ ds, IsComponent c)
    (hu : IsOptSub u) (hv : IsOptSub v) (hc2 : 2 ≤ cs.length) (hd2 : 2 ≤ ds.length)
    (r : Ref) (hr : mkRef (passage cs u ++ '-' :: passage ds v) = .ok (some r)) :
    ∃ q, r.parent = .ok (some q) ∧
      q.str = (if cs.dropLast = ds.dropLast ∧ u = none ∧ v = none then dotted cs.dropLast
               else passage cs.dropLast u ++ '-' :: passage ds.dropLast v) := by
  have hcne : cs ≠ [] := by intro h; simp [h] at hc2
  have hdne : ds ≠ [] := by intro h; simp [h] at hd2
  rw [mkRef_pair (dash_passage hcs hu) (dash_passage hds hv)] at hr
  simp at hr; subst hr
  have hcd : cs.dropLast ≠ [] := by
    intro h; have := congrArg List.length h; simp at this; omega
  have hcd' : ∀ c ∈ cs.dropLast, IsComponent c := fun c hc => hcs c (List.dropLast_subset _ hc)
  have hdd' : ∀ c ∈ ds.dropLast, IsComponent c := fun c hc => hds c (List.dropLast_subset _ hc)
  simp only [Ref.parent]
  rw [pdepth_passage hcne hcs hu, pdepth_passage hdne hds hv, if_neg (by omega), if_pos (by omega)]
  simp only [plist_passage hcne hcs, plist_passage hdne hds, psub_passage hcs hu, psub_passage hds hv,
    dropLast, Option.map_eq_none_iff]
  by_cases hsame : cs.dropLast = ds.dropLast ∧ u = none ∧ v = none
  · simp only [if_pos hsame]
    exact ⟨⟨dotted cs.dropLast, none, dotted cs.dropLast⟩,
      by rw [join_dot_eq_dotted, mkRef_dotted hcd hcd'], rfl⟩
  · simp only [if_neg hsame]
    refine ⟨⟨passage cs.dropLast u, some (passage ds.dropLast v),
      passage cs.dropLast u ++ '-' :: passage ds.dropLast v⟩, ?_, rfl⟩
    rw [← mkRef_pair (dash_passage hcd' hu) (dash_passage hdd' hv)]
    congr 1
    cases u <;> cases v <;> simp [passage, join_dot_eq_dotted]

/-- C06. A range with an end of depth one has no parent. -/
theorem C06_no_parent (cs ds : List Str) (u v : Option Str)
    (hcs : ∀ c ∈ cs, IsComponent c) (hds : ∀ c ∈ ds, IsComponent c)
    (hu : IsOptSub u) (hv : IsOptSub v) (hcne : cs ≠ []) (hdne : ds ≠ [])
    (hone : cs.length = 1 ∨ ds.length = 1)
    (r : Ref) (hr : mkRef (passage cs u ++ '-' :: passage ds v) = .ok (some r)) :
    r.parent = .ok none := by
  rw [mkRef_pair (dash_passage hcs hu) (dash_passage hds hv)] at hr
  simp at hr; subst hr
  simp only [Ref.parent]
  rw [pdepth_passage hcne hcs hu, pdepth_passage hdne hds hv]
  split
  · rfl
  · rw [if_neg (by omega)]

example : ∃ r q, mkRef "1.1@a[1]-1.2".toList = .ok (some r) ∧ r.parent = .ok (some q) ∧
    q.str = "1@a[1]-1".toList ∧
    "1.1@a[1]-1.2".toList = passage ["1".toList, "1".toList] (some "a[1]".toList) ++
      '-' :: passage ["1".toList, "2".toList] none := ⟨_, _, rfl, rfl, rfl, rfl⟩

/-! ## C07 -/

/-- C07. `highest` is one of the two ends, the one with fewer components, the start on ties;
`depth` is its number of components and is at most the depth of each end. -/
theorem C07_highest (cs ds : List Str) (u v : Option Str)
    (hcs : ∀ c ∈ cs, IsComponent c) (hds : ∀ c ∈ ds, IsComponent c)
    (hu : IsOptSub u) (hv : IsOptSub v) (hcne : cs ≠ []) (hdne : ds ≠ [])
    (r : Ref) (hr : mkRef (passage cs u ++ '-' :: passage ds v) = .ok (some r)) :
    r.highest = (if ds.length < cs.length then passage ds v else passage cs u) ∧
    r.depth = min cs.length ds.length := by
  rw [mkRef_pair (dash_passage hcs hu) (dash_passage hds hv)] at hr
  simp at hr; subst hr
  simp only [Ref.depth, Ref.highest]
  rw [pdepth_passage hcne hcs hu, pdepth_passage hdne hds hv]
  by_cases h1 : cs.length < ds.length
  · rw [if_pos h1, if_neg (by omega), plist_passage hcne hcs]; exact ⟨rfl, by omega⟩
  · by_cases h2 : cs.length > ds.length
    · rw [if_neg h1, if_pos h2, plist_passage hdne hds]; exact ⟨rfl, by omega⟩
    · rw [if_neg h1, if_neg h2, plist_passage hcne hcs]; exact ⟨rfl, by omega⟩

/-- C07 for a single reference: highest is the start, depth its number of components. -/
theorem C07_highest_single (cs : List Str) (u : Option Str)
    (hcs : ∀ c ∈ cs, IsComponent c) (hu : IsOptSub u) (hcne : cs ≠ [])
    (r : Ref) (hr : mkRef (passage cs u) = .ok (some r)) :
    r.highest = passage cs u ∧ r.depth = cs.length := by
  rw [mkRef_single (passage_ne_nil hcne hcs) (dash_passage hcs hu)] at hr
  simp at hr; subst hr
  simp [Ref.depth, Ref.highest, plist_passage hcne hcs]

example : ∃ r, mkRef "1.1-1.2.8".toList = .ok (some r) ∧ r.highest = "1.1".toList ∧ r.depth = 2 :=
  ⟨_, rfl, rfl, rfl⟩

/-! ## C08 -/

/-- C08. The string `a-b`, the two arguments `a, b` and the pair `(a, b)` give the same reference
with the same text. -/
theorem C08_constructors_agree (a b : Str) (ha : '-' ∉ a) (hb : '-' ∉ b) (hane : a ≠ [])
    (hbne : b ≠ []) (pa pb : Bool) :
    mkRef (a ++ '-' :: b) = .ok (some (mkRef2 a b)) ∧
    mkRefTuple ⟨a, pa⟩ (some ⟨b, pb⟩) = mkRef2 a b := by
  refine ⟨by rw [mkRef_pair ha hb]; simp [mkRef2], ?_⟩
  have h1 : TStr.truthy ⟨a, pa⟩ = true := by simp [TStr.truthy, hane]
  have h2 : TStr.truthy ⟨b, pb⟩ = true := by simp [TStr.truthy, hbne]
  simp [mkRefTuple, h1, h2, mkRef2, join]

/-- C08. Feeding the tuple of any reference built from a string or from two strings back to the
constructor gives the same reference with the same text. -/
theorem C08_refeed (r : Ref)
    (hr : (∃ s, mkRef s = .ok (some r)) ∨ (∃ a b, r = mkRef2 a b)) : refeed r = r := by
  rcases hr with ⟨s, hs⟩ | ⟨a, b, rfl⟩
  · have hs' := (C02_accepts_rest s).1 ⟨r, hs⟩
    by_cases hm : '-' ∈ s
    · obtain ⟨a, b, rfl, ha⟩ := exists_append_of_mem hm
      have hb : '-' ∉ b := by
        have h0 : a.count '-' = 0 := by simpa [List.count_eq_zero] using ha
        have := hs'.2
        simp [List.count_append, h0] at this
        simpa [List.count_eq_zero] using this
      rw [mkRef_pair ha hb] at hs; simp at hs; subst hs
      simp [refeed, mkRefTuple, TStr.truthy, join]
    · rw [mkRef_single hs'.1 hm] at hs; simp at hs; subst hs
      simp [refeed, mkRefTuple, TStr.truthy]
  · simp [refeed, mkRefTuple, TStr.truthy, mkRef2, join]

/-- C08, why the ends must not be empty: with an empty plain end the pair makes a single reference,
and with an empty plain start the text of the pair loses its dash. -/
theorem C08_fails_for_empty_parts :
    (mkRefTuple ⟨"1".toList, false⟩ (some ⟨[], false⟩)).isRange = false ∧
    (mkRef2 "1".toList []).isRange = true ∧
    (mkRefTuple ⟨[], false⟩ (some ⟨"2".toList, false⟩)).str = "2".toList ∧
    (mkRef2 [] "2".toList).str = "-2".toList := by decide

example : refeed (mkRef2 "1.1".toList "1.2".toList) = mkRef2 "1.1".toList "1.2".toList := rfl

/-! ## C09 -/

/-- C09. Membership succeeds exactly when `index` does, and `index` gives the first position whose
element equals the reference written `s`. -/
theorem C09_index_first (l : RefSet) (s : Str) (r : Option Ref) (hs : mkRef s = .ok r) :
    (l.contains s = .ok true ↔ ∃ i, l.index s = .ok i) ∧
    (l.contains s = .ok false ↔ l.index s = .error .valueError) ∧
    (∀ i, l.index s = .ok i ↔
      (∃ x, l[i]? = some x ∧ itemEq x r = true) ∧
      ∀ j, j < i → ∀ x, l[j]? = some x → itemEq x r = false) := by
  have hc : l.contains s = .ok (l.any (fun x => itemEq x r)) := by
    simp [RefSet.contains, hs, bind, Except.bind, pure, Except.pure]
  have hi : l.index s = l.indexOf r := by
    simp [RefSet.index, hs, bind, Except.bind]
  rw [hc, hi]
  cases hf : l.findIdx? (fun x => itemEq x r) with
  | none =>
    have hall := List.findIdx?_eq_none_iff.1 hf
    have hany : l.any (fun x => itemEq x r) = false := by
      simp only [List.any_eq_false]; intro x hx; simp [hall x hx]
    have hio : l.indexOf r = .error .valueError := by simp [RefSet.indexOf, hf]
    refine ⟨by simp [hany, hio], by simp [hany, hio], ?_⟩
    intro i
    simp only [hio]
    constructor
    · intro h; simp at h
    · rintro ⟨⟨x, hx, hxe⟩, _⟩
      have := hall x (List.mem_of_getElem? hx)
      simp [hxe] at this
  | some i =>
    have hio : l.indexOf r = .ok i := by simp [RefSet.indexOf, hf]
    obtain ⟨hlt, hp, hmin⟩ := List.findIdx?_eq_some_iff_getElem.1 hf
    have hany : l.any (fun x => itemEq x r) = true := by
      simp only [List.any_eq_true]; exact ⟨l[i], List.getElem_mem hlt, hp⟩
    refine ⟨by simp [hany, hio], by simp [hany, hio], ?_⟩
    intro k
    simp only [hio, Except.ok.injEq]
    constructor
    · rintro rfl
      refine ⟨⟨l[i], List.getElem?_eq_getElem hlt, hp⟩, ?_⟩
      intro j hj x hx
      have := hmin j hj
      rw [List.getElem?_eq_getElem (by omega)] at hx
      simp at hx; subst hx; simpa using this
    · rintro ⟨⟨x, hx, hxe⟩, hmink⟩
      have hkl : k < l.length := by
        rcases Nat.lt_or_ge k l.length with h | h
        · exact h
        · rw [List.getElem?_eq_none h] at hx; simp at hx
      rw [List.getElem?_eq_getElem hkl] at hx; simp at hx
      rcases Nat.lt_trichotomy i k with h | h | h
      · have := hmink i h l[i] (List.getElem?_eq_getElem hlt)
        simp [hp] at this
      · exact h
      · have := hmin k h
        rw [hx] at this; simp [hxe] at this

/-- C09. A malformed probe raises in both operations. -/
theorem C09_malformed (l : RefSet) (s : Str) (h : 2 ≤ s.count '-') :
    l.contains s = .error .valueError ∧ l.index s = .error .valueError := by
  have := (C02_error_iff_two_dashes s .valueError).2 ⟨rfl, h⟩
  simp [RefSet.contains, RefSet.index, this, bind, Except.bind]

/-- C09. Element equality is equality of starts and ends. -/
theorem C09_item_equality (a b : Ref) :
    itemEq (some a) (some b) = true ↔ a.start = b.start ∧ a.stop = b.stop := by
  unfold itemEq; exact decide_eq_true_iff

/-- C09. An element that is no reference (`None`) equals only another such element, so the empty string is a member
of a set exactly when the set holds one, and never of a set of references. -/
theorem C09_no_reference (l : RefSet) : (l.contains [] = .ok true ↔ none ∈ l) ∧
    (l.contains [] = .ok false ↔ none ∉ l) ∧ ∀ a, itemEq none (some a) = false ∧ itemEq (some a) none = false := by
  have h : l.contains [] = .ok (l.any fun x => itemEq x none) := rfl
  have h2 : (l.any fun x => itemEq x none) = true ↔ none ∈ l := by
    rw [List.any_eq_true]
    constructor
    · rintro ⟨x, hx, e⟩
      cases x with
      | none => exact hx
      | some a => simp [itemEq] at e
    · exact fun hx => ⟨none, hx, rfl⟩
  refine ⟨by rw [h]; simpa using h2, ?_, fun a => ⟨rfl, rfl⟩⟩
  rw [h, ← h2]; simp

example : RefSet.contains [some ⟨"1".toList, none, "1".toList⟩] [] = .ok false := rfl

example : RefSet.index [some ⟨"1".toList, none, "1".toList⟩, some ⟨"2".toList, none, "2".toList⟩]
    "2".toList = .ok 1 := rfl

end Verif.Props
