import Verif.Spec.Collection
import Verif.Props.Metadata
/-!
C37, C38: looking up and listing collections. Theorems are about `Verif/Model/Collection.lean`; the vocabulary of
the statements is in `Verif/Spec/Collection.lean`. `limit` is the depth of calls that Python allows.
-/
namespace Verif.Props
open Verif.Py Verif.Model Verif.Spec

theorem mem_members {h : Heap} {a b : Nat} : b ∈ members h a ↔ Member h a b := by
  unfold members Member
  split
  · rename_i hl; simp [hl]
  · rename_i hl; simp [hl]

theorem descLoop_ok {visit : Nat → Except PyErr (List Nat)} {ms : List Nat} {r : List Nat} (h : descLoop visit ms = .ok r) :
    ∃ f : Nat → List Nat, (∀ m ∈ ms, visit m = .ok (f m)) ∧ r = ms.flatMap f := by
  induction ms generalizing r with
  | nil => simp only [descLoop, Except.ok.injEq] at h; subst h; exact ⟨fun _ => [], by simp, rfl⟩
  | cons m ms ih =>
    rw [descLoop] at h
    cases hv : visit m with
    | error e => rw [hv] at h; cases h
    | ok l =>
      rw [hv] at h
      simp only at h
      cases hr : descLoop visit ms with
      | error e => rw [hr] at h; cases h
      | ok r' =>
        rw [hr] at h
        simp only [Except.ok.injEq] at h
        obtain ⟨f, hf, e⟩ := ih hr
        refine ⟨fun x => match visit x with | .ok y => y | .error _ => [], ?_, ?_⟩
        · intro x hx
          rcases List.mem_cons.1 hx with rfl | hx
          · simp only [hv]
          · simp only [hf x hx]
        · rw [List.flatMap_cons, ← h, e, hv]
          congr 1
          rw [List.flatMap_def, List.flatMap_def]
          congr 1
          apply List.map_congr_left
          intro x hx
          rw [hf x hx]

theorem descendants_ok {h : Heap} {limit a : Nat} {l : List Nat} (hd : descendants h (limit + 1) a = .ok l) :
    ∃ f : Nat → List Nat, (∀ m ∈ members h a, descendants h limit m = .ok (f m)) ∧ l = members h a ++ (members h a).flatMap f := by
  rw [descendants] at hd
  split at hd
  · rename_i hl
    simp only [Except.ok.injEq] at hd
    have : members h a = [] := by unfold members; rw [if_pos hl]
    rw [this]
    exact ⟨fun _ => [], by simp, by simp [← hd]⟩
  · split at hd
    · cases hd
    · rename_i r e
      simp only [Except.ok.injEq] at hd
      obtain ⟨f, h1, h2⟩ := descLoop_ok e
      exact ⟨f, h1, by rw [← hd, h2]⟩

theorem below_head {h : Heap} {a b : Nat} : Beneath h a b ↔ ∃ m, Member h a m ∧ (b = m ∨ Beneath h m b) := by
  constructor
  · intro hb
    induction hb with
    | member hm => exact ⟨_, hm, .inl rfl⟩
    | deeper _ hm ih =>
      obtain ⟨m, h1, h2⟩ := ih
      refine ⟨m, h1, .inr ?_⟩
      rcases h2 with rfl | h2
      · exact .member hm
      · exact .deeper h2 hm
  · rintro ⟨m, h1, rfl | h2⟩
    · exact .member h1
    · induction h2 with
      | member hm => exact .deeper (.member h1) hm
      | deeper _ hm ih => exact .deeper ih hm

/-- C38. `descendants` lists the objects below the collection. -/
theorem C38_mem_descendants (h : Heap) (limit a : Nat) (l : List Nat) (hd : descendants h limit a = .ok l) (b : Nat) :
    b ∈ l ↔ Beneath h a b := by
  induction limit generalizing a l b with
  | zero => simp [descendants] at hd
  | succ limit ih =>
    obtain ⟨f, hf, rfl⟩ := descendants_ok hd
    rw [below_head, List.mem_append, List.mem_flatMap]
    constructor
    · rintro (hm | ⟨m, hm, hb⟩)
      · exact ⟨b, mem_members.1 hm, .inl rfl⟩
      · exact ⟨m, mem_members.1 hm, .inr ((ih m (f m) (hf m hm) b).1 hb)⟩
    · rintro ⟨m, hm, rfl | hb⟩
      · exact .inl (mem_members.2 hm)
      · exact .inr ⟨m, mem_members.2 hm, (ih m (f m) (hf m (mem_members.2 hm)) b).2 hb⟩

theorem getElem_members {h : Heap} {a i m : Nat} : (members h a)[i]? = some m ↔
    (h a).leaf = false ∧ ∃ k, (h a).children[i]? = some (k, m) := by
  unfold members
  split
  · rename_i hl; simp [hl]
  · rename_i hl
    simp only [List.getElem?_map, Option.map_eq_some_iff]
    constructor
    · rintro ⟨⟨k, c⟩, h1, rfl⟩; exact ⟨by simpa using hl, k, h1⟩
    · rintro ⟨_, k, h1⟩; exact ⟨_, h1, rfl⟩

/-- C38. Each object is listed as often as there are paths to it: the list is that of the ends of all paths that are
not empty, each path taken once. -/
theorem C38_once_per_path (h : Heap) (limit a : Nat) (l : List Nat) (hd : descendants h limit a = .ok l) :
    ∃ ps : List (List Nat × Nat), ps.Nodup ∧ (∀ p b, (p, b) ∈ ps ↔ p ≠ [] ∧ Follows h a p b) ∧ l = ps.map (·.2) := by
  induction limit generalizing a l with
  | zero => simp [descendants] at hd
  | succ limit ih =>
    obtain ⟨f, hf, rfl⟩ := descendants_ok hd
    -- the paths below each member
    have hps : ∀ m, ∃ ps : List (List Nat × Nat), m ∈ members h a →
        ps.Nodup ∧ (∀ p b, (p, b) ∈ ps ↔ p ≠ [] ∧ Follows h m p b) ∧ f m = ps.map (·.2) := by
      intro m
      by_cases hm : m ∈ members h a
      · obtain ⟨ps, h1⟩ := ih m (f m) (hf m hm)
        exact ⟨ps, fun _ => h1⟩
      · exact ⟨[], fun h => absurd h hm⟩
    obtain ⟨P, hP⟩ := Classical.axiomOfChoice hps
    let ms := (members h a).zipIdx
    have hmem : ∀ m i, (m, i) ∈ ms ↔ (members h a)[i]? = some m := by
      intro m i
      simp only [ms, List.mem_zipIdx_iff_getElem?]
    have hin : ∀ m i, (m, i) ∈ ms → m ∈ members h a := by
      intro m i hmi
      exact List.mem_of_getElem? ((hmem m i).1 hmi)
    refine ⟨ms.map (fun x => ([x.2], x.1)) ++ ms.flatMap (fun x => (P x.1).map fun y => (x.2 :: y.1, y.2)), ?_, ?_, ?_⟩
    · have hnd : ms.Nodup := by
        have h2 : (ms.map (·.2)).Nodup := by
          simp only [ms, List.zipIdx_map_snd]
          exact List.nodup_range'
        exact List.Pairwise.imp (fun {x y} hne (e : x = y) => hne (by rw [e])) (List.pairwise_map.1 h2)
      have hidx : ∀ x y, x ∈ ms → y ∈ ms → x.2 = y.2 → x = y := by
        rintro ⟨m, i⟩ ⟨m', i'⟩ hx hy rfl
        rw [hmem] at hx hy
        rw [hx] at hy
        simpa using hy
      rw [List.nodup_append]
      refine ⟨?_, ?_, ?_⟩
      · refine List.pairwise_map.2 (List.Pairwise.imp_of_mem ?_ hnd)
        intro x y hx hy hne e
        simp at e
        exact hne (hidx x y hx hy e.1)
      · unfold List.Nodup
        rw [List.pairwise_flatMap]
        refine ⟨?_, List.Pairwise.imp_of_mem ?_ hnd⟩
        · intro x hx
          refine List.pairwise_map.2 (List.Pairwise.imp ?_ (hP x.1 (hin x.1 x.2 hx)).1)
          rintro ⟨p, b⟩ ⟨p', b'⟩ hne e
          simp at e
          exact hne (by simp [e])
        · intro x y hx hy hne u hu v hv e
          simp only [List.mem_map] at hu hv
          obtain ⟨u', _, rfl⟩ := hu
          obtain ⟨v', _, rfl⟩ := hv
          simp at e
          exact hne (hidx x y hx hy e.1.1)
      · intro u hu v hv e
        simp only [List.mem_map, List.mem_flatMap] at hu hv
        obtain ⟨x, hx, rfl⟩ := hu
        obtain ⟨y, hy, z, hz, rfl⟩ := hv
        simp at e
        exact (((hP y.1 (hin y.1 y.2 hy)).2.1 z.1 z.2).1 hz).1 (by simpa using e.1.2.symm)
    · intro p b
      simp only [List.mem_append, List.mem_map, List.mem_flatMap]
      constructor
      · rintro (⟨⟨m, i⟩, hx, e⟩ | ⟨⟨m, i⟩, hx, ⟨q, c⟩, hq, e⟩)
        · simp at e
          obtain ⟨rfl, rfl⟩ := e
          obtain ⟨h1, k, h2⟩ := getElem_members.1 ((hmem m i).1 hx)
          exact ⟨by simp, h1, k, m, h2, rfl⟩
        · simp at e
          obtain ⟨rfl, rfl⟩ := e
          obtain ⟨h1, k, h2⟩ := getElem_members.1 ((hmem m i).1 hx)
          exact ⟨by simp, h1, k, m, h2, (((hP m (hin m i hx)).2.1 q c).1 hq).2⟩
      · rintro ⟨hne, hfol⟩
        cases p with
        | nil => exact absurd rfl hne
        | cons i p =>
          obtain ⟨h1, k, m, h2, h3⟩ := hfol
          have hx : (m, i) ∈ ms := (hmem m i).2 (getElem_members.2 ⟨h1, k, h2⟩)
          cases p with
          | nil =>
            have : b = m := h3
            subst this
            exact .inl ⟨(b, i), hx, rfl⟩
          | cons j p => exact .inr ⟨(m, i), hx, (j :: p, b), ((hP m (hin m i hx)).2.1 _ _).2 ⟨by simp, h3⟩, rfl⟩
    · rw [List.map_append, List.map_map, List.map_flatMap]
      congr 1
      · show _ = ms.map (·.1)
        simp [ms]
      · have : members h a = ms.map (·.1) := by simp [ms]
        rw [this, List.flatMap_map]
        rw [List.flatMap_def, List.flatMap_def]
        congr 1
        apply List.map_congr_left
        rintro ⟨m, i⟩ hx
        rw [(hP m (hin m i hx)).2.2]
        simp

/-- C38. The readable descendants are the descendants that are readable, in the same order. -/
theorem C38_readable (h : Heap) (limit a : Nat) (l : List Nat) (hd : descendants h limit a = .ok l) :
    readableDescendants h limit a = .ok (l.filter fun b => (h b).readable) := by
  unfold readableDescendants
  rw [hd]

/-- C38. When no collection contains itself the list is given, provided that Python's limit is not reached. -/
theorem C38_succeeds (h : Heap) (rank : Nat → Nat) (hr : Ranked h rank) (limit a : Nat) (hl : rank a < limit) :
    ∃ l, descendants h limit a = .ok l := by
  induction limit generalizing a with
  | zero => omega
  | succ limit ih =>
    rw [descendants]
    split
    · exact ⟨[], rfl⟩
    · have : ∃ r, descLoop (descendants h limit) (members h a) = .ok r := by
        have hm : ∀ m ∈ members h a, ∃ l, descendants h limit m = .ok l := fun m hm =>
          ih m (by have := hr a m (mem_members.1 hm); omega)
        generalize members h a = ms at hm
        induction ms with
        | nil => exact ⟨[], rfl⟩
        | cons m ms ihm =>
          obtain ⟨l, hl'⟩ := hm m (List.mem_cons_self ..)
          obtain ⟨r, hr'⟩ := ihm fun x hx => hm x (List.mem_cons_of_mem _ hx)
          exact ⟨l ++ r, by rw [descLoop, hl', hr']⟩
      obtain ⟨r, hr'⟩ := this
      rw [hr']
      exact ⟨_, rfl⟩

/-- A cycle of members makes the listing fail, whatever the limit. -/
theorem C38_cycle_fails (h : Heap) (a : Nat) (hc : Beneath h a a) (limit : Nat) : descendants h limit a = .error .recursion := by
  have herr : ∀ limit b l, descendants h limit b = .ok l → Beneath h b b → False := by
    intro limit
    induction limit with
    | zero => intro b l hd; simp [descendants] at hd
    | succ limit ih =>
      intro b l hd hbb
      obtain ⟨f, hf, _⟩ := descendants_ok hd
      obtain ⟨m, hm, hmb⟩ := below_head.1 hbb
      refine ih m (f m) (hf m (mem_members.2 hm)) ?_
      rcases hmb with rfl | hmb
      · exact hbb
      · exact .deeper hmb hm
  have honly : ∀ limit b e, descendants h limit b = .error e → e = .recursion := by
    intro limit
    induction limit with
    | zero => intro b e hd; simp [descendants] at hd; exact hd.symm
    | succ limit ih =>
      intro b e hd
      rw [descendants] at hd
      split at hd
      · cases hd
      · split at hd
        · rename_i e' he
          simp only [Except.error.injEq] at hd
          subst hd
          generalize members h b = ms at he
          induction ms with
          | nil => simp [descLoop] at he
          | cons m ms ihm =>
            rw [descLoop] at he
            cases hv : descendants h limit m with
            | error e2 => rw [hv] at he; simp at he; subst he; exact ih m _ hv
            | ok l2 =>
              rw [hv] at he
              simp only at he
              cases hr : descLoop (descendants h limit) ms with
              | error e3 => rw [hr] at he; simp at he; subst he; exact ihm hr
              | ok r => rw [hr] at he; cases he
        · cases hd
  cases hd : descendants h limit a with
  | ok l => exact (herr limit a l hd hc).elim
  | error e => rw [honly limit a e hd]

/-! ## C37 -/

theorem getItem_eq {h : Heap} {limit a : Nat} {key : Str} {l : List Nat} (hd : descendants h limit a = .ok l) :
    getItem h limit a key = match (a :: l).find? (fun b => (h b).id == key) with | some b => .ok b | none => .error .unknownCollection := by
  unfold getItem
  rw [List.find?_cons]
  by_cases hk : key = (h a).id
  · subst hk; simp
  · have hk' : ((h a).id == key) = false := by simpa using Ne.symm hk
    rw [if_neg hk, hk', hd]
    simp only
    have hpre : ∃ r, l = members h a ++ r := by
      cases limit with
      | zero => simp [descendants] at hd
      | succ limit => obtain ⟨f, _, rfl⟩ := descendants_ok hd; exact ⟨_, rfl⟩
    obtain ⟨r, rfl⟩ := hpre
    have hsw : (fun b => key == (h b).id) = fun b => (h b).id == key := by
      funext b
      by_cases hh : key = (h b).id
      · subst hh; rfl
      · rw [beq_eq_false_iff_ne.2 hh, beq_eq_false_iff_ne.2 (Ne.symm hh)]
    rw [hsw, List.find?_append]
    cases (members h a).find? fun b => (h b).id == key with
    | some b => rfl
    | none => rfl

/-- C37. What is found is the collection or below it, and has the identifier. -/
theorem C37_found (h : Heap) (limit a b : Nat) (key : Str) (hg : getItem h limit a key = .ok b) :
    Within h a b ∧ (h b).id = key := by
  unfold getItem at hg
  split at hg
  · rename_i hk; simp only [Except.ok.injEq] at hg; subst hg; exact ⟨.inl rfl, hk.symm⟩
  · split at hg
    · rename_i x hx
      simp only [Except.ok.injEq] at hg
      subst hg
      refine ⟨.inr (.member (mem_members.1 (List.mem_of_find?_eq_some hx))), ?_⟩
      have := List.find?_some hx
      exact (beq_iff_eq.1 this).symm
    · split at hg
      · cases hg
      · rename_i l hl
        split at hg
        · rename_i x hx
          simp only [Except.ok.injEq] at hg
          subst hg
          refine ⟨.inr ((C38_mem_descendants h limit a l hl x).1 (List.mem_of_find?_eq_some hx)), ?_⟩
          have := List.find?_some hx
          simpa using this
        · cases hg

/-- C37. `UnknownCollection` is raised exactly when there is no such object. The descendants can be listed. -/
theorem C37_unknown (h : Heap) (limit a : Nat) (key : Str) (l : List Nat) (hd : descendants h limit a = .ok l) :
    getItem h limit a key = .error .unknownCollection ↔ ∀ b, Within h a b → (h b).id ≠ key := by
  rw [getItem_eq hd]
  cases hf : (a :: l).find? (fun b => (h b).id == key) with
  | some b =>
    simp only [reduceCtorEq, false_iff]
    intro hall
    have hm := List.mem_of_find?_eq_some hf
    have hk := List.find?_some hf
    rcases List.mem_cons.1 hm with rfl | hm
    · exact hall _ (.inl rfl) (by simpa using hk)
    · exact hall b (.inr ((C38_mem_descendants h limit a l hd b).1 hm)) (by simpa using hk)
  | none =>
    simp only [true_iff]
    intro b hb hk
    rw [List.find?_eq_none] at hf
    refine hf b ?_ (by simpa using hk)
    rcases hb with rfl | hb
    · exact List.mem_cons_self ..
    · exact List.mem_cons_of_mem _ ((C38_mem_descendants h limit a l hd b).2 hb)

/-- C37. When there is one it is found; of several, the collection itself, then its members, then what is deeper. -/
theorem C37_exists (h : Heap) (limit a b : Nat) (l : List Nat) (hd : descendants h limit a = .ok l) (hb : Within h a b) :
    ∃ c, getItem h limit a (h b).id = .ok c ∧ (h c).id = (h b).id ∧ Within h a c ∧
      ((h a).id = (h b).id → c = a) ∧ ((h a).id ≠ (h b).id → (∃ m, Member h a m ∧ (h m).id = (h b).id) → Member h a c) := by
  have hne : getItem h limit a (h b).id ≠ .error .unknownCollection := by
    intro e
    exact (C37_unknown h limit a _ l hd).1 e b hb rfl
  have : ∃ c, getItem h limit a (h b).id = .ok c := by
    rw [getItem_eq hd] at hne ⊢
    cases hf : (a :: l).find? (fun x => (h x).id == (h b).id) with
    | some c => exact ⟨c, rfl⟩
    | none => rw [hf] at hne; exact absurd rfl hne
  obtain ⟨c, hc⟩ := this
  refine ⟨c, hc, (C37_found h limit a c _ hc).2, (C37_found h limit a c _ hc).1, ?_, ?_⟩
  · intro e
    unfold getItem at hc
    rw [if_pos e.symm] at hc
    simpa using hc.symm
  · rintro hne' ⟨m, hm, hk⟩
    unfold getItem at hc
    rw [if_neg (Ne.symm hne')] at hc
    cases hf : (members h a).find? fun x => (h b).id == (h x).id with
    | some x =>
      rw [hf] at hc
      simp only [Except.ok.injEq] at hc
      subst hc
      exact mem_members.1 (List.mem_of_find?_eq_some hf)
    | none =>
      rw [List.find?_eq_none] at hf
      exact absurd (by simp [hk]) (hf m (mem_members.2 hm))

/-- C37. `in` agrees with looking up. -/
theorem C37_contains (h : Heap) (limit a : Nat) (key : Str) (l : List Nat) (hd : descendants h limit a = .ok l) :
    ∃ v, containsItem h limit a key = .ok v ∧ (v = true ↔ ∃ b, getItem h limit a key = .ok b) ∧
      (v = false ↔ getItem h limit a key = .error .unknownCollection) := by
  unfold containsItem
  rw [hd]
  refine ⟨_, rfl, ?_⟩
  have hv : ((l ++ [a]).any fun b => (h b).id == key) = true ↔ ∃ b, Within h a b ∧ (h b).id = key := by
    simp only [List.any_eq_true, List.mem_append, List.mem_singleton, beq_iff_eq]
    constructor
    · rintro ⟨b, hb | rfl, hk⟩
      · exact ⟨b, .inr ((C38_mem_descendants h limit a l hd b).1 hb), hk⟩
      · exact ⟨b, .inl rfl, hk⟩
    · rintro ⟨b, rfl | hb, hk⟩
      · exact ⟨b, .inr rfl, hk⟩
      · exact ⟨b, .inl ((C38_mem_descendants h limit a l hd b).2 hb), hk⟩
  have hg : (∃ b, getItem h limit a key = .ok b) ↔ ∃ b, Within h a b ∧ (h b).id = key := by
    constructor
    · rintro ⟨b, hb⟩; exact ⟨b, C37_found h limit a b key hb⟩
    · rintro ⟨b, hb, rfl⟩
      obtain ⟨c, hc, _⟩ := C37_exists h limit a b l hd hb
      exact ⟨c, hc⟩
  refine ⟨hv.trans hg.symm, ?_⟩
  rw [C37_unknown h limit a key l hd, ← Bool.not_eq_true, hv]
  constructor
  · intro hn b hb hk; exact hn ⟨b, hb, hk⟩
  · rintro hn ⟨b, hb, hk⟩; exact hn b hb hk

/-! ## A concrete inventory -/

/-- A root `r` with groups `g` and `h`; `g` holds the texts `t` and `u`, `h` holds `u` too. -/
def someHeap : Heap := fun
  | 0 => ⟨['r'], false, false, none, [(['g'], 1), (['h'], 2)]⟩
  | 1 => ⟨['g'], false, false, some 0, [(['t'], 3), (['u'], 4)]⟩
  | 2 => ⟨['h'], false, false, some 0, [(['u'], 4)]⟩
  | 3 => ⟨['t'], true, true, some 1, []⟩
  | 4 => ⟨['u'], true, true, some 2, []⟩
  | _ => ⟨[], true, true, none, []⟩

example : Ranked someHeap (fun | 0 => 2 | 1 => 1 | 2 => 1 | _ => 0) := by
  rintro a b ⟨hl, k, hk⟩
  match a with
  | 0 => simp [someHeap] at hk; rcases hk with ⟨_, rfl⟩ | ⟨_, rfl⟩ <;> decide
  | 1 => simp [someHeap] at hk; rcases hk with ⟨_, rfl⟩ | ⟨_, rfl⟩ <;> decide
  | 2 => simp [someHeap] at hk; rcases hk with ⟨_, rfl⟩; decide
  | 3 => simp [someHeap] at hk
  | 4 => simp [someHeap] at hk
  | n + 5 => simp [someHeap] at hk

example : descendants someHeap 5 0 = .ok [1, 2, 3, 4, 4] ∧ readableDescendants someHeap 5 0 = .ok [3, 4, 4] ∧
    getItem someHeap 5 0 ['u'] = .ok 4 ∧ getItem someHeap 5 0 ['x'] = .error .unknownCollection ∧
    containsItem someHeap 5 0 ['t'] = .ok true := by decide

end Verif.Props
