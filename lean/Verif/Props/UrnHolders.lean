import Verif.Spec.UrnHolders
/-!
Property C118: whose URN is whose.
-/
namespace Verif.Props
open Verif.Py Verif.Model Verif.Spec

private theorem str_keeps (u : Urn) : (u.step .readStr).parts = u.parts ∧ urnText (u.step .readStr) = urnText u := by
  simp only [Urn.step, Urn.str]
  cases hc : u.cache with
  | some t => simp [urnText, Urn.str, hc]
  | none =>
    cases hr : u.rebuild with
    | error e => simp [bind, Except.bind, urnText, Urn.str, hc, hr]
    | ok s => simp [bind, Except.bind, pure, Except.pure, Urn.parts, urnText, Urn.str, hc, hr, Functor.map, Except.map]

/-- What a step keeps. -/
private def Keeps (w w' : HolderWorld) (m : Nat) : Prop := nodeSays (w'.view m) = nodeSays (w.view m)

private theorem own_ok (w : HolderWorld) (p : TextNode) (hw : OwnUrns w) :
    OwnUrns (w.own p) ∧ (w.own p).num = w.num + 1 ∧ (w.own p).view w.num = p ∧ ∀ m, m < w.num → (w.own p).view m = w.view m := by
  unfold HolderWorld.own
  cases hu : p.urn with
  | none =>
    refine ⟨⟨fun n k hn hk => ?_, fun n m k hn hm hk hk' => ?_⟩, rfl, ?_, fun m hm => ?_⟩
    · simp only [HolderWorld.addNode, upd] at hn hk ⊢
      split at hk
      · simp at hk
      · exact hw.1 n k (by omega) hk
    · simp only [HolderWorld.addNode, upd] at hn hm hk hk'
      split at hk <;> split at hk'
      · omega
      · simp at hk
      · simp at hk'
      · exact hw.2 n m k (by omega) (by omega) hk hk'
    · obtain ⟨a, b, c⟩ := p
      simp only at hu
      simp [HolderWorld.view, HolderWorld.addNode, upd, hu]
    · have : m ≠ w.num := by omega
      simp [HolderWorld.view, HolderWorld.addNode, upd, this]
  | some u =>
    refine ⟨⟨fun n k hn hk => ?_, fun n m k hn hm hk hk' => ?_⟩, rfl, ?_, fun m hm => ?_⟩
    · simp only [HolderWorld.addNode, HolderWorld.addUrn, upd] at hn hk ⊢
      split at hk
      · simp only [Option.some.injEq] at hk; omega
      · have := hw.1 n k (by omega) hk; omega
    · simp only [HolderWorld.addNode, HolderWorld.addUrn, upd] at hn hm hk hk'
      split at hk <;> split at hk'
      · omega
      · simp only [Option.some.injEq] at hk
        have := hw.1 m k (by omega) hk'; omega
      · simp only [Option.some.injEq] at hk'
        have := hw.1 n k (by omega) hk; omega
      · exact hw.2 n m k (by omega) (by omega) hk hk'
    · obtain ⟨a, b, c⟩ := p
      simp only at hu
      simp [HolderWorld.view, HolderWorld.addNode, HolderWorld.addUrn, upd, hu]
    · have h1 : m ≠ w.num := by omega
      simp only [HolderWorld.view, HolderWorld.addNode, HolderWorld.addUrn, upd, h1, if_false]
      cases hk : w.holds m with
      | none => rfl
      | some k =>
        have : k ≠ w.used := Nat.ne_of_lt (hw.1 m k hm hk)
        simp [upd, this]

private theorem touch_own (w : HolderWorld) (k : Option Nat) (op : UrnOp) (hw : OwnUrns w) : OwnUrns (w.touch k op) ∧ (w.touch k op).num = w.num := by
  cases k <;> exact ⟨hw, rfl⟩

private theorem touch_read (w : HolderWorld) (k : Option Nat) (m : Nat) : Keeps w (w.touch k .readStr) m := by
  cases k with
  | none => rfl
  | some k =>
    simp only [Keeps, nodeSays, HolderWorld.view, HolderWorld.touch]
    cases w.holds m with
    | none => rfl
    | some j =>
      simp only [Option.map_some, upd]
      split
      · next e => rw [e, (str_keeps (w.urns k)).1, (str_keeps (w.urns k)).2]
      · rfl

private theorem touch_other (w : HolderWorld) (n m : Nat) (op : UrnOp) (hw : OwnUrns w) (hn : n < w.num) (hm : m < w.num) (hnm : n ≠ m) :
    Keeps w (w.touch (w.holds n) op) m := by
  cases hk : w.holds n with
  | none => rfl
  | some k =>
    simp only [Keeps, nodeSays, HolderWorld.view, HolderWorld.touch]
    cases hj : w.holds m with
    | none => rfl
    | some j =>
      have : j ≠ k := fun e => hnm (hw.2 n m k hn hm hk (e ▸ hj))
      simp [upd, this]

private theorem holder_step (w : HolderWorld) (op : HolderOp) (hw : OwnUrns w) (hs : NothingShared [op]) :
    OwnUrns (w.step op) ∧ w.num ≤ (w.step op).num ∧ ∀ m, m < w.num → LeavesUrn m [op] → Keeps w (w.step op) m := by
  have hsame : OwnUrns w ∧ w.num ≤ w.num ∧ ∀ m, m < w.num → LeavesUrn m [op] → Keeps w w m := ⟨hw, Nat.le_refl _, fun _ _ _ => rfl⟩
  have hurn : ∀ u, OwnUrns (w.addUrn u) ∧ ∀ m, m < w.num → (w.addUrn u).view m = w.view m := fun u => by
    refine ⟨⟨fun n k hn hk => Nat.lt_succ_of_lt (hw.1 n k hn hk), hw.2⟩, fun m hm => ?_⟩
    simp only [HolderWorld.view, HolderWorld.addUrn]
    cases hk : w.holds m with
    | none => rfl
    | some k => simp [upd, Nat.ne_of_lt (hw.1 m k hm hk)]
  have hown : ∀ p, OwnUrns (w.own p) ∧ w.num ≤ (w.own p).num ∧ ∀ m, m < w.num → LeavesUrn m [op] → Keeps w (w.own p) m := fun p => by
    obtain ⟨h1, h2, -, h4⟩ := own_ok w p hw
    exact ⟨h1, by omega, fun m hm _ => by simp only [Keeps, h4 m hm]⟩
  cases op with
  | urn s =>
    simp only [HolderWorld.step]
    split
    · exact hsame
    · next u _ => exact ⟨(hurn u).1, Nat.le_refl _, fun m hm _ => by simp only [Keeps, (hurn u).2 m hm]⟩
  | textOf s =>
    simp only [HolderWorld.step]
    split
    · exact hsame
    · exact hown _
  | textWith k => exact absurd rfl ((hs _ (by simp)).1 k)
  | whole n => exact absurd rfl ((hs _ (by simp)).2.1 n)
  | giveUrn n k => exact absurd rfl ((hs _ (by simp)).2.2 n k)
  | simple n r =>
    simp only [HolderWorld.step]
    split
    · split
      · exact hsame
      · exact hown _
    · exact hsame
  | passage n r =>
    simp only [HolderWorld.step]
    obtain ⟨t1, t2⟩ := touch_own w (w.holds n) .readStr hw
    split
    · split
      · exact ⟨t1, by omega, fun m _ _ => touch_read w _ m⟩
      · next p _ =>
        obtain ⟨h1, h2, -, h4⟩ := own_ok _ p t1
        refine ⟨h1, by omega, fun m hm _ => ?_⟩
        have h5 := touch_read w (w.holds n) m
        simp only [Keeps] at h5 ⊢
        rw [h4 m (by omega), h5]
    · exact hsame
  | change n o =>
    simp only [HolderWorld.step]
    split
    · next hn =>
      obtain ⟨t1, t2⟩ := touch_own w (w.holds n) o hw
      refine ⟨t1, by omega, fun m hm hl => ?_⟩
      by_cases hnm : n = m
      · subst hnm
        have := (hl _ (by simp)).1 o rfl
        subst this
        exact touch_read w _ n
      · exact touch_other w n m o hw hn hm hnm
    · exact hsame
  | give n s =>
    simp only [HolderWorld.step]
    split
    · next hn =>
      split
      · exact hsame
      · next u _ =>
        refine ⟨⟨fun a k ha hk => ?_, fun a b k ha hb hk hk' => ?_⟩, Nat.le_refl _, fun m hm hl => ?_⟩
        · simp only [HolderWorld.addUrn, upd] at ha hk ⊢
          split at hk
          · simp only [Option.some.injEq] at hk; omega
          · have := hw.1 a k ha hk; omega
        · simp only [HolderWorld.addUrn, upd] at ha hb hk hk'
          split at hk <;> split at hk'
          · omega
          · simp only [Option.some.injEq] at hk
            have := hw.1 b k hb hk'; omega
          · simp only [Option.some.injEq] at hk'
            have := hw.1 a k ha hk; omega
          · exact hw.2 a b k ha hb hk hk'
        · have hnm : m ≠ n := fun e => (hl (.give n s) (by simp)).2 s (by rw [e])
          have h1 := (hurn u).2 m hm
          have h2 : ({ w.addUrn u with holds := upd w.holds n (some w.used) } : HolderWorld).view m = (w.addUrn u).view m := by
            simp [HolderWorld.view, HolderWorld.addUrn, upd, hnm]
          simp only [Keeps]
          rw [h2, h1]
    · exact hsame

/-- C118. In a program that gives URNs as strings, a text or passage keeps identifier, reference and URN, whatever is assigned to the URNs of others,
such as of the passages it gave. -/
theorem C118_stays (w : HolderWorld) (ops : List HolderOp) (hw : OwnUrns w) (hs : NothingShared ops) (m : Nat) (hm : m < w.num) (hl : LeavesUrn m ops) :
    OwnUrns (w.run ops) ∧ m < (w.run ops).num ∧ nodeSays ((w.run ops).view m) = nodeSays (w.view m) := by
  induction ops generalizing w with
  | nil => exact ⟨hw, hm, rfl⟩
  | cons op r ih =>
    obtain ⟨h1, h2, h3⟩ := holder_step w op hw (fun o ho => hs o (by simp at ho; simp [ho]))
    obtain ⟨h4, h5, h6⟩ := ih (w.step op) h1 (fun o ho => hs o (by simp [ho])) (by omega) (fun o ho => hl o (by simp [ho]))
    exact ⟨h4, h5, h6.trans (h3 m hm (fun o ho => hl o (by simp at ho; simp [ho])))⟩

/-- C118. A program begins so, and stays so. -/
theorem C118_begins (ops : List HolderOp) (hs : NothingShared ops) : OwnUrns (holderWorld.run ops) := by
  suffices H : ∀ (ops : List HolderOp) (w : HolderWorld), OwnUrns w → NothingShared ops → OwnUrns (w.run ops) from
    H ops holderWorld ⟨fun n k hn _ => absurd hn (Nat.not_lt_zero n), fun n _ _ hn _ _ _ => absurd hn (Nat.not_lt_zero n)⟩ hs
  intro ops
  induction ops with
  | nil => intro w hw _; exact hw
  | cons op r ih =>
    intro w hw hs
    exact ih (w.step op) (holder_step w op hw (fun o ho => hs o (by simp at ho; simp [ho]))).1 (fun o ho => hs o (by simp [ho]))

/-- C118. What is made is what the text or passage it was asked of should give. -/
theorem C118_made (w : HolderWorld) (hw : OwnUrns w) (n : Nat) (hn : n < w.num) (ref : Ref) (p : TextNode) :
    ((w.view n).passage ref = .ok p → (w.step (.passage n ref)).num = w.num + 1 ∧ (w.step (.passage n ref)).view w.num = p) ∧
    ((w.view n).simple (some ref) = .ok p → (w.step (.simple n ref)).num = w.num + 1 ∧ (w.step (.simple n ref)).view w.num = p) := by
  refine ⟨fun h => ?_, fun h => ?_⟩
  · simp only [HolderWorld.step, hn, if_true, h]
    obtain ⟨t1, t2⟩ := touch_own w (w.holds n) .readStr hw
    obtain ⟨-, h2, h3, -⟩ := own_ok _ p t1
    rw [t2] at h2 h3
    exact ⟨h2, h3⟩
  · simp only [HolderWorld.step, hn, if_true, h]
    obtain ⟨-, h2, h3, -⟩ := own_ok w p hw
    exact ⟨h2, h3⟩

/-- C118. An assignment to the URN of a text or passage does to it what the assignment does to a URN alone. -/
theorem C118_change (w : HolderWorld) (n : Nat) (hn : n < w.num) (op : UrnOp) :
    ((w.step (.change n op)).view n).urn = (w.view n).urn.map (·.step op) := by
  simp only [HolderWorld.step, hn, if_true, HolderWorld.view, HolderWorld.touch]
  cases hk : w.holds n with
  | none => simp [hk]
  | some k => simp [hk, upd]

/-- C118 (departure): all of a text, asked for simply, has the URN object of the text: what is assigned to its URN is assigned to that of the text. -/
theorem C118_fails_whole (w : HolderWorld) (n k : Nat) (hn : n < w.num) (hk : w.holds n = some k) (p : TextNode) (hp : (w.view n).simple none = .ok p)
    (op : UrnOp) : let w' := w.run [.whole n, .change w.num op]
    (w'.view n).urn = some (((w.urns k).step .readStr).step op) ∧ (w'.view n).urn = (w'.view w.num).urn := by
  have h1 : n ≠ w.num := by omega
  have h2 : w.step (.whole n) = (w.touch (some k) .readStr).addNode p.id p.ref (some k) := by
    simp only [HolderWorld.step, hn, if_true, hp, hk]
  simp only [HolderWorld.run, List.foldl_cons, List.foldl_nil, h2]
  simp [HolderWorld.step, HolderWorld.touch, HolderWorld.addNode, HolderWorld.view, upd, h1, hk]

/-- C118 (departure): two texts made from one URN object have it in common. -/
theorem C118_fails_given (w : HolderWorld) (k : Nat) (hk : k < w.used) (a : TextNode) (ha : newTextNode (.urn (w.urns k)) = .ok a)
    (b : TextNode) (hb : newTextNode (.urn ((w.urns k).step .readStr)) = .ok b) (op : UrnOp) :
    let w' := w.run [.textWith k, .textWith k, .change (w.num + 1) op]
    w'.num = w.num + 2 ∧ (w'.view w.num).urn = (w'.view (w.num + 1)).urn ∧
      (w'.view w.num).urn = some ((((w.urns k).step .readStr).step .readStr).step op) := by
  have e : (upd w.urns k ((w.urns k).step .readStr)) k = (w.urns k).step .readStr := by simp [upd]
  simp only [HolderWorld.run, List.foldl_cons, List.foldl_nil, HolderWorld.step, hk, if_true, ha, HolderWorld.touch, HolderWorld.addNode, e, hb]
  simp [HolderWorld.view, upd]

/-! ### Instances -/

private def lat2 : Str := "urn:cts:l:a.b.c".toList

example : let w := holderWorld.run [.textOf lat2, .passage 0 ⟨['1'], none, ['1']⟩, .change 1 (.setWk (some ['x']))]
    OwnUrns w ∧ w.num = 2 ∧ nodeSays (w.view 0) = (lat2, none, some (⟨some "cts".toList, some ['l'], some ['a'], some ['b'], some ['c'], none⟩, .ok lat2)) ∧
      (w.view 1).id = "urn:cts:l:a.b.c:1".toList ∧ (w.view 1).urn.map urnText = some (.ok "urn:cts:l:a.x.c:1".toList) :=
  ⟨C118_begins _ (by simp [NothingShared]), rfl, rfl, rfl, rfl⟩

/-- All of the text, simply. -/
example : let w := holderWorld.run [.textOf lat2, .whole 0, .change 1 (.setWk (some ['x']))]
    (w.view 0).urn.map urnText = some (.ok "urn:cts:l:a.x.c".toList) ∧ (w.view 0).id = lat2 := ⟨rfl, rfl⟩

example : NothingShared [.textOf lat2, .change 0 (.setWk none)] ∧ LeavesUrn 0 [.change 1 (.setWk none), .give 1 lat2, .change 0 .readStr] := by
  refine ⟨by simp [NothingShared], by simp [LeavesUrn]⟩

end Verif.Props
