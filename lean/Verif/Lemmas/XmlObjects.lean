import Verif.Spec.XmlObjects
/-! Lemmas for C109. -/
namespace Verif.Lemmas
open Verif.Py Verif.Model Verif.Spec

/-! ### What elements hold -/

mutual
theorem reads_congr {cell cell' : Nat → Cell} {hi hi' : Nat} (hc : ∀ a < hi, cell' a = cell a) (hh : hi ≤ hi') :
    ∀ (n : Node) (e : Nat), HoldsNode cell hi n e → HoldsNode cell' hi' n e
  | .mk t a x ks tl, e => by
    intro h
    simp only [HoldsNode] at h ⊢
    obtain ⟨h1, h2, h3, h4, h5, h6⟩ := h
    rw [hc e h1]
    exact ⟨by omega, h2, h3, h4, h5, readsAll_congr hc hh ks _ h6⟩
theorem readsAll_congr {cell cell' : Nat → Cell} {hi hi' : Nat} (hc : ∀ a < hi, cell' a = cell a) (hh : hi ≤ hi') :
    ∀ (ns : List Node) (es : List Nat), HoldsAll cell hi ns es → HoldsAll cell' hi' ns es
  | [], [] => fun _ => by simp [HoldsAll]
  | n :: r, e :: es => by
    intro h
    simp only [HoldsAll] at h ⊢
    exact ⟨reads_congr hc hh n e h.1, readsAll_congr hc hh r es h.2⟩
  | [], _ :: _ => by simp [HoldsAll]
  | _ :: _, [] => by simp [HoldsAll]
end

mutual
theorem built_congr {cell cell' : Nat → Cell} {hi hi' : Nat} (hh : hi ≤ hi') :
    ∀ (n : Node) (lo : Nat) (par : Option Nat) (e : Nat), (∀ a, lo ≤ a → a < hi → cell' a = cell a) → Built cell hi n lo par e → Built cell' hi' n lo par e
  | .mk t a x ks tl, lo, par, e => by
    intro hc h
    simp only [Built] at h ⊢
    obtain ⟨h1, h2, h3, h4⟩ := h
    rw [hc e h1 h2]
    exact ⟨h1, by omega, h3, builtAll_congr hh ks _ _ _ (fun a h h' => hc a (by omega) h') h4⟩
theorem builtAll_congr {cell cell' : Nat → Cell} {hi hi' : Nat} (hh : hi ≤ hi') :
    ∀ (ns : List Node) (lo par : Nat) (es : List Nat), (∀ a, lo ≤ a → a < hi → cell' a = cell a) → BuiltAll cell hi ns lo par es →
      BuiltAll cell' hi' ns lo par es
  | [], _, _, [] => fun _ _ => by simp [BuiltAll]
  | n :: r, lo, par, e :: es => by
    intro hc h
    simp only [BuiltAll] at h ⊢
    exact ⟨built_congr hh n _ _ e hc h.1, builtAll_congr hh r _ _ es hc h.2⟩
  | [], _, _, _ :: _ => by simp [BuiltAll]
  | _ :: _, _, _, [] => by simp [BuiltAll]
end

theorem built_lower {cell : Nat → Cell} {hi : Nat} {n : Node} {lo lo' : Nat} {par : Option Nat} {e : Nat} (hl : lo' ≤ lo)
    (h : Built cell hi n lo par e) : Built cell hi n lo' par e := by
  cases n
  simp only [Built] at h ⊢
  exact ⟨by omega, h.2⟩

theorem builtAll_lower {cell : Nat → Cell} {hi : Nat} {ns : List Node} {lo lo' : Nat} {par : Nat} {es : List Nat} (hl : lo' ≤ lo)
    (h : BuiltAll cell hi ns lo par es) : BuiltAll cell hi ns lo' par es := by
  induction ns generalizing es with
  | nil => cases es <;> simp_all [BuiltAll]
  | cons n r ih =>
    cases es with
    | nil => simp [BuiltAll] at h
    | cons e es => simp only [BuiltAll] at h ⊢; exact ⟨built_lower hl h.1, ih h.2⟩

theorem builtAll_append {cell : Nat → Cell} {hi : Nat} {ns ms : List Node} {lo par : Nat} {es fs : List Nat}
    (h : BuiltAll cell hi ns lo par es) (h' : BuiltAll cell hi ms lo par fs) : BuiltAll cell hi (ns ++ ms) lo par (es ++ fs) := by
  induction ns generalizing es with
  | nil => cases es <;> simp_all [BuiltAll]
  | cons n r ih =>
    cases es with
    | nil => simp [BuiltAll] at h
    | cons e es => simp only [BuiltAll, List.cons_append] at h ⊢; exact ⟨h.1, ih h.2⟩

mutual
theorem reads_of_built {cell : Nat → Cell} {hi : Nat} : ∀ (n : Node) (lo : Nat) (par : Option Nat) (e : Nat), Built cell hi n lo par e → HoldsNode cell hi n e
  | .mk t a x ks tl, lo, par, e => by
    intro h
    simp only [Built] at h
    obtain ⟨h1, h2, h3, h4⟩ := h
    simp only [HoldsNode]
    have := readsAll_of_built ks _ _ _ h4
    exact ⟨h2, by rw [h3], by rw [h3], by rw [h3], by rw [h3], this⟩
theorem readsAll_of_built {cell : Nat → Cell} {hi : Nat} : ∀ (ns : List Node) (lo par : Nat) (es : List Nat), BuiltAll cell hi ns lo par es →
    HoldsAll cell hi ns es
  | [], _, _, [] => fun _ => by simp [HoldsAll]
  | n :: r, lo, par, e :: es => by
    intro h
    simp only [BuiltAll] at h
    simp only [HoldsAll]
    exact ⟨reads_of_built n _ _ e h.1, readsAll_of_built r _ _ es h.2⟩
  | [], _, _, _ :: _ => by simp [BuiltAll]
  | _ :: _, _, _, [] => by simp [BuiltAll]
end

theorem height_pos (n : Node) : 1 ≤ n.height := by cases n; simp [Node.height]

mutual
theorem view_reads (h : Elements) {hi : Nat} : ∀ (n : Node) (e d : Nat), HoldsNode h.cell hi n e → n.height ≤ d → h.view d e = n
  | .mk t a x ks tl, e, d => by
    intro hr hd
    simp only [HoldsNode] at hr
    obtain ⟨_, h2, h3, h4, h5, h6⟩ := hr
    cases d with
    | zero => simp [Node.height] at hd
    | succ d =>
      simp only [Node.height] at hd
      simp only [Elements.view, h2, h3, h4, h5, viewAll_reads h ks _ d h6 (by omega)]
theorem viewAll_reads (h : Elements) {hi : Nat} : ∀ (ns : List Node) (es : List Nat) (d : Nat), HoldsAll h.cell hi ns es → heightAll ns ≤ d →
    es.map (h.view d) = ns
  | [], [], _ => fun _ _ => rfl
  | n :: r, e :: es, d => by
    intro hr hd
    simp only [HoldsAll] at hr
    simp only [heightAll] at hd
    rw [List.map_cons, view_reads h n e d hr.1 (by omega), viewAll_reads h r es d hr.2 (by omega)]
  | [], _ :: _, _ => by simp [HoldsAll]
  | _ :: _, [], _ => by simp [HoldsAll]
end

/-! ### Changes -/

/-- Of what existed, only `dst` may have changed. -/
def OnlyAt (h h' : Elements) (dst : Nat) : Prop := h.next ≤ h'.next ∧ ∀ a < h.next, a ≠ dst → h'.cell a = h.cell a

/-- New elements that hold the values were appended to `dst`, and nothing else that existed changed. -/
def Appended (h : Elements) (dst : Nat) (ns : List Node) (h' : Elements) : Prop :=
  OnlyAt h h' dst ∧ ∃ ks, h'.cell dst = { h.cell dst with kids := (h.cell dst).kids ++ ks } ∧ BuiltAll h'.cell h'.next ns h.next dst ks

/-- A new element without parent that holds the value was made, and nothing that existed changed. -/
def Made (h : Elements) (n : Node) (r : Elements × Nat) : Prop :=
  h.next ≤ r.1.next ∧ (∀ a < h.next, r.1.cell a = h.cell a) ∧ Built r.1.cell r.1.next n h.next none r.2

theorem OnlyAt.refl (h : Elements) (dst : Nat) : OnlyAt h h dst := ⟨Nat.le_refl _, fun _ _ _ => rfl⟩

theorem OnlyAt.trans {h h1 h2 : Elements} {dst : Nat} (x : OnlyAt h h1 dst) (y : OnlyAt h1 h2 dst) : OnlyAt h h2 dst :=
  ⟨Nat.le_trans x.1 y.1, fun a ha hd => (y.2 a (Nat.lt_of_lt_of_le ha x.1) hd).trans (x.2 a ha hd)⟩

theorem Appended.refl (h : Elements) (dst : Nat) : Appended h dst [] h :=
  ⟨.refl h dst, [], by simp, by simp [BuiltAll]⟩

theorem Appended.trans {h h1 h2 : Elements} {dst : Nat} {ns ms : List Node} (hd : dst < h.next) (x : Appended h dst ns h1) (y : Appended h1 dst ms h2) :
    Appended h dst (ns ++ ms) h2 := by
  obtain ⟨fx, ks, hk, bk⟩ := x
  obtain ⟨fy, ls, hl, bl⟩ := y
  refine ⟨fx.trans fy, ks ++ ls, ?_, builtAll_append ?_ (builtAll_lower fx.1 bl)⟩
  · rw [hl, hk]; simp
  · exact builtAll_congr fy.1 _ _ _ _ (fun a h1 h2 => fy.2 a h2 (by omega)) bk

theorem append_made {h : Elements} {n : Node} {r : Elements × Nat} {dst : Nat} (hd : dst < h.next) (hm : Made h n r) :
    Appended h dst [n] (r.1.append dst r.2) := by
  obtain ⟨h1, x⟩ := r
  obtain ⟨m1, m2, m3⟩ := hm
  simp only at m1 m2 m3
  obtain ⟨t, a, tx, ks, tl⟩ := n
  simp only [Built] at m3
  obtain ⟨b1, b2, b3, b4⟩ := m3
  have hp : (h1.cell x).parent = none := by rw [b3]
  have hdet : h1.detach x = h1 := by simp only [Elements.detach, hp]
  have hne : dst ≠ x := by omega
  have hcell : ∀ b, (h1.append dst x).cell b = if b = x then { h1.cell x with parent := some dst } else if b = dst then
      { h1.cell dst with kids := (h1.cell dst).kids ++ [x] } else h1.cell b := by
    intro b
    simp only [Elements.append, hdet, Elements.put]
    by_cases e : b = x
    · simp [e, Ne.symm hne]
    · simp [e]
  have hnext : (h1.append dst x).next = h1.next := by simp only [Elements.append, hdet, Elements.put]
  refine ⟨⟨by simp only [hnext]; exact m1, ?_⟩, [x], ?_, ?_⟩
  · intro b hb hbd
    simp only [hcell, if_neg hbd, if_neg (show b ≠ x by omega), m2 b hb]
  · simp only [hcell, if_neg hne, m2 dst hd]; simp
  · simp only [BuiltAll, Built, hnext, and_true]
    refine ⟨b1, b2, ?_, ?_⟩
    · simp only [hcell, if_true]
      conv => lhs; rw [b3]
    · have hk : ((h1.append dst x).cell x).kids = (h1.cell x).kids := by simp [hcell]
      rw [hk]
      refine builtAll_congr (Nat.le_refl _) _ _ _ _ ?_ b4
      intro b hb _
      simp only [hcell, if_neg (show b ≠ x by omega), if_neg (show b ≠ dst by omega)]

theorem made_alloc (h : Elements) (t : Str) (a : List (Str × Str)) (x tl : Str) (ks : List Node) (h2 : Elements)
    (ha : Appended (h.alloc ⟨t, a, x, tl, [], none⟩).1 (h.alloc ⟨t, a, x, tl, [], none⟩).2 ks h2) :
    Made h (.mk t a x ks tl) (h2, (h.alloc ⟨t, a, x, tl, [], none⟩).2) := by
  obtain ⟨f, es, he, hb⟩ := ha
  simp only [Elements.alloc] at f he hb ⊢
  obtain ⟨f1, f2⟩ := f
  simp only at f1 f2
  refine ⟨by simp only; omega, ?_, ?_⟩
  · intro b hb
    simp only
    rw [f2 b (by omega) (by omega), if_neg (by omega)]
  · simp only [Built]
    refine ⟨Nat.le_refl _, by omega, ?_, ?_⟩
    · rw [he]; simp
    · rw [he]; simpa using hb

mutual
theorem install_made : ∀ (n : Node) (h : Elements), Made h n (Elements.install n h)
  | .mk t a x ks tl, h => by
    rw [Elements.install]
    exact made_alloc h t a x tl ks _ (installAll_appended ks _ _ (by simp [Elements.alloc]))
theorem installAll_appended : ∀ (ns : List Node) (c : Nat) (h : Elements), c < h.next → Appended h c ns (Elements.installAll ns c h)
  | [], c, h => fun _ => by rw [Elements.installAll]; exact .refl h c
  | n :: r, c, h => by
    intro hc
    rw [Elements.installAll]
    have h1 := append_made hc (install_made n h)
    exact h1.trans hc (installAll_appended r c _ (Nat.lt_of_lt_of_le hc h1.1.1))
end

/-! ### xml.py -/

/-- The document is where it was, below `base`; `dst` is a new element. -/
structure KeptApart (src : Nat → Cell) (base : Nat) (h : Elements) (dst : Nat) : Prop where
  kept : ∀ a < base, h.cell a = src a
  above : base ≤ dst
  there : dst < h.next

theorem KeptApart.step {src : Nat → Cell} {base : Nat} {h h' : Elements} {dst : Nat} (g : KeptApart src base h dst) (f : OnlyAt h h' dst) :
    KeptApart src base h' dst where
  kept a ha := by
    have := g.above
    have := g.there
    rw [f.2 a (by omega) (by omega), g.kept a ha]
  above := g.above
  there := Nat.lt_of_lt_of_le g.there f.1

theorem KeptApart.view {src : Nat → Cell} {base : Nat} {h : Elements} {dst : Nat} (g : KeptApart src base h dst) {n : Node} {e d : Nat}
    (hr : HoldsNode src base n e) (hd : n.height ≤ d) : h.view d e = n :=
  view_reads h n e d (reads_congr g.kept (Nat.le_refl _) n e hr) hd

theorem reads_lt {cell : Nat → Cell} {hi : Nat} {n : Node} {e : Nat} (h : HoldsNode cell hi n e) : e < hi := by
  cases n; simp only [HoldsNode] at h; exact h.1

theorem copyKids_appended {src : Nat → Cell} {base d : Nat} {ns : List Node} (hd : heightAll ns ≤ d) {es : List Nat} (hr : HoldsAll src base ns es)
    {h : Elements} {dst : Nat} (g : KeptApart src base h dst) : Appended h dst ns (Elements.copyKids d dst es h) := by
  induction ns generalizing es h with
  | nil =>
    cases es with
    | nil => exact .refl h dst
    | cons e es => simp [HoldsAll] at hr
  | cons n r ih =>
    cases es with
    | nil => simp [HoldsAll] at hr
    | cons e es =>
      simp only [HoldsAll] at hr
      simp only [heightAll] at hd
      simp only [Elements.copyKids, Elements.copyElement, g.view hr.1 (show n.height ≤ d by omega)]
      have h1 := append_made g.there (install_made n h)
      exact h1.trans g.there (ih (by omega) hr.2 (g.step h1.1))

/-- The element that `copyNode` makes inside another. -/
theorem newElement_some (h : Elements) (a dst : Nat) (hd : dst < h.next) :
    (h.newElement a (some dst)).2 = h.next ∧ (h.newElement a (some dst)).1.next = h.next + 1 ∧
    (h.newElement a (some dst)).1.cell h.next = ⟨(h.cell a).tag, (h.cell a).attrs, [], [], [], some dst⟩ ∧
    (h.newElement a (some dst)).1.cell dst = { h.cell dst with kids := (h.cell dst).kids ++ [h.next] } ∧
    ∀ b < h.next, b ≠ dst → (h.newElement a (some dst)).1.cell b = h.cell b := by
  have hne : dst ≠ h.next := by omega
  refine ⟨rfl, ?_, ?_, ?_, ?_⟩
  · simp [Elements.newElement, Elements.alloc, Elements.append, Elements.detach, Elements.put]
  · simp [Elements.newElement, Elements.alloc, Elements.append, Elements.detach, Elements.put, Ne.symm hne]
  · simp [Elements.newElement, Elements.alloc, Elements.append, Elements.detach, Elements.put, hne]
  · intro b hb hbd
    have : b ≠ h.next := by omega
    simp [Elements.newElement, Elements.alloc, Elements.append, Elements.detach, Elements.put, this, hbd]

/-- A new element in `dst` that is then filled. -/
theorem filled {h h1 h2 : Elements} {dst : Nat} {t : Str} {a : List (Str × Str)} {x : Str} {ns : List Node} (hd : dst < h.next)
    (e1 : h1.next = h.next + 1) (e2 : h1.cell h.next = ⟨t, a, x, [], [], some dst⟩)
    (e3 : h1.cell dst = { h.cell dst with kids := (h.cell dst).kids ++ [h.next] }) (e4 : ∀ b < h.next, b ≠ dst → h1.cell b = h.cell b)
    (ha : Appended h1 h.next ns h2) : Appended h dst [.mk t a x ns []] h2 := by
  obtain ⟨⟨f1, f2⟩, ks, hk, hb⟩ := ha
  refine ⟨⟨by omega, fun b hb hbd => ?_⟩, [h.next], ?_, ?_⟩
  · rw [f2 b (by omega) (by omega), e4 b hb hbd]
  · rw [f2 dst (by omega) (by omega), e3]
  · simp only [BuiltAll, Built, and_true]
    rw [e2] at hk
    refine ⟨Nat.le_refl _, by omega, by rw [hk], ?_⟩
    rw [hk]
    rw [e1] at hb
    simpa using hb

theorem copyNode_full {src : Nat → Cell} {base d : Nat} {n : Node} {e : Nat} (hr : HoldsNode src base n e) (hd : n.height ≤ d + 1) {h : Elements} {dst : Nat}
    (g : KeptApart src base h dst) : Appended h dst [copyFull n] (h.copyNode d e true (some dst)).1 := by
  obtain ⟨t, a, x, ks, tl⟩ := n
  have hlt := reads_lt hr
  simp only [HoldsNode] at hr
  obtain ⟨_, r1, r2, r3, r4, r5⟩ := hr
  have ga := g.above
  have gt := g.there
  obtain ⟨n1, n2, n3, n4, n5⟩ := newElement_some h e dst gt
  have hse : h.cell e = src e := g.kept e hlt
  have hs : (h.newElement e (some dst)).1.cell e = src e := by rw [n5 e (by omega) (by omega), hse]
  simp only [Node.height] at hd
  simp only [Elements.copyNode, if_true, n1, hs, r3, copyFull]
  rw [hse, r1, r2] at n3
  have hput : ∀ h1 : Elements, h1 = (if x = [] then (h.newElement e (some dst)).1 else
      (h.newElement e (some dst)).1.put h.next { (h.newElement e (some dst)).1.cell h.next with text := x }) →
      h1.next = h.next + 1 ∧ h1.cell h.next = ⟨t, a, x, [], [], some dst⟩ ∧
      h1.cell dst = { h.cell dst with kids := (h.cell dst).kids ++ [h.next] } ∧ ∀ b < h.next, b ≠ dst → h1.cell b = h.cell b := by
    intro h1 e1
    subst e1
    split
    · next hx => subst hx; exact ⟨n2, n3, n4, n5⟩
    · refine ⟨n2, by simp [Elements.put, n3], ?_, ?_⟩
      · simp only [Elements.put, if_neg (show dst ≠ h.next by omega), n4]
      · intro b hb hbd
        simp only [Elements.put, if_neg (show b ≠ h.next by omega), n5 b hb hbd]
  obtain ⟨p1, p2, p3, p4⟩ := hput _ rfl
  refine filled gt p1 p2 p3 p4 (copyKids_appended (src := src) (base := base) (by omega) r5 ⟨?_, by omega, by omega⟩)
  intro b hb
  rw [p4 b (by omega) (by omega), g.kept b hb]

/-- The outcome of a step that adds to `dst`, against the value of it. -/
def Outcome (h : Elements) (dst : Nat) (r : Except PyErr (List Node)) (res : Elements × Except PyErr Unit) : Prop :=
  match r, res with
  | .error e, (h', .error e') => e = e' ∧ OnlyAt h h' dst
  | .ok ns, (h', .ok ()) => Appended h dst ns h'
  | _, _ => False

theorem Outcome.only {h : Elements} {dst : Nat} {r : Except PyErr (List Node)} {res : Elements × Except PyErr Unit} (o : Outcome h dst r res) :
    OnlyAt h res.1 dst := by
  obtain ⟨h', x⟩ := res
  cases r <;> cases x <;> simp only [Outcome] at o
  · exact o.2
  · exact o.1

/-- First one step, then another. -/
theorem Outcome.cons {h h1 : Elements} {dst : Nat} {m : Node} {r : Except PyErr (List Node)} {res : Elements × Except PyErr Unit} (hd : dst < h.next)
    (a : Appended h dst [m] h1) (o : Outcome h1 dst r res) : Outcome h dst ((m :: ·) <$> r) res := by
  obtain ⟨h', x⟩ := res
  cases r with
  | error e =>
    cases x with
    | error e' => exact ⟨o.1, a.1.trans o.2⟩
    | ok u => exact o.elim
  | ok ns =>
    cases x with
    | error e' => exact o.elim
    | ok u => exact a.trans hd o

theorem copyOrGo_outcome {src : Nat → Cell} {base d : Nat} {n : Node} {e : Nat} (hr : HoldsNode src base n e) (hd : n.height ≤ d + 1)
    (queue : List Step) {go : Nat → Elements → Elements × Except PyErr Unit} {r : Except PyErr (List Node)}
    (hgo : ∀ k h, KeptApart src base h k → queue.isEmpty = false → Outcome h k r (go k h)) {h : Elements} {dst : Nat} (g : KeptApart src base h dst) :
    Outcome h dst ((fun m => [m]) <$> (if queue.isEmpty then .ok (copyFull n) else wrap n r)) (Elements.copyOrGo d e dst queue go h) := by
  cases hq : queue.isEmpty with
  | true =>
    simp only [Elements.copyOrGo, hq, if_true]
    exact copyNode_full hr hd g
  | false =>
    have hlt := reads_lt hr
    have ga := g.above
    have gt := g.there
    obtain ⟨n1, n2, n3, n4, n5⟩ := newElement_some h e dst gt
    simp only [Elements.copyOrGo, hq, Elements.copyNode]
    have gk : KeptApart src base (h.newElement e (some dst)).1 h.next := by
      refine ⟨fun b hb => ?_, by omega, by omega⟩
      rw [n5 b (by omega) (by omega), g.kept b hb]
    have o := hgo h.next _ gk hq
    have hcell : h.cell e = src e := g.kept e hlt
    rw [hcell] at n3
    simp only [Bool.false_eq_true, if_false, n1]
    revert o
    generalize go h.next (h.newElement e (some dst)).1 = res
    intro o
    obtain ⟨h', x⟩ := res
    cases r with
    | error er =>
      cases x with
      | error e' =>
        refine ⟨o.1, by have := o.2.1; omega, fun b hb hbd => ?_⟩
        rw [o.2.2 b (by omega) (by omega), n5 b hb hbd]
      | ok u => exact o.elim
    | ok ns =>
      cases x with
      | error e' => exact o.elim
      | ok u =>
        obtain ⟨t, a, tx, ks, tl⟩ := n
        simp only [HoldsNode] at hr
        rw [hr.2.1, hr.2.2.1] at n3
        exact filled gt n2 n3 n4 n5 o

/-- Elements with their numbers, and the values that they hold. -/
def HoldsEach (src : Nat → Cell) (base d : Nat) : List (Node × Nat) → List (Nat × Nat) → Prop
  | [], [] => True
  | (n, i) :: r, (e, j) :: s => (HoldsNode src base n e ∧ n.height ≤ d) ∧ i = j ∧ HoldsEach src base d r s
  | _, _ => False

theorem readsEach_zipIdx {src : Nat → Cell} {base d : Nat} {ns : List Node} (hd : heightAll ns ≤ d) {es : List Nat} (hr : HoldsAll src base ns es) (k : Nat) :
    HoldsEach src base d (ns.zipIdx k) (es.zipIdx k) := by
  induction ns generalizing es k with
  | nil => cases es <;> simp_all [HoldsAll, HoldsEach]
  | cons n r ih =>
    cases es with
    | nil => simp [HoldsAll] at hr
    | cons e es =>
      simp only [HoldsAll] at hr
      simp only [heightAll] at hd
      simp only [List.zipIdx_cons, HoldsEach]
      exact ⟨⟨hr.1, by omega⟩, trivial, ih (by omega) hr.2 _⟩

theorem readsAll_get {src : Nat → Cell} {base : Nat} {ns : List Node} {es : List Nat} (hr : HoldsAll src base ns es) {i : Nat} {n : Node} (hn : ns[i]? = some n) :
    HoldsNode src base n (es.getD i 0) := by
  induction ns generalizing es i with
  | nil => simp at hn
  | cons m r ih =>
    cases es with
    | nil => simp [HoldsAll] at hr
    | cons e es =>
      simp only [HoldsAll] at hr
      cases i with
      | zero => simp at hn; subst hn; simpa using hr.1
      | succ i =>
        rw [List.getElem?_cons_succ] at hn
        simpa using ih hr.2 hn

theorem sideSiblings_outcome {src : Nat → Cell} {base d : Nat} {eq : Nat → Bool} {mid : Except PyErr Node} {go : Elements → Elements × Except PyErr Unit}
    {dst : Nat} {prec foll : Bool} (hgo : ∀ h, KeptApart src base h dst → Outcome h dst ((fun m => [m]) <$> mid) (go h))
    {l : List (Node × Nat)} {l' : List (Nat × Nat)} (hl : HoldsEach src base d l l') {central : Bool} {h : Elements} (g : KeptApart src base h dst) :
    Outcome h dst (sideSiblings eq mid prec foll central l) (Elements.sideSiblings d eq go dst prec foll central l' h) := by
  induction l generalizing l' central h with
  | nil =>
    cases l' with
    | nil => exact .refl h dst
    | cons e es => simp [HoldsEach] at hl
  | cons x r ih =>
    cases l' with
    | nil => simp [HoldsEach] at hl
    | cons y s =>
      obtain ⟨n, i⟩ := x
      obtain ⟨e, j⟩ := y
      simp only [HoldsEach] at hl
      obtain ⟨⟨hr, hd⟩, rfl, hl⟩ := hl
      simp only [sideSiblings, Elements.sideSiblings]
      have hfull := copyNode_full hr (show n.height ≤ d + 1 by omega) g
      split
      · have o := hgo h g
        revert o
        cases hgh : go h with
        | mk h1 x =>
          intro o
          cases mid with
          | error er =>
            cases x with
            | error e' => exact o
            | ok u => exact o.elim
          | ok m =>
            cases x with
            | error e' => exact o.elim
            | ok u =>
              simp only
              split
              · exact o
              · exact Outcome.cons g.there o (ih hl (g.step o.1))
      · split
        · exact Outcome.cons g.there hfull (ih hl (g.step hfull.1))
        · split
          · exact Outcome.cons g.there hfull (ih hl (g.step hfull.1))
          · exact ih hl g

theorem rangeSiblings_outcome {src : Nat → Cell} {base d : Nat} {eq1 eq2 : Nat → Bool} {first : Node → Except PyErr Node}
    {go : Nat → Elements → Elements × Except PyErr Unit} {dst : Nat}
    (hgo : ∀ n e h, HoldsNode src base n e → n.height ≤ d → KeptApart src base h dst → Outcome h dst ((fun m => [m]) <$> first n) (go e h))
    {l : List (Node × Nat)} {l' : List (Nat × Nat)} (hl : HoldsEach src base d l l') {started : Bool} {h : Elements} (g : KeptApart src base h dst) :
    Outcome h dst (rangeSiblings eq1 eq2 first started l) (Elements.rangeSiblings d eq1 eq2 go dst started l' h) := by
  induction l generalizing l' started h with
  | nil =>
    cases l' with
    | nil => cases started <;> exact .refl h dst
    | cons e es => simp [HoldsEach] at hl
  | cons x r ih =>
    cases l' with
    | nil => simp [HoldsEach] at hl
    | cons y s =>
      obtain ⟨n, i⟩ := x
      obtain ⟨e, j⟩ := y
      simp only [HoldsEach] at hl
      obtain ⟨⟨hr, hd⟩, rfl, hl⟩ := hl
      have hfull := copyNode_full hr (show n.height ≤ d + 1 by omega) g
      cases started with
      | true =>
        simp only [rangeSiblings, Elements.rangeSiblings]
        split
        · exact .refl h dst
        · exact Outcome.cons g.there hfull (ih hl (g.step hfull.1))
      | false =>
        simp only [rangeSiblings, Elements.rangeSiblings]
        split
        · have o := hgo n e h hr hd g
          revert o
          cases hgh : go e h with
          | mk h1 x =>
            intro o
            cases hf : first n with
            | error er =>
              rw [hf] at o
              cases x with
              | error e' => exact o
              | ok u => exact o.elim
            | ok m =>
              rw [hf] at o
              cases x with
              | error e' => exact o.elim
              | ok u => exact Outcome.cons g.there o (ih hl (g.step o.1))
        · exact ih hl g

theorem firstResult_get {ns : List Node} {p : Node × Nat → Bool} {c : Node} {i : Nat} (h : firstResult (ns.zipIdx.filter p) = .ok (c, i)) :
    ns[i]? = some c := by
  cases hf : ns.zipIdx.filter p with
  | nil => rw [hf] at h; cases h
  | cons x r =>
    rw [hf] at h
    cases h
    have : (c, i) ∈ ns.zipIdx.filter p := by rw [hf]; simp
    have := (List.mem_filter.mp this).1
    exact List.mem_zipIdx_iff_getElem?.mp this

theorem performXpath_kid {parent : Node} {path : List Step} {c : Node} {i : Nat} {loop : Bool} (h : performXpath parent path = .ok (c, i, loop)) :
    parent.kids[i]? = some c := by
  cases path with
  | nil => cases h
  | cons s q =>
    simp only [performXpath] at h
    split at h
    · next c' i' hf => cases h; exact firstResult_get hf
    · split at h
      · split at h
        · next c' i' hf => cases h; exact firstResult_get hf
        · cases h
      · cases h

theorem stepInto_kid {parent : Node} {path q : List Step} {c : Node} {i : Nat} (h : stepInto parent path = .ok (c, i, q)) : parent.kids[i]? = some c := by
  simp only [stepInto] at h
  split at h
  · cases h
  · next c' i' l' hp => cases h; exact performXpath_kid hp

theorem height_le_all {ns : List Node} {n : Node} (h : n ∈ ns) : n.height ≤ heightAll ns := by
  induction ns with
  | nil => cases h
  | cons m r ih =>
    simp only [heightAll]
    rcases List.mem_cons.mp h with rfl | h
    · omega
    · have := ih h; omega

theorem reads_kids {src : Nat → Cell} {base : Nat} {n : Node} {e : Nat} (h : HoldsNode src base n e) : HoldsAll src base n.kids (src e).kids := by
  cases n; simp only [HoldsNode] at h; exact h.2.2.2.2.2

theorem height_kids (n : Node) : n.height = heightAll n.kids + 1 := by cases n; rfl

theorem sideLoop_outcome {src : Nat → Cell} {base d : Nat} {same : Same} {prec foll : Bool} {fuel : Nat} {n : Node} {e : Nat} {path : List Step}
    (hr : HoldsNode src base n e) (hd : n.height ≤ d) {h : Elements} {dst : Nat} (g : KeptApart src base h dst) :
    Outcome h dst (sideLoop same prec foll fuel n path) (Elements.sideLoop d same prec foll fuel e dst path h) := by
  induction fuel generalizing n e path h dst with
  | zero => exact ⟨rfl, .refl h dst⟩
  | succ fuel ih =>
    simp only [sideLoop, Elements.sideLoop, g.view hr hd]
    cases hp : performXpath n path with
    | error er => exact ⟨rfl, .refl h dst⟩
    | ok x =>
      obtain ⟨c, i, loop⟩ := x
      simp only
      have hk : h.cell e = src e := g.kept e (reads_lt hr)
      have hkid := performXpath_kid hp
      have hrc := readsAll_get (reads_kids hr) hkid
      have hh := height_kids n
      have hch := height_le_all (List.mem_of_getElem? hkid)
      rw [hk]
      split
      · refine sideSiblings_outcome (src := src) (base := base) ?_ (readsEach_zipIdx (by omega) (reads_kids hr) 0) g
        intro h' g'
        refine copyOrGo_outcome hrc (by omega) _ ?_ g'
        intro k h'' g'' _
        exact ih hrc (by omega) g''
      · exact .refl h dst

theorem rangeBranch_outcome {src : Nat → Cell} {base d : Nat} {same : Same} {fuel : Nat} {n : Node} {e : Nat} {c2 : Node} {i1 i2 : Nat} {q1 q2 : List Step}
    (hr : HoldsNode src base n e) (hd : n.height ≤ d) (h2 : n.kids[i2]? = some c2) {h : Elements} {dst : Nat} (g : KeptApart src base h dst) :
    Outcome h dst (rangeBranch same fuel n c2 i1 i2 q1 q2) (Elements.rangeBranch d same fuel e dst i1 i2 q1 q2 h) := by
  have hk : h.cell e = src e := g.kept e (reads_lt hr)
  have hh := height_kids n
  have hch := height_le_all (List.mem_of_getElem? h2)
  have hrc := readsAll_get (reads_kids hr) h2
  simp only [rangeBranch, Elements.rangeBranch, g.view hr hd, hk]
  have o := rangeSiblings_outcome (src := src) (base := base) (d := d) (eq1 := fun j => same n j i1) (eq2 := fun j => same n j i2)
    (first := fun s => if q1.isEmpty then .ok (copyFull s) else wrap s (sideLoop same false true fuel s q1))
    (go := fun s => Elements.copyOrGo d s dst q1 (fun k => Elements.sideLoop d same false true fuel s k q1)) (dst := dst)
    (by
      intro m a h' hm hmd g'
      refine copyOrGo_outcome hm (by omega) _ ?_ g'
      intro k h'' g'' _
      exact sideLoop_outcome hm hmd g'')
    (readsEach_zipIdx (by omega) (reads_kids hr) 0) (started := false) g
  revert o
  cases Elements.rangeSiblings d (fun j => same n j i1) (fun j => same n j i2)
    (fun s => Elements.copyOrGo d s dst q1 (fun k => Elements.sideLoop d same false true fuel s k q1)) dst false (src e).kids.zipIdx h with
  | mk h1 x =>
    cases rangeSiblings (fun j => same n j i1) (fun j => same n j i2)
      (fun s => if q1.isEmpty then .ok (copyFull s) else wrap s (sideLoop same false true fuel s q1)) false n.kids.zipIdx with
    | error er =>
      intro o
      cases x with
      | error e' => exact o
      | ok u => exact o.elim
    | ok ks =>
      intro o
      cases x with
      | error e' => exact o.elim
      | ok u =>
        have o2 := copyOrGo_outcome hrc (show c2.height ≤ d + 1 by omega) q2 (go := fun k => Elements.sideLoop d same true false fuel ((src e).kids.getD i2 0) k q2)
          (r := sideLoop same true false fuel c2 q2) (by
            intro k h'' g'' _
            exact sideLoop_outcome hrc (by omega) g'') (g.step o.1)
        simp only
        revert o2
        cases Elements.copyOrGo d ((src e).kids.getD i2 0) dst q2 (fun k => Elements.sideLoop d same true false fuel ((src e).kids.getD i2 0) k q2) h1 with
        | mk h3 y =>
          cases (if q2.isEmpty then .ok (copyFull c2) else wrap c2 (sideLoop same true false fuel c2 q2)) with
          | error er =>
            intro o2
            cases y with
            | error e' => exact ⟨o2.1, o.1.trans o2.2⟩
            | ok u => exact o2.elim
          | ok m =>
            intro o2
            cases y with
            | error e' => exact o2.elim
            | ok u => exact Appended.trans g.there o o2

theorem pairLoop_outcome {src : Nat → Cell} {base d : Nat} {same : Same} {fuel : Nat} {n : Node} {e : Nat} {path1 path2 : List Step}
    (hr : HoldsNode src base n e) (hd : n.height ≤ d) {h : Elements} {dst : Nat} (g : KeptApart src base h dst) :
    Outcome h dst (pairLoop same fuel n path1 path2) (Elements.pairLoop d same fuel e dst path1 path2 h) := by
  induction fuel generalizing n e path1 path2 h dst with
  | zero => exact ⟨rfl, .refl h dst⟩
  | succ fuel ih =>
    simp only [pairLoop, Elements.pairLoop, g.view hr hd]
    cases hp : stepInto n path1 with
    | error er => exact ⟨rfl, .refl h dst⟩
    | ok x =>
      obtain ⟨c1, i1, q1⟩ := x
      simp only
      have hkid := stepInto_kid hp
      have hk : h.cell e = src e := g.kept e (reads_lt hr)
      have hrc := readsAll_get (reads_kids hr) hkid
      have hh := height_kids n
      have hch := height_le_all (List.mem_of_getElem? hkid)
      have hsecond : ∀ c2 i2 q2, (if path1 = path2 then .ok (c1, i1, q1) else stepInto n path2 : Except PyErr (Node × Nat × List Step)) = .ok (c2, i2, q2) →
          n.kids[i2]? = some c2 := by
        intro c2 i2 q2 h2
        split at h2
        · cases h2; exact hkid
        · exact stepInto_kid h2
      revert hsecond
      cases (if path1 = path2 then .ok (c1, i1, q1) else stepInto n path2 : Except PyErr (Node × Nat × List Step)) with
      | error er => intro _; exact ⟨rfl, .refl h dst⟩
      | ok y =>
        obtain ⟨c2, i2, q2⟩ := y
        intro hsecond
        simp only
        split
        · rw [hk]
          have o := copyOrGo_outcome hrc (show c1.height ≤ d + 1 by omega) q1 (go := fun k => Elements.pairLoop d same fuel ((src e).kids.getD i1 0) k q1 q2)
            (r := pairLoop same fuel c1 q1 q2) (by
              intro k h'' g'' _
              exact ih hrc (by omega) g'') g
          cases hq : q1.isEmpty with
          | true => rw [hq] at o; exact o
          | false =>
            rw [hq] at o
            revert o
            cases pairLoop same fuel c1 q1 q2 with
            | error er => exact fun o => o
            | ok ks => exact fun o => o
        · exact rangeBranch_outcome hr hd (hsecond c2 i2 q2 rfl) g

end Verif.Lemmas
