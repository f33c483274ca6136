import Verif.Lemmas.Siblings
import Verif.Props.LocalText
/-!
Properties C32-C34 and C64: previous and next passages of a local text.
-/
namespace Verif.Props
open Verif.Py Verif.Model Verif.Spec

/-- The identifiers of the units of a level are distinct and can be written. -/
theorem units_writable {root : Node} {ls : List Level} (hc : Citable root ls) {k : Nat} (hk1 : 1 ≤ k) (hk : k ≤ ls.length) :
    Writable ((units (ls.take k) root).map (·.1)) ∧ ((units (ls.take k) root).map (·.1)).Nodup := by
  constructor
  · intro u hu
    rw [List.mem_map] at hu
    obtain ⟨w, hw, rfl⟩ := hu
    have := mem_units_length hw
    simp at this
    exact ⟨by intro e; rw [e] at this; simp at this; omega, fun v hv => (hc.ids _ _ hw v hv).1⟩
  · rw [List.Nodup, List.pairwise_map]
    exact units_nodup hc.distinct k

theorem reffs_of_level {root : Node} {ls : List Level} {same : Same} (hc : Citable root ls) {k : Nat} (hk1 : 1 ≤ k)
    (hk : k ≤ ls.length) (hne : units (ls.take k) root ≠ []) :
    getValidReff (textOf root same ls) (some (k : Int)) none = .ok (refsOf ((units (ls.take k) root).map (·.1))) := by
  rw [C29_lists_units root ls same hc k hk1, if_neg (by omega), if_neg (by simpa using hne)]
  simp [refsOf, Function.comp_def]

theorem siblingsId_single {root : Node} {ls : List Level} {same : Same} (hc : Citable root ls) {k : Nat} (hk1 : 1 ≤ k)
    (hk : k ≤ ls.length) {before after : List (List Str × List Nat)} {u : List Str × List Nat}
    (h : units (ls.take k) root = before ++ u :: after) (tree : Node) :
    Passage.siblingsId (textOf root same ls) ⟨single u.1, tree, .text⟩ =
      .ok (before.getLast?.map (single ·.1), after.head?.map (single ·.1)) := by
  have hu : u ∈ units (ls.take k) root := by rw [h]; simp
  have hlen := mem_units_length hu
  simp only [List.length_take] at hlen
  obtain ⟨hw, hn⟩ := units_writable hc hk1 hk
  have hwu := hw u.1 (List.mem_map_of_mem hu)
  have hd : pdepth (dotted u.1) = k := by rw [pdepth_dotted hwu.1 hwu.2]; omega
  have hr := reffs_of_level (same := same) hc hk1 hk (by rw [h]; simp)
  simp only [Passage.siblingsId, single, Option.getD_none, ne_eq, not_true_eq_false, if_false, Src.getReffs]
  rw [hd, hr]
  rw [h, List.map_append, List.map_cons] at hw hn ⊢
  simp only
  rw [siblings_single hw hn]
  congr 2
  · rw [List.getLast?_map, Option.map_map]; rfl
  · rw [List.head?_map, Option.map_map]; rfl

/-- C32. For a unit of the text, the previous passage is the unit before it and the next passage the unit
after it in the listing of its level; `None` at the borders. -/
theorem C32_siblings (root : Node) (ls : List Level) (same : Same) (hr : ∀ n i, same n i i = true) (hc : Citable root ls)
    (k : Nat) (hk1 : 1 ≤ k) (hk : k ≤ ls.length) (before after : List (List Str × List Nat)) (u : List Str × List Nat)
    (h : units (ls.take k) root = before ++ u :: after) :
    ∃ p, textPassage (textOf root same ls) (single u.1) = .ok p ∧
      p.siblingsId (textOf root same ls) = .ok (before.getLast?.map (single ·.1), after.head?.map (single ·.1)) := by
  have hu : (u.1, u.2) ∈ units (ls.take k) root := by rw [h]; simp
  refine ⟨⟨single u.1, emptied root (chainTo root u.2), .text⟩, ?_, siblingsId_single hc hk1 hk h _⟩
  unfold textPassage
  rw [C31_units_retrievable root ls same hr hc k hk1 hk u.1 u.2 hu]

/-- C32 for passages retrieved with `simple=True`. -/
theorem C32_simple_siblings (root : Node) (ls : List Level) (same : Same) (hc : Citable root ls)
    (k : Nat) (hk1 : 1 ≤ k) (hk : k ≤ ls.length) (before after : List (List Str × List Nat)) (u : List Str × List Nat)
    (h : units (ls.take k) root = before ++ u :: after) :
    simpleSiblings (textOf root same ls) (single u.1) =
      .ok (before.getLast?.map (single ·.1), after.head?.map (single ·.1)) := by
  have hu : u ∈ units (ls.take k) root := by rw [h]; simp
  have hlen := mem_units_length hu
  simp only [List.length_take] at hlen
  obtain ⟨hw, hn⟩ := units_writable hc hk1 hk
  have hwu := hw u.1 (List.mem_map_of_mem hu)
  have hd : (single u.1).depth = k := by
    simp only [Ref.depth, single, Ref.highest]
    rw [plist_dotted hwu.1 hwu.2]; omega
  have hrs := reffs_of_level (same := same) hc hk1 hk (by rw [h]; simp)
  rw [h, List.map_append, List.map_cons] at hw hn hrs
  have hi := index_refsOf hw hn
  unfold simpleSiblings
  rw [hd, hrs]
  have hs : (single u.1).isRange = false := rfl
  have hst : (single u.1).start = dotted u.1 := rfl
  simp only [hs, hst, hi, List.length_map, Bool.false_eq_true, if_false]
  have hl : List.length (refsOf (before.map (·.1) ++ u.1 :: after.map (·.1))) = before.length + 1 + after.length := by
    simp [refsOf]; omega
  have hp : (if before.length = 0 then (.ok none : Except PyErr (Option Ref)) else
      if (before.length : Int) - ((1 : Nat) : Int) < 0 then tupleAt (refsOf (before.map (·.1) ++ u.1 :: after.map (·.1))) 0
      else tupleAt (refsOf (before.map (·.1) ++ u.1 :: after.map (·.1))) ((before.length : Int) - 1)) =
      .ok (before.getLast?.map (single ·.1)) := by
    cases hb : before.getLast? with
    | none => rw [List.getLast?_eq_none_iff] at hb; subst hb; simp
    | some x =>
      obtain ⟨b, rfl⟩ := List.getLast?_eq_some_iff.1 hb
      rw [if_neg (by simp), if_neg (by simp)]
      rw [tupleAt_refsOf (i := b.length) (by simp) (by simp)]
      simp
  have hx : (if before.length + 1 = List.length (refsOf (before.map (·.1) ++ u.1 :: after.map (·.1))) then (.ok none : Except PyErr (Option Ref)) else
      if before.length + 1 > List.length (refsOf (before.map (·.1) ++ u.1 :: after.map (·.1))) then
        tupleAt (refsOf (before.map (·.1) ++ u.1 :: after.map (·.1))) (-1)
      else tupleAt (refsOf (before.map (·.1) ++ u.1 :: after.map (·.1))) ((before.length : Int) + 1)) =
      .ok (after.head?.map (single ·.1)) := by
    rw [hl]
    cases after with
    | nil => simp
    | cons x r =>
      rw [if_neg (by simp), if_neg (by simp)]
      rw [tupleAt_refsOf (i := before.length + 1) (by simp) (by simp)]
      simp
  rw [hp]
  simp only
  rw [hx]

theorem siblingsId_range {root : Node} {ls : List Level} {same : Same} (hs : TellsApart same root) (hc : Citable root ls)
    (hsep : Separate root ls) {k : Nat} (hk1 : 1 ≤ k) (hk : k ≤ ls.length)
    {before between after : List (List Str × List Nat)} {a b : List Str × List Nat}
    (h : units (ls.take k) root = before ++ a :: between ++ b :: after) (tree : Node) :
    Passage.siblingsId (textOf root same ls) ⟨mkRef2 (dotted a.1) (dotted b.1), tree, .text⟩ =
      .ok (span ((lastN (between.length + 2) before).map (·.1)), span ((after.take (between.length + 2)).map (·.1))) := by
  have ha : a ∈ units (ls.take k) root := by rw [h]; simp
  have hb : b ∈ units (ls.take k) root := by rw [h]; simp
  have hla := mem_units_length ha
  have hlb := mem_units_length hb
  simp only [List.length_take] at hla hlb
  obtain ⟨hw, hn⟩ := units_writable hc hk1 hk
  have hwa := hw a.1 (List.mem_map_of_mem ha)
  have hwb := hw b.1 (List.mem_map_of_mem hb)
  have hda : pdepth (dotted a.1) = k := by rw [pdepth_dotted hwa.1 hwa.2]; omega
  have hdb : pdepth (dotted b.1) = k := by rw [pdepth_dotted hwb.1 hwb.2]; omega
  have hr := reffs_of_level (same := same) hc hk1 hk (by rw [h]; simp)
  have hin := C30_range_level_zero root ls same hs hc hsep k hk before between after a b h
  have e1 : (mkRef2 (dotted a.1) (dotted b.1)).start = dotted a.1 := rfl
  have e2 : (mkRef2 (dotted a.1) (dotted b.1)).stop = some (dotted b.1) := rfl
  have ev : (Src.text).view (textOf root same ls) = textOf root same ls := rfl
  simp only [Passage.siblingsId, Passage.getReffs, Src.getReffs, e1, e2, ev, Option.getD_some, hda, hdb, ne_eq, not_true_eq_false,
    if_false, hr, hin]
  rw [h, List.map_append, List.map_append, List.map_cons, List.map_cons] at hw hn ⊢
  have := siblings_range hw hn
  simp only [List.length_map] at this
  have el : ((List.map (fun u : List Str × List Nat => some (single u.1)) (a :: between ++ [b])).length : Int)
      = ((between.length + 2 : Nat) : Int) := by simp; omega
  rw [el, this]
  congr 3
  · simp [lastN, List.map_drop]
  · simp [List.map_take]

/-- C33. For a range from one unit to a later unit of the same level, that covers `n` units: the previous
passage is the range of the `n` units before it and the next passage the range of the `n` units after it;
of those there are, when there are fewer; `None` when there is none. -/
theorem C33_range_siblings (root : Node) (ls : List Level) (same : Same) (hs : TellsApart same root) (hc : Citable root ls)
    (hsep : Separate root ls) (k : Nat) (hk1 : 1 ≤ k) (hk : k ≤ ls.length)
    (before between after : List (List Str × List Nat)) (a b : List Str × List Nat)
    (h : units (ls.take k) root = before ++ a :: between ++ b :: after) :
    ∃ p, textPassage (textOf root same ls) (mkRef2 (dotted a.1) (dotted b.1)) = .ok p ∧
      p.siblingsId (textOf root same ls) =
        .ok (span ((lastN (between.length + 2) before).map (·.1)), span ((after.take (between.length + 2)).map (·.1))) := by
  have ha : (a.1, a.2) ∈ units (ls.take k) root := by rw [h]; simp
  have hb : (b.1, b.2) ∈ units (ls.take k) root := by rw [h]; simp
  have hla := mem_units_length ha
  have hlb := mem_units_length hb
  simp only [List.length_take] at hla hlb
  obtain ⟨hw, hn⟩ := units_writable hc hk1 hk
  have hwa := hw a.1 (List.mem_map_of_mem ha)
  have hwb := hw b.1 (List.mem_map_of_mem hb)
  have hord := C29_document_order root ls hsep k
  rw [h, List.pairwise_append] at hord
  have hp := hord.2.2 a (by simp) b (by simp)
  refine ⟨⟨mkRef2 (dotted a.1) (dotted b.1), cut root a.2 b.2, .text⟩, ?_, siblingsId_range hs hc hsep hk1 hk h _⟩
  unfold textPassage
  have hka : a.1.length = k := by omega
  have hkb : b.1.length = k := by omega
  rw [C28_range_of_text root ls same hs hc a.1 b.1 a.2 b.2 hwa.1 hwb.1 (by omega) (by omega) (hka.symm ▸ ha) (hkb.symm ▸ hb) hp]

/-- C33. Ranges between different levels have no siblings: their identifiers cannot be asked for, and neither
can the passage before or after. -/
theorem C33_mixed_levels (t : LocalText) (a b : Str) (tree : Node) (src : Src) (h : pdepth a ≠ pdepth b) :
    Passage.siblingsId t ⟨mkRef2 a b, tree, src⟩ = .error .invalidSibling ∧
    Passage.prev t ⟨mkRef2 a b, tree, src⟩ = .error .invalidSibling ∧
    Passage.next t ⟨mkRef2 a b, tree, src⟩ = .error .invalidSibling := by
  have hs : Passage.siblingsId t ⟨mkRef2 a b, tree, src⟩ = .error .invalidSibling := by
    unfold Passage.siblingsId
    exact if_pos h
  refine ⟨hs, ?_, ?_⟩
  · unfold Passage.prev; rw [hs]
  · unfold Passage.next; rw [hs]

/-- A book with a line, and a range from the book to the line. -/
example : pdepth "1".toList ≠ pdepth "2.1".toList := by decide +kernel

/-- C34. The passage after the previous one, and the passage before the next one, are the passage itself. -/
theorem C34_single (root : Node) (ls : List Level) (same : Same) (hr : ∀ n i, same n i i = true) (hc : Citable root ls)
    (k : Nat) (hk1 : 1 ≤ k) (hk : k ≤ ls.length) (u : List Str × List Nat) (hu : u ∈ units (ls.take k) root) :
    ∃ p, textPassage (textOf root same ls) (single u.1) = .ok p ∧ ∃ prev next, p.siblingsId (textOf root same ls) = .ok (prev, next) ∧
      (∀ r, prev = some r → ∃ q before, textPassage (textOf root same ls) r = .ok q ∧
        q.siblingsId (textOf root same ls) = .ok (before, some (single u.1))) ∧
      (∀ r, next = some r → ∃ q after, textPassage (textOf root same ls) r = .ok q ∧
        q.siblingsId (textOf root same ls) = .ok (some (single u.1), after)) := by
  obtain ⟨before, after, h⟩ := List.append_of_mem hu
  obtain ⟨p, h1, h2⟩ := C32_siblings root ls same hr hc k hk1 hk before after u h
  refine ⟨p, h1, _, _, h2, ?_, ?_⟩
  · intro r hr'
    cases hb : before.getLast? with
    | none => simp [hb] at hr'
    | some x =>
      obtain ⟨b, rfl⟩ := List.getLast?_eq_some_iff.1 hb
      rw [hb] at hr'
      simp only [Option.map_some, Option.some.injEq] at hr'
      subst hr'
      obtain ⟨q, h3, h4⟩ := C32_siblings root ls same hr hc k hk1 hk b (u :: after) x (by rw [h]; simp)
      exact ⟨q, _, h3, by simpa using h4⟩
  · intro r hr'
    cases after with
    | nil => simp at hr'
    | cons x after =>
      simp only [List.head?_cons, Option.map_some, Option.some.injEq] at hr'
      subst hr'
      obtain ⟨q, h3, h4⟩ := C32_siblings root ls same hr hc k hk1 hk (before ++ [u]) after x (by rw [h]; simp)
      exact ⟨q, _, h3, by simpa using h4⟩

/-- The first and the last of a list of at least two. -/
theorem two_ends {α : Type} {l : List α} (h : 2 ≤ l.length) : ∃ x m y, l = x :: m ++ [y] ∧ m.length + 2 = l.length := by
  cases l with
  | nil => simp at h
  | cons x r =>
    cases hr : r.getLast? with
    | none => rw [List.getLast?_eq_none_iff] at hr; subst hr; simp at h
    | some y =>
      obtain ⟨m, rfl⟩ := List.getLast?_eq_some_iff.1 hr
      exact ⟨x, m, y, by simp, by simp⟩

/-- C34 for ranges: when the previous range is as long as the range, the range after it is the range itself;
and the same for the next range. -/
theorem C34_range (root : Node) (ls : List Level) (same : Same) (hs : TellsApart same root) (hc : Citable root ls)
    (hsep : Separate root ls) (k : Nat) (hk1 : 1 ≤ k) (hk : k ≤ ls.length)
    (before between after : List (List Str × List Nat)) (a b : List Str × List Nat)
    (h : units (ls.take k) root = before ++ a :: between ++ b :: after) :
    ∃ p, textPassage (textOf root same ls) (mkRef2 (dotted a.1) (dotted b.1)) = .ok p ∧
      ∃ prev next, p.siblingsId (textOf root same ls) = .ok (prev, next) ∧
      (between.length + 2 ≤ before.length → ∃ r q o, prev = some r ∧ textPassage (textOf root same ls) r = .ok q ∧
        q.siblingsId (textOf root same ls) = .ok (o, some (mkRef2 (dotted a.1) (dotted b.1)))) ∧
      (between.length + 2 ≤ after.length → ∃ r q o, next = some r ∧ textPassage (textOf root same ls) r = .ok q ∧
        q.siblingsId (textOf root same ls) = .ok (some (mkRef2 (dotted a.1) (dotted b.1)), o)) := by
  obtain ⟨p, h1, h2⟩ := C33_range_siblings root ls same hs hc hsep k hk1 hk before between after a b h
  have hspan : ∀ (x y : List Str × List Nat) (m : List (List Str × List Nat)),
      span ((x :: m ++ [y]).map (·.1)) = some (mkRef2 (dotted x.1) (dotted y.1)) := by
    intro x y m; simp [span]
  refine ⟨p, h1, _, _, h2, ?_, ?_⟩
  · intro hlen
    have hl : (lastN (between.length + 2) before).length = between.length + 2 := by simp [lastN]; omega
    obtain ⟨x, m, y, hxy, hm⟩ := two_ends (l := lastN (between.length + 2) before) (by omega)
    have hb : before = before.take (before.length - (between.length + 2)) ++ (x :: m ++ [y]) := by
      rw [← hxy]; exact (List.take_append_drop _ _).symm
    obtain ⟨q, h3, h4⟩ := C33_range_siblings root ls same hs hc hsep k hk1 hk
      (before.take (before.length - (between.length + 2))) m (a :: between ++ b :: after) x y (by
        rw [h]
        conv => lhs; rw [hb]
        simp)
    refine ⟨_, q, span ((lastN (m.length + 2) (before.take (before.length - (between.length + 2)))).map (·.1)), ?_, h3, ?_⟩
    · rw [hxy, hspan]
    · rw [h4]
      have : (a :: between ++ b :: after).take (m.length + 2) = a :: between ++ [b] := by
        rw [show m.length + 2 = (a :: between ++ [b]).length by simp; omega]
        rw [show a :: between ++ b :: after = (a :: between ++ [b]) ++ after by simp]
        exact List.take_left
      rw [this, hspan]
  · intro hlen
    have hl : (after.take (between.length + 2)).length = between.length + 2 := by simp; omega
    obtain ⟨x, m, y, hxy, hm⟩ := two_ends (l := after.take (between.length + 2)) (by omega)
    have hb : after = (x :: m ++ [y]) ++ after.drop (between.length + 2) := by
      rw [← hxy]; exact (List.take_append_drop _ _).symm
    obtain ⟨q, h3, h4⟩ := C33_range_siblings root ls same hs hc hsep k hk1 hk
      (before ++ a :: between ++ [b]) m (after.drop (between.length + 2)) x y (by
        rw [h]
        conv => lhs; rw [hb]
        simp)
    refine ⟨_, q, span (((after.drop (between.length + 2)).take (m.length + 2)).map (·.1)), ?_, h3, ?_⟩
    · rw [hxy, hspan]
    · rw [h4]
      have : lastN (m.length + 2) (before ++ a :: between ++ [b]) = a :: between ++ [b] := by
        unfold lastN
        rw [List.append_assoc]
        rw [show (before ++ (a :: between ++ [b])).length - (m.length + 2) = before.length by simp; omega]
        exact List.drop_left
      rw [this, hspan]


/-! ## C64 -/

/-- C64 fails: the siblings of the passage that `.next` gives can never be asked for, whatever the text. -/
theorem C64_next_has_no_siblings (root : Node) (ls : List Level) (same : Same) (hr : ∀ n i, same n i i = true) (hc : Citable root ls)
    (k : Nat) (hk1 : 1 ≤ k) (hk : k ≤ ls.length) (before after : List (List Str × List Nat)) (u v : List Str × List Nat)
    (h : units (ls.take k) root = before ++ u :: v :: after) :
    ∃ p q e, textPassage (textOf root same ls) (single u.1) = .ok p ∧ p.next (textOf root same ls) = .ok (some q) ∧
      q.ref = single v.1 ∧ q.tree = emptied root (chainTo root v.2) ∧ q.siblingsId (textOf root same ls) = .error e := by
  obtain ⟨u, tu⟩ := u
  obtain ⟨v, tv⟩ := v
  have hu : (u, tu) ∈ units (ls.take k) root := by rw [h]; simp
  have hv : (v, tv) ∈ units (ls.take k) root := by rw [h]; simp
  have hlu := mem_units_length hu
  have hlv := mem_units_length hv
  simp only [List.length_take] at hlu hlv
  obtain ⟨hw, hn⟩ := units_writable hc hk1 hk
  have hwu := hw u (List.mem_map.2 ⟨_, hu, rfl⟩)
  have hwv := hw v (List.mem_map.2 ⟨_, hv, rfl⟩)
  have hiu : ∀ x ∈ u, IsId x := fun x hx => hc.ids _ _ hu x hx
  have ru := C31_units_retrievable root ls same hr hc k hk1 hk u tu hu
  have rv := C31_units_retrievable root ls same hr hc k hk1 hk v tv hv
  have hsu := siblingsId_single (same := same) hc hk1 hk h (emptied root (chainTo root tu))
  have hd : pdepth (dotted v) = k := by rw [pdepth_dotted hwv.1 hwv.2]; omega
  let P : Passage := ⟨single u, emptied root (chainTo root tu), .text⟩
  let Q : Passage := ⟨single v, emptied root (chainTo root tv), P.asSrc⟩
  have h1 : textPassage (textOf root same ls) (single u) = .ok P := by
    unfold textPassage; rw [ru]
  have ev : P.src.view (textOf root same ls) = textOf root same ls := rfl
  have h2 : P.next (textOf root same ls) = .ok (some Q) := by
    unfold Passage.next
    rw [hsu]
    simp only [List.head?_cons, Option.map_some, Passage.step]
    rw [ev, rv]
    rfl
  have h3 : ∃ e, Q.siblingsId (textOf root same ls) = .error e := by
    have hg : P.asSrc.getReffs (textOf root same ls) (k : Int) =
        getValidReff (textOf root same ls) (some (k : Int)) (some (single u)) := rfl
    have hsrc : Q.src = P.asSrc := rfl
    have href : Q.ref = single v := rfl
    have hlev : levelBelow u.length (some (k : Int)) = k + 1 := by
      have : (k : Int) ≠ 0 := by omega
      simp only [levelBelow, if_neg this]; omega
    have hq := C30_level_below_passage root ls same hc u hwu.1 hiu (some (k : Int))
    rw [hlev] at hq
    have e1 : (single v).start = dotted v := rfl
    have e2 : (single v).stop = none := rfl
    simp only [Passage.siblingsId, hsrc, href, e1, e2, Option.getD_none, ne_eq, not_true_eq_false, if_false, hd, hg, hq]
    by_cases hdeep : (ls.length : Int) < (k : Int) + 1
    · rw [if_pos hdeep]; exact ⟨_, rfl⟩
    · rw [if_neg hdeep]
      split
      · rename_i heq; exact ⟨_, rfl⟩
      · rename_i heq
        split at heq
        · simp at heq
        · simp only [Except.ok.injEq] at heq
          subst heq
          refine ⟨.valueError, ?_⟩
          have hidx : RefSet.index ((listing root ls ((k : Int) + 1).toNat u).map fun ids => some (single ids)) (dotted v) = .error .valueError := by
            have : mkRef (dotted v) = .ok (some (single v)) := mkRef_dotted hwv.1 hwv.2
            simp only [RefSet.index, this, bind, Except.bind, RefSet.indexOf]
            have hf : (List.map (fun ids => some (single ids)) (listing root ls ((k : Int) + 1).toNat u)).findIdx?
                (fun x => itemEq x (some (single v))) = none := by
              rw [List.findIdx?_eq_none_iff]
              intro x hx
              rw [List.mem_map] at hx
              obtain ⟨ids, hids, rfl⟩ := hx
              obtain ⟨t, ht, _⟩ := mem_listing.1 hids
              have hl := mem_units_length ht
              simp only [List.length_take] at hl
              have hkk : ((k : Int) + 1).toNat = k + 1 := by omega
              have hwi : ids ≠ [] ∧ ∀ y ∈ ids, IsComponent y :=
                ⟨by rintro rfl; simp at hl; omega, fun y hy => (hc.ids _ _ ht y hy).1⟩
              rw [itemEq_single hwi hwv]
              simp only [decide_eq_false_iff_not]
              rintro rfl
              omega
            rw [hf]
          unfold siblingsOf
          rw [hidx]
  obtain ⟨e, h3⟩ := h3
  exact ⟨P, Q, e, h1, h2, rfl, rfl, h3⟩

/-- What remains of C64: the passages of the children, which `getTextualNode` of a passage gives, are passages
of the text, so navigation from them works as in C32-C34. -/
theorem C64_child_belongs_to_text_partial (t : LocalText) (p : Passage) (r : Ref) (hp : p.src = .text) :
    p.getTextualNode t r = textPassage t r := by
  simp only [Passage.getTextualNode, textPassage, hp, Src.view, Src.tree]

/-! ## C65 -/

/-- C65. The children of a unit are the units of the next level that lie under it, in order; a unit of the
deepest level has none. (When a unit of another level has none, `KeyError` is raised.) -/
theorem C65_children (root : Node) (ls : List Level) (same : Same) (hr : ∀ n i, same n i i = true) (hc : Citable root ls)
    (k : Nat) (hk1 : 1 ≤ k) (hk : k ≤ ls.length) (u : List Str × List Nat) (hu : u ∈ units (ls.take k) root) :
    ∃ p, textPassage (textOf root same ls) (single u.1) = .ok p ∧
      p.childIds (textOf root same ls) =
        if k = ls.length then .ok []
        else if (listing root ls (k + 1) u.1).isEmpty then .error .keyError
        else .ok ((listing root ls (k + 1) u.1).map fun ids => some (single ids)) := by
  have hlen := mem_units_length hu
  simp only [List.length_take] at hlen
  obtain ⟨hw, _⟩ := units_writable hc hk1 hk
  have hwu := hw u.1 (List.mem_map_of_mem hu)
  have hd : pdepth (dotted u.1) = k := by rw [pdepth_dotted hwu.1 hwu.2]; omega
  refine ⟨⟨single u.1, emptied root (chainTo root u.2), .text⟩, ?_, ?_⟩
  · unfold textPassage
    rw [C31_units_retrievable root ls same hr hc k hk1 hk u.1 u.2 hu]
  · have e1 : (single u.1).start = dotted u.1 := rfl
    have e2 : (single u.1).stop = none := rfl
    have ev : (Src.text).view (textOf root same ls) = textOf root same ls := rfl
    have el : (textOf root same ls).decls.length = ls.length := length_declsOf _ _
    have hq := C30_level_below_passage root ls same hc u.1 hwu.1 (fun v hv => hc.ids _ _ hu v hv) (some 1)
    have hlev : levelBelow u.1.length (some 1) = ((k + 1 : Nat) : Int) := by
      simp only [levelBelow]; rw [if_neg (by decide)]; omega
    rw [hlev, Int.toNat_natCast] at hq
    simp only [Passage.childIds, Passage.getReffs, e1, e2, ev, el, Option.getD_none, ne_eq, not_true_eq_false, if_false, hd, hq]
    by_cases hkl : k = ls.length
    · rw [if_pos (by omega), if_pos hkl]
    · rw [if_neg (by omega), if_neg hkl, if_neg (by omega)]

/-- C65. First and last child are the ends of the list of children. -/
theorem C65_first_last (t : LocalText) (p : Passage) (l : RefSet) (h : p.childIds t = .ok l) :
    p.firstId t = .ok (l.head?.getD none) ∧ p.lastId t = .ok (l.getLast?.getD none) := by
  unfold Passage.firstId Passage.lastId
  rw [h]
  cases l <;> simp

example : ∃ p, textPassage (textOf edition sameIdentity editionLevels) (single [['1']]) = .ok p ∧
    p.childIds (textOf edition sameIdentity editionLevels) = .ok [some (single [['1'], ['1']]), some (single [['1'], ['2']])] := by
  obtain ⟨p, h1, h2⟩ := C65_children edition editionLevels sameIdentity (by simp [sameIdentity]) edition_citable 1 (by decide)
    (by decide) ([['1']], [0, 0]) (by decide +kernel)
  refine ⟨p, h1, h2.trans ?_⟩
  have : listing edition editionLevels (1 + 1) [['1']] = [[['1'], ['1']], [['1'], ['2']]] := by decide +kernel
  rw [this, if_neg (by decide)]
  rfl

/-- A poem without lines: its children raise `KeyError`. -/
theorem C65_no_children_raises :
    (textPassage ⟨.mk "TEI".toList [] [] [.mk ['d'] [(['n'], ['1'])] [] [] []] [],
        ["/TEI/d[@n='$1']".toList, "/TEI/d[@n='$1']/l[@n='$2']".toList], sameIdentity⟩ (single [['1']]) >>= fun p =>
      p.firstId ⟨.mk "TEI".toList [] [] [.mk ['d'] [(['n'], ['1'])] [] [] []] [],
        ["/TEI/d[@n='$1']".toList, "/TEI/d[@n='$1']/l[@n='$2']".toList], sameIdentity⟩) = .error .keyError := by decide +kernel

/-! ## Examples -/

/-- Line 1.2 of the edition: previous 1.1, next 2.1. -/
example : ∃ p, textPassage (textOf edition sameIdentity editionLevels) (single [['1'], ['2']]) = .ok p ∧
    p.siblingsId (textOf edition sameIdentity editionLevels) = .ok (some (single [['1'], ['1']]), some (single [['2'], ['1']])) :=
  C32_siblings _ _ _ (by simp [sameIdentity]) edition_citable 2 (by decide) (by decide)
    [([['1'], ['1']], [0, 0, 0])] [([['2'], ['1']], [0, 1, 0]), ([['2'], ['2']], [0, 1, 1])] ([['1'], ['2']], [0, 0, 1]) (by
      rw [List.take_of_length_le (by simp [editionLevels]), edition_units]; rfl)

/-- The range 1.1-1.2: no previous, next 2.1-2.2. -/
example : ∃ p, textPassage (textOf edition sameIdentity editionLevels) (mkRef2 (dotted [['1'], ['1']]) (dotted [['1'], ['2']])) = .ok p ∧
    p.siblingsId (textOf edition sameIdentity editionLevels) =
      .ok (none, some (mkRef2 (dotted [['2'], ['1']]) (dotted [['2'], ['2']]))) :=
  C33_range_siblings _ _ _ (C28_identity_tells_apart _) edition_citable edition_separate 2 (by decide) (by decide)
    [] [] [([['2'], ['1']], [0, 1, 0]), ([['2'], ['2']], [0, 1, 1])] ([['1'], ['1']], [0, 0, 0]) ([['1'], ['2']], [0, 0, 1]) (by
      rw [List.take_of_length_le (by simp [editionLevels]), edition_units]; rfl)

/-- Next of next, on the edition: the deepest level raises `CitationDepthError`, level 1 `ValueError`; and the
children of the next passage are not found. -/
theorem C64_fails_on_edition :
    (textPassage (textOf edition sameIdentity editionLevels) (single [['1'], ['1']]) >>= fun p =>
      p.next (textOf edition sameIdentity editionLevels) >>= fun q => match q with
        | some q => q.siblingsId (textOf edition sameIdentity editionLevels)
        | none => .ok (none, none)) = .error .citationDepth ∧
    (textPassage (textOf edition sameIdentity editionLevels) (single [['1']]) >>= fun p =>
      p.next (textOf edition sameIdentity editionLevels) >>= fun q => match q with
        | some q => q.siblingsId (textOf edition sameIdentity editionLevels)
        | none => .ok (none, none)) = .error .valueError ∧
    (textPassage (textOf edition sameIdentity editionLevels) (single [['1']]) >>= fun p =>
      p.next (textOf edition sameIdentity editionLevels) >>= fun q => match q with
        | some q => q.firstId (textOf edition sameIdentity editionLevels)
        | none => .ok none) = .error .keyError := by
  decide +kernel

/-- A clipped sibling of one unit is written as a range from the unit to itself, and that range has no
siblings at the deepest level: 1.1 is what precedes 1.2-2.1. -/
theorem C33_clipped_to_one_unit :
    (textPassage (textOf edition sameIdentity editionLevels) (mkRef2 "1.2".toList "2.1".toList) >>= fun p =>
      p.siblingsId (textOf edition sameIdentity editionLevels)) =
        .ok (some (mkRef2 "1.1".toList "1.1".toList), some (mkRef2 "2.2".toList "2.2".toList)) ∧
    (textPassage (textOf edition sameIdentity editionLevels) (mkRef2 "1.1".toList "1.1".toList) >>= fun p =>
      p.siblingsId (textOf edition sameIdentity editionLevels)) = .error .citationDepth := by decide +kernel

/-- C33 fails for ranges retrieved with `simple=True`: the next passage lies inside the range. -/
theorem C33_simple_range_next_inside :
    simpleSiblings (lines [("1", "a"), ("2", "b"), ("3", "c"), ("4", "d")]) (mkRef2 ['1'] ['3']) = .error .citationDepth ∧
    simpleSiblings (textOf edition sameIdentity editionLevels) (mkRef2 ['1'] ['2']) = .ok (none, some (single [['2']])) := by
  decide +kernel

/-- A subreference in the reference: the passage is retrieved, its siblings raise `ValueError`. -/
theorem C32_fails_with_subreference :
    getTextualNode (lines [("1", "a"), ("2", "b")]) ⟨"1@a".toList, none, "1@a".toList⟩ =
      .ok (.mk "TEI".toList [] [] [line "1" "a"] []) ∧
    (textPassage (lines [("1", "a"), ("2", "b")]) ⟨"1@a".toList, none, "1@a".toList⟩ >>= fun p =>
      p.siblingsId (lines [("1", "a"), ("2", "b")])) = .error .valueError := by decide +kernel

end Verif.Props
