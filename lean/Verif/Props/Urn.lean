import Verif.Lemmas.Urn
import Verif.Props.Reference
/-!
Properties C10-C17: URNs.
-/
namespace Verif.Props
open Verif.Py Verif.Model Verif.Spec

/-! ## C10 -/

/-- C10. `str(URN(s))` is `s` up to its first `#`. -/
theorem C10_urn_round_trip (s : Str) (u : Urn) (h : Urn.parse s = .ok u) :
    ∃ u', u.str = .ok (s.takeWhile (· != '#'), u') := by
  obtain ⟨a, ns, cts, rest, _, hc, _⟩ := parse_ok h
  exact ⟨u, by simp only [Urn.str, hc, headD_split]⟩

/-- C10, spelled out for a text without `#`. -/
theorem C10_urn_round_trip_plain (s : Str) (hs : '#' ∉ s) (u : Urn) (h : Urn.parse s = .ok u) :
    ∃ u', u.str = .ok (s, u') := by
  obtain ⟨u', hu⟩ := C10_urn_round_trip s u h
  rw [takeWhile_all (by intro c hc; simp; rintro rfl; exact hs hc)] at hu
  exact ⟨u', hu⟩

example : ∃ u, Urn.parse "urn:cts:latinLit:phi1294.phi002.perseus-lat2:1.1#x".toList = .ok u ∧
    (u.str.toOption.map (·.1)) = some "urn:cts:latinLit:phi1294.phi002.perseus-lat2:1.1".toList :=
  ⟨_, rfl, rfl⟩

/-! ## C11 -/

/-- C11. `URN(s)` raises exactly when the text before `#` has fewer than two `:`, or has exactly four
and two or more `-` after the last; the exception is always `ValueError`. -/
theorem C11_urn_acceptance (s : Str) (e : PyErr) :
    Urn.parse s = .error e ↔ e = .valueError ∧
      ((s.takeWhile (· != '#')).count ':' < 2 ∨
       (s.takeWhile (· != '#')).count ':' = 4 ∧
         ∃ a p, s.takeWhile (· != '#') = a ++ ':' :: p ∧ ':' ∉ p ∧ 2 ≤ p.count '-') := by
  unfold Urn.parse
  simp only [headD_split]
  generalize hb : s.takeWhile (· != '#') = body
  have hl := length_split ':' body
  have hj := join_split ':' body
  split
  · rename_i a ns cts rest hsp
    rw [hsp] at hl hj
    simp at hl
    have hp0 : ∀ p ∈ a :: ns :: cts :: rest, ':' ∉ p := fun p hp =>
      not_mem_of_mem_split (s := body) (by rw [hsp]; exact hp)
    match rest, hsp, hl, hj, hp0 with
    | [m, p], hsp, hl, hj, hp0 =>
      have hcount : body.count ':' = 4 := by simp at hl; omega
      have hbody : body = (a ++ ':' :: (ns ++ ':' :: (cts ++ ':' :: m))) ++ ':' :: p := by
        rw [← hj]; simp [join]
      constructor
      · intro h
        cases hm : mkRef p with
        | ok r => simp only [urnRefPart, hm] at h; simp at h
        | error e' =>
          simp only [urnRefPart, hm] at h
          simp at h
          subst h
          have := (C02_error_iff_two_dashes p e').1 hm
          exact ⟨this.1, Or.inr ⟨hcount, _, p, hbody, hp0 p (by simp), this.2⟩⟩
      · rintro ⟨rfl, h | ⟨_, a', p', h1, h2, h3⟩⟩
        · omega
        · have hpp : p' = p := by
            have e1 : body.reverse = p'.reverse ++ ':' :: a'.reverse := by rw [h1]; simp
            have e2 : body.reverse = p.reverse ++ ':' :: (a ++ ':' :: (ns ++ ':' :: (cts ++ ':' :: m))).reverse := by
              rw [hbody]; simp
            have s1 := split_append (a'.reverse) (a := p'.reverse) (c := ':') (by simpa using h2)
            have s2 := split_append ((a ++ ':' :: (ns ++ ':' :: (cts ++ ':' :: m))).reverse)
              (a := p.reverse) (c := ':') (by simpa using hp0 p (by simp))
            rw [← e1] at s1; rw [← e2, s1] at s2
            simp at s2; exact s2.1
          subst hpp
          have := (C02_error_iff_two_dashes p' .valueError).2 ⟨rfl, h3⟩
          simp only [urnRefPart, this]
    | [], hsp, hl, hj, hp0 =>
      simp [urnRefPart]
      simp at hl; omega
    | [m], hsp, hl, hj, hp0 =>
      simp [urnRefPart]
      simp at hl; omega
    | m :: p :: q :: r, hsp, hl, hj, hp0 =>
      simp [urnRefPart]
      simp at hl; omega
  · rename_i hno
    have : body.count ':' < 2 := by
      match hsp : split ':' body with
      | [] => exact absurd hsp (split_ne_nil _ _)
      | [x] => rw [hsp] at hl; simp at hl; omega
      | [x, y] => rw [hsp] at hl; simp at hl; omega
      | x :: y :: z :: w => exact absurd hsp (hno x y z w)
    simp [this]
    exact eq_comm

example : Urn.parse "urn:cts".toList = .error .valueError ∧
    Urn.parse "urn:cts:a:b.c.d:1-2-3".toList = .error .valueError := by
  constructor <;> rfl

/-! ## C12 -/

/-- C12. A written URN exposes exactly the components it was written from. -/
theorem C12_urn_components (p : UrnParts) (h : p.WF) :
    ∃ u, Urn.parse p.write = .ok u ∧ u.ns = some p.ns ∧ u.cts = some p.cts ∧ u.tg = p.tg ∧
      u.wk = p.wk ∧ u.ver = p.ver ∧ u.ref.map Ref.str = p.ref := by
  unfold Urn.parse
  have hb : (split '#' p.write).headD [] = p.write := by
    rw [split_of_not_mem (hash_write h)]; rfl
  simp only [hb, split_write h]
  cases ht : p.tg with
  | none =>
    simp [urnRefPart, urnComps, h.wkTg ht, h.verWk (h.wkTg ht), h.refTg ht]
  | some t =>
    have hm := split_middle (h.tg t ht) h.wk h.ver h.verWk
    have hwv : (p.wk.toList ++ p.ver.toList)[0]? = p.wk ∧ (p.wk.toList ++ p.ver.toList)[1]? = p.ver := by
      cases hw : p.wk with
      | none => simp [h.verWk hw]
      | some w => cases hv : p.ver <;> simp
    cases hr : p.ref with
    | none =>
      simp only [Option.toList_none, urnRefPart, urnComps, hm]
      simp [hwv.1, hwv.2]
    | some r =>
      have hrr := h.ref r hr
      obtain ⟨R, hR, hRs, _⟩ := C01_reference_round_trip r hrr.1 hrr.2.2.2
      simp only [Option.toList_some, urnRefPart, urnComps, hm, hR]
      simp [hwv.1, hwv.2, hRs]

example : UrnParts.WF ⟨"cts".toList, "latinLit".toList, some "phi1294".toList, some "phi002".toList,
    some "perseus-lat2".toList, some "1.pr.1-1.2".toList⟩ :=
  ⟨by decide, by decide, by decide, by decide, by decide, by decide, by decide, by decide, by decide⟩

/-! ## C13 -/

/-- The value last assigned by a history, `none` when there was no assignment. -/
def lastOf {α} (pick : UrnOp → Option α) (ops : List UrnOp) : Option α := ops.reverse.findSome? pick

/-- The reference that an assignment stores, if it stores one. -/
def storedRef : UrnOp → Option (Option Ref)
  | .setRef (.obj r) => some (some r)
  | .setRef .none => some none
  | .setRef (.text s) => match mkRef s with
    | .ok r => some r
    | .error _ => none
  | _ => none

/-- An operation that is not a mere read. -/
def isWrite : UrnOp → Bool
  | .readStr => false
  | _ => true

theorem lastOf_nil {α} (pick : UrnOp → Option α) : lastOf pick [] = none := rfl

theorem lastOf_snoc {α} (pick : UrnOp → Option α) (ops : List UrnOp) (o : UrnOp) :
    lastOf pick (ops ++ [o]) = (pick o).or (lastOf pick ops) := by
  simp only [lastOf, List.reverse_append, List.reverse_cons, List.reverse_nil, List.nil_append,
    List.singleton_append, List.findSome?_cons]
  cases pick o <;> simp

theorem run_snoc (u : Urn) (ops : List UrnOp) (o : UrnOp) : u.run (ops ++ [o]) = (u.run ops).step o := by
  simp [Urn.run, List.foldl_append]

theorem list_snoc_induction {α} {P : List α → Prop} (h0 : P []) (h1 : ∀ l x, P l → P (l ++ [x])) :
    ∀ l, P l := by
  intro l
  rw [← List.reverse_reverse l]
  induction l.reverse with
  | nil => simpa using h0
  | cons x xs ih => rw [List.reverse_cons]; exact h1 _ _ ih

theorem str_fields {u u' : Urn} {t : Str} (h : u.str = .ok (t, u')) :
    u'.ns = u.ns ∧ u'.cts = u.cts ∧ u'.tg = u.tg ∧ u'.wk = u.wk ∧ u'.ver = u.ver ∧ u'.ref = u.ref := by
  unfold Urn.str at h
  split at h
  · simp at h; simp [← h.2]
  · cases hr : u.rebuild with
    | error e => simp [hr, bind, Except.bind] at h
    | ok s => simp [hr, bind, Except.bind, pure, Except.pure] at h; simp [← h.2]

/-- C13. After any history every component reads back the last value assigned to it, or its
initial value when it was never assigned: assignments to other components and reads never
disturb it. -/
theorem C13_last_assignment_wins (u : Urn) (ops : List UrnOp) :
    (u.run ops).ns = (lastOf (fun | .setNs v => some v | _ => none) ops).getD u.ns ∧
    (u.run ops).cts = (lastOf (fun | .setCts v => some v | _ => none) ops).getD u.cts ∧
    (u.run ops).tg = (lastOf (fun | .setTg v => some v | _ => none) ops).getD u.tg ∧
    (u.run ops).wk = (lastOf (fun | .setWk v => some v | _ => none) ops).getD u.wk ∧
    (u.run ops).ver = (lastOf (fun | .setVer v => some v | _ => none) ops).getD u.ver ∧
    (u.run ops).ref = (lastOf storedRef ops).getD u.ref := by
  induction ops using list_snoc_induction with
  | h0 => simp [lastOf, Urn.run]
  | h1 ops o ih =>
    simp only [run_snoc, lastOf_snoc]
    obtain ⟨h1, h2, h3, h4, h5, h6⟩ := ih
    cases o with
    | setNs v => simp_all [Urn.step, storedRef]
    | setCts v => simp_all [Urn.step, storedRef]
    | setTg v => simp_all [Urn.step, storedRef]
    | setWk v => simp_all [Urn.step, storedRef]
    | setVer v => simp_all [Urn.step, storedRef]
    | setRef v =>
      cases v with
      | obj r => simp_all [Urn.step, storedRef]
      | none => simp_all [Urn.step, storedRef]
      | text s =>
        simp only [Urn.step, storedRef]
        cases mkRef s <;> simp_all
    | readStr =>
      simp only [Urn.step, storedRef]
      split
      · rename_i t u' hs
        have := str_fields hs
        simp_all
      · simp_all

/-- The text that the current components make, ignoring any cached text. -/
def freshText (u : Urn) : Except PyErr Str := (·.1) <$> Urn.str { u with cache := none }

theorem freshText_eq (u : Urn) : freshText u = u.rebuild := by
  simp only [freshText, Urn.str, Urn.rebuild]
  cases u.ns <;> rfl

theorem run_cache_inv (u : Urn) (ops : List UrnOp) (hw : ops.any isWrite = true) :
    (u.run ops).cache = none ∨ ∃ t, (u.run ops).cache = some t ∧ (u.run ops).rebuild = .ok t := by
  induction ops using list_snoc_induction with
  | h0 => simp at hw
  | h1 ops o ih =>
    rw [run_snoc]
    cases o with
    | readStr =>
      have ih := ih (by simpa [isWrite] using hw)
      simp only [Urn.step]
      split
      · rename_i t u' hs
        rcases ih with ih | ⟨t', h1, h2⟩
        · simp only [Urn.str, ih] at hs
          cases hr : (u.run ops).rebuild with
          | error e => simp [hr, bind, Except.bind] at hs
          | ok s =>
            simp [hr, bind, Except.bind, pure, Except.pure] at hs
            right
            refine ⟨s, by simp [← hs.2], ?_⟩
            rw [← hr, ← hs.2]; rfl
        · simp only [Urn.str, h1] at hs
          simp at hs
          right; exact ⟨t', by simp [← hs.2, h1], by rw [← hs.2]; exact h2⟩
      · exact ih
    | setRef v => cases v <;> simp [Urn.step]; rename_i s; cases mkRef s <;> simp
    | _ => simp [Urn.step]

/-- C13. Once anything was assigned, `str()` is the text that the current components make, whatever
was read in between. -/
theorem C13_str_after_write (u : Urn) (ops : List UrnOp) (hw : ops.any isWrite = true) :
    (·.1) <$> (u.run ops).str = freshText (u.run ops) := by
  rw [freshText_eq]
  rcases run_cache_inv u ops hw with h | ⟨t, h1, h2⟩
  · simp only [Urn.str, h]
    cases (u.run ops).rebuild <;> rfl
  · simp only [Urn.str, h1, h2]; rfl

/-- C13. Before any assignment `str()` is the text the URN was parsed from. -/
theorem C13_str_before_write (s : Str) (u : Urn) (hu : Urn.parse s = .ok u) (ops : List UrnOp)
    (hw : ops.any isWrite = false) :
    (·.1) <$> (u.run ops).str = .ok (s.takeWhile (· != '#')) := by
  have : u.run ops = u := by
    obtain ⟨_, _, _, _, _, hc, _⟩ := parse_ok hu
    induction ops using list_snoc_induction with
    | h0 => rfl
    | h1 ops o ih =>
      simp [isWrite] at hw
      rw [run_snoc, ih (by simpa [isWrite] using hw.1)]
      have ho := hw.2
      cases o <;> simp at ho
      simp [Urn.step, Urn.str, hc]
  rw [this]
  obtain ⟨u', h'⟩ := C10_urn_round_trip s u hu
  rw [h']; rfl

/-- C13, observed corner: an assignment of a malformed reference raises, yet it has already dropped
the cached text, so a passage attached to a textgroup disappears from `str()`. -/
theorem C13_failed_assignment_changes_text :
    ∃ u, Urn.parse "urn:cts:a:tg:1".toList = .ok u ∧ mkRef "1-2-3".toList = .error .valueError ∧
      ((·.1) <$> u.str) = .ok "urn:cts:a:tg:1".toList ∧
      ((·.1) <$> (u.run [.setRef (.text "1-2-3".toList)]).str) = .ok "urn:cts:a:tg".toList :=
  ⟨_, rfl, rfl, rfl, rfl⟩

example : ∃ u, Urn.parse "urn:cts:a:tg.wk".toList = .ok u ∧
    ((·.1) <$> (u.run [.readStr, .setVer (some "v1".toList), .readStr, .setTg (some "x".toList)]).str)
      = .ok "urn:cts:a:x.wk.v1".toList := ⟨_, rfl, rfl⟩

/-! ## C14 -/

theorem joinOpt_some (sep : Str) (l : List Str) : joinOpt sep (l.map some) = .ok (join sep l) := by
  have : allStr (l.map some) = .ok l := by
    induction l with
    | nil => rfl
    | cons x xs ih => simp [allStr, ih]
  simp only [joinOpt, this, fmap_ok]

theorem joinOpt3 (sep a b c : Str) : joinOpt sep [some a, some b, some c] = .ok (join sep [a, b, c]) :=
  joinOpt_some sep [a, b, c]
theorem joinOpt4 (sep a b c d : Str) :
    joinOpt sep [some a, some b, some c, some d] = .ok (join sep [a, b, c, d]) :=
  joinOpt_some sep [a, b, c, d]
theorem joinOpt5 (sep a b c d e : Str) :
    joinOpt sep [some a, some b, some c, some d, some e] = .ok (join sep [a, b, c, d, e]) :=
  joinOpt_some sep [a, b, c, d, e]
theorem joinOpt2 (sep a b : Str) : joinOpt sep [some a, some b] = .ok (join sep [a, b]) :=
  joinOpt_some sep [a, b]

/-- The written text of a URN cut after each level (specification of `upTo`). -/
def cutNamespace (p : UrnParts) : Str := UrnParts.write { p with tg := none, wk := none, ver := none, ref := none }
@[inherit_doc cutNamespace] def cutTextgroup (p : UrnParts) : Str := UrnParts.write { p with wk := none, ver := none, ref := none }
@[inherit_doc cutNamespace] def cutWork (p : UrnParts) : Str := UrnParts.write { p with ver := none, ref := none }
@[inherit_doc cutNamespace] def cutVersion (p : UrnParts) : Str := UrnParts.write { p with ref := none }

/-- C14. For a written URN, `upTo` gives the text cut after the level asked for; asking for the whole
or for the passage gives the written text. -/
theorem C14_upTo_values (p : UrnParts) (h : p.WF) (u : Urn) (hu : Urn.parse p.write = .ok u) :
    u.upTo 100 = .ok p.write ∧
    u.upTo 0 = .ok (cutNamespace p) ∧
    (p.tg ≠ none → u.upTo 1 = .ok (cutTextgroup p)) ∧
    (p.wk ≠ none → u.upTo 2 = .ok (cutWork p)) ∧
    (p.ver ≠ none → u.upTo 3 = .ok (cutVersion p)) ∧
    (p.wk ≠ none → u.upTo 10 = .ok (cutVersion p)) ∧
    (p.ref ≠ none → u.upTo 4 = .ok p.write) := by
  obtain ⟨u0, hu0, hns, hcts, htg, hwk, hver, href⟩ := C12_urn_components p h
  rw [hu] at hu0; simp at hu0; subst hu0
  have h100 : u.upTo 100 = .ok p.write := by
    obtain ⟨u', hs⟩ := C10_urn_round_trip_plain _ (hash_write h) u hu
    simp [Urn.upTo, hs]
  refine ⟨h100, ?_, ?_, ?_, ?_, ?_, ?_⟩
  · simp [Urn.upTo, hns, hcts, joinOpt3, join, cutNamespace, UrnParts.write, after]
  · intro ht
    cases htv : p.tg with
    | none => exact absurd htv ht
    | some t =>
      have := (h.tg t htv).1
      simp [Urn.upTo, hns, hcts, htg, htv, truthy_some, this, joinOpt4, join, cutTextgroup,
        UrnParts.write, after]
  · intro hw
    cases hwv : p.wk with
    | none => exact absurd hwv hw
    | some w =>
      cases htv : p.tg with
      | none => exact absurd (h.wkTg htv) hw
      | some t =>
        have := (h.wk w hwv).1
        simp [Urn.upTo, hns, hcts, htg, hwk, hwv, htv, truthy_some, this, joinOpt4, joinOpt2, join, cutWork,
          UrnParts.write, after, bind, Except.bind]
  · intro hv
    cases hvv : p.ver with
    | none => exact absurd hvv hv
    | some v =>
      cases hwv : p.wk with
      | none => exact absurd (h.verWk hwv) hv
      | some w =>
        cases htv : p.tg with
        | none => rw [h.wkTg htv] at hwv; simp at hwv
        | some t =>
          have := (h.ver v hvv).1
          simp [Urn.upTo, hns, hcts, htg, hwk, hver, hwv, htv, hvv, truthy_some, this, joinOpt4, join, cutVersion,
            UrnParts.write, after]
  · intro hw
    cases hwv : p.wk with
    | none => exact absurd hwv hw
    | some w =>
      cases htv : p.tg with
      | none => exact absurd (h.wkTg htv) hw
      | some t =>
        have := (h.wk w hwv).1
        cases hvv : p.ver <;>
        simp [Urn.upTo, hns, hcts, htg, hwk, hver, hwv, htv, hvv, truthy_some, this, joinOpt4, join, cutVersion,
            UrnParts.write, after]
  · intro hr
    cases hrv : p.ref with
    | none => exact absurd hrv hr
    | some r =>
      rw [hrv] at href
      cases hur : u.ref with
      | none => simp [hur] at href
      | some R =>
        simp [hur] at href
        cases htv : p.tg with
        | none => exact absurd (h.refTg htv) hr
        | some t =>
          cases hwv : p.wk with
          | none =>
            simp [Urn.upTo, hns, hcts, htg, hwk, hver, hwv, htv, h.verWk hwv, joinOpt5, join, hur, href,
              UrnParts.write, after, hrv]
          | some w =>
            cases hvv : p.ver <;>
            simp [Urn.upTo, hns, hcts, htg, hwk, hver, hwv, htv, hvv, joinOpt5, join, hur, href,
              UrnParts.write, after, hrv]

/-- C14. The cuts are nested: each is a prefix of the next, up to the whole text. -/
theorem C14_cuts_nested (p : UrnParts) :
    cutNamespace p <+: cutTextgroup p ∧ cutTextgroup p <+: cutWork p ∧
    cutWork p <+: cutVersion p ∧ cutVersion p <+: p.write := by
  simp only [cutNamespace, cutTextgroup, cutWork, cutVersion, UrnParts.write, after, List.append_nil]
  exact ⟨List.prefix_append _ _, List.prefix_append _ _, List.prefix_append _ _, List.prefix_append _ _⟩

/-- C14. The URN without passage, a colon and the passage make the whole; start and end of a range
passage are cut at the dash. -/
theorem C14_passage_parts (p : UrnParts) (h : p.WF) (u : Urn) (hu : Urn.parse p.write = .ok u)
    (hwk : p.wk ≠ none) (r : Str) (hr : p.ref = some r) :
    ∃ np, u.upTo 10 = .ok np ∧ u.upTo 4 = .ok (np ++ ':' :: r) ∧
      ('-' ∉ r → u.upTo 5 = .ok (np ++ ':' :: r) ∧ u.upTo 6 = .error .keyError) ∧
      (∀ a b, r = a ++ '-' :: b →
        u.upTo 5 = .ok (np ++ ':' :: a) ∧ u.upTo 6 = .ok (np ++ ':' :: b)) := by
  have hv := C14_upTo_values p h u hu
  have h4 := hv.2.2.2.2.2.2 (by simp [hr])
  have h10 := hv.2.2.2.2.2.1 hwk
  have hw : p.write = cutVersion p ++ ':' :: r := by
    simp [cutVersion, UrnParts.write, after, hr]
  obtain ⟨u0, hu0, hns, hcts, htg, hwk', hver, href⟩ := C12_urn_components p h
  rw [hu] at hu0; simp at hu0; subst hu0
  rw [hr] at href
  have hrr := h.ref r hr
  obtain ⟨R, hR, hRs, hRr, hR1, hR2⟩ := C01_reference_round_trip r hrr.1 hrr.2.2.2
  have huR : u.ref = some R := by
    obtain ⟨a, ns, cts, rest, hsp, _, _, _, hrf, _⟩ := parse_ok hu
    rw [split_of_not_mem (hash_write h)] at hsp
    simp only [List.headD_cons, split_write h] at hsp
    cases htv : p.tg with
    | none => exact absurd (h.wkTg htv) hwk
    | some t =>
      rw [htv, hr] at hsp
      simp at hsp
      obtain ⟨_, _, _, rfl⟩ := hsp
      simp only [urnRefPart, hR] at hrf
      simpa using hrf.symm
  have hmid : ∃ t, p.tg = some t := by
    cases htv : p.tg with
    | none => exact absurd (h.wkTg htv) hwk
    | some t => exact ⟨t, rfl⟩
  obtain ⟨t, htv⟩ := hmid
  have hjoin : ∀ x : Str, joinOpt [':'] [some ['u','r','n'], u.ns, u.cts,
      some (join ['.'] ([u.tg, u.wk, u.ver].filterMap id)), some x] = .ok (cutVersion p ++ ':' :: x) := by
    intro x
    cases hwv : p.wk with
    | none => exact absurd hwv hwk
    | some w =>
      cases hvv : p.ver <;>
      simp [hns, hcts, htg, hwk', hver, hwv, htv, hvv, joinOpt5, join, cutVersion, UrnParts.write, after]
  have h5 : u.upTo 5 = .ok (cutVersion p ++ ':' :: R.start) := by
    have := hjoin R.start
    simpa [Urn.upTo, huR] using this
  refine ⟨cutVersion p, h10, by rw [h4, hw], ?_, ?_⟩
  · intro hd
    obtain ⟨e1, e2⟩ := hR1 hd
    refine ⟨by rw [h5, e1], ?_⟩
    simp [Urn.upTo, huR, e2]
  · intro a b hab
    obtain ⟨e1, e2⟩ := hR2 a b hab
    refine ⟨by rw [h5, e1], ?_⟩
    have := hjoin b
    simpa [Urn.upTo, huR, e2] using this

/-- C14 does not extend to texts with surplus parts: a fourth dotted component or a sixth colon part
is kept by `str()` but lost by `upTo`. -/
theorem C14_surplus_parts_lost :
    (∃ u, Urn.parse "urn:cts:a:b.c.d.e".toList = .ok u ∧ u.upTo 10 = .ok "urn:cts:a:b.c.d".toList ∧
      u.upTo 100 = .ok "urn:cts:a:b.c.d.e".toList) ∧
    (∃ u, Urn.parse "urn:cts:a:b.c.d:1:2".toList = .ok u ∧ u.ref = none ∧
      u.upTo 100 = .ok "urn:cts:a:b.c.d:1:2".toList) :=
  ⟨⟨_, rfl, rfl, rfl⟩, ⟨_, rfl, rfl, rfl⟩⟩

/-! ## C15 -/

/-- The component that a level of `upTo` needs is missing (absent or empty). -/
def levelMissing (u : Urn) (key : Int) : Prop :=
  (key = 1 ∧ (u.tg = none ∨ u.tg = some [])) ∨
  (key = 2 ∧ (u.wk = none ∨ u.wk = some [])) ∨
  (key = 3 ∧ (u.ver = none ∨ u.ver = some [])) ∨
  (key = 10 ∧ (u.wk = none ∨ u.wk = some [])) ∨
  (key = 4 ∧ u.ref = none) ∨
  (key = 5 ∧ u.ref = none) ∨
  (key = 6 ∧ ∀ r, u.ref = some r → r.stop = none)

theorem not_truthy {o : Option Str} : truthy o = false ↔ o = none ∨ o = some [] := by
  match o with
  | none => simp [truthy]
  | some [] => simp [truthy]
  | some (x :: xs) => simp [truthy]

/-- C15. On a parsed URN, `upTo(key)` raises exactly when the key is none of the nine constants or
the component the level ends with is missing; the exception is always `KeyError`. -/
theorem C15_upTo_errors (s : Str) (u : Urn) (hu : Urn.parse s = .ok u) (key : Int) (e : PyErr) :
    u.upTo key = .error e ↔ e = .keyError ∧
      (key ∉ ([0, 1, 2, 3, 4, 5, 6, 10, 100] : List Int) ∨ levelMissing u key) := by
  obtain ⟨a, ns, cts, rest, _, hc, hns, hcts, _, htg, hwk, hver⟩ := parse_ok hu
  have hwt : ∀ w, u.wk = some w → ∃ t, u.tg = some t := by
    intro w hw
    rw [hwk] at hw
    rw [htg]
    exact ⟨_, List.getElem?_eq_getElem (by have := (List.getElem?_eq_some_iff.1 hw).1; omega)⟩
  have hmem : key ∉ ([0, 1, 2, 3, 4, 5, 6, 10, 100] : List Int) ↔
      key ≠ 0 ∧ key ≠ 1 ∧ key ≠ 2 ∧ key ≠ 3 ∧ key ≠ 4 ∧ key ≠ 5 ∧ key ≠ 6 ∧ key ≠ 10 ∧ key ≠ 100 := by
    simp [not_or]
  rw [hmem]
  unfold Urn.upTo levelMissing
  simp only [hns, hcts]
  by_cases k100 : key = 100
  · subst k100; simp [Urn.str, hc]
  rw [if_neg k100]
  by_cases k0 : key = 0
  · subst k0; simp [joinOpt3]
  rw [if_neg k0]
  by_cases k1 : key = 1
  · subst k1
    cases ht : truthy u.tg with
    | true =>
      obtain ⟨t, h1, h2⟩ := truthy_iff.1 ht
      simp [h1, h2, joinOpt4]
    | false =>
      have := not_truthy.1 ht
      cases u.ref <;> simp [this] <;> exact eq_comm
  simp only [k1, false_and, if_false]
  by_cases k2 : key = 2
  · subst k2
    cases ht : truthy u.wk with
    | true =>
      obtain ⟨w, h1, h2⟩ := truthy_iff.1 ht
      obtain ⟨t, h3⟩ := hwt w h1
      simp [h1, h2, h3, joinOpt2, joinOpt4, bind, Except.bind]
    | false =>
      have := not_truthy.1 ht
      cases u.ref <;> simp [this] <;> exact eq_comm
  simp only [k2, false_and, if_false]
  by_cases k3 : key = 3
  · subst k3
    cases ht : truthy u.ver with
    | true =>
      obtain ⟨w, h1, h2⟩ := truthy_iff.1 ht
      simp [h1, h2, joinOpt4]
    | false =>
      have := not_truthy.1 ht
      cases u.ref <;> simp [this] <;> exact eq_comm
  simp only [k3, false_and, if_false]
  by_cases k10 : key = 10
  · subst k10
    cases ht : truthy u.wk with
    | true =>
      obtain ⟨w, h1, h2⟩ := truthy_iff.1 ht
      simp [h1, h2, joinOpt4]
    | false =>
      have := not_truthy.1 ht
      cases u.ref <;> simp [this] <;> exact eq_comm
  simp only [k10, false_and, if_false]
  cases hr : u.ref with
  | none =>
    by_cases k4 : key = 4
    · subst k4; simp; exact eq_comm
    by_cases k5 : key = 5
    · subst k5; simp; exact eq_comm
    by_cases k6 : key = 6
    · subst k6; simp; exact eq_comm
    simp [k0, k1, k2, k3, k10, k100, k4, k5, k6]; exact eq_comm
  | some r =>
    by_cases k4 : key = 4
    · subst k4; simp [joinOpt5]
    by_cases k5 : key = 5
    · subst k5; simp [joinOpt5]
    by_cases k6 : key = 6
    · subst k6
      cases hst : r.stop with
      | none => simp [hst]; exact eq_comm
      | some e' => simp [hst, joinOpt5]
    simp [k0, k1, k2, k3, k10, k100, k4, k5, k6]; exact eq_comm

example : ∃ u, Urn.parse "urn:cts:a:tg".toList = .ok u ∧ u.upTo 2 = .error .keyError ∧
    u.upTo 1 = .ok "urn:cts:a:tg".toList ∧ u.upTo 7 = .error .keyError := ⟨_, rfl, rfl, rfl, rfl⟩

/-! ## C16 -/

/-- C16. The length counts the components that are present. For a parsed URN it lies between 2 and 5,
and is 2 plus the number of dotted middle components (at most three); the passage never counts. -/
theorem C16_length (p : UrnParts) (h : p.WF) (u : Urn) (hu : Urn.parse p.write = .ok u) :
    u.len = 2 + p.tg.toList.length + p.wk.toList.length + p.ver.toList.length ∧ 2 ≤ u.len ∧ u.len ≤ 5 := by
  obtain ⟨u0, hu0, hns, hcts, htg, hwk, hver, href⟩ := C12_urn_components p h
  rw [hu] at hu0; simp at hu0; subst hu0
  cases h1 : p.tg <;> cases h2 : p.wk <;> cases h3 : p.ver <;>
    simp [Urn.len, hns, hcts, htg, hwk, hver, h1, h2, h3]

/-- C16 for any accepted text, well formed or not. -/
theorem C16_length_bounds (s : Str) (u : Urn) (hu : Urn.parse s = .ok u) : 2 ≤ u.len ∧ u.len ≤ 5 := by
  obtain ⟨a, ns, cts, rest, _, hc, hns, hcts, _, _⟩ := parse_ok hu
  cases h1 : u.tg <;> cases h2 : u.wk <;> cases h3 : u.ver <;>
    simp [Urn.len, hns, hcts, h1, h2, h3]

/-- C16. `<` is a strict weak order, `>` its converse, and both compare the lengths. -/
theorem C16_order (a b c : Urn) :
    (a.lt b = true ↔ a.len < b.len) ∧ (a.gt b = true ↔ b.lt a = true) ∧ a.lt a = false ∧
    (a.lt b = true → b.lt c = true → a.lt c = true) ∧
    (a.lt c = true → a.lt b = true ∨ b.lt c = true) := by
  simp only [Urn.lt, Urn.gt, decide_eq_true_eq, decide_eq_false_iff_not]
  refine ⟨trivial, trivial, by omega, fun h1 h2 => by omega, fun h1 => by omega⟩

/-- C16. Equality of parsed URNs holds exactly when their texts (without fragment) agree, at any
later point of any histories that only read. -/
theorem C16_equality (s t : Str) (u v : Urn) (hu : Urn.parse s = .ok u) (hv : Urn.parse t = .ok v) :
    u.eq v = .ok (decide (s.takeWhile (· != '#') = t.takeWhile (· != '#'))) := by
  obtain ⟨u', h1⟩ := C10_urn_round_trip s u hu
  obtain ⟨v', h2⟩ := C10_urn_round_trip t v hv
  simp [Urn.eq, h1, h2, bind, Except.bind, pure, Except.pure]
  cases hd : decide (s.takeWhile (· != '#') = t.takeWhile (· != '#')) <;> simp_all

/-- C16. Equality is an equivalence on URNs whose text can be printed. -/
theorem C16_equivalence (a b c : Urn) (x y z : Str × Urn) (ha : a.str = .ok x) (hb : b.str = .ok y)
    (hc : c.str = .ok z) :
    a.eq a = .ok true ∧ (a.eq b = b.eq a) ∧
    (a.eq b = .ok true → b.eq c = .ok true → a.eq c = .ok true) ∧
    (a.eq b = .ok true ↔ x.1 = y.1) := by
  simp [Urn.eq, ha, hb, hc, bind, Except.bind, pure, Except.pure]
  refine ⟨?_, ?_⟩
  · by_cases h : x.1 = y.1
    · simp [h]
    · have : ¬ y.1 = x.1 := fun e => h e.symm
      rw [beq_eq_false_iff_ne.2 h, beq_eq_false_iff_ne.2 this]
  · intro h1 h2; rw [h1, h2]

example : ∃ a b, Urn.parse "urn:cts:a:b.c".toList = .ok a ∧ Urn.parse "urn:cts:a:b.c.d:1".toList = .ok b ∧
    a.lt b = true ∧ b.len = 5 := ⟨_, _, rfl, rfl, rfl, rfl⟩

/-! ## C17 -/

/-- C17. When the components of a URN object are well formed and the passage, if any, belongs to a
work, the text rebuilt after an assignment is the written form of the components, and parsing it
gives the same components back. -/
theorem C17_rebuild_parses_back (u : Urn) (p : UrnParts) (h : p.WF) (hrefwk : p.wk = none → p.ref = none)
    (hns : u.ns = some p.ns) (hcts : u.cts = some p.cts) (htg : u.tg = p.tg) (hwk : u.wk = p.wk)
    (hver : u.ver = p.ver) (href : u.ref.map Ref.str = p.ref) (hcache : u.cache = none) :
    ∃ u' v, u.str = .ok (p.write, u') ∧ Urn.parse p.write = .ok v ∧
      v.ns = u.ns ∧ v.cts = u.cts ∧ v.tg = u.tg ∧ v.wk = u.wk ∧ v.ver = u.ver ∧
      v.ref.map Ref.str = u.ref.map Ref.str := by
  obtain ⟨v, hv, v1, v2, v3, v4, v5, v6⟩ := C12_urn_components p h
  have hreb : u.rebuild = .ok p.write := by
    have hct : truthy (some p.cts) = true := truthy_some.2 h.cts.1
    cases htv : p.tg with
    | none =>
      simp [Urn.rebuild, hns, hcts, hct, htg, htv, truthy_none, UrnParts.write, after, h.wkTg htv,
        h.verWk (h.wkTg htv), h.refTg htv]
    | some t =>
      have htt : truthy (some t) = true := truthy_some.2 (h.tg t htv).1
      cases hwv : p.wk with
      | none =>
        simp [Urn.rebuild, hns, hcts, hct, htg, htv, htt, hwk, hwv, truthy_none, UrnParts.write, after,
          h.verWk hwv, hrefwk hwv]
      | some w =>
        have hwt : truthy (some w) = true := truthy_some.2 (h.wk w hwv).1
        have hvt : ∀ x, p.ver = some x → truthy (some x) = true := fun x hx => truthy_some.2 (h.ver x hx).1
        cases hvv : p.ver with
        | none =>
          cases hr : u.ref <;> simp [hr] at href <;>
            simp [Urn.rebuild, hns, hcts, hct, htg, htv, htt, hwk, hwv, hwt, hver, hvv, hr, ← href,
              UrnParts.write, after, truthy_none]
        | some x =>
          have := hvt x hvv
          cases hr : u.ref <;> simp [hr] at href <;>
            simp [Urn.rebuild, hns, hcts, hct, htg, htv, htt, hwk, hwv, hwt, hver, hvv, this, hr, ← href,
              UrnParts.write, after]
  refine ⟨{ u with cache := some p.write }, v, ?_, hv, ?_⟩
  · simp [Urn.str, hcache, hreb, bind, Except.bind, pure, Except.pure]
  · simp [v1, v2, v3, v4, v5, v6, hns, hcts, htg, hwk, hver, href]

/-- C17, why a passage needs a work: the rebuilt text of a textgroup with a passage drops the passage. -/
theorem C17_passage_without_work_lost :
    ∃ u, Urn.parse "urn:cts:a:tg:1.1".toList = .ok u ∧ u.ref.map Ref.str = some "1.1".toList ∧
      ((·.1) <$> (u.run [.setTg (some "tg".toList)]).str) = .ok "urn:cts:a:tg".toList :=
  ⟨_, rfl, rfl, rfl⟩

example : ∃ u, Urn.parse "urn:cts:a:tg.wk:1.1".toList = .ok u ∧
    (u.run [.setNs (some "cite".toList)]).cache = none ∧
    UrnParts.WF ⟨"cite".toList, "a".toList, some "tg".toList, some "wk".toList, none, some "1.1".toList⟩ :=
  ⟨_, rfl, rfl, ⟨by decide, by decide, by decide, by decide, by decide, by decide, by decide, by decide, by decide⟩⟩

end Verif.Props
