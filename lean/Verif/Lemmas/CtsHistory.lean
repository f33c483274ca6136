import Verif.Spec.CtsHistory
/-!
Lemmas for C103: a passage read over time knows only what the endpoint has said, and a reading goes as one of a new passage or
stops at the first request that fails.
-/
namespace Verif.Lemmas
open Verif.Py Verif.Model Verif.Spec

/-- What the siblings of a passage are found to be. -/
def wantSibs (serve : CtsEndpoint) (d : Option Str) (s0 : RemotePassage) : Except PyErr (Sib × Sib) :=
  if s0.prev = .unknown then
    match prevNextRequest d s0.urn (optRefText s0.urn.ref) with
    | .error e => .error e
    | .ok r => readPrevNext <$> serve r
  else .ok (s0.prev, s0.next)

/-- What the first unit is found to be. -/
def wantFirst (serve : CtsEndpoint) (d : Option Str) (s0 : RemotePassage) : Except PyErr (Option Str) :=
  match s0.urn.str with
  | .error e => .error e
  | .ok (u, _) => readFirst <$> serve (ctsFirstUrn d u none)

/-- What the children are found to be. -/
def wantKids (serve : CtsEndpoint) (d : Option Str) (deepest : Nat) (s0 : RemotePassage) : Except PyErr (List Str) :=
  match s0.urn.str with
  | .error e => .error e
  | .ok (u, _) => (remoteValidReff serve d u deepest (remoteLevel s0.urn 1) none).2

/-- The last of a list. -/
def lastOr (l : List Str) : Except PyErr Str :=
  match l.getLast? with
  | none => .error .indexError
  | some x => .ok x

/-- What a passage that was new as `s0` can have become. -/
structure Grown (serve : CtsEndpoint) (d : Option Str) (deepest : Nat) (s0 s : RemotePassage) : Prop where
  urn : s.urn = s0.urn
  both : s.prev = .unknown ↔ s.next = .unknown
  sibs : (s.prev = s0.prev ∧ s.next = s0.next) ∨ (s0.prev = .unknown ∧ wantSibs serve d s0 = .ok (s.prev, s.next))
  first : s.first = none ∨ ∃ f, s.first = some f ∧ wantFirst serve d s0 = .ok f
  kids : s.kids = none ∨ ∃ l, s.kids = some l ∧ wantKids serve d deepest s0 = .ok l
  last : s.last = none ∨ ∃ l x, s.last = some x ∧ wantKids serve d deepest s0 = .ok l ∧ lastOr l = .ok x

theorem Grown.log {serve : CtsEndpoint} {d : Option Str} {deepest : Nat} {s0 s : RemotePassage} (h : Grown serve d deepest s0 s)
    (l : List (List (Str × Str))) : Grown serve d deepest s0 { s with log := l } := ⟨h.urn, h.both, h.sibs, h.first, h.kids, h.last⟩

theorem readPrevNext_both (r : CtsReply) : (readPrevNext r).1 = .unknown ↔ (readPrevNext r).2 = .unknown := by
  unfold readPrevNext
  split
  · simp
  · rename_i p n _
    cases p <;> cases n <;> simp [Sib.ofText]

theorem grown_opened {serve : CtsEndpoint} {d : Option Str} {deepest : Nat} {urn : Str} {reply : CtsReply} {log : List (List (Str × Str))}
    {s0 : RemotePassage} (h : openPassage urn reply log = .ok s0) : Grown serve d deepest s0 s0 := by
  unfold openPassage at h
  split at h
  · cases h
  · split at h
    · cases h
      exact ⟨rfl, readPrevNext_both reply, .inl ⟨rfl, rfl⟩, .inl rfl, .inl rfl, .inl rfl⟩
    · cases h

/-- A reading with the endpoint as it is: it gives what is wanted, or the failure of its last request. -/
def Goes {α : Type} (e serve : CtsEndpoint) (I : RemotePassage → Prop) (s : RemotePassage) (out : RemotePassage × Except PyErr α)
    (want : Except PyErr α) : Prop :=
  I out.1 ∧ ∃ made, out.1.log = s.log ++ made ∧ ((out.2 = want ∧ ∀ q ∈ made, e q = serve q) ∨
    ∃ m r x, made = m ++ [r] ∧ e r = .error x ∧ serve r ≠ e r ∧ out.2 = .error x ∧ ∀ q ∈ m, e q = serve q)

theorem goes_still {α : Type} {e serve : CtsEndpoint} {I : RemotePassage → Prop} {s : RemotePassage} {x want : Except PyErr α} (h : I s) (hx : x = want) :
    Goes e serve I s (s, x) want := ⟨h, [], by simp, .inl ⟨hx, by simp⟩⟩

theorem Goes.map {α β : Type} {e serve : CtsEndpoint} {I : RemotePassage → Prop} {s : RemotePassage} {out : RemotePassage × Except PyErr α}
    {want : Except PyErr α} (h : Goes e serve I s out want) (f : α → β) : Goes e serve I s (out.1, f <$> out.2) (f <$> want) := by
  obtain ⟨h1, made, h2, h3⟩ := h
  refine ⟨h1, made, h2, ?_⟩
  rcases h3 with ⟨rfl, h4⟩ | ⟨m, r, x, h4, h5, h6, h7, h8⟩
  · exact .inl ⟨rfl, h4⟩
  · refine .inr ⟨m, r, x, h4, h5, h6, ?_, h8⟩
    show f <$> out.2 = _
    rw [h7]; rfl

theorem Goes.bind {α β : Type} {e serve : CtsEndpoint} {I : RemotePassage → Prop} {s : RemotePassage} {out : RemotePassage × Except PyErr α}
    {want : Except PyErr α} {fin : RemotePassage × Except PyErr β} {w2 : α → Except PyErr β} (h : Goes e serve I s out want)
    (herr : ∀ x, out.2 = .error x → fin = (out.1, .error x)) (hok : ∀ a, out.2 = .ok a → want = .ok a → Goes e serve I out.1 fin (w2 a)) :
    Goes e serve I s fin (want >>= w2) := by
  obtain ⟨h1, made, h2, h3⟩ := h
  rcases h3 with ⟨h3, h4⟩ | ⟨m, r, x, h4, h5, h6, h7, h8⟩
  · cases ho : out.2 with
    | error x =>
      rw [herr x ho]
      refine ⟨h1, made, h2, .inl ⟨?_, h4⟩⟩
      rw [← h3, ho]; rfl
    | ok a =>
      have hw : want = .ok a := by rw [← h3, ho]
      obtain ⟨g1, made', g2, g3⟩ := hok a ho hw
      refine ⟨g1, made ++ made', by rw [g2, h2, List.append_assoc], ?_⟩
      rw [hw]
      rcases g3 with ⟨g3, g4⟩ | ⟨m, r, x, g4, g5, g6, g7, g8⟩
      · refine .inl ⟨g3, fun q hq => ?_⟩
        rcases List.mem_append.1 hq with hq | hq
        · exact h4 q hq
        · exact g4 q hq
      · refine .inr ⟨made ++ m, r, x, by rw [g4, List.append_assoc], g5, g6, g7, fun q hq => ?_⟩
        rcases List.mem_append.1 hq with hq | hq
        · exact h4 q hq
        · exact g8 q hq
  · rw [herr x h7]
    exact ⟨h1, made, h2, .inr ⟨m, r, x, h4, h5, h6, rfl, h8⟩⟩

variable {e serve : CtsEndpoint} {d : Option Str} {deepest : Nat} {s0 s : RemotePassage}

theorem goes_fetch (he : AtTimes e serve) (h : Grown serve d deepest s0 s) (hu : s.prev = .unknown) :
    Goes e serve (Grown serve d deepest s0) s ((s.fetch e d).1, (fun _ => ((s.fetch e d).1.prev, (s.fetch e d).1.next)) <$> (s.fetch e d).2) (wantSibs serve d s0) := by
  have h0 : s0.prev = .unknown := by
    rcases h.sibs with ⟨h1, _⟩ | ⟨h1, _⟩
    · rw [← h1]; exact hu
    · exact h1
  unfold RemotePassage.fetch
  cases hr : prevNextRequest d s.urn (optRefText s.urn.ref) with
  | error x => exact goes_still h (by simp only [wantSibs, h0, if_true, ← h.urn, hr]; rfl)
  | ok r =>
    dsimp only
    cases ha : e r with
    | error x =>
      refine ⟨h.log _, [r], rfl, ?_⟩
      by_cases hs : serve r = e r
      · refine .inl ⟨?_, fun q hq => ?_⟩
        · simp only [wantSibs, h0, if_true, ← h.urn, hr, hs, ha]; rfl
        · rw [List.mem_singleton.1 hq, hs]
      · exact .inr ⟨[], r, x, rfl, ha, hs, rfl, by simp⟩
    | ok reply =>
      have hs : serve r = .ok reply := by
        rcases he r with h1 | ⟨x, h1⟩
        · rw [← h1, ha]
        · rw [ha] at h1; cases h1
      have hw : wantSibs serve d s0 = .ok ((readPrevNext reply).1, (readPrevNext reply).2) := by
        simp only [wantSibs, h0, if_true, ← h.urn, hr, hs]; rfl
      refine ⟨⟨h.urn, readPrevNext_both reply, .inr ⟨h0, hw⟩, h.first, h.kids, h.last⟩, [r], rfl, .inl ⟨?_, fun q hq => ?_⟩⟩
      · rw [hw]; rfl
      · rw [List.mem_singleton.1 hq, hs, ha]

theorem grown_known (h : Grown serve d deepest s0 s) (hu : s.prev ≠ .unknown) : wantSibs serve d s0 = .ok (s.prev, s.next) := by
  rcases h.sibs with ⟨h1, h2⟩ | ⟨_, h2⟩
  · rw [h1] at hu
    simp only [wantSibs, if_neg hu, h1, h2]
  · exact h2

private theorem pair_fst {out : RemotePassage × Except PyErr Unit} :
    (fun x : Sib × Sib => x.1) <$> (fun _ => (out.1.prev, out.1.next)) <$> out.2 =
      (match out with | (_, .error e) => .error e | (s, .ok ()) => .ok s.prev) := by
  obtain ⟨a, b⟩ := out; cases b <;> rfl

theorem goes_prevId (he : AtTimes e serve) (h : Grown serve d deepest s0 s) :
    Goes e serve (Grown serve d deepest s0) s (s.prevId e d) ((·.1) <$> wantSibs serve d s0) := by
  unfold RemotePassage.prevId
  split
  · rename_i hu
    have h1 := (goes_fetch he h hu).map (fun x : Sib × Sib => x.1)
    generalize s.fetch e d = out at h1
    obtain ⟨a, b⟩ := out
    cases b <;> exact h1
  · rename_i hu
    exact goes_still h (by rw [grown_known h hu]; rfl)

theorem goes_nextId (he : AtTimes e serve) (h : Grown serve d deepest s0 s) :
    Goes e serve (Grown serve d deepest s0) s (s.nextId e d) ((·.2) <$> wantSibs serve d s0) := by
  unfold RemotePassage.nextId
  split
  · rename_i hu
    have h1 := (goes_fetch he h (h.both.2 hu)).map (fun x : Sib × Sib => x.2)
    generalize s.fetch e d = out at h1
    obtain ⟨a, b⟩ := out
    cases b <;> exact h1
  · rename_i hu
    exact goes_still h (by rw [grown_known h (fun hp => hu (h.both.1 hp))]; rfl)

theorem goes_siblingsId (he : AtTimes e serve) (h : Grown serve d deepest s0 s) :
    Goes e serve (Grown serve d deepest s0) s (s.siblingsId e d) (wantSibs serve d s0) := by
  unfold RemotePassage.siblingsId
  split
  · rename_i hu
    have h1 := goes_fetch he h (hu.elim h.both.2 id)
    generalize s.fetch e d = out at h1
    obtain ⟨a, b⟩ := out
    cases b <;> exact h1
  · rename_i hu
    exact goes_still h (by rw [grown_known h (fun hp => hu (.inr hp))])

theorem goes_firstId (he : AtTimes e serve) (h : Grown serve d deepest s0 s) :
    Goes e serve (Grown serve d deepest s0) s (s.firstId e d) (wantFirst serve d s0) := by
  unfold RemotePassage.firstId
  cases hf : s.first with
  | some f =>
    rcases h.first with h1 | ⟨f', h1, h2⟩
    · rw [hf] at h1; cases h1
    · rw [hf] at h1; cases h1; exact goes_still h h2.symm
  | none =>
    dsimp only
    cases hu : s.urn.str with
    | error x => exact goes_still h (by simp only [wantFirst, ← h.urn, hu])
    | ok v =>
      dsimp only
      cases ha : e (ctsFirstUrn d v.1 none) with
      | error x =>
        refine ⟨⟨h.urn, h.both, h.sibs, .inl rfl, h.kids, h.last⟩, [ctsFirstUrn d v.1 none], rfl, ?_⟩
        by_cases hs : serve (ctsFirstUrn d v.1 none) = e (ctsFirstUrn d v.1 none)
        · refine .inl ⟨?_, fun q hq => ?_⟩
          · simp only [wantFirst, ← h.urn, hu, hs, ha]; rfl
          · rw [List.mem_singleton.1 hq, hs]
        · exact .inr ⟨[], _, x, rfl, ha, hs, rfl, by simp⟩
      | ok reply =>
        have hs : serve (ctsFirstUrn d v.1 none) = .ok reply := by
          rcases he (ctsFirstUrn d v.1 none) with h1 | ⟨x, h1⟩
          · rw [← h1, ha]
          · rw [ha] at h1; cases h1
        have hw : wantFirst serve d s0 = .ok (readFirst reply) := by simp only [wantFirst, ← h.urn, hu, hs]; rfl
        refine ⟨⟨h.urn, h.both, h.sibs, .inr ⟨_, rfl, hw⟩, h.kids, h.last⟩, [ctsFirstUrn d v.1 none], rfl, .inl ⟨hw.symm, fun q hq => ?_⟩⟩
        rw [List.mem_singleton.1 hq, hs, ha]

theorem goes_childIds (he : AtTimes e serve) (h : Grown serve d deepest s0 s) :
    Goes e serve (Grown serve d deepest s0) s (s.childIds e d deepest) (wantKids serve d deepest s0) := by
  unfold RemotePassage.childIds
  cases hf : s.kids with
  | some f =>
    rcases h.kids with h1 | ⟨f', h1, h2⟩
    · rw [hf] at h1; cases h1
    · rw [hf] at h1; cases h1; exact goes_still h h2.symm
  | none =>
    dsimp only
    cases hu : s.urn.str with
    | error x => exact goes_still h (by simp only [wantKids, ← h.urn, hu])
    | ok v =>
      dsimp only
      have hreq : ∀ f : CtsEndpoint, (remoteValidReff f d v.1 deepest (remoteLevel s.urn 1) none).1 =
          ctsValidReff d (withPassage v.1 none) none (some (reffLevel deepest (remoteLevel s.urn 1))) := by
        intro f; simp only [remoteValidReff]; split
        · rfl
        · split <;> rfl
      rw [hreq e]
      generalize hr : ctsValidReff d (withPassage v.1 none) none (some (reffLevel deepest (remoteLevel s.urn 1))) = r
      have hval : ∀ f : CtsEndpoint, (remoteValidReff f d v.1 deepest (remoteLevel s.urn 1) none).2 =
          f r >>= fun reply => if reply.hasRequest then .ok (reply.urns.map lastPart) else .error .indexError := by
        intro f; simp only [remoteValidReff, hr]; cases f r with
        | error x => rfl
        | ok b => 
            show (if b.hasRequest = true then _ else _ : List (Str × Str) × Except PyErr (List Str)).2 = if b.hasRequest = true then _ else _
            split <;> rfl
      have hw : wantKids serve d deepest s0 = (remoteValidReff serve d v.1 deepest (remoteLevel s.urn 1) none).2 := by
        simp only [wantKids, ← h.urn, hu]
      by_cases hs : serve r = e r
      · have h1 : (remoteValidReff e d v.1 deepest (remoteLevel s.urn 1) none).2 = wantKids serve d deepest s0 := by
          rw [hw, hval, hval, hs]
        rw [h1]
        cases hk : wantKids serve d deepest s0 with
        | error x => exact ⟨⟨h.urn, h.both, h.sibs, h.first, .inl rfl, h.last⟩, [r], rfl, .inl ⟨rfl, fun q hq => by rw [List.mem_singleton.1 hq, hs]⟩⟩
        | ok l =>
          exact ⟨⟨h.urn, h.both, h.sibs, h.first, .inr ⟨l, rfl, hk⟩, h.last⟩, [r], rfl, .inl ⟨rfl, fun q hq => by rw [List.mem_singleton.1 hq, hs]⟩⟩
      · rcases he r with h1 | ⟨x, h1⟩
        · exact absurd h1.symm hs
        · rw [hval, h1]
          exact ⟨⟨h.urn, h.both, h.sibs, h.first, .inl rfl, h.last⟩, [r], rfl, .inr ⟨[], r, x, rfl, h1, hs, rfl, by simp⟩⟩

theorem goes_lastId (he : AtTimes e serve) (h : Grown serve d deepest s0 s) :
    Goes e serve (Grown serve d deepest s0) s (s.lastId e d deepest) (wantKids serve d deepest s0 >>= lastOr) := by
  unfold RemotePassage.lastId
  cases hf : s.last with
  | some f =>
    rcases h.last with h1 | ⟨l, x, h1, h2, h3⟩
    · rw [hf] at h1; cases h1
    · rw [hf] at h1; cases h1
      refine goes_still h ?_
      rw [h2]; exact h3.symm
  | none =>
    dsimp only
    have hk := goes_childIds he h
    refine hk.bind (fun x hx => ?_) (fun l hl hw => ?_)
    · generalize s.childIds e d deepest = out at hx
      obtain ⟨a, b⟩ := out
      cases hx; rfl
    · have hg := hk.1
      generalize s.childIds e d deepest = out at hl hg
      obtain ⟨a, b⟩ := out
      cases hl
      dsimp only at hg ⊢
      unfold lastOr
      cases hx : l.getLast? with
      | none => exact goes_still hg rfl
      | some x =>
        refine ⟨⟨hg.urn, hg.both, hg.sibs, hg.first, hg.kids, .inr ⟨l, x, rfl, hw, ?_⟩⟩, [], by simp, .inl ⟨rfl, by simp⟩⟩
        simp only [lastOr, hx]

/-- What a passage asked for is found to be. -/
def wantNode (serve : CtsEndpoint) (d : Option Str) (s0 : RemotePassage) (sub : Option Str) : Except PyErr RemotePassage :=
  unlogged <$> (remoteNode serve d s0.urn sub []).2

private theorem bare_open (urn : Str) (reply : CtsReply) (l l' : List (List (Str × Str))) :
    unlogged <$> openPassage urn reply l = unlogged <$> openPassage urn reply l' := by
  unfold openPassage
  split
  · rfl
  · split <;> rfl

theorem goes_node (he : AtTimes e serve) (h : Grown serve d deepest s0 s) (sub : Option Str) :
    Goes e serve (Grown serve d deepest s0) s ({ s with log := (remoteNode e d s.urn sub s.log).1 }, unlogged <$> (remoteNode e d s.urn sub s.log).2)
      (wantNode serve d s0 sub) := by
  unfold wantNode remoteNode
  rw [← h.urn]
  cases hn : nodeUrn s.urn sub with
  | error x => exact goes_still (h.log _) rfl
  | ok urn =>
    dsimp only
    by_cases hs : serve (ctsPassage d urn none none) = e (ctsPassage d urn none none)
    · rw [hs]
      refine ⟨?_, [ctsPassage d urn none none], ?_, .inl ⟨?_, fun q hq => by rw [List.mem_singleton.1 hq, hs]⟩⟩
      · exact h.log _
      · cases e (ctsPassage d urn none none) with
        | error x => rfl
        | ok b => dsimp only; split <;> rfl
      · cases e (ctsPassage d urn none none) with
        | error x => rfl
        | ok b =>
          dsimp only
          split
          · exact bare_open _ _ _ _
          · rfl
    · rcases he (ctsPassage d urn none none) with h1 | ⟨x, h1⟩
      · exact absurd h1.symm hs
      · rw [h1]
        refine ⟨h.log _, [ctsPassage d urn none none], rfl, .inr ⟨[], _, x, rfl, h1, hs, rfl, by simp⟩⟩

theorem goes_sibling (he : AtTimes e serve) {which : RemotePassage → RemotePassage × Except PyErr Sib} {w : Except PyErr Sib}
    (hwhich : ∀ s, Grown serve d deepest s0 s → Goes e serve (Grown serve d deepest s0) s (which s) w) (h : Grown serve d deepest s0 s) :
    Goes e serve (Grown serve d deepest s0) s ((goSibling which e d s).1, Option.map unlogged <$> (goSibling which e d s).2)
      (w >>= fun v => if v = .absent then .ok none else some <$> wantNode serve d s0 v.arg) := by
  have h1 := hwhich s h
  refine h1.bind (fun x hx => ?_) (fun v hv hw => ?_)
  · unfold goSibling
    generalize which s = out at hx
    obtain ⟨a, b⟩ := out
    cases hx; rfl
  · have hg := h1.1
    unfold goSibling
    generalize which s = out at hv hg
    obtain ⟨a, b⟩ := out
    cases hv
    dsimp only at hg ⊢
    by_cases hva : v = .absent
    · subst hva
      exact goes_still hg rfl
    · have h2 := hwhich a hg
      have hw2 : (if v = .absent then (.ok none : Except PyErr (Option RemotePassage)) else some <$> wantNode serve d s0 v.arg) =
          w >>= fun v => some <$> wantNode serve d s0 v.arg := by rw [hw, if_neg hva]; rfl
      rw [hw2]
      have key : ∀ fin : RemotePassage × Except PyErr (Option RemotePassage), (fin = match which a with
          | (s, .error e) => (s, .error e)
          | (s, .ok v) => ({ s with log := (remoteNode e d s.urn v.arg s.log).1 }, some <$> (remoteNode e d s.urn v.arg s.log).2)) →
          Goes e serve (Grown serve d deepest s0) a (fin.1, Option.map unlogged <$> fin.2) (w >>= fun v => some <$> wantNode serve d s0 v.arg) := by
        intro fin hfin
        refine h2.bind (fun x hx => ?_) (fun v' hv' _ => ?_)
        · rw [hfin]
          generalize which a = out at hx
          obtain ⟨a', b⟩ := out
          cases hx; rfl
        · have hg' := h2.1
          rw [hfin]
          generalize which a = out at hv' hg'
          obtain ⟨a', b⟩ := out
          cases hv'
          have h3 := (goes_node he hg' v'.arg).map (some : RemotePassage → Option RemotePassage)
          dsimp only at h3 ⊢
          cases hr : (remoteNode e d a'.urn v'.arg a'.log).2 with
          | error x => rw [hr] at h3; exact h3
          | ok p => rw [hr] at h3; exact h3
      refine key _ ?_
      cases v with
      | absent => exact absurd rfl hva
      | unknown => rfl
      | known v => rfl

theorem goes_parent (he : AtTimes e serve) (h : Grown serve d deepest s0 s) :
    Goes e serve (Grown serve d deepest s0) s ({ s with log := (s.goParent e d).1 }, unlogged <$> (s.goParent e d).2)
      (s0.parentId >>= fun p => wantNode serve d s0 (some p)) := by
  have hp : s.parentId = s0.parentId := by unfold RemotePassage.parentId; rw [h.urn]
  unfold RemotePassage.goParent
  rw [hp]
  cases hq : s0.parentId with
  | error x => exact goes_still (h.log _) rfl
  | ok p => exact goes_node he h (some p)

theorem goes_first (he : AtTimes e serve) (h : Grown serve d deepest s0 s) :
    Goes e serve (Grown serve d deepest s0) s ((s.goFirst e d).1, Option.map unlogged <$> (s.goFirst e d).2)
      (wantFirst serve d s0 >>= fun f => if f = none then .ok none else some <$> wantNode serve d s0 f) := by
  have h1 := goes_firstId he h
  refine h1.bind (fun x hx => ?_) (fun v hv hw => ?_)
  · unfold RemotePassage.goFirst
    generalize s.firstId e d = out at hx
    obtain ⟨a, b⟩ := out
    cases hx; rfl
  · have hg := h1.1
    unfold RemotePassage.goFirst
    generalize s.firstId e d = out at hv hg
    obtain ⟨a, b⟩ := out
    cases hv
    dsimp only at hg ⊢
    cases v with
    | none => exact goes_still hg rfl
    | some v =>
      have h2 := goes_firstId he hg
      have hw2 : (if some v = none then (.ok none : Except PyErr (Option RemotePassage)) else some <$> wantNode serve d s0 (some v)) =
          wantFirst serve d s0 >>= fun f => some <$> wantNode serve d s0 f := by rw [hw]; rfl
      rw [hw2]
      refine h2.bind (fun x hx => ?_) (fun v' hv' _ => ?_)
      · dsimp only
        generalize a.firstId e d = out at hx
        obtain ⟨a', b⟩ := out
        cases hx; rfl
      · have hg' := h2.1
        dsimp only
        generalize a.firstId e d = out at hv' hg'
        obtain ⟨a', b⟩ := out
        cases hv'
        have h3 := (goes_node he hg' v').map (some : RemotePassage → Option RemotePassage)
        dsimp only at h3 ⊢
        cases hr : (remoteNode e d a'.urn v' a'.log).2 with
        | error x => rw [hr] at h3; exact h3
        | ok p => rw [hr] at h3; exact h3

theorem goes_last (he : AtTimes e serve) (h : Grown serve d deepest s0 s) :
    Goes e serve (Grown serve d deepest s0) s ((s.goLast e d deepest).1, unlogged <$> (s.goLast e d deepest).2)
      (wantKids serve d deepest s0 >>= lastOr >>= fun x => wantNode serve d s0 (some x)) := by
  have h1 := goes_lastId he h
  refine h1.bind (fun x hx => ?_) (fun v hv hw => ?_)
  · unfold RemotePassage.goLast
    generalize s.lastId e d deepest = out at hx
    obtain ⟨a, b⟩ := out
    cases hx; rfl
  · have hg := h1.1
    unfold RemotePassage.goLast
    generalize s.lastId e d deepest = out at hv hg
    obtain ⟨a, b⟩ := out
    cases hv
    dsimp only at hg ⊢
    have h2 := goes_lastId he hg
    have hw2 : wantNode serve d s0 (some v) = (wantKids serve d deepest s0 >>= lastOr) >>= fun x => wantNode serve d s0 (some x) := by rw [hw]; rfl
    rw [hw2]
    refine h2.bind (fun x hx => ?_) (fun v' hv' _ => ?_)
    · generalize a.lastId e d deepest = out at hx
      obtain ⟨a', b⟩ := out
      cases hx; rfl
    · have hg' := h2.1
      generalize a.lastId e d deepest = out at hv' hg'
      obtain ⟨a', b⟩ := out
      cases hv'
      exact goes_node he hg' (some v')

/-- What the passages with these identifiers are found to be. -/
def wantNodes (serve : CtsEndpoint) (d : Option Str) (s0 : RemotePassage) : List Str → Except PyErr (List RemotePassage)
  | [] => .ok []
  | x :: r => wantNode serve d s0 (some x) >>= fun p => (p :: ·) <$> wantNodes serve d s0 r

theorem goes_nodes (he : AtTimes e serve) : ∀ (l : List Str) (s : RemotePassage), Grown serve d deepest s0 s →
    Goes e serve (Grown serve d deepest s0) s ((s.nodesAt e d l).1, List.map unlogged <$> (s.nodesAt e d l).2) (wantNodes serve d s0 l)
  | [], s, h => goes_still h rfl
  | x :: r, s, h => by
    have h1 := goes_node he h (some x)
    have e1 : unlogged <$> (remoteNode e d s.urn (some x) s.log).2 = unlogged <$> (s.nodeAt e d x).2 := rfl
    refine h1.bind (fun y hy => ?_) (fun p hp _ => ?_)
    · unfold RemotePassage.nodesAt RemotePassage.nodeAt
      dsimp only at hy ⊢
      cases hr : (remoteNode e d s.urn (some x) s.log).2 with
      | error z => rw [hr] at hy; cases hy; rfl
      | ok z => rw [hr] at hy; cases hy
    · have hg := h1.1
      unfold RemotePassage.nodesAt RemotePassage.nodeAt
      dsimp only at hp hg ⊢
      cases hr : (remoteNode e d s.urn (some x) s.log).2 with
      | error z => rw [hr] at hp; cases hp
      | ok z =>
        rw [hr] at hp
        cases hp
        have h2 := (goes_nodes he r _ hg).map (unlogged z :: ·)
        dsimp only at h2 ⊢
        generalize RemotePassage.nodesAt e d r { s with log := (remoteNode e d s.urn (some x) s.log).1 } = out at h2
        obtain ⟨a, b⟩ := out
        cases b <;> exact h2

theorem goes_children (he : AtTimes e serve) (h : Grown serve d deepest s0 s) :
    Goes e serve (Grown serve d deepest s0) s ((s.goChildren e d deepest).1, List.map unlogged <$> (s.goChildren e d deepest).2)
      (wantKids serve d deepest s0 >>= wantNodes serve d s0) := by
  have h1 := goes_childIds he h
  refine h1.bind (fun x hx => ?_) (fun v hv hw => ?_)
  · unfold RemotePassage.goChildren
    generalize s.childIds e d deepest = out at hx
    obtain ⟨a, b⟩ := out
    cases hx; rfl
  · have hg := h1.1
    unfold RemotePassage.goChildren
    generalize s.childIds e d deepest = out at hv hg
    obtain ⟨a, b⟩ := out
    cases hv
    exact goes_nodes he v a hg

/-- What a reading is found to give. -/
def wantOp (serve : CtsEndpoint) (d : Option Str) (deepest : Nat) (s0 : RemotePassage) : PassageOp → Except PyErr PassageAnswer
  | .prevId => .sib <$> ((·.1) <$> wantSibs serve d s0)
  | .nextId => .sib <$> ((·.2) <$> wantSibs serve d s0)
  | .siblingsId => (fun x => .sibs x.1 x.2) <$> wantSibs serve d s0
  | .firstId => .id <$> wantFirst serve d s0
  | .lastId => (fun x => .id (some x)) <$> (wantKids serve d deepest s0 >>= lastOr)
  | .childIds => .ids <$> wantKids serve d deepest s0
  | .prev => .passage <$> (((·.1) <$> wantSibs serve d s0) >>= fun v => if v = .absent then .ok none else some <$> wantNode serve d s0 v.arg)
  | .next => .passage <$> (((·.2) <$> wantSibs serve d s0) >>= fun v => if v = .absent then .ok none else some <$> wantNode serve d s0 v.arg)
  | .parent => (fun p => .passage (some p)) <$> (s0.parentId >>= fun p => wantNode serve d s0 (some p))
  | .first => .passage <$> (wantFirst serve d s0 >>= fun f => if f = none then .ok none else some <$> wantNode serve d s0 f)
  | .last => (fun p => .passage (some p)) <$> (wantKids serve d deepest s0 >>= lastOr >>= fun x => wantNode serve d s0 (some x))
  | .children => .passages <$> (wantKids serve d deepest s0 >>= wantNodes serve d s0)

private theorem map_comp {α β γ : Type} (f : α → β) (g : β → γ) (x : Except PyErr α) : g <$> f <$> x = (fun a => g (f a)) <$> x := by
  cases x <;> rfl

theorem goes_op (he : AtTimes e serve) (h : Grown serve d deepest s0 s) (op : PassageOp) :
    Goes e serve (Grown serve d deepest s0) s (askPassage e d deepest s op) (wantOp serve d deepest s0 op) := by
  cases op with
  | prevId => exact (goes_prevId he h).map _
  | nextId => exact (goes_nextId he h).map _
  | siblingsId => exact (goes_siblingsId he h).map _
  | firstId => exact (goes_firstId he h).map _
  | lastId => exact (goes_lastId he h).map _
  | childIds => exact (goes_childIds he h).map _
  | prev =>
    have h1 := (goes_sibling he (fun s hs => goes_prevId he hs) h).map PassageAnswer.passage
    rw [map_comp] at h1; exact h1
  | next =>
    have h1 := (goes_sibling he (fun s hs => goes_nextId he hs) h).map PassageAnswer.passage
    rw [map_comp] at h1; exact h1
  | parent =>
    have h1 := (goes_parent he h).map fun p => PassageAnswer.passage (some p)
    rw [map_comp] at h1; exact h1
  | first =>
    have h1 := (goes_first he h).map PassageAnswer.passage
    rw [map_comp] at h1; exact h1
  | last =>
    have h1 := (goes_last he h).map fun p => PassageAnswer.passage (some p)
    rw [map_comp] at h1; exact h1
  | children =>
    have h1 := (goes_children he h).map PassageAnswer.passages
    rw [map_comp] at h1; exact h1

/-- With the endpoint itself a reading gives what is wanted. -/
theorem op_wanted (h : Grown serve d deepest s0 s) (op : PassageOp) : (askPassage serve d deepest s op).2 = wantOp serve d deepest s0 op := by
  obtain ⟨_, made, _, ⟨h1, _⟩ | ⟨m, r, x, _, _, h2, _⟩⟩ := goes_op (e := serve) (fun _ => .inl rfl) h op
  · exact h1
  · exact absurd rfl h2

/-! ### What a passage has learnt it keeps, whatever the endpoint says -/

/-- A passage and what it has become. -/
structure Keeps (s s' : RemotePassage) : Prop where
  both : (s.prev = .unknown ↔ s.next = .unknown) → (s'.prev = .unknown ↔ s'.next = .unknown)
  sibs : s.prev ≠ .unknown → s.next ≠ .unknown → s'.prev = s.prev ∧ s'.next = s.next
  first : ∀ f, s.first = some f → s'.first = some f
  kids : ∀ l, s.kids = some l → s'.kids = some l
  last : ∀ x, s.last = some x → s'.last = some x

theorem Keeps.refl (s : RemotePassage) : Keeps s s := ⟨id, fun _ _ => ⟨rfl, rfl⟩, fun _ h => h, fun _ h => h, fun _ h => h⟩

theorem Keeps.trans {a b c : RemotePassage} (h : Keeps a b) (g : Keeps b c) : Keeps a c := by
  refine ⟨fun x => g.both (h.both x), fun x y => ?_, fun f x => g.first f (h.first f x), fun f x => g.kids f (h.kids f x),
    fun f x => g.last f (h.last f x)⟩
  obtain ⟨h1, h2⟩ := h.sibs x y
  obtain ⟨g1, g2⟩ := g.sibs (by rw [h1]; exact x) (by rw [h2]; exact y)
  exact ⟨g1.trans h1, g2.trans h2⟩

theorem keeps_log (s : RemotePassage) (l : List (List (Str × Str))) : Keeps s { s with log := l } :=
  ⟨id, fun _ _ => ⟨rfl, rfl⟩, fun _ h => h, fun _ h => h, fun _ h => h⟩

theorem keeps_fetch (hu : s.prev = .unknown ∨ s.next = .unknown) : Keeps s (s.fetch e d).1 := by
  have hno : s.prev ≠ .unknown → s.next ≠ .unknown → False := fun h1 h2 => hu.elim h1 h2
  unfold RemotePassage.fetch
  split
  · exact .refl s
  · dsimp only
    split
    · exact keeps_log s _
    · exact ⟨fun _ => readPrevNext_both _, fun h1 h2 => (hno h1 h2).elim, fun _ h => h, fun _ h => h, fun _ h => h⟩

theorem keeps_prevId : Keeps s (s.prevId e d).1 := by
  unfold RemotePassage.prevId
  split
  · rename_i hu
    have := keeps_fetch (e := e) (d := d) (s := s) (.inl hu)
    generalize s.fetch e d = out at this
    obtain ⟨a, b⟩ := out
    cases b <;> exact this
  · exact .refl s

theorem keeps_nextId : Keeps s (s.nextId e d).1 := by
  unfold RemotePassage.nextId
  split
  · rename_i hu
    have := keeps_fetch (e := e) (d := d) (s := s) (.inr hu)
    generalize s.fetch e d = out at this
    obtain ⟨a, b⟩ := out
    cases b <;> exact this
  · exact .refl s

theorem keeps_siblingsId : Keeps s (s.siblingsId e d).1 := by
  unfold RemotePassage.siblingsId
  split
  · rename_i hu
    have := keeps_fetch (e := e) (d := d) (s := s) hu.symm
    generalize s.fetch e d = out at this
    obtain ⟨a, b⟩ := out
    cases b <;> exact this
  · exact .refl s

theorem keeps_firstId : Keeps s (s.firstId e d).1 := by
  unfold RemotePassage.firstId
  cases hf : s.first with
  | some f => exact .refl s
  | none =>
    dsimp only
    split
    · exact .refl s
    · split
      · exact ⟨id, fun _ _ => ⟨rfl, rfl⟩, fun _ h => (nomatch hf.symm.trans h), fun _ h => h, fun _ h => h⟩
      · exact ⟨id, fun _ _ => ⟨rfl, rfl⟩, fun _ h => (nomatch hf.symm.trans h), fun _ h => h, fun _ h => h⟩

theorem keeps_childIds : Keeps s (s.childIds e d deepest).1 := by
  unfold RemotePassage.childIds
  cases hf : s.kids with
  | some f => exact .refl s
  | none =>
    dsimp only
    split
    · exact .refl s
    · split
      · exact ⟨id, fun _ _ => ⟨rfl, rfl⟩, fun _ h => h, fun _ h => (nomatch hf.symm.trans h), fun _ h => h⟩
      · exact ⟨id, fun _ _ => ⟨rfl, rfl⟩, fun _ h => h, fun _ h => (nomatch hf.symm.trans h), fun _ h => h⟩

theorem keeps_lastId : Keeps s (s.lastId e d deepest).1 := by
  unfold RemotePassage.lastId
  cases hf : s.last with
  | some f => exact .refl s
  | none =>
    have h1 := keeps_childIds (e := e) (d := d) (deepest := deepest) (s := s)
    generalize s.childIds e d deepest = out at h1
    obtain ⟨a, b⟩ := out
    cases b with
    | error x => exact h1
    | ok l =>
      dsimp only at h1 ⊢
      cases hl : l.getLast? with
      | none => exact h1
      | some x => exact ⟨h1.both, h1.sibs, h1.first, h1.kids, fun _ h => by rw [hf] at h; cases h⟩

theorem keeps_sibling {which : RemotePassage → RemotePassage × Except PyErr Sib} (hw : ∀ s, Keeps s (which s).1) :
    Keeps s (goSibling which e d s).1 := by
  unfold goSibling
  have h1 := hw s
  generalize which s = out at h1
  obtain ⟨a, b⟩ := out
  have h2 := hw a
  have h3 : Keeps s (match which a with
    | (s, .error x) => ((s, .error x) : RemotePassage × Except PyErr (Option RemotePassage))
    | (s, .ok v) => ({ s with log := (remoteNode e d s.urn v.arg s.log).1 }, some <$> (remoteNode e d s.urn v.arg s.log).2)).1 := by
    generalize which a = out at h2
    obtain ⟨a', b⟩ := out
    cases b with
    | error x => exact h1.trans h2
    | ok v => exact (h1.trans h2).trans (keeps_log _ _)
  cases b with
  | error x => exact h1
  | ok v =>
    cases v with
    | absent => exact h1
    | unknown => exact h3
    | known v => exact h3

theorem keeps_nodes : ∀ (l : List Str) (s : RemotePassage), Keeps s (s.nodesAt e d l).1
  | [], s => .refl s
  | x :: r, s => by
    unfold RemotePassage.nodesAt RemotePassage.nodeAt
    dsimp only
    have h1 := keeps_log s (remoteNode e d s.urn (some x) s.log).1
    split
    · rename_i heq
      rw [← (Prod.mk.inj heq).1]; exact h1
    · rename_i a p heq
      have h2 := keeps_nodes r a
      rw [(Prod.mk.inj heq).1] at h1
      generalize RemotePassage.nodesAt e d r a = out at h2
      obtain ⟨a', b⟩ := out
      cases b <;> exact h1.trans h2

theorem keeps_op (op : PassageOp) : Keeps s (askPassage e d deepest s op).1 := by
  cases op with
  | prevId => exact keeps_prevId
  | nextId => exact keeps_nextId
  | siblingsId => exact keeps_siblingsId
  | firstId => exact keeps_firstId
  | lastId => exact keeps_lastId
  | childIds => exact keeps_childIds
  | prev => exact keeps_sibling fun _ => keeps_prevId
  | next => exact keeps_sibling fun _ => keeps_nextId
  | parent => exact keeps_log _ _
  | first =>
    show Keeps s (s.goFirst e d).1
    unfold RemotePassage.goFirst
    have h1 := keeps_firstId (e := e) (d := d) (s := s)
    generalize s.firstId e d = out at h1
    obtain ⟨a, b⟩ := out
    cases b with
    | error x => exact h1
    | ok v =>
      cases v with
      | none => exact h1
      | some v =>
        have h2 := keeps_firstId (e := e) (d := d) (s := a)
        dsimp only
        generalize a.firstId e d = out at h2
        obtain ⟨a', b⟩ := out
        cases b with
        | error x => exact h1.trans h2
        | ok v => exact (h1.trans h2).trans (keeps_log _ _)
  | last =>
    show Keeps s (s.goLast e d deepest).1
    unfold RemotePassage.goLast
    have h1 := keeps_lastId (e := e) (d := d) (deepest := deepest) (s := s)
    generalize s.lastId e d deepest = out at h1
    obtain ⟨a, b⟩ := out
    cases b with
    | error x => exact h1
    | ok v =>
      have h2 := keeps_lastId (e := e) (d := d) (deepest := deepest) (s := a)
      dsimp only
      generalize a.lastId e d deepest = out at h2
      obtain ⟨a', b⟩ := out
      cases b with
      | error x => exact h1.trans h2
      | ok v => exact (h1.trans h2).trans (keeps_log _ _)
  | children =>
    show Keeps s (s.goChildren e d deepest).1
    unfold RemotePassage.goChildren
    have h1 := keeps_childIds (e := e) (d := d) (deepest := deepest) (s := s)
    generalize s.childIds e d deepest = out at h1
    obtain ⟨a, b⟩ := out
    cases b with
    | error x => exact h1
    | ok v => exact h1.trans (keeps_nodes v a)

theorem keeps_session : ∀ (history : List (CtsEndpoint × PassageOp)) (s : RemotePassage), Keeps s (session d deepest s history).1
  | [], s => .refl s
  | (e, op) :: rest, s => (keeps_op (e := e) op).trans (keeps_session rest _)

theorem fetch_both (hu : s.prev = .unknown ↔ s.next = .unknown) : (s.fetch e d).1.prev = .unknown ↔ (s.fetch e d).1.next = .unknown := by
  unfold RemotePassage.fetch
  split
  · exact hu
  · dsimp only
    split
    · exact hu
    · exact readPrevNext_both _

/-- An identifier that was given is given again. -/
theorem kept_answer {op : PassageOp} {s1 : RemotePassage} {a : PassageAnswer} (hb : s.prev = .unknown ↔ s.next = .unknown)
    (h : askPassage e d deepest s op = (s1, .ok a)) (hop : op.isId = true) (hsil : a.silent = false) {s2 : RemotePassage} (hk : Keeps s1 s2)
    (e' : CtsEndpoint) : askPassage e' d deepest s2 op = (s2, .ok a) := by
  cases op with
  | prevId =>
    have hb1 : s1.prev = .unknown ↔ s1.next = .unknown := by
      have := (keeps_op (s := s) (e := e) (d := d) (deepest := deepest) .prevId).both hb
      rw [h] at this; exact this
    have ha : a = .sib s1.prev := by
      simp only [askPassage, RemotePassage.prevId] at h
      split at h
      · generalize s.fetch e d = out at h
        obtain ⟨x, y⟩ := out
        cases y with
        | error z => cases h
        | ok z => cases h; rfl
      · cases h; rfl
    subst ha
    have hn : s1.prev ≠ .unknown := by simpa [PassageAnswer.silent] using hsil
    obtain ⟨k1, k2⟩ := hk.sibs hn (fun hx => hn (hb1.2 hx))
    simp only [askPassage, RemotePassage.prevId, k1, if_neg hn]; rfl
  | nextId =>
    have hb1 : s1.prev = .unknown ↔ s1.next = .unknown := by
      have := (keeps_op (s := s) (e := e) (d := d) (deepest := deepest) .nextId).both hb
      rw [h] at this; exact this
    have ha : a = .sib s1.next := by
      simp only [askPassage, RemotePassage.nextId] at h
      split at h
      · generalize s.fetch e d = out at h
        obtain ⟨x, y⟩ := out
        cases y with
        | error z => cases h
        | ok z => cases h; rfl
      · cases h; rfl
    subst ha
    have hn : s1.next ≠ .unknown := by simpa [PassageAnswer.silent] using hsil
    obtain ⟨k1, k2⟩ := hk.sibs (fun hx => hn (hb1.1 hx)) hn
    simp only [askPassage, RemotePassage.nextId, k2, if_neg hn]; rfl
  | siblingsId =>
    have ha : a = .sibs s1.prev s1.next := by
      simp only [askPassage, RemotePassage.siblingsId] at h
      split at h
      · generalize s.fetch e d = out at h
        obtain ⟨x, y⟩ := out
        cases y with
        | error z => cases h
        | ok z => cases h; rfl
      · cases h; rfl
    subst ha
    have hn : s1.prev ≠ .unknown ∧ s1.next ≠ .unknown := by simpa [PassageAnswer.silent] using hsil
    obtain ⟨k1, k2⟩ := hk.sibs hn.1 hn.2
    simp only [askPassage, RemotePassage.siblingsId, k1, k2, if_neg (not_or.2 ⟨hn.2, hn.1⟩)]; rfl
  | firstId =>
    have ha : ∃ f, s1.first = some f ∧ a = .id f := by
      simp only [askPassage, RemotePassage.firstId] at h
      cases hf : s.first with
      | some f => rw [hf] at h; cases h; exact ⟨f, hf, rfl⟩
      | none =>
        rw [hf] at h
        dsimp only at h
        split at h
        · cases h
        · split at h
          · cases h
          · cases h; exact ⟨_, rfl, rfl⟩
    obtain ⟨f, h1, rfl⟩ := ha
    simp only [askPassage, RemotePassage.firstId, hk.first f h1]; rfl
  | childIds =>
    have ha : ∃ f, s1.kids = some f ∧ a = .ids f := by
      simp only [askPassage, RemotePassage.childIds] at h
      cases hf : s.kids with
      | some f => rw [hf] at h; cases h; exact ⟨f, hf, rfl⟩
      | none =>
        rw [hf] at h
        dsimp only at h
        split at h
        · cases h
        · split at h
          · cases h
          · cases h; exact ⟨_, rfl, rfl⟩
    obtain ⟨f, h1, rfl⟩ := ha
    simp only [askPassage, RemotePassage.childIds, hk.kids f h1]; rfl
  | lastId =>
    have ha : ∃ f, s1.last = some f ∧ a = .id (some f) := by
      simp only [askPassage, RemotePassage.lastId] at h
      cases hf : s.last with
      | some f => rw [hf] at h; cases h; exact ⟨f, hf, rfl⟩
      | none =>
        rw [hf] at h
        dsimp only at h
        generalize s.childIds e d deepest = out at h
        obtain ⟨x, y⟩ := out
        cases y with
        | error z => cases h
        | ok l =>
          dsimp only at h
          cases hl : l.getLast? with
          | none => rw [hl] at h; cases h
          | some z => rw [hl] at h; cases h; exact ⟨z, rfl, rfl⟩
    obtain ⟨f, h1, rfl⟩ := ha
    simp only [askPassage, RemotePassage.lastId, hk.last f h1]; rfl
  | prev => cases hop
  | next => cases hop
  | parent => cases hop
  | first => cases hop
  | last => cases hop
  | children => cases hop

end Verif.Lemmas
