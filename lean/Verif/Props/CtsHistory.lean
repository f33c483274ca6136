import Verif.Lemmas.CtsHistory
import Verif.Props.RemotePassage
/-!
C103: a remote passage read over time, with an endpoint that fails at times.
-/
namespace Verif.Props
open Verif.Py Verif.Model Verif.Spec Verif.Lemmas

/-! ## Any history of readings -/

/-- C103. A passage is read in any way, any number of times, while the endpoint fails at times. Every reading gives what it would give on
the passage as it was when new with an endpoint that does not fail, or the failure of its last request; before that none of its requests
failed. -/
theorem C103_history (serve : CtsEndpoint) (d : Option Str) (deepest : Nat) (urn : Str) (reply : CtsReply) (log : List (List (Str × Str)))
    (s : RemotePassage) (hs : openPassage urn reply log = .ok s) (history : List (CtsEndpoint × PassageOp))
    (hh : ∀ t ∈ history, AtTimes t.1 serve) :
    (session d deepest s history).2.length = history.length ∧
    (session d deepest s history).1.log = log ++ ((session d deepest s history).2.map (·.requests)).flatten ∧
    ∀ (i : Nat) t o, history[i]? = some t → (session d deepest s history).2[i]? = some o →
      (o.answer = (askPassage serve d deepest s t.2).2 ∧ ∀ q ∈ o.requests, t.1 q = serve q) ∨
      ∃ made r x, o.requests = made ++ [r] ∧ t.1 r = .error x ∧ serve r ≠ .error x ∧ o.answer = .error x ∧ ∀ q ∈ made, t.1 q = serve q := by
  have hg : Grown serve d deepest s s := grown_opened hs
  have main : ∀ (history : List (CtsEndpoint × PassageOp)) (s' : RemotePassage), (∀ t ∈ history, AtTimes t.1 serve) → Grown serve d deepest s s' →
      (session d deepest s' history).2.length = history.length ∧
      (session d deepest s' history).1.log = s'.log ++ ((session d deepest s' history).2.map (·.requests)).flatten ∧
      ∀ (i : Nat) t o, history[i]? = some t → (session d deepest s' history).2[i]? = some o →
      (o.answer = (askPassage serve d deepest s t.2).2 ∧ ∀ q ∈ o.requests, t.1 q = serve q) ∨
      ∃ made r x, o.requests = made ++ [r] ∧ t.1 r = .error x ∧ serve r ≠ .error x ∧ o.answer = .error x ∧ ∀ q ∈ made, t.1 q = serve q := by
    intro history
    induction history with
    | nil => intro s' _ _; exact ⟨rfl, by simp [session], by simp⟩
    | cons t rest ih =>
      obtain ⟨e, op⟩ := t
      intro s' hh hg'
      obtain ⟨h1, made, h2, h3⟩ := goes_op (hh (e, op) (by simp)) hg' op
      obtain ⟨g1, g2, g3⟩ := ih (askPassage e d deepest s' op).1 (fun t ht => hh t (by simp [ht])) h1
      have hreq : (askPassage e d deepest s' op).1.log.drop s'.log.length = made := by rw [h2]; simp
      refine ⟨by simp [session, g1], ?_, ?_⟩
      · simp only [session, List.map_cons, List.flatten_cons]
        rw [hreq, g2, h2, List.append_assoc]
      · intro i t o hi ho
        cases i with
        | succ i =>
          simp only [session, List.getElem?_cons_succ] at hi ho
          exact g3 i t o hi ho
        | zero =>
          simp only [session, List.getElem?_cons_zero, Option.some.injEq] at hi ho
          subst hi ho
          dsimp only
          rw [hreq, op_wanted hg]
          rcases h3 with h3 | ⟨m, r, x, h4, h5, h6, h7, h8⟩
          · exact .inl h3
          · exact .inr ⟨m, r, x, h4, h5, by rw [← h5]; exact h6, h7, h8⟩
  have := main history s hh hg
  rwa [(openPassage_ok hs).2.2.2.1] at this

private theorem session_append (d : Option Str) (deepest : Nat) : ∀ (a b : List (CtsEndpoint × PassageOp)) (s : RemotePassage),
    session d deepest s (a ++ b) = ((session d deepest (session d deepest s a).1 b).1, (session d deepest s a).2 ++ (session d deepest (session d deepest s a).1 b).2)
  | [], b, s => by simp [session]
  | t :: a, b, s => by
    obtain ⟨e, op⟩ := t
    simp only [List.cons_append, session, session_append d deepest a b]

/-- C103. Identifiers that a reading has given are given again by the same reading without any request, whatever has been read in the
meantime, and whatever the endpoint said then and has become. -/
theorem C103_remembered (d : Option Str) (deepest : Nat) (urn : Str) (reply : CtsReply) (log : List (List (Str × Str)))
    (s : RemotePassage) (hs : openPassage urn reply log = .ok s) (before after : List (CtsEndpoint × PassageOp)) (e e' : CtsEndpoint)
    (op : PassageOp) (hop : op.isId = true) (o : Outcome) (a : PassageAnswer)
    (ho : (session d deepest s (before ++ [(e, op)])).2.getLast? = some o) (ha : o.answer = .ok a) (hsil : a.silent = false) :
    (session d deepest s (before ++ [(e, op)] ++ after ++ [(e', op)])).2.getLast? = some ⟨[], .ok a⟩ := by
  have hb0 : s.prev = .unknown ↔ s.next = .unknown := (grown_opened (serve := e) (d := d) (deepest := deepest) hs).both
  have hb := (keeps_session (d := d) (deepest := deepest) before s).both hb0
  rw [session_append] at ho
  simp only [session, List.getLast?_append, List.getLast?_singleton, Option.some_or, Option.some.injEq] at ho
  subst ho
  dsimp only at ha
  have h1 : askPassage e d deepest (session d deepest s before).1 op = ((askPassage e d deepest (session d deepest s before).1 op).1, .ok a) := by
    rw [← ha]
  have h2 := kept_answer hb h1 hop hsil (keeps_session (d := d) (deepest := deepest) after _) e'
  rw [session_append, session_append, session_append]
  simp only [session, List.getLast?_append, List.getLast?_singleton, Option.some_or, h2, List.drop_length]

/-- The endpoint when nothing can be had of it. -/
def downNow : CtsEndpoint := fun _ => .error .valueError

theorem downNow_atTimes (serve : CtsEndpoint) : AtTimes downNow serve := fun _ => .inr ⟨_, rfl⟩

example : ∃ s, openPassage (demoText ++ ":1.2".toList) (demoReply none) [] = .ok s ∧
    ((session none 3 s [(downNow, .nextId), (demoServe, .nextId), (downNow, .prevId), (downNow, .next), (demoServe, .childIds), (downNow, .lastId)]).2.map
      fun o => (o.requests.length, o.answer.toOption)) =
    [(1, none), (1, some (.sib (.known "1.3".toList))), (0, some (.sib (.known "1.1".toList))), (1, none),
      (1, some (.ids ["1.2.1".toList, "1.2.2".toList])), (0, some (.id (some "1.2.2".toList)))] :=
  ⟨_, rfl, by decide +kernel⟩

/-! ## A reader who does not give up -/

private theorem opened_node {e : CtsEndpoint} {d : Option Str} {u : Urn} {sub : Option Str} {log l : List (List (Str × Str))} {p : RemotePassage}
    (h : remoteNode e d u sub log = (l, .ok p)) : ∃ urn reply, openPassage urn reply l = .ok p := by
  unfold remoteNode at h
  split at h
  · cases h
  · dsimp only at h
    split at h
    · cases h
    · split at h
      · rename_i urn _ _ reply _ _
        refine ⟨urn, reply, ?_⟩
        rw [← (Prod.mk.inj h).1]
        exact (Prod.mk.inj h).2
      · cases h

private theorem opened_next {e : CtsEndpoint} {d : Option Str} {s s1 p : RemotePassage} (h : s.goNext e d = (s1, .ok (some p))) :
    ∃ urn reply l, openPassage urn reply l = .ok p := by
  unfold RemotePassage.goNext goSibling at h
  have key : ∀ (q : RemotePassage) v (s1 : RemotePassage), ({ q with log := (remoteNode e d q.urn v q.log).1 }, some <$> (remoteNode e d q.urn v q.log).2) = (s1, (.ok (some p) : Except PyErr (Option RemotePassage))) →
      ∃ urn reply l, openPassage urn reply l = .ok p := by
    intro q v s1 hq
    have h2 := (Prod.mk.inj hq).2
    cases hr : remoteNode e d q.urn v q.log with
    | mk l o =>
      rw [hr] at h2
      cases o with
      | error x => cases h2
      | ok p' =>
        cases h2
        obtain ⟨urn, reply, h3⟩ := opened_node hr
        exact ⟨urn, reply, l, h3⟩
  split at h
  · cases h
  · cases h
  · split at h
    · cases h
    · exact key _ _ _ h

private theorem atPos_bare {text : Str} {refs : List Str} {i : Nat} {p q : RemotePassage} (h : unlogged p = unlogged q) (hq : AtPos text refs i q) :
    AtPos text refs i p := by
  have h1 : p.urn = q.urn := by simpa [unlogged] using congrArg (fun x : RemotePassage => x.urn) h
  have h2 : p.prev = q.prev := by simpa [unlogged] using congrArg (fun x : RemotePassage => x.prev) h
  have h3 : p.next = q.next := by simpa [unlogged] using congrArg (fun x : RemotePassage => x.next) h
  unfold AtPos at hq ⊢
  rw [h1, h2, h3]; exact hq

/-- C103. A reader opens a passage of a text and asks for the next one again and again, while the endpoint fails at times. What they get are
the passages that follow, in order and without gaps or repetitions; when they are told that there is none left they have them all; and they
are told so, if the endpoint did not fail at as many of the times as there are passages from the first on, wherever these times lie. -/
theorem C103_persistence (serve : CtsEndpoint) (d : Option Str) (text : Str) (parts : UrnParts) (refs : List Str) (ht : IsTextUrn text parts)
    (h : ServesText serve d text refs) (u : Urn) (hu : Urn.parse text = .ok u) (i : Nat) (r : Str) (hr : refs[i]? = some r)
    (log : List (List (Str × Str))) :
    ∃ s, (remoteNode serve d u (some r) log).2 = .ok s ∧ ∀ times : List CtsEndpoint, (∀ e ∈ times, AtTimes e serve) →
      (∀ (k : Nat) p, (persist d times s).1[k]? = some p → ∃ r', refs[i + 1 + k]? = some r' ∧ AtUrn p (text ++ ':' :: r')) ∧
      ((persist d times s).2 = true → i + 1 + (persist d times s).1.length = refs.length) ∧
      ((List.replicate (refs.length - i) serve).Sublist times → (persist d times s).2 = true) := by
  obtain ⟨u', hu', _, hup, _, _⟩ := parse_text ht
  rw [hu] at hu'; cases hu'
  obtain ⟨s, hs, hat, _, _⟩ := node_atPos ht h hup hr log
  obtain ⟨urn, reply, hopen⟩ := opened_node hs
  refine ⟨s, by rw [hs], fun times => ?_⟩
  have main : ∀ (times : List CtsEndpoint) (i : Nat) (s0 s : RemotePassage), (∀ e ∈ times, AtTimes e serve) → AtPos text refs i s0 →
      Grown serve d 0 s0 s0 → Grown serve d 0 s0 s →
      (∀ (k : Nat) p, (persist d times s).1[k]? = some p → ∃ r', refs[i + 1 + k]? = some r' ∧ AtUrn p (text ++ ':' :: r')) ∧
      ((persist d times s).2 = true → i + 1 + (persist d times s).1.length = refs.length) ∧
      ((List.replicate (refs.length - i) serve).Sublist times → (persist d times s).2 = true) := by
    intro times
    induction times with
    | nil =>
      intro i s0 s _ hat _ _
      obtain ⟨r, hr, _⟩ := hat
      have hi := (List.getElem?_eq_some_iff.1 hr).1
      refine ⟨by simp [persist], by simp [persist], fun hsub => ?_⟩
      have hlen := hsub.length_le
      simp at hlen
      omega
    | cons e later ih =>
      intro i s0 s hh hat hg0 hg
      have hi : i < refs.length := by
        obtain ⟨r, hr, _⟩ := hat
        exact (List.getElem?_eq_some_iff.1 hr).1
      have hlater : ∀ x ∈ later, AtTimes x serve := fun x hx => hh x (by simp [hx])
      obtain ⟨h1, made, h2, h3⟩ := goes_op (hh e (by simp)) hg .next
      rw [← op_wanted hg0] at h3
      obtain ⟨s1, _, hm⟩ := move_atPos ht h hat .next
      simp only [moveTarget, Option.bind_some] at hm
      have hask : (askPassage serve d 0 s0 .next).2 = (fun p : Option RemotePassage => PassageAnswer.passage (p.map unlogged)) <$> makeMove serve d s0 .next := rfl
      rw [hask] at h3
      have hfst : (askPassage e d 0 s .next).1 = (s.goNext e d).1 := rfl
      have hsnd : (askPassage e d 0 s .next).2 = (fun p : Option RemotePassage => PassageAnswer.passage (p.map unlogged)) <$> (s.goNext e d).2 := rfl
      rw [hfst] at h1
      rw [hsnd] at h3
      cases hn : s.goNext e d with
      | mk s' o =>
        rw [hn] at h1 h3
        dsimp only at h1 h3
        cases o with
        | error x =>
          simp only [persist, hn]
          obtain ⟨g1, g2, g3⟩ := ih i s0 s' hlater hat hg0 h1
          refine ⟨g1, g2, fun hsub => g3 ?_⟩
          -- the endpoint failed, so that it is not the one that does not
          have hne : serve ≠ e := by
            rintro rfl
            rcases h3 with ⟨h3, _⟩ | ⟨_, _, _, _, _, h4, _⟩
            · cases hj : refs[i + 1]? with
              | none => rw [hj] at hm; simp only [Option.map_none] at hm; rw [hm] at h3; cases h3
              | some r' =>
                rw [hj] at hm; simp only [Option.map_some] at hm
                obtain ⟨p0, hp0, _⟩ := hm
                rw [hp0] at h3; cases h3
            · exact h4 rfl
          obtain ⟨n, hn'⟩ : ∃ n, refs.length - i = n + 1 := ⟨refs.length - i - 1, by omega⟩
          rw [hn', List.replicate_succ] at hsub ⊢
          cases hsub with
          | cons _ hsub => exact hsub
          | cons_cons _ hsub => exact absurd rfl hne
        | ok o =>
          have h4 : (fun p : Option RemotePassage => PassageAnswer.passage (p.map unlogged)) <$> makeMove serve d s0 .next = .ok (.passage (o.map unlogged)) := by
            rcases h3 with ⟨h3, _⟩ | ⟨_, _, _, _, _, _, h4, _⟩
            · exact h3.symm
            · cases h4
          cases hj : refs[i + 1]? with
          | none =>
            rw [hj] at hm; simp only [Option.map_none] at hm
            rw [hm] at h4
            cases o with
            | some p => cases h4
            | none =>
              have hl : refs.length ≤ i + 1 := List.getElem?_eq_none_iff.1 hj
              simp only [persist, hn]
              exact ⟨by simp, fun _ => by simp; omega, by simp⟩
          | some r' =>
            rw [hj] at hm; simp only [Option.map_some] at hm
            obtain ⟨p0, hp0, hatp0, _⟩ := hm
            rw [hp0] at h4
            cases o with
            | none => cases h4
            | some p =>
              have hb : unlogged p = unlogged p0 := by
                have := Except.ok.inj h4
                simp only [Option.map_some, PassageAnswer.passage.injEq, Option.some.injEq] at this
                exact this.symm
              obtain ⟨urn, reply, l, hop⟩ := opened_next hn
              have hgp : Grown serve d 0 p p := grown_opened hop
              have hatp := atPos_bare hb hatp0
              obtain ⟨g1, g2, g3⟩ := ih (i + 1) p p hlater hatp hgp hgp
              simp only [persist, hn]
              refine ⟨?_, fun hf => ?_, fun hsub => g3 ?_⟩
              · intro k q hq
                cases k with
                | zero =>
                  simp only [List.getElem?_cons_zero, Option.some.injEq] at hq
                  subst hq
                  exact atPos_urn ht h.plain hatp
                | succ k =>
                  simp only [List.getElem?_cons_succ] at hq
                  have := g1 k q hq
                  rwa [show i + 1 + (k + 1) = i + 1 + 1 + k by omega]
              · have := g2 hf
                simp only [List.length_cons]
                omega
              · obtain ⟨n, hn'⟩ : ∃ n, refs.length - i = n + 1 := ⟨refs.length - i - 1, by omega⟩
                have hn2 : refs.length - (i + 1) = n := by omega
                rw [hn', List.replicate_succ] at hsub
                rw [hn2]
                cases hsub with
                | cons _ hsub => exact (List.sublist_cons_self _ _).trans hsub
                | cons_cons _ hsub => exact hsub
  intro hh
  have hg := grown_opened (serve := serve) (d := d) (deepest := 0) hopen
  exact main times i s s hh hat hg hg

example : ((remoteNode demoServe none ((Urn.parse demoText).toOption.get rfl) (some "1.1".toList) []).2.toOption.map fun s =>
    let o := persist none [downNow, demoServe, downNow, downNow, demoServe, demoServe, downNow] s
    (o.1.map fun p => p.urn.str.toOption.map (·.1), o.2)) =
    some ([some (demoText ++ ":1.2".toList), some (demoText ++ ":1.3".toList)], true) := by decide +kernel

example : (List.replicate (["1.1".toList, "1.2".toList, "1.3".toList].length - 0) demoServe).Sublist
    [downNow, demoServe, downNow, downNow, demoServe, demoServe, downNow] :=
  .cons _ (.cons_cons _ (.cons _ (.cons _ (.cons_cons _ (.cons_cons _ (.cons _ .slnil))))))

/-! ## First, last and children -/

private theorem remoteNode_at {serve : CtsEndpoint} {d : Option Str} {text r : Str} {parts : UrnParts} (ht : IsTextUrn text parts) (hr : PlainRef r)
    (hg : GivesPassage serve d text r) {u : Urn} (hu : u.upTo 10 = .ok text) (log : List (List (Str × Str))) :
    ∃ p, remoteNode serve d u (some r) log = (log ++ [ctsPassage d (text ++ ':' :: r) none none], .ok p) ∧ AtUrn p (text ++ ':' :: r) := by
  obtain ⟨a, h1, h2, h3⟩ := hg
  obtain ⟨u', hu', _, _, hstr, _⟩ := parse_passage ht hr
  refine ⟨⟨u', (readPrevNext a).1, (readPrevNext a).2, none, none, none, log ++ [ctsPassage d (text ++ ':' :: r) none none]⟩, ?_, u', hstr⟩
  have hn : nodeUrn u (some r) = .ok (text ++ ':' :: r) := by
    simp only [nodeUrn, if_neg hr.2.1, hu, fmap_ok, colon]
  simp only [remoteNode, hn, h1, h2, if_true, openPassage, hu', h3]

private theorem nodesAt_at {serve : CtsEndpoint} {d : Option Str} {text : Str} {parts : UrnParts} (ht : IsTextUrn text parts) :
    ∀ (kids : List Str) (s : RemotePassage), s.urn.upTo 10 = .ok text → (∀ k ∈ kids, PlainRef k ∧ GivesPassage serve d text k) →
    ∃ s' ps, s.nodesAt serve d kids = (s', .ok ps) ∧ ps.length = kids.length ∧
      s'.log = s.log ++ kids.map (fun k => ctsPassage d (text ++ ':' :: k) none none) ∧
      ∀ (i : Nat) p k, ps[i]? = some p → kids[i]? = some k → AtUrn p (text ++ ':' :: k)
  | [], s, _, _ => ⟨s, [], rfl, rfl, by simp, by simp⟩
  | k :: kids, s, hu, h => by
    obtain ⟨p, h1, h2⟩ := remoteNode_at ht (h k (by simp)).1 (h k (by simp)).2 hu s.log
    obtain ⟨s', ps, g1, g2, g3, g4⟩ := nodesAt_at ht kids { s with log := s.log ++ [ctsPassage d (text ++ ':' :: k) none none] } hu
      fun x hx => h x (by simp [hx])
    refine ⟨s', p :: ps, ?_, by simp [g2], by simp [g3], ?_⟩
    · simp only [RemotePassage.nodesAt, RemotePassage.nodeAt, h1, g1]
    · intro i q x hq hx
      cases i with
      | zero => cases hq; cases hx; exact h2
      | succ i => exact g4 i q x hq hx

private theorem passagesOf_urns {text : Str} {kids ids : List Str} (hk : ∀ k ∈ kids, ':' ∉ k)
    (h : PassagesOf (kids.map fun k => text ++ ':' :: k) ids) : ids = kids := by
  obtain ⟨h1, h2⟩ := h
  refine List.ext_getElem? fun i => ?_
  cases hi : kids[i]? with
  | none =>
    have := List.getElem?_eq_none_iff.1 hi
    exact List.getElem?_eq_none_iff.2 (by simp at h1; omega)
  | some k =>
    have hlt := (List.getElem?_eq_some_iff.1 hi).1
    have hv : ids[i]? = some (ids[i]'(by simp at h1; omega)) := List.getElem?_eq_getElem _
    have := h2 i (text ++ ':' :: k) _ (by simp [hi]) hv
    rw [hv]
    exact congrArg some (afterLastColon_unique this ⟨hk k (List.mem_of_getElem? hi), .inr ⟨text, rfl⟩⟩)

/-- C103. The children of a passage, of which the endpoint lists the URNs, are passages with these URNs, in the order of the list; the last
one is the last of them. They cost the list and one request for each. Asked for anew they cost no list. -/
theorem C103_children (serve serve' : CtsEndpoint) (d : Option Str) (deepest : Nat) (text : Str) (cs : List Str) (parts : UrnParts)
    (ht : IsTextUrn text parts) (hcs : UrnComponents cs) (reply a : CtsReply) (log : List (List (Str × Str))) (s : RemotePassage)
    (hs : openPassage (text ++ ':' :: dotted cs) reply log = .ok s)
    (ha : serve (ctsValidReff d (text ++ ':' :: dotted cs) none (some ((cs.length + 1 : Nat) : Int))) = .ok a) (hreq : a.hasRequest = true)
    (kids : List Str) (hkids : a.urns = kids.map fun k => text ++ ':' :: k) (hpl : ∀ k ∈ kids, PlainRef k ∧ GivesPassage serve d text k) :
    (∃ s' ps, s.goChildren serve d deepest = (s', .ok ps) ∧ ps.length = kids.length ∧
      (∀ (i : Nat) p k, ps[i]? = some p → kids[i]? = some k → AtUrn p (text ++ ':' :: k)) ∧
      s'.log = log ++ ctsValidReff d (text ++ ':' :: dotted cs) none (some ((cs.length + 1 : Nat) : Int)) ::
        kids.map (fun k => ctsPassage d (text ++ ':' :: k) none none) ∧
      ((∀ k ∈ kids, GivesPassage serve' d text k) → ∃ s'' ps', s'.goChildren serve' d deepest = (s'', .ok ps') ∧ ps'.length = kids.length ∧
        (∀ (i : Nat) p k, ps'[i]? = some p → kids[i]? = some k → AtUrn p (text ++ ':' :: k)) ∧
        s''.log = s'.log ++ kids.map (fun k => ctsPassage d (text ++ ':' :: k) none none))) ∧
    (∀ k ∈ kids.getLast?, ∃ s' p, s.goLast serve d deepest = (s', .ok p) ∧ AtUrn p (text ++ ':' :: k) ∧
      s'.log = log ++ [ctsValidReff d (text ++ ':' :: dotted cs) none (some ((cs.length + 1 : Nat) : Int)), ctsPassage d (text ++ ':' :: k) none none]) ∧
    (kids = [] → (s.goLast serve d deepest).2 = .error .indexError) := by
  obtain ⟨s1, ids, h1, h2, h3, h4, h5, h6⟩ := C62_children serve serve d deepest text cs parts ht hcs reply a log s hs ha hreq
  rw [hkids] at h3
  have hids := passagesOf_urns (fun k hk => (hpl k hk).1.2.1) h3
  subst hids
  obtain ⟨hu, _, _, _, _, hlast, _⟩ := openPassage_ok hs
  obtain ⟨u', hu', _, hup, _⟩ := parse_passage ht (plainRef_dotted hcs)
  rw [hu] at hu'; cases hu'
  have hk1 := keeps_childIds (e := serve) (d := d) (deepest := deepest) (s := s)
  have hg : Grown serve d deepest s s1 := by
    have := (goes_childIds (e := serve) (fun _ => .inl rfl) (grown_opened (serve := serve) (d := d) (deepest := deepest) hs)).1
    rwa [h1] at this
  have hup1 : s1.urn.upTo 10 = .ok text := by rw [hg.urn]; exact hup
  have hkids1 : s1.kids = some ids := by
    unfold RemotePassage.childIds at h4
    cases hx : s1.kids with
    | some l => rw [hx] at h4; dsimp only at h4; cases (Prod.mk.inj h4).2; rfl
    | none =>
      exfalso
      have hsame := h4
      rw [hx] at hsame
      dsimp only at hsame
      split at hsame
      · exact nomatch (Prod.mk.inj hsame).2
      · split at hsame
        · exact nomatch (Prod.mk.inj hsame).2
        · have := congrArg (fun x : RemotePassage × Except PyErr (List Str) => x.1.kids) hsame
          simp only [hx] at this
          cases this
  refine ⟨?_, fun k hk => ?_, fun hk => ?_⟩
  · obtain ⟨s', ps, g1, g2, g3, g4⟩ := nodesAt_at ht ids s1 hup1 hpl
    refine ⟨s', ps, by simp only [RemotePassage.goChildren, h1, g1], g2, g4, by rw [g3, h2, List.append_assoc]; rfl, fun h' => ?_⟩
    have hs' : s'.kids = some ids ∧ s'.urn = s1.urn := by
      have k1 := (keeps_nodes (e := serve) (d := d) ids s1).kids ids hkids1
      have k2 := (goes_nodes (e := serve) (serve := serve) (d := d) (deepest := deepest) (s0 := s) (fun _ => .inl rfl) ids s1 hg).1.urn
      rw [g1] at k1 k2
      exact ⟨k1, k2.trans hg.urn.symm⟩
    obtain ⟨s'', ps', m1, m2, m3, m4⟩ := nodesAt_at (serve := serve') ht ids s' (by rw [hs'.2]; exact hup1) fun k hk => ⟨(hpl k hk).1, h' k hk⟩
    refine ⟨s'', ps', ?_, m2, m4, m3⟩
    simp only [RemotePassage.goChildren, RemotePassage.childIds, hs'.1, m1]
  · obtain ⟨s2, m1, m2, m3, m4⟩ := h5 k hk
    have hmem : k ∈ ids := List.mem_of_getLast? hk
    have hg2 : Grown serve d deepest s s2 := by
      have := (goes_lastId (e := serve) (fun _ => .inl rfl) (grown_opened (serve := serve) (d := d) (deepest := deepest) hs)).1
      rwa [m3] at this
    obtain ⟨p, n1, n2⟩ := remoteNode_at ht (hpl k hmem).1 (hpl k hmem).2 (u := s2.urn) (by rw [hg2.urn]; exact hup) s2.log
    refine ⟨{ s2 with log := s2.log ++ [ctsPassage d (text ++ ':' :: k) none none] }, p, ?_, n2, ?_⟩
    · simp only [RemotePassage.goLast, m3, m4, RemotePassage.nodeAt, n1]
    · rw [m2, h2, List.append_assoc]; rfl
  · subst hk
    have hl : (s.lastId serve d deepest).2 = .error .indexError := by
      simp only [RemotePassage.lastId, hlast, h1, List.getLast?_nil]
    unfold RemotePassage.goLast
    cases hx : s.lastId serve d deepest with
    | mk a b => rw [hx] at hl; cases hl; rfl

example : ∃ s, openPassage (demoText ++ ":1.2".toList) (demoReply none) [] = .ok s ∧
    ((s.goChildren demoServe none 3).2.toOption.map fun l => l.map fun p => p.urn.str.toOption.map (·.1)) =
      some [some (demoText ++ ":1.2.1".toList), some (demoText ++ ":1.2.2".toList)] ∧
    ((s.goLast demoServe none 3).2.toOption.bind fun p => p.urn.str.toOption.map (·.1)) = some (demoText ++ ":1.2.2".toList) :=
  ⟨_, rfl, by decide +kernel, by decide +kernel⟩

/-- C103. The first unit of a passage, whose URN the endpoint tells, is a passage with this URN; without one there is none. -/
theorem C103_first (serve : CtsEndpoint) (d : Option Str) (text r : Str) (parts : UrnParts)
    (ht : IsTextUrn text parts) (hr : PlainRef r) (reply a : CtsReply) (log : List (List (Str × Str))) (s : RemotePassage)
    (hs : openPassage (text ++ ':' :: r) reply log = .ok s) (ha : serve (ctsFirstUrn d (text ++ ':' :: r) none) = .ok a) :
    (a.topUrns = [] → ∃ s', s.goFirst serve d = (s', .ok none) ∧ s'.log = log ++ [ctsFirstUrn d (text ++ ':' :: r) none]) ∧
    (∀ k more, a.topUrns = (text ++ ':' :: k) :: more → PlainRef k → GivesPassage serve d text k →
      ∃ s' p, s.goFirst serve d = (s', .ok (some p)) ∧ AtUrn p (text ++ ':' :: k) ∧
        s'.log = log ++ [ctsFirstUrn d (text ++ ':' :: r) none, ctsPassage d (text ++ ':' :: k) none none]) := by
  obtain ⟨hu, _, _, hl, hf, _⟩ := openPassage_ok hs
  obtain ⟨u', hu', _, hup, hstr, _⟩ := parse_passage ht hr
  rw [hu] at hu'; cases hu'
  have h1 : s.firstId serve d = ({ s with log := s.log ++ [ctsFirstUrn d (text ++ ':' :: r) none], first := some (readFirst a) }, .ok (readFirst a)) := by
    simp only [RemotePassage.firstId, hf, hstr, ha]
  refine ⟨fun hn => ?_, fun k more hk hpl hg => ?_⟩
  · have h2 : readFirst a = none := by simp [readFirst, hn]
    rw [h2] at h1
    exact ⟨{ s with log := s.log ++ [ctsFirstUrn d (text ++ ':' :: r) none], first := some none }, by simp only [RemotePassage.goFirst, h1], by rw [hl]⟩
  · have h2 : readFirst a = some k := by
      simp only [readFirst, hk, List.head?_cons, Option.map_some, Option.some.injEq]
      exact afterLastColon_unique (lastPart_spec _) ⟨hpl.2.1, .inr ⟨text, rfl⟩⟩
    rw [h2] at h1
    obtain ⟨p, n1, n2⟩ := remoteNode_at ht hpl hg hup (s.log ++ [ctsFirstUrn d (text ++ ':' :: r) none])
    refine ⟨{ s with log := s.log ++ [ctsFirstUrn d (text ++ ':' :: r) none] ++ [ctsPassage d (text ++ ':' :: k) none none], first := some (some k) }, p, ?_, n2, ?_⟩
    · have h3 : ∀ q : RemotePassage, q.first = some (some k) → q.firstId serve d = (q, .ok (some k)) := by
        intro q hq; simp only [RemotePassage.firstId, hq]
      simp only [RemotePassage.goFirst, h1]
      rw [h3 _ rfl]
      simp only [n1]; rfl
    · rw [hl, List.append_assoc]; rfl

example : ∃ s, openPassage (demoText ++ ":1.2".toList) (demoReply none) [] = .ok s ∧
    ((s.goFirst (fun _ => .ok { demoReply none with topUrns := [demoText ++ ":1.2.1".toList] }) none).2.toOption.bind fun o => o.bind fun p =>
      p.urn.str.toOption.map (·.1)) = some (demoText ++ ":1.2.1".toList) ∧ (s.goFirst (fun _ => .ok (demoReply none)) none).2.toOption = some none :=
  ⟨_, rfl, by decide +kernel, by decide +kernel⟩

end Verif.Props
