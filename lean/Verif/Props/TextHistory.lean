import Verif.Lemmas.TextHistory
/-!
C104: a remote text asked over time, with an endpoint that fails at times.
-/
namespace Verif.Props
open Verif.Py Verif.Model Verif.Spec Verif.Lemmas

private theorem known_start {serve : DocEndpoint} {scheme : List CiteLevel} {s : RemoteText} (hc : SchemeSet s.obj.cite → s.obj.cite = scheme) :
    KnownText serve scheme s.graph s.urn s := ⟨rfl, ⟨fun _ h => h, fun _ h => .inl h⟩, hc⟩

private theorem asked_new {serve : DocEndpoint} {d : Option Str} {s : RemoteText} {scheme : List CiteLevel} (ho : OneScheme serve d s.urn scheme)
    (hc : SchemeSet s.obj.cite → s.obj.cite = scheme) (fresh : Nat → Term) (op : TextOp) :
    (askText serve d fresh s op).2 = seekOp serve d scheme s.urn op := by
  obtain ⟨_, made, _, h⟩ := reads_op (e := serve) ho (fun _ => .inl rfl) fresh (known_start hc) op
  rcases h with ⟨h, _⟩ | ⟨_, r, _, _, _, h, _⟩
  · exact h
  · exact absurd rfl h

private theorem text_main {serve : DocEndpoint} {d : Option Str} {s : RemoteText} {scheme : List CiteLevel} (ho : OneScheme serve d s.urn scheme)
    (fresh : Nat → Term) (hc : SchemeSet s.obj.cite → s.obj.cite = scheme) : ∀ (history : List (DocEndpoint × TextOp)) (s' : RemoteText), (∀ t ∈ history, DocAtTimes t.1 serve) →
      KnownText serve scheme s.graph s.urn s' →
      KnownText serve scheme s.graph s.urn (textSession d fresh s' history).1 ∧
      (textSession d fresh s' history).2.length = history.length ∧
      (textSession d fresh s' history).1.log = s'.log ++ ((textSession d fresh s' history).2.map (·.requests)).flatten ∧
      ∀ (i : Nat) t o, history[i]? = some t → (textSession d fresh s' history).2[i]? = some o →
      (o.answer = (askText serve d fresh s t.2).2 ∧ ∀ q ∈ o.requests, t.1 q = serve q) ∨
      ∃ made r x, o.requests = made ++ [r] ∧ t.1 r = .error x ∧ serve r ≠ .error x ∧ o.answer = .error x ∧ ∀ q ∈ made, t.1 q = serve q := by
  intro history
  induction history with
  | nil => intro s' _ hk; exact ⟨hk, rfl, by simp [textSession], by simp⟩
  | cons t rest ih =>
    obtain ⟨e, op⟩ := t
    intro s' hh hk
    obtain ⟨h1, made, h2, h3⟩ := reads_op ho (hh (e, op) (by simp)) fresh hk op
    obtain ⟨g0, g1, g2, g3⟩ := ih (askText e d fresh s' op).1 (fun t ht => hh t (by simp [ht])) h1
    have hreq : (askText e d fresh s' op).1.log.drop s'.log.length = made := by rw [h2]; simp
    refine ⟨g0, by simp [textSession, g1], ?_, ?_⟩
    · simp only [textSession, List.map_cons, List.flatten_cons]
      rw [hreq, g2, h2, List.append_assoc]
    · intro i t o hi hout
      cases i with
      | succ i =>
        simp only [textSession, List.getElem?_cons_succ] at hi hout
        exact g3 i t o hi hout
      | zero =>
        simp only [textSession, List.getElem?_cons_zero, Option.some.injEq] at hi hout
        subst hi hout
        dsimp only
        rw [hreq, asked_new ho hc]
        rcases h3 with h3 | ⟨m, r, x, h4, h5, h6, h7, h8⟩
        · exact .inl h3
        · exact .inr ⟨m, r, x, h4, h5, by rw [← h5]; exact h6, h7, h8⟩

/-- C104. A text is asked for its label, for references, for passages with and without their label, and for exports, in any order and as
often as one likes, from an endpoint that has one citation scheme for it and fails at times. Whatever has been asked and has failed
before, each answer is the one that the text would have given at the start with an endpoint that does not fail, or it is the failure of
the last request made for it. -/
theorem C104_history (serve : DocEndpoint) (d : Option Str) (fresh : Nat → Term) (s : RemoteText) (scheme : List CiteLevel)
    (ho : OneScheme serve d s.urn scheme) (hc : SchemeSet s.obj.cite → s.obj.cite = scheme) (history : List (DocEndpoint × TextOp))
    (hh : ∀ t ∈ history, DocAtTimes t.1 serve) :
    (textSession d fresh s history).2.length = history.length ∧
    (textSession d fresh s history).1.log = s.log ++ ((textSession d fresh s history).2.map (·.requests)).flatten ∧
    ∀ (i : Nat) t o, history[i]? = some t → (textSession d fresh s history).2[i]? = some o →
      (o.answer = (askText serve d fresh s t.2).2 ∧ ∀ q ∈ o.requests, t.1 q = serve q) ∨
      ∃ made r x, o.requests = made ++ [r] ∧ t.1 r = .error x ∧ serve r ≠ .error x ∧ o.answer = .error x ∧ ∀ q ∈ made, t.1 q = serve q :=
  (text_main ho fresh hc history s hh (known_start hc)).2

/-- C104. After any such history, the graph says what it said at the start, and everything new in it stands in the label of a reply to a
request that was made; and the text has the same URN, and the scheme of the endpoint or none. -/
theorem C104_graph (serve : DocEndpoint) (d : Option Str) (fresh : Nat → Term) (s : RemoteText) (scheme : List CiteLevel)
    (ho : OneScheme serve d s.urn scheme) (hc : SchemeSet s.obj.cite → s.obj.cite = scheme) (history : List (DocEndpoint × TextOp))
    (hh : ∀ t ∈ history, DocAtTimes t.1 serve) :
    OnlyTold serve s.graph (textSession d fresh s history).1 ∧ (textSession d fresh s history).1.urn = s.urn ∧
    (SchemeSet (textSession d fresh s history).1.obj.cite → (textSession d fresh s history).1.obj.cite = scheme) :=
  let h := (text_main ho fresh hc history s hh (known_start hc)).1
  ⟨h.told, h.urn, h.cite⟩

/-! ## The scheme, once known -/

/-- The same URN and the same scheme. -/
private def SameOf (s s' : RemoteText) : Prop := s'.urn = s.urn ∧ s'.obj.cite = s.obj.cite

private theorem SameOf.trans {a b c : RemoteText} (h : SameOf b c) (h' : SameOf a b) : SameOf a c := ⟨h.1.trans h'.1, h.2.trans h'.2⟩

private theorem take_keeps {s : RemoteText} (hs : SchemeSet s.obj.cite) (doc : Node) (l : List Node) : SameOf s (s.take doc l).1 := by
  cases l with
  | nil => exact ⟨rfl, rfl⟩
  | cons x rest =>
    obtain ⟨h0, _, _, _, h | h⟩ := take_reads s doc x rest
    · rcases h.2 with ⟨_, h⟩ | ⟨h, _⟩ | ⟨h, _⟩
      · exact ⟨h0, h⟩
      · exact absurd hs h
      · exact absurd hs h
    · exact ⟨h0, h.2.2⟩

private theorem label_keeps {s : RemoteText} (hs : SchemeSet s.obj.cite) (e : DocEndpoint) (d : Option Str) : SameOf s (s.getLabel e d).1 := by
  unfold RemoteText.getLabel
  split
  · exact ⟨rfl, rfl⟩
  · dsimp only
    split
    · exact ⟨rfl, rfl⟩
    · have h := fun r doc l => take_keeps (s := { s with log := s.log ++ [r] }) hs doc l
      exact h _ _ _

private theorem refs_keeps {s : RemoteText} (hs : SchemeSet s.obj.cite) (e : DocEndpoint) (d : Option Str) (level : Int) (sub : Option Str) :
    SameOf s (s.getValidReff e d level sub).1 := by
  unfold RemoteText.getValidReff
  split
  · exact ⟨rfl, rfl⟩
  · dsimp only
    split
    · exact ⟨rfl, rfl⟩
    · rename_i doc _
      have h := fun r => take_keeps (s := { s with log := s.log ++ [r] }) hs doc (doc.allNodes.filter fun c => c.tag = ['t', 'i', ':', 'r', 'e', 'q', 'u', 'e', 's', 't'])
      split
      · rename_i hy; have h' := congrArg (fun o => SameOf s o.1) hy; exact h'.mp (h _)
      · rename_i hy; have h' := congrArg (fun o => SameOf s o.1) hy; exact h'.mp (h _)

private theorem node_keeps {s : RemoteText} (hs : SchemeSet s.obj.cite) (e : DocEndpoint) (d : Option Str) (arg : NodeArg) (fresh : Term) :
    SameOf s (s.getNode e d arg fresh).1 := by
  unfold RemoteText.getNode
  split
  · exact ⟨rfl, rfl⟩
  · dsimp only
    split
    · exact ⟨rfl, rfl⟩
    · rename_i doc _
      have h := fun r => take_keeps (s := { s with log := s.log ++ [r] }) hs doc (doc.allNodes.filter fun c => c.tag = ['t', 'i', ':', 'r', 'e', 'q', 'u', 'e', 's', 't'])
      split
      · rename_i hy; have h' := congrArg (fun o => SameOf s o.1) hy; exact h'.mp (h _)
      · rename_i hy; have h' := congrArg (fun o => SameOf s o.1) hy; exact h'.mp (h _)

private theorem levels_keeps (e : DocEndpoint) (d : Option Str) : ∀ (is : List Nat) (s : RemoteText), SchemeSet s.obj.cite → SameOf s (s.levels e d is).1
  | [], _, _ => ⟨rfl, rfl⟩
  | i :: r, s, hs => by
    have h := refs_keeps hs e d i none
    rw [RemoteText.levels]
    cases hy : s.getValidReff e d i none with
    | mk s1 y =>
      rw [hy] at h
      dsimp only at h
      cases y with
      | error x => exact h
      | ok l =>
        have h1 := levels_keeps e d r s1 (by rw [h.2]; exact hs)
        dsimp only
        cases hz : s1.levels e d r with
        | mk s2 z =>
          rw [hz] at h1
          cases z with
          | error x => exact h1.trans h
          | ok l' => exact h1.trans h

private theorem op_keeps {s : RemoteText} (hs : SchemeSet s.obj.cite) (e : DocEndpoint) (d : Option Str) (fresh : Nat → Term) {op : TextOp}
    (hop : ∀ sub, op ≠ .plus sub) : SameOf s (askText e d fresh s op).1 := by
  cases op with
  | label => exact label_keeps hs e d
  | refs level sub => exact refs_keeps hs e d _ sub
  | node arg => exact node_keeps hs e d arg _
  | plus sub => exact absurd rfl (hop sub)
  | reffs =>
    show SameOf s (s.reffs e d).1
    unfold RemoteText.reffs
    rw [if_pos ((citeIsSet_iff _).2 hs)]
    exact levels_keeps e d _ s hs
  | «export» output exclude =>
    show SameOf s (s.export e d fresh output exclude).1
    have h := node_keeps hs e d .other (fresh s.log.length)
    unfold RemoteText.export
    cases hy : s.getNode e d .other (fresh s.log.length) with
    | mk s1 y =>
      rw [hy] at h
      cases y with
      | error x => exact h
      | ok p => exact h

private theorem levels_log (e : DocEndpoint) (d : Option Str) {u : Str} {w : Urn} : ∀ (is : List Nat) (s : RemoteText) (a : List Str), SchemeSet s.obj.cite →
    s.urn.str = .ok (u, w) → (s.levels e d is).2 = .ok a → (s.levels e d is).1.log = s.log ++ is.map fun (i : Nat) => ctsValidReff d u none (some (i : Int))
  | [], s, a, _, _, _ => by simp [RemoteText.levels]
  | i :: r, s, a, hs, hu, ha => by
    have h1 := getValidReff_log e d hu i none
    have h2 := refs_keeps hs e d i none
    rw [RemoteText.levels] at ha ⊢
    cases hy : s.getValidReff e d i none with
    | mk s1 y =>
      rw [hy] at ha h1 h2
      cases y with
      | error x => exact nomatch ha
      | ok l =>
        dsimp only at ha h1 h2 ⊢
        have hlev : reffLevel (citeLen s.obj.cite) (i : Int) = i := if_neg (by omega)
        cases hz : s1.levels e d r with
        | mk s2 z =>
          rw [hz] at ha
          cases z with
          | error x => exact nomatch ha
          | ok l' =>
            have h3 := levels_log e d r s1 l' (by rw [h2.2]; exact hs) (by rw [h2.1]; exact hu) (by rw [hz])
            rw [hz] at h3
            dsimp only at h3 ⊢
            rw [h3, h1, hlev, List.append_assoc]
            rfl

/-- C104. A scheme that is set stays, whatever is asked of any endpoint, but for passages with their label (`C84_fails_forgets`). So
when all references are then asked for and given, the label is not asked for, and one request is made for each level. -/
theorem C104_scheme_kept (d : Option Str) (fresh : Nat → Term) (s : RemoteText) (hs : SchemeSet s.obj.cite) (u : Str) (w : Urn)
    (hu : s.urn.str = .ok (u, w)) (history : List (DocEndpoint × TextOp)) (hh : ∀ t ∈ history, ∀ sub, t.2 ≠ .plus sub) (e : DocEndpoint)
    (s' : RemoteText) (hs' : s' = (textSession d fresh s history).1) :
    s'.obj.cite = s.obj.cite ∧
    ∀ a, (s'.reffs e d).2 = .ok a →
      (s'.reffs e d).1.log = s'.log ++ (List.range s.obj.cite.length).map fun (i : Nat) => ctsValidReff d u none (some ((i + 1 : Nat) : Int)) := by
  have hk : ∀ (history : List (DocEndpoint × TextOp)) (s : RemoteText), SchemeSet s.obj.cite → (∀ t ∈ history, ∀ sub, t.2 ≠ .plus sub) →
      SameOf s (textSession d fresh s history).1 := by
    intro history
    induction history with
    | nil => intro s _ _; exact ⟨rfl, rfl⟩
    | cons t rest ih =>
      obtain ⟨e, op⟩ := t
      intro s hs hh
      have h := op_keeps hs e d fresh (op := op) (hh (e, op) (by simp))
      exact (ih _ (by rw [h.2]; exact hs) (fun t ht => hh t (by simp [ht]))).trans h
  have h := hk history s hs hh
  rw [← hs'] at h
  refine ⟨h.2, fun a ha => ?_⟩
  have hset : SchemeSet s'.obj.cite := by rw [h.2]; exact hs
  rw [RemoteText.reffs, if_pos ((citeIsSet_iff _).2 hset)] at ha ⊢
  dsimp only at ha ⊢
  have hlen : citeLen s'.obj.cite = s.obj.cite.length := by
    obtain ⟨l, r, x, hc, _⟩ := hs
    rw [h.2, citeLen, if_neg (by rw [hc]; simp)]
  rw [hlen] at ha ⊢
  rw [levels_log e d _ s' a hset (by rw [h.1]; exact hu) ha, List.map_map]
  rfl

/-! ## The deepest level -/

/-- The references at the deepest level that a text knows of depend on what was asked before: a text that has not read its label asks
for the first level. -/
theorem C104_fails_deepest : ∃ s : RemoteText, labelText0 = some s ∧
    ((s.getReffs labelServe none (-1) none).2.toOption = some ["1".toList, "2".toList]) ∧
    (((s.getLabel labelServe none).1.getReffs labelServe none (-1) none).2.toOption = some ["1.1".toList, "2.1".toList]) :=
  ⟨_, rfl, by decide +kernel, by decide +kernel⟩

/-! ## A case -/

/-- The passage 1.1, and the whole text. -/
def passageDoc (text : String) : Node := labelEl "ti:GetPassage" [] "" [
  labelEl "ti:request" [] "" [labelEl "ti:groupname" [] "Martial" []],
  labelEl "ti:reply" [] "" [labelEl "ti:passage" [] "" [labelEl "tei:TEI" [] "" [labelEl "tei:l" [] text []]]]]

/-- What the endpoint answers. -/
def historyAnswers : List (List (Str × Str) × Node) :=
  [(ctsLabel none labelUrn none, labelDemo),
   (ctsValidReff none labelUrn none (some 1), reffDemo ["urn:x:1", "urn:x:2"]),
   (ctsValidReff none labelUrn none (some 2), reffDemo ["urn:x:1.1", "urn:x:2.1"]),
   (ctsPassage none (labelUrn ++ ":1".toList) none none, passageDoc "arma"),
   (ctsPassage none (labelUrn ++ ":2".toList) none none, passageDoc "virumque"),
   (ctsPassage none labelUrn none none, passageDoc "arma virumque"),
   (ctsPassagePlus none (labelUrn ++ ":1.1".toList) none none, plusDemo)]

/-- The endpoint. -/
def historyServe : DocEndpoint := fun r => match historyAnswers.find? (fun p => p.1 = r) with
  | some p => .ok p.2
  | none => .error .unknownCollection

/-- The scheme of the text. -/
def historyScheme : List CiteLevel := (labelText0.map fun s => (s.getLabel historyServe none).1.obj.cite).getD []

/-- The element gives the scheme or none. -/
def historyFine (doc x : Node) : Bool := match adoptScheme doc x [] with
  | .ok c => decide (c = [] ∨ c = historyScheme)
  | .error _ => false

private theorem fine_spec {doc x : Node} (h : historyFine doc x = true) : ¬ SchemeElsewhere doc x [] ∧ ∀ c, Adopts doc x [] c → SchemeSet c → c = historyScheme := by
  unfold historyFine at h
  rcases adoptScheme_spec doc x [] with ⟨c', e, h'⟩ | ⟨e, _⟩
  · rw [e] at h
    refine ⟨adopts_not_elsewhere h', fun c hc hs => ?_⟩
    rw [adopts_unique hc h'] at hs ⊢
    rcases of_decide_eq_true h with rfl | h
    · exact absurd hs unset_nil
    · exact h
  · rw [e] at h; exact nomatch h

instance (r : List (Str × Str)) : Decidable (WantsLabel r) := by unfold WantsLabel; infer_instance

private theorem history_checked : historyAnswers.all (fun p => historyFine p.2 p.2 &&
    (if WantsLabel p.1 then within "ti:reply" "ti:label" p.2 else named "ti:request" p.2).head?.all (historyFine p.2)) = true := by decide +kernel

private theorem history_served {r : List (Str × Str)} {doc : Node} (h : historyServe r = .ok doc) : historyFine doc doc = true ∧
    ∀ x, LabelOf r doc x → historyFine doc x = true := by
  unfold historyServe at h
  split at h
  · rename_i p hp
    cases h
    have hr : p.1 = r := by simpa using List.find?_some hp
    have := List.all_eq_true.1 history_checked p (List.mem_of_find?_eq_some hp)
    rw [Bool.and_eq_true, hr] at this
    refine ⟨this.1, fun x hx => ?_⟩
    obtain ⟨rest, ⟨hw, hx⟩ | ⟨hw, hx⟩⟩ := hx
    · rw [if_pos hw, hx] at this; exact this.2
    · rw [if_neg hw, hx] at this; exact this.2
  · exact nomatch h

/-- The endpoint has one scheme for the text. -/
theorem history_scheme : ∃ s : RemoteText, labelText0 = some s ∧ OneScheme historyServe none s.urn historyScheme ∧ ¬ SchemeSet s.obj.cite := by
  refine ⟨_, rfl, ⟨?_, ?_, ?_, ?_⟩, unset_nil⟩
  · exact (citeIsSet_iff _).1 (by decide +kernel)
  · intro u w hu
    have : (u, w).1 = labelUrn := by
      have h : (Urn.str ((Urn.parse labelUrn).toOption.get rfl)).toOption.map (·.1) = some labelUrn := by decide +kernel
      have h' : (Urn.str ((Urn.parse labelUrn).toOption.get rfl)) = .ok (u, w) := hu
      rw [h'] at h
      exact Option.some.inj h
    dsimp only at this
    subst this
    refine ⟨labelDemo, (within "ti:reply" "ti:label" labelDemo).head (by decide +kernel), (within "ti:reply" "ti:label" labelDemo).tail, by rfl, by simp, ?_⟩
    have h : adoptScheme labelDemo ((within "ti:reply" "ti:label" labelDemo).head (by decide +kernel)) [] = .ok historyScheme := by rfl
    rcases adoptScheme_spec labelDemo ((within "ti:reply" "ti:label" labelDemo).head (by decide +kernel)) [] with ⟨c', e, h'⟩ | ⟨e, _⟩
    · rw [h] at e; cases e; exact h'
    · rw [h] at e; exact nomatch e
  · intro r doc x h hx
    exact (fine_spec ((history_served h).2 x hx)).1
  · intro r doc x c h hx
    rcases hx with rfl | hx
    · exact (fine_spec (history_served h).1).2 c
    · exact (fine_spec ((history_served h).2 x hx)).2 c

/-- An endpoint that is down. -/
def docDown : DocEndpoint := fun _ => .error .valueError

theorem docDown_atTimes (serve : DocEndpoint) : DocAtTimes docDown serve := fun _ => .inr ⟨_, rfl⟩

/-- The endpoint, but the second level cannot be had now. -/
def docHalf : DocEndpoint := fun r => if r = ctsValidReff none labelUrn none (some 2) then .error .valueError else historyServe r

example : DocAtTimes docHalf historyServe := by
  intro r
  unfold docHalf
  split
  · exact .inr ⟨_, rfl⟩
  · exact .inl rfl

example : (labelText0.map fun s => (textSession none (fun n => .bnode (natStr n)) s
      [(docDown, .reffs), (docHalf, .reffs), (historyServe, .plus (some "1.1".toList)), (historyServe, .reffs), (docDown, .label)]).2.map fun o =>
        (o.requests.length, match o.answer with | .ok (.refs l) => some l | _ => none)) =
    some [(1, none), (3, none), (1, none), (3, some ["1".toList, "2".toList, "1.1".toList, "2.1".toList]), (1, none)] := by decide +kernel

example : (labelText0.bind fun s => match (askText historyServe none (fun n => .bnode (natStr n)) s (.export .plain [])).2 with
    | .ok (.exported (.text t)) => some t
    | _ => none) = some "arma virumque".toList := by decide +kernel

end Verif.Props
