import Verif.Spec.TextHistory
import Verif.Lemmas.Running
import Verif.Props.Serving
/-!
Lemmas for C104: what a text answers depends on the endpoint and its URN only, when the endpoint has one scheme for it.
-/
namespace Verif.Lemmas
open Verif.Py Verif.Model Verif.Spec Verif.Props

section
variable {serve e : DocEndpoint} {d : Option Str} {text : Urn} {scheme : List CiteLevel} {g0 : Graph} {u : Urn} {s : RemoteText}

theorem label_wants (d : Option Str) (v : Str) : WantsLabel (ctsLabel d v none) := by
  unfold WantsLabel ctsLabel ctsCall
  cases d with
  | none => simp [Val.ofOption, Val.text, kRequest]
  | some i =>
    dsimp only
    split <;> simp [Val.ofOption, Val.text, kRequest]

theorem plus_wants (d : Option Str) (v : Str) : WantsLabel (ctsPassagePlus d v none none) := by
  unfold WantsLabel ctsPassagePlus ctsCall
  cases d with
  | none => simp [Val.ofOption, Val.ofInt, Val.text, kRequest]
  | some i =>
    dsimp only
    split <;> simp [Val.ofOption, Val.ofInt, Val.text, kRequest]

theorem refs_wants (d : Option Str) (v : Str) (l : Int) : ¬ WantsLabel (ctsValidReff d v none (some l)) := by
  unfold WantsLabel ctsValidReff ctsCall
  cases d with
  | none => simp [Val.ofOption, Val.ofInt, Val.text, kRequest, kUrn, kLevel]
  | some i =>
    dsimp only
    split <;> simp [Val.ofOption, Val.ofInt, Val.text, kRequest, kUrn, kLevel, kInv]

theorem passage_wants (d : Option Str) (v : Str) : ¬ WantsLabel (ctsPassage d v none none) := by
  unfold WantsLabel ctsPassage ctsCall
  cases d with
  | none => simp [Val.ofOption, Val.ofInt, Val.text, kRequest, kUrn, kContext]
  | some i =>
    dsimp only
    split <;> simp [Val.ofOption, Val.ofInt, Val.text, kRequest, kUrn, kContext, kInv]

/-- What is known of an object with the shared methods, a text or a passage of it. -/
structure KnownText (serve : DocEndpoint) (scheme : List CiteLevel) (g0 : Graph) (u : Urn) (s : RemoteText) : Prop where
  urn : s.urn = u
  told : OnlyTold serve g0 s
  cite : SchemeSet s.obj.cite → s.obj.cite = scheme

/-- Such an object gives what is wanted, or the failure of its last request. -/
abbrev ReadsText (e serve : DocEndpoint) (scheme : List CiteLevel) (g0 : Graph) (u : Urn) (s : RemoteText) {α : Type} (out : RemoteText × Except PyErr α)
    (want : Except PyErr α) : Prop := Runs RemoteText.log e serve (KnownText serve scheme g0 u) s out want

theorem known_sent (h : KnownText serve scheme g0 u s) (r : List (Str × Str)) : KnownText serve scheme g0 u { s with log := s.log ++ [r] } := by
  refine ⟨h.urn, ⟨h.told.1, fun t ht => ?_⟩, h.cite⟩
  rcases h.told.2 t ht with h1 | ⟨q, hq, h1⟩
  · exact .inl h1
  · exact .inr ⟨q, List.mem_append_left _ hq, h1⟩

theorem unset_nil : ¬ SchemeSet [] := by rintro ⟨l, r, x, h, _⟩; exact nomatch h

theorem adopts_nil {doc x : Node} {c c' : List CiteLevel} (h : Adopts doc x c c') (hc : ¬ SchemeSet c) (hs : SchemeSet c') : Adopts doc x [] c' := by
  rcases h with ⟨h, _⟩ | ⟨_, _, rfl⟩ | ⟨_, h⟩
  · exact absurd h hc
  · exact absurd hs hc
  · exact .inr (.inr ⟨unset_nil, h⟩)

theorem adopts_from {doc x : Node} {c c' : List CiteLevel} (h : Adopts doc x [] c') (hs : SchemeSet c') (hc : ¬ SchemeSet c) : Adopts doc x c c' := by
  rcases h with ⟨h, _⟩ | ⟨_, _, rfl⟩ | ⟨_, h⟩
  · exact absurd h unset_nil
  · exact absurd hs unset_nil
  · exact .inr (.inr ⟨hc, h⟩)

theorem told_more {doc x : Node} {r : List (Str × Str)} (hr : r ∈ s.log) (ha : serve r = .ok doc) (hx : LabelOf r doc x) (h : OnlyTold serve g0 s)
    {s' : RemoteText} (hl : s'.log = s.log) {node : Term} (hg : ∀ t, t ∈ s'.graph ↔ t ∈ s.graph ∨ Tells x node t) : OnlyTold serve g0 s' := by
  refine ⟨fun t ht => (hg t).2 (.inl (h.1 t ht)), fun t ht => ?_⟩
  rcases (hg t).1 ht with ht | ht
  · rw [hl]; exact h.2 t ht
  · rw [hl]; exact .inr ⟨r, hr, doc, x, node, ha, hx, ht⟩

/-- Reading the label of a reply. -/
theorem take_known (ho : OneScheme serve d text scheme) {doc x : Node} {rest : List Node} {r : List (Str × Str)} (hr : r ∈ s.log)
    (ha : serve r = .ok doc) (hx : LabelOf r doc x) (h : KnownText serve scheme g0 u s) :
    (s.take doc (x :: rest)).2 = .ok () ∧ KnownText serve scheme g0 u (s.take doc (x :: rest)).1 ∧ (s.take doc (x :: rest)).1.log = s.log ∧
      Adopts doc x s.obj.cite (s.take doc (x :: rest)).1.obj.cite := by
  obtain ⟨h1, h2, h3, h4, h5⟩ := take_reads s doc x rest
  rcases h5 with ⟨h5, h6⟩ | ⟨_, h6, _⟩
  · refine ⟨h5, ⟨h1.trans h.urn, told_more hr ha hx h.told h2 h4, fun hs => ?_⟩, h2, h6⟩
    by_cases hc : SchemeSet s.obj.cite
    · rcases h6 with ⟨_, h6⟩ | ⟨h6, _⟩ | ⟨h6, _⟩
      · rw [h6]; exact h.cite hc
      · exact absurd hc h6
      · exact absurd hc h6
    · exact ho.same r doc x _ ha (.inr hx) (adopts_nil h6 hc hs) hs
  · exact absurd ⟨unset_nil, h6.2.1, h6.2.2⟩ (ho.here r doc x ha hx)

/-- The first element of a list, or `IndexError`. -/
def needs {α : Type} (l : List Node) (x : Except PyErr α) : Except PyErr α := if l = [] then .error .indexError else x

/-- Reading the first of these elements, then going on. -/
theorem reads_take (ho : OneScheme serve d text scheme) {α : Type} {doc : Node} {l : List Node} {r : List (Str × Str)} (hr : r ∈ s.log)
    (ha : serve r = .ok doc) (hx : ∀ x rest, l = x :: rest → LabelOf r doc x) (h : KnownText serve scheme g0 u s) (f : RemoteText → Except PyErr α)
    {want : Except PyErr α} (hf : f (s.take doc l).1 = want) {fin : RemoteText × Except PyErr α}
    (herr : ∀ x, (s.take doc l).2 = .error x → fin = ((s.take doc l).1, .error x))
    (hok : (s.take doc l).2 = .ok () → fin = ((s.take doc l).1, f (s.take doc l).1)) : ReadsText e serve scheme g0 u s fin (needs l want) := by
  cases l with
  | nil => rw [herr _ rfl]; exact runs_still h rfl
  | cons x rest =>
    obtain ⟨h1, h2, h3, _⟩ := take_known ho (rest := rest) hr ha (hx x rest rfl) h
    rw [hok h1, hf]
    exact ⟨h2, [], by rw [h3]; simp, .inl ⟨rfl, by simp⟩⟩

/-- What a request for the label is to give. -/
def seekLabel (serve : DocEndpoint) (d : Option Str) (u : Urn) : Except PyErr Unit :=
  u.str >>= fun t => serve (ctsLabel d t.1 none) >>= fun doc => needs (elementsIn ['t', 'i', ':', 'r', 'e', 'p', 'l', 'y'] ['t', 'i', ':', 'l', 'a', 'b', 'e', 'l'] doc) (.ok ())

theorem reads_label (ho : OneScheme serve d text scheme) (he : DocAtTimes e serve) (h : KnownText serve scheme g0 u s) :
    ReadsText e serve scheme g0 u s (s.getLabel e d) (seekLabel serve d u) := by
  unfold RemoteText.getLabel seekLabel
  obtain rfl := h.urn
  cases hu : s.urn.str with
  | error x => exact runs_still h rfl
  | ok t =>
    refine runs_ask (s1 := { s with log := s.log ++ [ctsLabel d t.1 none] }) he rfl (known_sent h _) ?_ ?_
    · intro x hx; simp only [hx]
    · intro doc h1 h2
      simp only [h1]
      refine reads_take ho (List.mem_append_right _ (List.mem_singleton.2 rfl)) h2 ?_ (known_sent h _) (fun _ => .ok ()) rfl ?_ ?_
      · intro x rest hx
        exact ⟨rest, .inl ⟨label_wants d _, by rw [← within_eq]; exact hx⟩⟩
      · intro x hx; exact Prod.ext rfl hx
      · intro hx; exact Prod.ext rfl hx

/-- What a request for references is to give. -/
def seekRefs (serve : DocEndpoint) (d : Option Str) (level : Int) (sub : Option Str) (u : Urn) : Except PyErr (List Str) :=
  u.str >>= fun t => serve (ctsValidReff d (withPassage t.1 sub) none (some level)) >>= fun doc =>
    needs (doc.allNodes.filter fun c => c.tag = ['t', 'i', ':', 'r', 'e', 'q', 'u', 'e', 's', 't']) (.ok ((replyOf doc).urns.map lastPart))

theorem reads_refs (ho : OneScheme serve d text scheme) (he : DocAtTimes e serve) {level : Int} (hl : level ≠ -1) (sub : Option Str)
    (h : KnownText serve scheme g0 u s) : ReadsText e serve scheme g0 u s (s.getValidReff e d level sub) (seekRefs serve d level sub u) := by
  unfold RemoteText.getValidReff seekRefs
  obtain rfl := h.urn
  cases hu : s.urn.str with
  | error x => exact runs_still h rfl
  | ok t =>
    have hlev : reffLevel (citeLen s.obj.cite) level = level := if_neg hl
    simp only [hlev]
    refine runs_ask (s1 := { s with log := s.log ++ [ctsValidReff d (withPassage t.1 sub) none (some level)] }) he rfl (known_sent h _) ?_ ?_
    · intro x hx; simp only [hx]
    · intro doc h1 h2
      simp only [h1]
      refine reads_take ho (List.mem_append_right _ (List.mem_singleton.2 rfl)) h2 ?_ (known_sent h _) (fun _ => .ok ((replyOf doc).urns.map lastPart)) rfl ?_ ?_
      · intro x rest hx
        exact ⟨rest, .inr ⟨refs_wants d _ _, by rw [← filter_named]; exact hx⟩⟩
      · intro x hx; split <;> simp_all
      · intro hx; split <;> simp_all

/-- What asking for the references at these levels is to give. -/
def seekLevels (serve : DocEndpoint) (d : Option Str) (u : Urn) : List Nat → Except PyErr (List Str)
  | [] => .ok []
  | i :: r => seekRefs serve d i none u >>= fun l => seekLevels serve d u r >>= fun l' => .ok (l ++ l')

theorem reads_levels (ho : OneScheme serve d text scheme) (he : DocAtTimes e serve) : ∀ (is : List Nat) (s : RemoteText), KnownText serve scheme g0 u s →
    ReadsText e serve scheme g0 u s (s.levels e d is) (seekLevels serve d u is)
  | [], s, h => runs_still h rfl
  | i :: r, s, h => by
    have h1 := reads_refs (e := e) ho he (level := i) (by omega) none h
    refine Runs.bind h1 ?_ ?_
    · intro x hx
      rw [RemoteText.levels]
      split <;> simp_all
    · intro l hl _
      have h2 := reads_levels ho he r _ h1.1
      refine Runs.bind h2 ?_ ?_
      · intro x hx
        rw [RemoteText.levels]
        have e1 : s.getValidReff e d i none = ((s.getValidReff e d i none).1, .ok l) := Prod.ext rfl hl
        rw [e1]
        dsimp only
        have e2 : RemoteText.levels e d r (s.getValidReff e d i none).1 = ((RemoteText.levels e d r (s.getValidReff e d i none).1).1, .error x) := Prod.ext rfl hx
        rw [e2]
      · intro l' hl' _
        have e1 : s.getValidReff e d i none = ((s.getValidReff e d i none).1, .ok l) := Prod.ext rfl hl
        have e2 : RemoteText.levels e d r (s.getValidReff e d i none).1 = ((RemoteText.levels e d r (s.getValidReff e d i none).1).1, .ok l') := Prod.ext rfl hl'
        rw [RemoteText.levels, e1]
        dsimp only
        rw [e2]
        exact runs_still h2.1 rfl

/-- What asking for all references is to give. -/
def seekAll (serve : DocEndpoint) (d : Option Str) (scheme : List CiteLevel) (u : Urn) : Except PyErr (List Str) :=
  seekLevels serve d u ((List.range (citeLen scheme)).map (· + 1))

theorem label_learns (ho : OneScheme serve d text scheme) (he : DocAtTimes e serve) (h : KnownText serve scheme g0 text s) (hc : ¬ SchemeSet s.obj.cite)
    (hok : (s.getLabel e d).2 = .ok ()) : (s.getLabel e d).1.obj.cite = scheme := by
  cases hu : text.str with
  | error x => simp only [RemoteText.getLabel, h.urn, hu] at hok; exact nomatch hok
  | ok t =>
    obtain ⟨doc, x, rest, h1, h2, h3⟩ := ho.label t.1 t.2 hu
    rw [← within_eq] at h2
    have h4 : e (ctsLabel d t.1 none) = .ok doc := by
      rcases he (ctsLabel d t.1 none) with h4 | ⟨y, h4⟩
      · rw [h4, h1]
      · simp only [RemoteText.getLabel, h.urn, hu, h4] at hok
        exact nomatch hok
    have h5 : s.getLabel e d = RemoteText.take { s with log := s.log ++ [ctsLabel d t.1 none] } doc (x :: rest) := by
      have h2' : elementsIn ['t', 'i', ':', 'r', 'e', 'p', 'l', 'y'] ['t', 'i', ':', 'l', 'a', 'b', 'e', 'l'] doc = x :: rest := h2
      simp only [RemoteText.getLabel, h.urn, hu, h4, h2']
    rw [h5]
    have h6 := (take_known ho (rest := rest) (List.mem_append_right _ (List.mem_singleton.2 rfl)) h1 ⟨rest, .inl ⟨label_wants d _, by rw [← within_eq]; exact h2⟩⟩
      (known_sent h (ctsLabel d t.1 none))).2.2.2
    exact adopts_unique h6 (adopts_from h3 ho.set hc)

theorem seekLabel_ok (ho : OneScheme serve d text scheme) {t : Str × Urn} (hu : text.str = .ok t) : seekLabel serve d text = .ok () := by
  obtain ⟨doc, x, rest, h1, h2, _⟩ := ho.label t.1 t.2 hu
  rw [← within_eq] at h2
  have h2' : elementsIn ['t', 'i', ':', 'r', 'e', 'p', 'l', 'y'] ['t', 'i', ':', 'l', 'a', 'b', 'e', 'l'] doc = x :: rest := h2
  simp [seekLabel, hu, h1, h2', needs, bind, Except.bind]

theorem seekAll_fails {x : PyErr} (hu : text.str = .error x) : seekAll serve d scheme text = .error x := by
  have hpos : 0 < citeLen scheme := by
    unfold citeLen
    split
    · omega
    · rename_i h
      exact List.length_pos_iff.2 h
  obtain ⟨n, hn⟩ : ∃ n, citeLen scheme = n + 1 := ⟨citeLen scheme - 1, by omega⟩
  rw [seekAll, hn, List.range_succ_eq_map]
  simp [seekLevels, seekRefs, hu, bind, Except.bind]

theorem reads_all (ho : OneScheme serve d text scheme) (he : DocAtTimes e serve) (h : KnownText serve scheme g0 text s) :
    ReadsText e serve scheme g0 text s (s.reffs e d) (seekAll serve d scheme text) := by
  unfold RemoteText.reffs
  by_cases hc : SchemeSet s.obj.cite
  · rw [if_pos ((citeIsSet_iff _).2 hc)]
    dsimp only
    rw [h.cite hc]
    exact reads_levels ho he _ s h
  · rw [if_neg fun hs => hc ((citeIsSet_iff _).1 hs)]
    have hw : seekAll serve d scheme text = (seekLabel serve d text >>= fun _ => seekAll serve d scheme text) := by
      cases hu : text.str with
      | error x =>
        rw [seekAll_fails hu]
        simp [seekLabel, hu, bind, Except.bind]
      | ok t => rw [seekLabel_ok ho hu]; rfl
    rw [hw]
    have h1 := reads_label (e := e) ho he h
    refine Runs.bind h1 ?_ ?_
    · intro x hx
      have e1 : s.getLabel e d = ((s.getLabel e d).1, .error x) := Prod.ext rfl hx
      rw [e1]
    · intro a ha _
      have e1 : s.getLabel e d = ((s.getLabel e d).1, .ok ()) := Prod.ext rfl ha
      rw [e1]
      dsimp only
      rw [label_learns ho he h hc ha]
      exact reads_levels ho he _ _ h1.1

/-! ### Passages -/

/-- What a passage of a reply is. -/
def seekOpened (urn : Str) (doc : Node) : Except PyErr OpenedPassage := openWhole urn doc (.bnode []) []

theorem openPassage_log (urn : Str) (a : CtsReply) (log : List (List (Str × Str))) :
    openPassage urn a log = (fun p => { p with log := log }) <$> openPassage urn a [] := by
  unfold openPassage
  cases Urn.parse urn with
  | error x => rfl
  | ok v =>
    dsimp only
    split <;> rfl

theorem openRemote_log (urn : Str) (doc : Node) (fresh : Term) (log : List (List (Str × Str))) :
    openRemote urn doc fresh log = (fun p => ({ p.1 with log := log }, { p.2 with node := fresh })) <$> openRemote urn doc (.bnode []) [] := by
  unfold openRemote
  rw [openPassage_log]
  cases openPassage urn (replyOf doc) [] with
  | error x => rfl
  | ok p =>
    cases adoptScheme doc doc [] with
    | error x => rfl
    | ok c => rfl

theorem openWhole_log (urn : Str) (doc : Node) (fresh : Term) (log : List (List (Str × Str))) :
    openWhole urn doc fresh log = (fun p => { p with nav := { p.nav with log := log }, obj := { p.obj with node := fresh } }) <$> seekOpened urn doc := by
  unfold seekOpened openWhole
  split
  · split <;> rfl
  · rw [openRemote_log]
    cases openRemote urn doc (.bnode []) [] with
    | error x => rfl
    | ok p => rfl

/-- What asking for a passage is to give. -/
def seekNode (serve : DocEndpoint) (d : Option Str) (arg : NodeArg) (u : Urn) : Except PyErr OpenedPassage :=
  nodeUrnOf u arg >>= fun urn => serve (ctsPassage d urn none none) >>= fun doc =>
    needs (doc.allNodes.filter fun c => c.tag = ['t', 'i', ':', 'r', 'e', 'q', 'u', 'e', 's', 't']) (anonymous <$> seekOpened urn doc)

theorem opened_anonymous (urn : Str) (doc : Node) (fresh : Term) (log : List (List (Str × Str))) :
    anonymous <$> openWhole urn doc fresh log = anonymous <$> seekOpened urn doc := by
  rw [openWhole_log]
  cases seekOpened urn doc with
  | error x => rfl
  | ok p => rfl

theorem reads_node (ho : OneScheme serve d text scheme) (he : DocAtTimes e serve) (arg : NodeArg) (fresh : Term) (h : KnownText serve scheme g0 u s) :
    ReadsText e serve scheme g0 u s ((s.getNode e d arg fresh).1, anonymous <$> (s.getNode e d arg fresh).2) (seekNode serve d arg u) := by
  unfold RemoteText.getNode seekNode
  obtain rfl := h.urn
  cases hu : nodeUrnOf s.urn arg with
  | error x => exact runs_still h rfl
  | ok t =>
    refine runs_ask (s1 := { s with log := s.log ++ [ctsPassage d t none none] }) he rfl (known_sent h _) ?_ ?_
    · intro x hx; simp only [hx]; rfl
    · intro doc h1 h2
      simp only [h1]
      refine reads_take ho (List.mem_append_right _ (List.mem_singleton.2 rfl)) h2 ?_ (known_sent h _)
        (fun s => anonymous <$> openWhole t doc fresh s.log) (opened_anonymous t doc fresh _) ?_ ?_
      · intro x rest hx
        exact ⟨rest, .inr ⟨passage_wants d _, by rw [← filter_named]; exact hx⟩⟩
      · intro x hx
        split
        · simp_all
        · simp_all
      · intro hx; split <;> simp_all

/-- A passage that is given has the requests so far, and the scheme if any is set. -/
theorem node_passage (ho : OneScheme serve d text scheme) (he : DocAtTimes e serve) {arg : NodeArg} {fresh : Term} {p : OpenedPassage}
    (hp : (s.getNode e d arg fresh).2 = .ok p) : p.nav.log = (s.getNode e d arg fresh).1.log ∧ (SchemeSet p.obj.cite → p.obj.cite = scheme) := by
  unfold RemoteText.getNode at hp ⊢
  cases hu : nodeUrnOf s.urn arg with
  | error x => rw [hu] at hp; exact nomatch hp
  | ok t =>
    rw [hu] at hp
    dsimp only at hp ⊢
    cases h1 : e (ctsPassage d t none none) with
    | error x => rw [h1] at hp; exact nomatch hp
    | ok doc =>
      rw [h1] at hp
      have h2 : serve (ctsPassage d t none none) = .ok doc := by
        rcases he (ctsPassage d t none none) with h2 | ⟨x, h2⟩
        · rw [← h2, h1]
        · rw [h1] at h2; exact nomatch h2
      dsimp only at hp ⊢
      split at hp
      · exact nomatch hp
      · rename_i s1 hs1
        dsimp only at hp ⊢
        unfold openWhole at hp
        split at hp
        · split at hp <;> exact nomatch hp
        · split at hp
          · exact nomatch hp
          · rename_i q o hq
            cases hp
            unfold openRemote at hq
            split at hq
            · exact nomatch hq
            · rename_i q' hq'
              split at hq
              · exact nomatch hq
              · rename_i c hc
                cases hq
                constructor
                · rw [openPassage_log] at hq'
                  revert hq'
                  cases openPassage t (replyOf doc) [] with
                  | error x => intro hq'; exact nomatch hq'
                  | ok w => intro hq'; cases hq'; rfl
                · intro hs
                  rcases adoptScheme_spec doc doc [] with ⟨c', e1, h3⟩ | ⟨e1, _⟩
                  · rw [hc] at e1
                    cases e1
                    exact ho.same _ doc doc _ h2 (.inl rfl) h3 hs
                  · rw [hc] at e1; exact nomatch e1

/-- What the loop of the export is to give. -/
def seekLoop (serve : DocEndpoint) (d : Option Str) (exclude : List Str) (u : Urn) : NDict Str → List Str → Except PyErr (NDict Str)
  | dict, [] => .ok dict
  | dict, reff :: r => seekNode serve d (.list (split '.' reff)) u >>= fun p =>
      nestedSet dict (split '.' reff) (.leaf (p.plain exclude)) >>= fun dict => seekLoop serve d exclude u dict r

theorem reads_loop (ho : OneScheme serve d text scheme) (he : DocAtTimes e serve) (fresh : Nat → Term) (exclude : List Str) :
    ∀ (l : List Str) (dict : NDict Str) (s : RemoteText), KnownText serve scheme g0 u s →
      ReadsText e serve scheme g0 u s (s.nestedLoop e d fresh exclude dict l) (seekLoop serve d exclude u dict l)
  | [], dict, s, h => runs_still h rfl
  | reff :: r, dict, s, h => by
    have h1 := reads_node (e := e) ho he (.list (split '.' reff)) (fresh s.log.length) h
    refine Runs.bind h1 ?_ ?_
    · intro x hx
      rw [RemoteText.nestedLoop]
      split
      · rename_i s1 y hy
        rw [hy] at hx
        cases hx
        rw [hy]
      · rename_i s1 p hy
        rw [hy] at hx
        exact nomatch hx
    · intro q hq _
      rw [RemoteText.nestedLoop]
      cases hy : s.getNode e d (.list (split '.' reff)) (fresh s.log.length) with
      | mk s1 y =>
        rw [hy] at hq h1
        cases y with
        | error x => exact nomatch hq
        | ok p =>
          cases hq
          dsimp only
          have hpl : (anonymous p).plain exclude = p.plain exclude := rfl
          rw [hpl]
          cases hn : nestedSet dict (split '.' reff) (.leaf (p.plain exclude)) with
          | error x => exact runs_still h1.1 rfl
          | ok dict' => exact reads_loop ho he fresh exclude r dict' s1 h1.1

/-- What an export of a passage is to give. -/
def seekExport (serve : DocEndpoint) (d : Option Str) (output : TeiFormat) (exclude : List Str) (p : OpenedPassage) : Except PyErr Exported :=
  match output with
  | .etree => .ok (.tree p.element)
  | .plain => .ok (.text (p.plain exclude))
  | .nested => Exported.nested <$> (seekRefs serve d (remoteLevel p.nav.urn (citeLen p.obj.cite)) none p.nav.urn >>= fun l =>
      seekLoop serve d exclude p.nav.urn (.dict []) l)

theorem level_known (v : Urn) (n : Nat) : remoteLevel v n ≠ -1 := by
  unfold remoteLevel
  split <;> omega

theorem reads_passage (ho : OneScheme serve d text scheme) (he : DocAtTimes e serve) (fresh : Nat → Term) (output : TeiFormat) (exclude : List Str)
    {p : OpenedPassage} {g : Graph} (h : KnownText serve scheme g0 p.nav.urn (p.shared g)) :
    ReadsText e serve scheme g0 p.nav.urn (p.shared g) (p.export e d fresh output exclude g) (seekExport serve d output exclude p) := by
  cases output with
  | etree => exact runs_still h rfl
  | plain => exact runs_still h rfl
  | nested =>
    have h1 := reads_refs (e := e) ho he (level_known p.nav.urn (citeLen p.obj.cite)) none h
    have h2 : ReadsText e serve scheme g0 p.nav.urn (p.shared g) ((p.shared g).exportNested e d fresh exclude)
        (seekRefs serve d (remoteLevel p.nav.urn (citeLen p.obj.cite)) none p.nav.urn >>= fun l => seekLoop serve d exclude p.nav.urn (.dict []) l) := by
      have hd : (p.shared g).exportNested e d fresh exclude =
          match (p.shared g).getValidReff e d (remoteLevel p.nav.urn (citeLen p.obj.cite)) none with
          | (s, .error e) => (s, .error e)
          | (s, .ok l) => s.nestedLoop e d fresh exclude (.dict []) l := rfl
      rw [hd]
      refine Runs.bind h1 ?_ ?_
      · intro x hx; split <;> simp_all
      · intro l hl _
        cases hy : (p.shared g).getValidReff e d (remoteLevel p.nav.urn (citeLen p.obj.cite)) none with
        | mk s1 y =>
          rw [hy] at hl h1
          cases hl
          exact reads_loop ho he fresh exclude l _ s1 h1.1
    have h3 := Runs.map h2 Exported.nested
    have hd : p.export e d fresh .nested exclude g =
        (((p.shared g).exportNested e d fresh exclude).1, Exported.nested <$> ((p.shared g).exportNested e d fresh exclude).2) := by
      rw [OpenedPassage.export]
      cases (p.shared g).exportNested e d fresh exclude with
      | mk s1 y => cases y <;> rfl
    rw [hd]
    exact h3

theorem reads_export (ho : OneScheme serve d text scheme) (he : DocAtTimes e serve) (fresh : Nat → Term) (output : TeiFormat) (exclude : List Str)
    (h : KnownText serve scheme g0 u s) :
    ReadsText e serve scheme g0 u s (s.export e d fresh output exclude) (seekNode serve d .other u >>= seekExport serve d output exclude) := by
  have h1 := reads_node (e := e) ho he .other (fresh s.log.length) h
  refine Runs.bind h1 ?_ ?_
  · intro x hx
    rw [RemoteText.export]
    split
    · rename_i s1 y hy
      rw [hy] at hx
      cases hx
      rw [hy]
    · rename_i s1 p hy
      rw [hy] at hx
      exact nomatch hx
  · intro q hq _
    rw [RemoteText.export]
    have hpass := fun p => node_passage (s := s) ho he (arg := .other) (fresh := fresh s.log.length) (p := p)
    cases hy : s.getNode e d .other (fresh s.log.length) with
    | mk s1 y =>
      rw [hy] at hq h1
      cases y with
      | error x => exact nomatch hq
      | ok p =>
        rw [hy] at hpass
        obtain ⟨h2, h3⟩ := hpass p rfl
        cases hq
        dsimp only at h2 ⊢
        have hk : KnownText serve scheme g0 p.nav.urn (p.shared s1.graph) := by
          refine ⟨rfl, ⟨h1.1.told.1, ?_⟩, h3⟩
          have := h1.1.told.2
          rw [OpenedPassage.shared, h2]
          exact this
        obtain ⟨h4, made, h5, h6⟩ := reads_passage (e := e) ho he fresh output exclude hk
        refine ⟨⟨h1.1.urn, h4.told, h1.1.cite⟩, made, ?_, ?_⟩
        · show (p.export e d fresh output exclude s1.graph).1.log = s1.log ++ made
          rw [h5, OpenedPassage.shared, h2]
        · exact h6

/-- What asking for a passage with its label is to give. -/
def seekPlus (serve : DocEndpoint) (d : Option Str) (sub : Option Str) (u : Urn) : Except PyErr (RemotePassage × List CiteLevel) :=
  u.str >>= fun t => serve (ctsPassagePlus d (withPassage t.1 sub) none none) >>= fun doc =>
    openRemote (withPassage t.1 sub) doc (.bnode []) [] >>= fun po =>
      match elementsIn ['t', 'i', ':', 'r', 'e', 'p', 'l', 'y'] ['t', 'i', ':', 'l', 'a', 'b', 'e', 'l'] doc with
      | [] => .error .indexError
      | x :: _ => (fun c => (unlogged po.1, c)) <$> adoptScheme doc x po.2.cite

theorem reads_plus (ho : OneScheme serve d text scheme) (he : DocAtTimes e serve) (sub : Option Str) (fresh : Term) (h : KnownText serve scheme g0 u s) :
    ReadsText e serve scheme g0 u s ((s.getPassagePlus e d sub fresh).1, (fun p => (unlogged p.1, p.2.cite)) <$> (s.getPassagePlus e d sub fresh).2)
      (seekPlus serve d sub u) := by
  unfold RemoteText.getPassagePlus seekPlus
  obtain rfl := h.urn
  cases hu : s.urn.str with
  | error x => exact runs_still h rfl
  | ok t =>
    dsimp only
    refine runs_ask (s1 := { s with log := s.log ++ [ctsPassagePlus d (withPassage t.1 sub) none none] }) he rfl (known_sent h _) ?_ ?_
    · intro x hx; simp only [hx]; rfl
    · intro doc h1 h2
      have hs := known_sent h (ctsPassagePlus d (withPassage t.1 sub) none none)
      simp only [h1]
      rw [openRemote_log]
      have hadopt : ∀ po, openRemote (withPassage t.1 sub) doc (.bnode []) [] = .ok po → SchemeSet po.2.cite → po.2.cite = scheme := by
        intro po hpo hset
        unfold openRemote at hpo
        split at hpo
        · exact nomatch hpo
        · split at hpo
          · exact nomatch hpo
          · rename_i c hc
            cases hpo
            rcases adoptScheme_spec doc doc [] with ⟨c', e1, h3⟩ | ⟨e1, _⟩
            · rw [hc] at e1
              cases e1
              exact ho.same _ doc doc _ h2 (.inl rfl) h3 hset
            · rw [hc] at e1; exact nomatch e1
      cases hop : openRemote (withPassage t.1 sub) doc (.bnode []) [] with
      | error x => exact runs_still hs rfl
      | ok po =>
        show ReadsText e serve scheme g0 s.urn _ _ (match elementsIn ['t', 'i', ':', 'r', 'e', 'p', 'l', 'y'] ['t', 'i', ':', 'l', 'a', 'b', 'e', 'l'] doc with
          | [] => .error .indexError
          | x :: _ => (fun c => (unlogged po.1, c)) <$> adoptScheme doc x po.2.cite)
        simp only [Functor.map, Except.map]
        cases hl : elementsIn ['t', 'i', ':', 'r', 'e', 'p', 'l', 'y'] ['t', 'i', ':', 'l', 'a', 'b', 'e', 'l'] doc with
        | nil => exact runs_still hs rfl
        | cons x rest =>
          have hx : LabelOf (ctsPassagePlus d (withPassage t.1 sub) none none) doc x := ⟨rest, .inl ⟨plus_wants d _, by rw [← within_eq]; exact hl⟩⟩
          simp only [parseRequest]
          rcases adoptScheme_spec doc x po.2.cite with ⟨c', e1, h3⟩ | ⟨e1, h3⟩
          · simp only [e1]
            refine ⟨⟨rfl, told_more (List.mem_append_right _ (List.mem_singleton.2 rfl)) h2 hx hs.told rfl fun t => mem_requestMeta, ?_⟩, [], by simp, .inl ⟨rfl, by simp⟩⟩
            intro hset
            by_cases hc : SchemeSet po.2.cite
            · rcases h3 with ⟨_, h6⟩ | ⟨h6, _⟩ | ⟨h6, _⟩
              · show c' = scheme
                rw [h6]; exact hadopt po hop hc
              · exact absurd hc h6
              · exact absurd hc h6
            · exact ho.same _ doc x _ h2 (.inr hx) (adopts_nil h3 hc hset) hset
          · exact absurd ⟨unset_nil, h3.2.1, h3.2.2⟩ (ho.here _ doc x h2 hx)

/-- What something asked of the text is to give. -/
def seekOp (serve : DocEndpoint) (d : Option Str) (scheme : List CiteLevel) (u : Urn) : TextOp → Except PyErr TextAnswer
  | .label => (fun _ => .done) <$> seekLabel serve d u
  | .reffs => .refs <$> seekAll serve d scheme u
  | .refs level sub => .refs <$> seekRefs serve d (remoteLevel u level) sub u
  | .node arg => .passage <$> seekNode serve d arg u
  | .plus sub => (fun p => .labelled p.1 p.2) <$> seekPlus serve d sub u
  | .export output exclude => .exported <$> (seekNode serve d .other u >>= seekExport serve d output exclude)

theorem reads_op (ho : OneScheme serve d text scheme) (he : DocAtTimes e serve) (fresh : Nat → Term) (h : KnownText serve scheme g0 text s) (op : TextOp) :
    ReadsText e serve scheme g0 text s (askText e d fresh s op) (seekOp serve d scheme text op) := by
  cases op with
  | label => exact (reads_label ho he h).map _
  | reffs => exact (reads_all ho he h).map _
  | refs level sub =>
    have h1 := (reads_refs (e := e) ho he (level_known s.urn level) sub h).map TextAnswer.refs
    rw [h.urn] at h1
    show ReadsText e serve scheme g0 text s (((s.getValidReff e d (remoteLevel s.urn level) sub)).1, TextAnswer.refs <$> (s.getValidReff e d (remoteLevel s.urn level) sub).2) _
    rw [h.urn]
    exact h1
  | node arg =>
    have h1 := (reads_node (e := e) ho he arg (fresh s.log.length) h).map TextAnswer.passage
    rw [← comp_map] at h1
    exact h1
  | plus sub =>
    have h1 := (reads_plus (e := e) ho he sub (fresh s.log.length) h).map fun p => TextAnswer.labelled p.1 p.2
    rw [← comp_map] at h1
    exact h1
  | «export» output exclude => exact (reads_export ho he fresh output exclude h).map _

end

end Verif.Lemmas
