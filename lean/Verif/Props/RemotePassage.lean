import Verif.Lemmas.RemotePassage
import Verif.Props.Retriever
/-!
C62: what a remote passage asks the endpoint, C69: navigating from passage to passage, C70: the resolver of CTS endpoints.
-/
namespace Verif.Props
open Verif.Py Verif.Model Verif.Spec

/-- A text to show that the hypotheses below are met. -/
def demoParts : UrnParts := ⟨"cts".toList, "latinLit".toList, some "phi1294".toList, some "phi002".toList, some "lat2".toList, none⟩
/-- Its URN. -/
def demoText : Str := "urn:cts:latinLit:phi1294.phi002.lat2".toList

theorem demo_text : IsTextUrn demoText demoParts :=
  ⟨⟨by decide, by decide, by decide, by decide, by decide, by decide, by decide, by decide, by decide⟩, by decide, by decide, by decide⟩

/-- A reply with the siblings of `1.2` among `1.1`, `1.2`, `1.3`. -/
def demoReply (pn : Option (Option Str × Option Str)) : CtsReply :=
  ⟨true, pn, ["urn:cts:latinLit:phi1294.phi002.lat2:1.2.1".toList, "urn:cts:latinLit:phi1294.phi002.lat2:1.2.2".toList], [], true⟩

/-! ## C62 -/

theorem readSib_known {serve : CtsEndpoint} {d : Option Str} {s : RemotePassage} (hp : s.prev ≠ .unknown) (hn : s.next ≠ .unknown)
    (r : SibRead) : readSib serve d s r = (s, .ok (r.of s.prev s.next)) := by
  cases r <;> simp [readSib, RemotePassage.prevId, RemotePassage.nextId, RemotePassage.siblingsId, hp, hn, SibRead.of]

theorem readSibs_known {d : Option Str} {s : RemotePassage} (hp : s.prev ≠ .unknown) (hn : s.next ≠ .unknown)
    (history : List (CtsEndpoint × SibRead)) :
    readSibs d s history = (s, history.map fun h => .ok (h.2.of s.prev s.next)) := by
  induction history with
  | nil => rfl
  | cons h t ih => simp [readSibs, readSib_known hp hn, ih]

theorem readSib_unknown {serve : CtsEndpoint} {d : Option Str} {s : RemotePassage} (hp : s.prev = .unknown) (hn : s.next = .unknown)
    (r : SibRead) : readSib serve d s r = ((s.fetch serve d).1, (fun _ => r.of (s.fetch serve d).1.prev (s.fetch serve d).1.next) <$> (s.fetch serve d).2) := by
  cases r <;> simp only [readSib, RemotePassage.prevId, RemotePassage.nextId, RemotePassage.siblingsId, hp, hn, if_true, true_or, or_true]
  all_goals
    cases hf : s.fetch serve d with
    | mk s' o => cases o <;> simp [SibRead.of]

theorem openPassage_ok {urn : Str} {reply : CtsReply} {log : List (List (Str × Str))} {s : RemotePassage}
    (h : openPassage urn reply log = .ok s) :
    Urn.parse urn = .ok s.urn ∧ s.prev = (readPrevNext reply).1 ∧ s.next = (readPrevNext reply).2 ∧ s.log = log ∧
      s.first = none ∧ s.last = none ∧ s.kids = none ∧ reply.hasText = true := by
  unfold openPassage at h
  split at h
  · cases h
  · rename_i u hu
    split at h
    · rename_i ht; cases h; exact ⟨hu, rfl, rfl, rfl, rfl, rfl, rfl, ht⟩
    · cases h

theorem readPrevNext_some {reply : CtsReply} {p n : Option Str} (h : reply.prevNext = some (p, n)) :
    readPrevNext reply = (.ofText p, .ofText n) := by rw [readPrevNext, h]

/-- C62. A passage whose reply announced its siblings: any sequence of readings of the previous, of the next or of both
identifiers asks the endpoint nothing, whatever the endpoint has become, and gives what was announced. -/
theorem C62_announced (d : Option Str) (urn : Str) (reply : CtsReply) (log : List (List (Str × Str))) (s : RemotePassage)
    (p n : Option Str) (hs : openPassage urn reply log = .ok s) (hr : reply.prevNext = some (p, n)) :
    ∃ x y, Announced p x ∧ Announced n y ∧ ∀ history : List (CtsEndpoint × SibRead),
      (readSibs d s history).1.log = log ∧ (readSibs d s history).2 = history.map fun h => .ok (h.2.of x y) := by
  obtain ⟨_, hp, hn, hl, _⟩ := openPassage_ok hs
  rw [readPrevNext_some hr] at hp hn
  refine ⟨_, _, ofText_announced p, ofText_announced n, fun history => ?_⟩
  rw [readSibs_known (hp ▸ announced_ne (ofText_announced p)) (hn ▸ announced_ne (ofText_announced n)), hp, hn]
  exact ⟨hl, rfl⟩

example : ∃ s, openPassage (demoText ++ ":1.2".toList) (demoReply (some (some (demoText ++ ":1.1".toList), none))) [] = .ok s ∧
    readSibs none s [(fun _ => .error .valueError, .both), (fun _ => .error .valueError, .prev)] =
      (s, [.ok [.known "1.1".toList, .absent], .ok [.known "1.1".toList]]) := ⟨_, rfl, rfl⟩

theorem fetch_passage {serve : CtsEndpoint} {d : Option Str} {text : Str} {parts : UrnParts} (ht : IsTextUrn text parts) {r : Str}
    (hr : PlainRef r) {s : RemotePassage} (hu : Urn.parse (text ++ ':' :: r) = .ok s.urn) :
    s.fetch serve d = (match serve (ctsPrevNextUrn d (text ++ ':' :: r) none) with
      | .error e => ({ s with log := s.log ++ [ctsPrevNextUrn d (text ++ ':' :: r) none] }, .error e)
      | .ok reply => ({ s with log := s.log ++ [ctsPrevNextUrn d (text ++ ':' :: r) none], prev := (readPrevNext reply).1, next := (readPrevNext reply).2 }, .ok ())) := by
  obtain ⟨u, hu', h1, _, _, h2⟩ := parse_passage ht hr
  rw [hu] at hu'; cases hu'
  have : prevNextRequest d s.urn (optRefText s.urn.ref) = .ok (ctsPrevNextUrn d (text ++ ':' :: r) none) := by
    simp [prevNextRequest, h1, h2, bind, Except.bind, pure, Except.pure, colon]
  simp only [RemotePassage.fetch, this]
  cases serve (ctsPrevNextUrn d (text ++ ':' :: r) none) <;> rfl

/-- C62. A passage of a text whose reply announced no siblings: the first reading asks for the siblings of the passage
(`C57_requests` gives the content of the request); when they are announced then, every later reading asks nothing, whatever
the endpoint has become: one request in all. -/
theorem C62_asked_once (d : Option Str) (text r : Str) (parts : UrnParts) (ht : IsTextUrn text parts) (href : PlainRef r)
    (reply reply' : CtsReply) (log : List (List (Str × Str))) (s : RemotePassage) (p n : Option Str)
    (hs : openPassage (text ++ ':' :: r) reply log = .ok s) (hr : reply.prevNext = none)
    (serve : CtsEndpoint) (first : SibRead) (history : List (CtsEndpoint × SibRead))
    (hserve : serve (ctsPrevNextUrn d (text ++ ':' :: r) none) = .ok reply') (hr' : reply'.prevNext = some (p, n)) :
    ∃ x y, Announced p x ∧ Announced n y ∧
      (readSibs d s ((serve, first) :: history)).1.log = log ++ [ctsPrevNextUrn d (text ++ ':' :: r) none] ∧
      (readSibs d s ((serve, first) :: history)).2 = ((serve, first) :: history).map fun h => .ok (h.2.of x y) := by
  obtain ⟨hu, hp, hn, hl, _⟩ := openPassage_ok hs
  have hrn : readPrevNext reply = (.unknown, .unknown) := by rw [readPrevNext, hr]
  rw [hrn] at hp hn
  refine ⟨_, _, ofText_announced p, ofText_announced n, ?_⟩
  have hf := fetch_passage (serve := serve) (d := d) ht href hu
  rw [hserve] at hf
  simp only [readPrevNext_some hr'] at hf
  simp only [readSibs, readSib_unknown hp hn, hf]
  rw [readSibs_known (s := { s with log := s.log ++ [ctsPrevNextUrn d (text ++ ':' :: r) none], prev := .ofText p, next := .ofText n })
    (announced_ne (ofText_announced p)) (announced_ne (ofText_announced n))]
  exact ⟨by rw [hl], rfl⟩

example : ∃ s, openPassage (demoText ++ ":1.2".toList) (demoReply none) [] = .ok s ∧ PlainRef "1.2".toList ∧
    (readSibs none s [(fun _ => .error .valueError, .next), (fun _ => .ok (demoReply (some (some (demoText ++ ":1.1".toList), none))), .next),
      (fun _ => .error .valueError, .both)]).2 = [.error .valueError, .ok [.absent], .ok [.known "1.1".toList, .absent]] :=
  ⟨_, rfl, by decide, rfl⟩

/-- C62. A reading whose request fails reports the failure and remembers nothing but the request, so that the next reading
asks again. -/
theorem C62_failure (d : Option Str) (text r : Str) (parts : UrnParts) (ht : IsTextUrn text parts) (href : PlainRef r)
    (reply : CtsReply) (log : List (List (Str × Str))) (s : RemotePassage)
    (hs : openPassage (text ++ ':' :: r) reply log = .ok s) (hr : reply.prevNext = none)
    (serve : CtsEndpoint) (e : PyErr) (first : SibRead) (hserve : serve (ctsPrevNextUrn d (text ++ ':' :: r) none) = .error e) :
    (readSib serve d s first).2 = .error e ∧
    openPassage (text ++ ':' :: r) reply (log ++ [ctsPrevNextUrn d (text ++ ':' :: r) none]) = .ok (readSib serve d s first).1 := by
  obtain ⟨hu, hp, hn, hl, h1, h2, h3, h4⟩ := openPassage_ok hs
  have hrn : readPrevNext reply = (.unknown, .unknown) := by rw [readPrevNext, hr]
  rw [hrn] at hp hn
  have hf := fetch_passage (serve := serve) (d := d) ht href hu
  rw [hserve] at hf
  simp only [readSib_unknown hp hn, hf]
  refine ⟨rfl, ?_⟩
  simp only [openPassage, hu, h4, if_true, hrn]
  obtain ⟨a, b, c, d', e', f, g⟩ := s
  simp only at hp hn hl h1 h2 h3
  subst hp hn hl h1 h2 h3
  rfl

example : ∃ s, openPassage (demoText ++ ":1.2".toList) (demoReply none) [] = .ok s ∧
    (readSib (fun _ => .error .valueError) none s .both).2 = .error .valueError := ⟨_, rfl, rfl⟩

/-- C62, where the code departs from the natural claim: an endpoint that answers without announcing siblings is asked again
at every reading, and what is read is neither an identifier nor the absence of one. -/
theorem C62_never_announced (d : Option Str) (text r : Str) (parts : UrnParts) (ht : IsTextUrn text parts) (href : PlainRef r)
    (reply : CtsReply) (log : List (List (Str × Str))) (s : RemotePassage)
    (hs : openPassage (text ++ ':' :: r) reply log = .ok s) (hr : reply.prevNext = none)
    (history : List (CtsEndpoint × SibRead))
    (hserve : ∀ h ∈ history, ∃ a, h.1 (ctsPrevNextUrn d (text ++ ':' :: r) none) = .ok a ∧ a.prevNext = none) :
    (readSibs d s history).1.log = log ++ List.replicate history.length (ctsPrevNextUrn d (text ++ ':' :: r) none) ∧
    (readSibs d s history).2 = history.map fun h => .ok (h.2.of .unknown .unknown) := by
  obtain ⟨hu, hp, hn, hl, hrest⟩ := openPassage_ok hs
  have hrn : readPrevNext reply = (.unknown, .unknown) := by rw [readPrevNext, hr]
  rw [hrn] at hp hn
  clear hs hrest
  induction history generalizing s log with
  | nil => exact ⟨by simp [readSibs, hl], rfl⟩
  | cons h t ih =>
    obtain ⟨a, ha, hb⟩ := hserve h (by simp)
    have hf := fetch_passage (serve := h.1) (d := d) ht href hu
    have hrn' : readPrevNext a = (.unknown, .unknown) := by rw [readPrevNext, hb]
    rw [ha] at hf
    simp only [hrn'] at hf
    have := ih (log ++ [ctsPrevNextUrn d (text ++ ':' :: r) none])
      { s with log := s.log ++ [ctsPrevNextUrn d (text ++ ':' :: r) none], prev := .unknown, next := .unknown }
      (fun x hx => hserve x (by simp [hx])) hu rfl rfl (by rw [hl])
    simp only [readSibs, readSib_unknown hp hn, hf]
    refine ⟨?_, ?_⟩
    · rw [this.1, List.append_assoc]; rfl
    · rw [this.2]; rfl

example : ∃ s, openPassage (demoText ++ ":1.2".toList) (demoReply none) [] = .ok s ∧
    (readSibs none s [(fun _ => .ok (demoReply none), .next), (fun _ => .ok (demoReply none), .next)]).1.log.length = 2 :=
  ⟨_, rfl, rfl⟩

/-- C62. The identifier of the first unit is asked for once: the URN of the passage is asked for with `GetFirstUrn`, the
answer is the passage of the first URN of the reply, or the absence of one, and it is given again without a request. -/
theorem C62_first (serve serve' : CtsEndpoint) (d : Option Str) (urn : Str) (reply a : CtsReply) (log : List (List (Str × Str)))
    (s : RemotePassage) (hurn : '#' ∉ urn) (hs : openPassage urn reply log = .ok s) (ha : serve (ctsFirstUrn d urn none) = .ok a) :
    ∃ s' f, s.firstId serve d = (s', .ok f) ∧ s'.log = log ++ [ctsFirstUrn d urn none] ∧ s'.firstId serve' d = (s', .ok f) ∧
      (match a.topUrns with
       | [] => f = none
       | u :: _ => ∃ v, f = some v ∧ AfterLastColon u v) := by
  obtain ⟨hu, _, _, hl, h1, _⟩ := openPassage_ok hs
  obtain ⟨u', hu'⟩ := C10_urn_round_trip_plain urn hurn _ hu
  refine ⟨{ s with log := s.log ++ [ctsFirstUrn d urn none], first := some (readFirst a) }, readFirst a, ?_, by rw [hl], rfl, ?_⟩
  · simp only [RemotePassage.firstId, h1, hu', ha]
  · cases h : a.topUrns with
    | nil => simp [readFirst, h]
    | cons x t => exact ⟨lastPart x, by simp [readFirst, h], lastPart_spec x⟩

example : ∃ s, openPassage (demoText ++ ":1.2".toList) (demoReply none) [] = .ok s ∧
    (s.firstId (fun _ => .ok { demoReply none with topUrns := [demoText ++ ":1.2.1".toList] }) none).2 = .ok (some "1.2.1".toList) := ⟨_, rfl, rfl⟩

/-- C62. The identifiers of the units inside are asked for once, for the URN of the passage and one level below it; they
are the passages of the URNs of the reply, in its order; the last identifier is the last of them and costs no request
beyond that one. Where the code departs from the natural claim: without units inside, the last identifier is an
`IndexError`. -/
theorem C62_children (serve serve' : CtsEndpoint) (d : Option Str) (deepest : Nat) (text : Str) (cs : List Str) (parts : UrnParts)
    (ht : IsTextUrn text parts) (hcs : UrnComponents cs) (reply a : CtsReply) (log : List (List (Str × Str))) (s : RemotePassage)
    (hs : openPassage (text ++ ':' :: dotted cs) reply log = .ok s)
    (ha : serve (ctsValidReff d (text ++ ':' :: dotted cs) none (some ((cs.length + 1 : Nat) : Int))) = .ok a) (hreq : a.hasRequest = true) :
    ∃ s' ids, s.childIds serve d deepest = (s', .ok ids) ∧
      s'.log = log ++ [ctsValidReff d (text ++ ':' :: dotted cs) none (some ((cs.length + 1 : Nat) : Int))] ∧
      PassagesOf a.urns ids ∧
      s'.childIds serve' d deepest = (s', .ok ids) ∧
      (∀ x ∈ ids.getLast?, ∃ s'', s'.lastId serve' d deepest = (s'', .ok x) ∧ s''.log = s'.log ∧
        s.lastId serve d deepest = (s'', .ok x) ∧ s''.lastId serve' d deepest = (s'', .ok x)) ∧
      (ids = [] → s'.lastId serve' d deepest = (s', .error .indexError)) := by
  obtain ⟨hu, _, _, hl, _, h2, h3, _⟩ := openPassage_ok hs
  have hc : ∀ c ∈ cs, IsComponent c := fun c hc => (hcs.2 c hc).1
  have hr := parse_passage_ref ht (plainRef_dotted hcs) hu
  rw [mkRef_dotted hcs.1 hc] at hr
  injection hr with hr
  obtain ⟨u, hu', _, _, hstr, _⟩ := parse_passage ht (plainRef_dotted hcs)
  rw [hu] at hu'; cases hu'
  have hlev : remoteLevel s.urn 1 = ((cs.length + 1 : Nat) : Int) := by
    simp only [remoteLevel, ← hr, Ref.depth, Ref.highest, plist_dotted hcs.1 hc]
    omega
  have hk : s.childIds serve d deepest = ({ s with log := s.log ++ [ctsValidReff d (text ++ ':' :: dotted cs) none (some ((cs.length + 1 : Nat) : Int))], kids := some (a.urns.map lastPart) }, .ok (a.urns.map lastPart)) := by
    have hlv : reffLevel deepest ((cs.length + 1 : Nat) : Int) = ((cs.length + 1 : Nat) : Int) := by
      rw [reffLevel, if_neg (by omega)]
    simp only [RemotePassage.childIds, h3, hstr, hlev, remoteValidReff, withPassage, hlv, ha, hreq, if_true]
  refine ⟨_, _, hk, by rw [hl], lastParts_spec _, rfl, fun x hx => ?_, fun hx => ?_⟩
  · refine ⟨{ s with log := s.log ++ [ctsValidReff d (text ++ ':' :: dotted cs) none (some ((cs.length + 1 : Nat) : Int))], kids := some (a.urns.map lastPart), last := some x }, ?_, rfl, ?_, rfl⟩
    · simp only [RemotePassage.lastId, h2, RemotePassage.childIds, Option.mem_def.1 hx]
    · simp only [RemotePassage.lastId, h2, hk, Option.mem_def.1 hx]
  · simp only [RemotePassage.lastId, h2, RemotePassage.childIds, hx, List.getLast?_nil]

example : ∃ s, openPassage (demoText ++ ":1.2".toList) (demoReply none) [] = .ok s ∧ UrnComponents ["1".toList, "2".toList] ∧
    (s.childIds (fun _ => .ok (demoReply none)) none 3).2 = .ok ["1.2.1".toList, "1.2.2".toList] ∧
    (s.lastId (fun _ => .ok (demoReply none)) none 3).2 = .ok "1.2.2".toList :=
  ⟨_, rfl, ⟨by decide, by decide⟩, rfl, rfl⟩

/-! ## C69 -/

/-- What holds of a passage obtained for the unit at a position: its URN, and siblings that are unknown or announced. -/
def AtPos (text : Str) (refs : List Str) (i : Nat) (s : RemotePassage) : Prop :=
  ∃ r, refs[i]? = some r ∧ Urn.parse (text ++ ':' :: r) = .ok s.urn ∧
    ((s.prev = .unknown ∧ s.next = .unknown) ∨ (Announced (urnBefore text refs i) s.prev ∧ Announced (urnAfter text refs i) s.next))

theorem node_atPos {serve : CtsEndpoint} {d : Option Str} {text : Str} {refs : List Str} {parts : UrnParts} (ht : IsTextUrn text parts)
    (h : ServesText serve d text refs) {u : Urn} (hu : u.upTo 10 = .ok text) {i : Nat} {r : Str} (hr : refs[i]? = some r)
    (log : List (List (Str × Str))) :
    ∃ s, remoteNode serve d u (some r) log = (log ++ [ctsPassage d (text ++ ':' :: r) none none], .ok s) ∧ AtPos text refs i s ∧
      s.log = log ++ [ctsPassage d (text ++ ':' :: r) none none] ∧
      ∃ reply, serve (ctsPassage d (text ++ ':' :: r) none none) = .ok reply ∧ s.prev = (readPrevNext reply).1 ∧ s.next = (readPrevNext reply).2 := by
  have hpl := h.plain r (List.mem_of_getElem? hr)
  obtain ⟨reply, h1, h2, h3, h4⟩ := h.passage i r hr
  obtain ⟨u', hu', _⟩ := parse_passage ht hpl
  refine ⟨⟨u', (readPrevNext reply).1, (readPrevNext reply).2, none, none, none, log ++ [ctsPassage d (text ++ ':' :: r) none none]⟩, ?_,
    ⟨r, hr, hu', ?_⟩, rfl, reply, h1, rfl, rfl⟩
  · have hn : nodeUrn u (some r) = .ok (text ++ ':' :: r) := by
      simp only [nodeUrn, if_neg hpl.2.1, hu, fmap_ok, colon]
    simp only [remoteNode, hn, h1, h2, if_true, openPassage, hu', h3]
  · rcases h4 with h4 | h4
    · left; simp [readPrevNext, h4]
    · right; simp only [readPrevNext_some h4]; exact ⟨ofText_announced _, ofText_announced _⟩

theorem fetch_atPos {serve : CtsEndpoint} {d : Option Str} {text : Str} {refs : List Str} {parts : UrnParts} (ht : IsTextUrn text parts)
    (h : ServesText serve d text refs) {i : Nat} {s : RemotePassage} (hs : AtPos text refs i s) :
    ∃ s', s.fetch serve d = (s', .ok ()) ∧ AtPos text refs i s' ∧ s'.urn = s.urn ∧
      Announced (urnBefore text refs i) s'.prev ∧ Announced (urnAfter text refs i) s'.next := by
  obtain ⟨r, hr, hu, _⟩ := hs
  obtain ⟨reply, h1, h2⟩ := h.siblings i r hr
  have hf := fetch_passage (serve := serve) (d := d) ht (h.plain r (List.mem_of_getElem? hr)) hu
  rw [h1] at hf
  simp only [readPrevNext_some h2] at hf
  exact ⟨_, hf, ⟨r, hr, hu, .inr ⟨ofText_announced _, ofText_announced _⟩⟩, rfl, ofText_announced _, ofText_announced _⟩

theorem announced_urn {text r : Str} {x : Sib} (hr : ':' ∉ r) (h : Announced (some (text ++ ':' :: r)) x) : x = .known r :=
  announced_unique h ⟨r, rfl, hr, .inr ⟨text, rfl⟩⟩

theorem goSibling_atPos {serve : CtsEndpoint} {d : Option Str} {text : Str} {refs : List Str} {parts : UrnParts} (ht : IsTextUrn text parts)
    (h : ServesText serve d text refs) {i : Nat} {s : RemotePassage} (hs : AtPos text refs i s)
    (which : RemotePassage → RemotePassage × Except PyErr Sib) (x : Sib) {s1 : RemotePassage}
    (h1 : which s = (s1, .ok x)) (h2 : which s1 = (s1, .ok x)) (hu : s1.urn = s.urn) (o : Option Nat)
    (hx : Announced (o.bind fun j => (refs[j]?).map fun r => text ++ ':' :: r) x) :
    (match (o.bind fun j => (refs[j]?).map fun r => (j, r)) with
     | none => (goSibling which serve d s).2 = .ok none
     | some (j, r) => ∃ s', (goSibling which serve d s).2 = .ok (some s') ∧ AtPos text refs j s' ∧ s'.log = s1.log ++ [ctsPassage d (text ++ ':' :: r) none none] ∧
        ∃ reply, serve (ctsPassage d (text ++ ':' :: r) none none) = .ok reply ∧ s'.prev = (readPrevNext reply).1 ∧ s'.next = (readPrevNext reply).2) := by
  obtain ⟨r0, hr0, hu0, _⟩ := hs
  obtain ⟨u', hu', _, hup, _⟩ := parse_passage ht (h.plain r0 (List.mem_of_getElem? hr0))
  rw [hu0] at hu'; cases hu'
  rw [← hu] at hup
  cases o with
  | none =>
    have : x = .absent := hx
    subst this
    simp only [Option.bind_none, goSibling, h1]
  | some j =>
    simp only [Option.bind_some] at hx ⊢
    cases hj : refs[j]? with
    | none =>
      rw [hj] at hx
      have : x = .absent := hx
      subst this
      simp only [Option.map_none, goSibling, h1]
    | some r =>
      rw [hj] at hx
      simp only [Option.map_some] at hx ⊢
      have := announced_urn (h.plain r (List.mem_of_getElem? hj)).2.1 hx
      subst this
      obtain ⟨s', he, hat, hl, hrep⟩ := node_atPos ht h hup hj s1.log
      refine ⟨s', ?_, hat, hl, hrep⟩
      simp only [goSibling, h1, h2, Sib.arg, he, fmap_ok]

theorem nextId_atPos {serve : CtsEndpoint} {d : Option Str} {text : Str} {refs : List Str} {parts : UrnParts} (ht : IsTextUrn text parts)
    (h : ServesText serve d text refs) {i : Nat} {s : RemotePassage} (hs : AtPos text refs i s) :
    ∃ s1 x, s.nextId serve d = (s1, .ok x) ∧ s1.nextId serve d = (s1, .ok x) ∧ s1.urn = s.urn ∧ Announced (urnAfter text refs i) x ∧
      (s.next ≠ .unknown → s1 = s) := by
  by_cases hn : s.next = .unknown
  · obtain ⟨s', hf, hat, hu, hp', hn'⟩ := fetch_atPos ht h hs
    refine ⟨s', s'.next, ?_, ?_, hu, hn', fun hc => absurd hn hc⟩
    · simp only [RemotePassage.nextId, hn, if_true, hf]
    · simp only [RemotePassage.nextId, announced_ne hn', if_false]
  · obtain ⟨r, hr, hu, hsib⟩ := hs
    rcases hsib with hsib | hsib
    · exact absurd hsib.2 hn
    · exact ⟨s, s.next, by simp only [RemotePassage.nextId, hn, if_false], by simp only [RemotePassage.nextId, hn, if_false], rfl, hsib.2, fun _ => rfl⟩

theorem prevId_atPos {serve : CtsEndpoint} {d : Option Str} {text : Str} {refs : List Str} {parts : UrnParts} (ht : IsTextUrn text parts)
    (h : ServesText serve d text refs) {i : Nat} {s : RemotePassage} (hs : AtPos text refs i s) :
    ∃ s1 x, s.prevId serve d = (s1, .ok x) ∧ s1.prevId serve d = (s1, .ok x) ∧ s1.urn = s.urn ∧ Announced (urnBefore text refs i) x ∧
      (s.prev ≠ .unknown → s1 = s) := by
  by_cases hn : s.prev = .unknown
  · obtain ⟨s', hf, hat, hu, hp', hn'⟩ := fetch_atPos ht h hs
    refine ⟨s', s'.prev, ?_, ?_, hu, hp', fun hc => absurd hn hc⟩
    · simp only [RemotePassage.prevId, hn, if_true, hf]
    · simp only [RemotePassage.prevId, announced_ne hp', if_false]
  · obtain ⟨r, hr, hu, hsib⟩ := hs
    rcases hsib with hsib | hsib
    · exact absurd hsib.1 hn
    · exact ⟨s, s.prev, by simp only [RemotePassage.prevId, hn, if_false], by simp only [RemotePassage.prevId, hn, if_false], rfl, hsib.1, fun _ => rfl⟩

/-- Where one move leads. -/
def moveTarget (i : Nat) : Move → Option Nat
  | .next => some (i + 1)
  | .prev => if i = 0 then none else some (i - 1)

theorem move_atPos {serve : CtsEndpoint} {d : Option Str} {text : Str} {refs : List Str} {parts : UrnParts} (ht : IsTextUrn text parts)
    (h : ServesText serve d text refs) {i : Nat} {s : RemotePassage} (hs : AtPos text refs i s) (m : Move) :
    ∃ s1, (s.prev ≠ .unknown → s.next ≠ .unknown → s1 = s) ∧
    (match ((moveTarget i m).bind fun j => (refs[j]?).map fun r => (j, r)) with
     | none => makeMove serve d s m = .ok none
     | some (j, r) => ∃ s', makeMove serve d s m = .ok (some s') ∧ AtPos text refs j s' ∧
        s'.log = s1.log ++ [ctsPassage d (text ++ ':' :: r) none none] ∧
        ∃ reply, serve (ctsPassage d (text ++ ':' :: r) none none) = .ok reply ∧ s'.prev = (readPrevNext reply).1 ∧ s'.next = (readPrevNext reply).2) := by
  cases m with
  | next =>
    obtain ⟨s1, x, h1, h2, hu, hx, h3⟩ := nextId_atPos ht h hs
    exact ⟨s1, fun _ hn => h3 hn, goSibling_atPos ht h hs (·.nextId serve d) x h1 h2 hu (some (i + 1)) hx⟩
  | prev =>
    obtain ⟨s1, x, h1, h2, hu, hx, h3⟩ := prevId_atPos ht h hs
    refine ⟨s1, fun hn _ => h3 hn, goSibling_atPos ht h hs (·.prevId serve d) x h1 h2 hu (moveTarget i .prev) ?_⟩
    simp only [moveTarget]
    by_cases hi : i = 0
    · simpa [urnBefore, hi] using hx
    · simpa [urnBefore, hi] using hx

theorem moved_cons (len i : Nat) (m : Move) (rest : List Move) :
    moved len i (m :: rest) = (moveTarget i m).bind fun j => if m = .prev ∨ j < len then moved len j rest else none := by
  cases m with
  | next => simp [moved, moveTarget]
  | prev => by_cases hi : i = 0 <;> simp [moved, moveTarget, hi]

theorem navigate_atPos {serve : CtsEndpoint} {d : Option Str} {text : Str} {refs : List Str} {parts : UrnParts} (ht : IsTextUrn text parts)
    (h : ServesText serve d text refs) (moves : List Move) {i : Nat} {s : RemotePassage} (hs : AtPos text refs i s) :
    match moved refs.length i moves with
    | none => navigate serve d moves s = .ok none
    | some j => ∃ s', navigate serve d moves s = .ok (some s') ∧ AtPos text refs j s' := by
  induction moves generalizing i s with
  | nil => exact ⟨s, rfl, hs⟩
  | cons m rest ih =>
    obtain ⟨s1, _, hm⟩ := move_atPos ht h hs m
    have hi : i < refs.length := by
      obtain ⟨r, hr, _⟩ := hs
      exact (List.getElem?_eq_some_iff.1 hr).1
    rw [moved_cons]
    cases htg : moveTarget i m with
    | none =>
      rw [htg] at hm
      simp only [Option.bind_none] at hm ⊢
      simp only [navigate, hm]
    | some j =>
      rw [htg] at hm
      simp only [Option.bind_some] at hm ⊢
      cases hj : refs[j]? with
      | none =>
        rw [hj] at hm
        simp only [Option.map_none] at hm
        have hjl : refs.length ≤ j := List.getElem?_eq_none_iff.1 hj
        have hmp : m ≠ .prev := by
          rintro rfl
          simp only [moveTarget] at htg
          split at htg
          · cases htg
          · cases htg; omega
        rw [if_neg (by simp [hmp]; omega)]
        simp only [navigate, hm]
      | some r =>
        rw [hj] at hm
        simp only [Option.map_some] at hm
        obtain ⟨s', he, hat, _⟩ := hm
        rw [if_pos (.inr (List.getElem?_eq_some_iff.1 hj).1)]
        have := ih hat
        simpa only [navigate, he] using this

theorem atPos_urn {text : Str} {refs : List Str} {parts : UrnParts} (ht : IsTextUrn text parts) (hpl : ∀ r ∈ refs, PlainRef r) {i : Nat}
    {s : RemotePassage} (hs : AtPos text refs i s) : ∃ r, refs[i]? = some r ∧ AtUrn s (text ++ ':' :: r) := by
  obtain ⟨r, hr, hu, _⟩ := hs
  obtain ⟨u', hu', _, _, hstr, _⟩ := parse_passage ht (hpl r (List.mem_of_getElem? hr))
  rw [hu] at hu'; cases hu'
  exact ⟨r, hr, _, hstr⟩

theorem remoteNode_log {serve : CtsEndpoint} {d : Option Str} {u : Urn} {sub : Option Str} {log l : List (List (Str × Str))} {p : RemotePassage}
    (h : remoteNode serve d u sub log = (l, .ok p)) : p.log = l := by
  unfold remoteNode at h
  split at h
  · cases h
  · simp only at h
    split at h
    · cases h
    · split at h
      · unfold openPassage at h
        split at h
        · cases h
        · split at h
          · cases h; rfl
          · cases h
      · cases h

/-- C69. The passage left and the passage reached by `next` or `prev` have one retriever: they see the same requests. -/
theorem C69_one_retriever (serve : CtsEndpoint) (d : Option Str) (s s1 s' : RemotePassage)
    (h : s.goNext serve d = (s1, .ok (some s')) ∨ s.goPrev serve d = (s1, .ok (some s'))) : s1.log = s'.log := by
  have main : ∀ which, goSibling which serve d s = (s1, .ok (some s')) → s1.log = s'.log := by
    intro which h
    unfold goSibling at h
    split at h
    · cases h
    · cases h
    · split at h
      · cases h
      · rename_i s2 v _
        cases hn : remoteNode serve d s2.urn v.arg s2.log with
        | mk l r =>
          simp only [hn] at h
          cases r with
          | error e => cases h
          | ok p =>
            cases h
            exact (remoteNode_log hn).symm
  rcases h with h | h <;> exact main _ h

/-- C69. Navigating an endpoint that has the units of a text in order, whether it announces siblings with the passages or
only when asked: the passage of any unit is obtained from the text; from it, any sequence of readings of `next` and `prev`
leads to the passage of the unit that lies there, and to `None` as soon as the sequence leaves the text. -/
theorem C69_navigation (serve : CtsEndpoint) (d : Option Str) (text : Str) (parts : UrnParts) (refs : List Str) (ht : IsTextUrn text parts)
    (h : ServesText serve d text refs) (u : Urn) (hu : Urn.parse text = .ok u) (i : Nat) (r : Str) (hr : refs[i]? = some r)
    (log : List (List (Str × Str))) :
    ∃ s, (remoteNode serve d u (some r) log).2 = .ok s ∧ AtUrn s (text ++ ':' :: r) ∧ ∀ moves,
      match moved refs.length i moves with
      | none => navigate serve d moves s = .ok none
      | some j => ∃ s' r', navigate serve d moves s = .ok (some s') ∧ refs[j]? = some r' ∧ AtUrn s' (text ++ ':' :: r') := by
  obtain ⟨u', hu', _, hup, _⟩ := parse_text ht
  rw [hu] at hu'; cases hu'
  obtain ⟨s, he, hat, _⟩ := node_atPos ht h hup hr log
  refine ⟨s, by rw [he], ?_, fun moves => ?_⟩
  · obtain ⟨r', hr', ha⟩ := atPos_urn ht h.plain hat
    rw [hr] at hr'; cases hr'; exact ha
  · have := navigate_atPos ht h moves hat
    split
    · rename_i hm; rw [hm] at this; exact this
    · rename_i j hm
      rw [hm] at this
      obtain ⟨s', h1, h2⟩ := this
      obtain ⟨r', hr', ha⟩ := atPos_urn ht h.plain h2
      exact ⟨s', r', h1, hr', ha⟩

/-- C69. When siblings are announced with the passages, a sequence of moves that stays in the text asks for the passages
that it visits, each time it visits them, and for nothing else. -/
theorem C69_requests (serve : CtsEndpoint) (d : Option Str) (text : Str) (parts : UrnParts) (refs : List Str) (ht : IsTextUrn text parts)
    (h : ServesText serve d text refs)
    (hann : ∀ r reply, r ∈ refs → serve (ctsPassage d (text ++ ':' :: r) none none) = .ok reply → reply.prevNext ≠ none)
    (u : Urn) (hu : Urn.parse text = .ok u) (i : Nat) (r : Str) (hr : refs[i]? = some r)
    (log : List (List (Str × Str))) (moves : List Move) (j : Nat) (hj : moved refs.length i moves = some j) :
    ∃ s s', (remoteNode serve d u (some r) log).2 = .ok s ∧ navigate serve d moves s = .ok (some s') ∧
      s'.log = log ++ ((i :: visited i moves).filterMap (refs[·]?)).map fun r => ctsPassage d (text ++ ':' :: r) none none := by
  obtain ⟨u', hu', _, hup, _⟩ := parse_text ht
  rw [hu] at hu'; cases hu'
  obtain ⟨s, he, hat, hl, reply, hrep, hp, hn⟩ := node_atPos ht h hup hr log
  have hknown : ∀ (s : RemotePassage) (r : Str) (reply : CtsReply), r ∈ refs → serve (ctsPassage d (text ++ ':' :: r) none none) = .ok reply →
      s.prev = (readPrevNext reply).1 → s.next = (readPrevNext reply).2 → s.prev ≠ .unknown ∧ s.next ≠ .unknown := by
    intro s r reply hm hs hp hn
    have := hann r reply hm hs
    cases hpn : reply.prevNext with
    | none => exact absurd hpn this
    | some pn =>
      rw [readPrevNext_some (p := pn.1) (n := pn.2) hpn] at hp hn
      exact ⟨hp ▸ announced_ne (ofText_announced _), hn ▸ announced_ne (ofText_announced _)⟩
  have hk := hknown s r reply (List.mem_of_getElem? hr) hrep hp hn
  suffices ∀ (moves : List Move) (i : Nat) (s : RemotePassage), AtPos text refs i s → s.prev ≠ .unknown ∧ s.next ≠ .unknown →
      ∀ j, moved refs.length i moves = some j → ∃ s', navigate serve d moves s = .ok (some s') ∧
        s'.log = s.log ++ ((visited i moves).filterMap (refs[·]?)).map fun r => ctsPassage d (text ++ ':' :: r) none none by
    obtain ⟨s', h1, h2⟩ := this moves i s hat hk j hj
    refine ⟨s, s', by rw [he], h1, ?_⟩
    rw [h2, hl, List.filterMap_cons, hr]
    simp
  clear hj j hk hn hp hrep reply hl hat he s hr r i moves
  intro moves
  induction moves with
  | nil => intro i s _ _ j _; exact ⟨s, rfl, by simp [visited]⟩
  | cons m rest ih =>
    intro i s hs hk j hj
    obtain ⟨s1, h1, hm⟩ := move_atPos ht h hs m
    have := h1 hk.1 hk.2
    subst this
    rw [moved_cons] at hj
    cases htg : moveTarget i m with
    | none => rw [htg] at hj; cases hj
    | some k =>
      rw [htg] at hj hm
      simp only [Option.bind_some] at hj hm
      cases hkr : refs[k]? with
      | none =>
        exfalso
        have hkl : refs.length ≤ k := List.getElem?_eq_none_iff.1 hkr
        have hi : i < refs.length := by
          obtain ⟨r, hr, _⟩ := hs
          exact (List.getElem?_eq_some_iff.1 hr).1
        cases m with
        | next => rw [if_neg (by simp; omega)] at hj; cases hj
        | prev =>
          simp only [moveTarget] at htg
          split at htg
          · cases htg
          · cases htg; omega
      | some r =>
        rw [hkr] at hm
        simp only [Option.map_some] at hm
        obtain ⟨s', he, hat, hl, reply, hrep, hp, hn⟩ := hm
        rw [if_pos (.inr (List.getElem?_eq_some_iff.1 hkr).1)] at hj
        obtain ⟨s2, hnav, hlog⟩ := ih k s' hat (hknown s' r reply (List.mem_of_getElem? hkr) hrep hp hn) j hj
        refine ⟨s2, by simpa only [navigate, he] using hnav, ?_⟩
        have hv : visited i (m :: rest) = k :: visited k rest := by
          cases m with
          | next => cases htg; rfl
          | prev =>
            simp only [moveTarget] at htg
            split at htg
            · cases htg
            · cases htg; rfl
        rw [hlog, hl, hv, List.filterMap_cons, hkr]
        simp

/-- An endpoint with three units, which announces siblings only when asked for them. -/
def demoServe : CtsEndpoint := fun r =>
  if r = ctsPrevNextUrn none (demoText ++ ":1.1".toList) none then .ok (demoReply (some (none, some (demoText ++ ":1.2".toList))))
  else if r = ctsPrevNextUrn none (demoText ++ ":1.2".toList) none then
    .ok (demoReply (some (some (demoText ++ ":1.1".toList), some (demoText ++ ":1.3".toList))))
  else if r = ctsPrevNextUrn none (demoText ++ ":1.3".toList) none then .ok (demoReply (some (some (demoText ++ ":1.2".toList), none)))
  else if r = ctsPassage none (demoText ++ ":1.2".toList) none none then
    .ok (demoReply (some (some (demoText ++ ":1.1".toList), some (demoText ++ ":1.3".toList))))
  else .ok (demoReply none)

theorem demo_serves : ServesText demoServe none demoText ["1.1".toList, "1.2".toList, "1.3".toList] := by
  refine ⟨by decide, fun i r h => ?_, fun i r h => ?_⟩
  · match i, h with
    | 0, h => cases h; exact ⟨_, rfl, rfl, rfl, .inl rfl⟩
    | 1, h => cases h; exact ⟨_, rfl, rfl, rfl, .inr rfl⟩
    | 2, h => cases h; exact ⟨_, rfl, rfl, rfl, .inl rfl⟩
    | _ + 3, h => cases h
  · match i, h with
    | 0, h => cases h; exact ⟨_, rfl, rfl⟩
    | 1, h => cases h; exact ⟨_, rfl, rfl⟩
    | 2, h => cases h; exact ⟨_, rfl, rfl⟩
    | _ + 3, h => cases h

/-- An endpoint with the same units, which always announces siblings. -/
def demoServe' : CtsEndpoint := fun r =>
  if r = ctsPrevNextUrn none (demoText ++ ":1.1".toList) none ∨ r = ctsPassage none (demoText ++ ":1.1".toList) none none then
    .ok (demoReply (some (none, some (demoText ++ ":1.2".toList))))
  else if r = ctsPrevNextUrn none (demoText ++ ":1.2".toList) none ∨ r = ctsPassage none (demoText ++ ":1.2".toList) none none then
    .ok (demoReply (some (some (demoText ++ ":1.1".toList), some (demoText ++ ":1.3".toList))))
  else .ok (demoReply (some (some (demoText ++ ":1.2".toList), none)))

example : ServesText demoServe' none demoText ["1.1".toList, "1.2".toList, "1.3".toList] := by
  refine ⟨by decide, fun i r h => ?_, fun i r h => ?_⟩
  · match i, h with
    | 0, h => cases h; exact ⟨_, rfl, rfl, rfl, .inr rfl⟩
    | 1, h => cases h; exact ⟨_, rfl, rfl, rfl, .inr rfl⟩
    | 2, h => cases h; exact ⟨_, rfl, rfl, rfl, .inr rfl⟩
    | _ + 3, h => cases h
  · match i, h with
    | 0, h => cases h; exact ⟨_, rfl, rfl⟩
    | 1, h => cases h; exact ⟨_, rfl, rfl⟩
    | 2, h => cases h; exact ⟨_, rfl, rfl⟩
    | _ + 3, h => cases h

example (r : Str) (reply : CtsReply) (h : demoServe' (ctsPassage none (demoText ++ ':' :: r) none none) = .ok reply) : reply.prevNext ≠ none := by
  unfold demoServe' at h
  split at h
  · cases h; simp [demoReply]
  · split at h <;> cases h <;> simp [demoReply]

example : moved 3 0 [.next, .next, .prev] = some 1 ∧ moved 3 0 [.next, .next, .next] = none ∧ moved 3 2 [.prev, .prev, .prev] = none := by decide

/-- From `1.1` on, the passage left and the passage `1.2` see two requests: one for the siblings, one for the passage. -/
example : ∃ s s1 s', openPassage (demoText ++ ":1.1".toList) (demoReply none) [] = .ok s ∧ s.goNext demoServe none = (s1, .ok (some s')) ∧
    s1.log.length = 2 ∧ s1.log = s'.log := ⟨_, _, _, rfl, rfl, rfl, rfl⟩

/-- C69. The parent of a passage with two components or more: one request, for the passage without the last component. -/
theorem C69_parent (serve : CtsEndpoint) (d : Option Str) (text : Str) (parts : UrnParts) (ht : IsTextUrn text parts)
    (cs : List Str) (hcs : UrnComponents cs) (hlen : 2 ≤ cs.length) (s : RemotePassage)
    (hs : Urn.parse (text ++ ':' :: dotted cs) = .ok s.urn) (a : CtsReply)
    (ha : serve (ctsPassage d (text ++ ':' :: dotted cs.dropLast) none none) = .ok a) (hreq : a.hasRequest = true) (htext : a.hasText = true) :
    ∃ s', s.goParent serve d = (s.log ++ [ctsPassage d (text ++ ':' :: dotted cs.dropLast) none none], .ok s') ∧
      AtUrn s' (text ++ ':' :: dotted cs.dropLast) := by
  have hc : ∀ c ∈ cs, IsComponent c := fun c hc => (hcs.2 c hc).1
  have hr := parse_passage_ref ht (plainRef_dotted hcs) hs
  obtain ⟨u, hu', _, hup, _⟩ := parse_passage ht (plainRef_dotted hcs)
  rw [hs] at hu'; cases hu'
  have hd : UrnComponents cs.dropLast := by
    refine ⟨?_, fun c hc => hcs.2 c (List.dropLast_subset _ hc)⟩
    intro h; have := congrArg List.length h; simp at this; omega
  obtain ⟨u', hu', _, _, hstr, _⟩ := parse_passage ht (plainRef_dotted hd)
  cases href : s.urn.ref with
  | none => rw [mkRef_dotted hcs.1 hc, href] at hr; cases hr
  | some r =>
    rw [href] at hr
    obtain ⟨q, hq, hqs, _⟩ := C05_parent_single cs hc hlen r hr
    have hp : s.parentId = .ok (dotted cs.dropLast) := by
      simp only [RemotePassage.parentId, href, hq, fmap_ok, optRefText, hqs]
    have hn : nodeUrn s.urn (some (dotted cs.dropLast)) = .ok (text ++ ':' :: dotted cs.dropLast) := by
      simp only [nodeUrn, if_neg (plainRef_dotted hd).2.1, hup, fmap_ok, colon]
    refine ⟨⟨u', (readPrevNext a).1, (readPrevNext a).2, none, none, none, s.log ++ [ctsPassage d (text ++ ':' :: dotted cs.dropLast) none none]⟩, ?_, u', hstr⟩
    simp only [RemotePassage.goParent, hp, remoteNode, hn, ha, hreq, if_true, openPassage, hu', htext]

example : ∃ s, openPassage (demoText ++ ":1.2".toList) (demoReply none) [] = .ok s ∧
    ((s.goParent demoServe none).2.toOption.bind fun s => s.urn.str.toOption.map (·.1)) = some (demoText ++ ":1".toList) := ⟨_, rfl, rfl⟩

/-- C69, where the code departs from the natural claim: the parent of a passage with one component is not the text, the
endpoint is asked for a passage `None`. -/
theorem C69_parent_of_top (serve : CtsEndpoint) (d : Option Str) (text : Str) (parts : UrnParts) (ht : IsTextUrn text parts)
    (c : Str) (hcs : UrnComponents [c]) (s : RemotePassage) (hs : Urn.parse (text ++ ':' :: c) = .ok s.urn) :
    (s.goParent serve d).1 = s.log ++ [ctsPassage d (text ++ ":None".toList) none none] := by
  have hc : ∀ x ∈ [c], IsComponent x := fun x hx => (hcs.2 x hx).1
  have hr := parse_passage_ref ht (plainRef_dotted hcs) hs
  obtain ⟨u, hu', _, hup, _⟩ := parse_passage ht (plainRef_dotted hcs)
  simp only [dotted] at hr hu' hup
  rw [hs] at hu'; cases hu'
  cases href : s.urn.ref with
  | none =>
    have := mkRef_dotted hcs.1 hc
    simp only [dotted] at this
    rw [this, href] at hr; cases hr
  | some r =>
    rw [href] at hr
    have hq := C05_no_parent_at_depth_one c (hc c (by simp)) r hr
    have hp : s.parentId = .ok "None".toList := by
      simp only [RemotePassage.parentId, href, hq, fmap_ok, optRefText]; rfl
    have hn : nodeUrn s.urn (some "None".toList) = .ok (text ++ ":None".toList) := by
      simp only [nodeUrn, if_neg (show ':' ∉ "None".toList by decide), hup, fmap_ok, colon]; rfl
    simp only [RemotePassage.goParent, hp, remoteNode, hn]
    split
    · rfl
    · split <;> rfl

/-- C69, where the code departs from the natural claim: when siblings are never announced, the next passage is the passage
itself, asked for anew. -/
theorem C69_next_unannounced (serve : CtsEndpoint) (d : Option Str) (text r : Str) (parts : UrnParts) (ht : IsTextUrn text parts)
    (href : PlainRef r) (s : RemotePassage) (hu : Urn.parse (text ++ ':' :: r) = .ok s.urn) (hn : s.next = .unknown)
    (a b : CtsReply) (ha : serve (ctsPrevNextUrn d (text ++ ':' :: r) none) = .ok a) (hnone : a.prevNext = none)
    (hb : serve (ctsPassage d (text ++ ':' :: r) none none) = .ok b) (hreq : b.hasRequest = true) (htext : b.hasText = true) :
    ∃ s', (s.goNext serve d).2 = .ok (some s') ∧ AtUrn s' (text ++ ':' :: r) := by
  obtain ⟨u', hu', _, _, hstr, _⟩ := parse_passage ht href
  rw [hu] at hu'; cases hu'
  have hf := fun s' hu => fetch_passage (serve := serve) (d := d) ht href (s := s') hu
  simp only [ha, readPrevNext, hnone] at hf
  have h1 := hf s hu
  refine ⟨⟨s.urn, (readPrevNext b).1, (readPrevNext b).2, none, none, none,
      s.log ++ [ctsPrevNextUrn d (text ++ ':' :: r) none] ++ [ctsPrevNextUrn d (text ++ ':' :: r) none] ++ [ctsPassage d (text ++ ':' :: r) none none]⟩, ?_, s.urn, hstr⟩
  · have h2 := hf { s with log := s.log ++ [ctsPrevNextUrn d (text ++ ':' :: r) none], prev := .unknown, next := .unknown } hu
    simp only [RemotePassage.goNext, goSibling, RemotePassage.nextId, hn, if_true, h1, h2, Sib.arg, remoteNode, nodeUrn, hstr, fmap_ok, hb, hreq, openPassage, hu, htext]

example : ∃ s, openPassage (demoText ++ ":1.2".toList) (demoReply none) [] = .ok s ∧
    ((s.goNext (fun _ => .ok (demoReply none)) none).2.toOption.bind fun s => s.bind fun s => s.urn.str.toOption.map (·.1)) = some (demoText ++ ":1.2".toList) :=
  ⟨_, rfl, rfl⟩

/-! ## C70 -/

theorem parse_wholeOr {text : Str} {parts : UrnParts} (ht : IsTextUrn text parts) {sub : Option Str} (hsub : ∀ r ∈ sub, PlainRef r) :
    ∃ u, Urn.parse (wholeOr text sub) = .ok u ∧ u.str = .ok (wholeOr text sub, u) := by
  cases sub with
  | none => obtain ⟨u, h1, _, _, h2, _⟩ := parse_text ht; exact ⟨u, h1, h2⟩
  | some r => obtain ⟨u, h1, _, _, h2, _⟩ := parse_passage ht (hsub r rfl); exact ⟨u, h1, h2⟩

theorem withPassage_eq (text : Str) {sub : Option Str} (h : ∀ r ∈ sub, r ≠ []) : withPassage text sub = wholeOr text sub := by
  cases sub with
  | none => rfl
  | some r =>
    cases r with
    | nil => exact absurd rfl (h [] rfl)
    | cons c r => rfl

/-- C70. A text or a passage of it read through the resolver costs one request, for the URN of the text followed by the
passage if there is one: `GetPassagePlus` when the siblings or the metadata are asked for and `GetPassage` otherwise. What
is given has that URN, and its siblings are the announced ones. -/
theorem C70_node (serve : CtsEndpoint) (d : Option Str) (text : Str) (parts : UrnParts) (ht : IsTextUrn text parts) (sub : Option Str)
    (hsub : ∀ r ∈ sub, PlainRef r) (prevnext metadata : Bool) (request : List (Str × Str))
    (hrequest : request = if prevnext = true ∨ metadata = true then ctsPassagePlus d (wholeOr text sub) none none else ctsPassage d (wholeOr text sub) none none)
    (a : CtsReply) (ha : serve request = .ok a) (hreq : a.hasRequest = true) (htext : a.hasText = true) :
    ∃ s, apiNode serve d text sub prevnext metadata = .ok ([request], .ok s) ∧ AtUrn s (wholeOr text sub) ∧ s.log = [request] ∧
      ∀ p n, a.prevNext = some (p, n) → Announced p s.prev ∧ Announced n s.next := by
  obtain ⟨u, hu, _, hup, hstr, _⟩ := parse_text ht
  obtain ⟨u', hu', hstr'⟩ := parse_wholeOr ht hsub
  refine ⟨⟨u', (readPrevNext a).1, (readPrevNext a).2, none, none, none, [request]⟩, ?_, ⟨u', hstr'⟩, rfl, fun p n hpn => ?_⟩
  · by_cases hc : prevnext = true ∨ metadata = true
    · have hb : (metadata || prevnext) = true := by rcases hc with h | h <;> simp [h]
      rw [if_pos hc] at hrequest
      have hw := withPassage_eq text fun r hr => (hsub r hr).1
      simp only [apiNode, hu, hb, if_true, hstr, remotePlus, hw, ← hrequest, ha, openPassage, hu', htext]
    · have hb : (metadata || prevnext) = false := by
        cases prevnext <;> cases metadata <;> simp at hc ⊢
      rw [if_neg hc] at hrequest
      have hn : nodeUrn u sub = .ok (wholeOr text sub) := by
        cases sub with
        | none => simp only [nodeUrn, hstr, fmap_ok, wholeOr]
        | some r => simp only [nodeUrn, if_neg (hsub r rfl).2.1, hup, fmap_ok, colon, wholeOr]
      simp [apiNode, hu, hb, remoteNode, hn, ← hrequest, ha, hreq, openPassage, hu', htext]
  · simp only [readPrevNext_some hpn]
    exact ⟨ofText_announced _, ofText_announced _⟩

example : ((apiNode demoServe none demoText (some "1.2".toList) false false).toOption.bind fun o => o.2.toOption.map fun s => (s.prev, s.next)) =
    some (.known "1.1".toList, .known "1.3".toList) := rfl

/-- C70. The siblings of a passage read through the resolver cost one request, and are the announced ones. -/
theorem C70_siblings (serve : CtsEndpoint) (d : Option Str) (text : Str) (parts : UrnParts) (ht : IsTextUrn text parts) (sub : Str)
    (a : CtsReply) (ha : serve (ctsPrevNextUrn d (text ++ ':' :: sub) none) = .ok a) (p n : Option Str) (hpn : a.prevNext = some (p, n)) :
    ∃ x y, apiSiblings serve d text sub = .ok (ctsPrevNextUrn d (text ++ ':' :: sub) none, .ok (x, y)) ∧ Announced p x ∧ Announced n y := by
  obtain ⟨u, hu, _, _, _, hnp⟩ := parse_text ht
  refine ⟨_, _, ?_, ofText_announced p, ofText_announced n⟩
  have hr : prevNextRequest d u sub = .ok (ctsPrevNextUrn d (text ++ ':' :: sub) none) := by
    simp [prevNextRequest, hnp, bind, Except.bind, pure, Except.pure, colon]
  simp only [apiSiblings, hu, hr, ha, fmap_ok, readPrevNext_some hpn]

example : (apiSiblings demoServe none demoText "1.3".toList).toOption.bind (·.2.toOption) = some (.known "1.2".toList, .absent) := rfl

/-- C70. The references of a text or of a passage read through the resolver cost one `GetValidReff` request, for the URN of
the text followed by the passage if there is one, at the level given; they are the passages of the URNs of the reply, in its
order. Where the code departs from the natural claim: the level is not counted from the passage given (for a passage `1`,
level 1 asks for level 1, while the retriever's own `getReffs` asks for level 2), and level `-1` asks for level 1, not for
the deepest one. -/
theorem C70_reffs (serve : CtsEndpoint) (d : Option Str) (text : Str) (parts : UrnParts) (ht : IsTextUrn text parts) (sub : Option Str)
    (hsub : ∀ r ∈ sub, r ≠ []) (level : Int) (a : CtsReply)
    (ha : serve (ctsValidReff d (wholeOr text sub) none (some (if level = -1 then 1 else level))) = .ok a) (hreq : a.hasRequest = true) :
    ∃ ids, apiReffs serve d text level sub = .ok (ctsValidReff d (wholeOr text sub) none (some (if level = -1 then 1 else level)), .ok ids) ∧
      PassagesOf a.urns ids := by
  obtain ⟨u, hu, href, _, hstr, _⟩ := parse_text ht
  refine ⟨_, ?_, lastParts_spec a.urns⟩
  have hw := withPassage_eq text hsub
  have hl : reffLevel 1 (remoteLevel u level) = if level = -1 then 1 else level := by
    simp only [remoteLevel, href, reffLevel]; rfl
  simp only [apiReffs, hu, hstr, remoteValidReff, hw, hl, ha, hreq, if_true]

example : (apiReffs demoServe none demoText (-1) (some "1.2".toList)).toOption.bind (·.2.toOption) = some ["1.2.1".toList, "1.2.2".toList] := rfl

end Verif.Props
