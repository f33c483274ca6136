import Verif.Lemmas.Serving
import Verif.Props.Reading
import Verif.Props.Export
import Verif.Props.RemotePassage
/-!
C97: reading a text through an endpoint and reading it from a local document give the same. Theorems are about the calls modelled in
`Verif/Model/RemoteText.lean`, `Verif/Model/RemotePassage.lean` and `Verif/Model/RemoteExport.lean` on one side and those of
`Verif/Model/LocalText.lean`, `Verif/Model/Siblings.lean` and `Verif/Model/Export.lean` on the other. What an endpoint that serves
a document answers is said in `Verif/Spec/Serving.lean`.
-/
namespace Verif.Props
open Verif.Py Verif.Model Verif.Spec Verif.Lemmas

/-! ## Naming a passage -/

/-- C97. Whatever way the unit is named to a text, the same URN is asked for. -/
theorem C97_naming (text : Str) (parts : UrnParts) (ht : IsTextUrn text parts) (u : Urn) (hu : Urn.parse text = .ok u) (cs : List Str)
    (hcs : UrnComponents cs) (arg : NodeArg) (h : NamesUnit text cs arg) : nodeUrnOf u arg = .ok (text ++ ':' :: dotted cs) := by
  obtain ⟨u', hu', _, hup, hstr, _⟩ := parse_text ht
  rw [hu] at hu'; cases hu'
  have hp := plainRef_dotted hcs
  obtain ⟨v', hv', _, _, hvs, _⟩ := parse_passage ht hp
  cases arg with
  | urn v =>
    rw [show Urn.parse (text ++ ':' :: dotted cs) = .ok v from h] at hv'; cases hv'
    rw [nodeUrnOf, hvs]; rfl
  | ref r => rw [show r = single cs from h, nodeUrnOf, hstr]; rfl
  | text s =>
    rcases h with rfl | rfl
    · rw [nodeUrnOf, nodeUrn, if_neg hp.2.1, hup]; rfl
    · rw [nodeUrnOf, nodeUrn, if_pos (by simp)]
  | list l => rw [show l = cs from h, nodeUrnOf, hstr]; simp [colon, join_dot_eq_dotted, Functor.map, Except.map]
  | other => exact absurd h (by simp [NamesUnit])

/-- C97. Any reference, ranges included, is asked for after the URN of the text; a string with a colon is asked for as it is; without an argument,
the URN of the text is. -/
theorem C97_naming_any (text : Str) (parts : UrnParts) (ht : IsTextUrn text parts) (u : Urn) (hu : Urn.parse text = .ok u) :
    (∀ r, nodeUrnOf u (.ref r) = .ok (text ++ ':' :: r.str)) ∧ (∀ s, ':' ∉ s → nodeUrnOf u (.text s) = .ok (text ++ ':' :: s)) ∧
    (∀ s, ':' ∈ s → nodeUrnOf u (.text s) = .ok s) ∧ nodeUrnOf u .other = .ok text := by
  obtain ⟨u', hu', _, hup, hstr, _⟩ := parse_text ht
  rw [hu] at hu'; cases hu'
  refine ⟨fun r => by rw [nodeUrnOf, hstr]; rfl, fun s hs => by rw [nodeUrnOf, nodeUrn, if_neg hs, hup]; rfl,
    fun s hs => by rw [nodeUrnOf, nodeUrn, if_pos hs], by rw [nodeUrnOf, nodeUrn, hstr]; rfl⟩

/-- C97, where the code departs from the natural claim: from a passage, a reference given as an object or as a list is written after the
passage, so that what is asked for is no URN of the text. A string is taken as it should. -/
theorem C97_fails_naming_from_passage (text : Str) (parts : UrnParts) (ht : IsTextUrn text parts) (here cs : List Str) (hh : UrnComponents here)
    (hcs : UrnComponents cs) (u : Urn) (hu : Urn.parse (text ++ ':' :: dotted here) = .ok u) :
    nodeUrnOf u (.ref (single cs)) = .ok (text ++ ':' :: dotted here ++ ':' :: dotted cs) ∧
    nodeUrnOf u (.list cs) = .ok (text ++ ':' :: dotted here ++ ':' :: dotted cs) ∧
    nodeUrnOf u (.text (dotted cs)) = .ok (text ++ ':' :: dotted cs) := by
  have hp := plainRef_dotted hcs
  obtain ⟨u', hu', _, hup, hstr, _⟩ := parse_passage ht (plainRef_dotted hh)
  rw [hu] at hu'; cases hu'
  refine ⟨?_, ?_, ?_⟩
  · rw [nodeUrnOf, hstr]; rfl
  · rw [nodeUrnOf, hstr]; simp [colon, join_dot_eq_dotted, Functor.map, Except.map]
  · rw [nodeUrnOf, nodeUrn, if_neg hp.2.1, hup]; rfl

/-- C97. Reading a passage with `getTextualNode` is what C84 says of it, for a string or for no argument; here it is also said of references, lists
and URNs, and the passage has its element. -/
theorem C97_same_node (serve : DocEndpoint) (d : Option Str) (sub : Option Str) (fresh : Term) (s : RemoteText) :
    (s.getNode serve d (match sub with | some v => .text v | none => .other) fresh).1 = (s.getTextualNode serve d sub fresh).1 ∧
    (fun p => (p.nav, p.obj)) <$> (s.getNode serve d (match sub with | some v => .text v | none => .other) fresh).2 =
      (s.getTextualNode serve d sub fresh).2 := by
  have hn : nodeUrnOf s.urn (match sub with | some v => .text v | none => .other) = nodeUrn s.urn sub := by cases sub <;> rfl
  rw [RemoteText.getNode, RemoteText.getTextualNode, hn]
  cases nodeUrn s.urn sub with
  | error e => exact ⟨rfl, rfl⟩
  | ok urn =>
    simp only
    cases serve (ctsPassage d urn none none) with
    | error e => exact ⟨rfl, rfl⟩
    | ok doc =>
      simp only
      generalize (RemoteText.take _ doc _) = o
      obtain ⟨s', e | _⟩ := o
      · exact ⟨rfl, rfl⟩
      · refine ⟨rfl, ?_⟩
        simp only
        have hat := elementsAt_tei doc
        have ht := hasText_tei doc
        rw [openWhole]
        have hat' : elementsAt ['t', 'i', ':', 'p', 'a', 's', 's', 'a', 'g', 'e'] ['t', 'e', 'i', ':', 'T', 'E', 'I'] [] doc = teiIn doc := hat
        rw [hat', openRemote, openPassage]
        cases h1 : teiIn doc with
        | nil =>
          have hf : (replyOf doc).hasText = false := by rw [ht, h1]; rfl
          cases Urn.parse urn with
          | error e => rfl
          | ok u => simp only [hf]; rfl
        | cons a r =>
          obtain ⟨around, x⟩ := a
          simp only
          have hf : (replyOf doc).hasText = true := by rw [ht, h1]; rfl
          cases Urn.parse urn with
          | error e => rfl
          | ok u =>
            simp only [hf, if_true]
            cases adoptScheme doc doc [] <;> rfl

/-! ## Lists of references -/

theorem unit_components {serve : DocEndpoint} {d : Option Str} {text : Str} {env : List Str} {root : Node} {ls : List Level}
    (hc : Citable root ls) (h : ServesDocument serve d text env root ls) {k : Nat} (hk1 : 1 ≤ k) (hk : k ≤ ls.length) {u : List Str × List Nat}
    (hu : u ∈ units (ls.take k) root) : UrnComponents u.1 := by
  have hl := mem_units_length hu
  rw [List.length_take, Nat.min_eq_left hk] at hl
  refine ⟨fun e => by rw [e] at hl; simp at hl; omega, fun v hv => ?_⟩
  exact ⟨(hc.ids k u hu v hv).1, h.plainIds k u hu v hv⟩

theorem listed_units {text : Str} {doc : Node} {L : List (List Str)} (h : listedUrns doc = L.map fun ids => text ++ ':' :: dotted ids)
    (hL : ∀ ids ∈ L, UrnComponents ids) : listed doc = L.map dotted := by
  rw [listed, show (anywhereIn "ti:reply" "ti:urn" doc).flatMap directTexts = listedUrns doc from rfl, h, List.map_map]
  refine List.map_congr_left fun ids hi => ?_
  exact afterColon_urn (plainRef_dotted (hL ids hi)).2.1

theorem listing_components {serve : DocEndpoint} {d : Option Str} {text : Str} {env : List Str} {root : Node} {ls : List Level}
    (hc : Citable root ls) (h : ServesDocument serve d text env root ls) {k : Nat} (hk1 : 1 ≤ k) (hk : k ≤ ls.length) {under : List Str} :
    ∀ ids ∈ listing root ls k under, UrnComponents ids := by
  intro ids hi
  obtain ⟨t, hm, _⟩ := mem_listing.1 hi
  exact unit_components hc h hk1 hk hm

theorem listing_all (root : Node) (ls : List Level) (k : Nat) : listing root ls k [] = (units (ls.take k) root).map (·.1) := by
  unfold listing
  congr 1
  rw [List.filter_eq_self]
  intro u _
  simp

/-- C97. The references of a level: a remote text lists what the local text lists, in the same order. (A level without any unit is an empty
list here and a `KeyError` there, `C29_lists_units`.) -/
theorem C97_lists (serve : DocEndpoint) (d : Option Str) (text : Str) (parts : UrnParts) (ht : IsTextUrn text parts) (env : List Str)
    (root : Node) (ls : List Level) (same : Same) (hc : Citable root ls) (h : ServesDocument serve d text env root ls)
    (s : RemoteText) (hs : Urn.parse text = .ok s.urn) (k : Nat) (hk1 : 1 ≤ k) (hk : k ≤ ls.length) :
    ∃ s', s.getReffs serve d k none = (s', .ok ((units (ls.take k) root).map fun u => dotted u.1)) ∧ s'.urn = s.urn ∧
      (units (ls.take k) root ≠ [] → ∃ refs, getValidReff (textOf root same ls) (some k) none = .ok refs ∧
        refs.map refText = (units (ls.take k) root).map fun u => dotted u.1) := by
  obtain ⟨u, hu, hnr, _, hstr, _⟩ := parse_text ht
  rw [hs] at hu; cases hu
  obtain ⟨doc, h1, h2, h3⟩ := h.lists k [] (by simp; omega) hk ⟨[], by simp [units]⟩
  have e := getValidReff_readable (serve := serve) (d := d) hstr (level := k) (sub := none) (by simp) (by simpa [refOf, wholeOr] using h1) h2
  obtain ⟨s', e1, e2, _⟩ := e
  have hl : listed doc = (units (ls.take k) root).map fun u => dotted u.1 := by
    rw [listed_units h3 (listing_components hc h hk1 hk), listing_all, List.map_map]; rfl
  refine ⟨s', ?_, e2, fun hne => ?_⟩
  · rw [RemoteText.getReffs, remoteLevel, hnr, e1, hl]
  · have := C29_lists_units root ls same hc k hk1
    rw [if_neg (by omega), if_neg (by simpa using hne)] at this
    exact ⟨_, this, by rw [List.map_map]; rfl⟩

/-- C97. The references of a level inside a unit of a higher level: `getValidReff` of a remote text lists what it lists for the local text. -/
theorem C97_lists_inside (serve : DocEndpoint) (d : Option Str) (text : Str) (parts : UrnParts) (ht : IsTextUrn text parts) (env : List Str)
    (root : Node) (ls : List Level) (same : Same) (hc : Citable root ls) (h : ServesDocument serve d text env root ls)
    (s : RemoteText) (hs : Urn.parse text = .ok s.urn) (j k : Nat) (hj : 1 ≤ j) (hjk : j < k) (hk : k ≤ ls.length)
    (u : List Str × List Nat) (hu : u ∈ units (ls.take j) root) :
    ∃ s', s.getValidReff serve d k (some (dotted u.1)) = (s', .ok ((listing root ls k u.1).map dotted)) ∧ s'.urn = s.urn ∧
      (listing root ls k u.1 ≠ [] → ∃ refs, getValidReff (textOf root same ls) (some k) (some (single u.1)) = .ok refs ∧
        refs.map refText = (listing root ls k u.1).map dotted) := by
  obtain ⟨v, hv, _, _, hstr, _⟩ := parse_text ht
  rw [hs] at hv; cases hv
  have hl := mem_units_length hu
  rw [List.length_take, Nat.min_eq_left (by omega)] at hl
  have hcs := unit_components hc h hj (by omega) hu
  obtain ⟨doc, h1, h2, h3⟩ := h.lists k u.1 (by omega) hk ⟨u.2, by rw [hl]; exact hu⟩
  have hr : refOf u.1 = some (dotted u.1) := by rw [refOf, if_neg hcs.1]
  rw [hr] at h1
  obtain ⟨s', e1, e2, _⟩ := getValidReff_readable (serve := serve) (d := d) hstr (level := k) (sub := some (dotted u.1))
    (by intro e; exact (plainRef_dotted hcs).1 (Option.some.inj e)) h1 h2
  rw [listed_units h3 (listing_components hc h (by omega) hk)] at e1
  refine ⟨s', e1, e2, fun hne => ?_⟩
  have := C29_lists_units_under root ls same hc u.1 hcs.1 (fun v hv => hc.ids j u hu v hv) k (by omega)
  rw [if_neg (by omega), if_neg (by simpa using hne)] at this
  exact ⟨_, this, by rw [List.map_map]; rfl⟩

theorem reffLevel_nat (n k : Nat) : reffLevel n (k : Int) = k := by rw [reffLevel, if_neg (by omega)]

theorem take_log (s : RemoteText) (doc : Node) (l : List Node) : (s.take doc l).1.log = s.log := by
  cases l with
  | nil => rfl
  | cons x rest => exact (take_reads s doc x rest).2.1

theorem getValidReff_log (serve : DocEndpoint) (d : Option Str) {s : RemoteText} {u : Str} {w : Urn} (hu : s.urn.str = .ok (u, w)) (level : Int)
    (sub : Option Str) : (s.getValidReff serve d level sub).1.log =
      s.log ++ [ctsValidReff d (withPassage u sub) none (some (reffLevel (citeLen s.obj.cite) level))] := by
  simp only [RemoteText.getValidReff, hu]
  cases serve (ctsValidReff d (withPassage u sub) none (some (reffLevel (citeLen s.obj.cite) level))) with
  | error e => rfl
  | ok doc =>
    simp only
    have ht := take_log { s with log := s.log ++ [ctsValidReff d (withPassage u sub) none (some (reffLevel (citeLen s.obj.cite) level))] } doc
      (doc.allNodes.filter fun c => c.tag = ['t', 'i', ':', 'r', 'e', 'q', 'u', 'e', 's', 't'])
    revert ht
    generalize RemoteText.take _ doc _ = o
    obtain ⟨s', e | _⟩ := o <;> exact id

theorem getNode_log (serve : DocEndpoint) (d : Option Str) (arg : NodeArg) (fresh : Term) (s : RemoteText) :
    ∃ more, (s.getNode serve d arg fresh).1.log = s.log ++ more := by
  rw [RemoteText.getNode]
  cases nodeUrnOf s.urn arg with
  | error e => exact ⟨[], by simp⟩
  | ok urn =>
    refine ⟨[ctsPassage d urn none none], ?_⟩
    simp only
    cases serve (ctsPassage d urn none none) with
    | error e => rfl
    | ok doc =>
      simp only
      have ht := take_log { s with log := s.log ++ [ctsPassage d urn none none] } doc
        (doc.allNodes.filter fun c => c.tag = ['t', 'i', ':', 'r', 'e', 'q', 'u', 'e', 's', 't'])
      revert ht
      generalize RemoteText.take _ doc _ = o
      obtain ⟨s', e | _⟩ := o <;> exact id

theorem nestedLoop_log (serve : DocEndpoint) (d : Option Str) (fresh : Nat → Term) (ex : List Str) : ∀ (l : List Str) (dict : NDict Str) (s : RemoteText),
    ∃ more, (s.nestedLoop serve d fresh ex dict l).1.log = s.log ++ more
  | [], dict, s => ⟨[], by simp [RemoteText.nestedLoop]⟩
  | r :: l, dict, s => by
    obtain ⟨m, hm⟩ := getNode_log serve d (.list (split '.' r)) (fresh s.log.length) s
    rw [RemoteText.nestedLoop]
    revert hm
    generalize s.getNode serve d (.list (split '.' r)) (fresh s.log.length) = o
    obtain ⟨s', e | p⟩ := o
    · exact fun hm => ⟨m, hm⟩
    · intro hm
      simp only at hm ⊢
      cases nestedSet dict (split '.' r) (.leaf (p.plain ex)) with
      | error e => exact ⟨m, hm⟩
      | ok dict =>
        obtain ⟨m', hm'⟩ := nestedLoop_log serve d fresh ex l dict s'
        exact ⟨m ++ m', by rw [hm', hm, List.append_assoc]⟩

/-- C97, where the code departs from the natural claim: `getReffs(level, subreference)` of a remote text counts levels from the top of the text, not
from the subreference (compare `C29` and C32 for local passages): what is asked for is the level as given. -/
theorem C97_fails_relative_level (serve : DocEndpoint) (d : Option Str) (text r : Str) (parts : UrnParts) (ht : IsTextUrn text parts) (hr : r ≠ [])
    (s : RemoteText) (hs : Urn.parse text = .ok s.urn) (level : Nat) :
    (s.getReffs serve d level (some r)).1.log = s.log ++ [ctsValidReff d (text ++ ':' :: r) none (some (level : Int))] := by
  obtain ⟨v, hv, hnr, _, hstr, _⟩ := parse_text ht
  rw [hs] at hv; cases hv
  have hw : withPassage text (some r) = text ++ ':' :: r := by
    cases r with
    | nil => exact absurd rfl hr
    | cons c r => rfl
  rw [RemoteText.getReffs, remoteLevel, hnr, getValidReff_log serve d hstr, hw, reffLevel_nat]

/-! ## Passages -/

theorem unit_split {us : List (List Str × List Nat)} {u : List Str × List Nat} (h : u ∈ us) : ∃ before after, us = before ++ u :: after := by
  obtain ⟨a, b, h⟩ := List.append_of_mem h
  exact ⟨a, b, h⟩

theorem agree_of_made {text : Str} {parts : UrnParts} (ht : IsTextUrn text parts) {env : List Str} {root : Node} {ids : List Str} {t : List Nat}
    (hcs : UrnComponents ids) {p : OpenedPassage} {u : Urn} {doc : Node} {fresh : Term} {log : List (List (Str × Str))}
    (hu : Urn.parse (text ++ ':' :: dotted ids) = .ok u)
    (hm : MadeOf p u doc env (emptied root (chainTo root t)) fresh log) :
    Agree text env p ⟨single ids, emptied root (chainTo root t), .text⟩ := by
  refine ⟨?_, hm.element, ?_⟩
  · obtain ⟨u', hu', _, _, hs, _⟩ := parse_passage ht (plainRef_dotted hcs)
    rw [hu] at hu'; cases hu'
    exact ⟨u, by rw [hm.urn]; exact hs⟩
  · intro ex hex
    rw [OpenedPassage.plain, plainText_around (fun e he hn => hex e he (hm.around e hn)), plainText_same hm.element]

/-- C97. The passage of any unit, named in any way, has the URN of the unit and the element that the local passage has, so that their
plain texts are the same for every exclusion that spares the envelope of the reply. One request is sent. -/
theorem C97_passage (serve : DocEndpoint) (d : Option Str) (text : Str) (parts : UrnParts) (ht : IsTextUrn text parts) (env : List Str)
    (root : Node) (ls : List Level) (same : Same) (hr : ∀ n i, same n i i = true) (hc : Citable root ls)
    (h : ServesDocument serve d text env root ls) (s : RemoteText) (hs : Urn.parse text = .ok s.urn) (k : Nat) (hk1 : 1 ≤ k) (hk : k ≤ ls.length)
    (u : List Str × List Nat) (hu : u ∈ units (ls.take k) root) (arg : NodeArg) (ha : NamesUnit text u.1 arg) (fresh : Term) :
    ∃ s' p q, s.getNode serve d arg fresh = (s', .ok p) ∧ s'.urn = s.urn ∧
      s'.log = s.log ++ [ctsPassage d (text ++ ':' :: dotted u.1) none none] ∧
      textPassage (textOf root same ls) (single u.1) = .ok q ∧ q.ref = single u.1 ∧ Agree text env p q := by
  obtain ⟨before, after, hb⟩ := unit_split hu
  have hcs := unit_components hc h hk1 hk hu
  obtain ⟨doc, h1, h2, h3, _⟩ := h.passages k before after u hk1 hk hb
  obtain ⟨v, hv, _⟩ := parse_passage ht (plainRef_dotted hcs)
  obtain ⟨s', p, e1, e2, e3, _, hm⟩ := getNode_made (C97_naming text parts ht s.urn hs u.1 hcs arg ha) hv h1 h2 h3 fresh
  exact ⟨s', p, _, e1, e2, e3, unit_passage hr hc hk1 hk hu, rfl, agree_of_made ht hcs hv hm⟩

theorem sib_urn {text : Str} {o : Option (List Str × List Nat)} (h : ∀ w ∈ o, UrnComponents w.1) :
    Sib.ofText (o.map fun w => text ++ ':' :: dotted w.1) = sibOf (o.map (single ·.1)) := by
  cases o with
  | none => rfl
  | some w =>
    simp only [Option.map_some, Sib.ofText, sibOf, lastPart_after, afterColon_urn (plainRef_dotted (h w rfl)).2.1]
    rfl

/-- What is known of the siblings of an opened passage: nothing yet, or what the endpoint announces. -/
theorem made_siblings {serve : DocEndpoint} {d : Option Str} {text : Str} {parts : UrnParts} (ht : IsTextUrn text parts) {env : List Str}
    {root : Node} {ls : List Level} (hc : Citable root ls) (h : ServesDocument serve d text env root ls) {k : Nat} (hk1 : 1 ≤ k) (hk : k ≤ ls.length)
    {before after : List (List Str × List Nat)} {u : List Str × List Nat} (hb : units (ls.take k) root = before ++ u :: after)
    {p : RemotePassage} (hv : Urn.parse (text ++ ':' :: dotted u.1) = .ok p.urn) {doc : Node}
    (hp : p.prev = (readPrevNext (replyOf doc)).1) (hn : p.next = (readPrevNext (replyOf doc)).2)
    (ha : announcedIn doc = none ∨ announcedIn doc =
        some (before.getLast?.map fun w => text ++ ':' :: dotted w.1, after.head?.map fun w => text ++ ':' :: dotted w.1)) :
    (p.siblingsId serve.replies d).2 = .ok (sibOf (before.getLast?.map (single ·.1)), sibOf (after.head?.map (single ·.1))) ∧
    (p.prevId serve.replies d).2 = .ok (sibOf (before.getLast?.map (single ·.1))) ∧
    (p.nextId serve.replies d).2 = .ok (sibOf (after.head?.map (single ·.1))) := by
  have hmem : ∀ w, w ∈ before ∨ w ∈ after → UrnComponents w.1 := by
    intro w hw
    refine unit_components hc h hk1 hk (u := w) ?_
    rw [hb]
    simp only [List.mem_append, List.mem_cons]
    rcases hw with hw | hw
    · exact .inl hw
    · exact .inr (.inr hw)
  have hx : Sib.ofText (before.getLast?.map fun w => text ++ ':' :: dotted w.1) = sibOf (before.getLast?.map (single ·.1)) :=
    sib_urn fun w hw => hmem w (.inl (List.mem_of_getLast? hw))
  have hy : Sib.ofText (after.head?.map fun w => text ++ ':' :: dotted w.1) = sibOf (after.head?.map (single ·.1)) :=
    sib_urn fun w hw => hmem w (.inr (List.mem_of_head? hw))
  have hread : ∀ doc', announcedIn doc' = some (before.getLast?.map fun w => text ++ ':' :: dotted w.1, after.head?.map fun w => text ++ ':' :: dotted w.1) →
      readPrevNext (replyOf doc') = (sibOf (before.getLast?.map (single ·.1)), sibOf (after.head?.map (single ·.1))) := by
    intro doc' h'
    rw [readPrevNext, announced_eq, h']
    simp only [hx, hy]
  have hknown : ∀ o, sibOf o ≠ .unknown := by intro o; cases o <;> simp [sibOf]
  rcases ha with ha | ha
  · have hr : readPrevNext (replyOf doc) = (.unknown, .unknown) := by rw [readPrevNext, announced_eq, ha]
    rw [hr] at hp hn
    obtain ⟨doc', h1, h2⟩ := h.siblings k before after u hk1 hk hb
    have hu : u ∈ units (ls.take k) root := by rw [hb]; simp
    have hf := fetch_passage (serve := serve.replies) (d := d) ht (plainRef_dotted (unit_components hc h hk1 hk hu)) hv
    have hd : serve.replies (ctsPrevNextUrn d (text ++ ':' :: dotted u.1) none) = .ok (replyOf doc') := by
      show replyOf <$> serve _ = _
      rw [h1]; rfl
    rw [hd] at hf
    simp only [hread doc' h2] at hf
    simp only [RemotePassage.siblingsId, RemotePassage.prevId, RemotePassage.nextId, hp, hn, true_or, if_true, hf, and_self]
  · rw [hread doc ha] at hp hn
    simp only at hp hn
    simp only [RemotePassage.siblingsId, RemotePassage.prevId, RemotePassage.nextId, hp, hn, hknown, or_self, if_false, and_self]

/-- C97. A remote passage has the siblings of the local passage, whether the endpoint announces them with the passage or only when
asked. -/
theorem C97_siblings (serve : DocEndpoint) (d : Option Str) (text : Str) (parts : UrnParts) (ht : IsTextUrn text parts) (env : List Str)
    (root : Node) (ls : List Level) (same : Same) (hr : ∀ n i, same n i i = true) (hc : Citable root ls)
    (h : ServesDocument serve d text env root ls) (s : RemoteText) (hs : Urn.parse text = .ok s.urn) (k : Nat) (hk1 : 1 ≤ k) (hk : k ≤ ls.length)
    (u : List Str × List Nat) (hu : u ∈ units (ls.take k) root) (arg : NodeArg) (ha : NamesUnit text u.1 arg) (fresh : Term) :
    ∃ s' p q prev next, s.getNode serve d arg fresh = (s', .ok p) ∧ textPassage (textOf root same ls) (single u.1) = .ok q ∧
      q.siblingsId (textOf root same ls) = .ok (prev, next) ∧
      (p.nav.siblingsId serve.replies d).2 = .ok (sibOf prev, sibOf next) ∧
      (p.nav.prevId serve.replies d).2 = .ok (sibOf prev) ∧ (p.nav.nextId serve.replies d).2 = .ok (sibOf next) := by
  obtain ⟨before, after, hb⟩ := unit_split hu
  have hcs := unit_components hc h hk1 hk hu
  obtain ⟨doc, h1, h2, h3, h4⟩ := h.passages k before after u hk1 hk hb
  obtain ⟨v, hv, _⟩ := parse_passage ht (plainRef_dotted hcs)
  obtain ⟨s', p, e1, _, _, _, hm⟩ := getNode_made (C97_naming text parts ht s.urn hs u.1 hcs arg ha) hv h1 h2 h3 fresh
  refine ⟨s', p, _, _, _, e1, unit_passage hr hc hk1 hk hu, siblingsId_single hc hk1 hk hb _, ?_⟩
  exact made_siblings ht hc h hk1 hk hb (by rw [hm.urn]; exact hv) hm.prev hm.next h4

/-- C97. The units inside: a remote passage of a unit above the last level lists what the local passage lists. -/
theorem C97_children (serve : DocEndpoint) (d : Option Str) (text : Str) (parts : UrnParts) (ht : IsTextUrn text parts) (env : List Str)
    (root : Node) (ls : List Level) (same : Same) (hr : ∀ n i, same n i i = true) (hc : Citable root ls)
    (h : ServesDocument serve d text env root ls) (s : RemoteText) (hs : Urn.parse text = .ok s.urn) (k : Nat) (hk1 : 1 ≤ k) (hk : k < ls.length)
    (u : List Str × List Nat) (hu : u ∈ units (ls.take k) root) (arg : NodeArg) (ha : NamesUnit text u.1 arg) (fresh : Term) (deepest : Nat) :
    ∃ s' p q, s.getNode serve d arg fresh = (s', .ok p) ∧ textPassage (textOf root same ls) (single u.1) = .ok q ∧
      (p.nav.childIds serve.replies d deepest).2 = .ok ((listing root ls (k + 1) u.1).map dotted) ∧
      (listing root ls (k + 1) u.1 ≠ [] → ∃ refs, q.childIds (textOf root same ls) = .ok refs ∧
        refs.map refText = (listing root ls (k + 1) u.1).map dotted) := by
  obtain ⟨before, after, hb⟩ := unit_split hu
  have hcs := unit_components hc h hk1 (by omega) hu
  have hl := mem_units_length hu
  rw [List.length_take, Nat.min_eq_left (by omega)] at hl
  obtain ⟨doc, h1, h2, h3, h4⟩ := h.passages k before after u hk1 (by omega) hb
  obtain ⟨v, hv, _⟩ := parse_passage ht (plainRef_dotted hcs)
  obtain ⟨s', p, e1, _, _, _, hm⟩ := getNode_made (C97_naming text parts ht s.urn hs u.1 hcs arg ha) hv h1 h2 h3 fresh
  obtain ⟨q, hq1, hq2⟩ := C65_children root ls same hr hc k hk1 (by omega) u hu
  refine ⟨s', p, q, e1, hq1, ?_, fun hne => ?_⟩
  · obtain ⟨doc', g1, g2, g3⟩ := h.lists (k + 1) u.1 (by omega) (by omega) ⟨u.2, by rw [hl]; exact hu⟩
    rw [refOf, if_neg hcs.1] at g1
    have hd : serve.replies (ctsValidReff d (text ++ ':' :: dotted u.1) none (some ((u.1.length + 1 : Nat) : Int))) = .ok (replyOf doc') := by
      show replyOf <$> serve _ = _
      rw [hl]
      have g1' : serve (ctsValidReff d (text ++ ':' :: dotted u.1) none (some ((k + 1 : Nat) : Int))) = .ok doc' := g1
      rw [g1']; rfl
    have hreq : (replyOf doc').hasRequest = true := by
      obtain ⟨x, rest, hx, _⟩ := g2
      rw [replyOf_request, hx]; rfl
    -- what C62 says of the passage as it was opened
    have hopen : openPassage (text ++ ':' :: dotted u.1) (replyOf doc) p.nav.log = .ok p.nav := by
      have ht' : (replyOf doc).hasText = true := by
        obtain ⟨around, x, rest, h3, _⟩ := h3
        rw [hasText_tei, h3]; rfl
      rw [openPassage, hv]
      simp only [ht', if_true]
      have := hm.urn; have := hm.prev; have := hm.next; have := hm.first; have := hm.last; have := hm.kids
      generalize p.nav = n at *
      cases n
      simp_all
    obtain ⟨s'', ids, c1, _, c3, _⟩ := C62_children serve.replies serve.replies d deepest text u.1 parts ht hcs (replyOf doc) (replyOf doc') p.nav.log p.nav
      hopen hd hreq
    rw [c1]
    simp only [Except.ok.injEq]
    have : (replyOf doc').urns = listedUrns doc' := by rw [C84_reply]; rfl
    rw [this, g3] at c3
    have hall : ids = ((listing root ls (k + 1) u.1).map fun ids => text ++ ':' :: dotted ids).map afterColon := by
      refine List.ext_getElem? fun i => ?_
      rw [List.getElem?_map]
      have hlen := c3.1
      cases ha : ((listing root ls (k + 1) u.1).map fun ids => text ++ ':' :: dotted ids)[i]? with
      | none =>
        rw [List.getElem?_eq_none_iff] at ha
        rw [Option.map_none, List.getElem?_eq_none_iff]
        omega
      | some a =>
        have hi : i < ids.length := by
          have := (List.getElem?_eq_some_iff.1 ha).1
          omega
        rw [Option.map_some, List.getElem?_eq_getElem hi]
        congr 1
        exact afterLastColon_unique (c3.2 i a ids[i] ha (List.getElem?_eq_getElem hi)) (afterColon_spec a)
    rw [hall, List.map_map]
    refine List.map_congr_left fun ids hi => ?_
    exact afterColon_urn (plainRef_dotted (listing_components hc h (by omega) (by omega) ids hi)).2.1
  · rw [if_neg (by omega), if_neg (by simpa using hne)] at hq2
    exact ⟨_, hq2, by rw [List.map_map]; rfl⟩

/-! ## Reading on -/

theorem readRemote_units {serve : DocEndpoint} {d : Option Str} {text : Str} {parts : UrnParts} (ht : IsTextUrn text parts) {env : List Str}
    {root : Node} {ls : List Level} (hc : Citable root ls) (h : ServesDocument serve d text env root ls) (fresh : Nat → Term) {k : Nat}
    (hk1 : 1 ≤ k) (hk : k ≤ ls.length) : ∀ (after before : List (List Str × List Nat)) (u : List Str × List Nat) (fuel : Nat) (s : RemoteText),
    Urn.parse text = .ok s.urn → units (ls.take k) root = before ++ u :: after → after.length < fuel →
    ∃ ps, readRemote serve d fresh fuel (dotted u.1) s = .ok ps ∧ ps.length = (u :: after).length ∧
      ∀ (i : Nat) (p : OpenedPassage) (w : List Str × List Nat), ps[i]? = some p → (u :: after)[i]? = some w → Agree text env p ⟨single w.1, emptied root (chainTo root w.2), .text⟩
  | after, before, u, 0, s, hs, hb, hf => by simp at hf
  | after, before, u, fuel + 1, s, hs, hb, hf => by
    have hu : u ∈ units (ls.take k) root := by rw [hb]; simp
    have hcs := unit_components hc h hk1 hk hu
    obtain ⟨doc, h1, h2, h3, h4⟩ := h.passages k before after u hk1 hk hb
    obtain ⟨v, hv, _⟩ := parse_passage ht (plainRef_dotted hcs)
    obtain ⟨s', p, e1, e2, _, _, hm⟩ := getNode_made (C97_naming text parts ht s.urn hs u.1 hcs (.text (dotted u.1)) (.inl rfl)) hv h1 h2 h3 (fresh s.log.length)
    have hn := (made_siblings ht hc h hk1 hk hb (by rw [hm.urn]; exact hv) hm.prev hm.next h4).2.2
    have hag := agree_of_made ht hcs hv hm
    rw [readRemote, e1]
    simp only [hn]
    cases after with
    | nil =>
      refine ⟨[p], rfl, rfl, fun i p' w hp hw => ?_⟩
      cases i with
      | zero =>
        simp only [List.getElem?_cons_zero, Option.some.injEq] at hp hw
        subst hp; subst hw; exact hag
      | succ i => simp at hp
    | cons w after =>
      obtain ⟨ps, g1, g2, g3⟩ := readRemote_units ht hc h fresh hk1 hk after (before ++ [u]) w fuel s' (by rw [e2]; exact hs)
        (by rw [hb]; simp) (by simpa using hf)
      have hw : (single w.1).str = dotted w.1 := rfl
      simp only [List.head?_cons, Option.map_some, sibOf, hw, g1]
      refine ⟨p :: ps, rfl, by simp only [List.length_cons] at g2 ⊢; omega, fun i p' w' hp hw' => ?_⟩
      cases i with
      | zero =>
        simp only [List.getElem?_cons_zero, Option.some.injEq] at hp hw'
        subst hp; subst hw'; exact hag
      | succ i => exact g3 i p' w' hp hw'

/-- C97. A reader who starts at a unit and goes on with `nextId` reads the same passages from the endpoint as from the local document. -/
theorem C97_reading (serve : DocEndpoint) (d : Option Str) (text : Str) (parts : UrnParts) (ht : IsTextUrn text parts) (env : List Str)
    (root : Node) (ls : List Level) (same : Same) (hr : ∀ n i, same n i i = true) (hc : Citable root ls)
    (h : ServesDocument serve d text env root ls) (s : RemoteText) (hs : Urn.parse text = .ok s.urn) (k : Nat) (hk1 : 1 ≤ k) (hk : k ≤ ls.length)
    (before after : List (List Str × List Nat)) (u : List Str × List Nat) (hb : units (ls.take k) root = before ++ u :: after)
    (fresh : Nat → Term) (fuel : Nat) (hf : after.length < fuel) :
    ∃ ps qs, readRemote serve d fresh fuel (dotted u.1) s = .ok ps ∧ readOn (textOf root same ls) fuel (single u.1) = .ok qs ∧
      ps.length = qs.length ∧ qs.map (·.ref) = (u :: after).map (single ·.1) ∧
      ∀ (i : Nat) (p : OpenedPassage) (q : Passage), ps[i]? = some p → qs[i]? = some q → Agree text env p q := by
  obtain ⟨ps, h1, h2, h3⟩ := readRemote_units ht hc h fresh hk1 hk after before u fuel s hs hb hf
  refine ⟨ps, _, h1, readOn_units hr hc hk1 hk after before u fuel hb hf, by rw [List.length_map]; exact h2, by rw [List.map_map]; rfl,
    fun i p q hp hq => ?_⟩
  rw [List.getElem?_map] at hq
  obtain ⟨w, hw, rfl⟩ := Option.map_eq_some_iff.1 hq
  exact h3 i p w hp hw

theorem before_urn {text : Str} {us before after : List (List Str × List Nat)} {u : List Str × List Nat} (h : us = before ++ u :: after) :
    urnBefore text (us.map fun u => dotted u.1) before.length = before.getLast?.map (fun w => text ++ ':' :: dotted w.1) ∧
    urnAfter text (us.map fun u => dotted u.1) before.length = after.head?.map (fun w => text ++ ':' :: dotted w.1) := by
  subst h
  constructor
  · unfold urnBefore
    rcases List.eq_nil_or_concat before with rfl | ⟨b, w, rfl⟩
    · rfl
    · rw [if_neg (by simp)]
      simp
  · unfold urnAfter
    cases after <;> simp

/-- An endpoint that serves a document serves the units of each of its levels as C69 has it. -/
theorem C97_serves (serve : DocEndpoint) (d : Option Str) (text : Str) (env : List Str) (root : Node) (ls : List Level) (hc : Citable root ls)
    (h : ServesDocument serve d text env root ls) (k : Nat) (hk1 : 1 ≤ k) (hk : k ≤ ls.length) :
    ServesText serve.replies d text ((units (ls.take k) root).map fun u => dotted u.1) := by
  have hpos : ∀ (i : Nat) (r : Str), ((units (ls.take k) root).map fun u => dotted u.1)[i]? = some r →
      ∃ before u after, units (ls.take k) root = before ++ u :: after ∧ before.length = i ∧ dotted u.1 = r := by
    intro i r hr
    rw [List.getElem?_map] at hr
    obtain ⟨u, hu, rfl⟩ := Option.map_eq_some_iff.1 hr
    obtain ⟨hi, rfl⟩ := List.getElem?_eq_some_iff.1 hu
    exact ⟨_, _, _, (List.take_append_drop i _).symm.trans (by rw [List.drop_eq_getElem_cons hi]), by simp; omega, rfl⟩
  refine ⟨fun r hr => ?_, fun i r hr => ?_, fun i r hr => ?_⟩
  · obtain ⟨u, hu, rfl⟩ := List.mem_map.1 hr
    exact plainRef_dotted (unit_components hc h hk1 hk hu)
  · obtain ⟨before, u, after, hb, rfl, rfl⟩ := hpos i r hr
    obtain ⟨doc, h1, ⟨x, rest, hx, _⟩, ⟨around, y, rest', h3, _⟩, h4⟩ := h.passages k before after u hk1 hk hb
    refine ⟨replyOf doc, by show replyOf <$> serve _ = _; rw [h1]; rfl, by rw [replyOf_request, hx]; rfl, by rw [hasText_tei, h3]; rfl, ?_⟩
    rw [announced_eq, (before_urn hb).1, (before_urn hb).2]
    exact h4
  · obtain ⟨before, u, after, hb, rfl, rfl⟩ := hpos i r hr
    obtain ⟨doc, h1, h2⟩ := h.siblings k before after u hk1 hk hb
    refine ⟨replyOf doc, by show replyOf <$> serve _ = _; rw [h1]; rfl, ?_⟩
    rw [announced_eq, (before_urn hb).1, (before_urn hb).2]
    exact h2

/-- C97. From the passage of a unit, however it was named, any sequence of readings of `next` and `prev` leads to the unit of the local document
that lies there, and to `None` as soon as the sequence leaves the text. -/
theorem C97_moves (serve : DocEndpoint) (d : Option Str) (text : Str) (parts : UrnParts) (ht : IsTextUrn text parts) (env : List Str)
    (root : Node) (ls : List Level) (hc : Citable root ls) (h : ServesDocument serve d text env root ls) (s : RemoteText)
    (hs : Urn.parse text = .ok s.urn) (k : Nat) (hk1 : 1 ≤ k) (hk : k ≤ ls.length) (i : Nat) (u : List Str × List Nat)
    (hu : (units (ls.take k) root)[i]? = some u) (arg : NodeArg) (ha : NamesUnit text u.1 arg) (fresh : Term) :
    ∃ s' p, s.getNode serve d arg fresh = (s', .ok p) ∧ ∀ moves,
      match moved (units (ls.take k) root).length i moves with
      | none => navigate serve.replies d moves p.nav = .ok none
      | some j => ∃ p' w, navigate serve.replies d moves p.nav = .ok (some p') ∧ (units (ls.take k) root)[j]? = some w ∧
          AtUrn p' (text ++ ':' :: dotted w.1) := by
  have hst := C97_serves serve d text env root ls hc h k hk1 hk
  obtain ⟨hi, he⟩ := List.getElem?_eq_some_iff.1 hu
  have hb : units (ls.take k) root = (units (ls.take k) root).take i ++ u :: (units (ls.take k) root).drop (i + 1) := by
    conv => lhs; rw [← List.take_append_drop i (units (ls.take k) root), List.drop_eq_getElem_cons hi, he]
  have hcs := unit_components hc h hk1 hk (List.mem_of_getElem? hu)
  obtain ⟨doc, h1, h2, h3, h4⟩ := h.passages k _ _ u hk1 hk hb
  obtain ⟨v, hv, _⟩ := parse_passage ht (plainRef_dotted hcs)
  obtain ⟨s', p, e1, _, _, _, hm⟩ := getNode_made (C97_naming text parts ht s.urn hs u.1 hcs arg ha) hv h1 h2 h3 fresh
  have hat : AtPos text ((units (ls.take k) root).map fun u => dotted u.1) i p.nav := by
    refine ⟨dotted u.1, by rw [List.getElem?_map, hu]; rfl, by rw [hm.urn]; exact hv, ?_⟩
    rw [hm.prev, hm.next]
    have hl : ((units (ls.take k) root).take i).length = i := by simp; omega
    rcases h4 with h4 | h4
    · left; simp [readPrevNext, announced_eq, h4]
    · right
      have := before_urn (text := text) hb
      rw [hl] at this
      rw [this.1, this.2]
      simp only [readPrevNext, announced_eq, h4]
      exact ⟨ofText_announced _, ofText_announced _⟩
  refine ⟨s', p, e1, fun moves => ?_⟩
  have := navigate_atPos ht hst moves hat
  rw [List.length_map] at this
  split
  · rename_i hmv; rw [hmv] at this; exact this
  · rename_i j hmv
    rw [hmv] at this
    obtain ⟨p', g1, g2⟩ := this
    obtain ⟨r, g3, g4⟩ := atPos_urn ht hst.plain g2
    rw [List.getElem?_map] at g3
    obtain ⟨w, g5, rfl⟩ := Option.map_eq_some_iff.1 g3
    exact ⟨p', w, g1, g5, g4⟩

/-! ## Exports -/

theorem plain_around (p : OpenedPassage) (ex : List Str) (e : Str) (he : e ∈ ex) (ha : e ∈ p.around) : p.plain ex = [] := by
  have h : ((p.element.textNodes p.around).filter (keepsText ex)) = [] := by
    rw [List.filter_eq_nil_iff]
    intro q hq
    have hm := textNodes_around p.around p.element []
    rw [List.nil_append] at hm
    rw [hm] at hq
    obtain ⟨q', _, rfl⟩ := List.mem_map.1 hq
    rw [keepsText]
    simp only [List.all_eq_true, Classical.not_forall]
    refine ⟨e, he, ?_⟩
    have h2 : ((p.around.any fun t => e == ['*'] || e == t)) = true := by
      rw [List.any_eq_true]
      exact ⟨e, ha, by simp⟩
    simp [List.any_append, h2]
  rw [OpenedPassage.plain, plainText, h]
  decide +kernel

/-- C97, where the code departs from the natural claim: a passage stays in the reply it came with, so that an exclusion that names its parent
`ti:passage`, or any other element of the reply around it, leaves nothing of it. -/
theorem C97_fails_envelope (urn : Str) (doc : Node) (fresh : Term) (log : List (List (Str × Str))) (p : OpenedPassage)
    (h : openWhole urn doc fresh log = .ok p) (ex : List Str) :
    (∃ rest, teiIn doc = (p.around, p.element) :: rest) ∧ ("ti:passage".toList ∈ ex → p.plain ex = []) ∧ ∀ e ∈ ex, e ∈ p.around → p.plain ex = [] := by
  have ht : ∃ rest, teiIn doc = (p.around, p.element) :: rest := by
    have hat : elementsAt ['t', 'i', ':', 'p', 'a', 's', 's', 'a', 'g', 'e'] ['t', 'e', 'i', ':', 'T', 'E', 'I'] [] doc = teiIn doc := elementsAt_tei doc
    rw [openWhole, hat] at h
    split at h
    · split at h <;> cases h
    · rename_i around x rest hx
      split at h
      · cases h
      · cases h; exact ⟨rest, hx⟩
  refine ⟨ht, fun he => plain_around p ex _ he ?_, fun e he ha => plain_around p ex e he ha⟩
  obtain ⟨rest, hx⟩ := ht
  have hm : (p.around, p.element) ∈ teiIn doc := by rw [hx]; simp
  have := (List.mem_filter.1 hm).2
  simp only [decide_eq_true_eq] at this
  exact List.mem_of_head? this.2

theorem adopts_unique {doc x : Node} {b c c' : List CiteLevel} (h : Adopts doc x b c) (h' : Adopts doc x b c') : c = c' := by
  have e := (C84_scheme doc x [] ⟨.bnode [], b⟩).1
  have e1 := (e ⟨.bnode [], c⟩).2 ⟨rfl, h⟩
  rw [(e ⟨.bnode [], c'⟩).2 ⟨rfl, h'⟩] at e1
  simp only [Except.ok.injEq, RemoteObject.mk.injEq, true_and] at e1
  exact e1.symm

theorem whole_made {serve : DocEndpoint} {d : Option Str} {text : Str} {parts : UrnParts} (ht : IsTextUrn text parts) {env : List Str} {root : Node}
    {scheme : List CiteLevel} (h : ServesWhole serve d text env root scheme) {s : RemoteText} (hs : Urn.parse text = .ok s.urn) (fresh : Term) :
    ∃ s' p doc, s.getNode serve d .other fresh = (s', .ok p) ∧ s'.urn = s.urn ∧ s'.log = s.log ++ [ctsPassage d text none none] ∧
      MadeOf p s.urn doc env root fresh (s.log ++ [ctsPassage d text none none]) ∧ p.obj.cite = scheme := by
  obtain ⟨u, hu, _, _, hstr, _⟩ := parse_text ht
  rw [hs] at hu; cases hu
  obtain ⟨doc, h1, h2, h3, h4⟩ := h.whole
  have hn : nodeUrnOf s.urn .other = .ok text := by rw [nodeUrnOf, nodeUrn, hstr]; rfl
  obtain ⟨s', p, e1, e2, e3, _, hm⟩ := getNode_made hn hs h1 h2 h3 fresh
  exact ⟨s', p, doc, e1, e2, e3, hm, adopts_unique hm.scheme h4⟩

/-- C97. All of the text: exported as a tree, it is the root of the document; exported as plain text, it is the plain text of the local
text, for every exclusion that spares the envelope of the reply. One request is sent. -/
theorem C97_whole_text (serve : DocEndpoint) (d : Option Str) (text : Str) (parts : UrnParts) (ht : IsTextUrn text parts) (env : List Str)
    (root : Node) (scheme : List CiteLevel) (h : ServesWhole serve d text env root scheme) (s : RemoteText) (hs : Urn.parse text = .ok s.urn)
    (fresh : Nat → Term) (ex : List Str) :
    (∃ s' x, s.export serve d fresh .etree ex = (s', .ok (.tree x)) ∧ SameElement x root ∧ s'.log = s.log ++ [ctsPassage d text none none]) ∧
    ((∀ e ∈ ex, e ∉ env) → ∃ s', s.export serve d fresh .plain ex = (s', .ok (.text (plainText defaultJoin [] ex root))) ∧
      s'.log = s.log ++ [ctsPassage d text none none]) := by
  obtain ⟨s', p, doc, e1, e2, e3, hm, _⟩ := whole_made ht h hs (fresh s.log.length)
  constructor
  · refine ⟨{ s' with graph := (p.shared s'.graph).graph, log := (p.shared s'.graph).log }, p.element, ?_, hm.element, hm.log⟩
    rw [RemoteText.export, e1]; rfl
  · intro hex
    refine ⟨{ s' with graph := (p.shared s'.graph).graph, log := (p.shared s'.graph).log }, ?_, hm.log⟩
    have hp : p.plain ex = plainText defaultJoin [] ex root := by
      rw [OpenedPassage.plain, plainText_around (fun e he hn => hex e he (hm.around e hn)), plainText_same hm.element]
    rw [RemoteText.export, e1]
    simp only [OpenedPassage.export, hp]

theorem unit_plain {root : Node} {ls : List Level} {same : Same} (hr : ∀ n i, same n i i = true) (hc : Citable root ls) {k : Nat} (hk1 : 1 ≤ k)
    (hk : k ≤ ls.length) {u : List Str × List Nat} (hu : u ∈ units (ls.take k) root) (ex : List Str) :
    plainText defaultJoin [] ex (emptied root (chainTo root u.2)) = unitText root ex u := by
  have hl := mem_units_length hu
  rw [List.length_take, Nat.min_eq_left hk] at hl
  have hne : u.1 ≠ [] := fun e => by rw [e] at hl; simp at hl; omega
  obtain ⟨tree, c, h1, h2, h3⟩ := C35_passage_text root ls same hr hc u.1 hne (by omega) u.2 (by rw [hl]; exact hu) ex defaultJoin
  rw [C31_units_retrievable root ls same hr hc k hk1 hk u.1 u.2 hu] at h1
  cases h1
  rw [h3]
  simp only [unitText, h2, defaultJoin]

theorem remoteLoop_units {serve : DocEndpoint} {d : Option Str} {text : Str} {parts : UrnParts} (ht : IsTextUrn text parts) {env : List Str}
    {root : Node} {ls : List Level} (hc : Citable root ls) (h : ServesDocument serve d text env root ls) (fresh : Nat → Term) {k : Nat}
    (hk1 : 1 ≤ k) (hk : k ≤ ls.length) {ex : List Str} (hex : ∀ e ∈ ex, e ∉ env) : ∀ (us : List (List Str × List Nat)) (dict : NDict Str) (s : RemoteText),
    (∀ u ∈ us, u ∈ units (ls.take k) root) → Urn.parse text = .ok s.urn → ∀ dict', setAll dict (us.map fun u => (u.1, unitText root ex u)) = .ok dict' →
    ∃ s', s.nestedLoop serve d fresh ex dict (us.map fun u => dotted u.1) = (s', .ok dict') ∧
      s'.log = s.log ++ us.map fun u => ctsPassage d (text ++ ':' :: dotted u.1) none none
  | [], dict, s, _, _, dict', h' => ⟨s, by cases h'; rfl, by simp⟩
  | u :: us, dict, s, hus, hs, dict', h' => by
    have hu := hus u (List.mem_cons_self ..)
    have hcs := unit_components hc h hk1 hk hu
    obtain ⟨before, after, hb⟩ := unit_split hu
    obtain ⟨doc, h1, h2, h3, h4⟩ := h.passages k before after u hk1 hk hb
    obtain ⟨v, hv, _⟩ := parse_passage ht (plainRef_dotted hcs)
    have hsp : split '.' (dotted u.1) = u.1 := by
      rw [← join_dot_eq_dotted]
      exact split_join hcs.1 fun v hv => (hcs.2 v hv).1.2.1
    obtain ⟨s', p, e1, e2, e3, _, hm⟩ := getNode_made (C97_naming text parts ht s.urn hs u.1 hcs (.list u.1) rfl) hv h1 h2 h3 (fresh s.log.length)
    have hp : p.plain ex = unitText root ex u := by
      rw [(agree_of_made ht hcs hv hm).plain ex hex, unit_plain (same := fun _ i j => decide (i = j)) (by simp) hc hk1 hk hu ex]
    rw [List.map_cons, setAll] at h'
    cases hset : nestedSet dict u.1 (.leaf (unitText root ex u)) with
    | error e => rw [hset] at h'; cases h'
    | ok dict1 =>
      rw [hset] at h'
      obtain ⟨s'', g1, g2⟩ := remoteLoop_units ht hc h fresh hk1 hk hex us dict1 s' (fun w hw => hus w (List.mem_cons_of_mem _ hw))
        (by rw [e2]; exact hs) dict' h'
      refine ⟨s'', ?_, ?_⟩
      · simp only [List.map_cons, RemoteText.nestedLoop, hsp, e1, hp, hset, g1]
      · rw [g2, e3]; simp

/-- C97. The nested dictionary of a text, with `n` the number of levels declared with all of the text: it has one entry for each unit of level
`n`, in document order, with the text of the unit; when `n` is the number of levels of the document, it is the dictionary of the local
text. -/
theorem C97_nested (serve : DocEndpoint) (d : Option Str) (text : Str) (parts : UrnParts) (ht : IsTextUrn text parts) (env : List Str)
    (root : Node) (ls : List Level) (same : Same) (hr : ∀ n i, same n i i = true) (hc : Citable root ls) (hl : ls ≠ [])
    (h : ServesDocument serve d text env root ls) (scheme : List CiteLevel) (hw : ServesWhole serve d text env root scheme) (s : RemoteText)
    (hs : Urn.parse text = .ok s.urn) (n : Nat) (hn : n = if scheme = [] then 1 else scheme.length) (hk : n ≤ ls.length) (fresh : Nat → Term)
    (ex : List Str) (hex : ∀ e ∈ ex, e ∉ env) :
    ∃ s' dict, s.export serve d fresh .nested ex = (s', .ok (.nested dict)) ∧
      leaves dict = (units (ls.take n) root).map (fun u => (u.1, unitText root ex u)) ∧
      s'.log = s.log ++ ctsPassage d text none none :: ctsValidReff d text none (some (n : Int)) ::
        (units (ls.take n) root).map (fun u => ctsPassage d (text ++ ':' :: dotted u.1) none none) ∧
      (n = ls.length → units ls root ≠ [] → exportNested (textOf root same ls) ex = .ok dict) := by
  have hn1 : 1 ≤ n := by
    rw [hn]
    split
    · exact Nat.le_refl _
    · rename_i h; exact List.length_pos_iff.2 h
  obtain ⟨u, hu, hnr, _, hstr, _⟩ := parse_text ht
  rw [hs] at hu; cases hu
  obtain ⟨s', p, doc, e1, e2, e3, hm, hci⟩ := whole_made ht hw hs (fresh s.log.length)
  have hps : Urn.parse text = .ok (p.shared s'.graph).urn := by show _ = Except.ok p.nav.urn; rw [hm.urn]; exact hs
  have hlen : citeLen (p.shared s'.graph).obj.cite = n := by rw [hn]; show citeLen p.obj.cite = _; rw [hci]; rfl
  have hlists : ∃ s2, (p.shared s'.graph).getReffs serve d n none = (s2, .ok ((units (ls.take n) root).map fun u => dotted u.1)) ∧
      s2.urn = s.urn ∧ s2.log = s.log ++ [ctsPassage d text none none, ctsValidReff d text none (some (n : Int))] := by
    obtain ⟨doc, h1, h2, h3⟩ := h.lists n [] (by simp; omega) hk ⟨[], by simp [units]⟩
    have hstr' : (p.shared s'.graph).urn.str = .ok (text, s.urn) := by show p.nav.urn.str = _; rw [hm.urn]; simpa using hstr
    have h1' : serve (ctsValidReff d (wholeOr text none) none (some (n : Int))) = .ok doc := by simpa [refOf] using h1
    obtain ⟨s2, g1, g2, _, g4⟩ := getValidReff_readable (serve := serve) (d := d) hstr' (level := n) (sub := none) (by simp) h1' h2
    have hl' : listed doc = (units (ls.take n) root).map fun u => dotted u.1 := by
      rw [listed_units h3 (listing_components hc h hn1 hk), listing_all, List.map_map]; rfl
    refine ⟨s2, ?_, ?_, ?_⟩
    · rw [RemoteText.getReffs, remoteLevel, show (p.shared s'.graph).urn = s.urn from hm.urn, hnr, g1, hl']
    · rw [g2]; exact hm.urn
    · rw [g4]
      show p.nav.log ++ _ = _
      rw [hm.log]
      simp [wholeOr]
  obtain ⟨s2, g1, g2, g3⟩ := hlists
  have htl : ls.take n ≠ [] := by
    intro e
    have := congrArg List.length e
    simp at this
    rcases this with e | e
    · omega
    · exact hl e
  obtain ⟨items, i1, i2⟩ := setAll_units (ls.take n) root htl (fun j => by rw [List.take_take]; exact hc.distinct _) (fun u => unitText root ex u)
  obtain ⟨s3, j1, j2⟩ := remoteLoop_units ht hc h fresh hn1 hk hex (units (ls.take n) root) (.dict []) s2 (fun _ hu => hu) (by rw [g2]; exact hs) _ i1
  refine ⟨{ s' with graph := s3.graph, log := s3.log }, .dict items, ?_, i2, ?_, fun hnl hne => ?_⟩
  · rw [RemoteText.export, e1]
    simp only [OpenedPassage.export, RemoteText.exportNested, hlen, g1, j1]
  · show s3.log = _
    rw [j2, g3]; simp
  · subst hnl
    rw [List.take_length] at i1
    have hlist := C29_lists_units root ls same hc ls.length hn1
    rw [if_neg (Nat.lt_irrefl _), List.take_length, if_neg (by simpa using hne)] at hlist
    unfold exportNested
    rw [show (textOf root same ls).decls.length = ls.length from length_declsOf _ _, hlist]
    simp only
    rw [nestedLoop_units hr hc hl ex _ _ fun u hu => hu, i1]

/-- C97, where the code departs from the natural claim: the nested dictionary of a remote passage asks for references of a level that is the
number of levels of the scheme and the depth of the passage together, so below the deepest level when the scheme is that of the text. -/
theorem C97_fails_nested_passage (serve : DocEndpoint) (d : Option Str) (text : Str) (parts : UrnParts) (ht : IsTextUrn text parts) (cs : List Str)
    (hcs : UrnComponents cs) (p : OpenedPassage) (hp : Urn.parse (text ++ ':' :: dotted cs) = .ok p.nav.urn) (fresh : Nat → Term) (ex : List Str)
    (g : Graph) : ∃ more, (p.export serve d fresh .nested ex g).1.log = p.nav.log ++
      ctsValidReff d (text ++ ':' :: dotted cs) none (some (((if p.obj.cite = [] then 1 else p.obj.cite.length) + cs.length : Nat) : Int)) :: more := by
  have hpl := plainRef_dotted hcs
  obtain ⟨u, hu, _, _, hstr, _⟩ := parse_passage ht hpl
  rw [hp] at hu; cases hu
  have href := parse_passage_ref ht hpl hp
  rw [mkRef_dotted hcs.1 (fun v hv => (hcs.2 v hv).1)] at href
  have href' : p.nav.urn.ref = some (single cs) := (Except.ok.inj href).symm
  have hlev : remoteLevel p.nav.urn (citeLen p.obj.cite) = (((if p.obj.cite = [] then 1 else p.obj.cite.length) + cs.length : Nat) : Int) := by
    rw [remoteLevel, href']
    simp only [Ref.depth, Ref.highest, single, plist_dotted hcs.1 fun v hv => (hcs.2 v hv).1, citeLen]
    omega
  have hlog := getValidReff_log serve d (s := p.shared g) hstr (remoteLevel p.nav.urn (citeLen p.obj.cite)) none
  have he : (p.export serve d fresh .nested ex g).1.log = ((p.shared g).exportNested serve d fresh ex).1.log := by
    simp only [OpenedPassage.export]
    generalize RemoteText.exportNested serve d fresh ex (p.shared g) = o
    obtain ⟨s', e | _⟩ := o <;> rfl
  rw [he, RemoteText.exportNested, RemoteText.getReffs]
  rw [hlev, reffLevel_nat] at hlog
  rw [show (p.shared g).urn = p.nav.urn from rfl, show (p.shared g).obj = p.obj from rfl, hlev]
  generalize (((if p.obj.cite = [] then 1 else p.obj.cite.length) + cs.length : Nat) : Int) = level at hlog ⊢
  generalize RemoteText.getValidReff serve d level none (p.shared g) = o at hlog ⊢
  obtain ⟨s', e | l⟩ := o
  · exact ⟨[], hlog⟩
  · obtain ⟨m, hm⟩ := nestedLoop_log serve d fresh ex l (.dict []) s'
    refine ⟨m, hm.trans ?_⟩
    rw [show s'.log = _ from hlog, List.append_assoc]
    rfl

/-! ## An endpoint that serves an edition -/

/-- The edition of `Verif/Props/LocalText.lean` under the name that endpoints give the root. -/
def servedEdition : Node := .mk "tei:TEI".toList [] [] [poems] []

theorem servedEdition_units : units editionLevels servedEdition = units editionLevels edition ∧
    units (editionLevels.take 1) servedEdition = units (editionLevels.take 1) edition := by decide +kernel

theorem servedEdition_take (k : Nat) : units (editionLevels.take k) servedEdition = units (editionLevels.take k) edition := by
  match k with
  | 0 => rfl
  | 1 => exact servedEdition_units.2
  | k + 2 => rw [List.take_of_length_le (by simp [editionLevels])]; exact servedEdition_units.1

theorem servedEdition_citable : Citable servedEdition editionLevels where
  tag := by decide
  few := edition_citable.few
  wf := edition_citable.wf
  ids := by intro k u hu; rw [servedEdition_take] at hu; exact edition_citable.ids k u hu
  distinct := by intro k u hu; rw [servedEdition_take] at hu ⊢; exact edition_citable.distinct k u hu

/-- A reply. -/
def envelope (request reply : List Node) : Node :=
  .mk "ti:GetPassage".toList [] [] [.mk "ti:request".toList [] [] request [], .mk "ti:reply".toList [] [] reply []] []

/-- An element with a text. -/
def leafNode (name : String) (s : Str) : Node := .mk name.toList [] s [] []

/-- A reply with URNs. -/
def listReply (urns : List Str) : Node := envelope [] (urns.map (leafNode "ti:urn"))

/-- The siblings in a reply. -/
def sibNodes (prev next : Option Str) : Node :=
  .mk "ti:prevnext".toList [] []
    [.mk "ti:prev".toList [] [] (prev.toList.map (leafNode "ti:urn")) [], .mk "ti:next".toList [] [] (next.toList.map (leafNode "ti:urn")) []] []

/-- What the endpoint answers to every request it knows: passages of books come with their siblings, passages of lines without. -/
def servedReplies (request : List Node) : List (List (Str × Str) × Node) :=
  let urn (ids : List Str) : Str := demoText ++ ':' :: dotted ids
  (ctsPassage none demoText none none, envelope request [.mk "ti:passage".toList [] [] [servedEdition] []]) ::
  ([1, 2].flatMap fun k =>
    let us := units (editionLevels.take k) servedEdition
    (ctsValidReff none demoText none (some (k : Int)), listReply (us.map fun u => urn u.1)) ::
    (us.map fun u => (ctsValidReff none (urn u.1) none (some 2), listReply ((listing servedEdition editionLevels 2 u.1).map urn))) ++
    (List.range us.length).flatMap fun i =>
      match us[i]? with
      | none => []
      | some u =>
        let sibs := sibNodes ((us.take i).getLast?.map fun w => urn w.1) ((us.drop (i + 1)).head?.map fun w => urn w.1)
        [(ctsPassage none (urn u.1) none none,
            envelope request ((if k = 1 then [sibs] else []) ++ [.mk "ti:passage".toList [] [] [emptied servedEdition (chainTo servedEdition u.2)] []])),
          (ctsPrevNextUrn none (urn u.1) none, envelope [] [sibs])])

/-- The endpoint. -/
def servedBy (request : List Node) : DocEndpoint := fun r => ((servedReplies request).lookup r).elim (.error .unknownObject) .ok

/-- A declaration of two levels. -/
def twoLevels : List Node :=
  [.mk "ti:citation".toList [(['l', 'a', 'b', 'e', 'l'], "poem".toList)] [] [.mk "ti:citation".toList [(['l', 'a', 'b', 'e', 'l'], "line".toList)] [] [] []] []]

/-- The names of the elements around a passage. -/
def servedEnv : List Str := ["ti:passage".toList, "ti:reply".toList, "ti:GetPassage".toList]

def readableB (doc : Node) : Bool :=
  match named "ti:request" doc with
  | [] => false
  | x :: _ => ((elements doc).all fun e => e.tag ≠ "ti:citation".toList) || (below x).any fun e => e.tag = "ti:citation".toList

theorem readable_of_B {doc : Node} (h : readableB doc = true) : Readable doc := by
  unfold readableB at h
  split at h
  · cases h
  · rename_i x rest hx
    refine ⟨x, rest, hx, ?_⟩
    rw [Bool.or_eq_true, List.all_eq_true, List.any_eq_true] at h
    rcases h with h | ⟨e, he, ht⟩
    · exact .inl fun e he => of_decide_eq_true (h e he)
    · exact .inr ⟨e, he, of_decide_eq_true ht⟩

def givesTextB (doc : Node) (env : List Str) (tree : Node) : Bool :=
  match teiIn doc with
  | [] => false
  | (around, x) :: _ => (around.all fun a => decide (a ∈ env)) && decide (x.tag = tree.tag ∧ x.attrs = tree.attrs ∧ x.text = tree.text ∧ x.kids = tree.kids)

theorem givesText_of_B {doc : Node} {env : List Str} {tree : Node} (h : givesTextB doc env tree = true) : GivesText doc env tree := by
  unfold givesTextB at h
  split at h
  · cases h
  · rename_i around x rest hx
    rw [Bool.and_eq_true, List.all_eq_true, decide_eq_true_eq] at h
    exact ⟨around, x, rest, hx, by simpa using h.1, h.2⟩

/-- Everything that is asked of the endpoint, as a check. -/
def servesB (serve : DocEndpoint) (text : Str) (env : List Str) (root : Node) (ls : List Level) : Bool :=
  (List.range (ls.length + 1)).all fun k =>
    let us := units (ls.take k) root
    (List.range k).all (fun j => (units (ls.take j) root).all fun u =>
      match serve (ctsValidReff none (wholeOr text (refOf u.1)) none (some (k : Int))) with
      | .error _ => false
      | .ok doc => readableB doc && decide (listedUrns doc = (listing root ls k u.1).map fun ids => text ++ ':' :: dotted ids)) &&
    (k == 0 || (List.range us.length).all fun i =>
      match us[i]? with
      | none => false
      | some u =>
        let sibs := (((us.take i).getLast?.map fun w => text ++ ':' :: dotted w.1), ((us.drop (i + 1)).head?.map fun w => text ++ ':' :: dotted w.1))
        (match serve (ctsPassage none (text ++ ':' :: dotted u.1) none none) with
          | .error _ => false
          | .ok doc => readableB doc && givesTextB doc env (emptied root (chainTo root u.2)) &&
            decide (announcedIn doc = none ∨ announcedIn doc = some sibs)) &&
        (match serve (ctsPrevNextUrn none (text ++ ':' :: dotted u.1) none) with
          | .error _ => false
          | .ok doc => decide (announcedIn doc = some sibs)))

theorem serves_of_B {serve : DocEndpoint} {text : Str} {env : List Str} {root : Node} {ls : List Level} (h : servesB serve text env root ls = true)
    (hp : ∀ k, ∀ u ∈ units (ls.take k) root, ∀ v ∈ u.1, ':' ∉ v ∧ '#' ∉ v) : ServesDocument serve none text env root ls := by
  unfold servesB at h
  rw [List.all_eq_true] at h
  have h' : ∀ k, k ≤ ls.length → _ := fun k hk => h k (List.mem_range.2 (by omega))
  have hunit : ∀ k before after u, 1 ≤ k → k ≤ ls.length → units (ls.take k) root = before ++ u :: after → _ := fun k before after u hk1 hk hb => by
    have := (Bool.and_eq_true _ _ ▸ h' k hk).2
    rw [Bool.or_eq_true, List.all_eq_true] at this
    have := (this.resolve_left (by simp; omega)) before.length (List.mem_range.2 (by rw [hb]; simp))
    rw [hb] at this
    simp only [List.getElem?_append_right (Nat.le_refl _), Nat.sub_self, List.getElem?_cons_zero, Bool.and_eq_true] at this
    exact this
  refine ⟨hp, fun k under hk1 hk hu => ?_, fun k before after u hk1 hk hb => ?_, fun k before after u hk1 hk hb => ?_⟩
  · obtain ⟨t, hu⟩ := hu
    have := (Bool.and_eq_true _ _ ▸ h' k hk).1
    rw [List.all_eq_true] at this
    have := this under.length (List.mem_range.2 hk1)
    rw [List.all_eq_true] at this
    have := this _ hu
    split at this
    · cases this
    · rename_i doc hd
      rw [Bool.and_eq_true, decide_eq_true_eq] at this
      exact ⟨doc, hd, readable_of_B this.1, this.2⟩
  · have := (hunit k before after u hk1 hk hb).1
    split at this
    · cases this
    · rename_i doc hd
      rw [Bool.and_eq_true, Bool.and_eq_true, decide_eq_true_eq] at this
      refine ⟨doc, hd, readable_of_B this.1.1, givesText_of_B this.1.2, ?_⟩
      have := this.2
      simpa using this
  · have := (hunit k before after u hk1 hk hb).2
    split at this
    · cases this
    · rename_i doc hd
      rw [decide_eq_true_eq] at this
      refine ⟨doc, hd, ?_⟩
      simpa using this

theorem servedEdition_plain (k : Nat) : ∀ u ∈ units (editionLevels.take k) servedEdition, ∀ v ∈ u.1, ':' ∉ v ∧ '#' ∉ v := by
  match k with
  | 0 => decide +kernel
  | 1 => decide +kernel
  | k + 2 =>
    rw [List.take_of_length_le (by simp [editionLevels])]
    decide +kernel

theorem servedBy_document (request : List Node) (h : request = [] ∨ request = twoLevels) :
    ServesDocument (servedBy request) none demoText servedEnv servedEdition editionLevels := by
  refine serves_of_B ?_ servedEdition_plain
  rcases h with rfl | rfl <;> decide +kernel

theorem servedBy_whole (request : List Node) (h : request = [] ∨ request = twoLevels) :
    ∃ scheme, (request = [] → scheme = []) ∧ (request = twoLevels → scheme.length = 2) ∧
      ServesWhole (servedBy request) none demoText servedEnv servedEdition scheme := by
  have key : ∀ request, request = [] ∨ request = twoLevels →
      ((servedBy request (ctsPassage none demoText none none)).toOption.any fun doc => readableB doc && givesTextB doc servedEnv servedEdition &&
        ((adoptScheme doc doc []).toOption.any fun c => decide ((request = [] → c = []) ∧ (request = twoLevels → c.length = 2)))) = true := by
    rintro _ (rfl | rfl) <;> decide +kernel
  have := key request h
  cases hd : servedBy request (ctsPassage none demoText none none) with
  | error e => rw [hd] at this; cases this
  | ok doc =>
    rw [hd] at this
    simp only [Except.toOption, Option.any_some, Bool.and_eq_true] at this
    obtain ⟨⟨h1, h2⟩, h3⟩ := this
    rcases adoptScheme_spec doc doc [] with ⟨c, e, hc⟩ | ⟨e, _⟩
    · rw [e] at h3
      simp only [Option.any_some, decide_eq_true_eq] at h3
      exact ⟨c, h3.1, h3.2, ⟨doc, hd, readable_of_B h1, givesText_of_B h2, hc⟩⟩
    · rw [e] at h3; cases h3

/-- A text that was just made. -/
def servedText (u : Urn) : RemoteText := ⟨u, ⟨.bnode [], []⟩, [], []⟩

example : ∃ u, Urn.parse demoText = .ok u := by
  obtain ⟨u, hu, _⟩ := parse_text demo_text
  exact ⟨u, hu⟩

theorem servedEdition_lines : (units (editionLevels.take 2) servedEdition).map (fun u => dotted u.1) =
    ["1.1".toList, "1.2".toList, "2.1".toList, "2.2".toList] := by decide +kernel

-- what the theorems say of this endpoint
example (u : Urn) (hu : Urn.parse demoText = .ok u) : ∃ s', (servedText u).getReffs (servedBy []) none 2 none =
    (s', .ok ["1.1".toList, "1.2".toList, "2.1".toList, "2.2".toList]) := by
  obtain ⟨s', h, _⟩ := C97_lists (servedBy []) none demoText _ demo_text servedEnv servedEdition editionLevels sameIdentity servedEdition_citable
    (servedBy_document [] (.inl rfl)) (servedText u) hu 2 (by decide) (by decide)
  rw [servedEdition_lines] at h
  exact ⟨s', h⟩

example (u : Urn) (hu : Urn.parse demoText = .ok u) : ∃ s', (servedText u).getValidReff (servedBy []) none 2 (some "2".toList) =
    (s', .ok ["2.1".toList, "2.2".toList]) := by
  obtain ⟨s', h, _⟩ := C97_lists_inside (servedBy []) none demoText _ demo_text servedEnv servedEdition editionLevels sameIdentity servedEdition_citable
    (servedBy_document [] (.inl rfl)) (servedText u) hu 1 2 (by decide) (by decide) (by decide) ([['2']], [0, 1]) (by decide +kernel)
  rw [show (listing servedEdition editionLevels 2 [['2']]).map dotted = ["2.1".toList, "2.2".toList] by decide +kernel] at h
  exact ⟨s', h⟩

example (u : Urn) (hu : Urn.parse demoText = .ok u) : ∃ s' p, (servedText u).getNode (servedBy []) none (.list [['1'], ['2']]) (.bnode []) = (s', .ok p) ∧
    AtUrn p.nav (demoText ++ ":1.2".toList) ∧ p.plain [] = "b".toList ∧
    (p.nav.siblingsId (servedBy []).replies none).2 = .ok (.known "1.1".toList, .known "2.1".toList) := by
  have hm : (([['1'], ['2']], [0, 0, 1]) : List Str × List Nat) ∈ units (editionLevels.take 2) servedEdition := by decide +kernel
  obtain ⟨s', p, q, h1, _, _, h2, h3, h4⟩ := C97_passage (servedBy []) none demoText _ demo_text servedEnv servedEdition editionLevels sameIdentity
    (by simp [sameIdentity]) servedEdition_citable (servedBy_document [] (.inl rfl)) (servedText u) hu 2 (by decide) (by decide) _ hm
    (.list [['1'], ['2']]) rfl (.bnode [])
  obtain ⟨s2, p2, q2, prev, next, g1, g2, g3, g4, _⟩ := C97_siblings (servedBy []) none demoText _ demo_text servedEnv servedEdition editionLevels sameIdentity
    (by simp [sameIdentity]) servedEdition_citable (servedBy_document [] (.inl rfl)) (servedText u) hu 2 (by decide) (by decide) _ hm
    (.list [['1'], ['2']]) rfl (.bnode [])
  rw [h1] at g1
  simp only [Prod.mk.injEq, Except.ok.injEq] at g1
  obtain ⟨rfl, rfl⟩ := g1
  refine ⟨s', p, h1, ?_, ?_, ?_⟩
  · have := h4.urn
    rwa [h3] at this
  · rw [h4.plain [] (by simp)]
    rw [unit_passage (by simp [sameIdentity]) servedEdition_citable (by decide) (by decide) hm] at h2
    cases h2
    decide +kernel
  · rw [unit_passage (by simp [sameIdentity]) servedEdition_citable (by decide) (by decide) hm] at g2
    cases g2
    rw [siblingsId_single servedEdition_citable (k := 2) (by decide) (by decide) (before := [([['1'], ['1']], [0, 0, 0])])
      (after := [([['2'], ['1']], [0, 1, 0]), ([['2'], ['2']], [0, 1, 1])]) (by decide +kernel)] at g3
    cases g3
    exact g4

example (u : Urn) (hu : Urn.parse demoText = .ok u) : ∃ ps, readRemote (servedBy []) none (fun _ => .bnode []) 4 "1.1".toList (servedText u) = .ok ps ∧
    ps.length = 4 := by
  obtain ⟨ps, qs, h1, _, h2, h3, _⟩ := C97_reading (servedBy []) none demoText _ demo_text servedEnv servedEdition editionLevels sameIdentity
    (by simp [sameIdentity]) servedEdition_citable (servedBy_document [] (.inl rfl)) (servedText u) hu 2 (by decide) (by decide) []
    [([['1'], ['2']], [0, 0, 1]), ([['2'], ['1']], [0, 1, 0]), ([['2'], ['2']], [0, 1, 1])] ([['1'], ['1']], [0, 0, 0]) (by decide +kernel)
    (fun _ => .bnode []) 4 (by decide)
  refine ⟨ps, h1, h2.trans ?_⟩
  have := congrArg List.length h3
  simpa using this

-- with the scheme declared, the nested dictionary has the lines
example (u : Urn) (hu : Urn.parse demoText = .ok u) : ∃ s' dict, (servedText u).export (servedBy twoLevels) none (fun _ => .bnode []) .nested [] =
    (s', .ok (.nested dict)) ∧ leaves dict = [([['1'], ['1']], ['a']), ([['1'], ['2']], ['b']), ([['2'], ['1']], ['c']), ([['2'], ['2']], ['d'])] := by
  obtain ⟨scheme, _, hl, hw⟩ := servedBy_whole twoLevels (.inr rfl)
  have hl := hl rfl
  obtain ⟨s', dict, h1, h2, _⟩ := C97_nested (servedBy twoLevels) none demoText _ demo_text servedEnv servedEdition editionLevels sameIdentity
    (by simp [sameIdentity]) servedEdition_citable (by decide) (servedBy_document _ (.inr rfl)) scheme hw (servedText u) hu 2
    (by rw [hl, if_neg (by rintro rfl; cases hl)]) (by decide) (fun _ => .bnode []) [] (by simp)
  exact ⟨s', dict, h1, h2.trans (by decide +kernel)⟩

-- an opened passage, for `C97_fails_envelope`
example : ∃ p, openWhole demoText (envelope [] [.mk "ti:passage".toList [] [] [servedEdition] []]) (.bnode []) [] = .ok p ∧
    p.plain [] = "a b c d".toList ∧ p.plain ["ti:passage".toList] = [] ∧ p.plain ["ti:reply".toList] = [] := by
  refine ⟨_, rfl, ?_⟩
  decide +kernel

/-- C97, where the code departs from the natural claim: when the endpoint declares no scheme with the text, the nested dictionary has the units of
the first level only, though the document has two levels. -/
theorem C97_fails_nested_without_scheme : ∃ (serve : DocEndpoint) (text : Str) (parts : UrnParts) (env : List Str) (root : Node) (ls : List Level),
    IsTextUrn text parts ∧ Citable root ls ∧ ServesDocument serve none text env root ls ∧ ServesWhole serve none text env root [] ∧ ls.length = 2 ∧
    ∀ s : RemoteText, Urn.parse text = .ok s.urn → ∃ s' dict, s.export serve none (fun _ => .bnode []) .nested [] = (s', .ok (.nested dict)) ∧
      leaves dict = [([['1']], "a b".toList), ([['2']], "c d".toList)] := by
  obtain ⟨scheme, hs, _, hw⟩ := servedBy_whole [] (.inl rfl)
  rw [hs rfl] at hw
  refine ⟨servedBy [], demoText, _, servedEnv, servedEdition, editionLevels, demo_text, servedEdition_citable, servedBy_document [] (.inl rfl), hw, rfl,
    fun s hu => ?_⟩
  obtain ⟨s', dict, h1, h2, _⟩ := C97_nested (servedBy []) none demoText _ demo_text servedEnv servedEdition editionLevels sameIdentity
    (by simp [sameIdentity]) servedEdition_citable (by decide) (servedBy_document _ (.inl rfl)) [] hw s hu 1 rfl (by decide) (fun _ => .bnode []) [] (by simp)
  exact ⟨s', dict, h1, h2.trans (by decide +kernel)⟩

end Verif.Props
