import Verif.Model.TextNodes
import Verif.Props.Urn
import Verif.Props.Metadata
/-!
C93: URNs, identifiers and references of texts and passages.
-/
namespace Verif.Props
open Verif.Py Verif.Model Verif.Spec

theorem splitAt_colon (c : Char) (a b : Str) : split c (a ++ c :: b) = split c a ++ split c b := by
  induction a with
  | nil => simp
  | cons x xs ih =>
    by_cases h : x = c
    · subst h; simp [ih]
    · obtain ⟨hd, tl, h1, h2⟩ := split_cons_ne (xs := xs) h
      obtain ⟨hd', tl', h1', h2'⟩ := split_cons_ne (xs := xs ++ c :: b) h
      rw [List.cons_append, h2', h2]
      rw [ih, h1] at h1'
      injection h1' with e1 e2
      subst e1 e2
      rfl

/-- The URN with a passage, when a version and no passage were there: the same levels, and the passage. -/
theorem parse_more {p : UrnParts} (h : p.WF) {u : Urn} (hu : Urn.parse p.write = .ok u) {q : Str} (hq : p.ref = some q) {r : Str} (hr : PlainRef r) :
    ∃ v, Urn.parse (p.write ++ ':' :: r) = .ok v ∧ v.ns = u.ns ∧ v.cts = u.cts ∧ v.tg = u.tg ∧ v.wk = u.wk ∧ v.ver = u.ver ∧ v.ref = none := by
  have h1 : '#' ∉ p.write := hash_write h
  have h2 : '#' ∉ p.write ++ ':' :: r := by
    simp only [List.mem_append, List.mem_cons, not_or]
    exact ⟨h1, by decide, hr.2.2.1⟩
  obtain ⟨a, ns, cts, rest, hs, hc, e1, e2, e3, e4, e5, e6⟩ := parse_ok hu
  rw [split_of_not_mem h1] at hs
  simp only [List.headD_cons] at hs
  rw [split_write h, hq] at hs
  obtain ⟨t, ht⟩ : ∃ t, p.tg = some t := by
    cases ht : p.tg with
    | none => rw [h.refTg ht] at hq; cases hq
    | some t => exact ⟨t, rfl⟩
  have hs2 : split ':' (p.write ++ ':' :: r) = a :: ns :: cts :: (rest ++ [r]) := by
    rw [splitAt_colon, split_write h, hq, hs, split_of_not_mem hr.2.1]; rfl
  unfold Urn.parse
  rw [split_of_not_mem h2]
  simp only [List.headD_cons, hs2]
  rw [ht] at hs
  simp at hs
  obtain ⟨_, _, _, hrest⟩ := hs
  subst hrest
  simp only [List.cons_append, List.nil_append, urnRefPart]
  exact ⟨_, rfl, e1.symm, e2.symm, e4.symm, e5.symm, e6.symm, rfl⟩

theorem upTo_version {u v : Urn} (h1 : v.ns = u.ns) (h2 : v.cts = u.cts) (h3 : v.tg = u.tg) (h4 : v.wk = u.wk) (h5 : v.ver = u.ver)
    (ht : truthy u.ver = true) : v.upTo 3 = u.upTo 3 := by
  simp [Urn.upTo, h1, h2, h3, h4, h5, ht]

theorem withRef_wf {p : UrnParts} (h : p.WF) (hv : p.ver ≠ none) {r : Str} (hr : PlainRef r) : UrnParts.WF { p with ref := some r } := by
  refine ⟨h.ns, h.cts, h.tg, h.wk, h.ver, ?_, h.wkTg, h.verWk, ?_⟩
  · intro s hs; injection hs with hs; subst hs; exact hr
  · intro ht; exact absurd (h.verWk (h.wkTg ht)) hv

theorem write_ref (p : UrnParts) (r : Str) : UrnParts.write { p with ref := some r } = cutVersion p ++ ':' :: r := by
  simp [UrnParts.write, cutVersion, after]

theorem step_passage {p : UrnParts} (h : p.WF) (hv : p.ver ≠ none) {n : TextNode} {u : Urn} (hn : n.urn = some u)
    (hu : Urn.parse p.write = .ok u) {r : Str} (hr : PlainRef r) {ref : Ref} (href : mkRef r = .ok (some ref)) :
    ∃ u', n.passage ref = .ok ⟨UrnParts.write { p with ref := some r }, some u', some ref⟩ ∧
      Urn.parse (UrnParts.write { p with ref := some r }) = .ok u' := by
  have hw := withRef_wf h hv hr
  obtain ⟨R, hR, hRs, _⟩ := C01_reference_round_trip r hr.1 hr.2.2.2
  rw [href] at hR
  injection hR with hR; injection hR with hR
  subst hR
  obtain ⟨u', hu', -⟩ := C12_urn_components _ hw
  have hstr' : ∃ x, u'.str = .ok (UrnParts.write { p with ref := some r }, x) := C10_urn_round_trip_plain _ (hash_write hw) u' hu'
  obtain ⟨x, hx⟩ := C10_urn_round_trip_plain _ (hash_write h) u hu
  obtain ⟨x', hx'⟩ := hstr'
  obtain ⟨_, hu0, c1, c2, c3, c4, c5, c6⟩ := C12_urn_components p h
  rw [hu] at hu0; injection hu0 with hu0; subst hu0
  have hlen : u.len ≠ 0 := by simp [Urn.len, c1]
  obtain ⟨w, hw'⟩ := Option.ne_none_iff_exists'.1 hv
  have htr : truthy u.ver = true := by rw [c5, hw', truthy_some]; exact (h.ver w hw').1
  -- the URN from which the passage is made
  have key : ∃ v, Urn.parse (p.write ++ ':' :: ref.str) = .ok v ∧ v.upTo 3 = .ok (cutVersion p) ∧ (v.ref = none ∨ v.ref = some ref) := by
    rw [hRs]
    have up := (C14_upTo_values p h u hu).2.2.2.2.1 hv
    cases hq : p.ref with
    | some q =>
      obtain ⟨v, hv', a1, a2, a3, a4, a5, a6⟩ := parse_more h hu hq hr
      exact ⟨v, hv', by rw [upTo_version a1 a2 a3 a4 a5 htr, up], .inl a6⟩
    | none =>
      have e : p.write ++ ':' :: r = UrnParts.write { p with ref := some r } := by
        rw [write_ref]; simp [cutVersion, ← hq]
      rw [e]
      refine ⟨u', hu', (C14_upTo_values _ hw u' hu').2.2.2.2.1 hv, ?_⟩
      obtain ⟨a, ns, cts, rest, hs, hc, e1, e2, e3, e4, e5, e6⟩ := parse_ok hu'
      rw [split_of_not_mem (hash_write hw)] at hs
      simp only [List.headD_cons] at hs
      rw [split_write hw] at hs
      obtain ⟨t, ht⟩ : ∃ t, p.tg = some t := by
        cases ht : p.tg with
        | none => exact absurd (h.verWk (h.wkTg ht)) hv
        | some t => exact ⟨t, rfl⟩
      simp [ht] at hs
      obtain ⟨_, _, _, hrest⟩ := hs
      subst hrest
      simp only [urnRefPart, href] at e3
      injection e3 with e3
      exact .inr e3.symm
  obtain ⟨v, k1, k2, k3⟩ := key
  rw [hRs] at k1
  refine ⟨u', ?_, hu'⟩
  have e : cutVersion p ++ ':' :: r = UrnParts.write { p with ref := some r } := (write_ref p r).symm
  simp only [TextNode.passage, hn, hlen, if_false, hx, k1, newPassage, passageKwargs, k2, hRs, e, hu', newTextNode, UrnGiven.text, hx',
    TextNode.setUrn, Functor.map, Except.map]
  rcases k3 with k | k <;> simp only [k]

/-- C93. A text made from a URN string has this string as identifier and the URN it reads as; a string that is no URN is refused, and so is
anything that is neither a string nor a URN. -/
theorem C93_text (s : Str) :
    (∀ u, Urn.parse s = .ok u → newTextNode (.str s) = .ok ⟨s, some u, none⟩) ∧
    (∀ e, Urn.parse s = .error e → newTextNode (.str s) = .error .valueError) ∧
    newTextNode (.other s) = .error .typeError := by
  refine ⟨fun u h => ?_, fun e h => ?_, rfl⟩
  · simp [newTextNode, UrnGiven.text, TextNode.setUrn, h]
  · have := ((C11_urn_acceptance s e).1 h).1
    simp [newTextNode, UrnGiven.text, TextNode.setUrn, h, this]

/-- C93. The passage to which any number of calls of `getTextualNode` leads, each on the passage the call before gave, has the URN of the text
with the last reference asked for, this URN as its identifier, and this reference: whatever lies between, and whether or not the URN
of the text itself has a passage. -/
theorem C93_passages (p : UrnParts) (h : p.WF) (hv : p.ver ≠ none) (n : TextNode) (hn : newTextNode (.str p.write) = .ok n)
    (rs : List Str) (hr : ∀ r ∈ rs, PlainRef r) (refs : List Ref) (hrefs : rs.map mkRef = refs.map fun r => .ok (some r))
    (last : Str) (ref : Ref) (hl : rs.getLast? = some last) (hl' : refs.getLast? = some ref) :
    ∃ m u, n.walk refs = .ok m ∧ m.id = UrnParts.write { p with ref := some last } ∧ m.urn = some u ∧
      Urn.parse (UrnParts.write { p with ref := some last }) = .ok u ∧ m.ref = some ref := by
  obtain ⟨u, hu, -⟩ := C12_urn_components p h
  rw [(C93_text p.write).1 u hu] at hn
  injection hn with hn
  have hnu : n.urn = some u := by rw [← hn]
  clear hn
  induction rs generalizing p n u refs with
  | nil => cases hl
  | cons r rs ih =>
    cases refs with
    | nil => cases hl'
    | cons x xs =>
      simp only [List.map_cons, List.cons.injEq] at hrefs
      obtain ⟨u', h1, h2⟩ := step_passage h hv hnu hu (hr r (by simp)) hrefs.1
      rw [TextNode.walk, h1]
      cases rs with
      | nil =>
        cases xs with
        | nil =>
          simp only [List.getLast?_singleton, Option.some.injEq] at hl hl'
          subst hl hl'
          exact ⟨_, u', rfl, rfl, rfl, h2, rfl⟩
        | cons y ys => simp at hrefs
      | cons s rs =>
        cases xs with
        | nil => simp at hrefs
        | cons y ys =>
          rw [List.getLast?_cons_cons] at hl hl'
          exact ih { p with ref := some r } (withRef_wf h hv (hr r (by simp))) hv _ (fun r hm => hr r (by simp [hm])) _ hrefs.2 hl hl' u' h2 rfl

/-- The string that URN and identifier of a text read in the end. -/
example : (newTextNode (.str "urn:cts:latinLit:phi1294.phi002.perseus-lat2".toList) >>= fun n =>
    n.walk [⟨"1".toList, none, "1".toList⟩, ⟨"1.pr".toList, some "1.2".toList, "1.pr-1.2".toList⟩]).map (fun m => (m.id, m.urn.isSome, m.ref)) =
    .ok ("urn:cts:latinLit:phi1294.phi002.perseus-lat2:1.pr-1.2".toList, true, some ⟨"1.pr".toList, some "1.2".toList, "1.pr-1.2".toList⟩) := by decide +kernel

/-- C93. A simple passage has URN, identifier and reference as well, and without a reference those of the text. -/
theorem C93_simple (p : UrnParts) (h : p.WF) (hv : p.ver ≠ none) (n : TextNode) (hn : newTextNode (.str p.write) = .ok n) :
    n.simple none = .ok n ∧
    ∀ r ref, PlainRef r → mkRef r = .ok (some ref) →
      ∃ m u, n.simple (some ref) = .ok m ∧ m.id = UrnParts.write { p with ref := some r } ∧ m.urn = some u ∧
        Urn.parse (UrnParts.write { p with ref := some r }) = .ok u ∧ m.ref = some ref := by
  obtain ⟨u, hu, -⟩ := C12_urn_components p h
  rw [(C93_text p.write).1 u hu] at hn
  injection hn with hn
  subst hn
  obtain ⟨x, hx⟩ := C10_urn_round_trip_plain _ (hash_write h) u hu
  refine ⟨by simp [TextNode.simple, passageKwargs, newTextNode, UrnGiven.text, TextNode.setUrn, hx], ?_⟩
  intro r ref hr href
  obtain ⟨R, hR, hRs, _⟩ := C01_reference_round_trip r hr.1 hr.2.2.2
  rw [href] at hR
  injection hR with hR; injection hR with hR
  subst hR
  have hw := withRef_wf h hv hr
  obtain ⟨u', hu', -⟩ := C12_urn_components _ hw
  obtain ⟨x', hx'⟩ := C10_urn_round_trip_plain _ (hash_write hw) u' hu'
  have up := (C14_upTo_values p h u hu).2.2.2.2.1 hv
  refine ⟨⟨UrnParts.write { p with ref := some r }, some u', some ref⟩, u', ?_, rfl, rfl, hu', rfl⟩
  simp only [TextNode.simple, passageKwargs, up, hRs, ← write_ref, hu', newTextNode, UrnGiven.text, hx', TextNode.setUrn, Functor.map, Except.map]

example : (newTextNode (.str "urn:cts:latinLit:phi1294.phi002.perseus-lat2".toList) >>= fun n => n.simple (some ⟨"1".toList, none, "1".toList⟩)).map (·.id) =
    .ok "urn:cts:latinLit:phi1294.phi002.perseus-lat2:1".toList := by decide +kernel

/-- A value that the setter takes: the URN that is stored then. -/
def acceptedUrn : UrnGiven → Option Urn
  | .str s => (Urn.parse s).toOption
  | .urn u => some u
  | _ => none

/-- C93. After any assignments, some of which may raise, the URN is the one that was accepted last, or the first one if none was; identifier and
reference do not change. -/
theorem C93_assignments (n : TextNode) (args : List UrnGiven) :
    (args.foldl TextNode.assign n).urn = ((args.filterMap acceptedUrn).getLast?).or n.urn ∧
    (args.foldl TextNode.assign n).id = n.id ∧ (args.foldl TextNode.assign n).ref = n.ref := by
  induction args generalizing n with
  | nil => simp
  | cons a r ih =>
    have key : (n.assign a).urn = (acceptedUrn a).or n.urn ∧ (n.assign a).id = n.id ∧ (n.assign a).ref = n.ref := by
      cases a with
      | none => simp [TextNode.assign, TextNode.setUrn, acceptedUrn]
      | other s => simp [TextNode.assign, TextNode.setUrn, acceptedUrn]
      | urn u => simp [TextNode.assign, TextNode.setUrn, acceptedUrn]
      | str s => cases h : Urn.parse s <;> simp [TextNode.assign, TextNode.setUrn, acceptedUrn, h, Except.toOption]
    obtain ⟨h1, h2, h3⟩ := ih (n.assign a)
    rw [List.foldl_cons]
    refine ⟨?_, by rw [h2, key.2.1], by rw [h3, key.2.2]⟩
    rw [h1, key.1]
    cases e : acceptedUrn a with
    | none => simp [List.filterMap_cons, e]
    | some u =>
      simp only [List.filterMap_cons, e]
      cases hr : r.filterMap acceptedUrn with
      | nil => simp
      | cons y ys =>
        rw [List.getLast?_cons_cons]
        simp [List.getLast?_cons]

example : [UrnGiven.str "urn:cts:a:b.c.d".toList, .str "no urn".toList, .none].foldl TextNode.assign ⟨"x".toList, none, none⟩ =
    ⟨"x".toList, (Urn.parse "urn:cts:a:b.c.d".toList).toOption, none⟩ := by decide +kernel

/-- C93. Making a text states that its new blank node implements the identifier, and changes nothing else in the graph. -/
theorem C93_statement (g : Graph) (blank id : Str) (t : Triple) :
    t ∈ nodeStatement g blank id ↔ t ∈ g ∨ t = ⟨.bnode blank, .uri "https://w3id.org/dts/api#implements".toList, .uri id⟩ := by
  have : pImplements = .uri "https://w3id.org/dts/api#implements".toList := by decide +kernel
  rw [nodeStatement, this, mem_insert]

/-- C93 fails without a version: a text whose URN stops at the textgroup or the work gives no passage at all. -/
theorem C93_fails_without_version (p : UrnParts) (h : p.WF) (ht : p.tg ≠ none) (hv : p.ver = none) (n : TextNode)
    (hn : newTextNode (.str p.write) = .ok n) (r : Str) (hr : PlainRef r) (ref : Ref) (href : mkRef r = .ok (some ref)) :
    n.passage ref = .error .keyError ∧ n.simple (some ref) = .error .keyError := by
  obtain ⟨u, hu, c1, c2, c3, c4, c5, c6⟩ := C12_urn_components p h
  rw [(C93_text p.write).1 u hu] at hn
  injection hn with hn
  subst hn
  obtain ⟨R, hR, hRs, _⟩ := C01_reference_round_trip r hr.1 hr.2.2.2
  rw [href] at hR
  injection hR with hR; injection hR with hR
  subst hR
  obtain ⟨x, hx⟩ := C10_urn_round_trip_plain _ (hash_write h) u hu
  have hlen : u.len ≠ 0 := by simp [Urn.len, c1]
  have noVer : ∀ v : Urn, v.ver = none → v.upTo 3 = .error .keyError := by
    intro v hv'
    cases hr' : v.ref <;> simp [Urn.upTo, hv', truthy, hr']
  have key : ∃ v, Urn.parse (p.write ++ ':' :: r) = .ok v ∧ v.ver = none := by
    cases hq : p.ref with
    | some q =>
      obtain ⟨v, hv', _, _, _, _, a5, _⟩ := parse_more h hu hq hr
      exact ⟨v, hv', by rw [a5, c5, hv]⟩
    | none =>
      have hw : UrnParts.WF { p with ref := some r } := by
        refine ⟨h.ns, h.cts, h.tg, h.wk, h.ver, ?_, h.wkTg, h.verWk, fun e => absurd e ht⟩
        intro s hs; injection hs with hs; subst hs; exact hr
      obtain ⟨v, hv', _, _, _, _, a5, _⟩ := C12_urn_components _ hw
      have e : p.write ++ ':' :: r = UrnParts.write { p with ref := some r } := by
        rw [write_ref]; simp [cutVersion, ← hq]
      exact ⟨v, by rw [e]; exact hv', by rw [a5]; exact hv⟩
  obtain ⟨v, k1, k2⟩ := key
  constructor
  · simp only [TextNode.passage, hlen, if_false, hx, hRs, k1, newPassage, passageKwargs, noVer v k2]
  · simp only [TextNode.simple, passageKwargs, noVer u (by rw [c5, hv])]

example : (newTextNode (.str "urn:cts:latinLit:phi1294.phi002".toList) >>= fun n => n.passage ⟨"1".toList, none, "1".toList⟩) = .error .keyError := by decide +kernel

/-- C93 fails without a URN: text and passages then bear the identifier `None`, and the graph says that they implement a resource of this name. -/
theorem C93_fails_without_urn (ref : Ref) (g : Graph) (blank : Str) :
    newTextNode .none = .ok ⟨"None".toList, none, none⟩ ∧
    TextNode.passage ⟨"None".toList, none, none⟩ ref = .ok ⟨"None".toList, none, some ref⟩ ∧
    (⟨.bnode blank, .uri "https://w3id.org/dts/api#implements".toList, .uri "None".toList⟩ : Triple) ∈ nodeStatement g blank "None".toList :=
  ⟨rfl, rfl, (C93_statement _ _ _ _).2 (.inr rfl)⟩

/-- C93 fails after an assignment: the identifier stays that of the URN given at first. -/
theorem C93_fails_identifier_stays : ∃ n n' u, newTextNode (.str "urn:cts:latinLit:phi1294.phi002.perseus-lat2".toList) = .ok n ∧
    n.setUrn (.str "urn:cts:greekLit:tlg0012.tlg001.perseus-grc1".toList) = .ok n' ∧
    Urn.parse "urn:cts:greekLit:tlg0012.tlg001.perseus-grc1".toList = .ok u ∧ n'.urn = some u ∧
    n'.id = "urn:cts:latinLit:phi1294.phi002.perseus-lat2".toList :=
  ⟨_, _, _, rfl, rfl, rfl, rfl, rfl⟩

end Verif.Props
