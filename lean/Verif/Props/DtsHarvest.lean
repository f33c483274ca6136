import Verif.Lemmas.DtsFaltering
import Verif.Props.DtsReading
import Verif.Props.DtsBrowse
/-!
C102: reading the texts of a DTS endpoint that fails at times, and collecting all that an endpoint offers.
-/
namespace Verif.Props
open Verif.Py Verif.Model Verif.Spec Verif.Lemmas

/-! ## Endpoints that falter -/

/-- C102. Listing references: with an endpoint that falters the references are those without the failure, or the first page that fails
is the last one requested and its failure is raised. -/
theorem C102_list {γ : Type} (e' e : DtsTexts γ) (h : Falters e' e) (q : NavQuery) (log : List (List (Str × List Str))) (out : Except PyErr DtsRefSet)
    (hr : dtsReffs e.navigation e.navQuery q e.turns = some (log, out)) :
    ∃ log' out', dtsReffs e'.navigation e'.navQuery q e'.turns = some (log', out') ∧
      StopsAtFailure e' [] (log'.map .navigation, out') (log.map .navigation, out) := by
  obtain ⟨⟨log', out'⟩, h1, h2⟩ := follows_reffs h q hr
  exact ⟨log', out', h1, (h2 []).stops⟩

/-- C102. Opening a passage. -/
theorem C102_passage {γ : Type} (e' e : DtsTexts γ) (h : Falters e' e) (log : List DocReq) (id : Str) (ref : DtsRefArg) :
    StopsAtFailure e' log (resolveText e' log id ref) (resolveText e log id ref) := (follows_resolve h log id ref).stops

/-- C102. Going from a passage to the next or the previous one. -/
theorem C102_siblings {γ : Type} (e' e : DtsTexts γ) (h : Falters e' e) (log : List DocReq) (t : TextDoc γ) :
    StopsAtFailure e' log (t.goNext e' log) (t.goNext e log) ∧ StopsAtFailure e' log (t.goPrev e' log) (t.goPrev e log) :=
  ⟨(follows_sibling h log t _).stops, (follows_sibling h log t _).stops⟩

/-- C102. Reading on from a passage to the end of the text, or back to its beginning. -/
theorem C102_reading {γ : Type} (e' e : DtsTexts γ) (h : Falters e' e) (log : List DocReq) (id : Str) (ref : DtsRefArg) (fuel : Nat) :
    StopsAtFailure e' log (readDts e' id fuel log ref) (readDts e id fuel log ref) ∧
    StopsAtFailure e' log (readDtsBack e' id fuel log ref) (readDtsBack e id fuel log ref) :=
  ⟨(follows_readDts h id fuel log ref).stops, (follows_readDtsBack h id fuel log ref).stops⟩

/-- C102. Reading the references of a level and the passage of each. -/
theorem C102_listed {γ : Type} (e' e : DtsTexts γ) (h : Falters e' e) (log : List DocReq) (id : Str) (level : Nat)
    (run : List DocReq × Except PyErr (List (TextDoc γ))) (hr : readListed e id level log = some run) :
    ∃ run', readListed e' id level log = some run' ∧ StopsAtFailure e' log run' run := by
  obtain ⟨run', h1, h2⟩ := follows_readListed h id level log hr
  exact ⟨run', h1, h2.stops⟩

/-- C102. Reading the children of a passage. -/
theorem C102_children {γ : Type} (e' e : DtsTexts γ) (h : Falters e' e) (log : List DocReq) (t : TextDoc γ) (l : List DocReq) (t1 : TextDoc γ)
    (out : Except PyErr (List (TextDoc γ))) (hr : t.children e log = some (l, t1, out)) :
    ∃ l' t1' out', t.children e' log = some (l', t1', out') ∧ StopsAtFailure e' log (l', out') (l, out) := by
  obtain ⟨l', t1', out', h1, h2⟩ := follows_children h log t hr
  exact ⟨l', t1', out', h1, h2.stops⟩

/-! ## All that an endpoint offers -/

/-- The documents of a text are the local passages of a level. -/
def IsLevel {γ : Type} (env : List Str) (same : Same) (root : Node) (ls : List Level) (level : Nat) (id : Str) (ds : List (TextDoc γ)) : Prop :=
  ∃ (refs : List Ref) (qs : List Passage), getValidReff (textOf root same ls) (some level) none = .ok (refs.map some) ∧
    refs.mapM (textPassage (textOf root same ls)) = .ok qs ∧ ds.length = qs.length ∧
    ∀ (i : Nat) d q, ds[i]? = some d → qs[i]? = some q → d.doc.id = id ∧ AgreeDts env d q.tree

private theorem readEach_served {γ : Type} {e : DtsTexts γ} {env : List Str} {same : Same} {level : Nat} {texts : Str → Node × List Level} :
    ∀ (ids : List Str) (log : List DocReq),
    (∀ id ∈ ids, ∀ log, ∃ log' ds, readListed e id level log = some (log', .ok ds) ∧ IsLevel env same (texts id).1 (texts id).2 level id ds) →
    ∃ log' books, readEach e level log ids = some (log', .ok books) ∧ books.map (·.1) = ids ∧
      ∀ b ∈ books, IsLevel env same (texts b.1).1 (texts b.1).2 level b.1 b.2
  | [], log, _ => ⟨log, [], rfl, rfl, by simp⟩
  | id :: ids, log, h => by
    obtain ⟨log1, ds, h1, h2⟩ := h id (by simp) log
    obtain ⟨log2, books, h3, h4, h5⟩ := readEach_served ids log1 fun i hi => h i (by simp [hi])
    refine ⟨log2, (id, ds) :: books, by simp only [readEach, h1, h3], by rw [List.map_cons, h4], ?_⟩
    intro b hb
    rcases List.mem_cons.1 hb with rfl | hb
    · exact h2
    · exact h5 b hb

private theorem readable_of_browse {net : DtsCatalogue} {query : List (Str × List Str)} {fuel depth : Nat} {log log' : List (List (Str × List Str))}
    {o o' : DtsShelf} {a : Except PyErr BrowseAnswer} (h : browse query fuel depth log o [(net, .readable)] = some (log', o', [a])) :
    ∃ l, o.readableDescendants net query fuel depth log = some (log', o', l) ∧ a = .labels <$> l := by
  simp only [browse, readOp] at h
  cases hd : o.readableDescendants net query fuel depth log with
  | none => simp [hd] at h
  | some x =>
    obtain ⟨x1, x2, x3⟩ := x
    simp only [hd, Option.map_some, Option.some.injEq, Prod.mk.injEq, List.cons.injEq, and_true] at h
    obtain ⟨rfl, rfl, rfl⟩ := h
    exact ⟨x3, rfl, rfl⟩

private theorem map_labels {l : Except PyErr (List (Str × Bool))} {m : List (Str × Bool)} (h : (.ok (.labels m) : Except PyErr BrowseAnswer) = .labels <$> l) :
    l = .ok m := by
  cases l with
  | error x => cases h
  | ok l => cases h; rfl

/-- C102. When an endpoint offers a hierarchy of collections and serves a document for each of the readable ones, a user who asks for
the collection, for the readable ones below it and for the passages of a level of each of these gets the local passages of each of the
documents, in the order of the hierarchy, and asks for each listing of collections once. -/
theorem C102_harvest {γ : Type} (net : DtsCatalogue) (query : List (Str × List Str)) (t : Shelf) (h : Offers net query t)
    (objectId : Option Str) (a : DtsListing) (hreply : net (getCollection query objectId children .none) = .ok a)
    (hid : a.about.id = t.id) (hitems : a.about.items = t.items) (hres : a.about.resource = t.resource)
    (hfirst : if t.items = 0 then a.members = [] else net (collRequest query t.id .children 1) = .ok a)
    (e : DtsTexts γ) (env : List Str) (same : Same) (hr : ∀ n i, same n i i = true) (level : Nat) (hl : 1 ≤ level) (texts : Str → Node × List Level)
    (hserved : ∀ x ∈ t.under, x.2 = true → Citable (texts x.1).1 (texts x.1).2 ∧ ServesDts e x.1 env (texts x.1).1 (texts x.1).2 ∧
      level ≤ (texts x.1).2.length ∧ 2 ≤ (units ((texts x.1).2.take level) (texts x.1).1).length) :
    ∃ b, ∀ fuel depth, b ≤ fuel → b ≤ depth → ∃ reqs books, harvest net query e fuel depth level objectId =
        some (getCollection query objectId children .none :: t.needed query (if a.members ≠ [] ∧ a.view = none then [] else t.ownRequests query) 2, reqs, .ok books) ∧
      books.map (·.1) = (t.under.filter (·.2)).map (·.1) ∧ ∀ b ∈ books, IsLevel env same (texts b.1).1 (texts b.1).2 level b.1 b.2 := by
  obtain ⟨o, b, h1, h2⟩ := C101_browsing net query t h [] objectId a hreply hid hitems hres hfirst
  refine ⟨b, fun fuel depth hf hd => ?_⟩
  obtain ⟨o', h3, _⟩ := h2 fuel depth hf hd [.readable]
  obtain ⟨l, h4, h5⟩ := readable_of_browse h3
  have hl' := map_labels h5
  subst hl'
  obtain ⟨reqs, books, g1, g2, g3⟩ := readEach_served (e := e) (env := env) (same := same) (level := level) (texts := texts) ((t.under.filter (·.2)).map (·.1)) []
    (by
      intro id hm log
      obtain ⟨x, hx, rfl⟩ := List.mem_map.1 hm
      rw [List.mem_filter] at hx
      obtain ⟨k1, k2, k3, k4⟩ := hserved x hx.1 hx.2
      obtain ⟨refs, qs, log', ds, m1, m2, m3, m4, m5⟩ := C100_listed e x.1 env (texts x.1).1 (texts x.1).2 same hr k1 k2 level hl k3 k4 log
      exact ⟨log', ds, m3, refs, qs, m1, m2, m4, m5⟩)
  refine ⟨reqs, books, ?_, g2, g3⟩
  simp only [harvest, h1, h4, g1, Option.map_some]
  rfl

/-- C102. The same with an endpoint that falters: the user gets the same, or a failure of the endpoint. -/
theorem C102_harvest_failing {γ : Type} (net : DtsCatalogue) (query : List (Str × List Str)) (t : Shelf) (h : Offers net query t)
    (objectId : Option Str) (a : DtsListing) (hreply : net (getCollection query objectId children .none) = .ok a)
    (hid : a.about.id = t.id) (hitems : a.about.items = t.items) (hres : a.about.resource = t.resource)
    (hfirst : if t.items = 0 then a.members = [] else net (collRequest query t.id .children 1) = .ok a)
    (e : DtsTexts γ) (level : Nat) (net' : DtsCatalogue) (hnet : Truthful net' net) (e' : DtsTexts γ) (he : Falters e' e) :
    ∃ b, ∀ fuel depth, b ≤ fuel → b ≤ depth → ∀ log reqs books, harvest net query e fuel depth level objectId = some (log, reqs, .ok books) →
      ∃ log' reqs' out, harvest net' query e' fuel depth level objectId = some (log', reqs', out) ∧
        ((out = .ok books ∧ reqs' = reqs) ∨ ∃ x, out = .error x ∧ (Fails net' net x ∨ ∃ r ∈ reqs', FailsAt e' r x)) := by
  obtain ⟨o, b, h1, h2⟩ := C101_browsing net query t h [] objectId a hreply hid hitems hres hfirst
  obtain ⟨o1, b1, h1', h2'⟩ := C101_failures net query t h [] objectId a hreply hid hitems hres hfirst
  rw [h1] at h1'
  cases h1'
  refine ⟨max b b1, fun fuel depth hf hd log reqs books hv => ?_⟩
  obtain ⟨o', h3, _⟩ := h2 fuel depth (by omega) (by omega) [.readable]
  obtain ⟨l, h4, h5⟩ := readable_of_browse h3
  have hl' := map_labels h5
  subst hl'
  simp only [harvest, h1, h4, Option.map_eq_some_iff, Prod.mk.injEq] at hv
  obtain ⟨⟨reqs1, out1⟩, hv1, rfl, rfl, rfl⟩ := hv
  cases hn : net' (getCollection query objectId children .none) with
  | error x =>
    exact ⟨[getCollection query objectId children .none], [], .error x, by simp only [harvest, dtsMetadata, hn]; rfl, .inr ⟨x, rfl, .inl ⟨_, _, hn, hreply⟩⟩⟩
  | ok a' =>
    have ha : a' = a := by
      have := hnet _ _ hn
      rw [hreply] at this
      cases this; rfl
    subst ha
    have hmeta : dtsMetadata net' query [] objectId = dtsMetadata net query [] objectId := by simp only [dtsMetadata, hn, hreply]
    obtain ⟨log', o2, answers, k1, k2, k3⟩ := h2' fuel depth (by omega) (by omega) ([] ++ [getCollection query objectId children .none]) [(net', .readable)] (by simpa using hnet)
    obtain ⟨ans, rfl⟩ : ∃ x, answers = [x] := List.length_eq_one_iff.1 k2
    obtain ⟨l, k4, k5⟩ := readable_of_browse k1
    rcases k3 ((net', .readable), ans) (by simp) with k | ⟨x, k, hx⟩
    · simp only at k
      rw [k5] at k
      have := map_labels k.symm
      subst this
      obtain ⟨⟨reqs2, out2⟩, g1, g2⟩ := follows_readEach he level _ _ _ hv1
      refine ⟨log', reqs2, out2, by simp only [harvest, hmeta, h1, k4, g1, Option.map_some], ?_⟩
      rcases g2 with ⟨g, _⟩ | ⟨made, r, later, x, _, g, g', _⟩
      · cases g; exact .inl ⟨rfl, rfl⟩
      · cases g
        exact .inr ⟨x, rfl, .inr ⟨r, by simp, g'⟩⟩
    · simp only at k
      rw [k5] at k
      cases l with
      | ok l => cases k
      | error y =>
        have : y = x := by cases k; rfl
        subst this
        exact ⟨log', [], .error y, by simp only [harvest, hmeta, h1, k4], .inr ⟨y, rfl, .inl hx⟩⟩

/-! ## An endpoint with a collection in a collection and the edition in it -/

private def libNet : DtsCatalogue := fun r =>
  if r = getCollection [] none children .none ∨ r = collRequest [] "r".toList .children 1 then .ok ⟨⟨"r".toList, 2, false, false⟩, [⟨"c".toList, 1, false, false⟩, ⟨"d".toList, 0, false, false⟩], none⟩
  else if r = collRequest [] "c".toList .children 1 then .ok ⟨⟨"c".toList, 1, false, false⟩, [⟨dtsId, 0, true, false⟩], none⟩
  else .error .unknownCollection

private def lib : Shelf := .mk "r".toList 2 false [1] [.mk "c".toList 1 false [1] [.mk dtsId 0 true [] []], .mk "d".toList 0 false [] []]

private theorem lib_offers : Offers libNet [] lib := by
  have hleaf : ∀ id r, Offers libNet [] (.mk id 0 r [] []) := fun id r => .mk (fun _ => ⟨rfl, rfl⟩) (fun h => absurd rfl h) (by simp) (by simp)
  have hc : Offers libNet [] (.mk "c".toList 1 false [1] [.mk dtsId 0 true [] []]) :=
    .mk (by simp) (fun _ => ⟨[(1, ⟨[(dtsId, ⟨dtsId, 0, true, false⟩)], none⟩)], .last (by decide +kernel) (.inl rfl), rfl, rfl⟩) (by simp) (by simp; exact hleaf _ _)
  exact .mk (by simp) (fun _ => ⟨[(1, ⟨[("c".toList, ⟨"c".toList, 1, false, false⟩), ("d".toList, ⟨"d".toList, 0, false, false⟩)], none⟩)], .last (by decide +kernel) (.inl rfl), rfl, rfl⟩)
    (by decide) (by simp; exact ⟨hc, hleaf _ _⟩)

example : ∃ b, ∀ fuel depth, b ≤ fuel → b ≤ depth → ∃ reqs ds, harvest libNet [] servedDts fuel depth 2 none =
    some ([getCollection [] none children .none, collRequest [] "c".toList .children 1], reqs, .ok [(dtsId, ds)]) ∧
      IsLevel dtsEnv sameIdentity edition editionLevels 2 dtsId ds := by
  obtain ⟨b, h⟩ := C102_harvest libNet [] lib lib_offers none _ rfl rfl rfl rfl rfl servedDts dtsEnv sameIdentity (by simp [sameIdentity]) 2 (by decide)
    (fun _ => (edition, editionLevels)) (by
      intro x hx hr
      have : x = (dtsId, true) := by
        simp only [lib, Shelf.under, underAll, List.map_cons, List.map_nil, Shelf.label, Shelf.id, Shelf.resource, List.cons_append, List.nil_append,
          List.append_nil, List.mem_cons, List.not_mem_nil, or_false] at hx
        rcases hx with rfl | rfl | rfl
        · cases hr
        · cases hr
        · rfl
      subst this
      exact ⟨edition_citable, servedDts_serves, by decide, by decide +kernel⟩)
  refine ⟨b, fun fuel depth hf hd => ?_⟩
  obtain ⟨reqs, books, h1, h2, h3⟩ := h fuel depth hf hd
  have h2' : books.map (·.1) = [dtsId] := h2
  match books, h2' with
  | [(id, ds)], h2' =>
    obtain rfl : id = dtsId := (List.cons.inj h2').1
    exact ⟨reqs, ds, h1, h3 _ (List.mem_singleton.2 rfl)⟩

/-- The endpoint of the edition, which cannot give the second line. -/
private def servedDown : DtsTexts Unit :=
  { servedDts with documents := fun r => if r = getDocument [] dtsId (dtsUnit [['1'], ['2']]).arg then .error .valueError else servedDts.documents r }

private theorem servedDown_falters : Falters servedDown servedDts where
  documents r := by
    unfold servedDown
    dsimp only
    split
    · exact .inr ⟨_, rfl⟩
    · exact .inl rfl
  navigation r := .inl rfl
  bodies := rfl
  docQuery := rfl
  navQuery := rfl
  turns := rfl

/-- Reading on from the first line stops at the second one; the list is read. -/
example : (readDts servedDown dtsId 4 [] (dtsUnit [['1'], ['1']]).arg).1 = [docRequest servedDts.toDtsNet dtsId (dtsUnit [['1'], ['1']]), docRequest servedDts.toDtsNet dtsId (dtsUnit [['1'], ['2']])] ∧
    (readDts servedDown dtsId 4 [] (dtsUnit [['1'], ['1']]).arg).2.toOption.isNone = true ∧
    ((readListed servedDown dtsId 2 []).map (·.1.length)) = some 4 ∧ ((readListed servedDts dtsId 2 []).map (·.1.length)) = some 6 := by decide +kernel

example : StopsAtFailure servedDown [] (readDts servedDown dtsId 4 [] (dtsUnit [['1'], ['1']]).arg) (readDts servedDts dtsId 4 [] (dtsUnit [['1'], ['1']]).arg) :=
  (C102_reading servedDown servedDts servedDown_falters [] dtsId _ 4).1

example : ∃ run run', readListed servedDts dtsId 2 [] = some run ∧ readListed servedDown dtsId 2 [] = some run' ∧ StopsAtFailure servedDown [] run' run := by
  have h : (readListed servedDts dtsId 2 []).isSome = true := by decide +kernel
  obtain ⟨run, h⟩ := Option.isSome_iff_exists.1 h
  obtain ⟨run', h1, h2⟩ := C102_listed servedDown servedDts servedDown_falters [] dtsId 2 run h
  exact ⟨run, run', h, h1, h2⟩

example : (match harvest libNet [] servedDts 5 5 2 none, harvest libNet [] servedDown 5 5 2 none with
    | some (log, reqs, .ok books), some (log', reqs', .error _) => (log.length, reqs.length, books.map (·.2.length), log'.length, reqs'.length)
    | _, _ => (0, 0, [], 0, 0)) = (2, 6, [4], 2, 4) := by decide +kernel

example : ∃ b, ∀ fuel depth, b ≤ fuel → b ≤ depth → ∀ log reqs books, harvest libNet [] servedDts fuel depth 2 none = some (log, reqs, .ok books) →
    ∃ log' reqs' out, harvest libNet [] servedDown fuel depth 2 none = some (log', reqs', out) ∧
      ((out = .ok books ∧ reqs' = reqs) ∨ ∃ x, out = .error x ∧ (Fails libNet libNet x ∨ ∃ r ∈ reqs', FailsAt servedDown r x)) :=
  C102_harvest_failing libNet [] lib lib_offers none _ rfl rfl rfl rfl rfl servedDts 2 libNet (fun _ _ h => h) servedDown servedDown_falters

end Verif.Props
