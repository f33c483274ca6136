import Verif.Lemmas.DtsResolver
import Verif.Props.Retriever
/-!
C59: the references that the DTS resolver lists.
-/
namespace Verif.Props
open Verif.Py Verif.Model Verif.Spec Verif.Lemmas

private abbrev replies (serve : List (Str × List Str) → Except PyErr (Option NavPage)) (query : List (Str × List Str)) (q : NavQuery) (p : Option Str) : Except PyErr (Option NavPage) :=
  serve (navRequest query q p)

private theorem loop_of_chain (serve : List (Str × List Str) → Except PyErr (Option NavPage)) (query : List (Str × List Str)) (q : NavQuery)
    {p : Option Str} {chain : List (Option Str × NavPage)} (hc : NavChain (replies serve query q) p chain) :
    ∀ (refs : List DtsRef) (_ : ChainReads chain refs) (acc : List DtsRef) (fuel : Nat), chain.length ≤ fuel →
      ∃ pg, chain.getLast?.map (·.2) = some pg ∧
        reffsLoop serve query q fuel p acc = some (chain.map fun c => navRequest query q c.1, .ok (acc ++ refs, pg.level, pg.citeType)) := by
  induction hc with
  | @last p pg h1 h2 =>
    intro refs hr acc fuel hf
    obtain ⟨f, rfl⟩ : ∃ f, fuel = f + 1 := ⟨fuel - 1, by simp at hf; omega⟩
    cases hr with
    | cons ha hb =>
      cases hb
      refine ⟨pg, rfl, ?_⟩
      rw [reffsLoop]
      simp only [show serve (navRequest query q p) = .ok (some pg) from h1, (parseRefs_iff _ _ _).mpr ha, h2]
      simp
  | @step p pg link p' rest h1 h2 h3 h4 ih =>
    intro refs hr acc fuel hf
    obtain ⟨f, rfl⟩ : ∃ f, fuel = f + 1 := ⟨fuel - 1, by simp at hf; omega⟩
    cases hr with
    | @cons _ _ _ rs more ha hb =>
      obtain ⟨pg', e1, e2⟩ := ih _ hb (acc ++ rs) f (by simpa using hf)
      refine ⟨pg', ?_, ?_⟩
      · cases h4 with
        | last => exact e1
        | step => exact e1
      · rw [reffsLoop]
        simp only [show serve (navRequest query q p) = .ok (some pg) from h1, (parseRefs_iff _ _ _).mpr ha, h2, (regexPage_iff _ _).mpr h3, e2]
        simp

private theorem chain_of_loop (serve : List (Str × List Str) → Except PyErr (Option NavPage)) (query : List (Str × List Str)) (q : NavQuery) :
    ∀ (fuel : Nat) (p : Option Str) (acc : List DtsRef) log out level type,
      reffsLoop serve query q fuel p acc = some (log, .ok (out, level, type)) →
      ∃ chain refs, NavChain (replies serve query q) p chain ∧ ChainReads chain refs := by
  intro fuel
  induction fuel with
  | zero => intro p acc log out level type h; simp [reffsLoop] at h
  | succ f ih =>
    intro p acc log out level type h
    rw [reffsLoop] at h
    cases h1 : serve (navRequest query q p) with
    | error e => simp only [h1] at h; simp at h
    | ok pg =>
    cases pg with
    | none => simp only [h1] at h; simp at h
    | some pg =>
      cases h2 : parseRefs pg.citeType pg.members with
      | error e => simp only [h1, h2] at h; simp at h
      | ok rs =>
        have hr := (parseRefs_iff _ _ _).mp h2
        cases h3 : pg.next with
        | none => exact ⟨_, _, .last h1 h3, .cons hr .nil⟩
        | some link =>
          cases h4 : regexPage link with
          | none => simp only [h1, h2, h3, h4] at h; simp at h
          | some p' =>
            cases h5 : reffsLoop serve query q f (some p') (acc ++ rs) with
            | none => simp only [h1, h2, h3, h4, h5] at h; simp at h
            | some lo =>
              obtain ⟨log', out'⟩ := lo
              simp only [h1, h2, h3, h4, h5, Option.some.injEq, Prod.mk.injEq] at h
              obtain ⟨_, rfl⟩ := h
              obtain ⟨chain, refs, hc, hcr⟩ := ih _ _ _ _ _ _ h5
              exact ⟨_, _, .step h1 h3 ((regexPage_iff _ _).mp h4) hc, .cons hr hcr⟩

private theorem loop_mono (serve : List (Str × List Str) → Except PyErr (Option NavPage)) (query : List (Str × List Str)) (q : NavQuery) :
    ∀ (fuel : Nat) (p : Option Str) (acc : List DtsRef) r, reffsLoop serve query q fuel p acc = some r →
      ∀ fuel', fuel ≤ fuel' → reffsLoop serve query q fuel' p acc = some r := by
  intro fuel
  induction fuel with
  | zero => intro p acc r h; simp [reffsLoop] at h
  | succ f ih =>
    intro p acc r h fuel' hf
    obtain ⟨f', rfl⟩ : ∃ f', fuel' = f' + 1 := ⟨fuel' - 1, by omega⟩
    rw [reffsLoop] at h ⊢
    cases h1 : serve (navRequest query q p) with
    | error e => simp only [h1] at h ⊢; exact h
    | ok pg =>
    cases pg with
    | none => simp only [h1] at h ⊢; exact h
    | some pg =>
      cases h2 : parseRefs pg.citeType pg.members with
      | error e => simp only [h1, h2] at h ⊢; exact h
      | ok rs =>
        cases h3 : pg.next with
        | none => simp only [h1, h2, h3] at h ⊢; exact h
        | some link =>
          cases h4 : regexPage link with
          | none => simp only [h1, h2, h3, h4] at h ⊢; exact h
          | some p' =>
            cases h5 : reffsLoop serve query q f (some p') (acc ++ rs) with
            | none => simp only [h1, h2, h3, h4, h5] at h; simp at h
            | some lo =>
              simp only [h1, h2, h3, h4, h5] at h ⊢
              rw [ih _ _ _ h5 f' (by omega)]
              exact h

/-- C59. When the pages form a finite chain whose members all stand for references, the request of each page of the chain
is made, in order, and nothing else is requested; unless there is one reference in all, the result lists the references of
all pages in order, with the level and the citation of the last page. -/
theorem C59_chain (serve : List (Str × List Str) → Except PyErr (Option NavPage)) (query : List (Str × List Str)) (q : NavQuery)
    (chain : List (Option Str × NavPage)) (refs : List DtsRef)
    (hc : NavChain (fun p => serve (navRequest query q p)) none chain) (hr : ChainReads chain refs) (fuel : Nat) (hf : chain.length ≤ fuel) :
    ∃ set last, dtsReffs serve query q fuel = some (chain.map fun c => navRequest query q c.1, .ok set) ∧
      chain.getLast? = some last ∧ set.level = last.2.level ∧ set.citation = last.2.citeType.filter (fun t => t ≠ []) ∧
      (refs.length ≠ 1 → set.items = refs.map .ref) := by
  obtain ⟨pg, e1, e2⟩ := loop_of_chain serve query q hc refs hr [] fuel hf
  obtain ⟨last, e3, rfl⟩ := Option.map_eq_some_iff.mp e1
  have ht : ∀ t : Option Str, setType t = t.filter (fun t => t ≠ []) := by
    intro t
    cases t with
    | none => rfl
    | some t => cases t <;> simp [setType, Option.filter]
  refine ⟨mkRefSet refs last.2.level (setType last.2.citeType), last, ?_, e3, ?_, ?_, ?_⟩
  · rw [dtsReffs, e2]; simp
  · unfold mkRefSet; split <;> rfl
  · rw [← ht]; unfold mkRefSet; split <;> rfl
  · intro hn
    unfold mkRefSet
    split
    · simp at hn
    · rfl

/-- C59. Conversely, references are returned only if the pages form such a chain. -/
theorem C59_only_chains (serve : List (Str × List Str) → Except PyErr (Option NavPage)) (query : List (Str × List Str)) (q : NavQuery) (fuel : Nat)
    (log : List (List (Str × List Str))) (set : DtsRefSet) (h : dtsReffs serve query q fuel = some (log, .ok set)) :
    ∃ chain refs, NavChain (fun p => serve (navRequest query q p)) none chain ∧ ChainReads chain refs ∧
      log = chain.map fun c => navRequest query q c.1 := by
  cases h1 : reffsLoop serve query q fuel none [] with
  | none => rw [dtsReffs, h1] at h; cases h
  | some lo =>
    obtain ⟨log', out⟩ := lo
    cases out with
    | error e => rw [dtsReffs, h1] at h; simp at h
    | ok out =>
      obtain ⟨rs, level, type⟩ := out
      obtain ⟨chain, refs, hc, hr⟩ := chain_of_loop _ _ _ _ _ _ _ _ _ _ h1
      refine ⟨chain, refs, hc, hr, ?_⟩
      obtain ⟨pg, _, e2⟩ := loop_of_chain serve query q hc refs hr [] (max fuel chain.length) (by omega)
      rw [loop_mono _ _ _ _ _ _ _ h1 _ (by omega)] at e2
      rw [dtsReffs, h1] at h
      simp only [Option.some.injEq, Prod.mk.injEq] at h e2
      rw [← h.1, e2.1]

private theorem chain_unique {serve : List (Str × List Str) → Except PyErr (Option NavPage)} {query : List (Str × List Str)} {q : NavQuery}
    {p : Option Str} {c : List (Option Str × NavPage)} (h : NavChain (replies serve query q) p c) :
    ∀ {p' c'}, navRequest query q p = navRequest query q p' → NavChain (replies serve query q) p' c' → c.length = c'.length := by
  induction h with
  | last h1 h2 =>
    intro p' c' e h'
    cases h' with
    | last => rfl
    | step h1' h2' h3' h4' =>
      rw [replies, ← e, show serve _ = .ok (some _) from h1] at h1'
      cases h1'; rw [h2] at h2'; cases h2'
  | step h1 h2 h3 h4 ih =>
    intro p' c' e h'
    cases h' with
    | last h1' h2' =>
      rw [replies, ← e, show serve _ = .ok (some _) from h1] at h1'
      cases h1'; rw [h2] at h2'; cases h2'
    | step h1' h2' h3' h4' =>
      rw [replies, ← e, show serve _ = .ok (some _) from h1] at h1'
      cases h1'; rw [h2] at h2'; cases h2'
      have := namesPage_unique h3 h3'
      subst this
      simp [ih rfl h4']

private theorem chain_suffix {reply : Option Str → Except PyErr (Option NavPage)} {p : Option Str} {c : List (Option Str × NavPage)} (h : NavChain reply p c) :
    ∀ x ∈ c, ∃ c', NavChain reply x.1 c' ∧ c'.length ≤ c.length := by
  induction h with
  | last h1 h2 =>
    intro x hx
    simp only [List.mem_singleton] at hx
    subst hx
    exact ⟨_, .last h1 h2, Nat.le_refl _⟩
  | step h1 h2 h3 h4 ih =>
    intro x hx
    rcases List.mem_cons.mp hx with rfl | hx
    · exact ⟨_, .step h1 h2 h3 h4, Nat.le_refl _⟩
    · obtain ⟨c', a, b⟩ := ih x hx
      exact ⟨c', a, by simp; omega⟩

/-- C59. No request is made twice. -/
theorem C59_once (serve : List (Str × List Str) → Except PyErr (Option NavPage)) (query : List (Str × List Str)) (q : NavQuery) (p : Option Str)
    (chain : List (Option Str × NavPage)) (hc : NavChain (fun p => serve (navRequest query q p)) p chain) :
    (chain.map fun c => navRequest query q c.1).Nodup := by
  induction hc with
  | last => simp
  | @step p pg link p' rest h1 h2 h3 h4 ih =>
    rw [List.map_cons, List.nodup_cons]
    refine ⟨?_, ih⟩
    intro hm
    obtain ⟨x, hx, e⟩ := List.mem_map.mp hm
    obtain ⟨c', hc', hl⟩ := chain_suffix h4 x hx
    have := chain_unique (serve := serve) (query := query) (q := q) hc' e (.step h1 h2 h3 h4)
    simp only [List.length_cons] at this
    omega

/-- C59, where the code departs from the natural claim: when there is one reference in all, the two parts of it are
returned instead of the reference. -/
theorem C59_single (serve : List (Str × List Str) → Except PyErr (Option NavPage)) (query : List (Str × List Str)) (q : NavQuery)
    (chain : List (Option Str × NavPage)) (r : DtsRef)
    (hc : NavChain (fun p => serve (navRequest query q p)) none chain) (hr : ChainReads chain [r]) (fuel : Nat) (hf : chain.length ≤ fuel) :
    ∃ log set, dtsReffs serve query q fuel = some (log, .ok set) ∧ set.items = [.part (some r.start), .part r.stop] := by
  obtain ⟨pg, e1, e2⟩ := loop_of_chain serve query q hc [r] hr [] fuel hf
  exact ⟨chain.map fun c => navRequest query q c.1, mkRefSet [r] pg.level (setType pg.citeType), by rw [dtsReffs, e2]; simp, rfl⟩

/-- C59. When every page links to a further one, the pages are requested without end. -/
theorem C59_endless (serve : List (Str × List Str) → Except PyErr (Option NavPage)) (query : List (Str × List Str)) (q : NavQuery) (names : Nat → Option Str)
    (h0 : names 0 = none)
    (h : ∀ n, ∃ pg link p rs, serve (navRequest query q (names n)) = .ok (some pg) ∧ ReadsAll pg.citeType pg.members rs ∧ pg.next = some link ∧
      NamesPage link p ∧ names (n + 1) = some p) (fuel : Nat) : dtsReffs serve query q fuel = none := by
  have key : ∀ fuel n acc, reffsLoop serve query q fuel (names n) acc = none := by
    intro fuel
    induction fuel with
    | zero => intro n acc; rfl
    | succ f ih =>
      intro n acc
      obtain ⟨pg, link, p, rs, h1, h2, h3, h4, h5⟩ := h n
      rw [reffsLoop]
      simp only [h1, (parseRefs_iff _ _ _).mpr h2, h3, (regexPage_iff _ _).mpr h4]
      rw [← h5, ih]
  have := key fuel 0 []
  rw [h0] at this
  rw [dtsReffs, this]

/-- C59, where the code departs from the natural claim: an endpoint that answers nothing makes an `AttributeError`, not a
`PaginationBrowsingError`. -/
theorem C59_nothing (serve : List (Str × List Str) → Except PyErr (Option NavPage)) (query : List (Str × List Str)) (q : NavQuery) (fuel : Nat)
    (h : serve (navRequest query q none) = .ok none) :
    dtsReffs serve query q (fuel + 1) = some ([navRequest query q none], .error .attributeError) := by
  rw [dtsReffs, reffsLoop]
  simp only [h]

/-- C59. The request of a page has what was asked for, under its names, and the page, if it is not the first; `max` is
never sent. Parameters of the route itself win. -/
theorem C59_request (query : List (Str × List Str)) (hq : (query.map (·.1)).Nodup) (q : NavQuery) (page : Option Str) (k : Str) (vs : List Str) :
    (k, vs) ∈ navRequest query q page ↔ (k, vs) ∈ query ∨ ((∀ ws, (k, ws) ∉ query) ∧
      (RefSent q.ref k vs ∨ (k = "page".toList ∧ ∃ p, page = some p ∧ vs = [p]) ∨
        ∃ x, Given [("id".toList, .str q.textId), ("level".toList, q.level), ("groupBy".toList, q.groupBy), ("exclude".toList, q.exclude)] k x ∧ vs = [x.text])) := by
  rw [navRequest, C58_navigation query hq]
  refine or_congr Iff.rfl (and_congr Iff.rfl (or_congr Iff.rfl ?_))
  constructor
  · rintro ⟨x, ⟨h1, h2⟩, rfl⟩
    simp only [List.mem_cons, List.not_mem_nil, or_false] at h1
    rcases h1 with h | h | h | h | h | h
    · cases h; exact Or.inr ⟨_, ⟨by simp, h2⟩, rfl⟩
    · cases h; exact Or.inr ⟨_, ⟨by simp, h2⟩, rfl⟩
    · cases h; exact Or.inr ⟨_, ⟨by simp, h2⟩, rfl⟩
    · cases h; exact absurd rfl h2
    · cases h; exact Or.inr ⟨_, ⟨by simp, h2⟩, rfl⟩
    · cases h
      cases page with
      | none => exact absurd rfl h2
      | some p => exact Or.inl ⟨rfl, p, rfl, rfl⟩
  · rintro (⟨rfl, p, rfl, rfl⟩ | ⟨x, ⟨h1, h2⟩, rfl⟩)
    · exact ⟨.str p, ⟨by simp [Val.ofOption], by simp⟩, rfl⟩
    · refine ⟨x, ⟨?_, h2⟩, rfl⟩
      simp only [List.mem_cons, List.not_mem_nil, or_false] at h1 ⊢
      rcases h1 with h | h | h | h <;> simp [h]

/-! A text whose references come in two pages. -/

/-- The first page of the example. -/
private def page1 : NavPage := ⟨some 1, some "book".toList, [⟨some "1".toList, none, none, none⟩, ⟨some "2".toList, none, none, some "poem".toList⟩],
  some "/nav?id=a&page=2".toList⟩
/-- The second page of the example. -/
private def page2 : NavPage := ⟨some 1, some "book".toList, [⟨none, some "3".toList, some "5".toList, none⟩], none⟩
private def exampleQuery : NavQuery := ⟨"a".toList, .int 1, .none, .none, .int 1⟩
private def exampleServe (r : List (Str × List Str)) : Except PyErr (Option NavPage) :=
  if r = navRequest [] exampleQuery none then .ok (some page1) else if r = navRequest [] exampleQuery (some "2".toList) then .ok (some page2) else .ok none

private theorem names2 : NamesPage "/nav?id=a&page=2".toList "2".toList := by
  rw [← regexPage_iff]; decide

example : NavChain (fun p => exampleServe (navRequest [] exampleQuery p)) none [(none, page1), (some "2".toList, page2)] :=
  .step (by decide +kernel) rfl names2 (.last (by decide +kernel) rfl)

example : ChainReads [(none, page1), (some "2".toList, page2)]
    ([⟨"1".toList, none, some "book".toList⟩, ⟨"2".toList, none, some "poem".toList⟩] ++ ([⟨"3".toList, some "5".toList, some "book".toList⟩] ++ [])) := by
  refine .cons ?_ (.cons ?_ .nil)
  · exact .cons (by simp [Reads, page1, Option.filter]) (.cons (by simp [Reads, page1, Option.filter]) .nil)
  · exact .cons (by simp [Reads, page2, Option.filter]) .nil

end Verif.Props
