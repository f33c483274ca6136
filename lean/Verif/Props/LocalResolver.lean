import Verif.Spec.LocalResolver
import Verif.Props.TeiRefsDecl
import Verif.Props.InventorySearch
import Verif.Props.Siblings
import Verif.Props.RefsDecl
/-!
C82: the local resolver as a whole.
-/
namespace Verif.Props
open Verif.Py Verif.Model Verif.Spec Verif.Lemmas

/-! ### Opening a text -/

theorem openText_declares {root : Node} {ls : List Level} (h : DeclaresLevels root ls) (hne : ls ≠ []) (same : Same) :
    openText same root = .ok (textOf root same ls) := by
  obtain ⟨r, scheme, hr, hp, hd⟩ := h
  have hs : scheme ≠ [] := by
    rintro rfl
    have := congrArg List.length hd
    simp [length_declsOf] at this
    exact hne (List.length_eq_zero_iff.mp this.symm)
  rw [openText, C73_declared [] (by simp) root r hr scheme hs hp]
  simp only [textOf]
  congr 2
  have : (scheme.reverse.map CiteLevel.refsDecl).map (fun o => o.getD []) = ((declsOf root.tag ls).map some).map (fun o => o.getD []) := by rw [hd]
  rw [List.map_map, List.map_map] at this
  exact this.trans (List.map_id _)

/-! ### Choosing a text -/

theorem asks_mem {r : RootV} {parts : TextV → UrnParts} {q : UrnParts} {t : TextV} (ha : Asks r parts q t) : t ∈ rootTexts r := by
  rcases ha.which with ⟨h, _⟩ | ⟨_, _, _, pre, post, e, _⟩
  · exact h
  · rw [e]; simp

theorem asks_choose {lv : Levels} {r : RootV} {parts : TextV → UrnParts} (hl : Library lv r parts) {q : UrnParts} {t : TextV}
    (ha : Asks r parts q t) {u : Urn} (hu : Urn.parse q.write = .ok u) : chooseUrn r u = .ok t.id := by
  have hlen := (C16_length q ha.wf u hu).1
  rcases ha.which with ⟨_, hver, hid⟩ | ⟨hwk, hver, hno, pre, post, e, hk, hund, hfirst⟩
  · have hwk : q.wk ≠ none := fun e => hver (ha.wf.verWk e)
    have htg : q.tg ≠ none := fun e => hwk (ha.wf.wkTg e)
    have h5 : u.len = 5 := by
      rw [hlen]
      cases e1 : q.tg <;> cases e2 : q.wk <;> cases e3 : q.ver <;> simp_all
    obtain ⟨u', hs⟩ := C10_urn_round_trip_plain _ (hash_write ha.wf) u hu
    rw [chooseUrn, if_pos h5, hs, hid]
  · have htg : q.tg ≠ none := fun e => hwk (ha.wf.wkTg e)
    have h4 : u.len = 4 := by
      rw [hlen]
      cases e1 : q.tg <;> cases e2 : q.wk <;> simp_all
    have hup := (C14_upTo_values q ha.wf u hu).2.2.2.1 hwk
    have htest : ∀ t ∈ rootTexts r, (startsWith t.id (cutWork q) && t.kind == .edition) = true ↔
        t.kind = .edition ∧ UnderUrn { q with ref := none } (parts t) := by
      intro t htm
      rw [Bool.and_eq_true, beq_iff_eq]
      constructor
      · rintro ⟨h1, h2⟩; exact ⟨h2, hno t htm h1⟩
      · rintro ⟨h1, h2⟩
        refine ⟨?_, h1⟩
        obtain ⟨hw, hid, _, hv, hrf⟩ := hl.written t htm
        obtain ⟨e1, e2, e3, e4, _⟩ := h2
        simp only at e1 e2 e3 e4
        rw [hid, startsWith, List.isPrefixOf_iff_prefix, UrnParts.write, cutWork, UrnParts.write]
        rw [e1, e2, e3 htg, e4 hwk, hrf]
        exact ⟨after '.' (parts t).ver, by simp [after]⟩
    rw [chooseUrn, if_neg (by omega), if_pos h4, hup]
    simp only
    have htm : t ∈ rootTexts r := by rw [e]; simp
    have hfil : (rootTexts r).filter (fun t => startsWith t.id (cutWork q) && t.kind == .edition)
        = t :: post.filter (fun t => startsWith t.id (cutWork q) && t.kind == .edition) := by
      rw [e, List.filter_append, List.filter_eq_nil_iff.mpr, List.nil_append, List.filter_cons_of_pos]
      · exact (htest t htm).mpr ⟨hk, hund⟩
      · intro x hx hp
        have := (htest x (by rw [e]; exact List.mem_append_left _ hx)).mp hp
        exact hfirst x hx this.1 this.2
    rw [hfil]
    simp only
    obtain ⟨hw, hid, hparse, _, _⟩ := hl.written t htm
    rw [hparse]
    simp only
    have hparse' := hparse
    rw [hid] at hparse'
    obtain ⟨u', hs⟩ := C10_urn_round_trip_plain _ (hash_write hw) t.urn hparse'
    rw [hs]
    simp only
    rw [← hid]

theorem asks_getText {lv : Levels} {r : RootV} {parts : TextV → UrnParts} (hl : Library lv r parts) {q : UrnParts} {t : TextV}
    (ha : Asks r parts q t) {u : Urn} (hu : Urn.parse q.write = .ok u) : getText r u = .ok t := by
  obtain ⟨t', ht', e', hg⟩ := objGet_text hl.fits (asks_mem ha)
  rw [getText, asks_choose hl ha hu]
  simp only [hg]
  rw [ha.once t' ht' e']

theorem fetchTextId_asks {lv : Levels} {r : RootV} {parts : TextV → UrnParts} (hl : Library lv r parts) {q : UrnParts} {t : TextV}
    (ha : Asks r parts q t) (files : Files) (same : Same) : fetchTextId files same r q.write =
      match files t.path with
      | none => .ok (none, t)
      | some (.error e) => .error e
      | some (.ok root) =>
        match openText same root with
        | .error e => .error e
        | .ok x => .ok (some (t.id, x), t) := by
  obtain ⟨u, hu, _⟩ := C12_urn_components q ha.wf
  rw [fetchTextId, hu]
  simp only
  rw [fetchText, asks_choose hl ha hu]
  simp only
  rw [asks_getText hl ha hu]
  simp only
  cases files t.path with
  | none => rfl
  | some f => cases f <;> rfl

theorem fetchTextId_held {lv : Levels} {r : RootV} {parts : TextV → UrnParts} (hl : Library lv r parts) {q : UrnParts} {t : TextV}
    (ha : Asks r parts q t) {files : Files} {root : Node} {ls : List Level} (hh : Held files t root ls) (same : Same) :
    fetchTextId files same r q.write = .ok (some (t.id, textOf root same ls), t) := by
  rw [fetchTextId_asks hl ha, hh.file]
  simp only
  rw [openText_declares hh.declares hh.levels]

/-- The text asked for by its own URN. -/
theorem asks_self {lv : Levels} {r : RootV} {parts : TextV → UrnParts} (hl : Library lv r parts) {q : UrnParts} {t : TextV}
    (ha : Asks r parts q t) : Asks r parts (parts t) t := by
  obtain ⟨hw, hid, _, hv, _⟩ := hl.written t (asks_mem ha)
  exact ⟨hw, ha.once, Or.inl ⟨asks_mem ha, hv, hid⟩⟩

/-- C82 (work or edition): whether a text is asked for by the URN of its work or by its own URN, every answer of the
resolver is the same. -/
theorem C82_work_or_text (lv : Levels) (r : RootV) (parts : TextV → UrnParts) (hl : Library lv r parts) (q : UrnParts) (t : TextV)
    (ha : Asks r parts q t) (files : Files) (same : Same) :
    (∀ sub, resolverNode files same r q.write sub = resolverNode files same r t.id sub) ∧
    (∀ sub, resolverSiblings files same r q.write sub = resolverSiblings files same r t.id sub) ∧
    (∀ level sub, resolverReffs files same r q.write level sub = resolverReffs files same r t.id level sub) := by
  have hid := (hl.written t (asks_mem ha)).2.1
  have h1 := fetchTextId_asks hl ha files same
  have h2 := fetchTextId_asks hl (asks_self hl ha) files same
  rw [← hid, ← h1] at h2
  refine ⟨fun sub => ?_, fun sub => ?_, fun level sub => ?_⟩
  · simp only [resolverNode, h2]
  · simp only [resolverSiblings, h2]
  · simp only [resolverReffs, h2]

/-! ### The URN of a passage -/

theorem parse_ref {p : UrnParts} (h : p.WF) {s : Str} (hs : p.ref = some s) {u : Urn} (hu : Urn.parse p.write = .ok u) :
    mkRef s = .ok u.ref := by
  obtain ⟨a, ns, cts, rest, hsp, _, _, _, hr, _⟩ := parse_ok hu
  rw [split_of_not_mem (hash_write h), List.headD_cons, split_write h] at hsp
  have htg : p.tg ≠ none := fun e => by have := h.refTg e; rw [hs] at this; cases this
  cases ht : p.tg with
  | none => exact absurd ht htg
  | some tg =>
    rw [ht, hs] at hsp
    simp only [Option.toList_some, List.cons.injEq] at hsp
    rw [← hsp.2.2.2] at hr
    exact hr

theorem passageUrn_eq {p : UrnParts} (h : p.WF) (hv : p.ver ≠ none) (hr : p.ref = none) {r : Ref} (hp : PlainRef r.str)
    (hm : mkRef r.str = .ok (some r)) : passageUrn p.write r = .ok (p.write ++ ':' :: r.str, r) := by
  have hw : UrnParts.WF { p with ref := some r.str } :=
    ⟨h.ns, h.cts, h.tg, h.wk, h.ver, by intro s hs; cases hs; exact hp, h.wkTg, h.verWk,
      fun e => absurd (h.verWk (h.wkTg e)) hv⟩
  have hwr : UrnParts.write { p with ref := some r.str } = p.write ++ ':' :: r.str := by
    simp [UrnParts.write, hr, after]
  obtain ⟨u, hu, _⟩ := C12_urn_components _ hw
  have hup := (C14_upTo_values _ hw u hu).2.2.2.2.1 hv
  obtain ⟨u', hs⟩ := C10_urn_round_trip_plain _ (hash_write hw) u hu
  have href := parse_ref hw rfl hu
  rw [hm] at href
  have hcut : cutVersion { p with ref := some r.str } = p.write := by
    rw [cutVersion]; congr 1; cases p; simp only at hr; subst hr; rfl
  rw [hwr] at hu hs
  rw [hcut] at hup
  rw [passageUrn, hu]
  simp only
  rw [hup]
  simp only
  rw [hu]
  simp only
  rw [hs]
  simp only [Except.ok.injEq] at href
  rw [← href]
  rfl

theorem plainRef_single {ids : List Str} (hne : ids ≠ []) (hc : ∀ v ∈ ids, IsComponent v) (hu : InUrn ids) : PlainRef (single ids).str := by
  refine ⟨dotted_ne_nil hne hc, not_mem_dotted (by decide) fun v hv => (hu v hv).1, not_mem_dotted (by decide) fun v hv => (hu v hv).2, ?_⟩
  rw [List.count_eq_zero.mpr]
  · omega
  · exact not_mem_dotted (by decide) fun v hv => (hc v hv).2.2.1

theorem plainRef_range {a b : List Str} (ha : a ≠ []) (hca : ∀ v ∈ a, IsComponent v) (hcb : ∀ v ∈ b, IsComponent v)
    (hua : InUrn a) (hub : InUrn b) : PlainRef (mkRef2 (dotted a) (dotted b)).str := by
  have hda : '-' ∉ dotted a := not_mem_dotted (by decide) fun v hv => (hca v hv).2.2.1
  have hdb : '-' ∉ dotted b := not_mem_dotted (by decide) fun v hv => (hcb v hv).2.2.1
  have e : (mkRef2 (dotted a) (dotted b)).str = dotted a ++ ['-'] ++ dotted b := rfl
  have n1 : ':' ∉ dotted a := not_mem_dotted (by decide) fun v hv => (hua v hv).1
  have n2 : ':' ∉ dotted b := not_mem_dotted (by decide) fun v hv => (hub v hv).1
  have n3 : '#' ∉ dotted a := not_mem_dotted (by decide) fun v hv => (hua v hv).2
  have n4 : '#' ∉ dotted b := not_mem_dotted (by decide) fun v hv => (hub v hv).2
  rw [e]
  refine ⟨by simp, by simp [n1, n2], by simp [n3, n4], ?_⟩
  rw [List.count_append, List.count_append, List.count_eq_zero.mpr hda, List.count_eq_zero.mpr hdb]
  decide

/-! ### Passages -/

/-- C82 (passage): asking for the reference of a citable unit of the text's document, the resolver returns the chain of
ancestors down to a complete copy of the unit, with the URN of the text followed by the reference. -/
theorem C82_unit (lv : Levels) (r : RootV) (parts : TextV → UrnParts) (hl : Library lv r parts) (q : UrnParts) (t : TextV)
    (ha : Asks r parts q t) (files : Files) (root : Node) (ls : List Level) (hh : Held files t root ls) (same : Same)
    (hs : ∀ n i, same n i i = true) (k : Nat) (hk1 : 1 ≤ k) (hk : k ≤ ls.length) (ids : List Str) (pos : List Nat)
    (h : (ids, pos) ∈ units (ls.take k) root) (hu : InUrn ids) :
    resolverNode files same r q.write (some (.text (dotted ids))) =
      .ok (.part (t.id ++ ':' :: dotted ids) ⟨single ids, emptied root (chainTo root pos), .text⟩) := by
  have hlen := mem_units_length h
  simp at hlen
  have hne : ids ≠ [] := by rintro rfl; simp at hlen; omega
  have hc : ∀ v ∈ ids, IsComponent v := fun v hv => (hh.citable.ids _ _ h v hv).1
  have hm := mkRef_dotted hne hc
  rw [resolverNode, fetchTextId_held hl ha hh]
  simp only [optMake, PassageArg.make, hm, textAnswer]
  rw [show (⟨dotted ids, none, dotted ids⟩ : Ref) = single ids from rfl,
    C31_units_retrievable root ls same hs hh.citable k hk1 hk ids pos h]
  simp only
  obtain ⟨hw, hid, _, hv, hr⟩ := hl.written t (asks_mem ha)
  rw [hid, passageUrn_eq hw hv hr (plainRef_single hne hc hu) hm]
  rfl

/-- C82 (range): asking for a range from one unit to a later one, the resolver returns the document cut down to the part
between them. -/
theorem C82_range (lv : Levels) (r : RootV) (parts : TextV → UrnParts) (hl : Library lv r parts) (q : UrnParts) (t : TextV)
    (ha : Asks r parts q t) (files : Files) (root : Node) (ls : List Level) (hh : Held files t root ls) (same : Same)
    (hs : TellsApart same root) (a b : List Str) (t1 t2 : List Nat) (hane : a ≠ []) (hbne : b ≠ []) (hal : a.length ≤ ls.length)
    (hbl : b.length ≤ ls.length) (h1 : (a, t1) ∈ units (ls.take a.length) root) (h2 : (b, t2) ∈ units (ls.take b.length) root)
    (hp : Precedes t1 t2) (hua : InUrn a) (hub : InUrn b) :
    resolverNode files same r q.write (some (.text (dotted a ++ '-' :: dotted b))) =
      .ok (.part (t.id ++ ':' :: dotted a ++ '-' :: dotted b) ⟨mkRef2 (dotted a) (dotted b), cut root t1 t2, .text⟩) := by
  have hca : ∀ v ∈ a, IsComponent v := fun v hv => (hh.citable.ids _ _ h1 v hv).1
  have hcb : ∀ v ∈ b, IsComponent v := fun v hv => (hh.citable.ids _ _ h2 v hv).1
  have hm : mkRef (dotted a ++ '-' :: dotted b) = .ok (some (mkRef2 (dotted a) (dotted b))) := by
    rw [mkRef_pair (not_mem_dotted (by decide) fun v hv => (hca v hv).2.2.1) (not_mem_dotted (by decide) fun v hv => (hcb v hv).2.2.1)]
    simp [mkRef2]
  have hstr : (mkRef2 (dotted a) (dotted b)).str = dotted a ++ '-' :: dotted b := by simp [mkRef2, Ref.str]
  rw [resolverNode, fetchTextId_held hl ha hh]
  simp only [optMake, PassageArg.make, hm, textAnswer]
  rw [C28_range_of_text root ls same hs hh.citable a b t1 t2 hane hbne hal hbl h1 h2 hp]
  simp only
  obtain ⟨hw, hid, _, hv, hr⟩ := hl.written t (asks_mem ha)
  rw [hid, passageUrn_eq hw hv hr (plainRef_range hane hca hcb hua hub) (hstr ▸ hm), hstr]
  simp

/-- C82 (whole text): without subreference, or with an empty one, the resolver returns the whole document, with the URN of
the text. -/
theorem C82_whole (lv : Levels) (r : RootV) (parts : TextV → UrnParts) (hl : Library lv r parts) (q : UrnParts) (t : TextV)
    (ha : Asks r parts q t) (files : Files) (root : Node) (ls : List Level) (hh : Held files t root ls) (same : Same) :
    resolverNode files same r q.write none = .ok (.whole t.id root) ∧
    resolverNode files same r q.write (some (.text [])) = .ok (.whole t.id root) := by
  constructor <;> (rw [resolverNode, fetchTextId_held hl ha hh]; rfl)

/-- C82 (errors): a reference that no unit has raises `IndexError`, one deeper than the scheme `CitationDepthError`. -/
theorem C82_unknown_reference (lv : Levels) (r : RootV) (parts : TextV → UrnParts) (hl : Library lv r parts) (q : UrnParts) (t : TextV)
    (ha : Asks r parts q t) (files : Files) (root : Node) (ls : List Level) (hh : Held files t root ls) (same : Same)
    (ids : List Str) (hne : ids ≠ []) (hi : ∀ v ∈ ids, IsId v) (h : ∀ pos, (ids, pos) ∉ units (ls.take ids.length) root) :
    resolverNode files same r q.write (some (.text (dotted ids))) =
      .error (if ids.length ≤ ls.length then .indexError else .citationDepth) := by
  have hc : ∀ v ∈ ids, IsComponent v := fun v hv => (hi v hv).1
  rw [resolverNode, fetchTextId_held hl ha hh]
  simp only [optMake, PassageArg.make, mkRef_dotted hne hc, textAnswer]
  by_cases hlen : ids.length ≤ ls.length
  · rw [show (⟨dotted ids, none, dotted ids⟩ : Ref) = single ids from rfl,
      C31_unknown_reference root ls same hh.citable ids hne hi hlen h, if_pos hlen]
  · rw [C31_too_deep root ls same ids hne hc none _ (by omega), if_neg hlen]

/-! ### Neighbours and listings -/

/-- C82 (neighbours): for a unit of the text's document, the resolver gives the unit before it and the unit after it in the
listing of its level. -/
theorem C82_siblings (lv : Levels) (r : RootV) (parts : TextV → UrnParts) (hl : Library lv r parts) (q : UrnParts) (t : TextV)
    (ha : Asks r parts q t) (files : Files) (root : Node) (ls : List Level) (hh : Held files t root ls) (same : Same)
    (hs : ∀ n i, same n i i = true) (k : Nat) (hk1 : 1 ≤ k) (hk : k ≤ ls.length) (before after : List (List Str × List Nat))
    (u : List Str × List Nat) (h : units (ls.take k) root = before ++ u :: after) (hu : InUrn u.1) :
    resolverSiblings files same r q.write (.text (dotted u.1)) =
      .ok (before.getLast?.map (single ·.1), after.head?.map (single ·.1)) := by
  have hm : (u.1, u.2) ∈ units (ls.take k) root := by rw [h]; simp
  have hn := C82_unit lv r parts hl q t ha files root ls hh same hs k hk1 hk u.1 u.2 hm hu
  rw [resolverNode, fetchTextId_held hl ha hh] at hn
  rw [resolverSiblings, fetchTextId_held hl ha hh]
  simp only [optMake, PassageArg.make] at hn ⊢
  cases hr : mkRef (dotted u.1) with
  | error e => rw [hr] at hn; cases hn
  | ok x =>
    rw [hr] at hn
    simp only at hn ⊢
    rw [hn]
    simp only [Answer.siblings]
    exact siblingsId_single hh.citable hk1 hk h _

/-- C82 (neighbours of a range): the `n` units before and the `n` units after a range of `n` units. -/
theorem C82_range_siblings (lv : Levels) (r : RootV) (parts : TextV → UrnParts) (hl : Library lv r parts) (q : UrnParts) (t : TextV)
    (ha : Asks r parts q t) (files : Files) (root : Node) (ls : List Level) (hh : Held files t root ls) (same : Same)
    (hs : TellsApart same root) (hsep : Separate root ls) (k : Nat) (hk1 : 1 ≤ k) (hk : k ≤ ls.length)
    (before between after : List (List Str × List Nat)) (a b : List Str × List Nat)
    (h : units (ls.take k) root = before ++ a :: between ++ b :: after) (hua : InUrn a.1) (hub : InUrn b.1) :
    resolverSiblings files same r q.write (.text (dotted a.1 ++ '-' :: dotted b.1)) =
      .ok (span ((lastN (between.length + 2) before).map (·.1)), span ((after.take (between.length + 2)).map (·.1))) := by
  have hma : (a.1, a.2) ∈ units (ls.take k) root := by rw [h]; simp
  have hmb : (b.1, b.2) ∈ units (ls.take k) root := by rw [h]; simp
  have hla := mem_units_length hma
  have hlb := mem_units_length hmb
  simp only [List.length_take] at hla hlb
  obtain ⟨hw, _⟩ := units_writable hh.citable hk1 hk
  have hwa := hw a.1 (List.mem_map_of_mem hma)
  have hwb := hw b.1 (List.mem_map_of_mem hmb)
  have hord := C29_document_order root ls hsep k
  rw [h, List.pairwise_append] at hord
  have hp := hord.2.2 a (by simp) b (by simp)
  have hka : a.1.length = k := by omega
  have hkb : b.1.length = k := by omega
  have hn := C82_range lv r parts hl q t ha files root ls hh same hs a.1 b.1 a.2 b.2 hwa.1 hwb.1 (by omega) (by omega)
    (hka.symm ▸ hma) (hkb.symm ▸ hmb) hp hua hub
  rw [resolverNode, fetchTextId_held hl ha hh] at hn
  rw [resolverSiblings, fetchTextId_held hl ha hh]
  simp only [optMake, PassageArg.make] at hn ⊢
  cases hr : mkRef (dotted a.1 ++ '-' :: dotted b.1) with
  | error e => rw [hr] at hn; cases hn
  | ok x =>
    rw [hr] at hn
    simp only at hn ⊢
    rw [hn]
    simp only [Answer.siblings]
    exact siblingsId_range hs hh.citable hsep hk1 hk h _

/-- C82 (listing): the references of a level of the text are those of its citable units, in the order of the document. -/
theorem C82_reffs (lv : Levels) (r : RootV) (parts : TextV → UrnParts) (hl : Library lv r parts) (q : UrnParts) (t : TextV)
    (ha : Asks r parts q t) (files : Files) (root : Node) (ls : List Level) (hh : Held files t root ls) (same : Same)
    (level : Nat) (h1 : 1 ≤ level) :
    resolverReffs files same r q.write (some level) none =
      if ls.length < level then .error .citationDepth
      else if (units (ls.take level) root).isEmpty then .error .keyError
      else .ok ((units (ls.take level) root).map fun u => some (single u.1)) := by
  rw [resolverReffs, fetchTextId_held hl ha hh]
  simp only [noSub, if_true, reffsWithout]
  exact C29_lists_units root ls same hh.citable level h1

/-- C82 (listing below a passage): the references of a level below a unit are those of the units that lie in it. -/
theorem C82_reffs_under (lv : Levels) (r : RootV) (parts : TextV → UrnParts) (hl : Library lv r parts) (q : UrnParts) (t : TextV)
    (ha : Asks r parts q t) (files : Files) (root : Node) (ls : List Level) (hh : Held files t root ls) (same : Same)
    (hs : ∀ n i, same n i i = true) (k : Nat) (hk1 : 1 ≤ k) (hk : k ≤ ls.length) (ids : List Str) (pos : List Nat)
    (h : (ids, pos) ∈ units (ls.take k) root) (hu : InUrn ids) (level : Nat) (h1 : k < level) :
    resolverReffs files same r q.write (some level) (some (.text (dotted ids))) =
      if ls.length < level then .error .citationDepth
      else if (listing root ls level ids).isEmpty then .error .keyError
      else .ok ((listing root ls level ids).map fun ids => some (single ids)) := by
  have hlen := mem_units_length h
  simp at hlen
  have hne : ids ≠ [] := by rintro rfl; simp at hlen; omega
  have hc : ∀ v ∈ ids, IsComponent v := fun v hv => (hh.citable.ids _ _ h v hv).1
  have hn := C82_unit lv r parts hl q t ha files root ls hh same hs k hk1 hk ids pos h hu
  rw [resolverNode, fetchTextId_held hl ha hh] at hn
  rw [resolverReffs, fetchTextId_held hl ha hh]
  have hne' : (dotted ids).isEmpty = false := by
    cases e : dotted ids with
    | nil => exact absurd e (dotted_ne_nil hne hc)
    | cons _ _ => rfl
  simp only [noSub, hne', Bool.false_eq_true, if_false]
  simp only [optMake, PassageArg.make, mkRef_dotted hne hc] at hn ⊢
  rw [hn]
  exact C29_lists_units_under root ls same hh.citable ids hne (fun v hv => hh.citable.ids _ _ h v hv) level (by omega)

/-- C82 (what is listed can be read): every reference that the resolver lists for a level of a text can be given back to
it, as an object or as a string, and what it returns holds the unit with this reference. -/
theorem C82_listed_retrievable (lv : Levels) (r : RootV) (parts : TextV → UrnParts) (hl : Library lv r parts) (q : UrnParts) (t : TextV)
    (ha : Asks r parts q t) (files : Files) (root : Node) (ls : List Level) (hh : Held files t root ls) (same : Same)
    (hs : ∀ n i, same n i i = true) (huns : ∀ k, ∀ u ∈ units (ls.take k) root, InUrn u.1) (level : Nat) (h1 : 1 ≤ level) (refs : RefSet)
    (h : resolverReffs files same r q.write (some level) none = .ok refs) (x : Option Ref) (hx : x ∈ refs) :
    ∃ ref ids pos, x = some ref ∧ (ids, pos) ∈ units (ls.take level) root ∧ ref.str = dotted ids ∧
      resolverNode files same r q.write (some (.text ref.str)) =
        .ok (.part (t.id ++ ':' :: ref.str) ⟨ref, emptied root (chainTo root pos), .text⟩) ∧
      resolverNode files same r q.write (some (.ref ref)) = resolverNode files same r q.write (some (.text ref.str)) := by
  rw [C82_reffs lv r parts hl q t ha files root ls hh same level h1] at h
  split at h
  · cases h
  · rename_i hlev
    split at h
    · cases h
    · simp only [Except.ok.injEq] at h
      subst h
      obtain ⟨⟨ids, pos⟩, hu, rfl⟩ := List.mem_map.mp hx
      have hlen := mem_units_length hu
      simp at hlen
      have hne : ids ≠ [] := by rintro rfl; simp at hlen; omega
      have hc : ∀ v ∈ ids, IsComponent v := fun v hv => (hh.citable.ids _ _ hu v hv).1
      refine ⟨single ids, ids, pos, rfl, hu, rfl,
        C82_unit lv r parts hl q t ha files root ls hh same hs level h1 (by omega) ids pos hu (huns level _ hu), ?_⟩
      simp only [resolverNode, optMake, PassageArg.make]
      rw [show (single ids).str = dotted ids from rfl, mkRef_dotted hne hc]
      rfl

/-! ### Texts that cannot be read -/

/-- C82 (departure): a text of the inventory whose file does not exist is not refused: every request for it ends with
`AttributeError`, unless the subreference cannot be read. -/
theorem C82_missing_file (lv : Levels) (r : RootV) (parts : TextV → UrnParts) (hl : Library lv r parts) (q : UrnParts) (t : TextV)
    (ha : Asks r parts q t) (files : Files) (hf : files t.path = none) (same : Same) :
    resolverNode files same r q.write none = .error .attributeError ∧
    (∀ ids, ids ≠ [] → (∀ v ∈ ids, IsComponent v) → resolverNode files same r q.write (some (.text (dotted ids))) = .error .attributeError ∧
      resolverSiblings files same r q.write (.text (dotted ids)) = .error .attributeError) ∧
    ∀ level sub, resolverReffs files same r q.write level sub = .error .attributeError := by
  have h := fetchTextId_asks hl ha files same
  rw [hf] at h
  simp only at h
  refine ⟨by rw [resolverNode, h]; rfl, fun ids hne hc => ⟨?_, ?_⟩, fun level sub => by rw [resolverReffs, h]⟩
  · rw [resolverNode, h]; simp only [optMake, PassageArg.make, mkRef_dotted hne hc]
  · rw [resolverSiblings, h]; simp only [PassageArg.make, mkRef_dotted hne hc]

/-- C82 (errors): a file that cannot be parsed raises what the parser raises, and a document without CTS declaration
`MissingRefsDecl`, whatever is asked of the text. -/
theorem C82_unreadable (lv : Levels) (r : RootV) (parts : TextV → UrnParts) (hl : Library lv r parts) (q : UrnParts) (t : TextV)
    (ha : Asks r parts q t) (files : Files) (same : Same) (e : PyErr)
    (hf : files t.path = some (.error e) ∨
      (e = .missingRefsDecl ∧ ∃ root, files t.path = some (.ok root) ∧ ∀ n ∈ root.allNodes, ¬ IsDeclaration n)) :
    (∀ sub, resolverNode files same r q.write sub = .error e) ∧ (∀ sub, resolverSiblings files same r q.write sub = .error e) ∧
    ∀ level sub, resolverReffs files same r q.write level sub = .error e := by
  have h := fetchTextId_asks hl ha files same
  have h' : fetchTextId files same r q.write = .error e := by
    rcases hf with hf | ⟨rfl, root, hf, hn⟩
    · rw [h, hf]
    · rw [h, hf]
      simp only
      rw [openText, (C73_missing [] (by simp) root).mpr hn]
  exact ⟨fun sub => by rw [resolverNode, h'], fun sub => by rw [resolverSiblings, h'], fun level sub => by rw [resolverReffs, h']⟩

theorem fetchTextId_error {r : RootV} {s : Str} {u : Urn} (hu : Urn.parse s = .ok u) {e : PyErr} (hg : getText r u = .error e) (files : Files)
    (same : Same) : fetchTextId files same r s = .error e := by
  rw [fetchTextId, hu]
  simp only
  rw [fetchText]
  cases hc : chooseUrn r u with
  | error e =>
    rw [getText, hc] at hg
    simp only at hg ⊢
    cases hg
    rfl
  | ok s => simp only; rw [hg]

/-- C82 (errors): the URN of a version that nothing in the inventory has raises `UnknownCollection`. -/
theorem C82_unknown_text (lv : Levels) (r : RootV) (hr : FitsRoot lv r) (q : UrnParts) (hq : q.WF) (hver : q.ver ≠ none)
    (h : q.write ≠ r.id ∧ ∀ o ∈ rootDesc r, o.id ≠ q.write) (files : Files) (same : Same) :
    (∀ sub, resolverNode files same r q.write sub = .error .unknownCollection) ∧
    (∀ sub, resolverSiblings files same r q.write sub = .error .unknownCollection) ∧
    ∀ level sub, resolverReffs files same r q.write level sub = .error .unknownCollection := by
  obtain ⟨u, hu, _⟩ := C12_urn_components q hq
  have h' := fetchTextId_error hu ((C47_version lv r hr q hq hver u hu).2 h) files same
  exact ⟨fun sub => by rw [resolverNode, h'], fun sub => by rw [resolverSiblings, h'], fun level sub => by rw [resolverReffs, h']⟩

/-- C82 (errors): the URN of a work of which the inventory has no edition raises `UnknownObjectError`. -/
theorem C82_no_edition (lv : Levels) (r : RootV) (parts : TextV → UrnParts) (hl : Library lv r parts)
    (hids : ((rootTexts r).map TextV.id).Nodup) (q : UrnParts) (hq : q.WF) (hwk : q.wk ≠ none) (hver : q.ver = none)
    (hno : ∀ t ∈ rootTexts r, startsWith t.id (UrnParts.write { q with ver := none, ref := none }) = true → UnderUrn { q with ref := none } (parts t))
    (h : ∀ t ∈ rootTexts r, t.kind = .edition → ¬ UnderUrn { q with ref := none } (parts t)) (files : Files) (same : Same) :
    (∀ sub, resolverNode files same r q.write sub = .error .unknownObject) ∧
    (∀ sub, resolverSiblings files same r q.write sub = .error .unknownObject) ∧
    ∀ level sub, resolverReffs files same r q.write level sub = .error .unknownObject := by
  obtain ⟨u, hu, _⟩ := C12_urn_components q hq
  have h' := fetchTextId_error hu ((C47_work lv r hl.fits parts hl.written hids q hq hwk hver u hu hno).2 h) files same
  exact ⟨fun sub => by rw [resolverNode, h'], fun sub => by rw [resolverSiblings, h'], fun level sub => by rw [resolverReffs, h']⟩

/-- C82 (errors): the URN of a textgroup or of a namespace raises `InvalidURN`. -/
theorem C82_refused (r : RootV) (q : UrnParts) (hq : q.WF) (hwk : q.wk = none) (files : Files) (same : Same) :
    (∀ sub, resolverNode files same r q.write sub = .error .invalidURN) ∧
    (∀ sub, resolverSiblings files same r q.write sub = .error .invalidURN) ∧
    ∀ level sub, resolverReffs files same r q.write level sub = .error .invalidURN := by
  obtain ⟨u, hu, _⟩ := C12_urn_components q hq
  have h' := fetchTextId_error hu (C47_refused r q hq hwk u hu) files same
  exact ⟨fun sub => by rw [resolverNode, h'], fun sub => by rw [resolverSiblings, h'], fun level sub => by rw [resolverReffs, h']⟩

/-! ### The citation scheme in the inventory -/

/-- A step with its single quotes made double. -/
def dqTok : Tok → Tok
  | .chr c => .chr (if c = '\'' then '"' else c)
  | .hole n => .hole n

/-- A step with its single quotes made double. -/
def dqStep (s : PStep) : PStep := { s with body := s.body.map dqTok }

theorem natStr_quote (n : Nat) : doubleQuotes (natStr n) = natStr n := by
  rw [doubleQuotes, List.map_congr_left (g := id), List.map_id]
  intro c hc
  have := isDigit_natStr n c hc
  have : c ≠ '\'' := by rintro rfl; revert this; decide
  simp [this]

theorem dq_append (a b : Str) : doubleQuotes (a ++ b) = doubleQuotes a ++ doubleQuotes b := by simp [doubleQuotes]

theorem dq_shown (l : List Tok) : (l.map dqTok).flatMap Tok.shown = doubleQuotes (l.flatMap Tok.shown) := by
  induction l with
  | nil => rfl
  | cons t l ih =>
    rw [List.map_cons, List.flatMap_cons, List.flatMap_cons, dq_append, ih]
    cases t with
    | chr c => simp [dqTok, Tok.shown, doubleQuotes]
    | hole n => simp [dqTok, Tok.shown, doubleQuotes]

theorem dq_numberedText (l : List Tok) : (l.map dqTok).flatMap Tok.numberedText = doubleQuotes (l.flatMap Tok.numberedText) := by
  induction l with
  | nil => rfl
  | cons t l ih =>
    rw [List.map_cons, List.flatMap_cons, List.flatMap_cons, dq_append, ih]
    cases t with
    | chr c => simp [dqTok, Tok.numberedText, doubleQuotes]
    | hole n =>
      have := natStr_quote n
      simp only [dqTok, Tok.numberedText]
      rw [show ('$' :: natStr n) = ['$'] ++ natStr n from rfl, dq_append, this]
      rfl

theorem dq_slashes (s : PStep) : doubleQuotes s.slashes = s.slashes := by
  unfold PStep.slashes; split <;> decide

theorem dq_shownText (p : List PStep) : shownText (p.map dqStep) = doubleQuotes (shownText p) := by
  induction p with
  | nil => rfl
  | cons s p ih =>
    simp only [shownText, List.map_cons, List.flatten_cons] at ih ⊢
    rw [dq_append, dq_append, dq_slashes, ih, dqStep, dq_shown]
    rfl

theorem dq_refsDeclText (p : List PStep) : refsDeclText (p.map dqStep) = doubleQuotes (refsDeclText p) := by
  induction p with
  | nil => rfl
  | cons s p ih =>
    simp only [refsDeclText, List.map_cons, List.flatten_cons] at ih ⊢
    rw [dq_append, dq_append, dq_slashes, ih, dqStep, dq_numberedText]
    rfl

theorem dq_numbered (k : Nat) (s : Str) : numbered k (doubleQuotes s) = doubleQuotes (numbered k s) := by
  induction s generalizing k with
  | nil => rfl
  | cons c r ih =>
    rw [show doubleQuotes (c :: r) = (if c = '\'' then '"' else c) :: doubleQuotes r from rfl, numbered, numbered]
    by_cases hq : c = '\''
    · subst hq
      rw [if_pos rfl, if_neg (by decide), if_neg (by decide), ih]
      rfl
    · rw [if_neg hq]
      by_cases hc : c = '?'
      · rw [if_pos hc, if_pos hc, show ('$' :: natStr k ++ numbered (k + 1) r) = ['$'] ++ natStr k ++ numbered (k + 1) r from rfl,
          dq_append, dq_append, natStr_quote, ih]
        rfl
      · rw [if_neg hc, if_neg hc, ih]
        show _ = (if c = '\'' then '"' else c) :: doubleQuotes (numbered k r)
        rw [if_neg hq]

theorem shownText_ne_nil {p : List PStep} (h : p ≠ []) : shownText p ≠ [] := by
  cases p with
  | nil => exact absurd rfl h
  | cons s p =>
    simp only [shownText, List.map_cons, List.flatten_cons]
    cases hd : s.double <;> simp [PStep.slashes, hd]

theorem rebuildLevel_carried {l : CiteLevel} {rd : Str} (hl : l.refsDecl = some rd) (h : Carried rd) :
    rebuildLevel l = .ok { l with refsDecl := some (doubleQuotes rd) } := by
  obtain ⟨p, x, hp, hwp, hwx, e1, e2⟩ := h
  have hread := C21_read p x hwp hwx
  rw [← e1] at hread
  rw [rebuildLevel, hl, Option.getD_some, hread]
  simp only
  rw [if_neg (by rintro (h | h); exact shownText_ne_nil hp h; exact shownText_ne_nil (by simp) h)]
  congr 2
  rw [fromScopeXpath_eq, ← dq_append, ← shownText_append, dq_numbered, ← e2]

theorem rebuildLevels_carried {ls : List CiteLevel} (h : ∀ l ∈ ls, ∃ rd, l.refsDecl = some rd ∧ Carried rd) :
    rebuildLevels ls = .ok (ls.map fun l => { l with refsDecl := l.refsDecl.map doubleQuotes }) := by
  induction ls with
  | nil => rfl
  | cons l r ih =>
    rw [rebuildLevels, ih fun x hx => h x (List.mem_cons_of_mem _ hx)]
    obtain ⟨rd, h1, h2⟩ := h l (List.mem_cons_self ..)
    simp only [rebuildLevel_carried h1 h2, List.map_cons, h1, Option.map_some]

theorem textPath_eq {p : UrnParts} (h : p.WF) (hv : p.ver ≠ none) {u : Urn} (hu : Urn.parse p.write = .ok u) (dir : Str) :
    textPath dir u = fileOf dir p := by
  obtain ⟨u0, hu0, _, _, h1, h2, h3, _⟩ := C12_urn_components p h
  rw [hu] at hu0; cases hu0
  have hwk : p.wk ≠ none := fun e => hv (h.verWk e)
  have htg : p.tg ≠ none := fun e => hwk (h.wkTg e)
  rw [textPath, fileOf, h1, h2, h3]
  cases e1 : p.tg with
  | none => exact absurd e1 htg
  | some a =>
    cases e2 : p.wk with
    | none => exact absurd e2 hwk
    | some b =>
      cases e3 : p.ver with
      | none => exact absurd e3 hv
      | some c => rfl

/-- C82 (scheme): when the resolver parses a folder, a text whose file declares a scheme gets this scheme: the same levels
with the same names and expressions, apostrophes being written as quotes; the text is found valid. Its path is made of the
folder and of its URN. -/
theorem C82_scheme (files : Files) (dir : Str) (p : UrnParts) (hp : p.WF) (hv : p.ver ≠ none) (u : Urn) (hu : Urn.parse p.write = .ok u)
    (before : List CiteLevel) (root r : Node) (hf : files (fileOf dir p) = some (.ok root)) (hr : FirstDeclaration root r)
    (scheme : List CiteLevel) (hne : scheme ≠ []) (hd : PatternsDescribe (patternsIn r) scheme)
    (hc : ∀ l ∈ scheme, ∃ rd, l.refsDecl = some rd ∧ Carried rd) :
    parseTextFile files dir u before =
      ⟨fileOf dir p, scheme.reverse.map fun l => { l with refsDecl := l.refsDecl.map doubleQuotes }, true⟩ := by
  have hpath := textPath_eq hp hv hu dir
  have hs := C73_declared [] (by simp) root r hr scheme hne hd
  rw [parseTextFile, hpath, hf]
  simp only [readScheme]
  rw [hs]
  simp only
  rw [rebuildLevels_carried fun l hl => hc l (List.mem_reverse.mp hl)]
  simp only [ParsedText.mk.injEq, true_and]
  cases e : scheme.reverse with
  | nil => exact absurd (List.reverse_eq_nil_iff.mp e) hne
  | cons l rest =>
    obtain ⟨rd, h1, _⟩ := hc l (List.mem_reverse.mp (by rw [e]; exact List.mem_cons_self ..))
    simp [citeIsSet, h1]

/-- C82 (no scheme): the text keeps the scheme that it had, and is found invalid, when its file does not exist, cannot be
parsed or has no CTS declaration. -/
theorem C82_no_scheme (files : Files) (dir : Str) (p : UrnParts) (hp : p.WF) (hv : p.ver ≠ none) (u : Urn) (hu : Urn.parse p.write = .ok u)
    (before : List CiteLevel)
    (hf : files (fileOf dir p) = none ∨ (∃ e, files (fileOf dir p) = some (.error e)) ∨
      ∃ root, files (fileOf dir p) = some (.ok root) ∧ ∀ n ∈ root.allNodes, ¬ IsDeclaration n) :
    parseTextFile files dir u before = ⟨fileOf dir p, before, false⟩ := by
  have hpath := textPath_eq hp hv hu dir
  rw [parseTextFile, hpath]
  rcases hf with hf | ⟨e, hf⟩ | ⟨root, hf, hn⟩
  · rw [hf]
  · rw [hf]; rfl
  · rw [hf]
    simp only [readScheme]
    rw [(C73_missing [] (by simp) root).mpr hn]

/-! ### From folders to answers -/

theorem mem_rootTexts_holds {r : RootV} {t : TextV} (h : t ∈ rootTexts r) : ∃ gid wid, HoldsText r gid wid t := by
  rw [rootTexts, List.mem_filterMap] at h
  obtain ⟨o, ho, e⟩ := h
  cases o <;> cases e
  rcases mem_rootDesc.mp ho with ⟨_, _, e⟩ | ⟨_, _, e⟩ | ⟨_, _, _, _, e⟩ | ⟨g, hg, w, hw, t', ht', e⟩
  · cases e
  · cases e
  · cases e
  · cases e
    obtain ⟨i, hi, hg⟩ := mem_allTgs.mp hg
    exact ⟨g.id, w.id, i, hi, g, hg, rfl, w, hw, rfl, ht'⟩

theorem holds_mem_rootTexts {r : RootV} {t : TextV} {gid wid : Str} (h : HoldsText r gid wid t) : t ∈ rootTexts r := by
  obtain ⟨i, hi, g, hg, _, w, hw, _, ht⟩ := h
  rw [rootTexts, List.mem_filterMap]
  exact ⟨.text t, mem_rootDesc.mpr (Or.inr (Or.inr (Or.inr ⟨g, mem_allTgs.mpr ⟨i, hi, hg⟩, w, hw, t, ht, rfl⟩))), rfl⟩

theorem placeText_path {files : Files} {dir : Str} {t : TextV} {p : UrnParts} (hp : p.WF) (hv : p.ver ≠ none) (hid : t.id = p.write)
    (hu : Urn.parse t.id = .ok t.urn) : (placeText files dir t).path = fileOf dir p := by
  have := textPath_eq hp hv (hid ▸ hu) dir
  rw [← this]
  simp only [placeText, parseTextFile]
  cases files (textPath dir t.urn) with
  | none => rfl
  | some f =>
    simp only
    cases readScheme f <;> rfl

/-- C82 (folders): parsing folders into an empty inventory gives a library in which the URN of each text that they
describe means this text, with the file `textgroup.work.version.xml` of its folder; and no other texts. -/
theorem C82_library (lv : Levels) (raises : Bool) (d : Dispatcher) (default : Str) (fs : List (Str × Filter))
    (hm : d.methods = (default, fun _ _ => .ok true) :: fs) (hr : FitsRoot lv d.root) (hempty : rootTexts d.root = [])
    (files : Files) (found : List TgFile) (parts : Str → UrnParts) (hf : Folders lv found parts)
    (hch : ∀ x ∈ found, ∃ name ∈ d.root.invs.map InvV.id,
      Chosen fs default (buildTg x.id (placeTg files x).works) x.path name) :
    ∃ d', parseFiles files raises d found = .ok d' ∧ Library lv d'.root (fun t => parts t.id) ∧
      (∀ x w t, DescribedIn found x w t → ∃ t', Asks d'.root (fun t => parts t.id) (parts t.id) t' ∧ t'.id = t.id ∧
        t'.kind = t.kind ∧ t'.lang = t.lang ∧ t'.path = fileOf w.dir (parts t.id)) ∧
      ∀ t' ∈ rootTexts d'.root, ∃ x w t, DescribedIn found x w t ∧ t'.id = t.id := by
  have hfit : ∀ x ∈ found.map (placeTg files), FitsDesc lv x := by
    intro y hy
    obtain ⟨x, hx, rfl⟩ := List.mem_map.mp hy
    refine ⟨hf.tg x hx, ?_, ?_⟩
    · intro w hw
      obtain ⟨v, hv, rfl⟩ := List.mem_map.mp hw
      exact hf.work x hx v hv
    · intro w hw t ht
      obtain ⟨v, hv, rfl⟩ := List.mem_map.mp hw
      obtain ⟨s, hs, rfl⟩ := List.mem_map.mp ht
      exact hf.text x v s ⟨hx, hv, hs⟩
  have hch' : ∀ x ∈ found.map (placeTg files), ∃ name ∈ d.root.invs.map InvV.id, Chosen fs default (buildTg x.id x.works) x.path name := by
    intro y hy
    obtain ⟨x, hx, rfl⟩ := List.mem_map.mp hy
    exact hch x hx
  have honce : ∀ x ∈ found.map (placeTg files), (x.works.map WorkDesc.id).Nodup := by
    intro y hy
    obtain ⟨x, hx, rfl⟩ := List.mem_map.mp hy
    have := hf.works x hx
    simpa [placeTg, Function.comp_def] using this
  obtain ⟨d', hp, _, hall⟩ := C44_parse lv raises d default fs hm hr (found.map (placeTg files)) hfit hch' honce
  have hno := C44_no_invention lv raises d default fs hm hr (found.map (placeTg files)) hfit hch' d' hp
  have hfr : FitsRoot lv d'.root := by
    obtain ⟨r', h1, _, h3, _⟩ := C44_dispatch_all lv raises d default fs hm hr
      ((found.map (placeTg files)).map fun t => (buildTg t.id t.works, t.path))
      (by
        intro y hy
        obtain ⟨x, hx, rfl⟩ := List.mem_map.mp hy
        exact fits_buildTg (hfit x hx))
      (by
        intro y hy
        obtain ⟨x, hx, rfl⟩ := List.mem_map.mp hy
        exact hch' x hx)
    have : parseAll raises d (found.map (placeTg files)) = .ok { d with root := r' } := h1
    rw [hp] at this
    cases this
    exact h3
  -- what the new inventory holds
  have hsrc : ∀ t' ∈ rootTexts d'.root, ∃ x w t, DescribedIn found x w t ∧ t' = placeText files w.dir t := by
    intro t' ht'
    obtain ⟨gid, wid, hh⟩ := mem_rootTexts_holds ht'
    rcases hno gid wid t' hh with h | ⟨y, hy, _, w, hw, _, ht⟩
    · have := holds_mem_rootTexts h
      rw [hempty] at this
      cases this
    · obtain ⟨x, hx, rfl⟩ := List.mem_map.mp hy
      obtain ⟨v, hv, rfl⟩ := List.mem_map.mp hw
      obtain ⟨s, hs, rfl⟩ := List.mem_map.mp ht
      exact ⟨x, v, s, ⟨hx, hv, hs⟩, rfl⟩
  refine ⟨d', hp, ⟨hfr, ?_⟩, ?_, ?_⟩
  · intro t' ht'
    obtain ⟨x, w, t, hd, rfl⟩ := hsrc t' ht'
    exact hf.written x w t hd
  · intro x w t hd
    obtain ⟨t', hh, hid⟩ := hall (placeTg files x) (List.mem_map_of_mem hd.1) _ (List.mem_map_of_mem hd.2.1) _ (List.mem_map_of_mem hd.2.2)
    have hid : t'.id = t.id := hid
    have ht' := holds_mem_rootTexts hh
    have huniq : ∀ y ∈ rootTexts d'.root, y.id = t.id → y = placeText files w.dir t := by
      intro y hy e
      obtain ⟨x2, w2, t2, hd2, rfl⟩ := hsrc y hy
      obtain ⟨rfl, e2⟩ := hf.once x2 w2 t2 hd2 x w t hd e
      rw [e2]
    have he := huniq t' ht' hid
    obtain ⟨h1, h2, h3, h4, h5⟩ := hf.written x w t hd
    subst he
    refine ⟨_, ⟨h1, ?_, Or.inl ⟨ht', h4, h2⟩⟩, rfl, rfl, rfl, placeText_path h1 h4 h2 h3⟩
    intro y hy e
    exact huniq y hy e
  · intro t' ht'
    obtain ⟨x, w, t, hd, rfl⟩ := hsrc t' ht'
    exact ⟨x, w, t, hd, rfl⟩

/-- C82 (folders to answers): after parsing, each unit of the document that is the file of a described text is what the
resolver answers for the URN of the text and the identifiers of the unit. -/
theorem C82_end_to_end (lv : Levels) (raises : Bool) (d : Dispatcher) (default : Str) (fs : List (Str × Filter))
    (hm : d.methods = (default, fun _ _ => .ok true) :: fs) (hr : FitsRoot lv d.root) (hempty : rootTexts d.root = [])
    (files : Files) (found : List TgFile) (parts : Str → UrnParts) (hf : Folders lv found parts)
    (hch : ∀ x ∈ found, ∃ name ∈ d.root.invs.map InvV.id,
      Chosen fs default (buildTg x.id (placeTg files x).works) x.path name)
    (same : Same) (hs : ∀ n i, same n i i = true) :
    ∃ d', parseFiles files raises d found = .ok d' ∧
      ∀ x w t, DescribedIn found x w t → ∀ root ls, files (fileOf w.dir (parts t.id)) = some (.ok root) → DeclaresLevels root ls → ls ≠ [] →
        Citable root ls → ∀ k, 1 ≤ k → k ≤ ls.length → ∀ ids pos, (ids, pos) ∈ units (ls.take k) root → InUrn ids →
          resolverNode files same d'.root t.id (some (.text (dotted ids))) =
            .ok (.part (t.id ++ ':' :: dotted ids) ⟨single ids, emptied root (chainTo root pos), .text⟩) := by
  obtain ⟨d', hp, hl, hall, _⟩ := C82_library lv raises d default fs hm hr hempty files found parts hf hch
  refine ⟨d', hp, ?_⟩
  intro x w t hd root ls hfile hdecl hne hcit k hk1 hk ids pos hu hin
  obtain ⟨t', ha, hid, _, _, hpath⟩ := hall x w t hd
  have := C82_unit lv d'.root _ hl _ t' ha files root ls ⟨hpath ▸ hfile, hdecl, hne, hcit⟩ same hs k hk1 hk ids pos hu hin
  rwa [← (hf.written x w t hd).2.1, hid] at this

/-- C82 (departure): a text that is read without difficulty but whose expressions have one step, `//l[@n='$1']`, gets a
scheme without expressions and is found invalid. -/
theorem C82_fails_one_step : rebuildLevels [⟨some "line".toList, some "//tei:l[@n='$1']".toList⟩] = .ok [⟨some "line".toList, none⟩] ∧
    citeIsSet [⟨some "line".toList, none⟩] = false := by
  constructor <;> decide +kernel

/-- C82 (departure): an expression with a hyphen or an underscore is cut there, so that the inventory carries another
expression than the text. -/
theorem C82_fails_hyphen :
    rebuildLevels [⟨some "line".toList, some "/tei:TEI/tei:div[@type='text-part']/tei:l[@n='$1']".toList⟩] =
      .ok [⟨some "line".toList, some "/tei:TEI/tei:div[@type=\"text/tei:l[@n=\"$1\"]".toList⟩] := by
  decide +kernel

/-! ### A concrete library -/

/-- The poems of `edition` with a header that declares their scheme, the lines before the poems. -/
def published : Node :=
  .mk "TEI".toList [] [] [.mk "tei:teiHeader".toList [] [] [.mk "tei:refsDecl".toList [("n".toList, "CTS".toList)] []
    [.mk "tei:cRefPattern".toList [("n".toList, "line".toList), ("replacementPattern".toList, "#xpath(/TEI/body/d[@n='$1']/l[@n='$2'])".toList)] [] [] [],
     .mk "tei:cRefPattern".toList [("n".toList, "poem".toList), ("replacementPattern".toList, "#xpath(/TEI/body/d[@n='$1'])".toList)] [] [] []] []] [], poems] []

theorem published_units : units editionLevels published =
    [([['1'], ['1']], [1, 0, 0]), ([['1'], ['2']], [1, 0, 1]), ([['2'], ['1']], [1, 1, 0]), ([['2'], ['2']], [1, 1, 1])] := by
  decide +kernel

theorem published_citable : Citable published editionLevels where
  tag := by decide
  few := by decide
  wf := edition_citable.wf
  ids := by
    intro k u hu v hv
    have h : v = ['1'] ∨ v = ['2'] := by
      match k with
      | 0 => simp [units] at hu; subst hu; simp at hv
      | 1 =>
        have e : units (editionLevels.take 1) published = [([['1']], [1, 0]), ([['2']], [1, 1])] := by decide +kernel
        rw [e] at hu
        simp at hu
        rcases hu with rfl | rfl <;> simp at hv <;> simp [hv]
      | k + 2 =>
        rw [List.take_of_length_le (by simp [editionLevels]), published_units] at hu
        simp at hu
        rcases hu with rfl | rfl | rfl | rfl <;> simp_all [or_comm]
    rcases h with rfl | rfl
    · exact isId_digit (Or.inl rfl)
    · exact isId_digit (Or.inr rfl)
  distinct := by
    intro k
    match k with
    | 0 => simp [units]
    | 1 => decide +kernel
    | k + 2 =>
      rw [List.take_of_length_le (by simp [editionLevels]), published_units]
      decide

theorem published_declares : DeclaresLevels published editionLevels := by
  refine ⟨_, [⟨some "line".toList, some "/TEI/body/d[@n='$1']/l[@n='$2']".toList⟩, ⟨some "poem".toList, some "/TEI/body/d[@n='$1']".toList⟩],
    ⟨[_, _], _, rfl, ⟨rfl, rfl⟩, ?_⟩, ?_, by decide +kernel⟩
  · intro x hx
    simp only [List.mem_cons, List.not_mem_nil, or_false] at hx
    rcases hx with rfl | rfl <;> (rintro ⟨h, _⟩; revert h; decide)
  · exact .cons ⟨_, rfl, rfl, by decide +kernel⟩ (.cons ⟨_, rfl, rfl, by decide +kernel⟩ .nil)

/-- A folder with one textgroup, one work and two editions. -/
def exFound : List TgFile :=
  [⟨"urn:cts:a:g".toList, [⟨"urn:cts:a:g.w".toList, "lat".toList,
    [urnTextOf "urn:cts:a:g.w.e1" .edition "lat" none, urnTextOf "urn:cts:a:g.w.e2" .edition "lat" none], "data/g/w".toList⟩],
    "data/g/__cts__.xml".toList⟩]

/-- Only the first edition has a file. -/
def exFiles : Files := fun s => if s = "data/g/w/g.w.e1.xml".toList then some (.ok published) else none

def exFolderParts (s : Str) : UrnParts :=
  ⟨"cts".toList, "a".toList, some "g".toList, some "w".toList, some (s.reverse.take 2).reverse, none⟩

def exDispatcher : Dispatcher := ⟨⟨"tic".toList, [⟨"default".toList, []⟩]⟩, [("default".toList, fun _ _ => .ok true)]⟩

theorem exFound_folders : Folders (ctsLevels "tic".toList) exFound exFolderParts where
  tg := by decide +kernel
  work := by decide +kernel
  works := by decide +kernel
  text := by
    have h : ∀ x ∈ exFound, ∀ w ∈ x.works, ∀ t ∈ w.texts, (ctsLevels "tic".toList).level t.id = 4 := by decide +kernel
    rintro x w t ⟨hx, hw, ht⟩
    exact h x hx w hw t ht
  written := by
    rintro x w t ⟨hx, hw, ht⟩
    have : t ∈ [urnTextOf "urn:cts:a:g.w.e1" .edition "lat" none, urnTextOf "urn:cts:a:g.w.e2" .edition "lat" none] := by
      simp only [exFound, List.mem_singleton] at hx
      subst hx
      simp only [List.mem_singleton] at hw
      subst hw
      exact ht
    simp only [List.mem_cons, List.not_mem_nil, or_false] at this
    rcases this with rfl | rfl
    · exact ⟨⟨by decide, by decide, by intro s hs; cases hs; decide, by intro s hs; cases hs; decide, by intro s hs; cases hs; decide +kernel,
        by simp [exFolderParts], by simp [exFolderParts], by simp [exFolderParts], by simp [exFolderParts]⟩, by decide +kernel, by decide +kernel, by simp [exFolderParts], rfl⟩
    · exact ⟨⟨by decide, by decide, by intro s hs; cases hs; decide, by intro s hs; cases hs; decide, by intro s hs; cases hs; decide +kernel,
        by simp [exFolderParts], by simp [exFolderParts], by simp [exFolderParts], by simp [exFolderParts]⟩, by decide +kernel, by decide +kernel, by simp [exFolderParts], rfl⟩
  once := by
    rintro x w t ⟨hx, hw, ht⟩ x' w' t' ⟨hx', hw', ht'⟩ e
    simp only [exFound, List.mem_singleton] at hx hx'
    subst hx hx'
    simp only [List.mem_singleton] at hw hw'
    subst hw hw'
    refine ⟨?_, rfl⟩
    simp only [List.mem_cons, List.not_mem_nil, or_false] at ht ht'
    rcases ht with rfl | rfl <;> rcases ht' with rfl | rfl
    · rfl
    · revert e; decide +kernel
    · revert e; decide +kernel
    · rfl

theorem exDispatcher_fits : FitsRoot (ctsLevels "tic".toList) exDispatcher.root where
  root := by decide +kernel
  invs := by decide +kernel
  inv := by decide +kernel
  tgs := by decide +kernel
  tg := by
    intro i hi g hg
    simp only [exDispatcher, List.mem_singleton] at hi
    subst hi
    cases hg

theorem exChosen : ∀ x ∈ exFound, ∃ name ∈ exDispatcher.root.invs.map InvV.id,
    Chosen [] "default".toList (buildTg x.id (placeTg exFiles x).works) x.path name := by
  intro x _
  exact ⟨_, List.mem_singleton.mpr rfl, Or.inr ⟨rfl, by simp⟩⟩

/-- The hypotheses of `C82_end_to_end` are met: the second line of the first poem. -/
example : ∃ d', parseFiles exFiles true exDispatcher exFound = .ok d' ∧
    resolverNode exFiles sameIdentity d'.root "urn:cts:a:g.w.e1".toList (some (.text "1.2".toList)) =
      .ok (.part "urn:cts:a:g.w.e1:1.2".toList ⟨single [['1'], ['2']], emptied published (chainTo published [1, 0, 1]), .text⟩) := by
  obtain ⟨d', h1, h2⟩ := C82_end_to_end (ctsLevels "tic".toList) true exDispatcher "default".toList [] rfl exDispatcher_fits rfl exFiles exFound
    exFolderParts exFound_folders exChosen sameIdentity (by simp [sameIdentity])
  refine ⟨d', h1, ?_⟩
  exact h2 _ _ _ ⟨List.mem_singleton.mpr rfl, List.mem_singleton.mpr rfl, List.mem_cons_self ..⟩ published editionLevels (by decide +kernel)
    published_declares (by decide) published_citable 2 (by decide) (by decide) [['1'], ['2']] [1, 0, 1]
    (by rw [List.take_of_length_le (by simp [editionLevels]), published_units]; simp) (by decide)

/-- The library that comes out of these folders. -/
def exParsed : RootV :=
  match parseFiles exFiles true exDispatcher exFound with
  | .ok d => d.root
  | .error _ => ⟨[], []⟩

/-- Both texts with their paths, and the scheme of the one that has a file. -/
example : (rootTexts exParsed).map (fun t => (t.id, t.path, t.cite)) =
    [("urn:cts:a:g.w.e1".toList, "data/g/w/g.w.e1.xml".toList, some 2), ("urn:cts:a:g.w.e2".toList, "data/g/w/g.w.e2.xml".toList, none)] := by
  decide +kernel

theorem exParsed_library : Library (ctsLevels "tic".toList) exParsed (fun t => exFolderParts t.id) ∧
    ∃ t, Asks exParsed (fun t => exFolderParts t.id) (exFolderParts "urn:cts:a:g.w.e1".toList) t ∧ Held exFiles t published editionLevels := by
  obtain ⟨d', h1, h2, h3, _⟩ := C82_library (ctsLevels "tic".toList) true exDispatcher "default".toList [] rfl exDispatcher_fits rfl exFiles exFound
    exFolderParts exFound_folders exChosen
  have e : exParsed = d'.root := by rw [exParsed, h1]
  rw [e]
  obtain ⟨t', ha, _, _, _, hp⟩ := h3 _ _ _ ⟨List.mem_singleton.mpr rfl, List.mem_singleton.mpr rfl, List.mem_cons_self ..⟩
  exact ⟨h2, t', ha, by rw [hp]; decide +kernel, published_declares, by decide, published_citable⟩

/-- Asked by the URN of the work: neighbours, listing, the text as a whole, a unit that does not exist, a missing file, an
unknown version. -/
example : resolverSiblings exFiles sameIdentity exParsed "urn:cts:a:g.w".toList (.text "1.2".toList) = .ok (some (single [['1'], ['1']]), some (single [['2'], ['1']])) ∧
    resolverReffs exFiles sameIdentity exParsed "urn:cts:a:g.w".toList (some 1) none = .ok [some (single [['1']]), some (single [['2']])] ∧
    resolverReffs exFiles sameIdentity exParsed "urn:cts:a:g.w".toList (some 2) (some (.text "2".toList)) =
      .ok [some (single [['2'], ['1']]), some (single [['2'], ['2']])] := by
  decide +kernel

/-- C82 (departure): for level 0 and the empty subreference the references of level 1 are listed, without subreference
one reference that is `None`. -/
theorem C82_fails_empty_subreference :
    resolverReffs exFiles sameIdentity exParsed "urn:cts:a:g.w.e1".toList (some 0) (some (.text [])) = .ok [some (single [['1']]), some (single [['2']])] ∧
    resolverReffs exFiles sameIdentity exParsed "urn:cts:a:g.w.e1".toList (some 0) none = .ok [none] := by
  constructor <;> decide +kernel

/-- C82 (departure): a described text without file is in the inventory, and reading it raises `AttributeError`. -/
theorem C82_fails_missing_file : (rootTexts exParsed).any (·.id == "urn:cts:a:g.w.e2".toList) = true ∧
    (∀ sub, resolverReffs exFiles sameIdentity exParsed "urn:cts:a:g.w.e2".toList (some 1) sub = .error .attributeError) := by
  refine ⟨by decide +kernel, fun sub => ?_⟩
  have : ∃ t, fetchTextId exFiles sameIdentity exParsed "urn:cts:a:g.w.e2".toList = .ok (none, t) := ⟨_, rfl⟩
  obtain ⟨t, h⟩ := this
  rw [resolverReffs, h]

/-- C82 (departure): asking for the neighbours of the text as a whole raises `AttributeError`. -/
theorem C82_fails_whole_siblings : resolverSiblings exFiles sameIdentity exParsed "urn:cts:a:g.w.e1".toList (.text []) = .error .attributeError := by
  decide +kernel

/-- A document with one unit whose identifier has a hash. -/
def hashed : Node :=
  .mk "TEI".toList [] [] [.mk "tei:refsDecl".toList [("n".toList, "CTS".toList)] []
    [.mk "tei:cRefPattern".toList [("n".toList, "line".toList), ("replacementPattern".toList, "#xpath(/TEI/l[@n='$1'])".toList)] [] [] []] [],
    .mk "l".toList [("n".toList, "a#b".toList)] [] [] []] []

/-- The files with this document. -/
def exHash : Files := fun s => if s = "data/g/w/g.w.e1.xml".toList then some (.ok hashed) else none

/-- The URN and the reference of an answer. -/
def Answer.head : Answer → Str × Str
  | .whole u _ => (u, [])
  | .part u p => (u, p.ref.str)

/-- C82 (departure, why identifiers must fit into a URN): a unit whose identifier has a hash is listed and retrieved, but
the passage has the identifier cut at the hash, and its neighbours cannot be asked for. -/
theorem C82_fails_hash :
    resolverReffs exHash sameIdentity exParsed "urn:cts:a:g.w.e1".toList (some 1) none = .ok [some (single ["a#b".toList])] ∧
    (resolverNode exHash sameIdentity exParsed "urn:cts:a:g.w.e1".toList (some (.text "a#b".toList))).map Answer.head =
      .ok ("urn:cts:a:g.w.e1:a".toList, "a".toList) ∧
    resolverSiblings exHash sameIdentity exParsed "urn:cts:a:g.w.e1".toList (.text "a#b".toList) = .error .valueError := by
  refine ⟨?_, ?_, ?_⟩ <;> decide +kernel

/-- A step with a test on the number `n`. -/
def testStep (name : String) (n : Nat) : PStep :=
  ⟨false, (name ++ "[@n='").toList.map Tok.chr ++ [.hole n] ++ "']".toList.map Tok.chr⟩

theorem carried_poem : Carried "/TEI/body/d[@n='$1']".toList := by
  refine ⟨[⟨false, "TEI".toList.map .chr⟩, ⟨false, "body".toList.map .chr⟩], testStep "d" 1, by decide, ?_, ⟨by decide, ?_, by simp [testStep, NoDigitAfterHole]⟩,
    by decide +kernel, by decide +kernel⟩
  · intro s hs
    simp only [List.mem_cons, List.not_mem_nil, or_false] at hs
    rcases hs with rfl | rfl
    · refine ⟨by decide, ?_, by simp [NoDigitAfterHole]⟩
      intro c hc; simp at hc; rcases hc with rfl | rfl | rfl <;> decide
    · refine ⟨by decide, ?_, by simp [NoDigitAfterHole]⟩
      intro c hc; simp at hc; rcases hc with rfl | rfl | rfl | rfl <;> decide
  · intro c hc
    simp [testStep] at hc
    rcases hc with rfl | rfl | rfl | rfl | rfl | rfl | rfl | rfl <;> decide

/-- The scheme of the inventory: apostrophes have become quotes. -/
example : ∃ u, Urn.parse "urn:cts:a:g.w.e1".toList = .ok u ∧ parseTextFile exFiles "data/g/w".toList u [] =
    ⟨"data/g/w/g.w.e1.xml".toList, [⟨some "poem".toList, some "/TEI/body/d[@n=\"$1\"]".toList⟩,
      ⟨some "line".toList, some "/TEI/body/d[@n=\"$1\"]/l[@n=\"$2\"]".toList⟩], true⟩ := ⟨_, rfl, by decide +kernel⟩

end Verif.Props
