import Verif.Lemmas.Nested
import Verif.Props.Generic
import Verif.Props.Siblings
/-!
C35, C36, C66: plain text and nested dictionary exports. Theorems are about `Verif/Model/Export.lean`; the
vocabulary of the statements is in `Verif/Spec/Export.lean`.
-/
namespace Verif.Props
open Verif.Py Verif.Model Verif.Spec Verif.Lemmas

/-! ## C35 -/

/-- C35. The plain text of a resource is the text that is not under an excluded element, in document order,
the pieces put together with the separator, and runs of spaces made one. -/
theorem C35_plain_text (sep : Str) (ex : List Str) (n : Node) :
    plainText sep [] ex n = squeeze (join sep (visible ex n)) := by
  rw [plainText_eq]; rfl

/-- C35. Without exclusion no character but spaces is lost, added or moved, when the separator is made of
spaces (as the default is). -/
theorem C35_nothing_lost (sep : Str) (hs : ∀ c ∈ sep, c = ' ') (n : Node) :
    (plainText sep [] [] n).filter (· ≠ ' ') = (textContent n).filter (· ≠ ' ') := by
  rw [C35_plain_text, squeeze_filter _ (by decide), filter_join _ _ (by
    rw [List.filter_eq_nil_iff]; intro c hc; simp [hs c hc]), flatten_visible]

/-- C35. With an empty separator the plain text is the text content with runs of spaces made one. -/
theorem C35_empty_separator (n : Node) : plainText [] [] [] n = squeeze (textContent n) := by
  rw [C35_plain_text, Lemmas.join_nil_sep, flatten_visible]

/-- C35. What is exported is text of the document, in its order, whatever is excluded. -/
theorem C35_only_document_text (sep : Str) (ex : List Str) (n : Node) :
    ∃ pieces : List Str, plainText sep [] ex n = squeeze (join sep pieces) ∧ pieces.Sublist (visible [] n) :=
  ⟨_, C35_plain_text sep ex n, visible_sublist ex n⟩

/-- C35. If the element itself has an excluded name, nothing is left. -/
theorem C35_excluded_itself (sep : Str) (ex : List Str) (n : Node) (h : excluded ex n.tag = true) :
    plainText sep [] ex n = [] := by
  rw [C35_plain_text]
  cases n
  simp only [Node.tag] at h
  simp [visible, h, join, squeeze]

theorem unit_node {root : Node} {ls : List Level} {ids : List Str} {t : List Nat} (hne : ids ≠ [])
    (h : (ids, t) ∈ units (ls.take ids.length) root) : t ≠ [] ∧ ∃ c, nodeAt root t = some c := by
  have hm := (mem_units _ _ _ _).1 h
  refine ⟨?_, Option.isSome_iff_exists.1 (sel_nodeAt hm.2)⟩
  have hp : fillSteps (ls.take ids.length) (ids.map some) ≠ [] := by
    have hl : ids.length ≤ ls.length := by have := hm.1; simp at this; omega
    exact idPath_ne_nil hne hl
  rintro rfl
  generalize fillSteps (ls.take ids.length) (ids.map some) = p at hp hm
  have := hm.2
  cases p with
  | nil => exact hp rfl
  | cons s p => cases this

/-- C35 for passages. The plain text of the passage of a citable unit is the plain text of the element of
that unit; it is empty when the unit stands in an excluded element. -/
theorem C35_passage_text (root : Node) (ls : List Level) (same : Same) (hr : ∀ n i, same n i i = true)
    (hc : Citable root ls) (ids : List Str) (hne : ids ≠ []) (hk : ids.length ≤ ls.length) (t : List Nat)
    (h : (ids, t) ∈ units (ls.take ids.length) root) (ex : List Str) (sep : Str) :
    ∃ tree c, getTextualNode (textOf root same ls) (single ids) = .ok tree ∧ nodeAt root t = some c ∧
      plainText sep [] ex tree =
        if (namesTo root t).any (excluded ex) then [] else squeeze (join sep (visible ex c)) := by
  obtain ⟨ht, c, hn⟩ := unit_node hne h
  refine ⟨_, c, C31_units_retrievable root ls same hr hc _ (List.length_pos_iff.2 hne) hk ids t h, hn, ?_⟩
  rw [C35_plain_text, visible_passage ex root c t ht hn]
  have : ((namesTo root t).all fun x => !excluded ex x) = !(namesTo root t).any (excluded ex) := by
    rw [← List.not_any_eq_all_not]
  rw [this]
  by_cases h : (namesTo root t).any (excluded ex) = true
  · simp [h, join, squeeze]
  · simp [h]

/-- C35 for simple passages. The simple passage of a citable unit is the element of that unit in its
document, and has the same plain text as the passage. -/
theorem C35_simple_passage (root : Node) (ls : List Level) (same : Same) (hr : ∀ n i, same n i i = true)
    (hc : Citable root ls) (ids : List Str) (hne : ids ≠ []) (hk : ids.length ≤ ls.length) (t : List Nat)
    (h : (ids, t) ∈ units (ls.take ids.length) root) (ex : List Str) (sep : Str) :
    ∃ around c tree, simplePassage (textOf root same ls) (single ids) = .ok (around, c) ∧ nodeAt root t = some c ∧
      getTextualNode (textOf root same ls) (single ids) = .ok tree ∧
      plainText sep around ex c = plainText sep [] ex tree := by
  obtain ⟨tree, c, h1, hn, h2⟩ := C35_passage_text root ls same hr hc ids hne hk t h ex sep
  refine ⟨(namesTo root t).reverse, c, tree, ?_, hn, h1, ?_⟩
  · have hi : ∀ v ∈ ids, IsId v := fun v hv => hc.ids _ _ h v hv
    have hcomp : ∀ v ∈ ids, IsComponent v := fun v hv => (hi v hv).1
    have hd : (single ids).depth = ids.length := by
      show (plist (dotted ids)).length = ids.length
      rw [plist_dotted hne hcomp]
    have hwf : ∀ x ∈ ls.take ids.length, x.WF := fun x hx => hc.wf x (List.mem_of_mem_take hx)
    have hfew : (ls.take ids.length).length < 1000 := by
      have := hc.few
      simp
      omega
    unfold simplePassage
    rw [hd]
    simp only [single, textOf, pdepth_dotted hne hcomp, plist_dotted hne hcomp, length_declsOf, if_neg (Nat.not_lt.2 hk)]
    rw [citationAt_decls hne hk]
    simp only
    rw [show fill (declText root.tag (ls.take ids.length)) (.ref ids) = fill (declText root.tag (ls.take ids.length)) (.list (ids.map some)) from rfl,
      fill_decl hc.tag hwf hfew _ (by simp; omega)]
    simp only
    have hsel : select root (idPath ls ids) = [t] := by
      have hu := uniq_idPath hc h
      have hp := idPath_ne_nil hne hk
      apply sorted_ext (select_sorted _ _) (by simp)
      intro u
      rw [mem_select hp, hu u]; simp
    have hpos : xpathPositions root (stepsText (⟨false, root.tag, []⟩ :: fillSteps (ls.take ids.length) (ids.map some))) = .ok [0 :: t] := by
      unfold xpathPositions
      rw [parseSteps_text _ _ length_stepsText]
      · simp only
        have := select_docNode root (idPath ls ids) ⟨false, root.tag, []⟩ rfl (by simp [Step.test]) (idPath_ne_nil hne hk)
        rw [hsel] at this
        exact congrArg Except.ok this
      · intro s hs
        rw [List.mem_cons] at hs
        rcases hs with rfl | hs
        · exact ⟨by simp [stepName, hc.tag], by simp⟩
        · refine fillSteps_ok hwf ?_ s hs
          intro v hv
          simp at hv
          exact (hi v hv).2.1
    rw [hpos]
    simp only [onlyElement]
    rw [at?_eq, hn]
    simp only [namesAround_eq, List.append_nil]
  · rw [h2, plainText_eq]
    have : ((namesTo root t).reverse.all fun x => !excluded ex x) = !(namesTo root t).any (excluded ex) := by
      rw [List.all_reverse, ← List.not_any_eq_all_not]
    rw [this]
    by_cases h : (namesTo root t).any (excluded ex) = true
    · simp [h, join, squeeze]
    · simp [h]

/-- C35 for ranges. The plain text of a range is the text of the elements that lie completely between the two
ends, in document order. -/
theorem C35_range_text (root : Node) (ls : List Level) (same : Same) (hs : TellsApart same root) (hc : Citable root ls)
    (a b : List Str) (t1 t2 : List Nat) (ha : a ≠ []) (hb : b ≠ []) (hal : a.length ≤ ls.length) (hbl : b.length ≤ ls.length)
    (h1 : (a, t1) ∈ units (ls.take a.length) root) (h2 : (b, t2) ∈ units (ls.take b.length) root) (hp : Precedes t1 t2)
    (ex : List Str) (sep : Str) :
    ∃ tree, getTextualNode (textOf root same ls) (mkRef2 (dotted a) (dotted b)) = .ok tree ∧
      plainText sep [] ex tree =
        squeeze (join sep (((visibleAt ex [] root).filter fun p => inside t1 t2 p.1).map (·.2))) :=
  ⟨_, C28_range_of_text root ls same hs hc a b t1 t2 ha hb hal hbl h1 h2 hp, by
    rw [C35_plain_text, visible_cut ex root t1 t2 hp]⟩

/-- Text, positions and pieces: what `visibleAt` lists is what `visible` lists, with positions. -/
theorem C35_positions (ex : List Str) (pos : List Nat) (n : Node) : (visibleAt ex pos n).map (·.2) = visible ex n :=
  visibleAt_snd ex pos n

/-- The default separator cuts words at markup inside of them. -/
theorem C35_markup_splits_words :
    plainText defaultJoin [] [] (.mk ['l'] [] "sa".toList [.mk "hi".toList [] "g".toList [] "o".toList] []) = "sa g o".toList ∧
    plainText [] [] [] (.mk ['l'] [] "sa".toList [.mk "hi".toList [] "g".toList [] "o".toList] []) = "sago".toList := by
  decide +kernel

/-- The simple passage of a range is that of its beginning. -/
theorem C35_simple_range_is_start (t : LocalText) (a b : Str) (h : pdepth a ≤ pdepth b) :
    simplePassage t (mkRef2 a b) = simplePassage t ⟨a, none, a⟩ := by
  have hd : (mkRef2 a b).depth = (⟨a, none, a⟩ : Ref).depth := by
    show (plist (if pdepth a < pdepth b then a else if pdepth a > pdepth b then b else a)).length = (plist a).length
    rw [if_neg (by omega : ¬ pdepth a > pdepth b), ite_self]
  unfold simplePassage
  rw [hd]
  rfl

example : plainText defaultJoin [] ["note".toList]
    (.mk ['l'] [] "Arma ".toList [.mk "note".toList [] "on arms".toList [] " virumque".toList, .mk "hi".toList [] "cano".toList [] []] []) =
      "Arma virumque cano".toList := by decide +kernel

example : ∃ tree c, getTextualNode (textOf edition sameIdentity editionLevels) (single [['2'], ['1']]) = .ok tree ∧
    nodeAt edition [0, 1, 0] = some c ∧ plainText [' '] [] [] tree = ['c'] := by
  obtain ⟨tree, c, h1, h2, h3⟩ := C35_passage_text edition editionLevels sameIdentity (by simp [sameIdentity]) edition_citable
    [['2'], ['1']] (by simp) (by simp [editionLevels]) [0, 1, 0] (by
      rw [List.take_of_length_le (by simp [editionLevels]), edition_units]; simp) [] [' ']
  refine ⟨tree, c, h1, h2, ?_⟩
  rw [h3]
  have : c = .mk ['l'] [(['n'], ['1'])] ['c'] [] [] := by
    have : nodeAt edition [0, 1, 0] = some (.mk ['l'] [(['n'], ['1'])] ['c'] [] []) := by decide
    rw [this] at h2; simpa using h2.symm
  subst this
  decide +kernel

/-! ## C36 -/

theorem setAll_foldlM {α : Type} (d : NDict α) (L : List (List Str × α)) :
    setAll d L = L.foldlM (fun d p => nestedSet d p.1 (.leaf p.2)) d := by
  induction L generalizing d with
  | nil => rfl
  | cons p r ih =>
    rw [List.foldlM_cons, setAll]
    cases nestedSet d p.1 (.leaf p.2) with
    | error e => rfl
    | ok d => exact ih d

/-- C36. Entries with paths of which none begins with another, set one after the other, all stand in the
dictionary in the end, and nothing else does. -/
theorem C36_entries {α : Type} (L : List (List Str × α)) (hne : ∀ p ∈ L, p.1 ≠ [])
    (hinc : L.Pairwise fun a b => ¬ a.1 <+: b.1 ∧ ¬ b.1 <+: a.1) :
    ∃ d, L.foldlM (fun d p => nestedSet d p.1 (.leaf p.2)) (.dict []) = .ok d ∧
      (∀ p ∈ L, valueAt d p.1 = some (.leaf p.2)) ∧ (leaves d).Perm L := by
  rw [show (.dict [] : NDict α) = (.dict [] : NDict α) from rfl]
  suffices h : ∀ (L M : List (List Str × α)) (d0 : NDict α), (∀ p ∈ L, p.1 ≠ []) →
      (L.Pairwise fun a b => ¬ a.1 <+: b.1 ∧ ¬ b.1 <+: a.1) →
      (∀ p ∈ L, ∀ q ∈ M, ¬ p.1 <+: q.1 ∧ ¬ q.1 <+: p.1) →
      (∀ p ∈ M, valueAt d0 p.1 = some (.leaf p.2)) → (leaves d0).Perm M →
      ∃ d, setAll d0 L = .ok d ∧ (∀ p ∈ L ++ M, valueAt d p.1 = some (.leaf p.2)) ∧ (leaves d).Perm (L ++ M) by
    obtain ⟨d, h1, h2, h3⟩ := h L [] (.dict []) hne hinc (by simp) (by simp) (by simp [leaves, itemLeaves])
    rw [setAll_foldlM] at h1
    simp only [List.append_nil] at h2 h3
    exact ⟨d, h1, h2, h3⟩
  intro L
  induction L with
  | nil => intro M d0 _ _ _ h1 h2; exact ⟨d0, rfl, by simpa using h1, by simpa using h2⟩
  | cons p L ih =>
    intro M d0 hne hinc hLM hval hperm
    rw [List.pairwise_cons] at hinc
    obtain ⟨d1, hd1⟩ := (C55_set_succeeds d0 (.leaf p.2) p.1).2 ⟨hne p (by simp), by
      intro q a hq _ hv
      have := mem_leaves_of_valueAt d0 q a hv
      exact (hLM p (by simp) (q, a) (hperm.mem_iff.1 this)).2 hq⟩
    have hl := leaves_set d0 d1 p.1 p.2 hd1 (fun q hq => (hLM p (by simp) q (hperm.mem_iff.1 hq)).1)
    obtain ⟨d, h1, h2, h3⟩ := ih (p :: M) d1 (fun q hq => hne q (List.mem_cons_of_mem _ hq)) hinc.2
      (fun q hq r hr => by
        rw [List.mem_cons] at hr
        rcases hr with rfl | hr
        · exact (hinc.1 q hq).symm
        · exact hLM q (List.mem_cons_of_mem _ hq) r hr)
      (fun q hq => by
        rw [List.mem_cons] at hq
        rcases hq with rfl | hq
        · exact C55_set_then_value d0 d1 _ _ hd1
        · rw [C55_set_elsewhere d0 d1 _ _ q.1 hd1 (hLM p (by simp) q hq).1 (hLM p (by simp) q hq).2]
          exact hval q hq)
      (hl.trans (hperm.cons p))
    refine ⟨d, ?_, ?_, h3.trans List.perm_middle⟩
    · rw [setAll, hd1]; exact h1
    · intro q hq
      apply h2
      simp only [List.cons_append, List.mem_cons, List.mem_append] at hq ⊢
      rcases hq with hq | hq | hq
      · exact .inr (.inl hq)
      · exact .inl hq
      · exact .inr (.inr hq)

/-- Paths of the same length of which none begins with another are paths without duplicates. -/
theorem C36_equal_depth {α : Type} (L : List (List Str × α)) (k : Nat) (hk : ∀ p ∈ L, p.1.length = k)
    (hd : L.Pairwise fun a b => a.1 ≠ b.1) : L.Pairwise fun a b => ¬ a.1 <+: b.1 ∧ ¬ b.1 <+: a.1 := by
  refine hd.imp_of_mem ?_
  intro a b ha hb hne
  exact ⟨fun h => hne (h.eq_of_length (by rw [hk a ha, hk b hb])),
    fun h => hne (h.eq_of_length (by rw [hk a ha, hk b hb])).symm⟩

/-- The loop of the export writes the text of each unit under its identifiers. -/
theorem nestedLoop_units {root : Node} {ls : List Level} {same : Same} (hr : ∀ n i, same n i i = true) (hc : Citable root ls) (hl : ls ≠ [])
    (ex : List Str) : ∀ (us : List (List Str × List Nat)) (d : NDict Str), (∀ u ∈ us, u ∈ units ls root) →
    nestedLoop (textOf root same ls) ex d (us.map fun u => some (single u.1)) =
      setAll d (us.map fun u => (u.1, unitText root ex u)) := by
  have hpos : 0 < ls.length := List.length_pos_iff.2 hl
  have hlen : ∀ u ∈ units ls root, u.1.length = ls.length := fun u hm => mem_units_length hm
  have hids : ∀ u ∈ units ls root, u.1 ≠ [] ∧ ∀ v ∈ u.1, IsId v := by
    intro u hm
    refine ⟨fun e => ?_, ?_⟩
    · have := hlen u hm; rw [e] at this; simp at this; omega
    · exact hc.ids ls.length u (by rw [List.take_length]; exact hm)
  intro us
  induction us with
  | nil => intro d _; rfl
  | cons u us ih =>
    intro d hus
    have hm := hus u (List.mem_cons_self ..)
    obtain ⟨hne, hi⟩ := hids u hm
    have hcomp : ∀ v ∈ u.1, IsComponent v := fun v hv => (hi v hv).1
    have hm' : (u.1, u.2) ∈ units (ls.take u.1.length) root := by rw [hlen u hm, List.take_length]; exact hm
    have hs : split '.' (refText (some (single u.1))) = u.1 := by
      show split '.' (single u.1).str = u.1
      have : (single u.1).str = dotted u.1 := rfl
      rw [this, ← join_dot_eq_dotted]
      exact split_join hne fun v hv => (hcomp v hv).2.1
    obtain ⟨tree, c, h1, h2, h3⟩ := C35_passage_text root ls same hr hc u.1 hne (by rw [hlen u hm]; omega) u.2 hm' ex [' ']
    have he : nestedEntry (textOf root same ls) ex d (some (single u.1)) = nestedSet d u.1 (.leaf (unitText root ex u)) := by
      unfold nestedEntry
      rw [hs, join_dot_eq_dotted, mkRef_dotted hne hcomp]
      simp only
      rw [show (⟨dotted u.1, none, dotted u.1⟩ : Ref) = single u.1 from rfl, h1]
      simp only [defaultJoin]
      rw [h3]
      simp only [unitText, h2]
    simp only [List.map_cons, nestedLoop, setAll, he]
    cases nestedSet d u.1 (.leaf (unitText root ex u)) with
    | error e => rfl
    | ok d => exact ih d fun u hu => hus u (List.mem_cons_of_mem _ hu)

/-- C36. The nested dictionary of a text has one entry for each unit of the deepest level, in document order:
the identifiers of the unit, one after the other, lead to its text. There is no other entry. -/
theorem C36_nested_dictionary (root : Node) (ls : List Level) (same : Same) (hr : ∀ n i, same n i i = true)
    (hc : Citable root ls) (hl : ls ≠ []) (hu : units ls root ≠ []) (ex : List Str) :
    ∃ d, exportNested (textOf root same ls) ex = .ok d ∧
      leaves d = (units ls root).map (fun u => (u.1, unitText root ex u)) ∧
      ∀ u ∈ units ls root, valueAt d u.1 = some (.leaf (unitText root ex u)) := by
  have hpos : 0 < ls.length := List.length_pos_iff.2 hl
  have hlist := C29_lists_units root ls same hc ls.length hpos
  rw [if_neg (Nat.lt_irrefl _), List.take_length, if_neg (by simpa using hu)] at hlist
  have hlen : ∀ u ∈ units ls root, u.1.length = ls.length := fun u hm => mem_units_length hm
  have hids : ∀ u ∈ units ls root, u.1 ≠ [] ∧ ∀ v ∈ u.1, IsId v := by
    intro u hm
    refine ⟨fun e => ?_, ?_⟩
    · have := hlen u hm; rw [e] at this; simp at this; omega
    · exact hc.ids ls.length u (by rw [List.take_length]; exact hm)
  have hloop := nestedLoop_units (same := same) hr hc hl ex
  obtain ⟨items, h1, h2⟩ := setAll_units ls root hl (fun k => hc.distinct k) (fun u => unitText root ex u)
  have hd : (units ls root).Pairwise fun a b => a.1 ≠ b.1 := by
    have := units_nodup hc.distinct ls.length
    rwa [List.take_length] at this
  obtain ⟨d, g1, g2, _⟩ := C36_entries ((units ls root).map fun u => (u.1, unitText root ex u))
    (by intro p hp; obtain ⟨u, hm, rfl⟩ := List.mem_map.1 hp; exact (hids u hm).1)
    (C36_equal_depth _ ls.length (by intro p hp; obtain ⟨u, hm, rfl⟩ := List.mem_map.1 hp; exact hlen u hm)
      (by rw [List.pairwise_map]; exact hd))
  rw [← setAll_foldlM, h1] at g1
  cases g1
  refine ⟨.dict items, ?_, h2, ?_⟩
  · unfold exportNested
    rw [show (textOf root same ls).decls.length = ls.length from length_declsOf _ _, hlist]
    simp only
    rw [hloop _ _ fun u hu => hu, h1]
  · intro u hm
    exact g2 (u.1, unitText root ex u) (List.mem_map_of_mem (f := fun u => (u.1, unitText root ex u)) hm)

/-- C36. A text without any unit at the deepest level has no nested dictionary. -/
theorem C36_empty_text (root : Node) (ls : List Level) (same : Same) (hc : Citable root ls) (hl : ls ≠ [])
    (hu : units ls root = []) (ex : List Str) : exportNested (textOf root same ls) ex = .error .keyError := by
  have hlist := C29_lists_units root ls same hc ls.length (List.length_pos_iff.2 hl)
  rw [if_neg (Nat.lt_irrefl _), List.take_length, if_pos (by simp [hu])] at hlist
  unfold exportNested
  rw [show (textOf root same ls).decls.length = ls.length from length_declsOf _ _, hlist]

example : ∃ d, exportNested (textOf edition sameIdentity editionLevels) [] = .ok d ∧
    leaves d = [([['1'], ['1']], ['a']), ([['1'], ['2']], ['b']), ([['2'], ['1']], ['c']), ([['2'], ['2']], ['d'])] := by
  obtain ⟨d, h1, h2, _⟩ := C36_nested_dictionary edition editionLevels sameIdentity (by simp [sameIdentity]) edition_citable
    (by simp [editionLevels]) (by rw [edition_units]; simp) []
  refine ⟨d, h1, ?_⟩
  rw [h2, edition_units]
  decide +kernel

example : units editionLevels edition ≠ [] := by rw [edition_units]; simp

/-! ## C66 -/

theorem readAll_ne_nil {decls : List Str} {tree : Node} : ∀ (n : Nat) (ps qs : List (List (Option Str))), ps ≠ [] →
    reffRounds decls tree n ps = .ok qs → qs ≠ []
  | 0, ps, qs, h, e => by simp [reffRounds] at e; exact e ▸ h
  | n + 1, ps, qs, h, e => by
    rw [reffRounds] at e
    cases hr : reffRound decls tree ps with
    | error x => simp [hr] at e
    | ok l =>
      simp only [hr] at e
      refine readAll_ne_nil n l qs ?_ e
      rintro rfl
      unfold reffRound at hr
      split at hr
      · cases hr
      · split at hr
        · cases hr
        · split at hr
          · cases hr
          · rename_i hne
            simp at hr; subst hr; simp at hne

/-- Listing references never gives an empty set. -/
theorem C66_listing_not_empty (t : LocalText) (level : Option Int) (ref : Option Ref) : getValidReff t level ref ≠ .ok [] := by
  intro h
  unfold getValidReff at h
  split at h
  · cases h
  · unfold reffsAt at h
    split at h
    · cases h
    · split at h
      · cases h
      · rename_i ps hps
        have hne := readAll_ne_nil _ _ ps (by simp) hps
        unfold finishReffs at h
        split at h
        · cases h
        · rename_i ss hss
          split at h
          · cases h
          · rename_i l hl
            split at h
            · cases h
            · simp only [Except.ok.injEq] at h; subst h
              have h1 : ss = [] := by
                cases ss with
                | nil => rfl
                | cons s r =>
                  rw [mkRefs] at hl
                  split at hl
                  · cases hl
                  · split at hl <;> cases hl
              subst h1
              cases ps with
              | nil => exact hne rfl
              | cons p r =>
                rw [joinAll] at hss
                split at hss
                · cases hss
                · split at hss <;> cases hss

/-- C66 does not hold: the nested dictionary export of a passage never gives a dictionary, whatever the text
and the passage. -/
theorem C66_passage_export_never_succeeds (t : LocalText) (p : Passage) : ∀ d, p.exportNested t ≠ .ok d := by
  intro d h
  unfold Passage.exportNested at h
  split at h
  · cases h
  · rename_i hl; exact C66_listing_not_empty _ _ _ hl
  · cases h

/-- A text of three levels whose first part has one chapter without lines. -/
def shortEdition : Node :=
  .mk "TEI".toList [] [] [.mk ['b'] [("n".toList, ['1'])] [] [.mk ['c'] [("n".toList, ['1'])] "a".toList [] []] [],
    .mk ['b'] [("n".toList, ['2'])] [] [.mk ['c'] [("n".toList, ['1'])] [] [.mk ['l'] [("n".toList, ['1'])] "x".toList [] []] []] []] []

/-- Its scheme: `/TEI/b[@n='$1']/c[@n='$2']/l[@n='$3']`. -/
def shortLevels : List Level :=
  [⟨[], false, ['b'], [], ['n'], '\'', []⟩, ⟨[], false, ['c'], [], ['n'], '\'', []⟩, ⟨[], false, ['l'], [], ['n'], '\'', []⟩]

/-- C66 does not hold: which exception the nested dictionary export of a passage raises. For a unit of the finest level
it is a citation depth error, for a unit above it an `UnboundLocalError`, and for one under which no unit of the finest level
stands a `KeyError`. -/
theorem C66_passage_export_raises :
    [single [['1']], single [['1'], ['1']]].map (fun r =>
      match textPassage (textOf edition sameIdentity editionLevels) r >>= fun p =>
        p.exportNested (textOf edition sameIdentity editionLevels) with
      | .ok _ => none
      | .error e => some e) = [some .unboundLocal, some .citationDepth] ∧
    [single [['1']], single [['2']], single [['1'], ['1']], single [['2'], ['1'], ['1']]].map (fun r =>
      match textPassage (textOf shortEdition sameIdentity shortLevels) r >>= fun p =>
        p.exportNested (textOf shortEdition sameIdentity shortLevels) with
      | .ok _ => none
      | .error e => some e) = [some .keyError, some .unboundLocal, some .keyError, some .citationDepth] := by decide +kernel

end Verif.Props
