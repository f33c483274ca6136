import Verif.Lemmas.StructuredMetadataTree
namespace Verif.Lemmas
open Verif.Py Verif.Model Verif.Spec

/-! ### Parsing the trees with structured metadata -/

theorem filter_block (env : Str → Option Str) (S : Store) (id tag : Str) (h : tag ≠ ['{', 'h', 't', 't', 'p', ':', '/', '/', 'p', 'u', 'r', 'l', '.', 'o', 'r', 'g', '/', 'c', 'a', 'p', 'i', 't', 'a', 'i', 'n', 's', '/', 'n', 's', '/', '1', '.', '0', '#', '}', 's', 't', 'r', 'u', 'c', 't', 'u', 'r', 'e', 'd', '-', 'm', 'e', 't', 'a', 'd', 'a', 't', 'a']) :
    [blockLine env S id].filter (fun c => decide (c.tag = tag)) = [] := by
  have : (blockLine env S id).tag = ['{', 'h', 't', 't', 'p', ':', '/', '/', 'p', 'u', 'r', 'l', '.', 'o', 'r', 'g', '/', 'c', 'a', 'p', 'i', 't', 'a', 'i', 'n', 's', '/', 'n', 's', '/', '1', '.', '0', '#', '}', 's', 't', 'r', 'u', 'c', 't', 'u', 'r', 'e', 'd', '-', 'm', 'e', 't', 'a', 'd', 'a', 't', 'a'] := rfl
  rw [List.filter_cons, this, if_neg (by simpa using Ne.symm h), List.filter_nil]

theorem filter_own (env : Str → Option Str) (S : Store) (id : Str) :
    [blockLine env S id].filter (fun c => decide (c.tag = ['{', 'h', 't', 't', 'p', ':', '/', '/', 'p', 'u', 'r', 'l', '.', 'o', 'r', 'g', '/', 'c', 'a', 'p', 'i', 't', 'a', 'i', 'n', 's', '/', 'n', 's', '/', '1', '.', '0', '#', '}', 's', 't', 'r', 'u', 'c', 't', 'u', 'r', 'e', 'd', '-', 'm', 'e', 't', 'a', 'd', 'a', 't', 'a'])) = [blockLine env S id] := by
  have : (blockLine env S id).tag = ['{', 'h', 't', 't', 'p', ':', '/', '/', 'p', 'u', 'r', 'l', '.', 'o', 'r', 'g', '/', 'c', 'a', 'p', 'i', 't', 'a', 'i', 'n', 's', '/', 'n', 's', '/', '1', '.', '0', '#', '}', 's', 't', 'r', 'u', 'c', 't', 'u', 'r', 'e', 'd', '-', 'm', 'e', 't', 'a', 'd', 'a', 't', 'a'] := rfl
  rw [List.filter_cons, this, if_pos (by simp), List.filter_nil]

theorem textKids_tag (t : XText) : ∀ c ∈ textKids t, ∃ r, c.tag = 't' :: r := by
  intro c hc
  simp only [textKids, List.mem_append, List.mem_map] at hc
  rcases hc with ((⟨x, _, rfl⟩ | ⟨x, _, rfl⟩) | ⟨x, _, rfl⟩) | hc
  · exact ⟨_, rfl⟩
  · exact ⟨_, rfl⟩
  · exact ⟨_, rfl⟩
  · unfold onlineTree at hc
    split at hc
    · cases hc
    · simp only [List.mem_singleton] at hc
      subst hc
      exact ⟨_, rfl⟩

theorem filter_cts {l : List Node} (h : ∀ c ∈ l, ∃ r, c.tag = 't' :: r) :
    l.filter (fun c => decide (c.tag = ['{', 'h', 't', 't', 'p', ':', '/', '/', 'p', 'u', 'r', 'l', '.', 'o', 'r', 'g', '/', 'c', 'a', 'p', 'i', 't', 'a', 'i', 'n', 's', '/', 'n', 's', '/', '1', '.', '0', '#', '}', 's', 't', 'r', 'u', 'c', 't', 'u', 'r', 'e', 'd', '-', 'm', 'e', 't', 'a', 'd', 'a', 't', 'a'])) = [] := by
  rw [List.filter_eq_nil_iff]
  intro c hc
  obtain ⟨r, hr⟩ := h c hc
  rw [hr]
  simp

theorem parseTextS_tree (nsmap : List (Str × Str)) (ob : Str → Objectified) (env : Str → Option Str) {S : Store} {preds : List (Str × Str)}
    (hs : StoreSafe S preds) {ns : Option (List (Str × Str))} {parent : Option Str} {lang : Str} {t : XText} (h : TextSafe lang t)
    (hn : NodeSafe S preds t.id) (g : Graph) (l : Str) :
    parseTextS nsmap ob t.kind (some lang) g (withTail (textTreeS env S ns parent t) l) = .ok (textRead t, backAll ob S g [t.id]) := by
  have gk : ∀ tag, tag ≠ ['{', 'h', 't', 't', 'p', ':', '/', '/', 'p', 'u', 'r', 'l', '.', 'o', 'r', 'g', '/', 'c', 'a', 'p', 'i', 't', 'a', 'i', 'n', 's', '/', 'n', 's', '/', '1', '.', '0', '#', '}', 's', 't', 'r', 'u', 'c', 't', 'u', 'r', 'e', 'd', '-', 'm', 'e', 't', 'a', 'd', 'a', 't', 'a'] →
      namedKids tag (withTail (textTreeS env S ns parent t) l) = namedKids tag (withTail (textTree (withCpt ns) parent t) l) := by
    intro tag ht
    show (textKids t ++ [blockLine env S t.id]).filter _ = (textKids t).filter _
    rw [List.filter_append, filter_block env S _ _ ht, List.append_nil]
  have gg : ∀ k, (withTail (textTreeS env S ns parent t) l).get k = (withTail (textTree (withCpt ns) parent t) l).get k := fun _ => rfl
  have e : parseText t.kind (some lang) (withTail (textTreeS env S ns parent t) l) = .ok (textRead t) := by
    rw [← parseText_tree (ns := withCpt ns) (parent := parent) h l]
    unfold parseText parseId parseLits ingestOnline
    simp only [gg]
    rw [gk _ (by decide), gk _ (by decide), gk _ (by decide), gk _ (by decide)]
  have hb : namedKids ['{', 'h', 't', 't', 'p', ':', '/', '/', 'p', 'u', 'r', 'l', '.', 'o', 'r', 'g', '/', 'c', 'a', 'p', 'i', 't', 'a', 'i', 'n', 's', '/', 'n', 's', '/', '1', '.', '0', '#', '}', 's', 't', 'r', 'u', 'c', 't', 'u', 'r', 'e', 'd', '-', 'm', 'e', 't', 'a', 'd', 'a', 't', 'a'] (withTail (textTreeS env S ns parent t) l) = [blockLine env S t.id] := by
    show (textKids t ++ [blockLine env S t.id]).filter _ = _
    rw [List.filter_append, filter_own, filter_cts (textKids_tag t), List.nil_append]
  have hid : (textRead t).id = t.id := rfl
  rw [parseTextS, e]
  dsimp only
  rw [hid, parse_block nsmap ob env hs hn g hb]
  rfl

theorem parseIntoS_trees {α β : Type} (ob : Str → Objectified) (S : Store) (key : β → Str) (f : Graph → Node → Except PyErr (β × Graph)) (tree : α → Node)
    (r : α → β) (ids : α → List Str) : ∀ (l : List α) (acc : List β) (g : Graph),
    (∀ x ∈ l, ∀ g, f g (tree x) = .ok (r x, backAll ob S g (ids x))) → ((acc ++ l.map r).map key).Nodup →
    parseIntoS key f acc g (l.map tree) = .ok (acc ++ l.map r, backAll ob S g (l.flatMap ids))
  | [], acc, g, _, _ => by simp [parseIntoS, backAll]
  | x :: xs, acc, g, h, hn => by
    rw [List.map_cons, parseIntoS, h x (by simp)]
    dsimp only
    have hx : key (r x) ∉ acc.map key := by
      intro hm
      simp only [List.map_append, List.map_cons] at hn
      rw [List.nodup_append] at hn
      exact hn.2.2 _ hm _ (by simp) rfl
    rw [addKeyed, if_neg hx, parseIntoS_trees ob S key f tree r ids xs _ _ (fun y hy => h y (by simp [hy])) (by simpa using hn)]
    simp [backAll_append]

theorem filter_titles (w : XWork) (tag : Str) (h : tag ≠ ['t', 'i', ':', 't', 'i', 't', 'l', 'e']) :
    (w.titles.map fun x => withTail (litTree ['t', 'i', ':', 't', 'i', 't', 'l', 'e'] x) ['\n']).filter (fun c => decide (c.tag = tag)) = [] := by
  rw [filter_tags _ _ _ false (by intro x _; exact decide_eq_false (Ne.symm h))]
  simp

theorem kids_textsS (env : Str → Option Str) (S : Store) (w : XWork) (k : Kind) (hk : k ≠ .plain) :
    (workKidsS env S w).filter (fun c => decide (c.tag = ['t', 'i', ':'] ++ kindTag k)) =
      (ofKind k w.texts).map fun t => withTail (textTreeS env S none (some w.id) t) ['\n'] := by
  unfold workKidsS ofKind
  rw [List.filter_append, List.filter_append, filter_titles w _ (by cases k <;> decide), filter_block env S _ _ (by cases k <;> decide), List.filter_map]
  simp only [List.nil_append]
  congr 1
  apply List.filter_congr
  intro t _
  simp only [Function.comp, withTail, textTreeS, Node.tag]
  exact decide_eq_decide.2 kindTag_inj

theorem parseTextsS_tree (nsmap : List (Str × Str)) (ob : Str → Objectified) (env : Str → Option Str) {S : Store} {preds : List (Str × Str)}
    (hs : StoreSafe S preds) {w : XWork} (h : WorkSafe w) (hn : ∀ id ∈ workIds w, NodeSafe S preds id) (ns : Option (List (Str × Str))) (parent : Option Str)
    (g : Graph) (l : Str) :
    parseTextsS nsmap ob w.lang g (withTail (workTreeS env S ns parent w) l) =
      .ok ((workRead w).texts, backAll ob S g ((workRead w).texts.map XText.id)) := by
  have gk : ∀ tag, namedKids tag (withTail (workTreeS env S ns parent w) l) = (workKidsS env S w).filter fun c => decide (c.tag = tag) := fun _ => rfl
  have hp : ∀ k, k ≠ .plain → ∀ t ∈ ofKind k w.texts, ∀ g, parseTextS nsmap ob k (some w.lang) g (withTail (textTreeS env S none (some w.id) t) ['\n']) =
      .ok (textRead t, backAll ob S g [t.id]) := by
    intro k _ t ht g
    simp only [ofKind, List.mem_filter, decide_eq_true_eq] at ht
    have := parseTextS_tree nsmap ob env hs (ns := none) (parent := some w.id) (h.texts t ht.1)
      (hn _ (by simp only [workIds, List.mem_append, List.mem_map]; exact .inl ⟨t, ht.1, rfl⟩)) g ['\n']
    rw [ht.2] at this
    exact this
  have nd := ids_ofKind w.texts h.ids
  simp only [List.map_append] at nd
  have nd2 := (List.nodup_append.1 nd).1
  have nd1 := (List.nodup_append.1 nd2).1
  have k1 : (workKidsS env S w).filter (fun c => decide (c.tag = ['t', 'i', ':', 'e', 'd', 'i', 't', 'i', 'o', 'n'])) =
      (ofKind .edition w.texts).map fun t => withTail (textTreeS env S none (some w.id) t) ['\n'] := kids_textsS env S w .edition (by decide)
  have k2 : (workKidsS env S w).filter (fun c => decide (c.tag = ['t', 'i', ':', 't', 'r', 'a', 'n', 's', 'l', 'a', 't', 'i', 'o', 'n'])) =
      (ofKind .translation w.texts).map fun t => withTail (textTreeS env S none (some w.id) t) ['\n'] := kids_textsS env S w .translation (by decide)
  have k3 : (workKidsS env S w).filter (fun c => decide (c.tag = ['t', 'i', ':', 'c', 'o', 'm', 'm', 'e', 'n', 't', 'a', 'r', 'y'])) =
      (ofKind .commentary w.texts).map fun t => withTail (textTreeS env S none (some w.id) t) ['\n'] := kids_textsS env S w .commentary (by decide)
  unfold parseTextsS
  simp only [gk, k1, k2, k3]
  rw [parseIntoS_trees ob S XText.id _ _ textRead (fun t => [t.id]) _ [] g (hp .edition (by decide)) (by simpa using nd1)]
  dsimp only
  rw [parseIntoS_trees ob S XText.id _ _ textRead (fun t => [t.id]) _ _ _ (hp .translation (by decide)) (by simpa using nd2)]
  dsimp only
  rw [parseIntoS_trees ob S XText.id _ _ textRead (fun t => [t.id]) _ _ _ (hp .commentary (by decide)) (by simpa using nd)]
  have e : ∀ l : List XText, l.flatMap (fun t => [t.id]) = (l.map textRead).map XText.id := by
    intro l
    induction l with
    | nil => rfl
    | cons x r ih => rw [List.flatMap_cons, ih]; rfl
  rw [e, e, e, ← backAll_append, ← backAll_append]
  simp [workRead]

theorem tag_kind (k : Kind) : ∃ r, ['t', 'i', ':'] ++ kindTag k = 't' :: r := ⟨_, rfl⟩

theorem parseWorkS_tree (nsmap : List (Str × Str)) (ob : Str → Objectified) (env : Str → Option Str) {S : Store} {preds : List (Str × Str)}
    (hs : StoreSafe S preds) {w : XWork} (h : WorkSafe w) (hn : ∀ id ∈ workIds w, NodeSafe S preds id) (ns : Option (List (Str × Str))) (parent : Option Str)
    (g : Graph) (l : Str) :
    parseWorkS nsmap ob g (withTail (workTreeS env S ns parent w) l) = .ok (workRead w, backAll ob S g (workIds (workRead w))) := by
  have g1 : (withTail (workTreeS env S ns parent w) l).get ['u', 'r', 'n'] = some w.id := by
    simp only [withTail, workTreeS, Node.get, Node.attrs]
    rw [withHeader_get _ _ (by decide)]
    simp [List.lookup_cons]
  have g2 : (withTail (workTreeS env S ns parent w) l).get ['x', 'm', 'l', ':', 'l', 'a', 'n', 'g'] = some w.lang := by
    simp only [withTail, workTreeS, Node.get, Node.attrs]
    rw [withHeader_get _ _ (by decide)]
    simp [List.lookup_cons]
  have gk : namedKids ['t', 'i', ':', 't', 'i', 't', 'l', 'e'] (withTail (workTreeS env S ns parent w) l) = w.titles.map fun x => withTail (litTree ['t', 'i', ':', 't', 'i', 't', 'l', 'e'] x) ['\n'] := by
    show (workKidsS env S w).filter _ = _
    unfold workKidsS
    rw [List.filter_append, List.filter_append, filter_block env S _ _ (by decide), filter_tags _ _ _ true (by intro x _; rfl), filter_tags _ _ _ false (by
      intro t _; exact decide_eq_false (kindTag_ne_title t.kind))]
    simp
  have hb : namedKids ['{', 'h', 't', 't', 'p', ':', '/', '/', 'p', 'u', 'r', 'l', '.', 'o', 'r', 'g', '/', 'c', 'a', 'p', 'i', 't', 'a', 'i', 'n', 's', '/', 'n', 's', '/', '1', '.', '0', '#', '}', 's', 't', 'r', 'u', 'c', 't', 'u', 'r', 'e', 'd', '-', 'm', 'e', 't', 'a', 'd', 'a', 't', 'a'] (withTail (workTreeS env S ns parent w) l) = [blockLine env S w.id] := by
    show (workKidsS env S w).filter _ = _
    unfold workKidsS
    rw [List.filter_append, List.filter_append, filter_own, filter_cts (l := w.titles.map _) (by
      intro c hc; obtain ⟨x, _, rfl⟩ := List.mem_map.1 hc; exact ⟨_, rfl⟩), filter_cts (l := w.texts.map _) (by
      intro c hc; obtain ⟨x, _, rfl⟩ := List.mem_map.1 hc; exact ⟨_, rfl⟩)]
    rfl
  rw [parseWorkS, parseId_of g1 h.id]
  dsimp only
  rw [g2]
  dsimp only [valueText]
  rw [parseTextsS_tree nsmap ob env hs h hn]
  dsimp only
  rw [parse_block nsmap ob env hs (hn _ (by simp [workIds])) _ hb]
  dsimp only
  unfold parseLits
  rw [gk, parseLits_trees _ _ [] (by simpa using h.titles.1) h.titles.2]
  rw [workIds, backAll_append]
  rfl

theorem parseGroupS_tree (nsmap : List (Str × Str)) (ob : Str → Objectified) (env : Str → Option Str) {S : Store} {preds : List (Str × Str)}
    (hs : StoreSafe S preds) {x : XGroup} (h : GroupSafe x) (hn : ∀ id ∈ groupIds x, NodeSafe S preds id) (ns : Option (List (Str × Str)))
    (g : Graph) (l : Str) :
    parseGroupS nsmap ob g (withTail (groupTreeS env S ns x) l) = .ok (groupRead x, backAll ob S g (groupIds (groupRead x))) := by
  have g1 : (withTail (groupTreeS env S ns x) l).get ['u', 'r', 'n'] = some x.id := by
    simp only [withTail, groupTreeS, Node.get, Node.attrs]
    rw [withHeader_get _ _ (by decide)]
    simp [List.lookup_cons]
  have gk : namedKids ['t', 'i', ':', 'g', 'r', 'o', 'u', 'p', 'n', 'a', 'm', 'e'] (withTail (groupTreeS env S ns x) l) = x.names.map fun x => withTail (litTree ['t', 'i', ':', 'g', 'r', 'o', 'u', 'p', 'n', 'a', 'm', 'e'] x) ['\n'] := by
    show (groupKidsS env S x).filter _ = _
    unfold groupKidsS
    rw [List.filter_append, List.filter_append, filter_block env S _ _ (by decide), filter_tags _ _ _ true (by intro x _; rfl), filter_tags _ _ _ false (by intro w _; rfl)]
    simp
  have gw : namedKids ['t', 'i', ':', 'w', 'o', 'r', 'k'] (withTail (groupTreeS env S ns x) l) = x.works.map fun w => withTail (workTreeS env S none (some x.id) w) ['\n'] := by
    show (groupKidsS env S x).filter _ = _
    unfold groupKidsS
    rw [List.filter_append, List.filter_append, filter_block env S _ _ (by decide), filter_tags _ _ _ false (by intro x _; rfl), filter_tags _ _ _ true (by intro w _; rfl)]
    simp
  have hb : namedKids ['{', 'h', 't', 't', 'p', ':', '/', '/', 'p', 'u', 'r', 'l', '.', 'o', 'r', 'g', '/', 'c', 'a', 'p', 'i', 't', 'a', 'i', 'n', 's', '/', 'n', 's', '/', '1', '.', '0', '#', '}', 's', 't', 'r', 'u', 'c', 't', 'u', 'r', 'e', 'd', '-', 'm', 'e', 't', 'a', 'd', 'a', 't', 'a'] (withTail (groupTreeS env S ns x) l) = [blockLine env S x.id] := by
    show (groupKidsS env S x).filter _ = _
    unfold groupKidsS
    rw [List.filter_append, List.filter_append, filter_own, filter_cts (l := x.names.map _) (by
      intro c hc; obtain ⟨x, _, rfl⟩ := List.mem_map.1 hc; exact ⟨_, rfl⟩), filter_cts (l := x.works.map _) (by
      intro c hc; obtain ⟨x, _, rfl⟩ := List.mem_map.1 hc; exact ⟨_, rfl⟩)]
    rfl
  rw [parseGroupS, parseId_of g1 h.id]
  dsimp only
  rw [gw, parseIntoS_trees ob S XWork.id _ _ workRead (fun w => workIds (workRead w)) _ [] g (fun w hw g => parseWorkS_tree nsmap ob env hs (h.works w hw)
      (fun id hid => hn id (by simp only [groupIds, List.mem_append, List.mem_flatMap]; exact .inl ⟨w, hw, hid⟩)) _ _ g _) (by
    have : ((x.works.map workRead).map XWork.id) = x.works.map XWork.id := by simp [workRead, Function.comp_def]
    rw [List.nil_append, this]; exact h.ids)]
  dsimp only
  rw [parse_block nsmap ob env hs (hn _ (by simp [groupIds])) _ hb]
  dsimp only
  unfold parseLits
  rw [gk, parseLits_trees _ _ [] (by simpa using h.names.1) h.names.2]
  rw [groupIds, backAll_append]
  have e : (groupRead x).works.flatMap workIds = x.works.flatMap fun w => workIds (workRead w) := by
    simp [groupRead, List.flatMap_map]
  rw [e]
  rfl

/-! ### All elements -/

theorem inner_block (env : Str → Option Str) (S : Store) (id : Str) : Inner (blockLine env S id) := by
  refine inner_mk (by decide +kernel) ?_
  intro k hk
  obtain ⟨t, _, rfl⟩ := List.mem_map.1 hk
  refine inner_mk ?_ (by intro k hk; cases hk)
  unfold lineTag
  split
  · exact ⟨(by intro h; cases h), by intro h; cases h⟩
  · exact ⟨(by intro h; cases h), by intro h; cases h⟩

theorem inner_textS (env : Str → Option Str) (S : Store) (ns : Option (List (Str × Str))) (parent : Option Str) (t : XText) (l : Str) :
    Inner (withTail (textTreeS env S ns parent t) l) := by
  refine inner_mk (by cases t.kind <;> decide) ?_
  intro k hk
  rcases List.mem_append.1 hk with hk | hk
  · simp only [textKids, List.mem_append, List.mem_map] at hk
    rcases hk with ((⟨x, _, rfl⟩ | ⟨x, _, rfl⟩) | ⟨x, _, rfl⟩) | hk
    · exact inner_mk (by decide) (by intro k hk; cases hk)
    · exact inner_mk (by decide) (by intro k hk; cases hk)
    · exact inner_mk (by decide) (by intro k hk; cases hk)
    · unfold onlineTree at hk
      split at hk
      · cases hk
      · simp only [List.mem_singleton] at hk
        subst hk
        refine inner_mk (by decide) ?_
        intro k hk
        simp only [List.mem_singleton] at hk
        subst hk
        exact inner_mk (by decide) (inner_cite _)
  · simp only [List.mem_singleton] at hk
    subst hk
    exact inner_block env S _

theorem inner_workS (env : Str → Option Str) (S : Store) (ns : Option (List (Str × Str))) (parent : Option Str) (w : XWork) (l : Str) :
    Inner (withTail (workTreeS env S ns parent w) l) := by
  refine inner_mk (by decide) ?_
  intro k hk
  simp only [workKidsS, List.mem_append, List.mem_map, List.mem_singleton] at hk
  rcases hk with (⟨x, _, rfl⟩ | rfl) | ⟨x, _, rfl⟩
  · exact inner_mk (by decide) (by intro k hk; cases hk)
  · exact inner_block env S _
  · exact inner_textS env S _ _ _ _

theorem allNodes_groupS (env : Str → Option Str) (S : Store) (ns : Option (List (Str × Str))) (g : XGroup) (l : Str) :
    (withTail (groupTreeS env S ns g) l).allNodes = withTail (groupTreeS env S ns g) l :: allNodesList (groupKidsS env S g) ∧
    ∀ c ∈ allNodesList (groupKidsS env S g), c.tag ≠ ['t', 'i', ':', 'T', 'e', 'x', 't', 'I', 'n', 'v', 'e', 'n', 't', 'o', 'r', 'y'] ∧ c.tag ≠ ['t', 'i', ':', 't', 'e', 'x', 't', 'g', 'r', 'o', 'u', 'p'] := by
  refine ⟨by rw [groupTreeS, withTail, Node.allNodes], ?_⟩
  intro c hc
  obtain ⟨k, hk, hc⟩ := mem_allNodesList hc
  simp only [groupKidsS, List.mem_append, List.mem_map, List.mem_singleton] at hk
  rcases hk with (⟨x, _, rfl⟩ | rfl) | ⟨x, _, rfl⟩
  · exact inner_mk (by decide) (by intro k hk; cases hk) c hc
  · exact inner_block env S _ c hc
  · exact inner_workS env S _ _ _ _ c hc

theorem filter_groupsS (env : Str → Option Str) (S : Store) (gs : List XGroup) :
    (allNodesList (gs.map fun g => withTail (groupTreeS env S none g) ['\n'])).filter (fun c => decide (c.tag = ['t', 'i', ':', 't', 'e', 'x', 't', 'g', 'r', 'o', 'u', 'p'])) =
      gs.map fun g => withTail (groupTreeS env S none g) ['\n'] := by
  induction gs with
  | nil => rfl
  | cons g r ih =>
    obtain ⟨h1, h2⟩ := allNodes_groupS env S none g ['\n']
    rw [List.map_cons, allNodesList, List.filter_append, ih, h1, List.filter_cons, if_pos (by
      simp [groupTreeS, withTail, Node.tag])]
    rw [List.filter_eq_nil_iff.2 (fun c hc => by simp [(h2 c hc).2])]
    rfl

theorem parseInvS_tree (nsmap : List (Str × Str)) (ob : Str → Objectified) (env : Str → Option Str) {S : Store} {preds : List (Str × Str)}
    (hs : StoreSafe S preds) {i : XInv} (h : InvSafe i) (hn : ∀ id ∈ innerIds i, NodeSafe S preds id) (ns : Option (List (Str × Str)))
    (g : Graph) (l : Str) :
    parseInvS nsmap ob g (withTail (invTreeS env S ns i) l) = .ok (invRead i, backAll ob S g (innerIds (invRead i))) := by
  have e : (withTail (invTreeS env S ns i) l).allNodes =
      withTail (invTreeS env S ns i) l :: ((blockLine env S i.id).allNodes ++ allNodesList (i.groups.map fun g => withTail (groupTreeS env S none g) ['\n'])) := by
    rw [invTreeS, withTail, Node.allNodes, List.singleton_append, allNodesList]
  have t : (withTail (invTreeS env S ns i) l).tag = ['t', 'i', ':', 'T', 'e', 'x', 't', 'I', 'n', 'v', 'e', 'n', 't', 'o', 'r', 'y'] := rfl
  have g1 : ((withTail (invTreeS env S ns i) l).get ['t', 'i', 'i', 'd']).getD [] = i.id := by
    simp only [withTail, invTreeS, Node.get, Node.attrs]
    rw [withHeader_get _ _ (by decide)]
    split
    · rename_i hi; simp [hi]
    · simp [List.lookup_cons]
  rw [parseInvS, e, List.filter_cons, if_pos (by simp [t])]
  dsimp only
  rw [List.filter_cons, if_neg (by rw [t]; decide), List.filter_append,
    List.filter_eq_nil_iff.2 (fun c hc => by simp [(inner_block env S i.id c hc).2]), List.nil_append, filter_groupsS,
    parseIntoS_trees ob S XGroup.id _ _ groupRead (fun x => groupIds (groupRead x)) _ [] g (fun x hx g => parseGroupS_tree nsmap ob env hs (h.groups x hx)
      (fun id hid => hn id (by simp only [innerIds, List.mem_flatMap]; exact ⟨x, hx, hid⟩)) _ g _) (by
      have : ((i.groups.map groupRead).map XGroup.id) = i.groups.map XGroup.id := by simp [groupRead, Function.comp_def]
      rw [List.nil_append, this]; exact h.ids)]
  dsimp only
  rw [g1]
  have e2 : innerIds (invRead i) = i.groups.flatMap fun x => groupIds (groupRead x) := by
    simp [innerIds, invRead, List.flatMap_map]
  rw [e2]
  rfl

/-! ### The same identifiers -/

theorem mem_workIds {w : XWork} (h : WorkSafe w) (id : Str) : id ∈ workIds (workRead w) ↔ id ∈ workIds w := by
  have hp := (Props.perm_ofKind w.texts fun t ht => (h.texts t ht).kind).map textRead
  have : ((workRead w).texts.map XText.id).Perm (w.texts.map XText.id) := by
    have := hp.map XText.id
    rw [List.map_map (f := textRead) (l := w.texts)] at this
    exact this
  simp only [workIds, List.mem_append, this.mem_iff]
  rfl

theorem mem_groupIds {g : XGroup} (h : GroupSafe g) (id : Str) : id ∈ groupIds (groupRead g) ↔ id ∈ groupIds g := by
  simp only [groupIds, List.mem_append, List.mem_flatMap]
  have : (∃ a ∈ (groupRead g).works, id ∈ workIds a) ↔ ∃ a ∈ g.works, id ∈ workIds a := by
    constructor
    · rintro ⟨a, ha, hi⟩
      obtain ⟨w, hw, rfl⟩ := List.mem_map.1 ha
      exact ⟨w, hw, (mem_workIds (h.works w hw) id).1 hi⟩
    · rintro ⟨w, hw, hi⟩
      exact ⟨_, List.mem_map.2 ⟨w, hw, rfl⟩, (mem_workIds (h.works w hw) id).2 hi⟩
  rw [this]
  rfl

theorem mem_innerIds {i : XInv} (h : InvSafe i) (id : Str) : id ∈ innerIds (invRead i) ↔ id ∈ innerIds i := by
  simp only [innerIds, List.mem_flatMap]
  constructor
  · rintro ⟨a, ha, hi⟩
    obtain ⟨w, hw, rfl⟩ := List.mem_map.1 ha
    exact ⟨w, hw, (mem_groupIds (h.groups w hw) id).1 hi⟩
  · rintro ⟨w, hw, hi⟩
    exact ⟨_, List.mem_map.2 ⟨w, hw, rfl⟩, (mem_groupIds (h.groups w hw) id).2 hi⟩

end Verif.Lemmas
