import Verif.Lemmas.InventoryXml
namespace Verif.Lemmas
open Verif.Py Verif.Model Verif.Spec

/-! ### The header -/

theorem mem_putItem {l : List (Str × Str)} {k v : Str} {x : Str × Str} (h : x ∈ putItem l k v) : x ∈ l ∨ x = (k, v) := by
  induction l with
  | nil => simp [putItem] at h; exact .inr h
  | cons y r ih =>
    obtain ⟨a, b⟩ := y
    simp only [putItem] at h
    split at h
    · rcases List.mem_cons.1 h with h | h
      · exact .inr h
      · exact .inl (List.mem_cons_of_mem _ h)
    · rcases List.mem_cons.1 h with h | h
      · exact .inl (by simp [h])
      · rcases ih h with h | h
        · exact .inl (List.mem_cons_of_mem _ h)
        · exact .inr h

theorem keys_putItem (l : List (Str × Str)) (k v : Str) :
    (putItem l k v).map Prod.fst = if k ∈ l.map Prod.fst then l.map Prod.fst else l.map Prod.fst ++ [k] := by
  induction l with
  | nil => simp [putItem]
  | cons y r ih =>
    obtain ⟨a, b⟩ := y
    simp only [putItem]
    by_cases h : a = k
    · subst h; simp
    · rw [if_neg h, List.map_cons, ih]
      by_cases h2 : k ∈ r.map Prod.fst
      · simp [h2]
      · simp [h2, Ne.symm h]

theorem nodup_putItem {l : List (Str × Str)} (k v : Str) (h : (l.map Prod.fst).Nodup) : ((putItem l k v).map Prod.fst).Nodup := by
  rw [keys_putItem]
  split
  · exact h
  · rename_i hk
    rw [List.nodup_append]
    refine ⟨h, by simp, ?_⟩
    intro a ha b hb
    simp at hb; subst hb; rintro rfl; exact hk ha

/-- `dict.update` with items. -/
theorem foldl_put {α : Type} (f : α → Str × Str) (l : List α) (d : List (Str × Str)) :
    ((d.map Prod.fst).Nodup → ((l.foldl (fun d p => putItem d (f p).1 (f p).2) d).map Prod.fst).Nodup) ∧
    (∀ x ∈ l.foldl (fun d p => putItem d (f p).1 (f p).2) d, x ∈ d ∨ ∃ p ∈ l, x = f p) ∧
    (∀ k, (∀ p ∈ l, (f p).1 ≠ k) → (l.foldl (fun d p => putItem d (f p).1 (f p).2) d).lookup k = d.lookup k) ∧
    (∀ k v, (∀ p ∈ l, (f p).1 = k → (f p).2 = v) → ((∃ p ∈ l, (f p).1 = k) ∨ d.lookup k = some v) →
      (l.foldl (fun d p => putItem d (f p).1 (f p).2) d).lookup k = some v) := by
  induction l generalizing d with
  | nil => exact ⟨id, fun x hx => .inl hx, fun _ _ => rfl, fun k v _ h => by rcases h with ⟨p, hp, _⟩ | h; cases hp; exact h⟩
  | cons p r ih =>
    simp only [List.foldl_cons]
    obtain ⟨h1, h2, h3, h4⟩ := ih (putItem d (f p).1 (f p).2)
    refine ⟨fun h => h1 (nodup_putItem _ _ h), ?_, ?_, ?_⟩
    · intro x hx
      rcases h2 x hx with hx | ⟨q, hq, rfl⟩
      · rcases mem_putItem hx with hx | hx
        · exact .inl hx
        · exact .inr ⟨p, by simp, hx⟩
      · exact .inr ⟨q, by simp [hq], rfl⟩
    · intro k hk
      rw [h3 k fun q hq => hk q (by simp [hq]), lookup_putItem_ne _ _ (Ne.symm (hk p (by simp)))]
    · intro k v hv h
      refine h4 k v (fun q hq => hv q (by simp [hq])) ?_
      by_cases hp : (f p).1 = k
      · right; rw [← hv p (by simp) hp, ← hp]; exact lookup_putItem_self _ _ _
      · rcases h with ⟨q, hq, hk⟩ | h
        · rcases List.mem_cons.1 hq with rfl | hq
          · exact absurd hk hp
          · exact .inl ⟨q, hq, hk⟩
        · right; rw [lookup_putItem_ne _ _ (Ne.symm hp)]; exact h

def nsKey (p : Str × Str) : Str := if p.1 = [] then ['x', 'm', 'l', 'n', 's'] else ['x', 'm', 'l', 'n', 's', ':'] ++ p.1

def nsFix (v : Str) : Str := if v = ['h', 't', 't', 'p', ':', '/', '/', 'c', 'h', 's', '.', 'h', 'a', 'r', 'v', 'a', 'r', 'd', '.', 'e', 'd', 'u', '/', 'x', 'm', 'l', 'n', 's', '/', 'c', 't', 's', '/'] then v.dropLast else v

theorem namespacesHeader_eq (preds : List (Str × Str)) : namespacesHeader preds =
    (preds.foldl (fun d p => putItem d (nsKey p, p.2).1 (nsKey p, p.2).2) []).map fun b => (b.1, nsFix b.2) := rfl

theorem mem_header {preds : List (Str × Str)} {b : Str × Str} (h : b ∈ namespacesHeader preds) : ∃ p ∈ preds, b = (nsKey p, nsFix p.2) := by
  rw [namespacesHeader_eq] at h
  obtain ⟨x, hx, rfl⟩ := List.mem_map.1 h
  rcases (foldl_put (fun p : Str × Str => (nsKey p, p.2)) preds []).2.1 x hx with h | ⟨p, hp, rfl⟩
  · cases h
  · exact ⟨p, hp, rfl⟩

theorem nsKey_inj {p q : Str × Str} (h : nsKey p = nsKey q) : p.1 = q.1 := by
  unfold nsKey at h
  split at h <;> split at h
  · rename_i h1 h2; rw [h1, h2]
  · simp at h
  · simp at h
  · simpa using h

theorem mem_of_lookup {l : List (Str × Str)} {k v : Str} (h : l.lookup k = some v) : (k, v) ∈ l := by
  induction l with
  | nil => cases h
  | cons x r ih =>
    obtain ⟨a, b⟩ := x
    rw [List.lookup_cons] at h
    split at h
    · rename_i he
      simp at he h
      subst he h
      simp
    · exact List.mem_cons_of_mem _ (ih h)

theorem header_cts {pf : Str} {preds : List (Str × Str)} (h : HeaderSafe pf preds) (attrs : List (Str × Str)) :
    (withHeader attrs (some preds)).lookup (nsKey (pf, [])) = some ctsNamespace := by
  have hv : nsFix ['h', 't', 't', 'p', ':', '/', '/', 'c', 'h', 's', '.', 'h', 'a', 'r', 'v', 'a', 'r', 'd', '.', 'e', 'd', 'u', '/', 'x', 'm', 'l', 'n', 's', '/', 'c', 't', 's', '/'] = ctsNamespace := by decide
  have e : withHeader attrs (some preds) = (namespacesHeader preds).foldl (fun d p => putItem d (id p).1 (id p).2) attrs := rfl
  rw [e]
  refine (foldl_put id (namespacesHeader preds) attrs).2.2.2 _ _ ?_ (.inl ?_)
  · intro b hb hk
    obtain ⟨p, hp, rfl⟩ := mem_header hb
    have := h.only p hp (nsKey_inj hk)
    simp only [id]
    rw [this]; exact hv
  · have : ((preds.foldl (fun d p => putItem d (nsKey p, p.2).1 (nsKey p, p.2).2) []).lookup (nsKey (pf, []))) = some ['h', 't', 't', 'p', ':', '/', '/', 'c', 'h', 's', '.', 'h', 'a', 'r', 'v', 'a', 'r', 'd', '.', 'e', 'd', 'u', '/', 'x', 'm', 'l', 'n', 's', '/', 'c', 't', 's', '/'] := by
      refine (foldl_put (fun p : Str × Str => (nsKey p, p.2)) preds []).2.2.2 _ _ ?_ (.inl ⟨_, h.cts, rfl⟩)
      intro p hp hk
      exact h.only p hp (nsKey_inj hk)
    refine ⟨(nsKey (pf, []), nsFix ['h', 't', 't', 'p', ':', '/', '/', 'c', 'h', 's', '.', 'h', 'a', 'r', 'v', 'a', 'r', 'd', '.', 'e', 'd', 'u', '/', 'x', 'm', 'l', 'n', 's', '/', 'c', 't', 's', '/']), ?_, ?_⟩
    · rw [namespacesHeader_eq]
      exact List.mem_map.2 ⟨_, mem_of_lookup this, rfl⟩
    · rfl

theorem nameSafe_nsKey {p : Str × Str} (h : p.1 = [] ∨ NameSafe p.1) : NameSafe (nsKey p) := by
  unfold nsKey
  split
  · decide
  · rename_i hn
    rcases h with h | h
    · exact absurd h hn
    · refine ⟨by simp, fun c hc hm => ?_⟩
      rcases List.mem_append.1 hm with hm | hm
      · have : ∀ c ∈ [' ', '=', '>', '<', '/', '"', '&', '\t', '\n', '\r'], c ∉ ['x', 'm', 'l', 'n', 's', ':'] := by decide
        exact this c hc hm
      · exact h.2 c hc hm

theorem attrSafe_nsFix {v : Str} (h : AttrSafe v) : AttrSafe (nsFix v) := by
  unfold nsFix
  split
  · intro c hc hm; exact h c hc (List.dropLast_subset _ hm)
  · exact h

theorem tagSafe_header {name : Str} {attrs preds : List (Str × Str)} {pf : Str} (ha : TagSafe name attrs) (h : HeaderSafe pf preds) :
    TagSafe name (withHeader attrs (some preds)) := by
  have e : withHeader attrs (some preds) = (namespacesHeader preds).foldl (fun d p => putItem d (id p).1 (id p).2) attrs := rfl
  rw [e]
  obtain ⟨h1, h2, _⟩ := foldl_put id (namespacesHeader preds) attrs
  refine ⟨ha.1, h1 ha.2.1, ?_⟩
  intro a hm
  rcases h2 a hm with hm | ⟨p, hp, rfl⟩
  · exact ha.2.2 a hm
  · obtain ⟨q, hq, rfl⟩ := mem_header hp
    exact ⟨nameSafe_nsKey (h.safe q hq).1, attrSafe_nsFix (h.safe q hq).2⟩

/-- Namespaces that are not asked for, or can be written. -/
def NsSafe (pf : Str) : Option (List (Str × Str)) → Prop
  | none => True
  | some preds => HeaderSafe pf preds

theorem tagSafe_withHeader {name : Str} {attrs : List (Str × Str)} {ns : Option (List (Str × Str))} {pf : Str} (ha : TagSafe name attrs) (h : NsSafe pf ns) :
    TagSafe name (withHeader attrs ns) := by
  cases ns with
  | none => exact ha
  | some p => exact tagSafe_header ha h

theorem withHeader_get (attrs : List (Str × Str)) (ns : Option (List (Str × Str))) {k : Str} (hk : (['x', 'm', 'l', 'n', 's'].isPrefixOf k) = false) :
    (withHeader attrs ns).lookup k = attrs.lookup k := by
  cases ns with
  | none => rfl
  | some preds =>
    have e : withHeader attrs (some preds) = (namespacesHeader preds).foldl (fun d p => putItem d (id p).1 (id p).2) attrs := rfl
    rw [e]
    refine (foldl_put id (namespacesHeader preds) attrs).2.2.1 k ?_
    intro b hb he
    obtain ⟨p, _, rfl⟩ := mem_header hb
    simp only [id] at he
    subst he
    unfold nsKey at hk
    split at hk
    · revert hk; decide
    · rw [show ['x', 'm', 'l', 'n', 's', ':'] ++ p.1 = ['x', 'm', 'l', 'n', 's'] ++ (':' :: p.1) by simp, isPrefixOf_append] at hk
      cases hk

/-! ### Parsing -/

theorem filter_tags {α : Type} (l : List α) (f : α → Node) (t : Str) (b : Bool) (h : ∀ x ∈ l, (decide ((f x).tag = t)) = b) :
    (l.map f).filter (fun c => decide (c.tag = t)) = if b then l.map f else [] := by
  induction l with
  | nil => simp
  | cons x r ih =>
    have ih := ih fun y hy => h y (by simp [hy])
    have hx := h x (by simp)
    rw [List.map_cons, List.filter_cons, hx, ih]
    cases b <;> simp

theorem addOnce_new {α : Type} [DecidableEq α] {l : List α} {x : α} (h : x ∉ l) : addOnce l x = l ++ [x] := by simp [addOnce, h]

theorem parseLits_trees (tag : Str) (l acc : List Lit) (hn : (acc ++ l).Nodup) (h : ∀ x ∈ l, LitSafe x) :
    (l.map fun x => withTail (litTree tag x) ['\n']).foldl parseLit acc = acc ++ l := by
  induction l generalizing acc with
  | nil => simp
  | cons x r ih =>
    obtain ⟨⟨lg, h1, _⟩, h3, _⟩ := h x (by simp)
    have e : (withTail (litTree tag x) ['\n']).get ['x', 'm', 'l', ':', 'l', 'a', 'n', 'g'] = some lg := by
      simp [withTail, litTree, Node.get, Node.attrs, h1, valueText]
    have e2 : literalText (withTail (litTree tag x) ['\n']) = x.2 := by
      simp [withTail, litTree, literalText, Node.text, h3]
    rw [List.map_cons, List.foldl_cons, parseLit, e, e2]
    have hx : ((some lg, x.2) : Lit) = x := by rw [← h1]
    dsimp only
    rw [hx]
    have hnx : x ∉ acc := by
      intro hm
      rw [List.nodup_append] at hn
      exact hn.2.2 x hm x (by simp) rfl
    rw [addOnce_new hnx, ih (acc ++ [x]) (by simpa using hn) fun y hy => h y (by simp [hy])]
    simp

theorem parseAbout_trees (l acc : List Str) (hn : (acc ++ l).Nodup) :
    (l.map fun u => withTail (aboutTree u) ['\n']).foldl (fun l c => addOnce l (valueText (c.get ['u', 'r', 'n']))) acc = acc ++ l := by
  induction l generalizing acc with
  | nil => simp
  | cons x r ih =>
    have e : valueText ((withTail (aboutTree x) ['\n']).get ['u', 'r', 'n']) = x := by
      simp [withTail, aboutTree, Node.get, Node.attrs, valueText]
    rw [List.map_cons, List.foldl_cons, e]
    have hnx : x ∉ acc := by
      intro hm
      rw [List.nodup_append] at hn
      exact hn.2.2 x hm x (by simp) rfl
    rw [addOnce_new hnx, ih (acc ++ [x]) (by simpa using hn)]
    simp

theorem tag_lit (tag : Str) (x : Lit) (l : Str) : (withTail (litTree tag x) l).tag = tag := rfl
theorem tag_about (x l : Str) : (withTail (aboutTree x) l).tag = ['t', 'i', ':', 'a', 'b', 'o', 'u', 't'] := rfl

theorem kids_label (t : XText) : (textKids t).filter (fun c => decide (c.tag = ['t', 'i', ':', 'l', 'a', 'b', 'e', 'l'])) =
    t.labels.map fun x => withTail (litTree ['t', 'i', ':', 'l', 'a', 'b', 'e', 'l'] x) ['\n'] := by
  unfold textKids
  rw [List.filter_append, List.filter_append, List.filter_append, filter_tags _ _ _ true (by intro x _; rfl),
    filter_tags _ _ _ false (by intro x _; rfl), filter_tags _ _ _ false (by intro x _; rfl)]
  by_cases hc : t.cite = [] <;> simp [onlineTree, hc, Node.tag]

theorem kids_description (t : XText) : (textKids t).filter (fun c => decide (c.tag = ['t', 'i', ':', 'd', 'e', 's', 'c', 'r', 'i', 'p', 't', 'i', 'o', 'n'])) =
    t.descriptions.map fun x => withTail (litTree ['t', 'i', ':', 'd', 'e', 's', 'c', 'r', 'i', 'p', 't', 'i', 'o', 'n'] x) ['\n'] := by
  unfold textKids
  rw [List.filter_append, List.filter_append, List.filter_append, filter_tags _ _ _ false (by intro x _; rfl),
    filter_tags _ _ _ true (by intro x _; rfl), filter_tags _ _ _ false (by intro x _; rfl)]
  by_cases hc : t.cite = [] <;> simp [onlineTree, hc, Node.tag]

theorem kids_about (t : XText) : (textKids t).filter (fun c => decide (c.tag = ['t', 'i', ':', 'a', 'b', 'o', 'u', 't'])) =
    t.about.map fun u => withTail (aboutTree u) ['\n'] := by
  unfold textKids
  rw [List.filter_append, List.filter_append, List.filter_append, filter_tags _ _ _ false (by intro x _; rfl),
    filter_tags _ _ _ false (by intro x _; rfl), filter_tags _ _ _ true (by intro x _; rfl)]
  by_cases hc : t.cite = [] <;> simp [onlineTree, hc, Node.tag]

theorem kids_online (t : XText) : (textKids t).filter (fun c => decide (c.tag = ['t', 'i', ':', 'o', 'n', 'l', 'i', 'n', 'e'])) = onlineTree t.cite := by
  unfold textKids
  rw [List.filter_append, List.filter_append, List.filter_append, filter_tags _ _ _ false (by intro x _; rfl),
    filter_tags _ _ _ false (by intro x _; rfl), filter_tags _ _ _ false (by intro x _; rfl)]
  by_cases hc : t.cite = [] <;> simp [onlineTree, hc, Node.tag]

theorem digit_not_quote {k : Nat} {c : Char} (h : c ∈ natStr k) : c ≠ '"' := by
  rintro rfl; exact not_mem_natStr k (by decide) h

theorem numbered_quotes (k : Nat) (s : Str) : numbered k (singleQuotes s) = singleQuotes (numbered k s) := by
  induction s generalizing k with
  | nil => rfl
  | cons c r ih =>
    have e : ∀ (a : Char) (x : Str), singleQuotes (a :: x) = (if a = '"' then '\'' else a) :: singleQuotes x := fun _ _ => rfl
    have ea : ∀ (a b : Str), singleQuotes (a ++ b) = singleQuotes a ++ singleQuotes b := fun a b => by simp [singleQuotes]
    have en : singleQuotes (natStr k) = natStr k := by
      unfold singleQuotes
      conv => rhs; rw [← List.map_id (natStr k)]
      apply List.map_congr_left
      intro x hx
      simp [digit_not_quote hx]
    rw [e]
    by_cases h : c = '?'
    · subst h
      have hq : (if ('?' : Char) = '"' then '\'' else '?') = '?' := by decide
      have hd : (if ('$' : Char) = '"' then '\'' else '$') = '$' := by decide
      rw [hq]
      simp only [numbered, if_true]
      rw [ih, List.cons_append, List.cons_append, e, ea, en, hd]
    · by_cases h2 : c = '"'
      · subst h2; simp [numbered, ih, e]
      · simp [numbered, ih, e, h, h2]

theorem shownText_app (p q : List PStep) : shownText (p ++ q) = shownText p ++ shownText q := by simp [shownText]

theorem truthy_of_ne {s : Str} (h : s ≠ []) : truthy (some s) = true := by
  cases s with
  | nil => exact absurd rfl h
  | cons a b => rfl

theorem levelOf_read {l : CiteLevel} (h : LevelSafe l) : levelOf (citeAttrs l) = levelRead l := by
  obtain ⟨_, p, x, hpn, hp, hx, hr, hnum, _⟩ := h
  have e : citeAttrs l = [(['x', 'p', 'a', 't', 'h'], singleQuotes (shownText [x])), (['s', 'c', 'o', 'p', 'e'], singleQuotes (shownText p)), (['l', 'a', 'b', 'e', 'l'], l.name.getD [])] := by
    unfold citeAttrs; rw [level_scope hp hx hr]
  have ne : ∀ {s : Str}, s ≠ [] → singleQuotes s ≠ [] := by intro s hs; simpa [singleQuotes] using hs
  rw [e]
  unfold levelOf
  have l1 : List.lookup ['l', 'a', 'b', 'e', 'l'] [(['x', 'p', 'a', 't', 'h'], singleQuotes (shownText [x])), (['s', 'c', 'o', 'p', 'e'], singleQuotes (shownText p)), (['l', 'a', 'b', 'e', 'l'], l.name.getD [])] = some (l.name.getD []) := by
    simp [List.lookup_cons]
  have l2 : List.lookup ['s', 'c', 'o', 'p', 'e'] [(['x', 'p', 'a', 't', 'h'], singleQuotes (shownText [x])), (['s', 'c', 'o', 'p', 'e'], singleQuotes (shownText p)), (['l', 'a', 'b', 'e', 'l'], l.name.getD [])] = some (singleQuotes (shownText p)) := by
    simp [List.lookup_cons]
  have l3 : List.lookup ['x', 'p', 'a', 't', 'h'] [(['x', 'p', 'a', 't', 'h'], singleQuotes (shownText [x])), (['s', 'c', 'o', 'p', 'e'], singleQuotes (shownText p)), (['l', 'a', 'b', 'e', 'l'], l.name.getD [])] = some (singleQuotes (shownText [x])) := by
    simp [List.lookup_cons]
  rw [l1, l2, l3, if_pos ⟨truthy_of_ne (ne (shownText_ne hpn)), truthy_of_ne (ne (shownText_ne (by simp)))⟩]
  unfold levelRead
  rw [hr]
  simp only [Option.getD_some, Option.map_some]
  congr 2
  rw [fromScopeXpath_eq]
  have : singleQuotes (shownText p) ++ singleQuotes (shownText [x]) = singleQuotes (shownText (p ++ [x])) := by
    rw [shownText_app]; simp [singleQuotes]
  rw [this, numbered_quotes, ← hnum]
  rfl

theorem ingest_cite {c : List CiteLevel} (h : ∀ l ∈ c, LevelSafe l) : ingestFirst (citeTree c) = c.map levelRead := by
  induction c with
  | nil => rfl
  | cons l r ih =>
    rw [citeTree, ingestFirst]
    rw [if_pos (by simp [Node.tag]), ingestFrom, ih fun x hx => h x (by simp [hx]), levelOf_read (h l (by simp))]
    rfl

theorem ingest_text {c : List CiteLevel} (h : ∀ l ∈ c, LevelSafe l) :
    ingestFirst (((onlineTree c).flatMap (namedKids ['t', 'i', ':', 'c', 'i', 't', 'a', 't', 'i', 'o', 'n', 'M', 'a', 'p', 'p', 'i', 'n', 'g'])).flatMap (namedKids ['t', 'i', ':', 'c', 'i', 't', 'a', 't', 'i', 'o', 'n'])) = c.map levelRead := by
  unfold onlineTree
  split
  · rename_i hc; subst hc; rfl
  · rw [← ingest_cite h]
    congr 1
    simp only [List.flatMap_cons, List.flatMap_nil, List.append_nil, namedKids, Node.kids]
    rw [List.filter_cons, if_pos (by simp [Node.tag]), List.filter_nil]
    simp only [List.flatMap_cons, List.flatMap_nil, List.append_nil, namedKids, Node.kids]
    cases c with
    | nil => rfl
    | cons l r => rw [citeTree, List.filter_cons, if_pos (by simp [Node.tag]), List.filter_nil]

theorem parseId_of {n : Node} {id : Str} (h : n.get ['u', 'r', 'n'] = some id) (hs : IdSafe id) : parseId n = .ok id := by
  obtain ⟨_, u, hu⟩ := hs
  rw [parseId, h]; dsimp only; rw [hu]

theorem parseText_tree {ns : Option (List (Str × Str))} {parent : Option Str} {lang : Str} {t : XText} (h : TextSafe lang t) (l : Str) :
    parseText t.kind (some lang) (withTail (textTree ns parent t) l) = .ok (textRead t) := by
  have g1 : (withTail (textTree ns parent t) l).get ['u', 'r', 'n'] = some t.id := by
    simp only [withTail, textTree, Node.get, Node.attrs]
    rw [withHeader_get _ _ (by decide)]
    simp [List.lookup_cons]
  have g2 : (withTail (textTree ns parent t) l).get ['x', 'm', 'l', ':', 'l', 'a', 'n', 'g'] = some t.lang := by
    simp only [withTail, textTree, Node.get, Node.attrs]
    rw [withHeader_get _ _ (by decide)]
    simp [List.lookup_cons]
  have gk : ∀ tag, namedKids tag (withTail (textTree ns parent t) l) = (textKids t).filter fun c => decide (c.tag = tag) := fun _ => rfl
  rw [parseText, parseId_of g1 h.id]
  dsimp only
  rw [g2]
  unfold parseLits ingestOnline
  simp only [gk, kids_label, kids_description, kids_about, kids_online]
  rw [parseLits_trees _ _ [] (by simpa using h.labels.1) h.labels.2, parseLits_trees _ _ [] (by simpa using h.descriptions.1) h.descriptions.2,
    parseAbout_trees _ [] (by simpa using h.about.1), ingest_text h.cite]
  unfold textRead
  simp only [List.nil_append]
  congr 2
  split
  · rename_i hk; rw [h.edition hk]; rfl
  · rfl

theorem parseInto_trees {α β : Type} (key : β → Str) (f : Node → Except PyErr β) (tree : α → Node) (g : α → β) (l : List α) (acc : List β)
    (h : ∀ x ∈ l, f (tree x) = .ok (g x)) (hn : ((acc ++ l.map g).map key).Nodup) :
    parseInto key f acc (l.map tree) = .ok (acc ++ l.map g) := by
  induction l generalizing acc with
  | nil => simp [parseInto]
  | cons x r ih =>
    rw [List.map_cons, parseInto, h x (by simp)]
    dsimp only
    have hx : key (g x) ∉ acc.map key := by
      intro hm
      simp only [List.map_append, List.map_cons] at hn
      rw [List.nodup_append] at hn
      exact hn.2.2 _ hm _ (by simp) rfl
    rw [addKeyed, if_neg hx, ih _ (fun y hy => h y (by simp [hy])) (by simpa using hn)]
    simp

theorem kindTag_inj {a b : Kind} : ['t', 'i', ':'] ++ kindTag a = ['t', 'i', ':'] ++ kindTag b ↔ a = b := by cases a <;> cases b <;> decide

theorem kindTag_ne_title (a : Kind) : ['t', 'i', ':'] ++ kindTag a ≠ ['t', 'i', ':', 't', 'i', 't', 'l', 'e'] := by cases a <;> decide

theorem kids_texts (w : XWork) (k : Kind) (hk : k ≠ .plain) :
    (workKids w).filter (fun c => decide (c.tag = ['t', 'i', ':'] ++ kindTag k)) =
      (ofKind k w.texts).map fun t => withTail (textTree none (some w.id) t) ['\n'] := by
  unfold workKids ofKind
  rw [List.filter_append, filter_tags _ _ _ false (by intro x _; cases k <;> first | rfl | exact absurd rfl hk), List.filter_map]
  simp only [Bool.false_eq_true, if_false, List.nil_append]
  congr 1
  apply List.filter_congr
  intro t _
  simp only [Function.comp, withTail, textTree, Node.tag]
  exact decide_eq_decide.2 kindTag_inj

theorem ids_ofKind (l : List XText) (hn : (l.map XText.id).Nodup) :
    (((ofKind .edition l ++ ofKind .translation l ++ ofKind .commentary l).map textRead).map XText.id).Nodup := by
  have e : ∀ l : List XText, (l.map textRead).map XText.id = l.map XText.id := by intro l; simp [textRead, Function.comp_def]
  rw [e]
  have nd : ∀ k, ((ofKind k l).map XText.id).Nodup := fun k => List.Nodup.sublist (List.Sublist.map _ List.filter_sublist) hn
  have inj : ∀ a ∈ l, ∀ b ∈ l, a.id = b.id → a = b := by
    intro a ha b hb hab
    induction l with
    | nil => cases ha
    | cons x r ih =>
      rw [List.map_cons, List.nodup_cons] at hn
      rcases List.mem_cons.1 ha with rfl | ha' <;> rcases List.mem_cons.1 hb with rfl | hb'
      · rfl
      · exact absurd (List.mem_map.2 ⟨b, hb', hab.symm⟩) hn.1
      · exact absurd (List.mem_map.2 ⟨a, ha', hab⟩) hn.1
      · exact ih hn.2 (fun k => List.Nodup.sublist (List.Sublist.map _ List.filter_sublist) hn.2) ha' hb'
  have dis : ∀ k k', k ≠ k' → ∀ a ∈ (ofKind k l).map XText.id, ∀ b ∈ (ofKind k' l).map XText.id, a ≠ b := by
    intro k k' hkk a ha b hb hab
    obtain ⟨x, hx, rfl⟩ := List.mem_map.1 ha
    obtain ⟨y, hy, rfl⟩ := List.mem_map.1 hb
    simp only [ofKind, List.mem_filter, decide_eq_true_eq] at hx hy
    have := inj x hx.1 y hy.1 hab
    subst this
    exact hkk (hx.2.symm.trans hy.2)
  rw [List.map_append, List.map_append, List.nodup_append, List.nodup_append]
  refine ⟨⟨nd _, nd _, dis _ _ (by decide)⟩, nd _, ?_⟩
  intro a ha b hb
  rcases List.mem_append.1 ha with ha | ha
  · exact dis _ _ (by decide) a ha b hb
  · exact dis _ _ (by decide) a ha b hb

theorem parseTexts_tree {w : XWork} (h : WorkSafe w) (ns : Option (List (Str × Str))) (parent : Option Str) (l : Str) :
    parseTexts w.lang (withTail (workTree ns parent w) l) = .ok (workRead w).texts := by
  have gk : ∀ tag, namedKids tag (withTail (workTree ns parent w) l) = (workKids w).filter fun c => decide (c.tag = tag) := fun _ => rfl
  have hp : ∀ k, k ≠ .plain → ∀ t ∈ ofKind k w.texts, parseText k (some w.lang) (withTail (textTree none (some w.id) t) ['\n']) = .ok (textRead t) := by
    intro k _ t ht
    simp only [ofKind, List.mem_filter, decide_eq_true_eq] at ht
    have := parseText_tree (ns := none) (parent := some w.id) (h.texts t ht.1) ['\n']
    rw [ht.2] at this
    exact this
  have nd := ids_ofKind w.texts h.ids
  simp only [List.map_append] at nd
  have nd2 := (List.nodup_append.1 nd).1
  have nd1 := (List.nodup_append.1 nd2).1
  have k1 : (workKids w).filter (fun c => decide (c.tag = ['t', 'i', ':', 'e', 'd', 'i', 't', 'i', 'o', 'n'])) =
      (ofKind .edition w.texts).map fun t => withTail (textTree none (some w.id) t) ['\n'] := kids_texts w .edition (by decide)
  have k2 : (workKids w).filter (fun c => decide (c.tag = ['t', 'i', ':', 't', 'r', 'a', 'n', 's', 'l', 'a', 't', 'i', 'o', 'n'])) =
      (ofKind .translation w.texts).map fun t => withTail (textTree none (some w.id) t) ['\n'] := kids_texts w .translation (by decide)
  have k3 : (workKids w).filter (fun c => decide (c.tag = ['t', 'i', ':', 'c', 'o', 'm', 'm', 'e', 'n', 't', 'a', 'r', 'y'])) =
      (ofKind .commentary w.texts).map fun t => withTail (textTree none (some w.id) t) ['\n'] := kids_texts w .commentary (by decide)
  unfold parseTexts
  simp only [gk, k1, k2, k3]
  rw [parseInto_trees XText.id _ _ textRead _ [] (hp .edition (by decide)) (by simpa using nd1)]
  dsimp only
  rw [parseInto_trees XText.id _ _ textRead _ _ (hp .translation (by decide)) (by simpa using nd2)]
  dsimp only
  rw [parseInto_trees XText.id _ _ textRead _ _ (hp .commentary (by decide)) (by simpa using nd)]
  simp [workRead]

theorem parseWork_tree {w : XWork} (h : WorkSafe w) (ns : Option (List (Str × Str))) (parent : Option Str) (l : Str) :
    parseWork (withTail (workTree ns parent w) l) = .ok (workRead w) := by
  have g1 : (withTail (workTree ns parent w) l).get ['u', 'r', 'n'] = some w.id := by
    simp only [withTail, workTree, Node.get, Node.attrs]
    rw [withHeader_get _ _ (by decide)]
    simp [List.lookup_cons]
  have g2 : (withTail (workTree ns parent w) l).get ['x', 'm', 'l', ':', 'l', 'a', 'n', 'g'] = some w.lang := by
    simp only [withTail, workTree, Node.get, Node.attrs]
    rw [withHeader_get _ _ (by decide)]
    simp [List.lookup_cons]
  have gk : namedKids ['t', 'i', ':', 't', 'i', 't', 'l', 'e'] (withTail (workTree ns parent w) l) = w.titles.map fun x => withTail (litTree ['t', 'i', ':', 't', 'i', 't', 'l', 'e'] x) ['\n'] := by
    show (workKids w).filter _ = _
    unfold workKids
    rw [List.filter_append, filter_tags _ _ _ true (by intro x _; rfl), filter_tags _ _ _ false (by
      intro t _; exact decide_eq_false (kindTag_ne_title t.kind))]
    simp
  rw [parseWork, parseId_of g1 h.id]
  dsimp only
  rw [g2]
  dsimp only [valueText]
  rw [parseTexts_tree h]
  dsimp only
  unfold parseLits
  rw [gk, parseLits_trees _ _ [] (by simpa using h.titles.1) h.titles.2]
  rfl

theorem parseGroup_tree {g : XGroup} (h : GroupSafe g) (ns : Option (List (Str × Str))) (l : Str) :
    parseGroup (withTail (groupTree ns g) l) = .ok (groupRead g) := by
  have g1 : (withTail (groupTree ns g) l).get ['u', 'r', 'n'] = some g.id := by
    simp only [withTail, groupTree, Node.get, Node.attrs]
    rw [withHeader_get _ _ (by decide)]
    simp [List.lookup_cons]
  have gk : namedKids ['t', 'i', ':', 'g', 'r', 'o', 'u', 'p', 'n', 'a', 'm', 'e'] (withTail (groupTree ns g) l) = g.names.map fun x => withTail (litTree ['t', 'i', ':', 'g', 'r', 'o', 'u', 'p', 'n', 'a', 'm', 'e'] x) ['\n'] := by
    show (groupKids g).filter _ = _
    unfold groupKids
    rw [List.filter_append, filter_tags _ _ _ true (by intro x _; rfl), filter_tags _ _ _ false (by intro w _; rfl)]
    simp
  have gw : namedKids ['t', 'i', ':', 'w', 'o', 'r', 'k'] (withTail (groupTree ns g) l) = g.works.map fun w => withTail (workTree none (some g.id) w) ['\n'] := by
    show (groupKids g).filter _ = _
    unfold groupKids
    rw [List.filter_append, filter_tags _ _ _ false (by intro x _; rfl), filter_tags _ _ _ true (by intro w _; rfl)]
    simp
  rw [parseGroup, parseId_of g1 h.id]
  dsimp only
  rw [gw, parseInto_trees XWork.id _ _ workRead _ [] (fun w hw => parseWork_tree (h.works w hw) _ _ _) (by
    have : ((g.works.map workRead).map XWork.id) = g.works.map XWork.id := by simp [workRead, Function.comp_def]
    rw [List.nil_append, this]; exact h.ids)]
  dsimp only
  unfold parseLits
  rw [gk, parseLits_trees _ _ [] (by simpa using h.names.1) h.names.2]
  rfl

/-! ### All elements of the tree -/

/-- No inventory and no textgroup among the elements. -/
def Inner (n : Node) : Prop := ∀ c ∈ n.allNodes, c.tag ≠ ['t', 'i', ':', 'T', 'e', 'x', 't', 'I', 'n', 'v', 'e', 'n', 't', 'o', 'r', 'y'] ∧ c.tag ≠ ['t', 'i', ':', 't', 'e', 'x', 't', 'g', 'r', 'o', 'u', 'p']

theorem mem_allNodesList {ks : List Node} {c : Node} (h : c ∈ allNodesList ks) : ∃ k ∈ ks, c ∈ k.allNodes := by
  induction ks with
  | nil => simp [allNodesList] at h
  | cons k r ih =>
    rw [allNodesList, List.mem_append] at h
    rcases h with h | h
    · exact ⟨k, by simp, h⟩
    · obtain ⟨x, hx, hc⟩ := ih h
      exact ⟨x, by simp [hx], hc⟩

theorem inner_mk {t : Str} {a : List (Str × Str)} {x : Str} {ks : List Node} {l : Str} (ht : t ≠ ['t', 'i', ':', 'T', 'e', 'x', 't', 'I', 'n', 'v', 'e', 'n', 't', 'o', 'r', 'y'] ∧ t ≠ ['t', 'i', ':', 't', 'e', 'x', 't', 'g', 'r', 'o', 'u', 'p'])
    (hk : ∀ k ∈ ks, Inner k) : Inner (.mk t a x ks l) := by
  intro c hc
  rw [Node.allNodes, List.mem_cons] at hc
  rcases hc with rfl | hc
  · exact ht
  · obtain ⟨k, hk', hc⟩ := mem_allNodesList hc
    exact hk k hk' c hc

theorem inner_cite (c : List CiteLevel) : ∀ n ∈ citeTree c, Inner n := by
  induction c with
  | nil => intro n hn; cases hn
  | cons l r ih =>
    intro n hn
    simp only [citeTree, List.mem_singleton] at hn
    subst hn
    exact inner_mk (by decide) ih

theorem inner_text (ns : Option (List (Str × Str))) (parent : Option Str) (t : XText) (l : Str) : Inner (withTail (textTree ns parent t) l) := by
  refine inner_mk (by cases t.kind <;> decide) ?_
  intro k hk
  simp only [textKids, List.mem_append, List.mem_map] at hk
  rcases hk with ((⟨x, _, rfl⟩ | ⟨x, _, rfl⟩) | ⟨x, _, rfl⟩) | hk
  · exact inner_mk (by decide) (by intro k hk; cases hk)
  · exact inner_mk (by decide) (by intro k hk; cases hk)
  · exact inner_mk (by decide) (by intro k hk; cases hk)
  · unfold onlineTree at hk
    split at hk
    · cases hk
    · simp only [List.mem_singleton] at hk
      subst hk
      refine inner_mk (by decide) ?_
      intro k hk
      simp only [List.mem_singleton] at hk
      subst hk
      exact inner_mk (by decide) (inner_cite _)

theorem inner_work (ns : Option (List (Str × Str))) (parent : Option Str) (w : XWork) (l : Str) : Inner (withTail (workTree ns parent w) l) := by
  refine inner_mk (by decide) ?_
  intro k hk
  simp only [workKids, List.mem_append, List.mem_map] at hk
  rcases hk with ⟨x, _, rfl⟩ | ⟨x, _, rfl⟩
  · exact inner_mk (by decide) (by intro k hk; cases hk)
  · exact inner_text _ _ _ _

theorem allNodes_group (ns : Option (List (Str × Str))) (g : XGroup) (l : Str) :
    (withTail (groupTree ns g) l).allNodes = withTail (groupTree ns g) l :: allNodesList (groupKids g) ∧
    ∀ c ∈ allNodesList (groupKids g), c.tag ≠ ['t', 'i', ':', 'T', 'e', 'x', 't', 'I', 'n', 'v', 'e', 'n', 't', 'o', 'r', 'y'] ∧ c.tag ≠ ['t', 'i', ':', 't', 'e', 'x', 't', 'g', 'r', 'o', 'u', 'p'] := by
  refine ⟨by rw [groupTree, withTail, Node.allNodes], ?_⟩
  intro c hc
  obtain ⟨k, hk, hc⟩ := mem_allNodesList hc
  simp only [groupKids, List.mem_append, List.mem_map] at hk
  rcases hk with ⟨x, _, rfl⟩ | ⟨x, _, rfl⟩
  · exact inner_mk (by decide) (by intro k hk; cases hk) c hc
  · exact inner_work _ _ _ _ c hc

theorem filter_groups (gs : List XGroup) :
    (allNodesList (gs.map fun g => withTail (groupTree none g) ['\n'])).filter (fun c => decide (c.tag = ['t', 'i', ':', 't', 'e', 'x', 't', 'g', 'r', 'o', 'u', 'p'])) =
      gs.map fun g => withTail (groupTree none g) ['\n'] := by
  induction gs with
  | nil => rfl
  | cons g r ih =>
    obtain ⟨h1, h2⟩ := allNodes_group none g ['\n']
    rw [List.map_cons, allNodesList, List.filter_append, ih, h1, List.filter_cons, if_pos (by
      simp [groupTree, withTail, Node.tag])]
    rw [List.filter_eq_nil_iff.2 (fun c hc => by simp [(h2 c hc).2])]
    rfl

theorem parseInv_tree {i : XInv} (h : InvSafe i) (ns : Option (List (Str × Str))) (l : Str) :
    parseInv (withTail (invTree ns i) l) = .ok (invRead i) := by
  have e : (withTail (invTree ns i) l).allNodes = withTail (invTree ns i) l :: allNodesList (i.groups.map fun g => withTail (groupTree none g) ['\n']) := by
    rw [invTree, withTail, Node.allNodes]
  have t : (withTail (invTree ns i) l).tag = ['t', 'i', ':', 'T', 'e', 'x', 't', 'I', 'n', 'v', 'e', 'n', 't', 'o', 'r', 'y'] := rfl
  have g1 : ((withTail (invTree ns i) l).get ['t', 'i', 'i', 'd']).getD [] = i.id := by
    simp only [withTail, invTree, Node.get, Node.attrs]
    rw [withHeader_get _ _ (by decide)]
    split
    · rename_i hi; simp [hi]
    · simp [List.lookup_cons]
  rw [parseInv, e, List.filter_cons, if_pos (by simp [t])]
  dsimp only
  rw [List.filter_cons, if_neg (by rw [t]; decide), filter_groups,
    parseInto_trees XGroup.id _ _ groupRead _ [] (fun g hg => parseGroup_tree (h.groups g hg) _ _) (by
      have : ((i.groups.map groupRead).map XGroup.id) = i.groups.map XGroup.id := by simp [groupRead, Function.comp_def]
      rw [List.nil_append, this]; exact h.ids)]
  dsimp only
  rw [g1]
  rfl

end Verif.Lemmas
