import Verif.Lemmas.StructuredMetadata
import Verif.Props.InventoryXml
namespace Verif.Lemmas
open Verif.Py Verif.Model Verif.Spec

/-! ### The trees with structured metadata -/

/-- The block of one object, on its line. -/
def blockLine (env : Str → Option Str) (S : Store) (id : Str) : Node := withTail (blockTree env S.qn (blockOf S id)) ['\n']

def textTreeS (env : Str → Option Str) (S : Store) (ns : Option (List (Str × Str))) (parent : Option Str) (t : XText) : Node :=
  .mk (['t', 'i', ':'] ++ kindTag t.kind) (withHeader ([(['u', 'r', 'n'], t.id), (['x', 'm', 'l', ':', 'l', 'a', 'n', 'g'], t.lang)] ++ parentAttr ['w', 'o', 'r', 'k', 'U', 'r', 'n'] parent) (withCpt ns)) ['\n']
    (textKids t ++ [blockLine env S t.id]) []

def workKidsS (env : Str → Option Str) (S : Store) (w : XWork) : List Node :=
  w.titles.map (fun x => withTail (litTree ['t', 'i', ':', 't', 'i', 't', 'l', 'e'] x) ['\n']) ++ [blockLine env S w.id] ++
  w.texts.map (fun t => withTail (textTreeS env S none (some w.id) t) ['\n'])

def workTreeS (env : Str → Option Str) (S : Store) (ns : Option (List (Str × Str))) (parent : Option Str) (w : XWork) : Node :=
  .mk ['t', 'i', ':', 'w', 'o', 'r', 'k'] (withHeader ([(['u', 'r', 'n'], w.id), (['x', 'm', 'l', ':', 'l', 'a', 'n', 'g'], w.lang)] ++ parentAttr ['g', 'r', 'o', 'u', 'p', 'U', 'r', 'n'] parent) (withCpt ns)) ['\n'] (workKidsS env S w) []

def groupKidsS (env : Str → Option Str) (S : Store) (g : XGroup) : List Node :=
  g.names.map (fun x => withTail (litTree ['t', 'i', ':', 'g', 'r', 'o', 'u', 'p', 'n', 'a', 'm', 'e'] x) ['\n']) ++ [blockLine env S g.id] ++
  g.works.map (fun w => withTail (workTreeS env S none (some g.id) w) ['\n'])

def groupTreeS (env : Str → Option Str) (S : Store) (ns : Option (List (Str × Str))) (g : XGroup) : Node :=
  .mk ['t', 'i', ':', 't', 'e', 'x', 't', 'g', 'r', 'o', 'u', 'p'] (withHeader [(['u', 'r', 'n'], g.id)] (withCpt ns)) ['\n'] (groupKidsS env S g) []

def invTreeS (env : Str → Option Str) (S : Store) (ns : Option (List (Str × Str))) (i : XInv) : Node :=
  .mk ['t', 'i', ':', 'T', 'e', 'x', 't', 'I', 'n', 'v', 'e', 'n', 't', 'o', 'r', 'y'] (withHeader (if i.id = [] then [] else [(['t', 'i', 'i', 'd'], i.id)]) (withCpt ns)) ['\n']
    ([blockLine env S i.id] ++ i.groups.map fun g => withTail (groupTreeS env S none g) ['\n']) []

/-! ### They are what the export writes -/

/-- An element of the export: it carries the tree, with these attributes. -/
def WritesTree (env : Str → Option Str) (attrs : List (Str × Str)) (s : Str) (n : Node) : Prop :=
  ∃ w, Lemmas.Writes s w ∧ w.attrs = attrs ∧ resolveNode env w = some n

theorem WritesTree.carries {env : Str → Option Str} {attrs : List (Str × Str)} {s : Str} {n : Node} (h : WritesTree env attrs s n) (hd : NoDecl attrs) :
    Carries env s n := by
  obtain ⟨w, h1, h2, h3⟩ := h
  exact ⟨w, h1, h2 ▸ hd, h3⟩

theorem carries_lits {env : Str → Option Str} {pf : Str} (hpf : PrefixSafe pf) (he : env pf = some ctsNamespace) {name : Str} (hn : NameSafe name)
    (hc : ':' ∉ name) {l : List Lit} (h : ∀ x ∈ l, LitSafe x) :
    CarriesAll env (exportLits (ctsName pf name) l) (l.map fun x => withTail (litTree (['t', 'i', ':'] ++ name) x) ['\n']) := by
  refine carriesAll_retag hpf he (writes_lits (pf := pf) (tag := ['t', 'i', ':'] ++ name) (nameSafe_cts hpf hn) h) ?_
  apply ctsTrees_of
  intro n hm
  obtain ⟨x, _, rfl⟩ := List.mem_map.1 hm
  exact ctsTree_lit ⟨name, hc, rfl⟩ _ _

theorem carries_about {env : Str → Option Str} {pf : Str} (hpf : PrefixSafe pf) (he : env pf = some ctsNamespace) {l : List Str} (h : ∀ u ∈ l, AttrSafe u) :
    CarriesAll env (l.map fun u => makeXmlNode (ctsName pf ['a', 'b', 'o', 'u', 't']) false (some [(['u', 'r', 'n'], u)]) [] true []) (l.map fun u => withTail (aboutTree u) ['\n']) := by
  refine carriesAll_retag (pf := pf) hpf he ?_ ?_
  · rw [List.map_map]
    simp only [Function.comp_def, retag_withTail]
    apply writesAll_map
    intro u hu
    refine writes_complete ⟨nameSafe_cts hpf (by decide), by simp, ?_⟩ (by simp) readsList_nil
    intro a ha
    simp only [List.mem_singleton] at ha
    subst ha
    exact ⟨by dsimp only; decide, h u hu⟩
  · apply ctsTrees_of
    intro n hm
    obtain ⟨x, _, rfl⟩ := List.mem_map.1 hm
    refine ⟨?_, ?_⟩
    · intro b hb
      simp only [withTail, aboutTree, Node.attrs, List.mem_singleton] at hb
      subst hb; rfl
    · rw [aboutTree, withTail, CtsTree]
      refine ⟨⟨['a', 'b', 'o', 'u', 't'], by decide, rfl⟩, ?_, by rw [CtsTrees]; trivial⟩
      intro b hb
      simp only [List.mem_singleton] at hb
      subst hb
      show PlainAttr ['u', 'r', 'n']; decide

theorem carries_online {env : Str → Option Str} {pf : Str} (hpf : PrefixSafe pf) (he : env pf = some ctsNamespace) {c : List CiteLevel}
    (h : ∀ l ∈ c, LevelSafe l) : ∃ ss, exportOnline pf c = .ok ss ∧ CarriesAll env ss (onlineTree c) := by
  obtain ⟨ss, h1, h2⟩ := writes_online hpf h
  exact ⟨ss, h1, carriesAll_retag hpf he h2 (ctsTrees_of (ctsTree_online c))⟩

theorem writes_textS {env : Str → Option Str} {S : Store} {preds : List (Str × Str)} (hs : StoreSafe S preds) (he : EnvFor S preds env)
    {ns : Option (List (Str × Str))} {parent : Option Str} {lang : Str} {t : XText} (h : TextSafe lang t) (hn : NodeSafe S preds t.id)
    (ha : TagSafe (ctsName S.pf (kindTag t.kind)) (withHeader ([(['u', 'r', 'n'], t.id), (['x', 'm', 'l', ':', 'l', 'a', 'n', 'g'], t.lang)] ++ parentAttr ['w', 'o', 'r', 'k', 'U', 'r', 'n'] parent) (withCpt ns))) :
    ∃ s, exportTextS S ns parent t = .ok s ∧
      WritesTree env (withHeader ([(['u', 'r', 'n'], t.id), (['x', 'm', 'l', ':', 'l', 'a', 'n', 'g'], t.lang)] ++ parentAttr ['w', 'o', 'r', 'k', 'U', 'r', 'n'] parent) (withCpt ns)) s (textTreeS env S ns parent t) := by
  have hpf := hs.header.name
  obtain ⟨on, h1, h2⟩ := carries_online hpf he.cts h.cite
  obtain ⟨b, h3, h4, h5⟩ := lines_ok hs he hn
  have c1 := carries_lits (env := env) hpf he.cts (name := ['l', 'a', 'b', 'e', 'l']) (by decide) (by decide) h.labels.2
  have c2 := carries_lits (env := env) hpf he.cts (name := ['d', 'e', 's', 'c', 'r', 'i', 'p', 't', 'i', 'o', 'n']) (by decide) (by decide) h.descriptions.2
  have c3 := carries_about (env := env) hpf he.cts h.about.2
  have key := carries_lines ha (resolveTag_cts hpf he.cts (l := kindTag t.kind) (by cases t.kind <;> decide))
    (plain_header _ (withCpt ns) (plain_parent _ _ _ _ (by decide))) ((((c1.append c2).append c3).append h2).append h5.one)
  have e : ∀ o c : Str, ∀ A : List Str, join ['\n'] ([o] ++ A ++ b ++ [c]) = join ['\n'] ([o] ++ (A ++ [join ['\n'] b]) ++ [c]) := by
    intro o c A
    rw [join_group (by simp) h4 (by simp)]
    simp [List.append_assoc]
  refine ⟨_, by rw [exportTextS, h1]; dsimp only; rw [h3], ?_⟩
  unfold WritesTree
  rw [← e] at key
  have e3 : textTreeS env S ns parent t = .mk (['t', 'i', ':'] ++ kindTag t.kind) (withHeader ([(['u', 'r', 'n'], t.id), (['x', 'm', 'l', ':', 'l', 'a', 'n', 'g'], t.lang)] ++ parentAttr ['w', 'o', 'r', 'k', 'U', 'r', 'n'] parent) (withCpt ns)) ['\n']
    (t.labels.map (fun x => withTail (litTree (['t', 'i', ':'] ++ ['l', 'a', 'b', 'e', 'l']) x) ['\n']) ++ t.descriptions.map (fun x => withTail (litTree (['t', 'i', ':'] ++ ['d', 'e', 's', 'c', 'r', 'i', 'p', 't', 'i', 'o', 'n']) x) ['\n']) ++
      t.about.map (fun u => withTail (aboutTree u) ['\n']) ++ onlineTree t.cite ++ [blockLine env S t.id]) [] := rfl
  rw [e3]
  simp only [List.append_assoc] at key ⊢
  exact key

theorem writes_genericS {α : Type} {env : Str → Option Str} {S : Store} {preds : List (Str × Str)} (hs : StoreSafe S preds) (he : EnvFor S preds env)
    {id : Str} (hn : NodeSafe S preds id) {name : Str} (hc : ':' ∉ name)
    {attrs : List (Str × Str)} {ns : Option (List (Str × Str))} {props : List Str}
    {pn : List Node} {f : α → Except PyErr Str} {g : α → Node} {l : List α} (ha : TagSafe (ctsName S.pf name) (withHeader attrs (withCpt ns)))
    (hp : ∀ b ∈ attrs, PlainAttr b.1) (h1 : CarriesAll env props pn) (h : ∀ x ∈ l, ∃ s, f x = .ok s ∧ Carries env s (g x)) :
    ∃ s, exportGenericS S id (ctsName S.pf name) attrs ns props f l = .ok s ∧
      WritesTree env (withHeader attrs (withCpt ns)) s
        (.mk (['t', 'i', ':'] ++ name) (withHeader attrs (withCpt ns)) ['\n'] (pn ++ [blockLine env S id] ++ l.map fun x => withTail (g x) ['\n']) []) := by
  obtain ⟨b, h3, h4, h5⟩ := lines_ok hs he hn
  obtain ⟨ss, h6, h7⟩ := carriesAll_members f g l h
  have key := carries_lines ha (resolveTag_cts hs.header.name he.cts hc) (plain_header _ (withCpt ns) hp) ((h1.append h5.one).append h7)
  refine ⟨_, by rw [exportGenericS, h3]; dsimp only; rw [h6], ?_⟩
  have e : ∀ o c : Str, ∀ A B : List Str, join ['\n'] ([o] ++ A ++ b ++ B ++ [c]) = join ['\n'] ([o] ++ (A ++ [join ['\n'] b] ++ B) ++ [c]) := by
    intro o c A B
    rw [List.append_assoc, join_group (by simp) h4 (by simp)]
    simp [List.append_assoc]
  unfold WritesTree
  rw [e]
  exact key

theorem tagSafe_inner {tag id lang name : Str} {parent : Str} (ht : NameSafe tag) (hn : NameSafe name) (hne : name ≠ ['u', 'r', 'n'] ∧ name ≠ ['x', 'm', 'l', ':', 'l', 'a', 'n', 'g'])
    (hid : AttrSafe id) (hl : AttrSafe lang) (hp : AttrSafe parent) :
    TagSafe tag (withHeader ([(['u', 'r', 'n'], id), (['x', 'm', 'l', ':', 'l', 'a', 'n', 'g'], lang)] ++ parentAttr name (some parent)) (withCpt none)) :=
  Props.tagSafe_parent ht hn hne hid hl (by rintro p ⟨⟩; exact hp)

theorem writes_workS {env : Str → Option Str} {S : Store} {preds : List (Str × Str)} (hs : StoreSafe S preds) (he : EnvFor S preds env)
    {ns : Option (List (Str × Str))} {parent : Option Str} {w : XWork} (h : WorkSafe w) (hn : ∀ id ∈ workIds w, NodeSafe S preds id)
    (ha : TagSafe (ctsName S.pf ['w', 'o', 'r', 'k']) (withHeader ([(['u', 'r', 'n'], w.id), (['x', 'm', 'l', ':', 'l', 'a', 'n', 'g'], w.lang)] ++ parentAttr ['g', 'r', 'o', 'u', 'p', 'U', 'r', 'n'] parent) (withCpt ns))) :
    ∃ s, exportWorkS S ns parent w = .ok s ∧
      WritesTree env (withHeader ([(['u', 'r', 'n'], w.id), (['x', 'm', 'l', ':', 'l', 'a', 'n', 'g'], w.lang)] ++ parentAttr ['g', 'r', 'o', 'u', 'p', 'U', 'r', 'n'] parent) (withCpt ns)) s (workTreeS env S ns parent w) := by
  refine writes_genericS hs he (hn _ (by simp [workIds])) (by decide) ha (plain_parent _ _ _ _ (by decide))
    (carries_lits (env := env) hs.header.name he.cts (name := ['t', 'i', 't', 'l', 'e']) (by decide) (by decide) h.titles.2) ?_
  intro t ht
  have hsf := h.texts t ht
  obtain ⟨s, h1, h2⟩ := writes_textS (ns := none) (parent := some w.id) hs he hsf (hn _ (by simp only [workIds, List.mem_append, List.mem_map]; exact .inl ⟨t, ht, rfl⟩))
    (tagSafe_inner (nameSafe_cts hs.header.name (nameSafe_kind _)) (by decide) (by decide) hsf.id.1 hsf.lang h.id.1)
  exact ⟨s, h1, h2.carries (noDecl_parent _ _ _ _ rfl)⟩

theorem writes_groupS {env : Str → Option Str} {S : Store} {preds : List (Str × Str)} (hs : StoreSafe S preds) (he : EnvFor S preds env)
    {ns : Option (List (Str × Str))} {g : XGroup} (h : GroupSafe g) (hn : ∀ id ∈ groupIds g, NodeSafe S preds id)
    (ha : TagSafe (ctsName S.pf ['t', 'e', 'x', 't', 'g', 'r', 'o', 'u', 'p']) (withHeader [(['u', 'r', 'n'], g.id)] (withCpt ns))) :
    ∃ s, exportGroupS S ns g = .ok s ∧ WritesTree env (withHeader [(['u', 'r', 'n'], g.id)] (withCpt ns)) s (groupTreeS env S ns g) := by
  refine writes_genericS hs he (hn _ (by simp [groupIds])) (by decide) ha ?_
    (carries_lits (env := env) hs.header.name he.cts (name := ['g', 'r', 'o', 'u', 'p', 'n', 'a', 'm', 'e']) (by decide) (by decide) h.names.2) ?_
  · intro b hb
    simp only [List.mem_singleton] at hb
    subst hb
    show PlainAttr ['u', 'r', 'n']; decide
  intro w hw
  have hsf := h.works w hw
  obtain ⟨s, h1, h2⟩ := writes_workS (ns := none) (parent := some g.id) hs he hsf
    (fun id hid => hn id (by simp only [groupIds, List.mem_append, List.mem_flatMap]; exact .inl ⟨w, hw, hid⟩))
    (tagSafe_inner (nameSafe_cts hs.header.name (by decide)) (by decide) (by decide) hsf.id.1 hsf.lang h.id.1)
  exact ⟨s, h1, h2.carries (noDecl_parent _ _ _ _ rfl)⟩

theorem writes_invS {env : Str → Option Str} {S : Store} {preds : List (Str × Str)} (hs : StoreSafe S preds) (he : EnvFor S preds env)
    {ns : Option (List (Str × Str))} {i : XInv} (h : InvSafe i) (hi : NodeSafe S preds i.id) (hn : ∀ id ∈ innerIds i, NodeSafe S preds id)
    (ha : TagSafe (ctsName S.pf ['T', 'e', 'x', 't', 'I', 'n', 'v', 'e', 'n', 't', 'o', 'r', 'y']) (withHeader (if i.id = [] then [] else [(['t', 'i', 'i', 'd'], i.id)]) (withCpt ns))) :
    ∃ s, exportInvS S ns i = .ok s ∧ WritesTree env (withHeader (if i.id = [] then [] else [(['t', 'i', 'i', 'd'], i.id)]) (withCpt ns)) s (invTreeS env S ns i) := by
  refine writes_genericS hs he hi (by decide) ha ?_ (carriesAll_nil env) ?_
  · intro b hb
    split at hb
    · cases hb
    · simp only [List.mem_singleton] at hb
      subst hb
      show PlainAttr ['t', 'i', 'i', 'd']; decide
  intro g hg
  have hsf := h.groups g hg
  obtain ⟨s, h1, h2⟩ := writes_groupS (ns := none) hs he hsf
    (fun id hid => hn id (by simp only [innerIds, List.mem_flatMap]; exact ⟨g, hg, hid⟩))
    ⟨nameSafe_cts hs.header.name (by decide), by simp [withHeader, withCpt], by
      intro a ha'
      simp only [withHeader, withCpt, Option.map_none, List.mem_singleton] at ha'
      subst ha'
      exact ⟨by dsimp only; decide, hsf.id.1⟩⟩
  refine ⟨s, h1, h2.carries ?_⟩
  intro b hb
  simp only [withHeader, withCpt, Option.map_none, List.mem_singleton] at hb
  subst hb; rfl

/-- The document that is read. -/
theorem readCts_of_tree {S : Store} {preds : List (Str × Str)} {attrs : List (Str × Str)} {s t : Str} {x : Str} {ks : List Node}
    (hw : WritesTree (envOf (withHeader attrs (some (cptPreds preds)))) (withHeader attrs (withCpt (some preds))) s
      (.mk t (withHeader attrs (withCpt (some preds))) x ks [])) :
    readCts s = some (.mk t (withHeader attrs (withCpt (some preds))) x ks []) := by
  obtain ⟨w, h1, h2, h3⟩ := hw
  rw [readCts, readXml_of_writes h1]
  dsimp only
  have : declared (withTail w []) = envOf (withHeader attrs (some (cptPreds preds))) := by
    funext p
    rw [declared, Node.get, attrs_withTail, h2]
    rfl
  rw [this]
  exact resolve_withTail h3 []

/-! ### Reading the block -/

/-- The graph with the restored triples of one object. -/
def backInto (ob : Str → Objectified) (S : Store) (g : Graph) (id : Str) : Graph :=
  (blockOf S id).foldl (fun g t => g.insert ⟨.uri id, t.p, restored ob t.o⟩) g

/-- The same for several objects, one after the other. -/
def backAll (ob : Str → Objectified) (S : Store) (g : Graph) (ids : List Str) : Graph := ids.foldl (backInto ob S) g

theorem isLink_iff (s : Str) : isLink s = true ↔ LooksLikeLink s := by
  unfold isLink LooksLikeLink startsWith
  simp only [Bool.or_eq_true, List.isPrefixOf_iff_prefix, List.mem_cons, List.not_mem_nil, or_false]
  constructor
  · rintro (((h | h) | h) | h)
    · exact ⟨_, .inl rfl, h⟩
    · exact ⟨_, .inr (.inl rfl), h⟩
    · exact ⟨_, .inr (.inr (.inl rfl)), h⟩
    · exact ⟨_, .inr (.inr (.inr rfl)), h⟩
  · rintro ⟨_, rfl | rfl | rfl | rfl, h⟩
    · exact .inl (.inl (.inl h))
    · exact .inl (.inl (.inr h))
    · exact .inl (.inr h)
    · exact .inr h

theorem type_ne_datatype (x : Str) : ['{'] ++ x ++ ['}'] ++ ['t', 'y', 'p', 'e'] ≠ ['{', 'h', 't', 't', 'p', ':', '/', '/', 'w', 'w', 'w', '.', 'w', '3', '.', 'o', 'r', 'g', '/', '1', '9', '9', '9', '/', '0', '2', '/', '2', '2', '-', 'r', 'd', 'f', '-', 's', 'y', 'n', 't', 'a', 'x', '-', 'n', 's', '#', '}', 'd', 'a', 't', 'a', 't', 'y', 'p', 'e'] := by
  intro h
  have := congrArg (fun l : Str => l.reverse.take 5) h
  simp at this

theorem type_ne_lang (x : Str) : ['{'] ++ x ++ ['}'] ++ ['t', 'y', 'p', 'e'] ≠ ['x', 'm', 'l', ':', 'l', 'a', 'n', 'g'] := by
  intro h
  cases h

theorem value_lookup (env : Str → Option Str) (o : Term) :
    (valueAttrsRead env o).lookup ['x', 'm', 'l', ':', 'l', 'a', 'n', 'g'] = (match o with | .lit _ l _ => l | _ => none) ∧
    (valueAttrsRead env o).lookup ['{', 'h', 't', 't', 'p', ':', '/', '/', 'w', 'w', 'w', '.', 'w', '3', '.', 'o', 'r', 'g', '/', '1', '9', '9', '9', '/', '0', '2', '/', '2', '2', '-', 'r', 'd', 'f', '-', 's', 'y', 'n', 't', 'a', 'x', '-', 'n', 's', '#', '}', 'd', 'a', 't', 'a', 't', 'y', 'p', 'e'] = none := by
  have lk : ∀ (k a v : Str) (r : List (Str × Str)), a ≠ k → List.lookup k ((a, v) :: r) = List.lookup k r := by
    intro k a v r h
    rw [List.lookup_cons]
    have : (k == a) = false := by simpa using fun e : k = a => h e.symm
    rw [this]
  cases o with
  | uri s => exact ⟨rfl, rfl⟩
  | bnode s => exact ⟨rfl, rfl⟩
  | lit s lang dt =>
    have hl : ∀ d : Str, List.lookup ['x', 'm', 'l', ':', 'l', 'a', 'n', 'g'] [(['{'] ++ (env ['r', 'd', 'f']).getD [] ++ ['}'] ++ ['t', 'y', 'p', 'e'], d)] = none := by
      intro d; rw [lk _ _ _ _ (type_ne_lang _)]; rfl
    have hd : ∀ d : Str, List.lookup ['{', 'h', 't', 't', 'p', ':', '/', '/', 'w', 'w', 'w', '.', 'w', '3', '.', 'o', 'r', 'g', '/', '1', '9', '9', '9', '/', '0', '2', '/', '2', '2', '-', 'r', 'd', 'f', '-', 's', 'y', 'n', 't', 'a', 'x', '-', 'n', 's', '#', '}', 'd', 'a', 't', 'a', 't', 'y', 'p', 'e'] [(['{'] ++ (env ['r', 'd', 'f']).getD [] ++ ['}'] ++ ['t', 'y', 'p', 'e'], d)] = none := by
      intro d; rw [lk _ _ _ _ (type_ne_datatype _)]; rfl
    have hx : ∀ (l : Str) (r : List (Str × Str)), List.lookup ['{', 'h', 't', 't', 'p', ':', '/', '/', 'w', 'w', 'w', '.', 'w', '3', '.', 'o', 'r', 'g', '/', '1', '9', '9', '9', '/', '0', '2', '/', '2', '2', '-', 'r', 'd', 'f', '-', 's', 'y', 'n', 't', 'a', 'x', '-', 'n', 's', '#', '}', 'd', 'a', 't', 'a', 't', 'y', 'p', 'e'] ((['x', 'm', 'l', ':', 'l', 'a', 'n', 'g'], l) :: r) =
        List.lookup ['{', 'h', 't', 't', 'p', ':', '/', '/', 'w', 'w', 'w', '.', 'w', '3', '.', 'o', 'r', 'g', '/', '1', '9', '9', '9', '/', '0', '2', '/', '2', '2', '-', 'r', 'd', 'f', '-', 's', 'y', 'n', 't', 'a', 'x', '-', 'n', 's', '#', '}', 'd', 'a', 't', 'a', 't', 'y', 'p', 'e'] r := fun l r => lk _ _ _ _ (by decide)
    have hy : ∀ (l : Str) (r : List (Str × Str)), List.lookup ['x', 'm', 'l', ':', 'l', 'a', 'n', 'g'] ((['x', 'm', 'l', ':', 'l', 'a', 'n', 'g'], l) :: r) = some l := by
      intro l r; rw [List.lookup_cons]; rfl
    cases lang with
    | none =>
      cases dt with
      | none => exact ⟨rfl, rfl⟩
      | some d => simp only [valueAttrsRead, List.nil_append]; exact ⟨hl d, hd d⟩
    | some l =>
      cases dt with
      | none => simp only [valueAttrsRead, List.append_nil]; exact ⟨hy l _, by rw [hx]; rfl⟩
      | some d => simp only [valueAttrsRead, List.cons_append, List.nil_append]; exact ⟨hy l _, by rw [hx]; exact hd d⟩

theorem value_restored (nsmap : List (Str × Str)) (ob : Str → Objectified) (env : Str → Option Str) (qn : QNames) (t : Triple) (l : Str) :
    toTerm (structuredValue nsmap ob (withTail (lineTree env qn t) l)).1 (structuredValue nsmap ob (withTail (lineTree env qn t) l)).2 = restored ob t.o := by
  have hx : (withTail (lineTree env qn t) l).text = t.o.str := rfl
  have hg : ∀ k, (withTail (lineTree env qn t) l).get k = (valueAttrsRead env t.o).lookup k := fun _ => rfl
  obtain ⟨h1, h2⟩ := value_lookup env t.o
  unfold structuredValue restored
  rw [hx, hg, hg, h1, h2]
  by_cases hk : LooksLikeLink (ob t.o.str).shown
  · rw [if_pos ((isLink_iff _).2 hk), if_pos hk]
    rfl
  · rw [if_neg (fun h => hk ((isLink_iff _).1 h)), if_neg hk]
    have rest : ∀ o : Term, toTerm (match (ob o.str).kind with
        | .int => (Value.term (.lit (ob o.str).shown none (some ['h', 't', 't', 'p', ':', '/', '/', 'w', 'w', 'w', '.', 'w', '3', '.', 'o', 'r', 'g', '/', '2', '0', '0', '1', '/', 'X', 'M', 'L', 'S', 'c', 'h', 'e', 'm', 'a', '#', 'i', 'n', 't', 'e', 'g', 'e', 'r'])), (none : Option Str))
        | .float => (.term (.lit (ob o.str).shown none (some ['h', 't', 't', 'p', ':', '/', '/', 'w', 'w', 'w', '.', 'w', '3', '.', 'o', 'r', 'g', '/', '2', '0', '0', '1', '/', 'X', 'M', 'L', 'S', 'c', 'h', 'e', 'm', 'a', '#', 'f', 'l', 'o', 'a', 't'])), none)
        | .other => (.str (ob o.str).shown, none)).1 (match (ob o.str).kind with
        | .int => (Value.term (.lit (ob o.str).shown none (some ['h', 't', 't', 'p', ':', '/', '/', 'w', 'w', 'w', '.', 'w', '3', '.', 'o', 'r', 'g', '/', '2', '0', '0', '1', '/', 'X', 'M', 'L', 'S', 'c', 'h', 'e', 'm', 'a', '#', 'i', 'n', 't', 'e', 'g', 'e', 'r'])), (none : Option Str))
        | .float => (.term (.lit (ob o.str).shown none (some ['h', 't', 't', 'p', ':', '/', '/', 'w', 'w', 'w', '.', 'w', '3', '.', 'o', 'r', 'g', '/', '2', '0', '0', '1', '/', 'X', 'M', 'L', 'S', 'c', 'h', 'e', 'm', 'a', '#', 'f', 'l', 'o', 'a', 't'])), none)
        | .other => (.str (ob o.str).shown, none)).2 = (match (ob o.str).kind with
      | .int => .lit (ob o.str).shown none (some "http://www.w3.org/2001/XMLSchema#integer".toList)
      | .float => .lit (ob o.str).shown none (some "http://www.w3.org/2001/XMLSchema#float".toList)
      | .other => .lit (ob o.str).shown none none) := by
      intro o
      cases (ob o.str).kind with
      | int => exact congrArg (fun x => Term.lit (ob o.str).shown none (some x)) (by decide +kernel)
      | float => exact congrArg (fun x => Term.lit (ob o.str).shown none (some x)) (by decide +kernel)
      | other => rfl
    cases ho : t.o with
    | uri s => exact rest (.uri s)
    | bnode s => exact rest (.bnode s)
    | lit s lang dt =>
      cases lang with
      | some g => rfl
      | none => exact rest (.lit s none dt)

theorem split_two {a b : Str} {c : Char} (ha : c ∉ a) (hb : c ∉ b) : split c (a ++ c :: b) = [a, b] := by
  induction a with
  | nil =>
    have hs : split c b = [b] := by
      clear ha
      induction b with
      | nil => rfl
      | cons x r ih =>
        have hx : x ≠ c := by rintro rfl; exact hb (by simp)
        have := ih fun h => hb (by simp [h])
        rw [split, if_neg hx, this]
    rw [List.nil_append, split, if_pos rfl, hs]
  | cons x r ih =>
    have hx : x ≠ c := by rintro rfl; exact ha (by simp)
    have := ih fun h => ha (by simp [h])
    rw [List.cons_append, split, if_neg hx, this]

theorem step_line (nsmap : List (Str × Str)) (ob : Str → Objectified) (env : Str → Option Str) {qn : QNames} {preds : List (Str × Str)} {t : Triple}
    (hp : PredicateSafe qn preds t.p) (node : Term) (g : Graph) (l : Str) :
    structuredStep nsmap ob node g (withTail (lineTree env qn t) l) = .ok (g.insert ⟨node, t.p, restored ob t.o⟩) := by
  obtain ⟨u, pf, ns, name, h1, h2, h3, _, _, _, _, _, h9, _⟩ := hp
  have hq : qn t.p.str = .ok (pf, ns, name) := by rw [h1]; exact h2
  have ht : clarkTag (withTail (lineTree env qn t) l).tag = ['{'] ++ ns ++ ['}'] ++ name := by
    have : (withTail (lineTree env qn t) l).tag = ['{'] ++ ns ++ ['}'] ++ name := by
      show lineTag qn t.p = _
      rw [lineTag, hq]
    rw [this]
    rfl
  rw [h3] at h9
  have hsp : split '}' (['{'] ++ ns ++ ['}'] ++ name) = ['{' :: ns, name] := by
    have := split_two (a := '{' :: ns) (b := name) (c := '}') (by
      intro hm
      rcases List.mem_cons.1 hm with hm | hm
      · exact absurd hm (by decide)
      · exact h9 (List.mem_append_left _ hm)) (fun hm => h9 (List.mem_append_right _ hm))
    simpa using this
  rw [structuredStep, ht, if_pos (by simp), hsp]
  dsimp only
  rw [metaAdd, value_restored, h1, h3]
  rfl

theorem loop_block (nsmap : List (Str × Str)) (ob : Str → Objectified) (env : Str → Option Str) {qn : QNames} {preds : List (Str × Str)} (node : Term) :
    ∀ (l : List Triple) (g : Graph), (∀ t ∈ l, PredicateSafe qn preds t.p) →
    structuredLoop nsmap ob node g (l.map fun t => withTail (lineTree env qn t) ['\n']) =
      .ok (l.foldl (fun g t => g.insert ⟨node, t.p, restored ob t.o⟩) g)
  | [], _, _ => rfl
  | t :: r, g, h => by
    rw [List.map_cons, structuredLoop, step_line nsmap ob env (h t (by simp)) node g]
    exact loop_block nsmap ob env node r _ fun x hx => h x (by simp [hx])

/-- An element with the block of an object among its children, the others having names of CTS. -/
theorem parse_block (nsmap : List (Str × Str)) (ob : Str → Objectified) (env : Str → Option Str) {S : Store} {preds : List (Str × Str)}
    (hs : StoreSafe S preds) {id : Str} (hn : NodeSafe S preds id) (g : Graph) {n : Node}
    (hk : namedKids ['{', 'h', 't', 't', 'p', ':', '/', '/', 'p', 'u', 'r', 'l', '.', 'o', 'r', 'g', '/', 'c', 'a', 'p', 'i', 't', 'a', 'i', 'n', 's', '/', 'n', 's', '/', '1', '.', '0', '#', '}', 's', 't', 'r', 'u', 'c', 't', 'u', 'r', 'e', 'd', '-', 'm', 'e', 't', 'a', 'd', 'a', 't', 'a'] n = [blockLine env S id]) :
    parseStructured nsmap ob id g n = .ok (backInto ob S g id) := by
  rw [parseStructured, hk]
  have e : List.flatMap Node.kids [blockLine env S id] = (blockOf S id).map fun t => withTail (lineTree env S.qn t) ['\n'] := by
    simp [blockLine, blockTree, withTail, Node.kids]
  rw [e]
  refine loop_block nsmap ob env (preds := preds) _ _ _ fun t ht => ?_
  obtain ⟨h1, h2, _⟩ := (mem_block hs hn t).1 ht
  exact (hn t h1 h2).1

theorem mem_backInto (ob : Str → Objectified) {S : Store} {preds : List (Str × Str)} (hs : StoreSafe S preds) {id : Str} (hn : NodeSafe S preds id)
    (g : Graph) (t : Triple) :
    t ∈ backInto ob S g id ↔ t ∈ g ∨ ComesBack S ob [id] t := by
  have key : ∀ (l : List Triple) (g : Graph), t ∈ l.foldl (fun g t => g.insert ⟨.uri id, t.p, restored ob t.o⟩) g ↔
      t ∈ g ∨ ∃ u ∈ l, t = ⟨.uri id, u.p, restored ob u.o⟩ := by
    intro l
    induction l with
    | nil => intro g; simp
    | cons x r ih =>
      intro g
      rw [List.foldl_cons, ih]
      have hi : t ∈ Graph.insert g ⟨.uri id, x.p, restored ob x.o⟩ ↔ t ∈ g ∨ t = ⟨.uri id, x.p, restored ob x.o⟩ := by
        unfold Graph.insert
        split
        · rename_i hm
          constructor
          · exact .inl
          · rintro (h | rfl)
            · exact h
            · exact hm
        · simp
      rw [hi]
      simp only [List.mem_cons, exists_eq_or_imp]
      constructor
      · rintro ((h | h) | h)
        · exact .inl h
        · exact .inr (.inl h)
        · exact .inr (.inr h)
      · rintro (h | h | h)
        · exact .inl (.inl h)
        · exact .inl (.inr h)
        · exact .inr h
  rw [backInto, key]
  constructor
  · rintro (h | ⟨u, hu, rfl⟩)
    · exact .inl h
    · obtain ⟨h1, h2, h3⟩ := (mem_block hs hn u).1 hu
      exact .inr ⟨u, h1, ⟨id, by simp, h2⟩, h3, by rw [h2]⟩
  · rintro (h | ⟨u, hu, ⟨i, hi, h2⟩, h3, rfl⟩)
    · exact .inl h
    · simp only [List.mem_singleton] at hi
      subst hi
      exact .inr ⟨u, (mem_block hs hn u).2 ⟨hu, h2, h3⟩, by rw [h2]⟩

theorem mem_backAll (ob : Str → Objectified) {S : Store} {preds : List (Str × Str)} (hs : StoreSafe S preds) :
    ∀ (ids : List Str) (_ : ∀ id ∈ ids, NodeSafe S preds id) (g : Graph) (t : Triple), t ∈ backAll ob S g ids ↔ t ∈ g ∨ ComesBack S ob ids t
  | [], _, g, t => by
    constructor
    · exact .inl
    · rintro (h | ⟨_, _, ⟨_, hi, _⟩, _⟩)
      · exact h
      · cases hi
  | id :: r, h, g, t => by
    rw [backAll, List.foldl_cons]
    have := mem_backAll ob hs r (fun x hx => h x (by simp [hx])) (backInto ob S g id) t
    rw [backAll] at this
    rw [this, mem_backInto ob hs (h id (by simp))]
    constructor
    · rintro ((h | ⟨u, hu, ⟨i, hi, h2⟩, h3⟩) | ⟨u, hu, ⟨i, hi, h2⟩, h3⟩)
      · exact .inl h
      · exact .inr ⟨u, hu, ⟨i, by simp at hi; simp [hi], h2⟩, h3⟩
      · exact .inr ⟨u, hu, ⟨i, by simp [hi], h2⟩, h3⟩
    · rintro (h | ⟨u, hu, ⟨i, hi, h2⟩, h3⟩)
      · exact .inl (.inl h)
      · rcases List.mem_cons.1 hi with rfl | hi
        · exact .inl (.inr ⟨u, hu, ⟨i, by simp, h2⟩, h3⟩)
        · exact .inr ⟨u, hu, ⟨i, hi, h2⟩, h3⟩

theorem backAll_append (ob : Str → Objectified) (S : Store) (g : Graph) (a b : List Str) :
    backAll ob S g (a ++ b) = backAll ob S (backAll ob S g a) b := by simp [backAll]

theorem nodup_backAll (ob : Str → Objectified) (S : Store) (ids : List Str) (g : Graph) (h : g.Nodup) : (backAll ob S g ids).Nodup := by
  have ins : ∀ (g : Graph) (t : Triple), g.Nodup → (g.insert t).Nodup := by
    intro g t hg
    unfold Graph.insert
    split
    · exact hg
    · rename_i hm
      rw [List.nodup_append]
      refine ⟨hg, by simp, ?_⟩
      intro a ha b hb
      simp only [List.mem_singleton] at hb
      subst hb; rintro rfl; exact hm ha
  have blk : ∀ (id : Str) (l : List Triple) (g : Graph), g.Nodup → (l.foldl (fun g t => g.insert ⟨.uri id, t.p, restored ob t.o⟩) g).Nodup := by
    intro id l
    induction l with
    | nil => intro g hg; exact hg
    | cons x r ih => intro g hg; exact ih _ (ins _ _ hg)
  unfold backAll
  induction ids generalizing g with
  | nil => exact h
  | cons x r ih => exact ih _ (blk _ _ _ h)

end Verif.Lemmas
