import Verif.Lemmas.InventoryXmlNames
import Verif.Lemmas.MetadataExport
import Verif.Spec.StructuredMetadata
namespace Verif.Lemmas
open Verif.Py Verif.Model Verif.Spec

/-! ### Strings that carry elements, in a document that declares namespaces -/

/-- The string is an element which reads as `n` where the prefixes stand for the namespaces of `env`. -/
def Carries (env : Str → Option Str) (s : Str) (n : Node) : Prop :=
  ∃ w, Lemmas.Writes s w ∧ NoDecl w.attrs ∧ resolveNode env w = some n

/-- The same for elements one on each line. -/
def CarriesAll (env : Str → Option Str) (ss : List Str) (ns : List Node) : Prop :=
  ∃ ws, WritesAll ss ws ∧ resolveNodes env ws = some ns

theorem resolveNodes_append (env : Str → Option Str) {a b : List Node} {x y : List Node} (ha : resolveNodes env a = some x)
    (hb : resolveNodes env b = some y) : resolveNodes env (a ++ b) = some (x ++ y) := by
  induction a generalizing x with
  | nil => rw [resolveNodes] at ha; cases ha; exact hb
  | cons n r ih =>
    rw [resolveNodes] at ha
    split at ha
    · cases ha
    · rename_i hd
      split at ha
      · rename_i n' r' hn hr
        cases ha
        rw [List.cons_append, resolveNodes, if_neg hd, hn, ih hr]
        rfl
      · cases ha

theorem carriesAll_nil (env : Str → Option Str) : CarriesAll env [] [] := ⟨[], .nil, by rw [resolveNodes]⟩

theorem CarriesAll.append {env : Str → Option Str} {a b : List Str} {m n : List Node} (h : CarriesAll env a m) (h2 : CarriesAll env b n) :
    CarriesAll env (a ++ b) (m ++ n) := by
  obtain ⟨w1, hw1, hr1⟩ := h
  obtain ⟨w2, hw2, hr2⟩ := h2
  exact ⟨w1 ++ w2, hw1.append hw2, resolveNodes_append env hr1 hr2⟩

theorem carriesAll_retag {env : Str → Option Str} {pf : Str} (hpf : PrefixSafe pf) (he : env pf = some ctsNamespace) {ss : List Str} {ns : List Node}
    (h : WritesAll ss (ns.map (retagNode pf))) (hc : CtsTrees ns) : CarriesAll env ss ns :=
  ⟨_, h, by rw [← retagNodes_eq]; exact resolves_retag hpf he ns hc⟩

theorem resolve_withTail {env : Str → Option Str} {w n : Node} (h : resolveNode env w = some n) (l : Str) :
    resolveNode env (withTail w l) = some (withTail n l) := by
  cases w with
  | mk t a x ks y =>
    rw [resolveNode] at h
    rw [withTail, resolveNode]
    split at h
    · rename_i t' a' ks' h1 h2 h3
      cases h
      rfl
    · cases h

theorem attrs_withTail (n : Node) (l : Str) : (withTail n l).attrs = n.attrs := by cases n; rfl

theorem Carries.one {env : Str → Option Str} {s : Str} {n : Node} (h : Carries env s n) : CarriesAll env [s] [withTail n ['\n']] := by
  obtain ⟨w, hw, hd, hr⟩ := h
  refine ⟨[withTail w ['\n']], .cons hw .nil, ?_⟩
  rw [resolveNodes, resolveNodes, resolve_withTail hr, if_neg]
  rw [List.any_eq_true]
  rintro ⟨y, hy, hx⟩
  rw [attrs_withTail] at hy
  exact absurd (hd y hy) (by rw [show ['x', 'm', 'l', 'n', 's'] = "xmlns".toList from rfl, hx]; decide)

theorem carriesAll_map {α : Type} {env : Str → Option Str} (f : α → Str) (g : α → Node) (l : List α) (h : ∀ x ∈ l, Carries env (f x) (g x)) :
    CarriesAll env (l.map f) (l.map fun x => withTail (g x) ['\n']) := by
  induction l with
  | nil => exact carriesAll_nil env
  | cons x r ih => exact (h x (by simp)).one.append (ih fun y hy => h y (by simp [hy]))

theorem carriesAll_members {α : Type} {env : Str → Option Str} (f : α → Except PyErr Str) (g : α → Node) (l : List α)
    (h : ∀ x ∈ l, ∃ s, f x = .ok s ∧ Carries env s (g x)) :
    ∃ ss, exportMembers f l = .ok ss ∧ CarriesAll env ss (l.map fun x => withTail (g x) ['\n']) := by
  induction l with
  | nil => exact ⟨[], rfl, carriesAll_nil env⟩
  | cons x r ih =>
    obtain ⟨s, hs, hw⟩ := h x (by simp)
    obtain ⟨ss, hss, hws⟩ := ih fun y hy => h y (by simp [hy])
    exact ⟨s :: ss, by rw [exportMembers, hs, hss], hw.one.append hws⟩

/-- An element with one child on each line. -/
theorem carries_lines {env : Str → Option Str} {name tag : Str} {attrs : List (Str × Str)} {ss : List Str} {kids : List Node}
    (hsafe : TagSafe name attrs) (ht : resolveTag env name = some tag) (hp : ∀ b ∈ attrs, PlainAttr b.1) (h : CarriesAll env ss kids) :
    ∃ w, Lemmas.Writes (join ['\n'] ([makeXmlNode name false (some attrs) [] false []] ++ ss ++ [makeXmlNode name true none [] false []])) w ∧
      w.attrs = attrs ∧ resolveNode env w = some (.mk tag attrs ['\n'] kids []) := by
  obtain ⟨ws, hw, hr⟩ := h
  refine ⟨_, writes_lines hsafe hw, rfl, ?_⟩
  rw [resolveNode, ht, resolveAttrs_plain env attrs hp, hr]

/-! ### Joining -/

theorem join_append {sep : Str} : ∀ {a b : List Str}, a ≠ [] → b ≠ [] → join sep (a ++ b) = join sep a ++ sep ++ join sep b
  | [], _, h, _ => absurd rfl h
  | [x], [], _, h => absurd rfl h
  | [x], y :: r, _, _ => by simp [join]
  | x :: y :: r, b, _, hb => by
    have := join_append (sep := sep) (a := y :: r) (b := b) (by simp) hb
    simp only [List.cons_append] at this ⊢
    rw [join, this]
    simp [join]

theorem join_group {sep : Str} {a x b : List Str} (ha : a ≠ []) (hx : x ≠ []) (hb : b ≠ []) :
    join sep (a ++ x ++ b) = join sep (a ++ [join sep x] ++ b) := by
  rw [join_append (by simp [ha]) hb, join_append ha hx, join_append (a := a ++ [join sep x]) (by simp) hb, join_append ha (by simp)]
  rfl

/-! ### The header -/

/-- The prefixes that matter stand for their namespaces. -/
structure EnvFor (S : Store) (preds : List (Str × Str)) (env : Str → Option Str) : Prop where
  cts : env S.pf = some ctsNamespace
  cpt : env ['c', 'p', 't'] = some ['h', 't', 't', 'p', ':', '/', '/', 'p', 'u', 'r', 'l', '.', 'o', 'r', 'g', '/', 'c', 'a', 'p', 'i', 't', 'a', 'i', 'n', 's', '/', 'n', 's', '/', '1', '.', '0', '#']
  pred : ∀ p ∈ preds, env p.1 = some (nsFix p.2)

theorem header_lookup {preds : List (Str × Str)} (h : ∀ p ∈ preds, ∀ q ∈ preds, p.1 = q.1 → p.2 = q.2) (attrs : List (Str × Str))
    {p : Str × Str} (hp : p ∈ preds) : (withHeader attrs (some preds)).lookup (nsKey p) = some (nsFix p.2) := by
  have e : withHeader attrs (some preds) = (namespacesHeader preds).foldl (fun d p => putItem d (id p).1 (id p).2) attrs := rfl
  rw [e]
  refine (foldl_put id (namespacesHeader preds) attrs).2.2.2 _ _ ?_ (.inl ?_)
  · intro b hb hk
    obtain ⟨q, hq, rfl⟩ := mem_header hb
    simp only [id]
    rw [h q hq p hp (nsKey_inj hk)]
  · have : (preds.foldl (fun d p => putItem d (nsKey p, p.2).1 (nsKey p, p.2).2) []).lookup (nsKey p) = some p.2 := by
      refine (foldl_put (fun p : Str × Str => (nsKey p, p.2)) preds []).2.2.2 _ _ ?_ (.inl ⟨p, hp, rfl⟩)
      intro q hq hk
      exact h q hq p hp (nsKey_inj hk)
    refine ⟨(nsKey p, nsFix p.2), ?_, rfl⟩
    rw [namespacesHeader_eq]
    exact List.mem_map.2 ⟨_, mem_of_lookup this, rfl⟩

/-- The namespaces of the header, with that of CapiTainS. -/
def cptPreds (preds : List (Str × Str)) : List (Str × Str) := preds ++ [(['c', 'p', 't'], ['h', 't', 't', 'p', ':', '/', '/', 'p', 'u', 'r', 'l', '.', 'o', 'r', 'g', '/', 'c', 'a', 'p', 'i', 't', 'a', 'i', 'n', 's', '/', 'n', 's', '/', '1', '.', '0', '#'])]

theorem headerSafe_cpt {S : Store} {preds : List (Str × Str)} (h : StoreSafe S preds) : HeaderSafe S.pf (cptPreds preds) where
  name := h.header.name
  safe := by
    intro p hp
    rcases List.mem_append.1 hp with hp | hp
    · exact h.header.safe p hp
    · simp only [List.mem_singleton] at hp; subst hp; decide
  cts := List.mem_append_left _ h.header.cts
  only := by
    intro p hp he
    rcases List.mem_append.1 hp with hp | hp
    · exact h.header.only p hp he
    · simp only [List.mem_singleton] at hp
      subst hp
      exact absurd (h.cpt _ h.header.cts he.symm) (by dsimp only; decide)

theorem one_cpt {S : Store} {preds : List (Str × Str)} (h : StoreSafe S preds) :
    ∀ p ∈ cptPreds preds, ∀ q ∈ cptPreds preds, p.1 = q.1 → p.2 = q.2 := by
  intro p hp q hq he
  rcases List.mem_append.1 hp with hp | hp <;> rcases List.mem_append.1 hq with hq | hq
  · exact h.one p hp q hq he
  · simp only [List.mem_singleton] at hq; subst hq; exact h.cpt p hp he
  · simp only [List.mem_singleton] at hp; subst hp; exact (h.cpt q hq he.symm).symm
  · simp only [List.mem_singleton] at hp hq; rw [hp, hq]

/-- The declarations of an element with these attributes. -/
def envOf (attrs : List (Str × Str)) (p : Str) : Option Str := attrs.lookup (nsKey (p, []))

theorem envFor_header {S : Store} {preds : List (Str × Str)} (h : StoreSafe S preds) (attrs : List (Str × Str)) :
    EnvFor S preds (envOf (withHeader attrs (some (cptPreds preds)))) where
  cts := header_cts (headerSafe_cpt h) attrs
  cpt := header_lookup (one_cpt h) attrs (p := (['c', 'p', 't'], ['h', 't', 't', 'p', ':', '/', '/', 'p', 'u', 'r', 'l', '.', 'o', 'r', 'g', '/', 'c', 'a', 'p', 'i', 't', 'a', 'i', 'n', 's', '/', 'n', 's', '/', '1', '.', '0', '#'])) (by simp [cptPreds])
  pred := fun p hp => header_lookup (one_cpt h) attrs (p := p) (by simp [cptPreds, hp])

/-! ### The structured metadata of one object -/

/-- The triples in the order of the export. -/
def blockOf (S : Store) (id : Str) : List Triple :=
  match selectTriples S.order (namespaceOf S.qn) S.graph (.uri id) none
      (some [.text ['h', 't', 't', 'p', ':', '/', '/', 'c', 'h', 's', '.', 'h', 'a', 'r', 'v', 'a', 'r', 'd', '.', 'e', 'd', 'u', '/', 'x', 'm', 'l', 'n', 's', '/', 'c', 't', 's', '/'], .text ['h', 't', 't', 'p', 's', ':', '/', '/', 'w', '3', 'i', 'd', '.', 'o', 'r', 'g', '/', 'd', 't', 's', '/', 'a', 'p', 'i', '#'], .text ['h', 't', 't', 'p', ':', '/', '/', 'w', 'w', 'w', '.', 'w', '3', '.', 'o', 'r', 'g', '/', '1', '9', '9', '9', '/', '0', '2', '/', '2', '2', '-', 'r', 'd', 'f', '-', 's', 'y', 'n', 't', 'a', 'x', '-', 'n', 's', '#']]) with
  | .ok sel => S.copyOrder sel.graph
  | .error _ => []

/-- The attributes of a value with their names resolved. -/
def valueAttrsRead (env : Str → Option Str) : Term → List (Str × Str)
  | .lit _ lang dt =>
    (match lang with
      | some l => [(['x', 'm', 'l', ':', 'l', 'a', 'n', 'g'], l)]
      | none => []) ++
    (match dt with
      | some d => [(['{'] ++ (env ['r', 'd', 'f']).getD [] ++ ['}'] ++ ['t', 'y', 'p', 'e'], d)]
      | none => [])
  | _ => []

/-- The name of the element of a predicate. -/
def lineTag (qn : QNames) (p : Term) : Str :=
  match qn p.str with
  | .ok (_, ns, name) => ['{'] ++ ns ++ ['}'] ++ name
  | .error _ => []

def lineTree (env : Str → Option Str) (qn : QNames) (t : Triple) : Node := .mk (lineTag qn t.p) (valueAttrsRead env t.o) t.o.str [] []

def blockTree (env : Str → Option Str) (qn : QNames) (l : List Triple) : Node :=
  .mk ['{', 'h', 't', 't', 'p', ':', '/', '/', 'p', 'u', 'r', 'l', '.', 'o', 'r', 'g', '/', 'c', 'a', 'p', 'i', 't', 'a', 'i', 'n', 's', '/', 'n', 's', '/', '1', '.', '0', '#', '}', 's', 't', 'r', 'u', 'c', 't', 'u', 'r', 'e', 'd', '-', 'm', 'e', 't', 'a', 'd', 'a', 't', 'a'] [] (if l = [] then ['\n', '\n'] else ['\n'])
    (l.map fun t => withTail (lineTree env qn t) ['\n']) []

theorem resolveAttrs_value {env : Str → Option Str} {S : Store} {preds : List (Str × Str)} (he : EnvFor S preds env) {o : Term} (h : ValueSafe preds o) :
    resolveAttrs env (valueAttrs o) = some (valueAttrsRead env o) := by
  cases o with
  | uri s => rfl
  | bnode s => rfl
  | lit s lang dt =>
    have h1 : resolveAttr env ['x', 'm', 'l', ':', 'l', 'a', 'n', 'g'] = some ['x', 'm', 'l', ':', 'l', 'a', 'n', 'g'] := by
      unfold resolveAttr
      rw [if_pos]
      decide
    have h2 : dt ≠ none → resolveAttr env ['r', 'd', 'f', ':', 't', 'y', 'p', 'e'] = some (['{'] ++ (env ['r', 'd', 'f']).getD [] ++ ['}'] ++ ['t', 'y', 'p', 'e']) := by
      intro hd
      cases dt with
      | none => exact absurd rfl hd
      | some d =>
        obtain ⟨_, p, hp, hr⟩ := h.2.2 d rfl
        have := he.pred p hp
        rw [hr] at this
        have e : nameParts ['r', 'd', 'f', ':', 't', 'y', 'p', 'e'] = (['r', 'd', 'f'], ['t', 'y', 'p', 'e']) := by decide
        unfold resolveAttr
        rw [if_neg (by rw [e]; decide), e]
        show (match env "rdf".toList with | some ns => _ | none => none) = _
        rw [this]
        have : env ['r', 'd', 'f'] = some (nsFix p.2) := this
        rw [this]
        rfl
    cases lang with
    | none =>
      cases dt with
      | none => rfl
      | some d => simp only [valueAttrs, valueAttrsRead, List.nil_append, resolveAttrs, h2 (by simp)]
    | some l =>
      cases dt with
      | none => simp only [valueAttrs, valueAttrsRead, List.append_nil, resolveAttrs, h1]
      | some d => simp only [valueAttrs, valueAttrsRead, List.cons_append, List.nil_append, resolveAttrs, h1, h2 (by simp)]

theorem tagSafe_value {name : Str} (hn : NameSafe name) {preds : List (Str × Str)} {o : Term} (h : ValueSafe preds o) : TagSafe name (valueAttrs o) := by
  refine ⟨hn, ?_, ?_⟩
  · cases o with
    | uri s => simp [valueAttrs]
    | bnode s => simp [valueAttrs]
    | lit s lang dt => cases lang <;> cases dt <;> simp [valueAttrs]
  · intro a ha
    cases o with
    | uri s => cases ha
    | bnode s => cases ha
    | lit s lang dt =>
      simp only [valueAttrs, List.mem_append] at ha
      rcases ha with ha | ha
      · cases lang with
        | none => cases ha
        | some l =>
          simp only [List.mem_singleton] at ha
          subst ha
          exact ⟨by dsimp only; decide, h.2.1 l rfl⟩
      · cases dt with
        | none => cases ha
        | some d =>
          simp only [List.mem_singleton] at ha
          subst ha
          exact ⟨by dsimp only; decide, (h.2.2 d rfl).1⟩

theorem noDecl_value (o : Term) : NoDecl (valueAttrs o) := by
  intro y hy
  cases o with
  | uri s => cases hy
  | bnode s => cases hy
  | lit s lang dt =>
    simp only [valueAttrs, List.mem_append] at hy
    rcases hy with hy | hy
    · cases lang with
      | none => cases hy
      | some l => simp only [List.mem_singleton] at hy; subst hy; rfl
    · cases dt with
      | none => cases hy
      | some d => simp only [List.mem_singleton] at hy; subst hy; rfl

theorem structured_namespace {qn : QNames} {p : Term} (h : Structured qn p) {pf ns name : Str} (hq : qn p.str = .ok (pf, ns, name)) :
    ns ≠ ['h', 't', 't', 'p', ':', '/', '/', 'c', 'h', 's', '.', 'h', 'a', 'r', 'v', 'a', 'r', 'd', '.', 'e', 'd', 'u', '/', 'x', 'm', 'l', 'n', 's', '/', 'c', 't', 's', '/'] := (h "http://chs.harvard.edu/xmlns/cts/" (by simp)).2 _ hq

theorem nameParts_ctsName {pf name : Str} (hpf : PrefixSafe pf) (hl : ':' ∉ name) : nameParts (ctsName pf name) = (pf, name) := by
  unfold ctsName
  split
  · rename_i h; subst h; exact nameParts_none hl
  · rename_i h
    rcases hpf with h' | ⟨_, h'⟩
    · exact absurd h' h
    · exact nameParts_some h'

theorem carries_line {env : Str → Option Str} {S : Store} {preds : List (Str × Str)} (he : EnvFor S preds env) {t : Triple}
    (hp : PredicateSafe S.qn preds t.p) (hs : Structured S.qn t.p) (hv : ValueSafe preds t.o) :
    ∃ s, metaLine S.qn t = .ok s ∧ Carries env s (lineTree env S.qn t) := by
  obtain ⟨u, pf, ns, name, h1, h2, _, h4, _, h6, h7, h8, _, h10⟩ := hp
  have hq : S.qn t.p.str = .ok (pf, ns, name) := by rw [h1]; exact h2
  refine ⟨_, by rw [metaLine, metaQname, hq], _, writes_complete (tagSafe_value (nameSafe_cts h6 h7) hv) hv.1 readsList_nil, noDecl_value _, ?_⟩
  have hns := structured_namespace hs hq
  have e : env pf = some ns := by
    have := he.pred _ h4
    rw [this, nsFix, if_neg hns]
  have ht : resolveTag env (ctsName pf name) = some (['{'] ++ ns ++ ['}'] ++ name) := by
    rw [resolveTag, nameParts_ctsName h6 h8, e]
    exact if_neg h10
  rw [resolveNode, ht, resolveAttrs_value he hv, resolveNodes, lineTree, lineTag, hq]

theorem notIn_structured {qn : QNames} {p : Term} :
    InExport (namespaceOf qn) none (some [.text ['h', 't', 't', 'p', ':', '/', '/', 'c', 'h', 's', '.', 'h', 'a', 'r', 'v', 'a', 'r', 'd', '.', 'e', 'd', 'u', '/', 'x', 'm', 'l', 'n', 's', '/', 'c', 't', 's', '/'], .text ['h', 't', 't', 'p', 's', ':', '/', '/', 'w', '3', 'i', 'd', '.', 'o', 'r', 'g', '/', 'd', 't', 's', '/', 'a', 'p', 'i', '#'], .text ['h', 't', 't', 'p', ':', '/', '/', 'w', 'w', 'w', '.', 'w', '3', '.', 'o', 'r', 'g', '/', '1', '9', '9', '9', '/', '0', '2', '/', '2', '2', '-', 'r', 'd', 'f', '-', 's', 'y', 'n', 't', 'a', 'x', '-', 'n', 's', '#']]) p ↔ Structured qn p := by
  have hn : ∀ ns, namespaceOf qn p.str = .ok ns ↔ ∃ x, qn p.str = .ok x ∧ x.2.1 = ns := by
    intro ns
    unfold namespaceOf
    cases qn p.str with
    | error e => constructor <;> (intro h; simp at h)
    | ok x => simp
  simp only [InExport, Refused, Structured, List.map_cons, List.map_nil, Choice.str]
  constructor
  · intro h ns hns
    have hm : ns.toList ∈ [['h', 't', 't', 'p', ':', '/', '/', 'c', 'h', 's', '.', 'h', 'a', 'r', 'v', 'a', 'r', 'd', '.', 'e', 'd', 'u', '/', 'x', 'm', 'l', 'n', 's', '/', 'c', 't', 's', '/'], ['h', 't', 't', 'p', 's', ':', '/', '/', 'w', '3', 'i', 'd', '.', 'o', 'r', 'g', '/', 'd', 't', 's', '/', 'a', 'p', 'i', '#'], ['h', 't', 't', 'p', ':', '/', '/', 'w', 'w', 'w', '.', 'w', '3', '.', 'o', 'r', 'g', '/', '1', '9', '9', '9', '/', '0', '2', '/', '2', '2', '-', 'r', 'd', 'f', '-', 's', 'y', 'n', 't', 'a', 'x', '-', 'n', 's', '#']] := by
      simp only [List.mem_cons, List.not_mem_nil, or_false] at hns
      rcases hns with rfl | rfl | rfl
      · exact List.mem_cons_self
      · exact List.mem_cons_of_mem _ List.mem_cons_self
      · exact List.mem_cons_of_mem _ (List.mem_cons_of_mem _ List.mem_cons_self)
    refine ⟨fun e => h (.inl (e ▸ hm)), fun x hx e => h (.inr ⟨ns.toList, (hn _).2 ⟨x, hx, e⟩, hm⟩)⟩
  · intro h
    have key : ∀ v ∈ [['h', 't', 't', 'p', ':', '/', '/', 'c', 'h', 's', '.', 'h', 'a', 'r', 'v', 'a', 'r', 'd', '.', 'e', 'd', 'u', '/', 'x', 'm', 'l', 'n', 's', '/', 'c', 't', 's', '/'], ['h', 't', 't', 'p', 's', ':', '/', '/', 'w', '3', 'i', 'd', '.', 'o', 'r', 'g', '/', 'd', 't', 's', '/', 'a', 'p', 'i', '#'], ['h', 't', 't', 'p', ':', '/', '/', 'w', 'w', 'w', '.', 'w', '3', '.', 'o', 'r', 'g', '/', '1', '9', '9', '9', '/', '0', '2', '/', '2', '2', '-', 'r', 'd', 'f', '-', 's', 'y', 'n', 't', 'a', 'x', '-', 'n', 's', '#']], p.str ≠ v ∧ ∀ x, qn p.str = .ok x → x.2.1 ≠ v := by
      intro v hv
      rcases List.mem_cons.1 hv with rfl | hv
      · exact h "http://chs.harvard.edu/xmlns/cts/" (by simp)
      rcases List.mem_cons.1 hv with rfl | hv
      · exact h "https://w3id.org/dts/api#" (by simp)
      rcases List.mem_cons.1 hv with rfl | hv
      · exact h "http://www.w3.org/1999/02/22-rdf-syntax-ns#" (by simp)
      · cases hv
    rintro (hm | ⟨ns, hns, hm⟩)
    · exact (key _ hm).1 rfl
    · obtain ⟨x, hx, e⟩ := (hn _).1 hns
      exact (key _ hm).2 x hx e

/-- What the export selects. -/
theorem block_ok {S : Store} {preds : List (Str × Str)} (hs : StoreSafe S preds) {id : Str} (h : NodeSafe S preds id) :
    ∃ sel, selectTriples S.order (namespaceOf S.qn) S.graph (.uri id) none
      (some [.text ['h', 't', 't', 'p', ':', '/', '/', 'c', 'h', 's', '.', 'h', 'a', 'r', 'v', 'a', 'r', 'd', '.', 'e', 'd', 'u', '/', 'x', 'm', 'l', 'n', 's', '/', 'c', 't', 's', '/'], .text ['h', 't', 't', 'p', 's', ':', '/', '/', 'w', '3', 'i', 'd', '.', 'o', 'r', 'g', '/', 'd', 't', 's', '/', 'a', 'p', 'i', '#'], .text ['h', 't', 't', 'p', ':', '/', '/', 'w', 'w', 'w', '.', 'w', '3', '.', 'o', 'r', 'g', '/', '1', '9', '9', '9', '/', '0', '2', '/', '2', '2', '-', 'r', 'd', 'f', '-', 's', 'y', 'n', 't', 'a', 'x', '-', 'n', 's', '#']]) = .ok sel ∧
      S.copyOrder sel.graph = blockOf S id := by
  have h1 : ∀ p ∈ predicatesOf S.order S.graph (.uri id), ∃ ns, namespaceOf S.qn p.str = .ok ns := by
    intro p hp
    obtain ⟨t, ht, hts, rfl⟩ := (mem_predicatesOf hs.order).1 hp
    obtain ⟨u, pf, ns, name, e1, e2, _⟩ := (h t ht hts).1
    exact ⟨ns, by rw [namespaceOf, e1]; show (match S.qn u with | .ok (_, ns, _) => _ | .error e => _) = _; rw [e2]⟩
  have : ∃ l, restOf (namespaceOf S.qn) ([Choice.text ['h', 't', 't', 'p', ':', '/', '/', 'c', 'h', 's', '.', 'h', 'a', 'r', 'v', 'a', 'r', 'd', '.', 'e', 'd', 'u', '/', 'x', 'm', 'l', 'n', 's', '/', 'c', 't', 's', '/'], .text ['h', 't', 't', 'p', 's', ':', '/', '/', 'w', '3', 'i', 'd', '.', 'o', 'r', 'g', '/', 'd', 't', 's', '/', 'a', 'p', 'i', '#'], .text ['h', 't', 't', 'p', ':', '/', '/', 'w', 'w', 'w', '.', 'w', '3', '.', 'o', 'r', 'g', '/', '1', '9', '9', '9', '/', '0', '2', '/', '2', '2', '-', 'r', 'd', 'f', '-', 's', 'y', 'n', 't', 'a', 'x', '-', 'n', 's', '#']].map Choice.str) []
      (predicatesOf S.order S.graph (.uri id)) = .ok l := restOf_some h1
  obtain ⟨l, hl⟩ := this
  have e : selectTriples S.order (namespaceOf S.qn) S.graph (.uri id) none
      (some [.text ['h', 't', 't', 'p', ':', '/', '/', 'c', 'h', 's', '.', 'h', 'a', 'r', 'v', 'a', 'r', 'd', '.', 'e', 'd', 'u', '/', 'x', 'm', 'l', 'n', 's', '/', 'c', 't', 's', '/'], .text ['h', 't', 't', 'p', 's', ':', '/', '/', 'w', '3', 'i', 'd', '.', 'o', 'r', 'g', '/', 'd', 't', 's', '/', 'a', 'p', 'i', '#'], .text ['h', 't', 't', 'p', ':', '/', '/', 'w', 'w', 'w', '.', 'w', '3', '.', 'o', 'r', 'g', '/', '1', '9', '9', '9', '/', '0', '2', '/', '2', '2', '-', 'r', 'd', 'f', '-', 's', 'y', 'n', 't', 'a', 'x', '-', 'n', 's', '#']]) =
      .ok ⟨copyListed (.uri id) l (pairsOf S.order S.graph (.uri id)), none⟩ := by
    unfold selectTriples
    dsimp only
    rw [hl]
  exact ⟨_, e, by rw [blockOf, e]⟩

theorem mem_block {S : Store} {preds : List (Str × Str)} (hs : StoreSafe S preds) {id : Str} (h : NodeSafe S preds id) (t : Triple) :
    t ∈ blockOf S id ↔ t ∈ S.graph ∧ t.s = .uri id ∧ Structured S.qn t.p := by
  obtain ⟨sel, h1, h2⟩ := block_ok hs h
  obtain ⟨keep, hk, hi⟩ := selectTriples_ok hs.order hs.set (only := none) trivial h1
  rw [← h2, (hs.copyOrder _).mem_iff, hk, List.mem_filter, (hs.order _).mem_iff]
  constructor
  · rintro ⟨hm, hb⟩
    simp only [Bool.and_eq_true, decide_eq_true_eq] at hb
    exact ⟨hm, hb.1, notIn_structured.1 ((hi t hm hb.1).1 hb.2)⟩
  · rintro ⟨hm, hb, hc⟩
    refine ⟨hm, ?_⟩
    simp only [Bool.and_eq_true, decide_eq_true_eq]
    exact ⟨hb, (hi t hm hb).2 (notIn_structured.2 hc)⟩

theorem resolveTag_block {S : Store} {preds : List (Str × Str)} {env : Str → Option Str} (he : EnvFor S preds env) :
    resolveTag env ['c', 'p', 't', ':', 's', 't', 'r', 'u', 'c', 't', 'u', 'r', 'e', 'd', '-', 'm', 'e', 't', 'a', 'd', 'a', 't', 'a'] = some ['{', 'h', 't', 't', 'p', ':', '/', '/', 'p', 'u', 'r', 'l', '.', 'o', 'r', 'g', '/', 'c', 'a', 'p', 'i', 't', 'a', 'i', 'n', 's', '/', 'n', 's', '/', '1', '.', '0', '#', '}', 's', 't', 'r', 'u', 'c', 't', 'u', 'r', 'e', 'd', '-', 'm', 'e', 't', 'a', 'd', 'a', 't', 'a'] := by
  have e : nameParts ['c', 'p', 't', ':', 's', 't', 'r', 'u', 'c', 't', 'u', 'r', 'e', 'd', '-', 'm', 'e', 't', 'a', 'd', 'a', 't', 'a'] = (['c', 'p', 't'], ['s', 't', 'r', 'u', 'c', 't', 'u', 'r', 'e', 'd', '-', 'm', 'e', 't', 'a', 'd', 'a', 't', 'a']) := by decide +kernel
  rw [resolveTag, e, he.cpt]
  exact if_neg (by decide +kernel)

theorem carries_block {env : Str → Option Str} {S : Store} {preds : List (Str × Str)} (he : EnvFor S preds env) {l : List Triple} {ss : List Str}
    (h : CarriesAll env ss (l.map fun t => withTail (lineTree env S.qn t) ['\n'])) :
    Carries env (join ['\n'] [makeXmlNode ['c', 'p', 't', ':', 's', 't', 'r', 'u', 'c', 't', 'u', 'r', 'e', 'd', '-', 'm', 'e', 't', 'a', 'd', 'a', 't', 'a'] false none [] false [], join ['\n'] ss, makeXmlNode ['c', 'p', 't', ':', 's', 't', 'r', 'u', 'c', 't', 'u', 'r', 'e', 'd', '-', 'm', 'e', 't', 'a', 'd', 'a', 't', 'a'] true none [] false []])
      (blockTree env S.qn l) := by
  obtain ⟨ws, hw, hr⟩ := h
  have hl : l = [] ↔ ss = [] := by
    constructor
    · rintro rfl
      rw [List.map_nil] at hr
      cases hw with
      | nil => rfl
      | cons a b =>
        rw [resolveNodes] at hr
        split at hr
        · cases hr
        · split at hr <;> cases hr
    · rintro rfl
      cases hw
      rw [resolveNodes] at hr
      cases l with
      | nil => rfl
      | cons x r => cases hr
  have hsafe : TagSafe ['c', 'p', 't', ':', 's', 't', 'r', 'u', 'c', 't', 'u', 'r', 'e', 'd', '-', 'm', 'e', 't', 'a', 'd', 'a', 't', 'a'] [] := ⟨by decide +kernel, by simp, by simp⟩
  have ht := resolveTag_block he
  by_cases hs : ss = []
  · have hl' := hl.2 hs
    subst hl' hs
    refine ⟨.mk ['c', 'p', 't', ':', 's', 't', 'r', 'u', 'c', 't', 'u', 'r', 'e', 'd', '-', 'm', 'e', 't', 'a', 'd', 'a', 't', 'a'] [] ['\n', '\n'] [] [], ?_, (by intro b hb; cases hb), ?_⟩
    · have := writes_node (tail0 := []) (text := ['\n', '\n']) hsafe (.inl ⟨rfl, rfl⟩ : HeadText [] []) (by decide) readsList_nil
      have e2 : xmlEscape ['\n', '\n'] = ['\n', '\n'] := by decide
      rw [e2] at this
      simpa [makeXmlNode, join] using this
    · rw [resolveNode, ht, resolveAttrs, resolveNodes]
      rfl
  · have hl' : l ≠ [] := fun h => hs (hl.1 h)
    refine ⟨.mk ['c', 'p', 't', ':', 's', 't', 'r', 'u', 'c', 't', 'u', 'r', 'e', 'd', '-', 'm', 'e', 't', 'a', 'd', 'a', 't', 'a'] [] ['\n'] ws [], ?_, (by intro b hb; cases hb), ?_⟩
    · have := writes_node (tail0 := []) (text := ['\n']) hsafe (.inl ⟨rfl, rfl⟩ : HeadText [] []) (by decide) hw.reads
      rw [xmlEscape_newline] at this
      have e := join_group (sep := ['\n']) (a := [makeXmlNode ['c', 'p', 't', ':', 's', 't', 'r', 'u', 'c', 't', 'u', 'r', 'e', 'd', '-', 'm', 'e', 't', 'a', 'd', 'a', 't', 'a'] false none [] false []]) (x := ss)
        (b := [makeXmlNode ['c', 'p', 't', ':', 's', 't', 'r', 'u', 'c', 't', 'u', 'r', 'e', 'd', '-', 'm', 'e', 't', 'a', 'd', 'a', 't', 'a'] true none [] false []]) (by simp) hs (by simp)
      rw [join_lines] at e
      have e2 : [makeXmlNode ['c', 'p', 't', ':', 's', 't', 'r', 'u', 'c', 't', 'u', 'r', 'e', 'd', '-', 'm', 'e', 't', 'a', 'd', 'a', 't', 'a'] false none [] false [], join ['\n'] ss, makeXmlNode ['c', 'p', 't', ':', 's', 't', 'r', 'u', 'c', 't', 'u', 'r', 'e', 'd', '-', 'm', 'e', 't', 'a', 'd', 'a', 't', 'a'] true none [] false []] =
        [makeXmlNode ['c', 'p', 't', ':', 's', 't', 'r', 'u', 'c', 't', 'u', 'r', 'e', 'd', '-', 'm', 'e', 't', 'a', 'd', 'a', 't', 'a'] false none [] false []] ++ [join ['\n'] ss] ++ [makeXmlNode ['c', 'p', 't', ':', 's', 't', 'r', 'u', 'c', 't', 'u', 'r', 'e', 'd', '-', 'm', 'e', 't', 'a', 'd', 'a', 't', 'a'] true none [] false []] := rfl
      rw [e2, ← e]
      simpa [makeXmlNode] using this
    · rw [resolveNode, ht, resolveAttrs, hr, blockTree, if_neg hl']

theorem lines_ok {env : Str → Option Str} {S : Store} {preds : List (Str × Str)} (hs : StoreSafe S preds) (he : EnvFor S preds env) {id : Str}
    (h : NodeSafe S preds id) :
    ∃ b, structuredLines S id = .ok b ∧ b ≠ [] ∧ Carries env (join ['\n'] b) (blockTree env S.qn (blockOf S id)) := by
  obtain ⟨sel, h1, h2⟩ := block_ok hs h
  have hm : ∀ t ∈ blockOf S id, ∃ s, metaLine S.qn t = .ok s ∧ Carries env s (lineTree env S.qn t) := by
    intro t ht
    obtain ⟨hg, hi, hst⟩ := (mem_block hs h t).1 ht
    obtain ⟨hp, hv⟩ := h t hg hi
    exact carries_line he hp hst (hv hst)
  obtain ⟨ss, hss, hc⟩ := carriesAll_members _ _ _ hm
  have hq : metaQname S.qn ['h', 't', 't', 'p', ':', '/', '/', 'p', 'u', 'r', 'l', '.', 'o', 'r', 'g', '/', 'c', 'a', 'p', 'i', 't', 'a', 'i', 'n', 's', '/', 'n', 's', '/', '1', '.', '0', '#', 's', 't', 'r', 'u', 'c', 't', 'u', 'r', 'e', 'd', '-', 'm', 'e', 't', 'a', 'd', 'a', 't', 'a'] = .ok ['c', 'p', 't', ':', 's', 't', 'r', 'u', 'c', 't', 'u', 'r', 'e', 'd', '-', 'm', 'e', 't', 'a', 'd', 'a', 't', 'a'] := by
    unfold metaQname
    have := hs.block
    rw [show "http://purl.org/capitains/ns/1.0#structured-metadata".toList = ['h', 't', 't', 'p', ':', '/', '/', 'p', 'u', 'r', 'l', '.', 'o', 'r', 'g', '/', 'c', 'a', 'p', 'i', 't', 'a', 'i', 'n', 's', '/', 'n', 's', '/', '1', '.', '0', '#', 's', 't', 'r', 'u', 'c', 't', 'u', 'r', 'e', 'd', '-', 'm', 'e', 't', 'a', 'd', 'a', 't', 'a'] from by decide +kernel] at this
    rw [this]
    decide +kernel
  refine ⟨_, ?_, ?_, carries_block he hc⟩
  · rw [structuredLines, hq]
    dsimp only
    rw [exportStructured, h1]
    dsimp only
    rw [h2, hss]
  · simp

end Verif.Lemmas
