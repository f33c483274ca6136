import Verif.Lemmas.InventoryXmlParse
namespace Verif.Lemmas
open Verif.Py Verif.Model Verif.Spec

/-! ### Resolving the names -/

theorem nameParts_none {t : Str} (h : ':' ∉ t) : nameParts t = ([], t) := if_neg h

theorem nameParts_some {p l : Str} (h : ':' ∉ p) : nameParts (p ++ ':' :: l) = (p, l) := by
  have hp : ∀ c ∈ p, (c != ':') = true := by intro c hc; simp; rintro rfl; exact h hc
  rw [nameParts, if_pos (by simp), takeWhile_append_stop _ hp (by decide), dropWhile_append_stop _ hp (by decide)]
  rfl

theorem resolveTag_cts {env : Str → Option Str} {pf l : Str} (hpf : PrefixSafe pf) (he : env pf = some ctsNamespace) (hl : ':' ∉ l) :
    resolveTag env (ctsName pf l) = some (['t', 'i', ':'] ++ l) := by
  have e : nameParts (ctsName pf l) = (pf, l) := by
    unfold ctsName
    split
    · rename_i h; subst h; exact nameParts_none hl
    · rename_i h
      rcases hpf with h' | ⟨_, h'⟩
      · exact absurd h' h
      · exact nameParts_some h'
  rw [resolveTag, e, he]
  exact if_pos rfl

/-- A name of an attribute that needs no resolution. -/
def PlainAttr (k : Str) : Prop := (nameParts k).1 ∈ [[], ['x', 'm', 'l'], ['x', 'm', 'l', 'n', 's']]

instance (k : Str) : Decidable (PlainAttr k) := by unfold PlainAttr; infer_instance

theorem resolveAttrs_plain (env : Str → Option Str) (a : List (Str × Str)) (h : ∀ x ∈ a, PlainAttr x.1) : resolveAttrs env a = some a := by
  induction a with
  | nil => rfl
  | cons x r ih =>
    obtain ⟨k, v⟩ := x
    have hk : resolveAttr env k = some k := if_pos (h (k, v) (by simp))
    rw [resolveAttrs, hk, ih fun y hy => h y (by simp [hy])]

/-- An attribute that is not a declaration. -/
def NoDecl (a : List (Str × Str)) : Prop := ∀ x ∈ a, (['x', 'm', 'l', 'n', 's'].isPrefixOf x.1) = false

mutual
/-- A tree with names of CTS, and no declarations below its root. -/
def CtsTree : Node → Prop
  | .mk t a _ ks _ => (∃ n, ':' ∉ n ∧ t = ['t', 'i', ':'] ++ n) ∧ (∀ b ∈ a, PlainAttr b.1) ∧ CtsTrees ks
def CtsTrees : List Node → Prop
  | [] => True
  | n :: r => NoDecl n.attrs ∧ CtsTree n ∧ CtsTrees r
end

theorem ctsTrees_of {ks : List Node} (h : ∀ n ∈ ks, NoDecl n.attrs ∧ CtsTree n) : CtsTrees ks := by
  induction ks with
  | nil => rw [CtsTrees]; trivial
  | cons n r ih =>
    rw [CtsTrees]
    exact ⟨(h n (by simp)).1, (h n (by simp)).2, ih fun x hx => h x (by simp [hx])⟩

theorem attrs_retag (pf : Str) (n : Node) : (retagNode pf n).attrs = n.attrs := by cases n; rfl

mutual
theorem resolve_retag {env : Str → Option Str} {pf : Str} (hpf : PrefixSafe pf) (he : env pf = some ctsNamespace) :
    ∀ (n : Node), CtsTree n → resolveNode env (retagNode pf n) = some n
  | .mk t a x ks l => by
    intro h
    rw [CtsTree] at h
    obtain ⟨⟨m, hm, rfl⟩, ha, hk⟩ := h
    rw [retagNode, resolveNode, resolves_retag hpf he ks hk, resolveAttrs_plain env a ha,
      show retag pf (['t', 'i', ':'] ++ m) = ctsName pf m from rfl, resolveTag_cts hpf he hm]
theorem resolves_retag {env : Str → Option Str} {pf : Str} (hpf : PrefixSafe pf) (he : env pf = some ctsNamespace) :
    ∀ (ks : List Node), CtsTrees ks → resolveNodes env (retagNodes pf ks) = some ks
  | [] => by intro _; rw [retagNodes, resolveNodes]
  | n :: r => by
    intro h
    rw [CtsTrees] at h
    obtain ⟨h1, h2, h3⟩ := h
    rw [retagNodes, resolveNodes, attrs_retag, resolve_retag hpf he n h2, resolves_retag hpf he r h3, if_neg]
    rw [List.any_eq_true]
    rintro ⟨y, hy, hx⟩
    exact absurd (h1 y hy) (by rw [show ['x', 'm', 'l', 'n', 's'] = "xmlns".toList from rfl, hx]; decide)
end

theorem noDecl_parent (id lang name : Str) (parent : Option Str) (hn : (['x', 'm', 'l', 'n', 's'].isPrefixOf name) = false) :
    NoDecl ([(['u', 'r', 'n'], id), (['x', 'm', 'l', ':', 'l', 'a', 'n', 'g'], lang)] ++ parentAttr name parent) := by
  intro y hy
  simp only [List.mem_append, List.mem_cons, List.not_mem_nil, or_false] at hy
  rcases hy with (rfl | rfl) | hy
  · rfl
  · rfl
  · unfold parentAttr at hy
    split at hy
    · simp only [List.mem_singleton] at hy; subst hy; exact hn
    · cases hy

theorem plain_parent (id lang name : Str) (parent : Option Str) (hn : PlainAttr name) :
    ∀ b ∈ [(['u', 'r', 'n'], id), (['x', 'm', 'l', ':', 'l', 'a', 'n', 'g'], lang)] ++ parentAttr name parent, PlainAttr b.1 := by
  intro y hy
  simp only [List.mem_append, List.mem_cons, List.not_mem_nil, or_false] at hy
  rcases hy with (rfl | rfl) | hy
  · show PlainAttr ['u', 'r', 'n']; decide
  · show PlainAttr ['x', 'm', 'l', ':', 'l', 'a', 'n', 'g']; decide
  · unfold parentAttr at hy
    split at hy
    · simp only [List.mem_singleton] at hy; subst hy; exact hn
    · cases hy

theorem plain_nsKey (p : Str × Str) : PlainAttr (nsKey p) := by
  unfold nsKey
  split
  · decide
  · have : nameParts (['x', 'm', 'l', 'n', 's', ':'] ++ p.1) = (['x', 'm', 'l', 'n', 's'], p.1) := nameParts_some (p := ['x', 'm', 'l', 'n', 's']) (by decide)
    unfold PlainAttr
    rw [this]; simp

theorem plain_header (attrs : List (Str × Str)) (ns : Option (List (Str × Str))) (h : ∀ b ∈ attrs, PlainAttr b.1) :
    ∀ b ∈ withHeader attrs ns, PlainAttr b.1 := by
  cases ns with
  | none => exact h
  | some preds =>
    have e : withHeader attrs (some preds) = (namespacesHeader preds).foldl (fun d p => putItem d (id p).1 (id p).2) attrs := rfl
    rw [e]
    intro b hb
    rcases (foldl_put id (namespacesHeader preds) attrs).2.1 b hb with hb | ⟨p, hp, rfl⟩
    · exact h b hb
    · obtain ⟨q, _, rfl⟩ := mem_header hp
      exact plain_nsKey q

theorem ctsTree_lit {tag : Str} (ht : ∃ n, ':' ∉ n ∧ tag = ['t', 'i', ':'] ++ n) (x : Lit) (l : Str) :
    NoDecl (withTail (litTree tag x) l).attrs ∧ CtsTree (withTail (litTree tag x) l) := by
  refine ⟨?_, ?_⟩
  · intro y hy
    simp only [withTail, litTree, Node.attrs, List.mem_singleton] at hy
    subst hy; rfl
  · rw [litTree, withTail, CtsTree]
    refine ⟨ht, ?_, by rw [CtsTrees]; trivial⟩
    intro y hy
    simp only [List.mem_singleton] at hy
    subst hy
    show PlainAttr ['x', 'm', 'l', ':', 'l', 'a', 'n', 'g']; decide

theorem citeAttrs_keys (l : CiteLevel) : ∀ b ∈ citeAttrs l, b.1 = ['x', 'p', 'a', 't', 'h'] ∨ b.1 = ['s', 'c', 'o', 'p', 'e'] ∨ b.1 = ['l', 'a', 'b', 'e', 'l'] := by
  intro b hb
  unfold citeAttrs at hb
  split at hb
  · simp only [List.mem_cons, List.not_mem_nil, or_false] at hb
    rcases hb with rfl | rfl | rfl
    · exact .inl rfl
    · exact .inr (.inl rfl)
    · exact .inr (.inr rfl)
  · cases hb

theorem ctsTree_cite (c : List CiteLevel) : CtsTrees (citeTree c) := by
  induction c with
  | nil => rw [citeTree, CtsTrees]; trivial
  | cons l r ih =>
    rw [citeTree]
    apply ctsTrees_of
    intro n hn
    simp only [List.mem_singleton] at hn
    subst hn
    refine ⟨?_, ?_⟩
    · intro b hb
      rcases citeAttrs_keys l b hb with h | h | h <;> rw [h] <;> rfl
    · rw [CtsTree]
      refine ⟨⟨['c', 'i', 't', 'a', 't', 'i', 'o', 'n'], by decide, rfl⟩, ?_, ih⟩
      intro b hb
      rcases citeAttrs_keys l b hb with h | h | h <;> rw [h] <;> decide

theorem ctsTree_online (c : List CiteLevel) : ∀ n ∈ onlineTree c, NoDecl n.attrs ∧ CtsTree n := by
  intro n hn
  unfold onlineTree at hn
  split at hn
  · cases hn
  · simp only [List.mem_singleton] at hn
    subst hn
    refine ⟨(by intro b hb; cases hb), ?_⟩
    rw [CtsTree]
    refine ⟨⟨['o', 'n', 'l', 'i', 'n', 'e'], by decide, rfl⟩, (by intro b hb; cases hb), ?_⟩
    apply ctsTrees_of
    intro n hn
    simp only [List.mem_singleton] at hn
    subst hn
    refine ⟨(by intro b hb; cases hb), ?_⟩
    rw [CtsTree]
    exact ⟨⟨['c', 'i', 't', 'a', 't', 'i', 'o', 'n', 'M', 'a', 'p', 'p', 'i', 'n', 'g'], by decide, rfl⟩, (by intro b hb; cases hb), ctsTree_cite c⟩

theorem ctsTree_text (ns : Option (List (Str × Str))) (parent : Option Str) (t : XText) (l : Str) : CtsTree (withTail (textTree ns parent t) l) := by
  rw [textTree, withTail, CtsTree]
  refine ⟨⟨kindTag t.kind, by cases t.kind <;> decide, rfl⟩, plain_header _ _ (plain_parent _ _ _ _ (by decide)), ?_⟩
  apply ctsTrees_of
  intro n hn
  simp only [textKids, List.mem_append, List.mem_map] at hn
  rcases hn with ((⟨x, _, rfl⟩ | ⟨x, _, rfl⟩) | ⟨x, _, rfl⟩) | hn
  · exact ctsTree_lit ⟨['l', 'a', 'b', 'e', 'l'], by decide, rfl⟩ _ _
  · exact ctsTree_lit ⟨['d', 'e', 's', 'c', 'r', 'i', 'p', 't', 'i', 'o', 'n'], by decide, rfl⟩ _ _
  · refine ⟨?_, ?_⟩
    · intro b hb
      simp only [withTail, aboutTree, Node.attrs, List.mem_singleton] at hb
      subst hb; rfl
    · rw [aboutTree, withTail, CtsTree]
      refine ⟨⟨['a', 'b', 'o', 'u', 't'], by decide, rfl⟩, ?_, by rw [CtsTrees]; trivial⟩
      intro b hb
      simp only [List.mem_singleton] at hb
      subst hb
      show PlainAttr ['u', 'r', 'n']; decide
  · exact ctsTree_online _ n hn

theorem ctsTree_work (ns : Option (List (Str × Str))) (parent : Option Str) (w : XWork) (l : Str) : CtsTree (withTail (workTree ns parent w) l) := by
  rw [workTree, withTail, CtsTree]
  refine ⟨⟨['w', 'o', 'r', 'k'], by decide, rfl⟩, plain_header _ _ (plain_parent _ _ _ _ (by decide)), ?_⟩
  apply ctsTrees_of
  intro n hn
  simp only [workKids, List.mem_append, List.mem_map] at hn
  rcases hn with ⟨x, _, rfl⟩ | ⟨x, _, rfl⟩
  · exact ctsTree_lit ⟨['t', 'i', 't', 'l', 'e'], by decide, rfl⟩ _ _
  · exact ⟨noDecl_parent _ _ _ _ rfl, ctsTree_text _ _ _ _⟩

theorem ctsTree_group (ns : Option (List (Str × Str))) (g : XGroup) (l : Str) : CtsTree (withTail (groupTree ns g) l) := by
  rw [groupTree, withTail, CtsTree]
  refine ⟨⟨['t', 'e', 'x', 't', 'g', 'r', 'o', 'u', 'p'], by decide, rfl⟩, plain_header _ _ ?_, ?_⟩
  · intro b hb
    simp only [List.mem_singleton] at hb
    subst hb
    show PlainAttr ['u', 'r', 'n']; decide
  apply ctsTrees_of
  intro n hn
  simp only [groupKids, List.mem_append, List.mem_map] at hn
  rcases hn with ⟨x, _, rfl⟩ | ⟨x, _, rfl⟩
  · exact ctsTree_lit ⟨['g', 'r', 'o', 'u', 'p', 'n', 'a', 'm', 'e'], by decide, rfl⟩ _ _
  · exact ⟨noDecl_parent _ _ _ _ rfl, ctsTree_work _ _ _ _⟩

theorem ctsTree_inv (ns : Option (List (Str × Str))) (i : XInv) (l : Str) : CtsTree (withTail (invTree ns i) l) := by
  rw [invTree, withTail, CtsTree]
  refine ⟨⟨['T', 'e', 'x', 't', 'I', 'n', 'v', 'e', 'n', 't', 'o', 'r', 'y'], by decide, rfl⟩, plain_header _ _ ?_, ?_⟩
  · intro b hb
    split at hb
    · cases hb
    · simp only [List.mem_singleton] at hb
      subst hb
      show PlainAttr ['t', 'i', 'i', 'd']; decide
  apply ctsTrees_of
  intro n hn
  simp only [List.mem_map] at hn
  obtain ⟨x, _, rfl⟩ := hn
  refine ⟨?_, ctsTree_group _ _ _⟩
  intro b hb
  simp only [withTail, groupTree, Node.attrs, withHeader, List.mem_singleton] at hb
  subst hb; rfl

theorem readCts_of_writes {pf s t : Str} {attrs : List (Str × Str)} {x : Str} {ks : List Node} {l : Str} {preds : List (Str × Str)}
    (h : HeaderSafe pf preds) (hc : CtsTree (withTail (.mk t (withHeader attrs (some preds)) x ks l) []))
    (hw : Writes s (retagNode pf (.mk t (withHeader attrs (some preds)) x ks l))) :
    readCts s = some (.mk t (withHeader attrs (some preds)) x ks []) := by
  rw [readCts, readXml_of_writes hw]
  dsimp only
  rw [← retag_withTail]
  refine resolve_retag h.name ?_ _ hc
  rw [declared, Node.get, attrs_retag]
  exact header_cts h attrs

end Verif.Lemmas
