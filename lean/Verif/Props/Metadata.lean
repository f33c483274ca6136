import Verif.Spec.Metadata
/-!
C48, C49, C50: the metadata of objects in the shared graph. Theorems are about `Verif/Model/Metadata.lean`;
the vocabulary of the statements is in `Verif/Spec/Metadata.lean`. `order` is the unspecified order in which the
graph is read; the theorems hold for all of them.
-/
namespace Verif.Props
open Verif.Py Verif.Model Verif.Spec

theorem toTerm_eq (v : Value) (l : Option Str) : toTerm v l = stored v l := by
  cases v with
  | str s => cases l <;> rfl
  | term t => cases t <;> cases l <;> rfl

theorem mem_insert {g : Graph} {t u : Triple} : t ∈ g.insert u ↔ t ∈ g ∨ t = u := by
  unfold Graph.insert
  split
  · rename_i h; constructor
    · exact .inl
    · rintro (h' | rfl)
      · exact h'
      · exact h
  · simp

theorem nodup_insert {g : Graph} {u : Triple} (h : g.Nodup) : (g.insert u).Nodup := by
  unfold Graph.insert
  split
  · exact h
  · rename_i hn
    rw [List.nodup_append]
    exact ⟨h, by simp, by simp; exact fun a ha => by rintro rfl; exact hn ha⟩

theorem matches_iff {s p o : Option Term} {t : Triple} : t.matches s p o = true ↔
    (s = none ∨ s = some t.s) ∧ (p = none ∨ p = some t.p) ∧ (o = none ∨ o = some t.o) := by
  unfold Triple.matches
  cases s <;> cases p <;> cases o <;> simp [and_assoc]

theorem mem_removeAll {g : Graph} {s p o : Option Term} {t : Triple} : t ∈ g.removeAll s p o ↔
    t ∈ g ∧ ¬ ((s = none ∨ s = some t.s) ∧ (p = none ∨ p = some t.p) ∧ (o = none ∨ o = some t.o)) := by
  unfold Graph.removeAll
  rw [List.mem_filter, ← matches_iff]
  simp

theorem mem_objects {order : Order} (ho : Rearranges order) {g : Graph} {s p o : Term} :
    o ∈ g.objects order s p ↔ (⟨s, p, o⟩ : Triple) ∈ g := by
  unfold Graph.objects
  simp only [List.mem_map, List.mem_filter, matches_iff, (ho g).mem_iff]
  constructor
  · rintro ⟨⟨s', p', o'⟩, ⟨h1, h2⟩, rfl⟩
    simp at h2
    obtain ⟨rfl, rfl⟩ := h2
    exact h1
  · intro h
    exact ⟨_, ⟨h, by simp⟩, rfl⟩

/-- What one operation does to one triple. -/
theorem mem_run {g : Graph} {op : MetaOp} {n k o : Term} :
    (⟨n, k, o⟩ : Triple) ∈ op.run g ↔ Writes op n k o ∨ ((⟨n, k, o⟩ : Triple) ∈ g ∧ ¬ Erases op n k o) := by
  cases op with
  | set n' k' v l =>
    simp only [MetaOp.run, metaSet, Graph.setValue, mem_insert, mem_removeAll, toTerm_eq, Writes, Erases, MetaOp.set.injEq,
      Triple.mk.injEq, reduceCtorEq, or_false, false_and, exists_false]
    constructor
    · rintro (⟨h1, h2⟩ | ⟨rfl, rfl, rfl⟩)
      · refine .inr ⟨h1, ?_⟩
        rintro ⟨v', l', rfl, rfl, rfl, rfl⟩
        simp at h2
      · exact .inl ⟨v, l, by simp⟩
    · rintro (⟨v', l', ⟨rfl, rfl, rfl, rfl⟩, rfl⟩ | ⟨h1, h2⟩)
      · exact .inr ⟨rfl, rfl, rfl⟩
      · refine .inl ⟨h1, ?_⟩
        rintro ⟨e1, e2, _⟩
        simp at e1 e2
        exact h2 ⟨v, l, e1, e2, rfl, rfl⟩
  | add n' k' v l =>
    simp only [MetaOp.run, metaAdd, mem_insert, toTerm_eq, Writes, Erases, MetaOp.add.injEq,
      Triple.mk.injEq, reduceCtorEq, false_or, false_and, exists_false, or_false, not_false_eq_true, and_true]
    constructor
    · rintro (h | ⟨rfl, rfl, rfl⟩)
      · exact .inr h
      · exact .inl ⟨v, l, by simp⟩
    · rintro (⟨v', l', ⟨rfl, rfl, rfl, rfl⟩, rfl⟩ | h)
      · exact .inr ⟨rfl, rfl, rfl⟩
      · exact .inl h
  | remove n' p x =>
    simp only [MetaOp.run, metaRemove, mem_removeAll, Writes, Erases, MetaOp.remove.injEq,
      reduceCtorEq, false_and, exists_false, or_false, false_or, and_congr_right_iff, Option.some.injEq]
    intro _
    constructor
    · rintro h ⟨p', x', ⟨rfl, rfl, rfl⟩, h2, h3⟩
      exact h ⟨rfl, h2, h3⟩
    · rintro h ⟨rfl, h2, h3⟩
      exact h ⟨p, x, ⟨rfl, rfl, rfl⟩, h2, h3⟩
  | unlink n' s p =>
    simp only [MetaOp.run, metaUnlink, mem_removeAll, Writes, Erases, MetaOp.unlink.injEq,
      reduceCtorEq, false_and, exists_false, or_false, false_or, and_congr_right_iff, Option.some.injEq]
    intro _
    constructor
    · rintro h ⟨s', p', ⟨rfl, rfl, rfl⟩, h2, h3⟩
      exact h ⟨h2, h3, rfl⟩
    · rintro h ⟨h2, h3, rfl⟩
      exact h ⟨s, p, ⟨rfl, rfl, rfl⟩, h2, h3⟩

theorem mem_runOps {ops : List MetaOp} {g : Graph} {n k o : Term} :
    (⟨n, k, o⟩ : Triple) ∈ runOps g ops ↔ Holds ((⟨n, k, o⟩ : Triple) ∈ g) ops n k o := by
  unfold runOps
  induction ops generalizing g with
  | nil => simp [Holds]
  | cons op ops ih =>
    rw [List.foldl_cons, ih]
    simp only [Holds, mem_run, List.mem_cons, forall_eq_or_imp]
    constructor
    · rintro (⟨hw | ⟨hg, he⟩, h⟩ | ⟨pre, x, post, rfl, hw, he⟩)
      · exact .inr ⟨[], op, ops, rfl, hw, h⟩
      · exact .inl ⟨hg, he, h⟩
      · exact .inr ⟨op :: pre, x, post, rfl, hw, he⟩
    · rintro (⟨hg, he, h⟩ | ⟨pre, x, post, e, hw, he⟩)
      · exact .inl ⟨.inr ⟨hg, he⟩, h⟩
      · cases pre with
        | nil =>
          simp at e
          obtain ⟨rfl, rfl⟩ := e
          exact .inl ⟨.inl hw, he⟩
        | cons y pre =>
          simp at e
          obtain ⟨rfl, rfl⟩ := e
          exact .inr ⟨pre, x, post, rfl, hw, he⟩

/-- C48. After any operations on any objects, `get` gives exactly the values that were written for that object
and key and not erased since (or that were in the graph before and never erased). -/
theorem C48_get_after_history (order : Order) (ho : Rearranges order) (g : Graph) (ops : List MetaOp) (n k : Term) :
    ∃ values, metaGet order (runOps g ops) n k none = .ok values ∧
      ∀ o, o ∈ values ↔ Holds ((⟨n, k, o⟩ : Triple) ∈ g) ops n k o :=
  ⟨_, rfl, fun o => by rw [mem_objects ho, mem_runOps]⟩

/-- C48. No value is listed twice. -/
theorem C48_no_duplicates (order : Order) (ho : Rearranges order) (g : Graph) (hg : g.Nodup) (ops : List MetaOp) (n k : Term) :
    ∃ values, metaGet order (runOps g ops) n k none = .ok values ∧ values.Nodup := by
  have hrun : ∀ (ops : List MetaOp) (g : Graph), g.Nodup → (runOps g ops).Nodup := by
    intro ops
    induction ops with
    | nil => intro g hg; exact hg
    | cons op ops ih =>
      intro g hg
      show (runOps (op.run g) ops).Nodup
      apply ih
      cases op with
      | set => exact nodup_insert (hg.filter _)
      | add => exact nodup_insert hg
      | remove => exact hg.filter _
      | unlink => exact hg.filter _
  refine ⟨_, rfl, ?_⟩
  unfold Graph.objects
  have h := (((ho _).nodup_iff).2 (hrun ops g hg)).filter fun t => t.matches (some n) (some k) none
  refine (List.pairwise_map.2 (List.Pairwise.imp_of_mem ?_ h))
  intro a b ha hb hne e
  rw [List.mem_filter, matches_iff] at ha hb
  apply hne
  cases a; cases b
  simp_all

/-- C48. Operations of one object, and of values that it does not have, leave the values of another object. -/
theorem C48_objects_apart (order : Order) (ho : Rearranges order) (g : Graph) (op : MetaOp) (n k o : Term)
    (h : match op with
      | .set n' k' _ _ => n' ≠ n ∨ k' ≠ k
      | .add n' k' _ _ => n' ≠ n ∨ k' ≠ k
      | .remove n' p _ => n' ≠ n ∨ p.any (· != k)
      | .unlink n' _ _ => n' ≠ o) :
    o ∈ (op.run g).objects order n k ↔ o ∈ g.objects order n k := by
  rw [mem_objects ho, mem_objects ho, mem_run]
  have h1 : ¬ Writes op n k o := by
    rintro ⟨v, l, (rfl | rfl), _⟩ <;> simp at h
  have h2 : ¬ Erases op n k o := by
    rintro (⟨v, l, rfl⟩ | ⟨p, x, rfl, hp, _⟩ | ⟨s, p, rfl, _⟩)
    · simp at h
    · rcases hp with rfl | rfl <;> simp at h
    · simp at h
  simp [h1, h2]

/-- C48. What is read back right after `set`, and that `add` keeps the other values. -/
theorem C48_set_get (order : Order) (ho : Rearranges order) (g : Graph) (n k : Term) (v : Value) (l : Option Str) :
    metaGet order (metaSet g n k v l) n k none = .ok [stored v l] := by
  have hmem : ∀ o, o ∈ (metaSet g n k v l).objects order n k ↔ o = stored v l := by
    intro o
    rw [mem_objects ho]
    have := mem_run (g := g) (op := .set n k v l) (n := n) (k := k) (o := o)
    simp only [MetaOp.run] at this
    rw [this]
    constructor
    · rintro (⟨v', l', h, rfl⟩ | ⟨_, h⟩)
      · simp at h; obtain ⟨rfl, rfl⟩ := h; rfl
      · exact absurd (.inl ⟨v, l, rfl⟩) h
    · rintro rfl; exact .inl ⟨v, l, .inl rfl, rfl⟩
  have hnd : ((metaSet g n k v l).objects order n k).length = 1 := by
    unfold Graph.objects
    rw [List.length_map, ((ho _).filter _).length_eq]
    unfold metaSet Graph.setValue Graph.insert
    have hno : (⟨n, k, toTerm v l⟩ : Triple) ∉ g.removeAll (some n) (some k) none := by
      rw [mem_removeAll]; simp
    rw [if_neg hno, List.filter_append]
    have h0 : (g.removeAll (some n) (some k) none).filter (fun t => t.matches (some n) (some k) none) = [] := by
      rw [List.filter_eq_nil_iff]
      intro t ht hm
      rw [mem_removeAll, ← matches_iff] at ht
      exact ht.2 hm
    rw [h0]
    simp [Triple.matches]
  obtain ⟨x, hx⟩ := List.length_eq_one_iff.1 hnd
  show Except.ok _ = _
  rw [hx]
  have := (hmem x).1 (by rw [hx]; simp)
  rw [this]

/-! ## C49 -/

theorem inLang_ok {l : Str} {os : List Term} (h : ∀ o ∈ os, IsLiteral o) :
    ∃ m, inLang l os = .ok m ∧ ∀ o, o ∈ m ↔ o ∈ os ∧ InLanguage l o := by
  induction os with
  | nil => exact ⟨[], rfl, by simp⟩
  | cons o r ih =>
    obtain ⟨m, hm, hm'⟩ := ih fun o ho => h o (List.mem_cons_of_mem _ ho)
    obtain ⟨s, la, d, rfl⟩ := h o (List.mem_cons_self ..)
    simp only [inLang, Term.language, hm]
    refine ⟨_, rfl, ?_⟩
    intro o
    by_cases hl : la = some l
    · subst hl
      simp only [if_true, List.mem_cons, hm']
      constructor
      · rintro (rfl | ⟨h1, h2⟩)
        · exact ⟨.inl rfl, s, d, rfl⟩
        · exact ⟨.inr h1, h2⟩
      · rintro ⟨rfl | h1, h2⟩
        · exact .inl rfl
        · exact .inr ⟨h1, h2⟩
    · rw [if_neg hl, hm']
      simp only [List.mem_cons]
      constructor
      · rintro ⟨h1, h2⟩; exact ⟨.inr h1, h2⟩
      · rintro ⟨rfl | h1, h2⟩
        · obtain ⟨s', d', e⟩ := h2
          simp at e
          exact absurd e.2.1 hl
        · exact ⟨h1, h2⟩

/-- C49. Values in a language are exactly the values that are literals in it, when all values are literals. -/
theorem C49_get_language (order : Order) (ho : Rearranges order) (g : Graph) (n k : Term) (l : Str)
    (h : ∀ o, (⟨n, k, o⟩ : Triple) ∈ g → IsLiteral o) :
    ∃ values, metaGet order g n k (some l) = .ok values ∧ ∀ o, o ∈ values ↔ (⟨n, k, o⟩ : Triple) ∈ g ∧ InLanguage l o := by
  obtain ⟨m, h1, h2⟩ := inLang_ok (l := l) (os := g.objects order n k) fun o hm => h o ((mem_objects ho).1 hm)
  exact ⟨m, h1, fun o => by rw [h2, mem_objects ho]⟩

theorem singleLoop_ok {l : Str} {os : List Term} (h : ∀ o ∈ os, IsLiteral o) (d : Option Term) :
    ∃ r, singleLoop l d os = .ok r ∧
      ((∃ o, o ∈ os ∧ InLanguage l o ∧ r = some o) ∨ ((∀ o ∈ os, ¬ InLanguage l o) ∧ r = os.getLast?.or d)) := by
  induction os generalizing d with
  | nil => exact ⟨d, rfl, .inr ⟨by simp, by simp⟩⟩
  | cons o r ih =>
    obtain ⟨s, la, dt, rfl⟩ := h o (List.mem_cons_self ..)
    simp only [singleLoop, Term.language]
    by_cases hl : la = some l
    · subst hl
      exact ⟨_, by rw [if_pos rfl], .inl ⟨_, List.mem_cons_self .., ⟨s, dt, rfl⟩, rfl⟩⟩
    · rw [if_neg hl]
      obtain ⟨x, h1, h2⟩ := ih (fun o ho => h o (List.mem_cons_of_mem _ ho)) (some (.lit s la dt))
      refine ⟨x, h1, ?_⟩
      rcases h2 with ⟨o, ho, hi, rfl⟩ | ⟨hn, rfl⟩
      · exact .inl ⟨o, List.mem_cons_of_mem _ ho, hi, rfl⟩
      · refine .inr ⟨?_, ?_⟩
        · intro o ho
          rw [List.mem_cons] at ho
          rcases ho with rfl | ho
          · rintro ⟨s', d', e⟩; simp at e; exact hl e.2.1
          · exact hn o ho
        · cases r with
          | nil => simp
          | cons y r => simp [List.getLast?_cons]

/-- C49. `get_single(key, lang)`, in whatever order the graph is read, gives a value in that language when there
is one, otherwise some value of the key, and `None` exactly when there is no value. All values are literals. -/
theorem C49_single (order : Order) (ho : Rearranges order) (g : Graph) (n k : Term) (l : Str)
    (h : ∀ o, (⟨n, k, o⟩ : Triple) ∈ g → IsLiteral o) :
    ∃ r, metaGetSingle order g n k (some l) = .ok r ∧
      (∀ o, r = some o → (⟨n, k, o⟩ : Triple) ∈ g) ∧
      ((∃ o, (⟨n, k, o⟩ : Triple) ∈ g ∧ InLanguage l o) → ∃ o, r = some o ∧ InLanguage l o) ∧
      (r = none ↔ ∀ o, (⟨n, k, o⟩ : Triple) ∉ g) := by
  obtain ⟨r, h1, h2⟩ := singleLoop_ok (l := l) (os := g.objects order n k) (fun o hm => h o ((mem_objects ho).1 hm)) none
  refine ⟨r, h1, ?_, ?_, ?_⟩
  · rintro o rfl
    rcases h2 with ⟨o', hm, _, e⟩ | ⟨_, e⟩
    · simp at e; subst e; exact (mem_objects ho).1 hm
    · rw [Option.or_none] at e
      exact (mem_objects ho).1 (List.mem_of_getLast? e.symm)
  · rintro ⟨o, hm, hi⟩
    rcases h2 with ⟨o', _, hi', e⟩ | ⟨hn, _⟩
    · exact ⟨o', e, hi'⟩
    · exact absurd hi (hn o ((mem_objects ho).2 hm))
  · constructor
    · rintro rfl o hm
      rcases h2 with ⟨o', _, _, e⟩ | ⟨_, e⟩
      · cases e
      · rw [Option.or_none] at e
        have := List.getLast?_eq_none_iff.1 e.symm
        rw [← mem_objects ho, this] at hm
        simp at hm
    · intro hn
      have : g.objects order n k = [] := List.eq_nil_iff_forall_not_mem.2 fun o hm => hn o ((mem_objects ho).1 hm)
      rw [this] at h2
      rcases h2 with ⟨o', hm, _⟩ | ⟨_, e⟩
      · simp at hm
      · simpa using e

/-- C49. Without a language some value is given, and `None` exactly when there is none. -/
theorem C49_single_any (order : Order) (ho : Rearranges order) (g : Graph) (n k : Term) :
    ∃ r, metaGetSingle order g n k none = .ok r ∧ (∀ o, r = some o → (⟨n, k, o⟩ : Triple) ∈ g) ∧
      (r = none ↔ ∀ o, (⟨n, k, o⟩ : Triple) ∉ g) := by
  refine ⟨_, rfl, ?_, ?_⟩
  · intro o ho'
    exact (mem_objects ho).1 (List.mem_of_mem_head? ho')
  · rw [List.head?_eq_none_iff, List.eq_nil_iff_forall_not_mem]
    constructor
    · intro h o hm; exact h o ((mem_objects ho).2 hm)
    · intro h o hm; exact h o ((mem_objects ho).1 hm)

/-- C49 fails when a value is a link: with the same graph, one order of reading gives the value in the language
and another one raises `AttributeError`. -/
theorem C49_fails_with_link : ∃ (g : Graph) (n k : Term) (o1 o2 : Order), Rearranges o1 ∧ Rearranges o2 ∧
    metaGetSingle o1 g n k (some "en".toList) = .ok (some (.lit "Poems".toList (some "en".toList) none)) ∧
    metaGetSingle o2 g n k (some "en".toList) = .error .attributeError :=
  ⟨[⟨.uri ['n'], .uri ['k'], .lit "Poems".toList (some "en".toList) none⟩, ⟨.uri ['n'], .uri ['k'], .uri "urn:x".toList⟩],
    .uri ['n'], .uri ['k'], id, List.reverse, fun _ => .refl _, fun g => List.reverse_perm g, by decide, by decide⟩

/-! ## C50 -/

/-- C50. `remove` removes exactly the values that match, of this object only. -/
theorem C50_remove (g : Graph) (n : Term) (p o : Option Term) (t : Triple) :
    t ∈ metaRemove g n p o ↔ t ∈ g ∧ ¬ (t.s = n ∧ (p = none ∨ p = some t.p) ∧ (o = none ∨ o = some t.o)) := by
  rw [metaRemove, mem_removeAll]
  simp [eq_comm]

/-- C50. `unlink` removes exactly the triples that have the object as value and match. -/
theorem C50_unlink (g : Graph) (n : Term) (s p : Option Term) (t : Triple) :
    t ∈ metaUnlink g n s p ↔ t ∈ g ∧ ¬ (t.o = n ∧ (s = none ∨ s = some t.s) ∧ (p = none ∨ p = some t.p)) := by
  rw [metaUnlink, mem_removeAll]
  simp only [reduceCtorEq, Option.some.injEq, false_or]
  constructor
  · rintro ⟨h1, h2⟩; exact ⟨h1, fun ⟨a, b, c⟩ => h2 ⟨b, c, a.symm⟩⟩
  · rintro ⟨h1, h2⟩; exact ⟨h1, fun ⟨b, c, a⟩ => h2 ⟨a.symm, b, c⟩⟩

/-- C50. Nothing else changes: what is left stands in its order. -/
theorem C50_nothing_else (g : Graph) (n : Term) (p o : Option Term) :
    (metaRemove g n p o).Sublist g ∧ (metaUnlink g n p o).Sublist g :=
  ⟨List.filter_sublist, List.filter_sublist⟩

/-- `getOr` gives a node linked by the predicate when there is one. -/
theorem C50_getOr (order : Order) (ho : Rearranges order) (g : Graph) (s p : Term) :
    (∀ o, getOr order g s p = some o → (⟨s, p, o⟩ : Triple) ∈ g) ∧
      (getOr order g s p = none ↔ ∀ o, (⟨s, p, o⟩ : Triple) ∉ g) := by
  obtain ⟨r, h1, h2, h3⟩ := C49_single_any order ho g s p
  simp only [metaGetSingle, Except.ok.injEq] at h1
  subst h1
  exact ⟨h2, h3⟩

/-! ## A concrete history -/

/-- Two objects share the key `title`. -/
def history : List MetaOp :=
  [.add (.uri ['a']) (.uri ['t']) (.str "Opera".toList) (some "la".toList),
   .add (.uri ['a']) (.uri ['t']) (.str "Works".toList) (some "en".toList),
   .add (.uri ['b']) (.uri ['t']) (.str "Letters".toList) none,
   .set (.uri ['b']) (.uri ['t']) (.str "Epistulae".toList) (some "la".toList),
   .remove (.uri ['a']) (some (.uri ['t'])) (some (.lit "Works".toList (some "en".toList) none))]

example : metaGet id (runOps [] history) (.uri ['a']) (.uri ['t']) none = .ok [.lit "Opera".toList (some "la".toList) none] ∧
    metaGet List.reverse (runOps [] history) (.uri ['b']) (.uri ['t']) none = .ok [.lit "Epistulae".toList (some "la".toList) none] := by
  decide

example : Holds False history (.uri ['b']) (.uri ['t']) (.lit "Epistulae".toList (some "la".toList) none) :=
  .inr ⟨history.take 3, .set (.uri ['b']) (.uri ['t']) (.str "Epistulae".toList) (some "la".toList), history.drop 4, rfl,
    ⟨.str "Epistulae".toList, some "la".toList, .inl rfl, rfl⟩, by
      intro x hx
      simp [history] at hx
      subst hx
      rintro (⟨_, _, h⟩ | ⟨_, _, h, _⟩ | ⟨_, _, h, _⟩) <;> simp at h⟩

end Verif.Props
