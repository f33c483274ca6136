import Verif.Spec.DtsReference
import Verif.Props.Metadata
/-!
C81: equality and membership of DTS references, sets of references and citations.
-/
namespace Verif.Props
open Verif.Py Verif.Model Verif.Spec

theorem citeType_eq : (.uri "https://w3id.org/dts/api#citeType".toList : Term) = pCiteType := by decide +kernel

theorem typeOf_has {order : Order} (ho : Rearranges order) {g : Graph} {r : DRef} {t : Option Str} (h : HasType g r t) :
    typeOfRef order g r = t.map fun s => .lit s none none := by
  rw [HasType, citeType_eq] at h
  rw [typeOfRef]
  have hm : ∀ o, o ∈ g.objects order r.node pCiteType ↔ ∃ s, t = some s ∧ o = .lit s none none := fun o => (mem_objects ho).trans (h o)
  cases e : g.objects order r.node pCiteType with
  | nil =>
    cases t with
    | none => rfl
    | some s =>
      have := (hm (.lit s none none)).2 ⟨s, rfl, rfl⟩
      rw [e] at this
      cases this
  | cons a l =>
    obtain ⟨s, rfl, rfl⟩ := (hm a).1 (by rw [e]; simp)
    rfl

theorem mem_setRefType {g : Graph} {r : DRef} {v : Str} {n o : Term} : (⟨n, pCiteType, o⟩ : Triple) ∈ setRefType g r v ↔
    if n = r.node then o = .lit v none none else (⟨n, pCiteType, o⟩ : Triple) ∈ g := by
  rw [setRefType, metaSet, Graph.setValue, mem_insert, mem_removeAll]
  by_cases h : n = r.node
  · subst h
    simp [toTerm, mkLiteral]
  · rw [if_neg h]
    simp [h, Ne.symm h]

/-- C81. A new reference has the type it is given, none when that is empty or missing, and other references keep theirs. -/
theorem C81_new (g : Graph) (node : Term) (start : Str) (stop type : Option Str)
    (hn : ∀ o, (⟨node, .uri "https://w3id.org/dts/api#citeType".toList, o⟩ : Triple) ∉ g) :
    (newRef g node start stop type).2 = ⟨start, stop, node⟩ ∧
    HasType (newRef g node start stop type).1 ⟨start, stop, node⟩ (if type = some [] then none else type) ∧
    ∀ r t, r.node ≠ node → HasType g r t → HasType (newRef g node start stop type).1 r t := by
  have none_case : HasType g ⟨start, stop, node⟩ none := fun o => ⟨fun h => absurd h (hn o), fun ⟨_, h, _⟩ => by cases h⟩
  match type with
  | none => exact ⟨rfl, none_case, fun r t _ h => h⟩
  | some [] => exact ⟨rfl, by simpa [newRef] using none_case, fun r t _ h => h⟩
  | some (c :: s) =>
    refine ⟨rfl, fun o => ?_, fun r t hr h o => ?_⟩
    · rw [citeType_eq]
      simp only [newRef, mem_setRefType, if_true]
      simp
    · have := h o
      rw [citeType_eq] at this ⊢
      simp only [newRef, mem_setRefType, if_neg hr]
      exact this

/-- C81. The type of a reference is the one that was assigned last, whatever is assigned to others. -/
theorem C81_type (g : Graph) (pre post : List (DRef × Str)) (r : DRef) (t : Str) (h : ∀ x ∈ post, x.1.node ≠ r.node) :
    HasType ((pre ++ (r, t) :: post).foldl (fun g x => setRefType g x.1 x.2) g) r (some t) := by
  rw [List.foldl_append, List.foldl_cons]
  generalize pre.foldl (fun g x => setRefType g x.1 x.2) g = g0
  have start : HasType (setRefType g0 r t) r (some t) := fun o => by
    rw [citeType_eq, mem_setRefType]
    simp
  generalize setRefType g0 r t = g1 at *
  induction post generalizing g1 with
  | nil => exact start
  | cons x l ih =>
    refine ih (fun y hy => h y (List.mem_cons_of_mem _ hy)) _ fun o => ?_
    rw [citeType_eq, mem_setRefType, if_neg (Ne.symm (h x (List.mem_cons_self ..))), ← citeType_eq]
    exact start o

/-- C81. Two references are equal exactly when they have the same start, the same end and the same type. -/
theorem C81_equal (order : Order) (ho : Rearranges order) (g : Graph) (a b : DRef) (s t : Option Str)
    (ha : HasType g a s) (hb : HasType g b t) :
    refEq order g (.dts a) (.dts b) = true ↔ a.start = b.start ∧ a.stop = b.stop ∧ s = t := by
  simp only [refEq, typeOf_has ho ha, typeOf_has ho hb, decide_eq_true_eq]
  refine and_congr_right fun _ => and_congr_right fun _ => ?_
  cases s <;> cases t <;> simp

/-- C81. Equality of references, pairs and strings is reflexive, symmetric and transitive. -/
theorem C81_equivalence (order : Order) (g : Graph) (a b c : RefVal) :
    refEq order g a a = true ∧ (refEq order g a b = refEq order g b a) ∧
    (refEq order g a b = true → refEq order g b c = true → refEq order g a c = true) := by
  refine ⟨?_, ?_, ?_⟩
  · cases a <;> simp [refEq]
  · cases a <;> cases b <;> simp [refEq, eq_comm]
  · cases a <;> cases b <;> cases c <;> simp [refEq] <;> intros <;> simp_all

/-- C81 fails for `!=`: two references of different types are neither equal nor unequal, and so are a reference and a pair with
the same start and end. -/
theorem C81_fails_unequal : ∃ (g : Graph) (a b : DRef), HasType g a (some "book".toList) ∧ HasType g b (some "poem".toList) ∧
    (∀ order, Rearranges order → refEq order g (.dts a) (.dts b) = false ∧ refNe (.dts a) (.dts b) = false ∧
      refEq order g (.dts a) (.pair "1".toList none) = false ∧ refNe (.dts a) (.pair "1".toList none) = false) := by
  have h1 := C81_new [] (.bnode ['a']) "1".toList none (some "book".toList) (by simp)
  have h2 := C81_new (newRef [] (.bnode ['a']) "1".toList none (some "book".toList)).1 (.bnode ['b']) "1".toList none (some "poem".toList) (by
    intro o hm
    have := (mem_setRefType (g := []) (r := ⟨"1".toList, none, .bnode ['a']⟩) (v := "book".toList) (n := .bnode ['b']) (o := o)).1 (citeType_eq ▸ hm)
    simp at this)
  refine ⟨_, ⟨"1".toList, none, .bnode ['a']⟩, ⟨"1".toList, none, .bnode ['b']⟩, h2.2.2 _ _ (by simp) h1.2.1, h2.2.1, fun order ho => ⟨?_, rfl, rfl, rfl⟩⟩
  rw [Bool.eq_false_iff]
  intro e
  have := ((C81_equal order ho _ _ _ _ _ (h2.2.2 _ _ (by simp) h1.2.1) h2.2.1).1 e).2.2
  revert this
  decide +kernel

/-- C81. A reference is in a set exactly when one of the set has the same start, end and type; no other pair is; a string is
exactly when it is the start of a reference of the set that has no end and no type. -/
theorem C81_contains (order : Order) (g : Graph) (refs : List DRef) :
    (∀ r, refsContain order g refs (.dts r) = true ↔ ∃ x ∈ refs, refEq order g (.dts x) (.dts r) = true) ∧
    (∀ s e, refsContain order g refs (.pair s e) = false) ∧
    ∀ s, refsContain order g refs (.str s) = true ↔ ∃ x ∈ refs, x.start = s ∧ x.stop = none ∧ typeOfRef order g x = none := by
  refine ⟨fun r => ?_, fun s e => ?_, fun s => ?_⟩
  · simp [refsContain]
  · simp [refsContain, refEq]
  · simp [refsContain, refEq]

/-- C81 fails for a string and a reference with a type: a set made of the reference `1` of type `book` does not contain `"1"`. -/
theorem C81_fails_contains : ∃ (g : Graph) (r : DRef), r.start = "1".toList ∧ r.stop = none ∧ HasType g r (some "book".toList) ∧
    ∀ order, Rearranges order → refsContain order g [r] (.str "1".toList) = false := by
  have h1 := C81_new [] (.bnode ['a']) "1".toList none (some "book".toList) (by simp)
  refine ⟨_, ⟨"1".toList, none, .bnode ['a']⟩, rfl, rfl, h1.2.1, fun order ho => ?_⟩
  rw [Bool.eq_false_iff]
  intro e
  obtain ⟨x, hx, _, _, h3⟩ := ((C81_contains order _ _).2.2 _).1 e
  rw [List.mem_singleton] at hx
  subst hx
  rw [typeOf_has ho h1.2.1] at h3
  revert h3
  decide +kernel

theorem refsEq_iff {order : Order} {g : Graph} {l m : List RefVal} :
    refsEq order g l m = true ↔ l.length = m.length ∧ ∀ i (h : i < l.length) (h' : i < m.length), refEq order g l[i] m[i] = true := by
  induction l generalizing m with
  | nil => cases m <;> simp [refsEq]
  | cons a l ih =>
    cases m with
    | nil => simp [refsEq]
    | cons b m =>
      rw [refsEq, Bool.and_eq_true, ih]
      constructor
      · rintro ⟨h1, h2, h3⟩
        refine ⟨by simp [h2], fun i h h' => ?_⟩
        cases i with
        | zero => exact h1
        | succ i => exact h3 i (Nat.lt_of_succ_lt_succ h) (Nat.lt_of_succ_lt_succ h')
      · rintro ⟨h1, h2⟩
        exact ⟨h2 0 (Nat.succ_pos _) (Nat.succ_pos _), by simpa using h1, fun i h h' => h2 (i + 1) (Nat.succ_lt_succ h) (Nat.succ_lt_succ h')⟩

/-- C81. Two sets of references are equal exactly when they have as many references, equal ones at every place, the same level
and the same set of citations. -/
theorem C81_sets (order : Order) (g : Graph) (a b : DRefSet) :
    ∃ r, refSetEq order g a (.dts b) = .ok r ∧ (r = true ↔ a.refs.length = b.refs.length ∧
      (∀ i (h : i < a.refs.length) (h' : i < b.refs.length), refEq order g (.dts a.refs[i]) (.dts b.refs[i]) = true) ∧
      a.level = b.level ∧ a.citation = b.citation) := by
  refine ⟨_, rfl, ?_⟩
  simp only [Bool.and_eq_true, decide_eq_true_eq, refsEq_iff, List.length_map, List.getElem_map, and_assoc]

/-- C81 fails for the comparison of a set with something that is not a set of references: with a list, and with a tuple of equal
references, it raises `AttributeError`. -/
theorem C81_fails_other (order : Order) (g : Graph) (a : DRefSet) :
    refSetEq order g a .other = .error .attributeError ∧ refSetEq order g a (.tuple (a.refs.map .dts)) = .error .attributeError := by
  refine ⟨rfl, ?_⟩
  have : refsEq order g (a.refs.map .dts) (a.refs.map .dts) = true := refsEq_iff.2 ⟨rfl, fun i h h' => by
    simp only [List.getElem_map]
    exact (C81_equivalence order g _ (.str []) (.str [])).1⟩
  rw [refSetEq, if_pos this]

/-! ### Citations -/

theorem sameCites_iff {h : DCHeap} {l m : List Nat} : SameCites h l m ↔
    l.length = m.length ∧ ∀ i (h1 : i < l.length) (h2 : i < m.length), SameCite h l[i] m[i] := by
  induction l generalizing m with
  | nil =>
    cases m with
    | nil => exact ⟨fun _ => ⟨rfl, fun i h1 => absurd h1 (Nat.not_lt_zero _)⟩, fun _ => .nil⟩
    | cons b m => exact ⟨(fun h => nomatch h), fun h => absurd h.1 (by simp)⟩
  | cons a l ih =>
    cases m with
    | nil => exact ⟨(fun h => nomatch h), fun h => absurd h.1 (by simp)⟩
    | cons b m =>
      constructor
      · intro h
        cases h with
        | cons h1 h2 =>
          obtain ⟨h3, h4⟩ := ih.1 h2
          refine ⟨by simp [h3], fun i k k' => ?_⟩
          cases i with
          | zero => exact h1
          | succ i => exact h4 i (Nat.lt_of_succ_lt_succ k) (Nat.lt_of_succ_lt_succ k')
      · rintro ⟨h1, h2⟩
        rw [List.length_cons, List.length_cons, Nat.add_right_cancel_iff] at h1
        exact .cons (h2 0 (Nat.succ_pos _) (Nat.succ_pos _)) (ih.2 ⟨h1, fun i k k' => h2 (i + 1) (Nat.succ_lt_succ k) (Nat.succ_lt_succ k')⟩)

theorem pyListEq_ok {h : DCHeap} {eq : Nat → Nat → Except PyErr Bool} {l m : List Nat}
    (he : ∀ x ∈ l, ∀ y ∈ m, ∃ r, eq x y = .ok r ∧ (r = true ↔ SameCite h x y)) (hr : ∀ x ∈ l, SameCite h x x) :
    ∃ r, pyListEq eq l m = .ok r ∧ (r = true ↔ SameCites h l m) := by
  induction l generalizing m with
  | nil =>
    cases m with
    | nil => exact ⟨true, rfl, fun _ => .nil, fun _ => rfl⟩
    | cons b m => exact ⟨false, rfl, nofun, (fun h => nomatch h)⟩
  | cons a l ih =>
    cases m with
    | nil => exact ⟨false, rfl, nofun, (fun h => nomatch h)⟩
    | cons b m =>
      rw [pyListEq]
      by_cases hl : l.length = m.length
      · rw [if_neg (not_not_intro hl)]
        obtain ⟨r, i1, i2⟩ := ih (m := m) (fun x hx y hy => he x (List.mem_cons_of_mem _ hx) y (List.mem_cons_of_mem _ hy))
          fun x hx => hr x (List.mem_cons_of_mem _ hx)
        by_cases e : a = b
        · rw [if_pos e]
          refine ⟨r, i1, i2.trans ⟨fun k => .cons (e ▸ hr a (List.mem_cons_self ..)) k, fun k => ?_⟩⟩
          cases k with
          | cons _ k => exact k
        · rw [if_neg e]
          obtain ⟨q, j1, j2⟩ := he a (List.mem_cons_self ..) b (List.mem_cons_self ..)
          rw [j1]
          cases q with
          | false =>
            refine ⟨false, rfl, nofun, fun k => ?_⟩
            cases k with
            | cons k _ => exact absurd (j2.2 k) nofun
          | true =>
            refine ⟨r, i1, i2.trans ⟨fun k => .cons (j2.1 rfl) k, fun k => ?_⟩⟩
            cases k with
            | cons _ k => exact k
      · rw [if_pos hl]
        refine ⟨false, rfl, nofun, fun k => absurd (sameCites_iff.1 k).1 ?_⟩
        simpa using hl

theorem sameCite_refl {h : DCHeap} {rank : Nat → Nat} (hp : Parsed h rank) : ∀ n x, rank x ≤ n → (h x).isSet = false → SameCite h x x := by
  intro n
  induction n with
  | zero =>
    intro x hx hs
    refine .mk rfl rfl (sameCites_iff.2 ⟨rfl, fun i h1 _ => ?_⟩)
    have := (hp.child x hs _ (List.getElem_mem h1)).2
    omega
  | succ n ih =>
    intro x hx hs
    refine .mk rfl rfl (sameCites_iff.2 ⟨rfl, fun i h1 _ => ?_⟩)
    have := hp.child x hs _ (List.getElem_mem h1)
    exact ih _ (by omega) this.1

/-- C81. Two parsed citations are equal exactly when they have the same name, belong to the same set, and have equal children in
the same order; comparing them always ends. -/
theorem C81_citations (h : DCHeap) (rank : Nat → Nat) (hp : Parsed h rank) (a b : Nat) (ha : (h a).isSet = false) (hb : (h b).isSet = false)
    (n : Nat) (hn : rank a + 2 ≤ n) :
    ∃ r, citeEq h n a b = .ok r ∧ (r = true ↔ SameCite h a b) := by
  induction n generalizing a b with
  | zero => omega
  | succ n ih =>
    rw [citeEq, ha, hb]
    simp only [Bool.or_self, Bool.false_eq_true, if_false]
    by_cases e : (h a).name = (h b).name
    · rw [if_neg (not_not_intro e)]
      obtain ⟨r, k1, k2⟩ := pyListEq_ok (h := h) (eq := citeEq h n) (l := (h a).children) (m := (h b).children)
        (fun x hx y hy => by
          have h1 := hp.child a ha x hx
          have h2 := hp.child b hb y hy
          exact ih x y h1.1 h2.1 (by omega))
        (fun x hx => sameCite_refl hp _ x (Nat.le_refl _) (hp.child a ha x hx).1)
      rw [k1]
      cases r with
      | false =>
        refine ⟨false, rfl, nofun, fun k => ?_⟩
        cases k with
        | mk _ _ k => exact absurd (k2.2 k) nofun
      | true =>
        obtain ⟨ra, e1, s1⟩ := hp.root a ha
        obtain ⟨rb, e2, s2⟩ := hp.root b hb
        rw [e1, e2]
        obtain ⟨n, rfl⟩ : ∃ k, n = k + 1 := ⟨n - 1, by omega⟩
        refine ⟨ra == rb, by simp [citeEq, s1], ?_⟩
        rw [beq_iff_eq]
        constructor
        · intro er
          exact .mk e (by rw [e1, e2, er]) (k2.1 rfl)
        · intro k
          cases k with
          | mk _ k _ =>
            rw [e1, e2] at k
            injection k
    · rw [if_pos e]
      refine ⟨false, rfl, nofun, fun k => ?_⟩
      cases k with
      | mk k _ _ => exact absurd k e

/-- C81 fails for a citation structure that is parsed twice: citations of different sets are never equal, and so no two sets of
references that were parsed with their citations are. -/
theorem C81_fails_parsed_twice (h : DCHeap) (rank : Nat → Nat) (hp : Parsed h rank) (a b : Nat) (ha : (h a).isSet = false)
    (hb : (h b).isSet = false) (hr : (h a).root ≠ (h b).root) (n : Nat) (hn : rank a + 2 ≤ n) : citeEq h n a b = .ok false := by
  obtain ⟨r, h1, h2⟩ := C81_citations h rank hp a b ha hb n hn
  cases r with
  | false => exact h1
  | true =>
    cases h2.1 rfl with
    | mk _ k _ => exact absurd k hr

/-- Two times `DtsCitation(name="book", children=[DtsCitation(name="line")])`, as objects 0 and 1, and 2 and 3. -/
def twoBooks : DCHeap
  | 0 => ⟨false, some "book".toList, none, [1]⟩
  | 1 => ⟨false, some "line".toList, some 0, []⟩
  | 2 => ⟨false, some "book".toList, none, [3]⟩
  | 3 => ⟨false, some "line".toList, some 2, []⟩
  | _ => ⟨true, none, none, []⟩

/-- C81 fails for citations that are built with their children and without a set: comparing two that are alike never ends and
raises `RecursionError`. -/
theorem C81_fails_recursion (n : Nat) : citeEq twoBooks n 0 2 = .error .recursion := by
  have : citeEq twoBooks n 0 2 = .error .recursion ∧ citeEq twoBooks n 1 3 = .error .recursion := by
    induction n with
    | zero => exact ⟨rfl, rfl⟩
    | succ n ih => exact ⟨by simp [citeEq, twoBooks, pyListEq, ih.2], by simp [citeEq, twoBooks, pyListEq, ih.1]⟩
  exact this.1

/-- A set, 0, with two books of lines, as parsed, of which the second has no name for its lines. -/
def parsedBooks : DCHeap
  | 0 => ⟨true, none, none, [1, 3, 5]⟩
  | 1 => ⟨false, some "book".toList, some 0, [2]⟩
  | 2 => ⟨false, some "line".toList, some 0, []⟩
  | 3 => ⟨false, some "book".toList, some 0, [4]⟩
  | 4 => ⟨false, some "line".toList, some 0, []⟩
  | 5 => ⟨false, some "book".toList, some 0, [6]⟩
  | 6 => ⟨false, none, some 0, []⟩
  | _ => ⟨true, none, none, []⟩

example : Parsed parsedBooks (fun x => if x = 1 ∨ x = 3 ∨ x = 5 then 1 else 0) := by
  have : ∀ x, 7 ≤ x → (parsedBooks x).isSet = true := by
    intro x hx
    match x, hx with
    | n + 7, _ => rfl
  constructor
  · intro x hx
    have hlt : x < 7 := Nat.lt_of_not_le fun h => by rw [this x h] at hx; cases hx
    match x, hlt with
    | 0, _ => cases hx
    | 1, _ | 2, _ | 3, _ | 4, _ | 5, _ | 6, _ => exact ⟨0, rfl, rfl⟩
  · intro x hx
    have hlt : x < 7 := Nat.lt_of_not_le fun h => by rw [this x h] at hx; cases hx
    match x, hlt with
    | 0, _ => cases hx
    | 1, _ | 2, _ | 3, _ | 4, _ | 5, _ | 6, _ => simp [parsedBooks]
example : citeEq parsedBooks 3 1 3 = .ok true ∧ citeEq parsedBooks 3 1 5 = .ok false := by decide +kernel

/-- A graph with two references of type `book` and one without type. -/
def bookRefs : Graph := (newRef (newRef [] (.bnode ['a']) "1".toList none (some "book".toList)).1 (.bnode ['b']) "1".toList none (some "book".toList)).1
example : refEq id bookRefs (.dts ⟨"1".toList, none, .bnode ['a']⟩) (.dts ⟨"1".toList, none, .bnode ['b']⟩) = true ∧
    refEq id bookRefs (.dts ⟨"1".toList, none, .bnode ['a']⟩) (.dts ⟨"1".toList, none, .bnode ['c']⟩) = false := by decide +kernel
example : refsContain id bookRefs [⟨"1".toList, none, .bnode ['a']⟩] (.dts ⟨"1".toList, none, .bnode ['b']⟩) = true ∧
    refsContain id bookRefs [⟨"1".toList, none, .bnode ['c']⟩] (.str "1".toList) = true := by decide +kernel

end Verif.Props
