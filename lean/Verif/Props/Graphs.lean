import Verif.Lemmas.Graphs
import Verif.Lemmas.Str
/-!
Property C111: several graphs. An object belongs to the graph that was in force when it was made, whatever is set afterwards; what is read of it
depends on what was said in that graph, and on nothing else.
-/
namespace Verif.Props
open Verif.Py Verif.Model Verif.Spec Verif.Lemmas

/-- C111. Every object belongs, for good, to the graph that was in force when it was made: the last given to `set_graph` before. -/
theorem C111_place (w : GraphWorld) (hw : w.objs = []) (ops : List GraphOp) :
    (w.run ops).objs.map (·.graph) = birthGraphs w.current ops := run_births w hw ops

/-- C111. An object stays the same object with the same node in the same graph, whatever the program does next. -/
theorem C111_objects_stay (w : GraphWorld) (ops more : List GraphOp) (i : Nat) (h : Holder) (hi : (w.run ops).objs[i]? = some h) :
    (w.run (ops ++ more)).objs[i]? = some h := by
  obtain ⟨z, hz⟩ := run_objs_prefix w ops more
  have hl : i < (w.run ops).objs.length := by
    rcases Nat.lt_or_ge i (w.run ops).objs.length with h' | h'
    · exact h'
    · rw [List.getElem?_eq_none h'] at hi; simp at hi
  rw [← hz, List.getElem?_append_left hl, hi]

/-- C111. A collection has its identifier for its node. -/
theorem C111_collection_node (w : GraphWorld) (hw : w.objs = []) (ops more : List GraphOp) (id t m : Str) :
    (w.run (ops ++ .collection id t m :: more)).objs[ops.countP makes]? = some ⟨.uri id, inForce w.current ops⟩ := by
  rw [show ops ++ GraphOp.collection id t m :: more = (ops ++ [GraphOp.collection id t m]) ++ more by simp]
  apply C111_objects_stay
  rw [run_snoc, ← run_count w hw, ← run_current]
  simp [GraphWorld.step, GraphWorld.newCollection, GraphWorld.write]

/-- C111. Each graph holds what the program said in it of its objects, as if there were no other graph: the steps about
objects of other graphs do not count. -/
theorem C111_graph (w : GraphWorld) (hw : w.objs = []) (ops : List GraphOp) (k : Nat) :
    (w.run ops).graphs k = runOps (w.graphs k) (saidIn (w.run ops).objs k ops) := run_graph w hw ops k

/-- C111. So the metadata of an object are the values that were written for it in its graph and not erased there since. -/
theorem C111_get (order : Order) (ho : Rearranges order) (w : GraphWorld) (hw : w.objs = []) (ops : List GraphOp) (h : Holder)
    (key : Term) :
    ∃ values, (w.run ops).get order h key none = .ok values ∧
      ∀ o, o ∈ values ↔ Holds ((⟨h.node, key, o⟩ : Triple) ∈ w.graphs h.graph) (saidIn (w.run ops).objs h.graph ops) h.node key o := by
  unfold GraphWorld.get
  rw [C111_graph w hw ops h.graph]
  exact C48_get_after_history order ho _ _ _ _

/-- C111. A program that goes on without saying anything in the graph of an object changes no answer about it. -/
theorem C111_apart (order : Order) (w : GraphWorld) (hw : w.objs = []) (ops more : List GraphOp) (h : Holder)
    (hs : saidIn (w.run (ops ++ more)).objs h.graph (ops ++ more) = saidIn (w.run ops).objs h.graph ops) :
    (∀ key lang, (w.run (ops ++ more)).get order h key lang = (w.run ops).get order h key lang) ∧
    (w.run (ops ++ more)).type order h = (w.run ops).type order h ∧
    (w.run (ops ++ more)).model order h = (w.run ops).model order h ∧
    (w.run (ops ++ more)).version order h = (w.run ops).version order h := by
  have : (w.run (ops ++ more)).graphs h.graph = (w.run ops).graphs h.graph := by
    rw [C111_graph w hw, C111_graph w hw, hs]
  simp only [GraphWorld.get, GraphWorld.type, GraphWorld.model, GraphWorld.version, this]
  simp

theorem runOps_snoc_mem (g : Graph) (ops : List MetaOp) (n k o x : Term) (v : Value) (l : Option Str) (post : List MetaOp)
    (hv : stored v l = o) (hpost : ∀ op ∈ post, LeavesAlone op n k o) :
    (⟨n, k, x⟩ : Triple) ∈ runOps g (ops ++ .set n k v l :: post) ↔ x = o := by
  rw [mem_runOps]
  constructor
  · rintro (⟨-, h⟩ | ⟨pre, op, post', e, hw, he⟩)
    · exact absurd (Or.inl ⟨v, l, rfl⟩) (h (.set n k v l) (by simp))
    · rcases List.append_eq_append_iff.1 e with ⟨c, h1, h2⟩ | ⟨c, h1, h2⟩
      · cases c with
        | nil =>
          simp at h2
          obtain ⟨rfl, rfl⟩ := h2
          obtain ⟨v', l', (h | h), hx⟩ := hw
          · simp at h
            obtain ⟨rfl, rfl⟩ := h
            rw [← hx, hv]
          · simp at h
        | cons y c =>
          simp at h2
          obtain ⟨rfl, rfl⟩ := h2
          exact absurd hw ((hpost op (by simp)).1 x)
      · cases c with
        | nil =>
          simp at h2
          obtain ⟨rfl, rfl⟩ := h2
          obtain ⟨v', l', (h | h), hx⟩ := hw
          · simp at h
            obtain ⟨rfl, rfl⟩ := h
            rw [← hx, hv]
          · simp at h
        | cons y c =>
          simp at h2
          exact absurd (Or.inl ⟨v, l, rfl⟩) (he (.set n k v l) (by rw [h2.2]; simp))
  · rintro rfl
    exact .inr ⟨ops, .set n k v l, post, rfl, ⟨v, l, .inl rfl, hv⟩, fun op hop => (hpost op hop).2⟩

/-- A key with one value is read as that value. -/
theorem objects_single (order : Order) (ho : Rearranges order) (g : Graph) (n k o : Term)
    (h : ∀ x, (⟨n, k, x⟩ : Triple) ∈ g ↔ x = o) : ∃ L, g.objects order n k = o :: L := by
  have hm := fun x => (mem_objects ho (g := g) (s := n) (p := k) (o := x)).trans (h x)
  revert hm
  generalize g.objects order n k = L
  intro hm
  cases L with
  | nil => have := (hm o).2 rfl; simp at this
  | cons a L => have := (hm a).1 (by simp); exact ⟨L, by rw [this]⟩

/-- Setting the value of a key leaves the values of another. -/
theorem leavesAlone_set (n k k' : Term) (v : Value) (l : Option Str) (o : Term) (hne : k' ≠ k) : LeavesAlone (.set n k' v l) n k o := by
  refine ⟨fun x => ?_, ?_⟩
  · rintro ⟨v', l', h | h, -⟩
    · simp [hne] at h
    · simp at h
  · rintro (⟨v', l', h⟩ | ⟨p, x, h, -⟩ | ⟨s, p, h, -⟩)
    · simp [hne] at h
    · simp at h
    · simp at h

/-- C111. A collection keeps the type of its class as long as the program says nothing else of the type of this identifier in the
graph of the collection. -/
theorem C111_type (order : Order) (ho : Rearranges order) (w : GraphWorld) (hw : w.objs = []) (ops more : List GraphOp) (id t m : Str)
    (later : List MetaOp)
    (hs : saidIn (w.run (ops ++ .collection id t m :: more)).objs (inForce w.current ops) (ops ++ .collection id t m :: more) =
      saidIn (w.run ops).objs (inForce w.current ops) ops ++
        .set (.uri id) pType (.term (.uri t)) none :: .set (.uri id) pModel (.term (.uri m)) none :: later)
    (hl : ∀ op ∈ later, LeavesAlone op (.uri id) pType (.uri t)) :
    (w.run (ops ++ .collection id t m :: more)).type order ⟨.uri id, inForce w.current ops⟩ = .ok (.uri t) := by
  unfold GraphWorld.type
  simp only
  rw [C111_graph w hw, hs]
  obtain ⟨L, e⟩ := objects_single order ho _ (.uri id) pType (.uri t) fun x =>
    runOps_snoc_mem (w.graphs (inForce w.current ops)) (saidIn (w.run ops).objs (inForce w.current ops) ops)
      (.uri id) pType (.uri t) x (.term (.uri t)) none (MetaOp.set (.uri id) pModel (.term (.uri m)) none :: later) rfl (by
        intro op hop
        rcases List.mem_cons.1 hop with rfl | hop
        · exact leavesAlone_set _ _ _ _ _ _ (by decide)
        · exact hl op hop)
  rw [e]

/-- C111. And the model of its class, likewise. -/
theorem C111_model (order : Order) (ho : Rearranges order) (w : GraphWorld) (hw : w.objs = []) (ops more : List GraphOp) (id t m : Str)
    (later : List MetaOp)
    (hs : saidIn (w.run (ops ++ .collection id t m :: more)).objs (inForce w.current ops) (ops ++ .collection id t m :: more) =
      saidIn (w.run ops).objs (inForce w.current ops) ops ++
        .set (.uri id) pType (.term (.uri t)) none :: .set (.uri id) pModel (.term (.uri m)) none :: later)
    (hl : ∀ op ∈ later, LeavesAlone op (.uri id) pModel (.uri m)) :
    (w.run (ops ++ .collection id t m :: more)).model order ⟨.uri id, inForce w.current ops⟩ = .ok (.uri m) := by
  unfold GraphWorld.model
  simp only
  rw [C111_graph w hw, hs]
  obtain ⟨L, e⟩ := objects_single order ho _ (.uri id) pModel (.uri m) fun x =>
    runOps_snoc_mem (w.graphs (inForce w.current ops))
      (saidIn (w.run ops).objs (inForce w.current ops) ops ++ [.set (.uri id) pType (.term (.uri t)) none])
      (.uri id) pModel (.uri m) x (.term (.uri m)) none later rfl hl
  rw [show ∀ (A : List MetaOp) (x y : MetaOp) (B : List MetaOp), A ++ x :: y :: B = (A ++ [x]) ++ y :: B by intros; simp, e]

/-- C111. What is assigned to `type`, `model` and `version` is what they answer next, whichever graph is in force. -/
theorem C111_assigned (order : Order) (ho : Rearranges order) (w : GraphWorld) (ops : List GraphOp) (i : Nat) (h : Holder)
    (hi : (w.run ops).objs[i]? = some h) (u : Str) :
    (w.run (ops ++ [.setType i u])).type order h = .ok (.uri u) ∧
    (w.run (ops ++ [.setModel i u])).model order h = .ok (.uri u) ∧
    (w.run (ops ++ [.setVersion i u])).version order h = some (.lit u none none) := by
  have key : ∀ (k o : Term), ∃ L, (((w.run ops).graphs h.graph).setValue ⟨h.node, k, o⟩).objects order h.node k = o :: L := by
    intro k o
    apply objects_single order ho
    intro x
    have := runOps_snoc_mem ((w.run ops).graphs h.graph) [] h.node k o x (.term o) none [] (by cases o <;> rfl) (by simp)
    have et : toTerm (.term o) none = o := by cases o <;> rfl
    simpa [runOps, MetaOp.run, metaSet, et] using this
  refine ⟨?_, ?_, ?_⟩
  · obtain ⟨L, e⟩ := key pType (.uri u)
    rw [run_snoc]
    simp [GraphWorld.step, GraphWorld.on, hi, GraphWorld.write, GraphWorld.type, e]
  · obtain ⟨L, e⟩ := key pModel (.uri u)
    rw [run_snoc]
    simp [GraphWorld.step, GraphWorld.on, hi, GraphWorld.write, GraphWorld.model, e]
  · obtain ⟨L, e⟩ := key pVersion (.lit u none none)
    rw [run_snoc]
    simp [GraphWorld.step, GraphWorld.on, hi, GraphWorld.write, GraphWorld.version, e]

/-- C111. What a collection says when it is made, in the terms of the last theorem: the hypothesis about what is said always has this form. -/
theorem C111_said (w : GraphWorld) (hw : w.objs = []) (ops more : List GraphOp) (id t m : Str) :
    ∃ later, saidIn (w.run (ops ++ .collection id t m :: more)).objs (inForce w.current ops) (ops ++ .collection id t m :: more) =
      saidIn (w.run ops).objs (inForce w.current ops) ops ++
        .set (.uri id) pType (.term (.uri t)) none :: .set (.uri id) pModel (.term (.uri m)) none :: later := by
  induction more using list_snoc_ind with
  | nil =>
    refine ⟨[], ?_⟩
    obtain ⟨z, hz⟩ := run_objs_prefix w ops [.collection id t m]
    rw [saidIn_snoc, ← hz, saidIn_prefix w hw, hz]
    congr 1
    have := C111_collection_node w hw ops [] id t m
    simp [said, this]
  | append_singleton more op ih =>
    obtain ⟨later, ih⟩ := ih
    refine ⟨later ++ ?_, ?_⟩
    · exact ((said (w.run (ops ++ .collection id t m :: (more ++ [op]))).objs ((ops ++ .collection id t m :: more).countP makes) op).filter
        fun x => x.1 == inForce w.current ops).map (·.2)
    · obtain ⟨z, hz⟩ := run_objs_prefix w (ops ++ .collection id t m :: more) [op]
      have e1 : ops ++ GraphOp.collection id t m :: (more ++ [op]) = (ops ++ .collection id t m :: more) ++ [op] := by simp
      rw [e1, saidIn_snoc, ← hz, saidIn_prefix w hw, ih]
      simp

/-! ### Instances -/

/-- No objects yet, two empty graphs or more, the first in force. -/
def noGraphs : GraphWorld := ⟨fun _ => [], 0, [], 0⟩

/-- Two libraries that describe the same work in two graphs, with different titles. -/
def twoLibraries : List GraphOp :=
  [.collection ['w'] ['W'] ['M'], .set 0 pLabel (.str ['a']) none, .setGraph 1, .collection ['w'] ['X'] ['M'], .set 1 pLabel (.str ['b']) none,
    .add 0 pLabel (.str ['c']) none]

example : (noGraphs.run twoLibraries).objs = [⟨.uri ['w'], 0⟩, ⟨.uri ['w'], 1⟩] ∧ birthGraphs 0 twoLibraries = [0, 1] ∧
    (noGraphs.run twoLibraries).get (fun g => g) ⟨.uri ['w'], 0⟩ pLabel none = .ok [.lit ['a'] none none, .lit ['c'] none none] ∧
    (noGraphs.run twoLibraries).get (fun g => g) ⟨.uri ['w'], 1⟩ pLabel none = .ok [.lit ['b'] none none] ∧
    (noGraphs.run twoLibraries).type (fun g => g) ⟨.uri ['w'], 0⟩ = .ok (.uri ['W']) ∧
    (noGraphs.run twoLibraries).type (fun g => g) ⟨.uri ['w'], 1⟩ = .ok (.uri ['X']) := by
  refine ⟨by decide +kernel, by decide +kernel, by decide +kernel, by decide +kernel, by decide +kernel, by decide +kernel⟩

/-- The type of the first by the theorem. -/
example : (noGraphs.run twoLibraries).type (fun g => g) ⟨.uri ['w'], 0⟩ = .ok (.uri ['W']) := by
  refine C111_type (fun g => g) (fun g => List.Perm.refl g) noGraphs rfl [] (twoLibraries.drop 1) ['w'] ['W'] ['M']
    [.set (.uri ['w']) pLabel (.str ['a']) none, .add (.uri ['w']) pLabel (.str ['c']) none] (by decide +kernel) ?_
  have hne : pLabel ≠ pType := by decide
  intro op hop
  simp only [List.mem_cons, List.not_mem_nil, or_false] at hop
  rcases hop with rfl | rfl
  · refine ⟨?_, ?_⟩
    · rintro x ⟨v, l, h | h, -⟩ <;> simp [hne] at h
    · rintro (⟨v, l, h⟩ | ⟨p, x, h, -⟩ | ⟨s, p, h, -⟩) <;> simp [hne] at h
  · refine ⟨?_, ?_⟩
    · rintro x ⟨v, l, h | h, -⟩ <;> simp [hne] at h
    · rintro (⟨v, l, h⟩ | ⟨p, x, h, -⟩ | ⟨s, p, h, -⟩) <;> simp at h

/-- A program that goes on in the second graph says nothing in the first. -/
example : saidIn (noGraphs.run (twoLibraries.take 2 ++ (twoLibraries.drop 2).take 3)).objs 0 (twoLibraries.take 2 ++ (twoLibraries.drop 2).take 3) =
    saidIn (noGraphs.run (twoLibraries.take 2)).objs 0 (twoLibraries.take 2) := by decide +kernel

/-- Blank nodes of objects are numbered below the count, and no two objects have the same. -/
def BlanksApart (w : GraphWorld) : Prop :=
  (∀ h ∈ w.objs, ∀ b, h.node = .bnode b → ∃ k < w.fresh, b = natStr k) ∧
  w.objs.Pairwise fun x y => ∀ b, x.node = .bnode b → y.node ≠ .bnode b

theorem BlanksApart.named {w : GraphWorld} (h : BlanksApart w) (w' : GraphWorld) (n : Term) (k : Nat) (hn : ∀ b, n ≠ .bnode b)
    (ho : w'.objs = w.objs ++ [⟨n, k⟩]) (hf : w'.fresh = w.fresh) : BlanksApart w' := by
  refine ⟨fun x hx b hb => ?_, ?_⟩
  · rw [ho] at hx
    rcases List.mem_append.1 hx with hx | hx
    · rw [hf]; exact h.1 x hx b hb
    · simp only [List.mem_singleton] at hx; subst hx; exact absurd hb (hn b)
  · rw [ho, List.pairwise_append]
    exact ⟨h.2, List.pairwise_singleton _ _, fun x _ y hy b _ => by simp only [List.mem_singleton] at hy; subst hy; exact hn b⟩

theorem BlanksApart.blank {w : GraphWorld} (h : BlanksApart w) (w' : GraphWorld) (k : Nat)
    (ho : w'.objs = w.objs ++ [⟨.bnode (natStr w.fresh), k⟩]) (hf : w.fresh < w'.fresh) : BlanksApart w' := by
  refine ⟨fun x hx b hb => ?_, ?_⟩
  · rw [ho] at hx
    rcases List.mem_append.1 hx with hx | hx
    · obtain ⟨m, hm, e⟩ := h.1 x hx b hb
      exact ⟨m, by omega, e⟩
    · simp only [List.mem_singleton] at hx; subst hx
      simp only [Term.bnode.injEq] at hb
      exact ⟨w.fresh, hf, hb.symm⟩
  · rw [ho, List.pairwise_append]
    refine ⟨h.2, List.pairwise_singleton _ _, fun x hx y hy b hb => ?_⟩
    simp only [List.mem_singleton] at hy; subst hy
    obtain ⟨m, hm, e⟩ := h.1 x hx b hb
    simp only [ne_eq, Term.bnode.injEq]
    intro e'
    have := natStr_injective (e'.trans e)
    omega

theorem BlanksApart.same {w : GraphWorld} (h : BlanksApart w) (w' : GraphWorld) (ho : w'.objs = w.objs) (hf : w'.fresh = w.fresh) :
    BlanksApart w' := by
  unfold BlanksApart; rw [ho, hf]; exact h

theorem on_fresh (w : GraphWorld) (i : Nat) (f : Term → Graph → Graph) : (w.on i f).fresh = w.fresh := by
  unfold GraphWorld.on; split <;> rfl

theorem BlanksApart.step {w : GraphWorld} (h : BlanksApart w) (op : GraphOp) (hop : NamesNoBlank op = true) : BlanksApart (w.step op) := by
  have hon : ∀ i f, BlanksApart (w.on i f) := fun i f => h.same _ (on_objs w i f).1 (on_fresh w i f)
  cases op with
  | setGraph k => exact h.same _ rfl rfl
  | collection id t m => exact h.named _ (.uri id) w.current (by simp) rfl rfl
  | text id => exact h.blank _ w.current rfl (Nat.lt_succ_self _)
  | metadata n =>
    cases n with
    | none => exact h.blank _ w.current rfl (Nat.lt_succ_self _)
    | some n => exact h.named _ n w.current (fun b e => by subst e; simp [NamesNoBlank] at hop) rfl rfl
  | getOr o s p => simp [NamesNoBlank] at hop
  | setParent c p =>
    simp only [GraphWorld.step]
    split
    · exact h
    · exact hon _ _
  | _ => exact hon _ _

theorem blanksApart_run (w : GraphWorld) (hw : w.objs = []) (ops : List GraphOp) (hops : ∀ op ∈ ops, NamesNoBlank op = true) : BlanksApart (w.run ops) := by
  induction ops using list_snoc_ind with
  | nil => simp [GraphWorld.run, BlanksApart, hw]
  | append_singleton ops op ih =>
    rw [run_snoc]
    exact (ih fun o ho => hops o (by simp [ho])).step op (hops op (by simp))

/-- C111. A text, and metadata made for nothing in particular, have a blank node of their own: no other object of the program has it, made before or
after, in this graph or another, unless the program hands blank nodes around itself. -/
theorem C111_own_node (w : GraphWorld) (hw : w.objs = []) (ops more : List GraphOp) (op : GraphOp) (hm : (∃ id, op = .text id) ∨ op = .metadata none)
    (hops : ∀ o ∈ ops ++ op :: more, NamesNoBlank o = true) :
    ∃ h b, (w.run (ops ++ op :: more)).objs[ops.countP makes]? = some h ∧ h.node = .bnode b ∧ h.graph = inForce w.current ops ∧
      ∀ i x, (w.run (ops ++ op :: more)).objs[i]? = some x → i ≠ ops.countP makes → x.node ≠ h.node := by
  have hget : (w.run (ops ++ op :: more)).objs[ops.countP makes]? = some ⟨.bnode (natStr (w.run ops).fresh), inForce w.current ops⟩ := by
    rw [show ops ++ op :: more = (ops ++ [op]) ++ more by simp]
    apply C111_objects_stay
    rw [run_snoc, ← run_count w hw, ← run_current]
    rcases hm with ⟨id, rfl⟩ | rfl
    · simp [GraphWorld.step, GraphWorld.newText, GraphWorld.write]
    · simp [GraphWorld.step, GraphWorld.newMetadata]
  refine ⟨_, _, hget, rfl, rfl, fun i x hi hne e => ?_⟩
  have hp := List.pairwise_iff_getElem.1 (blanksApart_run w hw _ hops).2
  obtain ⟨hl, hx⟩ := List.getElem?_eq_some_iff.1 hi
  obtain ⟨hl', hx'⟩ := List.getElem?_eq_some_iff.1 hget
  rcases Nat.lt_or_gt_of_ne hne with hlt | hgt
  · exact hp i _ hl hl' hlt _ (by rw [hx, e]) (by rw [hx'])
  · exact hp _ i hl' hl hgt _ (by rw [hx']) (by rw [hx, e])

example : (noGraphs.run [.text ['a'], .collection ['w'] ['W'] ['M'], .setGraph 1, .text ['b'], .metadata none]).objs =
    [⟨.bnode ['0'], 0⟩, ⟨.uri ['w'], 0⟩, ⟨.bnode ['1'], 1⟩, ⟨.bnode ['2'], 1⟩] := by decide +kernel

theorem undisturbed_setValue {g : Graph} {n m k p o v : Term} (h : m ≠ n) : (⟨n, k, o⟩ : Triple) ∈ g.setValue ⟨m, p, v⟩ ↔ ⟨n, k, o⟩ ∈ g := by
  rw [Graph.setValue, mem_insert, mem_removeAll]
  simp [h, Ne.symm h]

theorem undisturbed_insert {g : Graph} {n m k p o v : Term} (h : m ≠ n) : (⟨n, k, o⟩ : Triple) ∈ g.insert ⟨m, p, v⟩ ↔ ⟨n, k, o⟩ ∈ g := by
  rw [mem_insert]
  simp [Ne.symm h]

theorem undisturbed_remove {g : Graph} {n m k o : Term} {p v : Option Term} (h : m ≠ n) :
    (⟨n, k, o⟩ : Triple) ∈ metaRemove g m p v ↔ ⟨n, k, o⟩ ∈ g := by
  rw [metaRemove, mem_removeAll]
  simp [h]

/-- One step that is not done to an object with a blank node leaves what its graph says of it. -/
theorem undisturbed_step (w : GraphWorld) (hb : BlanksApart w) (t : Nat) (h : Holder) (ht : w.objs[t]? = some h) (b : Str) (hn : h.node = .bnode b)
    (op : GraphOp) (hop : NamesNoBlank op = true) (hd : DoneTo t op = false) (k o : Term) :
    (⟨h.node, k, o⟩ : Triple) ∈ (w.step op).graphs h.graph ↔ ⟨h.node, k, o⟩ ∈ w.graphs h.graph := by
  have hmem : h ∈ w.objs := List.mem_of_getElem? ht
  have hon : ∀ (i : Nat) (f : Term → Graph → Graph), (i == t) = false → (∀ m g, m ≠ h.node → ((⟨h.node, k, o⟩ : Triple) ∈ f m g ↔ ⟨h.node, k, o⟩ ∈ g)) →
      ((⟨h.node, k, o⟩ : Triple) ∈ (w.on i f).graphs h.graph ↔ ⟨h.node, k, o⟩ ∈ w.graphs h.graph) := by
    intro i f hi hf
    unfold GraphWorld.on
    cases hx : w.objs[i]? with
    | none => exact Iff.rfl
    | some x =>
      simp only [GraphWorld.write]
      split
      · refine hf _ _ ?_
        intro e
        have hne : i ≠ t := by simpa using hi
        have hp := List.pairwise_iff_getElem.1 hb.2
        obtain ⟨hl, hx⟩ := List.getElem?_eq_some_iff.1 hx
        obtain ⟨hl', hx'⟩ := List.getElem?_eq_some_iff.1 ht
        rcases Nat.lt_or_gt_of_ne hne with hlt | hgt
        · exact hp i t hl hl' hlt b (by rw [hx, e, hn]) (by rw [hx', hn])
        · exact hp t i hl' hl hgt b (by rw [hx', hn]) (by rw [hx, e, hn])
      · exact Iff.rfl
  cases op with
  | setGraph k => exact Iff.rfl
  | getOr o s p => simp [NamesNoBlank] at hop
  | metadata n => cases n <;> exact Iff.rfl
  | collection id ty m =>
    simp only [GraphWorld.step, GraphWorld.newCollection, GraphWorld.write]
    split
    · rw [undisturbed_setValue (by rw [hn]; simp), undisturbed_setValue (by rw [hn]; simp)]
    · exact Iff.rfl
  | text id =>
    simp only [GraphWorld.step, GraphWorld.newText, GraphWorld.write]
    split
    · refine undisturbed_insert ?_
      intro e
      obtain ⟨m, hm, e'⟩ := hb.1 h hmem _ e.symm
      have := natStr_injective e'
      omega
    · exact Iff.rfl
  | set i key v l => exact hon i _ hd fun m g hm => undisturbed_setValue hm
  | add i key v l => exact hon i _ hd fun m g hm => undisturbed_insert hm
  | remove i p v => exact hon i _ hd fun m g hm => undisturbed_remove hm
  | unlink i s p => simp [DoneTo] at hd
  | setType i u => exact hon i _ hd fun m g hm => undisturbed_setValue hm
  | setModel i u => exact hon i _ hd fun m g hm => undisturbed_setValue hm
  | setVersion i u => exact hon i _ hd fun m g hm => undisturbed_setValue hm
  | setParent c p =>
    simp only [GraphWorld.step]
    split
    · exact Iff.rfl
    · exact hon c _ hd fun m g hm => undisturbed_insert hm

/-- C111. So the metadata of a text are its own: whatever the program does next to other objects, in this graph and in others, and whichever objects it
makes, `get` gives the same values for every key, as long as no links are taken away. -/
theorem C111_undisturbed (order : Order) (ho : Rearranges order) (w : GraphWorld) (hw : w.objs = []) (ops more : List GraphOp) (t : Nat) (h : Holder)
    (ht : (w.run ops).objs[t]? = some h) (b : Str) (hn : h.node = .bnode b) (hops : ∀ op ∈ ops ++ more, NamesNoBlank op = true)
    (hd : ∀ op ∈ more, DoneTo t op = false) (key : Term) :
    ∃ before after, (w.run ops).get order h key none = .ok before ∧ (w.run (ops ++ more)).get order h key none = .ok after ∧
      ∀ o, o ∈ after ↔ o ∈ before := by
  refine ⟨_, _, rfl, rfl, fun o => ?_⟩
  rw [mem_objects ho, mem_objects ho]
  induction more using list_snoc_ind with
  | nil => simp
  | append_singleton more op ih =>
    rw [← List.append_assoc, run_snoc]
    have ho' : ∀ x ∈ ops ++ more, NamesNoBlank x = true := fun x hx => hops x (by
      rcases List.mem_append.1 hx with hx | hx <;> simp [hx])
    rw [undisturbed_step _ (blanksApart_run w hw _ ho') t h (C111_objects_stay w ops more t h ht) b hn op (hops op (by simp)) (hd op (by simp))]
    exact ih ho' fun x hx => hd x (by simp [hx])

/-- Two texts of the same name in one graph, and a collection: what is set for the second and for the collection is not found with the first. -/
example : (noGraphs.run ([.text ['a'], .set 0 pLabel (.str ['x']) none] ++ [.text ['a'], .set 1 pLabel (.str ['y']) none, .collection ['a'] ['W'] ['M'],
    .setVersion 2 ['z'], .setParent 2 0])).get (fun g => g) ⟨.bnode ['0'], 0⟩ pLabel none = .ok [.lit ['x'] none none] := by decide +kernel

/-! ### Departures -/

/-- C111 (departure): in one graph, a second collection with the same identifier and another class changes the type and the
model of the first. -/
theorem C111_fails_same_identifier :
    (noGraphs.run [.collection ['w'] ['W'] ['M']]).type (fun g => g) ⟨.uri ['w'], 0⟩ = .ok (.uri ['W']) ∧
    (noGraphs.run [.collection ['w'] ['W'] ['M'], .collection ['w'] ['X'] ['N']]).type (fun g => g) ⟨.uri ['w'], 0⟩ = .ok (.uri ['X']) ∧
    (noGraphs.run [.collection ['w'] ['W'] ['M'], .collection ['w'] ['X'] ['N']]).model (fun g => g) ⟨.uri ['w'], 0⟩ = .ok (.uri ['N']) := by
  refine ⟨by decide +kernel, by decide +kernel, by decide +kernel⟩

/-- C111 (departure): `Metadata.getOr` looks in the graph in force, not in the graph of the subject: after `set_graph` it does not find what the
subject has, and makes a new blank node in the other graph. -/
theorem C111_fails_getOr :
    (noGraphs.run [.collection ['w'] ['W'] ['M'], .set 0 pLabel (.term (.uri ['m'])) none, .getOr (fun g => g) (.uri ['w']) pLabel,
      .setGraph 1, .getOr (fun g => g) (.uri ['w']) pLabel]).objs =
        [⟨.uri ['w'], 0⟩, ⟨.uri ['m'], 0⟩, ⟨.bnode ['0'], 1⟩] := by decide +kernel

/-- C111 (departure): `metadata.remove()` on a collection takes its type away too, and reading the type then raises
`IndexError`. -/
theorem C111_fails_emptied :
    (noGraphs.run [.collection ['w'] ['W'] ['M'], .remove 0 none none]).type (fun g => g) ⟨.uri ['w'], 0⟩ = .error .indexError := by
  decide +kernel

end Verif.Props
