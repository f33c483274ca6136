import Verif.Spec.Graphs
import Verif.Props.Metadata
/-! Programs with several graphs, step by step (C111). -/
namespace Verif.Lemmas
open Verif.Py Verif.Model Verif.Spec Verif.Props

theorem list_snoc_ind {α : Type} {P : List α → Prop} (l : List α) (nil : P [])
    (append_singleton : ∀ (l : List α) (a : α), P l → P (l ++ [a])) : P l := by
  rw [← List.reverse_reverse l]
  induction l.reverse with
  | nil => exact nil
  | cons a r ih => rw [List.reverse_cons]; exact append_singleton _ a ih

theorem run_snoc (w : GraphWorld) (ops : List GraphOp) (op : GraphOp) : w.run (ops ++ [op]) = (w.run ops).step op := by
  simp [GraphWorld.run]

theorem on_objs (w : GraphWorld) (i : Nat) (f : Term → Graph → Graph) : (w.on i f).objs = w.objs ∧ (w.on i f).current = w.current := by
  unfold GraphWorld.on; split <;> exact ⟨rfl, rfl⟩

theorem inForce_snoc (start : Nat) (ops : List GraphOp) (op : GraphOp) :
    inForce start (ops ++ [op]) = match op with | .setGraph k => k | _ => inForce start ops := by
  unfold inForce
  rw [List.filterMap_append]
  cases op <;> simp [List.filterMap]

theorem step_current (w : GraphWorld) (op : GraphOp) :
    (w.step op).current = match op with | .setGraph k => k | _ => w.current := by
  cases op with
  | setGraph k => rfl
  | metadata n => cases n <;> rfl
  | getOr order s p => simp only [GraphWorld.step]; cases getOr order (w.graphs w.current) s p <;> rfl
  | setParent c p =>
    simp only [GraphWorld.step]
    split
    · rfl
    · exact (on_objs _ _ _).2
  | collection => rfl
  | text => rfl
  | _ => exact (on_objs _ _ _).2

theorem run_current (w : GraphWorld) (ops : List GraphOp) : (w.run ops).current = inForce w.current ops := by
  induction ops using list_snoc_ind with
  | nil => rfl
  | append_singleton ops op ih => rw [run_snoc, step_current, inForce_snoc, ih]

/-- A step makes at most one object, in the graph in force. -/
theorem step_objs (w : GraphWorld) (op : GraphOp) :
    if makes op then ∃ n, (w.step op).objs = w.objs ++ [⟨n, w.current⟩] else (w.step op).objs = w.objs := by
  cases op with
  | setGraph k => simp [makes, GraphWorld.step]
  | metadata n => cases n <;> simp [makes, GraphWorld.step, GraphWorld.newMetadata]
  | getOr order s p =>
    simp only [makes, GraphWorld.step, if_true]; cases getOr order (w.graphs w.current) s p <;> simp [GraphWorld.newMetadata]
  | setParent c p =>
    rw [if_neg (by simp [makes])]
    simp only [GraphWorld.step]
    split
    · rfl
    · exact (on_objs _ _ _).1
  | collection => simp [makes, GraphWorld.step, GraphWorld.newCollection, GraphWorld.write]
  | text => simp [makes, GraphWorld.step, GraphWorld.newText, GraphWorld.write]
  | _ => rw [if_neg (by simp [makes])]; exact (on_objs _ _ _).1

theorem birthGraphs_snoc (start : Nat) (ops : List GraphOp) (op : GraphOp) :
    birthGraphs start (ops ++ [op]) = birthGraphs start ops ++ if makes op then [inForce start ops] else [] := by
  unfold birthGraphs
  rw [List.length_append, List.length_singleton, List.range_succ, List.filter_append, List.map_append]
  congr 1
  · have : ∀ j ∈ List.range ops.length, (((ops ++ [op])[j]?).any makes) = ((ops[j]?).any makes) := by
      intro j hj; rw [List.getElem?_append_left (List.mem_range.1 hj)]
    rw [List.filter_congr this]
    apply List.map_congr_left
    intro j hj
    rw [List.take_append_of_le_length (by have := List.mem_range.1 (List.mem_filter.1 hj).1; omega)]
  · cases h : makes op <;> simp [h]

theorem run_births (w : GraphWorld) (hw : w.objs = []) (ops : List GraphOp) :
    (w.run ops).objs.map (·.graph) = birthGraphs w.current ops := by
  induction ops using list_snoc_ind with
  | nil => simp [GraphWorld.run, hw, birthGraphs]
  | append_singleton ops op ih =>
    rw [run_snoc, birthGraphs_snoc, ← ih, ← run_current]
    have := step_objs (w.run ops) op
    cases h : makes op with
    | true =>
      simp only [h, if_true] at this ⊢
      obtain ⟨n, e⟩ := this
      simp [e]
    | false =>
      simp only [h] at this ⊢
      simp at this
      simp [this]

theorem run_count (w : GraphWorld) (hw : w.objs = []) (ops : List GraphOp) : (w.run ops).objs.length = ops.countP makes := by
  induction ops using list_snoc_ind with
  | nil => simp [GraphWorld.run, hw]
  | append_singleton ops op ih =>
    rw [run_snoc, List.countP_append, ← ih]
    have := step_objs (w.run ops) op
    cases h : makes op with
    | true =>
      simp only [h, if_true] at this
      obtain ⟨n, e⟩ := this
      simp [e, h]
    | false =>
      simp only [h] at this
      simp at this
      simp [this, h]

theorem step_objs_prefix (w : GraphWorld) (op : GraphOp) : w.objs <+: (w.step op).objs := by
  have := step_objs w op
  split at this
  · obtain ⟨n, e⟩ := this; rw [e]; exact ⟨_, rfl⟩
  · rw [this]; exact List.prefix_refl _

theorem run_objs_prefix (w : GraphWorld) (ops more : List GraphOp) : (w.run ops).objs <+: (w.run (ops ++ more)).objs := by
  induction more using list_snoc_ind with
  | nil => simp
  | append_singleton more op ih =>
    rw [← List.append_assoc, run_snoc]
    exact ih.trans (step_objs_prefix _ op)

/-- What is said refers only to the objects that exist, so later objects do not matter. -/
theorem said_prefix {objs more : List Holder} {made : Nat} {op : GraphOp}
    (h : made + (if makes op then 1 else 0) ≤ objs.length) : said (objs ++ more) made op = said objs made op := by
  have h1 : (objs ++ more).take made = objs.take made := List.take_append_of_le_length (by omega)
  have h2 : makes op = true → (objs ++ more)[made]? = objs[made]? := by
    intro hm; rw [hm] at h; simp at h; exact List.getElem?_append_left (by omega)
  cases op <;> simp only [said, said.of, h1] <;> rw [h2 rfl]

theorem saidIn_snoc (objs : List Holder) (k : Nat) (ops : List GraphOp) (op : GraphOp) :
    saidIn objs k (ops ++ [op]) =
      saidIn objs k ops ++ ((said objs (ops.countP makes) op).filter fun x => x.1 == k).map (·.2) := by
  unfold saidIn
  rw [List.length_append, List.length_singleton, List.range_succ, List.flatMap_append, List.filter_append, List.map_append]
  congr 3
  · apply flatMap_congr'
    intro j hj
    have hj := List.mem_range.1 hj
    rw [List.getElem?_append_left hj, List.take_append_of_le_length (by omega)]
  · simp
where
  flatMap_congr' {α β : Type} {l : List α} {f g : α → List β} (h : ∀ a ∈ l, f a = g a) : l.flatMap f = l.flatMap g := by
    induction l with
    | nil => rfl
    | cons a l ih => rw [List.flatMap_cons, List.flatMap_cons, h a (by simp), ih fun b hb => h b (by simp [hb])]

theorem saidIn_prefix (w : GraphWorld) (hw : w.objs = []) (k : Nat) (ops : List GraphOp) (more : List Holder) :
    saidIn ((w.run ops).objs ++ more) k ops = saidIn (w.run ops).objs k ops := by
  induction ops using list_snoc_ind generalizing more with
  | nil => rfl
  | append_singleton ops op ih =>
    obtain ⟨z, hz⟩ := step_objs_prefix (w.run ops) op
    rw [saidIn_snoc, saidIn_snoc]
    have e : saidIn ((w.run (ops ++ [op])).objs ++ more) k ops = saidIn (w.run (ops ++ [op])).objs k ops := by
      rw [run_snoc, ← hz, List.append_assoc, ih, ih]
    rw [e]
    congr 3
    apply said_prefix
    rw [run_count w hw, List.countP_append]
    cases h : makes op <;> simp [h]

/-- What a step does to a graph is what it says there. -/
theorem step_graph (w : GraphWorld) (op : GraphOp) (k : Nat) :
    (w.step op).graphs k =
      runOps (w.graphs k) (((said (w.step op).objs w.objs.length op).filter fun x => x.1 == k).map (·.2)) := by
  have hon : ∀ (i : Nat) (f : Term → MetaOp),
      (w.on i fun n g => (f n).run g).graphs k =
        runOps (w.graphs k) (((((w.on i fun n g => (f n).run g).objs.take w.objs.length)[i]?.toList.map fun h => (h.graph, f h.node)).filter
          fun x => x.1 == k).map (·.2)) := by
    intro i f
    rw [(on_objs _ _ _).1, List.take_length]
    unfold GraphWorld.on
    cases h : w.objs[i]? with
    | none => simp [runOps]
    | some o =>
      simp only [GraphWorld.write, Option.toList, List.map_cons, List.map_nil]
      by_cases hk : o.graph = k
      · subst hk; simp [runOps]
      · simp [hk, runOps, Ne.symm hk]
  cases op with
  | setGraph j => simp [GraphWorld.step, said, runOps]
  | metadata n => cases n <;> simp [GraphWorld.step, GraphWorld.newMetadata, said, runOps]
  | getOr order s p =>
    simp only [GraphWorld.step]; cases getOr order (w.graphs w.current) s p <;> simp [GraphWorld.newMetadata, said, runOps]
  | collection id t m =>
    simp only [GraphWorld.step, GraphWorld.newCollection, GraphWorld.write, said]
    rw [List.getElem?_append_right (Nat.le_refl _)]
    by_cases hk : k = w.current
    · subst hk; simp [runOps, MetaOp.run, metaSet, toTerm]
    · simp [hk, Ne.symm hk, runOps]
  | text id =>
    simp only [GraphWorld.step, GraphWorld.newText, GraphWorld.write, said]
    rw [List.getElem?_append_right (Nat.le_refl _)]
    by_cases hk : k = w.current
    · subst hk; simp [runOps, MetaOp.run, metaAdd, toTerm]
    · simp [hk, Ne.symm hk, runOps]
  | set i key v l => exact hon i fun n => .set n key v l
  | add i key v l => exact hon i fun n => .add n key v l
  | remove i p o => exact hon i fun n => .remove n p o
  | unlink i s p => exact hon i fun n => .unlink n s p
  | setType i u => exact hon i fun n => .set n pType (.term (.uri u)) none
  | setModel i u => exact hon i fun n => .set n pModel (.term (.uri u)) none
  | setVersion i v => exact hon i fun n => .set n pVersion (.str v) none
  | setParent c p =>
    have e : (w.step (.setParent c p)).objs = w.objs := by simpa [makes] using step_objs w (.setParent c p)
    simp only [said]
    rw [e, List.take_length]
    simp only [GraphWorld.step]
    cases h : w.objs[p]? with
    | none => simp [runOps]
    | some o =>
      have := hon c fun n => .add n parentPredicate (.term o.node) none
      rw [(on_objs _ _ _).1] at this
      have et : toTerm (.term o.node) none = o.node := by cases o.node <;> rfl
      simpa [MetaOp.run, metaAdd, et, said.of] using this

theorem run_graph (w : GraphWorld) (hw : w.objs = []) (ops : List GraphOp) (k : Nat) :
    (w.run ops).graphs k = runOps (w.graphs k) (saidIn (w.run ops).objs k ops) := by
  induction ops using list_snoc_ind with
  | nil => rfl
  | append_singleton ops op ih =>
    rw [saidIn_snoc]
    obtain ⟨z, hz⟩ := step_objs_prefix (w.run ops) op
    have e : saidIn (w.run (ops ++ [op])).objs k ops = saidIn (w.run ops).objs k ops := by
      rw [run_snoc, ← hz, saidIn_prefix w hw]
    rw [e, run_snoc, step_graph, ih, run_count w hw]
    simp [runOps, List.foldl_append]

end Verif.Lemmas
