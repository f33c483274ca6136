import Verif.Spec.Inventory
import Verif.Lemmas.Keyed
/-!
C41 - C43: merging works and textgroups, the length of inventories, dispatching.
-/
namespace Verif.Props
open Verif.Py Verif.Model Verif.Spec Verif.Lemmas

/-! ### Example data -/

/-- A text for the examples. -/
def exText (id : String) (k : Kind := .edition) (path : String := "") : TextV :=
  { id := id.toList, urn := ⟨none, none, none, none, none, none, none⟩, kind := k, lang := ['l', 'a', 't'], cite := some 0, path := path.toList }
/-- A work for the examples. -/
def exWork (id : String) (ts : List TextV) : WorkV := { id := id.toList, lang := ['l', 'a', 't'], texts := ts }
/-- A textgroup for the examples. -/
def exTg (id : String) (ws : List WorkV) : TgV := { id := id.toList, works := ws }

/-! ### C41: merging -/

/-- C41. Merging two works with the same identifier: the result has every incoming text, and the texts of the original
whose identifier is not among the incoming ones; the identifier is that of the original. -/
theorem C41_work (self other : WorkV) (hs : DictWork self) (ho : DictWork other) (hid : self.id = other.id) :
    ∃ w, workUpdate self (.work other) = .ok w ∧ w.id = self.id ∧ w.lang = self.lang ∧ DictWork w ∧
      ∀ t, t ∈ w.texts ↔ t ∈ other.texts ∨ (t ∈ self.texts ∧ ∀ t' ∈ other.texts, t'.id ≠ t.id) := by
  refine ⟨{ self with texts := other.texts.foldl (putKeyed TextV.id) self.texts },
    by rw [workUpdate, if_neg (by rw [hid]; simp)], rfl, rfl, nodup_foldl_put other.texts hs, ?_⟩
  intro t
  show t ∈ other.texts.foldl (putKeyed TextV.id) self.texts ↔ _
  rw [mem_foldl_put hs ho]
  constructor
  · rintro (h | ⟨h, hn⟩)
    · exact Or.inl h
    · exact Or.inr ⟨h, fun t' ht' e => hn (by rw [← e]; exact List.mem_map_of_mem ht')⟩
  · rintro (h | ⟨h, hn⟩)
    · exact Or.inl h
    · refine Or.inr ⟨h, fun hm => ?_⟩
      obtain ⟨t', ht', e⟩ := List.mem_map.mp hm
      exact hn t' ht' e

example : ∃ w, workUpdate (exWork "w" [exText "a" .edition "old", exText "b"]) (.work (exWork "w" [exText "a" .edition "new", exText "c"])) = .ok w ∧
    w.texts.map TextV.path = ["new".toList, [], []] ∧ w.texts.map TextV.id = [['a'], ['b'], ['c']] := by
  exact ⟨_, rfl, by decide +kernel, by decide +kernel⟩

/-- C41. `work.update` refuses exactly what is not a work, with `TypeError`, and works with another URN, with
`InvalidURN`. -/
theorem C41_work_refuses (self : WorkV) (other : Obj) (e : PyErr) :
    workUpdate self other = .error e ↔
      (e = .typeError ∧ ∀ w, other ≠ .work w) ∨ (e = .invalidURN ∧ ∃ w, other = .work w ∧ urnText w.id ≠ urnText self.id) := by
  cases other with
  | work w =>
    rw [workUpdate]
    by_cases h : urnText self.id = urnText w.id
    · rw [if_neg (by simp [h])]; simp [h]
    · rw [if_pos h]
      simp only [Except.error.injEq, Obj.work.injEq, ne_eq]
      constructor
      · rintro rfl; exact Or.inr ⟨rfl, w, rfl, fun e => h e.symm⟩
      · rintro (⟨_, hn⟩ | ⟨rfl, _⟩)
        · exact absurd rfl (hn w)
        · rfl
  | text t => simp [workUpdate]; exact eq_comm
  | tg t => simp [workUpdate]; exact eq_comm
  | inv t => simp [workUpdate]; exact eq_comm
  | root t => simp [workUpdate]; exact eq_comm

/-- One work merged into a dictionary of works. -/
def mergeStep (ws : List WorkV) (w : WorkV) : List WorkV :=
  match ws.find? fun x => x.id == w.id with
  | some x => putKeyed WorkV.id ws { x with texts := w.texts.foldl (putKeyed TextV.id) x.texts }
  | none => putKeyed WorkV.id ws w

theorem find_id {ws : List WorkV} {k : Str} {x : WorkV} (h : ws.find? (fun x => x.id == k) = some x) : x.id = k ∧ x ∈ ws :=
  ⟨by simpa using List.find?_some h, List.mem_of_find?_eq_some h⟩

theorem tgStep_eq (ws : List WorkV) (w : WorkV) : tgStep ws w = .ok (mergeStep ws w) := by
  rw [tgStep, mergeStep]
  cases hx : ws.find? (fun x => x.id == w.id) with
  | some x => simp only [workUpdate]; rw [if_neg (by rw [(find_id hx).1]; simp)]
  | none => rfl

theorem tgLoop_eq (ws l : List WorkV) : tgLoop ws l = .ok (l.foldl mergeStep ws) := by
  induction l generalizing ws with
  | nil => rfl
  | cons w r ih => rw [tgLoop, tgStep_eq, List.foldl_cons]; exact ih _

theorem find_mergeStep (ws : List WorkV) (w : WorkV) (k : Str) :
    (mergeStep ws w).find? (fun x => x.id == k) =
      if w.id = k then some (match ws.find? (fun x => x.id == w.id) with
        | some x => { x with texts := w.texts.foldl (putKeyed TextV.id) x.texts }
        | none => w)
      else ws.find? (fun x => x.id == k) := by
  rw [mergeStep]
  split
  · rename_i x hx
    rw [find_putKeyed]
    simp only [(find_id hx).1]
  · rw [find_putKeyed]

theorem find_merge (ws l : List WorkV) (hl : (l.map WorkV.id).Nodup) (k : Str) :
    (l.foldl mergeStep ws).find? (fun x => x.id == k) =
      match l.find? (fun x => x.id == k), ws.find? (fun x => x.id == k) with
      | none, y => y
      | some w, none => some w
      | some w, some x => some { x with texts := w.texts.foldl (putKeyed TextV.id) x.texts } := by
  induction l generalizing ws with
  | nil => rfl
  | cons w r ih =>
    simp only [List.map_cons, List.nodup_cons] at hl
    rw [List.foldl_cons, ih _ hl.2, find_mergeStep]
    by_cases hk : w.id = k
    · subst hk
      have hr : r.find? (fun x => x.id == w.id) = none := by
        rw [List.find?_eq_none]
        intro x hx e
        exact hl.1 (by rw [← (by simpa using e : x.id = w.id)]; exact List.mem_map_of_mem hx)
      rw [hr]
      simp only [if_true, List.find?_cons, beq_self_eq_true]
      cases ws.find? (fun x => x.id == w.id) <;> rfl
    · rw [if_neg hk, List.find?_cons, beq_eq_false_iff_ne.mpr hk]

theorem nodup_merge (l : List WorkV) {ws : List WorkV} (h : (ws.map WorkV.id).Nodup) : ((l.foldl mergeStep ws).map WorkV.id).Nodup := by
  induction l generalizing ws with
  | nil => exact h
  | cons w r ih =>
    refine ih ?_
    rw [mergeStep]
    split <;> exact nodup_putKeyed h

theorem hasText_find {g : TgV} (h : DictTg g) {wid : Str} {t : TextV} :
    HasText g wid t ↔ ∃ w, g.works.find? (fun x => x.id == wid) = some w ∧ t ∈ w.texts := by
  constructor
  · rintro ⟨w, hw, rfl, ht⟩
    exact ⟨w, find_of_mem h.works hw, ht⟩
  · rintro ⟨w, hw, ht⟩
    exact ⟨w, (find_id hw).2, (find_id hw).1, ht⟩

theorem mem_find {ws : List WorkV} (h : (ws.map WorkV.id).Nodup) {w : WorkV} :
    w ∈ ws ↔ ws.find? (fun x => x.id == w.id) = some w :=
  ⟨find_of_mem h, fun e => (find_id e).2⟩

theorem dict_merge {a b : TgV} (ha : DictTg a) (hb : DictTg b) : DictTg { a with works := b.works.foldl mergeStep a.works } := by
  refine ⟨nodup_merge _ ha.works, ?_⟩
  intro w hw
  have hf := (mem_find (nodup_merge b.works ha.works)).mp hw
  rw [find_merge _ _ hb.works] at hf
  split at hf
  · exact ha.texts _ (find_id hf).2
  · rename_i h _
    cases hf; exact hb.texts _ (find_id h).2
  · rename_i x h1 h2
    cases hf
    exact nodup_foldl_put _ (ha.texts _ (find_id h2).2)

/-- C41. Merging two textgroups with the same identifier: the result has the works of either, and in each work the
incoming texts and those of the original that no incoming text replaces. -/
theorem C41_textgroup (self other : TgV) (hs : DictTg self) (ho : DictTg other) (hid : self.id = other.id) :
    ∃ g, tgUpdate self (.tg other) = .ok g ∧ g.id = self.id ∧ DictTg g ∧
      (∀ wid, wid ∈ g.works.map WorkV.id ↔ wid ∈ self.works.map WorkV.id ∨ wid ∈ other.works.map WorkV.id) ∧
      ∀ wid t, HasText g wid t ↔
        HasText other wid t ∨ (HasText self wid t ∧ ¬ ∃ t', HasText other wid t' ∧ t'.id = t.id) := by
  refine ⟨{ self with works := other.works.foldl mergeStep self.works }, ?_, rfl, dict_merge hs ho, ?_, ?_⟩
  · rw [tgUpdate, if_neg (by rw [hid]; simp), tgLoop_eq]
  · intro wid
    have key : ∀ (ws : List WorkV), wid ∈ ws.map WorkV.id ↔ (ws.find? (fun x => x.id == wid)).isSome = true := by
      intro ws; simp [List.find?_isSome]
    rw [key, key, key, find_merge _ _ ho.works]
    cases other.works.find? (fun x => x.id == wid) <;> cases self.works.find? (fun x => x.id == wid) <;> simp
  · intro wid t
    rw [hasText_find (dict_merge hs ho), hasText_find hs, hasText_find ho]
    have h3 : (∃ t', HasText other wid t' ∧ t'.id = t.id) ↔
        ∃ t', (∃ w, other.works.find? (fun x => x.id == wid) = some w ∧ t' ∈ w.texts) ∧ t'.id = t.id := by
      simp only [hasText_find ho]
    rw [h3]
    simp only [find_merge _ _ ho.works]
    cases h1 : other.works.find? (fun x => x.id == wid) with
    | none => simp
    | some w =>
      cases h2 : self.works.find? (fun x => x.id == wid) with
      | none => simp
      | some x =>
        simp only [Option.some.injEq, exists_eq_left']
        rw [mem_foldl_put (hs.texts _ (find_id h2).2) (ho.texts _ (find_id h1).2)]
        simp only [List.mem_map]

example : ∃ g, tgUpdate (exTg "g" [exWork "w" [exText "a"], exWork "v" [exText "b"]])
      (.tg (exTg "g" [exWork "w" [exText "a" .translation, exText "c"], exWork "u" [exText "d"]])) = .ok g ∧
    g.works.map WorkV.id = [['w'], ['v'], ['u']] ∧ HasText g ['w'] (exText "a" .translation) ∧ ¬ HasText g ['w'] (exText "a") := by
  refine ⟨_, rfl, by decide +kernel, ⟨_, List.mem_cons_self .., rfl, by decide +kernel⟩, ?_⟩
  rintro ⟨w, hw, hid, ht⟩
  have := hw
  revert w
  decide +kernel

/-- C41. `textgroup.update` refuses exactly what is not a textgroup, with `TypeError`, and textgroups with another URN,
with `InvalidURN`. -/
theorem C41_textgroup_refuses (self : TgV) (other : Obj) (e : PyErr) :
    tgUpdate self other = .error e ↔
      (e = .typeError ∧ ∀ g, other ≠ .tg g) ∨ (e = .invalidURN ∧ ∃ g, other = .tg g ∧ urnText g.id ≠ urnText self.id) := by
  cases other with
  | tg w =>
    rw [tgUpdate]
    by_cases h : urnText self.id = urnText w.id
    · rw [if_neg (by simp [h]), tgLoop_eq]; simp [h]
    · rw [if_pos h]
      simp only [Except.error.injEq, Obj.tg.injEq, ne_eq]
      constructor
      · rintro rfl; exact Or.inr ⟨rfl, w, rfl, fun e => h e.symm⟩
      · rintro (⟨_, hn⟩ | ⟨rfl, _⟩)
        · exact absurd rfl (hn w)
        · rfl
  | text t => simp [tgUpdate]; exact eq_comm
  | work t => simp [tgUpdate]; exact eq_comm
  | inv t => simp [tgUpdate]; exact eq_comm
  | root t => simp [tgUpdate]; exact eq_comm

/-! ### C42: length -/

theorem length_texts_work (w : WorkV) : ((workDesc w).filter IsText).length = w.texts.length := by
  rw [workDesc, List.filter_eq_self.mpr]
  · simp
  · intro o ho
    obtain ⟨t, _, rfl⟩ := List.mem_map.mp ho
    rfl

theorem filter_map_none {α : Type} (f : α → Obj) (h : ∀ a, IsText (f a) = false) (l : List α) : (l.map f).filter IsText = [] := by
  rw [List.filter_eq_nil_iff]
  intro o ho
  obtain ⟨t, _, rfl⟩ := List.mem_map.mp ho
  simp [h]

theorem length_flatMap_congr {α β γ : Type} (l : List α) (f : α → List β) (g : α → List γ) (h : ∀ a ∈ l, (f a).length = (g a).length) :
    (l.flatMap f).length = (l.flatMap g).length := by
  rw [List.length_flatMap, List.length_flatMap]
  congr 1
  exact List.map_congr_left h

theorem length_texts_tg (g : TgV) : ((tgDesc g).filter IsText).length = (g.works.flatMap (·.texts)).length := by
  rw [tgDesc, List.filter_append, filter_map_none _ (fun _ => rfl), List.nil_append, List.filter_flatMap]
  exact length_flatMap_congr _ _ _ (fun w _ => length_texts_work w)

theorem length_texts_inv (i : InvV) : ((invDesc i).filter IsText).length = (i.tgs.flatMap fun g => g.works.flatMap (·.texts)).length := by
  rw [invDesc, List.filter_append, filter_map_none _ (fun _ => rfl), List.nil_append, List.filter_flatMap]
  exact length_flatMap_congr _ _ _ (fun g _ => length_texts_tg g)

/-- C42. `len()` of a work, a textgroup, an inventory or a collection of inventories is the number of texts among its
descendants; a text has no length. -/
theorem C42_length (o : Obj) (n : Nat) : objLen o = .ok n ↔ IsText o = false ∧ n = ((objDesc o).filter IsText).length := by
  cases o with
  | text t => simp [objLen, IsText]
  | work w => simp only [objLen, IsText, objDesc, length_texts_work, Except.ok.injEq, true_and]; exact eq_comm
  | tg g => simp only [objLen, IsText, objDesc, length_texts_tg, Except.ok.injEq, true_and]; exact eq_comm
  | inv i => simp only [objLen, IsText, objDesc, length_texts_inv, Except.ok.injEq, true_and]; exact eq_comm
  | root r =>
    have : ((rootDesc r).filter IsText).length = (r.invs.flatMap fun i => i.tgs.flatMap fun g => g.works.flatMap (·.texts)).length := by
      rw [rootDesc, List.filter_append, filter_map_none _ (fun _ => rfl), List.nil_append, List.filter_flatMap]
      exact length_flatMap_congr _ _ _ (fun g _ => length_texts_inv g)
    simp only [objLen, IsText, objDesc, this, Except.ok.injEq, true_and]; exact eq_comm

example : objLen (.inv ⟨['i'], [exTg "g" [exWork "w" [exText "a", exText "b"], exWork "v" []], exTg "h" [exWork "x" [exText "c"]]]⟩) = .ok 3 := rfl

/-! ### C43: dispatching -/

theorem dispatchLoop_chosen (r : RootV) (g : TgV) (path : Str) (a : List (Str × Filter)) (name : Str) (f : Filter) (rest : List (Str × Filter))
    (ha : ∀ x ∈ a, x.2 g path = .ok false) (hf : f g path = .ok true) :
    dispatchLoop r g path (a ++ (name, f) :: rest) = attach r g name := by
  induction a with
  | nil => simp [dispatchLoop, hf]
  | cons x l ih =>
    obtain ⟨n, f'⟩ := x
    have := ha (n, f') (List.mem_cons_self ..)
    simp only at this
    rw [List.cons_append, dispatchLoop, this]
    exact ih (fun y hy => ha y (List.mem_cons_of_mem _ hy))

theorem foldl_addFilter (fs : List (Str × Filter)) (d : Dispatcher) :
    (fs.foldl (fun d x => addFilter d x.2 x.1) d).root = d.root ∧
    (fs.foldl (fun d x => addFilter d x.2 x.1) d).methods = d.methods ++ fs := by
  induction fs generalizing d with
  | nil => simp
  | cons x r ih =>
    rw [List.foldl_cons]
    refine ⟨(ih _).1, ?_⟩
    rw [(ih _).2, addFilter]; simp

/-- A dispatcher with filters registered one after the other. -/
theorem dispatch_registered (r : RootV) (default : Str) (fs : List (Str × Filter)) (g : TgV) (path name : Str)
    (hc : Chosen fs default g path name) :
    dispatch (fs.foldl (fun d x => addFilter d x.2 x.1) { root := r, methods := [(default, fun _ _ => .ok true)] }) g path
      = attach r g name := by
  rw [dispatch, (foldl_addFilter fs _).1, (foldl_addFilter fs _).2]
  simp only
  rcases hc with ⟨pre, post, f, rfl, hf, hpost⟩ | ⟨rfl, hall⟩
  · have : ([(default, (fun _ _ => .ok true : Filter))] ++ (pre ++ (name, f) :: post)).reverse
        = post.reverse ++ (name, f) :: ((default, (fun _ _ => .ok true : Filter)) :: pre).reverse := by simp
    rw [this]
    exact dispatchLoop_chosen r g path _ _ _ _ (fun x hx => hpost x (List.mem_reverse.mp hx)) hf
  · have : ([(name, (fun _ _ => .ok true : Filter))] ++ fs).reverse = fs.reverse ++ (name, fun _ _ => .ok true) :: [] := by simp
    rw [this]
    exact dispatchLoop_chosen r g path _ _ _ _ (fun x hx => hall x (List.mem_reverse.mp hx)) rfl

/-- C43. A textgroup given to a dispatcher becomes a member of the inventory of the last registered filter that returned
`True`, or of the default inventory when none did (a member with the same identifier stays, and then nothing
changes); the inventories stay in order, and all but the chosen one stay as they are. -/
theorem C43_dispatch (r : RootV) (default : Str) (d0 : Dispatcher) (hd : mkDispatcher r (some default) = .ok d0)
    (fs : List (Str × Filter)) (g : TgV) (path name : Str) (hn : (r.invs.map InvV.id).Nodup)
    (hc : Chosen fs default g path name) (hk : name ∈ r.invs.map InvV.id) :
    ∃ r', dispatch (fs.foldl (fun d x => addFilter d x.2 x.1) d0) g path = .ok r' ∧
      r'.id = r.id ∧ r'.invs.map InvV.id = r.invs.map InvV.id ∧
      (∀ i ∈ r'.invs, i.id ≠ name → i ∈ r.invs) ∧
      (∀ i ∈ r.invs, i.id ≠ name → i ∈ r'.invs) ∧
      ∃ i ∈ r.invs, i.id = name ∧ ∃ i' ∈ r'.invs, i'.id = name ∧
        ((g.id ∉ i.tgs.map TgV.id ∧ i'.tgs = i.tgs ++ [g]) ∨ (g.id ∈ i.tgs.map TgV.id ∧ i' = i)) := by
  cases hd
  rw [dispatch_registered r default fs g path name hc]
  obtain ⟨i, hi, hin⟩ := List.mem_map.mp hk
  have hfind : r.invs.find? (fun i => i.id == name) = some i := by rw [← hin]; exact find_of_mem hn hi
  refine ⟨{ r with invs := putKeyed InvV.id r.invs { i with tgs := addKeyed TgV.id i.tgs g } }, by rw [attach, hfind],
    rfl, ?_, ?_, ?_, i, hi, hin, { i with tgs := addKeyed TgV.id i.tgs g }, (mem_putKeyed hn).mpr (Or.inl rfl), hin, ?_⟩
  · exact map_putKeyed_of_mem (v := { i with tgs := addKeyed TgV.id i.tgs g }) (by show i.id ∈ r.invs.map InvV.id; exact List.mem_map_of_mem hi)
  · intro j hj hne
    rcases (mem_putKeyed hn).mp hj with rfl | h
    · exact absurd hin hne
    · exact h.1
  · intro j hj hne
    exact (mem_putKeyed hn).mpr (Or.inr ⟨hj, by simp only; rw [hin]; exact hne⟩)
  · by_cases hm : g.id ∈ i.tgs.map TgV.id
    · refine Or.inr ⟨hm, ?_⟩
      cases i
      simp only [addKeyed, if_pos hm]
    · refine Or.inl ⟨hm, ?_⟩
      simp only [addKeyed, if_neg hm]

example : ∃ r', dispatch (addFilter (addFilter ⟨⟨['r'], [⟨['d'], []⟩, ⟨['l'], []⟩]⟩, [(['d'], fun _ _ => .ok true)]⟩
      (fun g _ => .ok (g.id == ['g'])) ['l']) (fun _ _ => .ok false) ['d']) (exTg "g" []) [] = .ok r' ∧
    r'.invs.map (fun i => (i.id, i.tgs.map TgV.id)) = [(['d'], []), (['l'], [['g']])] := ⟨_, rfl, by decide +kernel⟩

/-- C43. When the chosen inventory does not exist the dispatcher raises `KeyError`. -/
theorem C43_unknown_inventory (r : RootV) (default : Str) (fs : List (Str × Filter)) (g : TgV) (path name : Str)
    (hc : Chosen fs default g path name) (hk : name ∉ r.invs.map InvV.id) (d0 : Dispatcher)
    (hd : mkDispatcher r (some default) = .ok d0) :
    dispatch (fs.foldl (fun d x => addFilter d x.2 x.1) d0) g path = .error .keyError := by
  cases hd
  rw [dispatch_registered r default fs g path name hc, attach]
  have : r.invs.find? (fun i => i.id == name) = none := by
    rw [List.find?_eq_none]
    intro x hx e
    exact hk (by rw [← (by simpa using e : x.id = name)]; exact List.mem_map_of_mem hx)
  rw [this]

/-- C43. Without a name the default inventory is the first one, and there must be one. -/
theorem C43_default (r : RootV) :
    (∀ i rest, r.invs = i :: rest → mkDispatcher r none = mkDispatcher r (some i.id)) ∧
    (r.invs = [] → mkDispatcher r none = .error .indexError) := by
  constructor
  · intro i rest h; rw [mkDispatcher, mkDispatcher, h]
  · intro h; rw [mkDispatcher, h]

/-- C43. When no filter raises, some inventory is chosen, and only one. -/
theorem C43_choice_unique (fs : List (Str × Filter)) (default : Str) (g : TgV) (path : Str)
    (hf : ∀ x ∈ fs, ∃ b, x.2 g path = .ok b) : ∃ name, Chosen fs default g path name ∧ ∀ n, Chosen fs default g path n → n = name := by
  have hex : ∃ name, Chosen fs default g path name := by
    induction fs with
    | nil => exact ⟨default, Or.inr ⟨rfl, by simp⟩⟩
    | cons x r ih =>
      obtain ⟨name, h⟩ := ih (fun y hy => hf y (List.mem_cons_of_mem _ hy))
      rcases h with ⟨pre, post, f, rfl, h1, h2⟩ | ⟨rfl, h⟩
      · exact ⟨name, Or.inl ⟨x :: pre, post, f, rfl, h1, h2⟩⟩
      · obtain ⟨n, f⟩ := x
        obtain ⟨b, hb⟩ := hf (n, f) (List.mem_cons_self ..)
        cases b with
        | true => exact ⟨n, Or.inl ⟨[], r, f, rfl, hb, h⟩⟩
        | false =>
          refine ⟨name, Or.inr ⟨rfl, ?_⟩⟩
          intro y hy
          rcases List.mem_cons.mp hy with rfl | hy
          · exact hb
          · exact h y hy
  obtain ⟨name, h⟩ := hex
  refine ⟨name, h, ?_⟩
  intro n hn
  have key : ∀ a b, Chosen fs default g path a → Chosen fs default g path b → a = b := by
    intro a b ha hb
    rcases ha with ⟨p1, q1, f1, e1, h1, n1⟩ | ⟨rfl, h1⟩
    · rcases hb with ⟨p2, q2, f2, e2, h2, n2⟩ | ⟨rfl, h2⟩
      · rw [e1] at e2
        rcases List.append_eq_append_iff.mp e2 with ⟨m, rfl, hm⟩ | ⟨m, rfl, hm⟩
        · cases m with
          | nil => simp only [List.nil_append, List.cons.injEq, Prod.mk.injEq] at hm; exact hm.1.1
          | cons z m =>
            simp only [List.cons_append, List.cons.injEq] at hm
            have : f2 g path = .ok false := n1 (b, f2) (by rw [hm.2]; simp)
            rw [h2] at this; cases this
        · cases m with
          | nil => simp only [List.nil_append, List.cons.injEq, Prod.mk.injEq] at hm; exact hm.1.1.symm
          | cons z m =>
            simp only [List.cons_append, List.cons.injEq] at hm
            have : f1 g path = .ok false := n2 (a, f1) (by rw [hm.2]; simp)
            rw [h1] at this; cases this
      · have : f1 g path = .ok false := h2 (a, f1) (by rw [e1]; simp)
        rw [h1] at this; cases this
    · rcases hb with ⟨p2, q2, f2, e2, h2, n2⟩ | ⟨rfl, h2⟩
      · have : f2 g path = .ok false := h1 (b, f2) (by rw [e2]; simp)
        rw [h2] at this; cases this
      · rfl
  exact key n name hn h

end Verif.Props
