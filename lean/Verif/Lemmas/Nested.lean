import Verif.Lemmas.Export
namespace Verif.Lemmas
open Verif.Py Verif.Model Verif.Spec

/-- Repeated `nested_set`. -/
def setAll {α : Type} : NDict α → List (List Str × α) → Except PyErr (NDict α)
  | d, [] => .ok d
  | d, p :: r =>
    match nestedSet d p.1 (.leaf p.2) with
    | .error e => .error e
    | .ok d => setAll d r

theorem setAll_append {α : Type} (d : NDict α) (a b : List (List Str × α)) :
    setAll d (a ++ b) = match setAll d a with | .error e => .error e | .ok d => setAll d b := by
  induction a generalizing d with
  | nil => rfl
  | cons p r ih =>
    simp only [List.cons_append, setAll]
    cases nestedSet d p.1 (.leaf p.2) with
    | error e => rfl
    | ok d => exact ih d

theorem itemLeaves_append {α : Type} (a b : List (Str × NDict α)) : itemLeaves (a ++ b) = itemLeaves a ++ itemLeaves b := by
  induction a with
  | nil => rfl
  | cons p r ih => obtain ⟨k, d⟩ := p; simp [itemLeaves, ih]

theorem lookup_append_none {β : Type} {l m : List (Str × β)} {k : Str} (h : l.lookup k = none) : (l ++ m).lookup k = m.lookup k := by
  induction l with
  | nil => rfl
  | cons p r ih =>
    obtain ⟨x, w⟩ := p
    rw [List.lookup_cons] at h
    rw [List.cons_append, List.lookup_cons]
    cases hb : k == x with
    | true => simp [hb] at h
    | false => rw [hb] at h; exact ih h

theorem putItem_new {β : Type} {l : List (Str × β)} {k : Str} (h : l.lookup k = none) (v : β) : putItem l k v = l ++ [(k, v)] := by
  induction l with
  | nil => rfl
  | cons p r ih =>
    obtain ⟨x, w⟩ := p
    rw [List.lookup_cons] at h
    cases hb : k == x with
    | true => simp [hb] at h
    | false =>
      rw [hb] at h
      have : ¬ x = k := by rintro rfl; simp at hb
      simp [putItem, this, ih h]

theorem putItem_last {β : Type} {l : List (Str × β)} {k : Str} (h : l.lookup k = none) (v w : β) :
    putItem (l ++ [(k, w)]) k v = l ++ [(k, v)] := by
  rw [← putItem_new h w, putItem_putItem, putItem_new h]

/-- Setting below the last key. -/
theorem nestedSet_last {α : Type} {l : List (Str × NDict α)} {k : Str} (h : l.lookup k = none) (sub v : NDict α)
    {ks : List Str} (hk : ks ≠ []) :
    nestedSet (.dict (l ++ [(k, sub)])) (k :: ks) v =
      match nestedSet sub ks v with | .error e => .error e | .ok s => .ok (.dict (l ++ [(k, s)])) := by
  have hl : (l ++ [(k, sub)]).lookup k = some sub := by rw [lookup_append_none h]; simp
  simp only [nestedSet, if_neg hk, NDict.getItem, hl, putItem_last h]
  cases nestedSet sub ks v <;> rfl

/-- Setting below a new key. -/
theorem nestedSet_new {α : Type} {l : List (Str × NDict α)} {k : Str} (h : l.lookup k = none) (v : NDict α)
    {ks : List Str} (hk : ks ≠ []) :
    nestedSet (.dict l) (k :: ks) v =
      match nestedSet (.dict []) ks v with | .error e => .error e | .ok s => .ok (.dict (l ++ [(k, s)])) := by
  simp only [nestedSet, if_neg hk, NDict.getItem, h, putItem_new h]
  cases nestedSet (.dict []) ks v with
  | error e => rfl
  | ok s => simp only [putItem_last h]

theorem setAll_last {α : Type} {l : List (Str × NDict α)} {k : Str} (h : l.lookup k = none) (A : List (List Str × α))
    (hA : ∀ p ∈ A, p.1 ≠ []) (sub : NDict α) :
    setAll (.dict (l ++ [(k, sub)])) (A.map fun p => (k :: p.1, p.2)) =
      match setAll sub A with | .error e => .error e | .ok s => .ok (.dict (l ++ [(k, s)])) := by
  induction A generalizing sub with
  | nil => rfl
  | cons p r ih =>
    simp only [List.map_cons, setAll]
    rw [nestedSet_last h _ _ (hA p (List.mem_cons_self ..))]
    cases nestedSet sub p.1 (.leaf p.2) with
    | error e => rfl
    | ok s => exact ih (fun q hq => hA q (List.mem_cons_of_mem _ hq)) s

theorem setAll_new {α : Type} {l : List (Str × NDict α)} {k : Str} (h : l.lookup k = none) (A : List (List Str × α)) (hne : A ≠ [])
    (hA : ∀ p ∈ A, p.1 ≠ []) :
    setAll (.dict l) (A.map fun p => (k :: p.1, p.2)) =
      match setAll (.dict []) A with | .error e => .error e | .ok s => .ok (.dict (l ++ [(k, s)])) := by
  cases A with
  | nil => exact absurd rfl hne
  | cons p r =>
    simp only [List.map_cons, setAll]
    rw [nestedSet_new h _ (hA p (List.mem_cons_self ..))]
    cases nestedSet (.dict []) p.1 (.leaf p.2) with
    | error e => rfl
    | ok s => exact setAll_last h r (fun q hq => hA q (List.mem_cons_of_mem _ hq)) s

/-- No two units of a level have the same identifiers. -/
def Distinct (ls : List Level) (n : Node) : Prop :=
  ∀ k, ∀ u ∈ units (ls.take k) n, ∀ w ∈ units (ls.take k) n, u.1 = w.1 → u.2 = w.2

theorem distinct_kid {l : Level} {ls : List Level} {n c : Node} {t : List Nat} (h : Distinct (l :: ls) n) (ht : t ∈ select n l.anyId)
    (hc : nodeAt n t = some c) : Distinct ls c := by
  intro k u hu w hw e
  have hm : ∀ u ∈ units (ls.take k) c, (((c.get l.attr).getD [] :: u.1, t ++ u.2) : List Str × List Nat) ∈ units ((l :: ls).take (k + 1)) n := by
    intro u hu
    rw [List.take_succ_cons, units, List.mem_flatMap]
    exact ⟨t, ht, by simp only [hc]; exact List.mem_map_of_mem (f := fun u => ((c.get l.attr).getD [] :: u.1, t ++ u.2)) hu⟩
  have := h (k + 1) _ (hm u hu) _ (hm w hw) (by simp [e])
  simpa using this

theorem lookup_none_of_not_mem {β : Type} {l : List (Str × β)} {k : Str} (h : k ∉ l.map (·.1)) : l.lookup k = none := by
  induction l with
  | nil => rfl
  | cons p r ih =>
    obtain ⟨x, w⟩ := p
    simp at h
    rw [List.lookup_cons]
    have : (k == x) = false := by simp [h.1]
    rw [this]; exact ih (by simpa using h.2)

/-- Setting all units one after the other gives a dictionary whose leaves are the units, in order. -/
theorem setAll_units {α : Type} : ∀ (ls : List Level) (n : Node), ls ≠ [] → Distinct ls n → ∀ g : List Str × List Nat → α,
    ∃ items, setAll (.dict []) ((units ls n).map fun u => (u.1, g u)) = .ok (.dict items) ∧
      itemLeaves items = (units ls n).map fun u => (u.1, g u)
  | [], _, h, _, _ => absurd rfl h
  | l :: ls, n, _, hd, g => by
    have key : ∀ (T : List (List Nat)) (items : List (Str × NDict α)), (∀ t ∈ T, t ∈ select n l.anyId) → T.Nodup →
        (∀ t ∈ T, ∀ c, nodeAt n t = some c → (c.get l.attr).getD [] ∉ items.map (·.1)) →
        ∃ more, setAll (.dict items) ((T.flatMap fun t => match nodeAt n t with
            | none => []
            | some c => (units ls c).map fun u => ((c.get l.attr).getD [] :: u.1, t ++ u.2)).map fun u => (u.1, g u)) =
              .ok (.dict (items ++ more)) ∧
          itemLeaves more = (T.flatMap fun t => match nodeAt n t with
            | none => []
            | some c => (units ls c).map fun u => ((c.get l.attr).getD [] :: u.1, t ++ u.2)).map fun u => (u.1, g u) := by
      intro T
      induction T with
      | nil => intro items _ _ _; exact ⟨[], by simp [setAll], rfl⟩
      | cons t T ih =>
        intro items hT hnd hit
        rw [List.nodup_cons] at hnd
        simp only [List.flatMap_cons, List.map_append, setAll_append]
        cases hc : nodeAt n t with
        | none =>
          obtain ⟨more, h1, h2⟩ := ih items (fun t ht => hT t (List.mem_cons_of_mem _ ht)) hnd.2
            (fun t ht => hit t (List.mem_cons_of_mem _ ht))
          exact ⟨more, by simpa [setAll] using h1, by simpa using h2⟩
        | some c =>
          -- a new key differs from the keys of the units that follow
          have hdiff : ∀ t' ∈ T, ∀ c', nodeAt n t' = some c' → (c'.get l.attr).getD [] ≠ (c.get l.attr).getD [] := by
            intro t' ht' c' hc' e
            have hm : ∀ t ∈ select n l.anyId, ∀ c, nodeAt n t = some c →
                (([(c.get l.attr).getD []], t) : List Str × List Nat) ∈ units ((l :: ls).take 1) n := by
              intro t ht c hc
              rw [List.take_succ_cons, List.take_zero, units, List.mem_flatMap]
              exact ⟨t, ht, by simp [hc, units]⟩
            have := hd 1 _ (hm t' (hT t' (List.mem_cons_of_mem _ ht')) c' hc') _ (hm t (hT t (List.mem_cons_self ..)) c hc) (by simp [e])
            simp at this
            subst this
            exact hnd.1 ht'
          have hnew := lookup_none_of_not_mem (hit t (List.mem_cons_self ..) c hc)
          by_cases hls : ls = []
          · subst hls
            simp only [units, List.map_cons, List.map_nil, List.append_nil, setAll, nestedSet, if_true, putItem_new hnew]
            obtain ⟨more, h1, h2⟩ := ih (items ++ [((c.get l.attr).getD [], .leaf (g ([(c.get l.attr).getD []], t)))])
              (fun t ht => hT t (List.mem_cons_of_mem _ ht)) hnd.2
              (fun t' ht' c' hc' => by
                have := hit t' (List.mem_cons_of_mem _ ht') c' hc'
                have := hdiff t' ht' c' hc'
                simp_all)
            refine ⟨((c.get l.attr).getD [], .leaf (g ([(c.get l.attr).getD []], t))) :: more, ?_, ?_⟩
            · simp only [units, List.map_cons, List.map_nil, List.append_nil] at h1
              rw [h1]; simp
            · simp only [units, List.map_cons, List.map_nil, List.append_nil] at h2
              simp [itemLeaves, leaves, h2]
          · obtain ⟨sub, s1, s2⟩ := setAll_units ls c hls (distinct_kid hd (hT t (List.mem_cons_self ..)) hc)
              (fun u => g ((c.get l.attr).getD [] :: u.1, t ++ u.2))
            by_cases hu : units ls c = []
            · obtain ⟨more, h1, h2⟩ := ih items (fun t ht => hT t (List.mem_cons_of_mem _ ht)) hnd.2
                (fun t ht => hit t (List.mem_cons_of_mem _ ht))
              exact ⟨more, by simpa [setAll, hu] using h1, by simpa [hu] using h2⟩
            · have hne : ∀ p ∈ (units ls c).map (fun u => (u.1, g ((c.get l.attr).getD [] :: u.1, t ++ u.2))), p.1 ≠ [] := by
                intro p hp
                obtain ⟨u, hu, rfl⟩ := List.mem_map.1 hp
                have := mem_units_length hu
                intro e; rw [e] at this
                exact hls (List.length_eq_zero_iff.1 (by simpa using this.symm))
              have hs := setAll_new hnew ((units ls c).map fun u => (u.1, g ((c.get l.attr).getD [] :: u.1, t ++ u.2))) (by simpa using hu) hne
              rw [s1] at hs
              simp only [List.map_map, Function.comp_def] at hs ⊢
              rw [hs]
              obtain ⟨more, h1, h2⟩ := ih (items ++ [((c.get l.attr).getD [], .dict sub)])
                (fun t ht => hT t (List.mem_cons_of_mem _ ht)) hnd.2
                (fun t' ht' c' hc' => by
                  have := hit t' (List.mem_cons_of_mem _ ht') c' hc'
                  have := hdiff t' ht' c' hc'
                  simp_all)
              refine ⟨((c.get l.attr).getD [], .dict sub) :: more, ?_, ?_⟩
              · simp only [h1]; simp
              · simp only [itemLeaves, leaves, h2, s2, List.map_map, Function.comp_def]
    obtain ⟨more, h1, h2⟩ := key (select n l.anyId) [] (fun t ht => ht)
      ((select_sorted n l.anyId).imp fun h => h.2) (by simp)
    rw [List.nil_append] at h1
    rw [units]
    exact ⟨more, h1, h2⟩

/-- A value at a path is a leaf of the dictionary. -/
theorem mem_leaves_of_valueAt {α : Type} (d : NDict α) (q : List Str) (a : α) (h : valueAt d q = some (.leaf a)) : (q, a) ∈ leaves d := by
  induction q generalizing d with
  | nil => simp [valueAt] at h; subst h; simp [leaves]
  | cons k ks ih =>
    cases d with
    | leaf b => simp [valueAt] at h
    | dict l =>
      simp only [valueAt] at h
      simp only [leaves]
      induction l with
      | nil => simp at h
      | cons p r ihl =>
        obtain ⟨x, w⟩ := p
        simp only [List.lookup_cons] at h
        simp only [itemLeaves, List.mem_append, List.mem_map]
        cases hb : k == x with
        | true =>
          simp only [hb] at h
          simp at hb; subst hb
          exact .inl ⟨(ks, a), ih w h, rfl⟩
        | false =>
          simp only [hb] at h
          exact .inr (ihl h)

/-- A set that overwrites nothing adds one leaf. -/
theorem leaves_set {α : Type} (d d' : NDict α) (p : List Str) (v : α) (h : nestedSet d p (.leaf v) = .ok d')
    (hn : ∀ q ∈ leaves d, ¬ p <+: q.1) : (leaves d').Perm ((p, v) :: leaves d) := by
  induction p generalizing d d' with
  | nil => cases d <;> simp [nestedSet] at h
  | cons k ks ih =>
    cases d with
    | leaf b => simp [nestedSet] at h
    | dict l =>
      -- what happens to the items when the value below `k` changes
      have put : ∀ (l : List (Str × NDict α)) (s : NDict α),
          (l.lookup k = none → (leaves s).map (fun p => (k :: p.1, p.2)) = [(k :: ks, v)]) →
          (∀ s0, l.lookup k = some s0 → ((leaves s).map fun p => (k :: p.1, p.2)).Perm ((k :: ks, v) :: (leaves s0).map fun p => (k :: p.1, p.2))) →
          (itemLeaves (putItem l k s)).Perm ((k :: ks, v) :: itemLeaves l) := by
        intro l s h1 h2
        induction l with
        | nil => simp [putItem, itemLeaves, h1 rfl]
        | cons p r ihl =>
          obtain ⟨x, w⟩ := p
          by_cases hx : x = k
          · subst hx
            have := h2 w (by simp)
            simp only [putItem, if_true, itemLeaves]
            exact this.append_right (itemLeaves r)
          · have hb : (k == x) = false := by simp; exact fun e => hx e.symm
            simp only [List.lookup_cons, hb] at h1 h2
            simp only [putItem, if_neg hx, itemLeaves]
            exact ((ihl h1 h2).append_left _).trans List.perm_middle
      simp only [nestedSet] at h
      simp only [leaves] at hn ⊢
      have below : ∀ s0, l.lookup k = some s0 → ∀ q ∈ leaves s0, ¬ ks <+: q.1 := by
        intro s0 hs q hq hp
        have hm : (k :: q.1, q.2) ∈ itemLeaves l := by
          clear h hn ih put
          induction l with
          | nil => simp at hs
          | cons p r ihl =>
            obtain ⟨x, w⟩ := p
            simp only [List.lookup_cons] at hs
            simp only [itemLeaves, List.mem_append, List.mem_map]
            cases hb : k == x with
            | true =>
              simp only [hb, Option.some.injEq] at hs
              simp at hb; subst hb; subst hs
              exact .inl ⟨q, hq, rfl⟩
            | false => simp only [hb] at hs; exact .inr (ihl hs)
        exact hn _ hm (by rw [List.cons_prefix_cons]; exact ⟨rfl, hp⟩)
      by_cases hk : ks = []
      · subst hk
        simp at h; subst h
        simp only [leaves]
        refine put l _ (fun _ => by simp [leaves]) (fun s0 hs => ?_)
        have : leaves s0 = [] := by
          cases hq : leaves s0 with
          | nil => rfl
          | cons q r => exact absurd List.nil_prefix (below s0 hs q (by rw [hq]; simp))
        simp [this, leaves]
      · rw [if_neg hk] at h
        simp only [NDict.getItem] at h
        cases hl : l.lookup k with
        | some s0 =>
          simp only [hl] at h
          cases hs : nestedSet s0 ks (.leaf v) with
          | error e => simp [hs] at h
          | ok s =>
            simp only [hs, Except.ok.injEq] at h
            subst h
            simp only [leaves]
            refine put l s (fun e => by rw [hl] at e; cases e) (fun s1 h1 => ?_)
            rw [hl] at h1; cases h1
            exact (ih s0 s hs (below s0 hl)).map _
        | none =>
          simp only [hl] at h
          cases hs : nestedSet (.dict []) ks (.leaf v) with
          | error e => simp [hs] at h
          | ok s =>
            simp only [hs, Except.ok.injEq, putItem_putItem] at h
            subst h
            simp only [leaves]
            refine put l s (fun _ => ?_) (fun s1 h1 => by rw [hl] at h1; cases h1)
            have := ih (.dict []) s hs (by simp [leaves, itemLeaves])
            simp only [leaves, itemLeaves] at this
            rw [List.perm_singleton.1 this]
            rfl

end Verif.Lemmas
