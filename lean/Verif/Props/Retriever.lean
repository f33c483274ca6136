import Verif.Spec.Retriever
import Verif.Lemmas.IntStr
import Verif.Props.Reference
/-!
C57, C58, C61, C68: the requests of the retrievers and the page links.
-/
namespace Verif.Props
open Verif.Py Verif.Model Verif.Spec Verif.Lemmas

/-! ### C57 -/

/-- C57. The parameters sent are those given that are not `None`, as text, and the inventory of the endpoint when no
inventory was given. -/
theorem C57_call (inventory : Option Str) (ps : List (Str × Val)) (k v : Str) :
    (k, v) ∈ ctsCall inventory ps ↔
      (∃ x, Given ps k x ∧ v = x.text) ∨ (k = "inv".toList ∧ inventory = some v ∧ ∀ x, ¬ Given ps "inv".toList x) := by
  have hk : kInv = "inv".toList := by decide
  have hkept : ∀ v, (k, v) ∈ ((ps.filter fun p => p.2 ≠ .none).map fun p => (p.1, p.2.text)) ↔ ∃ x, Given ps k x ∧ v = x.text := by
    intro v
    simp only [List.mem_map, List.mem_filter, decide_eq_true_eq, Prod.mk.injEq, Given]
    constructor
    · rintro ⟨⟨k', x⟩, ⟨h1, h2⟩, rfl, rfl⟩; exact ⟨x, ⟨h1, h2⟩, rfl⟩
    · rintro ⟨x, ⟨h1, h2⟩, rfl⟩; exact ⟨(k, x), ⟨h1, h2⟩, rfl, rfl⟩
  have hkeys : kInv ∈ (((ps.filter fun p => p.2 ≠ .none).map fun p => (p.1, p.2.text)).map (·.1)) ↔ ∃ x, Given ps "inv".toList x := by
    simp only [List.mem_map, List.mem_filter, decide_eq_true_eq, Given, ← hk]
    constructor
    · rintro ⟨_, ⟨⟨k', x⟩, ⟨h1, h2⟩, rfl⟩, h3⟩
      simp only at h3; subst h3
      exact ⟨x, h1, h2⟩
    · rintro ⟨x, h1, h2⟩
      exact ⟨(kInv, x.text), ⟨(kInv, x), ⟨h1, h2⟩, rfl⟩, rfl⟩
  unfold ctsCall
  cases inventory with
  | none => simp only [hkept]; simp
  | some i =>
    simp only
    split
    · rename_i h
      rw [hkeys] at h
      rw [hkept]
      constructor
      · exact Or.inl
      · rintro (h' | ⟨_, _, h'⟩)
        · exact h'
        · obtain ⟨x, hx⟩ := h; exact absurd hx (h' x)
    · rename_i h
      rw [hkeys] at h
      rw [List.mem_append, hkept, List.mem_singleton, Prod.mk.injEq, hk]
      constructor
      · rintro (h' | ⟨rfl, rfl⟩)
        · exact Or.inl h'
        · exact Or.inr ⟨rfl, rfl, fun x hx => h ⟨x, hx⟩⟩
      · rintro (h' | ⟨rfl, h', _⟩)
        · exact Or.inl h'
        · cases h'; exact Or.inr ⟨rfl, rfl⟩

/-- C57. A parameter is sent once. -/
theorem C57_once (inventory : Option Str) (ps : List (Str × Val)) (h : (ps.map (·.1)).Nodup) : ((ctsCall inventory ps).map (·.1)).Nodup := by
  have hs : ((((ps.filter fun p => p.2 ≠ .none).map fun p => (p.1, p.2.text)).map (·.1))).Nodup := by
    rw [List.map_map]
    exact (List.filter_sublist.map _).nodup h
  unfold ctsCall
  cases inventory with
  | none => exact hs
  | some i =>
    simp only
    split
    · exact hs
    · rename_i hn
      rw [List.map_append, List.nodup_append]
      refine ⟨hs, by simp, ?_⟩
      intro a ha b hb
      simp only [List.map_cons, List.map_nil, List.mem_singleton] at hb
      rintro rfl
      subst hb
      exact hn ha

private theorem ctsCall3 (d inv : Option Str) (name : String) (urn : Option Str) (k v : Str) :
    (k, v) ∈ ctsCall d [(kInv, .ofOption inv), (kUrn, .ofOption urn), (kRequest, .str name.toList)] ↔ CtsSent d inv name urn none k v := by
  rw [C57_call]
  simp only [CtsSent, Given, List.mem_cons, Prod.mk.injEq, List.not_mem_nil, or_false]
  have h1 : kInv = "inv".toList := by decide
  have h2 : kUrn = "urn".toList := by decide
  have h3 : kRequest = "request".toList := by decide
  have h4 : ("inv".toList = "urn".toList) = False := by decide
  have h5 : ("inv".toList = "request".toList) = False := by decide
  simp only [h1, h2, h3, h4, h5]
  constructor
  · rintro (⟨x, ⟨(⟨rfl, rfl⟩ | ⟨rfl, rfl⟩ | ⟨rfl, rfl⟩), hx⟩, rfl⟩ | ⟨rfl, rfl, h⟩)
    · cases inv <;> simp_all [Val.ofOption, Val.text]
    · cases urn <;> simp_all [Val.ofOption, Val.text]
    · simp [Val.text]
    · cases inv <;> simp_all [Val.ofOption]
  · rintro (⟨rfl, rfl⟩ | ⟨rfl, rfl⟩ | ⟨n, i, h, _⟩ | ⟨rfl, (rfl | ⟨rfl, rfl⟩)⟩)
    · exact Or.inl ⟨_, ⟨Or.inr (Or.inr ⟨rfl, rfl⟩), by simp⟩, rfl⟩
    · exact Or.inl ⟨_, ⟨Or.inr (Or.inl ⟨rfl, rfl⟩), by simp [Val.ofOption]⟩, rfl⟩
    · cases h
    · exact Or.inl ⟨_, ⟨Or.inl ⟨rfl, rfl⟩, by simp [Val.ofOption]⟩, rfl⟩
    · exact Or.inr ⟨rfl, rfl, by rintro x ⟨h, hx⟩; simp_all [Val.ofOption]⟩

private theorem ctsCall4 (d inv : Option Str) (name n : String) (urn : Str) (number : Option Int) (k v : Str) (hn : n ≠ "inv") :
    (k, v) ∈ ctsCall d [(kInv, .ofOption inv), (kUrn, .str urn), (n.toList, .ofInt number), (kRequest, .str name.toList)] ↔
      CtsSent d inv name (some urn) (number.map fun i => (n, i)) k v := by
  rw [C57_call]
  simp only [CtsSent, Given, List.mem_cons, Prod.mk.injEq, List.not_mem_nil, or_false]
  have h1 : kInv = "inv".toList := by decide
  have h2 : kUrn = "urn".toList := by decide
  have h3 : kRequest = "request".toList := by decide
  have h4 : ("inv".toList = "urn".toList) = False := by decide
  have h5 : ("inv".toList = "request".toList) = False := by decide
  have h6 : ("inv".toList = n.toList) = False := by
    simp only [String.toList_inj, eq_iff_iff, iff_false]; exact fun h => hn h.symm
  simp only [h1, h2, h3, h4, h5, h6]
  constructor
  · rintro (⟨x, ⟨(⟨rfl, rfl⟩ | ⟨rfl, rfl⟩ | ⟨rfl, rfl⟩ | ⟨rfl, rfl⟩), hx⟩, rfl⟩ | ⟨rfl, rfl, h⟩)
    · cases inv <;> simp_all [Val.ofOption, Val.text]
    · simp
    · cases number with
      | none => simp [Val.ofInt] at hx
      | some i => exact Or.inr (Or.inr (Or.inl ⟨n, i, rfl, rfl, intStr_toString i⟩))
    · simp [Val.text]
    · cases inv <;> simp_all [Val.ofOption]
  · rintro (⟨rfl, rfl⟩ | ⟨rfl, h⟩ | ⟨n', i, h, rfl, rfl⟩ | ⟨rfl, (rfl | ⟨rfl, rfl⟩)⟩)
    · exact Or.inl ⟨_, ⟨Or.inr (Or.inr (Or.inr ⟨rfl, rfl⟩)), by simp⟩, rfl⟩
    · cases h
      exact Or.inl ⟨_, ⟨Or.inr (Or.inl ⟨rfl, rfl⟩), by simp⟩, rfl⟩
    · cases number with
      | none => cases h
      | some j =>
        cases h
        exact Or.inl ⟨_, ⟨Or.inr (Or.inr (Or.inl ⟨rfl, rfl⟩)), by simp [Val.ofInt]⟩, (intStr_toString _).symm⟩
    · exact Or.inl ⟨_, ⟨Or.inl ⟨rfl, rfl⟩, by simp [Val.ofOption]⟩, rfl⟩
    · exact Or.inr ⟨rfl, rfl, by rintro x ⟨h, hx⟩; simp_all [Val.ofOption]⟩

/-- C57. What each of the seven requests of the CTS protocol carries. -/
theorem C57_requests (d inv : Option Str) (urn : Str) (k v : Str) :
    (∀ u, (k, v) ∈ getCapabilities d inv u ↔ CtsSent d inv "GetCapabilities" u none k v) ∧
    (∀ level, (k, v) ∈ ctsValidReff d urn inv level ↔ CtsSent d inv "GetValidReff" (some urn) (level.map fun i => ("level", i)) k v) ∧
    ((k, v) ∈ ctsFirstUrn d urn inv ↔ CtsSent d inv "GetFirstUrn" (some urn) none k v) ∧
    ((k, v) ∈ ctsPrevNextUrn d urn inv ↔ CtsSent d inv "GetPrevNextUrn" (some urn) none k v) ∧
    ((k, v) ∈ ctsLabel d urn inv ↔ CtsSent d inv "GetLabel" (some urn) none k v) ∧
    (∀ context, (k, v) ∈ ctsPassage d urn inv context ↔ CtsSent d inv "GetPassage" (some urn) (context.map fun i => ("context", i)) k v) ∧
    (∀ context, (k, v) ∈ ctsPassagePlus d urn inv context ↔
      CtsSent d inv "GetPassagePlus" (some urn) (context.map fun i => ("context", i)) k v) := by
  refine ⟨fun u => ?_, fun l => ?_, ?_, ?_, ?_, fun c => ?_, fun c => ?_⟩
  · rw [← ctsCall3]; exact Iff.rfl
  · rw [← ctsCall4 (hn := by decide)]; exact Iff.rfl
  · rw [← ctsCall3]; exact Iff.rfl
  · rw [← ctsCall3]; exact Iff.rfl
  · rw [← ctsCall3]; exact Iff.rfl
  · rw [← ctsCall4 (hn := by decide)]; exact Iff.rfl
  · rw [← ctsCall4 (hn := by decide)]; exact Iff.rfl

/-- C57. Asking a node: the URN is that of the text followed by the passage asked for, or that of the text alone when no
passage is asked for; the request is `GetPassagePlus` when the siblings or the metadata are asked for and `GetPassage`
otherwise. The same holds of a passage given as a reference. -/
theorem C57_passage (d : Option Str) (textId : Str) (prevnext metadata : Bool) (k v : Str) :
    (∀ s : Str, s ≠ [] → ((k, v) ∈ ctsTextualNode d textId (.text s) prevnext metadata ↔
      CtsSent d none (if prevnext = true ∨ metadata = true then "GetPassagePlus" else "GetPassage") (some (textId ++ ':' :: s)) none k v)) ∧
    (∀ r : Ref, (k, v) ∈ ctsTextualNode d textId (.ref r) prevnext metadata ↔
      CtsSent d none (if prevnext = true ∨ metadata = true then "GetPassagePlus" else "GetPassage") (some (textId ++ ':' :: r.str)) none k v) ∧
    ((k, v) ∈ ctsTextualNode d textId .none prevnext metadata ↔
      CtsSent d none (if prevnext = true ∨ metadata = true then "GetPassagePlus" else "GetPassage") (some textId) none k v) := by
  have key : ∀ s : SubArg, (k, v) ∈ ctsTextualNode d textId s prevnext metadata ↔
      CtsSent d none (if prevnext = true ∨ metadata = true then "GetPassagePlus" else "GetPassage")
        (some (if s.truthy then withSub textId s else textId)) none k v := by
    intro s
    have hp := (C57_requests d none (if s.truthy then withSub textId s else textId) k v).2.2.2.2.2
    unfold ctsTextualNode
    cases prevnext <;> cases metadata <;> simp only [Bool.or_true, Bool.true_or, Bool.or_self, Bool.false_eq_true, if_false, if_true, or_true, true_or, or_self]
    · exact hp.1 none
    all_goals exact hp.2 none
  refine ⟨fun s hs => ?_, fun r => ?_, ?_⟩
  · have ht : (SubArg.text s).truthy = true := by simp [SubArg.truthy, hs]
    rw [key, if_pos ht]; exact Iff.rfl
  · exact key (.ref r)
  · exact key .none

/-- C57. Asking the siblings of a passage. -/
theorem C57_siblings (d : Option Str) (textId s : Str) (k v : Str) :
    (k, v) ∈ ctsSiblings d textId (.text s) ↔ CtsSent d none "GetPrevNextUrn" (some (textId ++ ':' :: s)) none k v :=
  (C57_requests d none (textId ++ ':' :: s) k v).2.2.2.1

/-- C57 fails for the siblings of no passage: the URN sent ends in `:None`. -/
theorem C57_fails_siblings_of_text (d : Option Str) (textId : Str) (k v : Str) :
    (k, v) ∈ ctsSiblings d textId .none ↔ CtsSent d none "GetPrevNextUrn" (some (textId ++ ":None".toList)) none k v :=
  (C57_requests d none (textId ++ ":None".toList) k v).2.2.2.1

/-- C57. Asking the references under a passage, at a level other than zero: the level sent is the level asked for plus
the depth of the passage. -/
theorem C57_reffs (d : Option Str) (textId : Str) (level : Int) (h0 : level ≠ 0) (cs : List Str) (u : Option Str)
    (hcs : ∀ c ∈ cs, IsComponent c) (hu : IsOptSub u) (hne : cs ≠ []) : ∃ q,
      ctsReffs d textId (some level) (.text (passage cs u)) = .ok q ∧
      ∀ k v, (k, v) ∈ q ↔ CtsSent d none "GetValidReff" (some (textId ++ ':' :: passage cs u)) (some ("level", level + cs.length)) k v := by
  have hr := mkRef_single (passage_ne_nil hne hcs (u := u)) (dash_passage hcs hu)
  have hd := (C07_highest_single cs u hcs hu hne _ hr).2
  have ht : (SubArg.text (passage cs u)).truthy = true := by simp [SubArg.truthy, passage_ne_nil hne hcs]
  refine ⟨_, by rw [ctsReffs, if_pos ht, subDepth, hr], fun k v => ?_⟩
  rw [if_pos h0, hd, show max (level + (cs.length : Int)) level = level + cs.length by omega]
  exact (C57_requests d none (textId ++ ':' :: passage cs u) k v).2.1 (some (level + cs.length))

/-- C57. For a range, the depth is that of the shallower end. -/
theorem C57_reffs_range (d : Option Str) (textId : Str) (level : Int) (h0 : level ≠ 0) (cs ds : List Str) (u w : Option Str)
    (hcs : ∀ c ∈ cs, IsComponent c) (hds : ∀ c ∈ ds, IsComponent c) (hu : IsOptSub u) (hw : IsOptSub w) (hcne : cs ≠ []) (hdne : ds ≠ []) : ∃ q,
      ctsReffs d textId (some level) (.text (passage cs u ++ '-' :: passage ds w)) = .ok q ∧
      ∀ k v, (k, v) ∈ q ↔ CtsSent d none "GetValidReff" (some (textId ++ ':' :: (passage cs u ++ '-' :: passage ds w)))
        (some ("level", level + min cs.length ds.length)) k v := by
  have ht : (SubArg.text (passage cs u ++ '-' :: passage ds w)).truthy = true := by simp [SubArg.truthy]
  have hr := mkRef_pair (dash_passage hcs hu) (dash_passage hds hw)
  have hd := (C07_highest cs ds u w hcs hds hu hw hcne hdne _ hr).2
  refine ⟨_, by rw [ctsReffs, if_pos ht, subDepth, hr], fun k v => ?_⟩
  rw [if_pos h0, hd, show max (level + ((min cs.length ds.length : Nat) : Int)) level = level + (min cs.length ds.length : Nat) by omega]
  exact (C57_requests d none (textId ++ ':' :: (passage cs u ++ '-' :: passage ds w)) k v).2.1 (some (level + (min cs.length ds.length : Nat)))

/-- C57. Without a passage the level asked for is sent as it is, and the text alone. -/
theorem C57_reffs_text (d : Option Str) (textId : Str) (level : Option Int) : ∃ q, ctsReffs d textId level .none = .ok q ∧
    ∀ k v, (k, v) ∈ q ↔ CtsSent d none "GetValidReff" (some textId) (level.map fun i => ("level", i)) k v :=
  ⟨_, rfl, fun k v => (C57_requests d none textId k v).2.1 level⟩

/-- C57, where the code departs from the natural claim: level zero is sent as it is, whatever the passage, and a missing
level with a passage is a `TypeError`. -/
theorem C57_level_zero (d : Option Str) (textId : Str) (r : Ref) :
    ctsReffs d textId (some 0) (.ref r) = .ok (ctsValidReff d (textId ++ ':' :: r.str) none (some 0)) ∧
    ctsReffs d textId none (.ref r) = .error .typeError := ⟨rfl, rfl⟩

/-- The seven requests meet no hypothesis; a passage `1.2` at level one of a text. -/
example : ctsReffs (some "annotsrc".toList) "urn:cts:a:b.c".toList (some 1) (.text "1.2".toList) =
    .ok [("urn".toList, "urn:cts:a:b.c:1.2".toList), ("level".toList, "3".toList), ("request".toList, "GetValidReff".toList),
      ("inv".toList, "annotsrc".toList)] := by decide +kernel

/-! ### C58 -/

private theorem setKey_keys {α : Type} (d : List (Str × α)) (k : Str) (v : α) (x : Str) :
    x ∈ (setKey d k v).map (·.1) ↔ x = k ∨ x ∈ d.map (·.1) := by
  induction d with
  | nil => simp [setKey]
  | cons p d ih =>
    obtain ⟨k', v'⟩ := p
    rw [setKey]
    split
    · rename_i h; subst h; simp
    · rw [List.map_cons, List.mem_cons, ih, List.map_cons, List.mem_cons]
      constructor
      · rintro (h | h | h)
        · exact Or.inr (Or.inl h)
        · exact Or.inl h
        · exact Or.inr (Or.inr h)
      · rintro (h | h | h)
        · exact Or.inr (Or.inl h)
        · exact Or.inl h
        · exact Or.inr (Or.inr h)

private theorem setKey_nodup {α : Type} (d : List (Str × α)) (k : Str) (v : α) (h : (d.map (·.1)).Nodup) :
    ((setKey d k v).map (·.1)).Nodup := by
  induction d with
  | nil => simp [setKey]
  | cons p d ih =>
    obtain ⟨k', v'⟩ := p
    rw [List.map_cons, List.nodup_cons] at h
    rw [setKey]
    split
    · rename_i e; subst e; rw [List.map_cons, List.nodup_cons]; exact h
    · rename_i e
      rw [List.map_cons, List.nodup_cons, setKey_keys]
      exact ⟨fun hk => hk.elim e h.1, ih h.2⟩

private theorem mem_setKey {α : Type} (d : List (Str × α)) (k : Str) (v : α) (h : (d.map (·.1)).Nodup) (k' : Str) (v' : α) :
    (k', v') ∈ setKey d k v ↔ (k' = k ∧ v' = v) ∨ (k' ≠ k ∧ (k', v') ∈ d) := by
  induction d with
  | nil => simp [setKey]
  | cons p d ih =>
    obtain ⟨a, b⟩ := p
    rw [List.map_cons, List.nodup_cons] at h
    rw [setKey]
    split
    · rename_i e; subst e
      simp only [List.mem_cons, Prod.mk.injEq]
      constructor
      · rintro (h' | h')
        · exact Or.inl h'
        · refine Or.inr ⟨?_, Or.inr h'⟩
          rintro rfl; exact h.1 (List.mem_map.mpr ⟨_, h', rfl⟩)
      · rintro (h' | ⟨h1, ⟨h2, _⟩ | h'⟩)
        · exact Or.inl h'
        · exact absurd h2 h1
        · exact Or.inr h'
    · rename_i e
      rw [List.mem_cons, ih h.2, List.mem_cons, Prod.mk.injEq]
      constructor
      · rintro (⟨rfl, rfl⟩ | h' | ⟨h1, h'⟩)
        · exact Or.inr ⟨e, Or.inl ⟨rfl, rfl⟩⟩
        · exact Or.inl h'
        · exact Or.inr ⟨h1, Or.inr h'⟩
      · rintro (h' | ⟨h1, h' | h'⟩)
        · exact Or.inr (Or.inl h')
        · exact Or.inl h'
        · exact Or.inr (Or.inr ⟨h1, h'⟩)

private theorem mem_updateKeys {α : Type} (other : List (Str × α)) : ∀ (d : List (Str × α)), (d.map (·.1)).Nodup → (other.map (·.1)).Nodup →
    ∀ k v, (k, v) ∈ updateKeys d other ↔ (k, v) ∈ other ∨ (k ∉ other.map (·.1) ∧ (k, v) ∈ d) := by
  induction other with
  | nil => intro d hd ho k v; simp [updateKeys]
  | cons p o ih =>
    obtain ⟨a, b⟩ := p
    intro d hd ho k v
    rw [List.map_cons, List.nodup_cons] at ho
    have := ih (setKey d a b) (setKey_nodup d a b hd) ho.2 k v
    rw [mem_setKey d a b hd] at this
    refine Iff.trans (show (k, v) ∈ updateKeys d ((a, b) :: o) ↔ (k, v) ∈ updateKeys (setKey d a b) o from Iff.rfl) (this.trans ?_)
    simp only [List.map_cons, List.mem_cons, Prod.mk.injEq, not_or]
    constructor
    · rintro (h | ⟨h1, ⟨rfl, rfl⟩ | ⟨h2, h3⟩⟩)
      · exact Or.inl (Or.inr h)
      · exact Or.inl (Or.inl ⟨rfl, rfl⟩)
      · exact Or.inr ⟨⟨h2, h1⟩, h3⟩
    · rintro ((⟨rfl, rfl⟩ | h) | ⟨⟨h2, h1⟩, h3⟩)
      · exact Or.inr ⟨ho.1, Or.inl ⟨rfl, rfl⟩⟩
      · exact Or.inl h
      · exact Or.inr ⟨h1, Or.inr ⟨h2, h3⟩⟩

private theorem lookupVal_eq (defaults : List (Str × Val)) (h : (defaults.map (·.1)).Nodup) (k : Str) (x : Val) (hx : x ≠ .none) :
    x = lookupVal defaults k ↔ (k, x) ∈ defaults := by
  induction defaults with
  | nil => simp [lookupVal, hx]
  | cons p d ih =>
    obtain ⟨a, b⟩ := p
    rw [List.map_cons, List.nodup_cons] at h
    by_cases e : a = k
    · subst e
      simp only [lookupVal, List.find?_cons, beq_self_eq_true, List.mem_cons, Prod.mk.injEq, true_and]
      constructor
      · exact Or.inl
      · rintro (h' | h')
        · exact h'
        · exact absurd (List.mem_map.mpr ⟨_, h', rfl⟩) h.1
    · have : lookupVal ((a, b) :: d) k = lookupVal d k := by
        simp [lookupVal, e]
      rw [this, ih h.2, List.mem_cons, Prod.mk.injEq]
      exact ⟨Or.inr, fun h' => h'.elim (fun h' => absurd h'.1.symm e) id⟩

/-- C58. What a DTS request sends: the parameters of the route, and the given ones that are neither `None`, nor at their
default, nor among those of the route. -/
theorem C58_call (query : List (Str × List Str)) (ps defaults : List (Str × Val))
    (hq : (query.map (·.1)).Nodup) (hp : (ps.map (·.1)).Nodup) (hd : (defaults.map (·.1)).Nodup) (k : Str) (vs : List Str) :
    (k, vs) ∈ dtsCall query ps defaults ↔
      (k, vs) ∈ query ∨ ((∀ ws, (k, ws) ∉ query) ∧ ∃ x, Given ps k x ∧ (k, x) ∉ defaults ∧ vs = [x.text]) := by
  rw [dtsCall, mem_updateKeys _ _ ?_ hq]
  · have h1 : k ∉ query.map (·.1) ↔ ∀ ws, (k, ws) ∉ query := by
      rw [List.mem_map]
      exact ⟨fun h ws hw => h ⟨_, hw, rfl⟩, fun h ⟨⟨a, b⟩, hab, e⟩ => h b (by subst e; exact hab)⟩
    have h2 : (k, vs) ∈ ((ps.filter fun p => p.2 ≠ .none ∧ p.2 ≠ lookupVal defaults p.1).map fun p => (p.1, [p.2.text])) ↔
        ∃ x, Given ps k x ∧ (k, x) ∉ defaults ∧ vs = [x.text] := by
      simp only [List.mem_map, List.mem_filter, decide_eq_true_eq, Prod.mk.injEq, Given]
      constructor
      · rintro ⟨⟨a, x⟩, ⟨hm, hn, hl⟩, rfl, rfl⟩
        exact ⟨x, ⟨hm, hn⟩, fun h => hl ((lookupVal_eq defaults hd _ _ hn).mpr h), rfl⟩
      · rintro ⟨x, ⟨hm, hn⟩, hl, rfl⟩
        exact ⟨(k, x), ⟨hm, hn, fun h => hl ((lookupVal_eq defaults hd _ _ hn).mp h)⟩, rfl, rfl⟩
    rw [h1, h2]
  · rw [List.map_map]
    exact (List.filter_sublist.map _).nodup hp

/-- C58. Asking a collection: the identifier, the direction unless it is `children`, and the page unless it is the first. -/
theorem C58_collection (query : List (Str × List Str)) (hq : (query.map (·.1)).Nodup) (id : Option Str) (nav : Str) (page : Val)
    (k : Str) (vs : List Str) : (k, vs) ∈ getCollection query id nav page ↔
      (k, vs) ∈ query ∨ ((∀ ws, (k, ws) ∉ query) ∧
        ((k = "id".toList ∧ ∃ i, id = some i ∧ vs = [i]) ∨ (k = "nav".toList ∧ nav ≠ "children".toList ∧ vs = [nav]) ∨
         (k = "page".toList ∧ page ≠ .none ∧ page ≠ .int 1 ∧ vs = [page.text]))) := by
  rw [getCollection, C58_call _ _ _ hq (by simp [kId, kNav, kPage]) (by simp [kId, kNav, kPage])]
  have h1 : kId = "id".toList := by decide
  have h2 : kNav = "nav".toList := by decide
  have h3 : kPage = "page".toList := by decide
  have h4 : children = "children".toList := by decide
  have e1 : ("id".toList = "nav".toList) = False := by decide
  have e2 : ("id".toList = "page".toList) = False := by decide
  have e3 : ("nav".toList = "id".toList) = False := by decide
  have e4 : ("nav".toList = "page".toList) = False := by decide
  have e5 : ("page".toList = "id".toList) = False := by decide
  have e6 : ("page".toList = "nav".toList) = False := by decide
  refine or_congr Iff.rfl (and_congr Iff.rfl ?_)
  simp only [Given, List.mem_cons, Prod.mk.injEq, List.not_mem_nil, or_false, h1, h2, h3, h4]
  constructor
  · rintro ⟨x, ⟨(⟨rfl, rfl⟩ | ⟨rfl, rfl⟩ | ⟨rfl, rfl⟩), hx⟩, hd, rfl⟩
    · refine Or.inl ⟨rfl, ?_⟩
      cases id with
      | none => exact absurd rfl hx
      | some i => exact ⟨i, rfl, rfl⟩
    · refine Or.inr (Or.inl ⟨rfl, ?_, rfl⟩)
      rintro rfl
      exact hd (Or.inr (Or.inl ⟨rfl, rfl⟩))
    · refine Or.inr (Or.inr ⟨rfl, hx, ?_, rfl⟩)
      rintro rfl
      exact hd (Or.inr (Or.inr ⟨rfl, rfl⟩))
  · rintro (⟨rfl, i, rfl, rfl⟩ | ⟨rfl, hn, rfl⟩ | ⟨rfl, hn, h1', rfl⟩)
    · exact ⟨.str i, ⟨Or.inl ⟨rfl, rfl⟩, by simp⟩, by simp only [e1, e2]; simp, rfl⟩
    · exact ⟨.str nav, ⟨Or.inr (Or.inl ⟨rfl, rfl⟩), by simp⟩, by simp only [e3, e4, Val.str.injEq, hn]; simp, rfl⟩
    · exact ⟨page, ⟨Or.inr (Or.inr ⟨rfl, rfl⟩), hn⟩, by simp only [e5, e6, h1']; simp, rfl⟩

private theorem refParameters_nodup (ps : List (Str × Val)) (h : (ps.map (·.1)).Nodup) (ref : DtsRefArg) :
    ((refParameters ps ref).map (·.1)).Nodup := by
  cases ref with
  | none => exact h
  | ref a b =>
    rw [refParameters]
    split
    · exact setKey_nodup _ _ _ (setKey_nodup _ _ _ h)
    · exact setKey_nodup _ _ _ h
  | other v =>
    rw [refParameters]
    split
    · exact setKey_nodup _ _ _ h
    · exact h

private theorem given_refParameters (ps : List (Str × Val)) (h : (ps.map (·.1)).Nodup)
    (hf : ∀ x ∈ ["ref".toList, "start".toList, "end".toList], x ∉ ps.map (·.1)) (ref : DtsRefArg) (k : Str) (vs : List Str) :
    (∃ x, Given (refParameters ps ref) k x ∧ vs = [x.text]) ↔ RefSent ref k vs ∨ ∃ x, Given ps k x ∧ vs = [x.text] := by
  have h1 : kRef = "ref".toList := by decide
  have h2 : kStart = "start".toList := by decide
  have h3 : kEnd = "end".toList := by decide
  have hr : ∀ x, ("ref".toList, x) ∉ ps := fun x hx => hf _ (by simp) (List.mem_map.mpr ⟨_, hx, rfl⟩)
  have hs : ∀ x, ("start".toList, x) ∉ ps := fun x hx => hf _ (by simp) (List.mem_map.mpr ⟨_, hx, rfl⟩)
  have he : ∀ x, ("end".toList, x) ∉ ps := fun x hx => hf _ (by simp) (List.mem_map.mpr ⟨_, hx, rfl⟩)
  have hse : "start".toList ≠ "end".toList := by decide
  cases ref with
  | none => simp only [refParameters, RefSent, false_or]
  | ref a b =>
    rw [refParameters, RefSent]
    split
    · rename_i hb
      have hb' : b ≠ .none := by rintro rfl; cases hb
      simp only [Given, h2, h3, mem_setKey _ _ _ (setKey_nodup _ _ _ h), mem_setKey _ _ _ h]
      constructor
      · rintro ⟨x, ⟨(⟨rfl, rfl⟩ | ⟨_, (⟨rfl, rfl⟩ | ⟨_, hx⟩)⟩), hn⟩, rfl⟩
        · exact Or.inl (Or.inr ⟨rfl, rfl⟩)
        · exact Or.inl (Or.inl ⟨rfl, hn, rfl⟩)
        · exact Or.inr ⟨x, ⟨hx, hn⟩, rfl⟩
      · rintro ((⟨rfl, hn, rfl⟩ | ⟨rfl, rfl⟩) | ⟨x, ⟨hx, hn⟩, rfl⟩)
        · exact ⟨a, ⟨Or.inr ⟨hse, Or.inl ⟨rfl, rfl⟩⟩, hn⟩, rfl⟩
        · exact ⟨b, ⟨Or.inl ⟨rfl, rfl⟩, hb'⟩, rfl⟩
        · exact ⟨x, ⟨Or.inr ⟨by rintro rfl; exact he _ hx, Or.inr ⟨by rintro rfl; exact hs _ hx, hx⟩⟩, hn⟩, rfl⟩
    · simp only [Given, h1, mem_setKey _ _ _ h]
      constructor
      · rintro ⟨x, ⟨(⟨rfl, rfl⟩ | ⟨_, hx⟩), hn⟩, rfl⟩
        · exact Or.inl ⟨rfl, hn, rfl⟩
        · exact Or.inr ⟨x, ⟨hx, hn⟩, rfl⟩
      · rintro (⟨rfl, hn, rfl⟩ | ⟨x, ⟨hx, hn⟩, rfl⟩)
        · exact ⟨a, ⟨Or.inl ⟨rfl, rfl⟩, hn⟩, rfl⟩
        · exact ⟨x, ⟨Or.inr ⟨by rintro rfl; exact hr _ hx, hx⟩, hn⟩, rfl⟩
  | other v =>
    rw [refParameters, RefSent]
    split
    · rename_i hb
      have hb' : v ≠ .none := by rintro rfl; cases hb
      simp only [Given, h1, mem_setKey _ _ _ h]
      constructor
      · rintro ⟨x, ⟨(⟨rfl, rfl⟩ | ⟨_, hx⟩), hn⟩, rfl⟩
        · exact Or.inl ⟨rfl, hb, rfl⟩
        · exact Or.inr ⟨x, ⟨hx, hn⟩, rfl⟩
      · rintro (⟨rfl, hn, rfl⟩ | ⟨x, ⟨hx, hn⟩, rfl⟩)
        · exact ⟨v, ⟨Or.inl ⟨rfl, rfl⟩, hb'⟩, rfl⟩
        · exact ⟨x, ⟨Or.inr ⟨by rintro rfl; exact hr _ hx, hx⟩, hn⟩, rfl⟩
    · rename_i hb
      constructor
      · exact Or.inr
      · rintro (⟨_, h', _⟩ | h')
        · exact absurd h' hb
        · exact h'

/-- C58. Asking a document: the identifier, and `start` and `end` for a range or `ref` for anything else. -/
theorem C58_document (query : List (Str × List Str)) (hq : (query.map (·.1)).Nodup) (id : Str) (ref : DtsRefArg) (k : Str) (vs : List Str) :
    (k, vs) ∈ getDocument query id ref ↔
      (k, vs) ∈ query ∨ ((∀ ws, (k, ws) ∉ query) ∧ (RefSent ref k vs ∨ (k = "id".toList ∧ vs = [id]))) := by
  have hn : (([(kId, Val.str id)] : List (Str × Val)).map (·.1)).Nodup := by simp
  rw [getDocument, C58_call _ _ _ hq (refParameters_nodup _ hn ref) (by simp)]
  refine or_congr Iff.rfl (and_congr Iff.rfl ?_)
  have h := given_refParameters [(kId, Val.str id)] hn (by intro x hx; simp [kId] at hx ⊢; rcases hx with rfl | rfl | rfl <;> decide) ref k vs
  have h' : (∃ x, Given (refParameters [(kId, Val.str id)] ref) k x ∧ (k, x) ∉ ([] : List (Str × Val)) ∧ vs = [x.text]) ↔
      ∃ x, Given (refParameters [(kId, Val.str id)] ref) k x ∧ vs = [x.text] := by simp
  rw [h', h]
  refine or_congr Iff.rfl ?_
  have h1 : kId = "id".toList := by decide
  simp only [Given, List.mem_singleton, Prod.mk.injEq, h1]
  constructor
  · rintro ⟨x, ⟨⟨rfl, rfl⟩, _⟩, rfl⟩; exact ⟨rfl, rfl⟩
  · rintro ⟨rfl, rfl⟩; exact ⟨_, ⟨⟨rfl, rfl⟩, by simp⟩, rfl⟩

/-- C58. Asking the references: the given parameters that are not `None` under their names, and the passage as for a document. -/
theorem C58_navigation (query : List (Str × List Str)) (hq : (query.map (·.1)).Nodup) (id : Str) (level groupBy max exclude page : Val)
    (ref : DtsRefArg) (k : Str) (vs : List Str) :
    (k, vs) ∈ getNavigation query id level ref groupBy max exclude page ↔
      (k, vs) ∈ query ∨ ((∀ ws, (k, ws) ∉ query) ∧ (RefSent ref k vs ∨
        ∃ x, Given [("id".toList, .str id), ("level".toList, level), ("groupBy".toList, groupBy), ("max".toList, max),
          ("exclude".toList, exclude), ("page".toList, page)] k x ∧ vs = [x.text])) := by
  have e : [(kId, Val.str id), (kLevel, level), (kGroupBy, groupBy), (kMax, max), (kExclude, exclude), (kPage, page)] =
      [("id".toList, .str id), ("level".toList, level), ("groupBy".toList, groupBy), ("max".toList, max),
          ("exclude".toList, exclude), ("page".toList, page)] := rfl
  have hn : (([(kId, Val.str id), (kLevel, level), (kGroupBy, groupBy), (kMax, max), (kExclude, exclude), (kPage, page)] : List (Str × Val)).map (·.1)).Nodup := by
    simp only [List.map_cons, List.map_nil]; decide
  rw [getNavigation, C58_call _ _ _ hq (refParameters_nodup _ hn ref) (by simp)]
  refine or_congr Iff.rfl (and_congr Iff.rfl ?_)
  have h := given_refParameters _ hn (by intro x hx; simp only [List.map_cons, List.map_nil]; revert x; decide) ref k vs
  have h' : (∃ x, Given (refParameters [(kId, Val.str id), (kLevel, level), (kGroupBy, groupBy), (kMax, max), (kExclude, exclude), (kPage, page)] ref) k x ∧
        (k, x) ∉ ([] : List (Str × Val)) ∧ vs = [x.text]) ↔
      ∃ x, Given (refParameters [(kId, Val.str id), (kLevel, level), (kGroupBy, groupBy), (kMax, max), (kExclude, exclude), (kPage, page)] ref) k x ∧ vs = [x.text] := by simp
  rw [h', h, e]

/-- C58. Never both: when `ref` is sent neither `start` nor `end` is, unless the route itself asks for one of them. -/
theorem C58_never_both (query : List (Str × List Str)) (hq : (query.map (·.1)).Nodup)
    (hf : ∀ x ∈ ["ref".toList, "start".toList, "end".toList], ∀ ws, (x, ws) ∉ query)
    (id : Str) (level groupBy max exclude page : Val) (ref : DtsRefArg) (vs ws : List Str) :
    (("ref".toList, vs) ∈ getNavigation query id level ref groupBy max exclude page →
      ("start".toList, ws) ∉ getNavigation query id level ref groupBy max exclude page ∧
      ("end".toList, ws) ∉ getNavigation query id level ref groupBy max exclude page) ∧
    (("ref".toList, vs) ∈ getDocument query id ref →
      ("start".toList, ws) ∉ getDocument query id ref ∧ ("end".toList, ws) ∉ getDocument query id ref) := by
  have key : ∀ vs ws, RefSent ref "ref".toList vs → ¬ RefSent ref "start".toList ws ∧ ¬ RefSent ref "end".toList ws := by
    intro vs ws h
    have e1 : ("ref".toList = "start".toList) = False := by decide
    have e2 : ("ref".toList = "end".toList) = False := by decide
    have e3 : ("start".toList = "ref".toList) = False := by decide
    have e4 : ("end".toList = "ref".toList) = False := by decide
    cases ref with
    | none => exact absurd h (by simp [RefSent])
    | ref a b =>
      simp only [RefSent] at h ⊢
      split at h
      · simp only [e1, e2, false_and, or_self] at h
      · rename_i hb
        simp only [if_neg hb, e3, e4, false_and, not_false_eq_true, and_self]
    | other v => simp only [RefSent, e3, e4, false_and, not_false_eq_true, and_self]
  have hgiven : ∀ {k : Str}, k ∈ ["ref".toList, "start".toList, "end".toList] → ∀ vs, ¬ ∃ x, Given [("id".toList, .str id), ("level".toList, level), ("groupBy".toList, groupBy), ("max".toList, max),
          ("exclude".toList, exclude), ("page".toList, page)] k x ∧ vs = [x.text] := by
    rintro k hk vs ⟨x, ⟨hx, _⟩, _⟩
    have : k ∈ [("id".toList : Str), "level".toList, "groupBy".toList, "max".toList, "exclude".toList, "page".toList] := by
      have := List.mem_map_of_mem (f := (·.1)) hx
      simpa using this
    clear hx
    revert k
    decide
  have hid : ∀ {k : Str}, k ∈ ["ref".toList, "start".toList, "end".toList] → k ≠ "id".toList := by decide
  refine ⟨fun h => ?_, fun h => ?_⟩
  · rw [C58_navigation _ hq] at h
    rcases h with h | ⟨_, h | h⟩
    · exact absurd h (hf _ (by simp) _)
    · refine ⟨fun h' => ?_, fun h' => ?_⟩
      · rw [C58_navigation _ hq] at h'
        rcases h' with h' | ⟨_, h' | h'⟩
        · exact hf _ (by simp) _ h'
        · exact (key _ _ h).1 h'
        · exact hgiven (by simp) _ h'
      · rw [C58_navigation _ hq] at h'
        rcases h' with h' | ⟨_, h' | h'⟩
        · exact hf _ (by simp) _ h'
        · exact (key _ _ h).2 h'
        · exact hgiven (by simp) _ h'
    · exact absurd h (hgiven (by simp) _)
  · rw [C58_document _ hq] at h
    rcases h with h | ⟨_, h | h⟩
    · exact absurd h (hf _ (by simp) _)
    · refine ⟨fun h' => ?_, fun h' => ?_⟩
      · rw [C58_document _ hq] at h'
        rcases h' with h' | ⟨_, h' | h'⟩
        · exact hf _ (by simp) _ h'
        · exact (key _ _ h).1 h'
        · exact hid (by simp) h'.1
      · rw [C58_document _ hq] at h'
        rcases h' with h' | ⟨_, h' | h'⟩
        · exact hf _ (by simp) _ h'
        · exact (key _ _ h).2 h'
        · exact hid (by simp) h'.1
    · exact absurd h.1 (hid (by simp))

/-- A range of references of a text, second page. -/
example : getNavigation [] "urn:cts:a:b.c".toList .none (.ref (.str "1".toList) (.str "3".toList)) .none .none .none (.int 2) =
    [("id".toList, ["urn:cts:a:b.c".toList]), ("page".toList, ["2".toList]), ("start".toList, ["1".toList]), ("end".toList, ["3".toList])] := by
  decide +kernel

/-- The first page of the children is asked for by the identifier alone. -/
example : getCollection [] (some "a".toList) "children".toList (.int 1) = [("id".toList, ["a".toList])] := by decide

/-- C58, where the code departs from its documentation: a plain tuple is not treated as a range, its text is sent as `ref`. -/
theorem C58_tuple (query : List (Str × List Str)) (hq : (query.map (·.1)).Nodup) (hf : ∀ ws, ("ref".toList, ws) ∉ query) (id text : Str) :
    ("ref".toList, [text]) ∈ getDocument query id (.other (.obj text)) := by
  rw [C58_document _ hq]
  exact Or.inr ⟨hf, Or.inl ⟨rfl, rfl, rfl⟩⟩

/-! ### C68 -/

/-- C68. Whatever calls are made on a new retriever, with routes that exist or not, the entry point is requested once,
before the first of them, and each call on a route that exists makes one request, in the order of the calls. -/
theorem C68_entry_once (entry : List (Str × (Str × List (Str × List Str)))) (calls : List DtsCallArgs) :
    (afterCalls entry newRetriever calls).log = if calls = [] then [] else DtsReq.entry :: calls.filterMap fun c =>
      (entry.find? fun p => p.1 == c.1).map fun p => DtsReq.get p.2.1 (dtsCall p.2.2 c.2.1 c.2.2) := by
  have step : ∀ (cs : List DtsCallArgs) (r : DtsRetriever), r.routes = some entry →
      (afterCalls entry r cs).log = r.log ++ cs.filterMap fun c =>
        (entry.find? fun p => p.1 == c.1).map fun p => DtsReq.get p.2.1 (dtsCall p.2.2 c.2.1 c.2.2) := by
    intro cs
    induction cs with
    | nil => intro r _; simp [afterCalls]
    | cons c cs ih =>
      intro r hr
      obtain ⟨route, ps, ds⟩ := c
      rw [afterCalls]
      cases hf : entry.find? fun p => p.1 == route with
      | none =>
        have : r.call entry route ps ds = (r, .error .keyError) := by
          simp [DtsRetriever.call, DtsRetriever.getRoutes, hr, hf]
        rw [this, ih _ hr, List.filterMap_cons]
        simp [hf]
      | some p =>
        have : r.call entry route ps ds = ({ r with log := r.log ++ [.get p.2.1 (dtsCall p.2.2 ps ds)] }, .ok ()) := by
          simp [DtsRetriever.call, DtsRetriever.getRoutes, hr, hf]
        rw [this, ih _ (by exact hr), List.filterMap_cons]
        simp [hf]
  cases calls with
  | nil => rfl
  | cons c cs =>
    obtain ⟨route, ps, ds⟩ := c
    rw [if_neg (by simp), afterCalls]
    cases hf : entry.find? fun p => p.1 == route with
    | none =>
      have : newRetriever.call entry route ps ds = (⟨some entry, [.entry]⟩, .error .keyError) := by
        simp [DtsRetriever.call, DtsRetriever.getRoutes, newRetriever, hf]
      rw [this, step _ _ rfl, List.filterMap_cons]
      simp [hf]
    | some p =>
      have : newRetriever.call entry route ps ds = (⟨some entry, [.entry] ++ [.get p.2.1 (dtsCall p.2.2 ps ds)]⟩, .ok ()) := by
        simp [DtsRetriever.call, DtsRetriever.getRoutes, newRetriever, hf]
      rw [this, step _ _ rfl, List.filterMap_cons]
      simp [hf]

/-- Two calls, the second on a route that does not exist. -/
example : (afterCalls [("a".toList, "/a".toList, [])] newRetriever [("a".toList, [], []), ("b".toList, [], [])]).log =
    [.entry, .get "/a".toList []] := by decide

/-! ### C61 -/

private theorem filterMap_self {α : Type} (f : α → Option α) : ∀ l : List α, (∀ q ∈ l, f q = some q) → l.filterMap f = l
  | [], _ => rfl
  | q :: qs, h => by
    rw [List.filterMap_cons, h q (by simp)]
    simp only
    rw [filterMap_self f qs fun q hq => h q (by simp [hq])]

theorem queryPairs_plain (dec : Str → Str) (hdec : Decoding dec) (pairs : List (Str × Str)) (hne : pairs ≠ [])
    (h : ∀ q ∈ pairs, PlainQuery q.1 ∧ PlainQuery q.2 ∧ q.2 ≠ []) : queryPairs dec (join ['&'] (pairs.map pairText)) = pairs := by
  rw [queryPairs, split_join (by simpa using hne)]
  · rw [List.filterMap_map]
    apply filterMap_self
    intro q hq
    obtain ⟨h1, h2, h3⟩ := h q hq
    simp only [Function.comp, pairText, find_append _ h1.2.1]
    have hd : (q.1 ++ '=' :: q.2).drop (q.1.length + 1) = q.2 := by
      rw [← List.drop_drop]; simp
    have ht : (q.1 ++ '=' :: q.2).take q.1.length = q.1 := by simp
    simp only [hd, ht, if_neg h3, hdec _ h1.2.2.1 h1.2.2.2, hdec _ h2.2.2.1 h2.2.2.2]
  · intro p hp
    obtain ⟨q, hq, rfl⟩ := List.mem_map.mp hp
    obtain ⟨h1, h2, h3⟩ := h q hq
    simp only [pairText, List.mem_append, List.mem_cons, not_or]
    exact ⟨h1.1, by decide, h2.1⟩

private theorem address_cons (base : Str) (p : Str × Str) (ps : List (Str × Str)) :
    address base (p :: ps) = join ['&'] (((base ++ '?' :: p.1, p.2) :: ps).map pairText) := by
  cases ps with
  | nil => simp [address, pairText]
  | cons q qs =>
    simp only [address, List.map_cons, join_cons_ne_nil _ _ (List.cons_ne_nil _ _)]
    simp [pairText]

private theorem queryGet_address (dec : Str → Str) (hdec : Decoding dec) (base : Str) (hb : PlainQuery base) (p : Str × Str) (ps : List (Str × Str))
    (h : ∀ q ∈ p :: ps, PlainQuery q.1 ∧ PlainQuery q.2 ∧ q.2 ≠ []) :
    queryGet dec (address base (p :: ps)) kPage = match (ps.filter fun q => q.1 == "page".toList).map (·.2) with
      | [] => none
      | vs => some vs := by
  rw [queryGet, address_cons, queryPairs_plain dec hdec _ (by simp)]
  · have : ((base ++ '?' :: p.1) == kPage) = false := by
      rw [beq_eq_false_iff_ne]
      intro e
      have : '?' ∈ kPage := by rw [← e]; simp
      revert this; decide
    rw [List.filter_cons]
    simp only [this, Bool.false_eq_true, if_false]
    rfl
  · intro q hq
    rcases List.mem_cons.mp hq with rfl | hq
    · obtain ⟨h1, h2, h3⟩ := h p (by simp)
      refine ⟨?_, h2, h3⟩
      simp only [PlainQuery, List.mem_append, List.mem_cons, not_or]
      exact ⟨⟨hb.1, by decide, h1.1⟩, ⟨hb.2.1, by decide, h1.2.1⟩, ⟨hb.2.2.1, by decide, h1.2.2.1⟩, ⟨hb.2.2.2, by decide, h1.2.2.2⟩⟩
    · exact h q (by simp [hq])

private theorem queryGet_names (dec : Str → Str) (hdec : Decoding dec) (l : Link) (v : Str) (h : Names l v) :
    ∃ vs, queryGet dec l.href kPage = some (v :: vs) := by
  obtain ⟨base, p, ps, h1, h2, h3, h4⟩ := h
  rw [h1, queryGet_address dec hdec base h2 p ps h3]
  simp only [pageIn, Option.map_eq_some_iff] at h4
  obtain ⟨q, hq, rfl⟩ := h4
  rw [← List.head?_filter] at hq
  obtain ⟨l', hl⟩ := List.head?_eq_some_iff.mp hq
  rw [hl]
  exact ⟨l'.map (·.2), rfl⟩

private theorem linkPage_last (dec : Str → Str) (hdec : Decoding dec) (links : List Link) (rel : String) (l : Link)
    (h : LastOf links rel l) (v : Str) (hv : Names l v) : linkPage dec links rel.toList = .ok (some v) := by
  obtain ⟨before, after, rfl, hr, ha⟩ := h
  obtain ⟨vs, hq⟩ := queryGet_names dec hdec l v hv
  have : (before ++ l :: after).reverse.find? (fun l => l.rel == rel.toList) = some l := by
    rw [List.reverse_append, List.reverse_cons, List.append_assoc, List.find?_append, List.find?_eq_none.mpr]
    · simp [hr]
    · intro x hx
      simpa using ha x (by simpa using hx)
  simp only [linkPage, linkPages, this, Option.map_some, hq]

theorem linkPage_absent (dec : Str → Str) (links : List Link) (rel : String)
    (h : ∀ l ∈ links, l.rel ≠ rel.toList) : linkPage dec links rel.toList = .ok none := by
  have : links.reverse.find? (fun l => l.rel == rel.toList) = none := by
    rw [List.find?_eq_none]
    intro x hx
    simpa using h x (by simpa using hx)
  simp only [linkPage, linkPages, this, Option.map_none]

theorem last_or_absent (links : List Link) (rel : Str) :
    (∃ before l after, links = before ++ l :: after ∧ l.rel = rel ∧ ∀ l' ∈ after, l'.rel ≠ rel) ∨ ∀ l ∈ links, l.rel ≠ rel := by
  induction links with
  | nil => exact Or.inr (by simp)
  | cons l ls ih =>
    rcases ih with ⟨b, x, a, rfl, h1, h2⟩ | h
    · exact Or.inl ⟨l :: b, x, a, rfl, h1, h2⟩
    · by_cases e : l.rel = rel
      · exact Or.inl ⟨[], l, ls, rfl, e, h⟩
      · refine Or.inr ?_
        intro x hx
        rcases List.mem_cons.mp hx with rfl | hx
        · exact e
        · exact h x hx

/-- C61. When every link is an address that names a page after another parameter, the pages reported for previous, next,
last, current and first are those the (last) link of that relation names, and none where there is no such link. -/
theorem C61_pages (dec : Str → Str) (hdec : Decoding dec) (links : List Link) (h : ∀ l ∈ links, ∃ v, Names l v) :
    ∃ nav, parsePagination dec links = .ok nav ∧
      ∀ rel page, (rel, page) ∈ [("previous", nav.prev), ("next", nav.next), ("last", nav.last), ("current", nav.current), ("first", nav.first)] →
        (∀ l v, LastOf links rel l → Names l v → page = some v) ∧ ((∀ l ∈ links, l.rel ≠ rel.toList) → page = none) := by
  have hok : ∀ rel : String, ∃ o, linkPage dec links rel.toList = .ok o := by
    intro rel
    rcases last_or_absent links rel.toList with ⟨b, l, a, e, h1, h2⟩ | h'
    · obtain ⟨v, hv⟩ := h l (by rw [e]; simp)
      exact ⟨_, linkPage_last dec hdec links rel l ⟨b, a, e, h1, h2⟩ v hv⟩
    · exact ⟨_, linkPage_absent dec links rel h'⟩
  obtain ⟨o1, h1⟩ := hok "previous"
  obtain ⟨o2, h2⟩ := hok "next"
  obtain ⟨o3, h3⟩ := hok "last"
  obtain ⟨o4, h4⟩ := hok "current"
  obtain ⟨o5, h5⟩ := hok "first"
  refine ⟨⟨o1, o2, o3, o4, o5⟩, ?_, ?_⟩
  · have e1 : rPrevious = "previous".toList := by decide
    have e2 : rNext = "next".toList := by decide
    have e3 : rLast = "last".toList := by decide
    have e4 : rCurrent = "current".toList := by decide
    have e5 : rFirst = "first".toList := by decide
    simp only [parsePagination, e1, e2, e3, e4, e5, h1, h2, h3, h4, h5]
  · intro rel page hm
    have key : ∀ o, linkPage dec links rel.toList = .ok o →
        (∀ l v, LastOf links rel l → Names l v → o = some v) ∧ ((∀ l ∈ links, l.rel ≠ rel.toList) → o = none) := by
      intro o ho
      refine ⟨fun l v hl hv => ?_, fun ha => ?_⟩
      · rw [linkPage_last dec hdec links rel l hl v hv] at ho; cases ho; rfl
      · rw [linkPage_absent dec links rel ha] at ho; cases ho; rfl
    simp only [List.mem_cons, Prod.mk.injEq, List.not_mem_nil, or_false] at hm
    rcases hm with ⟨rfl, rfl⟩ | ⟨rfl, rfl⟩ | ⟨rfl, rfl⟩ | ⟨rfl, rfl⟩ | ⟨rfl, rfl⟩
    · exact key _ h1
    · exact key _ h2
    · exact key _ h3
    · exact key _ h4
    · exact key _ h5

/-- C61, where the code departs from the natural claim: a link whose first parameter is the page is a `TypeError`. -/
theorem C61_first_parameter (dec : Str → Str) (hdec : Decoding dec) (base v : Str) (hb : PlainQuery base) (hv : PlainQuery v) (hne : v ≠ []) :
    parsePagination dec [⟨"next".toList, address base [("page".toList, v)]⟩] = .error .typeError := by
  have hq := queryGet_address dec hdec base hb ("page".toList, v) [] (by
    intro q hq
    simp only [List.mem_singleton] at hq
    subst hq
    exact ⟨by simp [PlainQuery], hv, hne⟩)
  have hp : linkPage dec [⟨"next".toList, address base [("page".toList, v)]⟩] rPrevious = .ok none := by
    simp [linkPage, linkPages, rPrevious]
  have hn : linkPage dec [⟨"next".toList, address base [("page".toList, v)]⟩] rNext = .error .typeError := by
    have e : (("next".toList : Str) == rNext) = true := by decide
    simp only [linkPage, linkPages, List.reverse_singleton, List.find?_cons, e, Option.map_some, hq]
    rfl
  simp only [parsePagination, hp, hn]

/-- Leaving a text as it is is a decoding. -/
example : Decoding fun s => s := fun _ _ _ => rfl

/-- Two links of a reply. -/
example : ∀ l ∈ [(⟨"previous".toList, "/api?id=a&page=2".toList⟩ : Link), ⟨"next".toList, "/api?id=a&page=4".toList⟩], ∃ v, Names l v := by
  intro l hl
  rcases List.mem_cons.mp hl with rfl | hl
  · exact ⟨"2".toList, "/api".toList, ("id".toList, "a".toList), [("page".toList, "2".toList)], by decide, by simp [PlainQuery], by simp [PlainQuery], by decide⟩
  · rcases List.mem_cons.mp hl with rfl | hl
    · exact ⟨"4".toList, "/api".toList, ("id".toList, "a".toList), [("page".toList, "4".toList)], by decide, by simp [PlainQuery], by simp [PlainQuery], by decide⟩
    · cases hl

end Verif.Props
