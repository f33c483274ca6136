import Verif.Lemmas.XmlCommentsDrop
import Verif.Lemmas.Passages
import Verif.Model.TextObjects
import Verif.Spec.TextComments
import Verif.Lemmas.Reffs
/-! The units of a document are the same with comments and without (C110). -/
namespace Verif.Lemmas
open Verif.Py Verif.Model Verif.Spec

mutual
/-- The elements that one of the paths selects, in document order. -/
def hitNodes (L : List (List Step)) : Node → List Node
  | .mk _ _ _ ks _ => hitNodesAll L ks
/-- The same for a list of children. -/
def hitNodesAll (L : List (List Step)) : List Node → List Node
  | [] => []
  | c :: r => (if [] ∈ L.flatMap (afterStep c) then [c] else []) ++ hitNodes (L.flatMap (afterStep c)) c ++ hitNodesAll L r
end

mutual
theorem paths_hitNodes : ∀ (n : Node) (L : List (List Step)),
    ((n.paths.filter fun t => L.any fun p => matchPath n p t).filterMap fun t => nodeAt n t) = hitNodes L n
  | .mk t a x ks y, L => by
    rw [Node.paths, hitNodes]
    exact pathsFrom_hitNodes (.mk t a x ks y) ks 0 L (fun j => by simp [Node.kids])
theorem pathsFrom_hitNodes (n : Node) : ∀ (ks : List Node) (k : Nat) (L : List (List Step)), (∀ j, n.kids[k + j]? = ks[j]?) →
    (((pathsFrom k ks).filter fun t => L.any fun p => matchPath n p t).filterMap fun t => nodeAt n t) = hitNodesAll L ks
  | [], k, L, _ => by simp [pathsFrom, hitNodesAll]
  | c :: r, k, L, h => by
    have hk : n.kids[k]? = some c := by simpa using h 0
    have ihr := pathsFrom_hitNodes n r (k + 1) L (fun j => by
      rw [show k + 1 + j = k + (j + 1) by omega, h (j + 1)]; simp)
    have ihc := paths_hitNodes c (L.flatMap (afterStep c))
    have hself : (L.any fun p => matchPath n p [k]) = decide ([] ∈ L.flatMap (afterStep c)) := by
      rw [any_after n c k [] hk]
      rw [Bool.eq_iff_iff]
      simp [matchPath_empty]
    rw [pathsFrom, hitNodesAll, List.filter_append, List.filterMap_append, ihr]
    congr 1
    rw [List.filter_cons, hself, List.filter_map]
    have hcomp : ((fun t => L.any fun p => matchPath n p t) ∘ fun t => k :: t) =
        fun t => (L.flatMap (afterStep c)).any fun q => matchPath c q t := by
      funext t; exact any_after n c k t hk L
    have hmap : ((fun t => nodeAt n t) ∘ fun t => k :: t) = fun t => nodeAt c t := by
      funext t; simp [nodeAt, hk]
    have hn : nodeAt n [k] = some c := by simp [nodeAt, hk]
    by_cases hm : [] ∈ L.flatMap (afterStep c)
    · rw [if_pos (by simpa using hm), if_pos hm, List.filterMap_cons, hn, List.filterMap_map, hcomp, hmap, ihc]
      simp
    · rw [if_neg (by simpa using hm), if_neg hm, List.filterMap_map, hcomp, hmap, ihc]
      simp
end

theorem select_hitNodes (n : Node) (p : List Step) : ((select n p).filterMap fun t => nodeAt n t) = hitNodes [p] n := by
  rw [← paths_hitNodes n [p]]
  simp [select]

mutual
theorem hitNodes_drop (L : List (List Step)) : ∀ (n : Node), LeavesIn n → (∀ p ∈ L, ∀ s ∈ p, NamesElements s) →
    (hitNodes L (dropComments n)).map complete = (hitNodes L n).map fun c => complete (dropComments c)
  | .mk t a x ks y, hl, hL => by
    rw [dropComments, hitNodes, hitNodes]
    exact hitNodesAll_drop L ks (fun c hc => leavesIn_mem hl hc) (fun c hc h => leavesIn_comment hl hc h) hL
theorem hitNodesAll_drop (L : List (List Step)) : ∀ (ks : List Node), (∀ c ∈ ks, LeavesIn c) →
    (∀ c ∈ ks, c.isComment = true → c.attrs = [] ∧ c.kids = []) → (∀ p ∈ L, ∀ s ∈ p, NamesElements s) →
    (hitNodesAll L (dropCommentsAll ks)).map complete = (hitNodesAll L ks).map fun c => complete (dropComments c)
  | [], _, _, _ => rfl
  | c :: r, hl, hk, hL => by
    have ihr := hitNodesAll_drop L r (fun d hd => hl d (by simp [hd])) (fun d hd => hk d (by simp [hd])) hL
    have ihc := hitNodes_drop (L.flatMap (afterStep c)) c (hl c (by simp)) (afterStep_names hL c)
    rw [dropCommentsAll]
    by_cases hc : c.isComment = true
    · rw [if_pos hc, ihr]
      obtain ⟨h1, h2⟩ := hk c (by simp) hc
      have hno : [] ∉ L.flatMap (afterStep c) := by
        intro hm
        obtain ⟨q, hq, hpq⟩ := List.mem_flatMap.1 hm
        cases q with
        | nil => simp [afterStep] at hpq
        | cons a q =>
          rw [afterStep, comment_test (hL _ hq a (by simp)) hc h1] at hpq
          simp at hpq
      have hkids : ∀ M, hitNodes M c = [] := by
        intro M
        cases c with
        | mk t a x ks y => simp only [Node.kids] at h2; subst h2; simp [hitNodes, hitNodesAll]
      rw [hitNodesAll, if_neg hno, hkids]; simp
    · rw [if_neg hc]
      rw [hitNodesAll, hitNodesAll]
      have hA : afterStep (addTail (leadText r) (dropComments c)) = afterStep c := by
        funext p; exact afterStep_drop _ c p
      have hH : ∀ M, hitNodes M (addTail (leadText r) (dropComments c)) = hitNodes M (dropComments c) := by
        intro M; cases c; simp [dropComments, addTail, hitNodes]
      rw [hA, hH, List.map_append, List.map_append, List.map_append, List.map_append, ihc, ihr]
      congr 2
      split
      · simp [complete_addTail]
      · rfl
end

mutual
theorem hitNodes_leaves (L : List (List Step)) : ∀ (n : Node), LeavesIn n → ∀ c ∈ hitNodes L n, LeavesIn c
  | .mk t a x ks y, hl => by
    rw [hitNodes]
    exact hitNodesAll_leaves L ks (fun c hc => leavesIn_mem hl hc)
theorem hitNodesAll_leaves (L : List (List Step)) : ∀ (ks : List Node), (∀ c ∈ ks, LeavesIn c) → ∀ c ∈ hitNodesAll L ks, LeavesIn c
  | [], _ => by simp [hitNodesAll]
  | d :: r, hl => by
    have ihr := hitNodesAll_leaves L r (fun c hc => hl c (by simp [hc]))
    have ihc := hitNodes_leaves (L.flatMap (afterStep d)) d (hl d (by simp))
    intro c hc
    rw [hitNodesAll, List.mem_append, List.mem_append] at hc
    rcases hc with (h | h) | h
    · split at h
      · simp at h; subst h; exact hl c (by simp)
      · simp at h
    · exact ihc c h
    · exact ihr c h
end

theorem hitNodes_complete (L : List (List Step)) (n : Node) : hitNodes L (complete n) = hitNodes L n := by
  cases n; simp [complete, hitNodes, Node.kids]

/-- Identifiers of units, by way of the elements. -/
def unitIds : List Level → Node → List (List Str)
  | [], _ => [[]]
  | l :: ls, n => (hitNodes [l.anyId] n).flatMap fun c => (unitIds ls c).map fun u => (c.get l.attr).getD [] :: u

theorem flatMap_filterMap {α β γ : Type} (f : α → Option β) (g : β → List γ) (l : List α) :
    (l.filterMap f).flatMap g = l.flatMap fun a => match f a with | none => [] | some b => g b := by
  induction l with
  | nil => rfl
  | cons a l ih =>
    rw [List.filterMap_cons, List.flatMap_cons]
    cases h : f a with
    | none => simp [ih]
    | some b => simp [ih]

theorem units_ids (ls : List Level) (n : Node) : (units ls n).map (·.1) = unitIds ls n := by
  induction ls generalizing n with
  | nil => rfl
  | cons l ls ih =>
    rw [units, unitIds, ← select_hitNodes, flatMap_filterMap, List.map_flatMap]
    congr 1
    funext t
    cases nodeAt n t with
    | none => rfl
    | some c =>
      simp only [List.map_map, ← ih c]
      rfl

theorem unitIds_complete (ls : List Level) (n : Node) : unitIds ls (complete n) = unitIds ls n := by
  cases ls with
  | nil => rfl
  | cons l ls => rw [unitIds, unitIds, hitNodes_complete]

theorem stepName_not_comment {s : Str} (h : stepName s = true) : s ≠ commentName := by
  rintro rfl
  revert h
  decide

theorem anyId_names {l : Level} (hw : l.WF) (hs : ∀ s ∈ l.pre, s.name = ['*'] → s.tests ≠ []) (t : ATest) :
    ∀ s ∈ l.steps t, NamesElements s := by
  intro s hm
  rw [Level.steps, List.mem_append, List.mem_singleton] at hm
  rcases hm with h | rfl
  · exact ⟨stepName_not_comment (hw.pre s h).1, hs s h⟩
  · exact ⟨stepName_not_comment hw.name, by simp⟩

theorem flatMap_congr_mem {α β : Type} {l : List α} {f g : α → List β} (h : ∀ a ∈ l, f a = g a) : l.flatMap f = l.flatMap g := by
  induction l with
  | nil => rfl
  | cons a l ih => rw [List.flatMap_cons, List.flatMap_cons, h a (by simp), ih fun b hb => h b (by simp [hb])]

theorem unitIds_drop (ls : List Level) (hw : ∀ l ∈ ls, l.WF) (hs : NoBareStar ls) (n : Node) (hl : LeavesIn n) :
    unitIds ls (dropComments n) = unitIds ls n := by
  induction ls generalizing n with
  | nil => rfl
  | cons l ls ih =>
    rw [unitIds, unitIds]
    have e : ∀ c : Node, ((unitIds ls c).map fun u => (c.get l.attr).getD [] :: u) =
        (unitIds ls (complete c)).map fun u => ((complete c).get l.attr).getD [] :: u := by
      intro c; rw [unitIds_complete]; cases c; rfl
    rw [show (fun c : Node => (unitIds ls c).map fun u => (c.get l.attr).getD [] :: u) =
      (fun c : Node => (unitIds ls c).map fun u => (c.get l.attr).getD [] :: u) ∘ complete from funext e]
    have hd := hitNodes_drop [l.anyId] n hl (by
      intro p hp; simp at hp; subst hp
      exact anyId_names (hw l (by simp)) (hs l (by simp)) _)
    have key : ∀ (f : Node → List (List Str)) (L : List Node), L.flatMap (f ∘ complete) = (L.map complete).flatMap f := by
      intro f L; rw [List.flatMap_map]; rfl
    rw [key, key, hd, List.flatMap_map, List.flatMap_map]
    apply flatMap_congr_mem
    intro c hc
    rw [unitIds_complete, unitIds_complete, ih (fun l hl => hw l (by simp [hl])) (fun l hl => hs l (by simp [hl])) c
      (hitNodes_leaves _ n hl c hc)]
    cases c; rfl

theorem units_drop (ls : List Level) (hw : ∀ l ∈ ls, l.WF) (hs : NoBareStar ls) (n : Node) (hl : LeavesIn n) :
    (units ls (dropComments n)).map (·.1) = (units ls n).map (·.1) := by
  rw [units_ids, units_ids, unitIds_drop ls hw hs n hl]

theorem listing_drop {ls : List Level} (hw : ∀ l ∈ ls, l.WF) (hs : NoBareStar ls) {n : Node} (hl : LeavesIn n) (k : Nat)
    (under : List Str) : listing (dropComments n) ls k under = listing n ls k under := by
  have h := units_drop (ls.take k) (fun l hl => hw l (List.mem_of_mem_take hl)) (fun l hl => hs l (List.mem_of_mem_take hl)) n hl
  have e : ∀ m : Node, listing m ls k under = ((units (ls.take k) m).map (·.1)).filter fun u => under.isPrefixOf u := by
    intro m; rw [List.filter_map]; rfl
  rw [e, e, h]

theorem eq_of_map_nodup {α β : Type} {f : α → β} {l : List α} (h : (l.map f).Pairwise (· ≠ ·)) {a b : α} (ha : a ∈ l) (hb : b ∈ l)
    (e : f a = f b) : a = b := by
  induction l with
  | nil => simp at ha
  | cons c l ih =>
    rw [List.map_cons, List.pairwise_cons] at h
    rcases List.mem_cons.1 ha with rfl | ha' <;> rcases List.mem_cons.1 hb with rfl | hb'
    · rfl
    · exact absurd e (h.1 _ (List.mem_map_of_mem hb'))
    · exact absurd e.symm (h.1 _ (List.mem_map_of_mem ha'))
    · exact ih h.2 ha' hb'

theorem citable_drop {root : Node} {ls : List Level} (hc : Citable root ls) (hs : NoBareStar ls) (hl : LeavesIn root) :
    Citable (dropComments root) ls := by
  have hw : ∀ k, ∀ l ∈ ls.take k, l.WF := fun k l h => hc.wf l (List.mem_of_mem_take h)
  have hu := fun k => units_drop (ls.take k) (hw k) (fun l hl => hs l (List.mem_of_mem_take hl)) root hl
  refine ⟨by rw [drop_tag]; exact hc.tag, hc.few, hc.wf, ?_, ?_⟩
  · intro k u hm v hv
    have h1 : u.1 ∈ (units (ls.take k) (dropComments root)).map (·.1) := List.mem_map_of_mem hm
    rw [hu k] at h1
    obtain ⟨w, hw1, hw2⟩ := List.mem_map.1 h1
    exact hc.ids k w hw1 v (by rw [hw2]; exact hv)
  · intro k u hm w hm' e
    have hn := units_nodup hc.distinct k
    have : ((units (ls.take k) (dropComments root)).map (·.1)).Pairwise (· ≠ ·) := by
      rw [hu k, List.pairwise_map]; exact hn
    rw [eq_of_map_nodup this hm hm' e]

/-! ### Steps that are written -/

theorem parseSteps_names (f : Nat) (x : Str) (p : List Step) (h : parseSteps f x = some p) :
    ∀ s ∈ p, stepName s.name = true := by
  induction f generalizing x p with
  | zero =>
    cases x with
    | nil => simp [parseSteps] at h; subst h; simp
    | cons c r => simp [parseSteps] at h
  | succ f ih =>
    cases x with
    | nil => simp [parseSteps] at h; subst h; simp
    | cons c r =>
      by_cases hc : c = '/'
      · subst hc
        rw [parseSteps] at h
        split at h
        · rename_i hn
          split at h
          · simp at h
          · rename_i ts r2 _
            split at h
            · simp at h
            · rename_i ss hss
              simp at h
              subst h
              intro s hs
              rcases List.mem_cons.1 hs with rfl | hs
              · exact hn
              · exact ih _ _ hss s hs
        · simp at h
      · rw [parseSteps] at h
        · simp at h
        · intros; exact hc (by assumption)

theorem parseEntries_names (xs : List Str) (p : List Step) (h : parseEntries xs = .ok p) : ∀ s ∈ p, stepName s.name = true := by
  induction xs generalizing p with
  | nil => simp [parseEntries] at h; subst h; simp
  | cons x xs ih =>
    rw [parseEntries] at h
    split at h
    · simp at h
    · rename_i s hs
      split at h
      · simp at h
      · rename_i ss hss
        simp at h
        subst h
        intro u hu
        rcases List.mem_cons.1 hu with rfl | hu
        · unfold parseEntry at hs
          split at hs
          · rename_i s' h'
            simp at hs; subst hs
            exact parseSteps_names _ _ _ h' _ (by simp)
          · simp at hs
        · exact ih ss hss u hu

theorem pathsBetween_names {decls : List Str} {a b : List Str} {p1 p2 : List Step} (h : pathsBetween decls a b = .ok (p1, p2)) :
    ∀ s ∈ p1 ++ p2, stepName s.name = true := by
  unfold pathsBetween at h
  split at h
  · simp at h
  · split at h
    · simp at h
    · split at h
      · simp at h
      · split at h
        · simp at h
        · split at h
          · simp at h
          · rename_i q1 h1
            split at h
            · simp at h
            · rename_i q2 h2
              simp at h
              obtain ⟨rfl, rfl⟩ := h
              intro s hs
              rcases List.mem_append.1 hs with hs | hs
              · exact parseEntries_names _ _ h1 s hs
              · exact parseEntries_names _ _ h2 s hs

theorem pathsBetween_ids {root : Node} {ls : List Level} (hc : Citable root ls) {a b : List Str}
    (ha : a ≠ []) (hb : b ≠ []) (hal : a.length ≤ ls.length) (hbl : b.length ≤ ls.length)
    (hai : ∀ v ∈ a, IsId v) (hbi : ∀ v ∈ b, IsId v) :
    pathsBetween (declsOf root.tag ls) a b = .ok (idPath ls a, idPath ls b) := by
  have hf : ∀ ids : List Str, ids.length ≤ ls.length → (∀ v ∈ ids, IsId v) →
      ∃ f, fill (declText root.tag (ls.take ids.length)) (.list (ids.map some)) = .ok f ∧
        parseEntries (pathEntries f) = .ok (idPath ls ids) := by
    intro ids hl hi
    have hwf : ∀ x ∈ ls.take ids.length, x.WF := fun x hx => hc.wf x (List.mem_of_mem_take hx)
    have hfew : (ls.take ids.length).length < 1000 := by
      have := hc.few
      simp
      omega
    refine ⟨_, fill_decl hc.tag hwf hfew _ (by simp; omega), ?_⟩
    apply pathEntries_text hc.tag
    · apply fillSteps_ok hwf
      intro v hv
      simp at hv
      exact (hi v hv).2.1
    · apply fillSteps_flat hwf
      intro v hv
      simp at hv
      exact (hi v hv).2.2
  obtain ⟨f1, h1, h2⟩ := hf a hal hai
  obtain ⟨f2, h3, h4⟩ := hf b hbl hbi
  unfold pathsBetween
  rw [citationAt_decls ha hal]
  simp only
  rw [citationAt_decls hb hbl]
  simp only
  rw [h1]
  simp only
  rw [h3]
  simp only
  rw [h2]
  simp only
  rw [h4]

theorem fillSteps_names {ls : List Level} (hw : ∀ l ∈ ls, l.WF) (hs : NoBareStar ls) (vs : List (Option Str)) :
    ∀ s ∈ fillSteps ls vs, NamesElements s := by
  induction ls generalizing vs with
  | nil => simp [fillSteps]
  | cons l ls ih =>
    have ih := ih (fun l hl => hw l (by simp [hl])) (fun l hl => hs l (by simp [hl]))
    cases vs with
    | nil => simp [fillSteps]
    | cons v vs =>
      intro s hm
      cases v with
      | none =>
        rw [fillSteps, List.mem_append] at hm
        rcases hm with h | h
        · exact anyId_names (hw l (by simp)) (hs l (by simp)) _ s h
        · exact ih vs s h
      | some v =>
        rw [fillSteps, List.mem_append] at hm
        rcases hm with h | h
        · exact anyId_names (hw l (by simp)) (hs l (by simp)) _ s h
        · exact ih vs s h

theorem idPath_names {ls : List Level} (hw : ∀ l ∈ ls, l.WF) (hs : NoBareStar ls) (ids : List Str) :
    ∀ s ∈ idPath ls ids, NamesElements s :=
  fillSteps_names (fun l h => hw l (List.mem_of_mem_take h)) (fun l h => hs l (List.mem_of_mem_take h)) _

end Verif.Lemmas
