import Verif.Model.Uri
import Verif.Spec.Uri
import Verif.Lemmas.Str
/-! Helper lemmas about paths and their segments (C89). -/
namespace Verif.Lemmas.Uri
open Verif.Py Verif.Model Verif.Spec

/-- A path as the list of its segments, each after a slash. -/
def flat (l : List Str) : Str := l.flatMap ('/' :: ·)

@[simp] theorem flat_nil : flat [] = [] := rfl
@[simp] theorem flat_cons (x : Str) (l : List Str) : flat (x :: l) = '/' :: x ++ flat l := by simp [flat]
@[simp] theorem flat_append (a b : List Str) : flat (a ++ b) = flat a ++ flat b := by simp [flat]

theorem flat_eq_join {l : List Str} (h : l ≠ []) : flat l = '/' :: join ['/'] l := by
  induction l with
  | nil => exact absurd rfl h
  | cons x r ih =>
    cases r with
    | nil => simp
    | cons y r => rw [flat_cons, ih (by simp), join_cons_ne_nil ['/'] x (l := y :: r) (by simp)]; simp

theorem mem_of_dropLast {α : Type} {x : α} {l : List α} (h : x ∈ l.dropLast) : x ∈ l := by
  rw [List.dropLast_eq_take] at h; exact List.mem_of_mem_take h

/-- The segments that are left at the end. -/
def finish (st segs : List Str) : List Str :=
  resolveSegs st segs ++ (if segs.getLast? = some ['.'] ∨ segs.getLast? = some ['.', '.'] then [[]] else [])

theorem dropWhile_append_of_not {α : Type} (p : α → Bool) (a : List α) (x : α) (b : List α) (ha : ∀ y ∈ a, p y = true) (hx : p x = false) :
    (a ++ x :: b).dropWhile p = x :: b := by
  induction a with
  | nil => simp [hx]
  | cons y r ih => simp [ha y (by simp), ih (fun z hz => ha z (by simp [hz]))]

theorem takeWhile_append_of_not {α : Type} (p : α → Bool) (a : List α) (x : α) (b : List α) (ha : ∀ y ∈ a, p y = true) (hx : p x = false) :
    (a ++ x :: b).takeWhile p = a := by
  induction a with
  | nil => simp [hx]
  | cons y r ih => simp [ha y (by simp), ih (fun z hz => ha z (by simp [hz]))]

theorem takeWhile_self {α : Type} (p : α → Bool) (a : List α) (ha : ∀ y ∈ a, p y = true) : a.takeWhile p = a := by
  induction a with
  | nil => rfl
  | cons y r ih => simp [ha y (by simp), ih (fun z hz => ha z (by simp [hz]))]

theorem dropWhile_all {α : Type} (p : α → Bool) (a : List α) (ha : ∀ y ∈ a, p y = true) : a.dropWhile p = [] := by
  induction a with
  | nil => rfl
  | cons y r ih => simp [ha y (by simp), ih (fun z hz => ha z (by simp [hz]))]

theorem ne_slash {s : Str} (h : '/' ∉ s) : ∀ y ∈ s, (decide (y ≠ '/')) = true := by
  intro y hy; simp; rintro rfl; exact h hy

theorem withoutLast_flat (st : List Str) (h : ∀ s ∈ st, '/' ∉ s) : withoutLastSegment (flat st) = flat st.dropLast := by
  rcases List.eq_nil_or_concat st with rfl | ⟨r, x, rfl⟩
  · rfl
  · simp only [List.concat_eq_append] at h ⊢
    have hx : '/' ∉ x := h x (by simp)
    simp only [withoutLastSegment, flat_append, flat_cons, flat_nil, List.append_nil, List.reverse_append, List.reverse_cons,
      List.append_assoc, List.dropLast_concat, List.cons_append, List.nil_append]
    rw [dropWhile_append_of_not _ _ _ _ (ne_slash (by simpa using hx)) (by simp)]
    simp

theorem firstSegment_flat (seg : Str) (rest : List Str) (h : '/' ∉ seg) :
    firstSegment (flat (seg :: rest)) = '/' :: seg := by
  simp only [flat_cons, List.cons_append, firstSegment]
  cases rest with
  | nil => simp only [flat_nil, List.append_nil]; rw [takeWhile_self _ _ (ne_slash h)]
  | cons y r => rw [flat_cons, List.cons_append, takeWhile_append_of_not _ _ _ _ (ne_slash h) (by simp)]

theorem finish_nil (st : List Str) : finish st [] = st := by simp [finish, resolveSegs]

theorem finish_dot (st : List Str) {rest : List Str} (h : rest ≠ []) : finish st (['.'] :: rest) = finish st rest := by
  obtain ⟨y, r, rfl⟩ := List.exists_cons_of_ne_nil h
  simp [finish, resolveSegs]

theorem finish_dots (st : List Str) {rest : List Str} (h : rest ≠ []) : finish st (['.', '.'] :: rest) = finish st.dropLast rest := by
  obtain ⟨y, r, rfl⟩ := List.exists_cons_of_ne_nil h
  simp [finish, resolveSegs]

theorem finish_push (st : List Str) {seg : Str} {rest : List Str} (h1 : seg ≠ ['.']) (h2 : seg ≠ ['.', '.']) :
    finish st (seg :: rest) = finish (st ++ [seg]) rest := by
  cases rest with
  | nil => simp [finish, resolveSegs, h1, h2]
  | cons y r => simp [finish, resolveSegs, h1, h2]

/-- Removal of dots on the text of a path, and on its segments. -/
theorem removeDots_flat : ∀ (segs st : List Str) (fuel : Nat), (∀ s ∈ segs, '/' ∉ s) → (∀ s ∈ st, '/' ∉ s) →
    (flat segs).length < fuel → removeDots fuel (flat segs) (flat st) = flat (finish st segs) := by
  intro segs
  induction segs with
  | nil =>
    intro st fuel _ _ hf
    cases fuel with
    | zero => simp at hf
    | succ n => simp [removeDots, finish_nil]
  | cons seg rest ih =>
    intro st fuel hs hst hf
    have hseg : '/' ∉ seg := hs seg (by simp)
    have hrest : ∀ s ∈ rest, '/' ∉ s := fun s h => hs s (by simp [h])
    obtain ⟨n, rfl⟩ : ∃ n, fuel = n + 1 := ⟨fuel - 1, by omega⟩
    by_cases h1 : seg = ['.']
    · subst h1
      cases rest with
      | nil =>
        simp at hf
        obtain ⟨m, rfl⟩ : ∃ m, n = m + 1 + 1 := ⟨n - 2, by omega⟩
        simp [removeDots, firstSegment, finish, resolveSegs]
      | cons y r =>
        rw [finish_dot _ (by simp), ← ih st n hrest hst (by simp at hf ⊢; omega)]
        rw [removeDots]
        simp
    · by_cases h2 : seg = ['.', '.']
      · subst h2
        have hst' : ∀ s ∈ st.dropLast, '/' ∉ s := fun s h => hst s (mem_of_dropLast h)
        cases rest with
        | nil =>
          simp at hf
          obtain ⟨m, rfl⟩ : ∃ m, n = m + 1 + 1 := ⟨n - 2, by omega⟩
          rw [removeDots]
          simp [withoutLast_flat st hst]
          simp [removeDots, firstSegment, finish, resolveSegs]
        | cons y r =>
          rw [finish_dots _ (by simp), ← ih st.dropLast n hrest hst' (by simp at hf ⊢; omega)]
          rw [removeDots]
          simp [withoutLast_flat st hst]
      · rw [finish_push _ h1 h2, ← ih (st ++ [seg]) n hrest (by simp; grind) (by simp at hf ⊢; omega)]
        have hfirst := firstSegment_flat seg rest hseg
        have e1 : (flat (seg :: rest)).drop (firstSegment (flat (seg :: rest))).length = flat rest := by
          rw [hfirst]; simp
        rw [removeDots, e1, hfirst]
        have n1 : ¬ "/./".toList.isPrefixOf (flat (seg :: rest)) = true := by
          cases seg with
          | nil => cases rest <;> simp
          | cons a t =>
            cases t with
            | nil => cases rest <;> simp at h1 ⊢ <;> exact fun e => h1 e.symm
            | cons b t =>
              simp at hseg ⊢
              intro _ e; exact absurd e hseg.2.1
        have n2 : flat (seg :: rest) ≠ "/.".toList := by
          intro e
          cases seg with
          | nil => cases rest <;> simp at e
          | cons a t => cases t <;> cases rest <;> simp at e h1; exact h1 e
        have n3 : ¬ "/../".toList.isPrefixOf (flat (seg :: rest)) = true := by
          cases seg with
          | nil => cases rest <;> simp
          | cons a t =>
            cases t with
            | nil => cases rest <;> simp
            | cons b t =>
              cases t with
              | nil =>
                cases rest with
                | nil => simp
                | cons => simp at h2 ⊢; intro e1 e2; exact h2 e1.symm e2.symm
              | cons c t =>
                simp at hseg ⊢
                intro _ _ e; exact absurd e hseg.2.2.1
        have n4 : flat (seg :: rest) ≠ "/..".toList := by
          intro e
          cases seg with
          | nil => cases rest <;> simp at e
          | cons a t =>
            cases t with
            | nil => cases rest <;> simp at e
            | cons b t =>
              cases t <;> cases rest <;> simp at e h2
              exact h2 e.1 e.2
        have n0 : flat (seg :: rest) = '/' :: (seg ++ flat rest) := by simp
        rw [if_neg (by rw [n0]; simp), if_neg (by rw [n0]; simp), if_neg (by rw [n0]; simp), if_neg n1, if_neg n2, if_neg n3, if_neg n4,
          if_neg (by rw [n0]; simp)]
        simp

theorem finish_ne_nil {segs : List Str} (h : segs ≠ []) : ∀ st, finish st segs ≠ [] := by
  induction segs with
  | nil => exact absurd rfl h
  | cons seg rest ih =>
    intro st
    by_cases hr : rest = []
    · subst hr
      by_cases h1 : seg = ['.']
      · simp [finish, h1]
      · by_cases h2 : seg = ['.', '.']
        · simp [finish, h2]
        · simp [finish, resolveSegs, h1, h2]
    · by_cases h1 : seg = ['.']
      · subst h1; rw [finish_dot _ hr]; exact ih hr _
      · by_cases h2 : seg = ['.', '.']
        · subst h2; rw [finish_dots _ hr]; exact ih hr _
        · rw [finish_push _ h1 h2]; exact ih hr _

theorem finish_inner {segs : List Str} : ∀ st, (∀ s ∈ st, s ≠ []) → (∀ s ∈ segs.dropLast, s ≠ []) → segs ≠ [] →
    ∀ s ∈ (finish st segs).dropLast, s ≠ [] := by
  induction segs with
  | nil => intro _ _ _ h; exact absurd rfl h
  | cons seg rest ih =>
    intro st hst hsegs _
    have hd : ∀ s ∈ st.dropLast, s ≠ [] := fun s h => hst s (mem_of_dropLast h)
    by_cases hr : rest = []
    · subst hr
      by_cases h1 : seg = ['.']
      · simpa [finish, resolveSegs, h1] using hst
      · by_cases h2 : seg = ['.', '.']
        · simpa [finish, resolveSegs, h2] using hd
        · simpa [finish, resolveSegs, h1, h2] using hst
    · obtain ⟨y, r, rfl⟩ := List.exists_cons_of_ne_nil hr
      have hs : seg ≠ [] := hsegs seg (by simp)
      have hrest : ∀ s ∈ (y :: r).dropLast, s ≠ [] := fun s h => hsegs s (by simp [h])
      by_cases h1 : seg = ['.']
      · subst h1; rw [finish_dot _ hr]; exact ih st hst hrest hr
      · by_cases h2 : seg = ['.', '.']
        · subst h2; rw [finish_dots _ hr]; exact ih _ hd hrest hr
        · rw [finish_push _ h1 h2]; exact ih _ (by simp; grind) hrest hr

theorem mem_resolveSegs {segs : List Str} : ∀ st s, s ∈ resolveSegs st segs → s ∈ st ∨ s ∈ segs := by
  induction segs with
  | nil => intro st s h; exact .inl h
  | cons seg rest ih =>
    intro st s h
    simp only [resolveSegs] at h
    split at h
    · rcases ih _ _ h with h | h
      · exact .inl (mem_of_dropLast h)
      · simp [h]
    · split at h
      · rcases ih _ _ h with h | h <;> simp [h]
      · rcases ih _ _ h with h | h
        · simp at h; rcases h with h | h <;> simp [h]
        · simp [h]

theorem resolve_root {segs : List Str} : ∀ st, resolveSegs ([] :: st) segs = [] :: resolveSegs st segs ∨ resolveSegs ([] :: st) segs = resolveSegs st segs := by
  induction segs with
  | nil => intro st; exact .inl rfl
  | cons seg rest ih =>
    intro st
    simp only [resolveSegs]
    split
    · cases st with
      | nil => exact .inr rfl
      | cons x r => exact ih _
    · split
      · exact ih st
      · exact ih (st ++ [seg])

/-- The path that `urljoin` makes of segments, with a slash in front when it has none. -/
theorem join_finish {segs : List Str} (hne : segs ≠ []) (hs : ∀ s ∈ segs, '/' ∉ s) (hi : ∀ s ∈ segs.dropLast, s ≠ [])
    {R : List Str} (hR : R = [] :: finish [] segs ∨ R = finish [] segs) :
    (let p := if join ['/'] R = [] then ['/'] else join ['/'] R
     if p ≠ [] ∧ p.take 1 ≠ ['/'] then '/' :: p else p) = flat (finish [] segs) := by
  have hF := finish_ne_nil hne []
  have hmem : ∀ s ∈ finish [] segs, '/' ∉ s := by
    intro s h
    rcases List.mem_append.1 h with h | h
    · rcases mem_resolveSegs _ _ h with h | h
      · simp at h
      · exact hs s h
    · split at h <;> simp at h; simp [h]
  have hin := finish_inner [] (by simp) hi hne
  rw [flat_eq_join hF]
  rcases hR with rfl | rfl
  · rw [join_cons_ne_nil _ _ hF]; simp
  · generalize finish [] segs = F at *
    cases F with
    | nil => exact absurd rfl hF
    | cons x r =>
      by_cases hx : x = []
      · subst hx
        cases r with
        | nil => simp
        | cons y r => exact absurd rfl (hin [] (by simp))
      · obtain ⟨c, t, rfl⟩ := List.exists_cons_of_ne_nil hx
        have hc : c ≠ '/' := by have := hmem (c :: t) (by simp); rintro rfl; simp at this
        have : ∃ u, join ['/'] ((c :: t) :: r) = c :: u := by
          cases r with
          | nil => exact ⟨t, rfl⟩
          | cons y r => exact ⟨t ++ ['/'] ++ join ['/'] (y :: r), by simp [join]⟩
        obtain ⟨u, hu⟩ := this
        simp [hu, hc]

/-- No empty segment inside. -/
theorem split_inner {s : Str} (h : ¬ ['/', '/'] <:+: s) : ∀ x ∈ ((split '/' s).drop 1).dropLast, x ≠ [] := by
  intro x hx hn
  subst hn
  apply h
  obtain ⟨a, b, hab⟩ := List.append_of_mem hx
  have hlen : (split '/' s).drop 1 ≠ [] := by intro e; simp [e] at hx
  have e1 : split '/' s = (split '/' s).take 1 ++ (a ++ [] :: b ++ [((split '/' s).drop 1).getLast hlen]) := by
    rw [← hab, List.dropLast_concat_getLast, List.take_append_drop]
  have hs := join_split '/' s
  have ht : (split '/' s).take 1 ++ a ≠ [] := by
    have := split_ne_nil '/' s
    cases hh : split '/' s with
    | nil => exact absurd hh this
    | cons => simp
  rw [e1, ← List.append_assoc, ← List.append_assoc, List.append_assoc, join_append ht (by simp)] at hs
  rw [← hs]
  have : join ['/'] ([] :: b ++ [((split '/' s).drop 1).getLast hlen]) = '/' :: join ['/'] (b ++ [((split '/' s).drop 1).getLast hlen]) := by
    rw [List.cons_append, join_cons_ne_nil _ _ (by simp)]; rfl
  rw [List.append_assoc, this]
  refine ⟨join ['/'] ((split '/' s).take 1 ++ a), join ['/'] (b ++ [((split '/' s).drop 1).getLast hlen]), ?_⟩
  simp

theorem joinPaths_of_segs {bp p : Str} {S : List Str} (hne : S ≠ []) (hs : ∀ s ∈ S, '/' ∉ s) (hi : ∀ s ∈ S.dropLast, s ≠ [])
    (h : (if p.take 1 = ['/'] then split '/' p
      else squeeze ((if (split '/' bp).getLast? ≠ some [] then (split '/' bp).dropLast else split '/' bp) ++ split '/' p)) = [] :: S) :
    (if joinPaths bp p ≠ [] ∧ (joinPaths bp p).take 1 ≠ ['/'] then '/' :: joinPaths bp p else joinPaths bp p) = flat (finish [] S) := by
  have hj : ∀ X, (if p.take 1 = ['/'] then split '/' p
      else squeeze ((if (split '/' bp).getLast? ≠ some [] then (split '/' bp).dropLast else split '/' bp) ++ split '/' p)) = X →
      joinPaths bp p =
        (let R := if X.getLast? = some ['.'] ∨ X.getLast? = some ['.', '.'] then resolveSegs [] X ++ [[]] else resolveSegs [] X
         if join ['/'] R = [] then ['/'] else join ['/'] R) := by
    rintro X rfl; rfl
  rw [hj _ h]
  have hl : ([] :: S).getLast? = S.getLast? := by
    obtain ⟨y, r, rfl⟩ := List.exists_cons_of_ne_nil hne
    simp
  have hr : resolveSegs [] ([] :: S) = resolveSegs [[]] S := by simp [resolveSegs]
  rw [hl, hr]
  refine join_finish hne hs hi ?_
  unfold finish
  rcases resolve_root (segs := S) [] with e | e <;> rw [e] <;> split <;> simp

theorem squeeze_root (L : List Str) (last : Str) : squeeze ([] :: (L ++ [last])) = [] :: (L.filter (· ≠ []) ++ [last]) := by
  cases L with
  | nil => rfl
  | cons y r =>
    have e1 : (y :: (r ++ [last])).dropLast = y :: r := by rw [← List.cons_append, List.dropLast_concat]
    have e2 : (y :: (r ++ [last])).getLast (by simp) = last := List.getLast_concat (l := y :: r)
    simp only [List.cons_append, squeeze]
    rw [e1, e2]

theorem filter_ne_nil {L : List Str} (h : ∀ s ∈ L, s ≠ []) : L.filter (· ≠ []) = L := by
  rw [List.filter_eq_self]; intro a ha; simpa using h a ha

/-- The segments of a relative path. -/
theorem split_relative {p : Str} (hp : p ≠ []) (h1 : p.take 1 ≠ ['/']) (hd : ¬ ['/', '/'] <:+: p) :
    ∀ s ∈ (split '/' p).dropLast, s ≠ [] := by
  intro s hs
  have hin := split_inner hd
  obtain ⟨c, t, rfl⟩ := List.exists_cons_of_ne_nil hp
  have hc : c ≠ '/' := by simpa using h1
  obtain ⟨hd', tl, e1, e2⟩ := split_cons_ne (xs := t) hc
  rw [e2] at hs hin
  cases tl with
  | nil => simp at hs
  | cons y r =>
    simp only [List.dropLast_cons_cons, List.mem_cons] at hs
    rcases hs with rfl | hs
    · simp
    · exact hin s (by simpa using hs)

/-- The segments of the path that is resolved. -/
theorem exists_segs {bp p : Str} (hb : bp = [] ∨ ['/'].isPrefixOf bp) (hbd : ¬ ['/', '/'] <:+: bp) (hp : p ≠ []) (hpd : ¬ ['/', '/'] <:+: p) :
    ∃ S : List Str, S ≠ [] ∧ (∀ s ∈ S, '/' ∉ s) ∧ (∀ s ∈ S.dropLast, s ≠ []) ∧
      (if p.take 1 = ['/'] then split '/' p
        else squeeze ((if (split '/' bp).getLast? ≠ some [] then (split '/' bp).dropLast else split '/' bp) ++ split '/' p)) = [] :: S ∧
      (if ['/'].isPrefixOf p then p else mergePaths bp p) = flat S := by
  by_cases h1 : p.take 1 = ['/']
  · obtain ⟨c, t, rfl⟩ := List.exists_cons_of_ne_nil hp
    obtain rfl : c = '/' := by simpa using h1
    refine ⟨split '/' t, split_ne_nil _ _, fun s => not_mem_of_mem_split, ?_, ?_, ?_⟩
    · simpa using split_inner hpd
    · simp
    · simp [flat_eq_join (split_ne_nil _ _), join_split]
  · have h2 : ['/'].isPrefixOf p = false := by
      obtain ⟨c, t, rfl⟩ := List.exists_cons_of_ne_nil hp
      have h1' : c ≠ '/' := by simpa using h1
      simp [List.isPrefixOf]; exact fun e => h1' e.symm
    have hrel := split_relative hp h1 hpd
    obtain ⟨M, last, hM⟩ : ∃ M last, split '/' p = M ++ [last] :=
      ⟨_, _, (List.dropLast_concat_getLast (split_ne_nil '/' p)).symm⟩
    have hMn : ∀ s ∈ M, s ≠ [] := by intro s hs; exact hrel s (by simp [hM, hs])
    have hsplit : ∀ s ∈ M ++ [last], '/' ∉ s := by rw [← hM]; exact fun s => not_mem_of_mem_split
    have hflat : flat (M ++ [last]) = '/' :: p := by rw [← hM, flat_eq_join (split_ne_nil _ _), join_split]
    rw [if_neg h1, h2, hM]
    by_cases hbn : bp = []
    · subst hbn
      refine ⟨M ++ [last], by simp, hsplit, by simpa using hMn, ?_, ?_⟩
      · have := squeeze_root M last
        rw [filter_ne_nil hMn] at this
        simpa using this
      · rw [hflat]; simp [mergePaths]
    · obtain ⟨c, y, rfl⟩ := List.exists_cons_of_ne_nil hbn
      obtain rfl : c = '/' := by
        rcases hb with hb | hb
        · exact absurd hb hbn
        · simp at hb; exact hb.symm
      obtain ⟨D, l, hD⟩ : ∃ D l, split '/' y = D ++ [l] :=
        ⟨_, _, (List.dropLast_concat_getLast (split_ne_nil '/' y)).symm⟩
      have hDn : ∀ s ∈ D, s ≠ [] := by
        intro s hs
        have := split_inner hbd
        simp [hD] at this
        exact this s hs
      have hDs : ∀ s ∈ D ++ [l], '/' ∉ s := by rw [← hD]; exact fun s => not_mem_of_mem_split
      have hy : '/' :: y = flat D ++ '/' :: l := by
        have : flat (split '/' y) = '/' :: y := by rw [flat_eq_join (split_ne_nil _ _), join_split]
        rw [← this, hD]; simp
      refine ⟨D ++ (M ++ [last]), by simp, ?_, ?_, ?_, ?_⟩
      · intro s hs
        rcases List.mem_append.1 hs with h | h
        · exact hDs s (by simp [h])
        · exact hsplit s h
      · intro s hs
        rw [← List.append_assoc, List.dropLast_concat] at hs
        rcases List.mem_append.1 hs with h | h
        · exact hDn s h
        · exact hMn s h
      · rw [split_cons_self, hD]
        have hDM : ∀ s ∈ D ++ M, s ≠ [] := by
          intro s hs
          rcases List.mem_append.1 hs with h | h
          · exact hDn s h
          · exact hMn s h
        have key := squeeze_root (D ++ M) last
        rw [filter_ne_nil hDM] at key
        by_cases hl : l = []
        · subst hl
          have hg : ([] :: (D ++ [[]])).getLast? = some ([] : Str) := by
            rw [← List.cons_append, List.getLast?_append]; rfl
          rw [if_neg (by rw [hg]; simp)]
          have := squeeze_root (D ++ [[]] ++ M) last
          rw [List.filter_append, List.filter_append, filter_ne_nil hDn, filter_ne_nil hMn] at this
          simpa using this
        · have hg : ([] :: (D ++ [l])).getLast? = some l := by
            rw [← List.cons_append, List.getLast?_append]; rfl
          rw [if_pos (by rw [hg]; simpa using hl), ← List.cons_append, List.dropLast_concat]
          simpa using key
      · have hl : '/' ∉ l := hDs l (by simp)
        have e : mergePaths ('/' :: y) p = flat D ++ '/' :: p := by
          rw [mergePaths, if_neg (by simp), hy, List.reverse_append, List.reverse_cons, List.append_assoc, List.singleton_append,
            dropWhile_append_of_not _ _ _ _ (ne_slash (by simpa using hl)) (by simp)]
          simp
        rw [e, flat_append, hflat]; simp

/-- `urljoin` computes the path of the RFC. -/
theorem joinPaths_target {bp p : Str} (hb : bp = [] ∨ ['/'].isPrefixOf bp) (hbd : ¬ ['/', '/'] <:+: bp) (hp : p ≠ []) (hpd : ¬ ['/', '/'] <:+: p) :
    (if joinPaths bp p ≠ [] ∧ (joinPaths bp p).take 1 ≠ ['/'] then '/' :: joinPaths bp p else joinPaths bp p) = targetPath bp p := by
  obtain ⟨S, h1, h2, h3, h4, h5⟩ := exists_segs hb hbd hp hpd
  rw [joinPaths_of_segs h1 h2 h3 h4, targetPath, h5]
  exact (removeDots_flat S [] _ h2 (by simp) (by omega)).symm

/-! ### Parsing -/

/-- What cannot be part of a scheme. -/
theorem cutScheme_none {d a r : Str} {c : Char} (ha : ':' ∉ a) (hc : schemeChar c = false) (hc' : c ≠ ':') :
    cutScheme d (a ++ c :: r) = (d, a ++ c :: r) := by
  unfold cutScheme
  have : ¬ ((a ++ c :: r).takeWhile (· ≠ ':')).all schemeChar = true := by
    have e : (a ++ c :: r).takeWhile (· ≠ ':') = a ++ c :: r.takeWhile (· ≠ ':') := by
      rw [List.takeWhile_append_of_pos (by intro x hx; simp; rintro rfl; exact ha hx)]
      simp [hc']
    rw [e]; simp [hc]
  exact if_neg fun h => this h.2.2

theorem cutScheme_no_colon {d s : Str} (h : ':' ∉ s) : cutScheme d s = (d, s) := by
  unfold cutScheme
  refine if_neg fun hh => ?_
  rw [takeWhile_self _ _ (by intro y hy; simp; rintro rfl; exact h hy)] at hh
  exact absurd hh.1 (by omega)

theorem trailer_cases (q f : Option Str) : trailer q f = [] ∨ ∃ c r, trailer q f = c :: r ∧ (c = '?' ∨ c = '#') := by
  cases q with
  | some q => exact .inr ⟨'?', _, by simp [trailer]; rfl, .inl rfl⟩
  | none =>
    cases f with
    | some f => exact .inr ⟨'#', _, by simp [trailer]; rfl, .inr rfl⟩
    | none => exact .inl rfl

theorem cutScheme_relative {d p : Str} (q f : Option Str) (h : ':' ∉ p.takeWhile (· ≠ '/')) :
    cutScheme d (p ++ trailer q f) = (d, p ++ trailer q f) := by
  by_cases hs : '/' ∈ p
  · obtain ⟨a, b, rfl, ha⟩ := exists_append_of_mem hs
    rw [takeWhile_append_of_not _ _ _ _ (ne_slash ha) (by simp)] at h
    rw [List.append_assoc, List.cons_append]
    exact cutScheme_none h (by decide) (by decide)
  · rw [takeWhile_self _ _ (ne_slash hs)] at h
    rcases trailer_cases q f with e | ⟨c, r, e, hc⟩
    · rw [e, List.append_nil]; exact cutScheme_no_colon h
    · rw [e]
      rcases hc with rfl | rfl <;> exact cutScheme_none h (by decide) (by decide)

theorem cutAt_trailing {c : Char} {p r : Str} (h : c ∉ p) : cutAt c (p ++ c :: r) = (p, r) := by
  unfold cutAt
  have hp : ∀ y ∈ p, (decide (y ≠ c)) = true := by intro y hy; simp; rintro rfl; exact h hy
  rw [takeWhile_append_of_not _ _ _ _ hp (by simp), dropWhile_append_of_not _ _ _ _ hp (by simp)]; rfl

theorem cutAt_none {c : Char} {p : Str} (h : c ∉ p) : cutAt c p = (p, []) := by
  unfold cutAt
  have hp : ∀ y ∈ p, (decide (y ≠ c)) = true := by intro y hy; simp; rintro rfl; exact h hy
  rw [takeWhile_self _ _ hp, dropWhile_all _ _ hp]; rfl

theorem cut_trailer {p : Str} {q f : Option Str} (h1 : '?' ∉ p) (h2 : '#' ∉ p) (hq : ∀ x, q = some x → '#' ∉ x) :
    (cutAt '#' (p ++ trailer q f)).2 = f.getD [] ∧ cutAt '?' (cutAt '#' (p ++ trailer q f)).1 = (p, q.getD []) := by
  cases q with
  | none =>
    cases f with
    | none => simp [trailer, cutAt_none h2, cutAt_none h1]
    | some f => simp [trailer, cutAt_trailing h2, cutAt_none h1]
  | some q =>
    have hq' : '#' ∉ p ++ '?' :: q := by simp [h2, hq q rfl]
    cases f with
    | none => simp [trailer, cutAt_none hq', cutAt_trailing h1]
    | some f =>
      have : p ++ trailer (some q) (some f) = (p ++ '?' :: q) ++ '#' :: f := by simp [trailer]
      rw [this, cutAt_trailing hq']; simp [cutAt_trailing h1]

theorem cutParams_none {p : Str} (h : ';' ∉ p) : cutParams p = (p, []) := by
  unfold cutParams
  refine if_neg fun hh => h ?_
  unfold afterSlash at hh
  rw [List.mem_reverse] at hh
  have := (List.takeWhile_sublist _).mem hh
  simpa using this

theorem cutNetloc_relative {p : Str} (q f : Option Str) (h : ¬ ['/', '/'] <:+: p) : cutNetloc (p ++ trailer q f) = ([], p ++ trailer q f) := by
  unfold cutNetloc
  refine if_neg ?_
  simp only [startsWith]
  intro hh
  match p, h with
  | [], _ => rcases trailer_cases q f with e | ⟨c, r, e, hc⟩ <;> rw [e] at hh <;> simp at hh; rcases hc with rfl | rfl <;> simp at hh
  | [c], _ => rcases trailer_cases q f with e | ⟨c, r, e, hc⟩ <;> rw [e] at hh <;> simp at hh; rcases hc with rfl | rfl <;> simp at hh
  | a :: b :: r, h =>
    simp at hh
    obtain ⟨rfl, rfl⟩ := hh
    exact h ⟨[], r, by simp⟩

theorem urlparse_relative {p d : Str} {q f : Option Str} (hp : PlainPath p) (hc : ':' ∉ p.takeWhile (· ≠ '/')) (hq : ∀ x, q = some x → '#' ∉ x) :
    urlparse (p ++ trailer q f) d = ⟨d, [], p, [], q.getD [], f.getD []⟩ := by
  obtain ⟨h1, h2, h3, h4⟩ := hp
  obtain ⟨e1, e2⟩ := cut_trailer (f := f) h1 h2 hq
  unfold urlparse
  simp only [cutScheme_relative q f hc, cutNetloc_relative q f h4, e1, e2, cutParams_none h3]
  simp

/-- After the scheme and the host. -/
theorem urlparse_site {scheme host p d : Str} {q f : Option Str} (hs : scheme = "http".toList ∨ scheme = "https".toList)
    (h1 : '/' ∉ host) (h2 : '?' ∉ host) (h3 : '#' ∉ host) (hp : PlainPath p) (hpp : p = [] ∨ ['/'].isPrefixOf p)
    (hq : ∀ x, q = some x → '#' ∉ x) :
    urlparse (scheme ++ "://".toList ++ host ++ p ++ trailer q f) d = ⟨scheme, host, p, [], q.getD [], f.getD []⟩ := by
  obtain ⟨k1, k2, k3, k4⟩ := hp
  obtain ⟨e1, e2⟩ := cut_trailer (f := f) k1 k2 hq
  have c1 : cutScheme d (scheme ++ "://".toList ++ host ++ p ++ trailer q f) = (scheme, "//".toList ++ host ++ (p ++ trailer q f)) := by
    rcases hs with rfl | rfl <;> simp [cutScheme, schemeChar, asciiLetter]
  have c2 : cutNetloc ("//".toList ++ host ++ (p ++ trailer q f)) = (host, p ++ trailer q f) := by
    have hh : ∀ y ∈ host, (!netlocEnd y) = true := by
      intro y hy; simp [netlocEnd]; refine ⟨⟨?_, ?_⟩, ?_⟩ <;> rintro rfl <;> contradiction
    have hr : p ++ trailer q f = [] ∨ ∃ c r, p ++ trailer q f = c :: r ∧ netlocEnd c = true := by
      rcases hpp with rfl | hpp
      · rcases trailer_cases q f with e | ⟨c, r, e, hc⟩
        · left; simpa using e
        · right; exact ⟨c, r, by simpa using e, by rcases hc with rfl | rfl <;> rfl⟩
      · right
        cases p with
        | nil => simp at hpp
        | cons c r => simp at hpp; exact ⟨c, _, by simp; rfl, by rw [← hpp]; rfl⟩
    unfold cutNetloc
    rw [if_pos (by simp [startsWith])]
    have e : ("//".toList ++ host ++ (p ++ trailer q f)).drop 2 = host ++ (p ++ trailer q f) := by simp
    rw [e]
    rcases hr with hr | ⟨c, r, hr, hc⟩
    · rw [hr, List.append_nil, takeWhile_self _ _ hh, dropWhile_all _ _ hh]
    · rw [hr, takeWhile_append_of_not _ _ _ _ hh (by simp [hc]), dropWhile_append_of_not _ _ _ _ hh (by simp [hc])]
  unfold urlparse
  simp only [c1, c2, e1, e2, cutParams_none k3]
  simp

end Verif.Lemmas.Uri
