import Verif.Spec.DtsResolver
import Verif.Lemmas.Str
/-! Lemmas on page links. -/
namespace Verif.Lemmas
open Verif.Py Verif.Model Verif.Spec

theorem startsWith_iff (s p : Str) : startsWith s p = true ↔ ∃ t, s = p ++ t := by
  rw [startsWith, List.isPrefixOf_iff_prefix]
  exact ⟨fun ⟨t, h⟩ => ⟨t, h.symm⟩, fun ⟨t, h⟩ => ⟨t, h.symm⟩⟩

theorem takeWhile_split (f : Char → Bool) (s : Str) : ∃ post, s = s.takeWhile f ++ post ∧ (∀ c, post.head? = some c → f c = false) ∧
    ∀ c ∈ s.takeWhile f, f c = true := by
  induction s with
  | nil => exact ⟨[], rfl, by simp, by simp⟩
  | cons c s ih =>
    obtain ⟨post, h1, h2, h3⟩ := ih
    by_cases hc : f c = true
    · refine ⟨post, ?_, h2, ?_⟩
      · rw [List.takeWhile_cons_of_pos hc, List.cons_append, ← h1]
      · rw [List.takeWhile_cons_of_pos hc]
        intro x hx
        rcases List.mem_cons.mp hx with rfl | hx
        · exact hc
        · exact h3 x hx
    · refine ⟨c :: s, ?_, ?_, ?_⟩
      · rw [List.takeWhile_cons_of_neg hc]; rfl
      · intro x hx; simp at hx; subst hx; simpa using hc
      · rw [List.takeWhile_cons_of_neg hc]; simp

theorem takeWhile_of_split (f : Char → Bool) (p post : Str) (hp : ∀ c ∈ p, f c = true) (h : ∀ c, post.head? = some c → f c = false) :
    (p ++ post).takeWhile f = p := by
  induction p with
  | nil =>
    cases post with
    | nil => rfl
    | cons c s => rw [List.nil_append, List.takeWhile_cons_of_neg]; simp [h c rfl]
  | cons c p ih =>
    rw [List.cons_append, List.takeWhile_cons_of_pos (hp c (by simp)), ih fun x hx => hp x (by simp [hx])]

theorem pageEq_eq : pageEq = "page=".toList := by decide

theorem drop_pageEq (t : Str) : ("page=".toList ++ t).drop 5 = t := by simp

theorem regexPage_iff (s p : Str) : regexPage s = some p ↔ NamesPage s p := by
  induction s generalizing p with
  | nil =>
    simp only [regexPage, NamesPage]
    constructor
    · intro h; cases h
    · rintro ⟨pre, post, h, _⟩
      have := congrArg List.length h
      simp at this
  | cons c s ih =>
    rw [regexPage]
    split
    · rename_i h
      obtain ⟨h1, h2⟩ := h
      rw [pageEq_eq, startsWith_iff] at h1
      obtain ⟨t, ht⟩ := h1
      rw [ht, drop_pageEq] at h2 ⊢
      obtain ⟨post, e, e1, e2⟩ := takeWhile_split isDigit t
      have hd : ∃ d b, t = d :: b ∧ isDigit d = true := by
        cases t with
        | nil => simp at h2
        | cons d b =>
          refine ⟨d, b, rfl, ?_⟩
          by_cases hd : isDigit d = true
          · exact hd
          · rw [List.takeWhile_cons_of_neg hd] at h2; exact absurd rfl h2
      constructor
      · intro h
        cases h
        refine ⟨[], post, ?_, h2, e2, e1, fun a d b _ _ => by simp⟩
        rw [List.nil_append, List.append_assoc, ← e]
      · rintro ⟨pre, post', h, hp, hpd, hpost, hleft⟩
        obtain ⟨d, b, rfl, hd⟩ := hd
        have := hleft [] d b (by rfl) hd
        have : pre = [] := List.length_eq_zero_iff.mp (by simpa using this)
        subst this
        rw [List.nil_append, List.append_assoc] at h
        have := List.append_cancel_left h
        rw [this, takeWhile_of_split _ _ _ hpd hpost]
    · rename_i h
      rw [ih]
      have hno : ∀ d b, c :: s = "page=".toList ++ d :: b → isDigit d = true → False := by
        intro d b e hd
        apply h
        rw [pageEq_eq, startsWith_iff, e, drop_pageEq, List.takeWhile_cons_of_pos hd]
        exact ⟨⟨_, rfl⟩, by simp⟩
      constructor
      · rintro ⟨pre, post, e, hp, hpd, hpost, hleft⟩
        refine ⟨c :: pre, post, by rw [e]; rfl, hp, hpd, hpost, ?_⟩
        intro a d b e' hd
        cases a with
        | nil => exact (hno d b e' hd).elim
        | cons x a =>
          simp only [List.cons_append, List.cons.injEq] at e'
          simpa using hleft a d b e'.2 hd
      · rintro ⟨pre, post, e, hp, hpd, hpost, hleft⟩
        cases pre with
        | nil =>
          obtain ⟨d, b, rfl⟩ := List.exists_cons_of_ne_nil hp
          exact (hno d (b ++ post) (by rw [e]; simp) (hpd d (by simp))).elim
        | cons x pre =>
          simp only [List.cons_append, List.cons.injEq] at e
          obtain ⟨rfl, e⟩ := e
          refine ⟨pre, post, e, hp, hpd, hpost, ?_⟩
          intro a d b e' hd
          have := hleft (c :: a) d b (by rw [e']; rfl) hd
          simpa using this

theorem namesPage_unique {s p p' : Str} (h : NamesPage s p) (h' : NamesPage s p') : p = p' := by
  rw [← regexPage_iff] at h h'
  rw [h] at h'
  exact Option.some.inj h'

theorem parseRef_iff (d : Option Str) (m : NavMember) (r : DtsRef) : parseRef m d = .ok r ↔ Reads d m r := by
  have ht : ∀ t : Option Str, setType t = t.filter (fun t => t ≠ []) := by
    intro t
    cases t with
    | none => rfl
    | some t => cases t <;> simp [setType, Option.filter]
  have ht2 : setType (match m.citeType with | some t => some t | none => d) = (m.citeType.or d).filter (fun t => t ≠ []) := by
    rw [ht]; cases m.citeType <;> rfl
  obtain ⟨a, b, t⟩ := r
  simp only [parseRef, Reads]
  cases hr : m.ref with
  | some x =>
    simp only [Except.ok.injEq, DtsRef.mk.injEq, Option.some.injEq, reduceCtorEq, false_and, or_false]
    constructor
    · rintro ⟨rfl, rfl, rfl⟩; exact ⟨⟨rfl, rfl⟩, ht2⟩
    · rintro ⟨⟨rfl, rfl⟩, rfl⟩; exact ⟨rfl, rfl, ht2⟩
  | none =>
    cases hs : m.start with
    | none => simp
    | some x =>
      cases he : m.stop with
      | none => simp
      | some y =>
        simp only [Except.ok.injEq, DtsRef.mk.injEq, Option.some.injEq, reduceCtorEq, false_and, false_or, true_and]
        constructor
        · rintro ⟨rfl, rfl, rfl⟩; exact ⟨⟨rfl, y, rfl, rfl⟩, ht2⟩
        · rintro ⟨⟨rfl, z, rfl, rfl⟩, rfl⟩; exact ⟨rfl, rfl, ht2⟩

theorem parseRefs_iff (d : Option Str) (ms : List NavMember) (rs : List DtsRef) : parseRefs d ms = .ok rs ↔ ReadsAll d ms rs := by
  induction ms generalizing rs with
  | nil =>
    simp only [parseRefs, Except.ok.injEq]
    constructor
    · rintro rfl; exact .nil
    · intro h; cases h; rfl
  | cons m ms ih =>
    rw [parseRefs]
    constructor
    · intro h
      cases h1 : parseRef m d with
      | error e => rw [h1] at h; cases h
      | ok r =>
        cases h2 : parseRefs d ms with
        | error e => rw [h1, h2] at h; cases h
        | ok rs' =>
          rw [h1, h2] at h; cases h
          exact .cons ((parseRef_iff _ _ _).mp h1) ((ih _).mp h2)
    · intro h
      cases h with
      | cons h1 h2 => rw [(parseRef_iff _ _ _).mpr h1, (ih _).mpr h2]

end Verif.Lemmas
