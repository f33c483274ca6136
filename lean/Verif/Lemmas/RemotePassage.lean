import Verif.Spec.RemotePassage
import Verif.Props.Urn
/-! Helper lemmas about remote passages. -/
namespace Verif.Model
open Verif.Py Verif.Spec Verif.Props

theorem getLastD_split_append {c : Char} (a : Str) {b : Str} (h : c ∉ b) : (split c (a ++ c :: b)).getLastD [] = b := by
  induction a with
  | nil => simp [split_of_not_mem h]
  | cons x a ih =>
    by_cases hx : x = c
    · subst hx
      rw [List.cons_append, split_cons_self]
      cases hs : split x (a ++ x :: b) with
      | nil => exact absurd hs (split_ne_nil _ _)
      | cons y l => rw [hs] at ih; simpa using ih
    · obtain ⟨hd, tl, h1, h2⟩ := split_cons_ne (xs := a ++ c :: b) hx
      rw [List.cons_append, h2]
      rw [h1] at ih
      cases tl with
      | nil =>
        have := length_split c (a ++ c :: b)
        rw [h1] at this; simp [List.count_append] at this
      | cons z l => simpa using ih

theorem lastPart_spec (s : Str) : AfterLastColon s (lastPart s) := by
  by_cases h : ':' ∈ s
  · have hr : ∃ a b, s = a ++ ':' :: b ∧ ':' ∉ b := by
      have h' : ':' ∈ s.reverse := by simpa using h
      obtain ⟨a, b, e, hn⟩ := exists_append_of_mem h'
      refine ⟨b.reverse, a.reverse, ?_, by simpa using hn⟩
      have := congrArg List.reverse e
      simpa using this
    obtain ⟨a, b, rfl, hb⟩ := hr
    rw [lastPart, getLastD_split_append _ hb]
    exact ⟨hb, .inr ⟨a, rfl⟩⟩
  · rw [lastPart, split_of_not_mem h]
    exact ⟨h, .inl rfl⟩

theorem afterLastColon_unique {s v w : Str} (hv : AfterLastColon s v) (hw : AfterLastColon s w) : v = w := by
  obtain ⟨hv, rfl | ⟨a, rfl⟩⟩ := hv <;> obtain ⟨hw, h | ⟨b, h⟩⟩ := hw
  · exact h
  · subst h; simp at hv
  · subst h; simp at hw
  · have h1 := getLastD_split_append a hv
    rw [h, getLastD_split_append b hw] at h1
    exact h1.symm

theorem ofText_announced (o : Option Str) : Announced o (Sib.ofText o) := by
  cases o with
  | none => rfl
  | some s => exact ⟨_, rfl, lastPart_spec s⟩

theorem announced_ne {o : Option Str} {x : Sib} (h : Announced o x) : x ≠ .unknown := by
  cases o with
  | none => rw [show x = .absent from h]; simp
  | some s => obtain ⟨v, rfl, _⟩ := h; simp

theorem announced_unique {o : Option Str} {x y : Sib} (hx : Announced o x) (hy : Announced o y) : x = y := by
  cases o with
  | none => rw [show x = .absent from hx, show y = .absent from hy]
  | some s =>
    obtain ⟨v, rfl, hv⟩ := hx
    obtain ⟨w, rfl, hw⟩ := hy
    rw [afterLastColon_unique hv hw]

/-- The URN of a text with a passage. -/
theorem textUrn_ref {text : Str} {p : UrnParts} (h : IsTextUrn text p) {r : Str} (hr : PlainRef r) :
    ({ p with ref := some r } : UrnParts).WF ∧ ({ p with ref := some r } : UrnParts).write = text ++ ':' :: r := by
  refine ⟨⟨h.wf.ns, h.wf.cts, h.wf.tg, h.wf.wk, h.wf.ver, fun s hs => ?_, h.wf.wkTg, h.wf.verWk, fun ht => absurd (h.wf.wkTg ht) h.work⟩, ?_⟩
  · cases hs; exact hr
  · rw [h.written]; simp [UrnParts.write, h.noPassage, after]

theorem parse_passage {text : Str} {p : UrnParts} (h : IsTextUrn text p) {r : Str} (hr : PlainRef r) :
    ∃ u, Urn.parse (text ++ ':' :: r) = .ok u ∧ optRefText u.ref = r ∧ u.upTo 10 = .ok text ∧ u.str = .ok (text ++ ':' :: r, u) ∧
      noPassage u = .ok text := by
  obtain ⟨hwf, hw⟩ := textUrn_ref h hr
  obtain ⟨u, hu, _, _, _, _, _, href⟩ := C12_urn_components _ hwf
  have h10 := (C14_upTo_values _ hwf u hu).2.2.2.2.2.1 h.work
  rw [hw] at hu
  have hc : cutVersion { p with ref := some r } = text := by
    rw [h.written]; simp [cutVersion, UrnParts.write, h.noPassage]
  rw [hc] at h10
  have hs : u.str = .ok (text ++ ':' :: r, u) := by
    obtain ⟨_, _, _, _, _, hca, _⟩ := parse_ok hu
    have hh := hash_write hwf
    rw [hw] at hh
    rw [split_of_not_mem hh] at hca
    simp [Urn.str, hca]
  refine ⟨u, hu, ?_, h10, hs, ?_⟩
  · cases hr' : u.ref with
    | none => rw [hr'] at href; cases href
    | some x => rw [hr'] at href; exact Option.some.inj href
  · simp [noPassage, hs, hu, h10, bind, Except.bind]

theorem parse_text {text : Str} {p : UrnParts} (h : IsTextUrn text p) :
    ∃ u, Urn.parse text = .ok u ∧ u.ref = none ∧ u.upTo 10 = .ok text ∧ u.str = .ok (text, u) ∧ noPassage u = .ok text := by
  obtain ⟨u, hu, _, _, _, _, _, href⟩ := C12_urn_components _ h.wf
  have h10 := (C14_upTo_values _ h.wf u hu).2.2.2.2.2.1 h.work
  rw [← h.written] at hu
  have hc : cutVersion p = text := by
    rw [h.written]; simp [cutVersion, UrnParts.write, h.noPassage]
  rw [hc] at h10
  have hs : u.str = .ok (text, u) := by
    obtain ⟨_, _, _, _, _, hca, _⟩ := parse_ok hu
    have hh := hash_write h.wf
    rw [← h.written] at hh
    rw [split_of_not_mem hh] at hca
    simp [Urn.str, hca]
  refine ⟨u, hu, ?_, h10, hs, ?_⟩
  · rw [h.noPassage] at href; simpa using href
  · simp [noPassage, hs, hu, h10, bind, Except.bind]

theorem parse_passage_ref {text : Str} {p : UrnParts} (h : IsTextUrn text p) {r : Str} (hr : PlainRef r) {u : Urn}
    (hu : Urn.parse (text ++ ':' :: r) = .ok u) : mkRef r = .ok u.ref := by
  obtain ⟨hwf, hw⟩ := textUrn_ref h hr
  obtain ⟨a, ns, cts, rest, h1, _, _, _, h2, _⟩ := parse_ok hu
  have hh := hash_write hwf
  have hsp := split_write hwf
  rw [hw] at hh hsp
  rw [split_of_not_mem hh] at h1
  simp only [List.headD_cons] at h1
  rw [h1] at hsp
  cases ht : p.tg with
  | none => exact absurd (h.wf.wkTg ht) h.work
  | some t =>
    simp only [ht, Option.toList] at hsp
    injection hsp with _ hsp
    injection hsp with _ hsp
    injection hsp with _ hsp
    rw [hsp] at h2
    exact h2

theorem lastParts_spec (l : List Str) : PassagesOf l (l.map lastPart) := by
  refine ⟨by simp, fun i u v hu hv => ?_⟩
  rw [List.getElem?_map, hu] at hv
  cases hv
  exact lastPart_spec u

theorem plainRef_dotted {cs : List Str} (h : UrnComponents cs) : PlainRef (dotted cs) := by
  have hc : ∀ c ∈ cs, IsComponent c := fun c hc => (h.2 c hc).1
  refine ⟨dotted_ne_nil h.1 hc, not_mem_dotted (by decide) fun c hc => (h.2 c hc).2.1, not_mem_dotted (by decide) fun c hc => (h.2 c hc).2.2, ?_⟩
  rw [count_eq_zero_iff.2 (not_mem_dotted (by decide) fun c hc => (h.2 c hc).1.2.2.1)]
  exact Nat.zero_le _

end Verif.Model
