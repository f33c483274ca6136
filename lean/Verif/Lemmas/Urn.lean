import Verif.Lemmas.Reference
import Verif.Model.Urn
import Verif.Spec.Urn
/-! Helper lemmas about URNs. -/
namespace Verif.Model
open Verif.Py Verif.Spec

theorem headD_split (c : Char) (s : Str) : (split c s).headD [] = s.takeWhile (· != c) := by
  by_cases h : c ∈ s
  · obtain ⟨a, b, rfl, ha⟩ := exists_append_of_mem h
    rw [split_append _ ha, takeWhile_append_stop]
    · rfl
    · intro x hx; simp; rintro rfl; exact ha hx
    · simp
  · rw [split_of_not_mem h, takeWhile_all]
    · rfl
    · intro x hx; simp; rintro rfl; exact h hx

theorem truthy_some {s : Str} : truthy (some s) = true ↔ s ≠ [] := by
  cases s <;> simp [truthy]

theorem truthy_none : truthy none = false := rfl

theorem truthy_iff {o : Option Str} : truthy o = true ↔ ∃ s, o = some s ∧ s ≠ [] := by
  cases o with
  | none => simp [truthy]
  | some s => simp [truthy_some]

/-- What a successfully parsed URN looks like. -/
theorem parse_ok {s : Str} {u : Urn} (h : Urn.parse s = .ok u) :
    ∃ a ns cts rest, split ':' ((split '#' s).headD []) = a :: ns :: cts :: rest ∧
      u.cache = some ((split '#' s).headD []) ∧ u.ns = some ns ∧ u.cts = some cts ∧
      urnRefPart rest = .ok u.ref ∧
      u.tg = (urnComps rest)[0]? ∧ u.wk = (urnComps rest)[1]? ∧ u.ver = (urnComps rest)[2]? := by
  unfold Urn.parse at h
  simp only at h
  split at h
  · rename_i a ns cts rest hsp
    refine ⟨a, ns, cts, rest, hsp, ?_⟩
    split at h
    · rename_i r hr
      simp only [Except.ok.injEq] at h
      subst h
      exact ⟨rfl, rfl, rfl, hr, rfl, rfl, rfl⟩
    · simp at h
  · simp at h

theorem plain_split {s : Str} (h : Plain s) : split '.' s = [s] := split_of_not_mem h.2.2.2

/-- The middle part of a written URN. -/
theorem split_middle {t : Str} {wk ver : Option Str} (ht : Plain t) (hw : ∀ s, wk = some s → Plain s)
    (hv : ∀ s, ver = some s → Plain s) (hvw : wk = none → ver = none) :
    split '.' (t ++ after '.' wk ++ after '.' ver) = t :: (wk.toList ++ ver.toList) := by
  cases wk with
  | none => simp [hvw rfl, after, plain_split ht]
  | some w =>
    have hw := hw w rfl
    cases ver with
    | none => simp [after, split_append _ ht.2.2.2, plain_split hw]
    | some v => simp [after, split_append _ ht.2.2.2, split_append _ hw.2.2.2, plain_split (hv v rfl)]

theorem not_mem_after {x sep : Char} {o : Option Str} (hs : x ≠ sep) (h : ∀ s, o = some s → x ∉ s) :
    x ∉ after sep o := by
  cases o with
  | none => simp [after]
  | some s => simp [after, hs, h s rfl]

theorem not_mem_middle {x : Char} {t : Str} {wk ver : Option Str} (hx : x ≠ '.') (ht : x ∉ t)
    (hw : ∀ s, wk = some s → x ∉ s) (hv : ∀ s, ver = some s → x ∉ s) :
    x ∉ t ++ after '.' wk ++ after '.' ver := by
  simp only [List.mem_append, not_or]
  exact ⟨⟨ht, not_mem_after hx hw⟩, not_mem_after hx hv⟩

theorem hash_write {p : UrnParts} (h : p.WF) : '#' ∉ p.write := by
  simp only [UrnParts.write, List.mem_append, List.mem_cons, not_or]
  refine ⟨⟨⟨⟨⟨⟨by decide, h.ns.2.2⟩, by decide, h.cts.2.2⟩, ?_⟩, ?_⟩, ?_⟩, ?_⟩
  · exact not_mem_after (by decide) fun s hs => (h.tg s hs).2.2.1
  · exact not_mem_after (by decide) fun s hs => (h.wk s hs).2.2.1
  · exact not_mem_after (by decide) fun s hs => (h.ver s hs).2.2.1
  · exact not_mem_after (by decide) fun s hs => (h.ref s hs).2.2.1

/-- Splitting a written URN on colons. -/
theorem split_write {p : UrnParts} (h : p.WF) :
    split ':' p.write = ['u','r','n'] :: p.ns :: p.cts ::
      (match p.tg with
       | none => []
       | some t => (t ++ after '.' p.wk ++ after '.' p.ver) :: p.ref.toList) := by
  have e : p.write = ['u','r','n'] ++ ':' :: (p.ns ++ ':' :: (p.cts ++ after ':' p.tg ++ after '.' p.wk
      ++ after '.' p.ver ++ after ':' p.ref)) := by simp [UrnParts.write]
  rw [e, split_append _ (by decide), split_append _ h.ns.2.1]
  cases ht : p.tg with
  | none => simp [h.wkTg ht, h.verWk (h.wkTg ht), h.refTg ht, after, split_of_not_mem h.cts.2.1]
  | some t =>
    have ht' := h.tg t ht
    have hm : ':' ∉ t ++ after '.' p.wk ++ after '.' p.ver :=
      not_mem_middle (by decide) ht'.2.1 (fun s hs => (h.wk s hs).2.1) (fun s hs => (h.ver s hs).2.1)
    have e2 : p.cts ++ after ':' (some t) ++ after '.' p.wk ++ after '.' p.ver ++ after ':' p.ref =
        p.cts ++ ':' :: (t ++ after '.' p.wk ++ after '.' p.ver ++ after ':' p.ref) := by simp [after]
    rw [e2, split_append _ h.cts.2.1]
    cases hr : p.ref with
    | none => simp only [after, List.append_nil, Option.toList] at *; rw [split_of_not_mem hm]
    | some r =>
      have : split ':' (t ++ after '.' p.wk ++ after '.' p.ver ++ after ':' (some r)) =
        (t ++ after '.' p.wk ++ after '.' p.ver) :: [r] := by
        rw [show after ':' (some r) = ':' :: r from rfl, split_append _ hm,
          split_of_not_mem (h.ref r hr).2.1]
      rw [this]; rfl

end Verif.Model
