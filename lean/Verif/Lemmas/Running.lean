import Verif.Py.Str
/-!
Lemmas about readings that make requests: a reading gives what is wanted, or the failure of the last request it made (C104).
-/
namespace Verif.Lemmas
open Verif.Py

section
variable {σ ρ δ α β : Type} {log : σ → List ρ} {e serve : ρ → Except PyErr δ} {I : σ → Prop} {s : σ}

/-- A reading of an object with a log, by an endpoint as it is: it gives what is wanted, or the failure of its last request. -/
def Runs (log : σ → List ρ) (e serve : ρ → Except PyErr δ) (I : σ → Prop) (s : σ) (out : σ × Except PyErr α) (want : Except PyErr α) : Prop :=
  I out.1 ∧ ∃ made, log out.1 = log s ++ made ∧ ((out.2 = want ∧ ∀ q ∈ made, e q = serve q) ∨
    ∃ m r x, made = m ++ [r] ∧ e r = .error x ∧ serve r ≠ e r ∧ out.2 = .error x ∧ ∀ q ∈ m, e q = serve q)

theorem runs_still {x want : Except PyErr α} (h : I s) (hx : x = want) : Runs log e serve I s (s, x) want :=
  ⟨h, [], by simp, .inl ⟨hx, by simp⟩⟩

theorem Runs.map {out : σ × Except PyErr α} {want : Except PyErr α} (h : Runs log e serve I s out want) (f : α → β) :
    Runs log e serve I s (out.1, f <$> out.2) (f <$> want) := by
  obtain ⟨h1, made, h2, h3⟩ := h
  refine ⟨h1, made, h2, ?_⟩
  rcases h3 with ⟨rfl, h4⟩ | ⟨m, r, x, h4, h5, h6, h7, h8⟩
  · exact .inl ⟨rfl, h4⟩
  · refine .inr ⟨m, r, x, h4, h5, h6, ?_, h8⟩
    show f <$> out.2 = _
    rw [h7]; rfl

theorem Runs.weaken {J : σ → Prop} {out : σ × Except PyErr α} {want : Except PyErr α} (h : Runs log e serve I s out want) (hJ : ∀ s, I s → J s) :
    Runs log e serve J s out want := ⟨hJ _ h.1, h.2⟩

theorem Runs.bind {out : σ × Except PyErr α} {want : Except PyErr α} {fin : σ × Except PyErr β} {w2 : α → Except PyErr β}
    (h : Runs log e serve I s out want) (herr : ∀ x, out.2 = .error x → fin = (out.1, .error x))
    (hok : ∀ a, out.2 = .ok a → want = .ok a → Runs log e serve I out.1 fin (w2 a)) : Runs log e serve I s fin (want >>= w2) := by
  obtain ⟨h1, made, h2, h3⟩ := h
  rcases h3 with ⟨h3, h4⟩ | ⟨m, r, x, h4, h5, h6, h7, h8⟩
  · cases ho : out.2 with
    | error x =>
      rw [herr x ho]
      refine ⟨h1, made, h2, .inl ⟨?_, h4⟩⟩
      rw [← h3, ho]; rfl
    | ok a =>
      have hw : want = .ok a := by rw [← h3, ho]
      obtain ⟨g1, made', g2, g3⟩ := hok a ho hw
      refine ⟨g1, made ++ made', by rw [g2, h2, List.append_assoc], ?_⟩
      rw [hw]
      rcases g3 with ⟨g3, g4⟩ | ⟨m, r, x, g4, g5, g6, g7, g8⟩
      · refine .inl ⟨g3, fun q hq => ?_⟩
        rcases List.mem_append.1 hq with hq | hq
        · exact h4 q hq
        · exact g4 q hq
      · refine .inr ⟨made ++ m, r, x, by rw [g4, List.append_assoc], g5, g6, g7, fun q hq => ?_⟩
        rcases List.mem_append.1 hq with hq | hq
        · exact h4 q hq
        · exact g8 q hq
  · rw [herr x h7]
    exact ⟨h1, made, h2, .inr ⟨m, r, x, h4, h5, h6, rfl, h8⟩⟩

/-- One request. `s1` is the object that has made it. -/
theorem runs_ask (he : ∀ r, e r = serve r ∨ ∃ x, e r = .error x) {s1 : σ} {r : ρ} (hl : log s1 = log s ++ [r]) (hI : I s1)
    {fin : σ × Except PyErr α} {w : δ → Except PyErr α} (herr : ∀ x, e r = .error x → fin = (s1, .error x))
    (hok : ∀ doc, e r = .ok doc → serve r = .ok doc → Runs log e serve I s1 fin (w doc)) : Runs log e serve I s fin (serve r >>= w) := by
  by_cases hs : serve r = e r
  · cases ha : e r with
    | error x =>
      rw [herr x ha, hs, ha]
      exact ⟨hI, [r], hl, .inl ⟨rfl, fun q hq => by rw [List.mem_singleton.1 hq, hs]⟩⟩
    | ok doc =>
      obtain ⟨h1, made, h2, h3⟩ := hok doc ha (hs.trans ha)
      rw [hs, ha]
      refine ⟨h1, r :: made, by rw [h2, hl, List.append_assoc]; rfl, ?_⟩
      rcases h3 with ⟨h3, h4⟩ | ⟨m, q, x, h4, h5, h6, h7, h8⟩
      · refine .inl ⟨h3, fun q hq => ?_⟩
        rcases List.mem_cons.1 hq with rfl | hq
        · exact hs.symm
        · exact h4 q hq
      · refine .inr ⟨r :: m, q, x, by rw [h4]; rfl, h5, h6, h7, fun p hp => ?_⟩
        rcases List.mem_cons.1 hp with rfl | hp
        · exact hs.symm
        · exact h8 p hp
  · rcases he r with h1 | ⟨x, h1⟩
    · exact absurd h1.symm hs
    · rw [herr x h1]
      exact ⟨hI, [r], hl, .inr ⟨[], r, x, rfl, h1, hs, rfl, by simp⟩⟩

end

end Verif.Lemmas
