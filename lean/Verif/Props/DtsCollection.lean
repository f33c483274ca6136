import Verif.Spec.DtsCollection
import Verif.Lemmas.Dict
import Verif.Lemmas.DtsResolver
import Verif.Props.Retriever
/-!
C60: the members of a remote DTS collection.
-/
namespace Verif.Props
open Verif.Py Verif.Model Verif.Spec Verif.Lemmas

variable {γ : Type}

private theorem addKeys_first (l ks : List Str) : addKeys ks l = ks ++ (firstOccurrences l).filter (fun x => x ∉ ks) := by
  induction l generalizing ks with
  | nil => simp [addKeys, firstOccurrences]
  | cons k l ih =>
    rw [show addKeys ks (k :: l) = addKeys (if k ∈ ks then ks else ks ++ [k]) l from rfl, ih, firstOccurrences]
    by_cases h : k ∈ ks
    · rw [if_pos h, List.filter_cons_of_neg (by simpa using h), List.filter_filter]
      congr 1
      apply List.filter_congr
      intro x _
      by_cases hx : x = k
      · subst hx; simp [h]
      · simp [hx]
    · rw [if_neg h, List.filter_cons_of_pos (by simpa using h), List.filter_filter, List.append_assoc]
      congr 1
      rw [List.singleton_append]
      congr 1
      apply List.filter_congr
      intro x _
      by_cases hx : x = k
      · simp [hx]
      · simp [hx]

private theorem lastGet_iff (ms : List (Str × γ)) (k : Str) (v : γ) : lastGet ms k = some v ↔ LastSays ms k v := by
  induction ms with
  | nil => simp [lastGet, LastSays]
  | cons p ms ih =>
    rw [lastGet_cons]
    have hnone : lastGet ms k = none ↔ ∀ p ∈ ms, p.1 ≠ k := by
      rw [lastGet, Option.map_eq_none_iff, List.find?_eq_none]
      simp
    constructor
    · intro h
      cases hl : lastGet ms k with
      | some w =>
        rw [hl] at h
        rw [hl] at ih
        obtain ⟨b, a, e, h'⟩ := ih.mp (by simpa using h)
        exact ⟨p :: b, a, by rw [e]; rfl, h'⟩
      | none =>
        rw [hl] at h
        by_cases hk : p.1 = k
        · refine ⟨[], ms, ?_, hnone.mp hl⟩
          obtain ⟨a, b⟩ := p
          simp only at hk; subst hk
          simp at h; subst h; rfl
        · simp [hk] at h
    · rintro ⟨b, a, e, h'⟩
      cases b with
      | nil =>
        simp only [List.nil_append, List.cons.injEq] at e
        obtain ⟨rfl, rfl⟩ := e
        rw [hnone.mpr h']; simp
      | cons q b =>
        simp only [List.cons_append, List.cons.injEq] at e
        obtain ⟨rfl, e⟩ := e
        rw [ih.mpr ⟨b, a, e, h'⟩]; rfl

private theorem mem_iff_dictGet : ∀ (d : List (Str × γ)), (d.map (·.1)).Nodup → ∀ k v, (k, v) ∈ d ↔ dictGet d k = some v
  | [], _, k, v => by simp [dictGet]
  | (a, b) :: d, h, k, v => by
    rw [List.map_cons, List.nodup_cons] at h
    by_cases e : a = k
    · subst e
      simp only [List.mem_cons, Prod.mk.injEq, true_and, dictGet, List.find?_cons, beq_self_eq_true, Option.map_some, Option.some.injEq]
      constructor
      · rintro (rfl | h')
        · rfl
        · exact absurd (List.mem_map_of_mem h') h.1
      · rintro rfl; exact Or.inl rfl
    · have hf : (a == k) = false := by simp [e]
      rw [show dictGet ((a, b) :: d) k = dictGet d k by simp [dictGet, List.find?_cons, hf], ← mem_iff_dictGet d h.2]
      simp only [List.mem_cons, Prod.mk.injEq]
      exact ⟨fun h' => h'.resolve_left fun h' => e h'.1.symm, Or.inr⟩

private theorem covers_dict (ms : List (Str × γ)) : Covers (updateKeys [] ms) ms := by
  refine ⟨?_, fun k v => ?_⟩
  · rw [keys_updateKeys, addKeys_first]
    simp
  · rw [mem_iff_dictGet _ (keys_nodup ms), dictGet_updateKeys, ← lastGet_iff]
    simp [dictGet]

private theorem chain_split {reply : Nat → Except PyErr (CollPage γ)} : ∀ {a : List (Nat × CollPage γ)} {m : Nat} {x : Nat × CollPage γ} {b : List (Nat × CollPage γ)},
    m ≠ 0 → CollChain reply m (a ++ x :: b) → x.1 ≠ 0 ∧ CollChain reply x.1 (x :: b)
  | [], m, x, b, hm, h => by
    cases h with
    | last h1 h2 => exact ⟨hm, .last h1 h2⟩
    | step h1 h2 h3 h4 h5 => exact ⟨hm, .step h1 h2 h3 h4 h5⟩
  | y :: a, m, x, b, hm, h => by
    generalize hc : (y :: a) ++ x :: b = c at h
    cases h with
    | last h1 h2 => simp at hc
    | step h1 h2 h3 h4 h5 =>
      simp only [List.cons_append, List.cons.injEq] at hc
      rw [← hc.2] at h5
      exact chain_split h4 h5

/-- What holds of a collection of which some pages came in. -/
private def KidsInv (id : Str) (first : CollPage γ) (chain : List (Nat × CollPage γ)) (s : RemoteColl γ) : Prop :=
  s.id = id ∧ s.size ≠ 0 ∧ s.parsedFolks = false ∧ (s.kidsProxy = false → s.parsedKids = true) ∧
  ∃ pre post, chain = pre ++ post ∧ s.kids = updateKeys [] (chainMembers pre) ∧ (s.parsedKids = true → post = []) ∧
    ((s.lastKids = none ∧ pre = [(1, first)]) ∨ ∃ n pg pre', s.lastKids = some n ∧ pre = pre' ++ [(n, pg)])

private theorem chainMembers_snoc (pre : List (Nat × CollPage γ)) (x : Nat × CollPage γ) : chainMembers (pre ++ [x]) = chainMembers pre ++ x.2.members := by
  simp [chainMembers]

private theorem dict_snoc (pre : List (Nat × CollPage γ)) (x : Nat × CollPage γ) :
    updateKeys (updateKeys [] (chainMembers pre)) (updateKeys [] x.2.members) = updateKeys [] (chainMembers (pre ++ [x])) := by
  rw [updateKeys_dict _ _ (keys_nodup _), ← updateKeys_append, chainMembers_snoc]

private theorem dict_again (pre : List (Nat × CollPage γ)) (x : Nat × CollPage γ) :
    updateKeys (updateKeys [] (chainMembers (pre ++ [x]))) (updateKeys [] x.2.members) = updateKeys [] (chainMembers (pre ++ [x])) := by
  rw [updateKeys_dict _ _ (keys_nodup _), chainMembers_snoc, updateKeys_append, updateKeys_twice _ _ (keys_nodup _)]

private theorem absorb_kids (s : RemoteColl γ) (page : Nat) (data : CollPage γ) (h1 : s.parsedKids = false) (h2 : s.size ≠ 0) :
    s.absorb .children page data = { s with
      parsedKids := decide (data.members ≠ [] ∧ data.view = none), kids := updateKeys s.kids (updateKeys [] data.members), lastKids := some page } := by
  have ht : s.touchKids = s := by rw [RemoteColl.touchKids, if_pos h1, if_pos h2]
  simp only [RemoteColl.absorb, ht, RemoteColl.memberFlags, h2, and_false, or_false]
  by_cases hm : data.members ≠ []
  · rw [if_pos hm]
    by_cases hv : data.view = none
    · simp [hv, hm]
    · simp [hv, h1]
  · rw [if_neg hm]; simp [hm, h1]

private theorem crawl_kids {full serve : List (Str × List Str) → Except PyErr (CollPage γ)} {query : List (Str × List Str)} {id : Str} {first : CollPage γ}
    {chain : List (Nat × CollPage γ)} (hf : Faithful serve full) {n : Nat} {suffix : List (Nat × CollPage γ)}
    (hc : CollChain (fun n => full (collRequest query id .children n)) n suffix) :
    n ≠ 0 → ∀ (pre : List (Nat × CollPage γ)) (s : RemoteColl γ) (fuel : Nat), suffix.length ≤ fuel → chain = pre ++ suffix → KidsInv id first chain s →
      s.parsedKids = false →
      (∀ x, suffix.head? = some x → updateKeys s.kids (updateKeys [] x.2.members) = updateKeys [] (chainMembers (pre ++ [x]))) →
      ∃ s' out, crawl serve query .children fuel n s = some (s', out) ∧ KidsInv id first chain s' ∧
        (out = .ok () → s'.kids = updateKeys [] (chainMembers chain) ∧ s'.parsedKids = true) ∧ (serve = full → out = .ok ()) := by
  induction hc with
  | @last n pg h1 h2 =>
    intro hn pre s fuel hfu he hi hp hk
    obtain ⟨f, rfl⟩ : ∃ f, fuel = f + 1 := ⟨fuel - 1, by simp at hfu; omega⟩
    obtain ⟨i1, i2, i3, i4, i5⟩ := hi
    rw [crawl, if_neg hn]
    subst i1
    cases hs : serve (collRequest query s.id .children n) with
    | error e =>
      simp only [hs]
      refine ⟨_, _, rfl, ⟨rfl, i2, i3, i4, i5⟩, fun h => (by cases h), ?_⟩
      rintro rfl
      have h1' : serve (collRequest query s.id .children n) = .ok pg := h1
      rw [hs] at h1'; cases h1'
    | ok pg' =>
      have : pg' = pg := by
        have := hf _ _ hs
        rw [show full (collRequest query s.id .children n) = .ok pg from h1] at this
        cases this; rfl
      subst this
      have hab := absorb_kids { s with log := s.log ++ [collRequest query s.id .children n] } n pg' hp i2
      have hkk := hk (n, pg') rfl
      simp only [hs, hab]
      have key : ∀ s2 : RemoteColl γ, s2 = ({ s with
          log := s.log ++ [collRequest query s.id .children n], parsedKids := true,
          kids := updateKeys s.kids (updateKeys [] pg'.members), lastKids := some n } : RemoteColl γ) →
          KidsInv s.id first chain s2 ∧ s2.kids = updateKeys [] (chainMembers chain) ∧ s2.parsedKids = true := by
        rintro s2 rfl
        refine ⟨⟨rfl, i2, i3, fun _ => rfl, ?_⟩, ?_, rfl⟩
        · exact ⟨pre ++ [(n, pg')], [], by simp [he], hkk, fun _ => rfl, Or.inr ⟨n, pg', pre, rfl, rfl⟩⟩
        · rw [he]; exact hkk
      rcases h2 with h2 | h2
      · simp only [h2]
        obtain ⟨a, b, c⟩ := key _ rfl
        exact ⟨_, _, rfl, a, fun _ => ⟨b, c⟩, fun _ => rfl⟩
      · simp only [h2]
        obtain ⟨a, b, c⟩ := key _ rfl
        exact ⟨_, _, rfl, a, fun _ => ⟨b, c⟩, fun _ => rfl⟩
  | @step n pg link p rest h1 h2 h3 h4 h5 ih =>
    intro hn pre s fuel hfu he hi hp hk
    obtain ⟨f, rfl⟩ : ∃ f, fuel = f + 1 := ⟨fuel - 1, by simp at hfu; omega⟩
    obtain ⟨i1, i2, i3, i4, i5⟩ := hi
    rw [crawl, if_neg hn]
    subst i1
    cases hs : serve (collRequest query s.id .children n) with
    | error e =>
      simp only [hs]
      refine ⟨_, _, rfl, ⟨rfl, i2, i3, i4, i5⟩, fun h => (by cases h), ?_⟩
      rintro rfl
      have h1' : serve (collRequest query s.id .children n) = .ok pg := h1
      rw [hs] at h1'; cases h1'
    | ok pg' =>
      have : pg' = pg := by
        have := hf _ _ hs
        rw [show full (collRequest query s.id .children n) = .ok pg from h1] at this
        cases this; rfl
      subst this
      have hab := absorb_kids { s with log := s.log ++ [collRequest query s.id .children n] } n pg' hp i2
      have hkk := hk (n, pg') rfl
      have hflag : decide (pg'.members ≠ [] ∧ pg'.view = none) = false := by simp [h2]
      rw [hflag] at hab
      simp only [hs, hab, h2, (regexPage_iff _ _).mpr h3]
      refine ih h4 (pre ++ [(n, pg')]) _ f (by simpa using hfu) (by simp [he]) ⟨rfl, i2, i3, ?_, ?_⟩ rfl ?_
      · intro h
        have := i4 h
        rw [hp] at this; cases this
      · exact ⟨pre ++ [(n, pg')], rest, by simp [he], hkk, fun h => (by cases h), Or.inr ⟨n, pg', pre, rfl, rfl⟩⟩
      · intro x _
        show updateKeys (updateKeys s.kids (updateKeys [] pg'.members)) (updateKeys [] x.2.members) = _
        rw [hkk]; exact dict_snoc _ _

private theorem run_kids {full serve : List (Str × List Str) → Except PyErr (CollPage γ)} {query : List (Str × List Str)} {id : Str} {first : CollPage γ}
    {chain : List (Nat × CollPage γ)} (hf : Faithful serve full) (hc : CollChain (fun n => full (collRequest query id .children n)) 1 chain)
    (hfirst : chain.head? = some (1, first)) (s : RemoteColl γ) (fuel : Nat) (hfu : chain.length ≤ fuel) (hi : KidsInv id first chain s) (hp : s.parsedKids = false) :
    ∃ s' out, runProxy serve query fuel .children s = some (s', out) ∧ KidsInv id first chain s' ∧
        (out = .ok () → s'.kids = updateKeys [] (chainMembers chain) ∧ s'.parsedKids = true) ∧ (serve = full → out = .ok ()) := by
  have hi' := hi
  obtain ⟨i1, i2, i3, i4, pre, post, e, hk, h1, h2⟩ := hi'
  rw [runProxy, if_neg (by simp [i3]), parsePaginated]
  rcases h2 with ⟨h2, h3⟩ | ⟨n, pg, pre', h2, h3⟩
  · simp only [h2]
    refine crawl_kids hf hc (by decide) [] s fuel hfu rfl hi hp ?_
    intro x hx
    rw [hfirst] at hx
    cases hx
    rw [hk, h3]
    exact dict_again [] (1, first)
  · subst h3
    rw [List.append_assoc] at e
    have hs := chain_split (x := (n, pg)) (b := post) (a := pre') (m := 1) (by decide) (by rw [e] at hc; exact hc)
    simp only [h2]
    have hstart : (match n with | 0 => 1 | n => n) = n := by
      cases n with
      | zero => exact absurd rfl hs.1
      | succ n => rfl
    have hlen : ((n, pg) :: post).length ≤ fuel := by
      rw [e] at hfu; simp at hfu ⊢; omega
    have := crawl_kids (first := first) (chain := chain) hf hs.2 hs.1 pre' s fuel hlen e hi hp (by
      intro x hx
      cases hx
      rw [hk]
      exact dict_again _ _)
    cases n with
    | zero => exact absurd rfl hs.1
    | succ n => exact this

private theorem touchKids_inv {id : Str} {first : CollPage γ} {chain : List (Nat × CollPage γ)} {s : RemoteColl γ} (hi : KidsInv id first chain s) :
    KidsInv id first chain s.touchKids ∧ (s.touchKids.kidsProxy = true ∨ s.touchKids.parsedKids = true) ∧
      (s.touchKids.kidsProxy = true → s.touchKids.parsedKids = false) := by
  obtain ⟨i1, i2, i3, i4, i5⟩ := hi
  rw [RemoteColl.touchKids]
  split
  · rename_i h
    refine ⟨⟨i1, i2, i3, i4, i5⟩, ?_, fun _ => h⟩
    cases hk : s.kidsProxy with
    | true => exact Or.inl rfl
    | false => exact Or.inr (i4 hk)
  · rename_i h
    have h' : s.parsedKids = true := by simpa using h
    exact ⟨⟨i1, i2, i3, fun _ => h', i5⟩, Or.inr h', fun h => (by cases h)⟩

private theorem complete_of_inv {id : Str} {first : CollPage γ} {chain : List (Nat × CollPage γ)} {s : RemoteColl γ} (hi : KidsInv id first chain s)
    (h : s.parsedKids = true) : s.kids = updateKeys [] (chainMembers chain) := by
  obtain ⟨_, _, _, _, pre, post, e, hk, h1, _⟩ := hi
  rw [hk, e, h1 h, List.append_nil]

private theorem read_inv {full serve : List (Str × List Str) → Except PyErr (CollPage γ)} {query : List (Str × List Str)} {id : Str} {first : CollPage γ}
    {chain : List (Nat × CollPage γ)} (hf : Faithful serve full) (hc : CollChain (fun n => full (collRequest query id .children n)) 1 chain)
    (hfirst : chain.head? = some (1, first)) (s : RemoteColl γ) (fuel : Nat) (hfu : chain.length ≤ fuel) (hi : KidsInv id first chain s)
    (op : CollRead) (hop : op ≠ .iterFolks) : ∃ s' out, s.read serve query fuel op = some (s', out) ∧ KidsInv id first chain s' := by
  obtain ⟨hi1, hi2, hi3⟩ := touchKids_inv hi
  cases op with
  | iterFolks => exact absurd rfl hop
  | iterKids =>
    rw [RemoteColl.read]
    by_cases hk : s.touchKids.kidsProxy = true
    · obtain ⟨s', out, h1, h2, _⟩ := run_kids hf hc hfirst s.touchKids fuel hfu hi1 (hi3 hk)
      simp only [hk, if_true, h1]
      cases out with
      | error e => exact ⟨_, _, rfl, h2⟩
      | ok u => exact ⟨_, _, rfl, h2⟩
    · simp only [hk]; exact ⟨_, _, rfl, hi1⟩
  | getKid k =>
    rw [RemoteColl.read]
    by_cases hk : s.touchKids.kidsProxy = true ∧ (s.touchKids.kids.find? fun p => p.1 == k) = none
    · obtain ⟨s', out, h1, h2, _⟩ := run_kids hf hc hfirst s.touchKids fuel hfu hi1 (hi3 hk.1)
      simp only [if_pos hk, h1]
      cases out with
      | error e => exact ⟨_, _, rfl, h2⟩
      | ok u => exact ⟨_, _, rfl, h2⟩
    · simp only [if_neg hk]; exact ⟨_, _, rfl, hi1⟩
  | countKids =>
    rw [RemoteColl.read]
    by_cases hk : s.touchKids.kidsProxy = true
    · simp only [hk, if_true]; exact ⟨_, _, rfl, hi1⟩
    · simp only [hk]; exact ⟨_, _, rfl, hi1⟩
  | retrieve =>
    rw [RemoteColl.read]
    split
    · exact ⟨_, _, rfl, hi⟩
    · simp only
      split
      · exact ⟨_, _, rfl, hi⟩
      · exact ⟨_, _, rfl, hi⟩

private theorem parseColl_inv {reply : Nat → Except PyErr (CollPage γ)} (id : Str) (size : Nat) (hs : size ≠ 0) (known : Bool) (first : CollPage γ)
    (chain : List (Nat × CollPage γ)) (hc : CollChain reply 1 chain) (hfirst : chain.head? = some (1, first)) :
    KidsInv id first chain (parseColl id size known first) := by
  have hp : parseColl id size known first =
      (⟨id, size, updateKeys [] (updateKeys [] first.members), [], !(decide (first.members ≠ [] ∧ first.view = none)), true,
        decide (first.members ≠ [] ∧ first.view = none), false, known, none, none, []⟩ : RemoteColl γ) := by
    simp only [parseColl, RemoteColl.memberFlags, hs, and_false, or_false]
    by_cases hm : first.members ≠ []
    · by_cases hv : first.view = none
      · simp [hm, hv, RemoteColl.touchKids]
      · simp [hm, hv, RemoteColl.touchKids, hs]
    · simp [hm, RemoteColl.touchKids, hs]
  rw [hp]
  refine ⟨rfl, hs, rfl, fun h => by simpa using h, [(1, first)], chain.tail, ?_, ?_, ?_, Or.inl ⟨rfl, rfl⟩⟩
  · cases chain with
    | nil => cases hfirst
    | cons x c => cases hfirst; rfl
  · show updateKeys [] (updateKeys [] first.members) = _
    rw [updateKeys_dict _ _ (by simp)]; simp [chainMembers]
  · intro h
    have hv : first.view = none := by
      have : first.members ≠ [] ∧ first.view = none := by simpa using h
      exact this.2
    cases hc with
    | last => rfl
    | step h1 h2 =>
      cases hfirst
      rw [hv] at h2; cases h2

private theorem reads_inv {full : List (Str × List Str) → Except PyErr (CollPage γ)} {query : List (Str × List Str)} {id : Str} {first : CollPage γ}
    {chain : List (Nat × CollPage γ)} (hc : CollChain (fun n => full (collRequest query id .children n)) 1 chain)
    (hfirst : chain.head? = some (1, first)) (fuel : Nat) (hfu : chain.length ≤ fuel) :
    ∀ (history : List ((List (Str × List Str) → Except PyErr (CollPage γ)) × CollRead)) (s : RemoteColl γ), KidsInv id first chain s →
      (∀ h ∈ history, Faithful h.1 full ∧ h.2 ≠ .iterFolks) → ∃ s', afterReads query fuel s history = some s' ∧ KidsInv id first chain s'
  | [], s, hi, _ => ⟨s, rfl, hi⟩
  | (serve, op) :: history, s, hi, hh => by
    obtain ⟨h1, h2⟩ := hh (serve, op) (by simp)
    obtain ⟨s', out, e, hi'⟩ := read_inv h1 hc hfirst s fuel hfu hi op h2
    obtain ⟨s'', e', hi''⟩ := reads_inv hc hfirst fuel hfu history s' hi' fun h hm => hh h (by simp [hm])
    exact ⟨s'', by rw [afterReads, e]; exact e', hi''⟩

/-- C60. The children of a paginated collection. The pages of the children form a finite chain, of which the collection was
made with the first. Whatever was read before, except the parents, and even if the endpoint failed at times:
* when iterating over the children gives a result, it covers the members of all pages;
* when the endpoint answers, iterating gives a result;
* when the endpoint answers, a look-up finds each member of any page, and raises `KeyError` for no other key. -/
theorem C60_children (full : List (Str × List Str) → Except PyErr (CollPage γ)) (query : List (Str × List Str)) (id : Str) (size : Nat) (hsize : size ≠ 0)
    (metadataParsed : Bool) (first : CollPage γ) (chain : List (Nat × CollPage γ)) (hc : CollChain (fun n => full (collRequest query id .children n)) 1 chain)
    (hfirst : chain.head? = some (1, first)) (fuel : Nat) (hfu : chain.length ≤ fuel)
    (history : List ((List (Str × List Str) → Except PyErr (CollPage γ)) × CollRead)) (hh : ∀ h ∈ history, Faithful h.1 full ∧ h.2 ≠ .iterFolks) :
    ∃ s, afterReads query fuel (parseColl id size metadataParsed first) history = some s ∧
      (∀ serve, Faithful serve full → ∃ s' out, s.read serve query fuel .iterKids = some (s', out) ∧
        (∀ a, out = .ok a → ∃ d, a = .dict d ∧ Covers d (chainMembers chain))) ∧
      (∃ s' d, s.read full query fuel .iterKids = some (s', .ok (.dict d))) ∧
      (∀ k, ∃ s' out, s.read full query fuel (.getKid k) = some (s', out) ∧
        ((∃ v, (k, v) ∈ chainMembers chain) → ∃ v, out = .ok (.item v) ∧ (k, v) ∈ chainMembers chain) ∧
        ((∀ v, (k, v) ∉ chainMembers chain) → out = .error .keyError)) := by
  obtain ⟨s, e, hi⟩ := reads_inv hc hfirst fuel hfu history _ (parseColl_inv id size hsize metadataParsed first chain hc hfirst) hh
  obtain ⟨hi1, hi2, hi3⟩ := touchKids_inv hi
  have hself : Faithful full full := fun _ _ h => h
  refine ⟨s, e, ?_, ?_, ?_⟩
  · intro serve hf
    rw [RemoteColl.read]
    by_cases hk : s.touchKids.kidsProxy = true
    · obtain ⟨s', out, h1, h2, h3, _⟩ := run_kids hf hc hfirst s.touchKids fuel hfu hi1 (hi3 hk)
      simp only [hk, if_true, h1]
      cases out with
      | error e => exact ⟨_, _, rfl, fun a h => (by cases h)⟩
      | ok u =>
        refine ⟨_, _, rfl, fun a h => ?_⟩
        cases h
        refine ⟨_, rfl, ?_⟩
        rw [(h3 rfl).1]; exact covers_dict _
    · simp only [hk]
      refine ⟨_, _, rfl, fun a h => ?_⟩
      cases h
      refine ⟨_, rfl, ?_⟩
      rw [complete_of_inv hi1 (hi2.resolve_left hk)]; exact covers_dict _
  · rw [RemoteColl.read]
    by_cases hk : s.touchKids.kidsProxy = true
    · obtain ⟨s', out, h1, h2, h3, h4⟩ := run_kids hself hc hfirst s.touchKids fuel hfu hi1 (hi3 hk)
      have := h4 rfl
      subst this
      simp only [hk, if_true, h1]
      exact ⟨_, _, rfl⟩
    · simp only [hk]
      exact ⟨_, _, rfl⟩
  · intro k
    have hget : ∀ ms : List (Str × γ), (∃ v, (k, v) ∈ ms) → ∃ v, dictItem (updateKeys [] ms) k = .ok (.item v) ∧ (k, v) ∈ ms := by
      intro ms ⟨v, hv⟩
      have hm : k ∈ (updateKeys [] ms).map (·.1) := by
        rw [keys_updateKeys, mem_addKeys]; exact Or.inr (List.mem_map_of_mem (f := (·.1)) hv)
      obtain ⟨⟨k', w⟩, hw, rfl⟩ := List.mem_map.mp hm
      have hl := ((covers_dict ms).2 _ _).mp hw
      obtain ⟨b, a, e, _⟩ := hl
      rw [mem_iff_dictGet _ (keys_nodup ms)] at hw
      simp only [dictGet, Option.map_eq_some_iff] at hw
      obtain ⟨p, hp1, rfl⟩ := hw
      refine ⟨p.2, ?_, by rw [e]; simp⟩
      simp only [dictItem, hp1]
    have hnot : ∀ ms : List (Str × γ), (∀ v, (k, v) ∉ ms) → (updateKeys [] ms).find? (fun p => p.1 == k) = none := by
      intro ms h
      rw [List.find?_eq_none]
      rintro ⟨k', v⟩ hx
      simp only [beq_iff_eq]
      rintro rfl
      obtain ⟨b, a, e, _⟩ := ((covers_dict ms).2 _ _).mp hx
      exact h v (by rw [e]; simp)
    rw [RemoteColl.read]
    by_cases hk : s.touchKids.kidsProxy = true ∧ (s.touchKids.kids.find? fun p => p.1 == k) = none
    · obtain ⟨s', out, h1, h2, h3, h4⟩ := run_kids hself hc hfirst s.touchKids fuel hfu hi1 (hi3 hk.1)
      have := h4 rfl
      subst this
      simp only [if_pos hk, h1]
      refine ⟨_, _, rfl, ?_, ?_⟩
      · rw [(h3 rfl).1]; exact hget _
      · intro h; rw [(h3 rfl).1, dictItem, hnot _ h]
    · simp only [if_neg hk]
      refine ⟨_, _, rfl, ?_, ?_⟩
      · intro hv
        have hi1' := hi1
        obtain ⟨_, _, _, _, pre, post, e, hkk, h1, _⟩ := hi1'
        have hin : ∃ v, (k, v) ∈ chainMembers pre := by
          rcases hi2 with hpx | hpk
          · have : ¬ (s.touchKids.kids.find? fun p => p.1 == k) = none := fun h => hk ⟨hpx, h⟩
            rw [hkk] at this
            exact Classical.byContradiction fun hn => this (hnot _ fun v hv => hn ⟨v, hv⟩)
          · have := h1 hpk
            subst this
            rw [List.append_nil] at e
            rw [← e]; exact hv
        obtain ⟨v, h1, h2⟩ := hget _ hin
        refine ⟨v, by rw [hkk]; exact h1, ?_⟩
        rw [e, chainMembers, List.flatMap_append, List.mem_append]
        exact Or.inl h2
      · intro h
        obtain ⟨_, _, _, _, pre, post, e, hkk, h1, _⟩ := hi1
        rw [hkk, dictItem, hnot]
        intro v hv
        apply h v
        rw [e, chainMembers, List.flatMap_append, List.mem_append]
        exact Or.inl hv

/-- What holds of the parents of a collection. -/
private def FolksInv (id : Str) (chain : List (Nat × CollPage γ)) (s : RemoteColl γ) : Prop :=
  s.id = id ∧ (s.folksProxy = false → s.parsedFolks = true) ∧
  ∃ pre post, chain = pre ++ post ∧ (∀ k, k ∈ s.folks ↔ ∃ v, (k, v) ∈ chainMembers pre) ∧ (s.parsedFolks = true → post = []) ∧
    ((s.lastFolks = none ∧ pre = []) ∨ ∃ n pg pre', s.lastFolks = some n ∧ pre = pre' ++ [(n, pg)])

private theorem crawl_folks {full serve : List (Str × List Str) → Except PyErr (CollPage γ)} {query : List (Str × List Str)} {id : Str}
    {chain : List (Nat × CollPage γ)} (hf : Faithful serve full) {n : Nat} {suffix : List (Nat × CollPage γ)}
    (hc : CollChain (fun n => full (collRequest query id .parents n)) n suffix) :
    n ≠ 0 → ∀ (pre : List (Nat × CollPage γ)) (s : RemoteColl γ) (fuel : Nat), suffix.length ≤ fuel → chain = pre ++ suffix → FolksInv id chain s →
      s.parsedFolks = false →
      (∀ x, suffix.head? = some x → ∀ k, k ∈ s.folks ++ x.2.members.map (·.1) ↔ ∃ v, (k, v) ∈ chainMembers (pre ++ [x])) →
      ∃ s' out, crawl serve query .parents fuel n s = some (s', out) ∧ FolksInv id chain s' ∧
        (out = .ok () → (∀ k, k ∈ s'.folks ↔ ∃ v, (k, v) ∈ chainMembers chain) ∧ s'.parsedFolks = true) ∧ (serve = full → out = .ok ()) := by
  have hab : ∀ (s : RemoteColl γ) (page : Nat) (data : CollPage γ), s.parsedFolks = false → s.absorb .parents page data = { s with
      parsedFolks := decide (data.members ≠ [] ∧ data.view = none), folks := s.folks ++ data.members.map (·.1), lastFolks := some page } := by
    intro s page data h1
    have ht : s.touchFolks = s := by rw [RemoteColl.touchFolks, if_neg (by simp [h1])]
    simp only [RemoteColl.absorb, ht, RemoteColl.memberFlags]
    by_cases hm : data.members ≠ []
    · rw [if_pos hm]
      by_cases hv : data.view = none
      · simp [hv, hm]
      · simp [hv, h1]
    · rw [if_neg hm]; simp [hm, h1]
  induction hc with
  | @last n pg h1 h2 =>
    intro hn pre s fuel hfu he hi hp hk
    obtain ⟨f, rfl⟩ : ∃ f, fuel = f + 1 := ⟨fuel - 1, by simp at hfu; omega⟩
    obtain ⟨i1, i4, i5⟩ := hi
    rw [crawl, if_neg hn]
    subst i1
    cases hs : serve (collRequest query s.id .parents n) with
    | error e =>
      simp only [hs]
      refine ⟨_, _, rfl, ⟨rfl, i4, i5⟩, fun h => (by cases h), ?_⟩
      rintro rfl
      have h1' : serve (collRequest query s.id .parents n) = .ok pg := h1
      rw [hs] at h1'; cases h1'
    | ok pg' =>
      have : pg' = pg := by
        have := hf _ _ hs
        rw [show full (collRequest query s.id .parents n) = .ok pg from h1] at this
        cases this; rfl
      subst this
      have hab := hab { s with log := s.log ++ [collRequest query s.id .parents n] } n pg' hp
      have hkk := hk (n, pg') rfl
      simp only [hs, hab]
      have key : ∀ s2 : RemoteColl γ, s2 = ({ s with
          log := s.log ++ [collRequest query s.id .parents n], parsedFolks := true,
          folks := s.folks ++ pg'.members.map (·.1), lastFolks := some n } : RemoteColl γ) →
          FolksInv s.id chain s2 ∧ (∀ k, k ∈ s2.folks ↔ ∃ v, (k, v) ∈ chainMembers chain) ∧ s2.parsedFolks = true := by
        rintro s2 rfl
        refine ⟨⟨rfl, fun _ => rfl, ?_⟩, ?_, rfl⟩
        · exact ⟨pre ++ [(n, pg')], [], by simp [he], hkk, fun _ => rfl, Or.inr ⟨n, pg', pre, rfl, rfl⟩⟩
        · rw [he]; exact hkk
      rcases h2 with h2 | h2
      · simp only [h2]
        obtain ⟨a, b, c⟩ := key _ rfl
        exact ⟨_, _, rfl, a, fun _ => ⟨b, c⟩, fun _ => rfl⟩
      · simp only [h2]
        obtain ⟨a, b, c⟩ := key _ rfl
        exact ⟨_, _, rfl, a, fun _ => ⟨b, c⟩, fun _ => rfl⟩
  | @step n pg link p rest h1 h2 h3 h4 h5 ih =>
    intro hn pre s fuel hfu he hi hp hk
    obtain ⟨f, rfl⟩ : ∃ f, fuel = f + 1 := ⟨fuel - 1, by simp at hfu; omega⟩
    obtain ⟨i1, i4, i5⟩ := hi
    rw [crawl, if_neg hn]
    subst i1
    cases hs : serve (collRequest query s.id .parents n) with
    | error e =>
      simp only [hs]
      refine ⟨_, _, rfl, ⟨rfl, i4, i5⟩, fun h => (by cases h), ?_⟩
      rintro rfl
      have h1' : serve (collRequest query s.id .parents n) = .ok pg := h1
      rw [hs] at h1'; cases h1'
    | ok pg' =>
      have : pg' = pg := by
        have := hf _ _ hs
        rw [show full (collRequest query s.id .parents n) = .ok pg from h1] at this
        cases this; rfl
      subst this
      have hab := hab { s with log := s.log ++ [collRequest query s.id .parents n] } n pg' hp
      have hkk := hk (n, pg') rfl
      have hflag : decide (pg'.members ≠ [] ∧ pg'.view = none) = false := by simp [h2]
      rw [hflag] at hab
      simp only [hs, hab, h2, (regexPage_iff _ _).mpr h3]
      refine ih h4 (pre ++ [(n, pg')]) _ f (by simpa using hfu) (by simp [he]) ⟨rfl, ?_, ?_⟩ rfl ?_
      · intro h
        have := i4 h
        rw [hp] at this; cases this
      · exact ⟨pre ++ [(n, pg')], rest, by simp [he], hkk, fun h => (by cases h), Or.inr ⟨n, pg', pre, rfl, rfl⟩⟩
      · intro x _ k
        show k ∈ (s.folks ++ pg'.members.map (·.1)) ++ x.2.members.map (·.1) ↔ _
        rw [List.mem_append, hkk, chainMembers_snoc (pre ++ [(n, pg')])]
        simp only [List.mem_append, List.mem_map, Prod.exists, exists_and_right, exists_eq_right, exists_or]

private theorem crawl_kids_folks {serve : List (Str × List Str) → Except PyErr (CollPage γ)} {query : List (Str × List Str)} :
    ∀ (fuel page : Nat) (s s' : RemoteColl γ) (out : Except PyErr Unit), crawl serve query .children fuel page s = some (s', out) →
      s'.id = s.id ∧ s'.folksProxy = s.folksProxy ∧ s'.parsedFolks = s.parsedFolks ∧ s'.folks = s.folks ∧ s'.lastFolks = s.lastFolks := by
  have hab : ∀ (s : RemoteColl γ) (page : Nat) (data : CollPage γ),
      (s.absorb .children page data).id = s.id ∧ (s.absorb .children page data).folksProxy = s.folksProxy ∧
      (s.absorb .children page data).parsedFolks = s.parsedFolks ∧ (s.absorb .children page data).folks = s.folks ∧
      (s.absorb .children page data).lastFolks = s.lastFolks := by
    intro s page data
    simp only [RemoteColl.absorb, RemoteColl.memberFlags, RemoteColl.touchKids]
    repeat' split
    all_goals exact ⟨rfl, rfl, rfl, rfl, rfl⟩
  intro fuel
  induction fuel with
  | zero => intro page s s' out h; cases h
  | succ fuel ih =>
    intro page s s' out h
    rw [crawl] at h
    split at h
    · cases h; exact ⟨rfl, rfl, rfl, rfl, rfl⟩
    · simp only at h
      split at h
      · cases h; exact ⟨rfl, rfl, rfl, rfl, rfl⟩
      · split at h
        · split at h
          · cases h; exact hab { s with log := s.log ++ [collRequest query s.id .children page] } page ‹_›
          · obtain ⟨a, b, c, d, e⟩ := ih _ _ _ _ h
            obtain ⟨a', b', c', d', e'⟩ := hab { s with log := s.log ++ [collRequest query s.id .children page] } page ‹_›
            exact ⟨a.trans a', b.trans b', c.trans c', d.trans d', e.trans e'⟩
        · cases h; exact hab { s with log := s.log ++ [collRequest query s.id .children page] } page ‹_›

private theorem read_folks_inv {full serve : List (Str × List Str) → Except PyErr (CollPage γ)} {query : List (Str × List Str)} {id : Str}
    {chain : List (Nat × CollPage γ)} (hf : Faithful serve full) (hc : CollChain (fun n => full (collRequest query id .parents n)) 1 chain)
    (s : RemoteColl γ) (fuel : Nat) (hfu : chain.length ≤ fuel) (hi : FolksInv id chain s) :
    ∃ s' out, s.read serve query fuel .iterFolks = some (s', out) ∧ FolksInv id chain s' ∧
      (∀ a, out = .ok a → s'.parsedFolks = true ∧ ∃ l, a = .ids l ∧ s'.folks = l ∧ ∀ k, k ∈ l ↔ ∃ v, (k, v) ∈ chainMembers chain) ∧
      (serve = full → ∃ a, out = .ok a) ∧ (s.parsedFolks = true → s'.log = s.log ∧ out = .ok (.ids s.folks) ∧ s'.folks = s.folks ∧ s'.parsedFolks = true) := by
  have hi' := hi
  obtain ⟨i1, i2, pre, post, e, hk, h1, h2⟩ := hi'
  cases hp : s.parsedFolks with
  | true =>
    have ht : s.touchFolks = { s with folksProxy := false } := by rw [RemoteColl.touchFolks, if_pos hp]
    simp only [RemoteColl.read, ht, Bool.false_eq_true, if_false]
    refine ⟨_, _, rfl, ⟨i1, fun _ => hp, pre, post, e, hk, h1, h2⟩, ?_, fun _ => ⟨_, rfl⟩, fun _ => ⟨rfl, rfl, rfl, hp⟩⟩
    intro a ha
    cases ha
    refine ⟨hp, _, rfl, rfl, ?_⟩
    intro k
    rw [hk, e, h1 hp, List.append_nil]
  | false =>
    have ht : s.touchFolks = s := by rw [RemoteColl.touchFolks, if_neg (by simp [hp])]
    have hpx : s.folksProxy = true := by
      cases h : s.folksProxy with
      | true => rfl
      | false => rw [i2 h] at hp; cases hp
    have hrun : ∃ s' out, runProxy serve query fuel .parents s = some (s', out) ∧ FolksInv id chain s' ∧
        (out = .ok () → (∀ k, k ∈ s'.folks ↔ ∃ v, (k, v) ∈ chainMembers chain) ∧ s'.parsedFolks = true) ∧ (serve = full → out = .ok ()) := by
      rw [runProxy, if_neg (by simp [hp]), parsePaginated]
      rcases h2 with ⟨h2, h3⟩ | ⟨n, pg, pre', h2, h3⟩
      · simp only [h2]
        subst h3
        refine crawl_folks hf hc (by decide) [] s fuel hfu rfl hi hp ?_
        intro x _ k
        rw [chainMembers_snoc, List.mem_append, hk]
        simp [chainMembers]
      · subst h3
        rw [List.append_assoc] at e
        have hs := chain_split (x := (n, pg)) (b := post) (a := pre') (m := 1) (by decide) (by rw [e] at hc; exact hc)
        simp only [h2]
        have hlen : ((n, pg) :: post).length ≤ fuel := by
          rw [e] at hfu; simp at hfu ⊢; omega
        have := crawl_folks (chain := chain) hf hs.2 hs.1 pre' s fuel hlen e hi hp (by
          intro x hx k
          cases hx
          rw [List.mem_append, hk, chainMembers_snoc]
          constructor
          · rintro (h | h)
            · exact h
            · obtain ⟨⟨k', v⟩, h1, rfl⟩ := List.mem_map.mp h
              exact ⟨v, List.mem_append.mpr (Or.inr h1)⟩
          · exact Or.inl)
        cases n with
        | zero => exact absurd rfl hs.1
        | succ n => exact this
    obtain ⟨s', out, r1, r2, r3, r4⟩ := hrun
    simp only [RemoteColl.read, ht, hpx, if_true, r1]
    cases out with
    | error e => 
      refine ⟨_, _, rfl, r2, fun a h => (by cases h), ?_, fun h => (by cases h)⟩
      intro h; cases r4 h
    | ok u =>
      refine ⟨_, _, rfl, r2, ?_, fun _ => ⟨_, rfl⟩, fun h => (by cases h)⟩
      intro a ha
      cases ha
      exact ⟨(r3 rfl).2, _, rfl, rfl, (r3 rfl).1⟩

private theorem reads_folks_inv {full : List (Str × List Str) → Except PyErr (CollPage γ)} {query : List (Str × List Str)} {id : Str}
    {chain : List (Nat × CollPage γ)} (hc : CollChain (fun n => full (collRequest query id .parents n)) 1 chain) (fuel : Nat) (hfu : chain.length ≤ fuel) :
    ∀ (history : List ((List (Str × List Str) → Except PyErr (CollPage γ)) × CollRead)) (s s' : RemoteColl γ), FolksInv id chain s →
      (∀ h ∈ history, Faithful h.1 full) → afterReads query fuel s history = some s' → FolksInv id chain s' ∧
        (s.parsedFolks = true → s'.parsedFolks = true ∧ s'.folks = s.folks)
  | [], s, s', hi, _, h => by cases h; exact ⟨hi, fun h => ⟨h, rfl⟩⟩
  | (serve, op) :: history, s, s', hi, hh, h => by
    rw [afterReads] at h
    have hf : Faithful serve full := hh (serve, op) (by simp)
    have hnext := reads_folks_inv hc fuel hfu history
    have hrest : ∀ x ∈ history, Faithful x.1 full := fun x hx => hh x (by simp [hx])
    split at h
    · cases h
    · rename_i s1 out h1
      have same : ∀ t : RemoteColl γ, t.id = s.id ∧ t.folksProxy = s.folksProxy ∧ t.parsedFolks = s.parsedFolks ∧ t.folks = s.folks ∧ t.lastFolks = s.lastFolks →
          FolksInv id chain t ∧ (s.parsedFolks = true → t.parsedFolks = true ∧ t.folks = s.folks) := by
        rintro t ⟨a, b, c, d, e⟩
        refine ⟨?_, fun h => ⟨c.trans h, d⟩⟩
        rw [FolksInv, a, b, c, d, e]; exact hi
      have htouch : s.touchKids.id = s.id ∧ s.touchKids.folksProxy = s.folksProxy ∧ s.touchKids.parsedFolks = s.parsedFolks ∧
          s.touchKids.folks = s.folks ∧ s.touchKids.lastFolks = s.lastFolks := by
        rw [RemoteColl.touchKids]
        split
        · split <;> exact ⟨rfl, rfl, rfl, rfl, rfl⟩
        · exact ⟨rfl, rfl, rfl, rfl, rfl⟩
      have hrun : ∀ (t t' : RemoteColl γ) (o : Except PyErr Unit), runProxy serve query fuel .children t = some (t', o) →
          t'.id = t.id ∧ t'.folksProxy = t.folksProxy ∧ t'.parsedFolks = t.parsedFolks ∧ t'.folks = t.folks ∧ t'.lastFolks = t.lastFolks := by
        intro t t' o ht
        rw [runProxy] at ht
        split at ht
        · cases ht; exact ⟨rfl, rfl, rfl, rfl, rfl⟩
        · exact crawl_kids_folks _ _ _ _ _ ht
      have htrans : ∀ t : RemoteColl γ, t.id = s.touchKids.id ∧ t.folksProxy = s.touchKids.folksProxy ∧ t.parsedFolks = s.touchKids.parsedFolks ∧
          t.folks = s.touchKids.folks ∧ t.lastFolks = s.touchKids.lastFolks →
          t.id = s.id ∧ t.folksProxy = s.folksProxy ∧ t.parsedFolks = s.parsedFolks ∧ t.folks = s.folks ∧ t.lastFolks = s.lastFolks := by
        rintro t ⟨a, b, c, d, e⟩
        obtain ⟨a', b', c', d', e'⟩ := htouch
        exact ⟨a.trans a', b.trans b', c.trans c', d.trans d', e.trans e'⟩
      have key : FolksInv id chain s1 ∧ (s.parsedFolks = true → s1.parsedFolks = true ∧ s1.folks = s.folks) := by
        cases op with
        | iterFolks =>
          obtain ⟨t, o, e, hi', _, _, h4⟩ := read_folks_inv hf hc s fuel hfu hi
          rw [e] at h1; cases h1
          exact ⟨hi', fun h => ⟨(h4 h).2.2.2, (h4 h).2.2.1⟩⟩
        | iterKids =>
          simp only [RemoteColl.read] at h1
          split at h1
          · split at h1
            · cases h1
            · rename_i hr; cases h1; exact same _ (htrans _ (hrun _ _ _ hr))
            · rename_i hr; cases h1; exact same _ (htrans _ (hrun _ _ _ hr))
          · cases h1; exact same _ htouch
        | getKid k =>
          simp only [RemoteColl.read] at h1
          split at h1
          · split at h1
            · cases h1
            · rename_i hr; cases h1; exact same _ (htrans _ (hrun _ _ _ hr))
            · rename_i hr; cases h1; exact same _ (htrans _ (hrun _ _ _ hr))
          · cases h1; exact same _ htouch
        | countKids =>
          simp only [RemoteColl.read] at h1
          split at h1
          · cases h1; exact same _ htouch
          · cases h1; exact same _ htouch
        | retrieve =>
          rw [RemoteColl.read] at h1
          split at h1
          · cases h1; exact same _ ⟨rfl, rfl, rfl, rfl, rfl⟩
          · simp only at h1
            split at h1
            · cases h1; exact same _ ⟨rfl, rfl, rfl, rfl, rfl⟩
            · cases h1; exact same _ ⟨rfl, rfl, rfl, rfl, rfl⟩
      obtain ⟨k1, k2⟩ := key
      obtain ⟨j1, j2⟩ := hnext s1 s' k1 hrest h
      exact ⟨j1, fun hs => ⟨(j2 (k2 hs).1).1, (j2 (k2 hs).1).2.trans (k2 hs).2⟩⟩

private theorem parseColl_folks {id : Str} {size : Nat} {known : Bool} {first : CollPage γ} {chain : List (Nat × CollPage γ)} :
    FolksInv id chain (parseColl id size known first) := by
  have : (parseColl id size known first).id = id ∧ (parseColl id size known first).folksProxy = true ∧
      (parseColl id size known first).parsedFolks = false ∧ (parseColl id size known first).folks = [] ∧ (parseColl id size known first).lastFolks = none := by
    simp only [parseColl, RemoteColl.memberFlags, RemoteColl.touchKids]
    repeat' split
    all_goals exact ⟨rfl, rfl, rfl, rfl, rfl⟩
  obtain ⟨a, b, c, d, e⟩ := this
  refine ⟨a, by rw [b]; exact fun h => (by cases h), [], chain, rfl, ?_, by rw [c]; exact fun h => (by cases h), Or.inl ⟨e, rfl⟩⟩
  rw [d]; simp [chainMembers]

private def ProxyInv (s : RemoteColl γ) : Prop := s.parsedFolks = false ∧ (s.kidsProxy = false → s.parsedKids = true)

private theorem touchKids_proxy {s : RemoteColl γ} (h : ProxyInv s) : ProxyInv s.touchKids := by
  rw [RemoteColl.touchKids]
  split
  · split
    · exact h
    · exact ⟨h.1, fun _ => rfl⟩
  · rename_i hp
    exact ⟨h.1, fun _ => by simpa using hp⟩

private theorem crawl_proxy {serve : List (Str × List Str) → Except PyErr (CollPage γ)} {query : List (Str × List Str)} :
    ∀ (fuel page : Nat) (s s' : RemoteColl γ) (out : Except PyErr Unit), ProxyInv s → crawl serve query .children fuel page s = some (s', out) → ProxyInv s' := by
  have hab : ∀ (s : RemoteColl γ) (page : Nat) (data : CollPage γ), ProxyInv s → ProxyInv (s.absorb .children page data) := by
    intro s page data h
    have ht := touchKids_proxy h
    simp only [RemoteColl.absorb, RemoteColl.memberFlags]
    split
    · split
      · exact ⟨ht.1, fun _ => rfl⟩
      · exact ht
    · exact ht
  intro fuel
  induction fuel with
  | zero => intro page s s' out _ h; cases h
  | succ fuel ih =>
    intro page s s' out hi h
    rw [crawl] at h
    split at h
    · cases h; exact ⟨hi.1, fun _ => rfl⟩
    · simp only at h
      have hlog : ProxyInv { s with log := s.log ++ [collRequest query s.id .children page] } := hi
      split at h
      · cases h; exact hlog
      · split at h
        · split at h
          · cases h; exact hab _ _ _ hlog
          · exact ih _ _ _ _ (hab _ _ _ hlog) h
        · cases h; exact ⟨(hab _ page _ hlog).1, fun _ => rfl⟩

private theorem reads_proxy {query : List (Str × List Str)} {fuel : Nat} :
    ∀ (history : List ((List (Str × List Str) → Except PyErr (CollPage γ)) × CollRead)) (s s' : RemoteColl γ), ProxyInv s →
      (∀ h ∈ history, h.2 ≠ .iterFolks) → afterReads query fuel s history = some s' → ProxyInv s'
  | [], s, s', hi, _, h => by cases h; exact hi
  | (serve, op) :: history, s, s', hi, hh, h => by
    rw [afterReads] at h
    split at h
    · cases h
    · rename_i s1 out h1
      refine reads_proxy history s1 s' ?_ (fun x hx => hh x (by simp [hx])) h
      have ht := touchKids_proxy hi
      have hrun : ∀ (t t' : RemoteColl γ) (o : Except PyErr Unit), ProxyInv t → runProxy serve query fuel .children t = some (t', o) → ProxyInv t' := by
        intro t t' o hi h
        rw [runProxy] at h
        split at h
        · cases h; exact hi
        · exact crawl_proxy _ _ _ _ _ hi h
      cases op with
      | iterFolks => exact absurd rfl (hh (serve, .iterFolks) (by simp))
      | iterKids =>
        simp only [RemoteColl.read] at h1
        split at h1
        · split at h1
          · cases h1
          · rename_i hr; cases h1; exact hrun _ _ _ ht hr
          · rename_i hr; cases h1; exact hrun _ _ _ ht hr
        · cases h1; exact ht
      | getKid k =>
        simp only [RemoteColl.read] at h1
        split at h1
        · split at h1
          · cases h1
          · rename_i hr; cases h1; exact hrun _ _ _ ht hr
          · rename_i hr; cases h1; exact hrun _ _ _ ht hr
        · cases h1; exact ht
      | countKids =>
        simp only [RemoteColl.read] at h1
        split at h1
        · cases h1; exact ht
        · cases h1; exact ht
      | retrieve =>
        rw [RemoteColl.read] at h1
        split at h1
        · cases h1; exact hi
        · simp only at h1
          split at h1
          · cases h1; exact hi
          · cases h1; exact hi

private theorem parseColl_proxy (id : Str) (size : Nat) (known : Bool) (first : CollPage γ) : ProxyInv (parseColl id size known first) := by
  have h0 : ProxyInv (RemoteColl.memberFlags ⟨id, size, [], [], true, true, false, false, known, none, none, []⟩ .children first) := by
    simp only [RemoteColl.memberFlags]
    split
    · split
      · exact ⟨rfl, fun _ => rfl⟩
      · exact ⟨rfl, fun h => (by cases h)⟩
    · exact ⟨rfl, fun h => (by cases h)⟩
  exact touchKids_proxy h0

/-- As long as the parents are not read, an iteration over the children that gives a result is the last to make requests: afterwards whatever is read of the
children, in whatever order and whatever the endpoint does, the answers stay those and nothing is requested. -/
theorem C60_children_once (serve : List (Str × List Str) → Except PyErr (CollPage γ)) (query : List (Str × List Str)) (fuel : Nat)
    (id : Str) (size : Nat) (metadataParsed : Bool) (first : CollPage γ)
    (before : List ((List (Str × List Str) → Except PyErr (CollPage γ)) × CollRead)) (hb : ∀ h ∈ before, h.2 ≠ .iterFolks) (s s' : RemoteColl γ)
    (hs : afterReads query fuel (parseColl id size metadataParsed first) before = some s) (d : List (Str × γ))
    (hread : s.read serve query fuel .iterKids = some (s', .ok (.dict d)))
    (history : List ((List (Str × List Str) → Except PyErr (CollPage γ)) × CollRead))
    (hh : ∀ h ∈ history, h.2 = .iterKids ∨ h.2 = .countKids ∨ ∃ k, h.2 = .getKid k) :
    ∃ s'', afterReads query fuel s' history = some s'' ∧ s''.log = s'.log ∧
      (∀ serve', ∃ t, s''.read serve' query fuel .iterKids = some (t, .ok (.dict d)) ∧ t.log = s'.log) ∧
      (∀ serve', ∃ t, s''.read serve' query fuel .countKids = some (t, .ok (.count d.length)) ∧ t.log = s'.log) := by
  obtain ⟨hfolks, hproxy⟩ := reads_proxy before _ s (parseColl_proxy _ _ _ _) hb hs
  have crawlDone : ∀ (fuel page : Nat) (s s' : RemoteColl γ), crawl serve query .children fuel page s = some (s', .ok ()) → s'.parsedKids = true := by
    intro fuel
    induction fuel with
    | zero => intro page s s' h; cases h
    | succ fuel ih =>
      intro page s s' h
      rw [crawl] at h
      split at h
      · cases h; rfl
      · simp only at h
        split at h
        · cases h
        · split at h
          · split at h
            · cases h
            · exact ih _ _ _ h
          · cases h; rfl
  have hdone : s'.parsedKids = true ∧ s'.kids = d := by
    rw [RemoteColl.read] at hread
    have htf : s.touchKids.parsedFolks = false := by
      rw [RemoteColl.touchKids]; split
      · split <;> exact hfolks
      · exact hfolks
    by_cases hk : s.touchKids.kidsProxy = true
    · simp only [hk, if_true, runProxy, htf, parsePaginated] at hread
      simp only [Bool.false_eq_true, if_false] at hread
      split at hread
      · cases hread
      · cases hread
      · rename_i s1 h1
        cases hread
        exact ⟨crawlDone _ _ _ _ h1, rfl⟩
    · simp only [hk] at hread
      cases hread
      refine ⟨?_, rfl⟩
      by_cases hp : s.parsedKids = false
      · by_cases hz : s.size = 0
        · simp [RemoteColl.touchKids, hp, hz]
        · rw [RemoteColl.touchKids, if_pos hp, if_pos hz] at hk
          have := hproxy (by simpa using hk)
          rw [hp] at this; cases this
      · rw [RemoteColl.touchKids, if_neg hp]
        simpa using hp
  have hstep : ∀ (serve' : List (Str × List Str) → Except PyErr (CollPage γ)) (t : RemoteColl γ) (op : CollRead), t.parsedKids = true → t.kids = d →
      (op = .iterKids ∨ op = .countKids ∨ ∃ k, op = .getKid k) →
      ∃ t' out, t.read serve' query fuel op = some (t', out) ∧ t'.parsedKids = true ∧ t'.kids = d ∧ t'.log = t.log ∧
        (op = .iterKids → out = .ok (.dict d)) ∧ (op = .countKids → out = .ok (.count d.length)) := by
    intro serve' t op h1 h2 hop
    have ht : t.touchKids = { t with kidsProxy := false } := by rw [RemoteColl.touchKids, if_neg (by simp [h1])]
    rcases hop with rfl | rfl | ⟨k, rfl⟩
    · simp only [RemoteColl.read, ht]
      exact ⟨_, _, rfl, h1, h2, rfl, fun _ => by rw [h2], fun h => (by cases h)⟩
    · simp only [RemoteColl.read, ht]
      exact ⟨_, _, rfl, h1, h2, rfl, fun h => (by cases h), fun _ => by rw [h2]⟩
    · simp only [RemoteColl.read, ht]
      exact ⟨_, _, rfl, h1, h2, rfl, fun h => (by cases h), fun h => (by cases h)⟩
  have hall : ∀ (history : List ((List (Str × List Str) → Except PyErr (CollPage γ)) × CollRead)) (t : RemoteColl γ), t.parsedKids = true → t.kids = d →
      (∀ h ∈ history, h.2 = .iterKids ∨ h.2 = .countKids ∨ ∃ k, h.2 = .getKid k) →
      ∃ t', afterReads query fuel t history = some t' ∧ t'.parsedKids = true ∧ t'.kids = d ∧ t'.log = t.log := by
    intro history
    induction history with
    | nil => intro t h1 h2 _; exact ⟨t, rfl, h1, h2, rfl⟩
    | cons h rest ih =>
      intro t h1 h2 hh
      obtain ⟨t', out, e, p1, p2, p3, _⟩ := hstep h.1 t h.2 h1 h2 (hh h (by simp))
      obtain ⟨t'', e', q1, q2, q3⟩ := ih t' p1 p2 fun x hx => hh x (by simp [hx])
      exact ⟨t'', by rw [afterReads, e]; exact e', q1, q2, q3.trans p3⟩
  obtain ⟨s'', e, h1, h2, h3⟩ := hall history s' hdone.1 hdone.2 hh
  refine ⟨s'', e, h3, fun serve' => ?_, fun serve' => ?_⟩
  · obtain ⟨t, out, e1, _, _, e2, e3, _⟩ := hstep serve' s'' .iterKids h1 h2 (Or.inl rfl)
    exact ⟨t, by rw [e1, e3 rfl], e2.trans h3⟩
  · obtain ⟨t, out, e1, _, _, e2, _, e3⟩ := hstep serve' s'' .countKids h1 h2 (Or.inr (Or.inl rfl))
    exact ⟨t, by rw [e1, e3 rfl], e2.trans h3⟩

/-- C60. The parents of a collection, whose pages form a finite chain. Whatever was read before, and even if the endpoint
failed at times: when iterating over the parents gives a result, it has the members of all pages and no others; when the
endpoint answers, it gives a result. Once it gave a result, it makes no further requests, whatever else is read. -/
theorem C60_parents (full : List (Str × List Str) → Except PyErr (CollPage γ)) (query : List (Str × List Str)) (id : Str) (size : Nat)
    (metadataParsed : Bool) (first : CollPage γ) (chain : List (Nat × CollPage γ)) (hc : CollChain (fun n => full (collRequest query id .parents n)) 1 chain)
    (fuel : Nat) (hfu : chain.length ≤ fuel)
    (history : List ((List (Str × List Str) → Except PyErr (CollPage γ)) × CollRead)) (hh : ∀ h ∈ history, Faithful h.1 full) (s : RemoteColl γ)
    (hs : afterReads query fuel (parseColl id size metadataParsed first) history = some s) :
    (∃ s' a, s.read full query fuel .iterFolks = some (s', .ok a)) ∧
    ∀ serve, Faithful serve full → ∃ s' out, s.read serve query fuel .iterFolks = some (s', out) ∧
      ∀ a, out = .ok a → ∃ l, a = .ids l ∧ (∀ k, k ∈ l ↔ ∃ v, (k, v) ∈ chainMembers chain) ∧
        ∀ later s'', (∀ h ∈ later, Faithful h.1 full) → afterReads query fuel s' later = some s'' →
          ∀ serve', Faithful serve' full → ∃ t, s''.read serve' query fuel .iterFolks = some (t, .ok (.ids l)) ∧ t.log = s''.log := by
  obtain ⟨hi, _⟩ := reads_folks_inv hc fuel hfu history _ s parseColl_folks hh hs
  refine ⟨?_, fun serve hf => ?_⟩
  · obtain ⟨s', out, e, _, _, h4, _⟩ := read_folks_inv (serve := full) (fun _ _ h => h) hc s fuel hfu hi
    obtain ⟨a, rfl⟩ := h4 rfl
    exact ⟨s', a, e⟩
  · obtain ⟨s', out, e, hi', h3, _, _⟩ := read_folks_inv hf hc s fuel hfu hi
    refine ⟨s', out, e, fun a ha => ?_⟩
    obtain ⟨hp, l, e1, e2, e3⟩ := h3 a ha
    refine ⟨l, e1, e3, fun later s'' hl hs'' serve' hf' => ?_⟩
    obtain ⟨hi'', hkeep⟩ := reads_folks_inv hc fuel hfu later s' s'' hi' hl hs''
    obtain ⟨hp'', hl''⟩ := hkeep hp
    obtain ⟨t, o, e4, _, _, _, h5⟩ := read_folks_inv hf' hc s'' fuel hfu hi''
    obtain ⟨h6, h7, _⟩ := h5 hp''
    exact ⟨t, by rw [e4, h7, hl'', e2], h6⟩

/-- Departure: reading the parents first hides the rest of the children. After the parents of a paginated collection were
read, iterating over its children gives those of its first page, and requests nothing. -/
theorem C60_parents_first (serve serve' : List (Str × List Str) → Except PyErr (CollPage γ)) (query : List (Str × List Str)) (id : Str) (size : Nat)
    (hsize : size ≠ 0) (metadataParsed : Bool) (first : CollPage γ) (hview : first.view ≠ none) (fuel : Nat) (s : RemoteColl γ) (a : CollAnswer γ)
    (hread : (parseColl id size metadataParsed first).read serve query fuel .iterFolks = some (s, .ok a)) :
    ∃ d, s.read serve' query fuel .iterKids = some (s, .ok (.dict d)) ∧ Covers d first.members := by
  have crawlDone : ∀ (fuel page : Nat) (s s' : RemoteColl γ), crawl serve query .parents fuel page s = some (s', .ok ()) →
      s'.parsedFolks = true ∧ s'.kids = s.kids ∧ s'.kidsProxy = s.kidsProxy ∧ s'.parsedKids = s.parsedKids ∧ s'.size = s.size := by
    have hab : ∀ (s : RemoteColl γ) (page : Nat) (data : CollPage γ),
        (s.absorb .parents page data).kids = s.kids ∧ (s.absorb .parents page data).kidsProxy = s.kidsProxy ∧
        (s.absorb .parents page data).parsedKids = s.parsedKids ∧ (s.absorb .parents page data).size = s.size := by
      intro s page data
      simp only [RemoteColl.absorb, RemoteColl.memberFlags, RemoteColl.touchFolks]
      repeat' split
      all_goals exact ⟨rfl, rfl, rfl, rfl⟩
    intro fuel
    induction fuel with
    | zero => intro page s s' h; cases h
    | succ fuel ih =>
      intro page s s' h
      rw [crawl] at h
      split at h
      · cases h; exact ⟨rfl, rfl, rfl, rfl, rfl⟩
      · simp only at h
        split at h
        · cases h
        · split at h
          · split at h
            · cases h
            · obtain ⟨a, b, c, d, e⟩ := ih _ _ _ h
              obtain ⟨b', c', d', e'⟩ := hab { s with log := s.log ++ [collRequest query s.id .parents page] } page ‹_›
              exact ⟨a, b.trans b', c.trans c', d.trans d', e.trans e'⟩
          · cases h
            obtain ⟨b', c', d', e'⟩ := hab { s with log := s.log ++ [collRequest query s.id .parents page] } page ‹_›
            exact ⟨rfl, b', c', d', e'⟩
  have hp : parseColl id size metadataParsed first =
      (⟨id, size, updateKeys [] (updateKeys [] first.members), [], true, true, false, false, metadataParsed, none, none, []⟩ : RemoteColl γ) := by
    simp only [parseColl, RemoteColl.memberFlags, hsize, and_false, or_false]
    by_cases hm : first.members ≠ []
    · simp [hm, hview, RemoteColl.touchKids, hsize]
    · simp [hm, RemoteColl.touchKids, hsize]
  rw [hp] at hread
  simp only [RemoteColl.read, RemoteColl.touchFolks, Bool.false_eq_true, if_false, if_true, runProxy, parsePaginated] at hread
  split at hread
  · cases hread
  · cases hread
  · rename_i s1 h1
    cases hread
    obtain ⟨a, b, c, d, e⟩ := crawlDone _ _ _ _ h1
    simp only at b c d e
    have ht : s.touchKids = s := by rw [RemoteColl.touchKids, if_pos d, if_pos (by rw [e]; exact hsize)]
    refine ⟨updateKeys [] (updateKeys [] first.members), ?_, ?_⟩
    · simp only [RemoteColl.read, ht, c, if_true, runProxy, a, b]
    · rw [updateKeys_dict _ _ (by simp)]; exact covers_dict _

/-- Departure: until the children were read, a paginated collection has no number of children: `TypeError`. -/
theorem C60_no_length (serve : List (Str × List Str) → Except PyErr (CollPage γ)) (query : List (Str × List Str)) (id : Str) (size : Nat) (hsize : size ≠ 0)
    (metadataParsed : Bool) (first : CollPage γ) (hview : first.view ≠ none) (fuel : Nat) :
    ∃ s, (parseColl id size metadataParsed first).read serve query fuel .countKids = some (s, .error .typeError) := by
  have hp : parseColl id size metadataParsed first =
      (⟨id, size, updateKeys [] (updateKeys [] first.members), [], true, true, false, false, metadataParsed, none, none, []⟩ : RemoteColl γ) := by
    simp only [parseColl, RemoteColl.memberFlags, hsize, and_false, or_false]
    by_cases hm : first.members ≠ []
    · simp [hm, hview, RemoteColl.touchKids, hsize]
    · simp [hm, RemoteColl.touchKids, hsize]
  rw [hp]
  exact ⟨_, by simp only [RemoteColl.read, RemoteColl.touchKids, hsize, ne_eq, not_false_eq_true, if_true]; rfl⟩

/-- Departure: a member of a collection asks for its metadata at each `retrieve`, for nothing records that it came. -/
theorem C60_retrieve_again (serve : List (Str × List Str) → Except PyErr (CollPage γ)) (query : List (Str × List Str)) (fuel : Nat) (s : RemoteColl γ)
    (h : s.parsedMeta = false) : ∃ s' out, s.read serve query fuel .retrieve = some (s', out) ∧ s'.log = s.log ++ [collRequest query s.id .children 1] ∧
      s'.parsedMeta = false ∧ s'.id = s.id := by
  rw [RemoteColl.read, if_neg (by simp [h])]
  simp only
  split
  · exact ⟨_, _, rfl, rfl, h, rfl⟩
  · exact ⟨_, _, rfl, rfl, h, rfl⟩

/-- The first iteration over the children of a collection made with a page that names a next one requests the pages of the
chain, each once and in order; the first page, though known, again. -/
theorem C60_requests (full : List (Str × List Str) → Except PyErr (CollPage γ)) (query : List (Str × List Str)) (id : Str) (size : Nat) (hsize : size ≠ 0)
    (metadataParsed : Bool) (first : CollPage γ) (hview : first.view ≠ none) (chain : List (Nat × CollPage γ))
    (hc : CollChain (fun n => full (collRequest query id .children n)) 1 chain) (fuel : Nat) (hfu : chain.length ≤ fuel) :
    ∃ s' a, (parseColl id size metadataParsed first).read full query fuel .iterKids = some (s', .ok a) ∧
      s'.log = chain.map fun c => collRequest query id .children c.1 := by
  have hp : parseColl id size metadataParsed first =
      (⟨id, size, updateKeys [] (updateKeys [] first.members), [], true, true, false, false, metadataParsed, none, none, []⟩ : RemoteColl γ) := by
    simp only [parseColl, RemoteColl.memberFlags, hsize, and_false, or_false]
    by_cases hm : first.members ≠ []
    · simp [hm, hview, RemoteColl.touchKids, hsize]
    · simp [hm, RemoteColl.touchKids, hsize]
  have hab : ∀ (s : RemoteColl γ) (page : Nat) (data : CollPage γ), (s.absorb .children page data).id = s.id ∧ (s.absorb .children page data).log = s.log := by
    intro s page data
    simp only [RemoteColl.absorb, RemoteColl.memberFlags, RemoteColl.touchKids]
    repeat' split
    all_goals exact ⟨rfl, rfl⟩
  have hcrawl : ∀ {n : Nat} {suffix : List (Nat × CollPage γ)}, CollChain (fun n => full (collRequest query id .children n)) n suffix → n ≠ 0 →
      ∀ (fuel : Nat) (s : RemoteColl γ), suffix.length ≤ fuel → s.id = id →
        ∃ s', crawl full query .children fuel n s = some (s', .ok ()) ∧ s'.log = s.log ++ suffix.map fun c => collRequest query id .children c.1 := by
    intro n suffix h
    induction h with
    | @last n pg h1 h2 =>
      intro hn fuel s hfu hid
      obtain ⟨f, rfl⟩ : ∃ f, fuel = f + 1 := ⟨fuel - 1, by simp at hfu; omega⟩
      subst hid
      have := (hab { s with log := s.log ++ [collRequest query s.id .children n] } n pg).2
      rw [crawl, if_neg hn]
      rcases h2 with h2 | h2 <;> simp only [h1, h2] <;> exact ⟨_, rfl, this⟩
    | @step n pg link p rest h1 h2 h3 h4 h5 ih =>
      intro hn fuel s hfu hid
      obtain ⟨f, rfl⟩ : ∃ f, fuel = f + 1 := ⟨fuel - 1, by simp at hfu; omega⟩
      subst hid
      have hh := hab { s with log := s.log ++ [collRequest query s.id .children n] } n pg
      obtain ⟨s', e, hl⟩ := ih h4 f _ (by simpa using hfu) hh.1
      rw [crawl, if_neg hn]
      simp only [h1, h2, (regexPage_iff _ _).mpr h3]
      exact ⟨s', e, by rw [hl, hh.2]; simp⟩
  rw [hp]
  obtain ⟨s', e, hl⟩ := hcrawl hc (by decide) fuel
    (⟨id, size, updateKeys [] (updateKeys [] first.members), [], true, true, false, false, metadataParsed, none, none, []⟩ : RemoteColl γ) hfu rfl
  refine ⟨s', .dict s'.kids, ?_, by simpa using hl⟩
  simp only [RemoteColl.read, RemoteColl.touchKids, hsize, ne_eq, not_false_eq_true, if_true, runProxy, parsePaginated, Bool.false_eq_true, if_false, e]

/-- Departure: a next page without a number in its address raises `IndexError`, and what the page itself held is kept but not given. -/
theorem C60_fails_link (serve : List (Str × List Str) → Except PyErr (CollPage γ)) (query : List (Str × List Str)) (id : Str) (size : Nat) (hsize : size ≠ 0)
    (metadataParsed : Bool) (first page : CollPage γ) (hview : first.view ≠ none) (link : Str) (hl : page.view = some (some link))
    (hn : ∀ p, ¬ NamesPage link p) (hs : serve (collRequest query id .children 1) = .ok page) (fuel : Nat) :
    ∃ s, (parseColl id size metadataParsed first).read serve query (fuel + 1) .iterKids = some (s, .error .indexError) ∧
      s.log = [collRequest query id .children 1] := by
  have hp : parseColl id size metadataParsed first =
      (⟨id, size, updateKeys [] (updateKeys [] first.members), [], true, true, false, false, metadataParsed, none, none, []⟩ : RemoteColl γ) := by
    simp only [parseColl, RemoteColl.memberFlags, hsize, and_false, or_false]
    by_cases hm : first.members ≠ []
    · simp [hm, hview, RemoteColl.touchKids, hsize]
    · simp [hm, RemoteColl.touchKids, hsize]
  have hab : ∀ (s : RemoteColl γ) (page : Nat) (data : CollPage γ), (s.absorb .children page data).log = s.log := by
    intro s page data
    simp only [RemoteColl.absorb, RemoteColl.memberFlags, RemoteColl.touchKids]
    repeat' split
    all_goals rfl
  have hr : regexPage link = none := by
    cases e : regexPage link with
    | none => rfl
    | some p => exact absurd ((regexPage_iff _ _).1 e) (hn p)
  rw [hp]
  simp only [RemoteColl.read, RemoteColl.touchKids, hsize, ne_eq, not_false_eq_true, if_true, runProxy, parsePaginated, Bool.false_eq_true, if_false,
    crawl, Nat.one_ne_zero, hs, hl, hr]
  exact ⟨_, rfl, hab _ _ _⟩

example : ∃ s, (parseColl (γ := Str) "c".toList 4 true ⟨[], some none⟩).read (fun _ => .ok ⟨[], some (some "?page=".toList)⟩) [] 7 .iterKids = some (s, .error .indexError) := by
  obtain ⟨s, h, _⟩ := C60_fails_link (fun _ => .ok ⟨[], some (some "?page=".toList)⟩) [] "c".toList 4 (by decide) true ⟨[], some none⟩
    ⟨[], some (some "?page=".toList)⟩ (by simp) "?page=".toList rfl
    (fun p h => by have := (regexPage_iff _ _).2 h; rw [show regexPage "?page=".toList = none by decide +kernel] at this; cases this) rfl 6
  exact ⟨s, h⟩

/-- C60. The request of a page: the identifier, the direction when it is `parents`, and the number of the page when it is
not the first. Parameters of the route itself win. -/
theorem C60_request (query : List (Str × List Str)) (hq : (query.map (·.1)).Nodup) (id : Str) (dir : Dir) (n : Nat) (k : Str) (vs : List Str) :
    (k, vs) ∈ collRequest query id dir n ↔ (k, vs) ∈ query ∨ ((∀ ws, (k, ws) ∉ query) ∧
      ((k = "id".toList ∧ vs = [id]) ∨ (k = "nav".toList ∧ dir = .parents ∧ vs = ["parents".toList]) ∨
       (k = "page".toList ∧ 1 < n ∧ vs = [natStr n]))) := by
  rw [collRequest, C58_collection query hq]
  refine or_congr Iff.rfl (and_congr Iff.rfl (or_congr ?_ (or_congr ?_ ?_)))
  · refine and_congr Iff.rfl ?_
    constructor
    · rintro ⟨i, h, rfl⟩; cases h; rfl
    · rintro rfl; exact ⟨_, rfl, rfl⟩
  · refine and_congr Iff.rfl ?_
    cases dir with
    | children => simp [Dir.name, children]
    | parents => simp [Dir.name]
  · refine and_congr Iff.rfl ?_
    by_cases h : 1 < n
    · have : (Val.int (n : Int)).text = natStr n := by
        rw [Val.text, intStr, if_neg (by omega)]; rfl
      simp only [h, if_true, this, true_and]
      constructor
      · rintro ⟨_, _, h⟩; exact h
      · intro h'; exact ⟨by simp, by simp; omega, h'⟩
    · simp [h]

/-! ### A concrete case: three pages of children, one of parents -/

/-- An endpoint with three pages of children, the last repeating a member, and a page of parents. -/
private def demoServe (r : List (Str × List Str)) : Except PyErr (CollPage Str) :=
  if r = collRequest [] "c".toList .children 1 then .ok ⟨[("a".toList, "A".toList), ("b".toList, "B".toList)], some (some "?page=2".toList)⟩
  else if r = collRequest [] "c".toList .children 2 then .ok ⟨[("d".toList, "D".toList)], some (some "?x&page=12".toList)⟩
  else if r = collRequest [] "c".toList .children 12 then .ok ⟨[("a".toList, "AA".toList), ("e".toList, "E".toList)], some none⟩
  else if r = collRequest [] "c".toList .parents 1 then .ok ⟨[("p".toList, "P".toList)], none⟩
  else .error .valueError

private def demoFirst : CollPage Str := ⟨[("a".toList, "A".toList), ("b".toList, "B".toList)], some (some "?page=2".toList)⟩

private def demoChain : List (Nat × CollPage Str) :=
  [(1, demoFirst), (2, ⟨[("d".toList, "D".toList)], some (some "?x&page=12".toList)⟩),
   (12, ⟨[("a".toList, "AA".toList), ("e".toList, "E".toList)], some none⟩)]

private theorem demo_chain : CollChain (fun n => demoServe (collRequest [] "c".toList .children n)) 1 demoChain := by
  have n1 : NamesPage "?page=2".toList ['2'] := (regexPage_iff _ _).mp (by decide +kernel)
  have n2 : NamesPage "?x&page=12".toList ['1', '2'] := (regexPage_iff _ _).mp (by decide +kernel)
  refine .step (p := ['2']) (by decide +kernel) rfl n1 (by decide +kernel) ?_
  refine .step (p := ['1', '2']) (by decide +kernel) rfl n2 (by decide +kernel) ?_
  exact .last (by decide +kernel) (Or.inr rfl)

private theorem demo_faithful : Faithful (fun r => if r = collRequest [] "c".toList .children 12 then .error .valueError else demoServe r) demoServe := by
  intro r pg h
  simp only at h
  split at h
  · cases h
  · exact h

/-- The hypotheses are met after a failure half way, and the dictionary is then the complete one. -/
example : ∃ s, afterReads [] 3 (parseColl "c".toList 4 true demoFirst)
      [(fun r => if r = collRequest [] "c".toList .children 12 then .error .valueError else demoServe r, .iterKids)] = some s ∧
      (∃ s' d, s.read demoServe [] 3 .iterKids = some (s', .ok (.dict d))) := by
  obtain ⟨s, h1, _, h2, _⟩ := C60_children demoServe [] "c".toList 4 (by decide) true demoFirst demoChain demo_chain rfl 3 (by decide)
    [(fun r => if r = collRequest [] "c".toList .children 12 then .error .valueError else demoServe r, .iterKids)]
    (by intro h hm; simp only [List.mem_singleton] at hm; subst hm; exact ⟨demo_faithful, by simp⟩)
  exact ⟨s, h1, h2⟩

example : ((parseColl "c".toList 4 true demoFirst).read demoServe [] 3 .iterKids).map (·.2) =
    some (.ok (.dict [("a".toList, "AA".toList), ("b".toList, "B".toList), ("d".toList, "D".toList), ("e".toList, "E".toList)])) := by decide +kernel

/-- The parents are one page; after them the children are those of the first page. -/
example : ((parseColl "c".toList 4 true demoFirst).read demoServe [] 3 .iterFolks).map (·.2) = some (.ok (.ids ["p".toList])) ∧
    (((parseColl "c".toList 4 true demoFirst).read demoServe [] 3 .iterFolks).bind fun x => (x.1.read demoServe [] 3 .iterKids).map (·.2)) =
      some (.ok (.dict [("a".toList, "A".toList), ("b".toList, "B".toList)])) := by decide +kernel

example : CollChain (fun n => demoServe (collRequest [] "c".toList .parents n)) 1 [(1, ⟨[("p".toList, "P".toList)], none⟩)] :=
  .last (by decide +kernel) (Or.inl rfl)

/-- A member found on no page, one of the first page without any request, and one of the last. -/
example : ((parseColl "c".toList 4 true demoFirst).read demoServe [] 3 (.getKid "z".toList)).map (·.2) = some (.error .keyError) := by decide +kernel
example : ((parseColl "c".toList 4 true demoFirst).read demoServe [] 3 (.getKid "b".toList)).map (·.2) = some (.ok (.item "B".toList)) := by decide +kernel
example : ((parseColl "c".toList 4 true demoFirst).read demoServe [] 3 (.getKid "b".toList)).map (·.1.log) = some [] := by decide +kernel
example : ((parseColl "c".toList 4 true demoFirst).read demoServe [] 3 (.getKid "e".toList)).map (·.2) = some (.ok (.item "E".toList)) := by decide +kernel

end Verif.Props
