import Verif.Spec.RemoteText
import Verif.Lemmas.RemotePassage
import Verif.Lemmas.DtsJson
import Verif.Props.CtsMetadata
/-!
Lemmas about replies of CTS endpoints, labels and schemes of remote texts (C84).
-/
namespace Verif.Lemmas
open Verif.Py Verif.Model Verif.Spec Verif.Props

mutual
theorem below_eq : ∀ n : Node, allNodesList n.kids = below n
  | .mk t a x ks l => by rw [below, ← belowAll_eq ks]; rfl
theorem belowAll_eq : ∀ ks : List Node, allNodesList ks = belowAll ks
  | [] => rfl
  | c :: r => by
    rw [allNodesList, belowAll, belowAll_eq r, ← List.cons_append, ← below_eq c]
    cases c
    rw [Node.allNodes]
    rfl
end

theorem allNodes_elements (n : Node) : n.allNodes = elements n := by
  cases n with
  | mk t a x ks l => rw [Node.allNodes, elements, below, ← belowAll_eq]

theorem descNamed_eq (tag : Str) (n : Node) : descNamed tag n = (below n).filter fun c => c.tag = tag := by
  rw [descNamed, below_eq]

theorem situated_eq (anc : List Str) (c : Node) : situated anc c = (anc, c) :: situatedAll (c.tag :: anc) c.kids := by
  cases c; rw [situated]; rfl

mutual
theorem elementsIn_eq (a b : Str) (anc : List Str) : ∀ n : Node, elementsIn a b n =
    ((situatedAll (n.tag :: anc) n.kids).filter fun p => p.2.tag = b ∧ p.1.head? = some a).map (·.2)
  | .mk t at' x ks l => by rw [elementsIn]; exact elementsInList_eq a b t anc ks
theorem elementsInList_eq (a b t : Str) (anc : List Str) : ∀ ks : List Node, elementsInList a b t ks =
    ((situatedAll (t :: anc) ks).filter fun p => p.2.tag = b ∧ p.1.head? = some a).map (·.2)
  | [] => rfl
  | c :: r => by
    rw [elementsInList, situatedAll, List.filter_append, List.map_append, elementsInList_eq a b t anc r, elementsIn_eq a b (t :: anc) c]
    congr 1
    rw [situated_eq, List.filter_cons]
    by_cases h : c.tag = b ∧ t = a
    · rw [if_pos h.symm, if_pos (decide_eq_true ⟨h.1, congrArg some h.2⟩)]; rfl
    · rw [if_neg (fun e => h e.symm), if_neg (fun e => h ⟨(of_decide_eq_true e).1, Option.some.inj (of_decide_eq_true e).2⟩)]; rfl
end

mutual
theorem elementsUnder_eq (a b : Str) (inside : Bool) (anc : List Str) (h : inside = true ↔ a ∈ anc) : ∀ n : Node, elementsUnder a b inside n =
    ((situatedAll (n.tag :: anc) n.kids).filter fun p => p.2.tag = b ∧ a ∈ p.1).map (·.2)
  | .mk t at' x ks l => by
    rw [elementsUnder]
    refine elementsUnderList_eq a b _ (t :: anc) ?_ ks
    rw [Bool.or_eq_true, h, decide_eq_true_eq, List.mem_cons, or_comm, eq_comm]
theorem elementsUnderList_eq (a b : Str) (inside : Bool) (anc : List Str) (h : inside = true ↔ a ∈ anc) : ∀ ks : List Node,
    elementsUnderList a b inside ks = ((situatedAll anc ks).filter fun p => p.2.tag = b ∧ a ∈ p.1).map (·.2)
  | [] => rfl
  | c :: r => by
    rw [elementsUnderList, situatedAll, List.filter_append, List.map_append, elementsUnderList_eq a b inside anc h r, elementsUnder_eq a b inside anc h c]
    congr 1
    rw [situated_eq, List.filter_cons]
    by_cases hc : c.tag = b ∧ a ∈ anc
    · rw [if_pos ⟨h.2 hc.2, hc.1⟩, if_pos (decide_eq_true hc)]; rfl
    · rw [if_neg (fun e => hc ⟨e.2, h.1 e.1⟩), if_neg (fun e => hc (of_decide_eq_true e))]; rfl
end

theorem within_eq (a b : String) (doc : Node) : elementsIn a.toList b.toList doc = within a b doc := by
  rw [elementsIn_eq _ _ [], within]
  rw [situated_eq, List.filter_cons, if_neg (by simp)]

theorem anywhereIn_eq (a b : String) (doc : Node) : elementsUnder a.toList b.toList false doc = anywhereIn a b doc := by
  rw [elementsUnder_eq _ _ false [] (by simp), anywhereIn]
  rw [situated_eq, List.filter_cons, if_neg (by simp)]

theorem textNodes_eq (n : Node) : textNodes n = directTexts n := rfl

theorem afterColon_spec (s : Str) : AfterLastColon s (afterColon s) := by
  have h : ∀ r : Str, ':' ∉ r.takeWhile (· ≠ ':') ∧ (r = r.takeWhile (· ≠ ':') ∨ ∃ a, r = r.takeWhile (· ≠ ':') ++ ':' :: a) := by
    intro r
    induction r with
    | nil => simp
    | cons c r ih =>
      rw [List.takeWhile_cons]
      by_cases hc : c = ':'
      · subst hc
        exact ⟨by simp, .inr ⟨r, by simp⟩⟩
      · rw [if_pos (by simpa using hc)]
        refine ⟨by rw [List.mem_cons, not_or]; exact ⟨fun e => hc e.symm, ih.1⟩, ?_⟩
        rcases ih.2 with e | ⟨a, e⟩
        · exact .inl (by rw [← e])
        · exact .inr ⟨a, by rw [List.cons_append, ← e]⟩
  obtain ⟨h1, h2⟩ := h s.reverse
  refine ⟨by rw [afterColon, List.mem_reverse]; exact h1, ?_⟩
  rcases h2 with e | ⟨a, e⟩
  · exact .inl (by rw [afterColon, ← e, List.reverse_reverse])
  · refine .inr ⟨a.reverse, ?_⟩
    have := congrArg List.reverse e
    rw [List.reverse_reverse, List.reverse_append, List.reverse_cons, List.append_assoc] at this
    exact this

theorem lastPart_after (s : Str) : lastPart s = afterColon s := afterLastColon_unique (lastPart_spec s) (afterColon_spec s)

theorem head_filter_none {α : Type} {p : α → Bool} {l : List α} : (l.filter p).head? = none ↔ ∀ x ∈ l, p x = false := by
  rw [List.head?_eq_none_iff, List.filter_eq_nil_iff]
  simp

theorem head_filter_some {α : Type} {p : α → Bool} {l : List α} {c : α} (h : (l.filter p).head? = some c) :
    ∃ pre post, l = pre ++ c :: post ∧ (∀ m ∈ pre, p m = false) ∧ p c = true := by
  rw [List.head?_filter] at h
  obtain ⟨h1, pre, post, h2, h3⟩ := List.find?_eq_some_iff_append.1 h
  exact ⟨pre, post, h2, fun m hm => by simpa using h3 m hm, h1⟩

mutual
theorem ingestFrom_declares : ∀ c : Node, DeclaresScheme c (ingestFrom c)
  | .mk t a x ks l => by
    rw [ingestFrom]
    rcases ingestFirst_declares ks with ⟨h, e⟩ | ⟨pre, k, post, h1, h2, h3, h4⟩
    · rw [e]; exact .last h
    · exact .next (c := .mk t a x ks l) h1 h2 h3 h4
theorem ingestFirst_declares : ∀ ks : List Node, ((∀ k ∈ ks, k.tag ≠ "ti:citation".toList) ∧ ingestFirst ks = []) ∨
    ∃ pre k post, ks = pre ++ k :: post ∧ (∀ m ∈ pre, m.tag ≠ "ti:citation".toList) ∧ k.tag = "ti:citation".toList ∧ DeclaresScheme k (ingestFirst ks)
  | [] => .inl ⟨by simp, rfl⟩
  | c :: r => by
    rw [ingestFirst]
    by_cases h : c.tag = ['t', 'i', ':', 'c', 'i', 't', 'a', 't', 'i', 'o', 'n']
    · rw [if_pos h]
      exact .inr ⟨[], c, r, rfl, by simp, h, ingestFrom_declares c⟩
    · rw [if_neg h]
      rcases ingestFirst_declares r with ⟨h1, e⟩ | ⟨pre, k, post, h1, h2, h3, h4⟩
      · refine .inl ⟨fun k hk => ?_, e⟩
        rcases List.mem_cons.1 hk with rfl | hk
        · exact h
        · exact h1 k hk
      · refine .inr ⟨c :: pre, k, post, by rw [h1]; rfl, fun m hm => ?_, h3, h4⟩
        rcases List.mem_cons.1 hm with rfl | hm
        · exact h
        · exact h2 m hm
end

theorem declares_unique {c : Node} {l m : List CiteLevel} (h : DeclaresScheme c l) (h' : DeclaresScheme c m) : l = m := by
  induction h generalizing m with
  | last hn =>
    cases h' with
    | last => rfl
    | next e _ ht _ => exact absurd ht (hn _ (by rw [e]; simp))
  | @next c pre k post ls e hp ht _ ih =>
    cases h' with
    | last hn => exact absurd ht (hn _ (by rw [e]; simp))
    | @next _ pre' k' post' ls' e' hp' ht' hd =>
      rw [e] at e'
      have : k = k' := by
        clear ih hd
        generalize "ti:citation".toList = tg at *
        have f : ∀ (p : List Node) (x : Node) (q : List Node), (∀ m ∈ p, m.tag ≠ tg) → x.tag = tg →
            (p ++ x :: q).find? (fun m => decide (m.tag = tg)) = some x := by
          intro p x q hp hx
          rw [List.find?_eq_some_iff_append]
          exact ⟨by simpa using hx, p, q, rfl, fun a ha => by simpa using hp a ha⟩
        have h1 := f pre k post hp ht
        rw [e', f pre' k' post' hp' ht'] at h1
        exact (Option.some.inj h1).symm
      subst this
      rw [ih hd]

theorem citeIsSet_iff (c : List CiteLevel) : citeIsSet c = true ↔ SchemeSet c := by
  unfold citeIsSet SchemeSet
  cases c with
  | nil => simp
  | cons l r =>
    simp only [List.head?_cons, Option.bind_some]
    constructor
    · intro h
      obtain ⟨x, hx⟩ := Option.isSome_iff_exists.1 h
      exact ⟨l, r, x, rfl, hx⟩
    · rintro ⟨l', r', x, e, hx⟩
      injection e with e1 e2
      subst e1
      rw [hx]; rfl

theorem hasCitation_iff (doc : Node) : hasCitation doc = true ↔ ∃ e ∈ elements doc, e.tag = "ti:citation".toList := by
  rw [hasCitation, allNodes_elements, List.any_eq_true]
  simp only [decide_eq_true_eq]
  rfl

theorem adoptScheme_spec (doc x : Node) (c : List CiteLevel) :
    (∃ c', adoptScheme doc x c = .ok c' ∧ Adopts doc x c c') ∨ (adoptScheme doc x c = .error .typeError ∧ SchemeElsewhere doc x c) := by
  rw [adoptScheme]
  by_cases h1 : citeIsSet c = true
  · rw [if_neg (by rw [h1]; simp)]
    exact .inl ⟨c, rfl, .inl ⟨(citeIsSet_iff c).1 h1, rfl⟩⟩
  · have hs : ¬ SchemeSet c := fun h => h1 ((citeIsSet_iff c).2 h)
    by_cases h2 : hasCitation doc = true
    · rw [if_pos ⟨by simpa using h1, h2⟩]
      have hc := (hasCitation_iff doc).1 h2
      rw [ingestBelow, descNamed_eq]
      cases hh : ((below x).filter fun c => decide (c.tag = ['t', 'i', ':', 'c', 'i', 't', 'a', 't', 'i', 'o', 'n'])).head? with
      | none =>
        refine .inr ⟨rfl, hs, hc, fun e he => ?_⟩
        have := head_filter_none.1 hh e he
        simpa using this
      | some k =>
        obtain ⟨pre, post, e1, e2, e3⟩ := head_filter_some hh
        exact .inl ⟨_, rfl, .inr (.inr ⟨hs, hc, pre, k, post, e1, fun m hm => by simpa using e2 m hm, by simpa using e3, ingestFrom_declares k⟩)⟩
    · rw [if_neg (fun e => h2 e.2)]
      exact .inl ⟨c, rfl, .inr (.inl ⟨hs, fun e he ht => h2 ((hasCitation_iff doc).2 ⟨e, he, ht⟩), rfl⟩)⟩

theorem mem_addLabels {node p q : Term} {es : List Node} {g : Graph} {t : Triple} :
    t ∈ es.foldl (addLabel node p q) g ↔ t ∈ g ∨ ∃ e ∈ es, t = ⟨node, p, .lit (labelText e) (some "eng".toList) none⟩ ∨
      t = ⟨node, q, .lit (labelText e) (some "eng".toList) none⟩ := by
  induction es generalizing g with
  | nil => simp
  | cons e r ih =>
    have hl : literalText e = labelText e := rfl
    have hg : requestLang e = "eng".toList := rfl
    rw [List.foldl_cons, ih, addLabel, metaAdd, mem_insert, metaAdd, mem_insert, toTerm, mkLiteral, hl, hg]
    simp only [List.mem_cons, exists_eq_or_imp, or_assoc]

theorem mem_requestMeta {g : Graph} {node : Term} {x : Node} {t : Triple} :
    t ∈ requestMeta g node x ↔ t ∈ g ∨ Tells x node t := by
  obtain ⟨k1, k2, k3, k4, k5, k6, k7, k8⟩ := cts_keys
  simp only [requestMeta, mem_addLabels, descNamed_eq, List.mem_filter, decide_eq_true_eq, Tells, labelTable, List.mem_cons,
    List.not_mem_nil, or_false, k1, k2, k3, k4, k5, k6, k7, k8, or_assoc]
  constructor
  · rintro (h | ⟨e, ⟨he, ht⟩, h⟩ | ⟨e, ⟨he, ht⟩, h⟩ | ⟨e, ⟨he, ht⟩, h⟩ | ⟨e, ⟨he, ht⟩, h⟩)
    · exact .inl h
    · exact .inr ⟨e, he, _, .inl rfl, ht, h⟩
    · exact .inr ⟨e, he, _, .inr (.inl rfl), ht, h⟩
    · exact .inr ⟨e, he, _, .inr (.inr (.inl rfl)), ht, h⟩
    · exact .inr ⟨e, he, _, .inr (.inr (.inr rfl)), ht, h⟩
  · rintro (h | ⟨e, he, row, rfl | rfl | rfl | rfl, ht, h⟩)
    · exact .inl h
    · exact .inr (.inl ⟨e, ⟨he, ht⟩, h⟩)
    · exact .inr (.inr (.inl ⟨e, ⟨he, ht⟩, h⟩))
    · exact .inr (.inr (.inr (.inl ⟨e, ⟨he, ht⟩, h⟩)))
    · exact .inr (.inr (.inr (.inr ⟨e, ⟨he, ht⟩, h⟩)))

theorem take_reads (s : RemoteText) (doc x : Node) (r : List Node) : ReadsLabel doc x s (s.take doc (x :: r)).1 (s.take doc (x :: r)).2 := by
  rw [RemoteText.take, parseRequest]
  rcases adoptScheme_spec doc x s.obj.cite with ⟨c', e, h⟩ | ⟨e, h⟩
  · rw [e]
    exact ⟨rfl, rfl, rfl, fun t => mem_requestMeta, .inl ⟨rfl, h⟩⟩
  · rw [e]
    exact ⟨rfl, rfl, rfl, fun t => mem_requestMeta, .inr ⟨rfl, h, rfl⟩⟩

theorem filter_named (name : String) (doc : Node) : (doc.allNodes.filter fun c => c.tag = name.toList) = named name doc := by
  rw [allNodes_elements, named]

theorem replyOf_urns (doc : Node) : (replyOf doc).urns.map lastPart = listed doc := by
  have h : (replyOf doc).urns = (elementsUnder "ti:reply".toList "ti:urn".toList false doc).flatMap textNodes := rfl
  rw [h, anywhereIn_eq, listed, funext lastPart_after]
  rfl

theorem replyOf_request (doc : Node) : (replyOf doc).hasRequest = !(named "ti:request" doc).isEmpty := by
  have h : (replyOf doc).hasRequest = doc.allNodes.any fun c => c.tag = "ti:request".toList := rfl
  rw [h, allNodes_elements, named]
  generalize "ti:request".toList = tg
  rw [Bool.eq_iff_iff]
  simp

end Verif.Lemmas
