import Verif.Spec.Serving
import Verif.Lemmas.RemoteText
import Verif.Lemmas.RemotePassage
import Verif.Lemmas.Siblings
import Verif.Props.RemoteText
/-!
Lemmas for endpoints that serve a document (C97).
-/
namespace Verif.Lemmas
open Verif.Py Verif.Model Verif.Spec Verif.Props

/-! ### Where elements stand -/

mutual
theorem elementsAt_eq (a b : Str) (anc : List Str) : ∀ n : Node, elementsAt a b anc n =
    (situatedAll (n.tag :: anc) n.kids).filter fun p => p.2.tag = b ∧ p.1.head? = some a
  | .mk t at' x ks l => by rw [elementsAt]; exact elementsAtList_eq a b t anc ks
theorem elementsAtList_eq (a b t : Str) (anc : List Str) : ∀ ks : List Node, elementsAtList a b t (t :: anc) ks =
    (situatedAll (t :: anc) ks).filter fun p => p.2.tag = b ∧ p.1.head? = some a
  | [] => rfl
  | c :: r => by
    rw [elementsAtList, situatedAll, List.filter_append, elementsAtList_eq a b t anc r, elementsAt_eq a b (t :: anc) c]
    congr 1
    rw [situated_eq, List.filter_cons]
    by_cases h : t = a ∧ c.tag = b
    · obtain ⟨rfl, rfl⟩ := h
      simp
    · have : ¬ (c.tag = b ∧ t = a) := fun h' => h ⟨h'.2, h'.1⟩
      simp [h, this]
end

theorem elementsAt_tei (doc : Node) : elementsAt "ti:passage".toList "tei:TEI".toList [] doc = teiIn doc := by
  rw [elementsAt_eq, teiIn, situated_eq, List.filter_cons, if_neg (by simp)]

theorem hasText_tei (doc : Node) : (replyOf doc).hasText = !(teiIn doc).isEmpty := by
  rw [C84_reply]
  simp only [within, teiIn]
  rw [List.isEmpty_map]

theorem announced_eq (doc : Node) : (replyOf doc).prevNext = announcedIn doc := by rw [C84_reply]; rfl

/-! ### Exclusion -/

mutual
theorem textNodes_around (x : List Str) : ∀ (n : Node) (around : List Str),
    n.textNodes (around ++ x) = (n.textNodes around).map fun p => (p.1 ++ x, p.2)
  | .mk t a s ks l, around => by
    rw [Node.textNodes, Node.textNodes, List.map_append, ← List.cons_append, textNodesAll_around x ks (t :: around)]
    congr 1
    unfold textNode
    split <;> rfl
theorem textNodesAll_around (x : List Str) : ∀ (ks : List Node) (around : List Str),
    textNodesAll (around ++ x) ks = (textNodesAll around ks).map fun p => (p.1 ++ x, p.2)
  | [], _ => rfl
  | c :: r, around => by
    rw [textNodesAll, textNodesAll, List.map_append, List.map_append, textNodes_around x c around, textNodesAll_around x r around]
    congr 2
    unfold textNode
    split <;> rfl
end

mutual
theorem textNodes_ne : ∀ (n : Node) (around : List Str), ∀ p ∈ n.textNodes around, p.1 ≠ []
  | .mk t a s ks l, around => by
    intro p hp
    rw [Node.textNodes, List.mem_append] at hp
    rcases hp with hp | hp
    · unfold textNode at hp
      split at hp
      · cases hp
      · rw [List.mem_singleton] at hp; subst hp; simp
    · exact textNodesAll_ne ks (t :: around) (by simp) p hp
theorem textNodesAll_ne : ∀ (ks : List Node) (around : List Str), around ≠ [] → ∀ p ∈ textNodesAll around ks, p.1 ≠ []
  | [], _, _ => by simp [textNodesAll]
  | c :: r, around, h => by
    intro p hp
    rw [textNodesAll, List.mem_append, List.mem_append] at hp
    rcases hp with (hp | hp) | hp
    · exact textNodes_ne c around p hp
    · unfold textNode at hp
      split at hp
      · cases hp
      · rw [List.mem_singleton] at hp; subst hp; exact h
    · exact textNodesAll_ne r around h p hp
end

theorem keepsText_around {ex env : List Str} (h : ∀ e ∈ ex, e ∉ env) {p : List Str × Str} (hp : p.1 ≠ []) :
    keepsText ex (p.1 ++ env, p.2) = keepsText ex p := by
  unfold keepsText
  rw [Bool.eq_iff_iff, List.all_eq_true, List.all_eq_true]
  refine forall_congr' fun e => forall_congr' fun he => ?_
  simp only [List.any_append, Bool.not_or, Bool.and_eq_true]
  refine ⟨And.left, fun h1 => ⟨h1, ?_⟩⟩
  have h0 : (env.any fun t => e == t) = false := by
    rw [List.any_eq_false]
    intro t ht
    simp only [beq_iff_eq]
    rintro rfl
    exact h e he ht
  have h2 : e ≠ ['*'] := by
    rintro rfl
    obtain ⟨a, l, e'⟩ := List.exists_cons_of_ne_nil hp
    rw [e'] at h1
    simp at h1
  simp only [beq_eq_false_iff_ne.2 h2, Bool.false_or, h0]
  rfl

/-- Elements around an element do not change its plain text when none of them is excluded. -/
theorem plainText_around {ex env : List Str} (h : ∀ e ∈ ex, e ∉ env) (sep : Str) (n : Node) :
    plainText sep env ex n = plainText sep [] ex n := by
  unfold plainText
  have e := textNodes_around env n []
  rw [List.nil_append] at e
  rw [e, List.filter_map, List.map_map]
  congr 2
  have : (n.textNodes []).filter (keepsText ex ∘ fun p => (p.1 ++ env, p.2)) = (n.textNodes []).filter (keepsText ex) := by
    refine List.filter_congr fun p hp => ?_
    exact keepsText_around h (textNodes_ne n [] p hp)
  rw [this]
  rfl

theorem plainText_same {x y : Node} (h : SameElement x y) (sep : Str) (around ex : List Str) :
    plainText sep around ex x = plainText sep around ex y := by
  obtain ⟨h1, h2, h3, h4⟩ := h
  cases x; cases y
  simp only [Node.tag, Node.attrs, Node.text, Node.kids] at h1 h2 h3 h4
  subst h1; subst h2; subst h3; subst h4
  rfl

/-! ### Reading replies -/

theorem readable_not_elsewhere {doc x : Node} {rest : List Node} (hx : named "ti:request" doc = x :: rest)
    (h : (∀ e ∈ elements doc, e.tag ≠ "ti:citation".toList) ∨ ∃ e ∈ below x, e.tag = "ti:citation".toList) (c : List CiteLevel) :
    ¬ SchemeElsewhere doc x c := by
  rintro ⟨_, ⟨e, he, ht⟩, hn⟩
  rcases h with h | ⟨e', he', ht'⟩
  · exact h e he ht
  · exact hn e' he' ht'

mutual
theorem below_trans : ∀ (n x e : Node), x ∈ elements n → e ∈ below x → e ∈ below n
  | .mk t a s ks l, x, e => by
    intro hx he
    rw [elements, List.mem_cons] at hx
    rcases hx with rfl | hx
    · exact he
    · rw [below] at hx ⊢
      exact belowAll_trans ks x e hx he
theorem belowAll_trans : ∀ (ks : List Node) (x e : Node), x ∈ belowAll ks → e ∈ below x → e ∈ belowAll ks
  | [], x, e => by intro hx; simp [belowAll] at hx
  | c :: r, x, e => by
    intro hx he
    rw [belowAll, List.mem_cons, List.mem_append] at hx ⊢
    rcases hx with rfl | hx | hx
    · exact .inr (.inl he)
    · exact .inr (.inl (below_trans c x e (by rw [elements]; exact List.mem_cons_of_mem _ hx) he))
    · exact .inr (.inr (belowAll_trans r x e hx he))
end

theorem readable_whole {doc : Node} (h : Readable doc) : ¬ SchemeElsewhere doc doc [] := by
  obtain ⟨x, rest, hx, h⟩ := h
  rintro ⟨_, ⟨e, he, ht⟩, hn⟩
  rcases h with h | ⟨e', he', ht'⟩
  · exact h e he ht
  · refine hn e' (below_trans doc x e' ?_ he') ht'
    have : x ∈ named "ti:request" doc := by rw [hx]; simp
    exact (List.mem_filter.1 this).1

/-- What a passage is that was made of a reply. -/
structure MadeOf (p : OpenedPassage) (u : Urn) (doc : Node) (env : List Str) (tree : Node) (fresh : Term) (log : List (List (Str × Str))) : Prop where
  urn : p.nav.urn = u
  prev : p.nav.prev = (readPrevNext (replyOf doc)).1
  next : p.nav.next = (readPrevNext (replyOf doc)).2
  first : p.nav.first = none
  last : p.nav.last = none
  kids : p.nav.kids = none
  log : p.nav.log = log
  around : ∀ a ∈ p.around, a ∈ env
  element : SameElement p.element tree
  node : p.obj.node = fresh
  scheme : Adopts doc doc [] p.obj.cite

theorem openWhole_made_of {urn : Str} {u : Urn} (hu : Urn.parse urn = .ok u) {doc : Node} (hr : ¬ SchemeElsewhere doc doc []) {env : List Str} {tree : Node}
    (hg : GivesText doc env tree) (fresh : Term) (log : List (List (Str × Str))) :
    ∃ p, openWhole urn doc fresh log = .ok p ∧ MadeOf p u doc env tree fresh log := by
  obtain ⟨around, x, rest, h1, h2, h3⟩ := hg
  have ht : (replyOf doc).hasText = true := by rw [hasText_tei, h1]; rfl
  have hp : openPassage urn (replyOf doc) log =
      .ok ⟨u, (readPrevNext (replyOf doc)).1, (readPrevNext (replyOf doc)).2, none, none, none, log⟩ := by
    rw [openPassage, hu]; simp only [ht, if_true]
  have hat : elementsAt ['t', 'i', ':', 'p', 'a', 's', 's', 'a', 'g', 'e'] ['t', 'e', 'i', ':', 'T', 'E', 'I'] [] doc = (around, x) :: rest :=
    (elementsAt_tei doc).trans h1
  rcases (openRemote_spec urn doc fresh log).2 _ hp with ⟨c, e, hc⟩ | ⟨_, hc⟩
  · exact ⟨⟨⟨u, (readPrevNext (replyOf doc)).1, (readPrevNext (replyOf doc)).2, none, none, none, log⟩, ⟨fresh, c⟩, around, x⟩,
      by rw [openWhole, hat]; simp only [e], ⟨rfl, rfl, rfl, rfl, rfl, rfl, rfl, h2, h3, rfl, hc⟩⟩
  · exact absurd hc hr

theorem openWhole_made {urn : Str} {u : Urn} (hu : Urn.parse urn = .ok u) {doc : Node} (hr : Readable doc) {env : List Str} {tree : Node}
    (hg : GivesText doc env tree) (fresh : Term) (log : List (List (Str × Str))) :
    ∃ p, openWhole urn doc fresh log = .ok p ∧ MadeOf p u doc env tree fresh log :=
  openWhole_made_of hu (readable_whole hr) hg fresh log

theorem take_readable {doc : Node} (hr : Readable doc) (s : RemoteText) :
    ∃ s', s.take doc (doc.allNodes.filter fun c => c.tag = ['t', 'i', ':', 'r', 'e', 'q', 'u', 'e', 's', 't']) = (s', .ok ()) ∧
      s'.urn = s.urn ∧ s'.log = s.log ∧ s'.obj.node = s.obj.node := by
  obtain ⟨x, rest, hx, h⟩ := hr
  have hq : (doc.allNodes.filter fun c => c.tag = ['t', 'i', ':', 'r', 'e', 'q', 'u', 'e', 's', 't']) = x :: rest :=
    (filter_named "ti:request" doc).trans hx
  rw [hq]
  obtain ⟨h1, h2, h3, _, h5⟩ := take_reads s doc x rest
  rcases h5 with ⟨e, _⟩ | ⟨_, e, _⟩
  · exact ⟨_, Prod.ext rfl e, h1, h2, h3⟩
  · exact absurd e (readable_not_elsewhere hx h _)

theorem getNode_made {serve : DocEndpoint} {d : Option Str} {arg : NodeArg} {s : RemoteText} {urn : Str} (ha : nodeUrnOf s.urn arg = .ok urn)
    {u : Urn} (hu : Urn.parse urn = .ok u) {doc : Node} (hd : serve (ctsPassage d urn none none) = .ok doc) (hr : Readable doc) {env : List Str}
    {tree : Node} (hg : GivesText doc env tree) (fresh : Term) :
    ∃ s' p, s.getNode serve d arg fresh = (s', .ok p) ∧ s'.urn = s.urn ∧ s'.log = s.log ++ [ctsPassage d urn none none] ∧ s'.obj.node = s.obj.node ∧
      MadeOf p u doc env tree fresh (s.log ++ [ctsPassage d urn none none]) := by
  obtain ⟨s', e, h1, h2, h3⟩ := take_readable hr { s with log := s.log ++ [ctsPassage d urn none none] }
  obtain ⟨p, e2, hp⟩ := openWhole_made hu hr hg fresh (s.log ++ [ctsPassage d urn none none])
  refine ⟨s', p, ?_, h1, h2, h3, hp⟩
  simp only [RemoteText.getNode, ha, hd, e, h2, e2]

theorem getValidReff_readable {serve : DocEndpoint} {d : Option Str} {s : RemoteText} {u : Str} {w : Urn} (hu : s.urn.str = .ok (u, w))
    {level : Nat} {sub : Option Str} (hsub : sub ≠ some []) {doc : Node}
    (hd : serve (ctsValidReff d (wholeOr u sub) none (some (level : Int))) = .ok doc) (hr : Readable doc) :
    ∃ s', s.getValidReff serve d level sub = (s', .ok (listed doc)) ∧ s'.urn = s.urn ∧ s'.obj.node = s.obj.node ∧
      s'.log = s.log ++ [ctsValidReff d (wholeOr u sub) none (some (level : Int))] := by
  have hw : withPassage u sub = wholeOr u sub := withPassage_eq u fun r hr e => hsub (by rw [e] at hr; exact hr)
  have hl : reffLevel (citeLen s.obj.cite) level = level := by rw [reffLevel, if_neg (by omega)]
  obtain ⟨s', e, h1, h2, h3⟩ := take_readable hr { s with log := s.log ++ [ctsValidReff d (wholeOr u sub) none (some (level : Int))] }
  refine ⟨s', ?_, h1, h3, h2⟩
  simp only [RemoteText.getValidReff, hu, hw, hl, hd, e, replyOf_urns]

theorem afterColon_urn {text r : Str} (hr : ':' ∉ r) : afterColon (text ++ ':' :: r) = r :=
  afterLastColon_unique (afterColon_spec _) ⟨hr, .inr ⟨text, rfl⟩⟩

end Verif.Lemmas
