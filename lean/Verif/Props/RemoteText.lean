import Verif.Lemmas.RemoteText
import Verif.Props.RemotePassage
/-!
C84: labels, citation schemes and references of remote texts.
-/
namespace Verif.Props
open Verif.Py Verif.Model Verif.Spec Verif.Lemmas

/-! ### Replies -/

/-- C84. What is read of a reply: whether it repeats the request, the neighbours in its first `ti:prevnext`, the URNs anywhere in
`ti:reply` and directly in it, each in document order, and whether `ti:passage` holds a text. -/
theorem C84_reply (doc : Node) : replyOf doc =
    { hasRequest := !(named "ti:request" doc).isEmpty,
      prevNext := (named "ti:prevnext" doc).head?.map fun p => (sideUrn "ti:prev" p, sideUrn "ti:next" p),
      urns := (anywhereIn "ti:reply" "ti:urn" doc).flatMap directTexts,
      topUrns := (within "ti:reply" "ti:urn" doc).flatMap directTexts,
      hasText := !(within "ti:passage" "tei:TEI" doc).isEmpty } := by
  rw [← replyOf_request, ← anywhereIn_eq, ← within_eq, ← within_eq, ← filter_named]
  rfl

/-! ### Labels -/

/-- C84. Reading a label says of the text, under the CTS property and the predicate of Dublin Core, what the label says of
groupname, title, label and description, in English, and changes nothing else in the graph, even when the scheme cannot be
read. -/
theorem C84_labels (doc x : Node) (g : Graph) (o : RemoteObject) (t : Triple) :
    t ∈ (parseRequest doc x g o).1 ↔ t ∈ g ∨ Tells x o.node t := mem_requestMeta

theorem labelTable_apart : ∀ a ∈ labelTable, ∀ b ∈ labelTable, a.2.1 ≠ b.2.2 ∧ (a.2.1 = b.2.1 → a = b) ∧ (a.2.2 = b.2.2 → a = b) := by
  decide +kernel

theorem told_values {g g' : Graph} {node : Term} {x : Node} (h : ∀ t, t ∈ g' ↔ t ∈ g ∨ Tells x node t) {row : String × Term × Term}
    (hr : row ∈ labelTable) {p : Term} (hp : p = row.2.1 ∨ p = row.2.2) (hn : ∀ o, (⟨node, p, o⟩ : Triple) ∉ g) (o : Term) :
    (⟨node, p, o⟩ : Triple) ∈ g' ↔ toldTexts x row.1 o := by
  rw [h]
  constructor
  · rintro (hm | ⟨e, he, row', hr', ht, hs⟩)
    · exact absurd hm (hn o)
    · have : row' = row ∧ o = .lit (labelText e) (some "eng".toList) none := by
        rcases hs with hs | hs <;> injection hs with _ e1 e2 <;> refine ⟨?_, e2⟩ <;> rcases hp with rfl | rfl
        · exact (((labelTable_apart row hr row' hr').2.1) e1).symm
        · exact absurd e1.symm (labelTable_apart row' hr' row hr).1
        · exact absurd e1 (labelTable_apart row hr row' hr').1
        · exact (((labelTable_apart row hr row' hr').2.2) e1).symm
      obtain ⟨rfl, e2⟩ := this
      exact ⟨e, he, ht, e2⟩
  · rintro ⟨e, he, ht, rfl⟩
    refine .inr ⟨e, he, row, hr, ht, ?_⟩
    rcases hp with rfl | rfl
    · exact .inl rfl
    · exact .inr rfl

theorem told_single (order : Order) (ho : Rearranges order) {g g' : Graph} {node : Term} {x : Node} (h : ∀ t, t ∈ g' ↔ t ∈ g ∨ Tells x node t)
    {row : String × Term × Term} (hr : row ∈ labelTable) {p : Term} (hp : p = row.2.1 ∨ p = row.2.2)
    (hn : ∀ o, (⟨node, p, o⟩ : Triple) ∉ g) (lang : Option Str) :
    ∃ r, metaGetSingle order g' node p lang = .ok r ∧ Answers (toldTexts x row.1) lang r := by
  have hv := told_values h hr hp hn
  obtain ⟨r, e1, e2⟩ := single_answers order ho g' node p lang fun o hm => by
    obtain ⟨e, _, _, rfl⟩ := (hv o).1 hm
    exact ⟨_, _, _, rfl⟩
  exact ⟨r, e1, answers_congr hv e2⟩

/-- C84. Afterwards a text of which nothing was known answers from the label: its creator is a groupname, its subject a label, its
description a description, and each CTS property the element of that name, `None` exactly when the label has none. -/
theorem C84_getters (order : Order) (ho : Rearranges order) (doc x : Node) (g : Graph) (o : RemoteObject) (lang : Option Str)
    (hn : ∀ p v, (⟨o.node, p, v⟩ : Triple) ∉ g) :
    let g' := (parseRequest doc x g o).1
    (∃ r, nodeCreator order g' o.node lang = .ok r ∧ Answers (toldTexts x "ti:groupname") lang r) ∧
    (∃ r, nodeSubject order g' o.node lang = .ok r ∧ Answers (toldTexts x "ti:label") lang r) ∧
    (∃ r, nodeDescription order g' o.node lang = .ok r ∧ Answers (toldTexts x "ti:description") lang r) ∧
    ∀ key ∈ ["groupname", "title", "label", "description"],
      ∃ r, nodeCtsMetadata order g' o.node key.toList lang = .ok r ∧ Answers (toldTexts x ("ti:" ++ key)) lang r := by
  obtain ⟨k1, k2, k3, k4, k5, k6, k7, k8⟩ := cts_keys
  have h := C84_labels doc x g o
  refine ⟨?_, ?_, ?_, ?_⟩
  · rw [nodeCreator, ← k5]
    exact told_single order ho h (row := ("ti:groupname", cts "groupname", dc "creator")) (by simp [labelTable]) (.inr rfl) (hn _) lang
  · rw [nodeSubject, ← k7]
    exact told_single order ho h (row := ("ti:label", cts "label", dc "subject")) (by simp [labelTable]) (.inr rfl) (hn _) lang
  · rw [nodeDescription, ← k8]
    exact told_single order ho h (row := ("ti:description", cts "description", dc "description")) (by simp [labelTable]) (.inr rfl) (hn _) lang
  · intro key hk
    have hc : ∀ s : String, ctsTerm s.toList = cts s := fun s => rfl
    rw [nodeCtsMetadata, hc]
    simp only [List.mem_cons, List.not_mem_nil, or_false] at hk
    rcases hk with rfl | rfl | rfl | rfl
    · exact told_single order ho h (row := ("ti:groupname", cts "groupname", dc "creator")) (by simp [labelTable]) (.inl rfl) (hn _) lang
    · exact told_single order ho h (row := ("ti:title", cts "title", dc "title")) (by simp [labelTable]) (.inl rfl) (hn _) lang
    · exact told_single order ho h (row := ("ti:label", cts "label", dc "subject")) (by simp [labelTable]) (.inl rfl) (hn _) lang
    · exact told_single order ho h (row := ("ti:description", cts "description", dc "description")) (by simp [labelTable]) (.inl rfl) (hn _) lang

theorem labelText_ne (e : Node) : labelText e ≠ [] := by
  rw [labelText]
  split
  · simp
  · assumption

/-- C84. And its title is a title of the label. -/
theorem C84_title (order : Order) (ho : Rearranges order) (doc x : Node) (g : Graph) (o : RemoteObject) (lang : Option Str)
    (hn : ∀ p v, (⟨o.node, p, v⟩ : Triple) ∉ g) :
    ∃ r, nodeTitle order (parseRequest doc x g o).1 o.node lang = .ok r ∧ Answers (toldTexts x "ti:title") lang r := by
  obtain ⟨k1, k2, k3, k4, k5, k6, k7, k8⟩ := cts_keys
  have h := C84_labels doc x g o
  obtain ⟨r, e1, e2⟩ := told_single order ho h (row := ("ti:title", cts "title", dc "title")) (by simp [labelTable]) (.inr rfl) (hn _) lang
  refine ⟨r, ?_, e2⟩
  rw [nodeTitle, ← k6]
  dsimp only at e1
  rw [e1]
  cases r with
  | some t =>
    obtain ⟨e, _, _, rfl⟩ := e2.1 t rfl
    have : (Term.lit (labelText e) (some "eng".toList) none).truthy = true := by
      simp only [Term.truthy, Term.str]
      cases hl : labelText e with
      | nil => exact absurd hl (labelText_ne e)
      | cons => rfl
    simp only [this, if_true]
  | none =>
    have hd : ∀ v, (⟨o.node, dctTitle, v⟩ : Triple) ∉ (parseRequest doc x g o).1 := by
      intro v hv
      rcases (h _).1 hv with hv | ⟨e, he, row, hr, ht, hs⟩
      · exact hn _ _ hv
      · have : ∀ row ∈ labelTable, dctTitle ≠ row.2.1 ∧ dctTitle ≠ row.2.2 := by decide +kernel
        rcases hs with hs | hs <;> injection hs with _ e1 _
        · exact (this row hr).1 e1
        · exact (this row hr).2 e1
    obtain ⟨r, e3, e4⟩ := single_answers order ho (parseRequest doc x g o).1 o.node dctTitle lang fun v hv => absurd hv (hd v)
    simp only [e3]
    rw [e4.2.2.2 hd]

/-! ### Schemes -/

theorem adopts_not_elsewhere {doc x : Node} {c c' : List CiteLevel} (h : Adopts doc x c c') : ¬ SchemeElsewhere doc x c := by
  rintro ⟨h1, ⟨e, he, ht⟩, h3⟩
  rcases h with ⟨h, _⟩ | ⟨_, h, _⟩ | ⟨_, _, pre, k, post, e1, _, e3, _⟩
  · exact h1 h
  · exact h e he ht
  · exact h3 k (by rw [e1]; simp) e3

/-- C84. The scheme after reading an element of a document: one that is set stays; otherwise the first `ti:citation` below the
element is adopted with all its levels; a document that declares none changes nothing; and a document that declares one, but
not below the element, makes reading fail with `TypeError`, and nothing else does. -/
theorem C84_scheme (doc x : Node) (g : Graph) (o : RemoteObject) :
    (∀ o', (parseRequest doc x g o).2 = .ok o' ↔ o'.node = o.node ∧ Adopts doc x o.cite o'.cite) ∧
    (∀ e, (parseRequest doc x g o).2 = .error e ↔ e = .typeError ∧ SchemeElsewhere doc x o.cite) := by
  have hu : ∀ {c c' : List CiteLevel}, Adopts doc x o.cite c → Adopts doc x o.cite c' → c = c' := by
    intro c c' h h'
    rcases h with ⟨a, e⟩ | ⟨a, b, e⟩ | ⟨a, ⟨m, hm, ht⟩, pre, k, post, e1, e2, e3, e4⟩ <;>
      rcases h' with ⟨a', e'⟩ | ⟨a', b', e'⟩ | ⟨a', ⟨m', hm', ht'⟩, pre', k', post', e1', e2', e3', e4'⟩
    · rw [e, e']
    · rw [e, e']
    · exact absurd a a'
    · rw [e, e']
    · rw [e, e']
    · exact absurd ht' (b m' hm')
    · exact absurd a' a
    · exact absurd ht (b' m hm)
    · have : k = k' := by
        clear e4 e4'
        have f : ∀ (tg : Str) (p : List Node) (x : Node) (q : List Node), (∀ m ∈ p, m.tag ≠ tg) → x.tag = tg →
            (p ++ x :: q).find? (fun m => decide (m.tag = tg)) = some x := by
          intro tg p x q hp hx
          rw [List.find?_eq_some_iff_append]
          exact ⟨by simpa using hx, p, q, rfl, fun a ha => by simpa using hp a ha⟩
        have h1 := f _ pre k post e2 e3
        rw [← e1, e1', f _ pre' k' post' e2' e3'] at h1
        exact (Option.some.inj h1).symm
      subst this
      exact declares_unique e4 e4'
  rw [parseRequest]
  rcases adoptScheme_spec doc x o.cite with ⟨c', e, h⟩ | ⟨e, h⟩
  · rw [e]
    refine ⟨fun o' => ⟨fun he => ?_, fun he => ?_⟩, fun e' => ⟨fun he => (by cases he), fun he => absurd he.2 (adopts_not_elsewhere h)⟩⟩
    · injection he with he
      subst he
      exact ⟨rfl, h⟩
    · have := hu he.2 h
      cases o' with
      | mk n c =>
        obtain ⟨h1, h2⟩ := he
        dsimp only at h1 this
        subst h1 this
        rfl
  · rw [e]
    refine ⟨fun o' => ⟨fun he => (by cases he), fun he => absurd h (adopts_not_elsewhere he.2)⟩, fun e' => ⟨fun he => ?_, fun he => ?_⟩⟩
    · injection he with he
      exact ⟨he.symm, h⟩
    · rw [he.1]

/-! ### Requests -/

/-- C84. `getLabel` asks for the label of the URN and reads the first label of the reply; without any it raises `IndexError`. -/
theorem C84_getLabel (serve : DocEndpoint) (d : Option Str) (s : RemoteText) (u : Str) (w : Urn) (hu : s.urn.str = .ok (u, w)) :
    let r := ctsLabel d u none
    (∀ e, serve r = .error e → s.getLabel serve d = (sent s r, .error e)) ∧
    (∀ doc, serve r = .ok doc → within "ti:reply" "ti:label" doc = [] → s.getLabel serve d = (sent s r, .error .indexError)) ∧
    (∀ doc x rest, serve r = .ok doc → within "ti:reply" "ti:label" doc = x :: rest →
      ReadsLabel doc x (sent s r) (s.getLabel serve d).1 (s.getLabel serve d).2) := by
  refine ⟨fun e he => ?_, fun doc hd hw => ?_, fun doc x rest hd hw => ?_⟩
  · simp only [RemoteText.getLabel, hu, he]; rfl
  · have hw' : elementsIn ['t', 'i', ':', 'r', 'e', 'p', 'l', 'y'] ['t', 'i', ':', 'l', 'a', 'b', 'e', 'l'] doc = [] := (within_eq "ti:reply" "ti:label" doc).trans hw
    simp only [RemoteText.getLabel, hu, hd, hw', RemoteText.take]; rfl
  · have hw' : elementsIn ['t', 'i', ':', 'r', 'e', 'p', 'l', 'y'] ['t', 'i', ':', 'l', 'a', 'b', 'e', 'l'] doc = x :: rest := (within_eq "ti:reply" "ti:label" doc).trans hw
    have := take_reads (sent s (ctsLabel d u none)) doc x rest
    simp only [RemoteText.getLabel, hu, hd, hw']
    exact this

/-- C84. `getValidReff` asks once, at the level given, or at the deepest one for `-1`, for the URN and the passage if there is one; it
reads the labels of the repeated request, and gives the references that the reply lists. -/
theorem C84_validReff (serve : DocEndpoint) (d : Option Str) (s : RemoteText) (u : Str) (w : Urn) (hu : s.urn.str = .ok (u, w))
    (level n : Int) (hn : n = if level = -1 then ((max 1 s.obj.cite.length : Nat) : Int) else level) (sub : Option Str) (hsub : sub ≠ some []) :
    let r := ctsValidReff d (wholeOr u sub) none (some n)
    (∀ e, serve r = .error e → s.getValidReff serve d level sub = (sent s r, .error e)) ∧
    (∀ doc, serve r = .ok doc → named "ti:request" doc = [] → s.getValidReff serve d level sub = (sent s r, .error .indexError)) ∧
    (∀ doc x rest, serve r = .ok doc → named "ti:request" doc = x :: rest →
      ∃ out, ReadsLabel doc x (sent s r) (s.getValidReff serve d level sub).1 out ∧
        (s.getValidReff serve d level sub).2 = (fun _ => listed doc) <$> out) := by
  have hl : reffLevel (citeLen s.obj.cite) level = n := by
    rw [hn, reffLevel, citeLen]
    by_cases h : level = -1
    · rw [if_pos h, if_pos h]
      cases s.obj.cite with
      | nil => rfl
      | cons a b =>
        rw [if_neg (by simp)]
        simp only [List.length_cons]
        omega
    · rw [if_neg h, if_neg h]
  have hw : withPassage u sub = wholeOr u sub := by
    cases sub with
    | none => rfl
    | some v =>
      cases v with
      | nil => exact absurd rfl hsub
      | cons => rfl
  refine ⟨fun e he => ?_, fun doc hd hq => ?_, fun doc x rest hd hq => ?_⟩
  · simp only [RemoteText.getValidReff, hu, hl, hw, he]; rfl
  · have hq' : (doc.allNodes.filter fun c => c.tag = ['t', 'i', ':', 'r', 'e', 'q', 'u', 'e', 's', 't']) = [] := (filter_named "ti:request" doc).trans hq
    simp only [RemoteText.getValidReff, hu, hl, hw, hd, hq', RemoteText.take]; rfl
  · have hq' : (doc.allNodes.filter fun c => c.tag = ['t', 'i', ':', 'r', 'e', 'q', 'u', 'e', 's', 't']) = x :: rest := (filter_named "ti:request" doc).trans hq
    have := take_reads (sent s (ctsValidReff d (wholeOr u sub) none (some n))) doc x rest
    refine ⟨((sent s (ctsValidReff d (wholeOr u sub) none (some n))).take doc (x :: rest)).2, ?_⟩
    simp only [RemoteText.getValidReff, hu, hl, hw, hd, hq', ← replyOf_urns]
    change ReadsLabel doc x _ (match (sent s (ctsValidReff d (wholeOr u sub) none (some n))).take doc (x :: rest) with
      | (s, .error e) => (s, Except.error e)
      | (s, .ok ()) => (s, Except.ok ((replyOf doc).urns.map lastPart))).1 _ ∧ (match (sent s (ctsValidReff d (wholeOr u sub) none (some n))).take doc (x :: rest) with
      | (s, .error e) => (s, Except.error e)
      | (s, .ok ()) => (s, Except.ok ((replyOf doc).urns.map lastPart))).2 = _
    revert this
    rcases (sent s (ctsValidReff d (wholeOr u sub) none (some n))).take doc (x :: rest) with ⟨s', e | ⟨⟩⟩
    · exact fun h => ⟨h, rfl⟩
    · exact fun h => ⟨h, rfl⟩

/-- The request for the references of a level. -/
def levelRequest (d : Option Str) (u : Str) (i : Nat) : List (Str × Str) := ctsValidReff d u none (some (i : Int))

theorem levelRequest_sent (d : Option Str) (u : Str) (i : Nat) (k v : Str) :
    (k, v) ∈ levelRequest d u i ↔ CtsSent d none "GetValidReff" (some u) (some ("level", (i : Int))) k v :=
  (C57_requests d none u k v).2.1 (some (i : Int))

theorem validReff_set (serve : DocEndpoint) (d : Option Str) (s : RemoteText) (u : Str) (w : Urn) (hu : s.urn.str = .ok (u, w))
    (hs : SchemeSet s.obj.cite) (i : Nat) (doc x : Node) (rest : List Node) (hd : serve (levelRequest d u i) = .ok doc)
    (hq : named "ti:request" doc = x :: rest) :
    ∃ s', s.getValidReff serve d i none = (s', .ok (listed doc)) ∧ s'.urn = s.urn ∧ s'.obj = s.obj ∧ s'.log = s.log ++ [levelRequest d u i] ∧
      ∀ t, t ∈ s'.graph ↔ t ∈ s.graph ∨ Tells x s.obj.node t := by
  have := (C84_validReff serve d s u w hu i i (by rw [if_neg (by omega)]) none (by simp)).2.2 doc x rest hd hq
  obtain ⟨out, ⟨h1, h2, h3, h4, h5⟩, h6⟩ := this
  rcases h5 with ⟨rfl, h5⟩ | ⟨_, h5, _⟩
  · refine ⟨(s.getValidReff serve d i none).1, Prod.ext rfl h6, h1, ?_, h2, h4⟩
    rcases h5 with ⟨_, e⟩ | ⟨h, _⟩ | ⟨h, _⟩
    · generalize (s.getValidReff serve d i none).1.obj = o at *
      cases o with
      | mk n c =>
        change c = s.obj.cite at e
        change n = s.obj.node at h3
        rw [e, h3]
    · exact absurd hs h
    · exact absurd hs h
  · exact absurd hs h5.1

theorem levels_set (serve : DocEndpoint) (d : Option Str) (u : Str) (w : Urn) (docs req : Nat → Node) (is : List Nat)
    (hdocs : ∀ i ∈ is, serve (levelRequest d u i) = .ok (docs i) ∧ ∃ rest, named "ti:request" (docs i) = req i :: rest) :
    ∀ s : RemoteText, s.urn.str = .ok (u, w) → SchemeSet s.obj.cite →
    ∃ s', s.levels serve d is = (s', .ok (is.flatMap fun i => listed (docs i))) ∧ s'.urn = s.urn ∧ s'.obj = s.obj ∧
      s'.log = s.log ++ is.map (levelRequest d u) ∧
      ∀ t, t ∈ s'.graph ↔ t ∈ s.graph ∨ ∃ i ∈ is, Tells (req i) s.obj.node t := by
  induction is with
  | nil => exact fun s _ _ => ⟨s, rfl, rfl, rfl, by simp, by simp⟩
  | cons i r ih =>
    intro s hu hs
    obtain ⟨h1, rest, h2⟩ := hdocs i (List.mem_cons_self ..)
    obtain ⟨s1, e1, a1, a2, a3, a4⟩ := validReff_set serve d s u w hu hs i (docs i) (req i) rest h1 h2
    obtain ⟨s2, e2, b1, b2, b3, b4⟩ := ih (fun j hj => hdocs j (List.mem_cons_of_mem _ hj)) s1 (by rw [a1]; exact hu) (by rw [a2]; exact hs)
    refine ⟨s2, by simp only [RemoteText.levels, e1, e2, List.flatMap_cons], by rw [b1, a1], by rw [b2, a2], by rw [b3, a3]; simp, fun t => ?_⟩
    rw [b4, a4, a2]
    simp only [List.mem_cons, exists_eq_or_imp, or_assoc]

theorem reffs_set {serve : DocEndpoint} {d : Option Str} {s : RemoteText} (hs : SchemeSet s.obj.cite) :
    s.reffs serve d = s.levels serve d ((List.range s.obj.cite.length).map (· + 1)) := by
  have : citeLen s.obj.cite = s.obj.cite.length := by
    obtain ⟨l, r, x, e, _⟩ := hs
    rw [citeLen, e, if_neg (by simp)]
  simp only [RemoteText.reffs, (citeIsSet_iff _).2 hs, if_true, this]

/-- C84. All the references of a text whose scheme is known: one request for each level, from the first to the last, and the
references that the replies list, in this order. The scheme stays, and the graph says of the text what the repeated requests
say. -/
theorem C84_reffs (serve : DocEndpoint) (d : Option Str) (s : RemoteText) (u : Str) (w : Urn) (hu : s.urn.str = .ok (u, w))
    (hs : SchemeSet s.obj.cite) (docs req : Nat → Node)
    (hdocs : ∀ i < s.obj.cite.length, serve (levelRequest d u (i + 1)) = .ok (docs (i + 1)) ∧
      ∃ rest, named "ti:request" (docs (i + 1)) = req (i + 1) :: rest) :
    (s.reffs serve d).2 = .ok ((List.range s.obj.cite.length).flatMap fun i => listed (docs (i + 1))) ∧
    (s.reffs serve d).1.log = s.log ++ (List.range s.obj.cite.length).map (fun i => levelRequest d u (i + 1)) ∧
    (s.reffs serve d).1.obj = s.obj ∧
    ∀ t, t ∈ (s.reffs serve d).1.graph ↔ t ∈ s.graph ∨ ∃ i < s.obj.cite.length, Tells (req (i + 1)) s.obj.node t := by
  rw [reffs_set hs]
  obtain ⟨s', e, h1, h2, h3, h4⟩ := levels_set serve d u w docs req ((List.range s.obj.cite.length).map (· + 1)) (by
    intro i hi
    obtain ⟨j, hj, rfl⟩ := List.mem_map.1 hi
    exact hdocs j (List.mem_range.1 hj)) s hu hs
  rw [e]
  refine ⟨by rw [List.flatMap_map], by rw [h3, List.map_map]; rfl, h2, fun t => ?_⟩
  rw [h4]
  constructor
  · rintro (h | ⟨i, hi, h⟩)
    · exact .inl h
    · obtain ⟨j, hj, rfl⟩ := List.mem_map.1 hi
      exact .inr ⟨j, List.mem_range.1 hj, h⟩
  · rintro (h | ⟨i, hi, h⟩)
    · exact .inl h
    · exact .inr ⟨i + 1, List.mem_map.2 ⟨i, List.mem_range.2 hi, rfl⟩, h⟩

/-- C84. A text without scheme first asks for its label, once; when this declares a scheme with refsDecl, the references follow as
above, for the levels that it declares. -/
theorem C84_reffs_unknown (serve : DocEndpoint) (d : Option Str) (s : RemoteText) (u : Str) (w : Urn) (hu : s.urn.str = .ok (u, w))
    (hs : ¬ SchemeSet s.obj.cite) (label x : Node) (rest : List Node) (hlabel : serve (ctsLabel d u none) = .ok label)
    (hx : within "ti:reply" "ti:label" label = x :: rest) (pre post : List Node) (c : Node) (hc : below x = pre ++ c :: post)
    (hpre : ∀ m ∈ pre, m.tag ≠ "ti:citation".toList) (htag : c.tag = "ti:citation".toList) (hin : ∃ e ∈ elements label, e.tag = "ti:citation".toList)
    (scheme : List CiteLevel) (hd : DeclaresScheme c scheme) (hset : SchemeSet scheme) (docs req : Nat → Node)
    (hdocs : ∀ i < scheme.length, serve (levelRequest d u (i + 1)) = .ok (docs (i + 1)) ∧
      ∃ rest, named "ti:request" (docs (i + 1)) = req (i + 1) :: rest) :
    (s.reffs serve d).2 = .ok ((List.range scheme.length).flatMap fun i => listed (docs (i + 1))) ∧
    (s.reffs serve d).1.log = s.log ++ ctsLabel d u none :: (List.range scheme.length).map (fun i => levelRequest d u (i + 1)) ∧
    (s.reffs serve d).1.obj = ⟨s.obj.node, scheme⟩ ∧
    ∀ t, t ∈ (s.reffs serve d).1.graph ↔ t ∈ s.graph ∨ Tells x s.obj.node t ∨ ∃ i < scheme.length, Tells (req (i + 1)) s.obj.node t := by
  obtain ⟨h1, h2, h3, h4, h5⟩ := (C84_getLabel serve d s u w hu).2.2 label x rest hlabel hx
  have hne : ¬ SchemeElsewhere label x (sent s (ctsLabel d u none)).obj.cite := fun h => h.2.2 c (by rw [hc]; simp) htag
  rcases h5 with ⟨h5, h6⟩ | ⟨_, h6, _⟩
  · have hcite : (s.getLabel serve d).1.obj.cite = scheme := by
      have ha : Adopts label x s.obj.cite scheme := .inr (.inr ⟨hs, hin, pre, c, post, hc, hpre, htag, hd⟩)
      have u1 := ((C84_scheme label x [] s.obj).1 ⟨s.obj.node, scheme⟩).2 ⟨rfl, ha⟩
      have u2 := ((C84_scheme label x [] s.obj).1 ⟨s.obj.node, (s.getLabel serve d).1.obj.cite⟩).2 ⟨rfl, h6⟩
      rw [u1] at u2
      injection u2 with u2
      injection u2 with _ u2
      exact u2.symm
    have hr : s.reffs serve d = (s.getLabel serve d).1.reffs serve d := by
      rw [reffs_set (s := (s.getLabel serve d).1) (by rw [hcite]; exact hset)]
      have hb : citeIsSet s.obj.cite = false := by
        cases h : citeIsSet s.obj.cite with
        | false => rfl
        | true => exact absurd ((citeIsSet_iff _).1 h) hs
      have hp : s.getLabel serve d = ((s.getLabel serve d).1, .ok ()) := Prod.ext rfl h5
      rw [RemoteText.reffs, hb]
      have hl : citeLen scheme = scheme.length := by
        obtain ⟨l, r, x, e, _⟩ := hset
        rw [citeLen, e, if_neg (by simp)]
      simp only [Bool.false_eq_true, if_false]
      rw [hp]
      simp only [hcite, hl]
    have hobj : (s.getLabel serve d).1.obj = ⟨s.obj.node, scheme⟩ := by
      generalize (s.getLabel serve d).1.obj = o at *
      cases o with
      | mk n c' =>
        change n = s.obj.node at h3
        change c' = scheme at hcite
        rw [h3, hcite]
    obtain ⟨a1, a2, a3, a4⟩ := C84_reffs serve d (s.getLabel serve d).1 u w (by rw [h1]; exact hu) (by rw [hcite]; exact hset) docs req
      (by rw [hcite]; exact hdocs)
    rw [hcite] at a1 a2 a4
    rw [hr]
    refine ⟨a1, by rw [a2, h2]; simp [sent], by rw [a3, hobj], fun t => ?_⟩
    rw [a4, h4, h3]
    simp only [sent, or_assoc]
  · exact absurd h6 hne

/-- C84. When a request for a level fails, the references fail with the same error after the requests up to that level; there is
never a part of the list. -/
theorem C84_reffs_error (serve : DocEndpoint) (d : Option Str) (s : RemoteText) (u : Str) (w : Urn) (hu : s.urn.str = .ok (u, w))
    (hs : SchemeSet s.obj.cite) (docs req : Nat → Node) (n : Nat) (hn : n < s.obj.cite.length) (e : PyErr)
    (hdocs : ∀ i < n, serve (levelRequest d u (i + 1)) = .ok (docs (i + 1)) ∧ ∃ rest, named "ti:request" (docs (i + 1)) = req (i + 1) :: rest)
    (he : serve (levelRequest d u (n + 1)) = .error e) :
    (s.reffs serve d).2 = .error e ∧
    (s.reffs serve d).1.log = s.log ++ (List.range (n + 1)).map (fun i => levelRequest d u (i + 1)) := by
  rw [reffs_set hs]
  have hsplit : (List.range s.obj.cite.length).map (· + 1) =
      (List.range n).map (· + 1) ++ (n + 1) :: ((List.range (s.obj.cite.length - n - 1)).map (fun i => n + 1 + i + 1)) := by
    have h1 : s.obj.cite.length = n + 1 + (s.obj.cite.length - n - 1) := by omega
    conv => lhs; rw [h1]
    rw [List.range_add, List.map_append, List.range_succ]
    simp [List.map_map, Function.comp_def]
  rw [hsplit]
  have happ : ∀ (is js : List Nat) (s s' : RemoteText) (l : List Str), s.levels serve d is = (s', .ok l) →
      (s.levels serve d (is ++ js)) = match s'.levels serve d js with
        | (t, .error e) => (t, .error e)
        | (t, .ok m) => (t, .ok (l ++ m)) := by
    intro is js
    induction is with
    | nil =>
      intro s s' l h
      simp only [RemoteText.levels, Prod.mk.injEq, Except.ok.injEq] at h
      obtain ⟨rfl, rfl⟩ := h
      rw [List.nil_append]
      rcases s.levels serve d js with ⟨t, e | m⟩ <;> rfl
    | cons i is ih =>
      intro s s' l h
      rw [List.cons_append]
      simp only [RemoteText.levels] at h ⊢
      rcases hg : s.getValidReff serve d i none with ⟨s1, e1 | l1⟩
      · rw [hg] at h; simp at h
      · rw [hg] at h
        simp only at h ⊢
        rcases hl : s1.levels serve d is with ⟨s2, e2 | l2⟩
        · rw [hl] at h; simp at h
        · rw [hl] at h
          simp only [Prod.mk.injEq, Except.ok.injEq] at h
          obtain ⟨rfl, rfl⟩ := h
          rw [ih s1 s2 l2 hl]
          rcases s2.levels serve d js with ⟨t, e | m⟩
          · rfl
          · simp
  obtain ⟨s', e1, h1, h2, h3, h4⟩ := levels_set serve d u w docs req ((List.range n).map (· + 1)) (by
    intro i hi
    obtain ⟨j, hj, rfl⟩ := List.mem_map.1 hi
    exact hdocs j (List.mem_range.1 hj)) s hu hs
  rw [happ _ _ _ _ _ e1]
  have hv := (C84_validReff serve d s' u w (by rw [h1]; exact hu) ((n + 1 : Nat) : Int) ((n + 1 : Nat) : Int) (by rw [if_neg (by omega)]) none (by simp)).1 e he
  simp only [RemoteText.levels, hv]
  refine ⟨trivial, ?_⟩
  rw [sent, h3, List.range_succ]
  simp [levelRequest, wholeOr]

/-! ### Passages -/

theorem openRemote_spec (urn : Str) (doc : Node) (fresh : Term) (log : List (List (Str × Str))) :
    (∀ e, openPassage urn (replyOf doc) log = .error e → openRemote urn doc fresh log = .error e) ∧
    (∀ p, openPassage urn (replyOf doc) log = .ok p → (∃ c, openRemote urn doc fresh log = .ok (p, ⟨fresh, c⟩) ∧ Adopts doc doc [] c) ∨
      openRemote urn doc fresh log = .error .typeError ∧ SchemeElsewhere doc doc []) := by
  refine ⟨fun e he => by rw [openRemote, he], fun p hp => ?_⟩
  rw [openRemote, hp]
  rcases adoptScheme_spec doc doc [] with ⟨c, e, h⟩ | ⟨e, h⟩
  · exact .inl ⟨c, by rw [e], h⟩
  · exact .inr ⟨by rw [e], h⟩

/-- C84. A passage read from a text is the one that navigation finds (C69, C70), after the same requests; the only other outcome is
the `TypeError` of a scheme that is declared elsewhere. -/
theorem C84_node_navigation (serve : DocEndpoint) (d : Option Str) (sub : Option Str) (fresh : Term) (s : RemoteText) :
    (s.getTextualNode serve d sub fresh).1.log = (remoteNode serve.replies d s.urn sub s.log).1 ∧
    ((·.1) <$> (s.getTextualNode serve d sub fresh).2 = (remoteNode serve.replies d s.urn sub s.log).2 ∨
      (s.getTextualNode serve d sub fresh).2 = .error .typeError) := by
  rw [RemoteText.getTextualNode, remoteNode]
  cases hv : nodeUrn s.urn sub with
  | error e => exact ⟨rfl, .inl rfl⟩
  | ok v =>
    simp only
    have hr : serve.replies (ctsPassage d v none none) = replyOf <$> serve (ctsPassage d v none none) := rfl
    rw [hr]
    cases hd : serve (ctsPassage d v none none) with
    | error e => exact ⟨rfl, .inl rfl⟩
    | ok doc =>
      have hf : (replyOf <$> Except.ok doc : Except PyErr CtsReply) = .ok (replyOf doc) := rfl
      rw [hf]
      have hq := filter_named "ti:request" doc
      have hq' : (doc.allNodes.filter fun c => c.tag = ['t', 'i', ':', 'r', 'e', 'q', 'u', 'e', 's', 't']) = named "ti:request" doc := hq
      simp only [hq', replyOf_request]
      cases hn : named "ti:request" doc with
      | nil => exact ⟨rfl, .inl rfl⟩
      | cons x rest =>
        have ht := take_reads { s with log := s.log ++ [ctsPassage d v none none] } doc x rest
        revert ht
        rcases RemoteText.take { s with log := s.log ++ [ctsPassage d v none none] } doc (x :: rest) with ⟨s', e | ⟨⟩⟩
        · rintro ⟨h1, h2, h3, h4, ⟨h5, _⟩ | ⟨h5, _⟩⟩
          · cases h5
          · injection h5 with h5
            subst h5
            exact ⟨h2, .inr rfl⟩
        · rintro ⟨h1, h2, h3, h4, h5⟩
          have h2' : s'.log = s.log ++ [ctsPassage d v none none] := h2
          refine ⟨h2', ?_⟩
          simp only [List.isEmpty_cons, Bool.not_false, if_true, h2']
          have hp := openRemote_spec v doc fresh (s.log ++ [ctsPassage d v none none])
          cases ho : openPassage v (replyOf doc) (s.log ++ [ctsPassage d v none none]) with
          | error e => exact .inl (by rw [hp.1 e ho]; rfl)
          | ok p =>
            rcases hp.2 p ho with ⟨c, e, _⟩ | ⟨e, _⟩
            · exact .inl (by rw [e]; rfl)
            · exact .inr e

/-- C84. The labels of the repeated request go to the text, and its scheme if it had none; the passage has the scheme that the
reply declares, and the graph says nothing new of it. -/
theorem C84_node (serve : DocEndpoint) (d : Option Str) (sub : Option Str) (fresh : Term) (s : RemoteText) (v : Str) (hv : nodeUrn s.urn sub = .ok v)
    (doc x : Node) (rest : List Node) (hd : serve (ctsPassage d v none none) = .ok doc) (hx : named "ti:request" doc = x :: rest) :
    ∃ out, ReadsLabel doc x (sent s (ctsPassage d v none none)) (s.getTextualNode serve d sub fresh).1 out ∧
      (∀ e, out = .error e → (s.getTextualNode serve d sub fresh).2 = .error e) ∧
      (∀ p o, (s.getTextualNode serve d sub fresh).2 = .ok (p, o) → out = .ok () ∧ o.node = fresh ∧ Adopts doc doc [] o.cite) ∧
      (fresh ≠ s.obj.node → ∀ q v, (⟨fresh, q, v⟩ : Triple) ∈ (s.getTextualNode serve d sub fresh).1.graph ↔ (⟨fresh, q, v⟩ : Triple) ∈ s.graph) := by
  have hq' : (doc.allNodes.filter fun c => c.tag = ['t', 'i', ':', 'r', 'e', 'q', 'u', 'e', 's', 't']) = x :: rest := (filter_named "ti:request" doc).trans hx
  simp only [RemoteText.getTextualNode, hv, hd, hq']
  have ht := take_reads { s with log := s.log ++ [ctsPassage d v none none] } doc x rest
  revert ht
  have hfresh : ∀ s' : RemoteText, (∀ t, t ∈ s'.graph ↔ t ∈ s.graph ∨ Tells x s.obj.node t) → fresh ≠ s.obj.node →
      ∀ q v, (⟨fresh, q, v⟩ : Triple) ∈ s'.graph ↔ (⟨fresh, q, v⟩ : Triple) ∈ s.graph := by
    intro s' h hne q v
    rw [h]
    refine ⟨fun h => ?_, .inl⟩
    rcases h with h | ⟨e, _, row, _, _, h | h⟩
    · exact h
    · injection h with h; exact absurd h hne
    · injection h with h; exact absurd h hne
  rcases RemoteText.take { s with log := s.log ++ [ctsPassage d v none none] } doc (x :: rest) with ⟨s', e | ⟨⟩⟩
  · intro h
    exact ⟨.error e, h, fun e' he => he ▸ rfl, fun p o hp => (by simp at hp), hfresh s' h.2.2.2.1⟩
  · intro h
    refine ⟨.ok (), h, fun e' he => (by cases he), fun p o hp => ?_, hfresh s' h.2.2.2.1⟩
    refine ⟨rfl, ?_⟩
    simp only at hp
    have hs := openRemote_spec v doc fresh s'.log
    cases ho : openPassage v (replyOf doc) s'.log with
    | error e => rw [hs.1 e ho] at hp; cases hp
    | ok p' =>
      rcases hs.2 p' ho with ⟨c, e, hc⟩ | ⟨e, _⟩
      · rw [e] at hp
        injection hp with hp
        injection hp with _ hp
        subst hp
        exact ⟨rfl, hc⟩
      · rw [e] at hp; cases hp

/-- C84. The same with `getPassagePlus`, where a reply without label also ends in `IndexError`. -/
theorem C84_plus_navigation (serve : DocEndpoint) (d : Option Str) (sub : Option Str) (fresh : Term) (s : RemoteText) (u : Str) (w : Urn)
    (hu : s.urn.str = .ok (u, w)) (hlog : s.log = []) :
    (s.getPassagePlus serve d sub fresh).1.log = [(remotePlus serve.replies d u sub).1] ∧
    ((·.1) <$> (s.getPassagePlus serve d sub fresh).2 = (remotePlus serve.replies d u sub).2 ∨
      (s.getPassagePlus serve d sub fresh).2 = .error .typeError ∨ (s.getPassagePlus serve d sub fresh).2 = .error .indexError) := by
  rw [RemoteText.getPassagePlus, remotePlus]
  simp only [hu, hlog, List.nil_append]
  generalize hv : withPassage u sub = v
  generalize hr : ctsPassagePlus d v none none = r
  have hr : serve.replies r = replyOf <$> serve r := rfl
  rw [hr]
  cases hd : serve r with
  | error e => exact ⟨rfl, .inl rfl⟩
  | ok doc =>
    have hf : (replyOf <$> Except.ok doc : Except PyErr CtsReply) = .ok (replyOf doc) := rfl
    rw [hf]
    have hp := openRemote_spec v doc fresh [r]
    simp only
    cases ho : openPassage v (replyOf doc) [r] with
    | error e => rw [hp.1 e ho]; exact ⟨rfl, .inl rfl⟩
    | ok p =>
      rcases hp.2 p ho with ⟨c, e, _⟩ | ⟨e, _⟩
      · rw [e]
        simp only
        cases elementsIn ['t', 'i', ':', 'r', 'e', 'p', 'l', 'y'] ['t', 'i', ':', 'l', 'a', 'b', 'e', 'l'] doc with
        | nil => exact ⟨rfl, .inr (.inr rfl)⟩
        | cons x rest =>
          simp only [parseRequest]
          rcases adoptScheme_spec doc x c with ⟨c', e, _⟩ | ⟨e, _⟩
          · rw [e]; exact ⟨rfl, .inl rfl⟩
          · rw [e]; exact ⟨rfl, .inr (.inl rfl)⟩
      · rw [e]; exact ⟨rfl, .inr (.inl rfl)⟩

/-- C84. `getPassagePlus` gives the passage the labels of the reply and its scheme, and the text the scheme of the passage; the graph
says nothing new of the text. -/
theorem C84_plus (serve : DocEndpoint) (d : Option Str) (sub : Option Str) (fresh : Term) (s : RemoteText) (p : RemotePassage) (o : RemoteObject)
    (h : (s.getPassagePlus serve d sub fresh).2 = .ok (p, o)) :
    ∃ r doc x rest c, serve r = .ok doc ∧ within "ti:reply" "ti:label" doc = x :: rest ∧ (s.getPassagePlus serve d sub fresh).1.log = s.log ++ [r] ∧
      Adopts doc doc [] c ∧ Adopts doc x c o.cite ∧ o.node = fresh ∧ (s.getPassagePlus serve d sub fresh).1.obj = ⟨s.obj.node, o.cite⟩ ∧
      ∀ t, t ∈ (s.getPassagePlus serve d sub fresh).1.graph ↔ t ∈ s.graph ∨ Tells x fresh t := by
  revert h
  rw [RemoteText.getPassagePlus]
  rcases s.urn.str with e | ⟨u, w⟩
  · intro h; simp at h
  · simp only
    generalize withPassage u sub = v
    generalize ctsPassagePlus d v none none = r
    cases hd : serve r with
    | error e => intro h; simp at h
    | ok doc =>
      simp only
      have hp := openRemote_spec v doc fresh (s.log ++ [r])
      cases ho : openPassage v (replyOf doc) (s.log ++ [r]) with
      | error e => rw [hp.1 e ho]; intro h; simp at h
      | ok p =>
        rcases hp.2 p ho with ⟨c, e, hc⟩ | ⟨e, _⟩
        · rw [e]
          simp only
          have hw := within_eq "ti:reply" "ti:label" doc
          have hw' : elementsIn ['t', 'i', ':', 'r', 'e', 'p', 'l', 'y'] ['t', 'i', ':', 'l', 'a', 'b', 'e', 'l'] doc = within "ti:reply" "ti:label" doc := hw
          rw [hw']
          cases hx : within "ti:reply" "ti:label" doc with
          | nil => intro h; simp at h
          | cons x rest =>
            simp only [parseRequest]
            rcases adoptScheme_spec doc x c with ⟨c', e, hc'⟩ | ⟨e, _⟩
            · rw [e]
              intro h
              simp only [Except.ok.injEq, Prod.mk.injEq] at h
              obtain ⟨rfl, rfl⟩ := h
              exact ⟨r, doc, x, rest, c, hd, hx, rfl, hc, hc', rfl, rfl, fun t => mem_requestMeta⟩
            · rw [e]; intro h; simp at h
        · rw [e]; intro h; simp at h

/-! ### Where the code departs from the natural claim -/

/-- C84 fails for the scheme of a text: `getPassagePlus` of a reply without scheme makes a text forget the one it had. -/
theorem C84_fails_forgets (serve : DocEndpoint) (d : Option Str) (sub : Option Str) (fresh : Term) (s : RemoteText) (p : RemotePassage) (o : RemoteObject)
    (h : (s.getPassagePlus serve d sub fresh).2 = .ok (p, o)) (hnone : ∀ r doc, serve r = .ok doc → ∀ e ∈ elements doc, e.tag ≠ "ti:citation".toList) :
    ¬ SchemeSet (s.getPassagePlus serve d sub fresh).1.obj.cite := by
  obtain ⟨r, doc, x, rest, c, h1, h2, h3, h4, h5, h6, h7, h8⟩ := C84_plus serve d sub fresh s p o h
  have hn := hnone r doc h1
  have n0 : ¬ SchemeSet [] := by rintro ⟨l, r, x, e, _⟩; cases e
  have e1 : c = [] := by
    rcases h4 with ⟨a, _⟩ | ⟨_, _, e⟩ | ⟨_, ⟨m, hm, ht⟩, _⟩
    · exact absurd a n0
    · exact e
    · exact absurd ht (hn m hm)
  have e2 : o.cite = [] := by
    subst e1
    rcases h5 with ⟨a, _⟩ | ⟨_, _, e⟩ | ⟨_, ⟨m, hm, ht⟩, _⟩
    · exact absurd a n0
    · exact e
    · exact absurd ht (hn m hm)
  rw [h7, e2]
  exact n0

/-- C84 fails for all the references of a text whose label declares no scheme: only those of the first level are asked for, whatever
the depth of the text. -/
theorem C84_fails_no_scheme (serve : DocEndpoint) (d : Option Str) (node : Term) (g : Graph) (urn : Urn) (u : Str) (w : Urn) (hu : urn.str = .ok (u, w))
    (label x doc y : Node) (rest rest' : List Node) (hlabel : serve (ctsLabel d u none) = .ok label) (hx : within "ti:reply" "ti:label" label = x :: rest)
    (hnone : ∀ e ∈ elements label, e.tag ≠ "ti:citation".toList) (hdoc : serve (levelRequest d u 1) = .ok doc)
    (hy : named "ti:request" doc = y :: rest') (hnone' : ∀ e ∈ elements doc, e.tag ≠ "ti:citation".toList) :
    let s := (RemoteText.mk urn ⟨node, []⟩ g []).reffs serve d
    s.2 = .ok (listed doc) ∧ s.1.log = [ctsLabel d u none, levelRequest d u 1] := by
  have n0 : ¬ SchemeSet [] := by rintro ⟨l, r, x, e, _⟩; cases e
  obtain ⟨h1, h2, h3, h4, h5⟩ := (C84_getLabel serve d (RemoteText.mk urn ⟨node, []⟩ g []) u w hu).2.2 label x rest hlabel hx
  rcases h5 with ⟨h5, h6⟩ | ⟨_, ⟨_, ⟨m, hm, ht⟩, _⟩, _⟩
  · have hcite : ((RemoteText.mk urn ⟨node, []⟩ g []).getLabel serve d).1.obj.cite = [] := by
      rcases h6 with ⟨a, _⟩ | ⟨_, _, e⟩ | ⟨_, ⟨m, hm, ht⟩, _⟩
      · exact absurd a n0
      · exact e
      · exact absurd ht (hnone m hm)
    have hp : (RemoteText.mk urn ⟨node, []⟩ g []).getLabel serve d = (((RemoteText.mk urn ⟨node, []⟩ g []).getLabel serve d).1, .ok ()) := Prod.ext rfl h5
    have hb : citeIsSet (RemoteText.mk urn ⟨node, []⟩ g []).obj.cite = false := rfl
    simp only [RemoteText.reffs, hb, Bool.false_eq_true, if_false]
    rw [hp]
    generalize ((RemoteText.mk urn ⟨node, []⟩ g []).getLabel serve d).1 = s1 at *
    simp only [hcite]
    have hr : (List.range (citeLen [])).map (· + 1) = [1] := rfl
    rw [hr]
    obtain ⟨out, ⟨a1, a2, a3, a4, a5⟩, a6⟩ := (C84_validReff serve d s1 u w (by rw [h1]; exact hu) ((1 : Nat) : Int) ((1 : Nat) : Int) (by rw [if_neg (by omega)]) none (by simp)).2.2 doc y rest' hdoc hy
    rcases a5 with ⟨rfl, _⟩ | ⟨_, ⟨_, ⟨m, hm, ht⟩, _⟩, _⟩
    · have hv : s1.getValidReff serve d ((1 : Nat) : Int) none = ((s1.getValidReff serve d ((1 : Nat) : Int) none).1, .ok (listed doc)) := Prod.ext rfl a6
      simp only [RemoteText.levels]
      rw [hv]
      refine ⟨by simp, ?_⟩
      simp only
      rw [a2, sent, h2]
      rfl
    · exact absurd ht (hnone' m hm)
  · exact absurd ht (hnone m hm)

/-! ### Examples -/

/-- An element. -/
def labelEl (tag : String) (attrs : List (String × String)) (text : String) (kids : List Node) : Node :=
  .mk tag.toList (attrs.map fun a => (a.1.toList, a.2.toList)) text.toList kids []

/-- The label of a text with two levels. -/
def labelDemo : Node := labelEl "ti:GetLabel" [] "" [
  labelEl "ti:request" [] "" [labelEl "ti:requestName" [] "GetLabel" []],
  labelEl "ti:reply" [] "" [
    labelEl "ti:urn" [] "urn:cts:latinLit:phi1294.phi002.perseus-lat2" [],
    labelEl "ti:label" [] "" [
      labelEl "ti:groupname" [("xml:lang", "lat")] "Martialis" [],
      labelEl "ti:title" [("xml:lang", "lat")] "Epigrammata" [],
      labelEl "ti:description" [("xml:lang", "lat")] "" [],
      labelEl "ti:citation" [("label", "book"), ("xpath", "/tei:div[@n='?']"), ("scope", "/tei:TEI/tei:body")] "" [
        labelEl "ti:citation" [("label", "poem"), ("xpath", "/tei:div[@n='?']"), ("scope", "/tei:TEI/tei:body/tei:div[@n='?']")] "" []]]]]

/-- The references of a level. -/
def reffDemo (urns : List String) : Node := labelEl "ti:GetValidReff" [] "" [
  labelEl "ti:request" [] "" [labelEl "ti:groupname" [] "Martial" []],
  labelEl "ti:reply" [] "" [labelEl "ti:reff" [] "" (urns.map fun u => labelEl "ti:urn" [] u [])]]

/-- The URN of the text. -/
def labelUrn : Str := "urn:cts:latinLit:phi1294.phi002.perseus-lat2".toList

/-- A text just made. -/
def labelText0 : Option RemoteText := (Urn.parse labelUrn).toOption.map fun u => ⟨u, ⟨.bnode ['t'], []⟩, [], []⟩

/-- An endpoint that has the text. -/
def labelServe : DocEndpoint := fun r =>
  if r = ctsLabel none labelUrn none then .ok labelDemo
  else if r = levelRequest none labelUrn 1 then .ok (reffDemo ["urn:cts:latinLit:phi1294.phi002.perseus-lat2:1", "urn:cts:latinLit:phi1294.phi002.perseus-lat2:2"])
  else if r = levelRequest none labelUrn 2 then .ok (reffDemo ["urn:cts:latinLit:phi1294.phi002.perseus-lat2:1.1", "urn:cts:latinLit:phi1294.phi002.perseus-lat2:2.1"])
  else .error .unknownCollection

example : (labelText0.map fun s => (s.reffs labelServe none).2.toOption) = some (some ["1".toList, "2".toList, "1.1".toList, "2.1".toList]) := by
  decide +kernel
example : (labelText0.map fun s => (s.reffs labelServe none).1.log) =
    some [ctsLabel none labelUrn none, levelRequest none labelUrn 1, levelRequest none labelUrn 2] := by decide +kernel
example : (labelText0.map fun s => ((s.getLabel labelServe none).1.obj.cite.map CiteLevel.name)) = some [some "book".toList, some "poem".toList] := by
  decide +kernel
example : (within "ti:reply" "ti:label" labelDemo).length = 1 ∧ (within "ti:reply" "ti:urn" labelDemo).length = 1 ∧
    (anywhereIn "ti:reply" "ti:urn" (reffDemo ["a:1", "a:2"])).length = 2 ∧ (named "ti:citation" labelDemo).length = 2 := by decide +kernel
example : listed (reffDemo ["urn:x:1.1", "urn:x:1.2"]) = ["1.1".toList, "1.2".toList] := by decide +kernel

/-- A reply to `GetPassagePlus` without scheme. -/
def plusDemo : Node := labelEl "ti:GetPassagePlus" [] "" [
  labelEl "ti:request" [] "" [labelEl "ti:requestName" [] "GetPassagePlus" []],
  labelEl "ti:reply" [] "" [
    labelEl "ti:label" [] "" [labelEl "ti:groupname" [] "Martial" []],
    labelEl "ti:passage" [] "" [labelEl "tei:TEI" [] "" []],
    labelEl "ti:prevnext" [] "" [labelEl "ti:prev" [] "" [], labelEl "ti:next" [] "" [labelEl "ti:urn" [] "urn:cts:latinLit:phi1294.phi002.perseus-lat2:1.2" []]]]]

/-- A text whose scheme is known. -/
def knownText : Option RemoteText := labelText0.map fun s => { s with obj := ⟨.bnode ['t'], [⟨some "book".toList, some "/tei:div".toList⟩]⟩ }

/-- The hypotheses of `C84_fails_forgets` are met: a text with a scheme has none afterwards. -/
theorem C84_fails_forgets_case : ∃ s : RemoteText, knownText = some s ∧ SchemeSet s.obj.cite ∧
    (∃ p o, (s.getPassagePlus (fun _ => .ok plusDemo) none (some "1.1".toList) (.bnode ['p'])).2 = .ok (p, o) ∧
      p.next = .known "1.2".toList ∧ p.prev = .absent) ∧
    (s.getPassagePlus (fun _ => .ok plusDemo) none (some "1.1".toList) (.bnode ['p'])).1.obj.cite = [] := by
  have h : (knownText.map fun s => (citeIsSet s.obj.cite,
      ((s.getPassagePlus (fun _ => .ok plusDemo) none (some "1.1".toList) (.bnode ['p'])).2.toOption.map fun x => (x.1.next, x.1.prev)),
      (s.getPassagePlus (fun _ => .ok plusDemo) none (some "1.1".toList) (.bnode ['p'])).1.obj.cite)) =
      some (true, some (.known "1.2".toList, .absent), []) := by decide +kernel
  cases hk : knownText with
  | none => rw [hk] at h; cases h
  | some s =>
    rw [hk] at h
    simp only [Option.map_some, Option.some.injEq, Prod.mk.injEq] at h
    obtain ⟨h1, h2, h3⟩ := h
    refine ⟨s, rfl, (citeIsSet_iff _).1 h1, ?_, h3⟩
    revert h2
    rcases (s.getPassagePlus (fun _ => .ok plusDemo) none (some "1.1".toList) (.bnode ['p'])).2 with e | ⟨p, o⟩
    · intro h; cases h
    · intro h
      simp only [Except.toOption, Option.map_some, Option.some.injEq, Prod.mk.injEq] at h
      exact ⟨p, o, rfl, h⟩

/-- C84 fails for languages: a groupname that the label gives in Latin is kept in English. -/
theorem C84_fails_language : ∃ (doc x : Node) (rest : List Node), within "ti:reply" "ti:label" doc = x :: rest ∧
    (∃ e ∈ below x, e.tag = "ti:groupname".toList ∧ e.get "xml:lang".toList = some "lat".toList) ∧
    ∀ (node : Term) (order : Order), Rearranges order →
      nodeCreator order (parseRequest doc x [] ⟨node, []⟩).1 node (some "lat".toList) = .ok (some (.lit "Martialis".toList (some "eng".toList) none)) := by
  cases hw : within "ti:reply" "ti:label" labelDemo with
  | nil => exact absurd hw (by decide +kernel)
  | cons x rest =>
    have hx : (within "ti:reply" "ti:label" labelDemo).head? = some x := by rw [hw]; rfl
    have hb : ((within "ti:reply" "ti:label" labelDemo).head?.map fun x => (below x).filter fun e => e.tag = "ti:groupname".toList) =
      some [labelEl "ti:groupname" [("xml:lang", "lat")] "Martialis" []] := by decide +kernel
    rw [hx, Option.map_some, Option.some.injEq] at hb
    have hm : labelEl "ti:groupname" [("xml:lang", "lat")] "Martialis" [] ∈ (below x).filter fun e => e.tag = "ti:groupname".toList := by
      rw [hb]; exact List.mem_singleton.2 rfl
    refine ⟨labelDemo, x, rest, hw, ⟨_, (List.mem_filter.1 hm).1, rfl, by decide +kernel⟩, fun node order ho => ?_⟩
    obtain ⟨r, e, a1, a2, a3⟩ := (C84_getters order ho labelDemo x [] ⟨node, []⟩ (some "lat".toList) (by simp)).1
    rw [e]
    have hall : ∀ o, toldTexts x "ti:groupname" o → o = .lit "Martialis".toList (some "eng".toList) none := by
      rintro o ⟨e, he, ht, rfl⟩
      have : e ∈ (below x).filter fun e => e.tag = "ti:groupname".toList := List.mem_filter.2 ⟨he, decide_eq_true ht⟩
      rw [hb, List.mem_singleton] at this
      subst this
      decide +kernel
    cases r with
    | none => exact absurd ⟨_, (List.mem_filter.1 hm).1, rfl, rfl⟩ (a3.1 rfl _)
    | some o => rw [hall o (a1 o rfl)]

/-- C84 fails for empty elements: an empty description is kept as the text `None`. -/
theorem C84_fails_empty_element (x : Node) (node : Term) (e : Node) (he : e ∈ below x) (ht : e.tag = "ti:description".toList) (hx : e.text = [])
    (doc : Node) (g : Graph) : (⟨node, dc "description", .lit "None".toList (some "eng".toList) none⟩ : Triple) ∈ (parseRequest doc x g ⟨node, []⟩).1 := by
  rw [C84_labels]
  refine .inr ⟨e, he, ("ti:description", cts "description", dc "description"), by simp [labelTable], ht, .inr ?_⟩
  rw [labelText, if_pos hx]

/-- C84 fails for a label whose scheme stands elsewhere in the reply: reading it raises `TypeError`, after its labels were kept. -/
theorem C84_fails_elsewhere (serve : DocEndpoint) (d : Option Str) (s : RemoteText) (u : Str) (w : Urn) (hu : s.urn.str = .ok (u, w))
    (doc x : Node) (rest : List Node) (hd : serve (ctsLabel d u none) = .ok doc) (hx : within "ti:reply" "ti:label" doc = x :: rest)
    (h : SchemeElsewhere doc x s.obj.cite) : (s.getLabel serve d).2 = .error .typeError ∧
      ∀ t, t ∈ (s.getLabel serve d).1.graph ↔ t ∈ s.graph ∨ Tells x s.obj.node t := by
  obtain ⟨_, _, _, h4, h5⟩ := (C84_getLabel serve d s u w hu).2.2 doc x rest hd hx
  rcases h5 with ⟨_, h5⟩ | ⟨h5, _⟩
  · exact absurd h (adopts_not_elsewhere h5)
  · exact ⟨h5, h4⟩

/-- Such a reply. -/
def elsewhereDemo : Node := labelEl "ti:GetLabel" [] "" [
  labelEl "ti:reply" [] "" [labelEl "ti:label" [] "" [labelEl "ti:groupname" [] "Martial" []],
    labelEl "ti:citation" [("label", "book"), ("xpath", "/tei:div[@n='?']"), ("scope", "/tei:TEI")] "" []]]

example : ∃ x rest, within "ti:reply" "ti:label" elsewhereDemo = x :: rest ∧ SchemeElsewhere elsewhereDemo x [] := by
  cases hw : within "ti:reply" "ti:label" elsewhereDemo with
  | nil => exact absurd hw (by decide +kernel)
  | cons x rest =>
    have hx : (within "ti:reply" "ti:label" elsewhereDemo).head? = some x := by rw [hw]; rfl
    refine ⟨x, rest, rfl, (by rintro ⟨l, r, x, e, _⟩; cases e), ?_, ?_⟩
    · have : ((elements elsewhereDemo).filter fun e => e.tag = "ti:citation".toList) ≠ [] := by decide +kernel
      obtain ⟨e, he⟩ := List.exists_mem_of_ne_nil _ this
      exact ⟨e, (List.mem_filter.1 he).1, of_decide_eq_true (List.mem_filter.1 he).2⟩
    · have : ((within "ti:reply" "ti:label" elsewhereDemo).head?.map fun x => (below x).filter fun e => e.tag = "ti:citation".toList) = some [] := by
        decide +kernel
      rw [hx, Option.map_some, Option.some.injEq] at this
      intro e he ht
      have h2 : e ∈ (below x).filter fun e => e.tag = "ti:citation".toList := List.mem_filter.2 ⟨he, decide_eq_true ht⟩
      rw [this] at h2
      cases h2

end Verif.Props
