import Verif.Lemmas.StructuredMetadataParse
/-!
C83: structured metadata of inventories, exported to XML and read again.
-/
namespace Verif.Props
open Verif.Py Verif.Model Verif.Spec Verif.Lemmas

/-! ### The trip -/

/-- C83. The export of an inventory with its structured metadata is an XML document. Reading it, into any graph, gives
the same inventory as for the export without structured metadata (C71). The graph gains the metadata of every
textgroup, work and text that are not of CTS, DTS or RDF, each with its predicate and its restored value, and nothing
else. In particular no object receives the metadata of another. -/
theorem C83_inventory (S : Store) (preds : List (Str × Str)) (hs : StoreSafe S preds) (nsmap : List (Str × Str)) (ob : Str → Objectified)
    (i : XInv) (h : InvSafe i) (hi : NodeSafe S preds i.id) (hn : ∀ id ∈ innerIds i, NodeSafe S preds id) (g : Graph) :
    ∃ s n g', exportInvS S (some preds) i = .ok s ∧ readCts s = some n ∧ parseInvS nsmap ob g n = .ok (invRead i, g') ∧
      (∀ t, t ∈ g' ↔ t ∈ g ∨ ComesBack S ob (innerIds i) t) ∧ (g.Nodup → g'.Nodup) := by
  obtain ⟨s, he, hw⟩ := writes_invS hs (envFor_header hs (if i.id = [] then [] else [(['t', 'i', 'i', 'd'], i.id)])) (ns := some preds) h hi hn
    (tagSafe_withHeader (tagSafe_inv hs.header.name h.id) (headerSafe_cpt hs))
  refine ⟨s, _, _, he, readCts_of_tree (S := S) hw, parseInvS_tree nsmap ob _ hs h hn _ g [], fun t => ?_, nodup_backAll ob S _ g⟩
  rw [mem_backAll ob hs _ (fun id hid => hn id ((mem_innerIds h id).1 hid))]
  simp only [ComesBack, mem_innerIds h]

/-- C83. The same for one textgroup. -/
theorem C83_textgroup (S : Store) (preds : List (Str × Str)) (hs : StoreSafe S preds) (nsmap : List (Str × Str)) (ob : Str → Objectified)
    (x : XGroup) (h : GroupSafe x) (hn : ∀ id ∈ groupIds x, NodeSafe S preds id) (g : Graph) :
    ∃ s n g', exportGroupS S (some preds) x = .ok s ∧ readCts s = some n ∧ parseGroupS nsmap ob g n = .ok (groupRead x, g') ∧
      (∀ t, t ∈ g' ↔ t ∈ g ∨ ComesBack S ob (groupIds x) t) ∧ (g.Nodup → g'.Nodup) := by
  obtain ⟨s, he, hw⟩ := writes_groupS hs (envFor_header hs [(['u', 'r', 'n'], x.id)]) (ns := some preds) h hn
    (tagSafe_withHeader ⟨nameSafe_cts hs.header.name (by decide), by simp, by
      intro a ha; simp only [List.mem_singleton] at ha; subst ha; exact ⟨by dsimp only; decide, h.id.1⟩⟩ (headerSafe_cpt hs))
  refine ⟨s, _, _, he, readCts_of_tree (S := S) hw, parseGroupS_tree nsmap ob _ hs h hn _ g [], fun t => ?_, nodup_backAll ob S _ g⟩
  rw [mem_backAll ob hs _ (fun id hid => hn id ((mem_groupIds h id).1 hid))]
  simp only [ComesBack, mem_groupIds h]

/-- C83. The same for one work, whether or not it belongs to a textgroup. -/
theorem C83_work (S : Store) (preds : List (Str × Str)) (hs : StoreSafe S preds) (nsmap : List (Str × Str)) (ob : Str → Objectified)
    (w : XWork) (h : WorkSafe w) (parent : Option Str) (hpar : ∀ p ∈ parent, AttrSafe p) (hn : ∀ id ∈ workIds w, NodeSafe S preds id) (g : Graph) :
    ∃ s n g', exportWorkS S (some preds) parent w = .ok s ∧ readCts s = some n ∧ parseWorkS nsmap ob g n = .ok (workRead w, g') ∧
      (∀ t, t ∈ g' ↔ t ∈ g ∨ ComesBack S ob (workIds w) t) ∧ (g.Nodup → g'.Nodup) := by
  obtain ⟨s, he, hw⟩ := writes_workS hs (envFor_header hs ([(['u', 'r', 'n'], w.id), (['x', 'm', 'l', ':', 'l', 'a', 'n', 'g'], w.lang)] ++ parentAttr ['g', 'r', 'o', 'u', 'p', 'U', 'r', 'n'] parent)) (ns := some preds) h hn
    (tagSafe_withHeader (tagSafe_parent (nameSafe_cts hs.header.name (by decide)) (by decide) (by decide) h.id.1 h.lang hpar) (headerSafe_cpt hs))
  refine ⟨s, _, _, he, readCts_of_tree (S := S) hw, parseWorkS_tree nsmap ob _ hs h hn _ _ g [], fun t => ?_, nodup_backAll ob S _ g⟩
  rw [mem_backAll ob hs _ (fun id hid => hn id ((mem_workIds h id).1 hid))]
  simp only [ComesBack, mem_workIds h]

/-- C83. The same for one text, read with a parent in the language of its work. -/
theorem C83_text (S : Store) (preds : List (Str × Str)) (hs : StoreSafe S preds) (nsmap : List (Str × Str)) (ob : Str → Objectified)
    (lang : Str) (t : XText) (h : TextSafe lang t) (parent : Option Str) (hpar : ∀ p ∈ parent, AttrSafe p) (hn : NodeSafe S preds t.id) (g : Graph) :
    ∃ s n g', exportTextS S (some preds) parent t = .ok s ∧ readCts s = some n ∧ parseTextS nsmap ob t.kind (some lang) g n = .ok (textRead t, g') ∧
      (∀ x, x ∈ g' ↔ x ∈ g ∨ ComesBack S ob [t.id] x) ∧ (g.Nodup → g'.Nodup) := by
  obtain ⟨s, he, hw⟩ := writes_textS hs (envFor_header hs ([(['u', 'r', 'n'], t.id), (['x', 'm', 'l', ':', 'l', 'a', 'n', 'g'], t.lang)] ++ parentAttr ['w', 'o', 'r', 'k', 'U', 'r', 'n'] parent)) (ns := some preds) h hn
    (tagSafe_withHeader (tagSafe_parent (nameSafe_cts hs.header.name (nameSafe_kind _)) (by decide) (by decide) h.id.1 h.lang hpar) (headerSafe_cpt hs))
  refine ⟨s, _, _, he, readCts_of_tree (S := S) hw, parseTextS_tree nsmap ob _ hs h hn g [], fun x => ?_, nodup_backAll ob S _ g⟩
  exact mem_backAll ob hs _ (fun id hid => by simp only [List.mem_singleton] at hid; exact hid ▸ hn) g x

/-! ### Values -/

/-- C83. A value comes back as it was exactly when it is of the kind that survives. -/
theorem C83_value (ob : Str → Objectified) (o : Term) : restored ob o = o ↔ ValueSurvives ob o := by
  unfold restored ValueSurvives
  cases o with
  | uri s =>
    show (if LooksLikeLink (ob s).shown then Term.uri (ob s).shown else _) = Term.uri s ↔ (ob s).shown = s ∧ LooksLikeLink s
    by_cases hk : LooksLikeLink (ob s).shown
    · rw [if_pos hk]
      constructor
      · intro h; injection h with h; exact ⟨h, h ▸ hk⟩
      · intro h; rw [h.1]
    · rw [if_neg hk]
      constructor
      · intro h; dsimp only at h; split at h <;> cases h
      · rintro ⟨h1, h2⟩; rw [h1] at hk; exact absurd h2 hk
  | bnode s =>
    refine ⟨fun h => ?_, fun h => h.2.elim⟩
    split at h
    · cases h
    · dsimp only at h; split at h <;> cases h
  | lit s l d =>
    have hstr : (Term.lit s l d).str = s := rfl
    rw [hstr]
    by_cases hk : LooksLikeLink (ob s).shown
    · rw [if_pos hk]
      constructor
      · intro h; cases h
      · rintro ⟨h1, h2⟩
        rw [h1] at hk
        cases l <;> exact absurd hk h2.1
    · rw [if_neg hk]
      cases l with
      | some l =>
        dsimp only
        constructor
        · intro h; injection h with h1 h2 h3; exact ⟨h1, h1 ▸ hk, h3.symm⟩
        · rintro ⟨h1, _, h3⟩; rw [h1, h3]
      | none =>
        dsimp only
        cases hkind : (ob s).kind <;> dsimp only
        all_goals
          constructor
          · intro h; injection h with h1 h2 h3; exact ⟨h1, h1 ▸ hk, h3.symm⟩
          · rintro ⟨h1, _, h3⟩; rw [h1, h3]

/-- C83. When all values survive, reading the export into an empty graph gives exactly the structured metadata of the
textgroups, works and texts. -/
theorem C83_same (S : Store) (preds : List (Str × Str)) (hs : StoreSafe S preds) (nsmap : List (Str × Str)) (ob : Str → Objectified)
    (i : XInv) (h : InvSafe i) (hi : NodeSafe S preds i.id) (hn : ∀ id ∈ innerIds i, NodeSafe S preds id)
    (hv : ∀ t ∈ S.graph, (∃ id ∈ innerIds i, t.s = .uri id) → Structured S.qn t.p → ValueSurvives ob t.o) :
    ∃ s n g', exportInvS S (some preds) i = .ok s ∧ readCts s = some n ∧ parseInvS nsmap ob [] n = .ok (invRead i, g') ∧ g'.Nodup ∧
      ∀ t, t ∈ g' ↔ t ∈ S.graph ∧ (∃ id ∈ innerIds i, t.s = .uri id) ∧ Structured S.qn t.p := by
  obtain ⟨s, n, g', h1, h2, h3, h4, h5⟩ := C83_inventory S preds hs nsmap ob i h hi hn []
  refine ⟨s, n, g', h1, h2, h3, h5 (by simp), fun t => ?_⟩
  rw [h4]
  constructor
  · rintro (hm | ⟨u, hu, hid, hst, rfl⟩)
    · cases hm
    · rw [(C83_value ob u.o).2 (hv u hu hid hst)]
      exact ⟨hu, hid, hst⟩
  · rintro ⟨hm, hid, hst⟩
    refine .inr ⟨t, hm, hid, hst, ?_⟩
    rw [(C83_value ob t.o).2 (hv t hm hid hst)]

/-! ### Reading a document written by hand -/

/-- C83. What an element of the block adds, whatever its attributes: a resource when its text looks like one; else a
literal in the given language; else a literal of the given `rdf:datatype`, expanded when it is written with a prefix;
else a number or a plain text. -/
theorem C83_reading (nsmap : List (Str × Str)) (ob : Str → Objectified) (node : Term) (g : Graph) (ns name text tail : Str) (attrs : List (Str × Str))
    (hns : '}' ∉ ns) (hname : '}' ∉ name) :
    structuredStep nsmap ob node g (.mk ("{".toList ++ ns ++ "}".toList ++ name) attrs text [] tail) =
      .ok (g.insert ⟨node, .uri (ns ++ name),
        if LooksLikeLink (ob text).shown then .uri (ob text).shown
        else match attrs.lookup "xml:lang".toList, attrs.lookup "{http://www.w3.org/1999/02/22-rdf-syntax-ns#}datatype".toList, (ob text).kind with
          | some l, _, _ => .lit (ob text).shown (some l) none
          | none, some d, _ => .lit (ob text).shown none
              (some (if ¬ "http".toList <+: d ∧ ':' ∈ d then expandNamespace nsmap d else d))
          | none, none, .int => .lit (ob text).shown none (some "http://www.w3.org/2001/XMLSchema#integer".toList)
          | none, none, .float => .lit (ob text).shown none (some "http://www.w3.org/2001/XMLSchema#float".toList)
          | none, none, .other => .lit (ob text).shown none none⟩) := by
  have ht : clarkTag ("{".toList ++ ns ++ "}".toList ++ name) = ('{' :: ns) ++ '}' :: name := by
    show clarkTag (['{'] ++ ns ++ ['}'] ++ name) = _
    rw [clarkTag, if_neg (by simp [startsWith])]
    simp
  have hsp : split '}' (('{' :: ns) ++ '}' :: name) = ['{' :: ns, name] := split_two (by simpa using hns) hname
  rw [structuredStep, Node.tag, ht, if_pos (by simp), hsp]
  dsimp only
  show Except.ok (g.insert ⟨node, .uri ([].append (ns ++ name)), _⟩) = _
  congr 3
  generalize hm : (Node.mk _ attrs text [] tail : Node) = m
  have hx : m.text = text := by rw [← hm]; rfl
  have hg : ∀ k, m.get k = attrs.lookup k := by intro k; rw [← hm]; rfl
  unfold structuredValue
  rw [hx, hg, hg]
  by_cases hk : LooksLikeLink (ob text).shown
  · rw [if_pos ((isLink_iff _).2 hk), if_pos hk]; rfl
  · rw [if_neg (fun h => hk ((isLink_iff _).1 h)), if_neg hk]
    show toTerm (match attrs.lookup ['x', 'm', 'l', ':', 'l', 'a', 'n', 'g'] with
      | some l => _
      | none => _ : Value × Option Str).1 _ = match attrs.lookup ['x', 'm', 'l', ':', 'l', 'a', 'n', 'g'], attrs.lookup ['{', 'h', 't', 't', 'p', ':', '/', '/', 'w', 'w', 'w', '.', 'w', '3', '.', 'o', 'r', 'g', '/', '1', '9', '9', '9', '/', '0', '2', '/', '2', '2', '-', 'r', 'd', 'f', '-', 's', 'y', 'n', 't', 'a', 'x', '-', 'n', 's', '#', '}', 'd', 'a', 't', 'a', 't', 'y', 'p', 'e'], (ob text).kind with
        | some l, _, _ => _
        | none, some d, _ => _
        | none, none, .int => _
        | none, none, .float => _
        | none, none, .other => _
    have hsw : ∀ d : Str, (startsWith d ['h', 't', 't', 'p'] = true) ↔ ['h', 't', 't', 'p'] <+: d := by
      intro d; unfold startsWith; exact List.isPrefixOf_iff_prefix
    cases h1 : attrs.lookup ['x', 'm', 'l', ':', 'l', 'a', 'n', 'g'] with
    | some l => rfl
    | none =>
      dsimp only
      cases h2 : attrs.lookup ['{', 'h', 't', 't', 'p', ':', '/', '/', 'w', 'w', 'w', '.', 'w', '3', '.', 'o', 'r', 'g', '/', '1', '9', '9', '9', '/', '0', '2', '/', '2', '2', '-', 'r', 'd', 'f', '-', 's', 'y', 'n', 't', 'a', 'x', '-', 'n', 's', '#', '}', 'd', 'a', 't', 'a', 't', 'y', 'p', 'e'] with
      | some d =>
        dsimp only
        simp only [hsw]
        rfl
      | none =>
        dsimp only
        cases (ob text).kind <;> rfl

/-- C83. An element without namespace is passed over. -/
theorem C83_reading_no_namespace (nsmap : List (Str × Str)) (ob : Str → Objectified) (node : Term) (g : Graph) (tag : Str) (attrs : List (Str × Str)) (text tail : Str)
    (h : '{' ∉ tag) (hc : ¬ "ti:".toList <+: tag) :
    structuredStep nsmap ob node g (.mk tag attrs text [] tail) = .ok g := by
  have : clarkTag tag = tag := by
    rw [clarkTag, if_neg]
    unfold startsWith
    rw [List.isPrefixOf_iff_prefix]
    exact hc
  rw [structuredStep, Node.tag, this, if_neg h]

/-! ### The hypotheses can be met -/

/-- What `lxml.objectify` makes of some texts. -/
def exOb (s : Str) : Objectified :=
  if s = "1887".toList then ⟨s, .int⟩ else if s = "007".toList then ⟨"7".toList, .int⟩ else ⟨s, .other⟩

/-- Some qualified names. -/
def exQNames : QNames := fun u =>
  if u = "http://purl.org/dc/elements/1.1/creator".toList then .ok ("dc".toList, "http://purl.org/dc/elements/1.1/".toList, "creator".toList)
  else if u = "http://purl.org/dc/elements/1.1/date".toList then .ok ("dc".toList, "http://purl.org/dc/elements/1.1/".toList, "date".toList)
  else if u = "http://purl.org/dc/elements/1.1/relation".toList then .ok ("dc".toList, "http://purl.org/dc/elements/1.1/".toList, "relation".toList)
  else if u = "http://www.w3.org/1999/02/22-rdf-syntax-ns#type".toList then
    .ok ("rdf".toList, "http://www.w3.org/1999/02/22-rdf-syntax-ns#".toList, "type".toList)
  else if u = "http://purl.org/capitains/ns/1.0#structured-metadata".toList then
    .ok ("cpt".toList, "http://purl.org/capitains/ns/1.0#".toList, "structured-metadata".toList)
  else .error .valueError

def exDcTerm (s : String) : Term := .uri ("http://purl.org/dc/elements/1.1/".toList ++ s.toList)

def exStoreGraph : Graph :=
  [⟨.uri exEdition.id, exDcTerm "creator", .lit "Marcus <Valerius> & Martialis".toList (some "lat".toList) none⟩,
   ⟨.uri exEdition.id, exDcTerm "date", .lit "1887".toList none (some "http://www.w3.org/2001/XMLSchema#integer".toList)⟩,
   ⟨.uri exEdition.id, .uri "http://www.w3.org/1999/02/22-rdf-syntax-ns#type".toList, .uri "http://chs.harvard.edu/xmlns/cts/edition".toList⟩,
   ⟨.uri exXWork.id, exDcTerm "relation", .uri "https://latin.packhum.org/loc/1294/2".toList⟩,
   ⟨.uri exXGroup.id, exDcTerm "creator", .lit "Martial".toList none none⟩,
   ⟨.uri "annotsrc".toList, exDcTerm "creator", .lit "Nobody".toList none none⟩]

def exStore : Store := { pf := [], qn := exQNames, order := id, copyOrder := List.reverse, graph := exStoreGraph }

theorem exStore_safe : StoreSafe exStore exPreds where
  header := exPreds_safe
  one := by decide +kernel
  cpt := by decide +kernel
  block := by decide +kernel
  order := fun g => List.Perm.refl g
  copyOrder := fun g => List.reverse_perm g
  set := by decide +kernel

/-- A predicate of the example. -/
theorem exPredicate (u pf ns name : Str) (h : (decide (exQNames u = .ok (pf, ns, name)) && decide (u = ns ++ name) && decide ((pf, ns) ∈ exPreds) &&
    decide (ns ≠ []) && decide (PrefixSafe pf) && decide (NameSafe name) && decide (':' ∉ name) && decide ('}' ∉ u) && decide (ns ≠ ctsNamespace)) = true) :
    PredicateSafe exStore.qn exPreds (.uri u) := by
  simp only [Bool.and_eq_true, decide_eq_true_eq] at h
  obtain ⟨⟨⟨⟨⟨⟨⟨⟨h1, h2⟩, h3⟩, h4⟩, h5⟩, h6⟩, h7⟩, h8⟩, h9⟩ := h
  exact ⟨u, pf, ns, name, rfl, h1, h2, h3, h4, h5, h6, h7, h8, h9⟩

theorem exMeta_safe (id : Str) : NodeSafe exStore exPreds id := by
  have hp : ∀ t ∈ exStoreGraph, PredicateSafe exStore.qn exPreds t.p := by
    intro t ht
    simp only [exStoreGraph, List.mem_cons, List.not_mem_nil, or_false] at ht
    rcases ht with rfl | rfl | rfl | rfl | rfl | rfl
    · exact exPredicate _ "dc".toList "http://purl.org/dc/elements/1.1/".toList "creator".toList (by decide +kernel)
    · exact exPredicate _ "dc".toList "http://purl.org/dc/elements/1.1/".toList "date".toList (by decide +kernel)
    · exact exPredicate _ "rdf".toList "http://www.w3.org/1999/02/22-rdf-syntax-ns#".toList "type".toList (by decide +kernel)
    · exact exPredicate _ "dc".toList "http://purl.org/dc/elements/1.1/".toList "relation".toList (by decide +kernel)
    · exact exPredicate _ "dc".toList "http://purl.org/dc/elements/1.1/".toList "creator".toList (by decide +kernel)
    · exact exPredicate _ "dc".toList "http://purl.org/dc/elements/1.1/".toList "creator".toList (by decide +kernel)
  have hv : ∀ t ∈ exStoreGraph, ValueSafe exPreds t.o := by
    intro t ht
    have hr : ∃ p ∈ exPreds, p.1 = "rdf".toList := by decide +kernel
    simp only [exStoreGraph, List.mem_cons, List.not_mem_nil, or_false] at ht
    rcases ht with rfl | rfl | rfl | rfl | rfl | rfl
    · exact ⟨by decide +kernel, by rintro l ⟨⟩; decide +kernel, by rintro d ⟨⟩⟩
    · exact ⟨by decide +kernel, by rintro l ⟨⟩, by rintro d ⟨⟩; exact ⟨by decide +kernel, hr⟩⟩
    · exact ⟨by decide +kernel, trivial⟩
    · exact ⟨by decide +kernel, trivial⟩
    · exact ⟨by decide +kernel, by rintro l ⟨⟩, by rintro d ⟨⟩⟩
    · exact ⟨by decide +kernel, by rintro l ⟨⟩, by rintro d ⟨⟩⟩
  exact fun t ht _ => ⟨hp t ht, fun _ => hv t ht⟩

/-- C83 applies to an inventory with several objects and metadata of all kinds that survive. -/
example : ∃ s n g', exportInvS exStore (some exPreds) exXInv = .ok s ∧ readCts s = some n ∧ parseInvS [] exOb [] n = .ok (invRead exXInv, g') ∧ g'.Nodup ∧
      ∀ t, t ∈ g' ↔ t ∈ exStoreGraph ∧ (∃ id ∈ innerIds exXInv, t.s = .uri id) ∧ Structured exQNames t.p :=
  C83_same exStore exPreds exStore_safe [] exOb exXInv exXInv_safe (exMeta_safe _) (fun _ _ => exMeta_safe _) (by
    intro t ht _ hst
    by_cases h : t.p = .uri "http://www.w3.org/1999/02/22-rdf-syntax-ns#type".toList
    · exact absurd rfl ((hst "http://www.w3.org/1999/02/22-rdf-syntax-ns#" (by simp)).2 ("rdf".toList, "http://www.w3.org/1999/02/22-rdf-syntax-ns#".toList, "type".toList)
        (by rw [h]; decide +kernel))
    · rw [← C83_value]
      exact (show ∀ t ∈ exStoreGraph, t.p ≠ .uri "http://www.w3.org/1999/02/22-rdf-syntax-ns#type".toList → restored exOb t.o = t.o by decide +kernel) t ht h)

/-- The export of one edition, as text. -/
example : exportTextS exStore (some exPreds) none { exEdition with cite := [], labels := [] } = .ok
    ("<edition urn=\"urn:cts:latinLit:phi1294.phi002.perseus-lat2\" xml:lang=\"lat\" xmlns:rdf=\"http://www.w3.org/1999/02/22-rdf-syntax-ns#\" " ++
     "xmlns=\"http://chs.harvard.edu/xmlns/cts\" xmlns:dc=\"http://purl.org/dc/elements/1.1/\" xmlns:cpt=\"http://purl.org/capitains/ns/1.0#\">\n" ++
     "<cpt:structured-metadata>\n<dc:date rdf:type=\"http://www.w3.org/2001/XMLSchema#integer\">1887</dc:date>\n" ++
     "<dc:creator xml:lang=\"lat\">Marcus &lt;Valerius&gt; &amp; Martialis</dc:creator>\n</cpt:structured-metadata>\n</edition>").toList := by decide +kernel

/-! ### Where the trip changes values -/

/-- The value that one structured metadatum of an edition has after the trip. -/
def metaTrip (o : Term) : Option (List Term) :=
  match exportTextS { exStore with graph := [⟨.uri exEdition.id, exDcTerm "creator", o⟩] } (some exPreds) none exEdition with
  | .error _ => none
  | .ok s =>
    match readCts s with
    | none => none
    | some n =>
      match parseTextS [] exOb .edition (some "lat".toList) [] n with
      | .error _ => none
      | .ok (_, g) => some (g.map Triple.o)

/-- C83. The type of a literal is lost: it is written as `rdf:type` and read as `rdf:datatype`. -/
theorem C83_fails_datatype : metaTrip (.lit "XVII".toList none (some "http://example.org/roman".toList)) = some [.lit "XVII".toList none none] := by
  decide +kernel

/-- C83. A text that looks like a resource becomes one, and its language is lost. -/
theorem C83_fails_link_literal : metaTrip (.lit "http: a protocol".toList (some "eng".toList) none) = some [.uri "http: a protocol".toList] := by
  decide +kernel

/-- C83. A resource of another scheme becomes a text. -/
theorem C83_fails_other_uri : metaTrip (.uri "mailto:martial@example.org".toList) = some [.lit "mailto:martial@example.org".toList none none] := by
  decide +kernel

/-- C83. A text that `lxml.objectify` takes for a number changes, even in a language. -/
theorem C83_fails_number_text : metaTrip (.lit "007".toList (some "eng".toList) none) = some [.lit "7".toList (some "eng".toList) none] := by
  decide +kernel

/-- C83. The structured metadata of the inventory itself are written and not read. -/
theorem C83_fails_inventory : ∃ s n, exportInvS exStore (some exPreds) ⟨"annotsrc".toList, []⟩ = .ok s ∧
    s = ("<TextInventory tiid=\"annotsrc\" xmlns:rdf=\"http://www.w3.org/1999/02/22-rdf-syntax-ns#\" xmlns=\"http://chs.harvard.edu/xmlns/cts\" " ++
      "xmlns:dc=\"http://purl.org/dc/elements/1.1/\" xmlns:cpt=\"http://purl.org/capitains/ns/1.0#\">\n<cpt:structured-metadata>\n" ++
      "<dc:creator >Nobody</dc:creator>\n</cpt:structured-metadata>\n</TextInventory>").toList ∧
    readCts s = some n ∧ ∃ g', parseInvS [] exOb [] n = .ok (⟨"annotsrc".toList, []⟩, g') ∧ ∀ t, t ∉ g' := by
  obtain ⟨s, n, g', h1, h2, h3, h4, _⟩ := C83_inventory exStore exPreds exStore_safe [] exOb ⟨"annotsrc".toList, []⟩
    ⟨by decide +kernel, by decide +kernel, by intro g hg; cases hg⟩ (exMeta_safe _) (fun _ _ => exMeta_safe _) []
  refine ⟨s, n, h1, ?_, h2, g', h3, ?_⟩
  · have e : exportInvS exStore (some exPreds) ⟨"annotsrc".toList, []⟩ = .ok
        ("<TextInventory tiid=\"annotsrc\" xmlns:rdf=\"http://www.w3.org/1999/02/22-rdf-syntax-ns#\" xmlns=\"http://chs.harvard.edu/xmlns/cts\" " ++
      "xmlns:dc=\"http://purl.org/dc/elements/1.1/\" xmlns:cpt=\"http://purl.org/capitains/ns/1.0#\">\n<cpt:structured-metadata>\n" ++
      "<dc:creator >Nobody</dc:creator>\n</cpt:structured-metadata>\n</TextInventory>").toList := by
      decide +kernel
    rw [h1] at e
    injection e
  · intro t ht
    rcases (h4 t).1 ht with h | ⟨u, hu, ⟨id, hid, hs⟩, _, rfl⟩
    · cases h
    · cases hid

end Verif.Props
