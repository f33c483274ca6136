import Verif.Lemmas.Quoting
import Verif.Props.Uri
import Verif.Props.DtsDocument
/-!
C105: the names and values in the addresses of a server's links come back as they were, whatever their characters and however they were
coded: in the links of a document, in the links of pages and in the routes of an entry point.
-/
namespace Verif.Props
open Verif.Py Verif.Model Verif.Spec Verif.Lemmas

/-- C105. However a text is coded in a query, decoding gives the text. -/
theorem C105_decode (v w : Str) (h : Quotes v w) : unquotePlus w = v := unquotePlus_quoted h

theorem quotePlus_quotes : ∀ v : Str, Quotes v (quotePlus v)
  | [] => .nil
  | c :: v => by
    have ih := quotePlus_quotes v
    rw [quotePlus, List.flatMap_cons]
    split
    · rename_i h
      refine .plain ?_ ih
      intro hm
      simp only [List.mem_cons, List.not_mem_nil, or_false] at hm
      rcases hm with rfl | rfl | rfl | rfl | rfl | rfl <;> revert h <;> decide
    · split
      · rename_i h
        subst h
        exact .space ih
      · exact .coded true ih

/-- C105. In particular every text comes back from what `quote_plus` makes of it. -/
theorem C105_quote (v : Str) : unquotePlus (quotePlus v) = v := C105_decode v _ (quotePlus_quotes v)

/-- C105. So two texts are never coded alike. -/
theorem C105_injective (v v' w : Str) (h : Quotes v w) (h' : Quotes v' w) : v = v' := by
  rw [← C105_decode v w h, C105_decode v' w h']

/-- C105. The parameters of the address of a link, in their order. -/
theorem C105_link (href : Str) (pairs : List (Str × Str)) (h : AddressOf href pairs) : linkQuery href = pairs := linkQuery_address h

theorem dictToRef_names {pairs : List (Str × Str)} {r : DtsRef} (hv : ∀ p ∈ pairs, p.2 ≠ []) (h : NamesRef pairs r) : dictToRef pairs = some r := by
  have hq : ∀ name : String, queryValue pairs name.toList = param pairs name := by
    intro name
    simp only [queryValue, param]
    congr 2
    funext p
    by_cases h : p.1 = name.toList <;> simp [h]
  have hne : ∀ (name : String) v, param pairs name = some v → ∃ c r, v = c :: r := by
    intro name v h
    simp only [param, Option.map_eq_some_iff] at h
    obtain ⟨p, hp, rfl⟩ := h
    have := hv p (List.mem_of_find?_eq_some hp)
    cases hh : p.2 with
    | nil => exact absurd hh this
    | cons c r => exact ⟨c, r, rfl⟩
  have e1 : kRef = "ref".toList := by decide
  have e2 : kStart = "start".toList := by decide
  have e3 : kEnd = "end".toList := by decide
  cases h with
  | one h =>
    obtain ⟨c, t, rfl⟩ := hne _ _ h
    simp only [dictToRef, e1, hq, h]
  | range h1 h2 h3 =>
    obtain ⟨c, t, rfl⟩ := hne _ _ h2
    obtain ⟨c', t', rfl⟩ := hne _ _ h3
    simp only [dictToRef, e1, e2, e3, hq, h1, h2, h3]

theorem linkOf_last {links : List Link} {rel : String} {l : Link} (h : LastOf links rel l) :
    linkOf (links.map fun l => ⟨l.rel, linkQuery l.href⟩) rel.toList = some (linkQuery l.href) := by
  obtain ⟨b, a, rfl, hr, ha⟩ := h
  rw [linkOf_iff]
  refine ⟨b.map fun l => ⟨l.rel, linkQuery l.href⟩, a.map fun l => ⟨l.rel, linkQuery l.href⟩, by simp [hr], ?_⟩
  intro x hx
  obtain ⟨y, hy, rfl⟩ := List.mem_map.1 hx
  exact ha y hy

theorem linkOf_absent {links : List Link} {rel : String} (h : ∀ l ∈ links, l.rel ≠ rel.toList) :
    linkOf (links.map fun l => ⟨l.rel, linkQuery l.href⟩) rel.toList = none := by
  cases e : linkOf (links.map fun l => ⟨l.rel, linkQuery l.href⟩) rel.toList with
  | none => rfl
  | some q =>
    obtain ⟨a, b, h1, _⟩ := (linkOf_iff _ _ _).1 e
    have : (⟨rel.toList, q⟩ : DocLink) ∈ links.map fun l => ⟨l.rel, linkQuery l.href⟩ := by rw [h1]; simp
    obtain ⟨y, hy, hh⟩ := List.mem_map.1 this
    exact absurd (congrArg DocLink.rel hh) (h y hy)

theorem linkRef_names {links : List Link} {rel : String} {l : Link} {pairs : List (Str × Str)} {r : DtsRef} (h : LastOf links rel l)
    (ha : AddressOf l.href pairs) (hn : NamesRef pairs r) :
    linkRef (links.map fun l => ⟨l.rel, linkQuery l.href⟩) rel.toList rel.toList = .ok (some r) := by
  have e := linkOf_last h
  rw [C105_link _ _ ha] at e
  obtain ⟨_, _, _, _, _, hne, hv, _, _⟩ := ha
  cases pairs with
  | nil => exact absurd rfl hne
  | cons p ps =>
    simp only [linkRef, e]
    exact congrArg Except.ok (dictToRef_names hv hn)

theorem linkRef_absent {links : List Link} {rel : String} (h : ∀ l ∈ links, l.rel ≠ rel.toList) :
    linkRef (links.map fun l => ⟨l.rel, linkQuery l.href⟩) rel.toList rel.toList = .ok none := by
  simp [linkRef, linkOf_absent h]

/-- C105. The passages around a document are those that the addresses of its links name, whatever the characters of their references: the
last link of a relation counts, and without a link there is none. -/
theorem C105_reading {γ : Type} (id : Str) (ref : DtsRefArg) (links : List Link) (d : DtsDoc γ) (h : documentOf id ref links = .ok d) :
    (∀ l pairs r, LastOf links "next" l → AddressOf l.href pairs → NamesRef pairs r → d.next = some r) ∧
    (∀ l pairs r, LastOf links "prev" l → AddressOf l.href pairs → NamesRef pairs r → d.prev = some r) ∧
    (∀ l pairs r, LastOf links "collection" l → AddressOf l.href pairs → NamesRef pairs r → d.coll = .ref r) ∧
    ((∀ l ∈ links, l.rel ≠ "next".toList) → d.next = none) ∧ ((∀ l ∈ links, l.rel ≠ "prev".toList) → d.prev = none) ∧
    ((∀ l ∈ links, l.rel ≠ "collection".toList) → d.coll = .unset) := by
  have e1 : relNext = "next".toList := by decide
  have e2 : relPrev = "prev".toList := by decide
  have e3 : relCollection = "collection".toList := by decide
  rw [documentOf, openDocument, e1, e2, e3] at h
  cases h1 : linkRef (links.map fun l => ⟨l.rel, linkQuery l.href⟩) "next".toList "next".toList with
  | error e => rw [h1] at h; cases h
  | ok n =>
  cases h2 : linkRef (links.map fun l => ⟨l.rel, linkQuery l.href⟩) "prev".toList "prev".toList with
  | error e => rw [h1, h2] at h; cases h
  | ok p =>
  cases h3 : linkRef (links.map fun l => ⟨l.rel, linkQuery l.href⟩) relParent relUp with
  | error e => rw [h1, h2, h3] at h; cases h
  | ok u =>
  cases h4 : linkRef (links.map fun l => ⟨l.rel, linkQuery l.href⟩) relParent relLast with
  | error e => rw [h1, h2, h3, h4] at h; cases h
  | ok w =>
  cases h5 : linkRef (links.map fun l => ⟨l.rel, linkQuery l.href⟩) "collection".toList "collection".toList with
  | error e => rw [h1, h2, h3, h4, h5] at h; cases h
  | ok c =>
  rw [h1, h2, h3, h4, h5] at h
  cases h
  refine ⟨?_, ?_, ?_, ?_, ?_, ?_⟩
  · intro l pairs r hl ha hn
    rw [linkRef_names hl ha hn] at h1; cases h1; rfl
  · intro l pairs r hl ha hn
    rw [linkRef_names hl ha hn] at h2; cases h2; rfl
  · intro l pairs r hl ha hn
    rw [linkRef_names hl ha hn] at h5; cases h5; rfl
  · intro hl
    rw [linkRef_absent hl] at h1; cases h1; rfl
  · intro hl
    rw [linkRef_absent hl] at h2; cases h2; rfl
  · intro hl
    rw [linkRef_absent hl] at h5; cases h5; rfl

/-- C105. Without a `parent` link the document is read. -/
theorem C105_opens {γ : Type} (id : Str) (ref : DtsRefArg) (links : List Link) (h : ∀ l ∈ links, l.rel ≠ "parent".toList) :
    ∃ d : DtsDoc γ, documentOf id ref links = .ok d := by
  have e : relParent = "parent".toList := by decide
  have hp : ∀ rel, linkRef (links.map fun l => ⟨l.rel, linkQuery l.href⟩) relParent rel = .ok none := by
    intro rel
    rw [e, linkRef, linkOf_absent h]
  have hs : ∀ rel, ∃ o, linkRef (links.map fun l => ⟨l.rel, linkQuery l.href⟩) rel rel = .ok o := by
    intro rel
    unfold linkRef
    cases hh : linkOf (links.map fun l => ⟨l.rel, linkQuery l.href⟩) rel with
    | none => exact ⟨_, rfl⟩
    | some q => cases q <;> exact ⟨_, rfl⟩
  obtain ⟨n, hn⟩ := hs relNext
  obtain ⟨p, hp'⟩ := hs relPrev
  obtain ⟨c, hc⟩ := hs relCollection
  rw [documentOf, openDocument, hn, hp', hp, hp, hc]
  exact ⟨_, rfl⟩

/-- C105. The parameters of a route that an entry point announces are kept for its requests: each name with its values in order. -/
theorem C105_routes (endpoint uri : Str) (pairs : List (Str × Str)) (h : AddressOf uri pairs) (k : Str) :
    ((parseUri unquotePlus uri endpoint).2.find? fun x => x.1 == k).map (·.2) =
      match (pairs.filter fun q => q.1 == k).map (·.2) with
      | [] => none
      | vs => some vs := by
  have e := C105_link uri pairs h
  rw [linkQuery] at e
  unfold parseUri
  simp only [queryDict]
  rw [e, foldl_addQueryValue_find]
  cases (pairs.filter fun q => q.1 == k).map (·.2) <;> simp

theorem quotes_append {v w v' w' : Str} (h : Quotes v w) (h' : Quotes v' w') : Quotes (v ++ v') (w ++ w') := by
  induction h with
  | nil => exact h'
  | plain hc _ ih => exact .plain hc ih
  | space _ ih => exact .space ih
  | coded capital _ ih =>
    rw [List.append_assoc]
    exact .coded capital ih

theorem queryGet_page {l : Link} {v : Str} (h : PageLink l v) : ∃ vs, queryGet unquotePlus l.href kPage = some (v :: vs) := by
  obtain ⟨base, base', ⟨k, x⟩, ps, written, hb, hw, hv, hp, hl⟩ := h
  cases hw with
  | @cons _ _ k' x' _ r' hk hx hr =>
  have hall : QuotesAll ((base ++ '?' :: k, x) :: ps) ((base' ++ '?' :: k', x') :: r') :=
    .cons (quotes_append hb (.plain (by decide) hk)) hx hr
  have hjoin : l.href = join ['&'] (((base' ++ '?' :: k', x') :: r').map pairText) := by
    rw [hl]
    cases r' with
    | nil => simp [pairText]
    | cons y ys =>
      show base' ++ '?' :: join ['&'] (pairText (k', x') :: (y :: ys).map pairText) =
        join ['&'] (pairText (base' ++ '?' :: k', x') :: (y :: ys).map pairText)
      rw [join_cons_ne_nil _ _ (by simp), join_cons_ne_nil _ _ (by simp)]
      simp [pairText]
  have hv' : ∀ p ∈ (base ++ '?' :: k, x) :: ps, p.2 ≠ [] := by
    intro p hp
    rcases List.mem_cons.1 hp with rfl | hp
    · exact hv (k, x) (by simp)
    · exact hv p (by simp [hp])
  have hne : base ++ '?' :: k ≠ kPage := by
    intro e
    have : '?' ∈ kPage := by rw [← e]; simp
    revert this
    decide
  rw [queryGet, hjoin, queryPairs_quoted hall (by simp) hv', List.filter_cons_of_neg (by simpa using hne)]
  simp only [param, Option.map_eq_some_iff] at hp
  obtain ⟨q, hq, rfl⟩ := hp
  have e : kPage = "page".toList := by decide
  have hq' : ps.find? (fun p => p.1 == kPage) = some q := by
    rw [← hq, e]
    congr 1
    funext p
    exact Bool.eq_iff_iff.2 (by rw [beq_iff_eq, decide_eq_true_iff])
  rw [← List.head?_filter] at hq'
  obtain ⟨l', hl'⟩ := List.head?_eq_some_iff.mp hq'
  rw [hl']
  exact ⟨l'.map (·.2), rfl⟩

theorem linkPage_page {links : List Link} {rel : String} {l : Link} (h : LastOf links rel l) {v : Str} (hv : PageLink l v) :
    linkPage unquotePlus links rel.toList = .ok (some v) := by
  obtain ⟨before, after, rfl, hr, ha⟩ := h
  obtain ⟨vs, hq⟩ := queryGet_page hv
  have : (before ++ l :: after).reverse.find? (fun l => l.rel == rel.toList) = some l := by
    rw [List.reverse_append, List.reverse_cons, List.append_assoc, List.find?_append, List.find?_eq_none.mpr]
    · simp [hr]
    · intro x hx
      simpa using ha x (by simpa using hx)
  simp only [linkPage, linkPages, this, Option.map_some, hq]

/-- C105. The pages reported for previous, next, last, current and first are those that the (last) link of that relation names, however
they are coded, and none where there is no such link. -/
theorem C105_pages (links : List Link) (h : ∀ l ∈ links, ∃ v, PageLink l v) :
    ∃ nav, parsePagination unquotePlus links = .ok nav ∧
      ∀ rel page, (rel, page) ∈ [("previous", nav.prev), ("next", nav.next), ("last", nav.last), ("current", nav.current), ("first", nav.first)] →
        (∀ l v, LastOf links rel l → PageLink l v → page = some v) ∧ ((∀ l ∈ links, l.rel ≠ rel.toList) → page = none) := by
  have hok : ∀ rel : String, ∃ o, linkPage unquotePlus links rel.toList = .ok o := by
    intro rel
    rcases last_or_absent links rel.toList with ⟨b, l, a, e, h1, h2⟩ | h'
    · obtain ⟨v, hv⟩ := h l (by rw [e]; simp)
      exact ⟨_, linkPage_page ⟨b, a, e, h1, h2⟩ hv⟩
    · exact ⟨_, linkPage_absent unquotePlus links rel h'⟩
  obtain ⟨o1, h1⟩ := hok "previous"
  obtain ⟨o2, h2⟩ := hok "next"
  obtain ⟨o3, h3⟩ := hok "last"
  obtain ⟨o4, h4⟩ := hok "current"
  obtain ⟨o5, h5⟩ := hok "first"
  refine ⟨⟨o1, o2, o3, o4, o5⟩, ?_, ?_⟩
  · have e1 : rPrevious = "previous".toList := by decide
    have e2 : rNext = "next".toList := by decide
    have e3 : rLast = "last".toList := by decide
    have e4 : rCurrent = "current".toList := by decide
    have e5 : rFirst = "first".toList := by decide
    simp only [parsePagination, e1, e2, e3, e4, e5, h1, h2, h3, h4, h5]
  · intro rel page hm
    have key : ∀ o, linkPage unquotePlus links rel.toList = .ok o →
        (∀ l v, LastOf links rel l → PageLink l v → o = some v) ∧ ((∀ l ∈ links, l.rel ≠ rel.toList) → o = none) := by
      intro o ho
      refine ⟨fun l v hl hv => ?_, fun ha => ?_⟩
      · rw [linkPage_page hl hv] at ho; cases ho; rfl
      · rw [linkPage_absent unquotePlus links rel ha] at ho; cases ho; rfl
    simp only [List.mem_cons, Prod.mk.injEq, List.not_mem_nil, or_false] at hm
    rcases hm with ⟨rfl, rfl⟩ | ⟨rfl, rfl⟩ | ⟨rfl, rfl⟩ | ⟨rfl, rfl⟩ | ⟨rfl, rfl⟩
    · exact key _ h1
    · exact key _ h2
    · exact key _ h3
    · exact key _ h4
    · exact key _ h5

/-- C105, where the natural claim fails: a server that writes the reference `Α+1` as it is names another one, with a space. -/
theorem C105_fails_plus :
    ∃ d : DtsDoc Nat, documentOf "urn:x".toList .none [⟨"next".toList, "/document?id=urn:x&ref=Α+1".toList⟩] = .ok d ∧
      d.next = some ⟨"Α 1".toList, none, none⟩ := by
  refine ⟨_, rfl, ?_⟩
  decide +kernel

/-- C105, where the natural claim fails: a reference with a subreference mark, written as it is, is cut at the mark `#`. -/
theorem C105_fails_hash :
    ∃ d : DtsDoc Nat, documentOf "urn:x".toList .none [⟨"next".toList, "/document?id=urn:x&ref=1#2".toList⟩] = .ok d ∧
      d.next = some ⟨"1".toList, none, none⟩ := by
  refine ⟨_, rfl, ?_⟩
  decide +kernel

/-- C105, where the natural claim fails: a server that codes by Latin-1 names another reference, without any error. -/
theorem C105_fails_latin :
    ∃ d : DtsDoc Nat, documentOf "urn:x".toList .none [⟨"next".toList, "/document?id=urn:x&ref=%E9".toList⟩] = .ok d ∧
      d.next = some ⟨[Char.ofNat 0xfffd], none, none⟩ := by
  refine ⟨_, rfl, ?_⟩
  decide +kernel

/-! ### Cases -/

/-- A reference in Greek, with a space and an ampersand. -/
def greekRef : Str := "Γ 2&μ".toList

/-- The same, partly coded. -/
def greekHref : Str := "http://h/document?id=urn%3Ax&ref=Γ+2%26%ce%bc#top".toList

theorem greek_quotes : Quotes greekRef "Γ+2%26%ce%bc".toList :=
  .plain (by decide) (.space (.plain (by decide) (.coded (c := '&') true (.coded (c := 'μ') false .nil))))

theorem greek_address : AddressOf greekHref [("id".toList, "urn:x".toList), ("ref".toList, greekRef)] := by
  refine ⟨"http://h/document".toList, [("id".toList, "urn%3Ax".toList), ("ref".toList, "Γ+2%26%ce%bc".toList)], some "top".toList,
    by decide, by decide, by simp, by decide, ?_, by decide +kernel⟩
  refine .cons ?_ ?_ (.cons ?_ greek_quotes .nil)
  · exact .plain (by decide) (.plain (by decide) .nil)
  · exact .plain (by decide) (.plain (by decide) (.plain (by decide) (.coded (c := ':') true (.plain (by decide) .nil))))
  · exact .plain (by decide) (.plain (by decide) (.plain (by decide) .nil))

example : NamesRef [("id".toList, "urn:x".toList), ("ref".toList, greekRef)] ⟨greekRef, none, none⟩ := .one (by decide +kernel)

example : LastOf [⟨"next".toList, "?ref=1".toList⟩, ⟨"next".toList, greekHref⟩, ⟨"prev".toList, "?ref=0".toList⟩] "next" ⟨"next".toList, greekHref⟩ :=
  ⟨[⟨"next".toList, "?ref=1".toList⟩], [⟨"prev".toList, "?ref=0".toList⟩], rfl, rfl, by decide⟩

example : linkQuery greekHref = [("id".toList, "urn:x".toList), ("ref".toList, greekRef)] := by decide +kernel

example : quotePlus greekRef = "%CE%93+2%26%CE%BC".toList := by decide +kernel

example : PageLink ⟨"next".toList, "http://h/collections?id=a%2Bb&page=%32".toList⟩ "2".toList := by
  refine ⟨"http://h/collections".toList, "http://h/collections".toList, ("id".toList, "a+b".toList), [("page".toList, "2".toList)],
    [("id".toList, "a%2Bb".toList), ("page".toList, "%32".toList)], ?_, ?_, by decide, by decide +kernel, by decide +kernel⟩
  · have : ∀ v : Str, (∀ c ∈ v, c ∉ ['%', '+', '&', '=', ';', '#']) → Quotes v v := by
      intro v
      induction v with
      | nil => intro _; exact .nil
      | cons c v ih => intro h; exact .plain (h c (by simp)) (ih fun x hx => h x (by simp [hx]))
    exact this _ (by decide)
  · exact .cons (.plain (by decide) (.plain (by decide) .nil))
      (.plain (by decide) (.coded (c := '+') true (.plain (by decide) .nil)))
      (.cons (.plain (by decide) (.plain (by decide) (.plain (by decide) (.plain (by decide) .nil)))) (.coded (c := '2') true .nil) .nil)

end Verif.Props
