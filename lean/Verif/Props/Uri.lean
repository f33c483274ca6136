import Verif.Props.Retriever
import Verif.Lemmas.Uri
/-!
C89: the addresses of the routes of a DTS endpoint.
-/
namespace Verif.Props
open Verif.Py Verif.Model Verif.Spec Verif.Lemmas.Uri

/-- C89. A route that the entry point gives by a path, with or without query and fragment, is asked for at the address that
RFC 3986 makes of the path relative to the endpoint. -/
theorem C89_address (dec : Str → Str) (e : Endpoint) (he : e.Plain) (p : Str) (hp : PlainPath p) (hne : p ≠ [])
    (hc : ':' ∉ p.takeWhile (· ≠ '/')) (query fragment : Option Str) (hq : ∀ x, query = some x → '#' ∉ x) :
    (parseUri dec (p ++ trailer query fragment) e.text).1 = e.site ++ targetPath e.path p := by
  obtain ⟨hs, h0, h1, h2, h3, hpath, hpp, heq⟩ := he
  have hb : urlparse e.text [] = ⟨e.scheme, e.host, e.path, [], e.query.getD [], []⟩ := by
    have := urlparse_site (d := []) (q := e.query) (f := none) hs h1 h2 h3 hpath hpp heq
    simpa [Endpoint.text, Endpoint.site] using this
  have hu : urlparse p e.scheme = ⟨e.scheme, [], p, [], [], []⟩ := by
    have := urlparse_relative (d := e.scheme) (q := none) (f := none) hp hc (by simp)
    simpa [trailer] using this
  have hsne : e.scheme ≠ [] := by rcases hs with h | h <;> rw [h] <;> decide
  have hk : knownScheme e.scheme = true := by rcases hs with h | h <;> rw [h] <;> decide
  have hbase : e.text ≠ [] := by
    unfold Endpoint.text Endpoint.site
    simp
  unfold parseUri
  rw [urlparse_relative hp hc hq]
  unfold urljoin
  simp only [hb, hu]
  rw [if_neg hbase, if_neg hne, if_neg (by simp [hk]), if_neg (by simp), if_neg (by simp [hne])]
  unfold urlunparse
  simp only [ne_eq, not_true_eq_false, if_false, h0, not_false_eq_true, true_or, if_true, hsne]
  have := joinPaths_target hpp hpath.2.2.2 hne hp.2.2.2
  simp only [ne_eq] at this
  rw [this]
  simp [Endpoint.site]

/-- `./collections/` at an endpoint with a port and a query of its own. -/
example : (parseUri id "./collections/../x?a=1".toList "https://h.org:80/api/dts/?k=v".toList).1 = "https://h.org:80/api/dts/x".toList ∧
    (⟨"https".toList, "h.org:80".toList, "/api/dts/".toList, some "k=v".toList⟩ : Endpoint).text = "https://h.org:80/api/dts/?k=v".toList ∧
    PlainPath "./collections/../x".toList := by
  refine ⟨by decide +kernel, by decide +kernel, by decide +kernel, by decide +kernel, by decide +kernel, by decide +kernel⟩

/-- C89. A path without dots below an endpoint whose path ends with a slash. -/
theorem C89_below (dec : Str → Str) (e : Endpoint) (he : e.Plain) (dir p : Str) (hdir : e.path = dir ++ ['/']) (hp : PlainPath p) (hne : p ≠ [])
    (h1 : ¬ ['/'].isPrefixOf p) (hc : ':' ∉ p.takeWhile (· ≠ '/')) (hdots : ∀ s ∈ split '/' (e.path ++ p), s ≠ ['.'] ∧ s ≠ ['.', '.']) :
    (parseUri dec p e.text).1 = e.site ++ e.path ++ p := by
  have h := C89_address dec e he p hp hne hc none none (by simp)
  simp only [trailer, List.append_nil] at h
  rw [h, List.append_assoc]
  congr 1
  have hm : mergePaths e.path p = e.path ++ p := by
    rw [mergePaths, if_neg (by simp [hdir]), hdir]; simp
  obtain ⟨y, hy⟩ : ∃ y, e.path = '/' :: y := by
    rcases he.2.2.2.2.2.2.1 with h | h
    · simp [hdir] at h
    · cases hh : e.path with
      | nil => simp [hdir] at hh
      | cons c r => rw [hh] at h; simp at h; exact ⟨r, by rw [h]⟩
  have hflat : e.path ++ p = flat (split '/' (y ++ p)) := by
    rw [flat_eq_join (split_ne_nil _ _), join_split, hy]; rfl
  have hd : ∀ s ∈ split '/' (y ++ p), s ≠ ['.'] ∧ s ≠ ['.', '.'] := by
    intro s hs; exact hdots s (by rw [hy]; simp [hs])
  have push : ∀ (l st : List Str), (∀ s ∈ l, s ≠ ['.'] ∧ s ≠ ['.', '.']) → finish st l = st ++ l := by
    intro l
    induction l with
    | nil => intro st _; simp [finish_nil]
    | cons x r ih =>
      intro st hl
      rw [finish_push _ (hl x (by simp)).1 (hl x (by simp)).2, ih _ (fun s hs => hl s (by simp [hs]))]; simp
  rw [targetPath, if_neg h1, hm, hflat]
  have := removeDots_flat (split '/' (y ++ p)) [] ((flat (split '/' (y ++ p))).length + 1) (fun s => not_mem_of_mem_split) (by simp) (by omega)
  rw [flat_nil] at this
  rw [this, push _ _ hd, List.nil_append]

example : (parseUri id "collections/".toList "http://domainname.com/api/dts/".toList).1 = "http://domainname.com/api/dts/collections/".toList := by
  decide +kernel

/-- C89. A route that is only a query is asked for at the endpoint. -/
theorem C89_query_only (dec : Str → Str) (endpoint : Str) (query fragment : Option Str) (hq : ∀ x, query = some x → '#' ∉ x) :
    (parseUri dec (trailer query fragment) endpoint).1 = endpoint := by
  have h := urlparse_relative (p := []) (d := []) (q := query) (f := fragment)
    ⟨by simp, by simp, by simp, by simp⟩ (by simp) hq
  simp only [List.nil_append] at h
  unfold parseUri
  rw [h]
  simp only [urljoin]
  split
  · simp_all
  · simp

example : parseUri id "?api=documents".toList "http://domainname.com/api/dts/".toList =
    ("http://domainname.com/api/dts/".toList, [("api".toList, ["documents".toList])]) := by decide +kernel

/-- The values of a name, as a dictionary gives them. -/
private theorem addQueryValue_find (l : List (Str × List Str)) (p : Str × Str) (k : Str) :
    ((addQueryValue l p).find? fun x => x.1 == k).map (·.2) =
      if p.1 = k then some ((((l.find? fun x => x.1 == k).map (·.2)).getD []) ++ [p.2]) else (l.find? fun x => x.1 == k).map (·.2) := by
  induction l with
  | nil => by_cases h : p.1 = k <;> simp [addQueryValue, h]
  | cons q r ih =>
    unfold addQueryValue
    by_cases h : q.1 = p.1
    · rw [if_pos h]
      by_cases hk : p.1 = k
      · simp [h, hk]
      · simp [h, hk, beq_eq_false_iff_ne.2 hk]
    · rw [if_neg h]
      by_cases hq : q.1 = k
      · have : ¬ p.1 = k := fun e => h (hq.trans e.symm)
        simp [hq, this]
      · simp only [List.find?_cons, beq_eq_false_iff_ne.2 hq]
        exact ih

theorem foldl_addQueryValue_find (pairs : List (Str × Str)) (k : Str) : ∀ l : List (Str × List Str),
    ((pairs.foldl addQueryValue l).find? fun x => x.1 == k).map (·.2) =
      match (pairs.filter fun p => p.1 == k).map (·.2) with
      | [] => (l.find? fun x => x.1 == k).map (·.2)
      | vs => some ((((l.find? fun x => x.1 == k).map (·.2)).getD []) ++ vs) := by
  induction pairs with
  | nil => intro l; rfl
  | cons p r ih =>
    intro l
    rw [List.foldl_cons, ih, addQueryValue_find]
    by_cases h : p.1 = k
    · simp only [h, if_true, List.filter_cons, beq_self_eq_true, List.map_cons, Option.getD_some]
      split
      · next e => simp [e]
      · next e => simp
    · simp only [h, if_false, List.filter_cons, beq_eq_false_iff_ne.2 h]
      simp

/-- C89. The parameters of the query of a route are kept for its requests: each name with its values in order. -/
theorem C89_parameters (dec : Str → Str) (hdec : Decoding dec) (endpoint p : Str) (hp : PlainPath p) (hc : ':' ∉ p.takeWhile (· ≠ '/'))
    (pairs : List (Str × Str)) (hne : pairs ≠ []) (h : ∀ q ∈ pairs, PlainQuery q.1 ∧ PlainQuery q.2 ∧ q.2 ≠ [])
    (hh : ∀ q ∈ pairs, '#' ∉ q.1 ∧ '#' ∉ q.2) (fragment : Option Str) (k : Str) :
    ((parseUri dec (p ++ trailer (some (join ['&'] (pairs.map pairText))) fragment) endpoint).2.find? fun x => x.1 == k).map (·.2) =
      match (pairs.filter fun q => q.1 == k).map (·.2) with
      | [] => none
      | vs => some vs := by
  have hq : '#' ∉ join ['&'] (pairs.map pairText) := by
    refine not_mem_join (by simp) ?_
    intro x hx
    obtain ⟨q, hq, rfl⟩ := List.mem_map.1 hx
    have := hh q hq
    simp [pairText, this.1, this.2]
  unfold parseUri
  rw [urlparse_relative hp hc (by rintro x ⟨⟩; exact hq)]
  simp only [Option.getD_some, queryDict]
  rw [queryPairs_plain dec hdec pairs hne h, foldl_addQueryValue_find]
  split <;> simp_all

example : (parseUri id "x/?a=1&b=2&a=3#top".toList "http://h/".toList).2 = [("a".toList, ["1".toList, "3".toList]), ("b".toList, ["2".toList])] := by
  decide +kernel

/-- C89. The three routes are read from the three keys of the entry point, whatever else it says; when one is missing, asking for any
route raises `KeyError`. -/
theorem C89_routes (dec : Str → Str) (data : List (Str × Str)) (hnd : (data.map (·.1)).Nodup) (endpoint : Str) :
    (∀ c d n, ("collections".toList, c) ∈ data → ("documents".toList, d) ∈ data → ("navigation".toList, n) ∈ data →
      dtsRoutes dec data endpoint = .ok [("collections".toList, parseUri dec c endpoint), ("documents".toList, parseUri dec d endpoint),
        ("navigation".toList, parseUri dec n endpoint)]) ∧
    ((∃ key ∈ ["collections".toList, "documents".toList, "navigation".toList], ∀ p ∈ data, p.1 ≠ key) →
      dtsRoutes dec data endpoint = .error .keyError) := by
  have hmiss : ∀ key, (∀ p ∈ data, p.1 ≠ key) → entryGet data key = .error .keyError := by
    intro key h
    have : (data.find? fun p => p.1 == key) = none := by simpa using h
    simp [entryGet, this]
  have hok : ∀ key, (∃ v, entryGet data key = .ok v) ∨ entryGet data key = .error .keyError := by
    intro key
    unfold entryGet
    cases data.find? fun p => p.1 == key <;> simp
  have hmem : ∀ (data : List (Str × Str)), (data.map (·.1)).Nodup → ∀ key v, (key, v) ∈ data → entryGet data key = .ok v := by
    intro data
    induction data with
    | nil => simp
    | cons q r ih =>
      intro hnd key v hm
      simp only [List.map_cons, List.nodup_cons] at hnd
      rcases List.mem_cons.1 hm with rfl | hm
      · simp [entryGet]
      · have hne : q.1 ≠ key := fun e => hnd.1 (List.mem_map.2 ⟨_, hm, e.symm⟩)
        have := ih hnd.2 key v hm
        unfold entryGet at this ⊢
        rw [List.find?_cons, show (q.1 == key) = false by simpa using hne]
        exact this
  constructor
  · intro c d n h1 h2 h3
    replace h1 := hmem data hnd _ _ h1
    replace h2 := hmem data hnd _ _ h2
    replace h3 := hmem data hnd _ _ h3
    have h1' : entryGet data ['c','o','l','l','e','c','t','i','o','n','s'] = .ok c := h1
    have h2' : entryGet data ['d','o','c','u','m','e','n','t','s'] = .ok d := h2
    have h3' : entryGet data ['n','a','v','i','g','a','t','i','o','n'] = .ok n := h3
    unfold dtsRoutes
    rw [h1', h2', h3']
    rfl
  · rintro ⟨key, hk, h⟩
    have hm := hmiss key h
    have e1 := hok ['c','o','l','l','e','c','t','i','o','n','s']
    have e2 := hok ['d','o','c','u','m','e','n','t','s']
    have e3 := hok ['n','a','v','i','g','a','t','i','o','n']
    unfold dtsRoutes
    simp only [List.mem_cons, List.not_mem_nil, or_false] at hk
    rcases hk with rfl | rfl | rfl
    · have hm' : entryGet data ['c','o','l','l','e','c','t','i','o','n','s'] = .error .keyError := hm
      rw [hm']
    · have hm' : entryGet data ['d','o','c','u','m','e','n','t','s'] = .error .keyError := hm
      rcases e1 with ⟨v, e1⟩ | e1
      · rw [e1, hm']
      · rw [e1]
    · have hm' : entryGet data ['n','a','v','i','g','a','t','i','o','n'] = .error .keyError := hm
      rcases e1 with ⟨v, e1⟩ | e1
      · rcases e2 with ⟨w, e2⟩ | e2
        · rw [e1, e2, hm']
        · rw [e1, e2]
      · rw [e1]

example : (dtsRoutes id [("@id".toList, "/dts/api/".toList), ("collections".toList, "./collections/".toList),
      ("documents".toList, "./documents/".toList), ("navigation".toList, "./navigation".toList)] "http://domainname.com/api/dts/".toList).toOption.map (·.map fun r => r.2.1) =
    some ["http://domainname.com/api/dts/collections/".toList, "http://domainname.com/api/dts/documents/".toList,
      "http://domainname.com/api/dts/navigation".toList] := by decide +kernel

/-- C89. The first request of a new retriever goes to the entry point, and the second one to the address of the route, with the parameters of
the route and those of the call. -/
theorem C89_request (dec : Str → Str) (data : List (Str × Str)) (e : Endpoint) (he : e.Plain) (p d n : Str) (hp : PlainPath p) (hne : p ≠ [])
    (hc : ':' ∉ p.takeWhile (· ≠ '/')) (query : Option Str) (hq : ∀ x, query = some x → '#' ∉ x)
    (hnd : (data.map (·.1)).Nodup) (h1 : ("collections".toList, p ++ trailer query none) ∈ data) (h2 : ("documents".toList, d) ∈ data)
    (h3 : ("navigation".toList, n) ∈ data) (ps defaults : List (Str × Val)) :
    ∃ routes, dtsRoutes dec data e.text = .ok routes ∧
      (newRetriever.call routes "collections".toList ps defaults).1.log =
        [.entry, .get (e.site ++ targetPath e.path p) (dtsCall (queryDict dec (query.getD [])) ps defaults)] := by
  refine ⟨_, (C89_routes dec data hnd e.text).1 _ d n h1 h2 h3, ?_⟩
  have ha := C89_address dec e he p hp hne hc query none hq
  have hb : (parseUri dec (p ++ trailer query none) e.text).2 = queryDict dec (query.getD []) := by
    simp only [parseUri, urlparse_relative hp hc hq]
  rw [← ha, ← hb]
  generalize "collections".toList = k
  simp [newRetriever, DtsRetriever.call, DtsRetriever.getRoutes]

/-- C89 fails: a route on another host is asked for on the host of the endpoint. For the scheme and the host that the entry point gives
are dropped, whatever they are. -/
theorem C89_fails_host (dec : Str → Str) (e : Endpoint) (he : e.Plain) (scheme host p : Str)
    (hs : scheme = "http".toList ∨ scheme = "https".toList) (h1 : '/' ∉ host) (h2 : '?' ∉ host) (h3 : '#' ∉ host)
    (hp : PlainPath p) (hpp : ['/'].isPrefixOf p) (query fragment : Option Str) (hq : ∀ x, query = some x → '#' ∉ x) :
    (parseUri dec (scheme ++ "://".toList ++ host ++ p ++ trailer query fragment) e.text).1 = e.site ++ targetPath e.path p := by
  have hne : p ≠ [] := by rintro rfl; simp at hpp
  have hc : ':' ∉ p.takeWhile (· ≠ '/') := by
    cases p with
    | nil => simp
    | cons c r => simp at hpp; simp [← hpp]
  rw [← C89_address dec e he p hp hne hc none none (by simp)]
  simp only [parseUri, urlparse_site hs h1 h2 h3 hp (.inr hpp) hq, urlparse_relative (q := none) (f := none) hp hc (by simp)]

example : (parseUri id "http://other.org/collections/".toList "http://domainname.com/api/dts/".toList).1 =
    "http://domainname.com/collections/".toList := by decide +kernel

/-- C89 fails: parameters after a semicolon are lost; two slashes after the host make the first segment the host; empty segments are
squeezed, which RFC 3986 does not do; and below an endpoint without a slash at its end, its last segment is replaced (as the RFC says). -/
theorem C89_fails_shapes :
    (parseUri id "collections;v=2".toList "http://h/dts/".toList).1 = "http://h/dts/collections".toList ∧
    (parseUri id "http://h//collections/".toList "http://h/dts/".toList).1 = "http://collections/".toList ∧
    (parseUri id "a//b".toList "http://h/dts/".toList).1 = "http://h/dts/a/b".toList ∧
    targetPath "/dts/".toList "a//b".toList = "/dts/a//b".toList ∧
    (parseUri id "collections/".toList "http://h/api/dts".toList).1 = "http://h/api/collections/".toList := by decide +kernel

/-- C89. Other addresses. Parameters after a semicolon are dropped in the last segment alone; what looks like a scheme before a colon is
dropped, and it begins with a letter and has letters, digits, `+`, `-` and `.`; an endpoint may be an address over FTP, or have no scheme or no
host. C89 fails for an endpoint with a scheme unknown to urllib: the path is asked for as it is. -/
theorem C89_other_addresses :
    (let ask (u e : String) (r : String) : Bool := (parseUri id u.toList e.toList).1 == r.toList
     ask "a/b;v=2" "ftp://h/dts/x" "ftp://h/dts/a/b" && ask "c;x/b;v=2/d" "http://h/dts/" "http://h/dts/c;x/b;v=2/d" &&
     ask "c;x/b;v=2" "http://h/dts;y/z/q;r" "http://h/dts;y/z/c;x/b" && ask ";a" "http://h/b;c/d;e" "http://h/b;c/d;e" &&
     ask "../c;p/b" "http://a1/x;y/z" "http://a1/c;p/b" &&
     ask "mailto:a" "http://h/dts/" "http://h/dts/a" && ask "abz+1:x;y" "http://h/d/" "http://h/d/x;y" &&
     ask "A.b-c:x" "http://h/d/" "http://h/d/x" && ask "Z:x" "http://h/d/" "http://h/d/x" && ask "zA:x" "http://h/d/" "http://h/d/x" &&
     ask "a:x" "http://h/d/" "http://h/d/x" && ask "~:x" "http://h/d/" "http://h/d/~:x" && ask "1a:x" "http://h/d/" "http://h/d/1a:x" &&
     ask "//k/x" "http://h/" "http://h/x" && ask "x" "//h/dts/" "//h/dts/x" && ask "x/y" "dts/" "dts/x/y" &&
     ask "x" "http:///a/b" "http:///a/x" && ask "x/." "http:////h/y/" "http:///h/y/x/" && ask "x" "HTTP://h/d/" "http://h/d/x" &&
     ask "/.//a" "http:///b" "http:////a" && ask "/.//a" "http://b" "http://b//a" &&
     ask "x" "foo+b.c-1://h/dts/" "x") = true := by decide +kernel

end Verif.Props
