import Verif.Py.Str
/-!
Specification vocabulary for addresses (C89): resolution of a relative reference, after RFC 3986, section 5.
-/
namespace Verif.Spec
open Verif.Py

/-- The first segment of a path, with the slash that it begins with, if any. -/
def firstSegment : Str → Str
  | [] => []
  | c :: r => c :: r.takeWhile (· ≠ '/')

/-- The path without its last segment and the slash before it. -/
def withoutLastSegment (out : Str) : Str := ((out.reverse.dropWhile (· ≠ '/')).drop 1).reverse

/-- RFC 3986, 5.2.4, "remove_dot_segments": `fuel` bounds the number of steps. -/
def removeDots : Nat → Str → Str → Str
  | 0, _, out => out
  | fuel + 1, inp, out =>
    if inp = [] then out
    -- A
    else if "../".toList.isPrefixOf inp then removeDots fuel (inp.drop 3) out
    else if "./".toList.isPrefixOf inp then removeDots fuel (inp.drop 2) out
    -- B
    else if "/./".toList.isPrefixOf inp then removeDots fuel (inp.drop 2) out
    else if inp = "/.".toList then removeDots fuel ['/'] out
    -- C
    else if "/../".toList.isPrefixOf inp then removeDots fuel (inp.drop 3) (withoutLastSegment out)
    else if inp = "/..".toList then removeDots fuel ['/'] (withoutLastSegment out)
    -- D
    else if inp = ".".toList ∨ inp = "..".toList then removeDots fuel [] out
    -- E
    else removeDots fuel (inp.drop (firstSegment inp).length) (out ++ firstSegment inp)

/-- RFC 3986, 5.2.3: the path of a base with a host, and that of a relative reference. -/
def mergePaths (base path : Str) : Str :=
  if base = [] then '/' :: path else (base.reverse.dropWhile (· ≠ '/')).reverse ++ path

/-- RFC 3986, 5.2.2, for a reference that has a path and no scheme and no host. -/
def targetPath (base path : Str) : Str :=
  let p := if ['/'].isPrefixOf path then path else mergePaths base path
  removeDots (p.length + 1) p []

/-- `?query` and `#fragment`, where there are some. -/
def trailer (query fragment : Option Str) : Str :=
  (match query with | some q => '?' :: q | none => []) ++ (match fragment with | some f => '#' :: f | none => [])

/-- An endpoint: its scheme, its host with or without a port, its path and its query. -/
structure Endpoint where
  scheme : Str
  host : Str
  path : Str
  query : Option Str

/-- `scheme://host`. -/
def Endpoint.site (e : Endpoint) : Str := e.scheme ++ "://".toList ++ e.host

/-- The text of the address. -/
def Endpoint.text (e : Endpoint) : Str := e.site ++ e.path ++ trailer e.query none

/-- A path without query, fragment or parameters, and without empty segments inside. -/
def PlainPath (p : Str) : Prop := '?' ∉ p ∧ '#' ∉ p ∧ ';' ∉ p ∧ ¬ ['/', '/'] <:+: p

/-- An address over HTTP, with an absolute path or none. -/
def Endpoint.Plain (e : Endpoint) : Prop :=
  (e.scheme = "http".toList ∨ e.scheme = "https".toList) ∧
  e.host ≠ [] ∧ '/' ∉ e.host ∧ '?' ∉ e.host ∧ '#' ∉ e.host ∧
  PlainPath e.path ∧ (e.path = [] ∨ ['/'].isPrefixOf e.path) ∧
  (∀ q, e.query = some q → '#' ∉ q)

end Verif.Spec
