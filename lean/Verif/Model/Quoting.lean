import Verif.Model.Uri
import Verif.Model.DtsDocument
/-!
The decoding of queries (`parse_qs` of urllib.parse, CPython 3.11, which the code calls in common/utils/_http.py 19 and 44 and in
resources/texts/remote/dts/_resolver_v1.py 92), and documents from the links of a header. Bytes are decoded by the definitions of Lean's
own library. Parsing the header into links (`link_header`) is not modelled.
-/
namespace Verif.Model
open Verif.Py

/-- The value of a hexadecimal digit: `_hextobyte` of urllib.parse. -/
def hexVal (c : Char) : Option Nat :=
  if 48 ≤ c.toNat ∧ c.toNat ≤ 57 then some (c.toNat - 48)
  else if 65 ≤ c.toNat ∧ c.toNat ≤ 70 then some (c.toNat - 55)
  else if 97 ≤ c.toNat ∧ c.toNat ≤ 102 then some (c.toNat - 87)
  else none

/-- The text as bytes where it is ASCII or coded (`unquote_to_bytes`), and as characters where it is not (`_asciire`). A `%` without two
digits stands for itself. -/
def quotedItems : Str → List (UInt8 ⊕ Char)
  | [] => []
  | '%' :: a :: b :: r =>
    match hexVal a, hexVal b with
    | some x, some y => .inl (16 * x + y).toUInt8 :: quotedItems r
    | _, _ => .inl 37 :: quotedItems (a :: b :: r)
  | c :: r => (if c.toNat < 128 then .inl c.toNat.toUInt8 else .inr c) :: quotedItems r

/-- `bytes.decode('utf-8', 'replace')`; `n` bounds the number of characters. Simplified: every byte of a wrong sequence gives a
replacement character, where Python gives one for the longest wrong beginning. -/
def decodeBytes : Nat → List UInt8 → Str
  | 0, _ => []
  | _ + 1, [] => []
  | n + 1, b :: r =>
    match (b :: r).toByteArray.utf8DecodeChar? 0 with
    | some c => c :: decodeBytes n ((b :: r).drop c.utf8Size)
    | none => Char.ofNat 0xfffd :: decodeBytes n r

/-- The runs of bytes decoded, and the other characters between them: `unquote` of urllib.parse; `acc` is the run so far. -/
def decodeRuns (acc : List UInt8) : List (UInt8 ⊕ Char) → Str
  | [] => decodeBytes acc.length acc
  | .inl b :: r => decodeRuns (acc ++ [b]) r
  | .inr c :: r => decodeBytes acc.length acc ++ c :: decodeRuns [] r

/-- `unquote(s)` of urllib.parse. -/
def unquote (s : Str) : Str := if '%' ∈ s then decodeRuns [] (quotedItems s) else s

/-- `unquote(s.replace('+', ' '))`, as `parse_qsl` does with names and values. -/
def unquotePlus (s : Str) : Str := unquote (s.map fun c => if c = '+' then ' ' else c)

/-- `parse_qs(urlparse(link.href).query)`: _resolver_v1.py 92. -/
def linkQuery (href : Str) : List (Str × Str) := queryPairs unquotePlus (urlparse href []).query

/-- `parse` of a document, from the links of the header: _resolver_v1.py 81-108. -/
def documentOf {γ : Type} (id : Str) (ref : DtsRefArg) (links : List Link) : Except PyErr (DtsDoc γ) :=
  openDocument id ref (links.map fun l => ⟨l.rel, linkQuery l.href⟩)

end Verif.Model
