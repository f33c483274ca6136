import Verif.Spec.Uri
import Verif.Spec.Retriever
import Verif.Model.DtsDocument
/-!
Specification vocabulary for C105: addresses in which texts are coded.
-/
namespace Verif.Spec
open Verif.Py Verif.Model

/-- A hexadecimal digit, in capitals or not. -/
def hexDigit (capital : Bool) (n : Nat) : Char := (if capital then "0123456789ABCDEF" else "0123456789abcdef").toList.getD n '0'

/-- `%XX` for a byte. -/
def pct (capital : Bool) (b : UInt8) : Str := ['%', hexDigit capital (b.toNat / 16), hexDigit capital (b.toNat % 16)]

/-- `w` writes the text `v` in a query: a character is written as it is if it is none of `% + & = ; #`, a space may be a `+`, and any
character may be coded, byte by byte. -/
inductive Quotes : Str → Str → Prop
  | nil : Quotes [] []
  | plain {c v w} : c ∉ ['%', '+', '&', '=', ';', '#'] → Quotes v w → Quotes (c :: v) (c :: w)
  | space {v w} : Quotes v w → Quotes (' ' :: v) ('+' :: w)
  | coded {c v w} (capital : Bool) : Quotes v w → Quotes (c :: v) ((String.utf8EncodeChar c).flatMap (pct capital) ++ w)

/-- The pairs `written` write the names and values of `pairs`. -/
inductive QuotesAll : List (Str × Str) → List (Str × Str) → Prop
  | nil : QuotesAll [] []
  | cons {k v k' v' r r'} : Quotes k k' → Quotes v v' → QuotesAll r r' → QuotesAll ((k, v) :: r) ((k', v') :: r')

/-- An address with these parameters, coded in any way: what comes before the query has no `?` and no `#`, and a fragment may follow. -/
def AddressOf (href : Str) (pairs : List (Str × Str)) : Prop :=
  ∃ base written fragment, '?' ∉ base ∧ '#' ∉ base ∧ pairs ≠ [] ∧ (∀ p ∈ pairs, p.2 ≠ []) ∧ QuotesAll pairs written ∧
    href = base ++ trailer (some (join ['&'] (written.map pairText))) fragment

/-- The first value of a parameter. -/
def param (pairs : List (Str × Str)) (name : String) : Option Str := (pairs.find? fun p => p.1 = name.toList).map (·.2)

/-- The reference that the parameters of a link name: `ref`, or else `start` and `end`. -/
inductive NamesRef (pairs : List (Str × Str)) : DtsRef → Prop
  | one {v} : param pairs "ref" = some v → NamesRef pairs ⟨v, none, none⟩
  | range {s e} : param pairs "ref" = none → param pairs "start" = some s → param pairs "end" = some e → NamesRef pairs ⟨s, some e, none⟩

/-- A link that names a page, coded in any way: its address has another parameter before, and no fragment. -/
def PageLink (l : Link) (page : Str) : Prop :=
  ∃ base base' p ps written, Quotes base base' ∧ QuotesAll (p :: ps) written ∧ (∀ q ∈ p :: ps, q.2 ≠ []) ∧ param ps "page" = some page ∧
    l.href = base' ++ '?' :: join ['&'] (written.map pairText)

/-- Characters that no coding touches (`urllib.parse.quote`). -/
def unreserved (c : Char) : Bool :=
  ('a' ≤ c && c ≤ 'z') || ('A' ≤ c && c ≤ 'Z') || ('0' ≤ c && c ≤ '9') || c == '_' || c == '.' || c == '-' || c == '~'

/-- What `urllib.parse.quote_plus`, with which servers and `requests` write queries, makes of a text. -/
def quotePlus (v : Str) : Str :=
  v.flatMap fun c => if unreserved c then [c] else if c = ' ' then ['+'] else (String.utf8EncodeChar c).flatMap (pct true)

end Verif.Spec
