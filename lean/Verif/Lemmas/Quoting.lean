import Verif.Model.Quoting
import Verif.Spec.Quoting
import Verif.Lemmas.Uri
import Verif.Props.Retriever
/-!
Lemmas for C105: decoding gives back what was coded.
-/
namespace Verif.Lemmas
open Verif.Py Verif.Model Verif.Spec Verif.Props Verif.Lemmas.Uri

/-! ### Bytes -/

theorem toByteArray_list_append (a b : List UInt8) : (a ++ b).toByteArray = a.toByteArray ++ b.toByteArray := by
  simp

theorem decode_char (c : Char) (r : List UInt8) (n : Nat) :
    decodeBytes (n + 1) (String.utf8EncodeChar c ++ r) = c :: decodeBytes n r := by
  have hl : (String.utf8EncodeChar c).length = c.utf8Size := String.length_utf8EncodeChar c
  have hp := c.utf8Size_pos
  cases he : String.utf8EncodeChar c with
  | nil => rw [he] at hl; simp at hl; omega
  | cons b bs =>
    rw [List.cons_append, decodeBytes, ← List.cons_append, ← he, toByteArray_list_append, ByteArray.utf8DecodeChar?_utf8EncodeChar_append]
    dsimp only
    rw [← hl, List.drop_left]

/-- The bytes of a text. -/
def bytesOf (v : Str) : List UInt8 := v.flatMap String.utf8EncodeChar

theorem decode_bytesOf : ∀ (v : Str) (n : Nat), v.length ≤ n → decodeBytes n (bytesOf v) = v
  | [], n, _ => by cases n <;> rfl
  | c :: v, n, h => by
    obtain ⟨m, rfl⟩ : ∃ m, n = m + 1 := ⟨n - 1, by simp at h; omega⟩
    rw [bytesOf, List.flatMap_cons, decode_char]
    exact congrArg (c :: ·) (decode_bytesOf v m (by simpa using h))

theorem length_bytesOf : ∀ v : Str, v.length ≤ (bytesOf v).length
  | [] => by simp [bytesOf]
  | c :: v => by
    have := length_bytesOf v
    have hl : (String.utf8EncodeChar c).length = c.utf8Size := String.length_utf8EncodeChar c
    have hp := c.utf8Size_pos
    simp only [bytesOf, List.flatMap_cons, List.length_append, List.length_cons] at this ⊢
    omega

theorem decode_all (v : Str) : decodeBytes (bytesOf v).length (bytesOf v) = v := decode_bytesOf v _ (length_bytesOf v)

theorem bytesOf_snoc (v : Str) (c : Char) : bytesOf v ++ String.utf8EncodeChar c = bytesOf (v ++ [c]) := by
  simp [bytesOf]

theorem encode_ascii {c : Char} (h : c.toNat < 128) : String.utf8EncodeChar c = [c.toNat.toUInt8] := by
  have h1 : c.utf8Size = 1 := by
    rw [Char.utf8Size_eq_one_iff]
    have : c.val.toNat < 128 := h
    rw [UInt32.le_iff_toNat_le]
    show c.val.toNat ≤ 127
    omega
  rw [String.utf8EncodeChar_eq_singleton h1]
  rfl

/-! ### Digits -/

theorem hexVal_digit (capital : Bool) : ∀ n, n < 16 → hexVal (hexDigit capital n) = some n := by
  cases capital <;> decide

theorem items_pct (capital : Bool) (b : UInt8) (w : Str) : quotedItems (pct capital b ++ w) = .inl b :: quotedItems w := by
  have h := b.toNat_lt
  have h1 := hexVal_digit capital (b.toNat / 16) (by omega)
  have h2 := hexVal_digit capital (b.toNat % 16) (by omega)
  rw [pct, List.cons_append, List.cons_append, List.cons_append, List.nil_append, quotedItems, h1, h2]
  have : (16 * (b.toNat / 16) + b.toNat % 16).toUInt8 = b := by
    rw [Nat.div_add_mod]
    simp
  dsimp only
  rw [this]

theorem items_coded (capital : Bool) (w : Str) : ∀ bs : List UInt8, quotedItems (bs.flatMap (pct capital) ++ w) = bs.map .inl ++ quotedItems w
  | [] => rfl
  | b :: bs => by
    rw [List.flatMap_cons, List.append_assoc, items_pct, items_coded capital w bs]
    rfl

theorem runs_bytes : ∀ (bs acc : List UInt8) (r : List (UInt8 ⊕ Char)), decodeRuns acc (bs.map .inl ++ r) = decodeRuns (acc ++ bs) r
  | [], acc, r => by simp
  | b :: bs, acc, r => by
    rw [List.map_cons, List.cons_append, decodeRuns, runs_bytes bs, List.append_assoc]
    rfl

theorem items_plain {c : Char} (h : c ≠ '%') (r : Str) :
    quotedItems (c :: r) = (if c.toNat < 128 then .inl c.toNat.toUInt8 else .inr c) :: quotedItems r := by
  rw [quotedItems]
  intro a b t e
  exact absurd e h

/-- `+` for a space. -/
def unplus (w : Str) : Str := w.map fun c => if c = '+' then ' ' else c

theorem unplus_append (a b : Str) : unplus (a ++ b) = unplus a ++ unplus b := by simp [unplus]

theorem hexDigit_plus (capital : Bool) : ∀ n, n < 16 → hexDigit capital n ≠ '+' := by
  cases capital <;> decide

theorem unplus_coded (capital : Bool) (bs : List UInt8) : unplus (bs.flatMap (pct capital)) = bs.flatMap (pct capital) := by
  induction bs with
  | nil => rfl
  | cons b bs ih =>
    rw [List.flatMap_cons, unplus_append, ih]
    congr 1
    have h := b.toNat_lt
    simp [unplus, pct, hexDigit_plus capital (b.toNat / 16) (by omega), hexDigit_plus capital (b.toNat % 16) (by omega)]

theorem runs_quoted {v w : Str} (h : Quotes v w) : ∀ done : Str, decodeRuns (bytesOf done) (quotedItems (unplus w)) = done ++ v := by
  induction h with
  | nil =>
    intro done
    rw [List.append_nil]
    exact decode_all done
  | @plain c v w hc _ ih =>
    intro done
    have h1 : c ≠ '%' := by rintro rfl; simp at hc
    have h2 : c ≠ '+' := by rintro rfl; simp at hc
    have : unplus (c :: w) = c :: unplus w := by simp [unplus, h2]
    rw [this, items_plain h1]
    split
    · rename_i h3
      rw [decodeRuns, ← encode_ascii h3, bytesOf_snoc, ih]
      simp
    · rw [decodeRuns, decode_all]
      exact congrArg (done ++ c :: ·) (ih [])
  | @space v w _ ih =>
    intro done
    have : unplus ('+' :: w) = ' ' :: unplus w := by simp [unplus]
    rw [this, items_plain (by decide), if_pos (by decide), decodeRuns, ← encode_ascii (by decide), bytesOf_snoc, ih]
    simp
  | @coded c v w capital _ ih =>
    intro done
    rw [unplus_append, unplus_coded, items_coded, runs_bytes, bytesOf_snoc, ih]
    simp

theorem coded_pct (capital : Bool) (c : Char) : '%' ∈ (String.utf8EncodeChar c).flatMap (pct capital) := by
  have hl : (String.utf8EncodeChar c).length = c.utf8Size := String.length_utf8EncodeChar c
  have hp := c.utf8Size_pos
  cases he : String.utf8EncodeChar c with
  | nil => rw [he] at hl; simp at hl; omega
  | cons b bs => simp [pct]

theorem uncoded {v w : Str} (h : Quotes v w) (hw : '%' ∉ unplus w) : unplus w = v := by
  induction h with
  | nil => rfl
  | @plain c v w hc _ ih =>
    have h2 : c ≠ '+' := by rintro rfl; simp at hc
    have : unplus (c :: w) = c :: unplus w := by simp [unplus, h2]
    rw [this] at hw ⊢
    rw [ih fun hh => hw (List.mem_cons_of_mem _ hh)]
  | @space v w _ ih =>
    have : unplus ('+' :: w) = ' ' :: unplus w := by simp [unplus]
    rw [this] at hw ⊢
    rw [ih fun hh => hw (List.mem_cons_of_mem _ hh)]
  | @coded c v w capital _ ih =>
    rw [unplus_append, unplus_coded] at hw
    exact absurd (List.mem_append_left _ (coded_pct capital c)) hw

theorem unquotePlus_quoted {v w : Str} (h : Quotes v w) : unquotePlus w = v := by
  show unquote (unplus w) = v
  unfold unquote
  split
  · exact runs_quoted h []
  · rename_i hw
    exact uncoded h hw

/-! ### Queries -/

theorem hexDigit_other (capital : Bool) : ∀ n, n < 16 → hexDigit capital n ∉ ['&', '=', ';', '#'] := by
  cases capital <;> decide

theorem quoted_chars {v w : Str} (h : Quotes v w) : ∀ c ∈ ['&', '=', ';', '#'], c ∉ w := by
  induction h with
  | nil => intro c _; simp
  | @plain c v w hc _ ih =>
    intro x hx hm
    rcases List.mem_cons.1 hm with rfl | hm
    · revert hc; simp only [List.mem_cons, List.not_mem_nil, or_false] at hx ⊢; grind
    · exact ih x hx hm
  | @space v w _ ih =>
    intro x hx hm
    rcases List.mem_cons.1 hm with rfl | hm
    · revert hx; decide
    · exact ih x hx hm
  | @coded c v w capital _ ih =>
    intro x hx hm
    rcases List.mem_append.1 hm with hm | hm
    · obtain ⟨b, _, hb⟩ := List.mem_flatMap.1 hm
      have h := b.toNat_lt
      rw [pct] at hb
      simp only [List.mem_cons, List.not_mem_nil, or_false] at hb
      rcases hb with rfl | rfl | rfl
      · revert hx; decide
      · exact hexDigit_other capital _ (by omega) hx
      · exact hexDigit_other capital _ (by omega) hx
    · exact ih x hx hm

theorem quoted_ne {v w : Str} (h : Quotes v w) (hv : v ≠ []) : w ≠ [] := by
  cases h with
  | nil => exact absurd rfl hv
  | plain _ _ => simp
  | space _ => simp
  | @coded c v w capital _ =>
    intro e
    have := coded_pct capital c
    rw [(List.append_eq_nil_iff.1 e).1] at this
    simp at this

theorem pairs_written {pairs written : List (Str × Str)} (h : QuotesAll pairs written) (hv : ∀ p ∈ pairs, p.2 ≠ []) :
    (written.map pairText).filterMap (fun piece => match find '=' piece with
      | none => none
      | some i => if piece.drop (i + 1) = [] then none else some (unquotePlus (piece.take i), unquotePlus (piece.drop (i + 1)))) = pairs := by
  induction h with
  | nil => rfl
  | @cons k v k' v' r r' hk hq _ ih =>
    rw [List.map_cons, List.filterMap_cons]
    have hd : (k' ++ '=' :: v').drop (k'.length + 1) = v' := by
      rw [← List.drop_drop]; simp
    have ht : (k' ++ '=' :: v').take k'.length = k' := by simp
    simp only [pairText, find_append _ (quoted_chars hk '=' (by simp)), hd, ht, if_neg (quoted_ne hq (hv (k, v) (by simp))),
      unquotePlus_quoted hk, unquotePlus_quoted hq]
    rw [← ih fun p hp => hv p (by simp [hp])]

theorem written_chars {pairs written : List (Str × Str)} (h : QuotesAll pairs written) : ∀ c ∈ ['&', ';', '#'], ∀ p ∈ written.map pairText, c ∉ p := by
  induction h with
  | nil => simp
  | @cons k v k' v' r r' hk hq _ ih =>
    intro c hc p hp
    rw [List.map_cons] at hp
    rcases List.mem_cons.1 hp with rfl | hp
    · have hc' : c ∈ ['&', '=', ';', '#'] := by simp at hc ⊢; grind
      simp only [pairText, List.mem_append, List.mem_cons, not_or]
      refine ⟨quoted_chars hk c hc', ?_, quoted_chars hq c hc'⟩
      rintro rfl
      revert hc; decide
    · exact ih c hc p hp

theorem written_ne {pairs written : List (Str × Str)} (h : QuotesAll pairs written) (hne : pairs ≠ []) : written ≠ [] := by
  cases h with
  | nil => exact absurd rfl hne
  | cons _ _ _ => simp

theorem queryPairs_quoted {pairs written : List (Str × Str)} (h : QuotesAll pairs written) (hne : pairs ≠ []) (hv : ∀ p ∈ pairs, p.2 ≠ []) :
    queryPairs unquotePlus (join ['&'] (written.map pairText)) = pairs := by
  rw [queryPairs, split_join (by simpa using written_ne h hne) (fun p hp => written_chars h '&' (by simp) p hp)]
  exact pairs_written h hv

theorem query_hash {pairs written : List (Str × Str)} (h : QuotesAll pairs written) : '#' ∉ join ['&'] (written.map pairText) := by
  intro hm
  have : ∀ l : List Str, '#' ∈ join ['&'] l → ∃ p ∈ l, '#' ∈ p := by
    intro l
    induction l with
    | nil => intro h; simp [join] at h
    | cons a r ih =>
      intro h
      cases r with
      | nil => exact ⟨a, by simp, by simpa [join] using h⟩
      | cons b r =>
        rw [join_cons_ne_nil _ _ (List.cons_ne_nil _ _)] at h
        simp only [List.mem_append, List.mem_singleton] at h
        rcases h with (h | h) | h
        · exact ⟨a, by simp, h⟩
        · exact absurd h (by decide)
        · obtain ⟨p, hp, h⟩ := ih h
          exact ⟨p, by simp [hp], h⟩
  obtain ⟨p, hp, hh⟩ := this _ hm
  exact written_chars h '#' (by simp) p hp hh

/-! ### Addresses -/

theorem scheme_kept {base q : Str} (h : '?' ∉ base) (d : Str) : ∃ s b, cutScheme d (base ++ '?' :: q) = (s, b ++ '?' :: q) ∧ (∀ c, c ∈ b → c ∈ base) := by
  by_cases hc : ':' ∈ base
  · obtain ⟨a, b, rfl, ha⟩ := exists_append_of_mem hc
    unfold cutScheme
    have hp : ∀ y ∈ a, (decide (y ≠ ':')) = true := by intro y hy; simp; rintro rfl; exact ha hy
    have e : (a ++ ':' :: b ++ '?' :: q).takeWhile (fun x => decide (x ≠ ':')) = a := by
      rw [List.append_assoc, List.cons_append]
      rw [List.takeWhile_append_of_pos hp]; simp
    simp only [e]
    split
    · refine ⟨_, b, Prod.ext rfl ?_, fun c hc => by simp [hc]⟩
      show (a ++ ':' :: b ++ '?' :: q).drop (a.length + 1) = _
      rw [← List.drop_drop]
      simp
    · exact ⟨_, _, rfl, fun _ h => h⟩
  · exact ⟨_, _, cutScheme_none hc (by decide) (by decide), fun _ h => h⟩

theorem netloc_kept {base q : Str} : ∃ s b, cutNetloc (base ++ '?' :: q) = (s, b ++ '?' :: q) ∧ (∀ c, c ∈ b → c ∈ base) := by
  unfold cutNetloc
  split
  · rename_i hs
    match base, hs with
    | [], hs => simp [startsWith] at hs
    | [a], hs => simp [startsWith] at hs
    | a :: a' :: r, _ =>
      refine ⟨_, r.dropWhile (!netlocEnd ·), Prod.ext rfl ?_, fun c hc => ?_⟩
      · show (r ++ '?' :: q).dropWhile (!netlocEnd ·) = _
        rw [List.dropWhile_append]
        split
        · rename_i hn
          rw [List.isEmpty_iff.1 hn]
          simp [netlocEnd]
        · rfl
      · have := (List.dropWhile_sublist (!netlocEnd ·) (l := r)).mem hc
        simp [this]
  · exact ⟨_, _, rfl, fun _ h => h⟩

theorem urlparse_query {base q : Str} {f : Option Str} (h1 : '?' ∉ base) (h2 : '#' ∉ base) (hq : '#' ∉ q) (d : Str) :
    (urlparse (base ++ trailer (some q) f) d).query = q := by
  have ht : base ++ trailer (some q) f = base ++ '?' :: (q ++ trailer none f) := by
    cases f <;> simp [trailer]
  obtain ⟨s, b, e1, hb⟩ := scheme_kept (q := q ++ trailer none f) h1 d
  obtain ⟨n, b', e2, hb'⟩ := netloc_kept (base := b) (q := q ++ trailer none f)
  have h1' : '?' ∉ b' := fun h => h1 (hb _ (hb' _ h))
  have h2' : '#' ∉ b' := fun h => h2 (hb _ (hb' _ h))
  have e3 := (cut_trailer (p := b') (q := some q) (f := f) h1' h2' (by intro x hx; cases hx; exact hq)).2
  have ht' : b' ++ trailer (some q) f = b' ++ '?' :: (q ++ trailer none f) := by
    cases f <;> simp [trailer]
  rw [ht'] at e3
  unfold urlparse
  rw [ht, e1]
  dsimp only
  rw [e2]
  dsimp only
  rw [e3]
  rfl

theorem linkQuery_address {href : Str} {pairs : List (Str × Str)} (h : AddressOf href pairs) : linkQuery href = pairs := by
  obtain ⟨base, written, f, h1, h2, h3, h4, h5, rfl⟩ := h
  rw [linkQuery, urlparse_query h1 h2 (query_hash h5), queryPairs_quoted h5 h3 h4]

end Verif.Lemmas
