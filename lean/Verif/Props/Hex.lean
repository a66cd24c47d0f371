import Verif.Proofs.Hex

/-!
# Hexadecimal strings (C20, C41)

`IsHex s`: all characters are hexadecimal digits, of either case.  `hexValue s`: the number they denote, the most
significant digit first.  `hexDigits n v`: the `n` lower case digits of `v`.  See the section
"Specification" of `Verif.Proofs.Hex`.
-/

namespace Cmpa
namespace Props
open M

/-- C20: a string is accepted exactly if it is short enough and consists of hexadecimal digits; the
result are the big-endian bytes of the number it denotes.  Both errors are told apart; nothing panics. -/
theorem C20_parse [LimbCfg] (n : ℕ) (s : List (Fin 256)) :
    Sat (be_bytes_from_hexstr n s) (fun r =>
      (2 * n < s.length ∧ r = .error .InvalidHexStrLen) ∨
      (s.length ≤ 2 * n ∧ ¬ IsHex s ∧ r = .error .InvalidHexChar) ∨
      (s.length ≤ 2 * n ∧ IsHex s ∧ ∃ l, r = .ok l ∧ l.length = n ∧
        (Buf.be l).toNat = hexValue s)) := by
  refine (be_bytes_from_hexstr_sat n s).mono ?_
  rintro (e | l) h
  · rcases h with ⟨h1, rfl⟩ | ⟨h1, h2, rfl⟩
    · exact Or.inl ⟨h1, rfl⟩
    · exact Or.inr (Or.inl ⟨h1, h2, rfl⟩)
  · obtain ⟨h1, h2, h3, h4⟩ := h
    exact Or.inr (Or.inr ⟨h1, h2, l, rfl, h3, h4⟩)

/-- C20: the same with strings of exactly two digits per byte. -/
theorem C20_parse_exact [LimbCfg] (n : ℕ) (s : List (Fin 256)) :
    Sat (bytes_from_hexstr n s) (fun r =>
      (s.length ≠ 2 * n ∧ r = .error .InvalidHexStrLen) ∨
      (s.length = 2 * n ∧ ¬ IsHex s ∧ r = .error .InvalidHexChar) ∨
      (s.length = 2 * n ∧ IsHex s ∧ ∃ l, r = .ok l ∧ l.length = n ∧
        (Buf.be l).toNat = hexValue s)) := by
  unfold bytes_from_hexstr
  refine Sat.cond (fun hc => Sat.pure (Or.inl ⟨hc, rfl⟩)) fun hc => ?_
  rw [not_not] at hc
  refine (C20_parse n s).mono ?_
  rintro r (⟨h1, -⟩ | ⟨-, h2, h3⟩ | ⟨-, h2⟩)
  · omega
  · exact Or.inr (Or.inl ⟨hc, h2, h3⟩)
  · exact Or.inr (Or.inr ⟨hc, h2⟩)

/-- C20: the variant for constants panics exactly on the strings not accepted, otherwise the result is the same. -/
theorem C20_parse_const (n : ℕ) (s : List (Fin 256)) :
    ((bytes_from_hexstr_cnst n s).val = none ↔ ¬ (s.length = 2 * n ∧ IsHex s)) ∧
    (∀ l, (bytes_from_hexstr_cnst n s).val = some l ↔ (bytes_from_hexstr n s).val = some (.ok l)) := by
  letI := cfg64
  obtain ⟨r, hr, h⟩ := C20_parse_exact n s
  have hv : (bytes_from_hexstr_cnst n s).val = r.toOption := by
    unfold bytes_from_hexstr_cnst
    rw [M.bind_val, hr]
    cases r <;> rfl
  rw [hv, hr]
  rcases h with ⟨h1, rfl⟩ | ⟨h1, h2, rfl⟩ | ⟨h1, h2, l, rfl, -, -⟩
  · refine ⟨⟨fun _ h => h1 h.1, fun _ => rfl⟩, fun l => ?_⟩
    simp [Except.toOption]
  · refine ⟨⟨fun _ h => h2 h.2, fun _ => rfl⟩, fun l => ?_⟩
    simp [Except.toOption]
  · refine ⟨⟨fun h => by simp [Except.toOption] at h, fun h => absurd ⟨h1, h2⟩ h⟩, fun l => ?_⟩
    simp [Except.toOption]

/-- C20: formatting yields two lower case digits per byte, denoting the big-endian number in the bytes. -/
theorem C20_format [LimbCfg] (l : List (Fin 256)) : Sat (bytes_to_hexstr l) (fun s =>
    s = hexDigits (2 * l.length) (Buf.be l).toNat ∧ s.length = 2 * l.length ∧ IsHex s ∧
      hexValue s = (Buf.be l).toNat) := by
  refine (bytes_to_hexstr_sat l).mono ?_
  rintro _ rfl
  refine ⟨rfl, hexDigits_length _ _, isHex_hexDigits _ _, ?_⟩
  rw [hexValue_hexDigits, pow_mul]
  exact Nat.mod_eq_of_lt (Buf.toNat_lt (Buf.be l))

/-- C20: parsing a formatted byte string gives it back. -/
theorem C20_roundtrip (l : List (Fin 256)) :
    Sat (bytes_to_hexstr l >>= bytes_from_hexstr l.length) (fun r => r = .ok l) := by
  letI := cfg64
  refine (C20_format l).bind ?_
  rintro s ⟨-, h1, h2, h3⟩
  refine (C20_parse_exact l.length s).mono ?_
  rintro r (⟨h, -⟩ | ⟨-, h, -⟩ | ⟨-, -, l', rfl, h4, h5⟩)
  · exact absurd h1 h
  · exact absurd h2 h
  · have : Buf.be l' = Buf.be l := Buf.ext' h4 (h5.trans h3)
    rw [Buf.be.inj this]

/-- C20: formatting what was parsed gives the string back, converted to lower case. -/
theorem C20_roundtrip_string (n : ℕ) (s : List (Fin 256)) (hl : s.length = 2 * n) (hs : IsHex s) :
    Sat (bytes_from_hexstr_cnst n s >>= bytes_to_hexstr) (fun t =>
      t = s.map fun c => digitChar ((hexDigit c).getD 0)) := by
  letI := cfg64
  obtain ⟨r, hr, h⟩ := C20_parse_exact n s
  rcases h with ⟨h, -⟩ | ⟨-, h, -⟩ | ⟨-, -, l, rfl, h4, h5⟩
  · exact absurd hl h
  · exact absurd hs h
  · have h6 := ((C20_parse_const n s).2 l).2 hr
    refine Sat.bind (P := fun x => x = l) ⟨l, h6, rfl⟩ ?_
    intro x hx
    rw [hx]
    refine (C20_format l).mono ?_
    rintro t ⟨rfl, -⟩
    rw [h5, h4, ← hl, hexDigits_hexValue]

/-- The string of five characters "12aBC" and a four byte result. -/
example : (be_bytes_from_hexstr 4 (['1', '2', 'a', 'B', 'C'].map ascii)).val =
    some (.ok [0, 1, 0x2a, 0xbc]) := by decide +kernel

example : IsHex (['1', '2', 'a', 'B', 'C'].map ascii) ∧
    hexValue (['1', '2', 'a', 'B', 'C'].map ascii) = 0x12abc ∧
    ¬ IsHex (['1', '2', 'g', 'B', 'C'].map ascii) := by decide +kernel

example : (bytes_to_hexstr [1, 0xff, 0x10]).val = some (['0', '1', 'f', 'f', '1', '0'].map ascii) := by
  decide +kernel

variable [LimbCfg] {φ : Fmt}

/-- C41: a number is formatted as the prefix `0x`, if asked for, followed by the two lower case digits of each of its
bytes, with an underscore before every limb but the most significant one; empty numbers are formatted
as `(empty)`. -/
theorem C41_format (b : Buf φ) (alternate : Bool) : Sat (b.fmt_lower_hex alternate) (fun r =>
    r = (if alternate then [ascii '0', ascii 'x'] else []) ++
      (if b.len = 0 then ['(', 'e', 'm', 'p', 't', 'y', ')'].map ascii
        else hexDigits (2 * (b.len - (b.nlimbs - 1) * LB)) (b.toNat / B ^ (b.nlimbs - 1)) ++
          hexGroups b.toNat (b.nlimbs - 1))) := fmt_lower_hex_sat b alternate

/-- C41: without the underscores the result is, but for the prefix, the string of the digits of the
number, two for each byte of the buffer, so that it denotes the number. -/
theorem C41_value (b : Buf φ) (h : b.len ≠ 0) : Sat (b.fmt_lower_hex false) (fun r =>
    r.filter (· ≠ ascii '_') = hexDigits (2 * b.len) b.toNat ∧
      hexValue (r.filter (· ≠ ascii '_')) = b.toNat) := by
  refine (fmt_lower_hex_sat b false).mono ?_
  rintro _ rfl
  rw [if_neg (by simp), if_neg h, List.nil_append, filter_fmt b h, hexValue_hexDigits, pow_mul]
  exact ⟨rfl, Nat.mod_eq_of_lt b.toNat_lt⟩

/-- C41: numbers in buffers of the same length are formatted the same only if they are equal. -/
theorem C41_injective (a b : Buf φ) (alternate : Bool) (hl : a.len = b.len)
    (h : (a.fmt_lower_hex alternate).val = (b.fmt_lower_hex alternate).val) : a = b := by
  refine Buf.ext' hl ?_
  by_cases h0 : a.len = 0
  · have h1 := a.toNat_lt
    have h2 := b.toNat_lt
    rw [← hl] at h2
    rw [h0] at h1 h2
    omega
  · obtain ⟨r, hr, ha⟩ := fmt_lower_hex_sat a alternate
    obtain ⟨s, hs, hb⟩ := fmt_lower_hex_sat b alternate
    rw [hr, hs, Option.some_inj] at h
    subst h
    rw [ha, List.append_cancel_left_eq, if_neg h0, if_neg (by omega)] at hb
    have h3 := congrArg (fun l => hexValue (l.filter (· ≠ ascii '_'))) hb
    rwa [filter_fmt a h0, filter_fmt b (by omega), hexValue_hexDigits, hexValue_hexDigits, pow_mul, pow_mul,
      show (16 : ℕ) ^ 2 = 256 by norm_num, Nat.mod_eq_of_lt a.toNat_lt, Nat.mod_eq_of_lt b.toNat_lt] at h3

/-- 7 bytes, "0x000012_3456789a". -/
example : letI := cfg32
    ((Buf.ofNat .be 7 0x123456789a).fmt_lower_hex true).val =
      some (['0', 'x', '0', '0', '0', '0', '1', '2', '_', '3', '4', '5', '6', '7', '8', '9', 'a'].map ascii) := by
  decide +kernel

end Props
end Cmpa
