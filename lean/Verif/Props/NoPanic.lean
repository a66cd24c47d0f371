import Verif.Props.Add
import Verif.Props.Buf
import Verif.Props.Shift
import Verif.Props.Mul
import Verif.Props.Div
import Verif.Props.Composite
import Verif.Props.Euclid
import Verif.Props.InvMod
import Verif.Props.InvAny
import Verif.Props.Lcm
import Verif.Props.Prime
import Verif.Props.Wheel
import Verif.Props.Hex
import Verif.Proofs.BufCondLen

/-!
# No panics (C38)

A computation panics if it indexes out of bounds, if an arithmetic operation overflows or underflows in a
debug build, or if an assertion (including `debug_assert!`) fails; the model's value is `none` then.

The theorems say, for each function, under which conditions it never panics.  Errors reported as
such are no panics: theorems on functions which return a `Result` don't assume what the function checks
itself.  Conditions not documented, but needed, make a theorem a partial one; the panics are shown
by the `_fails` theorems named there.
-/

namespace Cmpa
namespace Props
open M
variable [LimbCfg] {α : Type} {f g h f' e' φ ψ χ : Fmt}

/-- The computation does not panic. -/
def NoPanic (m : M α) : Prop := m.val ≠ none

theorem noPanic_of_sat {m : M α} {P : α → Prop} (h : Sat m P) : NoPanic m := by
  obtain ⟨a, ha, -⟩ := h
  unfold NoPanic
  rw [ha]; exact Option.some_ne_none a

/-! ## Functions which never panic -/

/-- C38: comparisons, for any two buffers. -/
theorem C38_compare (a : Buf f) (b : Buf g) :
    NoPanic (ct_eq_mp_mp a b) ∧ NoPanic (ct_neq_mp_mp a b) ∧ NoPanic (ct_leq_mp_mp a b) ∧
    NoPanic (ct_lt_mp_mp a b) ∧ NoPanic (ct_geq_mp_mp a b) ∧ NoPanic (ct_gt_mp_mp a b) ∧
    NoPanic (ct_is_zero_mp a) ∧ NoPanic (ct_is_one_mp a) ∧
    ∀ v < B, NoPanic (ct_leq_mp_l a v) :=
  ⟨noPanic_of_sat (C01_eq a b), noPanic_of_sat (C01_neq a b), noPanic_of_sat (C01_leq a b),
    noPanic_of_sat (C01_lt a b), noPanic_of_sat (C01_geq a b), noPanic_of_sat (C01_gt a b),
    noPanic_of_sat (C01_is_zero a), noPanic_of_sat (C01_is_one a),
    fun v hv => noPanic_of_sat (C01_leq_l a v hv)⟩

/-- C38: negation and shifts, for any buffer and distance. -/
theorem C38_negate_shift (a : Buf f) (c : Bool) (d : ℕ) :
    NoPanic (ct_negate_mp a) ∧ NoPanic (ct_negate_cond_mp a (.ofBool c)) ∧
    NoPanic (ct_lshift_mp a d) ∧ NoPanic (ct_rshift_mp a d) := by
  refine ⟨noPanic_of_sat (C05_negate a), noPanic_of_sat (C04_negate_cond a c), ?_,
    noPanic_of_sat (C08_rshift a d)⟩
  rcases Nat.eq_zero_or_pos a.len with ha | ha
  · exact noPanic_of_sat (C07_lshift_empty a d ha)
  · exact noPanic_of_sat (C07_lshift a d ha)

/-- C38: clearing and finding bits, for any buffer and position.  (For `clear_bytes_below` see
`C38_clear_bytes_below_partial`.) -/
theorem C38_bits (b : Buf f) (k : ℕ) (c : Bool) :
    NoPanic (b.clear_bytes_above k) ∧ NoPanic (b.clear_bytes_above_cond k (.ofBool c)) ∧
    NoPanic (ct_clear_bits_above_mp b k) ∧ NoPanic (clear_bits_above_mp b k) ∧
    NoPanic (ct_clear_bits_below_mp b k) ∧ NoPanic (clear_bits_below_mp b k) ∧
    NoPanic (b.test_bit k) ∧ NoPanic (find_last_set_byte_mp b) ∧
    NoPanic (ct_find_last_set_bit_mp b) ∧ NoPanic (ct_find_first_set_bit_mp b) :=
  ⟨noPanic_of_sat (C16_clear_bytes_above b k),
    noPanic_of_sat (b.clear_bytes_above_cond_len k _),
    noPanic_of_sat (C16_ct_clear_bits_above b k), noPanic_of_sat (C16_clear_bits_above b k),
    noPanic_of_sat (C16_ct_clear_bits_below b k), noPanic_of_sat (C16_clear_bits_below b k),
    noPanic_of_sat (C18_test_bit b k), noPanic_of_sat (C18_byte_length b),
    noPanic_of_sat (C18_bit_length b), noPanic_of_sat (C18_trailing_zeros b)⟩

/-- C38: the greatest common divisors, for any two buffers. -/
theorem C38_gcd (a : Buf φ) (b : Buf ψ) :
    NoPanic (ct_gcd_mp_mp a b) ∧ NoPanic (ct_gcd_odd_mp_mp a b) :=
  ⟨noPanic_of_sat (ct_gcd_mp_mp_sat a b), noPanic_of_sat (ct_gcd_odd_mp_mp_sat a b)⟩

/-- C38: the test for small prime factors, for any three buffers. -/
theorem C38_small_factor (p : Buf φ) (scratch0 scratch1 : Buf .ne) :
    NoPanic (ct_composite_test_small_prime_gcd_mp p scratch0 scratch1) := by
  by_cases hs : p.nlimbs ≤ scratch0.nlimbs ∧ p.nlimbs ≤ scratch1.nlimbs
  · exact noPanic_of_sat (C35_small_factor p scratch0 scratch1 hs.1 hs.2)
  · refine noPanic_of_sat (C35_error p scratch0 scratch1 (fun h0 => hs ?_) (by omega))
    have : p.nlimbs = 0 := nlimbs_zero_iff.2 h0
    omega

/-- C38: the prime wheel, for any lower bound and any number of steps. -/
theorem C38_wheel (lower_bound : Buf φ) (n : ℕ) : NoPanic (wheelRun lower_bound n) :=
  noPanic_of_sat (C36_enumerate lower_bound n)

/-- C38: hexadecimal input and output, for any string and any buffer. -/
theorem C38_hex (n : ℕ) (s l : List (Fin 256)) (b : Buf φ) (alternate : Bool) :
    NoPanic (be_bytes_from_hexstr n s) ∧ NoPanic (bytes_from_hexstr n s) ∧
    NoPanic (bytes_to_hexstr l) ∧ NoPanic (b.fmt_lower_hex alternate) :=
  ⟨noPanic_of_sat (C20_parse n s), noPanic_of_sat (C20_parse_exact n s),
    noPanic_of_sat (C20_format l), noPanic_of_sat (C41_format b alternate)⟩

/-- C38: Montgomery constants and conversion, for any two buffers. -/
theorem C38_montgomery_transform (t : Buf f) (n : Buf g) :
    NoPanic (ct_montgomery_neg_n0_inv_mod_l_mp n) ∧ NoPanic (ct_montgomery_radix2_mod_n_mp t n) ∧
    NoPanic (ct_to_montgomery_form_direct_mp t n) :=
  ⟨noPanic_of_sat (ct_montgomery_neg_n0_inv_mod_l_mp_sat n),
    noPanic_of_sat (ct_montgomery_radix2_mod_n_mp_sat t n),
    noPanic_of_sat (ct_to_montgomery_form_direct_mp_sat t n)⟩

/-! ## Buffers, copies, addition, multiplication -/

/-- C38: limbs inside the buffer; values which fit.  -/
theorem C38_access (b : Buf f) (i v : ℕ) (hi : i * LB < b.len) (hv : v < B) :
    NoPanic (b.load_l i) ∧ (v < 256 ^ (b.len - i * LB) → NoPanic (b.store_l i v)) ∧
    (i * LB + LB ≤ b.len → NoPanic (b.load_l_full i) ∧ NoPanic (b.store_l_full i v)) :=
  ⟨noPanic_of_sat (C15_load b i hi), fun h => noPanic_of_sat (C15_store b i v hi hv h),
    fun h => ⟨noPanic_of_sat (C15_load_full b i h), noPanic_of_sat (C15_store_full b i v h hv)⟩⟩

/-- C38: the same for numbers composed of several buffers. -/
theorem C38_composite (l : List (Buf f)) (i v : ℕ) (hi : i * LB < catLen l) (hv : v < B)
    (hfit : v < 256 ^ (catLen l - i * LB)) :
    NoPanic (do let c ← Composite.new l; c.load i) ∧
    NoPanic (do let c ← Composite.new l; let c ← c.store i v; pure c.parts) :=
  ⟨noPanic_of_sat (C19_load l i (lt_nlimbs_iff.2 hi)),
    noPanic_of_sat (C19_store l i v (lt_nlimbs_iff.2 hi) hv hfit)⟩

/-- C38: copies of what fits, also conditional ones. -/
theorem C38_copy (b : Buf f) (src : Buf g) (c : Bool) (hs : src.toNat < 256 ^ b.len) :
    NoPanic (b.copy_from src) ∧ NoPanic (b.copy_from_cond src (.ofBool c)) :=
  ⟨noPanic_of_sat (C17_copy_from b src hs), noPanic_of_sat (b.copy_from_cond_len src c hs)⟩

/-- C38: setting a bit of the buffer; storing a native integer not longer than the buffer. -/
theorem C38_set (b : Buf f) :
    (∀ p v, p < 8 * b.len → NoPanic (b.set_bit_to p v)) ∧
    ∀ sz v, sz ≤ b.len → v < 256 ^ sz → NoPanic (b.set_to_native sz v) :=
  ⟨fun p v hp => noPanic_of_sat (C18_set_bit_to b p v hp),
    fun sz v hl hv => noPanic_of_sat (C39_set_to b sz v hl hv)⟩

/-- C38: splitting and shrinking. -/
theorem C38_split (b : Buf f) (n : ℕ) :
    (n ≤ b.len → (f = .ne → LB ∣ n) → NoPanic (b.take n)) ∧
    (b.toNat < 256 ^ n → NoPanic (b.shrink_to n)) :=
  ⟨fun h1 h2 => noPanic_of_sat (C15_take b n h1 h2), fun h => noPanic_of_sat (C15_shrink_to b n h)⟩

/-- C38: `clear_bytes_below`.  Missing: positions above the end of a buffer of native limbs which aren't at
a limb's boundary; see `C16_clear_bytes_below_fails`. -/
theorem C38_clear_bytes_below_partial (b : Buf f) (k : ℕ) (hk : f ≠ .ne ∨ k ≤ b.len ∨ LB ∣ k) :
    NoPanic (b.clear_bytes_below k) := noPanic_of_sat (C16_clear_bytes_below_partial b k hk)

/-- C38: `try_into`.  Missing: buffers with less limbs than the integer; all of them panic, see
`C39_try_into_panics_fails`. -/
theorem C38_try_into_partial (b : Buf f) (sz : ℕ) (hsz : 0 < sz) (hl : HasLimbs b sz) :
    NoPanic (b.try_into_native sz) :=
  noPanic_of_sat (C39_try_into_partial b sz hsz hl)

/-- C38: addition and subtraction of operands not longer than the first, conditionally or not; of limbs
which fit; and swapping of operands of the same length. -/
theorem C38_add_sub (a : Buf f) (b : Buf g) (c : Bool) (hl : b.len ≤ a.len) :
    NoPanic (ct_add_mp_mp a b) ∧ NoPanic (ct_sub_mp_mp a b) ∧
    NoPanic (ct_add_cond_mp_mp a b (.ofBool c)) ∧ NoPanic (ct_sub_cond_mp_mp a b (.ofBool c)) ∧
    (∀ v < B, v < 256 ^ a.len → NoPanic (ct_add_mp_l a v) ∧ NoPanic (ct_sub_mp_l a v)) ∧
    (a.len = b.len → NoPanic (ct_swap_cond_mp a b (.ofBool c))) := by
  have hb : b.toNat < 256 ^ a.len :=
    lt_of_lt_of_le b.toNat_lt (Nat.pow_le_pow_right (by norm_num) hl)
  refine ⟨noPanic_of_sat (C02_add_len a b hl), noPanic_of_sat (C03_sub_len a b hl),
    noPanic_of_sat (C04_add_cond a b c (nlimbs_mono hl) fun _ => hb),
    noPanic_of_sat (C04_sub_cond a b c (nlimbs_mono hl) fun _ => hb),
    fun v h1 h2 => ⟨noPanic_of_sat (C02_add_l a v h1 h2), noPanic_of_sat (C03_sub_l a v h1 h2)⟩,
    fun he => noPanic_of_sat (C04_swap_cond a b c (fun _ => ⟨?_, hb⟩) (Buf.nlimbs_congr he))⟩
  rw [← he]; exact a.toNat_lt

/-- C38: modular addition, subtraction and negation of reduced operands; whatever the lengths, also
where the result is wrong (`C06_add_mod_fails`, `C06_sub_mod_fails`). -/
theorem C38_add_sub_mod (a : Buf f) (b : Buf g) (n : Buf h) (ha : a.toNat < n.toNat)
    (hb : b.toNat < n.toNat) :
    NoPanic (ct_add_mod_mp_mp a b n) ∧ NoPanic (ct_sub_mod_mp_mp a b n) ∧
    NoPanic (ct_negate_mod_mp a n) := by
  by_cases hn : LenCompat n a.len
  · exact ⟨noPanic_of_sat (ct_add_mod_mp_mp_sat' a b n hn ha hb),
      noPanic_of_sat (ct_sub_mod_mp_mp_sat' a b n hn ha hb),
      noPanic_of_sat (C06_negate_mod a n hn ha)⟩
  · obtain ⟨h1, h2, h3⟩ := C06_lengths a b n hn
    exact ⟨noPanic_of_sat h1, noPanic_of_sat h2, noPanic_of_sat h3⟩

/-- C38: multiplication, if the declared length doesn't exceed the buffer's. -/
theorem C38_mul (a : Buf f) (n : ℕ) (b : Buf g) (c : Bool) (hn : n ≤ a.len) :
    NoPanic (ct_mul_trunc_mp_mp a n b) ∧ NoPanic (ct_mul_trunc_cond_mp_mp a n b (.ofBool c)) ∧
    ∀ v < B, NoPanic (ct_mul_trunc_mp_l a n v) := by
  refine ⟨noPanic_of_sat (C09_mul a n b hn), ?_, fun v hv => noPanic_of_sat (C09_mul_l a n v hv hn)⟩
  rcases Nat.eq_zero_or_pos b.len with hb | hb
  · exact noPanic_of_sat (C04_mul_cond_empty a n b c hn hb)
  · exact noPanic_of_sat (C04_mul_cond a n b c hn hb)

/-- C38: squaring.  Missing: operands with two limbs whose product has an upper half of
`2 ^ (W - 1) - 1` (and some with one of `2 ^ (W - 1) - 2`); see `C38_square_fails`, and
`C10_square_panics_fails` for exactly which. -/
theorem C38_square_partial (a : Buf f) (n : ℕ) (hn : n ≤ a.len)
    (hok : Squarable a.nlimbs (a.toNat % 256 ^ n)) :
    NoPanic (ct_square_trunc_mp a n) := noPanic_of_sat (C10_square_partial a n hn hok)

omit [LimbCfg] in
/-- C38 doesn't hold as stated: squaring a number in a buffer of twice its length may panic. -/
theorem C38_square_fails : ∃ (c : LimbCfg) (a : @Buf c .ne), @Buf.len c .ne a = 32 ∧
    @Buf.toNat c .ne a < 256 ^ 16 ∧ ¬ NoPanic (@ct_square_trunc_mp c .ne a 16) :=
  ⟨cfg64, @Buf.ne cfg64 [2 ^ 63, 2 ^ 64 - 1, 0, 0], by decide +kernel, by decide +kernel,
    not_not.2 (by decide +kernel)⟩

/-! ## Division -/

/-- C38: division by a buffer.  Missing: the divisors excluded by `DivisorArgs` and the quotient buffers
excluded by `QuotientSane`; see `C22_divisor_fails` and `C22_quotient_fails`. -/
theorem C38_div_partial (u_h : Option (Buf f)) (u_l : Buf f) (v : Buf g) (dec : Option ℕ)
    (q : Option (Buf h)) (hv : DivisorArgs v dec)
    (hq : QuotientSane q (dividendLen u_h u_l) (v.toNat - dec.getD 0)
      (dividend u_h u_l / (v.toNat - dec.getD 0))) :
    NoPanic (divideBy v dec fun d => ct_div_mp_mp u_h u_l d q) :=
  noPanic_of_sat (C22_div_partial u_h u_l v dec q hv hq)

/-- C38: division of a power of two.  Missing: as for `C38_div_partial`. -/
theorem C38_div_pow2_partial (e : ℕ) (r : Buf f) (v : Buf g) (dec : Option ℕ)
    (q : Option (Buf h)) (hv : DivisorArgs v dec)
    (hq : QuotientSane q (pow2Len e) (v.toNat - dec.getD 0) (2 ^ e / (v.toNat - dec.getD 0))) :
    NoPanic (divideBy v dec fun d => ct_div_pow2_mp e r d q) :=
  noPanic_of_sat (C22_div_pow2_partial e r v dec q hv hq)

/-- C38: division of a shifted buffer.  Missing: as for `C38_div_partial`. -/
theorem C38_div_lshifted_partial (u : Buf f) (n s : ℕ) (v : Buf g) (dec : Option ℕ)
    (q : Option (Buf h)) (hn : n ≤ u.len) (hu : u.toNat < 256 ^ n) (hv : DivisorArgs v dec)
    (hq : QuotientSane q (n + s) (v.toNat - dec.getD 0)
      (u.toNat * 256 ^ s / (v.toNat - dec.getD 0))) :
    NoPanic (divideBy v dec fun d => ct_div_lshifted_mp_mp u n s d q) :=
  noPanic_of_sat (C22_div_lshifted_partial u n s v dec q hn hu hv hq)

/-- C38: remainders modulo anything but zero. -/
theorem C38_mod (u_h : Option (Buf f)) (u_l : Buf f) (v : Buf g) (dec : Option ℕ)
    (hdec : ∀ x ∈ dec, x < B) (hv : dec.getD 0 < v.toNat) :
    NoPanic (divideBy v dec fun d => do let r ← ct_mod_mp_mp u_h u_l d; pure (.ok r)) :=
  noPanic_of_sat (C21_mod u_h u_l v dec hdec hv)

/-- C38: remainders modulo any limb, including zero, which gives no divisor. -/
theorem C38_mod_l (u : Buf f) (v : ℕ) (hv : v < B) :
    NoPanic (CtLDivisor.new v) ∧
    (v ≠ 0 → NoPanic (divideByL v fun d => do let r ← ct_mod_mp_l u d; pure (.ok r))) :=
  ⟨noPanic_of_sat (C22_divisor_l v hv), fun h0 => noPanic_of_sat (C24_mod_l u v hv h0)⟩

/-- C38: division by a limb.  Missing: an empty dividend with a quotient and a quotient with less limbs than
the dividend; see `C24_quotient_fails`. -/
theorem C38_div_l_partial (u : Buf f) (v : ℕ) (q : Option (Buf h)) (hv : v < B)
    (hu : q.isSome → u.len ≠ 0)
    (hq : ∀ b ∈ q, QuotientLimbs u b ∨ b.len + byteLen v < u.len + 1 ∨ u.len < byteLen v) :
    NoPanic (divideByL v fun d => ct_div_mp_l u d q) :=
  noPanic_of_sat (C22_div_l_partial u v q hv hu hq)

/-! ## Montgomery arithmetic -/

/-- C38: the reduction of numbers in range.  Missing: moduli of a single limb; see `C25_single_limb_fails`. -/
theorem C38_redc_partial (t : Buf f) (n : Buf g) (neg : ℕ) (hneg : NegInv n neg)
    (hlt : t.toNat < n.toNat * radix n) (h2 : 2 ≤ n.nlimbs) :
    NoPanic (ct_montgomery_redc_mp t n neg) :=
  noPanic_of_sat (ct_montgomery_redc_mp_sat t n fun _ => ⟨h2, hneg.wmul, hlt⟩)

/-- C38: the multiplication of reduced operands.  Missing: the cases excluded from C26; see
`C26_empty_fails`, `C26_short_fails` and `C26_align_fails`. -/
theorem C38_mg_mul_partial (result : Buf f) (a : Buf g) (b : Buf h) (n : Buf f') (neg : ℕ)
    (hneg : NegInv n neg) (ha : a.toNat < n.toNat) (hb : b.toNat < n.toNat)
    (hhigh : (B + 1) * n.toNat ≤ B ^ (n.nlimbs + 1))
    (hlen : LenCompat n result.len → n.len ≤ result.len)
    (halign : f.unaligned = true ∨ LB ∣ n.len ∨ 257 * n.toNat ≤ 256 ^ (n.len + 1))
    (hne : a.len = 0 ∨ b.len ≠ 0) :
    NoPanic (ct_montgomery_mul_mod_mp_mp result a b n neg) := by
  refine noPanic_of_sat (ct_montgomery_mul_mod_mp_mp_sat result a b n fun he =>
    ⟨ha, hb, hneg.wmul, hne, hhigh, hlen ?_, halign⟩)
  by_contra hc
  unfold mulErr at he
  simp only [hc, not_false_eq_true, if_true] at he
  split at he <;> cases he

/-- C38: exponentiation of a reduced base.  Missing: moduli of a single limb (`C28_single_limb_fails`) and
those excluded from C26. -/
theorem C38_exp_partial (result : Buf f) (base : Buf g) (n : Buf f') (e : Buf e') (nbits : ℕ)
    (scratch : Buf .ne) (hb : base.toNat < n.toNat) (h2 : 2 ≤ n.nlimbs)
    (hhigh : (B + 1) * n.toNat ≤ B ^ (n.nlimbs + 1))
    (hlen : LenCompat n result.len → n.len ≤ result.len)
    (halign : LB ∣ n.len ∨ 257 * n.toNat ≤ 256 ^ (n.len + 1)) :
    NoPanic (ct_exp_mod_odd_mp_mp result base n e nbits scratch) := by
  refine noPanic_of_sat (ct_exp_mod_odd_mp_mp_sat result base n e nbits scratch hb fun he => ?_)
  unfold expErr at he
  have h3 : LenCompat n result.len := by
    by_contra hc
    rw [if_pos hc] at he; cases he
  have h4 : n.nlimbs ≤ scratch.nlimbs := by
    by_contra hc
    rw [if_neg (not_not.2 h3), if_pos (show scratch.nlimbs < n.nlimbs by omega)] at he
    repeat' split at he
    all_goals cases he
  exact ⟨h2, ⟨hhigh, hlen h3, Or.inr halign⟩, ⟨hhigh, ne_scratch_len h4, Or.inr halign⟩⟩

/-- C38: conversion to Montgomery form of a reduced number.  Missing: as for `C38_mg_mul_partial`. -/
theorem C38_to_form_partial (result : Buf f) (t : Buf g) (n : Buf f') (neg : ℕ) (radix2 : Buf h)
    (hneg : NegInv n neg) (ht : t.toNat < n.toNat) (hr : radix2.toNat < n.toNat)
    (hhigh : (B + 1) * n.toNat ≤ B ^ (n.nlimbs + 1))
    (hlen : LenCompat n result.len → n.len ≤ result.len)
    (halign : f.unaligned = true ∨ LB ∣ n.len ∨ 257 * n.toNat ≤ 256 ^ (n.len + 1))
    (hne : t.len = 0 ∨ radix2.len ≠ 0) :
    NoPanic (ct_to_montgomery_form_mp result t n neg radix2) := by
  refine noPanic_of_sat (ct_to_montgomery_form_mp_sat result t n radix2 ht hr fun he =>
    ⟨hneg.wmul, hne, hhigh, hlen ?_, halign⟩)
  by_contra hc
  unfold toMgErr mulErr at he
  simp only [hc, not_false_eq_true, if_true] at he
  repeat' split at he
  all_goals cases he

/-- C38: exponentiation in Montgomery form.  Missing: as for `C38_mg_mul_partial`. -/
theorem C38_mg_exp_partial (result : Buf f) (mg_base : Buf g) (n : Buf f') (neg : ℕ)
    (mg_radix : Buf h) (e : Buf e') (nbits : ℕ) (scratch : Buf .ne) (a : ℕ) (hn : 0 < n.toNat)
    (hneg : NegInv n neg) (hbase : mg_base.toNat = a * radix n % n.toNat)
    (hrad : mg_radix.toNat = radix n % n.toNat) (hne : mg_base.len ≠ 0)
    (hhigh : (B + 1) * n.toNat ≤ B ^ (n.nlimbs + 1))
    (hlen : LenCompat n result.len → n.len ≤ result.len)
    (halign : LB ∣ n.len ∨ 257 * n.toNat ≤ 256 ^ (n.len + 1)) :
    NoPanic (ct_montogmery_exp_mod_odd_mp_mp result mg_base n neg mg_radix e nbits scratch) := by
  refine noPanic_of_sat (ct_montogmery_exp_mod_odd_mp_mp_sat result mg_base n mg_radix e nbits
    scratch (x := a) (hbase ▸ Nat.mod_lt _ hn) (hrad ▸ Nat.mod_lt _ hn) fun he => ?_)
  unfold mgExpErr at he
  have h3 : LenCompat n result.len := by
    by_contra hc
    rw [if_pos hc] at he
    split at he <;> cases he
  have h4 : n.nlimbs ≤ scratch.nlimbs := by
    by_contra hc
    rw [if_neg (not_not.2 h3), if_pos (show scratch.nlimbs < n.nlimbs by omega)] at he
    split at he <;> cases he
  refine ⟨hneg.wmul, hne, ⟨hhigh, hlen h3, Or.inr halign⟩, ⟨hhigh, ne_scratch_len h4, Or.inr halign⟩,
    ?_, ?_⟩
  · rw [hrad]; exact Nat.mod_modEq _ _
  · rw [hbase]; exact Nat.mod_modEq _ _

/-! ## Inverses, least common multiples, primes -/

/-- C38: inverses modulo an odd number.  Missing: an operand coprime to the modulus, with a modulus
which uses the most significant limb of its buffer; see `C38_inv_odd_fails`, and `C30_inv_odd_panics_fails`
for exactly which arguments panic. -/
theorem C38_inv_odd_partial (result : Buf φ) (op0 : Buf ψ) (n : Buf χ) (scratch0 scratch1 : Buf .ne)
    (hn : Nat.gcd op0.toNat n.toNat = 1 → n.toNat ≤ B ^ (n.nlimbs - 1)) :
    NoPanic (ct_inv_mod_odd_mp_mp result op0 n scratch0 scratch1) := by
  refine noPanic_of_sat (ct_inv_mod_odd_mp_mp_sat result op0 n scratch0 scratch1 fun he => hn ?_)
  by_contra hc
  unfold invOddErr at he
  rw [if_pos hc] at he
  repeat' split at he
  all_goals cases he

omit [LimbCfg] in
/-- C38 doesn't hold for inverses modulo an odd number with the most significant bit of its buffer set (finding I2):
the assertion that an inverse is not zero fails. -/
theorem C38_inv_odd_fails : ∃ (c : LimbCfg) (result op0 n : @Buf c .be) (s0 s1 : @Buf c .ne),
    @Buf.toNat c .be n = 3443927703 ∧ @Buf.toNat c .be op0 = 1445968151 ∧
    @InvOddRoom c .be .be .be result op0 n s0 s1 ∧ Nat.gcd 1445968151 3443927703 = 1 ∧
    ¬ NoPanic (@ct_inv_mod_odd_mp_mp c .be .be .be result op0 n s0 s1) :=
  ⟨cfg32, @Buf.ofNat cfg32 .be 4 0, @Buf.ofNat cfg32 .be 4 1445968151,
    @Buf.ofNat cfg32 .be 4 3443927703, @Buf.ofNat cfg32 .ne 4 0, @Buf.ofNat cfg32 .ne 4 0,
    by decide +kernel, by decide +kernel,
    ⟨by decide +kernel, by decide +kernel, by decide +kernel, by decide +kernel, by decide +kernel⟩,
    by decide +kernel, fun h => h (Option.isNone_iff_eq_none.1 (by decide +kernel))⟩

/-- C38: inverses modulo a power of two, in up to two limbs.  Missing: larger ones, see
`C31_inv_pow2_fails`; but also see `C31_inv_pow2_partial`. -/
theorem C38_inv_pow2_partial (result : Buf φ) (op0 : Buf ψ) (e max_exp : ℕ) (scratch : Buf .ne)
    (h0 : op0.len ≠ 0) (hodd : e = 0 ∨ op0.toNat % 2 = 1) (hmx : max_exp ≠ 0) (he : e ≤ max_exp)
    (hr : (max_exp + 7) / 8 ≤ result.len)
    (hs : ct_mp_nlimbs ((max_exp + 7) / 8) ≤ scratch.nlimbs) (hsmall : max_exp ≤ 2 * W) :
    NoPanic (ct_inv_mod_pow2_mp result op0 e max_exp scratch) :=
  noPanic_of_sat (C31_inv_pow2_two_limbs_partial result op0 e max_exp scratch h0 hodd hmx he hr hs
    hsmall)

/-- C38: inverses modulo any number of up to two limbs.  Missing: larger ones, see `C32_inv_panic_fails`, but
also `C32_inv_partial`; and moduli whose odd part uses the most significant limb of the
buffer.  Exactly which arguments panic: `C32_inv_panics_fails`. -/
theorem C38_inv_partial (op0 : Buf φ) (n : Buf ψ) (s0 s1 s2 s3 : Buf .ne)
    (hn : ∀ m e, m % 2 = 1 → n.toNat = m * 2 ^ e → m < B ^ (n.nlimbs - 1) ∨ m = 1)
    (hsmall : n.len ≤ 2 * LB) : NoPanic (ct_inv_mod_mp_mp op0 n s0 s1 s2 s3) := by
  by_cases hr : InvRoom op0 n s0 s1 s2 s3
  swap
  · exact noPanic_of_sat (C32_inv_error op0 n s0 s1 s2 s3 (Or.inl hr))
  by_cases h0 : n.toNat = 0
  · exact noPanic_of_sat (C32_inv_error op0 n s0 s1 s2 s3 (Or.inr (Or.inl h0)))
  by_cases hcop : Nat.gcd op0.toNat n.toNat = 1 ∧ n.toNat ≠ 1
  · exact noPanic_of_sat (C32_inv_two_limbs_partial op0 n s0 s1 s2 s3 hr (by omega) hcop.1 hn hsmall)
  · have hb : 8 * n.len - 1 ≤ 2 * W := by
      rw [W_eq]; omega
    exact noPanic_of_sat (C32_inv_not_coprime_partial op0 n s0 s1 s2 s3 hr h0 (by tauto)
      (liftOk_small hb) fun _ => liftOk_small hb)

/-- C38: least common multiples of operands of which the declared lengths are true, unless the buffer lengths
are compatible, though not equal, or the second operand is in limbs and the lengths don't fit limbs.  Missing:
just these, where the function does panic, see `C33_lcm_panics_fails`. -/
theorem C38_lcm_partial (result : Buf φ) (op0 : Buf ψ) (m0 : ℕ) (op1 : Buf χ) (m1 : ℕ)
    (scratch : Buf χ) {n0 n1 : ℕ} (hn0 : n0 = min m0 op0.len) (hn1 : n1 = min m1 op1.len)
    (h0 : op0.toNat < 256 ^ m0) (h1 : op1.toNat < 256 ^ m1)
    (hlen : LenCompat op0 op1.len → LenCompat op1 op0.len → op0.len = op1.len)
    (hlimbs : χ = .ne → LB ∣ n0 + n1 ∧
      n0 + n1 + (ct_mp_nlimbs (max n0 n1) * LB - max n0 n1) ≤ result.len) :
    NoPanic (ct_lcm_mp_mp result op0 m0 op1 m1 scratch) := by
  intro h
  obtain ⟨-, -, c0, c1, h⟩ :=
    (C33_lcm_panics_fails result op0 m0 op1 m1 scratch hn0 hn1 h0 h1).1 h
  rcases h with h | ⟨-, -, hx, h⟩
  · exact h (hlen c0 c1)
  · obtain ⟨d, r⟩ := hlimbs hx
    rcases h with h | h
    · exact h d
    · omega

/-- C38: least common multiples of operands in bytes, of any lengths. -/
theorem C38_lcm_bytes (result : Buf φ) (op0 : Buf ψ) (m0 : ℕ) (op1 : Buf χ) (m1 : ℕ)
    (scratch : Buf χ) (hb0 : ψ = .be ∨ ψ = .le) (hb1 : χ = .be ∨ χ = .le)
    (h0 : op0.toNat < 256 ^ m0) (h1 : op1.toNat < 256 ^ m1) :
    NoPanic (ct_lcm_mp_mp result op0 m0 op1 m1 scratch) := by
  have hu0 : ψ.unaligned = true := by rcases hb0 with rfl | rfl <;> rfl
  have hu : χ.unaligned = true := by rcases hb1 with rfl | rfl <;> rfl
  have c0 : LenCompat op0 op1.len ↔ op0.len ≤ op1.len := by simp [LenCompat, hu0]
  have c1 : LenCompat op1 op0.len ↔ op1.len ≤ op0.len := by simp [LenCompat, hu]
  refine C38_lcm_partial result op0 m0 op1 m1 scratch rfl rfl h0 h1 (fun a b => ?_) fun hx => ?_
  · exact le_antisymm (c0.1 a) (c1.1 b)
  · rcases hb1 with h | h <;> rw [hx] at h <;> cases h

/-- C38: the Miller-Rabin test of a candidate above one with a base in Montgomery form.  Missing: the candidate one
(`C34_one_fails`), a radix shorter than the candidate (`C34_short_radix_fails`), and the moduli excluded
from C26 (`C34_align_fails`). -/
theorem C38_miller_rabin_partial (mg_base : Buf χ) (p : Buf φ) (mg_radix : Buf ψ)
    (scratch0 scratch1 : Buf .ne) (a : ℕ) (hp : 1 < p.toNat)
    (hbase : mg_base.toNat = a * radix p % p.toNat) (hbne : mg_base.len ≠ 0)
    (hrad : mg_radix.toNat = radix p % p.toNat) (hrn : p.nlimbs ≤ mg_radix.nlimbs)
    (hhigh : (B + 1) * p.toNat ≤ B ^ (p.nlimbs + 1))
    (halign : LB ∣ p.len ∨ 257 * p.toNat ≤ 256 ^ (p.len + 1)) :
    NoPanic (ct_prime_test_miller_rabin_mp mg_base p mg_radix scratch0 scratch1) := by
  have hpos : 0 < p.toNat := by omega
  by_cases he : p.toNat % 2 = 0 ∨ ¬ LenCompat mg_base p.len ∨ ¬ LenCompat mg_radix p.len ∨
      scratch0.nlimbs < p.nlimbs ∨ scratch1.nlimbs < p.nlimbs
  · exact noPanic_of_sat (C34_error mg_base p mg_radix scratch0 scratch1
      (hbase ▸ Nat.mod_lt _ hpos) (hrad ▸ Nat.mod_lt _ hpos) he)
  · simp only [not_or, not_not, not_lt] at he
    exact noPanic_of_sat (C34_miller_rabin_partial mg_base p mg_radix scratch0 scratch1 a hp
      (by omega) hbase he.2.1 hbne hrad he.2.2.1 hrn he.2.2.2.1 he.2.2.2.2 hhigh halign)

/-! ## The hypotheses can be met

Each example gives arguments to one of the theorems above. -/

example : letI := cfg64; NoPanic ((Buf.ofNat .be 13 77).store_l 1 (2 ^ 40 - 1)) :=
  letI := cfg64
  (C38_access (Buf.ofNat .be 13 77) 1 (2 ^ 40 - 1) (by decide +kernel) (by decide +kernel)).2.1
    (by decide +kernel)

example : letI := cfg32; NoPanic (do
    let c ← Composite.new [Buf.ofNat .le 3 77, Buf.ofNat .le 4 99]
    let c ← c.store 1 (2 ^ 24 - 1); pure c.parts) :=
  letI := cfg32
  (C38_composite [Buf.ofNat .le 3 77, Buf.ofNat .le 4 99] 1 (2 ^ 24 - 1) (by decide +kernel)
    (by decide +kernel) (by decide +kernel)).2

example : letI := cfg64; NoPanic ((Buf.ofNat .be 3 77).copy_from_cond (Buf.ofNat .ne 16 65537)
    (.ofBool true)) :=
  letI := cfg64
  (C38_copy (Buf.ofNat .be 3 77) (Buf.ofNat .ne 16 65537) true (by decide +kernel)).2

example : letI := cfg64; NoPanic ((Buf.ofNat .be 9 77).set_bit_to 71 true) :=
  letI := cfg64
  (C38_set (Buf.ofNat .be 9 77)).1 71 true (by decide +kernel)

example : letI := cfg64; NoPanic ((Buf.ofNat .be 9 77).take 5) ∧
    NoPanic ((Buf.ofNat .ne 16 77).shrink_to 1) :=
  letI := cfg64
  ⟨(C38_split (Buf.ofNat .be 9 77) 5).1 (by decide +kernel) (by decide +kernel),
    (C38_split (Buf.ofNat .ne 16 77) 1).2 (by decide +kernel)⟩

example : letI := cfg64; NoPanic ((Buf.ofNat .be 9 77).clear_bytes_below 1000) :=
  letI := cfg64
  C38_clear_bytes_below_partial (Buf.ofNat .be 9 77) 1000 (Or.inl (by decide))

example : letI := cfg32; NoPanic ((Buf.ofNat .be 5 77).try_into_native 8) :=
  letI := cfg32
  C38_try_into_partial (Buf.ofNat .be 5 77) 8 (by decide) (Or.inl (by decide +kernel))

example : letI := cfg64; NoPanic (ct_add_mp_mp (Buf.ofNat .be 9 77) (Buf.ofNat .ne 8 88)) :=
  letI := cfg64
  (C38_add_sub (Buf.ofNat .be 9 77) (Buf.ofNat .ne 8 88) true (by decide +kernel)).1

example : letI := cfg64; NoPanic (ct_add_mod_mp_mp (Buf.ofNat .be 7 77) (Buf.ofNat .ne 16 88)
    (Buf.ofNat .le 9 89)) :=
  letI := cfg64
  (C38_add_sub_mod (Buf.ofNat .be 7 77) (Buf.ofNat .ne 16 88) (Buf.ofNat .le 9 89)
    (by decide +kernel) (by decide +kernel)).1

example : letI := cfg64; NoPanic (ct_mul_trunc_mp_mp (Buf.ofNat .be 9 77) 2 (Buf.ofNat .ne 0 0)) :=
  letI := cfg64
  (C38_mul (Buf.ofNat .be 9 77) 2 (Buf.ofNat .ne 0 0) true (by decide +kernel)).1

example : letI := cfg64; NoPanic (ct_square_trunc_mp (Buf.ofNat .be 8 77) 2) :=
  letI := cfg64
  C38_square_partial (Buf.ofNat .be 8 77) 2 (by decide +kernel) fun i j h1 h2 => by
    have : (Buf.ofNat .be 8 77).nlimbs = 1 := by decide +kernel
    omega

example : letI := cfg64; NoPanic (divideBy (Buf.ofNat .be 9 (2 ^ 70)) (some 3)
    fun d => ct_div_mp_mp none (Buf.ofNat .le 3 77) d (some (Buf.ofNat .be 12 0))) :=
  letI := cfg64
  C38_div_partial none (Buf.ofNat .le 3 77) (Buf.ofNat .be 9 (2 ^ 70)) (some 3)
    (some (Buf.ofNat .be 12 0)) ⟨by decide +kernel, by decide +kernel⟩
    (by unfold QuotientSane; decide +kernel)

example : letI := cfg64; NoPanic (divideBy (Buf.ofNat .be 9 5) (some 3)
    fun d => do let r ← ct_mod_mp_mp none (Buf.ofNat .le 3 77) d; pure (.ok r)) :=
  letI := cfg64
  C38_mod none (Buf.ofNat .le 3 77) (Buf.ofNat .be 9 5) (some 3) (by decide +kernel)
    (by decide +kernel)

example : letI := cfg64; NoPanic (divideByL 0
    fun d => ct_div_mp_l (Buf.ofNat .le 3 77) d (some (Buf.ofNat .be 3 0))) :=
  letI := cfg64
  C38_div_l_partial (Buf.ofNat .le 3 77) 0 (some (Buf.ofNat .be 3 0)) (by decide +kernel)
    (by decide +kernel) (by intro b hb; cases hb; exact Or.inl (Or.inl (by decide +kernel)))

example : letI := cfg64; NoPanic (ct_montgomery_redc_mp (Buf.ofNat .be 18 (2 ^ 135 + 77))
    (Buf.ofNat .le 9 (2 ^ 72 - 93)) 5752210517608354805) :=
  letI := cfg64
  C38_redc_partial (Buf.ofNat .be 18 (2 ^ 135 + 77)) (Buf.ofNat .le 9 (2 ^ 72 - 93)) _
    ⟨by decide +kernel, by decide +kernel⟩ (by decide +kernel) (by decide +kernel)

example : letI := cfg32; NoPanic (ct_montgomery_mul_mod_mp_mp (Buf.ofNat .ne 16 0)
    (Buf.ofNat .be 9 (2 ^ 70 + 3)) (Buf.ofNat .le 9 (2 ^ 71 + 5))
    (Buf.ofNat .be 9 (2 ^ 72 - 2 ^ 64 - 1)) 1) :=
  letI := cfg32
  C38_mg_mul_partial _ _ _ _ 1 ⟨by decide +kernel, by decide +kernel⟩ (by decide +kernel)
    (by decide +kernel) (by decide +kernel) (by decide +kernel) (Or.inr (Or.inr (by decide +kernel)))
    (Or.inr (by decide +kernel))

example : letI := cfg64; NoPanic (ct_exp_mod_odd_mp_mp (Buf.ofNat .be 10 0)
    (Buf.ofNat .le 9 (2 ^ 70 + 9)) (Buf.ofNat .be 9 (2 ^ 71 - 93)) (Buf.ofNat .le 2 1234) 99
    (Buf.ofNat .ne 0 0)) :=
  letI := cfg64
  C38_exp_partial _ _ _ _ 99 _ (by decide +kernel) (by decide +kernel) (by decide +kernel)
    (by decide +kernel) (Or.inr (by decide +kernel))

example : letI := cfg64; NoPanic (ct_inv_mod_odd_mp_mp (Buf.ofNat .be 9 0) (Buf.ofNat .be 9 5)
    (Buf.ofNat .be 9 77) (Buf.ofNat .ne 16 0) (Buf.ofNat .ne 16 0)) ∧
    NoPanic (ct_inv_mod_odd_mp_mp (Buf.ofNat .be 9 0) (Buf.ofNat .be 9 9)
    (Buf.ofNat .be 9 (2 ^ 72 - 1)) (Buf.ofNat .ne 16 0) (Buf.ofNat .ne 16 0)) :=
  letI := cfg64
  ⟨C38_inv_odd_partial _ _ _ _ _ fun _ => by decide +kernel,
    C38_inv_odd_partial _ _ _ _ _ fun h => absurd h (by decide +kernel)⟩

example : letI := cfg64; NoPanic (ct_inv_mod_mp_mp (Buf.ofNat .be 10 3) (Buf.ofNat .be 10 80)
    (Buf.ofNat .ne 16 0) (Buf.ofNat .ne 16 0) (Buf.ofNat .ne 16 0) (Buf.ofNat .ne 8 0)) :=
  letI := cfg64
  C38_inv_partial _ _ _ _ _ _ (fun m e _ h => Or.inl (by
    have h1 : (Buf.ofNat .be 10 80).toNat = 80 := by decide +kernel
    have h2 : B ^ ((Buf.ofNat .be 10 80).nlimbs - 1) = 2 ^ 64 := by decide +kernel
    have h3 : m * 1 ≤ m * 2 ^ e := Nat.mul_le_mul_left _ Nat.one_le_two_pow
    rw [h2]
    omega)) (by decide +kernel)

example : letI := cfg64; NoPanic (ct_lcm_mp_mp (Buf.ofNat .ne 8 0) (Buf.ofNat .be 10 3) 2
    (Buf.ofNat .le 11 80) 1 (Buf.ofNat .le 16 0)) :=
  letI := cfg64
  C38_lcm_bytes _ _ 2 _ 1 _ (Or.inl rfl) (Or.inr rfl) (by decide +kernel) (by decide +kernel)

example : letI := cfg64; NoPanic (ct_lcm_mp_mp (Buf.ofNat .ne 16 0) (Buf.ofNat .be 16 3) 3
    (Buf.ofNat .ne 16 80) 5 (Buf.ofNat .ne 16 0)) :=
  letI := cfg64
  C38_lcm_partial _ _ 3 _ 5 _ (n0 := 3) (n1 := 5) (by decide +kernel) (by decide +kernel)
    (by decide +kernel) (by decide +kernel) (fun _ _ => by decide +kernel) fun _ => by decide +kernel

end Props
end Cmpa
