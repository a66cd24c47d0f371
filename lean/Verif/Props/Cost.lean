import Verif.Proofs.CostPrime
import Mathlib.Data.Nat.Log

/-!
# C70: the work is bounded by a polynomial in the lengths

`m.steps` is the number of branches, loop iterations and limbs loaded and stored in a run of `m` in a debug build; filling,
splitting or copying a buffer as a whole counts as one step per limb and one more (`Ev.steps`).  Runs which panic count up
to the panic.  The bounds are in terms of the numbers of limbs of the operands only: no operand makes a function run longer.
-/

namespace Cmpa
namespace Props

open M
variable [LimbCfg] {f g h f' e : Fmt}

/-- C70: if a debug build doesn't panic, a release build takes the same steps. -/
theorem C70_release {α : Type} (m : M α) (hm : m.val ≠ none) : (m.rtr.map Ev.steps).sum = m.steps := by
  obtain ⟨a, ha⟩ := Option.ne_none_iff_exists'.1 hm
  rw [M.steps, (m.coh a ha).2]

/-- C70: comparisons are linear. -/
theorem C70_compare (a : Buf f) (b : Buf g) :
    (ct_eq_mp_mp a b).steps ≤ 5 * a.nlimbs + 2 * b.nlimbs ∧ (ct_neq_mp_mp a b).steps ≤ 5 * a.nlimbs + 2 * b.nlimbs ∧
    (ct_leq_mp_mp a b).steps ≤ 5 * a.nlimbs + 2 * b.nlimbs ∧ (ct_geq_mp_mp a b).steps ≤ 2 * a.nlimbs + 5 * b.nlimbs ∧
    (ct_lt_mp_mp a b).steps ≤ 2 * a.nlimbs + 5 * b.nlimbs ∧ (ct_gt_mp_mp a b).steps ≤ 5 * a.nlimbs + 2 * b.nlimbs ∧
    (ct_is_zero_mp a).steps ≤ 2 * a.nlimbs ∧ (ct_is_one_mp a).steps ≤ 2 * a.nlimbs + 2 :=
  ⟨(ct_eq_mp_mp_cost le_rfl le_rfl).1, (ct_neq_mp_mp_cost le_rfl le_rfl).1, (ct_leq_mp_mp_cost le_rfl le_rfl).1,
    (ct_geq_mp_mp_cost le_rfl le_rfl).1, (ct_lt_mp_mp_cost le_rfl le_rfl).1, (ct_gt_mp_mp_cost le_rfl le_rfl).1,
    (ct_is_zero_mp_cost le_rfl).1, (ct_is_one_mp_cost le_rfl).1⟩

/-- C70: sums, differences and negatives are linear. -/
theorem C70_add_sub (a : Buf f) (b : Buf g) (n : Buf h) (c : LimbChoice) (l : ℕ) :
    (ct_add_cond_mp_mp a b c).steps ≤ 8 * a.nlimbs + 2 ∧ (ct_sub_cond_mp_mp a b c).steps ≤ 8 * a.nlimbs + 2 ∧
    (ct_add_mp_l a l).steps ≤ 3 * a.nlimbs + 3 ∧ (ct_sub_mp_l a l).steps ≤ 3 * a.nlimbs + 3 ∧
    (ct_negate_cond_mp a c).steps ≤ 3 * a.nlimbs + 3 ∧
    (ct_add_mod_mp_mp a b n).steps ≤ 19 * a.nlimbs + 6 ∧ (ct_sub_mod_mp_mp a b n).steps ≤ 17 * a.nlimbs + 6 ∧
    (ct_negate_mod_mp a b).steps ≤ 13 * a.nlimbs + 9 :=
  ⟨(ct_add_cond_mp_mp_cost le_rfl).1, (ct_sub_cond_mp_mp_cost le_rfl).1, (ct_add_mp_l_cost le_rfl).1,
    (ct_sub_mp_l_cost le_rfl).1, (ct_negate_cond_mp_cost le_rfl).1, (ct_add_mod_mp_mp_cost le_rfl).1,
    (ct_sub_mod_mp_mp_cost le_rfl).1, (ct_negate_mod_mp_cost le_rfl).1⟩

/-- C70: shifts and the search for bits are linear in the length, whatever the distance is. -/
theorem C70_shift (a : Buf f) (d : ℕ) :
    (ct_lshift_mp a d).steps ≤ 7 * a.nlimbs + 4 ∧ (ct_rshift_mp a d).steps ≤ 7 * a.nlimbs + 4 ∧
    (ct_clear_bits_above_mp a d).steps ≤ 3 * a.nlimbs ∧ (ct_clear_bits_below_mp a d).steps ≤ 3 * a.nlimbs ∧
    (ct_find_first_set_bit_mp a).steps ≤ 2 * a.nlimbs ∧ (ct_find_last_set_bit_mp a).steps ≤ 2 * a.nlimbs :=
  ⟨(ct_lshift_mp_cost le_rfl).1, (ct_rshift_mp_cost le_rfl).1, (ct_clear_bits_above_mp_cost le_rfl).1,
    (ct_clear_bits_below_mp_cost le_rfl).1, (ct_find_first_set_bit_mp_cost le_rfl).1,
    (ct_find_last_set_bit_mp_cost le_rfl).1⟩

/-- C70: products and squares are quadratic. -/
theorem C70_mul (a : Buf f) (l : ℕ) (b : Buf g) (c : LimbChoice) :
    (ct_mul_trunc_cond_mp_mp a l b c).steps ≤
      ct_mp_nlimbs l * (4 * a.nlimbs + 5 * b.nlimbs + 3) + 3 * a.nlimbs + 2 ∧
    (ct_mul_trunc_mp_mp a l b).steps ≤ ct_mp_nlimbs l * (4 * a.nlimbs + 5 * b.nlimbs + 3) + 3 * a.nlimbs + 2 ∧
    (ct_square_trunc_mp a l).steps ≤ ct_mp_nlimbs l * (4 * a.nlimbs + 5 * ct_mp_nlimbs l + 7) + a.nlimbs + 1 :=
  ⟨(ct_mul_trunc_cond_mp_mp_cost le_rfl le_rfl le_rfl).1, (ct_mul_trunc_mp_mp_cost le_rfl le_rfl le_rfl).1,
    (ct_square_trunc_mp_cost le_rfl le_rfl).1⟩

/-- C70: preparing a divisor is linear. -/
theorem C70_divisor (b : Buf f) : (CtMpDivisor.new b none).steps ≤ 7 * b.nlimbs + 12 :=
  (CtMpDivisor.new_cost le_rfl (by simp)).1

/-- C70: quotients and remainders take a number of steps bounded by the product of the lengths of dividend and divisor. -/
theorem C70_div (a : Option (Buf f)) (b : Buf f) (d : CtMpDivisor g) (q : Option (Buf h)) (u w : ℕ)
    (ha : ∀ x, a = some x → x.nlimbs ≤ u) (hb : b.nlimbs ≤ u) (hq : ∀ x, q = some x → x.nlimbs ≤ w) :
    (ct_div_mp_mp a b d q).steps ≤
      (2 * u + 1) * (76 * ct_mp_nlimbs d.v_len + 172) + 37 * ct_mp_nlimbs d.v_len + 3 * u + w + 16 :=
  (ct_div_mp_mp_cost ha hb le_rfl hq).1

/-- C70: also remainders alone. -/
theorem C70_mod (a : Option (Buf f)) (b : Buf f) (d : CtMpDivisor g) (u : ℕ)
    (ha : ∀ x, a = some x → x.nlimbs ≤ u) (hb : b.nlimbs ≤ u) :
    (ct_mod_mp_mp a b d).steps ≤
      (2 * u + 1) * (76 * ct_mp_nlimbs d.v_len + 172) + 37 * ct_mp_nlimbs d.v_len + 3 * u + 16 :=
  (ct_mod_mp_mp_cost ha hb le_rfl).1

/-- C70: also if the dividend is a power of two, whose number of limbs counts. -/
theorem C70_div_pow2 (n : ℕ) (r : Buf f) (d : CtMpDivisor g) (q : Option (Buf h)) (w : ℕ)
    (hq : ∀ x, q = some x → x.nlimbs ≤ w) :
    (ct_div_pow2_mp n r d q).steps ≤
      (n / W + 2) * (8 * ct_mp_nlimbs d.v_len + 21) + 5 * ct_mp_nlimbs d.v_len + r.nlimbs + w + 20 :=
  (ct_div_pow2_mp_cost le_rfl le_rfl hq).1

/-- C70: also if the dividend is shifted, in terms of its shifted length. -/
theorem C70_div_lshifted (a : Buf f) (x y : ℕ) (d : CtMpDivisor g) (q : Option (Buf h)) (w : ℕ)
    (hq : ∀ x, q = some x → x.nlimbs ≤ w) :
    (ct_div_lshifted_mp_mp a x y d q).steps ≤ (ct_mp_nlimbs (x + y) + 1) * (18 * ct_mp_nlimbs d.v_len + 52) +
      10 * a.nlimbs + 3 * ct_mp_nlimbs d.v_len + w + 16 :=
  (ct_div_lshifted_mp_mp_cost le_rfl le_rfl hq le_rfl).1

/-- C70: dividing by a limb is linear. -/
theorem C70_div_limb (a : Buf f) (d : CtLDivisor) (q : Option (Buf h)) (w : ℕ) (hq : ∀ x, q = some x → x.nlimbs ≤ w) :
    (ct_div_mp_l a d q).steps ≤ 3 * a.nlimbs + w + 5 ∧ (ct_mod_mp_l a d).steps ≤ 3 * a.nlimbs + 5 :=
  ⟨(ct_div_mp_l_cost le_rfl hq).1, (ct_mod_mp_l_cost le_rfl).1⟩

/-- C70: a Montgomery product is quadratic. -/
theorem C70_montgomery (r : Buf f) (a : Buf g) (b : Buf h) (n : Buf f') (x u : ℕ) (hr : r.nlimbs ≤ u) (ha : a.nlimbs ≤ u)
    (hb : b.nlimbs ≤ u) (hn : n.nlimbs ≤ u) :
    (ct_montgomery_mul_mod_mp_mp r a b n x).steps ≤ 16 * u ^ 2 + 25 * u + 40 :=
  (ct_montgomery_mul_mod_mp_mp_cost hr ha hb hn).1.trans (le_of_eq (by ring))

/-- C70: a modular power takes a quadratic number of steps per bit of the exponent's buffer. -/
theorem C70_exp (r : Buf f) (a : Buf g) (n : Buf h) (p : Buf e) (i : ℕ) (s : Buf .ne) (u : ℕ) (hr : r.nlimbs ≤ u)
    (ha : a.nlimbs ≤ u) (hn : n.nlimbs ≤ u) (hs : s.nlimbs ≤ u) :
    (ct_exp_mod_odd_mp_mp r a n p i s).steps ≤
      min i (8 * p.len) * (128 * u ^ 2 + 114 * u + 100) + 100 * u ^ 2 + 300 * u + 400 :=
  (ct_exp_mod_odd_mp_mp_cost hr ha hn hs le_rfl).1

/-- C70: greatest common divisors are quadratic. -/
theorem C70_gcd (a : Buf f) (b : Buf g) (u : ℕ) (ha : a.nlimbs ≤ u) (hb : b.nlimbs ≤ u) :
    (ct_gcd_mp_mp a b).steps ≤ (4 * u + 1) * (W + 6 * u + 7) + 40 * u + 50 :=
  (ct_gcd_mp_mp_cost ha hb).1

/-- C70: inverses modulo odd numbers are quadratic. -/
theorem C70_inv_odd (r : Buf f) (a : Buf g) (n : Buf h) (s t : Buf .ne) (u : ℕ) (hr : r.nlimbs ≤ u) (ha : a.nlimbs ≤ u)
    (hn : n.nlimbs ≤ u) (hs : s.nlimbs ≤ u) (ht : t.nlimbs ≤ u) :
    (ct_inv_mod_odd_mp_mp r a n s t).steps ≤ (4 * u + 1) * (W + 22 * u + 12) + 28 * u + 60 :=
  (ct_inv_mod_odd_mp_mp_cost hr ha hn hs ht).1

/-- C70: inverses modulo powers of two take a logarithmic number of products. -/
theorem C70_inv_pow2 (r : Buf f) (a : Buf g) (n m : ℕ) (s : Buf .ne) (u : ℕ) (hr : r.nlimbs ≤ u) (ha : a.nlimbs ≤ u)
    (hs : s.nlimbs ≤ u) (hm : ct_mp_nlimbs ((m + 7) / 8) ≤ u) :
    (ct_inv_mod_pow2_mp r a n m s).steps ≤ Nat.clog 2 m * (18 * u ^ 2 + 24 * u + 21) + 8 * u + 20 :=
  (ct_inv_mod_pow2_mp_cost hr ha hs hm (Nat.le_pow_clog one_lt_two m)).1.trans (le_of_eq (by ring))

/-- C70: inverses modulo all numbers. -/
theorem C70_inv_mod (a : Buf f) (n : Buf g) (s t p q : Buf .ne) (u : ℕ) (ha : a.nlimbs ≤ u) (hn : n.nlimbs ≤ u)
    (hs : s.nlimbs ≤ u) (ht : t.nlimbs ≤ u) (hp : p.nlimbs ≤ u) (hq : q.nlimbs ≤ u) :
    (ct_inv_mod_mp_mp a n s t p q).steps ≤ (8 * u + 1) * (W + 44 * u + 12) +
      Nat.clog 2 (W * u) * (60 * u ^ 2 + 75 * u + 42) + 77 * u ^ 2 + 500 * u + 400 :=
  (ct_inv_mod_mp_mp_cost ha hn hs ht hp hq (Nat.le_pow_clog one_lt_two _)).1

/-- C70: least common multiples are quadratic. -/
theorem C70_lcm (r : Buf f) (a : Buf g) (b s : Buf h) (l m u v : ℕ) (ha : a.nlimbs ≤ u) (hb : b.nlimbs ≤ u) (hs : s.nlimbs ≤ v) :
    (ct_lcm_mp_mp r a l b m s).steps ≤ (2 * u + 2 * v + 1) * (76 * u + 172) + (4 * u + 1) * (W + 6 * u + 7) +
      u * (4 * v + 5 * u + 3) + 120 * u + 30 * v + 2 * r.nlimbs + 200 :=
  (ct_lcm_mp_mp_cost le_rfl ha hb hs).1

/-- C70: both primality tests. -/
theorem C70_prime (b : Buf f) (p : Buf g) (r : Buf h) (s t : Buf .ne) (u : ℕ) (hb : b.nlimbs ≤ u) (hp : p.nlimbs ≤ u)
    (hs : s.nlimbs ≤ u) (ht : t.nlimbs ≤ u) :
    (ct_composite_test_small_prime_gcd_mp p s t).steps ≤ (4 * u + 1) * (W + 6 * u + 7) + 20 * u + 60 ∧
    (ct_prime_test_miller_rabin_mp b p r s t).steps ≤ 8 * p.len * (128 * u ^ 2 + 140 * u + 101) + 30 * u + 70 :=
  ⟨(ct_composite_test_small_prime_gcd_mp_cost hs ht).1, (ct_prime_test_miller_rabin_mp_cost hb hp hs ht).1⟩

/-! The steps are counted: there are some, and the bounds are of the right size. -/

example : letI := cfg32
    (ct_add_mp_mp (Buf.ofNat .be 8 5) (Buf.ofNat .be 8 7)).steps = 10 ∧
    (ct_eq_mp_mp (Buf.ofNat .be 8 5) (Buf.ofNat .be 8 7)).steps = 6 ∧
    (ct_lshift_mp (Buf.ofNat .be 8 5) 3).steps = 18 ∧
    (ct_mul_trunc_mp_mp (Buf.ofNat .be 8 5) 4 (Buf.ofNat .be 4 7)).steps = 16 ∧
    (CtMpDivisor.new (Buf.ofNat .be 8 7) none).steps = 14 := by decide +kernel

/-- The conditions on the lengths are met by all buffers that aren't longer than the longest of them. -/
example (a : Buf f) (b : Buf g) : (ct_gcd_mp_mp a b).steps ≤
    (4 * max a.nlimbs b.nlimbs + 1) * (W + 6 * max a.nlimbs b.nlimbs + 7) + 40 * max a.nlimbs b.nlimbs + 50 :=
  C70_gcd a b _ (le_max_left _ _) (le_max_right _ _)

end Props
end Cmpa
