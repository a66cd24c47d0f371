import Verif.Model.ShiftUsize
import Verif.Model.Lcm
import Verif.Model.Prime

/-!
# Lengths of operands in a `usize` of 32 or 64 bits

Greatest common divisors, inverses, least common multiples, powers, transformations to Montgomery form and tests for
primality, with the arithmetic on the lengths of operands as in the code: in a `usize` of the size given by `u`.  See
`ShiftUsize.lean`.  Limb indexes and lengths of existing buffers are unbounded as elsewhere.
-/

namespace Cmpa
variable [LimbCfg] {φ ψ χ : Fmt} {f g h f' e : Fmt}

/-! ### Positions of bits -/

/-- `ct_find_first_set_bit_mp`, limbs_buffer.rs:1932-1945. -/
def ct_find_first_set_bit_mp' (u : UsizeCfg) (op0 : Buf f) : M (LimbChoice × ℕ) := do
  let (tail_is_zero, ntrailing_zeroes) ←
    M.forRange 0 op0.nlimbs (LimbChoice.new 1, 0) fun i (tail_is_zero, ntrailing_zeroes) => do
      let op0_val ← op0.load_l i
      let n ← ct_find_first_set_bit_l op0_val
      let ntrailing_zeroes ← M.addU u ntrailing_zeroes (tail_is_zero.select 0 n)
      let c ← LimbChoice.from' (ct_is_zero_l op0_val)
      pure (tail_is_zero.and c, ntrailing_zeroes)
  pure (tail_is_zero.not, tail_is_zero.select_usize' u ntrailing_zeroes 0)

/-- `ct_find_last_set_bit_mp`, limbs_buffer.rs:1991-2008. -/
def ct_find_last_set_bit_mp' (u : UsizeCfg) (op0 : Buf f) : M (LimbChoice × ℕ) := do
  let (head_is_zero, nleading_zeroes) ←
    M.forDown op0.nlimbs (LimbChoice.new 1, 0) fun i (head_is_zero, nleading_zeroes) => do
      let op0_val ← op0.load_l i
      let n ← ct_find_last_set_bit_l op0_val
      let d ← M.sub W n
      let nleading_zeroes ← M.addU u nleading_zeroes (head_is_zero.select 0 d)
      let c ← LimbChoice.from' (ct_is_zero_l op0_val)
      pure (head_is_zero.and c, nleading_zeroes)
  let t ← M.mulU u op0.nlimbs W
  let n ← M.subU u t nleading_zeroes
  pure (head_is_zero.not, n)

/-! ### Greatest common divisors -/

/-- `ct_gcd_mp_mp`, euclid_impl.rs:785-821: the updated `op0` and `op1`. -/
def ct_gcd_mp_mp' (u : UsizeCfg) (op0 : Buf φ) (op1 : Buf ψ) : M (Except GcdError (Buf φ × Buf ψ)) := do
  M.cond (op0.is_empty = true) (pure (.error .InsufficientResultSpace)) do
    let c0 ← op0.len_is_compatible_with op1.len
    let c1 ← op1.len_is_compatible_with op0.len
    M.cond (¬ c0 = true ∨ ¬ c1 = true) (pure (.error .InconsistentOperandLengths)) do
      let (op0_is_nonzero, op0_powers_of_two) ← ct_find_first_set_bit_mp' u op0
      let (op1_is_nonzero, op1_powers_of_two) ← ct_find_first_set_bit_mp' u op1
      M.assert (op0_is_nonzero.unwrap ≠ 0 ∨ op0_powers_of_two = 0)
      let lt ← ct_lt_usize_usize' u op1_powers_of_two op0_powers_of_two
      let op1_has_fewer_powers_of_two := op0_is_nonzero.not.or (op1_is_nonzero.and lt)
      let min_powers_of_two :=
        op1_has_fewer_powers_of_two.select_usize' u op0_powers_of_two op1_powers_of_two
      let (op0, _) ← ct_rshift_mp' u op0 min_powers_of_two
      let (op1, _) ← ct_rshift_mp' u op1 min_powers_of_two
      let (op0, op1) ← ct_swap_cond_mp op0 op1 op1_has_fewer_powers_of_two
      let op0_and_op1_zero := op0_is_nonzero.not.and op1_is_nonzero.not
      M.assertM (do
        let v ← op0.load_l 0
        pure (op0_and_op1_zero.unwrap != 0 || v &&& 1 == 1))
      let v ← op0.load_l 0
      let op0 ← op0.store_l 0 (op0_and_op1_zero.select v 1)
      let (op0, op1) ← unwrapE (ct_gcd_odd_mp_mp' u op0 op1)
      M.assertM (do let z ← ct_is_zero_mp op0; pure (z.unwrap == 0))
      M.assertM (do
        let o ← ct_is_one_mp op0
        pure (op0_and_op1_zero.unwrap == 0 || o.unwrap != 0))
      M.assert (op0_and_op1_zero.unwrap = 0 ∨ min_powers_of_two = 0)
      let (op0, _) ← ct_lshift_mp' u op0 min_powers_of_two
      pure (.ok (op0, op1))

/-! ### Inverses -/

/-- The body of the lifting loop, invmod_impl.rs:58-92, with the new value of `cur_pow2_exp`. -/
def inv_pow2_lift' (u : UsizeCfg) (op0 : Buf ψ) (max_pow2_exp_len cur_pow2_exp : ℕ) (s : Buf φ × Buf .ne) :
    M (ℕ × Buf φ × Buf .ne) := do
  let (result, tmp) := s
  let tmp ← tmp.copy_from result
  let t ← M.addU u cur_pow2_exp 7
  let cur_result_len := t / 8
  let tmp ← ct_square_trunc_mp tmp cur_result_len
  let t ← M.mulU u 2 cur_result_len
  let cur_result_len := min t max_pow2_exp_len
  let tmp ← ct_mul_trunc_mp_mp tmp cur_result_len op0
  let k ← ct_mp_nlimbs' u cur_result_len
  let (result, _, _) ← M.forRange 0 k (result, 0, 0) (inv_pow2_sub_step tmp)
  let cur_pow2_exp ← M.mulU u cur_pow2_exp 2
  let result ← clear_bits_above_mp result cur_pow2_exp
  pure (cur_pow2_exp, result, tmp)

/-- The lifting loop, invmod_impl.rs:55-92.  In a debug build `cur_pow2_exp` doubles in each iteration, so `max_pow2_exp`
is a bound on the number of iterations; in a release build it becomes zero if it overflows, and the loop doesn't end. -/
def inv_pow2_loop' (u : UsizeCfg) (op0 : Buf ψ) (max_pow2_exp max_pow2_exp_len : ℕ) :
    (fuel cur_pow2_exp : ℕ) → Buf φ × Buf .ne → M (Buf φ × Buf .ne)
  | 0, _, _ => M.panic
  | fuel + 1, cur_pow2_exp, s =>
    M.cond (cur_pow2_exp < max_pow2_exp) (do
      let (cur_pow2_exp, s) ← inv_pow2_lift' u op0 max_pow2_exp_len cur_pow2_exp s
      inv_pow2_loop' u op0 max_pow2_exp max_pow2_exp_len fuel cur_pow2_exp s) (pure s)

/-- `ct_inv_mod_pow2_mp`, invmod_impl.rs:20-98: the result and the scratch buffer. -/
def ct_inv_mod_pow2_mp' (u : UsizeCfg) (result : Buf φ) (op0 : Buf ψ) (pow2_exp max_pow2_exp : ℕ)
    (scratch : Buf .ne) : M (Buf φ × Buf .ne) := do
  M.assert (op0.is_empty = false)
  M.assertM (do
    let v ← op0.load_l 0
    pure (decide (pow2_exp = 0) || decide (v &&& 1 = 1)))
  M.assert (max_pow2_exp ≠ 0)
  M.assert (pow2_exp ≤ max_pow2_exp)
  let t ← M.addU u max_pow2_exp 7
  let max_pow2_exp_len := t / 8
  M.assert (max_pow2_exp_len ≤ result.len)
  M.assertM (do
    let k ← nlimbs_for_len' u max_pow2_exp_len
    pure (decide (k ≤ scratch.nlimbs)))
  let result ← result.clear_bytes_above max_pow2_exp_len
  let (result, result_rest) ← result.shrink_to max_pow2_exp_len
  let tmp ← scratch.clear_bytes_above max_pow2_exp_len
  let (tmp, tmp_rest) ← tmp.shrink_to max_pow2_exp_len
  let result ← result.clear_bytes_below max_pow2_exp_len
  let result ← result.store_l 0 1
  let (result, tmp) ← inv_pow2_loop' u op0 max_pow2_exp max_pow2_exp_len (max_pow2_exp + 1) 1
    (result, tmp)
  let result ← ct_clear_bits_above_mp' u result pow2_exp
  M.assertM (do
    let z ← ct_is_zero_mp result
    pure (decide (pow2_exp ≠ 0) || decide (z.unwrap = 1)))
  pure (Buf.join result_rest result, Buf.join tmp_rest tmp)

/-- `ct_inv_mod_odd_mp_mp_impl`, euclid_impl.rs:979-1072: `result`, `op0` and both scratch
buffers. -/
def ct_inv_mod_odd_mp_mp_impl' (u : UsizeCfg) (result : Buf φ) (op0 : Buf ψ) (n : Buf χ)
    (scratch0 scratch1 : Buf .ne) :
    M (Except GcdError (Buf φ × Buf ψ × Buf .ne × Buf .ne)) := do
  let c ← n.len_is_compatible_with result.len
  M.cond (c = false) (pure (.error .InsufficientResultSpace)) do
    let c0 ← op0.len_is_compatible_with n.len
    let c1 ← n.len_is_compatible_with op0.len
    M.cond (c0 = false ∨ c1 = false) (pure (.error .InconsistentOperandLengths)) do
      let n_nlimbs ← nlimbs_for_len' u n.len
      M.cond (scratch0.nlimbs < n_nlimbs) (pure (.error .InsufficientScratchSpace)) <|
      M.cond (scratch1.nlimbs < n_nlimbs) (pure (.error .InsufficientScratchSpace)) do
        match ← ct_montgomery_neg_n0_inv_mod_l_mp n with
        | .error _ => pure (.error .InvalidModulus)
        | .ok neg_n0_inv_mod_l =>
          let f_work ← scratch0.copy_from n
          let (f_work, f_work_rest) ← f_work.shrink_to n.len
          let ext_u1 ← scratch1.clear_bytes_above n.len
          let (ext_u1, ext_u1_rest) ← ext_u1.shrink_to n.len
          let result ← result.clear_bytes_above 0
          let (result, result_rest) ← result.shrink_to n.len
          let n_is_one ← ct_is_one_mp n
          let ext_u1 ← ext_u1.clear_bytes_above 0
          let ext_u1 ← ext_u1.store_l_full 0 (1 ^^^ n_is_one.unwrap)
          let (f_work, op0, gcd_is_neg, result, ext_u1) ← ct_gcd_ext_odd_mp_mp' u
            (fun t neg s => t.apply_to_mod_odd_n neg s.1 s.2 n neg_n0_inv_mod_l)
            (result, ext_u1) f_work op0
          let neg_mask := gcd_is_neg.select 0 lmax
          let expected_val := gcd_is_neg.select 1 lmax
          M.bindE (M.loopUpE n.nlimbs 0 expected_val (inv_check_step f_work neg_mask)) fun _ => do
            M.assertM (do
              let z ← ct_is_zero_mp result
              pure (z.unwrap == 0 || n_is_one.unwrap != 0))
            let neg_mask := n_is_one.select neg_mask 0
            let neg_carry := (gcd_is_neg.and n_is_one.not).select 0 1
            let result ← inv_negate result n neg_mask neg_carry
            pure (.ok (Buf.join result_rest result, op0, Buf.join f_work_rest f_work,
              Buf.join ext_u1_rest ext_u1))

/-- `ct_inv_mod_odd_mp_mp`, euclid_impl.rs:1083-1118: `result`, `op0` and both scratch buffers. -/
def ct_inv_mod_odd_mp_mp' (u : UsizeCfg) (result : Buf φ) (op0 : Buf ψ) (n : Buf χ)
    (scratch0 scratch1 : Buf .ne) :
    M (Except GcdError (Buf φ × Buf ψ × Buf .ne × Buf .ne)) :=
  M.bindE (ct_inv_mod_odd_mp_mp_impl' u result op0 n scratch0 scratch1)
    fun (result, op0, scratch0, scratch1) => do
      let z ← ct_is_zero_mp result
      M.cond (z.unwrap ≠ 0) (pure (.error .OperandsNotCoprime))
        (pure (.ok (result, op0, scratch0, scratch1)))

/-- The final part of `ct_inv_mod_mp_mp`, combining both inverses by Garner's algorithm,
invmod_impl.rs:323-361: `n` and the result. `inv0` and `inv1` are `scratch0` and `scratch1`. -/
def inv_mod_garner' (u : UsizeCfg) (op0 : Buf φ) (n : Buf ψ) (inv0 inv1 scratch2 : Buf .ne)
    (n_pow2_exp max_n_pow2_exp : ℕ) : M (Buf ψ × Except GcdError (Buf φ)) := do
  let op0 ← op0.copy_from inv1
  let (inv0, _) ← ct_sub_mp_mp inv0 inv1
  let (inv1, _) ← ct_inv_mod_pow2_mp' u inv1 n n_pow2_exp max_n_pow2_exp scratch2
  let inv0 ← ct_mul_trunc_mp_mp inv0 n.len inv1
  let inv0 ← ct_clear_bits_above_mp' u inv0 n_pow2_exp
  let inv0 ← ct_mul_trunc_mp_mp inv0 n.len n
  let (op0, carry) ← ct_add_mp_mp op0 inv0
  M.check (carry = 0)
  let (n, _) ← ct_lshift_mp' u n n_pow2_exp
  let c ← ct_lt_mp_mp op0 n
  M.check (c.unwrap ≠ 0)
  let z ← ct_is_zero_mp op0
  M.cond (z.unwrap ≠ 0) (pure (n, .error .OperandsNotCoprime)) (pure (n, .ok op0))

/-- `ct_inv_mod_mp_mp`, invmod_impl.rs:226-362: `n`, also in case of an error, and the result.
The scratch buffers are not returned. -/
def ct_inv_mod_mp_mp' (u : UsizeCfg) (op0 : Buf φ) (n : Buf ψ) (scratch0 scratch1 scratch2 scratch3 : Buf .ne) :
    M (Buf ψ × Except GcdError (Buf φ)) :=
  M.cond (n.is_empty = true) (pure (n, .error .InvalidModulus)) do
    let c ← n.len_is_compatible_with op0.len
    M.cond (c = false) (pure (n, .error .InsufficientResultSpace)) do
      let c ← op0.len_is_compatible_with n.len
      M.cond (c = false) (pure (n, .error .InconsistentOperandLengths)) do
        let op0_val ← op0.load_l 0
        let n_val ← n.load_l 0
        M.cond (ct_is_nonzero_l (bnot op0_val &&& bnot n_val &&& 1) ≠ 0)
            (pure (n, .error .OperandsNotCoprime)) do
          let n_nlimbs ← nlimbs_for_len' u n.len
          M.cond (scratch0.nlimbs < n_nlimbs) (pure (n, .error .InsufficientScratchSpace)) <|
          M.cond (scratch1.nlimbs < n_nlimbs) (pure (n, .error .InsufficientScratchSpace)) <|
          M.cond (scratch2.nlimbs < n_nlimbs) (pure (n, .error .InsufficientScratchSpace)) <|
          M.cond (scratch3.nlimbs < n_nlimbs) (pure (n, .error .InsufficientScratchSpace)) do
            let inv0 ← scratch0.clear_bytes_above n.len
            let (inv0, _) ← inv0.shrink_to n.len
            let inv1 ← scratch1.clear_bytes_above n.len
            let (inv1, _) ← inv1.shrink_to n.len
            let (n_is_nonzero, n_pow2_exp) ← ct_find_first_set_bit_mp' u n
            M.cond (n_is_nonzero.unwrap = 0) (pure (n, .error .InvalidModulus)) do
              let (n, _) ← ct_rshift_mp' u n n_pow2_exp
              let t ← M.mulU u 8 n.len
              let max_n_pow2_exp ← M.subU u t 1
              let (inv0, scratch2) ←
                ct_inv_mod_pow2_mp' u inv0 op0 n_pow2_exp max_n_pow2_exp scratch2
              match ← ct_inv_mod_odd_mp_mp_impl' u inv1 op0 n scratch2 scratch3 with
              | .error e =>
                let (n, _) ← ct_lshift_mp' u n n_pow2_exp
                let e ← inv_mod_map_err e
                pure (n, .error e)
              | .ok (inv1, op0, scratch2, _) =>
                inv_mod_garner' u op0 n inv0 inv1 scratch2 n_pow2_exp max_n_pow2_exp

/-! ### Least common multiples -/

/-- Dividing the product by the greatest common divisor, lcm_impl.rs:72-132. -/
def lcm_divide' (u : UsizeCfg) (result : Buf φ) (gcd : Buf ψ) (op1 prod : Buf χ) (gcd_max_len : ℕ) :
    M (Buf φ) := do
  M.assertM (do
    let z ← ct_is_zero_mp gcd
    pure (decide (z.unwrap = 0)))
  let (_, gcd_width) ← ct_find_last_set_bit_mp' u gcd
  let t ← M.mulU u 8 gcd_max_len
  let scaling_shift ← M.subU u t gcd_width
  let (gcd, _) ← ct_lshift_mp' u gcd scaling_shift
  let scaled_prod_high ← lcm_copy_high prod op1 gcd_max_len
  let t ← M.mulU u 8 gcd_max_len
  let d ← M.subU u t scaling_shift
  let (scaled_prod_high, _) ← ct_rshift_mp' u scaled_prod_high d
  let (scaled_prod_high, _) ← scaled_prod_high.shrink_to gcd_max_len
  let (scaled_prod_low, _) ← ct_lshift_mp' u prod scaling_shift
  let gcd ← CtMpDivisor.new gcd none
  let gcd ← M.ofOption gcd
  let (scaled_prod_high, scaled_prod_low, result) ←
    unwrapE (ct_div_mp_mp (some scaled_prod_high) scaled_prod_low gcd (some result))
  M.assertM (do
    let z ← ct_is_zero_mp scaled_prod_low
    pure (decide (z.unwrap ≠ 0)))
  M.assertM (do
    let z ← ct_is_zero_mp (scaled_prod_high.getD (Buf.zeros χ 0))
    pure (decide (z.unwrap ≠ 0)))
  M.ofOption result

/-- `ct_lcm_mp_mp`, lcm_impl.rs:23-133.  The length of the product is at most that of `result` where it is used. -/
def ct_lcm_mp_mp' (u : UsizeCfg) (result : Buf φ) (op0 : Buf ψ) (op0_len : ℕ) (op1 : Buf χ) (op1_len : ℕ)
    (scratch : Buf χ) : M (Except LcmError (Buf φ)) :=
  let op0_len := min op0_len op0.len
  let op1_len := min op1_len op1.len
  M.cond (op0_len = 0 ∨ op1_len = 0) (do
    let result ← result.clear_bytes_above 0
    pure (.ok result)) do
  let c0 ← op0.len_is_compatible_with op1.len
  let c1 ← M.cond (c0 = true) (op1.len_is_compatible_with op0.len) (pure false)
  M.cond (c1 = false) (pure (.error .InconsistentOperandLengths)) do
  M.assert (op0.len = op1.len)
  let t ← M.addU u op0_len op1_len
  M.cond (result.len < t) (pure (.error .InsufficientResultSpace)) do
  let prod_len ← M.addU u op0_len op1_len
  M.cond (scratch.backing_len < Buf.n_backing_elements_for_len χ prod_len)
    (pure (.error .InsufficientScratchSpace)) do
  let (_, prod) ← scratch.take prod_len
  let prod ← prod.copy_from op0
  let (op1_low, _) ← op1.shrink_to op1_len
  let prod ← ct_mul_trunc_mp_mp prod op0_len op1_low
  let (gcd, op1) ← unwrapE (ct_gcd_mp_mp' u op0 op1)
  let result ← lcm_divide' u result gcd op1 prod (max op0_len op1_len)
  pure (.ok result)

/-! ### Montgomery arithmetic -/

/-- `ct_montgomery_radix_shift_len`, montgomery_impl.rs:20-22, and `ct_mp_limbs_align_len`, limbs_buffer.rs:33-35. -/
def ct_montgomery_radix_shift_len' (u : UsizeCfg) (n_len : ℕ) : M ℕ := do
  let k ← ct_mp_nlimbs' u n_len
  M.mulU u k LB

/-- `ct_to_montgomery_form_direct_mp`, montgomery_impl.rs:686-714. -/
def ct_to_montgomery_form_direct_mp' (u : UsizeCfg) (t : Buf f) (n : Buf g) : M (Except MgError (Buf f)) := do
  let b ← n.test_bit 0
  M.cond (b.unwrap = 0) (pure (.error .InvalidModulus)) do
    let c ← n.len_is_compatible_with t.len
    M.cond (c = false) (pure (.error .InsufficientResultSpace)) do
      M.assert (t.nlimbs ≥ n.nlimbs)
      let radix_shift_len ← ct_montgomery_radix_shift_len' u n.len
      match ← CtMpDivisor.new n none with
      | none => M.debugPanic (.error .InvalidModulus)
      | some n =>
        match ← ct_mod_lshifted_mp_mp' u t t.len radix_shift_len n with
        | .error _ => M.debugPanic (.error .InsufficientResultSpace)
        | .ok t => pure (.ok t)

/-- `ct_montgomery_radix2_mod_n_mp`, montgomery_impl.rs:716-750. -/
def ct_montgomery_radix2_mod_n_mp' (u : UsizeCfg) (radix2_mod_n_out : Buf f) (n : Buf g) :
    M (Except MgError (Buf f)) := do
  let b ← n.test_bit 0
  M.cond (b.unwrap = 0) (pure (.error .InvalidModulus)) do
    let c ← n.len_is_compatible_with radix2_mod_n_out.len
    M.cond (c = false) (pure (.error .InsufficientResultSpace)) do
      let out ← radix2_mod_n_out.clear_bytes_above n.len
      let (out, rest) ← out.shrink_to n.len
      M.assert (out.nlimbs = n.nlimbs)
      let radix_shift_len ← ct_montgomery_radix_shift_len' u n.len
      match ← CtMpDivisor.new n none with
      | none => M.debugPanic (.error .InvalidModulus)
      | some n =>
        let e ← M.mulU u (2 * 8) radix_shift_len
        match ← ct_mod_pow2_mp' u e out n with
        | .error _ => M.debugPanic (.error .InsufficientResultSpace)
        | .ok out => pure (.ok (Buf.join rest out))

/-- `_ct_montogmery_exp_mod_mp_mp`, montgomery_impl.rs:899-930: `result` and `scratch`. -/
def _ct_montogmery_exp_mod_mp_mp' (u : UsizeCfg) (result : Buf f) (op0 : Buf g) (n : Buf f')
    (neg_n0_inv_mod_l : ℕ) (exponent : Buf e) (exponent_nbits : ℕ) (scratch : Buf .ne) :
    M (Buf f × Buf .ne) := do
  M.assert (result.nlimbs = n.nlimbs)
  let n_nlimbs ← nlimbs_for_len' u n.len
  M.assert (n_nlimbs ≤ scratch.nlimbs)
  let scratch ← scratch.clear_bytes_above n.len
  let (scratch, rest) ← scratch.shrink_to n.len
  let t ← M.mulU u 8 exponent.len
  let exponent_nbits := min exponent_nbits t
  let (result, scratch) ← M.forRange 0 exponent_nbits (result, scratch)
    fun i (result, scratch) => do
      let scratch ← unwrapE
        (ct_montgomery_mul_mod_mp_mp scratch result result n neg_n0_inv_mod_l)
      let result ← unwrapE (ct_montgomery_mul_mod_mp_mp result scratch op0 n neg_n0_inv_mod_l)
      let b ← exponent.test_bit (exponent_nbits - i - 1)
      let result ← result.copy_from_cond scratch b.not
      pure (result, scratch)
  pure (result, Buf.join rest scratch)

/-- `ct_montogmery_exp_mod_odd_mp_mp`, montgomery_impl.rs:942-992: `result` and `scratch`. -/
def ct_montogmery_exp_mod_odd_mp_mp' (u : UsizeCfg) (result : Buf f) (op0 : Buf g) (n : Buf f')
    (neg_n0_inv_mod_l : ℕ) (radix_mod_n : Buf h) (exponent : Buf e) (exponent_nbits : ℕ)
    (scratch : Buf .ne) : M (Except MgError (Buf f × Buf .ne)) := do
  let b ← n.test_bit 0
  M.cond (b.unwrap = 0) (pure (.error .InvalidModulus)) do
    let c ← n.len_is_compatible_with result.len
    M.cond (c = false) (pure (.error .InsufficientResultSpace)) do
      let n_nlimbs ← nlimbs_for_len' u n.len
      M.cond (scratch.nlimbs < n_nlimbs) (pure (.error .InsufficientScratchSpace)) do
        let c ← op0.len_is_compatible_with n.len
        M.cond (c = false) (pure (.error .InconsistentOperandLengths)) do
          M.assertM (do let c ← ct_lt_mp_mp op0 n; pure (decide (c.unwrap ≠ 0)))
          let c ← radix_mod_n.len_is_compatible_with n.len
          M.cond (c = false) (pure (.error .InconsistendRadixModNLengh)) do
            M.assertM (do let c ← ct_lt_mp_mp radix_mod_n n; pure (decide (c.unwrap ≠ 0)))
            let result ← result.clear_bytes_above n.len
            let (result, rest) ← result.shrink_to n.len
            M.assert (result.nlimbs = n.nlimbs)
            let result ← result.copy_from radix_mod_n
            let (result, scratch) ← _ct_montogmery_exp_mod_mp_mp' u result op0 n neg_n0_inv_mod_l
              exponent exponent_nbits scratch
            pure (.ok (Buf.join rest result, scratch))

/-- `ct_exp_mod_odd_mp_mp`, montgomery_impl.rs:1002-1074: `result`, `op0` and `scratch`. -/
def ct_exp_mod_odd_mp_mp' (u : UsizeCfg) (result : Buf f) (op0 : Buf g) (n : Buf f') (exponent : Buf e)
    (exponent_nbits : ℕ) (scratch : Buf .ne) :
    M (Except MgError (Buf f × Buf g × Buf .ne)) := do
  let c ← n.len_is_compatible_with result.len
  M.cond (c = false) (pure (.error .InsufficientResultSpace)) do
    let c ← op0.len_is_compatible_with n.len
    M.cond (c = false) (pure (.error .InconsistentOperandLengths)) do
      M.assertM (do let c ← ct_lt_mp_mp op0 n; pure (decide (c.unwrap ≠ 0)))
      let c ← n.len_is_compatible_with op0.len
      M.cond (c = false) (pure (.error .InconsistentOperandLengths)) do
        M.assert (op0.nlimbs = n.nlimbs)
        let n_nlimbs ← nlimbs_for_len' u n.len
        M.cond (scratch.nlimbs < n_nlimbs) (pure (.error .InsufficientScratchSpace)) <|
          M.bindE (ct_montgomery_neg_n0_inv_mod_l_mp n) fun neg_n0_inv_mod_l => do
            let result ← result.clear_bytes_above n.len
            let (result, rest) ← result.shrink_to n.len
            M.assert (result.nlimbs = n.nlimbs)
            let result ← unwrapE (ct_montgomery_radix2_mod_n_mp' u result n)
            let mg_op0 ← scratch.clear_bytes_above n.len
            let (mg_op0, scratch_rest) ← mg_op0.shrink_to n.len
            let mg_op0 ← unwrapE (ct_to_montgomery_form_mp mg_op0 op0 n neg_n0_inv_mod_l result)
            let op0 ← op0.copy_from mg_op0
            let scratch := Buf.join scratch_rest mg_op0
            let result ← unwrapE (ct_montgomery_redc_mp result n neg_n0_inv_mod_l)
            let (result, scratch) ← _ct_montogmery_exp_mod_mp_mp' u result op0 n neg_n0_inv_mod_l
              exponent exponent_nbits scratch
            let result ← unwrapE (ct_montgomery_redc_mp result n neg_n0_inv_mod_l)
            pure (.ok (Buf.join rest result, op0, scratch))

/-! ### Tests for primality -/

/-- `ct_composite_test_small_prime_gcd_mp`, prime_impl.rs:110-155. -/
def ct_composite_test_small_prime_gcd_mp' (u : UsizeCfg) (p : Buf φ) (scratch0 scratch1 : Buf .ne) :
    M (Except CompositeTestError LimbChoice) :=
  M.cond (p.is_empty = true) (do
    let c ← LimbChoice.from' 1
    pure (.ok c)) do
  let p_nlimbs ← nlimbs_for_len' u p.len
  M.cond (scratch0.nlimbs < p_nlimbs) (pure (.error .InsufficientScratchSpace)) do
  M.cond (scratch1.nlimbs < p_nlimbs) (pure (.error .InsufficientScratchSpace)) do
  let p_len_aligned ← M.mulU u p_nlimbs LB
  let small_prime_product ← select_product p_len_aligned SMALL_ODD_PRIME_PRODUCTS.reverse
  let gcd ← scratch0.clear_bytes_above p_len_aligned
  let (gcd, _) ← gcd.shrink_to p_len_aligned
  let gcd ← gcd.copy_from (Buf.ofNat .be small_prime_product.1 small_prime_product.2)
  let p_work_scratch ← scratch1.copy_from p
  let (p_work_scratch, _) ← p_work_scratch.shrink_to p_len_aligned
  let (gcd, _) ← unwrapE (ct_gcd_odd_mp_mp' u gcd p_work_scratch)
  let gcd_is_one ← ct_is_one_mp gcd
  let p_is_odd ← p.test_bit 0
  pure (.ok (gcd_is_one.not.or p_is_odd.not))

/-- The body of the loop over the exponent's bits, prime_impl.rs:305-353: the updated
`base_pow`, `pow_scratch` and `is_probable_prime`. -/
def mr_step' (u : UsizeCfg) (mg_base : Buf χ) (p : Buf φ) (mg_radix_mod_p : Buf ψ) (neg_p0_inv_mod_l : ℕ)
    (p_minus_one_first_set_bit_pos exp_bit_pos : ℕ) (s : Buf .ne × Buf .ne × ℕ) :
    M (Buf .ne × Buf .ne × ℕ) := do
  let (base_pow, pow_scratch, is_probable_prime) := s
  let pow_scratch ← unwrapE
    (ct_montgomery_mul_mod_mp_mp pow_scratch base_pow base_pow p neg_p0_inv_mod_l)
  let base_pow ← unwrapE
    (ct_montgomery_mul_mod_mp_mp base_pow pow_scratch mg_base p neg_p0_inv_mod_l)
  let b ← p.test_bit exp_bit_pos
  let base_pow ← base_pow.copy_from_cond pow_scratch b.not
  let (is_one, is_minus_one) ← mr_compare p mg_radix_mod_p base_pow
  let bit_pos_eq_first_set ← ct_eq_usize_usize' u exp_bit_pos p_minus_one_first_set_bit_pos
  let is_probable_prime :=
    is_probable_prime ||| bit_pos_eq_first_set.select 0 (is_one ||| is_minus_one)
  let bit_pos_below_first_set ← ct_lt_usize_usize' u exp_bit_pos p_minus_one_first_set_bit_pos
  let is_probable_prime := is_probable_prime ||| bit_pos_below_first_set.select 0 is_minus_one
  pure (base_pow, pow_scratch, is_probable_prime)

/-- The part of the test after the checks of the arguments, prime_impl.rs:277-355.  The two scratch
slices are taken apart from the rest of their buffers, which is not accessed. -/
def mr_main' (u : UsizeCfg) (mg_base : Buf χ) (p : Buf φ) (mg_radix_mod_p : Buf ψ) (scratch0 scratch1 : Buf .ne) :
    M (Except MillerRabinError LimbChoice) := do
  let p_minus_one ← scratch0.copy_from p
  let (p_minus_one, rest) ← p_minus_one.shrink_to p.len
  let l ← p_minus_one.load_l 0
  let p_minus_one ← p_minus_one.store_l 0 (l ^^^ 1)
  let (p_minus_one_is_nonzero, p_minus_one_first_set_bit_pos) ← ct_find_first_set_bit_mp' u p_minus_one
  M.assert (p_minus_one_is_nonzero.unwrap ≠ 0)
  M.assert (0 < p_minus_one_first_set_bit_pos)
  let base_pow ← (Buf.join rest p_minus_one).copy_from mg_radix_mod_p
  let (base_pow, _) ← base_pow.shrink_to p.len
  let pow_scratch ← scratch1.clear_bytes_above p.len
  let (pow_scratch, _) ← pow_scratch.shrink_to p.len
  let neg ← ct_montgomery_neg_n0_inv_mod_l_mp p
  match neg with
  | .error _ => M.debugPanic (.error .InvalidCandidate)
  | .ok neg_p0_inv_mod_l =>
    let t ← M.mulU u 8 p.len
    -- `exp_bit_pos` runs from `8 * p.len() - 1` down to one
    let (_, _, is_probable_prime) ← M.forDown (t - 1) (base_pow, pow_scratch, 0) fun i s =>
      mr_step' u mg_base p mg_radix_mod_p neg_p0_inv_mod_l p_minus_one_first_set_bit_pos (i + 1) s
    let c ← LimbChoice.from' is_probable_prime
    pure (.ok c)

/-- `ct_prime_test_miller_rabin_mp`, prime_impl.rs:253-356. -/
def ct_prime_test_miller_rabin_mp' (u : UsizeCfg) (mg_base : Buf χ) (p : Buf φ) (mg_radix_mod_p : Buf ψ)
    (scratch0 scratch1 : Buf .ne) : M (Except MillerRabinError LimbChoice) := do
  let b ← p.test_bit 0
  M.cond (b.unwrap = 0) (pure (.error .InvalidCandidate)) do
  let c ← mg_base.len_is_compatible_with p.len
  M.cond (c = false) (pure (.error .InconsistentBaseLength)) do
  M.assertM (do let c ← ct_lt_mp_mp mg_base p; pure (decide (c.unwrap ≠ 0)))
  let c ← mg_radix_mod_p.len_is_compatible_with p.len
  M.cond (c = false) (pure (.error .InconsistentMgRadixModPLength)) do
  M.assertM (do let c ← ct_lt_mp_mp mg_radix_mod_p p; pure (decide (c.unwrap ≠ 0)))
  let p_nlimbs ← nlimbs_for_len' u p.len
  M.cond (scratch0.nlimbs < p_nlimbs) (pure (.error .InsufficientScratchSpace)) do
  M.cond (scratch1.nlimbs < p_nlimbs) (pure (.error .InsufficientScratchSpace)) do
  mr_main' u mg_base p mg_radix_mod_p scratch0 scratch1

end Cmpa
