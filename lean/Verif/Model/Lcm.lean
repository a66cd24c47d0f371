import Verif.Model.InvMod

/-!
# Model of lcm_impl.rs: the least common multiple
-/

namespace Cmpa
variable [LimbCfg] {φ ψ χ : Fmt}

/-- The length of the backing slice of a buffer in backing elements, what
`scratch.len()` yields in lcm_impl.rs:59. -/
def Buf.backing_len (b : Buf φ) : ℕ := b.len / φ.usz

/-- `CtLcmMpMpError`, lcm_impl.rs:16-21. -/
inductive LcmError where
  | InsufficientResultSpace
  | InsufficientScratchSpace
  | InconsistentOperandLengths
  deriving DecidableEq, Repr

/-- The body of the loop copying the high part of the product, lcm_impl.rs:100-112. -/
def lcm_copy_step (prod : Buf χ) (src_begin_limb_index src_low_rshift dst_high_lshift
    src_high_mask i : ℕ) (s : Buf χ × ℕ) : M (Buf χ × ℕ) := do
  let (scaled_prod_high, last_src_val) := s
  let src_limb_index := src_begin_limb_index + i + 1
  let next_src_val ← M.cond (src_limb_index < prod.nlimbs) (prod.load_l src_limb_index) (pure 0)
  let dst_low ← shrC last_src_val src_low_rshift
  let dst_high ← shlC (next_src_val &&& src_high_mask) dst_high_lshift
  let scaled_prod_high ← scaled_prod_high.store_l i (dst_high ||| dst_low)
  pure (scaled_prod_high, next_src_val)

/-- Copying the most significant `gcd_max_len` bytes of the product to another buffer,
lcm_impl.rs:89-115. -/
def lcm_copy_high (prod scaled_prod_high : Buf χ) (gcd_max_len : ℕ) : M (Buf χ) := do
  let gcd_max_nlimbs := ct_mp_nlimbs gcd_max_len
  M.assert (gcd_max_nlimbs ≤ scaled_prod_high.nlimbs)
  let src_begin ← M.sub prod.len gcd_max_len
  let src_low_rshift := 8 * (src_begin % LB)
  let dst_high_lshift := (W - src_low_rshift) % W
  let src_high_mask := ct_lsb_mask_l src_low_rshift
  let src_begin_limb_index := src_begin / LB
  M.assert (src_begin_limb_index + gcd_max_nlimbs ≤ prod.nlimbs)
  let last_src_val ← prod.load_l src_begin_limb_index
  let (scaled_prod_high, last_src_val) ←
    M.forRange 0 gcd_max_nlimbs (scaled_prod_high, last_src_val)
      (lcm_copy_step prod src_begin_limb_index src_low_rshift dst_high_lshift src_high_mask)
  M.assertM (do
    let v ← shrC last_src_val src_low_rshift
    pure (decide (v = 0)))
  scaled_prod_high.clear_bytes_above gcd_max_len

/-- Dividing the product by the greatest common divisor, lcm_impl.rs:72-132. -/
def lcm_divide (result : Buf φ) (gcd : Buf ψ) (op1 prod : Buf χ) (gcd_max_len : ℕ) :
    M (Buf φ) := do
  M.assertM (do
    let z ← ct_is_zero_mp gcd
    pure (decide (z.unwrap = 0)))
  let (_, gcd_width) ← ct_find_last_set_bit_mp gcd
  let scaling_shift ← M.sub (8 * gcd_max_len) gcd_width
  let (gcd, _) ← ct_lshift_mp gcd scaling_shift
  let scaled_prod_high ← lcm_copy_high prod op1 gcd_max_len
  let d ← M.sub (8 * gcd_max_len) scaling_shift
  let (scaled_prod_high, _) ← ct_rshift_mp scaled_prod_high d
  let (scaled_prod_high, _) ← scaled_prod_high.shrink_to gcd_max_len
  let (scaled_prod_low, _) ← ct_lshift_mp prod scaling_shift
  let gcd ← CtMpDivisor.new gcd none
  let gcd ← M.ofOption gcd
  let (scaled_prod_high, scaled_prod_low, result) ←
    unwrapE (ct_div_mp_mp (some scaled_prod_high) scaled_prod_low gcd (some result))
  M.assertM (do
    let z ← ct_is_zero_mp scaled_prod_low
    pure (decide (z.unwrap ≠ 0)))
  M.assertM (do
    let z ← ct_is_zero_mp (scaled_prod_high.getD (Buf.zeros χ 0))
    pure (decide (z.unwrap ≠ 0)))
  M.ofOption result

/-- `ct_lcm_mp_mp`, lcm_impl.rs:23-133.  The operands and the scratch space, which are left with
intermediate values, are not part of the outcome. -/
def ct_lcm_mp_mp (result : Buf φ) (op0 : Buf ψ) (op0_len : ℕ) (op1 : Buf χ) (op1_len : ℕ)
    (scratch : Buf χ) : M (Except LcmError (Buf φ)) :=
  let op0_len := min op0_len op0.len
  let op1_len := min op1_len op1.len
  M.cond (op0_len = 0 ∨ op1_len = 0) (do
    let result ← result.clear_bytes_above 0
    pure (.ok result)) do
  let c0 ← op0.len_is_compatible_with op1.len
  let c1 ← M.cond (c0 = true) (op1.len_is_compatible_with op0.len) (pure false)
  M.cond (c1 = false) (pure (.error .InconsistentOperandLengths)) do
  M.assert (op0.len = op1.len)
  M.cond (result.len < op0_len + op1_len) (pure (.error .InsufficientResultSpace)) do
  let prod_len := op0_len + op1_len
  M.cond (scratch.backing_len < Buf.n_backing_elements_for_len χ prod_len)
    (pure (.error .InsufficientScratchSpace)) do
  let (_, prod) ← scratch.take prod_len
  let prod ← prod.copy_from op0
  let (op1_low, _) ← op1.shrink_to op1_len
  let prod ← ct_mul_trunc_mp_mp prod op0_len op1_low
  let (gcd, op1) ← unwrapE (ct_gcd_mp_mp op0 op1)
  let result ← lcm_divide result gcd op1 prod (max op0_len op1_len)
  pure (.ok result)

end Cmpa
