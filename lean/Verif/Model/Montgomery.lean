import Verif.Model.Add
import Verif.Model.Div

/-!
# Model of montgomery_impl.rs
-/

namespace Cmpa
variable [LimbCfg] {f g h f' : Fmt}

/-- `ct_montgomery_radix_shift_len`, montgomery_impl.rs:20-22. -/
def ct_montgomery_radix_shift_len (n_len : ℕ) : ℕ := ct_mp_limbs_align_len n_len

/-- `ct_montgomery_radix_shift_mp_nlimbs`, montgomery_impl.rs:24-26. -/
def ct_montgomery_radix_shift_mp_nlimbs (n_len : ℕ) : ℕ := ct_mp_nlimbs n_len

/-- The error types of montgomery_impl.rs: `CtMontgomeryNegN0InvModLMpError` (28-31),
`CtMontgomeryRedcMpError` (187-192), `CtMontgomeryMulModMpMpError` (336-341),
`CtMontgomeryTransformationError` (680-684), `CtToMontgomeryFormMpError` (752-758),
`CtMontgomeryExpModOddMpMpError` (932-939) and `CtExpModOddMpMpError` (994-1000). -/
inductive MgError where
  | InvalidModulus
  | InsufficientResultSpace
  | InputValueOutOfRange
  | InconsistentOperandLengths
  | InconsistentRadix2ModNLenth
  | InconsistendRadixModNLengh
  | InsufficientScratchSpace
  deriving DecidableEq, Repr

/-- `ct_montgomery_neg_n0_inv_mod_l_mp`, montgomery_impl.rs:33-45. -/
def ct_montgomery_neg_n0_inv_mod_l_mp (n : Buf f) : M (Except MgError ℕ) :=
  M.cond (n.is_empty = true) (pure (.error .InvalidModulus)) do
    let n0 ← n.load_l 0
    M.cond ((ct_eq_l_l (n0 &&& 1) 0).unwrap ≠ 0) (pure (.error .InvalidModulus)) do
      let n0_inv_mod_l ← ct_inv_mod_l n0
      pure (.ok (wadd (bnot n0_inv_mod_l) 1))

/-- `CtMontgomeryRedcKernel`, montgomery_impl.rs:69-75. -/
structure RedcKernel where
  redc_pow2_rshift : ℕ
  redc_pow2_mask : ℕ
  m : ℕ
  last_redced_val : ℕ
  carry : ℕ

namespace RedcKernel

/-- `redc_rshift_lo`, montgomery_impl.rs:78-87. -/
def redc_rshift_lo (redc_pow2_rshift redc_pow2_mask val : ℕ) : M ℕ :=
  shrC (val &&& bnot redc_pow2_mask) redc_pow2_rshift

/-- `redc_lshift_hi`, montgomery_impl.rs:89-98. -/
def redc_lshift_hi (redc_pow2_rshift redc_pow2_mask val : ℕ) : M ℕ := do
  let d ← M.sub W redc_pow2_rshift
  shlC (val &&& redc_pow2_mask) (d % W)

/-- `start`, montgomery_impl.rs:100-137. -/
def start (redc_pow2_exp t0_val n0_val neg_n0_inv_mod_l : ℕ) : M RedcKernel := do
  M.assert (redc_pow2_exp ≤ W)
  let redc_pow2_rshift := redc_pow2_exp % W
  let redc_pow2_mask := ct_lsb_mask_l redc_pow2_exp
  let neg_n0_inv_mod_l := neg_n0_inv_mod_l &&& redc_pow2_mask
  M.assert (wmul neg_n0_inv_mod_l n0_val &&& redc_pow2_mask = redc_pow2_mask)
  let m := wmul t0_val neg_n0_inv_mod_l &&& redc_pow2_mask
  let (carry, redced_t0_val) ← ct_mul_add_l_l_l_c t0_val m n0_val 0
  M.assert (redced_t0_val &&& redc_pow2_mask = 0)
  let last_redced_val ← redc_rshift_lo redc_pow2_rshift redc_pow2_mask redced_t0_val
  pure ⟨redc_pow2_rshift, redc_pow2_mask, m, last_redced_val, carry⟩

/-- `update`, montgomery_impl.rs:139-153: the updated kernel and the result. -/
def update (k : RedcKernel) (t_val n_val : ℕ) : M (RedcKernel × ℕ) := do
  let (carry, redced_t_val) ← ct_mul_add_l_l_l_c t_val k.m n_val k.carry
  let hi ← redc_lshift_hi k.redc_pow2_rshift k.redc_pow2_mask redced_t_val
  let result_val := k.last_redced_val ||| hi
  let last_redced_val ← redc_rshift_lo k.redc_pow2_rshift k.redc_pow2_mask redced_t_val
  pure ({ k with carry := carry, last_redced_val := last_redced_val }, result_val)

/-- `finish`, montgomery_impl.rs:155-163: (carry, result). -/
def finish (k : RedcKernel) (t_val : ℕ) : M (ℕ × ℕ) := do
  M.assert (t_val &&& bnot k.redc_pow2_mask = 0)
  let (carry, redced_t_val) := ct_add_l_l t_val k.carry
  let hi ← redc_lshift_hi k.redc_pow2_rshift k.redc_pow2_mask redced_t_val
  pure (carry, k.last_redced_val ||| hi)

/-- `finish_in_twos_complement`, montgomery_impl.rs:165-184: (sign, result). -/
def finish_in_twos_complement (k : RedcKernel) (t_val : ℕ) : M (ℕ × ℕ) := do
  let t_val_sign := shr t_val (W - 1)
  let (carry, redced_t_val) := ct_add_l_l t_val k.carry
  M.assert (carry = 0 ∨ t_val_sign = 1)
  M.assert (carry = 0 ∨ shr redced_t_val (W - 1) = 0)
  M.assert (carry = 1 ∨ shr redced_t_val (W - 1) = t_val_sign)
  let redced_t_val_sign := carry ^^^ t_val_sign
  M.assert (shr redced_t_val (W - 1) = redced_t_val_sign)
  let redced_t_val_extended_sign := wsub 0 redced_t_val_sign &&& bnot k.redc_pow2_mask
  let hi ← redc_lshift_hi k.redc_pow2_rshift k.redc_pow2_mask redced_t_val
  pure (redced_t_val_sign, k.last_redced_val ||| hi ||| redced_t_val_extended_sign)

end RedcKernel

/-- The body of the reduction loop of `ct_montgomery_redc_mp`, montgomery_impl.rs:221-254.  The
state is `t`, `t_high_shadow` and `reduced_t_carry`. -/
def redc_step (n : Buf g) (n0_val neg_n0_inv_mod_l : ℕ) :
    Buf f × ℕ × ℕ → M (Buf f × ℕ × ℕ)
  | (t, t_high_shadow, reduced_t_carry) => do
    let t_nlimbs := t.nlimbs
    let n_nlimbs := n.nlimbs
    let t0 ← t.load_l 0
    let k ← RedcKernel.start W t0 n0_val neg_n0_inv_mod_l
    let (t, k) ← M.forRange 0 (n_nlimbs - 2) (t, k) fun j (t, k) => do
      M.assertM (do let d ← M.sub t_nlimbs 1; pure (decide (j < d)))
      let t_val ← t.load_l_full (j + 1)
      let n_val ← n.load_l_full (j + 1)
      let (k, v) ← k.update t_val n_val
      let t ← t.store_l_full j v
      pure (t, k)
    let j := n_nlimbs - 2
    M.assert (j + 2 = n_nlimbs)
    let t_val ← M.cond (j + 2 ≠ t_nlimbs) (t.load_l_full (j + 1)) (pure t_high_shadow)
    let n_val ← n.load_l (j + 1)
    let (k, v) ← k.update t_val n_val
    let t ← t.store_l_full j v
    let j := j + 1
    let (t, k) ← M.forRange j (t_nlimbs - 2) (t, k) fun j (t, k) => do
      let t_val ← t.load_l_full (j + 1)
      let (k, v) ← k.update t_val 0
      let t ← t.store_l_full j v
      pure (t, k)
    let j := max j (t_nlimbs - 2)
    let d ← M.sub t_nlimbs 1
    let (t, k, j) ← M.cond (j + 1 = d)
      (do
        let (k, v) ← k.update t_high_shadow 0
        let t ← t.store_l_full j v
        pure (t, k, j + 1))
      (pure (t, k, j))
    M.assertM (do let d ← M.sub t_nlimbs 1; pure (decide (j = d)))
    let (reduced_t_carry, t_high_shadow) ← k.finish reduced_t_carry
    pure (t, t_high_shadow, reduced_t_carry)

/-- Writing back the shadow of the most significant limb and the conditional subtraction of `n`
at the end of `ct_montgomery_redc_mp` and `ct_montgomery_mul_mod_mp_mp`,
montgomery_impl.rs:258-266 and 498-508; `mask` and `shift` are the `partial_high_mask` and
`partial_high_shift` of `t` or `n`. -/
def redc_finish (t : Buf f) (n : Buf g) (mask shift t_high_shadow reduced_t_carry : ℕ) :
    M (Buf f) := do
  M.check (shift = 0 ∨ reduced_t_carry = 0)
  let s ← shrC (t_high_shadow &&& bnot mask) shift
  let reduced_t_carry := reduced_t_carry ||| s
  let t_high_shadow := t_high_shadow &&& mask
  let i ← M.sub t.nlimbs 1
  let t ← t.store_l i t_high_shadow
  let c ← LimbChoice.from' reduced_t_carry
  let geq ← ct_geq_mp_mp t n
  let (t, _) ← ct_sub_cond_mp_mp t n (c.or geq)
  M.assertM (do let c ← ct_geq_mp_mp t n; pure (decide (c.unwrap = 0)))
  pure t

/-- `ct_montgomery_redc_mp`, montgomery_impl.rs:194-268. -/
def ct_montgomery_redc_mp (t : Buf f) (n : Buf g) (neg_n0_inv_mod_l : ℕ) :
    M (Except MgError (Buf f)) :=
  M.cond (n.is_empty = true) (pure (.error .InvalidModulus)) do
    let n0_val ← n.load_l 0
    M.cond ((ct_eq_l_l (n0_val &&& 1) 0).unwrap ≠ 0) (pure (.error .InvalidModulus)) do
      let c ← n.len_is_compatible_with t.len
      M.cond (c = false) (pure (.error .InsufficientResultSpace)) do
        let c ← t.len_is_compatible_with (2 * n.len)
        M.cond (c = false) (pure (.error .InputValueOutOfRange)) do
          M.assert (wmul n0_val neg_n0_inv_mod_l = lmax)
          let i ← M.sub t.nlimbs 1
          let t_high_shadow ← t.load_l i
          let (t, t_high_shadow, reduced_t_carry) ←
            M.forRange 0 (ct_montgomery_radix_shift_mp_nlimbs n.len) (t, t_high_shadow, 0)
              fun _ s => redc_step n n0_val neg_n0_inv_mod_l s
          let t ← redc_finish t n t.partial_high_mask t.partial_high_shift t_high_shadow
            reduced_t_carry
          pure (.ok t)

/-- The load of a limb of `result`, the most significant one being held in a shadow,
montgomery_impl.rs:397-401, 415-419, 436-440, 467-471 and 480-484. -/
def load_shadow (result : Buf f) (result_high_shadow n_nlimbs j : ℕ) : M ℕ := do
  let d ← M.sub n_nlimbs 1
  M.cond (j ≠ d) (result.load_l_full j) (pure result_high_shadow)

/-- The body of the first loop of `ct_montgomery_mul_mod_mp_mp`, montgomery_impl.rs:392-459.  The
state is `result`, `result_high_shadow` and `result_carry`. -/
def mg_mul_step (op0 : Buf g) (op1 : Buf h) (n : Buf f') (n0_val neg_n0_inv_mod_l i : ℕ) :
    Buf f × ℕ × ℕ → M (Buf f × ℕ × ℕ)
  | (result, result_high_shadow, result_carry) => do
    let op1_nlimbs := op1.nlimbs
    let n_nlimbs := n.nlimbs
    M.assert (result_carry ≤ 1)
    let op0_val ← op0.load_l i
    let result_val ← load_shadow result result_high_shadow n_nlimbs 0
    let op1_val ← op1.load_l 0
    let (op0_op1_add_carry, result_val) ← ct_mul_add_l_l_l_c result_val op0_val op1_val 0
    let k ← RedcKernel.start W result_val n0_val neg_n0_inv_mod_l
    let (result, k, op0_op1_add_carry) ←
      M.forRange 0 (op1_nlimbs - 1) (result, k, op0_op1_add_carry)
        fun j (result, k, op0_op1_add_carry) => do
          let op1_val ← op1.load_l (j + 1)
          let result_val ← load_shadow result result_high_shadow n_nlimbs (j + 1)
          let (op0_op1_add_carry, result_val) ←
            ct_mul_add_l_l_l_c result_val op0_val op1_val op0_op1_add_carry
          let n_val ← n.load_l (j + 1)
          let (k, result_val) ← k.update result_val n_val
          let result ← result.store_l_full j result_val
          pure (result, k, op0_op1_add_carry)
    let j := op1_nlimbs - 1
    M.assert (j + 1 = op1_nlimbs)
    let (result, k, op0_op1_add_carry) ←
      M.forRange j (n_nlimbs - 1) (result, k, op0_op1_add_carry)
        fun j (result, k, op0_op1_add_carry) => do
          let result_val ← load_shadow result result_high_shadow n_nlimbs (j + 1)
          let (op0_op1_add_carry, result_val) := ct_add_l_l result_val op0_op1_add_carry
          let n_val ← n.load_l (j + 1)
          let (k, result_val) ← k.update result_val n_val
          let result ← result.store_l_full j result_val
          pure (result, k, op0_op1_add_carry)
    let j := max j (n_nlimbs - 1)
    M.assert (j + 1 = n_nlimbs)
    M.assert (result_carry ≤ 1)
    let (result_carry, result_val) := ct_add_l_l result_carry op0_op1_add_carry
    M.assert (result_carry ≤ 1)
    M.assert (result_carry = 0 ∨ result_val = 0)
    let (result_carry, result_val) ← k.finish result_val
    M.assert (result_carry ≤ 1)
    pure (result, result_val, result_carry)

/-- The body of the second loop of `ct_montgomery_mul_mod_mp_mp`, montgomery_impl.rs:465-494.  The
state is `result`, `result_high_shadow` and `result_carry`. -/
def mg_redc_step (n : Buf f') (n0_val neg_n0_inv_mod_l : ℕ) :
    Buf f × ℕ × ℕ → M (Buf f × ℕ × ℕ)
  | (result, result_high_shadow, result_carry) => do
    let n_nlimbs := n.nlimbs
    let result_val ← load_shadow result result_high_shadow n_nlimbs 0
    let k ← RedcKernel.start W result_val n0_val neg_n0_inv_mod_l
    let (result, k) ← M.forRange 0 (n_nlimbs - 1) (result, k) fun j (result, k) => do
      let result_val ← load_shadow result result_high_shadow n_nlimbs (j + 1)
      let n_val ← n.load_l (j + 1)
      let (k, result_val) ← k.update result_val n_val
      let result ← result.store_l_full j result_val
      pure (result, k)
    let j := n_nlimbs - 1
    M.assert (j + 1 = n_nlimbs)
    let (result_carry, result_high_shadow) ← k.finish result_carry
    M.assert (result_carry ≤ 1)
    pure (result, result_high_shadow, result_carry)

/-- `ct_montgomery_mul_mod_mp_mp`, montgomery_impl.rs:343-510. -/
def ct_montgomery_mul_mod_mp_mp (result : Buf f) (op0 : Buf g) (op1 : Buf h) (n : Buf f')
    (neg_n0_inv_mod_l : ℕ) : M (Except MgError (Buf f)) :=
  M.cond (n.is_empty = true) (pure (.error .InvalidModulus)) do
    let n0_val ← n.load_l 0
    M.cond ((ct_eq_l_l (n0_val &&& 1) 0).unwrap ≠ 0) (pure (.error .InvalidModulus)) do
      let c ← n.len_is_compatible_with result.len
      M.cond (c = false) (pure (.error .InsufficientResultSpace)) do
        M.assert (n.nlimbs ≤ result.nlimbs)
        let c ← op0.len_is_compatible_with n.len
        let c ← M.cond (c = false) (pure false) (op1.len_is_compatible_with n.len)
        M.cond (c = false) (pure (.error .InconsistentOperandLengths)) do
          M.assert (op0.nlimbs ≤ n.nlimbs)
          M.assertM (do let c ← ct_lt_mp_mp op0 n; pure (decide (c.unwrap ≠ 0)))
          M.assert (op1.nlimbs ≤ n.nlimbs)
          M.assertM (do let c ← ct_lt_mp_mp op1 n; pure (decide (c.unwrap ≠ 0)))
          M.assert (wmul n0_val neg_n0_inv_mod_l = lmax)
          let result ← result.clear_bytes_above 0
          let (result, rest) ← result.shrink_to n.len
          M.assert (result.nlimbs = n.nlimbs)
          let s ← M.forRange 0 op0.nlimbs (result, 0, 0) fun i s =>
            mg_mul_step op0 op1 n n0_val neg_n0_inv_mod_l i s
          let (result, result_high_shadow, result_carry) ←
            M.forRange op0.nlimbs (ct_montgomery_radix_shift_mp_nlimbs n.len) s fun _ s =>
              mg_redc_step n n0_val neg_n0_inv_mod_l s
          M.assert (result.nlimbs = n.nlimbs)
          let result ← redc_finish result n n.partial_high_mask n.partial_high_shift
            result_high_shadow result_carry
          pure (.ok (Buf.join rest result))

/-- `ct_to_montgomery_form_direct_mp`, montgomery_impl.rs:686-714. -/
def ct_to_montgomery_form_direct_mp (t : Buf f) (n : Buf g) : M (Except MgError (Buf f)) := do
  let b ← n.test_bit 0
  M.cond (b.unwrap = 0) (pure (.error .InvalidModulus)) do
    let c ← n.len_is_compatible_with t.len
    M.cond (c = false) (pure (.error .InsufficientResultSpace)) do
      M.assert (t.nlimbs ≥ n.nlimbs)
      let radix_shift_len := ct_montgomery_radix_shift_len n.len
      match ← CtMpDivisor.new n none with
      | none => M.debugPanic (.error .InvalidModulus)
      | some n =>
        match ← ct_mod_lshifted_mp_mp t t.len radix_shift_len n with
        | .error _ => M.debugPanic (.error .InsufficientResultSpace)
        | .ok t => pure (.ok t)

/-- `ct_montgomery_radix2_mod_n_mp`, montgomery_impl.rs:716-750. -/
def ct_montgomery_radix2_mod_n_mp (radix2_mod_n_out : Buf f) (n : Buf g) :
    M (Except MgError (Buf f)) := do
  let b ← n.test_bit 0
  M.cond (b.unwrap = 0) (pure (.error .InvalidModulus)) do
    let c ← n.len_is_compatible_with radix2_mod_n_out.len
    M.cond (c = false) (pure (.error .InsufficientResultSpace)) do
      let out ← radix2_mod_n_out.clear_bytes_above n.len
      let (out, rest) ← out.shrink_to n.len
      M.assert (out.nlimbs = n.nlimbs)
      let radix_shift_len := ct_montgomery_radix_shift_len n.len
      match ← CtMpDivisor.new n none with
      | none => M.debugPanic (.error .InvalidModulus)
      | some n =>
        match ← ct_mod_pow2_mp (2 * 8 * radix_shift_len) out n with
        | .error _ => M.debugPanic (.error .InsufficientResultSpace)
        | .ok out => pure (.ok (Buf.join rest out))

/-- `ct_to_montgomery_form_mp`, montgomery_impl.rs:760-801. -/
def ct_to_montgomery_form_mp (result : Buf f) (t : Buf g) (n : Buf f') (neg_n0_inv_mod_l : ℕ)
    (radix2_mod_n : Buf h) : M (Except MgError (Buf f)) := do
  let c ← t.len_is_compatible_with n.len
  M.cond (c = false) (pure (.error .InconsistentOperandLengths)) do
    let c ← radix2_mod_n.len_is_compatible_with n.len
    M.cond (c = false) (pure (.error .InconsistentRadix2ModNLenth)) do
      M.assertM (do let c ← ct_lt_mp_mp t n; pure (decide (c.unwrap ≠ 0)))
      M.assertM (do let c ← ct_lt_mp_mp radix2_mod_n n; pure (decide (c.unwrap ≠ 0)))
      ct_montgomery_mul_mod_mp_mp result t radix2_mod_n n neg_n0_inv_mod_l

/-- `Result::unwrap`, e.g. prime_impl.rs:310. -/
def unwrapE {α ε : Type} (m : M (Except ε α)) : M α := do
  match ← m with
  | .error _ => M.panic
  | .ok a => pure a

/-- `_ct_montogmery_exp_mod_mp_mp`, montgomery_impl.rs:899-930: `result` and `scratch`. -/
def _ct_montogmery_exp_mod_mp_mp {e : Fmt} (result : Buf f) (op0 : Buf g) (n : Buf f')
    (neg_n0_inv_mod_l : ℕ) (exponent : Buf e) (exponent_nbits : ℕ) (scratch : Buf .ne) :
    M (Buf f × Buf .ne) := do
  M.assert (result.nlimbs = n.nlimbs)
  M.assert (ct_mp_nlimbs n.len ≤ scratch.nlimbs)
  let scratch ← scratch.clear_bytes_above n.len
  let (scratch, rest) ← scratch.shrink_to n.len
  let exponent_nbits := min exponent_nbits (8 * exponent.len)
  let (result, scratch) ← M.forRange 0 exponent_nbits (result, scratch)
    fun i (result, scratch) => do
      let scratch ← unwrapE
        (ct_montgomery_mul_mod_mp_mp scratch result result n neg_n0_inv_mod_l)
      let result ← unwrapE (ct_montgomery_mul_mod_mp_mp result scratch op0 n neg_n0_inv_mod_l)
      let b ← exponent.test_bit (exponent_nbits - i - 1)
      let result ← result.copy_from_cond scratch b.not
      pure (result, scratch)
  pure (result, Buf.join rest scratch)

/-- `ct_montogmery_exp_mod_odd_mp_mp`, montgomery_impl.rs:942-992: `result` and `scratch`. -/
def ct_montogmery_exp_mod_odd_mp_mp {e : Fmt} (result : Buf f) (op0 : Buf g) (n : Buf f')
    (neg_n0_inv_mod_l : ℕ) (radix_mod_n : Buf h) (exponent : Buf e) (exponent_nbits : ℕ)
    (scratch : Buf .ne) : M (Except MgError (Buf f × Buf .ne)) := do
  let b ← n.test_bit 0
  M.cond (b.unwrap = 0) (pure (.error .InvalidModulus)) do
    let c ← n.len_is_compatible_with result.len
    M.cond (c = false) (pure (.error .InsufficientResultSpace)) do
      M.cond (scratch.nlimbs < ct_mp_nlimbs n.len) (pure (.error .InsufficientScratchSpace)) do
        let c ← op0.len_is_compatible_with n.len
        M.cond (c = false) (pure (.error .InconsistentOperandLengths)) do
          M.assertM (do let c ← ct_lt_mp_mp op0 n; pure (decide (c.unwrap ≠ 0)))
          let c ← radix_mod_n.len_is_compatible_with n.len
          M.cond (c = false) (pure (.error .InconsistendRadixModNLengh)) do
            M.assertM (do let c ← ct_lt_mp_mp radix_mod_n n; pure (decide (c.unwrap ≠ 0)))
            let result ← result.clear_bytes_above n.len
            let (result, rest) ← result.shrink_to n.len
            M.assert (result.nlimbs = n.nlimbs)
            let result ← result.copy_from radix_mod_n
            let (result, scratch) ← _ct_montogmery_exp_mod_mp_mp result op0 n neg_n0_inv_mod_l
              exponent exponent_nbits scratch
            pure (.ok (Buf.join rest result, scratch))

/-- `ct_exp_mod_odd_mp_mp`, montgomery_impl.rs:1002-1074: `result`, `op0` and `scratch`. -/
def ct_exp_mod_odd_mp_mp {e : Fmt} (result : Buf f) (op0 : Buf g) (n : Buf f') (exponent : Buf e)
    (exponent_nbits : ℕ) (scratch : Buf .ne) :
    M (Except MgError (Buf f × Buf g × Buf .ne)) := do
  let c ← n.len_is_compatible_with result.len
  M.cond (c = false) (pure (.error .InsufficientResultSpace)) do
    let c ← op0.len_is_compatible_with n.len
    M.cond (c = false) (pure (.error .InconsistentOperandLengths)) do
      M.assertM (do let c ← ct_lt_mp_mp op0 n; pure (decide (c.unwrap ≠ 0)))
      let c ← n.len_is_compatible_with op0.len
      M.cond (c = false) (pure (.error .InconsistentOperandLengths)) do
        M.assert (op0.nlimbs = n.nlimbs)
        M.cond (scratch.nlimbs < ct_mp_nlimbs n.len) (pure (.error .InsufficientScratchSpace)) <|
          M.bindE (ct_montgomery_neg_n0_inv_mod_l_mp n) fun neg_n0_inv_mod_l => do
            let result ← result.clear_bytes_above n.len
            let (result, rest) ← result.shrink_to n.len
            M.assert (result.nlimbs = n.nlimbs)
            let result ← unwrapE (ct_montgomery_radix2_mod_n_mp result n)
            let mg_op0 ← scratch.clear_bytes_above n.len
            let (mg_op0, scratch_rest) ← mg_op0.shrink_to n.len
            let mg_op0 ← unwrapE (ct_to_montgomery_form_mp mg_op0 op0 n neg_n0_inv_mod_l result)
            let op0 ← op0.copy_from mg_op0
            let scratch := Buf.join scratch_rest mg_op0
            let result ← unwrapE (ct_montgomery_redc_mp result n neg_n0_inv_mod_l)
            let (result, scratch) ← _ct_montogmery_exp_mod_mp_mp result op0 n neg_n0_inv_mod_l
              exponent exponent_nbits scratch
            let result ← unwrapE (ct_montgomery_redc_mp result n neg_n0_inv_mod_l)
            pure (.ok (Buf.join rest result, op0, scratch))

end Cmpa
