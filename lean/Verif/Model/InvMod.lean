import Verif.Model.InvModOdd
import Verif.Model.Shift
import Verif.Model.Mul

/-!
# Model of invmod_impl.rs: inversion modulo powers of two and modulo any number
-/

namespace Cmpa
variable [LimbCfg] {φ ψ χ : Fmt}

/-- One step of the subtraction `2 * result - tmp`, invmod_impl.rs:75-87. -/
def inv_pow2_sub_step (tmp : Buf .ne) (j : ℕ) (s : Buf φ × ℕ × ℕ) : M (Buf φ × ℕ × ℕ) := do
  let (result, carry, borrow) := s
  let result_val ← result.load_l j
  let tmp_val ← tmp.load_l j
  let result_msb := shr result_val (W - 1)
  let result_val ← M.addL (shl result_val 1) carry
  let carry := result_msb
  let (borrow, result_val) ← ct_sub_l_l_b result_val tmp_val borrow
  let result ← M.cond (j + 1 ≠ result.nlimbs) (result.store_l_full j result_val)
    (result.store_l j (result_val &&& result.partial_high_mask))
  pure (result, carry, borrow)

/-- The body of the lifting loop, invmod_impl.rs:58-92. -/
def inv_pow2_lift (op0 : Buf ψ) (max_pow2_exp_len cur_pow2_exp : ℕ) (s : Buf φ × Buf .ne) :
    M (Buf φ × Buf .ne) := do
  let (result, tmp) := s
  let tmp ← tmp.copy_from result
  let cur_result_len := (cur_pow2_exp + 7) / 8
  let tmp ← ct_square_trunc_mp tmp cur_result_len
  let cur_result_len := min (2 * cur_result_len) max_pow2_exp_len
  let tmp ← ct_mul_trunc_mp_mp tmp cur_result_len op0
  let (result, _, _) ← M.forRange 0 (ct_mp_nlimbs cur_result_len) (result, 0, 0)
    (inv_pow2_sub_step tmp)
  let result ← clear_bits_above_mp result (2 * cur_pow2_exp)
  pure (result, tmp)

/-- The lifting loop, invmod_impl.rs:55-92.  `cur_pow2_exp` doubles in each iteration, so
`max_pow2_exp` is a bound on the number of iterations. -/
def inv_pow2_loop (op0 : Buf ψ) (max_pow2_exp max_pow2_exp_len : ℕ) :
    (fuel cur_pow2_exp : ℕ) → Buf φ × Buf .ne → M (Buf φ × Buf .ne)
  | 0, _, _ => M.panic
  | fuel + 1, cur_pow2_exp, s =>
    M.cond (cur_pow2_exp < max_pow2_exp) (do
      let s ← inv_pow2_lift op0 max_pow2_exp_len cur_pow2_exp s
      inv_pow2_loop op0 max_pow2_exp max_pow2_exp_len fuel (2 * cur_pow2_exp) s) (pure s)

/-- `ct_inv_mod_pow2_mp`, invmod_impl.rs:20-98: the result and the scratch buffer. -/
def ct_inv_mod_pow2_mp (result : Buf φ) (op0 : Buf ψ) (pow2_exp max_pow2_exp : ℕ)
    (scratch : Buf .ne) : M (Buf φ × Buf .ne) := do
  M.assert (op0.is_empty = false)
  M.assertM (do
    let v ← op0.load_l 0
    pure (decide (pow2_exp = 0) || decide (v &&& 1 = 1)))
  M.assert (max_pow2_exp ≠ 0)
  M.assert (pow2_exp ≤ max_pow2_exp)
  let max_pow2_exp_len := (max_pow2_exp + 7) / 8
  M.assert (max_pow2_exp_len ≤ result.len)
  M.assert (ct_mp_nlimbs max_pow2_exp_len ≤ scratch.nlimbs)
  let result ← result.clear_bytes_above max_pow2_exp_len
  let (result, result_rest) ← result.shrink_to max_pow2_exp_len
  let tmp ← scratch.clear_bytes_above max_pow2_exp_len
  let (tmp, tmp_rest) ← tmp.shrink_to max_pow2_exp_len
  let result ← result.clear_bytes_below max_pow2_exp_len
  let result ← result.store_l 0 1
  let (result, tmp) ← inv_pow2_loop op0 max_pow2_exp max_pow2_exp_len (max_pow2_exp + 1) 1
    (result, tmp)
  let result ← ct_clear_bits_above_mp result pow2_exp
  M.assertM (do
    let z ← ct_is_zero_mp result
    pure (decide (pow2_exp ≠ 0) || decide (z.unwrap = 1)))
  pure (Buf.join result_rest result, Buf.join tmp_rest tmp)

/-- The translation of the errors of `ct_inv_mod_odd_mp_mp_impl`, invmod_impl.rs:290-319.
`InvalidInputOperandValue` is no error of that function. -/
def inv_mod_map_err (e : GcdError) : M GcdError :=
  match e with
  | .InvalidModulus => do M.assert False; pure .InvalidModulus
  | .OperandsNotCoprime => pure .OperandsNotCoprime
  | .InsufficientResultSpace => do M.assert False; pure .InsufficientScratchSpace
  | .InsufficientScratchSpace => do M.assert False; pure .InsufficientScratchSpace
  | .InconsistentOperandLengths => pure .InconsistentOperandLengths
  | .InvalidInputOperandValue => M.panic

/-- The final part of `ct_inv_mod_mp_mp`, combining both inverses by Garner's algorithm,
invmod_impl.rs:323-361: `n` and the result. `inv0` and `inv1` are `scratch0` and `scratch1`. -/
def inv_mod_garner (op0 : Buf φ) (n : Buf ψ) (inv0 inv1 scratch2 : Buf .ne) (n_pow2_exp : ℕ) :
    M (Buf ψ × Except GcdError (Buf φ)) := do
  let max_n_pow2_exp ← M.sub (8 * n.len) 1
  let op0 ← op0.copy_from inv1
  let (inv0, _) ← ct_sub_mp_mp inv0 inv1
  let (inv1, _) ← ct_inv_mod_pow2_mp inv1 n n_pow2_exp max_n_pow2_exp scratch2
  let inv0 ← ct_mul_trunc_mp_mp inv0 n.len inv1
  let inv0 ← ct_clear_bits_above_mp inv0 n_pow2_exp
  let inv0 ← ct_mul_trunc_mp_mp inv0 n.len n
  let (op0, carry) ← ct_add_mp_mp op0 inv0
  M.check (carry = 0)
  let (n, _) ← ct_lshift_mp n n_pow2_exp
  let c ← ct_lt_mp_mp op0 n
  M.check (c.unwrap ≠ 0)
  let z ← ct_is_zero_mp op0
  M.cond (z.unwrap ≠ 0) (pure (n, .error .OperandsNotCoprime)) (pure (n, .ok op0))

/-- `ct_inv_mod_mp_mp`, invmod_impl.rs:226-362: `n`, also in case of an error, and the result.
The scratch buffers are not returned. -/
def ct_inv_mod_mp_mp (op0 : Buf φ) (n : Buf ψ) (scratch0 scratch1 scratch2 scratch3 : Buf .ne) :
    M (Buf ψ × Except GcdError (Buf φ)) :=
  M.cond (n.is_empty = true) (pure (n, .error .InvalidModulus)) do
    let c ← n.len_is_compatible_with op0.len
    M.cond (c = false) (pure (n, .error .InsufficientResultSpace)) do
      let c ← op0.len_is_compatible_with n.len
      M.cond (c = false) (pure (n, .error .InconsistentOperandLengths)) do
        let op0_val ← op0.load_l 0
        let n_val ← n.load_l 0
        M.cond (ct_is_nonzero_l (bnot op0_val &&& bnot n_val &&& 1) ≠ 0)
            (pure (n, .error .OperandsNotCoprime)) do
          let n_nlimbs := ct_mp_nlimbs n.len
          M.cond (scratch0.nlimbs < n_nlimbs) (pure (n, .error .InsufficientScratchSpace)) <|
          M.cond (scratch1.nlimbs < n_nlimbs) (pure (n, .error .InsufficientScratchSpace)) <|
          M.cond (scratch2.nlimbs < n_nlimbs) (pure (n, .error .InsufficientScratchSpace)) <|
          M.cond (scratch3.nlimbs < n_nlimbs) (pure (n, .error .InsufficientScratchSpace)) do
            let inv0 ← scratch0.clear_bytes_above n.len
            let (inv0, _) ← inv0.shrink_to n.len
            let inv1 ← scratch1.clear_bytes_above n.len
            let (inv1, _) ← inv1.shrink_to n.len
            let (n_is_nonzero, n_pow2_exp) ← ct_find_first_set_bit_mp n
            M.cond (n_is_nonzero.unwrap = 0) (pure (n, .error .InvalidModulus)) do
              let (n, _) ← ct_rshift_mp n n_pow2_exp
              let max_n_pow2_exp ← M.sub (8 * n.len) 1
              let (inv0, scratch2) ←
                ct_inv_mod_pow2_mp inv0 op0 n_pow2_exp max_n_pow2_exp scratch2
              match ← ct_inv_mod_odd_mp_mp_impl inv1 op0 n scratch2 scratch3 with
              | .error e =>
                let (n, _) ← ct_lshift_mp n n_pow2_exp
                let e ← inv_mod_map_err e
                pure (n, .error e)
              | .ok (inv1, op0, scratch2, _) =>
                inv_mod_garner op0 n inv0 inv1 scratch2 n_pow2_exp

end Cmpa
