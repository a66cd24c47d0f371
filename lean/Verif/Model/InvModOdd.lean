import Verif.Model.Euclid
import Verif.Base.LoopE

/-!
# Model of euclid_impl.rs: inversion modulo an odd number
-/

namespace Cmpa
variable [LimbCfg] {φ ψ χ : Fmt}

namespace TransitionMatrix

/-- The state kept per row of the matrix by `apply_to_mod_odd_n`: `carry`, `borrow`,
`redc_kernel` and `u_geq_n_kernel`, euclid_impl.rs:339-359. -/
structure ModRow where
  carry0 : ℕ
  carry1 : ℕ
  borrow : ℕ
  kernel : RedcKernel
  geq : ℕ

/-- `mat_mul_row_scale_mod_odd_n_compute_start`, euclid_impl.rs:270-289. -/
def mod_start (u_first_orig t_row : ℕ × ℕ) (row_shift n0_val neg_n0_inv_mod_l : ℕ) : M ModRow := do
  let u_i_f ← ct_mul_l_l t_row.1 u_first_orig.1
  let (carry_i_g, u_i) ← ct_mul_add_l_l_l_c u_i_f.low t_row.2 u_first_orig.2 0
  let (carry1, carry0) := ct_add_l_l u_i_f.high carry_i_g
  M.assert (carry1 ≤ 1)
  let redc_kernel ← RedcKernel.start row_shift u_i n0_val neg_n0_inv_mod_l
  pure ⟨carry0, carry1, 0, redc_kernel, 1⟩

/-- Subtraction of the masked last limbs and of the borrow, euclid_impl.rs:315-325 and
393-405: the new borrow and the result. -/
def mod_sub (u_i borrow : ℕ) (u_last_orig_val t_row_is_neg_mask : ℕ × ℕ) : M (ℕ × ℕ) := do
  let (borrow_i_f, u_i) := ct_sub_l_l u_i (u_last_orig_val.1 &&& t_row_is_neg_mask.1)
  M.assert (borrow_i_f = 0 ∨ 1 ≤ u_i)
  let (borrow_i_g, u_i) := ct_sub_l_l u_i (u_last_orig_val.2 &&& t_row_is_neg_mask.2)
  let fg ← M.addL borrow_i_f borrow_i_g
  M.assert (fg < 2 ∨ 2 ≤ u_i)
  M.assert (borrow ≤ 2)
  let (borrow0, u_i) := ct_sub_l_l u_i borrow
  let borrow ← M.addL borrow0 borrow_i_f
  let borrow ← M.addL borrow borrow_i_g
  M.assert (borrow ≤ 2)
  pure (borrow, u_i)

/-- `mat_mul_row_scale_mod_odd_n_compute_limb`, euclid_impl.rs:291-328, and the update of the
comparison kernel, euclid_impl.rs:377: the new state and the limb to be stored. -/
def mod_limb (r : ModRow) (n_val last_n_val : ℕ)
    (u_cur_orig_val u_last_orig_val t_row t_row_is_neg_mask : ℕ × ℕ) : M (ModRow × ℕ) := do
  let u_i_f ← ct_mul_l_l t_row.1 u_cur_orig_val.1
  let (carry_i_g, u_i) ← ct_mul_add_l_l_l_c u_i_f.low t_row.2 u_cur_orig_val.2 r.carry0
  let (carry1, carry0) ← ct_add_l_l_c u_i_f.high carry_i_g r.carry1
  let (borrow, u_i) ← mod_sub u_i r.borrow u_last_orig_val t_row_is_neg_mask
  let (kernel, v) ← r.kernel.update u_i n_val
  let geq ← CtGeqMpMpKernel.update r.geq v last_n_val
  pure (⟨carry0, carry1, borrow, kernel, geq⟩, v)

/-- The loop state of `apply_to_mod_odd_n`, euclid_impl.rs:337-360. -/
structure ModState (φ ψ : Fmt) where
  u_f : Buf φ
  u_g : Buf ψ
  r0 : ModRow
  r1 : ModRow
  u_last_orig_val : ℕ × ℕ
  last_n_val : ℕ

/-- The body of the loop in `apply_to_mod_odd_n`, euclid_impl.rs:361-384. -/
def mod_step (m : TransitionMatrix) (neg : NegMask) (n : Buf χ) (j : ℕ) (s : ModState φ ψ) :
    M (ModState φ ψ) := do
  let n_val ← n.load_l (j + 1)
  let u_cur0 ← s.u_f.load_l (j + 1)
  let u_cur1 ← s.u_g.load_l (j + 1)
  let (r0, v0) ← mod_limb s.r0 n_val s.last_n_val (u_cur0, u_cur1) s.u_last_orig_val m.row0 neg.1
  let (r1, v1) ← mod_limb s.r1 n_val s.last_n_val (u_cur0, u_cur1) s.u_last_orig_val m.row1 neg.2
  let u_f ← s.u_f.store_l_full j v0
  let u_g ← s.u_g.store_l_full j v1
  pure ⟨u_f, u_g, r0, r1, (u_cur0, u_cur1), n_val⟩

/-- The body of the loop computing `u_head_new_val`, euclid_impl.rs:388-424. -/
def mod_head (r : ModRow) (u_last_orig_val t_row_is_neg_mask : ℕ × ℕ) : M ℕ := do
  let (borrow, u_i) ← mod_sub r.carry0 r.borrow u_last_orig_val t_row_is_neg_mask
  M.assert (r.carry1 = 0 ∨ borrow ≠ 0)
  let d ← M.sub borrow r.carry1
  M.assert (d ≤ 1)
  let d ← M.sub borrow r.carry1
  M.assert (d = shr u_i (W - 1))
  pure u_i

/-- One of the two final reductions, euclid_impl.rs:430-432 or 433-435, and the completion of
the comparison, euclid_impl.rs:441 or 442: `u_sign`, `u_geq_n` and the updated buffer. -/
def mod_finish (u : Buf φ) (r : ModRow) (j u_head_new_val last_n_val : ℕ) :
    M (ℕ × ℕ × Buf φ) := do
  let (u_sign, u_new_val) ← r.kernel.finish_in_twos_complement u_head_new_val
  let geq ← CtGeqMpMpKernel.update r.geq u_new_val last_n_val
  let u ← u.store_l j (u_new_val &&& u.partial_high_mask)
  let c ← CtGeqMpMpKernel.finish geq
  pure (u_sign, c.select 0 (u_sign ^^^ 1), u)

/-- `u_i_into_range`, euclid_impl.rs:446-472. -/
def u_i_into_range (u_i : Buf φ) (u_i_sign u_i_geq_n : ℕ) (n : Buf χ) : M (Buf φ) := do
  let neg_n ← LimbChoice.from' u_i_geq_n
  let neg_n_mask := neg_n.select 0 lmax
  let neg_n_carry := neg_n.select 0 1
  let cond ← LimbChoice.from' (u_i_sign ||| u_i_geq_n)
  let cond_mask := cond.select 0 lmax
  let (u_i, _, _) ← M.forRange 0 n.nlimbs (u_i, neg_n_carry, 0)
    (fun i (u_i, neg_n_carry, carry) => do
      let n_val ← n.load_l i
      let (neg_n_carry, n_val) := ct_add_l_l (n_val ^^^ neg_n_mask) neg_n_carry
      let u_val ← u_i.load_l i
      let (carry, new_u_i_val) ← ct_add_l_l_c u_val (n_val &&& cond_mask) carry
      let u_i ← M.cond (i + 1 ≠ u_i.nlimbs) (u_i.store_l_full i new_u_i_val)
        (u_i.store_l i (new_u_i_val &&& u_i.partial_high_mask))
      pure (u_i, neg_n_carry, carry))
  M.assertM (do let c ← ct_gt_mp_mp n u_i; pure (c.unwrap == 1))
  pure u_i

/-- `apply_to_mod_odd_n`, euclid_impl.rs:252-476: the updated `u_f` and `u_g`.
Simplification: in the code, both reductions are finished before both comparisons
are; here it is one after the other. -/
def apply_to_mod_odd_n (m : TransitionMatrix) (neg : NegMask) (u_f : Buf φ) (u_g : Buf ψ)
    (n : Buf χ) (neg_n0_inv_mod_l : ℕ) : M (Buf φ × Buf ψ) := do
  M.assert (¬ n.is_empty = true)
  let n_nlimbs := n.nlimbs
  M.assert (u_f.nlimbs = n_nlimbs)
  M.assertM (do let c ← ct_lt_mp_mp u_f n; pure (c.unwrap == 1))
  M.assert (u_g.nlimbs = n_nlimbs)
  M.assertM (do let c ← ct_lt_mp_mp u_g n; pure (c.unwrap == 1))
  let n0_val ← n.load_l 0
  let u_f0 ← u_f.load_l 0
  let u_g0 ← u_g.load_l 0
  let r0 ← mod_start (u_f0, u_g0) m.row0 m.s0 n0_val neg_n0_inv_mod_l
  let r1 ← mod_start (u_f0, u_g0) m.row1 m.s1 n0_val neg_n0_inv_mod_l
  let s ← M.forRange 0 (n_nlimbs - 1)
    (⟨u_f, u_g, r0, r1, (u_f0, u_g0), n0_val⟩ : ModState φ ψ) (mod_step m neg n)
  let j := n_nlimbs - 1
  let h0 ← mod_head s.r0 s.u_last_orig_val neg.1
  let h1 ← mod_head s.r1 s.u_last_orig_val neg.2
  let (u_f_sign, u_f_geq_n, u_f) ← mod_finish s.u_f s.r0 j h0 s.last_n_val
  let (u_g_sign, u_g_geq_n, u_g) ← mod_finish s.u_g s.r1 j h1 s.last_n_val
  let u_f ← u_i_into_range u_f u_f_sign u_f_geq_n n
  let u_g ← u_i_into_range u_g u_g_sign u_g_geq_n n
  pure (u_f, u_g)

end TransitionMatrix

/-- The check that the greatest common divisor is 1 or -1, body of the loop,
euclid_impl.rs:1044-1049. -/
def inv_check_step (f : Buf .ne) (neg_mask : ℕ) (i expected_val : ℕ) :
    M (Except GcdError ℕ) := do
  let v ← f.load_l_full i
  M.cond (v ≠ expected_val) (pure (.error .OperandsNotCoprime)) (pure (.ok neg_mask))

/-- The conditional negation of the result, euclid_impl.rs:1056-1069. -/
def inv_negate (result : Buf φ) (n : Buf χ) (neg_mask neg_carry : ℕ) : M (Buf φ) := do
  let nlimbs := n.nlimbs
  let (result, _, _) ← M.forRange 0 nlimbs (result, neg_carry, 0)
    (fun i (result, neg_carry, carry) => do
      let result_val ← result.load_l i
      let (neg_carry, cond_neg_result_val) := ct_add_l_l (result_val ^^^ neg_mask) neg_carry
      let n_val ← n.load_l i
      let cond_f_val := n_val &&& neg_mask
      let (carry, result_val) ← ct_add_l_l_c cond_f_val cond_neg_result_val carry
      let result ← M.cond (i + 1 ≠ nlimbs) (result.store_l_full i result_val)
        (result.store_l i (result_val &&& result.partial_high_mask))
      pure (result, neg_carry, carry))
  pure result

/-- `ct_inv_mod_odd_mp_mp_impl`, euclid_impl.rs:979-1072: `result`, `op0` and both scratch
buffers. -/
def ct_inv_mod_odd_mp_mp_impl (result : Buf φ) (op0 : Buf ψ) (n : Buf χ)
    (scratch0 scratch1 : Buf .ne) :
    M (Except GcdError (Buf φ × Buf ψ × Buf .ne × Buf .ne)) := do
  let c ← n.len_is_compatible_with result.len
  M.cond (c = false) (pure (.error .InsufficientResultSpace)) do
    let c0 ← op0.len_is_compatible_with n.len
    let c1 ← n.len_is_compatible_with op0.len
    M.cond (c0 = false ∨ c1 = false) (pure (.error .InconsistentOperandLengths)) do
      let n_nlimbs := ct_mp_nlimbs n.len
      M.cond (scratch0.nlimbs < n_nlimbs) (pure (.error .InsufficientScratchSpace)) <|
      M.cond (scratch1.nlimbs < n_nlimbs) (pure (.error .InsufficientScratchSpace)) do
        match ← ct_montgomery_neg_n0_inv_mod_l_mp n with
        | .error _ => pure (.error .InvalidModulus)
        | .ok neg_n0_inv_mod_l =>
          let f_work ← scratch0.copy_from n
          let (f_work, f_work_rest) ← f_work.shrink_to n.len
          let ext_u1 ← scratch1.clear_bytes_above n.len
          let (ext_u1, ext_u1_rest) ← ext_u1.shrink_to n.len
          let result ← result.clear_bytes_above 0
          let (result, result_rest) ← result.shrink_to n.len
          let n_is_one ← ct_is_one_mp n
          let ext_u1 ← ext_u1.clear_bytes_above 0
          let ext_u1 ← ext_u1.store_l_full 0 (1 ^^^ n_is_one.unwrap)
          let (f_work, op0, gcd_is_neg, result, ext_u1) ← ct_gcd_ext_odd_mp_mp
            (fun t neg s => t.apply_to_mod_odd_n neg s.1 s.2 n neg_n0_inv_mod_l)
            (result, ext_u1) f_work op0
          let neg_mask := gcd_is_neg.select 0 lmax
          let expected_val := gcd_is_neg.select 1 lmax
          M.bindE (M.loopUpE n.nlimbs 0 expected_val (inv_check_step f_work neg_mask)) fun _ => do
            M.assertM (do
              let z ← ct_is_zero_mp result
              pure (z.unwrap == 0 || n_is_one.unwrap != 0))
            let neg_mask := n_is_one.select neg_mask 0
            let neg_carry := (gcd_is_neg.and n_is_one.not).select 0 1
            let result ← inv_negate result n neg_mask neg_carry
            pure (.ok (Buf.join result_rest result, op0, Buf.join f_work_rest f_work,
              Buf.join ext_u1_rest ext_u1))

/-- `ct_inv_mod_odd_mp_mp`, euclid_impl.rs:1083-1118: `result`, `op0` and both scratch buffers. -/
def ct_inv_mod_odd_mp_mp (result : Buf φ) (op0 : Buf ψ) (n : Buf χ)
    (scratch0 scratch1 : Buf .ne) :
    M (Except GcdError (Buf φ × Buf ψ × Buf .ne × Buf .ne)) :=
  M.bindE (ct_inv_mod_odd_mp_mp_impl result op0 n scratch0 scratch1)
    fun (result, op0, scratch0, scratch1) => do
      let z ← ct_is_zero_mp result
      M.cond (z.unwrap ≠ 0) (pure (.error .OperandsNotCoprime))
        (pure (.ok (result, op0, scratch0, scratch1)))

end Cmpa
