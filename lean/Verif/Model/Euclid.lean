import Verif.Model.Cmp
import Verif.Model.Shift
import Verif.Model.Usize
import Verif.Model.Montgomery

/-!
# Model of euclid_impl.rs: division steps and greatest common divisors

The pairs `[LimbType; 2]` are modelled as `ℕ × ℕ`; loops `for i in 0..2` or
`for j in [0, 1]` over the two rows or columns of a matrix are written out.
-/

namespace Cmpa
variable [LimbCfg] {φ ψ : Fmt}

/-- `TransitionMatrix`, euclid_impl.rs:59-62: the two rows and their shifts. -/
structure TransitionMatrix where
  row0 : ℕ × ℕ
  row1 : ℕ × ℕ
  s0 : ℕ
  s1 : ℕ
  deriving DecidableEq, Repr

/-- The masks computed by `t_is_neg_mask`, euclid_impl.rs:478-487: one pair for each row. -/
abbrev NegMask := (ℕ × ℕ) × (ℕ × ℕ)

namespace TransitionMatrix

/-- `identity`, euclid_impl.rs:65-70. -/
def identity : TransitionMatrix := ⟨(1, 0), (0, 1), 0, 0⟩

/-- One entry of the new second row, body of the loop in `push_transition`,
euclid_impl.rs:92-101. -/
def push_entry (case0 : LimbChoice) (case0_mask t0_mask row_shift_diff t0j t1j : ℕ) : M ℕ := do
  let t0j := t0j ^^^ case0_mask
  let t0j := wadd t0j case0.unwrap
  let t0j := t0j &&& t0_mask
  let sh ← shlC t0j row_shift_diff
  pure (wadd t1j sh)

/-- `push_transition`, euclid_impl.rs:73-104. -/
def push_transition (m : TransitionMatrix) (case0 g0 : LimbChoice) : M TransitionMatrix := do
  let t0 := m.row0
  let row_shift_diff ← M.sub m.s1 m.s0
  let row0 := (case0.select m.row0.1 m.row1.1, case0.select m.row0.2 m.row1.2)
  let s0 := case0.select m.s0 m.s1
  let case0_mask := case0.select 0 lmax
  let t0_mask := case0.select (g0.select 0 lmax) lmax
  let t10 ← push_entry case0 case0_mask t0_mask row_shift_diff t0.1 m.row1.1
  let t11 ← push_entry case0 case0_mask t0_mask row_shift_diff t0.2 m.row1.2
  let s1 ← M.addL m.s1 1
  pure ⟨row0, (t10, t11), s0, s1⟩

/-- `mat_mul_row_compute_limb`, euclid_impl.rs:140-170.  The state is the two `carry` limbs
and the `borrow`; returns the updated state and the result limb. -/
def compute_limb (s : ℕ × ℕ × ℕ) (cur_orig_val last_orig_val t_row t_row_is_neg_mask : ℕ × ℕ) :
    M ((ℕ × ℕ × ℕ) × ℕ) := do
  let (carry0, carry1, borrow) := s
  let t_if_f ← ct_mul_l_l t_row.1 cur_orig_val.1
  let (g_carry, result) ← ct_mul_add_l_l_l_c t_if_f.low t_row.2 cur_orig_val.2 carry0
  let (carry1, carry0) ← ct_add_l_l_c t_if_f.high g_carry carry1
  let (f_borrow, result) := ct_sub_l_l result (last_orig_val.1 &&& t_row_is_neg_mask.1)
  M.assert (f_borrow = 0 ∨ 1 ≤ result)
  let (g_borrow, result) := ct_sub_l_l result (last_orig_val.2 &&& t_row_is_neg_mask.2)
  M.assert (g_borrow = 0 ∨ 1 ≤ result)
  let fg ← M.addL f_borrow g_borrow
  M.assert (fg < 2 ∨ 2 ≤ result)
  M.assert (borrow ≤ 2)
  let (borrow0, result) := ct_sub_l_l result borrow
  let borrow ← M.addL borrow0 f_borrow
  let borrow ← M.addL borrow g_borrow
  M.assert (borrow ≤ 2)
  pure ((carry0, carry1, borrow), result)

/-- Combine two consecutive unshifted result limbs, e.g. euclid_impl.rs:190-193. -/
def shift_limb (s sm last_new_val new_val : ℕ) : M ℕ := do
  let lo ← shrC last_new_val s
  let d ← M.sub W s
  let hi ← shlC new_val (d &&& sm)
  pure (lo ||| (hi &&& sm))

/-- The loop state of `apply_to_f_g`, euclid_impl.rs:129-132: `carry` and `borrow` for both
rows, `last_orig_val` and `last_new_val`. -/
structure FgState where
  st0 : ℕ × ℕ × ℕ
  st1 : ℕ × ℕ × ℕ
  last_orig_val : ℕ × ℕ
  last_new_val : ℕ × ℕ

/-- Computation of the limbs `new_val` for both rows, euclid_impl.rs:175-185 and 207-217. -/
def fg_compute (m : TransitionMatrix) (neg : NegMask) (s : FgState) (cur_orig_val : ℕ × ℕ) :
    M FgState := do
  let (st0, v0) ← compute_limb s.st0 cur_orig_val s.last_orig_val m.row0 neg.1
  let (st1, v1) ← compute_limb s.st1 cur_orig_val s.last_orig_val m.row1 neg.2
  pure ⟨st0, st1, cur_orig_val, (v0, v1)⟩

/-- The shifted limbs to be stored, euclid_impl.rs:189-194 and 221-226. -/
def fg_shift (m : TransitionMatrix) (sm last_new_val new_val : ℕ × ℕ) : M (ℕ × ℕ) := do
  let v0 ← shift_limb m.s0 sm.1 last_new_val.1 new_val.1
  let v1 ← shift_limb m.s1 sm.2 last_new_val.2 new_val.2
  pure (v0, v1)

/-- Body of the loop over the low limbs in `apply_to_f_g`, euclid_impl.rs:174-201. -/
def fg_step (m : TransitionMatrix) (neg : NegMask) (sm : ℕ × ℕ) (k : ℕ) :
    Buf φ × Buf ψ × FgState → M (Buf φ × Buf ψ × FgState)
  | (f, g, s) => do
    let f_val ← f.load_l_full k
    let g_val ← g.load_l_full k
    let s' ← fg_compute m neg s (f_val, g_val)
    let (f, g) ← M.cond (0 < k)
      (do
        let v ← fg_shift m sm s.last_new_val s'.last_new_val
        let f ← f.store_l_full (k - 1) v.1
        let g ← g.store_l_full (k - 1) v.2
        pure (f, g))
      (pure (f, g))
    pure (f, g, s')

/-- The final arithmetic shift, euclid_impl.rs:241-245. -/
def fg_head (s v : ℕ) : M ℕ := do
  let v ← ct_arithmetic_rshift_l v s
  M.assert (v = 0 ∨ v = lmax)
  pure v

/-- `apply_to_f_g`, euclid_impl.rs:112-248.  Returns `f`, `f_shadow_head`, `g` and
`g_shadow_head`.  The loop `for k in 0..2` over the shadow limbs is unrolled. -/
def apply_to_f_g (m : TransitionMatrix) (neg : NegMask) (fsh : ℕ × ℕ) (f : Buf φ) (gsh : ℕ × ℕ)
    (g : Buf ψ) : M ((Buf φ × ℕ × ℕ) × (Buf ψ × ℕ × ℕ)) := do
  let nlimbs := f.nlimbs
  M.check (nlimbs = g.nlimbs)
  M.check (nlimbs ≠ 0)
  let c0 ← LimbChoice.from' (ct_is_nonzero_l m.s0)
  let c1 ← LimbChoice.from' (ct_is_nonzero_l m.s1)
  let sm := (c0.select 0 lmax, c1.select 0 lmax)
  let (f, g, s) ← M.forRange 0 (nlimbs - 1)
    (f, g, (⟨(0, 0, 0), (0, 0, 0), (0, 0), (0, 0)⟩ : FgState)) (fg_step m neg sm)
  -- `k == 0`
  let s' ← fg_compute m neg s (fsh.1, gsh.1)
  let v ← fg_shift m sm s.last_new_val s'.last_new_val
  let (f, g) ← M.cond (1 < nlimbs)
    (do
      let f ← f.store_l_full (nlimbs - 2) v.1
      let g ← g.store_l_full (nlimbs - 2) v.2
      pure (f, g))
    (pure (f, g))
  -- `k == 1`
  let s'' ← fg_compute m neg s' (fsh.2, gsh.2)
  let v ← fg_shift m sm s'.last_new_val s''.last_new_val
  let f_head ← fg_head m.s0 s''.last_new_val.1
  let g_head ← fg_head m.s1 s''.last_new_val.2
  pure ((f, v.1, f_head), (g, v.2, g_head))

/-- One entry of `t_is_neg_mask`, euclid_impl.rs:479-486. -/
def entry_neg_mask (t : ℕ) : M ℕ := do
  let c ← LimbChoice.from' (shr t (W - 1))
  pure (c.select 0 lmax)

/-- `t_is_neg_mask`, euclid_impl.rs:478-487. -/
def t_is_neg_mask (m : TransitionMatrix) : M NegMask := do
  let ff ← entry_neg_mask m.row0.1
  let fg ← entry_neg_mask m.row0.2
  let gf ← entry_neg_mask m.row1.1
  let gg ← entry_neg_mask m.row1.2
  pure ((ff, fg), (gf, gg))

end TransitionMatrix

/-- `STEPS_PER_BATCH`, euclid_impl.rs:490. -/
def STEPS_PER_BATCH : ℕ := W - 2

/-- Body of the loop in `batch_divsteps`, euclid_impl.rs:502-526.  Simplification: `delta`, a
two's complement value in a `usize` in the code, is an integer; `Model/GcdUsize.lean` has the
version with a `usize`, and C50 shows when both are the same. -/
def batch_step : ℤ × ℕ × ℕ × TransitionMatrix → M (ℤ × ℕ × ℕ × TransitionMatrix)
  | (delta, f_low, g_low, m) => do
    let delta_is_pos := LimbChoice.new (if 0 < delta then 1 else 0)
    let g0 ← LimbChoice.from' (g_low &&& 1)
    let case0 := delta_is_pos.and g0
    let m ← m.push_transition case0 g0
    let delta := if case0.unwrap = 0 then 1 + delta else 1 - delta
    let new_f_low := case0.select f_low g_low
    let case0_mask := case0.select 0 lmax
    let f_low_mask := case0.select (g0.select 0 lmax) lmax
    let f_low := f_low ^^^ case0_mask
    let f_low := wadd f_low case0.unwrap
    let f_low := f_low &&& f_low_mask
    let new_g_low ← ct_arithmetic_rshift_l (wadd g_low f_low) 1
    pure (delta, new_f_low, new_g_low, m)

/-- `batch_divsteps`, euclid_impl.rs:495-529. -/
def batch_divsteps (delta : ℤ) (f_low g_low : ℕ) : M (ℤ × TransitionMatrix) := do
  M.assert (f_low &&& 1 = 1)
  let s ← M.forRange 0 STEPS_PER_BATCH (delta, f_low, g_low, TransitionMatrix.identity)
    (fun _ => batch_step)
  pure (s.1, s.2.2.2)

/-- `nbatches`, euclid_impl.rs:531-544. -/
def nbatches (len : ℕ) : ℕ :=
  let nbits := len * 8 + 1
  let d := nbits + 1
  let nsteps := if d < 46 then (49 * d + 80) / 17 else (49 * d + 57) / 17
  (nsteps + STEPS_PER_BATCH - 1) / STEPS_PER_BATCH

/-- The loop state of `ct_gcd_ext_odd_mp_mp`, euclid_impl.rs:565-567; `ext` is what the closure `update_ext_state`
captures. -/
structure GcdState (φ ψ : Fmt) (σ : Type) where
  f : Buf φ
  fsh : ℕ × ℕ
  g : Buf ψ
  gsh : ℕ × ℕ
  delta : ℤ
  ext : σ

variable {σ : Type}

/-- Body of the loop in `ct_gcd_ext_odd_mp_mp`, euclid_impl.rs:569-585. -/
def gcd_batch (nlimbs : ℕ) (upd : TransitionMatrix → NegMask → σ → M σ) (s : GcdState φ ψ σ) :
    M (GcdState φ ψ σ) := do
  let (f_low, g_low) ← M.cond (1 < nlimbs)
    (do
      let f_low ← s.f.load_l_full 0
      let g_low ← s.g.load_l_full 0
      pure (f_low, g_low))
    (pure (s.fsh.1, s.gsh.1))
  M.assert (f_low &&& 1 = 1)
  let (delta, m) ← batch_divsteps s.delta f_low g_low
  let neg ← m.t_is_neg_mask
  let ((f, fsh), (g, gsh)) ← m.apply_to_f_g neg s.fsh s.f s.gsh s.g
  let ext ← upd m neg s.ext
  pure ⟨f, fsh, g, gsh, delta, ext⟩

/-- `ct_gcd_ext_odd_mp_mp`, euclid_impl.rs:546-600.  The closure `update_ext_state` is modelled
by the function `upd` on the state `ext` it captures; the final state is returned along
with `f`, `g` and the sign of `f`. -/
def ct_gcd_ext_odd_mp_mp (upd : TransitionMatrix → NegMask → σ → M σ) (ext : σ) (f : Buf φ)
    (g : Buf ψ) : M (Buf φ × Buf ψ × LimbChoice × σ) := do
  let nlimbs := f.nlimbs
  M.assert (nlimbs = g.nlimbs)
  M.assert (nlimbs ≠ 0)
  M.assertM (do let f0 ← f.load_l 0; pure (f0 &&& 1 == 1))
  let n := nbatches (max f.len g.len)
  let f_high ← f.load_l (nlimbs - 1)
  let g_high ← g.load_l (nlimbs - 1)
  let s ← M.forRange 0 n (⟨f, (f_high, 0), g, (g_high, 0), 1, ext⟩ : GcdState _ _ σ)
    (fun _ => gcd_batch nlimbs upd)
  M.assert (s.gsh.1 = 0)
  let g ← s.g.store_l (nlimbs - 1) 0
  M.assert (s.gsh.2 = 0)
  let _ ← M.forRange 0 nlimbs () (fun k _ =>
    M.assertM (do let v ← g.load_l k; pure (v == 0)))
  M.assert (s.fsh.2 = 0 ∨ s.fsh.2 = lmax)
  let f_is_neg ← LimbChoice.from' (shr s.fsh.2 (W - 1))
  let f ← s.f.store_l (nlimbs - 1) (s.fsh.1 &&& s.f.partial_high_mask)
  pure (f, g, f_is_neg, s.ext)

/-- The error types `CtGcdOddMpMpError`, euclid_impl.rs:602-606, `CtGcdMpMpError`,
euclid_impl.rs:779-783, and `CtInvModOddMpMpError`, euclid_impl.rs:1074-1081. -/
inductive GcdError where
  | InconsistentOperandLengths
  | InvalidInputOperandValue
  | InsufficientResultSpace
  | InsufficientScratchSpace
  | OperandsNotCoprime
  | InvalidModulus
  deriving DecidableEq, Repr

/-- The conditional negation at the end of `ct_gcd_odd_mp_mp`, euclid_impl.rs:621-636. -/
def gcd_negate (f : Buf φ) (gcd_is_neg : LimbChoice) : M (Buf φ) := do
  let neg_mask := gcd_is_neg.select 0 lmax
  let carry := gcd_is_neg.select 0 1
  let nlimbs := f.nlimbs
  let (f, carry) ← M.forRange 0 (nlimbs - 1) (f, carry) (fun k (f, carry) => do
    let f_val ← f.load_l_full k
    let f_val := f_val ^^^ neg_mask
    let (carry, f_val) := ct_add_l_l f_val carry
    let f ← f.store_l_full k f_val
    pure (f, carry))
  let f_val ← f.load_l (nlimbs - 1)
  let f_val := f_val ^^^ neg_mask
  let (_, f_val) := ct_add_l_l f_val carry
  f.store_l (nlimbs - 1) (f_val &&& f.partial_high_mask)

/-- `ct_gcd_odd_mp_mp`, euclid_impl.rs:608-638: the updated `f` and `g`. -/
def ct_gcd_odd_mp_mp (f : Buf φ) (g : Buf ψ) : M (Except GcdError (Buf φ × Buf ψ)) := do
  let f0 ← f.test_bit 0
  M.cond (f0.unwrap = 0) (pure (.error .InvalidInputOperandValue)) do
    let c0 ← f.len_is_compatible_with g.len
    let c1 ← g.len_is_compatible_with f.len
    M.cond (¬ c0 = true ∨ ¬ c1 = true) (pure (.error .InconsistentOperandLengths)) do
      let (f, g, gcd_is_neg, _) ← ct_gcd_ext_odd_mp_mp (fun _ _ s => pure s) () f g
      let f ← gcd_negate f gcd_is_neg
      pure (.ok (f, g))

/-- `ct_gcd_mp_mp`, euclid_impl.rs:785-821: the updated `op0` and `op1`. -/
def ct_gcd_mp_mp (op0 : Buf φ) (op1 : Buf ψ) : M (Except GcdError (Buf φ × Buf ψ)) := do
  M.cond (op0.is_empty = true) (pure (.error .InsufficientResultSpace)) do
    let c0 ← op0.len_is_compatible_with op1.len
    let c1 ← op1.len_is_compatible_with op0.len
    M.cond (¬ c0 = true ∨ ¬ c1 = true) (pure (.error .InconsistentOperandLengths)) do
      let (op0_is_nonzero, op0_powers_of_two) ← ct_find_first_set_bit_mp op0
      let (op1_is_nonzero, op1_powers_of_two) ← ct_find_first_set_bit_mp op1
      M.assert (op0_is_nonzero.unwrap ≠ 0 ∨ op0_powers_of_two = 0)
      let op1_has_fewer_powers_of_two := op0_is_nonzero.not.or
        (op1_is_nonzero.and (ct_lt_usize_usize op1_powers_of_two op0_powers_of_two))
      let min_powers_of_two :=
        op1_has_fewer_powers_of_two.select_usize op0_powers_of_two op1_powers_of_two
      let (op0, _) ← ct_rshift_mp op0 min_powers_of_two
      let (op1, _) ← ct_rshift_mp op1 min_powers_of_two
      let (op0, op1) ← ct_swap_cond_mp op0 op1 op1_has_fewer_powers_of_two
      let op0_and_op1_zero := op0_is_nonzero.not.and op1_is_nonzero.not
      M.assertM (do
        let v ← op0.load_l 0
        pure (op0_and_op1_zero.unwrap != 0 || v &&& 1 == 1))
      let v ← op0.load_l 0
      let op0 ← op0.store_l 0 (op0_and_op1_zero.select v 1)
      let (op0, op1) ← unwrapE (ct_gcd_odd_mp_mp op0 op1)
      M.assertM (do let z ← ct_is_zero_mp op0; pure (z.unwrap == 0))
      M.assertM (do
        let o ← ct_is_one_mp op0
        pure (op0_and_op1_zero.unwrap == 0 || o.unwrap != 0))
      M.assert (op0_and_op1_zero.unwrap = 0 ∨ min_powers_of_two = 0)
      let (op0, _) ← ct_lshift_mp op0 min_powers_of_two
      pure (.ok (op0, op1))

end Cmpa
