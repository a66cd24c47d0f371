import Verif.Model.Buf

/-!
# Model of shift_impl.rs

`usize::wrapping_sub` is modelled by truncated subtraction: wherever the two differ, the result
gets replaced by a `select_usize` right away.
-/

namespace Cmpa
variable [LimbCfg] {f : Fmt}

/-- `ct_lshift_mp`, what is shifted out: shift_impl.rs:22-70. -/
def ct_lshift_mp_out (op0 : Buf f) (distance : ℕ) : M ℕ := do
  let op0_nlimbs := op0.nlimbs
  let op0_nbits := 8 * op0.len
  let src_bits_begin_lt_0 := ct_lt_usize_usize op0_nbits distance
  let src_bits_begin := op0_nbits - distance
  let src_bits_begin := src_bits_begin_lt_0.select_usize src_bits_begin 0
  let src_bits_begin_ge_op0_nbits := ct_geq_usize_usize src_bits_begin op0_nbits
  let src_bits_begin := src_bits_begin_ge_op0_nbits.select_usize src_bits_begin op0_nbits
  let src_bits_end_le_0 := ct_leq_usize_usize (op0_nbits + W) distance
  let src_bits_end := op0_nbits + W - distance
  let src_bits_end := src_bits_end_le_0.select_usize src_bits_end 0
  let src_bits_end_gt_op0_nbits := ct_gt_usize_usize src_bits_end (op0_nlimbs * W)
  let src_bits_end := src_bits_end_gt_op0_nbits.select_usize src_bits_end op0_nbits
  let low_src_limb_index :=
    src_bits_begin_ge_op0_nbits.select_usize (src_bits_begin / W) (op0_nlimbs - 1)
  let low_src_rshift := src_bits_begin % W
  let high_src_limb_index := src_bits_end_le_0.select_usize ((src_bits_end - 1) / W) 0
  let dst_high_lshift := (W - low_src_rshift) % W
  let high_src_mask := src_bits_end_gt_op0_nbits.select (ct_lsb_mask_l low_src_rshift) 0
  let l ← op0.load_l low_src_limb_index
  let src_low ← shrC l low_src_rshift
  let l ← op0.load_l high_src_limb_index
  let src_high := l &&& high_src_mask
  let t ← shlC src_high dst_high_lshift
  let shifted_out_low := (src_bits_end_le_0.or src_bits_begin_ge_op0_nbits).select (t ||| src_low) 0
  let result_lshift := src_bits_begin_lt_0.select_usize 0 (distance - op0_nbits)
  let result_lshift := src_bits_end_le_0.select_usize result_lshift 0
  shlC shifted_out_low result_lshift

/-- `ct_lshift_mp`, shift_impl.rs:15-123. -/
def ct_lshift_mp (op0 : Buf f) (distance : ℕ) : M (Buf f × ℕ) :=
  M.cond (op0.is_empty = true) (pure (op0, 0)) do
    let op0_nlimbs := op0.nlimbs
    let op0_nbits := 8 * op0.len
    let shifted_out_low ← ct_lshift_mp_out op0 distance
    let distance := (ct_gt_usize_usize distance op0_nbits).select_usize distance op0_nbits
    let distance_nlimbs := ct_mp_nlimbs ((distance + 7) / 8)
    let dst_high_lshift := distance % W
    let distance_is_aligned := ct_eq_usize_usize dst_high_lshift 0
    let low_src_rshift := distance_is_aligned.select_usize (W - dst_high_lshift) 0
    let high_src_mask := distance_is_aligned.select lmax 0
    M.assert (distance_nlimbs ≤ op0_nlimbs)
    let i ← M.sub op0_nlimbs ((ct_eq_usize_usize distance_nlimbs 0).select_usize distance_nlimbs 1)
    let last_src_low ← op0.load_l i
    let (op0, _, _) ← M.forDown op0_nlimbs (op0, 0, last_src_low)
      fun dst_limb_index (op0, src_limb_index_offset, last_src_low) => do
        let src_limb_index_offset :=
          (ct_eq_usize_usize distance_nlimbs (dst_limb_index + 1)).select_usize
            src_limb_index_offset op0_nlimbs
        let src_high := last_src_low
        let low_src_limb_index ← M.sub (dst_limb_index + src_limb_index_offset) distance_nlimbs
        let src_low ← op0.load_l low_src_limb_index
        let last_src_low := src_low
        let dst_low ← shrC src_low low_src_rshift
        let dst_high ← shlC (src_high &&& high_src_mask) dst_high_lshift
        let dst_val := dst_high ||| dst_low
        let op0 ← M.cond (dst_limb_index + 1 ≠ op0_nlimbs) (op0.store_l_full dst_limb_index dst_val)
          (op0.store_l dst_limb_index (dst_val &&& op0.partial_high_mask))
        pure (op0, src_limb_index_offset, last_src_low)
    let op0 ← ct_clear_bits_below_mp op0 distance
    pure (op0, shifted_out_low)

/-- `ct_rshift_mp`, what is shifted out: shift_impl.rs:292-335. -/
def ct_rshift_mp_out (op0 : Buf f) (distance : ℕ) : M ℕ := do
  let op0_nlimbs := op0.nlimbs
  let op0_nbits := 8 * op0.len
  let src_bits_begin_lt_0 := ct_lt_usize_usize distance W
  let src_bits_begin := distance - W
  let src_bits_begin := src_bits_begin_lt_0.select_usize src_bits_begin 0
  let src_bits_begin_ge_op0_nbits := ct_geq_usize_usize src_bits_begin op0_nbits
  let src_bits_begin := src_bits_begin_ge_op0_nbits.select_usize src_bits_begin op0_nbits
  let src_bits_end := distance
  let src_bits_end_gt_op0_nbits := ct_gt_usize_usize src_bits_end (op0_nlimbs * W)
  let src_bits_end := src_bits_end_gt_op0_nbits.select_usize src_bits_end op0_nbits
  let src_bits_end_eq_0 := ct_eq_usize_usize 0 distance
  let low_src_limb_index :=
    src_bits_begin_ge_op0_nbits.select_usize (src_bits_begin / W) (op0_nlimbs - 1)
  let low_src_rshift := src_bits_begin % W
  let high_src_limb_index := src_bits_end_eq_0.select_usize ((src_bits_end - 1) / W) 0
  let dst_high_lshift := (W - low_src_rshift) % W
  let high_src_mask := src_bits_end_gt_op0_nbits.select (ct_lsb_mask_l low_src_rshift) 0
  let l ← op0.load_l low_src_limb_index
  let src_low ← shrC l low_src_rshift
  let l ← op0.load_l high_src_limb_index
  let src_high := l &&& high_src_mask
  let t ← shlC src_high dst_high_lshift
  let shifted_out_high := (src_bits_end_eq_0.or src_bits_begin_ge_op0_nbits).select (t ||| src_low) 0
  let result_lshift := src_bits_begin_lt_0.select_usize 0 (W - distance)
  let result_lshift := src_bits_end_eq_0.select_usize result_lshift 0
  shlC shifted_out_high result_lshift

/-- `ct_rshift_mp`, shift_impl.rs:285-386. -/
def ct_rshift_mp (op0 : Buf f) (distance : ℕ) : M (Buf f × ℕ) :=
  M.cond (op0.is_empty = true) (pure (op0, 0)) do
    let op0_nlimbs := op0.nlimbs
    let op0_nbits := 8 * op0.len
    let shifted_out_high ← ct_rshift_mp_out op0 distance
    let distance := (ct_gt_usize_usize distance op0_nbits).select_usize distance op0_nbits
    let distance_nlimbs := distance / W
    let low_src_rshift := distance % W
    let distance_is_aligned := ct_eq_usize_usize low_src_rshift 0
    let dst_high_lshift := distance_is_aligned.select_usize (W - low_src_rshift) 0
    let high_src_mask := distance_is_aligned.select lmax 0
    let src_limb_index_offset :=
      (ct_geq_usize_usize distance_nlimbs op0_nlimbs).select_usize 0 op0_nlimbs
    let i ← M.sub distance_nlimbs src_limb_index_offset
    let last_src_high ← op0.load_l i
    let (op0, _, _) ← M.forRange 0 op0_nlimbs (op0, src_limb_index_offset, last_src_high)
      fun dst_limb_index (op0, src_limb_index_offset, last_src_high) => do
        let src_low := last_src_high
        let high_src_limb_index := dst_limb_index + distance_nlimbs + 1
        let d ← M.sub high_src_limb_index src_limb_index_offset
        let src_limb_index_offset :=
          (ct_eq_usize_usize d op0_nlimbs).select_usize
            src_limb_index_offset (src_limb_index_offset + op0_nlimbs)
        let high_src_limb_index ← M.sub high_src_limb_index src_limb_index_offset
        let src_high ← op0.load_l high_src_limb_index
        let last_src_high := src_high
        let dst_low ← shrC src_low low_src_rshift
        let dst_high ← shlC (src_high &&& high_src_mask) dst_high_lshift
        let dst_val := dst_high ||| dst_low
        let op0 ← M.cond (dst_limb_index + 1 ≠ op0_nlimbs) (op0.store_l_full dst_limb_index dst_val)
          (op0.store_l dst_limb_index (dst_val &&& op0.partial_high_mask))
        pure (op0, src_limb_index_offset, last_src_high)
    let d ← M.sub op0_nbits distance
    let op0 ← ct_clear_bits_above_mp op0 d
    pure (op0, shifted_out_high)

end Cmpa
