import Verif.Model.Div
import Verif.Model.GcdUsize

/-!
# Shift distances, exponents and lengths in a `usize` of 32 or 64 bits

The functions which take a distance, an exponent or a length from the user, with the arithmetic on it as in the code: in
a `usize` of the size given by `u`.  Additions, multiplications and subtractions which leave the range panic in a debug
build and wrap around in a release build.  Limb indexes, which are at most twice the number of limbs of a buffer, are
unbounded as elsewhere; so are the lengths of existing buffers, which are less than `isize::MAX`.
-/

namespace Cmpa
variable [LimbCfg] {f g h : Fmt}

/-- `a - b` for `usize`, e.g. limbs_buffer.rs:30. -/
def M.subU (u : UsizeCfg) (a b : ℕ) : M ℕ :=
  if b ≤ a then M.ok (a - b) [] else M.debugPanic (@wsub u.cfg a b)

/-- `ct_mp_nlimbs`, limbs_buffer.rs:29-31. -/
def ct_mp_nlimbs' (u : UsizeCfg) (len : ℕ) : M ℕ := do
  let t ← M.addU u len LB
  let t ← M.subU u t 1
  pure (t / LB)

/-- `nlimbs_for_len`, limbs_buffer.rs:1581-1583, :1057-1060, :1049-1055 for native limbs; `t` is a multiple of the size of
the backing elements, which are limbs. -/
def nlimbs_for_len' (u : UsizeCfg) (nbytes : ℕ) : M ℕ := do
  let n ← ct_mp_nlimbs' u nbytes
  let t ← M.mulU u n LB
  pure (t / LB + (if t % LB ≠ 0 then 1 else 0))

/-- `ct_clear_bits_above_mp`, limbs_buffer.rs:2054-2066. -/
def ct_clear_bits_above_mp' (u : UsizeCfg) (op0 : Buf f) (begin : ℕ) : M (Buf f) := do
  let first_limb_index := begin / W
  let first_limb_retain_nbits := begin % W
  let first_limb_mask := ct_lsb_mask_l first_limb_retain_nbits
  let (op0, _) ← M.forRange 0 op0.nlimbs (op0, lmax) fun i (op0, next_mask) => do
    let is_first_limb ← ct_eq_usize_usize' u i first_limb_index
    let mask := is_first_limb.select next_mask first_limb_mask
    let next_mask := is_first_limb.select next_mask 0
    let val ← op0.load_l i
    let op0 ← op0.store_l i (val &&& mask)
    pure (op0, next_mask)
  pure op0

/-- `ct_clear_bits_below_mp`, limbs_buffer.rs:2283-2295. -/
def ct_clear_bits_below_mp' (u : UsizeCfg) (op0 : Buf f) (end_ : ℕ) : M (Buf f) := do
  let last_limb_index := end_ / W
  let last_limb_clear_nbits := end_ % W
  let last_limb_mask := bnot (ct_lsb_mask_l last_limb_clear_nbits)
  let (op0, _) ← M.forRange 0 op0.nlimbs (op0, 0) fun i (op0, next_mask) => do
    let is_last_limb ← ct_eq_usize_usize' u i last_limb_index
    let mask := is_last_limb.select next_mask last_limb_mask
    let next_mask := is_last_limb.select next_mask lmax
    let val ← op0.load_l i
    let op0 ← op0.store_l i (val &&& mask)
    pure (op0, next_mask)
  pure op0

/-- `ct_lshift_mp`, what is shifted out: shift_impl.rs:24-70. -/
def ct_lshift_mp_out' (u : UsizeCfg) (op0 : Buf f) (op0_nbits distance : ℕ) : M ℕ := do
  let op0_nlimbs := op0.nlimbs
  let src_bits_begin_lt_0 ← ct_lt_usize_usize' u op0_nbits distance
  let src_bits_begin := @wsub u.cfg op0_nbits distance
  let src_bits_begin := src_bits_begin_lt_0.select_usize' u src_bits_begin 0
  let src_bits_begin_ge_op0_nbits ← ct_geq_usize_usize' u src_bits_begin op0_nbits
  let src_bits_begin := src_bits_begin_ge_op0_nbits.select_usize' u src_bits_begin op0_nbits
  let t ← M.addU u op0_nbits W
  let src_bits_end_le_0 ← ct_leq_usize_usize' u t distance
  let t ← M.addU u op0_nbits W
  let src_bits_end := @wsub u.cfg t distance
  let src_bits_end := src_bits_end_le_0.select_usize' u src_bits_end 0
  let t ← M.mulU u op0_nlimbs W
  let src_bits_end_gt_op0_nbits ← ct_gt_usize_usize' u src_bits_end t
  let src_bits_end := src_bits_end_gt_op0_nbits.select_usize' u src_bits_end op0_nbits
  let t ← M.subU u op0_nlimbs 1
  let low_src_limb_index := src_bits_begin_ge_op0_nbits.select_usize' u (src_bits_begin / W) t
  let low_src_rshift := src_bits_begin % W
  let high_src_limb_index := src_bits_end_le_0.select_usize' u (@wsub u.cfg src_bits_end 1 / W) 0
  let dst_high_lshift := (W - low_src_rshift) % W
  let high_src_mask := src_bits_end_gt_op0_nbits.select (ct_lsb_mask_l low_src_rshift) 0
  let l ← op0.load_l low_src_limb_index
  let src_low ← shrC l low_src_rshift
  let l ← op0.load_l high_src_limb_index
  let src_high := l &&& high_src_mask
  let t ← shlC src_high dst_high_lshift
  let shifted_out_low := (src_bits_end_le_0.or src_bits_begin_ge_op0_nbits).select (t ||| src_low) 0
  let result_lshift := src_bits_begin_lt_0.select_usize' u 0 (@wsub u.cfg distance op0_nbits)
  let result_lshift := src_bits_end_le_0.select_usize' u result_lshift 0
  shlC shifted_out_low result_lshift

/-- `ct_lshift_mp`, after the distance has been capped: shift_impl.rs:83-120. -/
def ct_lshift_mp_rest' (u : UsizeCfg) (op0 : Buf f) (distance : ℕ) : M (Buf f) := do
  let op0_nlimbs := op0.nlimbs
  let t ← M.addU u distance 7
  let distance_nlimbs ← ct_mp_nlimbs' u (t / 8)
  let dst_high_lshift := distance % W
  let distance_is_aligned ← ct_eq_usize_usize' u dst_high_lshift 0
  let low_src_rshift := distance_is_aligned.select_usize' u (W - dst_high_lshift) 0
  let high_src_mask := distance_is_aligned.select lmax 0
  M.assert (distance_nlimbs ≤ op0_nlimbs)
  let i ← M.sub op0_nlimbs ((ct_eq_usize_usize distance_nlimbs 0).select_usize distance_nlimbs 1)
  let last_src_low ← op0.load_l i
  let (op0, _, _) ← M.forDown op0_nlimbs (op0, 0, last_src_low)
    fun dst_limb_index (op0, src_limb_index_offset, last_src_low) => do
      let src_limb_index_offset :=
        (ct_eq_usize_usize distance_nlimbs (dst_limb_index + 1)).select_usize
          src_limb_index_offset op0_nlimbs
      let src_high := last_src_low
      let low_src_limb_index ← M.sub (dst_limb_index + src_limb_index_offset) distance_nlimbs
      let src_low ← op0.load_l low_src_limb_index
      let last_src_low := src_low
      let dst_low ← shrC src_low low_src_rshift
      let dst_high ← shlC (src_high &&& high_src_mask) dst_high_lshift
      let dst_val := dst_high ||| dst_low
      let op0 ← M.cond (dst_limb_index + 1 ≠ op0_nlimbs) (op0.store_l_full dst_limb_index dst_val)
        (op0.store_l dst_limb_index (dst_val &&& op0.partial_high_mask))
      pure (op0, src_limb_index_offset, last_src_low)
  ct_clear_bits_below_mp op0 distance

/-- `ct_lshift_mp`, shift_impl.rs:15-123. -/
def ct_lshift_mp' (u : UsizeCfg) (op0 : Buf f) (distance : ℕ) : M (Buf f × ℕ) :=
  M.cond (op0.is_empty = true) (pure (op0, 0)) do
    let op0_nbits ← M.mulU u 8 op0.len
    let shifted_out_low ← ct_lshift_mp_out' u op0 op0_nbits distance
    let c ← ct_gt_usize_usize' u distance op0_nbits
    let distance := c.select_usize' u distance op0_nbits
    let op0 ← ct_lshift_mp_rest' u op0 distance
    pure (op0, shifted_out_low)

/-- `ct_rshift_mp`, what is shifted out: shift_impl.rs:294-335. -/
def ct_rshift_mp_out' (u : UsizeCfg) (op0 : Buf f) (op0_nbits distance : ℕ) : M ℕ := do
  let op0_nlimbs := op0.nlimbs
  let src_bits_begin_lt_0 ← ct_lt_usize_usize' u distance W
  let src_bits_begin := @wsub u.cfg distance W
  let src_bits_begin := src_bits_begin_lt_0.select_usize' u src_bits_begin 0
  let src_bits_begin_ge_op0_nbits ← ct_geq_usize_usize' u src_bits_begin op0_nbits
  let src_bits_begin := src_bits_begin_ge_op0_nbits.select_usize' u src_bits_begin op0_nbits
  let src_bits_end := distance
  let t ← M.mulU u op0_nlimbs W
  let src_bits_end_gt_op0_nbits ← ct_gt_usize_usize' u src_bits_end t
  let src_bits_end := src_bits_end_gt_op0_nbits.select_usize' u src_bits_end op0_nbits
  let src_bits_end_eq_0 ← ct_eq_usize_usize' u 0 distance
  let t ← M.subU u op0_nlimbs 1
  let low_src_limb_index := src_bits_begin_ge_op0_nbits.select_usize' u (src_bits_begin / W) t
  let low_src_rshift := src_bits_begin % W
  let high_src_limb_index := src_bits_end_eq_0.select_usize' u (@wsub u.cfg src_bits_end 1 / W) 0
  let dst_high_lshift := (W - low_src_rshift) % W
  let high_src_mask := src_bits_end_gt_op0_nbits.select (ct_lsb_mask_l low_src_rshift) 0
  let l ← op0.load_l low_src_limb_index
  let src_low ← shrC l low_src_rshift
  let l ← op0.load_l high_src_limb_index
  let src_high := l &&& high_src_mask
  let t ← shlC src_high dst_high_lshift
  let shifted_out_high := (src_bits_end_eq_0.or src_bits_begin_ge_op0_nbits).select (t ||| src_low) 0
  let result_lshift := src_bits_begin_lt_0.select_usize' u 0 (@wsub u.cfg W distance)
  let result_lshift := src_bits_end_eq_0.select_usize' u result_lshift 0
  shlC shifted_out_high result_lshift

/-- `ct_rshift_mp`, after the distance has been capped: shift_impl.rs:349-383. -/
def ct_rshift_mp_rest' (u : UsizeCfg) (op0 : Buf f) (op0_nbits distance : ℕ) : M (Buf f) := do
  let op0_nlimbs := op0.nlimbs
  let distance_nlimbs := distance / W
  let low_src_rshift := distance % W
  let distance_is_aligned ← ct_eq_usize_usize' u low_src_rshift 0
  let dst_high_lshift := distance_is_aligned.select_usize' u (W - low_src_rshift) 0
  let high_src_mask := distance_is_aligned.select lmax 0
  let src_limb_index_offset :=
    (ct_geq_usize_usize distance_nlimbs op0_nlimbs).select_usize 0 op0_nlimbs
  let i ← M.sub distance_nlimbs src_limb_index_offset
  let last_src_high ← op0.load_l i
  let (op0, _, _) ← M.forRange 0 op0_nlimbs (op0, src_limb_index_offset, last_src_high)
    fun dst_limb_index (op0, src_limb_index_offset, last_src_high) => do
      let src_low := last_src_high
      let high_src_limb_index := dst_limb_index + distance_nlimbs + 1
      let d ← M.sub high_src_limb_index src_limb_index_offset
      let src_limb_index_offset :=
        (ct_eq_usize_usize d op0_nlimbs).select_usize
          src_limb_index_offset (src_limb_index_offset + op0_nlimbs)
      let high_src_limb_index ← M.sub high_src_limb_index src_limb_index_offset
      let src_high ← op0.load_l high_src_limb_index
      let last_src_high := src_high
      let dst_low ← shrC src_low low_src_rshift
      let dst_high ← shlC (src_high &&& high_src_mask) dst_high_lshift
      let dst_val := dst_high ||| dst_low
      let op0 ← M.cond (dst_limb_index + 1 ≠ op0_nlimbs) (op0.store_l_full dst_limb_index dst_val)
        (op0.store_l dst_limb_index (dst_val &&& op0.partial_high_mask))
      pure (op0, src_limb_index_offset, last_src_high)
  let d ← M.sub op0_nbits distance
  ct_clear_bits_above_mp op0 d

/-- `ct_rshift_mp`, shift_impl.rs:285-386. -/
def ct_rshift_mp' (u : UsizeCfg) (op0 : Buf f) (distance : ℕ) : M (Buf f × ℕ) :=
  M.cond (op0.is_empty = true) (pure (op0, 0)) do
    let op0_nbits ← M.mulU u 8 op0.len
    let shifted_out_high ← ct_rshift_mp_out' u op0 op0_nbits distance
    let c ← ct_gt_usize_usize' u distance op0_nbits
    let distance := c.select_usize' u distance op0_nbits
    let op0 ← ct_rshift_mp_rest' u op0 op0_nbits distance
    pure (op0, shifted_out_high)

/-- `ct_div_pow2_mp`, div_impl.rs:702-981.  From the lengths on, it is as in `ct_div_pow2_mp`. -/
def ct_div_pow2_mp' (u : UsizeCfg) (u_pow2_exp : ℕ) (r_out : Buf f) (v : CtMpDivisor g) (q_out : Option (Buf h)) :
    M (Except DivError (Buf f × Option (Buf h))) := do
  let t ← M.addU u u_pow2_exp 1
  let t ← M.addU u t 8
  let t ← M.subU u t 1
  let virtual_u_len := t / 8
  let virtual_u_nlimbs ← ct_mp_nlimbs' u virtual_u_len
  let v_len := v.v_len
  let v_nlimbs := ct_mp_nlimbs v_len
  M.cond (∃ q ∈ q_out, q.len + v_len < virtual_u_len)
    (pure (.error .InsufficientQuotientSpace)) <|
  M.cond (r_out.len < min v_len virtual_u_len) (pure (.error .InsufficientRemainderSpace)) do
    let r_out ← r_out.clear_bytes_above 0
    let u_high_shift := u_pow2_exp % W
    let u_high ← shlC 1 u_high_shift
    M.cond (virtual_u_len < v_len)
      (do
        let t ← M.subU u virtual_u_nlimbs 1
        let r_out ← r_out.store_l t u_high
        let q_out ← clear_q q_out 0
        pure (.ok (r_out, q_out)))
      (do
        let t ← M.addU u virtual_u_len 1
        let q_out_max_len ← M.subU u t v_len
        let q_out_max_nlimbs ← ct_mp_nlimbs' u q_out_max_len
        let q_out ← clear_q q_out q_out_max_len
        let (carry, scaled_u_head_low) ← v.scale_val u_high 0
        let (carry, scaled_u_head_high) ← v.scale_val 0 carry
        M.assert (carry = 0)
        M.assert (v_nlimbs + q_out_max_nlimbs = virtual_u_nlimbs + 1 ∨
          v_nlimbs + q_out_max_nlimbs = virtual_u_nlimbs)
        let (s0, s1) ← M.cond (v_nlimbs + q_out_max_nlimbs = virtual_u_nlimbs)
          (do
            M.assert (scaled_u_head_high = 0)
            pure (0, scaled_u_head_low))
          (pure (scaled_u_head_low, scaled_u_head_high))
        M.bindE (M.forDownE q_out_max_nlimbs (r_out, s0, s1, q_out) (pow2_step v))
          fun (r_out, s0, s1, q_out) => do
            M.assert (v_nlimbs > 1 ∨ s0 = 0)
            let u_val ← v.unscale_val s1 0
            let r_out ← r_out.store_l (v_nlimbs - 1) u_val
            let (r_out, u_h) ← M.cond (v_nlimbs ≥ 2)
              (do
                let u_val ← v.unscale_val s0 s1
                let r_out ← r_out.store_l (v_nlimbs - 2) u_val
                pure (r_out, s0))
              (pure (r_out, s1))
            let (r_out, _) ← M.forDown (v_nlimbs - 2) (r_out, u_h) fun j (r_out, u_h) => do
              let u_l ← r_out.load_l_full j
              let u_val ← v.unscale_val u_l u_h
              let r_out ← r_out.store_l_full j u_val
              pure (r_out, u_l)
            pure (.ok (r_out, q_out)))

/-- The main part of `ct_div_lshifted_mp_mp`, div_impl.rs:1183-1485.  From the shift of the dividend on, it is as in
`lshifted_main`: what is added there are limb indexes. -/
def lshifted_main' (us : UsizeCfg) (u : Buf f) (u_in_len u_lshift_len virtual_u_in_len : ℕ) (v : CtMpDivisor g)
    (q_out : Option (Buf h)) : M (Except DivError (Buf f × Option (Buf h))) := do
  let v_len := v.v_len
  let v_nlimbs := ct_mp_nlimbs v_len
  let t ← M.addU us virtual_u_in_len 1
  let q_out_max_len ← M.subU us t v_len
  let q_out_max_nlimbs ← ct_mp_nlimbs' us q_out_max_len
  let q_out ← clear_q q_out q_out_max_len
  let u_lshift_head_len := u_lshift_len % LB
  let u_lshift_tail_len ← M.subU us u_lshift_len u_lshift_head_len
  let t ← M.subU us u.len u_in_len
  let t ← M.addU us t LB
  let t ← M.subU us t u_lshift_head_len
  let t ← M.addU us t 1
  let t ← ct_mp_nlimbs' us t
  let t ← M.subU us t 1
  let t ← M.mulU us t LB
  let u_lshift_head_len ← M.addU us (min t u_lshift_tail_len) u_lshift_head_len
  M.assert (u_lshift_head_len % LB = u_lshift_len % LB)
  let u_lshift_tail_len ← M.subU us u_lshift_len u_lshift_head_len
  let d ← M.mulU us 8 u_lshift_head_len
  let (u, out) ← ct_lshift_mp' us u d
  let u_head_high_partial_len := u.len % LB
  let u_nlimbs := ct_mp_nlimbs u.len
  let k ← M.sub u_nlimbs 1
  let (s0, s1) ← M.cond (u_head_high_partial_len ≠ 0)
    (do
      let s1 ← shrC out (8 * (LB - u_head_high_partial_len))
      let s0 ← shlC out (8 * u_head_high_partial_len)
      let l ← u.load_l k
      pure (s0 ||| l, s1))
    (do
      let l ← u.load_l k
      pure (l, out))
  let (u, carry) ← M.forRange 0 k (u, 0) fun i (u, carry) => do
    let u_val ← u.load_l_full i
    let (carry, u_val) ← v.scale_val u_val carry
    let u ← u.store_l_full i u_val
    pure (u, carry)
  let (carry, s0) ← v.scale_val s0 carry
  let (carry, s1) ← v.scale_val s1 carry
  let u_lshift_tail_nlimbs := u_lshift_tail_len / LB
  let q_out_head_nlimbs ← M.sub q_out_max_nlimbs u_lshift_tail_nlimbs
  M.bindE (M.forDownE q_out_head_nlimbs (u, [s0, s1, carry], q_out)
      (lshifted_head_step v u_nlimbs u_lshift_tail_nlimbs)) fun (u, shadow, q_out) => do
    let s2 ← arrGet shadow 2
    M.assert (s2 = 0)
    let s1 ← arrGet shadow 1
    M.assert (s1 = 0)
    let s0 ← arrGet shadow 0
    let u ← M.cond (u_nlimbs > v_nlimbs)
      (do
        M.assert (s0 = 0)
        u.store_l k 0)
      (pure u)
    M.assertM (M.forRange v_nlimbs k true fun i ok => do
      let l ← u.load_l_full i
      pure (ok && decide (l = 0)))
    let u_high_shadow ← M.cond (v_nlimbs - 1 = u_nlimbs - 1) (pure s0)
      (u.load_l_full (v_nlimbs - 1))
    M.bindE (M.forDownE u_lshift_tail_nlimbs (u, u_high_shadow, q_out) (lshifted_tail_step v))
      fun (u, u_high_shadow, q_out) => do
        let u_val ← v.unscale_val u_high_shadow 0
        let u ← u.store_l (v_nlimbs - 1) u_val
        let (u, _) ← M.forDown (v_nlimbs - 1) (u, u_high_shadow) fun j (u, u_h) => do
          let u_l ← u.load_l_full j
          let u_val ← v.unscale_val u_l u_h
          let u ← u.store_l j u_val
          pure (u, u_l)
        pure (.ok (u, q_out))

/-- `ct_div_lshifted_mp_mp`, div_impl.rs:1131-1489. -/
def ct_div_lshifted_mp_mp' (u : UsizeCfg) (op : Buf f) (u_in_len u_lshift_len : ℕ) (v : CtMpDivisor g)
    (q_out : Option (Buf h)) : M (Except DivError (Buf f × Option (Buf h))) := do
  M.assert (u_in_len ≤ op.len)
  let virtual_u_in_len ← M.addU u u_in_len u_lshift_len
  let v_len := v.v_len
  M.cond (∃ q ∈ q_out, q.len + v_len < virtual_u_in_len)
    (pure (.error .InsufficientQuotientSpace)) <|
    M.cond (op.len < min v_len virtual_u_in_len) (pure (.error .InsufficientRemainderSpace)) <|
      M.cond (virtual_u_in_len < v_len)
        (do
          let d ← M.mulU u 8 u_lshift_len
          let (op, _) ← ct_lshift_mp' u op d
          let q_out ← clear_q q_out 0
          pure (.ok (op, q_out)))
        (lshifted_main' u op u_in_len u_lshift_len virtual_u_in_len v q_out)

/-- `ct_mod_lshifted_mp_mp`, div_impl.rs:1629-1652. -/
def ct_mod_lshifted_mp_mp' (u : UsizeCfg) (op : Buf f) (u_in_len u_lshift_len : ℕ) (v : CtMpDivisor g) :
    M (Except DivError (Buf f)) := do
  match ← ct_div_lshifted_mp_mp' u op u_in_len u_lshift_len v (none : Option (Buf .ne)) with
  | .ok (op, _) => pure (.ok op)
  | .error .InsufficientRemainderSpace => pure (.error .InsufficientRemainderSpace)
  | .error .InsufficientQuotientSpace => M.panic

/-- `ct_mod_pow2_mp`, div_impl.rs:1108-1127. -/
def ct_mod_pow2_mp' (u : UsizeCfg) (u_pow2_exp : ℕ) (r_out : Buf f) (v : CtMpDivisor g) :
    M (Except DivError (Buf f)) := do
  match ← ct_div_pow2_mp' u u_pow2_exp r_out v (none : Option (Buf .ne)) with
  | .ok (r_out, _) => pure (.ok r_out)
  | .error .InsufficientRemainderSpace => pure (.error .InsufficientRemainderSpace)
  | .error .InsufficientQuotientSpace => M.panic

end Cmpa
