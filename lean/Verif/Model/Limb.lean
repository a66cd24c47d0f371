import Verif.Base.M

/-!
# Model of `/repo/src/limb/mod.rs`

Limbs are natural numbers below `B`.  `black_box_l` is the identity and left out.
Of the architecture specific variants the portable one (`generic_*`) is modelled.
Functions containing `debug_assert!`s or overflow-checked operators live in `M`,
the others are plain functions.
-/

namespace Cmpa
variable [LimbCfg]

/-! ### Rust's limb operators -/

/-- `wrapping_add`, e.g. limb/mod.rs:506. -/
def wadd (a b : ℕ) : ℕ := (a + b) % B
/-- `wrapping_sub`, e.g. limb/mod.rs:587. -/
def wsub (a b : ℕ) : ℕ := (a + (B - b)) % B
/-- `wrapping_mul`, e.g. limb/mod.rs:1456. -/
def wmul (a b : ℕ) : ℕ := (a * b) % B
/-- `wrapping_neg`, e.g. limb/mod.rs:264. -/
def wneg (a : ℕ) : ℕ := (B - a) % B
/-- `!a`, e.g. limb/mod.rs:1655. -/
def bnot (a : ℕ) : ℕ := B - 1 - a
/-- `a << s`, for `s < LIMB_BITS`, e.g. limb/mod.rs:979. -/
def shl (a s : ℕ) : ℕ := (a <<< s) % B
/-- `a >> s`, for `s < LIMB_BITS`, e.g. limb/mod.rs:264. -/
def shr (a s : ℕ) : ℕ := a >>> s
/-- `!0`, e.g. limb/mod.rs:974. -/
def lmax : ℕ := B - 1

/-- `v << s`, e.g. limb/mod.rs:972; in a debug build a shift by the limb width or more panics, in a release build the
distance is taken modulo the width. -/
def shlC (a s : ℕ) : M ℕ := do
  M.assert (s < W)
  pure (shl a (s % W))

/-- `v >> s`, e.g. limb/mod.rs:1236; in a debug build a shift by the limb width or more panics, in a release build the
distance is taken modulo the width. -/
def shrC (a s : ℕ) : M ℕ := do
  M.assert (s < W)
  pure (shr a (s % W))

/-! ### `LimbChoice` -/

/-- `LimbChoice`, limb/mod.rs:127-130. -/
structure LimbChoice where
  mask : ℕ
  deriving DecidableEq, Repr

namespace LimbChoice

/-- `LimbChoice::new`/`From<LimbType>`, limb/mod.rs:138-143, without the
`debug_assert!` on the argument; for places where the argument is a 0/1 value by
construction. -/
def new (cond : ℕ) : LimbChoice := ⟨wsub 0 cond⟩

/-- `LimbChoice::from`, limb/mod.rs:138-143 and 189-193, with the `debug_assert!`. -/
def from' (cond : ℕ) : M LimbChoice := do
  M.assert (cond = 0 ∨ cond = 1)
  pure (new cond)

/-- `LimbChoice::unwrap`, limb/mod.rs:149-151. -/
def unwrap (c : LimbChoice) : ℕ := c.mask &&& 1

/-- `LimbChoice::select`, limb/mod.rs:165-167. -/
def select (c : LimbChoice) (v0 v1 : ℕ) : ℕ := v0 ^^^ (c.mask &&& (v0 ^^^ v1))

/-- `LimbChoice::select_usize`, limb/mod.rs:181-185.  The model's `usize` is
unbounded, so instead of masking with `0` or `!0` the two cases are written out. -/
def select_usize (c : LimbChoice) (v0 v1 : ℕ) : ℕ := if c.unwrap = 0 then v0 else v1

/-- `ops::Not`, limb/mod.rs:199-205. -/
def not (c : LimbChoice) : LimbChoice := ⟨bnot c.mask⟩
/-- `ops::BitAnd`, limb/mod.rs:208-216. -/
def and (c d : LimbChoice) : LimbChoice := ⟨c.mask &&& d.mask⟩
/-- `ops::BitOr`, limb/mod.rs:227-235. -/
def or (c d : LimbChoice) : LimbChoice := ⟨c.mask ||| d.mask⟩

end LimbChoice

/-! ### Comparisons -/

/-- `generic_ct_is_nonzero_l`, limb/mod.rs:261-265. -/
def ct_is_nonzero_l (v : ℕ) : ℕ := shr (v ||| wneg v) (W - 1)

/-- `generic_ct_is_zero_l`, limb/mod.rs:296-298. -/
def ct_is_zero_l (v : ℕ) : ℕ := 1 ^^^ ct_is_nonzero_l v

/-- `ct_eq_l_l`, limb/mod.rs:334-336. -/
def ct_eq_l_l (v0 v1 : ℕ) : LimbChoice := .new (ct_is_zero_l (v0 ^^^ v1))

/-- `ct_neq_l_l`, limb/mod.rs:349-351. -/
def ct_neq_l_l (v0 v1 : ℕ) : LimbChoice := (ct_eq_l_l v0 v1).not

/-- `generic_ct_add_l_l`, limb/mod.rs:501-509: (carry, sum). -/
def ct_add_l_l (v0 v1 : ℕ) : ℕ × ℕ :=
  let r := wadd v0 v1
  let carry := shr (((v0 ||| v1) &&& bnot r) ||| (v0 &&& v1)) (W - 1)
  (carry, r)

/-- `generic_ct_sub_l_l`, limb/mod.rs:582-590: (borrow, difference). -/
def ct_sub_l_l (v0 v1 : ℕ) : ℕ × ℕ :=
  let r := wsub v0 v1
  let borrow := shr (((r ||| v1) &&& bnot v0) ||| (v1 &&& r)) (W - 1)
  (borrow, r)

/-- `ct_lt_or_eq_l_l`, limb/mod.rs:374-378. -/
def ct_lt_or_eq_l_l (v0 v1 : ℕ) : M (ℕ × ℕ) := do
  let (borrow, diff) := ct_sub_l_l v0 v1
  M.assert (diff ≠ 0 ∨ borrow = 0)
  pure (borrow, ct_is_zero_l diff)

/-- `ct_lt_l_l`, limb/mod.rs:391-394. -/
def ct_lt_l_l (v0 v1 : ℕ) : LimbChoice := .new (ct_sub_l_l v0 v1).1
/-- `ct_leq_l_l`, limb/mod.rs:407-409. -/
def ct_leq_l_l (v0 v1 : ℕ) : LimbChoice := (ct_lt_l_l v1 v0).not
/-- `ct_gt_l_l`, limb/mod.rs:422-424. -/
def ct_gt_l_l (v0 v1 : ℕ) : LimbChoice := ct_lt_l_l v1 v0
/-- `ct_geq_l_l`, limb/mod.rs:437-439. -/
def ct_geq_l_l (v0 v1 : ℕ) : LimbChoice := ct_leq_l_l v1 v0

/-- `ct_lsb_mask_l`, limb/mod.rs:453-468, for arguments `≤ LIMB_BITS` (the
`debug_assert!` at 454 is on the callers). -/
def ct_lsb_mask_l (nbits : ℕ) : ℕ :=
  let nbits_lo := nbits % W
  let nbits_hi := nbits / W
  let mask_for_lo := shl 1 nbits_lo - 1
  let mask_for_hi := wsub 0 nbits_hi
  mask_for_lo ||| mask_for_hi

/-- `HALF_LIMB_MASK`, limb/mod.rs:49. -/
def HALF_LIMB_MASK : ℕ := ct_lsb_mask_l HW

/-- `ct_l_to_hls`, limb/mod.rs:488-493: (high half, low half). -/
def ct_l_to_hls (v : ℕ) : ℕ × ℕ := (shr v HW, v &&& HALF_LIMB_MASK)

/-! ### Arithmetic with carries -/

/-- `ct_add_l_l_c`, limb/mod.rs:567-574. -/
def ct_add_l_l_c (v0 v1 carry : ℕ) : M (ℕ × ℕ) := do
  M.assert (carry ≤ 1)
  let (carry0, r) := ct_add_l_l v0 carry
  let (carry1, r) := ct_add_l_l r v1
  let carry ← M.addL carry0 carry1
  M.assert (carry ≤ 1)
  pure (carry, r)

/-- `ct_sub_l_l_b`, limb/mod.rs:650-657. -/
def ct_sub_l_l_b (v0 v1 borrow : ℕ) : M (ℕ × ℕ) := do
  M.assert (borrow ≤ 1)
  let (borrow0, r) := ct_sub_l_l v0 borrow
  let (borrow1, r) := ct_sub_l_l r v1
  let borrow ← M.addL borrow0 borrow1
  M.assert (borrow ≤ 1)
  pure (borrow, r)

/-- `DoubleLimb`, limb/mod.rs:665-694. -/
structure DoubleLimb where
  high : ℕ
  low : ℕ
  deriving DecidableEq, Repr

/-- `generic_ct_mul_l_l`, limb/mod.rs:702-730. -/
def ct_mul_l_l (v0 v1 : ℕ) : M DoubleLimb := do
  let (v0h, v0l) := ct_l_to_hls v0
  let (v1h, v1l) := ct_l_to_hls v1
  let prod_v0l_v1l ← M.mulL v0l v1l
  let prod_v0l_v1h ← M.mulL v0l v1h
  let prod_v0h_v1l ← M.mulL v0h v1l
  let prod_v0h_v1h ← M.mulL v0h v1h
  let result_low := prod_v0l_v1l
  let result_high := prod_v0h_v1h
  let (prod_v0l_v1h_h, prod_v0l_v1h_l) := ct_l_to_hls prod_v0l_v1h
  let (prod_v0h_v1l_h, prod_v0h_v1l_l) := ct_l_to_hls prod_v0h_v1l
  let (result_low_carry, result_low) := ct_add_l_l result_low (shl prod_v0l_v1h_l HW)
  let result_high ← M.addL result_high result_low_carry
  let result_high ← M.addL result_high prod_v0l_v1h_h
  let (result_low_carry, result_low) := ct_add_l_l result_low (shl prod_v0h_v1l_l HW)
  let result_high ← M.addL result_high result_low_carry
  let result_high ← M.addL result_high prod_v0h_v1l_h
  pure ⟨result_high, result_low⟩

/-- `ct_mul_add_l_l_l_c`, limb/mod.rs:807-826: `op0 + op10 * op11 + carry` as
(carry, low limb). -/
def ct_mul_add_l_l_l_c (op0 op10 op11 carry : ℕ) : M (ℕ × ℕ) := do
  let prod ← ct_mul_l_l op10 op11
  M.assert (prod.high < bnot 1 ∨ prod.high = bnot 1 ∧ prod.low = 1)
  let (carry0, result) := ct_add_l_l op0 carry
  let (carry1, result) := ct_add_l_l result prod.low
  M.assert (prod.high < bnot 1 ∨ carry0 + carry1 ≤ 1)
  let c ← M.addL prod.high carry0
  let c ← M.addL c carry1
  pure (c, result)

/-- `ct_mul_sub_l_l_l_b`, limb/mod.rs:853-872: `op0 - op10 * op11 - borrow` as
(borrow, low limb). -/
def ct_mul_sub_l_l_l_b (op0 op10 op11 borrow : ℕ) : M (ℕ × ℕ) := do
  let prod ← ct_mul_l_l op10 op11
  M.assert (prod.high < bnot 1 ∨ prod.high = bnot 1 ∧ prod.low = 1)
  let (borrow0, result) := ct_sub_l_l op0 borrow
  let (borrow1, result) := ct_sub_l_l result prod.low
  M.assert (prod.high < bnot 1 ∨ borrow0 + borrow1 ≤ 1)
  let b ← M.addL prod.high borrow0
  let b ← M.addL b borrow1
  pure (b, result)

/-! ### Bit scanning, inverse, shift -/

/-- The loop of `ct_inv_mod_l`, limb/mod.rs:1455-1458 (`fuel` bounds the number of
rounds; `LIMB_BITS` is enough). -/
def ct_inv_mod_l_loop (v : ℕ) : (fuel k r : ℕ) → ℕ
  | 0, _, r => r
  | fuel + 1, k, r =>
    if k < W then
      ct_inv_mod_l_loop v fuel (k * 2) (wsub (shl r 1) (wmul (wmul v r) r))
    else r

/-- `ct_inv_mod_l`, limb/mod.rs:1447-1461. -/
def ct_inv_mod_l (v : ℕ) : M ℕ := do
  M.assert (v &&& 1 = 1)
  pure (ct_inv_mod_l_loop v W 1 1)

/-- The loop of `ct_find_last_set_bit_l`, limb/mod.rs:1499-1507: state
(bits, lsb_mask, v, count); result (v, count). -/
def ct_find_last_set_bit_l_loop : (fuel bits lsb_mask v count : ℕ) → ℕ × ℕ
  | 0, _, _, v, count => (v, count)
  | fuel + 1, bits, lsb_mask, v, count =>
    if bits > 1 then
      let bits := bits / 2
      let lsb_mask := shr lsb_mask bits
      let v_l := v &&& lsb_mask
      let v_h := shr v bits
      let upper := ct_neq_l_l v_h 0
      ct_find_last_set_bit_l_loop fuel bits lsb_mask (upper.select v_l v_h)
        (count + upper.select 0 bits)
    else (v, count)

/-- `ct_find_last_set_bit_l`, limb/mod.rs:1493-1511. -/
def ct_find_last_set_bit_l (v : ℕ) : M ℕ := do
  let (v, count) := ct_find_last_set_bit_l_loop W W lmax v 0
  M.assert (v ≤ 1)
  pure (count + v)

/-- `ct_find_last_set_byte_l`, limb/mod.rs:1536-1538. -/
def ct_find_last_set_byte_l (v : ℕ) : M ℕ := do
  let n ← ct_find_last_set_bit_l v
  pure ((n + 8 - 1) / 8)

/-- The loop of `ct_find_first_set_bit_l`, limb/mod.rs:1560-1568. -/
def ct_find_first_set_bit_l_loop : (fuel bits lsb_mask v count : ℕ) → M (ℕ × ℕ)
  | 0, _, _, v, count => pure (v, count)
  | fuel + 1, bits, lsb_mask, v, count =>
    if bits > 1 then do
      let bits := bits / 2
      let lsb_mask := shr lsb_mask bits
      let v_l := v &&& lsb_mask
      let v_h := shr v bits
      let lower := ct_neq_l_l v_l 0
      let count ← M.sub count (lower.select 0 bits)
      ct_find_first_set_bit_l_loop fuel bits lsb_mask (lower.select v_h v_l) count
    else pure (v, count)

/-- `ct_find_first_set_bit_l`, limb/mod.rs:1554-1572. -/
def ct_find_first_set_bit_l (v : ℕ) : M ℕ := do
  let (v, count) ← ct_find_first_set_bit_l_loop W W lmax v W
  M.assert (v ≤ 1)
  M.sub count v

/-- `ct_arithmetic_rshift_l`, limb/mod.rs:1599-1606. -/
def ct_arithmetic_rshift_l (v rshift : ℕ) : M ℕ := do
  let rshift_nz_mask := (LimbChoice.new (ct_is_nonzero_l rshift)).select 0 lmax
  let sign_extend := wsub 0 (shr v (W - 1))
  let d ← M.sub W rshift
  let sign_extend := shl sign_extend (d &&& rshift_nz_mask)
  let sign_extend := sign_extend &&& rshift_nz_mask
  let rshift_lt_max_mask := (ct_eq_l_l rshift W).select lmax 0
  pure (sign_extend ||| (shr v (rshift &&& rshift_lt_max_mask) &&& rshift_lt_max_mask))

/-- `ct_negate_l`, limb/mod.rs:1654-1656. -/
def ct_negate_l (v : ℕ) : ℕ := wadd (bnot v) 1

/-! ### Division of a double limb by a limb -/

/-- `CtLDivisor`, limb/mod.rs:911-922. -/
structure CtLDivisor where
  m : ℕ
  v : ℕ
  v_width : ℕ
  deriving DecidableEq, Repr

/-- State of the loop in `ct_compute_m`, limb/mod.rs:973-976. -/
structure CtComputeM where
  r_msb : LimbChoice
  r_h : ℕ
  r_l : ℕ
  q : ℕ

/-- One iteration of the loop in `CtLDivisor::ct_compute_m`, limb/mod.rs:977-984. -/
def ct_compute_m_step (v : ℕ) (s : CtComputeM) : CtComputeM :=
  let q_new_lsb := s.r_msb.or (ct_geq_l_l s.r_h v)
  let q := shl s.q 1 ||| q_new_lsb.unwrap
  let r_h := wsub s.r_h (q_new_lsb.select 0 v)
  let r_msb := LimbChoice.new (shr r_h (W - 1))
  { r_msb := r_msb
    r_h := shl r_h 1 ||| shr s.r_l (W - 1)
    r_l := shl s.r_l 1
    q := q }

/-- `CtLDivisor::ct_compute_m`, limb/mod.rs:965-986. -/
def ct_compute_m (v v_width : ℕ) : M ℕ := do
  M.assert (v_width > 0)
  let v := shl v (W - v_width)
  let s : CtComputeM :=
    ⟨.new 0, lmax, bnot (ct_lsb_mask_l (W - v_width)), 0⟩
  pure ((ct_compute_m_step v)^[W + 1] s).q

/-- `CtLDivisor::new`, limb/mod.rs:943-951; `none` is `DivisorIsZero`. -/
def CtLDivisor.new (v : ℕ) : M (Option CtLDivisor) := do
  if ← M.branch (ct_is_zero_l v ≠ 0) then
    pure none
  else
    M.assert (v ≠ 0)
    let v_width ← ct_find_last_set_bit_l v
    let m ← ct_compute_m v v_width
    pure (some ⟨m, v, v_width⟩)

/-- `<CtLDivisor as LDivisorPrivate>::do_div`, limb/mod.rs:1057-1121:
(quotient, remainder). -/
def CtLDivisor.do_div (d : CtLDivisor) (u : DoubleLimb) : M (ℕ × ℕ) := do
  let l := d.v_width
  M.assert (l > 0 ∧ l ≤ W)
  let u2 := shr (shr u.low (l - 1)) 1
  let u2 := u2 ||| shl u.high (W - l)
  let u10 := shl u.low (W - l)
  let u1 := shr u10 (W - 1)
  let v_norm := shl d.v (W - l)
  M.assert (shr v_norm (W - 1) = 1)
  let u1c ← LimbChoice.from' u1
  let n_adj := wadd u10 (u1c.select 0 v_norm)
  M.assert (u2 < lmax ∨ u1 = 0)
  let u21 ← M.addL u2 u1
  let p ← ct_mul_l_l d.m u21
  let (carry, _) := ct_add_l_l p.low n_adj
  let (carry, q1) ← ct_add_l_l_c u2 p.high carry
  M.assert (carry = 0)
  let neg_q_plus_one := ct_negate_l (wadd q1 1)
  let p ← ct_mul_l_l neg_q_plus_one d.v
  let (carry, r_l) := ct_add_l_l u.low p.low
  let (carry, r_h) ← ct_add_l_l_c u.high p.high carry
  let (borrow, r_h) := ct_sub_l_l r_h d.v
  M.assert (carry = 0 ∨ borrow ≠ 0)
  let borrow := borrow ^^^ carry
  let is_negative ← LimbChoice.from' borrow
  let q ← M.addL q1 (is_negative.not.select 0 1)
  let (carry, r_l) := ct_add_l_l r_l (is_negative.select 0 d.v)
  M.assert (wadd r_h carry = 0)
  M.assert (r_l < d.v)
  pure (q, r_l)

/-- `GenericNonCtLDivisor`, limb/mod.rs:1186-1191. -/
structure NonCtLDivisor where
  v : ℕ
  scaling_shift : ℕ
  scaling_low_src_rshift : ℕ
  scaling_low_src_mask : ℕ
  deriving DecidableEq, Repr

/-- `LimbType::leading_zeros`, as called in limb/mod.rs:1210. -/
def leading_zeros (v : ℕ) : ℕ := if v = 0 then W else W - 1 - Nat.log2 v

/-- `GenericNonCtLDivisor::new`, limb/mod.rs:1204-1219; `none` is `DivisorIsZero`. -/
def NonCtLDivisor.new (v : ℕ) : M (Option NonCtLDivisor) := do
  if ← M.branch (v = 0) then
    pure none
  else
    let scaling_shift := leading_zeros v
    let scaling_low_src_rshift := (W - scaling_shift) % W
    let scaling_low_src_mask := ct_lsb_mask_l scaling_shift
    pure (some ⟨v, scaling_shift, scaling_low_src_rshift, scaling_low_src_mask⟩)

/-- State of the loop in `GenericNonCtLDivisor::do_div`, limb/mod.rs:1235-1240. -/
structure NonCtDiv where
  u_h : ℕ
  u_l : ℕ
  q : ℕ
  deriving DecidableEq, Repr

/-- One iteration of the loop in `GenericNonCtLDivisor::do_div`,
limb/mod.rs:1241-1299.  The division panics if the divisor is zero, in release builds too. -/
def NonCtLDivisor.do_div_step (v : ℕ) (s : NonCtDiv) : M NonCtDiv := do
  let v_hl_h := shr v HW
  let v_hl_l := v &&& HALF_LIMB_MASK
  M.check (v_hl_h ≠ 0)
  let q := s.u_h / v_hl_h
  let q := min q HALF_LIMB_MASK
  let qv ← M.mulL q v_hl_h
  let r ← M.sub s.u_h qv
  let qvl ← M.mulL q v_hl_l
  let cur_q_hl ←
    M.cond (¬ shr r HW ≠ 0 ∧ qvl > (shl r HW ||| shr s.u_l HW)) (M.sub q 1) (pure q)
  let u2 := shr s.u_h HW
  let u1 := shl s.u_h HW ||| shr s.u_l HW
  let u0 := shl s.u_l HW
  let (borrow, u1) ← ct_mul_sub_l_l_l_b u1 cur_q_hl v 0
  let (borrow, u2) := ct_sub_l_l u2 borrow
  let (cur_q_hl, u1, u2) ←
    M.cond (borrow ≠ 0)
      (do
        let cur_q_hl ← M.sub cur_q_hl 1
        let (carry, u1) := ct_add_l_l u1 v
        let (_, u2) := ct_add_l_l u2 carry
        pure (cur_q_hl, u1, u2))
      (pure (cur_q_hl, u1, u2))
  M.assert (u2 = 0)
  pure ⟨u1, u0, shl s.q HW ||| cur_q_hl⟩

/-- `<GenericNonCtLDivisor as LDivisorPrivate>::do_div`, limb/mod.rs:1224-1304. -/
def NonCtLDivisor.do_div (d : NonCtLDivisor) (u : DoubleLimb) : M (ℕ × ℕ) := do
  let v := shl d.v d.scaling_shift
  let u_h := shl u.high d.scaling_shift |||
    (shr u.low d.scaling_low_src_rshift &&& d.scaling_low_src_mask)
  M.assert (shr u_h d.scaling_shift = u.high)
  let u_l := shl u.low d.scaling_shift
  let s ← NonCtLDivisor.do_div_step v ⟨u_h, u_l, 0⟩
  let s ← NonCtLDivisor.do_div_step v s
  M.assert (s.u_l = 0)
  pure (s.q, shr s.u_h d.scaling_shift)

/-- `CtLDivisor::nonct_compute_m`, limb/mod.rs:1019-1024. -/
def nonct_compute_m (v v_width : ℕ) : M ℕ := do
  let d ← NonCtLDivisor.new v
  let d ← M.ofOption d
  let h ← M.sub (ct_lsb_mask_l v_width) v
  let (q, _) ← d.do_div ⟨h, lmax⟩
  pure q

/-- `CtLDivisor::nonct_new`, limb/mod.rs:998-1005; `none` is `DivisorIsZero`. -/
def CtLDivisor.nonct_new (v : ℕ) : M (Option CtLDivisor) := do
  if ← M.branch (v = 0) then
    pure none
  else
    let v_width ← ct_find_last_set_bit_l v
    let m ← nonct_compute_m v v_width
    pure (some ⟨m, v, v_width⟩)

end Cmpa
