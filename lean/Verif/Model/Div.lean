import Verif.Base.LoopE
import Verif.Model.Composite
import Verif.Model.Shift

/-!
# Model of div_impl.rs
-/

namespace Cmpa
variable [LimbCfg] {f g h : Fmt}

/-- `CtMpDivisor`, div_impl.rs:22-32. -/
structure CtMpDivisor (f : Fmt) where
  v : Buf f
  v_decrement : Option ℕ
  v_len : ℕ
  scaling_shift : ℕ
  scaling_low_src_rshift : ℕ
  scaling_low_src_mask : ℕ
  scaled_v_head_divisor : CtLDivisor
  scaled_v_head : ℕ
  scaled_v_tail_head : ℕ

/-- `CtDivMpMpError`, `CtDivPow2MpError`, `CtModPow2MpError`, `CtDivLshiftedMpMpError`,
`CtModLshiftedMpMpError` and `CtDivMpLError`, div_impl.rs:283-286, 696-700, 1103-1106, 1129, 1627
and 1654. -/
inductive DivError where
  | InsufficientQuotientSpace
  | InsufficientRemainderSpace
  deriving DecidableEq, Repr

namespace CtMpDivisor

/-- `CtMpDivisor::_scale_val`, div_impl.rs:202-218: (carry, scaled value). -/
def _scale_val (val scaling_shift scaling_low_src_rshift scaling_low_src_mask carry : ℕ) :
    M (ℕ × ℕ) := do
  let one ← shlC 1 scaling_shift
  M.assert (carry ≤ one)
  let val_shifted ← shlC val scaling_shift
  let (carry, scaled_val) := ct_add_l_l val_shifted carry
  M.assert (carry = 0 ∨ scaled_val = 0)
  let val_high ← shrC val scaling_low_src_rshift
  let carry ← M.addL (val_high &&& scaling_low_src_mask) carry
  M.assert (carry ≤ one)
  pure (carry, scaled_val)

/-- The computation of `v_len` and `v_head` in `CtMpDivisor::new`, div_impl.rs:49-70; `none`
stands for the early return of an error at line 63. -/
def find_head (v : Buf f) : Option ℕ → M (Option (ℕ × ℕ))
  | some v_decrement => do
    let (v_decrement_borrow, v_len, v_head) ← M.forRange 0 v.nlimbs (v_decrement, 0, 0)
      fun i (v_decrement_borrow, v_len, v_head) => do
        let l ← v.load_l i
        let (v_decrement_borrow, v_val) := ct_sub_l_l l v_decrement_borrow
        let v_val_is_zero := ct_eq_l_l v_val 0
        let n ← ct_find_last_set_byte_l v_val
        pure (v_decrement_borrow, v_val_is_zero.select_usize (i * LB + n) v_len,
          v_val_is_zero.select v_val v_head)
    M.cond (v_decrement_borrow ≠ 0) (pure none) (pure (some (v_len, v_head)))
  | none => do
    let v_len ← find_last_set_byte_mp v
    let i ← M.sub (ct_mp_nlimbs v_len) 1
    let v_head ← v.load_l i
    pure (some (v_len, v_head))

/-- The borrow into limb `v_nlimbs - min(3, v_nlimbs)`, div_impl.rs:91-99. -/
def head_borrow (v : Buf f) (v_nlimbs : ℕ) : Option ℕ → M ℕ
  | some v_decrement =>
    M.forRange 0 (v_nlimbs - min 3 v_nlimbs) v_decrement fun i v_decrement_borrow => do
      let l ← v.load_l_full i
      pure (ct_sub_l_l l v_decrement_borrow).1
  | none => pure 0

/-- The second part of `CtMpDivisor::new`, div_impl.rs:74-130. -/
def new_scaled (v : Buf f) (v_decrement : Option ℕ) (v_len v_head : ℕ) : M (CtMpDivisor f) := do
  let v_nlimbs := ct_mp_nlimbs v_len
  let v_head_width ← ct_find_last_set_bit_l v_head
  M.assert (v_head_width ≠ 0)
  let scaling_shift ← M.sub W v_head_width
  let scaling_low_src_rshift := (W - scaling_shift) % W
  let scaling_low_src_mask := ct_lsb_mask_l scaling_shift
  let v_decrement_borrow ← head_borrow v v_nlimbs v_decrement
  let (_, scaled_v_carry, scaled_v_tail_head, scaled_v_head) ←
    M.forRange (v_nlimbs - min 3 v_nlimbs) v_nlimbs (v_decrement_borrow, 0, 0, 0)
      fun i (v_decrement_borrow, scaled_v_carry, _, scaled_v_head) => do
        let scaled_v_tail_head := scaled_v_head
        let l ← v.load_l i
        let (v_decrement_borrow, v_val) := ct_sub_l_l l v_decrement_borrow
        let (scaled_v_carry, scaled_v_head) ← _scale_val v_val scaling_shift
          scaling_low_src_rshift scaling_low_src_mask scaled_v_carry
        pure (v_decrement_borrow, scaled_v_carry, scaled_v_tail_head, scaled_v_head)
  M.assert (scaled_v_carry = 0)
  let d ← CtLDivisor.new scaled_v_head
  let scaled_v_head_divisor ← M.ofOption d
  pure ⟨v, v_decrement, v_len, scaling_shift, scaling_low_src_rshift, scaling_low_src_mask,
    scaled_v_head_divisor, scaled_v_head, scaled_v_tail_head⟩

/-- `CtMpDivisor::new`, div_impl.rs:40-131; `none` is the error `DivisorIsZero`.
`ct_is_zero_usize(v_len) != 0` is written `v_len = 0`. -/
def new (v : Buf f) (v_decrement : Option ℕ) : M (Option (CtMpDivisor f)) :=
  M.cond (v.is_empty = true) (pure none) do
    match ← find_head v v_decrement with
    | none => pure none
    | some (v_len, v_head) =>
      M.cond (v_len = 0) (pure none) do
        let d ← new_scaled v v_decrement v_len v_head
        pure (some d)

/-- `CtMpDivisor::make_q_estimate`, div_impl.rs:133-199, for the head limbs `u0`, `u1`, `u2`, the
first one being the most significant. -/
def make_q_estimate (d : CtMpDivisor f) (u0 u1 u2 : ℕ) : M ℕ := do
  let (q_high_is_zero, u_high) := ct_sub_l_l u0 d.scaled_v_head
  let q_high_is_zero ← LimbChoice.from' q_high_is_zero
  let u_high := q_high_is_zero.select u_high u0
  M.assert (u_high < d.scaled_v_head)
  let (q_low, r) ← d.scaled_v_head_divisor.do_div ⟨u_high, u1⟩
  M.assert (q_high_is_zero.unwrap ≠ 0 ∨ u0 = d.scaled_v_head)
  let ov := q_high_is_zero.not
  let q := ov.select q_low lmax
  let (r_carry_on_ov, r_on_ov) := ct_add_l_l u1 d.scaled_v_head
  let r := ov.select r r_on_ov
  M.assert ((r_carry_on_ov &&& bnot 1) = 0)
  let c ← LimbChoice.from' r_carry_on_ov
  let r_carry := ov.and c
  let qv_head_low ← ct_mul_l_l d.scaled_v_tail_head q
  let over_estimated := r_carry.not.and
    ((ct_gt_l_l qv_head_low.high r).or
      ((ct_eq_l_l qv_head_low.high r).and (ct_gt_l_l qv_head_low.low u2)))
  M.sub q (over_estimated.select 0 1)

/-- `CtMpDivisor::scale_val`, div_impl.rs:220-228: (carry, scaled value). -/
def scale_val (d : CtMpDivisor f) (val carry : ℕ) : M (ℕ × ℕ) :=
  _scale_val val d.scaling_shift d.scaling_low_src_rshift d.scaling_low_src_mask carry

/-- `CtMpDivisor::scaled_v_val`, div_impl.rs:230-239: (decrement borrow, carry, scaled value). -/
def scaled_v_val (d : CtMpDivisor f) (i v_decrement_borrow carry : ℕ) : M (ℕ × ℕ × ℕ) := do
  let l ← d.v.load_l i
  let (v_decrement_borrow, v_val) := ct_sub_l_l l v_decrement_borrow
  let (carry, scaled_v_val) ← d.scale_val v_val carry
  pure (v_decrement_borrow, carry, scaled_v_val)

/-- `CtMpDivisor::unscale_val`, div_impl.rs:241-248. -/
def unscale_val (d : CtMpDivisor f) (val last_higher_val : ℕ) : M ℕ := do
  let val_low ← shrC val d.scaling_shift
  let val_high ← shlC (last_higher_val &&& d.scaling_low_src_mask) d.scaling_low_src_rshift
  pure (val_high ||| val_low)

/-- `CtMpDivisor::add_scaled_v_val_cond`, div_impl.rs:250-265: (decrement borrow, carry,
result). -/
def add_scaled_v_val_cond (d : CtMpDivisor f) (op0 i v_decrement_borrow carry : ℕ)
    (cond : LimbChoice) : M (ℕ × ℕ × ℕ) := do
  let (v_decrement_borrow, carry0, scaled_v_val) ← d.scaled_v_val i v_decrement_borrow carry
  let carry0 := cond.select 0 carry0
  let scaled_v_val := cond.select 0 scaled_v_val
  let (carry1, result) := ct_add_l_l op0 scaled_v_val
  let carry ← M.addL carry0 carry1
  pure (v_decrement_borrow, carry, result)

/-- `CtMpDivisor::sub_scaled_qv_val`, div_impl.rs:267-280: (decrement borrow, carry, borrow,
result). -/
def sub_scaled_qv_val (d : CtMpDivisor f) (op0 i q v_decrement_borrow scaled_v_carry borrow : ℕ) :
    M (ℕ × ℕ × ℕ × ℕ) := do
  let (v_decrement_borrow, scaled_v_carry, scaled_v_val) ←
    d.scaled_v_val i v_decrement_borrow scaled_v_carry
  let (borrow, result) ← ct_mul_sub_l_l_l_b op0 q scaled_v_val borrow
  pure (v_decrement_borrow, scaled_v_carry, borrow, result)

/-- `v.v_decrement.unwrap_or(0)`, e.g. div_impl.rs:403. -/
def decrement (d : CtMpDivisor f) : ℕ := d.v_decrement.getD 0

end CtMpDivisor

/-- Storing a quotient limb, div_impl.rs:420-428, 917-925, 1320-1328 and 1436-1444. -/
def store_q (q_out : Option (Buf h)) (j q : ℕ) (over_estimated : LimbChoice) :
    M (Except DivError (Option (Buf h))) :=
  match q_out with
  | none => pure (.ok none)
  | some q_out => do
    let q ← M.sub q (over_estimated.select 0 1)
    M.cond (j ≠ q_out.nlimbs)
      (do
        M.assert (j < q_out.nlimbs)
        let q_out ← q_out.store_l j q
        pure (.ok (some q_out)))
      (M.cond (q ≠ 0) (pure (.error .InsufficientQuotientSpace)) (pure (.ok (some q_out))))

/-- `if let Some(q_out) = &mut q_out { q_out.clear_bytes_above(n) }`, e.g. div_impl.rs:331-333. -/
def clear_q (q_out : Option (Buf h)) (n : ℕ) : M (Option (Buf h)) :=
  match q_out with
  | none => pure none
  | some q_out => do
    let q_out ← q_out.clear_bytes_above n
    pure (some q_out)

/-- A zero-filled buffer of `len` bytes, rounded up to the format's granularity; the padding of
`ct_div_mp_mp`, div_impl.rs:338-368. -/
def Buf.zeros (f : Fmt) (len : ℕ) : Buf f :=
  match f with
  | .be => .be (List.replicate (Buf.n_backing_elements_for_len .be len) 0)
  | .le => .le (List.replicate (Buf.n_backing_elements_for_len .le len) 0)
  | .ne => .ne (List.replicate (Buf.n_backing_elements_for_len .ne len) ⟨0, B_pos⟩)

/-- The body of the main loop of `ct_div_mp_mp`, div_impl.rs:386-439. -/
def div_step (v : CtMpDivisor g) (j : ℕ) : Composite f × Option (Buf h) →
    M (Except DivError (Composite f × Option (Buf h))) := fun (u_parts, q_out) => do
  let v_nlimbs := ct_mp_nlimbs v.v_len
  let u_h ← u_parts.load (v_nlimbs + j)
  let i ← M.sub (v_nlimbs + j) 1
  let u_l ← u_parts.load i
  let u_tail_high ← M.cond (v_nlimbs + j ≥ 2) (u_parts.load (v_nlimbs + j - 2)) (pure 0)
  let q ← v.make_q_estimate u_h u_l u_tail_high
  let (u_parts, _, scaled_v_carry, borrow) ←
    M.forRange 0 v_nlimbs (u_parts, v.decrement, 0, 0)
      fun i (u_parts, v_decrement_borrow, scaled_v_carry, borrow) => do
        let u_val ← u_parts.load (j + i)
        let (v_decrement_borrow, scaled_v_carry, borrow, u_val) ←
          v.sub_scaled_qv_val u_val i q v_decrement_borrow scaled_v_carry borrow
        let u_parts ← u_parts.store (j + i) u_val
        pure (u_parts, v_decrement_borrow, scaled_v_carry, borrow)
  M.assert (scaled_v_carry = 0)
  let u_val ← u_parts.load (j + v_nlimbs)
  let (borrow, u_val) := ct_sub_l_l u_val borrow
  let u_parts ← u_parts.store (j + v_nlimbs) u_val
  let over_estimated ← LimbChoice.from' borrow
  M.bindE (store_q q_out j q over_estimated) fun q_out => do
    let (u_parts, _, carry) ← M.forRange 0 v_nlimbs (u_parts, v.decrement, 0)
      fun i (u_parts, v_decrement_borrow, carry) => do
        let u_val ← u_parts.load (j + i)
        let (v_decrement_borrow, carry, u_val) ←
          v.add_scaled_v_val_cond u_val i v_decrement_borrow carry over_estimated
        let u_parts ← u_parts.store (j + i) u_val
        pure (u_parts, v_decrement_borrow, carry)
    let u_val ← u_parts.load (j + v_nlimbs)
    let (_, u_val) := ct_add_l_l u_val carry
    let u_parts ← u_parts.store (j + v_nlimbs) u_val
    pure (.ok (u_parts, q_out))

/-- `ct_div_mp_mp`, div_impl.rs:288-457.  The result is the remainder in `u_h` and `u_l`, and the
quotient; after an error the contents of the buffers are unspecified and not part of the
result. -/
def ct_div_mp_mp (u_h : Option (Buf f)) (u_l : Buf f) (v : CtMpDivisor g) (q_out : Option (Buf h)) :
    M (Except DivError (Option (Buf f) × Buf f × Option (Buf h))) :=
  let u_h' := u_h.getD (Buf.zeros f 0)
  let u_len := u_l.len + u_h'.len
  let u_nlimbs := ct_mp_nlimbs u_len
  let v_len := v.v_len
  let v_nlimbs := ct_mp_nlimbs v_len
  M.cond (∃ q ∈ q_out, q.len + v_len < u_len) (pure (.error .InsufficientQuotientSpace)) <|
  M.cond (u_len < v_len)
    (do
      let q_out ← clear_q q_out 0
      pure (.ok (u_h, u_l, q_out)))
    (do
      let q_out_max_len := u_len + 1 - v_len
      let q_out_max_nlimbs := ct_mp_nlimbs q_out_max_len
      let q_out ← clear_q q_out q_out_max_len
      let u_pad_len := if u_len % LB = 0 then 0 else LB - u_len % LB
      let u_pad := Buf.zeros f (LB + u_pad_len)
      let u_parts ← Composite.new [u_l, u_h', u_pad]
      let (u_parts, carry) ← M.forRange 0 (u_nlimbs + 1) (u_parts, 0) fun i (u_parts, carry) => do
        let u_val ← u_parts.load i
        let (carry, u_val) ← v.scale_val u_val carry
        let u_parts ← u_parts.store i u_val
        pure (u_parts, carry)
      M.assert (carry = 0)
      M.bindE (M.forDownE q_out_max_nlimbs (u_parts, q_out) (div_step v)) fun (u_parts, q_out) => do
        M.assertM (M.forRange v_nlimbs (u_nlimbs + 1) true fun j ok => do
          let l ← u_parts.load j
          pure (ok && decide (l = 0)))
        let (u_parts, _) ← M.forDown v_nlimbs (u_parts, 0) fun j (u_parts, u_h) => do
          let u_l ← u_parts.load j
          let u_val ← v.unscale_val u_l u_h
          let u_parts ← u_parts.store j u_val
          pure (u_parts, u_l)
        match u_parts.parts with
        | [u_l, u_h', _] => pure (.ok (u_h.map fun _ => u_h', u_l, q_out))
        | _ => M.panic)

/-- `ct_mod_mp_mp`, div_impl.rs:685-694. -/
def ct_mod_mp_mp (u_h : Option (Buf f)) (u_l : Buf f) (v : CtMpDivisor g) :
    M (Option (Buf f) × Buf f) := do
  match ← ct_div_mp_mp u_h u_l v (none : Option (Buf .ne)) with
  | .ok (u_h, u_l, _) => pure (u_h, u_l)
  | .error _ => M.panic

/-! ### Division of a power of two -/

/-- The low limbs of the subtraction step of `ct_div_pow2_mp`, div_impl.rs:864-896: the state
(`r_out`, decrement borrow, scaling carry, borrow), and the value `u_val` shifted out. -/
def pow2_sub_low (v : CtMpDivisor g) (q : ℕ) (r_out : Buf f) :
    M (Buf f × ℕ × ℕ × ℕ × ℕ × ℕ) := do
  let v_nlimbs := ct_mp_nlimbs v.v_len
  M.cond (v_nlimbs ≥ 2)
    (do
      let (r_out, vdb, svc, borrow, next_u_val) ←
        M.forRange 0 (v_nlimbs - 2) (r_out, v.decrement, 0, 0, 0)
          fun i (r_out, vdb, svc, borrow, next_u_val) => do
            let u_val := next_u_val
            let next_u_val ← r_out.load_l_full i
            let (vdb, svc, borrow, u_val) ← v.sub_scaled_qv_val u_val i q vdb svc borrow
            let r_out ← r_out.store_l_full i u_val
            pure (r_out, vdb, svc, borrow, next_u_val)
      let (vdb, svc, borrow, u_val) ←
        v.sub_scaled_qv_val next_u_val (v_nlimbs - 2) q vdb svc borrow
      pure (r_out, vdb, svc, borrow, v_nlimbs - 1, u_val))
    (pure (r_out, v.decrement, 0, 0, 0, 0))

/-- The body of the main loop of `ct_div_pow2_mp`, div_impl.rs:842-952; `s0`, `s1` are the limbs
of `r_out_head_shadow`. -/
def pow2_step (v : CtMpDivisor g) (j : ℕ) : Buf f × ℕ × ℕ × Option (Buf h) →
    M (Except DivError (Buf f × ℕ × ℕ × Option (Buf h))) := fun (r_out, s0, s1, q_out) => do
  let v_nlimbs := ct_mp_nlimbs v.v_len
  let u_tail_high ← M.cond (v_nlimbs > 2) (r_out.load_l_full (v_nlimbs - 2 - 1)) (pure 0)
  let q ← v.make_q_estimate s1 s0 u_tail_high
  let (r_out, vdb, svc, borrow, i, u_val) ← pow2_sub_low v q r_out
  M.assert (i + 1 = v_nlimbs)
  let cur_u_val := s0
  let s0 := u_val
  let (_, svc, borrow, u_val) ← v.sub_scaled_qv_val cur_u_val i q vdb svc borrow
  M.assert (svc = 0)
  let cur_u_val := s1
  let s1 := u_val
  let (borrow, u_val) := ct_sub_l_l cur_u_val borrow
  M.assert (borrow ≠ 0 ∨ u_val = 0)
  let over_estimated ← LimbChoice.from' borrow
  M.bindE (store_q q_out j q over_estimated) fun q_out => do
    let (r_out, vdb, carry) ← M.forRange 0 (v_nlimbs - 2) (r_out, v.decrement, 0)
      fun i (r_out, vdb, carry) => do
        let u_val ← r_out.load_l_full i
        let (vdb, carry, u_val) ← v.add_scaled_v_val_cond u_val i vdb carry over_estimated
        let r_out ← r_out.store_l_full i u_val
        pure (r_out, vdb, carry)
    -- the loop over `k` has one iteration, `k = 1`, if `v_nlimbs = 1`, and two otherwise
    let i := v_nlimbs - 2
    let (s0, vdb, carry, i) ← M.cond (v_nlimbs ≥ 2)
      (do
        let (vdb, carry, s0) ← v.add_scaled_v_val_cond s0 i vdb carry over_estimated
        pure (s0, vdb, carry, i + 1))
      (pure (s0, vdb, carry, i))
    let (_, _, s1) ← v.add_scaled_v_val_cond s1 i vdb carry over_estimated
    M.assert (i + 1 = v_nlimbs)
    pure (.ok (r_out, s0, s1, q_out))

/-- `ct_div_pow2_mp`, div_impl.rs:702-980: the remainder and the quotient. -/
def ct_div_pow2_mp (u_pow2_exp : ℕ) (r_out : Buf f) (v : CtMpDivisor g) (q_out : Option (Buf h)) :
    M (Except DivError (Buf f × Option (Buf h))) :=
  let virtual_u_len := ((u_pow2_exp + 1) + 8 - 1) / 8
  let virtual_u_nlimbs := ct_mp_nlimbs virtual_u_len
  let v_len := v.v_len
  let v_nlimbs := ct_mp_nlimbs v_len
  M.cond (∃ q ∈ q_out, q.len + v_len < virtual_u_len)
    (pure (.error .InsufficientQuotientSpace)) <|
  M.cond (r_out.len < min v_len virtual_u_len) (pure (.error .InsufficientRemainderSpace)) do
    let r_out ← r_out.clear_bytes_above 0
    let u_high_shift := u_pow2_exp % W
    let u_high ← shlC 1 u_high_shift
    M.cond (virtual_u_len < v_len)
      (do
        let r_out ← r_out.store_l (virtual_u_nlimbs - 1) u_high
        let q_out ← clear_q q_out 0
        pure (.ok (r_out, q_out)))
      (do
        let q_out_max_len := virtual_u_len + 1 - v_len
        let q_out_max_nlimbs := ct_mp_nlimbs q_out_max_len
        let q_out ← clear_q q_out q_out_max_len
        let (carry, scaled_u_head_low) ← v.scale_val u_high 0
        let (carry, scaled_u_head_high) ← v.scale_val 0 carry
        M.assert (carry = 0)
        M.assert (v_nlimbs + q_out_max_nlimbs = virtual_u_nlimbs + 1 ∨
          v_nlimbs + q_out_max_nlimbs = virtual_u_nlimbs)
        let (s0, s1) ← M.cond (v_nlimbs + q_out_max_nlimbs = virtual_u_nlimbs)
          (do
            M.assert (scaled_u_head_high = 0)
            pure (0, scaled_u_head_low))
          (pure (scaled_u_head_low, scaled_u_head_high))
        M.bindE (M.forDownE q_out_max_nlimbs (r_out, s0, s1, q_out) (pow2_step v))
          fun (r_out, s0, s1, q_out) => do
            M.assert (v_nlimbs > 1 ∨ s0 = 0)
            -- the loop over `k` in `0..v_nlimbs.min(2)`
            let u_val ← v.unscale_val s1 0
            let r_out ← r_out.store_l (v_nlimbs - 1) u_val
            let (r_out, u_h) ← M.cond (v_nlimbs ≥ 2)
              (do
                let u_val ← v.unscale_val s0 s1
                let r_out ← r_out.store_l (v_nlimbs - 2) u_val
                pure (r_out, s0))
              (pure (r_out, s1))
            -- `j` here is the code's `j - 2` after the decrement
            let (r_out, _) ← M.forDown (v_nlimbs - 2) (r_out, u_h) fun j (r_out, u_h) => do
              let u_l ← r_out.load_l_full j
              let u_val ← v.unscale_val u_l u_h
              let r_out ← r_out.store_l_full j u_val
              pure (r_out, u_l)
            pure (.ok (r_out, q_out)))

/-- `ct_mod_pow2_mp`, div_impl.rs:1108-1127. -/
def ct_mod_pow2_mp (u_pow2_exp : ℕ) (r_out : Buf f) (v : CtMpDivisor g) :
    M (Except DivError (Buf f)) := do
  match ← ct_div_pow2_mp u_pow2_exp r_out v (none : Option (Buf .ne)) with
  | .ok (r_out, _) => pure (.ok r_out)
  | .error .InsufficientRemainderSpace => pure (.error .InsufficientRemainderSpace)
  | .error .InsufficientQuotientSpace => M.panic

/-! ### Division of a shifted integer -/

/-- `a[k]` for a small array, e.g. div_impl.rs:1297. -/
def arrGet (a : List ℕ) (k : ℕ) : M ℕ := M.ofOption a[k]?

/-- `a[k] = v` for a small array, e.g. div_impl.rs:1300. -/
def arrSet (a : List ℕ) (k v : ℕ) : M (List ℕ) := do
  M.check (k < a.length)
  pure (a.set k v)

/-- Loading the limbs for the quotient estimate, div_impl.rs:1272-1281.  The two loops over
`i = 2, 1, 0` read limb `v_nlimbs + j + i - 2` from the shadow or from `u`, or leave the zero if
there is no such limb; the model goes through the three values of `i` one by one. -/
def lshifted_load (u : Buf f) (shadow : List ℕ) (u_nlimbs v_nlimbs j i : ℕ) : M ℕ :=
  M.cond (v_nlimbs + j + i + 1 ≥ u_nlimbs - 1 + 3)
    (arrGet shadow (v_nlimbs + j + i - 2 - (u_nlimbs - 1)))
    (M.cond (v_nlimbs + j + i + 1 ≥ 3)
      (u.load_l_full (v_nlimbs + j + i - 2))
      (pure 0))

/-- Applying `op` to limb `k` of the head part in `u` and `u_head_high_shadow`, e.g. div_impl.rs:1289-1302 and
div_impl.rs:1307-1315. -/
def lshifted_modify {α : Type} (u_nlimbs : ℕ) (u : Buf f) (shadow : List ℕ) (k : ℕ)
    (op : ℕ → M (α × ℕ)) : M (Buf f × List ℕ × α) :=
  M.cond (k < u_nlimbs - 1)
    (do
      let u_val ← u.load_l_full k
      let (r, u_val) ← op u_val
      let u ← u.store_l_full k u_val
      pure (u, shadow, r))
    (do
      let i ← M.sub k (u_nlimbs - 1)
      let u_val ← arrGet shadow i
      let (r, u_val) ← op u_val
      let shadow ← arrSet shadow i u_val
      pure (u, shadow, r))

/-- The body of the first main loop of `ct_div_lshifted_mp_mp`, div_impl.rs:1264-1356.  The pairs
of loops, the first one over the limbs in `u` and the second one over those in
`u_head_high_shadow`, are one loop here, with the loop condition of the first one evaluated in
each iteration. -/
def lshifted_head_step (v : CtMpDivisor g) (u_nlimbs u_lshift_tail_nlimbs j : ℕ) :
    Buf f × List ℕ × Option (Buf h) → M (Except DivError (Buf f × List ℕ × Option (Buf h))) :=
  fun (u, shadow, q_out) => do
    let v_nlimbs := ct_mp_nlimbs v.v_len
    let u0 ← lshifted_load u shadow u_nlimbs v_nlimbs j 2
    let u1 ← lshifted_load u shadow u_nlimbs v_nlimbs j 1
    let u2 ← lshifted_load u shadow u_nlimbs v_nlimbs j 0
    let q ← v.make_q_estimate u0 u1 u2
    let (u, shadow, _, svc, borrow) ← M.forRange 0 v_nlimbs (u, shadow, v.decrement, 0, 0)
      fun i (u, shadow, vdb, svc, borrow) => do
        let (u, shadow, vdb, svc, borrow) ← lshifted_modify u_nlimbs u shadow (j + i) fun u_val => do
          let (vdb, svc, borrow, u_val) ← v.sub_scaled_qv_val u_val i q vdb svc borrow
          pure ((vdb, svc, borrow), u_val)
        pure (u, shadow, vdb, svc, borrow)
    M.assert (svc = 0)
    let (u, shadow, borrow) ← lshifted_modify u_nlimbs u shadow (j + v_nlimbs) fun u_val =>
      pure (ct_sub_l_l u_val borrow)
    let over_estimated ← LimbChoice.from' borrow
    M.bindE (store_q q_out (u_lshift_tail_nlimbs + j) q over_estimated) fun q_out => do
      let (u, shadow, _, carry) ← M.forRange 0 v_nlimbs (u, shadow, v.decrement, 0)
        fun i (u, shadow, vdb, carry) => do
          let (u, shadow, vdb, carry) ← lshifted_modify u_nlimbs u shadow (j + i) fun u_val => do
            let (vdb, carry, u_val) ← v.add_scaled_v_val_cond u_val i vdb carry over_estimated
            pure ((vdb, carry), u_val)
          pure (u, shadow, vdb, carry)
      let (u, shadow, _) ← lshifted_modify u_nlimbs u shadow (j + v_nlimbs) fun u_val =>
        pure (ct_add_l_l u_val carry)
      pure (.ok (u, shadow, q_out))

/-- The body of the second main loop of `ct_div_lshifted_mp_mp`, div_impl.rs:1388-1462. -/
def lshifted_tail_step (v : CtMpDivisor g) (j : ℕ) :
    Buf f × ℕ × Option (Buf h) → M (Except DivError (Buf f × ℕ × Option (Buf h))) :=
  fun (u, u_high_shadow, q_out) => do
    let v_nlimbs := ct_mp_nlimbs v.v_len
    let u1 ← M.cond (v_nlimbs ≥ 2) (u.load_l_full (v_nlimbs - 2)) (pure 0)
    let u2 ← M.cond (v_nlimbs ≥ 3) (u.load_l_full (v_nlimbs - 3)) (pure 0)
    let q ← v.make_q_estimate u_high_shadow u1 u2
    let (u, vdb, svc, borrow, next_u_val) ←
      M.forRange 0 (v_nlimbs - 1) (u, v.decrement, 0, 0, 0)
        fun i (u, vdb, svc, borrow, next_u_val) => do
          let u_val := next_u_val
          let next_u_val ← u.load_l_full i
          let (vdb, svc, borrow, u_val) ← v.sub_scaled_qv_val u_val i q vdb svc borrow
          let u ← u.store_l_full i u_val
          pure (u, vdb, svc, borrow, next_u_val)
    let u_val := next_u_val
    let next_u_val := u_high_shadow
    let (_, svc, borrow, u_high_shadow) ←
      v.sub_scaled_qv_val u_val (v_nlimbs - 1) q vdb svc borrow
    M.assert (svc = 0)
    let (borrow, _) := ct_sub_l_l next_u_val borrow
    let over_estimated ← LimbChoice.from' borrow
    M.bindE (store_q q_out j q over_estimated) fun q_out => do
      let (u, vdb, carry) ← M.forRange 0 (v_nlimbs - 1) (u, v.decrement, 0)
        fun i (u, vdb, carry) => do
          let u_val ← u.load_l_full i
          let (vdb, carry, u_val) ← v.add_scaled_v_val_cond u_val i vdb carry over_estimated
          let u ← u.store_l_full i u_val
          pure (u, vdb, carry)
      let (_, _, u_high_shadow) ←
        v.add_scaled_v_val_cond u_high_shadow (v_nlimbs - 1) vdb carry over_estimated
      pure (.ok (u, u_high_shadow, q_out))

/-- The main part of `ct_div_lshifted_mp_mp`, div_impl.rs:1183-1485. -/
def lshifted_main (u : Buf f) (u_in_len u_lshift_len : ℕ) (v : CtMpDivisor g)
    (q_out : Option (Buf h)) : M (Except DivError (Buf f × Option (Buf h))) := do
  let v_len := v.v_len
  let v_nlimbs := ct_mp_nlimbs v_len
  let q_out_max_len := u_in_len + u_lshift_len + 1 - v_len
  let q_out_max_nlimbs := ct_mp_nlimbs q_out_max_len
  let q_out ← clear_q q_out q_out_max_len
  let u_lshift_head_len := u_lshift_len % LB
  let u_lshift_tail_len := u_lshift_len - u_lshift_head_len
  let free ← M.sub u.len u_in_len
  let n ← M.sub (ct_mp_nlimbs (free + LB - u_lshift_head_len + 1)) 1
  let u_lshift_head_len := min (n * LB) u_lshift_tail_len + u_lshift_head_len
  M.assert (u_lshift_head_len % LB = u_lshift_len % LB)
  let u_lshift_tail_len ← M.sub u_lshift_len u_lshift_head_len
  let (u, out) ← ct_lshift_mp u (8 * u_lshift_head_len)
  let u_head_high_partial_len := u.len % LB
  let u_nlimbs := ct_mp_nlimbs u.len
  let k ← M.sub u_nlimbs 1
  let (s0, s1) ← M.cond (u_head_high_partial_len ≠ 0)
    (do
      let s1 ← shrC out (8 * (LB - u_head_high_partial_len))
      let s0 ← shlC out (8 * u_head_high_partial_len)
      let l ← u.load_l k
      pure (s0 ||| l, s1))
    (do
      let l ← u.load_l k
      pure (l, out))
  let (u, carry) ← M.forRange 0 k (u, 0) fun i (u, carry) => do
    let u_val ← u.load_l_full i
    let (carry, u_val) ← v.scale_val u_val carry
    let u ← u.store_l_full i u_val
    pure (u, carry)
  let (carry, s0) ← v.scale_val s0 carry
  let (carry, s1) ← v.scale_val s1 carry
  let u_lshift_tail_nlimbs := u_lshift_tail_len / LB
  let q_out_head_nlimbs ← M.sub q_out_max_nlimbs u_lshift_tail_nlimbs
  M.bindE (M.forDownE q_out_head_nlimbs (u, [s0, s1, carry], q_out)
      (lshifted_head_step v u_nlimbs u_lshift_tail_nlimbs)) fun (u, shadow, q_out) => do
    let s2 ← arrGet shadow 2
    M.assert (s2 = 0)
    let s1 ← arrGet shadow 1
    M.assert (s1 = 0)
    let s0 ← arrGet shadow 0
    let u ← M.cond (u_nlimbs > v_nlimbs)
      (do
        M.assert (s0 = 0)
        u.store_l k 0)
      (pure u)
    M.assertM (M.forRange v_nlimbs k true fun i ok => do
      let l ← u.load_l_full i
      pure (ok && decide (l = 0)))
    let u_high_shadow ← M.cond (v_nlimbs - 1 = u_nlimbs - 1) (pure s0)
      (u.load_l_full (v_nlimbs - 1))
    M.bindE (M.forDownE u_lshift_tail_nlimbs (u, u_high_shadow, q_out) (lshifted_tail_step v))
      fun (u, u_high_shadow, q_out) => do
        let u_val ← v.unscale_val u_high_shadow 0
        let u ← u.store_l (v_nlimbs - 1) u_val
        let (u, _) ← M.forDown (v_nlimbs - 1) (u, u_high_shadow) fun j (u, u_h) => do
          let u_l ← u.load_l_full j
          let u_val ← v.unscale_val u_l u_h
          let u ← u.store_l j u_val
          pure (u, u_l)
        pure (.ok (u, q_out))

/-- `ct_div_lshifted_mp_mp`, div_impl.rs:1131-1486: the remainder and the quotient. -/
def ct_div_lshifted_mp_mp (u : Buf f) (u_in_len u_lshift_len : ℕ) (v : CtMpDivisor g)
    (q_out : Option (Buf h)) : M (Except DivError (Buf f × Option (Buf h))) := do
  M.assert (u_in_len ≤ u.len)
  let virtual_u_in_len := u_in_len + u_lshift_len
  let v_len := v.v_len
  M.cond (∃ q ∈ q_out, q.len + v_len < virtual_u_in_len)
    (pure (.error .InsufficientQuotientSpace)) <|
    M.cond (u.len < min v_len virtual_u_in_len) (pure (.error .InsufficientRemainderSpace)) <|
      M.cond (virtual_u_in_len < v_len)
        (do
          let (u, _) ← ct_lshift_mp u (8 * u_lshift_len)
          let q_out ← clear_q q_out 0
          pure (.ok (u, q_out)))
        (lshifted_main u u_in_len u_lshift_len v q_out)

/-- `ct_mod_lshifted_mp_mp`, div_impl.rs:1629-1652. -/
def ct_mod_lshifted_mp_mp (u : Buf f) (u_in_len u_lshift_len : ℕ) (v : CtMpDivisor g) :
    M (Except DivError (Buf f)) := do
  match ← ct_div_lshifted_mp_mp u u_in_len u_lshift_len v (none : Option (Buf .ne)) with
  | .ok (u, _) => pure (.ok u)
  | .error .InsufficientRemainderSpace => pure (.error .InsufficientRemainderSpace)
  | .error .InsufficientQuotientSpace => M.panic

/-! ### Division by a limb -/

/-- `q_out.store_l(j, q_val)` if there is a `q_out`, div_impl.rs:1688-1690. -/
def store_q_l (q_out : Option (Buf h)) (j q : ℕ) : M (Option (Buf h)) :=
  match q_out with
  | none => pure none
  | some q_out => do
    let q_out ← q_out.store_l j q
    pure (some q_out)

/-- The division loop of `ct_div_mp_l`, div_impl.rs:1681-1694. -/
def div_mp_l_main (u : Buf f) (v : CtLDivisor) (q_out : Option (Buf h)) :
    M (Except DivError (ℕ × Option (Buf h))) := do
  let (u_h, q_out) ← M.forDown u.nlimbs (0, q_out) fun j (u_h, q_out) => do
    let u_l ← u.load_l j
    let (q_val, r) ← v.do_div ⟨u_h, u_l⟩
    let q_out ← store_q_l q_out j q_val
    pure (r, q_out)
  pure (.ok (u_h, q_out))

/-- `ct_div_mp_l`, div_impl.rs:1658-1695: the remainder and the quotient. -/
def ct_div_mp_l (u : Buf f) (v : CtLDivisor) (q_out : Option (Buf h)) :
    M (Except DivError (ℕ × Option (Buf h))) :=
  M.cond (u.nlimbs = 0) (pure (.ok (0, q_out))) <|
  match q_out with
  | none => div_mp_l_main u v none
  | some q_out => do
    let v_len ← ct_find_last_set_byte_l v.v
    M.cond (q_out.len + v_len < u.len + 1) (pure (.error .InsufficientQuotientSpace)) <|
      M.cond (u.len < v_len)
        (do
          let q_out ← q_out.clear_bytes_above 0
          let l ← u.load_l 0
          pure (.ok (l, some q_out)))
        (do
          let q_out_len := u.len - v_len + 1
          let q_out ← q_out.clear_bytes_above q_out_len
          div_mp_l_main u v (some q_out))

/-- `ct_mod_mp_l`, div_impl.rs:1697-1707. -/
def ct_mod_mp_l (u : Buf f) (v : CtLDivisor) : M ℕ := do
  match ← ct_div_mp_l u v (none : Option (Buf .ne)) with
  | .ok (r, _) => pure r
  | .error _ => M.panic

end Cmpa
