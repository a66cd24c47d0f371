import Verif.Model.Cmp

/-!
# Model of add_impl.rs
-/

namespace Cmpa
variable [LimbCfg] {f g h : Fmt}

/-- `ct_add_cond_mp_mp`, add_impl.rs:32-71; returns the new `op0` and the carry. -/
def ct_add_cond_mp_mp (op0 : Buf f) (op1 : Buf g) (cond : LimbChoice) : M (Buf f × ℕ) := do
  let op0_nlimbs := op0.nlimbs
  let op1_nlimbs := op1.nlimbs
  M.assert (op1_nlimbs ≤ op0_nlimbs)
  M.cond (op1_nlimbs = 0) (pure (op0, 0)) do
    let (op0, carry) ← M.forRange 0 (op1_nlimbs - 1) (op0, 0) fun i (op0, carry) => do
      let op0_val ← op0.load_l_full i
      let l ← op1.load_l_full i
      let op1_val := cond.select 0 l
      let (carry, op0_val) ← ct_add_l_l_c op0_val op1_val carry
      let op0 ← op0.store_l_full i op0_val
      pure (op0, carry)
    let l ← op1.load_l (op1_nlimbs - 1)
    let op1_val := cond.select 0 l
    let (op0, carry, _) ← M.forRange (op1_nlimbs - 1) op0_nlimbs (op0, carry, op1_val)
      fun i (op0, carry, op1_val) => do
        let op0_val ← op0.load_l i
        let (carry, op0_val) ← ct_add_l_l_c op0_val op1_val carry
        M.cond (i ≠ op0_nlimbs - 1 ∨ f.unaligned = false)
          (do
            let op0 ← op0.store_l_full i op0_val
            pure (op0, carry, 0))
          (do
            let op0_high_mask := op0.partial_high_mask
            let op0_high_shift := op0.partial_high_shift
            let op0 ← op0.store_l i (op0_val &&& op0_high_mask)
            let carry_in_op0_high := shr (op0_val &&& bnot op0_high_mask) op0_high_shift
            M.assert (carry = 0 ∨ carry_in_op0_high = 0)
            pure (op0, carry ||| carry_in_op0_high, 0))
    pure (op0, carry)

/-- `ct_add_mp_mp`, add_impl.rs:193-195. -/
def ct_add_mp_mp (op0 : Buf f) (op1 : Buf g) : M (Buf f × ℕ) := ct_add_cond_mp_mp op0 op1 (.new 1)

/-- `ct_sub_cond_mp_mp`, add_impl.rs:385-421; returns the new `op0` and the borrow. -/
def ct_sub_cond_mp_mp (op0 : Buf f) (op1 : Buf g) (cond : LimbChoice) : M (Buf f × ℕ) := do
  let op0_nlimbs := op0.nlimbs
  let op1_nlimbs := op1.nlimbs
  M.assert (op1_nlimbs ≤ op0_nlimbs)
  M.cond (op1_nlimbs = 0) (pure (op0, 0)) do
    let (op0, borrow) ← M.forRange 0 (op1_nlimbs - 1) (op0, 0) fun i (op0, borrow) => do
      let op0_val ← op0.load_l_full i
      let l ← op1.load_l_full i
      let op1_val := cond.select 0 l
      let (borrow, op0_val) ← ct_sub_l_l_b op0_val op1_val borrow
      let op0 ← op0.store_l_full i op0_val
      pure (op0, borrow)
    let l ← op1.load_l (op1_nlimbs - 1)
    let op1_val := cond.select 0 l
    let (op0, borrow, _) ← M.forRange (op1_nlimbs - 1) op0_nlimbs (op0, borrow, op1_val)
      fun i (op0, borrow, op1_val) => do
        let op0_val ← op0.load_l i
        let (borrow, op0_val) ← ct_sub_l_l_b op0_val op1_val borrow
        M.cond (i ≠ op0_nlimbs - 1 ∨ f.unaligned = false)
          (do
            let op0 ← op0.store_l_full i op0_val
            pure (op0, borrow, 0))
          (do
            let op0_high_mask := op0.partial_high_mask
            let op0 ← op0.store_l i (op0_val &&& op0_high_mask)
            M.assert (op0.partial_high_shift = 0 ∨ borrow = shr op0_val (W - 1))
            pure (op0, borrow, 0))
    pure (op0, borrow)

/-- `ct_sub_mp_mp`, add_impl.rs:562-564. -/
def ct_sub_mp_mp (op0 : Buf f) (op1 : Buf g) : M (Buf f × ℕ) := ct_sub_cond_mp_mp op0 op1 (.new 1)

/-- `CtAddModMpMpError` (also `CtSubModMpMpError`, `CtNegateModMpError`), add_impl.rs:197-200. -/
inductive CtAddModMpMpError where
  | InconsistentOperandLengths
  deriving DecidableEq, Repr

/-- `ct_add_mod_mp_mp`, add_impl.rs:202-246. -/
def ct_add_mod_mp_mp (op0 : Buf f) (op1 : Buf g) (n : Buf h) :
    M (Except CtAddModMpMpError (Buf f)) := do
  let c ← n.len_is_compatible_with op0.len
  M.cond (c = false) (pure (.error .InconsistentOperandLengths)) do
    M.assert (op0.nlimbs ≥ n.nlimbs)
    M.assertM (do let c ← ct_lt_mp_mp op0 n; pure (decide (c.unwrap ≠ 0)))
    M.assertM (do let c ← ct_lt_mp_mp op1 n; pure (decide (c.unwrap ≠ 0)))
    M.assert (n.is_empty = false)
    let op1_n_common_nlimbs := min op1.nlimbs n.nlimbs
    let (op0, carry, k) ← M.forRange 0 op1_n_common_nlimbs (op0, 0, 1) fun i (op0, carry, k) => do
      let op0_val ← op0.load_l i
      let op1_val ← op1.load_l i
      let (carry, result_val) ← ct_add_l_l_c op0_val op1_val carry
      let n_val ← n.load_l i
      let k ← CtGeqMpMpKernel.update k result_val n_val
      let op0 ← M.cond (f.unaligned = false ∨ i ≠ op0.nlimbs - 1)
        (op0.store_l_full i result_val) (op0.store_l i (result_val &&& op0.partial_high_mask))
      pure (op0, carry, k)
    let (op0, carry, k) ← M.forRange op1_n_common_nlimbs n.nlimbs (op0, carry, k)
      fun i (op0, carry, k) => do
        let op0_val ← op0.load_l i
        let (carry, result_val) := ct_add_l_l op0_val carry
        let n_val ← n.load_l i
        let k ← CtGeqMpMpKernel.update k result_val n_val
        let op0 ← M.cond (f.unaligned = false ∨ i ≠ op0.nlimbs - 1)
          (op0.store_l_full i result_val) (op0.store_l i (result_val &&& op0.partial_high_mask))
        pure (op0, carry, k)
    let geq ← CtGeqMpMpKernel.finish k
    let c ← LimbChoice.from' carry
    let ov := geq.or c
    let (op0, _) ← ct_sub_cond_mp_mp op0 n ov
    pure (.ok op0)

/-- `ct_add_mp_l`, add_impl.rs:342-367. -/
def ct_add_mp_l (op0 : Buf f) (op1 : ℕ) : M (Buf f × ℕ) := do
  M.assertM (do let n ← ct_find_last_set_byte_l op1; pure (decide (n ≤ op0.len)))
  let op0_nlimbs := op0.nlimbs
  M.cond (op0_nlimbs = 0) (pure (op0, 0)) do
    let (op0, carry) ← M.forRange 0 (op0_nlimbs - 1) (op0, op1) fun i (op0, carry) => do
      let op0_val ← op0.load_l_full i
      let (carry, op0_val) := ct_add_l_l op0_val carry
      let op0 ← op0.store_l_full i op0_val
      pure (op0, carry)
    let op0_val ← op0.load_l (op0_nlimbs - 1)
    let (carry, op0_val) := ct_add_l_l op0_val carry
    let op0_high_mask := op0.partial_high_mask
    let op0_high_shift := op0.partial_high_shift
    let op0 ← op0.store_l (op0_nlimbs - 1) (op0_val &&& op0_high_mask)
    let carry_in_op0_high := shr (op0_val &&& bnot op0_high_mask) op0_high_shift
    M.assert (carry = 0 ∨ carry_in_op0_high = 0)
    pure (op0, carry ||| carry_in_op0_high)

/-- `ct_sub_mod_mp_mp`, add_impl.rs:568-608. -/
def ct_sub_mod_mp_mp (op0 : Buf f) (op1 : Buf g) (n : Buf h) :
    M (Except CtAddModMpMpError (Buf f)) := do
  let c ← n.len_is_compatible_with op0.len
  M.cond (c = false) (pure (.error .InconsistentOperandLengths)) do
    M.assert (op0.nlimbs ≥ n.nlimbs)
    M.assertM (do let c ← ct_lt_mp_mp op0 n; pure (decide (c.unwrap ≠ 0)))
    M.assertM (do let c ← ct_lt_mp_mp op1 n; pure (decide (c.unwrap ≠ 0)))
    M.assert (n.is_empty = false)
    let op1_n_common_nlimbs := min op1.nlimbs n.nlimbs
    let (op0, borrow) ← M.forRange 0 op1_n_common_nlimbs (op0, 0) fun i (op0, borrow) => do
      let op0_val ← op0.load_l i
      let op1_val ← op1.load_l i
      let (borrow, result_val) ← ct_sub_l_l_b op0_val op1_val borrow
      let op0 ← M.cond (f.unaligned = false ∨ i ≠ op0.nlimbs - 1)
        (op0.store_l_full i result_val) (op0.store_l i (result_val &&& op0.partial_high_mask))
      pure (op0, borrow)
    let (op0, borrow) ← M.forRange op1_n_common_nlimbs n.nlimbs (op0, borrow)
      fun i (op0, borrow) => do
        let op0_val ← op0.load_l i
        let (borrow, result_val) := ct_sub_l_l op0_val borrow
        let op0 ← M.cond (f.unaligned = false ∨ i ≠ op0.nlimbs - 1)
          (op0.store_l_full i result_val) (op0.store_l i (result_val &&& op0.partial_high_mask))
        pure (op0, borrow)
    let c ← LimbChoice.from' borrow
    let (op0, _) ← ct_add_cond_mp_mp op0 n c
    pure (.ok op0)

/-- `ct_sub_mp_l`, add_impl.rs:703-725. -/
def ct_sub_mp_l (op0 : Buf f) (op1 : ℕ) : M (Buf f × ℕ) := do
  M.assertM (do let n ← ct_find_last_set_byte_l op1; pure (decide (n ≤ op0.len)))
  let op0_nlimbs := op0.nlimbs
  M.cond (op0_nlimbs = 0) (pure (op0, 0)) do
    let (op0, borrow) ← M.forRange 0 (op0_nlimbs - 1) (op0, op1) fun i (op0, borrow) => do
      let op0_val ← op0.load_l_full i
      let (borrow, op0_val) := ct_sub_l_l op0_val borrow
      let op0 ← op0.store_l_full i op0_val
      pure (op0, borrow)
    let op0_val ← op0.load_l (op0_nlimbs - 1)
    let (borrow, op0_val) := ct_sub_l_l op0_val borrow
    let op0_high_mask := op0.partial_high_mask
    let op0 ← op0.store_l (op0_nlimbs - 1) (op0_val &&& op0_high_mask)
    M.assert (op0.partial_high_shift = 0 ∨ borrow = shr op0_val (W - 1))
    pure (op0, borrow)

/-- `ct_negate_cond_mp`, add_impl.rs:727-746. -/
def ct_negate_cond_mp (op0 : Buf f) (cond : LimbChoice) : M (Buf f) :=
  M.cond (op0.is_empty = true) (pure op0) do
    let nlimbs := op0.nlimbs
    let negate_mask := cond.select 0 lmax
    let negate_carry := negate_mask &&& 1
    let (op0, negate_carry) ← M.forRange 0 (nlimbs - 1) (op0, negate_carry)
      fun i (op0, negate_carry) => do
        let op0_val ← op0.load_l i
        let op0_val := op0_val ^^^ negate_mask
        let (negate_carry, op0_val) := ct_add_l_l op0_val negate_carry
        let op0 ← op0.store_l i op0_val
        pure (op0, negate_carry)
    let op0_val ← op0.load_l (nlimbs - 1)
    let op0_val := op0_val ^^^ negate_mask
    let (_, op0_val) := ct_add_l_l op0_val negate_carry
    op0.store_l (nlimbs - 1) (op0_val &&& op0.partial_high_mask)

/-- `ct_negate_mp`, add_impl.rs:806-808. -/
def ct_negate_mp (op0 : Buf f) : M (Buf f) := ct_negate_cond_mp op0 (.new 1)

/-- `ct_negate_mod_mp`, add_impl.rs:812-825. -/
def ct_negate_mod_mp (op0 : Buf f) (n : Buf g) : M (Except CtAddModMpMpError (Buf f)) := do
  let c ← n.len_is_compatible_with op0.len
  M.cond (c = false) (pure (.error .InconsistentOperandLengths)) do
    M.assertM (do let c ← ct_lt_mp_mp op0 n; pure (decide (c.unwrap ≠ 0)))
    let z ← ct_is_zero_mp op0
    let op0_is_nonzero := z.not
    let op0 ← ct_negate_cond_mp op0 op0_is_nonzero
    let (op0, _) ← ct_add_cond_mp_mp op0 n op0_is_nonzero
    pure (.ok op0)

end Cmpa
