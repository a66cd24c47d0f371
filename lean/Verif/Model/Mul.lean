import Verif.Model.Buf

/-!
# Model of mul_impl.rs
-/

namespace Cmpa
variable [LimbCfg] {f g : Fmt}

/-- `ct_mul_trunc_cond_mp_mp`, mul_impl.rs:45-101. -/
def ct_mul_trunc_cond_mp_mp (op0 : Buf f) (op0_in_len : ℕ) (op1 : Buf g) (cond : LimbChoice) :
    M (Buf f) := do
  M.assert (op0_in_len ≤ op0.len)
  M.cond (op1.is_empty = true)
    (do
      let cond_mask := cond.select 0 lmax
      M.forRange 0 op0.nlimbs op0 fun j op0 => do
        let l ← op0.load_l j
        op0.store_l j (l &&& bnot cond_mask))
    (do
      let op1_nlimbs := op1.nlimbs
      let result_high_mask := op0.partial_high_mask
      let op0_nlimbs := op0.nlimbs
      let op0 ← op0.clear_bytes_above op0_in_len
      let op0_in_nlimbs := ct_mp_nlimbs op0_in_len
      M.forDown op0_in_nlimbs op0 fun j op0 => do
        let op0_val ← op0.load_l j
        let op0 ← op0.store_l j 0
        let result_nlimbs ← M.sub op0_nlimbs j
        let cond_unit := cond.select 1 0
        let (op0, carry, _) ← M.forRange 0 (min op1_nlimbs result_nlimbs) (op0, 0, cond_unit)
          fun k (op0, carry, cond_unit) => do
            let l ← op1.load_l k
            let op1_val := cond.select 0 l ||| cond_unit
            let result_val ← op0.load_l (j + k)
            let (carry, result_val) ← ct_mul_add_l_l_l_c result_val op0_val op1_val carry
            let op0 ← M.cond (k ≠ result_nlimbs - 1 ∨ f.unaligned = false)
              (op0.store_l_full (j + k) result_val)
              (op0.store_l (j + k) (result_val &&& result_high_mask))
            pure (op0, carry, 0)
        let (op0, _) ← M.forRange op1_nlimbs result_nlimbs (op0, carry) fun k (op0, carry) => do
          let result_val ← op0.load_l (j + k)
          let (carry, result_val) := ct_add_l_l result_val carry
          let op0 ← M.cond (k ≠ result_nlimbs - 1 ∨ f.unaligned = false)
            (op0.store_l_full (j + k) result_val)
            (op0.store_l (j + k) (result_val &&& result_high_mask))
          pure (op0, carry)
        pure op0)

/-- `ct_mul_trunc_mp_mp`, mul_impl.rs:235-241. -/
def ct_mul_trunc_mp_mp (op0 : Buf f) (op0_in_len : ℕ) (op1 : Buf g) : M (Buf f) :=
  ct_mul_trunc_cond_mp_mp op0 op0_in_len op1 (.new 1)

/-- The body of the first inner loop of `ct_square_trunc_mp`, mul_impl.rs:283-359. -/
def ct_square_cross (j result_nlimbs op0_val result_high_mask k : ℕ) :
    Buf f × ℕ × ℕ → M (Buf f × ℕ × ℕ) := fun (op0, last_prod_high, carry) => do
  let op1_val ← op0.load_l k
  let prod ← ct_mul_l_l op0_val op1_val
  let result_val ← op0.load_l (j + k)
  let carry0 := shr last_prod_high (W - 1)
  let last_prod_high := wmul last_prod_high 2
  M.assert (last_prod_high ≤ bnot 3)
  M.assert (carry ≤ 2 ∨ last_prod_high ≤ bnot 5)
  let last_prod_high ← M.addL last_prod_high carry
  let (carry1, result_val) := ct_add_l_l result_val last_prod_high
  let last_prod_high := prod.high
  let carry2 := shr prod.low (W - 1)
  let prod_low := wmul prod.low 2
  let (carry3, result_val) := ct_add_l_l result_val prod_low
  let c ← M.addL carry0 carry1
  let c ← M.addL c carry2
  let carry ← M.addL c carry3
  M.assert (last_prod_high ≤ bnot 1)
  M.assert (carry ≤ 2 ∨ last_prod_high ≤ bnot 2)
  let op0 ← M.cond (k ≠ result_nlimbs - 1 ∨ f.unaligned = false)
    (op0.store_l_full (j + k) result_val)
    (op0.store_l (j + k) (result_val &&& result_high_mask))
  pure (op0, last_prod_high, carry)

/-- The second part of the outer loop body of `ct_square_trunc_mp`, mul_impl.rs:365-402. -/
def ct_square_diag (j result_nlimbs op0_val result_high_mask : ℕ) :
    Buf f × ℕ × ℕ → M (Buf f) := fun (op0, last_prod_high, carry) => do
  let prod ← ct_mul_l_l op0_val op0_val
  let result_val ← op0.load_l (2 * j)
  let carry0 := shr last_prod_high (W - 1)
  let last_prod_high := wmul last_prod_high 2
  M.assert (last_prod_high ≤ bnot 3)
  M.assert (carry ≤ 2 ∨ last_prod_high ≤ bnot 5)
  let last_prod_high ← M.addL last_prod_high carry
  let (carry1, result_val) := ct_add_l_l result_val last_prod_high
  let last_prod_high := prod.high
  let (carry2, result_val) := ct_add_l_l result_val prod.low
  let c ← M.addL carry0 carry1
  let carry ← M.addL c carry2
  let op0 ← M.cond (j ≠ result_nlimbs - 1)
    (op0.store_l_full (2 * j) result_val)
    (op0.store_l (2 * j) (result_val &&& result_high_mask))
  let (op0, _, _) ← M.forRange (j + 1) result_nlimbs (op0, last_prod_high, carry)
    fun k (op0, last_prod_high, carry) => do
      let result_val ← op0.load_l (j + k)
      let (carry0, result_val) := ct_add_l_l result_val last_prod_high
      let (carry1, result_val) := ct_add_l_l result_val carry
      let carry ← M.addL carry0 carry1
      let op0 ← M.cond (k ≠ result_nlimbs - 1 ∨ f.unaligned = false)
        (op0.store_l_full (j + k) result_val)
        (op0.store_l (j + k) (result_val &&& result_high_mask))
      pure (op0, 0, carry)
  pure op0

/-- `ct_square_trunc_mp`, mul_impl.rs:264-404. -/
def ct_square_trunc_mp (op0 : Buf f) (op0_in_len : ℕ) : M (Buf f) := do
  M.assert (op0_in_len ≤ op0.len)
  let result_high_mask := op0.partial_high_mask
  let op0_nlimbs := op0.nlimbs
  let op0 ← op0.clear_bytes_above op0_in_len
  let op0_in_nlimbs := ct_mp_nlimbs op0_in_len
  M.forDown op0_in_nlimbs op0 fun j op0 => do
    let op0_val ← op0.load_l j
    let op0 ← op0.store_l j 0
    let result_nlimbs ← M.sub op0_nlimbs j
    let (op0, last_prod_high, carry) ← M.forRange 0 (min j result_nlimbs) (op0, 0, 0)
      (ct_square_cross j result_nlimbs op0_val result_high_mask)
    M.cond (result_nlimbs ≤ j) (pure op0)
      (ct_square_diag j result_nlimbs op0_val result_high_mask (op0, last_prod_high, carry))

/-- `ct_mul_trunc_mp_l`, mul_impl.rs:516-547. -/
def ct_mul_trunc_mp_l (op0 : Buf f) (op0_in_len : ℕ) (op1 : ℕ) : M (Buf f) := do
  M.assert (op0_in_len ≤ op0.len)
  let result_high_mask := op0.partial_high_mask
  let op0_nlimbs := op0.nlimbs
  let op0 ← op0.clear_bytes_above op0_in_len
  let op0_in_nlimbs := ct_mp_nlimbs op0_in_len
  M.cond (op0_in_len = 0) (pure op0) do
    let (op0, carry) ← M.forRange 0 op0_in_nlimbs (op0, 0) fun j (op0, carry) => do
      let op0_val ← op0.load_l j
      let (carry, result_val) ← ct_mul_add_l_l_l_c 0 op0_val op1 carry
      let op0 ← M.cond (j ≠ op0_nlimbs - 1 ∨ f.unaligned = false)
        (op0.store_l_full j result_val)
        (op0.store_l j (result_val &&& result_high_mask))
      pure (op0, carry)
    M.cond (op0_in_nlimbs ≠ op0_nlimbs)
      (M.cond (op0_in_nlimbs ≠ op0_nlimbs - 1 ∨ f.unaligned = false)
        (op0.store_l_full op0_in_nlimbs carry)
        (op0.store_l op0_in_nlimbs (carry &&& result_high_mask)))
      (pure op0)

end Cmpa
