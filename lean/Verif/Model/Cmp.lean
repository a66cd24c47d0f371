import Verif.Model.Buf

/-!
# Model of cmp_impl.rs
-/

namespace Cmpa
variable [LimbCfg] {f g : Fmt}

/-- `ct_eq_mp_mp`, cmp_impl.rs:20-43. -/
def ct_eq_mp_mp (op0 : Buf f) (op1 : Buf g) : M LimbChoice := do
  let op0_nlimbs := op0.nlimbs
  let op1_nlimbs := op1.nlimbs
  let common_nlimbs := min op0_nlimbs op1_nlimbs
  let is_neq ← M.forRange 0 common_nlimbs 0 fun i is_neq => do
    let op0_val ← op0.load_l i
    let op1_val ← op1.load_l i
    pure (is_neq ||| (op0_val ^^^ op1_val))
  let is_neq ← M.forRange common_nlimbs op0_nlimbs is_neq fun i is_neq => do
    let op0_val ← op0.load_l i
    pure (is_neq ||| op0_val)
  let is_neq ← M.forRange common_nlimbs op1_nlimbs is_neq fun i is_neq => do
    let op1_val ← op1.load_l i
    pure (is_neq ||| op1_val)
  LimbChoice.from' (ct_is_zero_l is_neq)

/-- `ct_neq_mp_mp`, cmp_impl.rs:170-172. -/
def ct_neq_mp_mp (op0 : Buf f) (op1 : Buf g) : M LimbChoice := do
  let c ← ct_eq_mp_mp op0 op1
  pure c.not

/-- `CtLeqMpMpKernel::update`, cmp_impl.rs:183-190.  The kernel's state is the field
`tail_is_leq`, initially 1 (cmp_impl.rs:179-181). -/
def CtLeqMpMpKernel.update (tail_is_leq v0_val v1_val : ℕ) : M ℕ := do
  let (is_lt, is_eq) ← ct_lt_or_eq_l_l v0_val v1_val
  let tail_is_leq := tail_is_leq &&& is_eq
  pure (tail_is_leq ||| is_lt)

/-- `CtLeqMpMpKernel::finish`, cmp_impl.rs:192-194. -/
def CtLeqMpMpKernel.finish (tail_is_leq : ℕ) : M LimbChoice := LimbChoice.from' tail_is_leq

/-- `CtGeqMpMpKernel::update`, cmp_impl.rs:208-210; its state is that of the `leq`
kernel inside. -/
def CtGeqMpMpKernel.update (k v0_val v1_val : ℕ) : M ℕ := CtLeqMpMpKernel.update k v1_val v0_val

/-- `CtGeqMpMpKernel::finish`, cmp_impl.rs:212-214. -/
def CtGeqMpMpKernel.finish (k : ℕ) : M LimbChoice := CtLeqMpMpKernel.finish k

/-- `ct_leq_mp_mp`, cmp_impl.rs:225-242. -/
def ct_leq_mp_mp (op0 : Buf f) (op1 : Buf g) : M LimbChoice := do
  let op0_nlimbs := op0.nlimbs
  let op1_nlimbs := op1.nlimbs
  let common_nlimbs := min op0_nlimbs op1_nlimbs
  let k ← M.forRange 0 common_nlimbs 1 fun i k => do
    let op0_val ← op0.load_l i
    let op1_val ← op1.load_l i
    CtLeqMpMpKernel.update k op0_val op1_val
  let k ← M.forRange common_nlimbs op0_nlimbs k fun i k => do
    let op0_val ← op0.load_l i
    CtLeqMpMpKernel.update k op0_val 0
  let k ← M.forRange common_nlimbs op1_nlimbs k fun i k => do
    let op1_val ← op1.load_l i
    CtLeqMpMpKernel.update k 0 op1_val
  CtLeqMpMpKernel.finish k

/-- `ct_geq_mp_mp`, cmp_impl.rs:476-478. -/
def ct_geq_mp_mp (op0 : Buf f) (op1 : Buf g) : M LimbChoice := ct_leq_mp_mp op1 op0

/-- `ct_lt_mp_mp`, cmp_impl.rs:464-466. -/
def ct_lt_mp_mp (op0 : Buf f) (op1 : Buf g) : M LimbChoice := do
  let c ← ct_geq_mp_mp op0 op1
  pure c.not

/-- `ct_gt_mp_mp`, cmp_impl.rs:488-490. -/
def ct_gt_mp_mp (op0 : Buf f) (op1 : Buf g) : M LimbChoice := do
  let c ← ct_leq_mp_mp op0 op1
  pure c.not

/-- `ct_is_zero_mp`, cmp_impl.rs:492-499. -/
def ct_is_zero_mp (op0 : Buf f) : M LimbChoice := do
  let is_nz ← M.forRange 0 op0.nlimbs 0 fun i is_nz => do
    let op0_val ← op0.load_l i
    pure (is_nz ||| op0_val)
  LimbChoice.from' (ct_is_zero_l is_nz)

/-- `ct_is_one_mp`, cmp_impl.rs:501-515. -/
def ct_is_one_mp (op0 : Buf f) : M LimbChoice :=
  M.cond (op0.is_empty = true) (pure (.new 0)) do
    let l ← op0.load_l 0
    let tail_is_not_one := l ^^^ 1
    let head_is_nz ← M.forRange 1 op0.nlimbs 0 fun i head_is_nz => do
      let op0_val ← op0.load_l i
      pure (head_is_nz ||| op0_val)
    LimbChoice.from' (ct_is_zero_l (tail_is_not_one ||| head_is_nz))

/-- `ct_leq_mp_l`, cmp_impl.rs:517-531. -/
def ct_leq_mp_l (op0 : Buf f) (op1 : ℕ) : M LimbChoice :=
  M.cond (op0.is_empty = true) (pure (.new 1)) do
    let l ← op0.load_l 0
    let l0_is_leq := ct_leq_l_l l op1
    let head_is_nz ← M.forRange 1 op0.nlimbs 0 fun i head_is_nz => do
      let op0_val ← op0.load_l i
      pure (head_is_nz ||| op0_val)
    let c ← LimbChoice.from' (ct_is_zero_l head_is_nz)
    pure (l0_is_leq.and c)

end Cmpa
