import Verif.Model.Limb

/-!
# Model of `/repo/src/usize_ct_cmp.rs`

`usize` has 32 or 64 bits, independently of the limb size; the parameter `u`
carries its size in the same way `LimbCfg` does for limbs, and `@W u.cfg` is
`usize::BITS` etc.
-/

namespace Cmpa

/-- The size of `usize` (a wrapper, so that it is never taken for the limb size). -/
structure UsizeCfg where
  cfg : LimbCfg

variable [LimbCfg]

/-- `ct_is_nonzero_usize`, usize_ct_cmp.rs:18-22. -/
def ct_is_nonzero_usize (u : UsizeCfg) (v : ℕ) : ℕ :=
  @shr (v ||| @wneg u.cfg v) (@W u.cfg - 1)

/-- `ct_is_zero_usize`, usize_ct_cmp.rs:24-26. -/
def ct_is_zero_usize (u : UsizeCfg) (v : ℕ) : ℕ := 1 ^^^ ct_is_nonzero_usize u v

/-- `ct_eq_usize_usize`, usize_ct_cmp.rs:28-30. -/
def ct_eq_usize_usize' (u : UsizeCfg) (v0 v1 : ℕ) : M LimbChoice :=
  LimbChoice.from' (ct_is_zero_usize u (v0 ^^^ v1))

/-- `ct_sub_usize_usize`, usize_ct_cmp.rs:32-40. -/
def ct_sub_usize_usize (u : UsizeCfg) (v0 v1 : ℕ) : ℕ × ℕ :=
  let r := @wsub u.cfg v0 v1
  let borrow := @shr (((r ||| v1) &&& @bnot u.cfg v0) ||| (v1 &&& r)) (@W u.cfg - 1)
  (borrow, r)

/-- `ct_lt_usize_usize`, usize_ct_cmp.rs:61-64. -/
def ct_lt_usize_usize' (u : UsizeCfg) (v0 v1 : ℕ) : M LimbChoice :=
  LimbChoice.from' (ct_sub_usize_usize u v0 v1).1

/-- `ct_leq_usize_usize`, usize_ct_cmp.rs:66-68. -/
def ct_leq_usize_usize' (u : UsizeCfg) (v0 v1 : ℕ) : M LimbChoice := do
  pure (← ct_lt_usize_usize' u v1 v0).not

/-- `ct_gt_usize_usize`, usize_ct_cmp.rs:70-72. -/
def ct_gt_usize_usize' (u : UsizeCfg) (v0 v1 : ℕ) : M LimbChoice := ct_lt_usize_usize' u v1 v0

/-- `ct_geq_usize_usize`, usize_ct_cmp.rs:74-76. -/
def ct_geq_usize_usize' (u : UsizeCfg) (v0 v1 : ℕ) : M LimbChoice := ct_leq_usize_usize' u v1 v0

/-! The multiprecision code is modelled with unbounded `usize`; it uses the
following abstractions, which agree with the above for all in-range values
(theorems `ct_eq_usize_usize_agrees` etc. in `Verif/Proofs/Usize.lean`). -/

/-- `ct_eq_usize_usize`, usize_ct_cmp.rs:28-30, for unbounded `usize`. -/
def ct_eq_usize_usize (v0 v1 : ℕ) : LimbChoice := .new (if v0 = v1 then 1 else 0)
/-- `ct_lt_usize_usize`, usize_ct_cmp.rs:61-64, for unbounded `usize`. -/
def ct_lt_usize_usize (v0 v1 : ℕ) : LimbChoice := .new (if v0 < v1 then 1 else 0)
/-- `ct_leq_usize_usize`, usize_ct_cmp.rs:66-68, for unbounded `usize`. -/
def ct_leq_usize_usize (v0 v1 : ℕ) : LimbChoice := (ct_lt_usize_usize v1 v0).not
/-- `ct_gt_usize_usize`, usize_ct_cmp.rs:70-72, for unbounded `usize`. -/
def ct_gt_usize_usize (v0 v1 : ℕ) : LimbChoice := ct_lt_usize_usize v1 v0
/-- `ct_geq_usize_usize`, usize_ct_cmp.rs:74-76, for unbounded `usize`. -/
def ct_geq_usize_usize (v0 v1 : ℕ) : LimbChoice := ct_leq_usize_usize v1 v0

end Cmpa
