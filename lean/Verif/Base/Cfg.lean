import Mathlib.Tactic.Ring
import Mathlib.Tactic.Linarith
import Mathlib.Tactic.NormNum
import Mathlib.Tactic.LinearCombination
import Mathlib.Tactic.Zify
import Mathlib.Tactic.Set

/-!
# Limb size

`LimbType` is `u64` on x86_64 and `u32` on all other targets
(`/repo/src/limb/mod.rs:1-60`).  The class below carries the size in bytes; the
whole model is parametric in it.
-/

namespace Cmpa

/-- `LIMB_BYTES` (`/repo/src/limb/mod.rs`: `LimbType`, `LIMB_BYTES`): 4 or 8. -/
class LimbCfg where
  lb : ℕ
  lb_cases : lb = 4 ∨ lb = 8

/-- 64 bit limbs (x86_64). -/
@[reducible] def cfg64 : LimbCfg := ⟨8, Or.inr rfl⟩
/-- 32 bit limbs (all other targets). -/
@[reducible] def cfg32 : LimbCfg := ⟨4, Or.inl rfl⟩

section
variable [LimbCfg]

/-- `LIMB_BYTES`. -/
def LB : ℕ := LimbCfg.lb
/-- `LIMB_BITS`. -/
def W : ℕ := 8 * LB
/-- The limb base `2^LIMB_BITS`. -/
def B : ℕ := 2 ^ W
/-- `HALF_LIMB_BITS`. -/
def HW : ℕ := W / 2

theorem LB_cases : LB = 4 ∨ LB = 8 := LimbCfg.lb_cases
theorem LB_pos : 0 < LB := by rcases LB_cases with h | h <;> omega
theorem W_cases : W = 32 ∨ W = 64 := by
  unfold W; rcases LB_cases with h | h <;> omega
theorem W_eq : W = 8 * LB := rfl
theorem W_pos : 0 < W := by rcases W_cases with h | h <;> omega
theorem one_lt_W : 1 < W := by rcases W_cases with h | h <;> omega
theorem B_pos : 0 < B := Nat.two_pow_pos _
theorem B_ne_zero : B ≠ 0 := B_pos.ne'
theorem one_lt_B : 1 < B := Nat.one_lt_two_pow W_pos.ne'
theorem B_eq_two_pow : B = 2 ^ W := rfl
theorem B_eq_256_pow : B = 256 ^ LB := by
  unfold B W; rw [show (256 : ℕ) = 2 ^ 8 by norm_num, ← pow_mul]
theorem B_cases : B = 2 ^ 32 ∨ B = 2 ^ 64 := by
  unfold B; rcases W_cases with h | h <;> simp [h]
theorem B_pow_pos (i : ℕ) : 0 < B ^ i := Nat.pow_pos B_pos
theorem B_ge : 2 ^ 32 ≤ B := by rcases B_cases with h | h <;> omega
theorem HW_cases : HW = 16 ∨ HW = 32 := by
  unfold HW; rcases W_cases with h | h <;> omega
theorem two_HW : 2 * HW = W := by
  unfold HW; rcases W_cases with h | h <;> omega
/-- `2^(W-1)`, the weight of the top bit. -/
theorem B_half : B = 2 * 2 ^ (W - 1) := by
  unfold B; rw [← pow_succ']; congr 1; have := W_pos; omega

instance : NeZero B := ⟨B_ne_zero⟩

end

end Cmpa
