import Verif.Proofs.Buf
import Verif.Proofs.LimbBits

/-!
# Limb-wise updates of a buffer

`Upto b0 y i b`: `b` is what the buffer `b0` looks like after the `i` low limbs have
been overwritten by those of the number `y`.
-/

set_option linter.unusedSectionVars false

namespace Cmpa
variable [LimbCfg] {f g : Fmt}

/-- Digits of `x` truncated at bit `k`. -/
theorem dig_mod_two_pow (x k i : ℕ) : x % 2 ^ k / B ^ i % B = x / B ^ i % B % 2 ^ (k - i * W) := by
  have hBi : B ^ i = 2 ^ (i * W) := by unfold B; rw [← pow_mul, mul_comm]
  rw [hBi]
  apply Nat.eq_of_testBit_eq
  intro j
  unfold B
  simp only [Nat.testBit_mod_two_pow, Nat.testBit_div_two_pow]
  by_cases h1 : j < W <;> by_cases h2 : j < k - i * W
  · simp [h1, h2, show i * W + j < k by omega, show j + i * W < k by omega]
  · simp [h1, h2, show ¬ j + i * W < k by omega]
  · simp [h1]
  · simp [h1]

theorem B_pow_eq (i : ℕ) : B ^ i = 2 ^ (i * W) := by unfold B; rw [← pow_mul, mul_comm]

theorem pow_256_eq (i : ℕ) : (256 : ℕ) ^ i = 2 ^ (8 * i) := by
  rw [show (256 : ℕ) = 2 ^ 8 by norm_num, ← pow_mul]

def Upto (b0 : Buf f) (y i : ℕ) (b : Buf f) : Prop :=
  b.len = b0.len ∧ b.toNat % B ^ i = y % B ^ i ∧ b.toNat / B ^ i = b0.toNat / B ^ i

namespace Upto
variable {b0 b : Buf f} {x y i : ℕ}

theorem zero (b : Buf f) (y : ℕ) : Upto b y 0 b := ⟨rfl, by simp [Nat.mod_one], rfl⟩

theorem len (h : Upto b0 y i b) : b.len = b0.len := h.1
theorem nlimbs (h : Upto b0 y i b) : b.nlimbs = b0.nlimbs := Buf.nlimbs_congr h.1

theorem div (h : Upto b0 y i b) {j : ℕ} (hj : i ≤ j) : b.toNat / B ^ j = b0.toNat / B ^ j := by
  obtain ⟨k, rfl⟩ := Nat.exists_eq_add_of_le hj
  rw [pow_add, ← Nat.div_div_eq_div_mul, ← Nat.div_div_eq_div_mul, h.2.2]

/-- The limbs not yet overwritten. -/
theorem dig (h : Upto b0 y i b) {j : ℕ} (hj : i ≤ j) :
    b.toNat / B ^ j % B = b0.toNat / B ^ j % B := by rw [h.div hj]

/-- The limbs overwritten. -/
theorem dig_lt (h : Upto b0 y i b) {j : ℕ} (hj : j < i) :
    b.toNat / B ^ j % B = y / B ^ j % B := by
  obtain ⟨k, rfl⟩ := Nat.exists_eq_add_of_le (Nat.succ_le_of_lt hj)
  have h2 := congrArg (· / B ^ j % B) h.2.1
  simp only [Nat.succ_eq_add_one] at h2
  have e : ∀ x : ℕ, x % B ^ (j + 1 + k) / B ^ j % B = x / B ^ j % B := fun x => by
    rw [show j + 1 + k = j + (1 + k) by ring, pow_add, Nat.mod_mul_right_div_self, pow_add,
      pow_one, Nat.mod_mul_right_mod]
  rwa [e, e] at h2

theorem upd (h : Upto b0 y i b) {b' : Buf f} (hl : b'.len = b.len)
    (hv : b'.toNat = Cmpa.upd b.toNat i (y / B ^ i % B)) : Upto b0 y (i + 1) b' := by
  refine ⟨hl.trans h.1, ?_, ?_⟩
  · rw [hv, upd_mod_succ (Cmpa.dig_lt _ _), h.2.1, mod_succ]
  · rw [hv, upd_div (Cmpa.dig_lt _ _) (Nat.lt_succ_self _), h.div (Nat.le_succ _)]

theorem high_lt (hy : y < 256 ^ b0.len) (hi : i + 1 = b0.nlimbs) :
    y / B ^ i % B < 256 ^ hbytes b0.len := by
  have hl : 0 < b0.len := nlimbs_pos_iff.1 (by rw [← Buf.nlimbs_eq]; omega)
  rw [pow_len hl, ← Buf.nlimbs_eq, ← hi, Nat.add_sub_cancel] at hy
  exact lt_of_le_of_lt (Nat.mod_le _ _) (Nat.div_lt_of_lt_mul hy)

theorem sat_store (h : Upto b0 y i b) (hi : i < b0.nlimbs) (hy : y < 256 ^ b0.len) {v : ℕ}
    (hv : v = y / B ^ i % B) {Q : Buf f → Prop} (hQ : ∀ b', Upto b0 y (i + 1) b' → Q b') :
    M.Sat (b.store_l i v) Q := by
  subst hv
  refine Buf.sat_store_l b (by rw [h.nlimbs]; exact hi) (Cmpa.dig_lt _ _) ?_ ?_
  · rw [h.nlimbs, h.len]; exact high_lt hy
  · intro b' h1 h2; exact hQ b' (h.upd h1 h2)

theorem sat_store_full (h : Upto b0 y i b) (hi : i * LB + LB ≤ b0.len) {v : ℕ}
    (hv : v = y / B ^ i % B) {Q : Buf f → Prop} (hQ : ∀ b', Upto b0 y (i + 1) b' → Q b') :
    M.Sat (b.store_l_full i v) Q := by
  subst hv
  refine Buf.sat_store_l_full b (by rw [h.len]; exact hi) (Cmpa.dig_lt _ _) ?_
  intro b' h1 h2; exact hQ b' (h.upd h1 h2)

theorem sat_load (h : Upto b0 y i b) {j : ℕ} (hi : j < b0.nlimbs) (hj : i ≤ j) {Q : ℕ → Prop}
    (hQ : Q (b0.toNat / B ^ j % B)) : M.Sat (b.load_l j) Q := by
  refine Buf.sat_load_l b (by rw [h.nlimbs]; exact hi) ?_
  rwa [h.dig hj]

theorem sat_load_full (h : Upto b0 y i b) {j : ℕ} (hi : j * LB + LB ≤ b0.len) (hj : i ≤ j)
    {Q : ℕ → Prop} (hQ : Q (b0.toNat / B ^ j % B)) : M.Sat (b.load_l_full j) Q := by
  refine Buf.sat_load_l_full b (by rw [h.len]; exact hi) ?_
  rwa [h.dig hj]

/-- All limbs overwritten. -/
theorem final (h : Upto b0 y i b) (hi : b0.nlimbs ≤ i) (hy : y < B ^ i) : b.toNat = y := by
  have h1 : b.toNat < B ^ i :=
    lt_of_lt_of_le b.toNat_lt_B (Nat.pow_le_pow_right B_pos (by rw [h.nlimbs]; exact hi))
  have h2 := h.2.1
  rwa [Nat.mod_eq_of_lt h1, Nat.mod_eq_of_lt hy] at h2

theorem pow_len_le (b : Buf f) : 256 ^ b.len ≤ B ^ b.nlimbs := Cmpa.pow_len_le _

/-- Overwriting by itself changes nothing. -/
theorem self (b : Buf f) (i : ℕ) : Upto b b.toNat i b := ⟨rfl, rfl, rfl⟩

/-- In general the contents are the low limbs of `y` and the high limbs of `b0`. -/
theorem toNat (h : Upto b0 y i b) : b.toNat = y % B ^ i + B ^ i * (b0.toNat / B ^ i) := by
  rw [← h.2.1, ← h.2.2]; exact (Nat.mod_add_div _ _).symm

end Upto
end Cmpa
