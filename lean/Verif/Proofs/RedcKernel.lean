import Verif.Model.Montgomery
import Verif.Proofs.Shift
import Verif.Proofs.AddMod

/-!
# The Montgomery reduction kernel
-/

set_option linter.unusedSectionVars false

namespace Cmpa
variable [LimbCfg] {f g h : Fmt}

open M

theorem two_pow_dvd_B {e : ℕ} (he : e ≤ W) : 2 ^ e ∣ B := by
  rw [B_eq_two_pow]; exact pow_dvd_pow _ he

theorem B_split {e : ℕ} (he : e ≤ W) : B = 2 ^ e * 2 ^ (W - e) := by
  rw [← pow_add, B_eq_two_pow]; congr 1; omega

theorem redc_rshift_lo_eq {e v : ℕ} (he : e ≤ W) (hv : v < B) :
    RedcKernel.redc_rshift_lo (e % W) (ct_lsb_mask_l e) v = pure (v / 2 ^ e) := by
  unfold RedcKernel.redc_rshift_lo
  rw [shrC_eq (Nat.mod_lt _ W_pos), and_bnot_mask hv he, shr_eq]
  rcases Nat.lt_or_eq_of_le he with h | h
  · rw [Nat.mod_eq_of_lt h, Nat.mul_div_cancel _ (Nat.two_pow_pos _)]
  · rw [h, ← B_eq_two_pow, Nat.div_eq_of_lt hv]; simp

theorem redc_lshift_hi_eq {e v : ℕ} (he : e ≤ W) (hv : v < B) :
    RedcKernel.redc_lshift_hi (e % W) (ct_lsb_mask_l e) v = pure (v % 2 ^ e * 2 ^ (W - e)) := by
  unfold RedcKernel.redc_lshift_hi
  have hW := W_pos
  have h1 := Nat.mod_lt e hW
  rw [M.sub_eq h1.le, M.pure_bind, shlC_eq (Nat.mod_lt _ hW), and_mask he, shl_eq]
  have hp := Nat.mod_lt v (Nat.two_pow_pos e)
  have hlt : v % 2 ^ e * 2 ^ (W - e) < B := by
    rw [B_split he]; exact Nat.mul_lt_mul_of_pos_right hp (Nat.two_pow_pos _)
  rcases Nat.lt_or_eq_of_le he with h | h
  · rw [Nat.mod_eq_of_lt h]
    rcases Nat.eq_zero_or_pos e with h0 | h0
    · subst h0; simp [Nat.mod_one]
    · rw [Nat.mod_eq_of_lt (by omega : W - e < W), Nat.mod_eq_of_lt hlt]
  · subst h
    simp only [Nat.mod_self, Nat.sub_zero, Nat.sub_self, pow_zero, mul_one] at hlt ⊢
    rw [Nat.mod_eq_of_lt hlt]

/-- The state of the kernel, having got limbs `0..=j` making up `X`, and having returned the `j`
limbs of `out`. -/
structure RedcKernel.Inv (k : RedcKernel) (e X j out : ℕ) : Prop where
  rshift : k.redc_pow2_rshift = e % W
  mask : k.redc_pow2_mask = ct_lsb_mask_l e
  m_lt : k.m < 2 ^ e
  last : k.last_redced_val < 2 ^ (W - e)
  carry : k.carry < B
  val : 2 ^ e * (out + B ^ j * k.last_redced_val) + B ^ (j + 1) * k.carry = X

namespace RedcKernel

theorem start_sat {e t0 n0 neg : ℕ} (he : e ≤ W) (ht : t0 < B) (hn : n0 < B)
    (hneg : wmul n0 neg = lmax) :
    Sat (start e t0 n0 neg) (fun k => k.Inv e (t0 + k.m * n0) 0 0) := by
  have hp := Nat.two_pow_pos e
  have hpB := two_pow_dvd_B he
  unfold start
  rw [M.assert_eq he, M.pure_bind]
  dsimp only
  rw [and_mask he, and_mask he, and_mask he]
  have hnn : n0 * neg % 2 ^ e = 2 ^ e - 1 := by
    have h1 : n0 * neg % B % 2 ^ e = (B - 1) % 2 ^ e := by
      unfold wmul lmax at hneg; rw [hneg]
    rw [Nat.mod_mod_of_dvd _ hpB] at h1
    rw [h1]
    obtain ⟨c, hc⟩ := hpB
    have hc0 : 0 < c := by
      rcases Nat.eq_zero_or_pos c with h | h
      · rw [h, Nat.mul_zero] at hc; have := B_pos; omega
      · exact h
    obtain ⟨c', rfl⟩ := Nat.exists_eq_succ_of_ne_zero hc0.ne'
    rw [hc, Nat.mul_succ, show 2 ^ e * c' + 2 ^ e - 1 = 2 ^ e - 1 + 2 ^ e * c' by omega,
      Nat.add_mul_mod_self_left, Nat.mod_eq_of_lt (by omega)]
  rw [M.assert_eq ?_, M.pure_bind]
  swap
  · rw [ct_lsb_mask_l_eq he]
    unfold wmul
    rw [Nat.mod_mod_of_dvd _ hpB, Nat.mod_mul_mod, Nat.mul_comm, hnn]
  have hm : wmul t0 (neg % 2 ^ e) % 2 ^ e = t0 * neg % 2 ^ e := by
    unfold wmul
    rw [Nat.mod_mod_of_dvd _ hpB, Nat.mul_mod_mod]
  rw [hm]
  have hmlt : t0 * neg % 2 ^ e < 2 ^ e := Nat.mod_lt _ hp
  have hmB : t0 * neg % 2 ^ e < B := lt_of_lt_of_le hmlt (Nat.le_of_dvd B_pos hpB)
  have hdvd : 2 ^ e ∣ t0 + t0 * neg % 2 ^ e * n0 := by
    apply Nat.dvd_of_mod_eq_zero
    rw [Nat.add_mod, Nat.mod_mul_mod, ← Nat.add_mod]
    have : t0 + t0 * neg * n0 = t0 * (n0 * neg + 1) := by ring
    rw [this]
    apply Nat.mod_eq_zero_of_dvd
    apply Dvd.dvd.mul_left
    apply Nat.dvd_of_mod_eq_zero
    rw [Nat.add_mod, hnn]
    rcases Nat.eq_zero_or_pos e with h | h
    · subst h; simp [Nat.mod_one]
    · have : 1 < 2 ^ e := Nat.one_lt_two_pow h.ne'
      rw [Nat.mod_eq_of_lt this, Nat.sub_add_cancel hp, Nat.mod_self]
  generalize t0 * neg % 2 ^ e = m at *
  rw [ct_mul_add_l_l_l_c_eq ht hmB hn B_pos, M.pure_bind]
  dsimp only
  rw [Nat.add_zero]
  have hr : (t0 + m * n0) % B % 2 ^ e = 0 := by
    rw [Nat.mod_mod_of_dvd _ hpB]; exact Nat.mod_eq_zero_of_dvd hdvd
  rw [and_mask he, M.assert_eq hr, M.pure_bind,
    redc_rshift_lo_eq he (Nat.mod_lt _ B_pos), M.pure_bind]
  have hrB := Nat.mod_lt (t0 + m * n0) B_pos
  have hdm := Nat.mod_add_div (t0 + m * n0) B
  refine Sat.pure ⟨rfl, rfl, hmlt, ?_, ?_, ?_⟩
  · dsimp only
    refine Nat.div_lt_of_lt_mul ?_
    rw [← B_split he]; exact hrB
  · dsimp only
    refine Nat.div_lt_of_lt_mul ?_
    have h1 : m * n0 ≤ (B - 1) * (B - 1) := Nat.mul_le_mul (by omega) (by omega)
    have h2 : (B - 1) * (B - 1) + (B - 1) = (B - 1) * B := by
      conv_rhs => rw [show B = (B - 1) + 1 by have := B_pos; omega]
      rw [Nat.add_sub_cancel, Nat.mul_add, mul_one]
    have h3 : (B - 1) * B < B * B := Nat.mul_lt_mul_of_pos_right (by have := B_pos; omega) B_pos
    omega
  · dsimp only
    rw [pow_zero, one_mul, Nat.zero_add, Nat.zero_add, pow_one,
      Nat.mul_div_cancel' (Nat.dvd_of_mod_eq_zero hr)]
    exact hdm

theorem update_sat {k : RedcKernel} {e X j out t n : ℕ} (he : e ≤ W) (hk : k.Inv e X j out)
    (ht : t < B) (hn : n < B) :
    Sat (k.update t n) (fun s => s.1.m = k.m ∧ s.2 < B ∧
      s.1.Inv e (X + B ^ (j + 1) * (t + k.m * n)) (j + 1) (out + B ^ j * s.2)) := by
  have hpB := two_pow_dvd_B he
  have hmB : k.m < B := lt_of_lt_of_le hk.m_lt (Nat.le_of_dvd B_pos hpB)
  unfold update
  obtain ⟨c, r, h1, hc, hr, hv⟩ := ct_mul_add_l_l_l_c_spec ht hmB hn hk.carry
  rw [h1, M.pure_bind]
  dsimp only
  rw [hk.rshift, hk.mask, redc_lshift_hi_eq he hr, M.pure_bind, redc_rshift_lo_eq he hr,
    M.pure_bind]
  have e1 : k.last_redced_val ||| r % 2 ^ e * 2 ^ (W - e)
      = r % 2 ^ e * 2 ^ (W - e) + k.last_redced_val := by
    rw [Nat.or_comm, or_eq_add_of_lt hk.last]
  have hrp := Nat.mod_lt r (Nat.two_pow_pos e)
  rw [e1]
  refine Sat.pure ⟨rfl, ?_, ⟨rfl, rfl, hk.m_lt, ?_, hc, ?_⟩⟩
  · dsimp only
    have h2 : (r % 2 ^ e + 1) * 2 ^ (W - e) ≤ 2 ^ e * 2 ^ (W - e) :=
      Nat.mul_le_mul_right _ hrp
    rw [← B_split he, Nat.add_mul, one_mul] at h2
    have := hk.last
    omega
  · dsimp only
    refine Nat.div_lt_of_lt_mul ?_
    rw [← B_split he]; exact hr
  · dsimp only
    have h3 := Nat.mod_add_div r (2 ^ e)
    rw [← hk.val, Nat.add_assoc _ (B ^ (j + 1) * k.carry), ← Nat.mul_add,
      show k.carry + (t + k.m * n) = r + c * B by rw [← hv]; ring]
    calc _ = 2 ^ e * (out + B ^ j * k.last_redced_val) +
          (B ^ j * (2 ^ e * 2 ^ (W - e))) * (r % 2 ^ e)
          + B ^ (j + 1) * (2 ^ e * (r / 2 ^ e)) + B ^ (j + 1) * B * c := by ring
      _ = 2 ^ e * (out + B ^ j * k.last_redced_val) +
          B ^ (j + 1) * (r % 2 ^ e + 2 ^ e * (r / 2 ^ e)) + B ^ (j + 1) * B * c := by
        rw [← B_split he, ← pow_succ]; ring
      _ = _ := by rw [h3]; ring

theorem finish_sat {k : RedcKernel} {X j out t : ℕ} (hk : k.Inv W X j out) (ht : t < B) :
    Sat (k.finish t) (fun s => s.1 ≤ 1 ∧ s.2 < B ∧
      B * (out + B ^ j * (s.2 + B * s.1)) = X + B ^ (j + 1) * t) := by
  unfold finish
  have hlast := hk.last
  rw [Nat.sub_self, pow_zero] at hlast
  have hl0 : k.last_redced_val = 0 := by omega
  rw [hk.mask, and_bnot_mask ht le_rfl, ← B_eq_two_pow, Nat.div_eq_of_lt ht, Nat.zero_mul,
    M.assert_eq rfl, M.pure_bind, ct_add_l_l_eq ht hk.carry]
  dsimp only
  rw [hk.rshift, redc_lshift_hi_eq le_rfl (Nat.mod_lt _ B_pos), M.pure_bind, hl0, Nat.zero_or,
    Nat.sub_self, pow_zero, mul_one, ← B_eq_two_pow, Nat.mod_mod]
  have hv := hk.val
  rw [hl0, Nat.mul_zero, Nat.add_zero, ← B_eq_two_pow] at hv
  have hc := hk.carry
  refine Sat.pure ⟨?_, Nat.mod_lt _ B_pos, ?_⟩
  · dsimp only
    have : (t + k.carry) / B < 2 := Nat.div_lt_of_lt_mul (by omega)
    omega
  · dsimp only
    rw [Nat.mod_add_div, ← hv, pow_succ]
    ring

end RedcKernel

/-- The value of a buffer whose most significant limb is held in a shadow, and of a carry. -/
def shadowVal (N : ℕ) (t : Buf f) (high carry : ℕ) : ℕ :=
  t.toNat % B ^ (N - 1) + B ^ (N - 1) * (high + B * carry)

theorem shadow_dig {N : ℕ} {t : Buf f} {high carry i : ℕ} (hi : i < N - 1) :
    shadowVal N t high carry / B ^ i % B = t.toNat / B ^ i % B := by
  unfold shadowVal
  obtain ⟨k, hk⟩ := Nat.exists_eq_add_of_lt hi
  have h1 : t.toNat % B ^ (N - 1) / B ^ i % B = t.toNat / B ^ i % B := by
    have h2 := low_high t.toNat (N - 1)
    conv_rhs => rw [h2]
    rw [hk, show i + k + 1 = i + (k + 1) by ring, pow_add, Nat.mul_assoc,
      Nat.add_mul_div_left _ _ (B_pow_pos i), pow_succ', Nat.mul_assoc, Nat.add_mul_mod_self_left]
  rw [← h1, hk, show i + k + 1 = i + (k + 1) by ring, pow_add B i, Nat.mul_assoc,
    Nat.add_mul_div_left _ _ (B_pow_pos i), pow_succ' B k, Nat.mul_assoc B,
    Nat.add_mul_mod_self_left]

theorem shadow_high {N : ℕ} {t : Buf f} {high carry : ℕ} (hh : high < B) :
    shadowVal N t high carry / B ^ (N - 1) % B = high := by
  unfold shadowVal
  rw [Nat.add_mul_div_left _ _ (B_pow_pos _), Nat.div_eq_of_lt (mod_lt_pow _ _), Nat.zero_add,
    Nat.add_mul_mod_self_left, Nat.mod_eq_of_lt hh]

theorem shadow_mod {N : ℕ} (hN : 0 < N) {t : Buf f} {high carry : ℕ} (hh : high < B) :
    shadowVal N t high carry % B ^ N + B ^ N * carry = shadowVal N t high carry := by
  have h1 : shadowVal N t high carry
      = (t.toNat % B ^ (N - 1) + B ^ (N - 1) * high) + B ^ N * carry := by
    unfold shadowVal
    conv_rhs => rw [show N = N - 1 + 1 by omega]
    rw [Nat.add_sub_cancel, pow_succ]; ring
  have h2 : t.toNat % B ^ (N - 1) + B ^ (N - 1) * high < B ^ N := by
    have h3 := mod_lt_pow t.toNat (N - 1)
    have h4 : B ^ (N - 1) * (high + 1) ≤ B ^ (N - 1) * B := Nat.mul_le_mul_left _ hh
    rw [← pow_succ, show N - 1 + 1 = N by omega, Nat.mul_add, mul_one] at h4
    omega
  rw [h1, Nat.add_mul_mod_self_left, Nat.mod_eq_of_lt h2]

end Cmpa
