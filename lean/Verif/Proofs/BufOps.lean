import Verif.Proofs.Upto
import Verif.Proofs.Usize

/-!
# Clearing, copying, bit access
-/

set_option linter.unusedSectionVars false

namespace Cmpa
variable [LimbCfg] {f g : Fmt}

open M

theorem and_bnot_mask {x n : ℕ} (hx : x < B) (hn : n ≤ W) :
    x &&& bnot (ct_lsb_mask_l n) = x / 2 ^ n * 2 ^ n := by
  rw [ct_lsb_mask_l_eq hn]
  unfold bnot B
  apply Nat.eq_of_testBit_eq
  intro j
  rw [Nat.testBit_and, Nat.testBit_mul_two_pow]
  have h2 : 2 ^ n - 1 < 2 ^ W := by
    have := Nat.pow_le_pow_right (n := 2) (by norm_num) hn
    have := Nat.two_pow_pos n
    omega
  rw [show 2 ^ W - 1 - (2 ^ n - 1) = 2 ^ W - (2 ^ n - 1 + 1) by omega,
    Nat.testBit_two_pow_sub_succ h2, Nat.testBit_two_pow_sub_one, Nat.testBit_div_two_pow]
  by_cases hj : n ≤ j
  · rw [Nat.sub_add_cancel hj]
    by_cases hw : j < W
    · simp [hj, hw]
    · have : x.testBit j = false := Nat.testBit_lt_two_pow (lt_of_lt_of_le hx
        (Nat.pow_le_pow_right (by norm_num) (by omega)))
      simp [this]
  · simp [hj, show j < n by omega]

theorem bnot_zero : bnot 0 = lmax := by unfold bnot lmax; rfl

theorem and_two_pow_sub_one (x n : ℕ) : x &&& (2 ^ n - 1) = x % 2 ^ n :=
  Nat.and_two_pow_sub_one_eq_mod x n

/-- Digits of `x` with the low `k` bits cleared. -/
theorem dig_clear_low (x k i : ℕ) :
    x / 2 ^ k * 2 ^ k / B ^ i % B
      = x / B ^ i % B / 2 ^ (min (k - i * W) W) * 2 ^ (min (k - i * W) W) := by
  rw [B_pow_eq]
  apply Nat.eq_of_testBit_eq
  intro j
  unfold B
  simp only [Nat.testBit_mod_two_pow, Nat.testBit_div_two_pow, Nat.testBit_mul_two_pow]
  by_cases h1 : j < W <;> by_cases h2 : k ≤ j + i * W
  · have h3 : min (k - i * W) W ≤ j := by omega
    simp only [h1, h2, h3, decide_true, Bool.true_and]
    rw [Nat.sub_add_cancel h2, Nat.sub_add_cancel h3]
    simp [h1]
  · have h3 : ¬ min (k - i * W) W ≤ j := by omega
    simp [h2, h3]
  · have h3 : min (k - i * W) W ≤ j := by omega
    simp only [h1, h3, decide_true, Bool.true_and]
    rw [Nat.sub_add_cancel h3]
    simp [h1]
  · have h3 : min (k - i * W) W ≤ j := by omega
    simp only [h1, h3, decide_true, Bool.true_and]
    rw [Nat.sub_add_cancel h3]
    simp [h1]

theorem mod_lt_len (b : Buf f) (m : ℕ) : b.toNat % m < 256 ^ b.len :=
  lt_of_le_of_lt (Nat.mod_le _ _) b.toNat_lt

theorem clear_lt_len (b : Buf f) (m : ℕ) : b.toNat / m * m < 256 ^ b.len :=
  lt_of_le_of_lt (Nat.div_mul_le_self _ _) b.toNat_lt

theorem lt_B_pow_of_lt {b : Buf f} {y : ℕ} (h : y < 256 ^ b.len) : y < B ^ b.nlimbs :=
  lt_of_lt_of_le h (pow_len_le _)

theorem div_W_mul (k : ℕ) : k / W * W + k % W = k := Nat.div_add_mod' k W

theorem ct_clear_bits_above_mp_sat (b : Buf f) (k : ℕ) :
    Sat (ct_clear_bits_above_mp b k) (fun b' => b'.len = b.len ∧ b'.toNat = b.toNat % 2 ^ k) := by
  unfold ct_clear_bits_above_mp
  dsimp only
  have hW := W_pos
  have hkW : k % W < W := Nat.mod_lt _ hW
  refine Sat.bind (P := fun s => Upto b (b.toNat % 2 ^ k) b.nlimbs s.1) ?_ ?_
  · refine (Sat.forRange (P := fun i s => Upto b (b.toNat % 2 ^ k) i s.1 ∧
      s.2 = if k / W < i then 0 else lmax) (Nat.zero_le _) ?_ ?_).mono fun _ h => h.1
    · exact ⟨Upto.zero _ _, by simp⟩
    · rintro i ⟨c, m⟩ - hi ⟨hU, hm⟩
      dsimp only at hU hm ⊢
      subst hm
      refine Sat.bind (hU.sat_load hi le_rfl (Q := fun v => v = b.toNat / B ^ i % B) rfl) ?_
      rintro _ rfl
      have hd := dig_lt b.toNat i
      have hdm := div_W_mul k
      refine Sat.bind (hU.sat_store hi (mod_lt_len _ _) ?_
        (Q := fun b' => Upto b (b.toNat % 2 ^ k) (i + 1) b') fun _ h => h) ?_
      · rw [ct_eq_usize_usize_eq, LimbChoice.select_ofBool, dig_mod_two_pow]
        · rcases Nat.lt_trichotomy i (k / W) with h | h | h
          · rw [if_neg (by simpa using h.ne), if_neg (by omega), and_lmax hd]
            refine (Nat.mod_eq_of_lt ?_).symm
            refine lt_of_lt_of_le hd (Nat.pow_le_pow_right (by norm_num) ?_)
            have := Nat.mul_le_mul_right W (Nat.succ_le_of_lt h)
            rw [Nat.succ_mul] at this
            omega
          · rw [if_pos (by simpa using h), and_mask hkW.le, h]
            congr 2; omega
          · rw [if_neg (by simpa using h.ne'), if_pos h, Nat.and_zero]
            have := Nat.mul_le_mul_right W (Nat.succ_le_of_lt h)
            rw [Nat.succ_mul] at this
            rw [show k - i * W = 0 by omega, pow_zero, Nat.mod_one]
        · split
          · exact B_pos
          · exact lmax_lt
        · rw [ct_lsb_mask_l_eq hkW.le]
          have := two_pow_lt_B hkW
          omega
      · intro b' hb'
        refine Sat.pure ⟨hb', ?_⟩
        dsimp only
        rw [ct_eq_usize_usize_eq, LimbChoice.select_ofBool (by split; exact B_pos; exact lmax_lt) B_pos]
        by_cases h : i = k / W
        · simp [h]
        · by_cases h2 : k / W < i
          · simp [h, h2, Nat.lt_succ_of_lt h2]
          · simp [h, h2, show ¬ k / W < i + 1 by omega]
  · rintro ⟨b', _⟩ h
    exact Sat.pure ⟨h.len, h.final le_rfl (lt_B_pow_of_lt (mod_lt_len _ _))⟩

theorem clear_bits_above_mp_sat (b : Buf f) (k : ℕ) :
    Sat (clear_bits_above_mp b k) (fun b' => b'.len = b.len ∧ b'.toNat = b.toNat % 2 ^ k) := by
  unfold clear_bits_above_mp
  dsimp only
  have hW := W_pos
  have hkW : k % W < W := Nat.mod_lt _ hW
  have hdm := div_W_mul k
  refine Sat.cond (fun h => ?_) (fun h => ?_)
  · refine Sat.pure ⟨rfl, (Nat.mod_eq_of_lt ?_).symm⟩
    refine lt_of_lt_of_le b.toNat_lt_B ?_
    rw [B_pow_eq]
    refine Nat.pow_le_pow_right (by norm_num) ?_
    have := Nat.mul_le_mul_right W h
    omega
  · have h : k / W < b.nlimbs := by omega
    refine Sat.bind (b.sat_load_l h (Q := fun v => v = b.toNat / B ^ (k / W) % B) rfl) ?_
    rintro _ rfl
    rw [and_mask hkW.le]
    have hd := dig_lt b.toNat (k / W)
    refine Sat.bind (b.sat_store_l h (lt_of_le_of_lt (Nat.mod_le _ _) hd) ?_
      (Q := fun b' => b'.len = b.len ∧ b'.toNat =
        upd b.toNat (k / W) (b.toNat / B ^ (k / W) % B % 2 ^ (k % W))) fun _ h1 h2 => ⟨h1, h2⟩) ?_
    · intro h'
      exact lt_of_le_of_lt (Nat.mod_le _ _) (Upto.high_lt b.toNat_lt h')
    · rintro b' ⟨h1, h2⟩
      refine b'.sat_clear_bytes_above _ fun c hc1 hc2 => ⟨hc1.trans h1, ?_⟩
      rw [hc2, h2, pow_256]
      have e : b.toNat % 2 ^ k = b.toNat % B ^ (k / W) + B ^ (k / W) *
          (b.toNat / B ^ (k / W) % B % 2 ^ (k % W)) := by
        have h3 := dig_mod_two_pow b.toNat k (k / W)
        rw [show k - k / W * W = k % W by omega] at h3
        rw [← h3]
        have h4 := mod_succ (b.toNat % 2 ^ k) (k / W)
        have h5 : b.toNat % 2 ^ k < B ^ (k / W + 1) := by
          refine lt_of_lt_of_le (Nat.mod_lt _ (Nat.two_pow_pos k)) ?_
          rw [B_pow_eq]
          refine Nat.pow_le_pow_right (by norm_num) ?_
          rw [Nat.add_mul]; omega
        rw [Nat.mod_eq_of_lt h5] at h4
        conv_lhs => rw [h4]
        congr 1
        rw [B_pow_eq, Nat.mod_mod_of_dvd]
        exact Nat.pow_dvd_pow 2 (by omega)
      by_cases h0 : k % W = 0
      · have : (k + W - 1) / W = k / W := by
          rw [Nat.div_eq_iff hW]
          omega
        rw [this, upd_mod _ _ _ le_rfl, e, h0, pow_zero, Nat.mod_one]; simp
      · have : (k + W - 1) / W = k / W + 1 := by
          rw [Nat.div_eq_iff hW, Nat.add_mul]
          omega
        rw [this, upd_mod_succ (lt_of_le_of_lt (Nat.mod_le _ _) hd), e]

theorem ct_clear_bits_below_mp_sat (b : Buf f) (k : ℕ) :
    Sat (ct_clear_bits_below_mp b k)
      (fun b' => b'.len = b.len ∧ b'.toNat = b.toNat / 2 ^ k * 2 ^ k) := by
  unfold ct_clear_bits_below_mp
  dsimp only
  have hW := W_pos
  have hkW : k % W < W := Nat.mod_lt _ hW
  have hdm := div_W_mul k
  refine Sat.bind (P := fun s => Upto b (b.toNat / 2 ^ k * 2 ^ k) b.nlimbs s.1) ?_ ?_
  · refine (Sat.forRange (P := fun i s => Upto b (b.toNat / 2 ^ k * 2 ^ k) i s.1 ∧
      s.2 = if k / W < i then lmax else 0) (Nat.zero_le _) ?_ ?_).mono fun _ h => h.1
    · exact ⟨Upto.zero _ _, by simp⟩
    · rintro i ⟨c, m⟩ - hi ⟨hU, hm⟩
      dsimp only at hU hm ⊢
      subst hm
      refine Sat.bind (hU.sat_load hi le_rfl (Q := fun v => v = b.toNat / B ^ i % B) rfl) ?_
      rintro _ rfl
      have hd := dig_lt b.toNat i
      have hs : (if k / W < i then lmax else 0) < B := by
        split
        · exact lmax_lt
        · exact B_pos
      refine Sat.bind (hU.sat_store hi (clear_lt_len _ _) ?_
        (Q := fun b' => Upto b (b.toNat / 2 ^ k * 2 ^ k) (i + 1) b') fun _ h => h) ?_
      · rw [ct_eq_usize_usize_eq, LimbChoice.select_ofBool hs bnot_lt, dig_clear_low]
        rcases Nat.lt_trichotomy i (k / W) with h | h | h
        · rw [if_neg (by simpa using h.ne), if_neg (by omega), Nat.and_zero]
          have := Nat.mul_le_mul_right W (Nat.succ_le_of_lt h)
          rw [Nat.succ_mul] at this
          rw [show min (k - i * W) W = W by omega, ← B_eq_two_pow, Nat.div_eq_of_lt hd, Nat.zero_mul]
        · rw [if_pos (by simpa using h), and_bnot_mask hd hkW.le]
          rw [show min (k - i * W) W = k % W by rw [h]; omega]
        · rw [if_neg (by simpa using h.ne'), if_pos h, and_lmax hd]
          have := Nat.mul_le_mul_right W (Nat.succ_le_of_lt h)
          rw [Nat.succ_mul] at this
          rw [show min (k - i * W) W = 0 by omega, pow_zero, Nat.div_one, Nat.mul_one]
      · intro b' hb'
        refine Sat.pure ⟨hb', ?_⟩
        dsimp only
        rw [ct_eq_usize_usize_eq, LimbChoice.select_ofBool hs lmax_lt]
        by_cases h : i = k / W
        · simp [h]
        · by_cases h2 : k / W < i
          · simp [h, h2, Nat.lt_succ_of_lt h2]
          · simp [h, h2, show ¬ k / W < i + 1 by omega]
  · rintro ⟨b', _⟩ h
    exact Sat.pure ⟨h.len, h.final le_rfl (lt_B_pow_of_lt (clear_lt_len _ _))⟩

theorem clear_bits_below_mp_sat (b : Buf f) (k : ℕ) :
    Sat (clear_bits_below_mp b k)
      (fun b' => b'.len = b.len ∧ b'.toNat = b.toNat / 2 ^ k * 2 ^ k) := by
  unfold clear_bits_below_mp
  dsimp only
  have hW := W_pos
  have hkW : k % W < W := Nat.mod_lt _ hW
  have hdm := div_W_mul k
  refine Sat.bind (b.sat_clear_bytes_below (k := k / W * LB) ?_
    (Q := fun b' => b'.len = b.len ∧ b'.toNat = b.toNat / B ^ (k / W) * B ^ (k / W))
    fun b' h1 h2 => ⟨h1, by rw [h2, pow_256]⟩) ?_
  · exact Or.inr (Or.inr (Dvd.intro_left _ rfl))
  · rintro b' ⟨h1, h2⟩
    have e : b.toNat / 2 ^ k * 2 ^ k = upd b'.toNat (k / W)
        (b'.toNat / B ^ (k / W) % B &&& bnot (ct_lsb_mask_l (k % W))) := by
      have hp : B ^ (k / W) * 2 ^ (k % W) = 2 ^ k := by
        rw [B_pow_eq, ← pow_add, hdm]
      have hpos := B_pow_pos (k / W)
      have hsub : B = 2 ^ (k % W) * 2 ^ (W - k % W) := by
        rw [← pow_add, B_eq_two_pow]; congr 1; omega
      rw [and_bnot_mask (dig_lt _ _) hkW.le]
      unfold upd
      rw [h2, Nat.mul_mod_left, zero_add, Nat.mul_div_cancel _ hpos, pow_succ,
        ← Nat.div_div_eq_div_mul, Nat.mul_div_cancel _ hpos, ← hp, ← Nat.div_div_eq_div_mul]
      generalize b.toNat / B ^ (k / W) = z
      have h3 : z = z % B + B * (z / B) := (Nat.mod_add_div _ _).symm
      have h4 : z / 2 ^ (k % W) = z % B / 2 ^ (k % W) + 2 ^ (W - k % W) * (z / B) := by
        conv_lhs => rw [h3]
        rw [show B * (z / B) = 2 ^ (k % W) * (2 ^ (W - k % W) * (z / B)) by
          rw [← mul_assoc, ← hsub], Nat.add_mul_div_left _ _ (Nat.two_pow_pos _)]
      rw [h4]
      calc _ = B ^ (k / W) * (z % B / 2 ^ (k % W) * 2 ^ (k % W) +
            (2 ^ (k % W) * 2 ^ (W - k % W)) * (z / B)) := by ring
        _ = _ := by rw [← hsub]
    refine Sat.cond (fun h => ?_) (fun h => ?_)
    · refine Sat.pure ⟨h1, ?_⟩
      have hlt : b.toNat < B ^ (k / W) := lt_of_lt_of_le b.toNat_lt_B
        (Nat.pow_le_pow_right B_pos (by rw [Buf.nlimbs_congr h1] at h; exact h))
      rw [h2, Nat.div_eq_of_lt hlt, Nat.div_eq_of_lt (lt_of_lt_of_le hlt ?_)]
      · simp
      · rw [B_pow_eq]; exact Nat.pow_le_pow_right (by norm_num) (by omega)
    · have h : k / W < b'.nlimbs := by omega
      refine Sat.bind (b'.sat_load_l h (Q := fun v => v = b'.toNat / B ^ (k / W) % B) rfl) ?_
      rintro _ rfl
      refine b'.sat_store_l h (and_lt (dig_lt _ _)) ?_ fun c hc1 hc2 => ⟨hc1.trans h1, ?_⟩
      · intro h'
        exact lt_of_le_of_lt Nat.and_le_left (Upto.high_lt b'.toNat_lt h')
      · rw [hc2, e]

end Cmpa
