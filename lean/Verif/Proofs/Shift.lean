import Verif.Model.Shift
import Verif.Proofs.Low

/-!
# Shifts of multiprecision integers
-/

set_option linter.unusedSectionVars false

namespace Cmpa
variable [LimbCfg] {f : Fmt}

open M

/-- `omega`, with the two possible values of `W` plugged in. -/
macro "womega" : tactic =>
  `(tactic| (have hWc := W_cases; generalize W = w at *; rcases hWc with rfl | rfl <;> omega))

theorem shlC_eq {a s : ℕ} (h : s < W) : shlC a s = pure (shl a s) := by
  unfold shlC; rw [M.assert_eq h, M.pure_bind, Nat.mod_eq_of_lt h]
theorem shrC_eq {a s : ℕ} (h : s < W) : shrC a s = pure (shr a s) := by
  unfold shrC; rw [M.assert_eq h, M.pure_bind, Nat.mod_eq_of_lt h]

theorem testBit_shl (a s t : ℕ) :
    (shl a s).testBit t = (decide (t < W) && (decide (s ≤ t) && a.testBit (t - s))) := by
  unfold shl B
  rw [Nat.testBit_mod_two_pow, Nat.testBit_shiftLeft]

theorem testBit_shr (a s t : ℕ) : (shr a s).testBit t = a.testBit (s + t) := by
  unfold shr; rw [Nat.testBit_shiftRight]

theorem testBit_of_ge {x : ℕ} (h : x < B) {t : ℕ} (ht : W ≤ t) : x.testBit t = false :=
  Nat.testBit_lt_two_pow (lt_of_lt_of_le h (Nat.pow_le_pow_right (by norm_num) ht))

theorem Buf.testBit_high (b : Buf f) {j : ℕ} (h : 8 * b.len ≤ j) : b.toNat.testBit j = false := by
  refine Nat.testBit_lt_two_pow (lt_of_lt_of_le b.toNat_lt ?_)
  rw [pow_256_eq]; exact Nat.pow_le_pow_right (by norm_num) h

theorem nbits_le (n : ℕ) : 8 * n ≤ ct_mp_nlimbs n * W := by
  have := le_nlimbs_mul n
  rw [W_eq, Nat.mul_left_comm]; omega

theorem nbits_gt {n : ℕ} (h : 0 < n) : (ct_mp_nlimbs n - 1) * W < 8 * n := by
  have := pred_nlimbs_mul_lt h
  rw [W_eq, Nat.mul_left_comm]; omega

theorem div_W_lt_nlimbs {n j : ℕ} (h : j < 8 * n) : j / W < ct_mp_nlimbs n := by
  rw [Nat.div_lt_iff_lt_mul W_pos]; exact lt_of_lt_of_le h (nbits_le n)

/-- The bits of the value composed from two adjacent limbs. -/
theorem testBit_compose {lo hi r t : ℕ} (hlo : lo < B) (hr : r < W) (ht : t < W) :
    (shl (hi &&& ct_lsb_mask_l r) ((W - r) % W) ||| shr lo r).testBit t
      = if t + r < W then lo.testBit (t + r) else hi.testBit (t + r - W) := by
  rw [Nat.testBit_or, testBit_shl, testBit_shr, Nat.testBit_and, ct_lsb_mask_l_eq hr.le,
    Nat.testBit_two_pow_sub_one]
  rcases Nat.eq_zero_or_pos r with rfl | h0
  · simp [ht]
  · rw [Nat.mod_eq_of_lt (by omega : W - r < W)]
    split
    · rename_i h
      simp [show ¬ (W - r ≤ t) by omega, Nat.add_comm]
    · rename_i h
      rw [testBit_of_ge hlo (by omega)]
      simp [ht, show W - r ≤ t by omega, show t - (W - r) = t + r - W by omega]
      intro _; omega

/-- The window of `W` bits starting at `bg`. -/
theorem window {b : Buf f} {bg : ℕ} (hb : bg < 8 * b.len) (hi : ℕ)
    (hhi : bg + W ≤ b.nlimbs * W → hi = b.toNat / B ^ ((bg + W - 1) / W) % B) :
    (shl (hi &&& (if b.nlimbs * W < bg + W then 0 else ct_lsb_mask_l (bg % W))) ((W - bg % W) % W) |||
      shr (b.toNat / B ^ (bg / W) % B) (bg % W)) = b.toNat / 2 ^ bg % B := by
  have hr := Nat.mod_lt bg W_pos
  have hdm := div_W_mul bg
  apply Nat.eq_of_testBit_eq; intro t
  by_cases ht : t < W
  swap
  · rw [testBit_of_ge (or_lt shl_lt (shr_lt (dig_lt _ _))) (by omega),
      testBit_of_ge (Nat.mod_lt _ B_pos) (by omega)]
  have hgoal : (b.toNat / 2 ^ bg % B).testBit t = b.toNat.testBit (bg + t) := by
    unfold B
    rw [Nat.testBit_mod_two_pow, Nat.testBit_div_two_pow]; simp [ht, Nat.add_comm]
  rw [hgoal]
  by_cases hgt : b.nlimbs * W < bg + W
  · rw [if_pos hgt, Nat.and_zero]
    have h0 : shl 0 ((W - bg % W) % W) = 0 := by unfold shl; simp
    rw [h0, Nat.zero_or, testBit_shr, testBit_dig]
    by_cases h : bg % W + t < W
    · simp only [h, decide_true, Bool.true_and]
      congr 1; omega
    · simp only [h, decide_false, Bool.false_and]
      symm
      apply b.testBit_high
      have hn := nbits_le b.len
      rw [← Buf.nlimbs_eq] at hn
      have h1 : b.nlimbs ≤ bg / W + 1 := by
        by_contra hc
        have := Nat.mul_le_mul_right W (show bg / W + 2 ≤ b.nlimbs by omega)
        rw [Nat.add_mul] at this; omega
      have h2 := Nat.mul_le_mul_right W h1
      rw [Nat.add_mul] at h2; omega
  · rw [if_neg hgt, testBit_compose (dig_lt _ _) hr ht]
    split
    · rename_i h
      rw [testBit_dig]
      simp only [h, decide_true, Bool.true_and]
      congr 1; omega
    · rename_i h
      rw [hhi (by omega), testBit_dig]
      have h1 : (bg + W - 1) / W = bg / W + 1 := by
        have hW := W_pos
        rw [show bg + W - 1 = (bg % W - 1) + W * (bg / W + 1) by
          rw [Nat.mul_add, Nat.mul_comm]; omega, Nat.add_mul_div_left _ _ hW,
          Nat.div_eq_of_lt (by omega)]; omega
      rw [h1, Nat.add_mul]
      simp only [show t + bg % W - W < W by omega, decide_true, Bool.true_and]
      congr 1; omega

theorem ct_lshift_mp_out_sat (b : Buf f) (d : ℕ) (hb : 0 < b.len) :
    Sat (ct_lshift_mp_out b d) (fun o => o = b.toNat * 2 ^ d / 2 ^ (8 * b.len) % B) := by
  unfold ct_lshift_mp_out
  dsimp only
  have hW := W_pos
  have hnl := Buf.nlimbs_eq b
  have hnb := nbits_le b.len
  have hx : b.toNat < 2 ^ (8 * b.len) := by rw [← pow_256_eq]; exact b.toNat_lt
  simp only [ct_lt_usize_usize_eq, ct_geq_usize_usize_eq, ct_leq_usize_usize_eq,
    ct_gt_usize_usize_eq, LimbChoice.select_usize_ofBool, decide_eq_true_eq, LimbChoice.or_ofBool]
  by_cases hd0 : d = 0
  · -- nothing is shifted out
    subst hd0
    rw [if_neg (show ¬ 8 * b.len < 0 by omega), Nat.sub_zero,
      if_pos (show 8 * b.len ≥ 8 * b.len from le_rfl)]
    have h1 : ¬ (8 * b.len + W ≤ 0) := by omega
    simp only [h1, if_false, Nat.sub_zero, decide_false, Bool.false_or, ge_iff_le, le_refl,
      decide_true, ite_self, if_true, not_lt_zero']
    refine Sat.bind (b.sat_load_l (by have := nlimbs_pos_iff.2 hb; omega) (Q := fun v => v < B) (dig_lt _ _)) fun v hv => ?_
    have hm := Nat.mod_lt (8 * b.len) hW
    rw [shrC_eq hm, M.pure_bind]
    refine Sat.bind (b.sat_load_l ?_ (Q := fun v => v < B) (dig_lt _ _)) fun v2 hv2 => ?_
    · rw [hnl]
      split
      · exact div_W_lt_nlimbs (by omega)
      · rw [Nat.div_lt_iff_lt_mul hW]; omega
    rw [shlC_eq (Nat.mod_lt _ hW), M.pure_bind, LimbChoice.select_ofBool (or_lt shl_lt (shr_lt hv)) B_pos,
      if_pos rfl, shlC_eq hW]
    refine Sat.pure ?_
    rw [pow_zero, mul_one, Nat.div_eq_of_lt hx]
    unfold shl; simp
  have h1 : ¬ (8 * b.len ≤ (if 8 * b.len < d then 0 else 8 * b.len - d)) := by split <;> omega
  simp only [ge_iff_le, h1, if_false, decide_false, Bool.or_false]
  by_cases hend : 8 * b.len + W ≤ d
  · -- everything is shifted beyond what is returned
    rw [if_pos hend, if_pos (show 8 * b.len < d by omega), if_pos hend]
    simp only [Nat.zero_div, not_lt_zero', if_false, hend, decide_true, Nat.zero_mod, if_true]
    refine Sat.bind (b.sat_load_l (by rw [hnl, nlimbs_pos_iff]; exact hb) (Q := fun v => v < B)
      (dig_lt _ _)) fun v hv => ?_
    rw [shrC_eq hW, M.pure_bind]
    refine Sat.bind (b.sat_load_l (by rw [hnl, nlimbs_pos_iff]; exact hb) (Q := fun v => v < B)
      (dig_lt _ _)) fun v2 hv2 => ?_
    rw [shlC_eq (Nat.mod_lt _ hW), M.pure_bind, LimbChoice.select_ofBool (or_lt shl_lt (shr_lt hv)) B_pos,
      if_pos rfl, shlC_eq hW]
    refine Sat.pure ?_
    obtain ⟨k, rfl⟩ := Nat.exists_eq_add_of_le hend
    have : b.toNat * 2 ^ (8 * b.len + W + k) / 2 ^ (8 * b.len) = B * (b.toNat * 2 ^ k) := by
      rw [pow_add, pow_add, show b.toNat * (2 ^ (8 * b.len) * 2 ^ W * 2 ^ k)
        = (2 ^ W * (b.toNat * 2 ^ k)) * 2 ^ (8 * b.len) by ring, Nat.mul_div_cancel _ (by positivity)]
      rfl
    rw [this, Nat.mul_mod_right]
    unfold shl; simp
  simp only [hend, if_false, decide_false]
  by_cases hlt : 8 * b.len < d
  · -- some bits of the lowest limb end up in the result
    have hgt : ¬ (b.nlimbs * W < 8 * b.len + W - d) := by
      have : 1 * W ≤ b.nlimbs * W := Nat.mul_le_mul_right _ (by rw [hnl]; exact nlimbs_pos_iff.2 hb)
      omega
    simp only [hlt, if_true, gt_iff_lt, hgt, if_false, Nat.zero_div, Nat.zero_mod, decide_false]
    refine Sat.bind (b.sat_load_l (by rw [hnl, nlimbs_pos_iff]; exact hb)
      (Q := fun v => v = b.toNat % B) (by simp)) ?_
    rintro _ rfl
    rw [shrC_eq hW, M.pure_bind]
    rw [show (8 * b.len + W - d - 1) / W = 0 from Nat.div_eq_of_lt (by omega)]
    refine Sat.bind (b.sat_load_l (by rw [hnl, nlimbs_pos_iff]; exact hb) (Q := fun v => v < B)
      (dig_lt _ _)) fun v2 hv2 => ?_
    have hmk : ct_lsb_mask_l 0 = 0 := by rw [ct_lsb_mask_l_eq (by omega)]; rfl
    rw [hmk, LimbChoice.select_ofBool B_pos B_pos, ite_self, Nat.and_zero,
      shlC_eq (Nat.mod_lt _ hW), M.pure_bind]
    have h0 : ∀ s, shl 0 s = 0 := fun s => by unfold shl; simp
    rw [h0, Nat.zero_or, shr_eq, pow_zero, Nat.div_one,
      LimbChoice.select_ofBool (Nat.mod_lt _ B_pos) B_pos, if_neg (by simp), shlC_eq (by omega)]
    refine Sat.pure ?_
    obtain ⟨k, rfl⟩ := Nat.exists_eq_add_of_lt hlt
    rw [show 8 * b.len + k + 1 - 8 * b.len = k + 1 by omega]
    rw [show b.toNat * 2 ^ (8 * b.len + k + 1) = (b.toNat * 2 ^ (k + 1)) * 2 ^ (8 * b.len) by ring,
      Nat.mul_div_cancel _ (by positivity)]
    unfold shl
    rw [Nat.shiftLeft_eq, Nat.mod_mul_mod]
  · simp only [hlt, if_false]
    have hbg : 8 * b.len - d < 8 * b.len := by omega
    have heq : 8 * b.len + W - d = (8 * b.len - d) + W := by omega
    have htgt : b.toNat * 2 ^ d / 2 ^ (8 * b.len) = b.toNat / 2 ^ (8 * b.len - d) := by
      conv_lhs => rw [show 8 * b.len = (8 * b.len - d) + d by omega, pow_add]
      rw [Nat.mul_div_mul_right _ _ (by positivity)]
    rw [heq, htgt]
    generalize hbgd : 8 * b.len - d = bg at *
    simp only [gt_iff_lt]
    refine Sat.bind (b.sat_load_l (by rw [hnl]; exact div_W_lt_nlimbs hbg)
      (Q := fun v => v = b.toNat / B ^ (bg / W) % B) rfl) ?_
    rintro _ rfl
    rw [shrC_eq (Nat.mod_lt _ hW), M.pure_bind]
    refine Sat.bind (P := fun v => v < B ∧
      (bg + W ≤ b.nlimbs * W → v = b.toNat / B ^ ((bg + W - 1) / W) % B)) ?_ ?_
    · by_cases hc : b.nlimbs * W < bg + W
      · rw [if_pos hc]
        exact b.sat_load_l (by rw [hnl]; exact div_W_lt_nlimbs (by omega))
          ⟨dig_lt _ _, fun h => by omega⟩
      · rw [if_neg hc]
        exact b.sat_load_l (by rw [Nat.div_lt_iff_lt_mul hW]; omega) ⟨dig_lt _ _, fun h => rfl⟩
    · rintro v ⟨hv, hv'⟩
      rw [LimbChoice.select_ofBool (lt_of_le_of_lt (by
          rw [ct_lsb_mask_l_eq (Nat.mod_lt _ hW).le]; exact Nat.sub_le _ _)
          (two_pow_lt_B (Nat.mod_lt _ hW))) B_pos,
        shlC_eq (Nat.mod_lt _ hW), M.pure_bind]
      simp only [decide_eq_true_eq]
      rw [window hbg v hv', LimbChoice.select_ofBool (Nat.mod_lt _ B_pos) B_pos, if_neg (by simp),
        shlC_eq hW]
      refine Sat.pure ?_
      unfold shl; simp


theorem ct_rshift_mp_out_sat (b : Buf f) (d : ℕ) (hb : 0 < b.len) :
    Sat (ct_rshift_mp_out b d) (fun o => o = b.toNat * 2 ^ W / 2 ^ d % B) := by
  unfold ct_rshift_mp_out
  dsimp only
  have hW := W_pos
  have hnl := Buf.nlimbs_eq b
  have hnb := nbits_le b.len
  have hnp := nlimbs_pos_iff.2 hb
  have hnW : W ≤ b.nlimbs * W := by
    have : 1 * W ≤ b.nlimbs * W := Nat.mul_le_mul_right _ (by omega)
    omega
  have hx : b.toNat < 2 ^ (8 * b.len) := by rw [← pow_256_eq]; exact b.toNat_lt
  have h0 : ∀ s, shl 0 s = 0 := fun s => by unfold shl; simp
  simp only [ct_lt_usize_usize_eq, ct_geq_usize_usize_eq, ct_eq_usize_usize_eq,
    ct_gt_usize_usize_eq, LimbChoice.select_usize_ofBool, decide_eq_true_eq, LimbChoice.or_ofBool,
    ge_iff_le, gt_iff_lt]
  by_cases hlt : d < W
  · have h1 : ¬ (8 * b.len ≤ 0) := by omega
    have h2 : ¬ (b.nlimbs * W < d) := by omega
    have h3 : (if 0 = d then 0 else (d - 1) / W) = 0 := by
      split
      · rfl
      · exact Nat.div_eq_of_lt (by omega)
    simp only [hlt, if_true, h1, if_false, h2, h3, Nat.zero_div, Nat.zero_mod, decide_false,
      Bool.or_false]
    refine Sat.bind (b.sat_load_l (by omega) (Q := fun v => v = b.toNat % B) (by simp)) ?_
    rintro _ rfl
    rw [shrC_eq hW, M.pure_bind]
    refine Sat.bind (b.sat_load_l (by omega) (Q := fun v => v < B) (dig_lt _ _)) fun v2 hv2 => ?_
    have hmk : ct_lsb_mask_l 0 = 0 := by rw [ct_lsb_mask_l_eq (by omega)]; rfl
    rw [hmk, LimbChoice.select_ofBool B_pos B_pos, ite_self, Nat.and_zero,
      shlC_eq (Nat.mod_lt _ hW), M.pure_bind]
    rw [h0, Nat.zero_or, shr_eq, pow_zero, Nat.div_one,
      LimbChoice.select_ofBool (Nat.mod_lt _ B_pos) B_pos]
    by_cases hd : d = 0
    · subst hd
      rw [if_pos (by simp), if_pos rfl, shlC_eq hW, h0]
      refine Sat.pure ?_
      rw [pow_zero, Nat.div_one]; exact (Nat.mul_mod_left _ _).symm
    · rw [if_neg (by simp; omega), if_neg (by omega), shlC_eq (by omega)]
      refine Sat.pure ?_
      rw [show b.toNat * 2 ^ W = b.toNat * 2 ^ (W - d) * 2 ^ d by
        rw [Nat.mul_assoc, ← pow_add]; congr 2; omega, Nat.mul_div_cancel _ (by positivity)]
      unfold shl
      rw [Nat.shiftLeft_eq, Nat.mod_mul_mod]
  have hd0 : ¬ (0 = d) := by omega
  simp only [hlt, if_false, hd0, decide_false, Bool.false_or]
  obtain ⟨bg, rfl⟩ : ∃ bg, d = bg + W := ⟨d - W, by omega⟩
  rw [Nat.add_sub_cancel]
  have htgt : b.toNat * 2 ^ W / 2 ^ (bg + W) = b.toNat / 2 ^ bg := by
    rw [pow_add, Nat.mul_div_mul_right _ _ (by positivity)]
  rw [htgt]
  by_cases hge : 8 * b.len ≤ bg
  · simp only [hge, if_true, decide_true]
    refine Sat.bind (b.sat_load_l (by omega) (Q := fun v => v < B) (dig_lt _ _)) fun v hv => ?_
    rw [shrC_eq (Nat.mod_lt _ hW), M.pure_bind]
    refine Sat.bind (b.sat_load_l ?_ (Q := fun v => v < B) (dig_lt _ _)) fun v2 hv2 => ?_
    · rw [hnl]
      split
      · exact div_W_lt_nlimbs (by omega)
      · rw [Nat.div_lt_iff_lt_mul hW]; omega
    rw [shlC_eq (Nat.mod_lt _ hW), M.pure_bind,
      LimbChoice.select_ofBool (or_lt shl_lt (shr_lt hv)) B_pos, if_pos rfl, shlC_eq hW, h0]
    refine Sat.pure ?_
    rw [Nat.div_eq_of_lt (lt_of_lt_of_le hx (Nat.pow_le_pow_right (by norm_num) hge)), Nat.zero_mod]
  · have hbg : bg < 8 * b.len := by omega
    simp only [hge, if_false, decide_false]
    refine Sat.bind (b.sat_load_l (by rw [hnl]; exact div_W_lt_nlimbs hbg)
      (Q := fun v => v = b.toNat / B ^ (bg / W) % B) rfl) ?_
    rintro _ rfl
    rw [shrC_eq (Nat.mod_lt _ hW), M.pure_bind]
    refine Sat.bind (P := fun v => v < B ∧
      (bg + W ≤ b.nlimbs * W → v = b.toNat / B ^ ((bg + W - 1) / W) % B)) ?_ ?_
    · by_cases hc : b.nlimbs * W < bg + W
      · rw [if_pos hc]
        exact b.sat_load_l (by rw [hnl]; exact div_W_lt_nlimbs (by omega))
          ⟨dig_lt _ _, fun h => by omega⟩
      · rw [if_neg hc]
        exact b.sat_load_l (by rw [Nat.div_lt_iff_lt_mul hW]; omega) ⟨dig_lt _ _, fun h => rfl⟩
    · rintro v ⟨hv, hv'⟩
      rw [LimbChoice.select_ofBool (lt_of_le_of_lt (by
          rw [ct_lsb_mask_l_eq (Nat.mod_lt _ hW).le]; exact Nat.sub_le _ _)
          (two_pow_lt_B (Nat.mod_lt _ hW))) B_pos,
        shlC_eq (Nat.mod_lt _ hW), M.pure_bind]
      simp only [decide_eq_true_eq]
      rw [window hbg v hv', LimbChoice.select_ofBool (Nat.mod_lt _ B_pos) B_pos, if_neg (by simp),
        shlC_eq hW]
      refine Sat.pure ?_
      unfold shl; simp

/-- The bits of the value composed from two adjacent limbs, in the shifting loops. -/
theorem testBit_compose' {lo hi s r m t : ℕ} (hlo : lo < B) (hhi : hi < B)
    (h : (s = 0 ∧ r = 0 ∧ m = 0) ∨ (s + r = W ∧ 0 < s ∧ 0 < r ∧ m = lmax)) (ht : t < W) :
    (shl (hi &&& m) s ||| shr lo r).testBit t
      = if t + r < W then lo.testBit (t + r) else hi.testBit (t + r - W) := by
  rw [Nat.testBit_or, testBit_shl, testBit_shr]
  rcases h with ⟨rfl, rfl, rfl⟩ | ⟨h1, h2, h3, rfl⟩
  · simp [ht]
  · rw [and_lmax hhi]
    split
    · simp [show ¬ (s ≤ t) by omega, Nat.add_comm]
    · rw [testBit_of_ge hlo (by omega)]
      simp [ht, show s ≤ t by omega, show t - s = t + r - W by omega]

/-- Storing a limb, seen bitwise. -/
theorem sat_store_bits (b : Buf f) {i v : ℕ} (hi : i < b.nlimbs) (hv : v < B) {n : ℕ}
    (hn : n = b.nlimbs) :
    Sat (M.cond (i + 1 ≠ n) (b.store_l_full i v) (b.store_l i (v &&& b.partial_high_mask)))
      (fun b' => b'.len = b.len ∧ ∀ j < 8 * b.len,
        b'.toNat.testBit j = if j / W = i then v.testBit (j % W) else b.toNat.testBit j) := by
  subst hn
  have hl : 0 < b.len := len_pos_of_lt hi
  refine Sat.cond (fun hc => ?_) fun hc => ?_
  · refine Buf.sat_store_l_full b (full_of_lt_pred (by rw [← Buf.nlimbs_eq]; omega)) hv ?_
    intro b' h1 h2
    refine ⟨h1, fun j _ => ?_⟩
    rw [h2, testBit_upd _ _ _ _ hv]
  · rw [Buf.and_partial_high_mask b hl]
    have hp : 0 < 256 ^ hbytes b.len := by positivity
    have hlt : v % 256 ^ hbytes b.len < B := lt_of_le_of_lt (Nat.mod_le _ _) hv
    refine Buf.sat_store_l b hi hlt (fun _ => Nat.mod_lt _ hp) ?_
    intro b' h1 h2
    refine ⟨h1, fun j hj => ?_⟩
    rw [h2, testBit_upd _ _ _ _ hlt]
    split
    · rename_i hji
      rw [pow_256_eq, Nat.testBit_mod_two_pow]
      have : j % W < 8 * hbytes b.len := by
        have h3 := div_W_mul j
        have h4 := pred_nlimbs_mul_lt hl
        have h5 : b.nlimbs = i + 1 := by omega
        rw [Buf.nlimbs_eq] at h5
        unfold hbytes
        rw [h5, Nat.add_sub_cancel] at *
        rw [hji] at h3
        have h6 : i * W = 8 * (i * LB) := by rw [W_eq]; ring
        omega
      simp [this]
    · rfl

theorem div_W_eq_iff {i j : ℕ} : j / W = i ↔ i * W ≤ j ∧ j < i * W + W := by
  have := div_W_mul j
  have h2 := Nat.mod_lt j W_pos
  constructor
  · rintro rfl; omega
  · rintro ⟨h3, h4⟩
    rw [Nat.div_eq_of_lt_le h3]
    rw [Nat.add_mul]; omega

theorem mod_W_eq {i j : ℕ} (h : j / W = i) : j % W = j - i * W := by
  have := div_W_mul j
  subst h; omega

/-- The number of limbs the shift distance makes. -/
theorem distance_nlimbs_spec (d : ℕ) :
    ct_mp_nlimbs ((d + 7) / 8) * W
      = d + (if d % W = 0 then 0 else W - d % W) := by
  have h1 := le_nlimbs_mul ((d + 7) / 8)
  have h2 := @pred_nlimbs_mul_lt _ ((d + 7) / 8)
  have h3 : 0 < ct_mp_nlimbs ((d + 7) / 8) ↔ 0 < (d + 7) / 8 := nlimbs_pos_iff
  have hWe := W_eq
  rcases LB_cases with h | h <;> rw [h] at h1 h2 hWe <;> rw [hWe] <;> split <;> omega


/-- The value of `x * 2 ^ d` truncated, bitwise. -/
theorem eq_lshift {x y n d : ℕ} (hy : y < 2 ^ n)
    (h : ∀ j, d ≤ j → j < n → y.testBit j = x.testBit (j - d)) :
    y / 2 ^ d * 2 ^ d = x * 2 ^ d % 2 ^ n := by
  apply Nat.eq_of_testBit_eq; intro j
  rw [Nat.testBit_mul_two_pow, Nat.testBit_div_two_pow, Nat.testBit_mod_two_pow,
    Nat.testBit_mul_two_pow]
  by_cases h1 : d ≤ j
  · rw [Nat.sub_add_cancel h1]
    by_cases h2 : j < n
    · simp [h1, h2, h j h1 h2]
    · simp only [h1, h2, decide_true, decide_false, Bool.true_and, Bool.false_and]
      exact Nat.testBit_lt_two_pow (lt_of_lt_of_le hy (Nat.pow_le_pow_right (by norm_num) (by omega)))
  · simp [h1]

theorem eq_rshift {x y n d : ℕ} (hx : x < 2 ^ n) (hd : d ≤ n)
    (h : ∀ j, j + d < n → y.testBit j = x.testBit (j + d)) :
    y % 2 ^ (n - d) = x / 2 ^ d := by
  apply Nat.eq_of_testBit_eq; intro j
  rw [Nat.testBit_div_two_pow, Nat.testBit_mod_two_pow]
  by_cases h1 : j + d < n
  · simp [show j < n - d by omega, h j h1]
  · rw [decide_eq_false (by omega), Bool.false_and]
    exact (Nat.testBit_lt_two_pow
      (lt_of_lt_of_le hx (Nat.pow_le_pow_right (by norm_num) (by omega)))).symm

theorem ct_lshift_mp_sat (a : Buf f) (d : ℕ) :
    Sat (ct_lshift_mp a d) (fun p => p.1.len = a.len ∧
      p.1.toNat = a.toNat * 2 ^ d % 2 ^ (8 * a.len) ∧
      p.2 = if a.len = 0 then 0 else a.toNat * 2 ^ d / 2 ^ (8 * a.len) % B) := by
  unfold ct_lshift_mp
  have hW := W_pos
  refine Sat.cond (fun he => ?_) fun he => ?_
  · refine Sat.pure ?_
    have := toNat_of_empty he
    rw [a.is_empty_iff] at he
    simp [he, this]
  have hlen : 0 < a.len := by rw [a.is_empty_iff] at he; omega
  have hnl := Buf.nlimbs_eq a
  have hnb := nbits_le a.len
  have hnp := nlimbs_pos_iff.2 hlen
  rw [← hnl] at hnb hnp
  dsimp only
  refine Sat.bind (ct_lshift_mp_out_sat a d hlen) ?_
  rintro o rfl
  rw [if_neg (by omega)]
  rw [ct_gt_usize_usize_eq, LimbChoice.select_usize_ofBool]
  obtain ⟨d', hd'⟩ : ∃ d', d' = if decide (d > 8 * a.len) = true then 8 * a.len else d := ⟨_, rfl⟩
  rw [← hd']
  have hdle : d' ≤ 8 * a.len := by
    rw [hd']; split
    · exact le_rfl
    · rename_i h; simp at h; exact h
  have hres : a.toNat * 2 ^ d % 2 ^ (8 * a.len) = a.toNat * 2 ^ d' % 2 ^ (8 * a.len) := by
    rw [hd']; split
    · rename_i h
      rw [Nat.mul_mod_left]
      have h := of_decide_eq_true h
      obtain ⟨k, rfl⟩ := Nat.exists_eq_add_of_lt h
      rw [show a.toNat * 2 ^ (8 * a.len + k + 1) = a.toNat * 2 ^ (k + 1) * 2 ^ (8 * a.len) by ring,
        Nat.mul_mod_left]
    · rfl
  rw [hres]
  clear hres hd'
  generalize ho : a.toNat * 2 ^ d / 2 ^ (8 * a.len) % B = o
  clear ho he d
  have hD := distance_nlimbs_spec d'
  obtain ⟨D, hDd⟩ : ∃ D, D = ct_mp_nlimbs ((d' + 7) / 8) := ⟨_, rfl⟩
  rw [← hDd] at hD ⊢
  have hDN : D ≤ a.nlimbs := by
    rw [hDd, hnl]; exact nlimbs_mono (by omega)
  have hs := Nat.mod_lt d' hW
  rw [M.assert_eq hDN, M.pure_bind]
  simp only [ct_eq_usize_usize_eq, LimbChoice.select_usize_ofBool, decide_eq_true_eq,
    LimbChoice.select_ofBool lmax_lt B_pos]
  obtain ⟨r, hr⟩ : ∃ r, r = if d' % W = 0 then 0 else W - d' % W := ⟨_, rfl⟩
  obtain ⟨m, hm⟩ : ∃ m, m = if d' % W = 0 then 0 else lmax := ⟨_, rfl⟩
  rw [← hr, ← hm]
  rw [← hr] at hD
  have hcmp : (d' % W = 0 ∧ r = 0 ∧ m = 0) ∨ (d' % W + r = W ∧ 0 < d' % W ∧ 0 < r ∧ m = lmax) := by
    rw [hr, hm]; split
    · left; simp [*]
    · right; refine ⟨by omega, by omega, by omega, rfl⟩
  have hrW : r < W := by omega
  generalize hsd : d' % W = s at *
  rw [M.sub_eq (by split <;> omega), M.pure_bind]
  refine Sat.bind (P := fun v => v < B ∧ (0 < D → v = a.toNat / B ^ (a.nlimbs - D) % B)) ?_ ?_
  · refine a.sat_load_l (by split <;> omega) ⟨dig_lt _ _, fun h => ?_⟩
    rw [if_neg (by omega)]
  rintro l0 ⟨hl0, hl0'⟩
  refine Sat.bind (Sat.forDown (P := fun i (st : Buf f × ℕ × ℕ) =>
    st.1.len = a.len ∧
    (∀ j, i * W ≤ j → d' ≤ j → j < 8 * a.len → st.1.toNat.testBit j = a.toNat.testBit (j - d')) ∧
    (D ≤ i → ∀ j, j < i * W → st.1.toNat.testBit j = a.toNat.testBit j) ∧
    st.2.1 = (if i < D then a.nlimbs else 0) ∧
    st.2.2 < B ∧ (D ≤ i → 0 < D → st.2.2 = a.toNat / B ^ (i - D) % B)) ?_ ?_) ?_
  · refine ⟨rfl, fun j h1 _ h2 => by omega, fun _ _ _ => rfl, ?_, hl0, fun _ h => hl0' h⟩
    rw [if_neg (by omega)]
  · rintro i ⟨b, off, last⟩ hi ⟨hlen', hhi, hlo, hoff, hlast, hlast'⟩
    dsimp only at *
    have hnl' : b.nlimbs = a.nlimbs := Buf.nlimbs_congr hlen'
    have hoff' : (if D = i + 1 then a.nlimbs else off) = if i < D then a.nlimbs else 0 := by
      rw [hoff]; split_ifs <;> omega
    rw [hoff']
    generalize hoo : (if i < D then a.nlimbs else 0) = off' at *
    have hDle : D ≤ i + off' := by rw [← hoo]; split <;> omega
    rw [M.sub_eq hDle, M.pure_bind]
    refine Sat.bind (P := fun v => v < B ∧ (D ≤ i → v = a.toNat / B ^ (i - D) % B)) ?_ ?_
    · refine b.sat_load_l (by rw [hnl', ← hoo]; split <;> omega) ⟨dig_lt _ _, fun h => ?_⟩
      rw [show i + off' - D = i - D by rw [← hoo, if_neg (by omega)]; omega]
      apply Nat.eq_of_testBit_eq; intro t
      rw [testBit_dig, testBit_dig]
      by_cases ht : t < W
      · rw [hlo (by omega)]
        have : (i - D) * W ≤ i * W := Nat.mul_le_mul_right _ (by omega)
        rw [Nat.add_mul]; omega
      · simp [ht]
    rintro lw ⟨hlw, hlw'⟩
    rw [shrC_eq hrW, M.pure_bind, shlC_eq hs, M.pure_bind]
    obtain ⟨v, hv⟩ : ∃ v, v = shl (last &&& m) s ||| shr lw r := ⟨_, rfl⟩
    rw [← hv]
    have hvB : v < B := by rw [hv]; exact or_lt shl_lt (shr_lt hlw)
    have hbits : ∀ t, t < W → v.testBit t
        = if t + r < W then lw.testBit (t + r) else last.testBit (t + r - W) := by
      intro t ht; rw [hv]; exact testBit_compose' hlw hlast hcmp ht
    refine Sat.bind (sat_store_bits b (by omega) hvB hnl'.symm) ?_
    rintro b' ⟨hb'l, hb'⟩
    refine Sat.pure ?_
    dsimp only
    have e1 : (i + 1) * W = i * W + W := by ring
    refine ⟨by rw [hb'l, hlen'], ?_, ?_, rfl, hlw, fun h _ => hlw' h⟩
    · intro j h1 h2 h3
      rw [hb' j (by rw [hlen']; exact h3)]
      by_cases hji : j / W = i
      · rw [if_pos hji, mod_W_eq hji]
        have hj := div_W_eq_iff.1 hji
        rw [hbits _ (by omega)]
        by_cases hDi : D ≤ i
        · have e2 : (i - D) * W + D * W = i * W := by rw [← Nat.add_mul]; congr 1; omega
          split
          · rename_i h
            rw [hlw' hDi, testBit_dig, decide_eq_true h, Bool.true_and]
            congr 1; omega
          · rename_i h
            rw [hlast' (by omega) (by
              rcases Nat.eq_zero_or_pos D with h0 | h0
              · rw [h0] at hD; omega
              · exact h0), testBit_dig, decide_eq_true (by omega), Bool.true_and]
            have e3 : (i + 1 - D) * W = (i - D) * W + W := by
              rw [show i + 1 - D = (i - D) + 1 by omega]; ring
            congr 1; omega
        · have e4 : (i + 1) * W ≤ D * W := Nat.mul_le_mul_right _ (by omega)
          have hDi' : D = i + 1 := by
            by_contra hne
            have e5 : (i + 2) * W ≤ D * W := Nat.mul_le_mul_right _ (by omega)
            have e6 : (i + 2) * W = i * W + W + W := by ring
            omega
          rw [hDi', e1] at hD
          rw [if_neg (by omega), hlast' (by omega) (by omega), testBit_dig,
            decide_eq_true (by omega), Bool.true_and]
          rw [hDi', Nat.sub_self, Nat.zero_mul]
          congr 1; omega
      · rw [if_neg hji]
        have : ¬ (i * W ≤ j ∧ j < i * W + W) := fun h => hji (div_W_eq_iff.2 h)
        exact hhi j (by omega) h2 h3
    · intro hDi j hj
      by_cases h3 : j < 8 * a.len
      · rw [hb' j (by rw [hlen']; exact h3), if_neg (by rw [div_W_eq_iff]; omega)]
        exact hlo (by omega) j (by omega)
      · rw [b'.testBit_high (by rw [hb'l, hlen']; omega), a.testBit_high (by omega)]
  · rintro ⟨b, off, last⟩ ⟨hlen', hhi, -⟩
    dsimp only at *
    refine Sat.bind (ct_clear_bits_below_mp_sat b d') ?_
    rintro b' ⟨hb1, hb2⟩
    refine Sat.pure ⟨hb1.trans hlen', ?_, rfl⟩
    dsimp only
    rw [hb2]
    refine eq_lshift (by rw [← hlen', ← pow_256_eq]; exact b.toNat_lt) ?_
    intro j h1 h2
    exact hhi j (by omega) h1 h2

theorem ct_rshift_mp_sat (a : Buf f) (d : ℕ) :
    Sat (ct_rshift_mp a d) (fun p => p.1.len = a.len ∧ p.1.toNat = a.toNat / 2 ^ d ∧
      p.2 = a.toNat * 2 ^ W / 2 ^ d % B) := by
  unfold ct_rshift_mp
  have hW := W_pos
  refine Sat.cond (fun he => ?_) fun he => ?_
  · refine Sat.pure ?_
    have := toNat_of_empty he
    rw [a.is_empty_iff] at he
    simp [this]
  have hlen : 0 < a.len := by rw [a.is_empty_iff] at he; omega
  have hnl := Buf.nlimbs_eq a
  have hnb := nbits_le a.len
  have hnp := nlimbs_pos_iff.2 hlen
  have hng := nbits_gt hlen
  rw [← hnl] at hnb hnp hng
  have hx : a.toNat < 2 ^ (8 * a.len) := by rw [← pow_256_eq]; exact a.toNat_lt
  dsimp only
  refine Sat.bind (ct_rshift_mp_out_sat a d hlen) ?_
  rintro o rfl
  rw [ct_gt_usize_usize_eq, LimbChoice.select_usize_ofBool]
  obtain ⟨d', hd'⟩ : ∃ d', d' = if decide (d > 8 * a.len) = true then 8 * a.len else d := ⟨_, rfl⟩
  rw [← hd']
  have hdle : d' ≤ 8 * a.len := by
    rw [hd']; split
    · exact le_rfl
    · rename_i h; simp at h; exact h
  have hres : a.toNat / 2 ^ d = a.toNat / 2 ^ d' := by
    rw [hd']; split
    · rename_i h
      have h := of_decide_eq_true h
      rw [Nat.div_eq_of_lt hx,
        Nat.div_eq_of_lt (lt_of_lt_of_le hx (Nat.pow_le_pow_right (by norm_num) h.le))]
    · rfl
  rw [hres]
  clear hres hd'
  generalize ho : a.toNat * 2 ^ W / 2 ^ d % B = o
  clear ho he d
  have hD := div_W_mul d'
  have hs := Nat.mod_lt d' hW
  simp only [ct_eq_usize_usize_eq, ct_geq_usize_usize_eq, LimbChoice.select_usize_ofBool,
    decide_eq_true_eq, LimbChoice.select_ofBool lmax_lt B_pos]
  obtain ⟨s, hs'⟩ : ∃ s, s = if d' % W = 0 then 0 else W - d' % W := ⟨_, rfl⟩
  obtain ⟨m, hm⟩ : ∃ m, m = if d' % W = 0 then 0 else lmax := ⟨_, rfl⟩
  rw [← hs', ← hm]
  have hcmp : (s = 0 ∧ d' % W = 0 ∧ m = 0) ∨ (s + d' % W = W ∧ 0 < s ∧ 0 < d' % W ∧ m = lmax) := by
    rw [hs', hm]; split
    · left; simp [*]
    · right; refine ⟨by omega, by omega, by omega, rfl⟩
  have hsW : s < W := by omega
  generalize hr : d' % W = r at *
  generalize hDD : d' / W = D at *
  have hDN : D ≤ a.nlimbs := by
    by_contra hc
    have : (a.nlimbs + 1) * W ≤ D * W := Nat.mul_le_mul_right _ (by omega)
    have e : (a.nlimbs + 1) * W = a.nlimbs * W + W := by ring
    omega
  rw [M.sub_eq (by split <;> omega), M.pure_bind]
  refine Sat.bind (P := fun v => v < B ∧ (D < a.nlimbs → v = a.toNat / B ^ D % B)) ?_ ?_
  · refine a.sat_load_l (by split <;> omega) ⟨dig_lt _ _, fun h => ?_⟩
    rw [if_neg (by omega), Nat.sub_zero]
  rintro l0 ⟨hl0, hl0'⟩
  refine Sat.bind (Sat.forRange (P := fun i (st : Buf f × ℕ × ℕ) =>
    st.1.len = a.len ∧
    (∀ j, j < i * W → j + d' < 8 * a.len → st.1.toNat.testBit j = a.toNat.testBit (j + d')) ∧
    (∀ j, i * W ≤ j → st.1.toNat.testBit j = a.toNat.testBit j) ∧
    (st.2.1 ≤ i + D ∧ i + D < st.2.1 + a.nlimbs ∧ (i + D < a.nlimbs → st.2.1 = 0)) ∧
    st.2.2 < B ∧ (i + D < a.nlimbs → st.2.2 = a.toNat / B ^ (i + D) % B)) (Nat.zero_le _) ?_ ?_) ?_
  · refine ⟨rfl, fun j h1 _ => by omega, fun _ _ => rfl, ?_, hl0, fun h => ?_⟩
    · dsimp only
      split <;> omega
    · rw [Nat.zero_add] at h ⊢; exact hl0' h
  · rintro i ⟨b, off, last⟩ - hi ⟨hlen', hlo, hhi, hoff, hlast, hlast'⟩
    dsimp only at *
    have hnl' : b.nlimbs = a.nlimbs := Buf.nlimbs_congr hlen'
    rw [M.sub_eq (by omega), M.pure_bind]
    obtain ⟨off', hoff'⟩ : ∃ off', off' =
      if i + D + 1 - off = a.nlimbs then off + a.nlimbs else off := ⟨_, rfl⟩
    rw [← hoff']
    have ho' : off' ≤ i + 1 + D ∧ i + 1 + D < off' + a.nlimbs ∧
        (i + 1 + D < a.nlimbs → off' = 0) := by
      rw [hoff']; split <;> omega
    rw [M.sub_eq (by omega), M.pure_bind]
    have e1 : (i + 1) * W = i * W + W := by ring
    refine Sat.bind (P := fun v => v < B ∧
      (i + 1 + D < a.nlimbs → v = a.toNat / B ^ (i + 1 + D) % B)) ?_ ?_
    · refine b.sat_load_l (by omega) ⟨dig_lt _ _, fun h => ?_⟩
      rw [ho'.2.2 h, Nat.sub_zero, show i + D + 1 = i + 1 + D by omega]
      apply Nat.eq_of_testBit_eq; intro t
      rw [testBit_dig, testBit_dig, hhi]
      have : i * W ≤ (i + 1 + D) * W := Nat.mul_le_mul_right _ (by omega)
      omega
    rintro lh ⟨hlh, hlh'⟩
    rw [shrC_eq (by omega), M.pure_bind, shlC_eq hsW, M.pure_bind]
    obtain ⟨v, hv⟩ : ∃ v, v = shl (lh &&& m) s ||| shr last r := ⟨_, rfl⟩
    rw [← hv]
    have hvB : v < B := by rw [hv]; exact or_lt shl_lt (shr_lt hlast)
    have hbits : ∀ t, t < W → v.testBit t
        = if t + r < W then last.testBit (t + r) else lh.testBit (t + r - W) := by
      intro t ht; rw [hv]; exact testBit_compose' hlast hlh hcmp ht
    refine Sat.bind (sat_store_bits b (by omega) hvB hnl'.symm) ?_
    rintro b' ⟨hb'l, hb'⟩
    refine Sat.pure ?_
    dsimp only
    refine ⟨by rw [hb'l, hlen'], ?_, ?_, ho', hlh, hlh'⟩
    · intro j h1 h2
      rw [hb' j (by rw [hlen']; omega)]
      by_cases hji : j / W = i
      · rw [if_pos hji, mod_W_eq hji]
        have hj := div_W_eq_iff.1 hji
        rw [hbits _ (by omega)]
        have e2 : (i + D) * W = i * W + D * W := by ring
        have e3 : (i + 1 + D) * W = i * W + D * W + W := by ring
        split
        · rename_i h
          rw [hlast' (by
            by_contra hc
            have : a.nlimbs * W ≤ (i + D) * W := Nat.mul_le_mul_right _ (by omega)
            omega), testBit_dig, decide_eq_true h, Bool.true_and]
          congr 1; omega
        · rename_i h
          rw [hlh' (by
            by_contra hc
            have : a.nlimbs * W ≤ (i + 1 + D) * W := Nat.mul_le_mul_right _ (by omega)
            omega), testBit_dig, decide_eq_true (by omega), Bool.true_and]
          congr 1; omega
      · rw [if_neg hji]
        have : ¬ (i * W ≤ j ∧ j < i * W + W) := fun h => hji (div_W_eq_iff.2 h)
        exact hlo j (by omega) h2
    · intro j hj
      by_cases h3 : j < 8 * a.len
      · rw [hb' j (by rw [hlen']; exact h3), if_neg (by rw [div_W_eq_iff]; omega)]
        exact hhi j (by omega)
      · rw [b'.testBit_high (by rw [hb'l, hlen']; omega), a.testBit_high (by omega)]
  · rintro ⟨b, off, last⟩ ⟨hlen', hlo, -⟩
    dsimp only at *
    rw [M.sub_eq hdle, M.pure_bind]
    refine Sat.bind (ct_clear_bits_above_mp_sat b _) ?_
    rintro b' ⟨hb1, hb2⟩
    refine Sat.pure ⟨hb1.trans hlen', ?_, rfl⟩
    dsimp only
    rw [hb2]
    refine eq_rshift hx hdle ?_
    intro j h1
    exact hlo j (by omega) h1

end Cmpa
