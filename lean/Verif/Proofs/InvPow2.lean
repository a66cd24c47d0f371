import Verif.Model.InvMod
import Verif.Proofs.Square
import Verif.Proofs.Shift
import Verif.Proofs.InvModOddMp

/-!
# Inversion modulo a power of two
-/

set_option linter.unusedSectionVars false

namespace Cmpa
variable [LimbCfg] {φ ψ χ : Fmt}

open M

/-- Doubling a limb by shifting. -/
theorem shl_one_spec {d : ℕ} (hd : d < B) :
    shr d (W - 1) ≤ 1 ∧ 2 * d = shl d 1 + shr d (W - 1) * B ∧ shl d 1 + 1 < B := by
  have h := dbl_spec hd
  have e : shl d 1 = wmul d 2 := by rw [shl_eq, pow_one]; rfl
  rw [e]
  refine ⟨h.1, h.2.1, ?_⟩
  have hB := B_half'
  have h1 := h.2.1
  have h2 := h.2.2.1
  rw [hB] at h1 h2 ⊢
  generalize shr d (W - 1) = s at *
  have : wmul d 2 = 2 * (d - s * 2 ^ (W - 1)) := by
    rw [Nat.mul_sub]
    have : s * (2 * 2 ^ (W - 1)) = 2 * (s * 2 ^ (W - 1)) := by ring
    omega
  omega

theorem inv_pow2_sub_sat (result : Buf φ) (tmp : Buf .ne) {m : ℕ} (hm : m ≤ result.nlimbs)
    (hm' : m ≤ tmp.nlimbs) :
    Sat (M.forRange 0 m (result, 0, 0) (inv_pow2_sub_step tmp)) (fun s => s.1.len = result.len ∧
      ∀ d : ℤ, d ∣ (B : ℤ) ^ m → d ∣ (256 : ℤ) ^ result.len →
        (s.1.toNat : ℤ) ≡ 2 * result.toNat - tmp.toNat [ZMOD d]) := by
  refine (Sat.forRange (P := fun i (s : Buf φ × ℕ × ℕ) => ∃ q : ℕ, q < B ^ i ∧
    Low result (q % 256 ^ result.len) i s.1 ∧ s.2.1 ≤ 1 ∧ s.2.2 ≤ 1 ∧
    q + tmp.toNat % B ^ i + s.2.1 * B ^ i = 2 * (result.toNat % B ^ i) + s.2.2 * B ^ i)
    (Nat.zero_le _) ?_ ?_).mono ?_
  · exact ⟨0, by simp, by simpa using Low.zero result, by simp, by simp, by simp [Nat.mod_one]⟩
  · rintro i ⟨r', c, w⟩ _ hi ⟨q, hq, hL, hc, hw, heq⟩
    dsimp only at hL hc hw heq
    unfold inv_pow2_sub_step
    dsimp only
    refine Sat.bind (hL.sat_load (by omega) le_rfl
      (Q := fun v => v = result.toNat / B ^ i % B) rfl) ?_
    intro d hd
    refine Sat.bind (tmp.sat_load_l (by omega) (Q := fun v => v = tmp.toNat / B ^ i % B) rfl) ?_
    intro t ht
    have hdB : d < B := hd ▸ dig_lt _ _
    have htB : t < B := ht ▸ dig_lt _ _
    obtain ⟨h1, h2, h3⟩ := shl_one_spec hdB
    rw [M.addL_eq (by omega), M.pure_bind]
    obtain ⟨w', v, ev, hw', hv, hveq⟩ := ct_sub_l_l_b_spec
      (show shl d 1 + c < B by omega) htB hw
    rw [ev, M.pure_bind]
    dsimp only
    refine Sat.bind (hL.sat_store_last (by omega) hv hL.nlimbs (fun b' hb' => hb')) ?_
    intro u hu
    refine Sat.pure ⟨q + B ^ i * v, ?_, ?_, h1, hw', ?_⟩
    · have h2 : B ^ i * (v + 1) ≤ B ^ i * B := Nat.mul_le_mul_left _ hv
      rw [pow_succ]; linarith
    · dsimp only
      rw [← topv_mod result (by omega) hq hv]; exact hu
    · dsimp only
      rw [mod_succ result.toNat, mod_succ tmp.toNat, pow_succ, ← hd, ← ht]
      zify at heq h2 hveq ⊢
      linear_combination heq - (B : ℤ) ^ i * hveq - (B : ℤ) ^ i * h2
  · rintro ⟨r', c, w⟩ ⟨q, hq, hL, hc, hw, heq⟩
    dsimp only at hL hc hw heq ⊢
    refine ⟨hL.len, ?_⟩
    rintro d ⟨x, hx⟩ ⟨y, hy⟩
    have e1 := hL.toNat
    have e2 := Nat.mod_add_div q (256 ^ result.len)
    have e3 := Nat.mod_add_div result.toNat (B ^ m)
    have e4 := Nat.mod_add_div tmp.toNat (B ^ m)
    zify at e1 e2 e3 e4 heq
    refine (Int.modEq_iff_dvd.2 ⟨y * (q / 256 ^ result.len : ℕ) + x * (2 * (result.toNat / B ^ m : ℕ)
      - (tmp.toNat / B ^ m : ℕ) - (result.toNat / B ^ m : ℕ) + c - w), ?_⟩)
    push_cast
    linear_combination (-1 : ℤ) * e1 - e2 - 2 * e3 + e4 - heq + (q / 256 ^ result.len : ℤ) * hy +
      ((result.toNat : ℤ) / B ^ m - (tmp.toNat : ℤ) / B ^ m + c - w) * hx

/-- The sequence of inverses computed by the lifting steps: `x - (a * x - 1) * x`, truncated to twice
the number of bits. -/
def liftSeq (a : ℕ) : ℕ → ℕ
  | 0 => 1
  | k + 1 => ((2 * liftSeq a k - a * (liftSeq a k : ℤ) ^ 2) % 2 ^ (2 ^ (k + 1))).toNat

theorem liftSeq_succ (a k : ℕ) :
    (liftSeq a (k + 1) : ℤ) = (2 * liftSeq a k - a * (liftSeq a k : ℤ) ^ 2) % 2 ^ (2 ^ (k + 1)) := by
  rw [liftSeq, Int.toNat_of_nonneg (Int.emod_nonneg _ (by positivity))]

theorem liftSeq_lt (a : ℕ) : ∀ k, liftSeq a k < 2 ^ (2 ^ k)
  | 0 => by simp [liftSeq]
  | k + 1 => by
    have h := liftSeq_succ a k
    have h2 := Int.emod_lt_of_pos (2 * liftSeq a k - a * (liftSeq a k : ℤ) ^ 2)
      (show (0 : ℤ) < 2 ^ (2 ^ (k + 1)) by positivity)
    rw [← h] at h2
    exact_mod_cast h2

theorem lift_step {a x : ℤ} {m : ℤ} (h : m ∣ a * x - 1) :
    m ^ 2 ∣ a * (2 * x - a * x ^ 2) - 1 := by
  obtain ⟨t, ht⟩ := h
  exact ⟨- t ^ 2, by linear_combination (-(a * x - 1) - m * t) * ht⟩

theorem liftSeq_inv {a : ℕ} (ha : a % 2 = 1) : ∀ k, (2 : ℤ) ^ (2 ^ k) ∣ a * liftSeq a k - 1
  | 0 => by simp only [liftSeq]; omega
  | k + 1 => by
    have h := lift_step (liftSeq_inv ha k)
    rw [← pow_mul, ← pow_succ] at h
    rw [liftSeq_succ]
    have h2 := Int.mod_modEq (2 * liftSeq a k - a * (liftSeq a k : ℤ) ^ 2) (2 ^ (2 ^ (k + 1)))
    have h3 := (h2.mul_left (a : ℤ)).sub_right 1
    exact h3.dvd_iff.2 h

/-- What the squaring needs. -/
def LiftOk (a max_exp : ℕ) : Prop :=
  ∀ k, 2 ^ k < max_exp → SquareOk (ct_mp_nlimbs ((max_exp + 7) / 8)) (liftSeq a k)

theorem inv_pow2_lift_exact {op0 : Buf ψ} {L cur : ℕ} {result : Buf φ} {tmp : Buf .ne}
    (hr : L ≤ result.len) (hrn : result.nlimbs = ct_mp_nlimbs L)
    (ht : L ≤ tmp.len) (htn : tmp.nlimbs = ct_mp_nlimbs L)
    (hc : cur < 8 * L) (hx : result.toNat < 2 ^ cur) :
    Exact (SquareOk (ct_mp_nlimbs L) result.toNat) (inv_pow2_lift op0 L cur (result, tmp)) (fun s => s.1.len = result.len ∧
      s.2.len = tmp.len ∧ s.1.toNat < 2 ^ (2 * cur) ∧
      (s.1.toNat : ℤ) ≡ 2 * result.toNat - op0.toNat * (result.toNat : ℤ) ^ 2
        [ZMOD 2 ^ (min (2 * cur) (8 * L))]) := by
  unfold inv_pow2_lift
  dsimp only
  have hlr : result.toNat < 256 ^ ((cur + 7) / 8) := by
    rw [pow_256_eq]
    exact lt_of_lt_of_le hx (Nat.pow_le_pow_right (by norm_num) (by omega))
  have hcl : (cur + 7) / 8 ≤ L := by omega
  refine Sat.bindExact (Buf.copy_from_sat tmp result (lt_of_lt_of_le hlr
    (Nat.pow_le_pow_right (by norm_num) (by omega)))) ?_
  rintro t1 ⟨ht1, hv1⟩
  have hsq := ct_square_trunc_mp_exact t1 ((cur + 7) / 8) (by omega)
  rw [hv1, Nat.mod_eq_of_lt hlr, Buf.nlimbs_congr ht1, htn] at hsq
  refine (hsq.bind (S' := True) ?_).congr ⟨fun h => h.1, fun h => ⟨h, trivial⟩⟩
  rintro t2 - ⟨ht2, hv2⟩
  refine Sat.exact ?_
  refine Sat.bind (ct_mul_trunc_mp_mp_sat t2 (min (2 * ((cur + 7) / 8)) L) op0 (by omega)) ?_
  rintro t3 ⟨ht3, hv3⟩
  have hN : ct_mp_nlimbs (min (2 * ((cur + 7) / 8)) L) ≤ ct_mp_nlimbs L := nlimbs_mono (by omega)
  refine Sat.bind (inv_pow2_sub_sat result t3 (by omega)
    (by rw [Buf.nlimbs_congr (ht3.trans (ht2.trans ht1)), htn]; exact hN)) ?_
  rintro ⟨r1, c, w⟩ ⟨hr1, hcong⟩
  dsimp only at hr1 hcong ⊢
  refine Sat.bind (clear_bits_above_mp_sat r1 (2 * cur)) ?_
  rintro r2 ⟨hr2, hv⟩
  refine Sat.pure ⟨hr2.trans hr1, ht3.trans (ht2.trans ht1), ?_, ?_⟩
  · rw [hv]; exact Nat.mod_lt _ (by positivity)
  · dsimp only
    generalize hk : min (2 * cur) (8 * L) = k
    generalize hcr : min (2 * ((cur + 7) / 8)) L = m at *
    have hkm : k ≤ 8 * m := by omega
    have d256 : ∀ l, m ≤ l → (2 : ℤ) ^ k ∣ 256 ^ l := fun l hl => by
      rw [show (256 : ℤ) = 2 ^ 8 by norm_num, ← pow_mul]
      exact pow_dvd_pow 2 (by omega)
    have dB : (2 : ℤ) ^ k ∣ (B : ℤ) ^ ct_mp_nlimbs m := by
      have h1 : (256 : ℕ) ^ m ∣ B ^ ct_mp_nlimbs m := len_dvd_pow m
      have h2 : (256 : ℤ) ^ m ∣ (B : ℤ) ^ ct_mp_nlimbs m := by exact_mod_cast h1
      exact (d256 m le_rfl).trans h2
    have h1 := hcong _ dB (d256 _ (by omega))
    have e1 : (r2.toNat : ℤ) ≡ r1.toNat [ZMOD 2 ^ k] := by
      rw [hv]; push_cast
      exact (Int.mod_modEq _ _).of_dvd (pow_dvd_pow 2 (by omega))
    have e2 : (t3.toNat : ℤ) ≡ op0.toNat * (result.toNat : ℤ) ^ 2 [ZMOD 2 ^ k] := by
      rw [hv3]; push_cast
      refine ((Int.mod_modEq _ _).of_dvd (d256 _ (by omega))).trans ?_
      rw [mul_comm (op0.toNat : ℤ)]
      refine Int.ModEq.mul_right _ ?_
      refine ((Int.mod_modEq _ _).of_dvd (d256 _ le_rfl)).trans ?_
      rw [hv2]; push_cast
      exact (Int.mod_modEq _ _).of_dvd (d256 _ (by omega))
    exact e1.trans (h1.trans (Int.ModEq.sub_left _ e2))

theorem inv_pow2_loop_exact {op0 : Buf ψ} {mx L lr lt : ℕ} (hL : (mx + 7) / 8 = L)
    (hlr : L ≤ lr) (hlrn : ct_mp_nlimbs lr = ct_mp_nlimbs L)
    (hlt : L ≤ lt) (hltn : ct_mp_nlimbs lt = ct_mp_nlimbs L) :
    ∀ (fuel k : ℕ) (s : Buf φ × Buf .ne), 1 ≤ fuel → mx < 2 ^ k + fuel →
      s.1.len = lr → s.2.len = lt → s.1.toNat < 2 ^ (2 ^ k) →
      (s.1.toNat : ℤ) ≡ liftSeq op0.toNat k [ZMOD 2 ^ (min (2 ^ k) (8 * L))] →
      Exact (∀ k', k ≤ k' → 2 ^ k' < mx → SquareOk (ct_mp_nlimbs L) (liftSeq op0.toNat k'))
        (inv_pow2_loop op0 mx L fuel (2 ^ k) s) (fun s' => s'.1.len = lr ∧ s'.2.len = lt ∧
        ∃ k', mx ≤ 2 ^ k' ∧
          (s'.1.toNat : ℤ) ≡ liftSeq op0.toNat k' [ZMOD 2 ^ (min (2 ^ k') (8 * L))])
  | 0, _, _, h, _, _, _, _, _ => by omega
  | fuel + 1, k, (result, tmp), _, hf, hr, ht, hlt', hcong => by
    rw [inv_pow2_loop]
    dsimp only at hr ht hlt' hcong
    refine Exact.cond (fun hc => ?_) fun hc => ?_
    · have hx : result.toNat = liftSeq op0.toNat k := by
        rw [min_eq_left (by omega)] at hcong
        have h1 : ((result.toNat : ℕ) : ℤ) % 2 ^ (2 ^ k) = result.toNat :=
          Int.emod_eq_of_lt (by positivity) (by exact_mod_cast hlt')
        have h2 : ((liftSeq op0.toNat k : ℕ) : ℤ) % 2 ^ (2 ^ k) = liftSeq op0.toNat k :=
          Int.emod_eq_of_lt (by positivity) (by exact_mod_cast liftSeq_lt _ _)
        have h3 : ((result.toNat : ℕ) : ℤ) % 2 ^ (2 ^ k) =
          ((liftSeq op0.toNat k : ℕ) : ℤ) % 2 ^ (2 ^ k) := hcong
        rw [h1, h2] at h3
        exact_mod_cast h3
      have hlift := inv_pow2_lift_exact (op0 := op0) (L := L) (cur := 2 ^ k) (result := result)
        (tmp := tmp) (by omega) (by rw [Buf.nlimbs_eq, hr, hlrn]) (by omega)
        (by rw [Buf.nlimbs_eq, ht, hltn]) (by omega) hlt'
      refine (hlift.bind (S' := ∀ k', k + 1 ≤ k' → 2 ^ k' < mx →
        SquareOk (ct_mp_nlimbs L) (liftSeq op0.toNat k')) ?_).congr ⟨?_, fun h =>
          ⟨by rw [hx]; exact h k le_rfl hc, fun k' h1 h2 => h k' (by omega) h2⟩⟩
      swap
      · rintro ⟨h1, h2⟩ k' h3 h4
        rcases Nat.eq_or_lt_of_le h3 with rfl | h5
        · rw [← hx]; exact h1
        · exact h2 k' h5 h4
      rintro ⟨r1, t1⟩ - ⟨h1, h2, h3, h4⟩
      dsimp only at h1 h2 h3 h4
      have hpos : 1 ≤ 2 ^ k := Nat.one_le_two_pow
      have e : 2 * 2 ^ k = 2 ^ (k + 1) := by rw [pow_succ]; ring
      rw [e] at h3 h4 ⊢
      refine inv_pow2_loop_exact hL hlr hlrn hlt hltn fuel (k + 1) (r1, t1) (by omega) (by omega)
        (h1.trans hr) (h2.trans ht) h3 ?_
      rw [hx] at h4
      refine h4.trans ?_
      rw [liftSeq_succ]
      exact ((Int.mod_modEq _ _).of_dvd (pow_dvd_pow 2 (min_le_left _ _))).symm
    · refine Exact.congr (Sat.exact (Sat.pure ⟨hr, ht, k, by omega, hcong⟩))
        ⟨fun _ k' h1 h2 => ?_, fun _ => trivial⟩
      have := Nat.pow_le_pow_right (n := 2) (by norm_num) h1
      omega

theorem nlimbs_align (φ : Fmt) (m : ℕ) : ct_mp_nlimbs (Buf._limbs_align_len φ m) = ct_mp_nlimbs m ∧
    m ≤ Buf._limbs_align_len φ m := by
  cases φ
  · exact ⟨rfl, le_rfl⟩
  · exact ⟨rfl, le_rfl⟩
  · unfold Buf._limbs_align_len ct_mp_limbs_align_len
    exact ⟨nlimbs_mul _, le_nlimbs_mul m⟩

theorem ct_inv_mod_pow2_mp_exact (result : Buf φ) (op0 : Buf ψ) {e mx : ℕ} (scratch : Buf .ne)
    (h0 : op0.len ≠ 0) (hodd : e = 0 ∨ op0.toNat % 2 = 1) (hmx : mx ≠ 0) (he : e ≤ mx)
    (hr : (mx + 7) / 8 ≤ result.len) (hs : ct_mp_nlimbs ((mx + 7) / 8) ≤ scratch.nlimbs) :
    Exact (LiftOk op0.toNat mx) (ct_inv_mod_pow2_mp result op0 e mx scratch) (fun s => s.1.len = result.len ∧
      s.2.len = scratch.len ∧ s.1.toNat < 2 ^ e ∧ op0.toNat * s.1.toNat % 2 ^ e = 1 % 2 ^ e) := by
  unfold ct_inv_mod_pow2_mp
  dsimp only
  generalize hL : (mx + 7) / 8 = L at *
  have hL0 : 0 < L := by omega
  have hsl : L ≤ scratch.len := by
    have h1 := scratch.aligned (by rfl)
    have h2 := le_nlimbs_mul L
    have := Nat.mul_le_mul_right LB hs
    omega
  rw [M.assert_eq (by rw [← Bool.not_eq_true, op0.is_empty_iff]; exact h0), M.pure_bind]
  rw [M.assertM_eq, M.pure_bind, M.assert_eq hmx, M.pure_bind, M.assert_eq he, M.pure_bind,
    M.assert_eq hr, M.pure_bind, M.assert_eq hs, M.pure_bind]
  swap
  · refine Sat.bind (op0.sat_load_l (nlimbs_pos_of_not_empty (by
      rw [op0.is_empty_iff]; exact h0)) (Q := fun v => v = op0.toNat / B ^ 0 % B) rfl) ?_
    intro v hv
    refine Sat.pure ?_
    have : v &&& 1 = op0.toNat % 2 := by
      rw [hv, pow_zero, Nat.div_one, Nat.and_one_is_mod]
      exact Nat.mod_mod_of_dvd _ (by rw [B_half']; exact dvd_mul_right _ _)
    rw [this]
    simpa using hodd
  refine Sat.bindExact (Buf.sat_clear_bytes_above result L
    (Q := fun r => r.len = result.len ∧ r.toNat < 256 ^ L) fun r h1 h2 => ⟨h1, by
      rw [h2]; exact Nat.mod_lt _ (by positivity)⟩) ?_
  rintro r0 ⟨hr0, hv0⟩
  refine Sat.bindExact (Buf.sat_shrink_to r0 hv0) ?_
  rintro ⟨r1, rest⟩ ⟨hr1, hrv1, hrest, hsum, hn1⟩
  dsimp only at hr1 hrv1 hrest hsum hn1 ⊢
  rw [min_eq_left (by omega)] at hr1 hn1
  refine Sat.bindExact (Buf.sat_clear_bytes_above scratch L
    (Q := fun r => r.len = scratch.len ∧ r.toNat < 256 ^ L) fun r h1 h2 => ⟨h1, by
      rw [h2]; exact Nat.mod_lt _ (by positivity)⟩) ?_
  rintro t0 ⟨ht0, htv0⟩
  refine Sat.bindExact (Buf.sat_shrink_to t0 htv0) ?_
  rintro ⟨t1, trest⟩ ⟨ht1, -, htrest, htsum, htn1⟩
  dsimp only at ht1 htrest htsum htn1 ⊢
  rw [min_eq_left (by omega)] at ht1 htn1
  have hal := nlimbs_align φ L
  have hal' := nlimbs_align .ne L
  refine Sat.bindExact (Buf.sat_clear_bytes_below r1 (k := L) (Or.inr (Or.inl (by rw [hr1]; exact hal.2)))
    (Q := fun r => r.len = r1.len ∧ r.toNat = 0) fun r h1 h2 => ⟨h1, by
      rw [h2, hrv1, Nat.div_eq_of_lt hv0, Nat.zero_mul]⟩) ?_
  rintro r2 ⟨hr2, hv2⟩
  have h256 : 1 < 256 ^ hbytes r2.len := by
    have : 1 ≤ hbytes r2.len := hbytes_pos (by rw [hr2, hr1]; omega)
    calc 1 < 256 ^ 1 := by norm_num
      _ ≤ _ := Nat.pow_le_pow_right (by norm_num) this
  refine Sat.bindExact (Buf.sat_store_l r2 (i := 0) (v := 1)
    (by rw [Buf.nlimbs_congr hr2, hn1, nlimbs_pos_iff]; exact hL0) one_lt_B (fun _ => h256)
    (Q := fun r => r.len = r2.len ∧ r.toNat = 1) fun r h1 h2 => ⟨h1, by
      rw [h2, hv2]; simp [upd]⟩) ?_
  rintro r3 ⟨hr3, hv3⟩
  refine (Exact.bind (S' := True) (inv_pow2_loop_exact (lr := Buf._limbs_align_len φ L)
    (lt := Buf._limbs_align_len .ne L) hL hal.2 hal.1 hal'.2 hal'.1 (mx + 1) 0 (r3, t1) (by omega)
    (by omega) (by rw [hr3, hr2, hr1]) ht1 (by dsimp only; rw [hv3]; norm_num)
    (by dsimp only; rw [hv3]; rfl)) ?_).congr
    ⟨fun h k hk => by rw [hL]; exact h.1 k (Nat.zero_le _) hk,
      fun h => ⟨fun k _ hk => by rw [← hL]; exact h k hk, trivial⟩⟩
  rintro ⟨r4, t4⟩ - ⟨hr4, ht4, k, hk, hcong⟩
  dsimp only at hr4 ht4 hcong ⊢
  refine Sat.exact (Sat.bind (ct_clear_bits_above_mp_sat r4 e) ?_)
  rintro r5 ⟨hr5, hv5⟩
  have hlt : r5.toNat < 2 ^ e := by rw [hv5]; exact Nat.mod_lt _ (by positivity)
  rw [M.assertM_eq, M.pure_bind]
  swap
  · refine Sat.bind (ct_is_zero_mp_sat r5) ?_
    intro z hz
    refine Sat.pure ?_
    by_cases he0 : e = 0
    · have : r5.toNat = 0 := by rw [he0] at hlt; omega
      rw [hz, this]
      simp [LimbChoice.unwrap_ofBool]
    · simp [he0]
  refine Sat.pure ⟨?_, ?_, ?_, ?_⟩
  · dsimp only; rw [Buf.len_join, hr5, hr4, ← hr1]; omega
  · dsimp only; rw [Buf.len_join, ht4, ← ht1]; omega
  · dsimp only; rw [Buf.toNat_join, hrest]; simpa using hlt
  · dsimp only
    rw [Buf.toNat_join, hrest, Nat.mul_zero, Nat.add_zero]
    rcases hodd with h | h
    · rw [h, pow_zero, Nat.mod_one, Nat.mod_one]
    · have h1 : (r5.toNat : ℤ) ≡ liftSeq op0.toNat k [ZMOD 2 ^ e] := by
        refine Int.ModEq.trans ?_ (hcong.of_dvd (pow_dvd_pow 2 (by omega)))
        rw [hv5]; push_cast
        exact Int.mod_modEq _ _
      have h2 : (op0.toNat * r5.toNat : ℤ) ≡ 1 [ZMOD 2 ^ e] := by
        refine (h1.mul_left _).trans ?_
        exact ((Int.modEq_iff_dvd.2 (liftSeq_inv h k)).symm).of_dvd (pow_dvd_pow 2 (by omega))
      have h3 : ((op0.toNat * r5.toNat % 2 ^ e : ℕ) : ℤ) = ((1 % 2 ^ e : ℕ) : ℤ) := by
        push_cast; exact h2
      exact_mod_cast h3

theorem ct_inv_mod_pow2_mp_sat (result : Buf φ) (op0 : Buf ψ) {e mx : ℕ} (scratch : Buf .ne)
    (h0 : op0.len ≠ 0) (hodd : e = 0 ∨ op0.toNat % 2 = 1) (hmx : mx ≠ 0) (he : e ≤ mx)
    (hr : (mx + 7) / 8 ≤ result.len) (hs : ct_mp_nlimbs ((mx + 7) / 8) ≤ scratch.nlimbs)
    (hok : LiftOk op0.toNat mx) :
    Sat (ct_inv_mod_pow2_mp result op0 e mx scratch) (fun s => s.1.len = result.len ∧
      s.2.len = scratch.len ∧ s.1.toNat < 2 ^ e ∧ op0.toNat * s.1.toNat % 2 ^ e = 1 % 2 ^ e) :=
  (ct_inv_mod_pow2_mp_exact result op0 scratch h0 hodd hmx he hr hs).sat hok

/-- No hypothesis on the operand is needed up to twice the width of a limb. -/
theorem liftOk_small {a mx : ℕ} (h : mx ≤ 2 * W) : LiftOk a mx := by
  intro k hk i j hij _
  have hlt : liftSeq a k < B ^ j := by
    have hkW : 2 ^ k ≤ W := by
      have h2 : 2 ^ k < 2 * W := by omega
      rcases W_cases with hW | hW <;> rw [hW] at h2 ⊢
      · have : k < 6 := (Nat.pow_lt_pow_iff_right (by norm_num : 1 < 2)).1
          (show 2 ^ k < 2 ^ 6 by omega)
        calc 2 ^ k ≤ 2 ^ 5 := Nat.pow_le_pow_right (by norm_num) (by omega)
          _ = 32 := by norm_num
      · have : k < 7 := (Nat.pow_lt_pow_iff_right (by norm_num : 1 < 2)).1
          (show 2 ^ k < 2 ^ 7 by omega)
        calc 2 ^ k ≤ 2 ^ 6 := Nat.pow_le_pow_right (by norm_num) (by omega)
          _ = 64 := by norm_num
    calc liftSeq a k < 2 ^ (2 ^ k) := liftSeq_lt a k
      _ ≤ 2 ^ W := Nat.pow_le_pow_right (by norm_num) hkW
      _ = B ^ 1 := (pow_one B).symm
      _ ≤ B ^ j := Nat.pow_le_pow_right B_pos (by omega)
  unfold SquarePair
  rw [Nat.div_eq_of_lt hlt, Nat.zero_mod, Nat.mul_zero, Nat.zero_div]
  have := half_ge
  omega

end Cmpa
