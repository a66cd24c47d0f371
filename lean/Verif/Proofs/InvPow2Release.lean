import Verif.Proofs.SquareRelease
import Verif.Proofs.InvPow2

/-!
# Inverses modulo powers of two in a release build
-/

namespace Cmpa
open M
variable [LimbCfg] {φ ψ : Fmt}

theorem inv_pow2_lift_rel {op0 : Buf ψ} {L cur : ℕ} {result : Buf φ} {tmp : Buf .ne}
    (hr : L ≤ result.len) (hrn : result.nlimbs = ct_mp_nlimbs L)
    (ht : L ≤ tmp.len) (htn : tmp.nlimbs = ct_mp_nlimbs L)
    (hc : cur < 8 * L) (hx : result.toNat < 2 ^ cur) (hok : SqKept (ct_mp_nlimbs L) result.toNat) :
    RSat (inv_pow2_lift op0 L cur (result, tmp)) (fun s => s.1.len = result.len ∧
      s.2.len = tmp.len ∧ s.1.toNat < 2 ^ (2 * cur) ∧
      (s.1.toNat : ℤ) ≡ 2 * result.toNat - op0.toNat * (result.toNat : ℤ) ^ 2
        [ZMOD 2 ^ (min (2 * cur) (8 * L))]) := by
  unfold inv_pow2_lift
  dsimp only
  have hlr : result.toNat < 256 ^ ((cur + 7) / 8) := by
    rw [pow_256_eq]
    exact lt_of_lt_of_le hx (Nat.pow_le_pow_right (by norm_num) (by omega))
  have hcl : (cur + 7) / 8 ≤ L := by omega
  refine RSat.bind (Buf.copy_from_sat tmp result (lt_of_lt_of_le hlr
    (Nat.pow_le_pow_right (by norm_num) (by omega)))).rel ?_
  rintro t1 ⟨ht1, hv1⟩
  have hsq := ct_square_trunc_mp_kept t1 ((cur + 7) / 8) (by omega)
    (by rw [hv1, Nat.mod_eq_of_lt hlr, Buf.nlimbs_congr ht1, htn]; exact hok)
  rw [hv1, Nat.mod_eq_of_lt hlr] at hsq
  refine RSat.bind hsq ?_
  rintro t2 ⟨ht2, hv2⟩
  refine Sat.rel ?_
  refine Sat.bind (ct_mul_trunc_mp_mp_sat t2 (min (2 * ((cur + 7) / 8)) L) op0 (by omega)) ?_
  rintro t3 ⟨ht3, hv3⟩
  have hN : ct_mp_nlimbs (min (2 * ((cur + 7) / 8)) L) ≤ ct_mp_nlimbs L := nlimbs_mono (by omega)
  refine Sat.bind (inv_pow2_sub_sat result t3 (by omega)
    (by rw [Buf.nlimbs_congr (ht3.trans (ht2.trans ht1)), htn]; exact hN)) ?_
  rintro ⟨r1, c, w⟩ ⟨hr1, hcong⟩
  dsimp only at hr1 hcong ⊢
  refine Sat.bind (clear_bits_above_mp_sat r1 (2 * cur)) ?_
  rintro r2 ⟨hr2, hv⟩
  refine Sat.pure ⟨hr2.trans hr1, ht3.trans (ht2.trans ht1), ?_, ?_⟩
  · rw [hv]; exact Nat.mod_lt _ (by positivity)
  · dsimp only
    generalize hk : min (2 * cur) (8 * L) = k
    generalize hcr : min (2 * ((cur + 7) / 8)) L = m at *
    have hkm : k ≤ 8 * m := by omega
    have d256 : ∀ l, m ≤ l → (2 : ℤ) ^ k ∣ 256 ^ l := fun l hl => by
      rw [show (256 : ℤ) = 2 ^ 8 by norm_num, ← pow_mul]
      exact pow_dvd_pow 2 (by omega)
    have dB : (2 : ℤ) ^ k ∣ (B : ℤ) ^ ct_mp_nlimbs m := by
      have h1 : (256 : ℕ) ^ m ∣ B ^ ct_mp_nlimbs m := len_dvd_pow m
      have h2 : (256 : ℤ) ^ m ∣ (B : ℤ) ^ ct_mp_nlimbs m := by exact_mod_cast h1
      exact (d256 m le_rfl).trans h2
    have h1 := hcong _ dB (d256 _ (by omega))
    have e1 : (r2.toNat : ℤ) ≡ r1.toNat [ZMOD 2 ^ k] := by
      rw [hv]; push_cast
      exact (Int.mod_modEq _ _).of_dvd (pow_dvd_pow 2 (by omega))
    have e2 : (t3.toNat : ℤ) ≡ op0.toNat * (result.toNat : ℤ) ^ 2 [ZMOD 2 ^ k] := by
      rw [hv3]; push_cast
      refine ((Int.mod_modEq _ _).of_dvd (d256 _ (by omega))).trans ?_
      rw [mul_comm (op0.toNat : ℤ)]
      refine Int.ModEq.mul_right _ ?_
      refine ((Int.mod_modEq _ _).of_dvd (d256 _ le_rfl)).trans ?_
      rw [hv2]; push_cast
      exact (Int.mod_modEq _ _).of_dvd (d256 _ (by omega))
    exact e1.trans (h1.trans (Int.ModEq.sub_left _ e2))

theorem inv_pow2_loop_rel {op0 : Buf ψ} {mx L lr lt : ℕ} (hL : (mx + 7) / 8 = L)
    (hlr : L ≤ lr) (hlrn : ct_mp_nlimbs lr = ct_mp_nlimbs L)
    (hlt : L ≤ lt) (hltn : ct_mp_nlimbs lt = ct_mp_nlimbs L) :
    ∀ (fuel k : ℕ) (s : Buf φ × Buf .ne), 1 ≤ fuel → mx < 2 ^ k + fuel →
      s.1.len = lr → s.2.len = lt → s.1.toNat < 2 ^ (2 ^ k) →
      (s.1.toNat : ℤ) ≡ liftSeq op0.toNat k [ZMOD 2 ^ (min (2 ^ k) (8 * L))] →
      (∀ k', k ≤ k' → 2 ^ k' < mx → SqKept (ct_mp_nlimbs L) (liftSeq op0.toNat k')) →
      RSat (inv_pow2_loop op0 mx L fuel (2 ^ k) s) (fun s' => s'.1.len = lr ∧ s'.2.len = lt ∧
        ∃ k', mx ≤ 2 ^ k' ∧
          (s'.1.toNat : ℤ) ≡ liftSeq op0.toNat k' [ZMOD 2 ^ (min (2 ^ k') (8 * L))])
  | 0, _, _, h, _, _, _, _, _, _ => by omega
  | fuel + 1, k, (result, tmp), _, hf, hr, ht, hlt', hcong, hok => by
    rw [inv_pow2_loop]
    dsimp only at hr ht hlt' hcong
    refine RSat.cond (fun hc => ?_) fun hc => ?_
    · have hx : result.toNat = liftSeq op0.toNat k := by
        rw [min_eq_left (by omega)] at hcong
        have h1 : ((result.toNat : ℕ) : ℤ) % 2 ^ (2 ^ k) = result.toNat :=
          Int.emod_eq_of_lt (by positivity) (by exact_mod_cast hlt')
        have h2 : ((liftSeq op0.toNat k : ℕ) : ℤ) % 2 ^ (2 ^ k) = liftSeq op0.toNat k :=
          Int.emod_eq_of_lt (by positivity) (by exact_mod_cast liftSeq_lt _ _)
        have h3 : ((result.toNat : ℕ) : ℤ) % 2 ^ (2 ^ k) =
          ((liftSeq op0.toNat k : ℕ) : ℤ) % 2 ^ (2 ^ k) := hcong
        rw [h1, h2] at h3
        exact_mod_cast h3
      have hlift := inv_pow2_lift_rel (op0 := op0) (L := L) (cur := 2 ^ k) (result := result)
        (tmp := tmp) (by omega) (by rw [Buf.nlimbs_eq, hr, hlrn]) (by omega)
        (by rw [Buf.nlimbs_eq, ht, hltn]) (by omega) hlt' (by rw [hx]; exact hok k le_rfl hc)
      refine RSat.bind hlift ?_
      rintro ⟨r1, t1⟩ ⟨h1, h2, h3, h4⟩
      dsimp only at h1 h2 h3 h4
      have hpos : 1 ≤ 2 ^ k := Nat.one_le_two_pow
      have e : 2 * 2 ^ k = 2 ^ (k + 1) := by rw [pow_succ]; ring
      rw [e] at h3 h4 ⊢
      refine inv_pow2_loop_rel hL hlr hlrn hlt hltn fuel (k + 1) (r1, t1) (by omega) (by omega)
        (h1.trans hr) (h2.trans ht) h3 ?_ fun k' h5 h6 => hok k' (by omega) h6
      rw [hx] at h4
      refine h4.trans ?_
      rw [liftSeq_succ]
      exact ((Int.mod_modEq _ _).of_dvd (pow_dvd_pow 2 (min_le_left _ _))).symm
    · exact RSat.pure ⟨hr, ht, k, by omega, hcong⟩

/-- The function from what its loop does. -/
theorem ct_inv_mod_pow2_mp_of_loop (result : Buf φ) (op0 : Buf ψ) {e mx : ℕ} (scratch : Buf .ne)
    (h0 : op0.len ≠ 0) (hodd : e = 0 ∨ op0.toNat % 2 = 1) (hmx : mx ≠ 0) (he : e ≤ mx)
    (hr : (mx + 7) / 8 ≤ result.len) (hs : ct_mp_nlimbs ((mx + 7) / 8) ≤ scratch.nlimbs)
    (hloop : ∀ (r : Buf φ) (t : Buf .ne), r.len = Buf._limbs_align_len φ ((mx + 7) / 8) →
      t.len = Buf._limbs_align_len .ne ((mx + 7) / 8) → r.toNat = 1 →
      RSat (inv_pow2_loop op0 mx ((mx + 7) / 8) (mx + 1) 1 (r, t)) (fun s =>
        s.1.len = Buf._limbs_align_len φ ((mx + 7) / 8) ∧ s.2.len = Buf._limbs_align_len .ne ((mx + 7) / 8) ∧
        (op0.toNat * s.1.toNat : ℤ) ≡ 1 [ZMOD 2 ^ e])) :
    RSat (ct_inv_mod_pow2_mp result op0 e mx scratch) (fun s => s.1.len = result.len ∧
      s.2.len = scratch.len ∧ s.1.toNat < 2 ^ e ∧ op0.toNat * s.1.toNat % 2 ^ e = 1 % 2 ^ e) := by
  unfold ct_inv_mod_pow2_mp
  dsimp only
  generalize hL : (mx + 7) / 8 = L at *
  have hL0 : 0 < L := by omega
  have hsl : L ≤ scratch.len := by
    have h1 := scratch.aligned (by rfl)
    have h2 := le_nlimbs_mul L
    have := Nat.mul_le_mul_right LB hs
    omega
  rw [M.assert_eq (by rw [← Bool.not_eq_true, op0.is_empty_iff]; exact h0), M.pure_bind]
  rw [M.assertM_eq, M.pure_bind, M.assert_eq hmx, M.pure_bind, M.assert_eq he, M.pure_bind,
    M.assert_eq hr, M.pure_bind, M.assert_eq hs, M.pure_bind]
  swap
  · refine Sat.bind (op0.sat_load_l (nlimbs_pos_of_not_empty (by
      rw [op0.is_empty_iff]; exact h0)) (Q := fun v => v = op0.toNat / B ^ 0 % B) rfl) ?_
    intro v hv
    refine Sat.pure ?_
    have : v &&& 1 = op0.toNat % 2 := by
      rw [hv, pow_zero, Nat.div_one, Nat.and_one_is_mod]
      exact Nat.mod_mod_of_dvd _ (by rw [B_half']; exact dvd_mul_right _ _)
    rw [this]
    simpa using hodd
  refine RSat.bind (Buf.sat_clear_bytes_above result L
    (Q := fun r => r.len = result.len ∧ r.toNat < 256 ^ L) fun r h1 h2 => ⟨h1, by
      rw [h2]; exact Nat.mod_lt _ (by positivity)⟩).rel ?_
  rintro r0 ⟨hr0, hv0⟩
  refine RSat.bind (Buf.sat_shrink_to r0 hv0).rel ?_
  rintro ⟨r1, rest⟩ ⟨hr1, hrv1, hrest, hsum, hn1⟩
  dsimp only at hr1 hrv1 hrest hsum hn1 ⊢
  rw [min_eq_left (by omega)] at hr1 hn1
  refine RSat.bind (Buf.sat_clear_bytes_above scratch L
    (Q := fun r => r.len = scratch.len ∧ r.toNat < 256 ^ L) fun r h1 h2 => ⟨h1, by
      rw [h2]; exact Nat.mod_lt _ (by positivity)⟩).rel ?_
  rintro t0 ⟨ht0, htv0⟩
  refine RSat.bind (Buf.sat_shrink_to t0 htv0).rel ?_
  rintro ⟨t1, trest⟩ ⟨ht1, -, htrest, htsum, htn1⟩
  dsimp only at ht1 htrest htsum htn1 ⊢
  rw [min_eq_left (by omega)] at ht1 htn1
  have hal := nlimbs_align φ L
  have hal' := nlimbs_align .ne L
  refine RSat.bind (Buf.sat_clear_bytes_below r1 (k := L) (Or.inr (Or.inl (by rw [hr1]; exact hal.2)))
    (Q := fun r => r.len = r1.len ∧ r.toNat = 0) fun r h1 h2 => ⟨h1, by
      rw [h2, hrv1, Nat.div_eq_of_lt hv0, Nat.zero_mul]⟩).rel ?_
  rintro r2 ⟨hr2, hv2⟩
  have h256 : 1 < 256 ^ hbytes r2.len := by
    have : 1 ≤ hbytes r2.len := hbytes_pos (by rw [hr2, hr1]; omega)
    calc 1 < 256 ^ 1 := by norm_num
      _ ≤ _ := Nat.pow_le_pow_right (by norm_num) this
  refine RSat.bind (Buf.sat_store_l r2 (i := 0) (v := 1)
    (by rw [Buf.nlimbs_congr hr2, hn1, nlimbs_pos_iff]; exact hL0) one_lt_B (fun _ => h256)
    (Q := fun r => r.len = r2.len ∧ r.toNat = 1) fun r h1 h2 => ⟨h1, by
      rw [h2, hv2]; simp [upd]⟩).rel ?_
  rintro r3 ⟨hr3, hv3⟩
  refine RSat.bind (hloop r3 t1 (by rw [hr3, hr2, hr1]) ht1 hv3) ?_
  rintro ⟨r4, t4⟩ ⟨hr4, ht4, hcong⟩
  dsimp only at hr4 ht4 hcong ⊢
  refine Sat.rel (Sat.bind (ct_clear_bits_above_mp_sat r4 e) ?_)
  rintro r5 ⟨hr5, hv5⟩
  have hlt : r5.toNat < 2 ^ e := by rw [hv5]; exact Nat.mod_lt _ (by positivity)
  rw [M.assertM_eq, M.pure_bind]
  swap
  · refine Sat.bind (ct_is_zero_mp_sat r5) ?_
    intro z hz
    refine Sat.pure ?_
    by_cases he0 : e = 0
    · have : r5.toNat = 0 := by rw [he0] at hlt; omega
      rw [hz, this]
      simp [LimbChoice.unwrap_ofBool]
    · simp [he0]
  refine Sat.pure ⟨?_, ?_, ?_, ?_⟩
  · dsimp only; rw [Buf.len_join, hr5, hr4, ← hr1]; omega
  · dsimp only; rw [Buf.len_join, ht4, ← ht1]; omega
  · dsimp only; rw [Buf.toNat_join, hrest]; simpa using hlt
  · dsimp only
    rw [Buf.toNat_join, hrest, Nat.mul_zero, Nat.add_zero]
    have h1 : (r5.toNat : ℤ) ≡ r4.toNat [ZMOD 2 ^ e] := by
      rw [hv5]; push_cast
      exact Int.mod_modEq _ _
    have h2 : (op0.toNat * r5.toNat : ℤ) ≡ 1 [ZMOD 2 ^ e] := (h1.mul_left _).trans hcong
    have h3 : ((op0.toNat * r5.toNat % 2 ^ e : ℕ) : ℤ) = ((1 % 2 ^ e : ℕ) : ℤ) := by
      push_cast; exact h2
    exact_mod_cast h3

theorem ct_inv_mod_pow2_mp_rel (result : Buf φ) (op0 : Buf ψ) {e mx : ℕ} (scratch : Buf .ne)
    (h0 : op0.len ≠ 0) (hodd : e = 0 ∨ op0.toNat % 2 = 1) (hmx : mx ≠ 0) (he : e ≤ mx)
    (hr : (mx + 7) / 8 ≤ result.len) (hs : ct_mp_nlimbs ((mx + 7) / 8) ≤ scratch.nlimbs)
    (hok : ∀ k, 2 ^ k < mx → SqKept (ct_mp_nlimbs ((mx + 7) / 8)) (liftSeq op0.toNat k)) :
    RSat (ct_inv_mod_pow2_mp result op0 e mx scratch) (fun s => s.1.len = result.len ∧
      s.2.len = scratch.len ∧ s.1.toNat < 2 ^ e ∧ op0.toNat * s.1.toNat % 2 ^ e = 1 % 2 ^ e) := by
  refine ct_inv_mod_pow2_mp_of_loop result op0 scratch h0 hodd hmx he hr hs fun r t hrl htl hrv => ?_
  have hal := nlimbs_align φ ((mx + 7) / 8)
  have hal' := nlimbs_align .ne ((mx + 7) / 8)
  refine (inv_pow2_loop_rel rfl hal.2 hal.1 hal'.2 hal'.1 (mx + 1) 0 (r, t) (by omega)
    (by omega) hrl htl (by dsimp only; rw [hrv]; norm_num)
    (by dsimp only; rw [hrv]; rfl) fun k _ hk => hok k hk).mono ?_
  rintro ⟨r4, t4⟩ ⟨hr4, ht4, k, hk, hcong⟩
  refine ⟨hr4, ht4, ?_⟩
  rcases hodd with h | h
  · rw [h, pow_zero]; exact Int.modEq_one
  · refine ((hcong.of_dvd (pow_dvd_pow 2 (by omega))).mul_left _).trans ?_
    exact ((Int.modEq_iff_dvd.2 (liftSeq_inv h k)).symm).of_dvd (pow_dvd_pow 2 (by omega))

/-! ### If losses stay above the bits asked for -/

theorem inv_pow2_lift_low {op0 : Buf ψ} {L K cur : ℕ} {result : Buf φ} {tmp : Buf .ne}
    (hK : K ≤ L) (hr : L ≤ result.len) (hrn : result.nlimbs = ct_mp_nlimbs L) (ht : L ≤ tmp.len) (htn : tmp.nlimbs = ct_mp_nlimbs L)
    (hc : cur < 8 * L) (hx : result.toNat < 2 ^ cur) (hok : SqKept (ct_mp_nlimbs K) result.toNat) :
    RSat (inv_pow2_lift op0 L cur (result, tmp)) (fun s => s.1.len = result.len ∧
      s.2.len = tmp.len ∧ s.1.toNat < 2 ^ (2 * cur) ∧
      (s.1.toNat : ℤ) ≡ 2 * result.toNat - op0.toNat * (result.toNat : ℤ) ^ 2
        [ZMOD 2 ^ (min (2 * cur) (8 * K))]) := by
  unfold inv_pow2_lift
  dsimp only
  have hlr : result.toNat < 256 ^ ((cur + 7) / 8) := by
    rw [pow_256_eq]
    exact lt_of_lt_of_le hx (Nat.pow_le_pow_right (by norm_num) (by omega))
  have hcl : (cur + 7) / 8 ≤ L := by omega
  refine RSat.bind (Buf.copy_from_sat tmp result (lt_of_lt_of_le hlr
    (Nat.pow_le_pow_right (by norm_num) (by omega)))).rel ?_
  rintro t1 ⟨ht1, hv1⟩
  have hsq := ct_square_trunc_mp_low t1 ((cur + 7) / 8) (by omega) (L := K) (by omega)
    (by rw [hv1, Nat.mod_eq_of_lt hlr]; exact hok)
  rw [hv1, Nat.mod_eq_of_lt hlr] at hsq
  refine RSat.bind hsq ?_
  rintro t2 ⟨ht2, hv2⟩
  refine Sat.rel ?_
  refine Sat.bind (ct_mul_trunc_mp_mp_sat t2 (min (2 * ((cur + 7) / 8)) L) op0 (by omega)) ?_
  rintro t3 ⟨ht3, hv3⟩
  have hN : ct_mp_nlimbs (min (2 * ((cur + 7) / 8)) L) ≤ ct_mp_nlimbs L := nlimbs_mono (by omega)
  refine Sat.bind (inv_pow2_sub_sat result t3 (by omega)
    (by rw [Buf.nlimbs_congr (ht3.trans (ht2.trans ht1)), htn]; exact hN)) ?_
  rintro ⟨r1, c, w⟩ ⟨hr1, hcong⟩
  dsimp only at hr1 hcong ⊢
  refine Sat.bind (clear_bits_above_mp_sat r1 (2 * cur)) ?_
  rintro r2 ⟨hr2, hv⟩
  refine Sat.pure ⟨hr2.trans hr1, ht3.trans (ht2.trans ht1), ?_, ?_⟩
  · rw [hv]; exact Nat.mod_lt _ (by positivity)
  · dsimp only
    generalize hk : min (2 * cur) (8 * K) = k
    generalize hcr : min (2 * ((cur + 7) / 8)) L = m at *
    have hkm : k ≤ 8 * m := by omega
    have d256 : ∀ l, k ≤ 8 * l → (2 : ℤ) ^ k ∣ 256 ^ l := fun l hl => by
      rw [show (256 : ℤ) = 2 ^ 8 by norm_num, ← pow_mul]
      exact pow_dvd_pow 2 (by omega)
    have dB : (2 : ℤ) ^ k ∣ (B : ℤ) ^ ct_mp_nlimbs m := by
      have h1 : (256 : ℕ) ^ m ∣ B ^ ct_mp_nlimbs m := len_dvd_pow m
      have h2 : (256 : ℤ) ^ m ∣ (B : ℤ) ^ ct_mp_nlimbs m := by exact_mod_cast h1
      exact (d256 m hkm).trans h2
    have h1 := hcong _ dB (d256 result.len (by omega))
    have e1 : (r2.toNat : ℤ) ≡ r1.toNat [ZMOD 2 ^ k] := by
      rw [hv]; push_cast
      exact (Int.mod_modEq _ _).of_dvd (pow_dvd_pow 2 (by omega))
    have e2 : (t3.toNat : ℤ) ≡ op0.toNat * (result.toNat : ℤ) ^ 2 [ZMOD 2 ^ k] := by
      rw [hv3]; push_cast
      refine ((Int.mod_modEq _ _).of_dvd (d256 _ (by omega))).trans ?_
      rw [mul_comm (op0.toNat : ℤ)]
      refine Int.ModEq.mul_right _ ?_
      refine ((Int.mod_modEq _ _).of_dvd (d256 _ hkm)).trans ?_
      have h3 : ((t2.toNat : ℕ) : ℤ) ≡ ((result.toNat ^ 2 : ℕ) : ℤ) [ZMOD ((256 ^ K : ℕ) : ℤ)] :=
        Int.natCast_modEq_iff.2 hv2
      push_cast at h3
      exact h3.of_dvd (d256 _ (by omega))
    exact e1.trans (h1.trans (Int.ModEq.sub_left _ e2))

/-- A Newton step doubles the number of the right bits. -/
theorem newton_step {a x y : ℤ} {m n : ℕ} (h : a * x ≡ 1 [ZMOD 2 ^ m])
    (hy : y ≡ 2 * x - a * x ^ 2 [ZMOD 2 ^ n]) (hn : n ≤ 2 * m) : a * y ≡ 1 [ZMOD 2 ^ n] := by
  obtain ⟨d, hd⟩ := h.symm.dvd
  refine (hy.mul_left a).trans (Int.ModEq.symm (Int.modEq_iff_dvd.2 ?_))
  have : a * (2 * x - a * x ^ 2) - 1 = -((2 ^ m * d) * (2 ^ m * d)) := by
    rw [← hd]; ring
  rw [this, dvd_neg, mul_mul_mul_comm, ← pow_add]
  exact Dvd.dvd.mul_right (pow_dvd_pow 2 (by omega)) _

theorem inv_pow2_loop_low {op0 : Buf ψ} {mx L K lr lt : ℕ} (hL : (mx + 7) / 8 = L) (hK : K ≤ L)
    (hlr : L ≤ lr) (hlrn : ct_mp_nlimbs lr = ct_mp_nlimbs L)
    (hlt : L ≤ lt) (hltn : ct_mp_nlimbs lt = ct_mp_nlimbs L) (hok : ∀ x, SqKept (ct_mp_nlimbs K) x) :
    ∀ (fuel k : ℕ) (s : Buf φ × Buf .ne), 1 ≤ fuel → mx < 2 ^ k + fuel →
      s.1.len = lr → s.2.len = lt → s.1.toNat < 2 ^ (2 ^ k) →
      (op0.toNat * s.1.toNat : ℤ) ≡ 1 [ZMOD 2 ^ (min (2 ^ k) (8 * K))] →
      RSat (inv_pow2_loop op0 mx L fuel (2 ^ k) s) (fun s' => s'.1.len = lr ∧ s'.2.len = lt ∧
        ∃ k', mx ≤ 2 ^ k' ∧ (op0.toNat * s'.1.toNat : ℤ) ≡ 1 [ZMOD 2 ^ (min (2 ^ k') (8 * K))])
  | 0, _, _, h, _, _, _, _, _ => by omega
  | fuel + 1, k, (result, tmp), _, hf, hr, ht, hlt', hcong => by
    rw [inv_pow2_loop]
    dsimp only at hr ht hlt' hcong
    refine RSat.cond (fun hc => ?_) fun hc => ?_
    · have hlift := inv_pow2_lift_low (op0 := op0) (L := L) (cur := 2 ^ k) (result := result)
        (tmp := tmp) hK (by omega) (by rw [Buf.nlimbs_eq, hr, hlrn]) (by omega) (by rw [Buf.nlimbs_eq, ht, hltn]) (by omega) hlt' (hok _)
      refine RSat.bind hlift ?_
      rintro ⟨r1, t1⟩ ⟨h1, h2, h3, h4⟩
      dsimp only at h1 h2 h3 h4
      have hpos : 1 ≤ 2 ^ k := Nat.one_le_two_pow
      have e : 2 * 2 ^ k = 2 ^ (k + 1) := by rw [pow_succ]; ring
      have h5 := newton_step hcong h4 (by omega)
      rw [e] at h3 h5 ⊢
      exact inv_pow2_loop_low hL hK hlr hlrn hlt hltn hok fuel (k + 1) (r1, t1) (by omega) (by omega)
        (h1.trans hr) (h2.trans ht) h3 h5
    · exact RSat.pure ⟨hr, ht, k, by omega, hcong⟩

/-- Up to exponents of three limbs the inverse is right in a release build, whatever the maximum exponent. -/
theorem ct_inv_mod_pow2_mp_low (result : Buf φ) (op0 : Buf ψ) {e mx : ℕ} (scratch : Buf .ne)
    (h0 : op0.len ≠ 0) (hodd : e = 0 ∨ op0.toNat % 2 = 1) (hmx : mx ≠ 0) (he : e ≤ mx)
    (hr : (mx + 7) / 8 ≤ result.len) (hs : ct_mp_nlimbs ((mx + 7) / 8) ≤ scratch.nlimbs)
    (he3 : e ≤ 3 * W) :
    RSat (ct_inv_mod_pow2_mp result op0 e mx scratch) (fun s => s.1.len = result.len ∧
      s.2.len = scratch.len ∧ s.1.toNat < 2 ^ e ∧ op0.toNat * s.1.toNat % 2 ^ e = 1 % 2 ^ e) := by
  refine ct_inv_mod_pow2_mp_of_loop result op0 scratch h0 hodd hmx he hr hs fun r t hrl htl hrv => ?_
  have hal := nlimbs_align φ ((mx + 7) / 8)
  have hal' := nlimbs_align .ne ((mx + 7) / 8)
  rcases hodd with h | h
  · refine (inv_pow2_loop_low (K := 0) rfl (by omega) hal.2 hal.1 hal'.2 hal'.1
      (fun x i j h1 h2 => by rw [show ct_mp_nlimbs 0 = 0 by simp [ct_mp_nlimbs, Nat.div_eq_of_lt, LB_pos]] at h2; omega)
      (mx + 1) 0 (r, t) (by omega)
      (by omega) hrl htl (by dsimp only; rw [hrv]; norm_num) (by simpa using Int.modEq_one)).mono ?_
    rintro ⟨r4, t4⟩ ⟨hr4, ht4, -⟩
    refine ⟨hr4, ht4, ?_⟩
    rw [h, pow_zero]
    exact Int.modEq_one
  · have hK3 : ct_mp_nlimbs (min ((mx + 7) / 8) (3 * LB)) ≤ 3 := by
      refine (nlimbs_mono (min_le_right _ _)).trans ?_
      rw [nlimbs_mul]
    refine (inv_pow2_loop_low (K := min ((mx + 7) / 8) (3 * LB)) rfl (by omega) hal.2 hal.1 hal'.2 hal'.1
      (fun x i j h1 h2 => by omega) (mx + 1) 0 (r, t) (by omega)
      (by omega) hrl htl (by dsimp only; rw [hrv]; norm_num) ?_).mono ?_
    · dsimp only
      rw [hrv]
      have h2 : (op0.toNat * (1 : ℕ) : ℤ) ≡ 1 [ZMOD 2 ^ 1] := by
        rw [Int.ModEq]; push_cast; omega
      exact h2.of_dvd (pow_dvd_pow 2 (by rw [pow_zero]; exact min_le_left _ _))
    · rintro ⟨r4, t4⟩ ⟨hr4, ht4, k, hk, hcong⟩
      refine ⟨hr4, ht4, hcong.of_dvd (pow_dvd_pow 2 ?_)⟩
      rw [W_eq] at he3
      omega

end Cmpa
