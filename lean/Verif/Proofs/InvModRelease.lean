import Verif.Proofs.InvMod
import Verif.Proofs.InvPow2Release

/-!
# Inversion modulo any number, in a release build

The squarings may lose bits there, but not in the limbs which count, as long as the power of two dividing the modulus
has three limbs at most.
-/

set_option linter.unusedSectionVars false

namespace Cmpa
variable [LimbCfg] {φ ψ χ : Fmt}

open M

/-- What the inversion modulo the odd part, and that modulo the power of two, leave to be done. -/
theorem inv_mod_garner_rel {op0 : Buf φ} {n : Buf ψ} {inv0 inv1 s2 : Buf .ne} {e a : ℕ}
    (hn0 : 0 < n.len) (hodd : n.toNat % 2 = 1) (hn : n.toNat * 2 ^ e < 256 ^ n.len)
    (hno : n.toNat * 2 ^ e < 256 ^ op0.len) (hN : n.nlimbs ≤ op0.nlimbs)
    (hl0 : n.len ≤ inv0.len) (hn0' : inv0.nlimbs = n.nlimbs) (hl1 : inv1.len = inv0.len)
    (hs2 : n.nlimbs ≤ s2.nlimbs) (h0 : a * inv0.toNat % 2 ^ e = 1 % 2 ^ e)
    (hv1 : inv1.toNat < n.toNat) (h1 : inv1.toNat = 0 → n.toNat = 1)
    (he3 : e ≤ 3 * W) :
    RSat (inv_mod_garner op0 n inv0 inv1 s2 e) (fun r =>
      r.1.len = n.len ∧ r.1.toNat = n.toNat * 2 ^ e ∧
      Outcome (if n.toNat * 2 ^ e = 1 then some GcdError.OperandsNotCoprime else none) (fun o =>
        o.len = op0.len ∧ o.toNat < n.toNat * 2 ^ e ∧ o.toNat % n.toNat = inv1.toNat ∧
        a * o.toNat % 2 ^ e = 1 % 2 ^ e) r.2) := by
  unfold inv_mod_garner
  have hpe : 0 < 2 ^ e := by positivity
  have hm1 : 1 ≤ n.toNat := by omega
  have he : e < 8 * n.len := by
    have : 2 ^ e < 2 ^ (8 * n.len) := by
      rw [← pow_256_eq]
      exact lt_of_le_of_lt (Nat.le_mul_of_pos_left _ hm1) hn
    exact (Nat.pow_lt_pow_iff_right (by norm_num)).1 this
  have hmm : n.toNat ≤ n.toNat * 2 ^ e := Nat.le_mul_of_pos_right _ hpe
  rw [M.sub_eq (by omega), M.pure_bind]
  refine RSat.bind (Sat.rel (Buf.copy_from_sat op0 inv1 (by omega))) ?_
  rintro o1 ⟨ho1, hov1⟩
  refine RSat.bind (Sat.rel (ct_sub_mp_mp_sat inv0 inv1 (by rw [Buf.nlimbs_congr hl1])
    (by rw [← hl1]; exact inv1.toNat_lt))) ?_
  rintro ⟨i0, w⟩ ⟨hi0, -, hvi0⟩
  dsimp only at hi0 hvi0 ⊢
  have hL : (8 * n.len - 1 + 7) / 8 = n.len := by omega
  refine RSat.bind (ct_inv_mod_pow2_mp_low inv1 n s2 (e := e) (mx := 8 * n.len - 1) (by omega)
    (Or.inr hodd) (by omega) (by omega) (by omega) (by rw [hL, ← Buf.nlimbs_eq]; exact hs2) he3) ?_
  rintro ⟨i1, s2'⟩ ⟨-, -, -, hy⟩
  refine Sat.rel ?_
  dsimp only at hy ⊢
  refine Sat.bind (ct_mul_trunc_mp_mp_sat i0 n.len i1 (by omega)) ?_
  rintro i2 ⟨hi2, hvi2⟩
  refine Sat.bind (ct_clear_bits_above_mp_sat i2 e) ?_
  rintro i3 ⟨hi3, hvi3⟩
  refine Sat.bind (ct_mul_trunc_mp_mp_sat i3 n.len n (by omega)) ?_
  rintro i4 ⟨hi4, hvi4⟩
  have hz : i3.toNat < 2 ^ e := by rw [hvi3]; exact Nat.mod_lt _ hpe
  have hzm : i3.toNat * n.toNat + n.toNat ≤ n.toNat * 2 ^ e := by
    have := Nat.mul_le_mul_left n.toNat (Nat.succ_le_of_lt hz)
    rw [Nat.mul_succ] at this
    rw [Nat.mul_comm]; exact this
  have hpl : 256 ^ n.len ≤ 256 ^ i3.len := Nat.pow_le_pow_right (by norm_num) (by omega)
  have hz2 : i3.toNat < 256 ^ n.len := by
    have : 2 ^ e ≤ n.toNat * 2 ^ e := Nat.le_mul_of_pos_left _ hm1
    omega
  rw [Nat.mod_eq_of_lt hz2, Nat.mod_eq_of_lt (by omega)] at hvi4
  refine Sat.bind (ct_add_mp_mp_sat o1 i4 (by
    rw [Buf.nlimbs_congr ho1, Buf.nlimbs_congr (hi4.trans (hi3.trans (hi2.trans hi0))), hn0']
    exact hN) (by rw [ho1]; omega)) ?_
  rintro ⟨o2, c⟩ ⟨ho2, hc1, hov2⟩
  dsimp only at ho2 hc1 hov2 ⊢
  rw [ho1] at hov2
  have hsum : o1.toNat + i4.toNat < n.toNat * 2 ^ e := by omega
  have hc0 : c = 0 := by
    rcases Nat.eq_zero_or_pos c with h | h
    · exact h
    · have : 1 * 256 ^ op0.len ≤ c * 256 ^ op0.len := Nat.mul_le_mul_right _ h
      omega
  rw [hc0, Nat.zero_mul, Nat.add_zero, hov1, hvi4] at hov2
  rw [M.check_eq hc0, M.pure_bind]
  refine Sat.bind (ct_lshift_mp_sat n e) ?_
  rintro ⟨n', q⟩ ⟨hn', hvn', -⟩
  dsimp only at hn' hvn' ⊢
  rw [← pow_256_eq, Nat.mod_eq_of_lt hn] at hvn'
  have hlt : o2.toNat < n'.toNat := by rw [hov2, hvn']; omega
  refine Sat.bind (ct_lt_mp_mp_sat o2 n') ?_
  intro c hc
  rw [M.check_eq (by rw [hc]; simp [hlt, LimbChoice.unwrap_ofBool]), M.pure_bind]
  refine Sat.bind (ct_is_zero_mp_sat o2) ?_
  intro z hz'
  have dvd256 : ∀ l, n.len ≤ l → (2 : ℤ) ^ e ∣ 256 ^ l := fun l hl => by
    rw [show (256 : ℤ) = 2 ^ 8 by norm_num, ← pow_mul]
    exact pow_dvd_pow 2 (by omega)
  have hzc : (i3.toNat : ℤ) ≡ (inv0.toNat - inv1.toNat) * i1.toNat [ZMOD 2 ^ e] := by
    rw [hvi3]; push_cast
    refine (Int.mod_modEq _ _).trans ?_
    rw [hvi2]; push_cast
    refine ((Int.mod_modEq _ _).of_dvd (dvd256 _ (by omega))).trans ?_
    refine Int.ModEq.mul_right _ ?_
    refine ((Int.mod_modEq _ _).of_dvd (dvd256 _ le_rfl)).trans ?_
    obtain ⟨d, hd⟩ := dvd256 inv0.len hl0
    zify at hvi0
    refine (Int.modEq_iff_dvd.2 ⟨-(w * d), ?_⟩)
    linear_combination - hvi0 - (w : ℤ) * hd
  have hfin := garner h0 hy hzc
  rw [← hov2] at hfin
  have hmod : o2.toNat % n.toNat = inv1.toNat := by
    rw [hov2, Nat.add_mul_mod_self_right, Nat.mod_eq_of_lt hv1]
  refine Sat.cond (fun h => Sat.pure ⟨hn', hvn', ?_⟩) fun h => Sat.pure ⟨hn', hvn', ?_⟩
  · rw [hz'] at h
    have h0' : o2.toNat = 0 := by simpa [LimbChoice.unwrap_ofBool] using h
    rw [h0', Nat.zero_mod] at hmod
    rw [h0', Nat.mul_zero, Nat.zero_mod] at hfin
    have h2 : 2 ^ e = 1 := by
      by_contra hne
      rw [Nat.mod_eq_of_lt (by omega)] at hfin
      omega
    dsimp only [Outcome]
    rw [if_pos (by rw [h2, h1 hmod.symm])]
  · rw [hz'] at h
    have h0' : o2.toNat ≠ 0 := by simpa [LimbChoice.unwrap_ofBool] using h
    have hne : n.toNat * 2 ^ e ≠ 1 := by omega
    exact ⟨if_neg hne, ho2.trans ho1, by omega, hmod, hfin⟩

theorem ct_inv_mod_mp_mp_rel_value (op0 : Buf φ) (n : Buf ψ) (s0 s1 s2 s3 : Buf .ne)
    (Hc : invModEarly op0 n s0 s1 s2 s3 = none → ∀ m e, m % 2 = 1 → n.toNat = m * 2 ^ e → e ≤ 3 * W ∧
      (Nat.gcd op0.toNat n.toNat = 1 → m = 1 ∨ invCoef m op0.toNat n.nlimbs ≠ 0)) :
    RSat (ct_inv_mod_mp_mp op0 n s0 s1 s2 s3) (fun r =>
      r.1.len = n.len ∧ r.1.toNat = n.toNat ∧
      Outcome (invModErr op0 n s0 s1 s2 s3) (fun o => o.len = op0.len ∧ o.toNat < n.toNat ∧
        ∀ m e, m % 2 = 1 → n.toNat = m * 2 ^ e → op0.toNat * o.toNat % 2 ^ e = 1 % 2 ^ e ∧
          ((o.toNat % m : ℕ) : ℤ) = invValue m op0.toNat n.nlimbs) r.2) := by
  unfold ct_inv_mod_mp_mp
  unfold invModErr
  generalize herr : invModEarly op0 n s0 s1 s2 s3 = E at Hc ⊢
  unfold invModEarly at herr
  refine RSat.cond (fun h => ?_) fun h => ?_
  · rw [n.is_empty_iff] at h
    rw [if_pos h] at herr; exact (RSat.pure ⟨rfl, rfl, by rw [← herr]; rfl⟩)
  rw [n.is_empty_iff] at h
  rw [if_neg h] at herr
  refine RSat.bind (Sat.rel (len_is_compatible_with_sat n op0.len)) ?_
  intro c hc
  refine RSat.cond (fun h => ?_) fun hc0 => ?_
  · rw [hc, decide_eq_false_iff_not] at h
    rw [if_pos h] at herr; exact (RSat.pure ⟨rfl, rfl, by rw [← herr]; rfl⟩)
  rw [hc, decide_eq_false_iff_not, not_not] at hc0
  rw [if_neg (not_not.2 hc0)] at herr
  refine RSat.bind (Sat.rel (len_is_compatible_with_sat op0 n.len)) ?_
  intro c' hc'
  refine RSat.cond (fun h => ?_) fun hc1 => ?_
  · rw [hc', decide_eq_false_iff_not] at h
    rw [if_pos h] at herr; exact (RSat.pure ⟨rfl, rfl, by rw [← herr]; rfl⟩)
  rw [hc', decide_eq_false_iff_not, not_not] at hc1
  rw [if_neg (not_not.2 hc1)] at herr
  have hnN : 0 < n.nlimbs := by rw [Buf.nlimbs_eq, nlimbs_pos_iff]; omega
  have hN : n.nlimbs ≤ op0.nlimbs := by rw [Buf.nlimbs_eq op0]; exact hc0.nlimbs
  have hB2 : 2 ∣ B := by rw [B_half']; exact dvd_mul_right _ _
  refine RSat.bind (Sat.rel (op0.sat_load_l (by omega) (Q := fun v => v = op0.toNat / B ^ 0 % B) rfl)) ?_
  intro v0 hv0
  refine RSat.bind (Sat.rel (n.sat_load_l hnN (Q := fun v => v = n.toNat / B ^ 0 % B) rfl)) ?_
  intro v1 hv1
  have hbe := both_even (hv0 ▸ dig_lt op0.toNat 0) (hv1 ▸ dig_lt n.toNat 0)
  rw [hv0, hv1, pow_zero, Nat.div_one, Nat.div_one, Nat.mod_mod_of_dvd _ hB2,
    Nat.mod_mod_of_dvd _ hB2] at hbe
  rw [pow_zero, Nat.div_one] at hv0 hv1
  rw [hv0, hv1]
  refine RSat.cond (fun h => ?_) fun hev => ?_
  · rw [if_pos (hbe.1 h)] at herr; exact (RSat.pure ⟨rfl, rfl, by rw [← herr]; rfl⟩)
  rw [hbe] at hev
  rw [if_neg hev] at herr
  dsimp only
  rw [← Buf.nlimbs_eq]
  refine RSat.cond (fun hs => ?_) fun hs0 => ?_
  · rw [if_pos (Or.inl hs)] at herr; exact (RSat.pure ⟨rfl, rfl, by rw [← herr]; rfl⟩)
  refine RSat.cond (fun hs => ?_) fun hs1 => ?_
  · rw [if_pos (Or.inr (Or.inl hs))] at herr; exact (RSat.pure ⟨rfl, rfl, by rw [← herr]; rfl⟩)
  refine RSat.cond (fun hs => ?_) fun hs2 => ?_
  · rw [if_pos (Or.inr (Or.inr (Or.inl hs)))] at herr; exact (RSat.pure ⟨rfl, rfl, by rw [← herr]; rfl⟩)
  refine RSat.cond (fun hs => ?_) fun hs3 => ?_
  · rw [if_pos (Or.inr (Or.inr (Or.inr hs)))] at herr; exact (RSat.pure ⟨rfl, rfl, by rw [← herr]; rfl⟩)
  rw [if_neg (by omega)] at herr
  have hscr : ∀ s : Buf .ne, n.nlimbs ≤ s.nlimbs → n.len ≤ s.len := fun s hs => by
    have h1 := s.aligned (by rfl)
    have h2 := le_nlimbs_mul n.len
    have := Nat.mul_le_mul_right LB hs
    rw [← Buf.nlimbs_eq] at h2
    omega
  have hsc0 := hscr s0 (by omega)
  have hsc1 := hscr s1 (by omega)
  refine RSat.bind (Sat.rel (Buf.sat_clear_bytes_above s0 n.len
    (Q := fun r => r.len = s0.len ∧ r.toNat < 256 ^ n.len) fun r h1 h2 => ⟨h1, by
      rw [h2]; exact Nat.mod_lt _ (by positivity)⟩)) ?_
  rintro a0 ⟨ha0, hav0⟩
  refine RSat.bind (Sat.rel (Buf.sat_shrink_to a0 hav0)) ?_
  rintro ⟨a1, rest0⟩ ⟨ha1, -, -, -, han1⟩
  dsimp only at ha1 han1 ⊢
  rw [min_eq_left (by omega)] at ha1 han1
  refine RSat.bind (Sat.rel (Buf.sat_clear_bytes_above s1 n.len
    (Q := fun r => r.len = s1.len ∧ r.toNat < 256 ^ n.len) fun r h1 h2 => ⟨h1, by
      rw [h2]; exact Nat.mod_lt _ (by positivity)⟩)) ?_
  rintro b0 ⟨hb0, hbv0⟩
  refine RSat.bind (Sat.rel (Buf.sat_shrink_to b0 hbv0)) ?_
  rintro ⟨b1, rest1⟩ ⟨hb1, -, -, -, hbn1⟩
  dsimp only at hb1 hbn1 ⊢
  rw [min_eq_left (by omega)] at hb1 hbn1
  refine RSat.bind (Sat.rel (ct_find_first_set_bit_mp_sat n)) ?_
  rintro ⟨nz, e⟩ ⟨hnz, htz⟩
  dsimp only at hnz htz ⊢
  refine RSat.cond (fun h => ?_) fun hn0 => ?_
  · have h0 : n.toNat = 0 := by rw [hnz] at h; simpa [LimbChoice.unwrap_ofBool] using h
    rw [if_pos h0] at herr; exact (RSat.pure ⟨rfl, rfl, by rw [← herr]; rfl⟩)
  have hn0 : n.toNat ≠ 0 := by rw [hnz] at hn0; simpa [LimbChoice.unwrap_ofBool] using hn0
  rw [if_neg hn0] at herr
  rcases htz with ⟨h, -⟩ | ⟨-, hd, hnd⟩
  · exact absurd h hn0
  obtain ⟨m, hm⟩ := hd
  have hmodd : m % 2 = 1 := by
    by_contra hc
    obtain ⟨k, hk⟩ := Nat.dvd_of_mod_eq_zero (show m % 2 = 0 by omega)
    exact hnd ⟨k, by rw [hm, hk, pow_succ]; ring⟩
  have hm' : n.toNat = m * 2 ^ e := by rw [hm, Nat.mul_comm]
  refine RSat.bind (Sat.rel (ct_rshift_mp_sat n e)) ?_
  rintro ⟨n1, q⟩ ⟨hn1, hnv1, -⟩
  dsimp only at hn1 hnv1 ⊢
  rw [hm, Nat.mul_div_cancel_left _ (by positivity)] at hnv1
  rw [M.sub_eq (by omega), M.pure_bind]
  have he : e < 8 * n.len := by
    have : 2 ^ e < 2 ^ (8 * n.len) := by
      rw [← pow_256_eq]
      exact lt_of_le_of_lt (by rw [hm']; exact Nat.le_mul_of_pos_left _ (by omega)) n.toNat_lt
    exact (Nat.pow_lt_pow_iff_right (by norm_num)).1 this
  have heven : e = 0 ∨ op0.toNat % 2 = 1 := by
    rcases Nat.eq_zero_or_pos e with h | h
    · exact Or.inl h
    · right
      by_contra hc
      refine hev ⟨by omega, ?_⟩
      rw [hm']
      exact Nat.mod_eq_zero_of_dvd ((dvd_pow_self 2 (by omega)).mul_left _)
  have hL : (8 * n.len - 1 + 7) / 8 = n.len := by omega
  have hal := nlimbs_align .ne n.len
  rw [hn1]
  obtain ⟨he3, hco⟩ := Hc herr.symm m e hmodd hm'
  refine RSat.bind (ct_inv_mod_pow2_mp_low a1 op0 s2 (e := e) (mx := 8 * n.len - 1) (by
      have := nlimbs_pos_iff (n := op0.len)
      rw [← Buf.nlimbs_eq] at this; omega)
    heven (by omega) (by omega) (by omega) (by rw [hL, ← Buf.nlimbs_eq]; omega) he3) ?_
  rintro ⟨a2, s2'⟩ ⟨ha2, hs2', hav2, hinv0⟩
  dsimp only at ha2 hs2' hav2 hinv0 ⊢
  have hLn1 : LenCompat n1 op0.len := by
    rcases hc0 with h | ⟨h1, h2, h3⟩
    · left; omega
    · right
      refine ⟨h1, by omega, lt_of_le_of_lt ?_ h3⟩
      rw [hnv1, hm']; exact Nat.le_mul_of_pos_right _ (by positivity)
  have hnn1 : n1.nlimbs = n.nlimbs := Buf.nlimbs_congr hn1
  have hio : invOddErr b1 op0 n1 s2' s3 =
      if Nat.gcd op0.toNat m ≠ 1 then some .OperandsNotCoprime else none := by
    unfold invOddErr
    rw [if_neg (not_not.2 (show LenCompat n1 b1.len from Or.inl (by omega))), if_neg (by rw [hn1]; exact not_or.2 ⟨not_not.2 hc1, not_not.2 hLn1⟩),
      if_neg (by rw [hnn1, Buf.nlimbs_congr hs2']; omega), hnv1, if_neg (by omega)]
  have hSo : InvOddOk b1 op0 n1 s2' s3 := by
    unfold InvOddOk
    rw [hio, hnv1, hnn1]
    intro h1
    split_ifs at h1 with hg
    exact hco (by rw [hm', gcd_odd_part heven]; exact not_not.1 hg)
  refine RSat.bind ((ct_inv_mod_odd_mp_mp_impl_exact b1 op0 n1 s2' s3).sat hSo).rel ?_
  intro r hr
  rw [hio] at hr
  match r, hr with
  | .error er, hr =>
    dsimp only [Outcome] at hr ⊢
    by_cases hg : Nat.gcd op0.toNat m ≠ 1
    swap
    · rw [if_neg hg] at hr; cases hr
    rw [if_pos hg] at hr
    cases hr
    refine Sat.rel ?_
    refine Sat.bind (ct_lshift_mp_sat n1 e) ?_
    rintro ⟨n2, q⟩ ⟨hn2, hnv2, -⟩
    dsimp only [inv_mod_map_err] at hn2 hnv2 ⊢
    rw [M.pure_bind]
    refine Sat.pure ⟨hn2.trans hn1, ?_, ?_⟩
    · dsimp only
      rw [hnv2, ← pow_256_eq, hnv1, ← hm', hn1, Nat.mod_eq_of_lt n.toNat_lt]
    · have : Nat.gcd op0.toNat n.toNat ≠ 1 := by rw [hm', Ne, gcd_odd_part heven]; exact hg
      rw [← herr, if_pos (Or.inl this)]; rfl
  | .ok (b2, op0', s2'', s3'), ⟨hg, hb2, hop, hs2'', _, hlt, _, _, hcl, hval⟩ =>
    dsimp only at hb2 hop hs2'' hlt hcl hval ⊢
    have hg : Nat.gcd op0.toNat m = 1 := by
      by_contra hc
      rw [if_pos hc] at hg; cases hg
    have hgn : ¬ Nat.gcd op0.toNat n.toNat ≠ 1 := by
      rw [not_not, hm', gcd_odd_part heven]; exact hg
    have hz1 : b2.toNat = 0 → n1.toNat = 1 := fun h0 => by
      by_contra h1
      have hne := (hSo (by rw [hio, if_neg (not_not.2 hg)])).resolve_left h1
      rw [h0] at hval
      unfold invValue at hval
      split at hval
      · push_cast at hval; omega
      · exact hne (by exact_mod_cast hval.symm)
    have hgar := inv_mod_garner_rel (op0 := op0') (n := n1) (inv0 := a2) (inv1 := b2) (s2 := s2'')
      (a := op0.toNat) (e := e) (by omega) (by omega)
      (by rw [hnv1, ← hm', hn1]; exact n.toNat_lt)
      (by rw [hnv1, ← hm', hop]; exact hc0.lt)
      (by rw [hnn1, Buf.nlimbs_congr hop]; exact hN) (by omega)
      (by rw [hnn1, Buf.nlimbs_congr ha2, han1, ← Buf.nlimbs_eq])
      (by rw [hb2, ha2, hb1, ha1])
      (by rw [hnn1, Buf.nlimbs_congr hs2'', Buf.nlimbs_congr hs2']; omega) hinv0 hlt hz1 he3
    rw [hnv1, hn1] at hgar
    refine hgar.mono ?_
    rintro ⟨n2, r⟩ ⟨h1, h2, h3⟩
    dsimp only at h1 h2 h3 ⊢
    rw [← hm'] at h2 h3
    refine ⟨h1, h2, ?_⟩
    have herr' : E.or (if Nat.gcd op0.toNat n.toNat ≠ 1 ∨ n.toNat = 1 then
        some .OperandsNotCoprime else none) =
        if n.toNat = 1 then some GcdError.OperandsNotCoprime else none := by
      rw [← herr]
      by_cases h1 : n.toNat = 1
      · rw [if_pos (Or.inr h1), if_pos h1]; rfl
      · rw [if_neg (not_or.2 ⟨hgn, h1⟩), if_neg h1]; rfl
    rw [herr']
    cases r with
    | error er => exact h3
    | ok o =>
      obtain ⟨k1, k2, k3, k4, k5⟩ := h3
      refine ⟨k1, k2.trans hop, k3, fun m' e' h5 h6 => ?_⟩
      rw [hm'] at h6
      obtain ⟨rfl, rfl⟩ := odd_part_unique hmodd h5 h6
      refine ⟨k5, ?_⟩
      rw [k4, hval, hnv1, hnn1]

theorem ct_inv_mod_mp_mp_rel (op0 : Buf φ) (n : Buf ψ) (s0 s1 s2 s3 : Buf .ne)
    (Hc : invModEarly op0 n s0 s1 s2 s3 = none →
      ∀ m e, m % 2 = 1 → n.toNat = m * 2 ^ e → e ≤ 3 * W ∧
        (Nat.gcd op0.toNat n.toNat = 1 → FitsRun m op0.toNat n.nlimbs)) :
    RSat (ct_inv_mod_mp_mp op0 n s0 s1 s2 s3) (fun r => r.1.len = n.len ∧ r.1.toNat = n.toNat ∧
      Outcome (invModErr op0 n s0 s1 s2 s3) (fun o => o.len = op0.len ∧ o.toNat < n.toNat ∧
        op0.toNat * o.toNat % n.toNat = 1) r.2) := by
  have hgcd : invModEarly op0 n s0 s1 s2 s3 = none → ∀ m e, m % 2 = 1 → n.toNat = m * 2 ^ e →
      Nat.gcd op0.toNat n.toNat = 1 → (invGcd m op0.toNat n.nlimbs).natAbs = 1 := by
    intro h0 m e hm hme hg
    have hle : m ≤ n.toNat := by rw [hme]; exact Nat.le_mul_of_pos_right _ (by positivity)
    have hlt := n.toNat_lt_B
    unfold invModEarly at h0
    split_ifs at h0 with e1 e2 e3 e4 e5 e6
    have h2 := e3.nlimbs
    rw [← Buf.nlimbs_eq] at h2
    rw [invGcd_natAbs hm (by omega) (lt_of_lt_of_le op0.toNat_lt_B (Nat.pow_le_pow_right B_pos h2)),
      Nat.gcd_comm, ← gcd_odd_part (e := e), ← hme, hg]
    by_contra hc
    push Not at hc
    exact e4 ⟨by omega, by
      rw [hme]; exact Nat.mod_eq_zero_of_dvd ((dvd_pow_self 2 hc.1).mul_left _)⟩
  refine (ct_inv_mod_mp_mp_rel_value op0 n s0 s1 s2 s3 fun h0 m e hm hme => ⟨(Hc h0 m e hm hme).1, fun hg => ?_⟩).mono ?_
  · by_cases h1 : m = 1
    · exact Or.inl h1
    · exact Or.inr (invCoef_ne hm h1 ((Hc h0 m e hm hme).2 hg) (hgcd h0 m e hm hme hg))
  rintro ⟨n', r⟩ ⟨h1, h2, h3⟩
  refine ⟨h1, h2, ?_⟩
  cases r with
  | error er => exact h3
  | ok o =>
    obtain ⟨k1, k2, k3, k4⟩ := h3
    refine ⟨k1, k2, k3, ?_⟩
    unfold invModErr at k1
    obtain ⟨h0, h5⟩ : invModEarly op0 n s0 s1 s2 s3 = none ∧
        ¬ (Nat.gcd op0.toNat n.toNat ≠ 1 ∨ n.toNat = 1) := by
      cases hE : invModEarly op0 n s0 s1 s2 s3 with
      | some e => rw [hE] at k1; cases k1
      | none =>
        rw [hE, Option.none_or] at k1
        split_ifs at k1 with h6
        exact ⟨rfl, h6⟩
    have h6 : n.toNat ≠ 1 := fun h => h5 (Or.inr h)
    have hg : Nat.gcd op0.toNat n.toNat = 1 := by
      by_contra h; exact h5 (Or.inl h)
    obtain ⟨m, e, hm', hme'⟩ := exists_odd_part_nat (show n.toNat ≠ 0 by omega)
    obtain ⟨p1, p2⟩ := k4 m e hm' hme'
    have p3 := invValue_modEq hm' ((Hc h0 m e hm' hme').2 hg) (hgcd h0 m e hm' hme' hg)
    rw [← p2] at p3
    have p4 := inv_of_parts hm' p1 (show op0.toNat * (o.toNat % m) % m = 1 % m from
      (Int.natCast_modEq_iff).1 (by exact_mod_cast p3))
    rw [hme', p4, ← hme', Nat.mod_eq_of_lt (by omega)]

end Cmpa
