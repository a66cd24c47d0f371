import Verif.Proofs.InvModFinish

/-!
# Applying a batch of division steps to the coefficients: `apply_to_mod_odd_n`
-/

set_option linter.unusedSectionVars false

namespace Cmpa
variable [LimbCfg] {φ ψ χ : Fmt}

open M TransitionMatrix

theorem lincomb_bound {a b : ℤ} {e X Y n : ℕ} (hab : |a| + |b| ≤ 2 ^ e) (hX : X < n) (hY : Y < n) :
    -(2 ^ e * ((n - 1 : ℕ) : ℤ)) ≤ a * X + b * Y ∧ a * X + b * Y ≤ 2 ^ e * ((n - 1 : ℕ) : ℤ) := by
  rw [← abs_le]
  have hX' : (X : ℤ) ≤ ((n - 1 : ℕ) : ℤ) := by omega
  have hY' : (Y : ℤ) ≤ ((n - 1 : ℕ) : ℤ) := by omega
  generalize ((n - 1 : ℕ) : ℤ) = t at *
  have hX0 : (0 : ℤ) ≤ X := by positivity
  have hY0 : (0 : ℤ) ≤ Y := by positivity
  calc |a * X + b * Y| ≤ |a * X| + |b * Y| := abs_add_le _ _
    _ = |a| * X + |b| * Y := by rw [abs_mul, abs_mul, abs_of_nonneg hX0, abs_of_nonneg hY0]
    _ ≤ |a| * t + |b| * t := add_le_add (mul_le_mul_of_nonneg_left hX' (abs_nonneg _))
        (mul_le_mul_of_nonneg_left hY' (abs_nonneg _))
    _ = (|a| + |b|) * t := by ring
    _ ≤ 2 ^ e * t := mul_le_mul_of_nonneg_right hab (by linarith)

/-- The value in range to which the completed reduction is going to be adjusted. -/
theorem range_val {n k e P m L : ℕ} {U V : ℤ} {sg gq : Bool} (hodd : n % 2 = 1) (hn : n < B ^ (k + 1))
    (hL : L ∣ B ^ (k + 1))
    (hlo : -(2 ^ e * ((n - 1 : ℕ) : ℤ)) ≤ V) (hhi : V ≤ 2 ^ e * ((n - 1 : ℕ) : ℤ))
    (hP : P < B ^ (k + 1)) (hgq : gq = (!sg && decide (n ≤ P))) (hm : m < 2 ^ e)
    (hU : 2 ^ e * U = V + m * n) (hsg : sg = decide (U < 0))
    (hfit : (P : ℤ) - (if sg then (B : ℤ) ^ (k + 1) else 0) = fit (k + 1) e U) :
    ∃ z : ℕ, z < n ∧
      (z : ℤ) ≡ (P % L : ℕ) + (if gq then -(n : ℤ) else if sg then (n : ℤ) else 0) [ZMOD (L : ℤ)] ∧
      (z : ℤ) = newCoef n (k + 1) e V := by
  have h2e : (0 : ℤ) < 2 ^ e := by positivity
  have hmz : (m : ℤ) + 1 ≤ 2 ^ e := by exact_mod_cast hm
  have hn1 : ((n - 1 : ℕ) : ℤ) = (n : ℤ) - 1 := by omega
  rw [hn1] at hlo hhi
  have hnz : (0 : ℤ) < n := by omega
  have hUlo : -(n : ℤ) < U := by
    refine lt_of_mul_lt_mul_left (a := (2 : ℤ) ^ e) ?_ h2e.le
    have : (0 : ℤ) ≤ m * n := by positivity
    rw [hU]; linarith
  have hUhi : U < 2 * n := by
    refine lt_of_mul_lt_mul_left (a := (2 : ℤ) ^ e) ?_ h2e.le
    have : (m : ℤ) * n ≤ (2 ^ e - 1) * n := mul_le_mul_of_nonneg_right (by linarith) hnz.le
    rw [hU]; linarith
  have hPL : ((P % L : ℕ) : ℤ) ≡ P [ZMOD (L : ℤ)] := by push_cast; exact Int.mod_modEq _ _
  have hBL : (B : ℤ) ^ (k + 1) ≡ 0 [ZMOD (L : ℤ)] :=
    Int.modEq_zero_iff_dvd.2 (by exact_mod_cast hL)
  have hnB : (n : ℤ) < (B : ℤ) ^ (k + 1) := by exact_mod_cast hn
  have hPB : (P : ℤ) < (B : ℤ) ^ (k + 1) := by exact_mod_cast hP
  unfold newCoef intoRange
  rw [← redc_unique hodd hm hU, ← hfit]
  have hBk : (0 : ℤ) < B ^ (k + 1) := by linarith
  cases sg
  · simp only [Bool.not_false, Bool.true_and] at hgq
    have hU0 : 0 ≤ U := by simpa using hsg
    simp only [Bool.false_eq_true, if_false, sub_zero] at hfit ⊢
    rw [if_neg (show ¬ (P : ℤ) < 0 by omega)]
    have hPU : (P : ℤ) ≤ U := by
      rw [hfit]; unfold fit
      rw [if_neg (show ¬ U < 0 by omega)]
      have h1 := Int.emod_add_mul_ediv U ((B : ℤ) ^ (k + 1))
      have h2 := mul_nonneg hBk.le (Int.ediv_nonneg hU0 hBk.le)
      linarith
    by_cases hge : n ≤ P
    · rw [decide_eq_true hge] at hgq
      subst hgq
      refine ⟨P - n, by omega, ?_, by
        rw [if_pos (show (n : ℤ) ≤ P by exact_mod_cast hge), Nat.cast_sub hge]⟩
      rw [Nat.cast_sub hge, if_pos rfl, ← sub_eq_add_neg]
      exact (hPL.symm).sub_right _
    · rw [decide_eq_false hge] at hgq
      subst hgq
      refine ⟨P, by omega, ?_, by rw [if_neg (show ¬ (n : ℤ) ≤ P by omega)]⟩
      simpa using hPL.symm
  · simp only [Bool.not_true, Bool.false_and] at hgq
    subst hgq
    have hU0 : U < 0 := by simpa using hsg
    simp only [if_true] at hfit ⊢
    have hfU : U ≤ fit (k + 1) e U := by
      by_cases hF : -(2 ^ e * (B : ℤ) ^ k) ≤ U
      · rw [Fits.fit_eq ⟨by rw [Nat.add_sub_cancel]; exact hF, by linarith⟩]
      · unfold fit
        rw [if_pos hU0, Nat.add_sub_cancel]
        have hM : (0 : ℤ) < 2 ^ e * (B : ℤ) ^ k := by
          have : (0 : ℤ) < B := by exact_mod_cast B_pos
          positivity
        have := Int.emod_nonneg U hM.ne'
        linarith
    have hge : B ^ (k + 1) ≤ P + n := by zify; linarith
    refine ⟨P + n - B ^ (k + 1), by omega, ?_, ?_⟩
    · rw [Nat.cast_sub hge]
      simp only [Bool.false_eq_true, if_false]
      push_cast
      have := ((hPL.symm).add_right (n : ℤ)).sub hBL
      simpa using this
    · rw [Nat.cast_sub hge, if_pos (by linarith)]
      push_cast; ring

theorem apply_to_mod_odd_n_sat {m : TransitionMatrix} {a b c d F G F' G' : ℤ} {i neg : ℕ}
    (hM : IsMat m a b c d F G F' G' i) (hi : i + 2 ≤ W) {u_f : Buf φ} {u_g : Buf ψ} {n : Buf χ}
    (hNf : u_f.nlimbs = n.nlimbs) (hNg : u_g.nlimbs = n.nlimbs) (hf : u_f.toNat < n.toNat)
    (hg : u_g.toNat < n.toNat) (hlf : n.toNat ≤ 256 ^ u_f.len) (hlg : n.toNat ≤ 256 ^ u_g.len)
    (hodd : n.toNat % 2 = 1) (hneg : wmul (n.toNat % B) neg = lmax) :
    Sat (m.apply_to_mod_odd_n (signMask a b c d) u_f u_g n neg) (fun s =>
      s.1.len = u_f.len ∧ s.2.len = u_g.len ∧ s.1.toNat < n.toNat ∧ s.2.toNat < n.toNat ∧
      (s.1.toNat : ℤ) = newCoef n.toNat n.nlimbs m.s0 (a * u_f.toNat + b * u_g.toNat) ∧
      (s.2.toNat : ℤ) = newCoef n.toNat n.nlimbs i (c * u_f.toNat + d * u_g.toNat)) := by
  have hok := hM.ok hi
  obtain ⟨ba, bb, bc, bd⟩ := hM.entry_bounds hi
  have ea := (hM.ha.signed ba).1
  have eb := (hM.hb.signed bb).1
  have ec := (hM.hc.signed bc).1
  have ed := (hM.hd.signed bd).1
  have hne : ¬ n.is_empty = true := by
    intro h; rw [toNat_of_empty h] at hf; omega
  have hN0 := nlimbs_pos_of_not_empty hne
  obtain ⟨k, hk⟩ : ∃ k, n.nlimbs = k + 1 := ⟨n.nlimbs - 1, by omega⟩
  have hnB : n.toNat < B ^ (k + 1) := by rw [← hk]; exact n.toNat_lt_B
  have hn0 : 0 < n.toNat := by omega
  have hs0 := hok.s0
  have hs1 := hok.s1
  unfold apply_to_mod_odd_n
  have hassf : Sat (do let c ← ct_lt_mp_mp u_f n; pure (c.unwrap == 1)) (· = true) := by
    refine Sat.bind (ct_lt_mp_mp_sat u_f n) ?_
    rintro _ rfl
    refine Sat.pure ?_
    rw [LimbChoice.unwrap_ofBool]; simp [hf]
  have hassg : Sat (do let c ← ct_lt_mp_mp u_g n; pure (c.unwrap == 1)) (· = true) := by
    refine Sat.bind (ct_lt_mp_mp_sat u_g n) ?_
    rintro _ rfl
    refine Sat.pure ?_
    rw [LimbChoice.unwrap_ofBool]; simp [hg]
  rw [M.assert_eq hne, M.pure_bind]
  dsimp only
  rw [M.assert_eq hNf, M.pure_bind, M.assertM_eq hassf, M.pure_bind, M.assert_eq hNg, M.pure_bind,
    M.assertM_eq hassg, M.pure_bind]
  generalize hX : u_f.toNat = X at *
  generalize hY : u_g.toNat = Y at *
  generalize hnv : n.toNat = nv at *
  refine Sat.bind (n.sat_load_l hN0 (Q := fun v => v = nv / B ^ 0 % B) (by rw [hnv])) ?_
  intro n0 hn0'
  refine Sat.bind (u_f.sat_load_l (by omega) (Q := fun v => v = X / B ^ 0 % B) (by rw [hX])) ?_
  intro f0 hf0
  refine Sat.bind (u_g.sat_load_l (by omega) (Q := fun v => v = Y / B ^ 0 % B) (by rw [hY])) ?_
  intro g0 hg0
  rw [pow_zero, Nat.div_one] at hn0' hf0 hg0
  rw [hn0', hf0, hg0]
  refine Sat.bind (mod_start_sat (na := decide (a < 0)) (nb := decide (b < 0)) (X := X) (Y := Y)
    hok.a hok.b (by omega : m.s0 ≤ W) hneg) ?_
  rintro r0 ⟨R0, hr0⟩
  refine Sat.bind (mod_start_sat (na := decide (c < 0)) (nb := decide (d < 0)) (X := X) (Y := Y)
    hok.c hok.d (by omega : m.s1 ≤ W) hneg) ?_
  rintro r1 ⟨R1, hr1⟩
  rw [hk, Nat.add_sub_cancel]
  refine Sat.bind (Sat.forRange (P := fun j (s : ModState φ ψ) => ∃ R0 R1 o0 o1,
    ModInv m.row0.1 m.row0.2 (decide (a < 0)) (decide (b < 0)) X Y nv m.s0 (j + 1) s.r0 R0 o0 ∧
    ModInv m.row1.1 m.row1.2 (decide (c < 0)) (decide (d < 0)) X Y nv m.s1 (j + 1) s.r1 R1 o1 ∧
    Low u_f o0 j s.u_f ∧ Low u_g o1 j s.u_g ∧
    s.u_last_orig_val = (X / B ^ j % B, Y / B ^ j % B) ∧ s.last_n_val = nv / B ^ j % B)
    (Nat.zero_le _) ⟨R0, R1, 0, 0, hr0, hr1, Low.zero _, Low.zero _, by simp, by simp⟩ ?_) ?_
  · rintro j s _ hj ⟨R0, R1, o0, o1, h0, h1, hL0, hL1, hlast, hlastn⟩
    unfold mod_step
    refine Sat.bind (n.sat_load_l (by omega) (Q := fun v => v = nv / B ^ (j + 1) % B) (by rw [hnv])) ?_
    intro n_val hn_val
    refine Sat.bind (hL0.sat_load (j := j + 1) (by omega) (by omega)
      (Q := fun v => v = X / B ^ (j + 1) % B) (by rw [hX])) ?_
    intro f1 hf1
    refine Sat.bind (hL1.sat_load (j := j + 1) (by omega) (by omega)
      (Q := fun v => v = Y / B ^ (j + 1) % B) (by rw [hY])) ?_
    intro g1 hg1
    rw [hn_val, hf1, hg1, hlast, hlastn]
    refine Sat.bind (mod_limb_sat h0 hok.a hok.b (by omega)) ?_
    rintro ⟨r0, v0⟩ ⟨hv0, R0', h0'⟩
    refine Sat.bind (mod_limb_sat h1 hok.c hok.d (by omega)) ?_
    rintro ⟨r1, v1⟩ ⟨hv1, R1', h1'⟩
    dsimp only at hv0 h0' hv1 h1' ⊢
    refine Sat.bind (hL0.sat_store_full (full_of_lt_pred (by rw [← Buf.nlimbs_eq]; omega)) hv0
      (fun b' hb' => hb')) ?_
    intro uf' huf'
    refine Sat.bind (hL1.sat_store_full (full_of_lt_pred (by rw [← Buf.nlimbs_eq]; omega)) hv1
      (fun b' hb' => hb')) ?_
    intro ug' hug'
    exact Sat.pure ⟨R0', R1', _, _, h0', h1', huf', hug', rfl, rfl⟩
  · rintro s ⟨R0, R1, o0, o1, h0, h1, hL0, hL1, hlast, hlastn⟩
    rw [hlast, hlastn]
    have hXB : X < B ^ (k + 1) := by omega
    have hYB : Y < B ^ (k + 1) := by omega
    obtain ⟨lo0, hi0⟩ := lincomb_bound hM.bf hf hg
    have hbg := hM.bg
    rw [← hM.s1] at hbg ⊢
    obtain ⟨lo1, hi1⟩ := lincomb_bound hbg hf hg
    have hn1 : nv - 1 < B ^ (k + 1) := by omega
    dsimp only [signMask, negMask]
    refine Sat.bind (mod_head_sat h0.row ea eb hXB hYB rfl hs0 hn1 lo0 hi0) ?_
    rintro v0 ⟨hv0, z0, hz0, hV0, zlo0, zhi0⟩
    refine Sat.bind (mod_head_sat h1.row ec ed hXB hYB rfl hs1 hn1 lo1 hi1) ?_
    rintro v1 ⟨hv1, z1, hz1, hV1, zlo1, zhi1⟩
    refine Sat.bind (mod_finish_sat h0 (by omega) hL0 hnB hs0 hv0 hz0 hV0 zlo0 zhi0) ?_
    rintro ⟨sf, gf, uf⟩ ⟨sg0, gq0, P0, m0, U0, esf, egf, hluf, hP0, huf, hgq0, hm0, hU0, hA0, hB0⟩
    refine Sat.bind (mod_finish_sat h1 (by omega) hL1 hnB hs1 hv1 hz1 hV1 zlo1 zhi1) ?_
    rintro ⟨sg, gg, ug⟩ ⟨sg1, gq1, P1, m1, U1, esg, egg, hlug, hP1, hug, hgq1, hm1, hU1, hA1, hB1⟩
    dsimp only at esf egf hluf huf esg egg hlug hug ⊢
    rw [esf, egf, esg, egg]
    have hd0 : 256 ^ u_f.len ∣ B ^ (k + 1) := by
      rw [← hk, ← hNf, Buf.nlimbs_eq]; exact len_dvd_pow _
    have hd1 : 256 ^ u_g.len ∣ B ^ (k + 1) := by
      rw [← hk, ← hNg, Buf.nlimbs_eq]; exact len_dvd_pow _
    obtain ⟨w0, hw0, hc0, he0⟩ := range_val hodd hnB hd0 lo0 hi0 hP0 hgq0 hm0 hU0 hA0 hB0
    obtain ⟨w1, hw1, hc1, he1⟩ := range_val hodd hnB hd1 lo1 hi1 hP1 hgq1 hm1 hU1 hA1 hB1
    have hNf' : uf.nlimbs = n.nlimbs := (Buf.nlimbs_congr hluf).trans (by omega)
    have hNg' : ug.nlimbs = n.nlimbs := (Buf.nlimbs_congr hlug).trans (by omega)
    refine Sat.bind (u_i_into_range_sat sg0 gq0 (z := w0) hNf' (by rw [huf, hnv, hluf]; exact hc0)
      (by rw [hnv]; exact hw0) (by rw [hnv, hluf]; exact hlf)) ?_
    rintro uf' ⟨hl0, ht0⟩
    refine Sat.bind (u_i_into_range_sat sg1 gq1 (z := w1) hNg' (by rw [hug, hnv, hlug]; exact hc1)
      (by rw [hnv]; exact hw1) (by rw [hnv, hlug]; exact hlg)) ?_
    rintro ug' ⟨hl1, ht1⟩
    refine Sat.pure ⟨hl0.trans hluf, hl1.trans hlug, ?_, ?_, ?_, ?_⟩
    · dsimp only; rw [ht0]; exact hw0
    · dsimp only; rw [ht1]; exact hw1
    · dsimp only; rw [ht0]; exact he0
    · dsimp only; rw [ht1]; exact he1

end Cmpa
