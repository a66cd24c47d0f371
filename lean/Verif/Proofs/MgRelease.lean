import Verif.Proofs.MgExp

/-!
# Montgomery arithmetic in release builds

The assertions that operands are less than the modulus aren't there in release builds.  What is
calculated then.
-/

namespace Cmpa
open M
variable [LimbCfg] {f g h f' e' : Fmt}

/-- The number before the last subtraction, whatever the operands. -/
theorem mgRun_lt_add {N n neg a b : ℕ} (hneg : wmul (n % B) neg = lmax) (hn : 0 < n) :
    ∀ i, mgRun N n neg a b i < b + n
  | 0 => by rw [mgRun]; omega
  | i + 1 => by
    have ih := mgRun_lt_add (N := N) (a := a) (b := b) hneg hn i
    rw [mgRun]
    generalize mgRun N n neg a b i = S at *
    have h1 := redcStep_spec hneg ((S + a / B ^ i % B * b) % B ^ (N + 1))
    have hX := Nat.mod_le (S + a / B ^ i % B * b) (B ^ (N + 1))
    generalize (S + a / B ^ i % B * b) % B ^ (N + 1) = X at *
    have hm := Nat.mod_lt (X * neg) B_pos
    have hd := Nat.mod_lt (a / B ^ i) B_pos
    generalize a / B ^ i % B = d at *
    generalize X * neg % B = m at *
    refine Nat.lt_of_mul_lt_mul_left (a := B) ?_
    have h2 : (d + 1) * b ≤ B * b := Nat.mul_le_mul_right _ hd
    have h3 : (m + 1) * n ≤ B * n := Nat.mul_le_mul_right _ hm
    rw [h1, Nat.mul_add]
    rw [Nat.add_mul, one_mul] at h2 h3
    omega

/-- One subtraction, if it is possible. -/
def subOnce (n T : ℕ) : ℕ := if n ≤ T then T - n else T

theorem redc_finish_rsat {t : Buf f} {n : Buf g} {b : Buf h} {high carry : ℕ} (hh : high < B)
    (hb0 : 0 < b.len) (hbt : b.nlimbs = t.nlimbs) (hnt : n.nlimbs ≤ t.nlimbs)
    (hnb : n.toNat < 256 ^ b.len) (hnl : n.toNat < 256 ^ t.len)
    (hT : shadowVal t.nlimbs t high carry < 256 ^ b.len + n.toNat)
    (hTl : b.len = t.len ∨ shadowVal t.nlimbs t high carry < 256 ^ min b.len t.len) :
    RSat (redc_finish t n b.partial_high_mask b.partial_high_shift high carry)
      (fun s => s.len = t.len ∧ s.toNat = subOnce n.toNat (shadowVal t.nlimbs t high carry)) := by
  unfold redc_finish
  have hN : 0 < t.nlimbs := by rw [← hbt]; exact nlimbs_pos_iff.2 hb0
  have hN' : t.nlimbs - 1 + 1 = ct_mp_nlimbs b.len := by rw [← Buf.nlimbs_eq, hbt]; omega
  have hN'' : t.nlimbs - 1 + 1 = ct_mp_nlimbs t.len := by rw [← Buf.nlimbs_eq]; omega
  have hpl := pow_len' hN'
  have hpl' := pow_len' hN''
  have hlow := Nat.mod_lt t.toNat (B_pow_pos (t.nlimbs - 1))
  have hTe : t.toNat % B ^ (t.nlimbs - 1) + B ^ (t.nlimbs - 1) * (high + carry * B)
      = shadowVal t.nlimbs t high carry := by unfold shadowVal; ring
  generalize shadowVal t.nlimbs t high carry = T at *
  have hTm : B ^ (t.nlimbs - 1) * (high + carry * B) ≤ T := by rw [← hTe]; exact Nat.le_add_left _ _
  have hcv : high + carry * B < 2 * 256 ^ hbytes b.len := by
    have h1 : B ^ (t.nlimbs - 1) * (high + carry * B) < B ^ (t.nlimbs - 1) *
        (2 * 256 ^ hbytes b.len) := by
      calc _ ≤ T := hTm
        _ < 2 * 256 ^ b.len := by omega
        _ = _ := by rw [hpl]; ring
    exact Nat.lt_of_mul_lt_mul_left h1
  obtain ⟨-, hc1, hc2⟩ := high_carry b hb0 hh hcv
  have hcc : b.partial_high_shift = 0 ∨ carry = 0 := by
    rcases b.partial_high_shift_cases hb0 with h | h
    · exact Or.inl h.2
    · right
      have h1 := pow_hbytes_lt h.1
      have h2 := B_half
      rcases Nat.eq_zero_or_pos carry with h0 | h0
      · exact h0
      · have h3 : 1 * B ≤ carry * B := Nat.mul_le_mul_right _ h0
        have h4 : 0 < 2 ^ (W - 1) := by positivity
        omega
  have hsh : b.partial_high_shift < W := by
    have hW := W_pos
    rcases b.partial_high_shift_cases hb0 with h | h
    · omega
    · rw [h.2.1, W_eq]; omega
  rw [M.check_eq hcc, M.pure_bind, shrC_eq hsh, M.pure_bind, M.sub_eq (by omega), M.pure_bind,
    Buf.and_partial_high_mask b hb0]
  generalize (carry ||| shr (high &&& bnot b.partial_high_mask) b.partial_high_shift) = c at *
  have hhm : high % 256 ^ hbytes b.len < 256 ^ hbytes b.len := Nat.mod_lt _ (by positivity)
  have hbl : b.len = (t.nlimbs - 1) * LB + hbytes b.len := by
    have h1 := b.nlimbs_eq
    have h2 := pred_nlimbs_mul_lt hb0
    unfold hbytes
    rw [← h1, hbt] at *; omega
  have htl : t.len = (t.nlimbs - 1) * LB + hbytes t.len := by
    have h1 := t.nlimbs_eq
    have h2 := pred_nlimbs_mul_lt (n := t.len) (nlimbs_pos_iff.1 (by omega))
    unfold hbytes
    rw [← h1] at *; omega
  refine RSat.bind (P := fun t' : Buf f => t'.len = t.len ∧
    t'.toNat + c * 256 ^ b.len = T ∧ t'.toNat < 256 ^ b.len) (Sat.rel ?_) ?_
  · refine (Low.self t (t.nlimbs - 1)).sat_store (by omega)
      (lt_of_le_of_lt (Nat.mod_le _ _) hh) (fun _ => ?_) ?_
    · rcases Nat.lt_or_ge t.len b.len with hlt | hge
      · have hTt : T < 256 ^ t.len := by
          rcases hTl with h | h
          · omega
          · rwa [min_eq_right hlt.le] at h
        refine lt_of_le_of_lt (Nat.mod_le _ _) ?_
        have h3 : B ^ (t.nlimbs - 1) * high < B ^ (t.nlimbs - 1) * 256 ^ hbytes t.len := by
          rw [← hpl']
          have : B ^ (t.nlimbs - 1) * high ≤ B ^ (t.nlimbs - 1) * (high + carry * B) :=
            Nat.mul_le_mul_left _ (Nat.le_add_right _ _)
          linarith
        exact Nat.lt_of_mul_lt_mul_left h3
      · exact lt_of_lt_of_le hhm (Nat.pow_le_pow_right (by norm_num) (by omega))
    intro t' ht'
    refine ⟨ht'.len, ?_, ?_⟩
    · rw [ht'.final (by omega), hpl, ← hTe, ← hc2]; ring
    · rw [ht'.final (by omega), hpl]
      have : B ^ (t.nlimbs - 1) * (high % 256 ^ hbytes b.len + 1) ≤
          B ^ (t.nlimbs - 1) * 256 ^ hbytes b.len := Nat.mul_le_mul_left _ hhm
      rw [Nat.mul_add, mul_one] at this
      omega
  intro t' ⟨hl, hv, hvP⟩
  have hnl' : t'.nlimbs = t.nlimbs := Buf.nlimbs_congr hl
  rw [LimbChoice.from'_eq hc1, M.pure_bind]
  refine RSat.bind (ct_geq_mp_mp_sat t' n).rel ?_
  intro q hq
  have hor : (LimbChoice.ofBool (decide (c = 1))).or q
      = .ofBool (decide (c = 1) || decide (n.toNat ≤ t'.toNat)) := by
    rw [hq, LimbChoice.or_ofBool]
  rw [hor]
  refine RSat.bind (ct_sub_cond_mp_mp_sat t' n _ (by omega) (fun _ => by rw [hl]; exact hnl)).rel ?_
  rintro ⟨t2, bo⟩ ⟨hl2, hbo, hs⟩
  dsimp only at hl2 hbo hs ⊢
  have ht2 := t2.toNat_lt
  have htlt := t'.toNat_lt
  rw [hl] at htlt hl2 hs
  rw [hl2] at ht2
  refine RSat.bind (RSat.assertM (P := fun _ => True) trivial) fun _ _ => RSat.pure ⟨hl2, ?_⟩
  unfold subOnce
  rcases (by omega : c = 0 ∨ c = 1) with rfl | rfl
  · rw [Nat.zero_mul, Nat.add_zero] at hv
    subst hv
    by_cases hge : n.toNat ≤ t'.toNat
    · simp only [zero_ne_one, decide_false, Bool.false_or, hge, decide_true, if_true] at hs ⊢
      rcases (by omega : bo = 0 ∨ bo = 1) with h | h <;> subst h <;> omega
    · simp only [zero_ne_one, decide_false, Bool.false_or, hge, if_false,
        Bool.false_eq_true] at hs ⊢
      rcases (by omega : bo = 0 ∨ bo = 1) with h | h <;> subst h <;> omega
  · simp only [decide_true, Bool.true_or, if_true] at hs
    rw [one_mul] at hv
    have hbe : b.len = t.len := by
      rcases hTl with h | h
      · exact h
      · have := Nat.pow_le_pow_right (n := 256) (by norm_num) (min_le_left b.len t.len)
        omega
    rw [hbe] at hv hT
    rw [if_pos (by omega)]
    rcases (by omega : bo = 0 ∨ bo = 1) with h | h <;> subst h <;> omega

/-- The reduction in release builds, of any number the function doesn't refuse. -/
theorem ct_montgomery_redc_mp_rsat (t : Buf f) (n : Buf g) (neg : ℕ) (he : redcErr t n = none)
    (hneg : wmul (n.toNat % B) neg = lmax) (hn2 : 2 ≤ n.nlimbs) :
    RSat (ct_montgomery_redc_mp t n neg) (fun r => ∃ s, r = .ok s ∧ s.len = t.len ∧
      s.toNat = subOnce n.toNat (redcRun n.toNat neg t.toNat n.nlimbs)) := by
  have h : n.len ≠ 0 ∧ n.toNat % 2 ≠ 0 ∧ LenCompat n t.len ∧ LenCompat t (2 * n.len) := by
    unfold redcErr at he
    split_ifs at he with e1 e2 e3
    exact ⟨fun h => e1 (Or.inl h), fun h => e1 (Or.inr h), e2, e3⟩
  obtain ⟨h, h2, h3, h4⟩ := h
  have hpos : 0 < n.toNat := by omega
  unfold ct_montgomery_redc_mp
  refine RSat.cond (fun hc => absurd ((Buf.is_empty_iff _).1 hc) h) fun _ => ?_
  have hn1 : 0 < n.nlimbs := nlimbs_pos_iff.2 (by omega)
  refine RSat.bind (Buf.sat_load_l n (Q := fun v => v = n.toNat % B) hn1 (by simp)).rel ?_
  intro n0 hn0
  rw [hn0]
  refine RSat.cond (fun hc => absurd (even_check.1 hc) h2) fun _ => ?_
  refine RSat.bind (len_is_compatible_with_sat n t.len).rel ?_
  intro c hc
  refine RSat.cond (fun h3' => ?_) fun _ => ?_
  · rw [hc, decide_eq_false_iff_not] at h3'; exact absurd h3 h3'
  refine RSat.bind (len_is_compatible_with_sat t (2 * n.len)).rel ?_
  intro c hc
  refine RSat.cond (fun h4' => ?_) fun _ => ?_
  · rw [hc, decide_eq_false_iff_not] at h4'; exact absurd h4 h4'
  have hnt : n.nlimbs ≤ t.nlimbs := by rw [Buf.nlimbs_eq t]; exact h3.nlimbs
  rw [M.assert_eq hneg, M.pure_bind, M.sub_eq (by omega), M.pure_bind]
  refine RSat.bind (Buf.sat_load_l t (Q := fun v => v = t.toNat / B ^ (t.nlimbs - 1) % B)
    (by omega) rfl).rel ?_
  intro hi hhi
  have e : ct_montgomery_radix_shift_mp_nlimbs n.len = n.nlimbs := (Buf.nlimbs_eq n).symm
  rw [e]
  refine RSat.bind (P := fun s : Buf f × ℕ × ℕ => s.1.len = t.len ∧ s.2.1 < B ∧
    shadowVal t.nlimbs s.1 s.2.1 s.2.2 = redcRun n.toNat neg t.toNat n.nlimbs) (Sat.rel ?_) ?_
  · refine (Sat.forRange (P := fun i (s : Buf f × ℕ × ℕ) => (s.1.len = t.len ∧ s.2.1 < B ∧
      shadowVal t.nlimbs s.1 s.2.1 s.2.2 = redcRun n.toNat neg t.toNat i) ∧ s.2.2 ≤ 1)
      (Nat.zero_le _) ?_ ?_).mono fun s h => h.1
    · refine ⟨⟨rfl, by rw [hhi]; exact dig_lt _ _, ?_⟩, Nat.zero_le _⟩
      dsimp only
      rw [hhi, shadow_init (by omega) t.toNat_lt_B]; rfl
    · rintro i ⟨t', hi', c'⟩ - hi1 ⟨⟨h5, h6, h8⟩, h7⟩
      dsimp only at h5 h6 h7 h8
      have hnl : t'.nlimbs = t.nlimbs := Buf.nlimbs_congr h5
      refine (redc_step_sat rfl hneg t' h6 h7 hn2 (by omega)).mono ?_
      rintro ⟨t2, hi2, c2⟩ ⟨h9, h10, h11, m, hm, h12⟩
      dsimp only at h9 h10 h11 h12 ⊢
      rw [hnl, h8] at h12
      exact ⟨⟨h9.trans h5, h10, redcStep_eq hneg hm h12⟩, h11⟩
  rintro ⟨t', hi', c'⟩ ⟨h5, h6, h8⟩
  dsimp only at h5 h6 h8 ⊢
  have hnl : t'.nlimbs = t.nlimbs := Buf.nlimbs_congr h5
  have hl0 : 0 < t.len := len_pos_of_lt (i := 0) (by omega)
  rw [← hnl] at h8
  have hn' : n.toNat < 256 ^ t'.len := by rw [h5]; exact h3.lt
  have hf := redc_finish_rsat (t := t') (n := n) (b := t') (carry := c') h6 (by omega) rfl
    (by omega) hn' hn' (by
      rw [h8]
      by_cases hlt : redcRun n.toNat neg t.toNat n.nlimbs < 2 * n.toNat
      · omega
      · have := redcRun_lt (L := 256 ^ t'.len) hneg (by omega) (by rw [h5]; exact t.toNat_lt) hlt
        omega) (Or.inl rfl)
  rw [h8] at hf
  exact RSat.bind hf fun s hs => RSat.pure ⟨_, rfl, hs.1.trans h5, hs.2⟩

theorem shadow_keep {N n neg a b : ℕ} (hneg : wmul (n % B) neg = lmax) (hn : 0 < n)
    (hnN : n < B ^ N) (hbN : b < B ^ N) (i : ℕ) : mgRun N n neg a b i < B ^ (N + 1) := by
  have h1 := mgRun_lt_add (N := N) (a := a) (b := b) hneg hn i
  have h2 : 2 * B ^ N ≤ B * B ^ N := Nat.mul_le_mul_right _ one_lt_B
  rw [pow_succ']; omega

/-- The multiplication in release builds, whatever the operands: what it calculates if the number
fits. -/
theorem ct_montgomery_mul_mod_mp_mp_rsat (result : Buf f) (op0 : Buf g) (op1 : Buf h)
    (n : Buf f') (neg : ℕ) (he : mulErr result op0 op1 n = none)
    (hneg : wmul (n.toNat % B) neg = lmax)
    (hne : op0.len = 0 ∨ op1.len ≠ 0)
    (hfit : MgFits f result.len n (mgRun n.nlimbs n.toNat neg op0.toNat op1.toNat n.nlimbs)) :
    RSat (ct_montgomery_mul_mod_mp_mp result op0 op1 n neg) (fun r => ∃ s, r = .ok s ∧
      s.len = result.len ∧
      s.toNat = subOnce n.toNat (mgRun n.nlimbs n.toNat neg op0.toNat op1.toNat n.nlimbs)) := by
  obtain ⟨h, h2, h3, h4, h5⟩ := mulErr_none he
  have hpos : 0 < n.toNat := by omega
  have hop1 : op1.toNat < 256 ^ n.len := h5.lt
  have hop1N : op1.toNat < B ^ n.nlimbs := op1.toNat_lt_B.trans_le
    (Nat.pow_le_pow_right B_pos (by rw [Buf.nlimbs_eq n]; exact h5.nlimbs))
  unfold ct_montgomery_mul_mod_mp_mp
  refine RSat.cond (fun hc => absurd ((Buf.is_empty_iff _).1 hc) h) fun _ => ?_
  have hn1 : 0 < n.nlimbs := nlimbs_pos_iff.2 (by omega)
  refine RSat.bind (Buf.sat_load_l n (Q := fun v => v = n.toNat % B) hn1 (by simp)).rel ?_
  intro n0 hn0
  rw [hn0]
  refine RSat.cond (fun hc => absurd (even_check.1 hc) h2) fun _ => ?_
  refine RSat.bind (len_is_compatible_with_sat n result.len).rel ?_
  intro c hc
  refine RSat.cond (fun h3' => ?_) fun _ => ?_
  · rw [hc, decide_eq_false_iff_not] at h3'
    exact absurd h3 h3'
  have hnr : n.nlimbs ≤ result.nlimbs := by rw [Buf.nlimbs_eq result]; exact h3.nlimbs
  rw [M.assert_eq hnr, M.pure_bind]
  refine RSat.bind (len_is_compatible_with_sat op0 n.len).rel ?_
  intro c hc
  refine RSat.bind (P := fun r => r = true) ?_ ?_
  · refine RSat.cond (fun h4' => ?_) fun _ => ?_
    · rw [hc, decide_eq_false_iff_not] at h4'
      exact absurd h4 h4'
    · refine (len_is_compatible_with_sat op1 n.len).rel.mono fun r hr => ?_
      simp [hr, h5]
  clear hc
  intro c hc
  refine RSat.cond (fun h4' => ?_) fun _ => ?_
  · rw [hc] at h4'; exact absurd h4' (by simp)
  have h0n : op0.nlimbs ≤ n.nlimbs := by rw [Buf.nlimbs_eq n]; exact h4.nlimbs
  have h1n : op1.nlimbs ≤ n.nlimbs := by rw [Buf.nlimbs_eq n]; exact h5.nlimbs
  rw [M.assert_eq h0n, M.pure_bind]
  refine RSat.bind (RSat.assertM (P := fun _ => True) trivial) fun _ _ => ?_
  rw [M.assert_eq h1n, M.pure_bind]
  refine RSat.bind (RSat.assertM (P := fun _ => True) trivial) fun _ _ => ?_
  rw [M.assert_eq hneg, M.pure_bind]
  refine RSat.bind (P := fun r : Buf f => r.len = result.len ∧ r.toNat = 0)
    (result.sat_clear_bytes_above 0 fun b' h1 h2 => ⟨h1, by rw [h2]; simp [Nat.mod_one]⟩).rel ?_
  intro r ⟨hrl, hr0⟩
  refine RSat.bind (r.sat_shrink_to (m := n.len) (by rw [hr0]; positivity)).rel ?_
  rintro ⟨t, rest⟩ ⟨htl, ht0, hrest, hlen, htn⟩
  dsimp only at htl ht0 hrest hlen htn ⊢
  rw [hr0] at ht0
  rw [hrl] at htl htn
  rw [h3.nlimbs_min] at htn
  rw [M.assert_eq htn, M.pure_bind]
  have hnN : n.toNat < B ^ n.nlimbs := n.toNat_lt_B
  refine RSat.bind (P := fun s : Buf f × ℕ × ℕ => s.1.len = t.len ∧ s.2.1 < B ∧ s.2.2 ≤ 1 ∧
    shadowVal n.nlimbs s.1 s.2.1 s.2.2
      = mgRun n.nlimbs n.toNat neg op0.toNat op1.toNat op0.nlimbs) (Sat.rel ?_) ?_
  · refine Sat.forRange (P := fun i (s : Buf f × ℕ × ℕ) => s.1.len = t.len ∧ s.2.1 < B ∧
      s.2.2 ≤ 1 ∧ shadowVal n.nlimbs s.1 s.2.1 s.2.2
      = mgRun n.nlimbs n.toNat neg op0.toNat op1.toNat i) (Nat.zero_le _) ?_ ?_
    · refine ⟨rfl, B_pos, Nat.zero_le _, ?_⟩
      dsimp only
      simp [shadowVal, ht0, mgRun]
    · rintro i ⟨t', hi', c'⟩ - hi1 ⟨h5, h6, h7, h8⟩
      dsimp only at h5 h6 h7 h8
      have h0p : 0 < op0.len := len_pos_of_lt hi1
      have h1p : 0 < op1.nlimbs := nlimbs_pos_iff.2 (by omega)
      refine (mg_mul_step_sat rfl hneg hi1 h1p h1n t' ((Buf.nlimbs_congr h5).trans htn) h6
        h7).mono ?_
      rintro ⟨t2, hi2, c2⟩ ⟨h9, h10, h11, m, hm, h12⟩
      dsimp only at h9 h10 h11 h12 ⊢
      rw [h8] at h12
      exact ⟨h9.trans h5, h10, h11, redcStep_eq hneg hm h12⟩
  rintro s hs
  have hradix : ct_montgomery_radix_shift_mp_nlimbs n.len = n.nlimbs := (Buf.nlimbs_eq n).symm
  rw [hradix]
  refine RSat.bind (P := fun s : Buf f × ℕ × ℕ => s.1.len = t.len ∧ s.2.1 < B ∧ s.2.2 ≤ 1 ∧
    shadowVal n.nlimbs s.1 s.2.1 s.2.2
      = mgRun n.nlimbs n.toNat neg op0.toNat op1.toNat n.nlimbs) (Sat.rel ?_) ?_
  · refine Sat.forRange (P := fun i (s : Buf f × ℕ × ℕ) => s.1.len = t.len ∧ s.2.1 < B ∧
      s.2.2 ≤ 1 ∧ shadowVal n.nlimbs s.1 s.2.1 s.2.2
      = mgRun n.nlimbs n.toNat neg op0.toNat op1.toNat i) h0n hs ?_
    rintro i ⟨t', hi', c'⟩ hi0 hi1 ⟨h5, h6, h7, h8⟩
    dsimp only at h5 h6 h7 h8
    refine (mg_redc_step_sat rfl hneg hn1 t' ((Buf.nlimbs_congr h5).trans htn) h6 h7).mono ?_
    rintro ⟨t2, hi2, c2⟩ ⟨h9, h10, h11, m, hm, h12⟩
    dsimp only at h9 h10 h11 h12 ⊢
    refine ⟨h9.trans h5, h10, h11, ?_⟩
    rw [h8] at h12
    rw [mgRun, Nat.div_eq_of_lt (lt_of_lt_of_le op0.toNat_lt_B (Nat.pow_le_pow_right B_pos hi0)),
      Nat.zero_mod, Nat.zero_mul, Nat.add_zero, Nat.mod_eq_of_lt (shadow_keep hneg hpos hnN hop1N i)]
    exact redcStep_eq hneg hm h12
  clear hs s
  rintro ⟨t', hi', c'⟩ ⟨h5, h6, h7, h8⟩
  dsimp only at h5 h6 h7 h8 ⊢
  have hnl : t'.nlimbs = n.nlimbs := (Buf.nlimbs_congr h5).trans htn
  have hlt := mgRun_lt_add (N := n.nlimbs) (a := op0.toNat) (b := op1.toNat) hneg hpos n.nlimbs
  rw [M.assert_eq hnl, M.pure_bind]
  have h8' : shadowVal t'.nlimbs t' hi' c'
      = mgRun n.nlimbs n.toNat neg op0.toNat op1.toNat n.nlimbs := by rw [hnl]; exact h8
  have hn' : n.toNat < 256 ^ t'.len := by
    rw [h5, htl]
    refine lt_of_lt_of_le ?_ (Nat.pow_le_pow_right (by norm_num) (le_align_len f _))
    rcases Nat.le_total n.len result.len with h | h
    · rw [min_eq_left h]; exact n.toNat_lt
    · rw [min_eq_right h]; exact h3.lt
  have h9 : t'.len = Buf._limbs_align_len f (min n.len result.len) := h5.trans htl
  have hf := redc_finish_rsat (t := t') (n := n) (b := n) (carry := c') h6 (by omega) hnl.symm
    (by omega) n.toNat_lt hn' (by rw [h8']; omega) (by rw [h8', h9]; exact hfit)
  rw [h8'] at hf
  refine RSat.bind hf fun s hs => RSat.pure ⟨_, rfl, ?_, ?_⟩
  · rw [Buf.len_join, hs.1, h5, hlen, hrl]
  · rw [Buf.toNat_join, hrest, hs.2]; simp

/-- As `mgKeeps_of_le`, whatever the operands. -/
theorem mgKeeps_of_add_le {N n neg a b : ℕ} (hneg : wmul (n % B) neg = lmax) (hn : 0 < n)
    (h : B * b + n ≤ B ^ (N + 1)) : MgKeeps N n neg a b := by
  intro i _
  have h1 := mgRun_lt_add (N := N) (a := a) (b := b) hneg hn i
  have hd := Nat.mod_lt (a / B ^ i) B_pos
  generalize a / B ^ i % B = d at *
  have h2 : (d + 1) * b ≤ B * b := Nat.mul_le_mul_right _ hd
  rw [Nat.add_mul, one_mul] at h2
  omega

/-- If no carry is lost, the number before the last subtraction, times `R`. -/
theorem mgRun_keeps {N n neg a b : ℕ} (hneg : wmul (n % B) neg = lmax) (ha : a < B ^ N)
    (hk : MgKeeps N n neg a b) : ∃ K < B ^ N, B ^ N * mgRun N n neg a b N = a * b + K * n := by
  obtain ⟨K, hK, h⟩ := mgRun_spec (N := N) hneg a b N
  rw [mgLost_eq_zero hk, Nat.zero_mul, Nat.add_zero, Nat.mod_eq_of_lt ha] at h
  exact ⟨K, hK, h⟩

theorem subOnce_modEq (n T : ℕ) : subOnce n T ≡ T [MOD n] := by
  unfold subOnce
  split
  · rename_i h; exact (Nat.modEq_iff_dvd' (by omega)).2 ⟨1, by omega⟩
  · exact Nat.ModEq.refl _

/-- If no carry is lost, one subtraction gives a number congruent to the product, whatever the
operands. -/
theorem subOnce_mgRun_modEq {N n neg a b : ℕ} (hneg : wmul (n % B) neg = lmax) (ha : a < B ^ N)
    (hk : MgKeeps N n neg a b) : subOnce n (mgRun N n neg a b N) * B ^ N ≡ a * b [MOD n] := by
  obtain ⟨K, -, h⟩ := mgRun_keeps hneg ha hk
  refine ((subOnce_modEq _ _).mul_right _).trans ?_
  rw [Nat.mul_comm, h]
  show _ % n = _
  rw [Nat.add_mul_mod_self_right]

theorem subOnce_eq_mod {n T : ℕ} (h : T < 2 * n) : subOnce n T = T % n := by
  unfold subOnce
  split
  · rename_i h1; rw [Nat.mod_eq_sub_mod h1, Nat.mod_eq_of_lt (by omega)]
  · rename_i h1; rw [Nat.mod_eq_of_lt (by omega)]

theorem mgFits_of_prod {rlen : ℕ} {n : Buf g} {neg a b : ℕ} (hlen : n.len ≤ rlen)
    (hal : f.unaligned = true ∨ LB ∣ n.len ∨ 257 * n.toNat ≤ 256 ^ (n.len + 1))
    (hneg : wmul (n.toNat % B) neg = lmax) (hn : 0 < n.toNat) (ha : a < B ^ n.nlimbs)
    (hab : a * b ≤ 256 ^ n.len * n.toNat) (hk : MgKeeps n.nlimbs n.toNat neg a b) :
    MgFits f rlen n (mgRun n.nlimbs n.toNat neg a b n.nlimbs) := by
  unfold MgFits
  rw [min_eq_left hlen, min_eq_left (le_align_len f _)]
  have hle : n.len ≤ n.nlimbs * LB := le_nlimbs_mul _
  obtain ⟨K, hK, h8⟩ := mgRun_keeps hneg ha hk
  generalize mgRun n.nlimbs n.toNat neg a b n.nlimbs = S at *
  rcases hal with hal | hal | hal
  · left; unfold Buf._limbs_align_len; rw [if_pos hal]
  · left
    unfold Buf._limbs_align_len
    split
    · rfl
    · obtain ⟨k, hk⟩ := hal
      unfold ct_mp_limbs_align_len
      rw [hk, Nat.mul_comm LB k, nlimbs_mul]
  · by_cases hal' : n.len = Buf._limbs_align_len f n.len
    · exact Or.inl hal'
    · right
      have hne : n.len ≠ n.nlimbs * LB := by
        intro he; apply hal'
        unfold Buf._limbs_align_len; split
        · rfl
        · exact he
      have hp : 256 ^ (n.len + 1) ≤ B ^ n.nlimbs := by
        rw [← pow_256]; exact Nat.pow_le_pow_right (by norm_num) (by omega)
      refine Nat.lt_of_mul_lt_mul_left (a := 256 * B ^ n.nlimbs) ?_
      have h10 : (K + 1) * n.toNat ≤ B ^ n.nlimbs * n.toNat := Nat.mul_le_mul_right _ hK
      rw [pow_succ] at hp hal
      rw [Nat.add_mul, one_mul] at h10
      have h11 : 256 ^ n.len * 256 * n.toNat ≤ B ^ n.nlimbs * n.toNat := Nat.mul_le_mul_right _ hp
      have h12 : B ^ n.nlimbs * (257 * n.toNat) ≤ B ^ n.nlimbs * (256 ^ n.len * 256) :=
        Nat.mul_le_mul_left _ hal
      calc 256 * B ^ n.nlimbs * S = 256 * (a * b + K * n.toNat) := by
            rw [Nat.mul_assoc, h8]
        _ < 256 * (256 ^ n.len * n.toNat + B ^ n.nlimbs * n.toNat) := by omega
        _ = 256 ^ n.len * 256 * n.toNat + 256 * B ^ n.nlimbs * n.toNat := by ring
        _ ≤ B ^ n.nlimbs * n.toNat + 256 * B ^ n.nlimbs * n.toNat := by omega
        _ = B ^ n.nlimbs * (257 * n.toNat) := by ring
        _ ≤ _ := h12
        _ = _ := by ring

/-- The operands need not be less than the modulus. -/
theorem ct_montgomery_mul_mod_mp_mp_rsat_prod (result : Buf f) (op0 : Buf g) (op1 : Buf h)
    (n : Buf f') (neg : ℕ) (he : mulErr result op0 op1 n = none)
    (hneg : wmul (n.toNat % B) neg = lmax) (hne : op0.len = 0 ∨ op1.len ≠ 0)
    (hab : op0.toNat * op1.toNat ≤ 256 ^ n.len * n.toNat)
    (hb : B * op1.toNat + n.toNat ≤ B ^ (n.nlimbs + 1)) (hlen : n.len ≤ result.len)
    (hal : f.unaligned = true ∨ LB ∣ n.len ∨ 257 * n.toNat ≤ 256 ^ (n.len + 1)) :
    RSat (ct_montgomery_mul_mod_mp_mp result op0 op1 n neg) (fun r => ∃ s, r = .ok s ∧
      s.len = result.len ∧
      s.toNat < n.toNat ∧ s.toNat * B ^ n.nlimbs ≡ op0.toNat * op1.toNat [MOD n.toNat]) := by
  obtain ⟨-, h2, -, h4, -⟩ := mulErr_none he
  have hn : 0 < n.toNat := by omega
  have ha : op0.toNat < B ^ n.nlimbs := op0.toNat_lt_B.trans_le
    (Nat.pow_le_pow_right B_pos (by rw [Buf.nlimbs_eq n]; exact h4.nlimbs))
  have hk := mgKeeps_of_add_le (N := n.nlimbs) (a := op0.toNat) hneg hn hb
  refine (ct_montgomery_mul_mod_mp_mp_rsat result op0 op1 n neg he hneg hne
    (mgFits_of_prod hlen hal hneg hn ha hab hk)).mono ?_
  rintro r ⟨s, h, hl, hs⟩
  obtain ⟨K, hK, h8⟩ := mgRun_keeps hneg ha hk
  refine ⟨s, h, hl, ?_, ?_⟩
  · rw [hs, subOnce_eq_mod]
    · exact Nat.mod_lt _ hn
    · refine Nat.lt_of_mul_lt_mul_left (a := B ^ n.nlimbs) ?_
      have h9 : (K + 1) * n.toNat ≤ B ^ n.nlimbs * n.toNat := Nat.mul_le_mul_right _ hK
      have h10 : 256 ^ n.len * n.toNat ≤ B ^ n.nlimbs * n.toNat := Nat.mul_le_mul_right _ (by
        rw [← pow_256]; exact Nat.pow_le_pow_right (by norm_num) (le_nlimbs_mul _))
      rw [Nat.add_mul, one_mul] at h9
      rw [h8, Nat.mul_left_comm, Nat.two_mul]
      omega
  · rw [hs]; exact subOnce_mgRun_modEq hneg ha hk

/-- With the second operand less than the modulus, the first one need not be. -/
theorem ct_montgomery_mul_mod_mp_mp_rsat' (result : Buf f) (op0 : Buf g) (op1 : Buf h)
    (n : Buf f') (neg : ℕ) (he : mulErr result op0 op1 n = none)
    (hneg : wmul (n.toNat % B) neg = lmax) (hne : op0.len = 0 ∨ op1.len ≠ 0)
    (hb : op1.toNat < n.toNat) (hmod : MgModulus f result.len n) :
    RSat (ct_montgomery_mul_mod_mp_mp result op0 op1 n neg) (fun r => ∃ s, r = .ok s ∧
      s.len = result.len ∧
      s.toNat < n.toNat ∧ s.toNat * B ^ n.nlimbs ≡ op0.toNat * op1.toNat [MOD n.toNat]) := by
  refine ct_montgomery_mul_mod_mp_mp_rsat_prod result op0 op1 n neg he hneg hne
    (Nat.mul_le_mul (mulErr_none he).2.2.2.1.lt.le hb.le) ?_ hmod.len hmod.align
  have h1 := hmod.high
  have h2 := Nat.mul_le_mul_left B hb.le
  rw [Nat.add_mul, one_mul] at h1
  omega

theorem ct_to_montgomery_form_mp_rsat (result : Buf f) (t : Buf g) (n : Buf f') (neg : ℕ)
    (radix2 : Buf h) (he : toMgErr result t n radix2 = none) (hneg : wmul (n.toNat % B) neg = lmax)
    (hne : t.len = 0 ∨ radix2.len ≠ 0) (hr : radix2.toNat < n.toNat)
    (hmod : MgModulus f result.len n) :
    RSat (ct_to_montgomery_form_mp result t n neg radix2) (fun r => ∃ s, r = .ok s ∧
      s.len = result.len ∧
      s.toNat < n.toNat ∧ s.toNat * B ^ n.nlimbs ≡ t.toNat * radix2.toNat [MOD n.toNat]) := by
  have he' := toMgErr_none he
  obtain ⟨-, -, -, h4, h5⟩ := mulErr_none he'
  unfold ct_to_montgomery_form_mp
  refine RSat.bind (len_is_compatible_with_sat t n.len).rel ?_
  intro c hc
  refine RSat.cond (fun h => ?_) fun _ => ?_
  · rw [hc, decide_eq_false_iff_not] at h; exact absurd h4 h
  refine RSat.bind (len_is_compatible_with_sat radix2 n.len).rel ?_
  intro c hc
  refine RSat.cond (fun h => ?_) fun _ => ?_
  · rw [hc, decide_eq_false_iff_not] at h; exact absurd h5 h
  refine RSat.bind (RSat.assertM (P := fun _ => True) trivial) fun _ _ => ?_
  refine RSat.bind (RSat.assertM (P := fun _ => True) trivial) fun _ _ => ?_
  exact ct_montgomery_mul_mod_mp_mp_rsat' result t radix2 n neg he' hneg hne hr hmod

theorem unwrapE_rsat {α ε : Type} {m : M (Except ε α)} {P : α → Prop}
    (h : RSat m (fun r => ∃ s, r = .ok s ∧ P s)) : RSat (unwrapE m) P := by
  unfold unwrapE
  refine RSat.bind h ?_
  rintro _ ⟨s, rfl, hs⟩
  exact RSat.pure hs

/-- The exponentiation in release builds, with a base not necessarily less than the modulus. -/
theorem ct_exp_mod_odd_mp_mp_rsat (result : Buf f) (op0 : Buf g) (n : Buf f')
    (exponent : Buf e') (nbits : ℕ) (scratch : Buf .ne) (he : expErr result op0 n scratch = none)
    (hn2 : 2 ≤ n.nlimbs) (hm1 : MgModulus f result.len n) (hm2 : MgModulus .ne scratch.len n) :
    RSat (ct_exp_mod_odd_mp_mp result op0 n exponent nbits scratch) (fun r => ∃ s, r = .ok s ∧
      s.1.len = result.len ∧ s.2.1.len = op0.len ∧ s.2.2.len = scratch.len ∧
        s.1.toNat = op0.toNat ^ (exponent.toNat % 2 ^ nbits) % n.toNat) := by
  obtain ⟨hodd, h3, hscr, h5, h6⟩ := expErr_none he
  obtain ⟨neg, hneg⟩ := exists_neg hodd
  have hnpos : 0 < n.toNat := by omega
  unfold ct_exp_mod_odd_mp_mp
  refine RSat.bind (len_is_compatible_with_sat n result.len).rel ?_
  intro c hc
  refine RSat.cond (fun h => ?_) fun _ => ?_
  · rw [hc, decide_eq_false_iff_not] at h; exact absurd h3 h
  refine RSat.bind (len_is_compatible_with_sat op0 n.len).rel ?_
  intro c hc
  refine RSat.cond (fun h => ?_) fun _ => ?_
  · rw [hc, decide_eq_false_iff_not] at h; exact absurd h5 h
  refine RSat.bind (RSat.assertM (P := fun _ => True) trivial) fun _ _ => ?_
  refine RSat.bind (len_is_compatible_with_sat n op0.len).rel ?_
  intro c hc
  refine RSat.cond (fun h => ?_) fun _ => ?_
  · rw [hc, decide_eq_false_iff_not] at h; exact absurd h6 h
  have hop0n : op0.nlimbs = n.nlimbs := by
    have h7 := h5.nlimbs
    have h8 := h6.nlimbs
    rw [← Buf.nlimbs_eq] at h7 h8
    omega
  rw [M.assert_eq hop0n, M.pure_bind]
  rw [← Buf.nlimbs_eq n]
  refine RSat.cond (fun h4 => by omega) fun h4 => ?_
  have hn0 : 0 < n.len := len_pos_of_odd hodd
  unfold M.bindE
  refine RSat.bind (ct_montgomery_neg_n0_inv_mod_l_mp_sat n).rel ?_
  rintro (er | neg') hneg'
  · simp [Outcome, hodd, hn0.ne'] at hneg'
  obtain ⟨-, -, hneg'⟩ := hneg'
  dsimp only
  rw [← M.bind_assoc']
  refine RSat.bind (shrink_result_sat result n h3).rel ?_
  rintro ⟨out, rest⟩ ⟨a4, a5, a6, a7, a8, a9, -⟩
  dsimp only at *
  have hsh : Shrunk n out := Shrunk.of_compat a4 a5 h3
  rw [M.assert_eq a5, M.pure_bind]
  refine RSat.bind (unwrapE_sat (ct_montgomery_radix2_mod_n_mp_sat out n)
    (by simp [transErr, hodd]; exact hsh.lenCompat)).rel ?_
  rintro r1 ⟨b1, b2⟩
  have hr1 := hsh.congr b1
  have hR2 : B ^ n.nlimbs * B ^ n.nlimbs % n.toNat < n.toNat := Nat.mod_lt _ hnpos
  have hr1n : r1.toNat < n.toNat := by rw [b2]; exact hR2
  have hsl := ne_scratch_len hscr
  have hcs : LenCompat n scratch.len := Or.inl hsl
  rw [← M.bind_assoc']
  refine RSat.bind (shrink_result_sat scratch n hcs).rel ?_
  rintro ⟨sc, srest⟩ ⟨c4, c5, c6, c7, c8, c9, -⟩
  dsimp only at *
  have hsc : Shrunk n sc := Shrunk.of_shrink c4 c5 hsl
  have hRpos : 0 < B ^ n.nlimbs := B_pow_pos _
  have hmsc : MgModulus .ne sc.len n := ⟨hm2.high, hsc.len, hm2.align⟩
  refine RSat.bind (P := fun s : Buf .ne => s.len = sc.len ∧ s.toNat < n.toNat ∧
      s.toNat ≡ op0.toNat * B ^ n.nlimbs [MOD n.toNat]) ?_ ?_
  · have he : toMgErr sc op0 n r1 = none := by
      have := hr1.compat hn0 hr1n
      have h2 := hsc.lenCompat
      simp [toMgErr, mulErr, hodd, this, h2, h5]; omega
    refine (unwrapE_rsat (ct_to_montgomery_form_mp_rsat sc op0 n neg' r1 he hneg'
      (Or.inr (hr1.len_ne hn0)) hr1n hmsc)).mono ?_
    rintro s ⟨h1, h2, h3⟩
    refine ⟨h1, h2, Nat.ModEq.cancel_right_of_coprime (coprime_radix hodd n.nlimbs) (h3.trans ?_)⟩
    rw [b2, Nat.mul_assoc]
    exact (Nat.mod_modEq _ _).mul_left _
  rintro m ⟨d1, d2, d3⟩
  have hnop : n.toNat < 256 ^ op0.len := h6.lt
  refine RSat.bind (op0.copy_from_sat m (d2.trans hnop)).rel ?_
  rintro op1 ⟨e1, e2⟩
  have h5' : LenCompat op1 n.len := by
    rcases h5 with h | ⟨u1, u2, -⟩
    · exact Or.inl (by rw [e1]; exact h)
    · exact Or.inr ⟨u1, by rw [e1]; exact u2, by rw [e2]; exact d2.trans n.toNat_lt⟩
  have hle2 : n.nlimbs * LB ≤ 2 * n.len := by
    have h2 := pred_nlimbs_mul_lt hn0
    rw [← Buf.nlimbs_eq, Nat.sub_mul, one_mul] at h2
    have h7 : 2 * LB ≤ n.nlimbs * LB := Nat.mul_le_mul_right _ hn2
    omega
  have hredc : ∀ r : Buf f, Shrunk n r → redcErr r n = none := by
    intro r hr
    have h7 := hr.lenCompat
    have h8 : LenCompat r (2 * n.len) := Or.inl (hr.len_le.trans hle2)
    simp [redcErr, hodd, h7, h8, hn0.ne']
  have hred : ∀ r : Buf f, Shrunk n r → r.toNat < n.toNat →
      Sat (unwrapE (ct_montgomery_redc_mp r n neg'))
        (fun s => s.len = r.len ∧ s.toNat < n.toNat ∧
          s.toNat * B ^ n.nlimbs ≡ r.toNat [MOD n.toNat]) := by
    intro r hr hrn
    refine unwrapE_sat (((ct_montgomery_redc_mp_exact r n neg').sat fun _ =>
      ⟨hneg', hn2, redcRun_lt_of_lt hneg' (hrn.trans_le (Nat.le_mul_of_pos_right _ hRpos))⟩).mono
      fun s hs => hs.mono fun _ s h => ⟨h.1, ?_, ?_⟩) (hredc r hr)
    · rw [h.2]; exact Nat.mod_lt _ hnpos
    · rw [h.2]; exact redcRun_modEq hneg'
  refine RSat.bind (hred r1 hr1 hr1n).rel ?_
  rintro r2 ⟨f1, f2, f3⟩
  have f4 : r2.toNat ≡ B ^ n.nlimbs [MOD n.toNat] := by
    refine Nat.ModEq.cancel_right_of_coprime (coprime_radix hodd n.nlimbs) (f3.trans ?_)
    rw [b2]; exact Nat.mod_modEq _ _
  have hr2 := hr1.congr f1
  have hsl' : (Buf.join srest m).len = scratch.len := by rw [Buf.len_join, d1, c8]
  have hop1 : op1.len ≠ 0 := by
    have h1 : 0 < op0.nlimbs := by rw [hop0n]; exact nlimbs_pos_iff.2 hn0
    rw [e1]; exact (nlimbs_pos_iff.1 h1).ne'
  have hx := (_ct_montogmery_exp_mod_mp_mp_exact r2 op1 n neg' exponent nbits (Buf.join srest m) hn0
    hodd hr2 (by rw [Buf.nlimbs_congr hsl']; omega) h5' (by rw [e2]; exact d2) f2).sat
    (Or.inr ⟨hneg', hop1, by
      rw [hsl', expFits_shrunk hr2 (f1.trans (b1.trans a4)), e2]
      exact expFits_of_modulus hneg' d2 f2 hm1 hm2⟩)
  refine RSat.bind hx.rel ?_
  rintro ⟨r3, sc3⟩ ⟨g1, g2, g3⟩
  dsimp only at *
  rw [e2] at g3
  have hr3 := hr2.congr g1
  have h7 := expRun_spec hneg' hodd n.toNat_lt_B f2 f4 d2 d3 _ le_rfl
    (expKeeps_of_le (e := exponent.toNat) (nb := min nbits (8 * exponent.len)) hneg' d2 f2 hm1.high)
  rw [Nat.sub_self, pow_zero, Nat.div_one, exponent_bits] at h7
  refine RSat.bind (hred r3 hr3 ?_).rel ?_
  · rw [g3]; exact expRun_lt hnpos f2 _
  rintro r4 ⟨i1, i2, i3⟩
  refine RSat.pure ⟨_, rfl, ?_, e1, ?_, ?_⟩
  · dsimp only; rw [Buf.len_join, i1, g1, f1, b1, a8]
  · dsimp only; rw [g2, hsl']
  · dsimp only
    rw [Buf.toNat_join, a7, Nat.mul_zero, Nat.add_zero, ← Nat.mod_eq_of_lt i2]
    refine Nat.ModEq.cancel_right_of_coprime (coprime_radix hodd n.nlimbs) (i3.trans ?_)
    rw [g3]; exact h7

end Cmpa
