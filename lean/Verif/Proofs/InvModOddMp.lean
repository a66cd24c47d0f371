import Verif.Proofs.InvModApply

/-!
# Inversion modulo an odd number
-/

set_option linter.unusedSectionVars false

namespace Cmpa
variable [LimbCfg] {φ ψ χ : Fmt}

open M TransitionMatrix

theorem dig_pow_sub_one {N i : ℕ} (hi : i < N) : (B ^ N - 1) / B ^ i % B = lmax := by
  obtain ⟨k, rfl⟩ := Nat.exists_eq_add_of_lt hi
  have hB := B_pos
  have h1 := B_pow_pos i
  have h2 := B_pow_pos k
  have e : B ^ (i + k + 1) - 1 = (B ^ i - 1) + B ^ i * (B ^ (k + 1) - 1) := by
    rw [Nat.mul_sub, mul_one, ← pow_add, show i + (k + 1) = i + k + 1 by ring]
    have : B ^ i ≤ B ^ (i + k + 1) := Nat.pow_le_pow_right hB (by omega)
    omega
  have e2 : B ^ (k + 1) - 1 = (B - 1) + B * (B ^ k - 1) := by
    rw [Nat.mul_sub, mul_one, ← pow_succ']
    have : B ^ 1 ≤ B ^ (k + 1) := Nat.pow_le_pow_right hB (by omega)
    rw [pow_one] at this
    omega
  rw [e, Nat.add_mul_div_left _ _ h1, Nat.div_eq_of_lt (by omega), Nat.zero_add, e2,
    Nat.add_mul_mod_self_left, Nat.mod_eq_of_lt (by omega)]
  rfl

/-- The expected value of the greatest common divisor. -/
def unitVal (N : ℕ) (neg : Bool) : ℕ := if neg then B ^ N - 1 else 1

theorem unitVal_dig {N i : ℕ} (hi : i < N) (neg : Bool) :
    unitVal N neg / B ^ i % B = if i = 0 then (if neg then lmax else 1) else bmask neg := by
  unfold unitVal bmask
  cases neg
  · simp only [Bool.false_eq_true, if_false]
    split
    · next h => subst h; rw [pow_zero, Nat.div_one, Nat.mod_eq_of_lt one_lt_B]
    · next h => rw [Nat.div_eq_of_lt (Nat.one_lt_pow h one_lt_B), Nat.zero_mod]
  · simp only [if_true, ite_self]
    exact dig_pow_sub_one hi

theorem inv_check_sat {f : Buf .ne} {N : ℕ} (hN : f.nlimbs = N) (hN0 : 0 < N) (neg : Bool) :
    Sat (M.loopUpE N 0 (if neg then lmax else 1) (inv_check_step f (bmask neg)))
      (OkErr (fun _ => f.toNat = unitVal N neg)
        (fun e => e = .OperandsNotCoprime ∧ f.toNat ≠ unitVal N neg)) := by
  refine (Sat.loopUpE (P := fun i s => s = (if i = 0 then (if neg then lmax else 1) else bmask neg) ∧
    f.toNat % B ^ i = unitVal N neg % B ^ i)
    (E := fun e => e = .OperandsNotCoprime ∧ f.toNat ≠ unitVal N neg)
    ⟨by simp, by simp [Nat.mod_one]⟩ ?_).mono ?_
  · rintro i s - hi ⟨hs, hm⟩
    rw [Nat.zero_add] at hi
    unfold inv_check_step
    refine Sat.bind (f.sat_load_l_full (i := i) ?_ (Q := fun v => v = f.toNat / B ^ i % B) rfl) ?_
    · rw [f.aligned rfl]
      have := Nat.mul_le_mul_right LB (show i + 1 ≤ f.nlimbs by omega)
      rwa [Nat.succ_mul] at this
    intro v hv
    rw [hs, ← unitVal_dig hi neg, hv]
    refine Sat.cond (fun h => Sat.pure ⟨rfl, fun h' => h (by rw [h'])⟩) fun h => Sat.pure ?_
    push Not at h
    refine ⟨by simp, ?_⟩
    rw [mod_succ, mod_succ, hm, h]
  · rintro (e | s) h
    · exact h
    · have h2 := h.2
      rw [Nat.zero_add] at h2
      show f.toNat = _
      rw [Nat.mod_eq_of_lt (by rw [← hN]; exact f.toNat_lt_B), Nat.mod_eq_of_lt] at h2
      · exact h2
      · unfold unitVal
        have := B_pow_pos N
        split
        · omega
        · exact Nat.one_lt_pow (by omega) one_lt_B

theorem unit_iff {F : ℤ} {g N : ℕ} (hF : F.natAbs = g) (h0 : 0 < g) (hg : g < B ^ N) {v : ℕ}
    (hv : (v : ℤ) = F % (B : ℤ) ^ N) : v = unitVal N (decide (F < 0)) ↔ g = 1 := by
  have hgz : (g : ℤ) < (B : ℤ) ^ N := by exact_mod_cast hg
  unfold unitVal
  by_cases h : F < 0
  · rw [decide_eq_true h, if_pos rfl]
    have hFg : F = -(g : ℤ) := by omega
    have h1 : F % (B : ℤ) ^ N = (B : ℤ) ^ N - g := by
      rw [hFg, Int.neg_emod_eq_sub_emod]
      exact Int.emod_eq_of_lt (by linarith) (by omega)
    rw [h1] at hv
    have h2 : v = B ^ N - g := by
      zify [hg.le]; exact_mod_cast hv
    rw [h2]; omega
  · rw [decide_eq_false h, if_neg (by simp)]
    have hFg : F = (g : ℤ) := by omega
    rw [hFg, Int.emod_eq_of_lt (by positivity) hgz] at hv
    omega

theorem inv_negate_sat {r : Buf φ} {n : Buf χ} (neg : Bool) (hN : r.nlimbs = n.nlimbs)
    (hr : r.toNat ≤ n.toNat) (hn : neg = true → n.toNat - r.toNat < 256 ^ r.len) :
    Sat (inv_negate r n (bmask neg) (if neg then 1 else 0)) (fun r' =>
      r'.len = r.len ∧ r'.toNat = if neg then n.toNat - r.toNat else r.toNat) := by
  unfold inv_negate
  dsimp only
  refine Sat.bind (Sat.forRange (P := fun i (s : Buf φ × ℕ × ℕ) => ∃ q : ℕ, q < B ^ i ∧
    Low r (q % 256 ^ r.len) i s.1 ∧ s.2.1 ≤ 1 ∧ s.2.2 ≤ 1 ∧
    (q : ℤ) + s.2.2 * B ^ i = (if neg then (n.toNat % B ^ i : ℕ) + (B : ℤ) ^ i - (r.toNat % B ^ i : ℕ)
      else (r.toNat % B ^ i : ℕ)) - s.2.1 * B ^ i) (Nat.zero_le _) ?_ ?_) ?_
  · refine ⟨0, by simp, by simpa using Low.zero r, ?_, by simp, ?_⟩
    · dsimp only; split <;> omega
    · cases neg <;> simp [Nat.mod_one]
  · rintro i ⟨u', kn, c⟩ _ hi ⟨q, hq, hL, hkn, hc, heq⟩
    dsimp only at hL hkn hc heq ⊢
    refine Sat.bind (hL.sat_load (by omega) le_rfl (Q := fun v => v = r.toNat / B ^ i % B) rfl) ?_
    rintro _ rfl
    obtain ⟨kn', v, ev, hkn', hv, hveq⟩ := cond_neg_limb neg (dig_lt r.toNat i) hkn
    rw [ev]
    dsimp only
    refine Sat.bind (n.sat_load_l hi (Q := fun v => v = n.toNat / B ^ i % B) rfl) ?_
    rintro _ rfl
    rw [and_bmask (dig_lt _ _)]
    have hv' : (if neg = true then n.toNat / B ^ i % B else 0) < B := by
      split
      · exact dig_lt _ _
      · exact B_pos
    obtain ⟨c', w, ew, hc', hw, hweq⟩ := ct_add_l_l_c_spec hv' hv hc
    rw [ew, M.pure_bind]
    dsimp only
    refine Sat.bind (hL.sat_store_last (by omega) hw (by omega) (fun b' hb' => hb')) ?_
    intro u'' hu''
    refine Sat.pure ⟨q + B ^ i * w, ?_, ?_, hkn', hc', ?_⟩
    · have h2 : B ^ i * (w + 1) ≤ B ^ i * B := Nat.mul_le_mul_left _ hw
      rw [pow_succ]; linarith
    · dsimp only
      rw [← topv_mod r (by omega) hq hw]; exact hu''
    · dsimp only
      rw [mod_succ r.toNat, mod_succ n.toNat, pow_succ]
      zify at hweq
      push_cast at heq hweq hveq ⊢
      cases neg <;>
        simp only [if_true, if_false, Bool.false_eq_true] at heq hweq hveq ⊢
      · linear_combination heq - (B : ℤ) ^ i * hweq + (B : ℤ) ^ i * hveq
      · linear_combination heq - (B : ℤ) ^ i * hweq + (B : ℤ) ^ i * hveq
  · rintro ⟨u', kn, c⟩ ⟨q, hq, hL, hkn, hc, heq⟩
    dsimp only at hL hkn hc heq ⊢
    refine Sat.pure ⟨hL.len, ?_⟩
    have hdvd : ((256 ^ r.len : ℕ) : ℤ) ∣ (B : ℤ) ^ n.nlimbs := by
      rw [← hN, Buf.nlimbs_eq]; exact_mod_cast len_dvd_pow r.len
    obtain ⟨d, hd⟩ := hdvd
    rw [n.mod_high le_rfl, r.mod_high (by omega)] at heq
    refine eq_of_mod_cong (y := if neg then (n.toNat : ℤ) - r.toNat else r.toNat)
      (hL.final (by omega)) ?_ ?_ ?_
    · refine Int.modEq_iff_dvd.2 ?_
      cases neg <;> simp only [if_true, if_false, Bool.false_eq_true] at heq ⊢
      · exact ⟨d * (c + kn), by linear_combination - heq + (c + kn : ℤ) * hd⟩
      · exact ⟨d * (c + kn - 1), by linear_combination - heq + (c + kn - 1 : ℤ) * hd⟩
    · cases neg <;> simp only [if_true, if_false, Bool.false_eq_true]
      · rfl
      · rw [Nat.cast_sub hr]
    · cases neg <;> simp only [if_true, if_false, Bool.false_eq_true]
      · exact r.toNat_lt
      · exact hn rfl

/-- The error returned by `ct_inv_mod_odd_mp_mp_impl`. -/
def invOddErr (result : Buf φ) (op0 : Buf ψ) (n : Buf χ) (scratch0 scratch1 : Buf .ne) :
    Option GcdError :=
  if ¬ LenCompat n result.len then some .InsufficientResultSpace
  else if ¬ LenCompat op0 n.len ∨ ¬ LenCompat n op0.len then some .InconsistentOperandLengths
  else if scratch0.nlimbs < n.nlimbs ∨ scratch1.nlimbs < n.nlimbs then some .InsufficientScratchSpace
  else if n.toNat % 2 = 0 then some .InvalidModulus
  else if Nat.gcd op0.toNat n.toNat ≠ 1 then some .OperandsNotCoprime
  else none

theorem steps_le : STEPS_PER_BATCH + 2 ≤ W := by
  unfold STEPS_PER_BATCH
  have := one_lt_W
  omega

/-- The coefficients after batch `j`. -/
def CoefInv (n : Buf χ) (a lf lg : ℕ) (j : ℕ) (s : Buf φ × Buf ψ) : Prop :=
  s.1.len = lf ∧ s.2.len = lg ∧ s.1.toNat < n.toNat ∧ s.2.toNat < n.toNat ∧
    coefs n.toNat a n.nlimbs j = ((s.1.toNat : ℤ), (s.2.toNat : ℤ))

theorem coef_step {n : Buf χ} {a lf lg neg : ℕ} (hodd : n.toNat % 2 = 1)
    (hlf : ct_mp_nlimbs lf = n.nlimbs) (hlg : ct_mp_nlimbs lg = n.nlimbs)
    (hnf : n.toNat ≤ 256 ^ lf) (hng : n.toNat ≤ 256 ^ lg)
    (hneg : wmul (n.toNat % B) neg = lmax) :
    UpdSat n.toNat a (fun t neg' (s : Buf φ × Buf ψ) => t.apply_to_mod_odd_n neg' s.1 s.2 n neg)
      (CoefInv n a lf lg) := by
  rintro j m a' b c d δ F G δ' F' G' ⟨u_f, u_g⟩ - hrun hM ⟨h1, h2, h3, h4, h5⟩
  dsimp only at h1 h2 h3 h4 h5 ⊢
  refine (apply_to_mod_odd_n_sat hM steps_le (by rw [Buf.nlimbs_eq u_f, h1, hlf])
    (by rw [Buf.nlimbs_eq u_g, h2, hlg]) h3 h4 (by rw [h1]; exact hnf) (by rw [h2]; exact hng)
    hodd hneg).mono ?_
  rintro ⟨u_f', u_g'⟩ ⟨k1, k2, k3, k4, k5, k6⟩
  refine ⟨k1.trans h1, k2.trans h2, k3, k4, ?_⟩
  dsimp only at k5 k6 ⊢
  unfold coefs
  dsimp only
  rw [hrun, h5, k5, k6]

/-- When the debug assertion of `ct_inv_mod_odd_mp_mp_impl` holds. -/
def InvOddOk (result : Buf φ) (op0 : Buf ψ) (n : Buf χ) (scratch0 scratch1 : Buf .ne) : Prop :=
  invOddErr result op0 n scratch0 scratch1 = none →
    n.toNat = 1 ∨ invCoef n.toNat op0.toNat n.nlimbs ≠ 0

theorem ct_inv_mod_odd_mp_mp_impl_exact (result : Buf φ) (op0 : Buf ψ) (n : Buf χ)
    (scratch0 scratch1 : Buf .ne) :
    Exact (InvOddOk result op0 n scratch0 scratch1)
      (ct_inv_mod_odd_mp_mp_impl result op0 n scratch0 scratch1)
      (Outcome (invOddErr result op0 n scratch0 scratch1) (fun r =>
        r.1.len = result.len ∧ r.2.1.len = op0.len ∧ r.2.2.1.len = scratch0.len ∧
        r.2.2.2.len = scratch1.len ∧ r.1.toNat < n.toNat ∧ n.toNat % 2 = 1 ∧
        (invGcd n.toNat op0.toNat n.nlimbs).natAbs = 1 ∧ invCoef n.toNat op0.toNat n.nlimbs < n.toNat ∧
        (r.1.toNat : ℤ) = invValue n.toNat op0.toNat n.nlimbs)) := by
  unfold ct_inv_mod_odd_mp_mp_impl InvOddOk
  generalize herr : invOddErr result op0 n scratch0 scratch1 = err
  have sk : ∀ {α : Type} {m : M α} {P : α → Prop} {e : GcdError} {S : Prop}, some e = err → Sat m P →
      Exact (err = none → S) m P := fun he h =>
    h.exact.congr ⟨fun _ h' => (by rw [h'] at he; cases he), fun _ => trivial⟩
  unfold invOddErr at herr
  refine Sat.bindExact (len_is_compatible_with_sat n result.len) ?_
  intro c hc
  refine Exact.cond (fun h => ?_) fun h => ?_
  · rw [hc, decide_eq_false_iff_not] at h
    rw [if_pos h] at herr; exact sk herr (Sat.pure herr.symm)
  rw [hc, decide_eq_false_iff_not, not_not] at h
  rw [if_neg (not_not.2 h)] at herr
  refine Sat.bindExact (len_is_compatible_with_sat op0 n.len) ?_
  intro c0 hc0
  refine Sat.bindExact (len_is_compatible_with_sat n op0.len) ?_
  intro c1 hc1
  refine Exact.cond (fun h' => ?_) fun h' => ?_
  · rw [hc0, hc1, decide_eq_false_iff_not, decide_eq_false_iff_not] at h'
    rw [if_pos h'] at herr; exact sk herr (Sat.pure herr.symm)
  rw [hc0, hc1, decide_eq_false_iff_not, decide_eq_false_iff_not] at h'
  rw [if_neg h'] at herr
  push Not at h'
  obtain ⟨hC0, hC1⟩ := h'
  dsimp only
  rw [← Buf.nlimbs_eq]
  refine Exact.cond (fun hs => ?_) fun hs0 => ?_
  · rw [if_pos (Or.inl hs)] at herr; exact sk herr (Sat.pure herr.symm)
  refine Exact.cond (fun hs => ?_) fun hs1 => ?_
  · rw [if_pos (Or.inr hs)] at herr; exact sk herr (Sat.pure herr.symm)
  rw [if_neg (not_or.2 ⟨hs0, hs1⟩)] at herr
  refine Sat.bindExact (ct_montgomery_neg_n0_inv_mod_l_mp_sat n) ?_
  have hev : n.len = 0 → n.toNat % 2 = 0 := fun h0 => by
    have := n.toNat_lt
    rw [h0, pow_zero] at this
    have : n.toNat = 0 := by omega
    rw [this]
  rintro (e | neg) hneg
  · have h2 : n.toNat % 2 = 0 := by
      by_contra h2
      have h3 : ¬ (n.len = 0 ∨ n.toNat % 2 = 0) := fun h => h2 (h.elim hev id)
      unfold Outcome at hneg
      rw [if_neg h3] at hneg
      cases hneg
    rw [if_pos h2] at herr
    exact sk herr (Sat.pure herr.symm)
  obtain ⟨hodd, hnegB, hneg⟩ := hneg
  have hodd : n.toNat % 2 = 1 := by
    by_contra h2
    rw [if_pos (Or.inr (by omega))] at hodd
    cases hodd
  rw [if_neg (by omega)] at herr
  dsimp only
  have hn0 : 0 < n.toNat := by omega
  have hN0 : 0 < n.nlimbs := by
    by_contra h0
    have := n.toNat_lt_B
    rw [show n.nlimbs = 0 by omega, pow_zero] at this
    omega
  have hNn : n.nlimbs = ct_mp_nlimbs n.len := Buf.nlimbs_eq n
  have hLB := LB_pos
  have hs0l : scratch0.len = scratch0.nlimbs * LB := scratch0.aligned rfl
  have hs1l : scratch1.len = scratch1.nlimbs * LB := scratch1.aligned rfl
  have hnl : n.len ≤ n.nlimbs * LB := by rw [hNn]; exact le_nlimbs_mul n.len
  have hlen0 : n.len ≤ scratch0.len := by
    rw [hs0l]; exact hnl.trans (Nat.mul_le_mul_right _ (by omega))
  have hlen1 : n.len ≤ scratch1.len := by
    rw [hs1l]; exact hnl.trans (Nat.mul_le_mul_right _ (by omega))
  have hnlt := n.toNat_lt
  -- f
  refine Sat.bindExact (scratch0.copy_from_sat n (lt_of_lt_of_le hnlt
    (Nat.pow_le_pow_right (by norm_num) hlen0))) ?_
  rintro fw ⟨hfwl, hfwv⟩
  refine Sat.bindExact (fw.sat_shrink_to (m := n.len) (by rw [hfwv]; exact hnlt)) ?_
  rintro ⟨f, frest⟩ ⟨hfl, hfv, -, hfsum, hfn⟩
  dsimp only at hfl hfv hfsum hfn ⊢
  rw [hfwl, min_eq_left hlen0] at hfl hfn
  rw [hfwl] at hfsum
  rw [hfwv] at hfv
  rw [← hNn] at hfn
  -- ext_u1
  refine Sat.bindExact (P := fun b : Buf .ne => b.len = scratch1.len ∧ b.toNat < 256 ^ n.len)
    (scratch1.sat_clear_bytes_above n.len fun b' h1 h2 => ⟨h1, by
      rw [h2]; exact Nat.mod_lt _ (by positivity)⟩) ?_
  rintro uw ⟨huwl, huwv⟩
  refine Sat.bindExact (uw.sat_shrink_to (m := n.len) huwv) ?_
  rintro ⟨u1, u1rest⟩ ⟨hu1l, -, -, hu1sum, hu1n⟩
  dsimp only at hu1l hu1sum hu1n ⊢
  rw [huwl, min_eq_left hlen1] at hu1l hu1n
  rw [huwl] at hu1sum
  rw [← hNn] at hu1n
  -- result
  refine Sat.bindExact (P := fun r : Buf φ => r.len = result.len ∧ r.toNat = 0)
    (result.sat_clear_bytes_above 0 fun b' h1 h2 => ⟨h1, by rw [h2]; simp [Nat.mod_one]⟩) ?_
  rintro rw' ⟨hrwl, hrwv⟩
  refine Sat.bindExact (rw'.sat_shrink_to (m := n.len) (by rw [hrwv]; positivity)) ?_
  rintro ⟨r, rrest⟩ ⟨hrl, hrv, hrrest, hrsum, hrn⟩
  dsimp only at hrl hrv hrrest hrsum hrn ⊢
  rw [hrwl] at hrl hrsum hrn
  rw [hrwv] at hrv
  rw [h.nlimbs_min] at hrn
  have hnr : n.toNat < 256 ^ r.len := by
    have hge : min n.len result.len ≤ r.len := by
      rw [hrl]
      cases φ
      · exact le_rfl
      · exact le_rfl
      · exact le_nlimbs_mul _
    refine lt_of_lt_of_le ?_ (Nat.pow_le_pow_right (by norm_num) hge)
    rcases Nat.le_total n.len result.len with h8 | h8
    · rw [min_eq_left h8]; exact n.toNat_lt
    · rw [min_eq_right h8]; exact h.lt
  -- ext_u1 := 1
  refine Sat.bindExact (ct_is_one_mp_sat n) ?_
  rintro _ rfl
  refine Sat.bindExact (P := fun b : Buf .ne => b.len = u1.len ∧ b.toNat = 0)
    (u1.sat_clear_bytes_above 0 fun b' h1 h2 => ⟨h1, by rw [h2]; simp [Nat.mod_one]⟩) ?_
  rintro u1z ⟨hu1zl, hu1zv⟩
  have hu1len : u1.len = n.nlimbs * LB := by rw [u1.aligned rfl, hu1n]
  have hflen : f.len = n.nlimbs * LB := by rw [f.aligned rfl, hfn]
  rw [LimbChoice.unwrap_ofBool]
  have hx1 : (1 ^^^ if decide (n.toNat = 1) = true then 1 else 0) = if n.toNat = 1 then 0 else 1 := by
    by_cases h1 : n.toNat = 1 <;> simp [h1]
  rw [hx1]
  refine Sat.bindExact (P := fun b : Buf .ne => b.len = u1.len ∧
    b.toNat = if n.toNat = 1 then 0 else 1) (u1z.sat_store_l_full ?_ ?_ ?_) ?_
  · rw [hu1zl, hu1len]
    have := Nat.mul_le_mul_right LB (show 1 ≤ n.nlimbs from hN0)
    omega
  · have := one_lt_B; split <;> omega
  · intro b' h1 h2
    refine ⟨h1.trans hu1zl, ?_⟩
    rw [h2, hu1zv]; simp [upd]
  rintro u ⟨hul, huv⟩
  -- the division steps
  have hnu : n.toNat < 256 ^ u.len := by
    rw [hul, hu1len]
    exact lt_of_lt_of_le hnlt (Nat.pow_le_pow_right (by norm_num) hnl)
  have hNop : op0.nlimbs = n.nlimbs := by
    have h1 := hC0.nlimbs
    have h2 := hC1.nlimbs
    rw [← Buf.nlimbs_eq] at h1 h2
    omega
  have hopl : op0.len ≤ n.nlimbs * LB := by
    rw [← hNop, Buf.nlimbs_eq]; exact le_nlimbs_mul op0.len
  refine Sat.bindExact (ct_gcd_ext_odd_mp_mp_run (P := CoefInv n op0.toNat r.len u.len)
    (upd := fun t neg' s => t.apply_to_mod_odd_n neg' s.1 s.2 n neg)
    (by
      rw [hfv]
      exact coef_step hodd (by rw [← hrn, Buf.nlimbs_eq]) (by
        rw [← hu1n, Buf.nlimbs_eq, hul]) hnr.le hnu.le hneg)
    (by rw [hfn, hNop]) (by rw [hfv]; exact hodd) ?_) ?_
  · refine ⟨rfl, rfl, ?_, ?_, ?_⟩
    · dsimp only; rw [hrv]; exact hn0
    · dsimp only; rw [huv]; split <;> omega
    · dsimp only; rw [hrv, huv]
      unfold coefs
      by_cases h1 : n.toNat = 1 <;> simp [h1]
  rintro ⟨f2, op2, gneg, r2, u2⟩ ⟨hf2l, hop2l, -, δ, F, hrun, hFabs, hf2v, hgneg, hr2l, hu2l, hr2n, -, hcoef⟩
  dsimp only at hf2l hop2l hrun hFabs hf2v hgneg hr2l hu2l hr2n hcoef ⊢
  rw [hflen, max_eq_left hopl] at hrun hcoef
  rw [hfv] at hrun
  have hGcd : invGcd n.toNat op0.toNat n.nlimbs = F := by unfold invGcd; rw [hrun]
  have hCoef : invCoef n.toNat op0.toNat n.nlimbs = r2.toNat := by unfold invCoef; rw [hcoef]
  rw [hgneg, select_bmask, LimbChoice.select_ofBool one_lt_B lmax_lt]
  have hf2N : f2.nlimbs = n.nlimbs := (Buf.nlimbs_congr hf2l).trans hfn
  rw [hfv] at hFabs
  have hgpos : 0 < Nat.gcd n.toNat op0.toNat := Nat.gcd_pos_of_pos_left _ hn0
  have hglt : Nat.gcd n.toNat op0.toNat < B ^ n.nlimbs :=
    lt_of_le_of_lt (Nat.gcd_le_left _ hn0) n.toNat_lt_B
  have hpow : (256 : ℤ) ^ f.len = (B : ℤ) ^ n.nlimbs := by
    rw [hflen]; exact_mod_cast pow_256 n.nlimbs
  rw [hpow] at hf2v
  have hunit := unit_iff hFabs hgpos hglt hf2v
  refine Sat.bindExact (inv_check_sat hf2N hN0 (decide (F < 0))) ?_
  rintro (e | s) hchk
  · obtain ⟨rfl, hne⟩ := hchk
    rw [if_pos (by rw [Nat.gcd_comm]; exact fun h1 => hne (hunit.2 h1))] at herr
    exact sk herr (Sat.pure herr.symm)
  have hg1 : Nat.gcd n.toNat op0.toNat = 1 := hunit.1 hchk
  rw [if_neg (by rw [Nat.gcd_comm, hg1]; simp)] at herr
  rw [hg1] at hFabs
  refine (Exact.assertM (c := r2.toNat = 0 → n.toNat = 1) (S' := True) ?_ fun hz => ?_).congr
    ⟨fun h1 _ => ?_, fun h1 => ⟨fun h0 => ?_, trivial⟩⟩
  · refine Sat.bind (ct_is_zero_mp_sat r2) ?_
    rintro _ rfl
    refine Sat.pure ?_
    rw [LimbChoice.unwrap_ofBool]
    by_cases h0 : r2.toNat = 0 <;> by_cases h1 : n.toNat = 1 <;> simp [h0, h1]
  rotate_left
  · rw [hCoef]
    by_cases h0 : r2.toNat = 0
    · exact Or.inl (h1.1 h0)
    · exact Or.inr (by exact_mod_cast h0)
  · rcases h1 herr.symm with h2 | h2
    · exact h2
    · rw [hCoef] at h2; exact absurd (by exact_mod_cast h0) h2
  refine Sat.exact ?_
  obtain ⟨neg2, hneg2⟩ : ∃ x, x = (decide (F < 0) && !decide (n.toNat = 1)) := ⟨_, rfl⟩
  have e1 : (LimbChoice.ofBool (decide (n.toNat = 1))).select (bmask (decide (F < 0))) 0 = bmask neg2 := by
    rw [LimbChoice.select_ofBool (bmask_lt _) B_pos, hneg2]
    by_cases h1 : n.toNat = 1 <;> simp [h1, bmask]
  have e2 : ((LimbChoice.ofBool (decide (F < 0))).and
      (LimbChoice.ofBool (decide (n.toNat = 1))).not).select 0 1 = if neg2 then 1 else 0 := by
    rw [LimbChoice.not_ofBool, LimbChoice.and_ofBool, LimbChoice.select_ofBool B_pos one_lt_B, hneg2]
  rw [e1, e2]
  have hr2N : r2.nlimbs = n.nlimbs := (Buf.nlimbs_congr hr2l).trans hrn
  refine Sat.bind (inv_negate_sat neg2 hr2N hr2n.le (fun _ => by rw [hr2l]; omega)) ?_
  rintro r3 ⟨hr3l, hr3v⟩
  have hr4 : (Buf.join rrest r3).toNat = if neg2 = true then n.toNat - r2.toNat else r2.toNat := by
    rw [Buf.toNat_join, hrrest, Nat.mul_zero, Nat.add_zero, hr3v]
  refine Sat.pure ⟨herr.symm, ?_, hop2l, ?_, ?_, ?_, hodd, by rw [hGcd]; exact hFabs,
    by rw [hCoef]; exact_mod_cast hr2n, ?_⟩
  · dsimp only; rw [Buf.len_join, hr3l, hr2l]; exact hrsum
  · dsimp only; rw [Buf.len_join, hf2l]; exact hfsum
  · dsimp only; rw [Buf.len_join, hu2l, hul]; exact hu1sum
  · dsimp only
    rw [hr4]
    split
    · next h1 =>
      have : r2.toNat ≠ 0 := fun h0 => by
        rw [hneg2, hz h0] at h1
        simp at h1
      omega
    · exact hr2n
  · dsimp only
    rw [hr4]
    unfold invValue
    rw [hGcd, hCoef]
    by_cases h1 : F < 0 ∧ n.toNat ≠ 1
    · rw [if_pos (show neg2 = true by rw [hneg2]; simp [h1]),
        if_pos ⟨h1.1, by exact_mod_cast h1.2⟩, Nat.cast_sub hr2n.le]
    · rw [if_neg (show ¬ neg2 = true by rw [hneg2]; simpa using h1),
        if_neg (fun h2 => h1 ⟨h2.1, by exact_mod_cast h2.2⟩)]

/-- When all of the coefficients fit, if there is nothing wrong with the arguments. -/
def InvOddFits (result : Buf φ) (op0 : Buf ψ) (n : Buf χ) (scratch0 scratch1 : Buf .ne) : Prop :=
  invOddErr result op0 n scratch0 scratch1 = none → FitsRun n.toNat op0.toNat n.nlimbs

theorem InvOddFits.of_le {result : Buf φ} {op0 : Buf ψ} {n : Buf χ} {scratch0 scratch1 : Buf .ne}
    (H : invOddErr result op0 n scratch0 scratch1 = none → n.toNat ≤ B ^ (n.nlimbs - 1)) :
    InvOddFits result op0 n scratch0 scratch1 := by
  intro h
  have hodd : n.toNat % 2 = 1 := by
    by_contra h2
    unfold invOddErr at h
    rw [if_pos (show n.toNat % 2 = 0 by omega)] at h
    split_ifs at h
  refine fitsRun_of_le hodd ?_ (H h) _
  by_contra h0
  have := n.toNat_lt_B
  rw [show n.nlimbs = 0 by omega, pow_zero] at this
  omega

theorem ct_inv_mod_odd_mp_mp_impl_run (result : Buf φ) (op0 : Buf ψ) (n : Buf χ)
    (scratch0 scratch1 : Buf .ne) (H : InvOddFits result op0 n scratch0 scratch1) :
    Sat (ct_inv_mod_odd_mp_mp_impl result op0 n scratch0 scratch1)
      (Outcome (invOddErr result op0 n scratch0 scratch1) (fun r =>
        r.1.len = result.len ∧ r.2.1.len = op0.len ∧ r.2.2.1.len = scratch0.len ∧
        r.2.2.2.len = scratch1.len ∧ r.1.toNat < n.toNat ∧
        op0.toNat * r.1.toNat % n.toNat = 1 % n.toNat)) := by
  have hex := ct_inv_mod_odd_mp_mp_impl_exact result op0 n scratch0 scratch1
  by_cases hS : InvOddOk result op0 n scratch0 scratch1
  · refine (hex.sat hS).mono ?_
    rintro (e | r) h
    · exact h
    obtain ⟨h0, h1, h2, h3, h4, h5, hodd, hg, hlt, h6⟩ := h
    refine ⟨h0, h1, h2, h3, h4, h5, ?_⟩
    refine (Int.natCast_modEq_iff).1 ?_
    push_cast
    rw [h6]
    exact invValue_modEq hodd (H h0) hg
  · exfalso
    apply hS
    intro h0
    have hodd : n.toNat % 2 = 1 := by
      by_contra h2
      unfold invOddErr at h0
      rw [if_pos (show n.toNat % 2 = 0 by omega)] at h0
      split_ifs at h0
    have hco : Nat.gcd op0.toNat n.toNat = 1 := by
      by_contra h2
      unfold invOddErr at h0
      rw [if_pos (show Nat.gcd op0.toNat n.toNat ≠ 1 from h2)] at h0
      split_ifs at h0
    by_cases h1 : n.toNat = 1
    · exact Or.inl h1
    · refine Or.inr (invCoef_ne hodd h1 (H h0) ?_)
      rw [invGcd_natAbs hodd n.toNat_lt_B, Nat.gcd_comm, hco]
      have hC : ct_mp_nlimbs op0.len = ct_mp_nlimbs n.len := by
        unfold invOddErr at h0
        split_ifs at h0 with e1 e2
        push Not at e2
        have h2 := e2.1.nlimbs
        have h3 := e2.2.nlimbs
        rw [Buf.nlimbs_eq] at h2 h3
        exact le_antisymm h2 h3
      rw [Buf.nlimbs_eq, ← hC, ← Buf.nlimbs_eq]
      exact op0.toNat_lt_B

theorem ct_inv_mod_odd_mp_mp_impl_sat (result : Buf φ) (op0 : Buf ψ) (n : Buf χ)
    (scratch0 scratch1 : Buf .ne)
    (H : invOddErr result op0 n scratch0 scratch1 = none → n.toNat ≤ B ^ (n.nlimbs - 1)) :
    Sat (ct_inv_mod_odd_mp_mp_impl result op0 n scratch0 scratch1)
      (Outcome (invOddErr result op0 n scratch0 scratch1) (fun r =>
        r.1.len = result.len ∧ r.2.1.len = op0.len ∧ r.2.2.1.len = scratch0.len ∧
        r.2.2.2.len = scratch1.len ∧ r.1.toNat < n.toNat ∧
        op0.toNat * r.1.toNat % n.toNat = 1 % n.toNat)) :=
  ct_inv_mod_odd_mp_mp_impl_run result op0 n scratch0 scratch1 (.of_le H)

/-- The error returned by `ct_inv_mod_odd_mp_mp`: there is no inverse modulo one. -/
def invOddErr' (result : Buf φ) (op0 : Buf ψ) (n : Buf χ) (scratch0 scratch1 : Buf .ne) :
    Option GcdError :=
  (invOddErr result op0 n scratch0 scratch1).or
    (if n.toNat = 1 then some .OperandsNotCoprime else none)

theorem ct_inv_mod_odd_mp_mp_exact (result : Buf φ) (op0 : Buf ψ) (n : Buf χ)
    (scratch0 scratch1 : Buf .ne) :
    Exact (InvOddOk result op0 n scratch0 scratch1)
      (ct_inv_mod_odd_mp_mp result op0 n scratch0 scratch1)
      (Outcome (invOddErr' result op0 n scratch0 scratch1) (fun r =>
        r.1.len = result.len ∧ r.2.1.len = op0.len ∧ r.2.2.1.len = scratch0.len ∧
        r.2.2.2.len = scratch1.len ∧ 0 < r.1.toNat ∧ r.1.toNat < n.toNat ∧
        (r.1.toNat : ℤ) = invValue n.toNat op0.toNat n.nlimbs)) := by
  unfold ct_inv_mod_odd_mp_mp invOddErr'
  refine ((ct_inv_mod_odd_mp_mp_impl_exact result op0 n scratch0 scratch1).bind (S' := True) ?_).congr
    ⟨fun h => h.1, fun h => ⟨h, trivial⟩⟩
  rintro (e | ⟨r, op, s0, s1⟩) hS h
  · refine Sat.exact (Sat.pure ?_)
    unfold Outcome at h ⊢
    dsimp only at h ⊢
    rw [h]; rfl
  refine Sat.exact ?_
  obtain ⟨herr, h1, h2, h3, h4, h5, hodd, hg, hlt, h6⟩ := h
  dsimp only at h1 h2 h3 h4 h5 h6 ⊢
  rw [herr, Option.none_or]
  refine Sat.bind (ct_is_zero_mp_sat r) ?_
  rintro _ rfl
  rw [LimbChoice.unwrap_ofBool]
  by_cases hn : n.toNat = 1
  · have hr : r.toNat = 0 := by omega
    refine Sat.cond (fun h => Sat.pure ?_) fun h => ?_
    · rw [if_pos hn]; rfl
    · simp [hr] at h
  · have hr : r.toNat ≠ 0 := by
      intro h0
      have hc := (hS herr).resolve_left hn
      rw [h0] at h6
      unfold invValue at h6
      by_cases hF : invGcd n.toNat op0.toNat n.nlimbs < 0 ∧ (n.toNat : ℤ) ≠ 1
      · rw [if_pos hF] at h6; push_cast at h6; omega
      · rw [if_neg hF] at h6
        exact hc (by exact_mod_cast h6.symm)
    refine Sat.cond (fun h => ?_) fun h => Sat.pure ?_
    · simp [hr] at h
    · exact ⟨by rw [if_neg hn], h1, h2, h3, h4, Nat.pos_of_ne_zero hr, h5, h6⟩

theorem ct_inv_mod_odd_mp_mp_run (result : Buf φ) (op0 : Buf ψ) (n : Buf χ)
    (scratch0 scratch1 : Buf .ne) (H : InvOddFits result op0 n scratch0 scratch1) :
    Sat (ct_inv_mod_odd_mp_mp result op0 n scratch0 scratch1)
      (Outcome (invOddErr' result op0 n scratch0 scratch1) (fun r =>
        r.1.len = result.len ∧ r.2.1.len = op0.len ∧ r.2.2.1.len = scratch0.len ∧
        r.2.2.2.len = scratch1.len ∧ r.1.toNat < n.toNat ∧
        op0.toNat * r.1.toNat % n.toNat = 1)) := by
  unfold ct_inv_mod_odd_mp_mp invOddErr'
  refine Sat.bind (ct_inv_mod_odd_mp_mp_impl_run result op0 n scratch0 scratch1 H) ?_
  rintro (e | ⟨r, op, s0, s1⟩) h
  · refine Sat.pure ?_
    unfold Outcome at h ⊢
    dsimp only at h ⊢
    rw [h]; rfl
  obtain ⟨herr, h1, h2, h3, h4, h5, h6⟩ := h
  dsimp only at h1 h2 h3 h4 h5 h6 ⊢
  rw [herr, Option.none_or]
  refine Sat.bind (ct_is_zero_mp_sat r) ?_
  rintro _ rfl
  rw [LimbChoice.unwrap_ofBool]
  by_cases hn : n.toNat = 1
  · have hr : r.toNat = 0 := by omega
    refine Sat.cond (fun h => Sat.pure ?_) fun h => ?_
    · rw [if_pos hn]; rfl
    · simp [hr] at h
  · have hr : r.toNat ≠ 0 := by
      intro h0
      rw [h0, Nat.mul_zero, Nat.zero_mod] at h6
      have : 1 % n.toNat = 1 := Nat.mod_eq_of_lt (by omega)
      omega
    refine Sat.cond (fun h => ?_) fun h => Sat.pure ?_
    · simp [hr] at h
    · refine ⟨by rw [if_neg hn], h1, h2, h3, h4, h5, ?_⟩
      rw [h6]; exact Nat.mod_eq_of_lt (by omega)

theorem ct_inv_mod_odd_mp_mp_sat (result : Buf φ) (op0 : Buf ψ) (n : Buf χ)
    (scratch0 scratch1 : Buf .ne)
    (H : invOddErr result op0 n scratch0 scratch1 = none → n.toNat ≤ B ^ (n.nlimbs - 1)) :
    Sat (ct_inv_mod_odd_mp_mp result op0 n scratch0 scratch1)
      (Outcome (invOddErr' result op0 n scratch0 scratch1) (fun r =>
        r.1.len = result.len ∧ r.2.1.len = op0.len ∧ r.2.2.1.len = scratch0.len ∧
        r.2.2.2.len = scratch1.len ∧ r.1.toNat < n.toNat ∧
        op0.toNat * r.1.toNat % n.toNat = 1)) :=
  ct_inv_mod_odd_mp_mp_run result op0 n scratch0 scratch1 (.of_le H)

end Cmpa
