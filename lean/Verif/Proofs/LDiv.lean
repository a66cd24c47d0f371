import Verif.Proofs.LimbBits

namespace Cmpa
variable [LimbCfg]
set_option linter.unusedSectionVars false

/-! ### The reciprocal -/

theorem shl_one_or {x b : ℕ} (hb : b ≤ 1) : shl x 1 ||| b = (2 * x + b) % B := by
  have hB := B_half
  have h0 : 0 < 2 ^ (W - 1) := Nat.two_pow_pos _
  have e1 : shl x 1 = (x % 2 ^ (W - 1)) * 2 ^ 1 := by
    rw [shl_eq, hB, mul_comm 2 (2 ^ (W - 1)), pow_one, Nat.mul_mod_mul_right]
  have hm := Nat.mod_lt x h0
  have ed := Nat.div_add_mod x (2 ^ (W - 1))
  rw [e1, or_eq_add_of_lt (by omega)]
  generalize x / 2 ^ (W - 1) = xh at *
  generalize x % 2 ^ (W - 1) = xl at *
  have : 2 * x + b = B * xh + (xl * 2 ^ 1 + b) := by
    rw [hB, ← ed]; ring
  rw [this, Nat.mul_add_mod, Nat.mod_eq_of_lt (by omega)]

/-- Invariant of the shift-subtract loop of `ct_compute_m`. -/
def ComputeMInv (D L k : ℕ) (s : CtComputeM) : Prop :=
  ∃ (b : Bool) (Q : ℕ), s.r_msb = LimbChoice.ofBool b ∧ s.r_h < B ∧ s.r_l < B ∧
    b.toNat * B + s.r_h < 2 * D ∧ s.q = Q % B ∧
    ((B - 1) * B + L) * 2 ^ k = (2 * Q * D + (b.toNat * B + s.r_h)) * B + s.r_l

theorem ct_compute_m_step_inv {D L k : ℕ} {s : CtComputeM} (hD : D < B)
    (h : ComputeMInv D L k s) : ComputeMInv D L (k + 1) (ct_compute_m_step D s) := by
  obtain ⟨b, Q, hb, hh, hl, hT, hq, he⟩ := h
  have hB := B_half
  -- the quotient bit
  let c : Bool := b || decide (D ≤ s.r_h)
  have hsel0 : b.toNat * B + s.r_h < 2 * D := hT
  have hsel : wsub s.r_h ((LimbChoice.ofBool c).select 0 D) + c.toNat * D
      = b.toNat * B + s.r_h ∧ wsub s.r_h ((LimbChoice.ofBool c).select 0 D) < D := by
    rw [LimbChoice.select_ofBool B_pos hD]
    clear he hb
    cases b
    · simp only [Bool.toNat_false, zero_mul, zero_add] at hT
      by_cases hc : D ≤ s.r_h
      · simp only [c, hc, wsub_eq hh hD, Bool.false_or, decide_true, if_true, Bool.toNat_true,
          Bool.toNat_false]
        omega
      · simp only [c, hc, wsub_eq hh B_pos, Bool.false_or, decide_false, Bool.false_eq_true,
          if_false, Bool.toNat_false, Nat.zero_le, if_true]
        omega
    · simp only [Bool.toNat_true, one_mul] at hT
      simp only [c, Bool.true_or, if_true, Bool.toNat_true]
      rw [wsub_eq hh hD, if_neg (by omega)]
      omega
  unfold ct_compute_m_step
  rw [hb, ct_geq_l_l_eq hh hD, LimbChoice.or_ofBool]
  dsimp only
  show ComputeMInv D L (k + 1)
    { r_msb := LimbChoice.new (shr (wsub s.r_h ((LimbChoice.ofBool c).select 0 D)) (W - 1)),
      r_h := shl (wsub s.r_h ((LimbChoice.ofBool c).select 0 D)) 1 ||| shr s.r_l (W - 1),
      r_l := shl s.r_l 1,
      q := shl s.q 1 ||| (LimbChoice.ofBool c).unwrap }
  generalize wsub s.r_h ((LimbChoice.ofBool c).select 0 D) = t at *
  obtain ⟨h1, h2⟩ := hsel
  have htB : t < B := by omega
  have hcu : (LimbChoice.ofBool c).unwrap = c.toNat := by cases c <;> simp
  have hc1 : c.toNat ≤ 1 := by cases c <;> simp
  rw [shr_top htB, shr_top hl, LimbChoice.new_ite, hcu, shl_one_or hc1]
  have hmsb : (if 2 ^ (W - 1) ≤ s.r_l then 1 else 0) ≤ 1 := by split <;> omega
  rw [shl_one_or hmsb]
  refine ⟨decide (2 ^ (W - 1) ≤ t), 2 * Q + c.toNat, rfl, Nat.mod_lt _ B_pos, shl_lt, ?_, ?_, ?_⟩
  · dsimp only
    have : (2 * t + (if 2 ^ (W - 1) ≤ s.r_l then 1 else 0)) % B +
        (decide (2 ^ (W - 1) ≤ t)).toNat * B = 2 * t + (if 2 ^ (W - 1) ≤ s.r_l then 1 else 0) := by
      by_cases ht : 2 ^ (W - 1) ≤ t
      · simp only [ht, decide_true, Bool.toNat_true, one_mul]
        rw [Nat.mod_eq_sub_mod (by omega), Nat.mod_eq_of_lt (by split <;> omega)]; omega
      · simp only [ht, decide_false, Bool.toNat_false, zero_mul, add_zero]
        exact Nat.mod_eq_of_lt (by split <;> omega)
    have ht2 : 2 * t + 1 < 2 * D := by omega
    rw [add_comm, this]; omega
  · dsimp only; rw [hq, Nat.add_mod, Nat.mul_mod, Nat.mod_mod, ← Nat.mul_mod, ← Nat.add_mod]
  · dsimp only
    have h3 : (decide (2 ^ (W - 1) ≤ t)).toNat * B +
        (2 * t + (if 2 ^ (W - 1) ≤ s.r_l then 1 else 0)) % B
         = 2 * t + (if 2 ^ (W - 1) ≤ s.r_l then 1 else 0) := by
      by_cases ht : 2 ^ (W - 1) ≤ t
      · simp only [ht, decide_true, Bool.toNat_true, one_mul]
        rw [Nat.mod_eq_sub_mod (by omega), Nat.mod_eq_of_lt (by split <;> omega)]; omega
      · simp only [ht, decide_false, Bool.toNat_false, zero_mul, zero_add]
        exact Nat.mod_eq_of_lt (by split <;> omega)
    have h4 : (if 2 ^ (W - 1) ≤ s.r_l then 1 else 0) * B + shl s.r_l 1 = 2 * s.r_l := by
      rw [shl_eq]
      split
      · rw [Nat.mod_eq_sub_mod (by omega), Nat.mod_eq_of_lt (by omega)]; omega
      · rw [Nat.mod_eq_of_lt (by omega)]; omega
    rw [h3, pow_succ, ← mul_assoc, he, ← h1]
    generalize (if 2 ^ (W - 1) ≤ s.r_l then 1 else 0) = e at *
    linear_combination -h4

theorem div_reciprocal_eq {v l : ℕ} (hl : l ≤ W) (hv0 : 0 < v) :
    (B * B - 2 ^ (W - l)) / (v * 2 ^ (W - l)) = (B * 2 ^ l - 1) / v := by
  have hp : 0 < 2 ^ (W - l) := Nat.two_pow_pos _
  have : B * B - 2 ^ (W - l) = (B * 2 ^ l - 1) * 2 ^ (W - l) := by
    rw [Nat.sub_mul, one_mul, mul_assoc, ← pow_add]
    congr 2
    rw [B_eq_two_pow]; congr 1; omega
  rw [this, Nat.mul_div_mul_right _ _ hp]

/-- `ct_compute_m` is the reciprocal `floor((2^(W+l) - 1) / v) - 2^W`. -/
theorem ct_compute_m_spec {v l : ℕ} (hl0 : 0 < l) (hl : l ≤ W) (hv : v < 2 ^ l)
    (hv' : 2 ^ (l - 1) ≤ v) :
    ∃ m, ct_compute_m v l = pure m ∧ m < B ∧ m + B = (B * 2 ^ l - 1) / v := by
  unfold ct_compute_m
  rw [M.assert_eq (by omega), M.pure_bind]
  refine ⟨_, rfl, ?_⟩
  have hp : 0 < 2 ^ (W - l) := Nat.two_pow_pos _
  have hBl : B = 2 ^ l * 2 ^ (W - l) := by rw [← pow_add, B_eq_two_pow]; congr 1; omega
  have hBh : 2 ^ (W - 1) = 2 ^ (l - 1) * 2 ^ (W - l) := by
    rw [← pow_add]; congr 1; omega
  have hv0 : 0 < v := lt_of_lt_of_le (Nat.two_pow_pos _) hv'
  have hDeq : shl v (W - l) = v * 2 ^ (W - l) := by
    rw [shl_eq, Nat.mod_eq_of_lt]; rw [hBl]; exact Nat.mul_lt_mul_of_pos_right hv hp
  have hDle : v * 2 ^ (W - l) + 2 ^ (W - l) ≤ B := by
    rw [hBl, ← Nat.succ_mul]; exact Nat.mul_le_mul_right _ hv
  have hDge : 2 ^ (W - 1) ≤ v * 2 ^ (W - l) := by
    rw [hBh]; exact Nat.mul_le_mul_right _ hv'
  have hB := B_half
  have hB1 := one_lt_B
  rw [hDeq]
  have hmask : bnot (ct_lsb_mask_l (W - l)) = B - 2 ^ (W - l) := by
    rw [ct_lsb_mask_l_eq (by omega)]; unfold bnot; omega
  rw [hmask, LimbChoice.new_zero]
  have hrec := div_reciprocal_eq hl hv0
  set D := v * 2 ^ (W - l) with hD
  have hinv : ∀ k, ComputeMInv D (B - 2 ^ (W - l)) k
      ((ct_compute_m_step D)^[k] ⟨LimbChoice.ofBool false, lmax, B - 2 ^ (W - l), 0⟩) := by
    intro k
    induction k with
    | zero =>
      refine ⟨false, 0, rfl, lmax_lt, ?_, ?_, ?_, ?_⟩
      · dsimp; omega
      · have : lmax = B - 1 := rfl
        simp [this]; omega
      · rfl
      · have : lmax = B - 1 := rfl
        simp [this]
    | succ k ih =>
      rw [Function.iterate_succ_apply']
      exact ct_compute_m_step_inv (by omega) ih
  obtain ⟨b, Q, -, hh, hl', hT, hq, he⟩ := hinv (W + 1)
  generalize (ct_compute_m_step D)^[W + 1]
    ⟨LimbChoice.ofBool false, lmax, B - 2 ^ (W - l), 0⟩ = s at *
  -- conclude
  have hN : (B - 1) * B + (B - 2 ^ (W - l)) = B * B - 2 ^ (W - l) := by
    have : (B - 1) * B + B = B * B := by
      rw [Nat.sub_mul, one_mul, Nat.sub_add_cancel]; exact Nat.le_mul_of_pos_left _ B_pos
    omega
  have hpow : 2 ^ (W + 1) = 2 * B := by rw [pow_succ, ← B_eq_two_pow]; ring
  rw [hN, hpow] at he
  generalize hT' : b.toNat * B + s.r_h = T at *
  have hr0 : s.r_l = 0 := by
    have h1 : s.r_l % B = 0 := by
      have : ((2 * Q * D + T) * B + s.r_l) % B = 0 := by
        rw [← he, ← mul_assoc]; simp
      rw [mul_comm, Nat.mul_add_mod] at this; exact this
    rwa [Nat.mod_eq_of_lt hl'] at h1
  rw [hr0, add_zero, ← mul_assoc] at he
  have he2 : (B * B - 2 ^ (W - l)) * 2 = 2 * Q * D + T := Nat.eq_of_mul_eq_mul_right B_pos he
  have hQ : (B * B - 2 ^ (W - l)) / D = Q := by
    apply Nat.div_eq_of_lt_le
    · have : 2 * Q * D = 2 * (Q * D) := by ring
      omega
    · have : 2 * Q * D = 2 * (Q * D) := by ring
      have : (Q + 1) * D = Q * D + D := by ring
      omega
  have hQ1 : B ≤ Q := by
    rw [← hQ, Nat.le_div_iff_mul_le (by omega)]
    have : B * (D + 2 ^ (W - l)) ≤ B * B := Nat.mul_le_mul_left _ hDle
    rw [mul_add] at this
    have h2 : 2 ^ (W - l) ≤ B * 2 ^ (W - l) := Nat.le_mul_of_pos_left _ B_pos
    omega
  have hQ2 : Q < 2 * B := by
    rw [← hQ]
    apply Nat.div_lt_of_lt_mul
    have : B * B ≤ D * (2 * B) := by
      calc B * B = (2 * 2 ^ (W - 1)) * B := by rw [← hB]
        _ = 2 ^ (W - 1) * (2 * B) := by ring
        _ ≤ D * (2 * B) := Nat.mul_le_mul_right _ hDge
    omega
  rw [hq, ← hrec, hQ]
  refine ⟨Nat.mod_lt _ B_pos, ?_⟩
  rw [Nat.mod_eq_sub_mod hQ1, Nat.mod_eq_of_lt (by omega)]; omega

/-- A divisor object as produced by the constructors. -/
structure CtLDivisor.Valid (d : CtLDivisor) : Prop where
  v_pos : 0 < d.v
  v_lt : d.v < B
  width : d.v_width = Nat.size d.v
  m_lt : d.m < B
  m_eq : d.m + B = (B * 2 ^ d.v_width - 1) / d.v

theorem size_le_W {v : ℕ} (hv : v < B) : Nat.size v ≤ W := Nat.size_le.2 hv

theorem CtLDivisor.new_spec {v : ℕ} (hv : v < B) (h0 : v ≠ 0) :
    M.Sat (CtLDivisor.new v) (fun o => ∃ d, o = some d ∧ d.Valid ∧ d.v = v) := by
  unfold CtLDivisor.new
  obtain ⟨h1, h2, h3⟩ := size_bounds h0
  obtain ⟨m, hm, hmB, hme⟩ := ct_compute_m_spec h1 (size_le_W hv) h3 h2
  rw [M.sat_branch_bind]
  rw [ct_is_zero_l_eq hv]
  simp only [h0, if_false, ne_eq, not_true_eq_false, decide_false, Bool.false_eq_true]
  rw [M.assert_eq (by simpa using h0), M.pure_bind, ct_find_last_set_bit_l_eq hv, M.pure_bind, hm,
    M.pure_bind]
  exact M.sat_pure.2 ⟨_, rfl, ⟨Nat.pos_of_ne_zero h0, hv, rfl, hmB, hme⟩, rfl⟩

theorem CtLDivisor.new_zero : M.Sat (CtLDivisor.new 0) (fun o => o = none) := by
  unfold CtLDivisor.new
  rw [M.sat_branch_bind]
  rw [ct_is_zero_l_eq B_pos]
  simp [M.sat_pure]

/-- The estimate of Granlund and Montgomery is off by at most one. -/
theorem gm_estimate {v P s m e n n2 n1 n0 q1 ρ : ℕ} (hs : 0 < s)
    (hvP : P ≤ v) (hv : v < 2 * P) (hB : B = 2 * P * s)
    (hm : (m + B) * v + e = B * (2 * P)) (he1 : e ≤ v)
    (hn : n = n2 * (2 * P) + n1 * P + n0) (hn0 : n0 < P) (hn1 : n1 ≤ 1) (hnv : n < v * B)
    (hq : q1 * B + ρ = n2 * B + (n2 + n1) * m + s * (n0 + n1 * (v - P))) (hρ : ρ < B) :
    q1 * v ≤ n ∧ n < q1 * v + 2 * v ∧ n2 + n1 ≤ v * s := by
  have hP : 0 < P := by omega
  have hn2 : n2 < v * s := by
    have h1 : n2 * (2 * P) < (v * s) * (2 * P) := by
      calc n2 * (2 * P) ≤ n := by rw [hn]; omega
        _ < v * B := hnv
        _ = (v * s) * (2 * P) := by rw [hB]; ring
    exact lt_of_mul_lt_mul_right h1 (Nat.zero_le _)
  obtain ⟨a, ha⟩ : ∃ a, v = P + a := ⟨v - P, by omega⟩
  obtain ⟨c, hc⟩ : ∃ c, 2 * P = v + c := ⟨2 * P - v, by omega⟩
  have key : B * n = B * (q1 * v) + (s * n0 * c + n1 * s * a * c + (n2 + n1) * e + ρ * v) := by
    have hvP' : v - P = a := by omega
    rw [hvP'] at hq
    zify at *
    have hcz : (c : ℤ) = 2 * P - v := by linarith
    have haz : (a : ℤ) = v - P := by linarith
    rw [hcz, haz, hn]
    rw [haz] at hq
    linear_combination (-(v : ℤ)) * hq - ((n2 : ℤ) + n1) * hm + ((n0 : ℤ) + n1 * (v - P)) * hB
  have hle : n2 + n1 ≤ v * s := by omega
  refine ⟨?_, ?_, hle⟩
  · have : B * (q1 * v) ≤ B * n := by omega
    exact Nat.le_of_mul_le_mul_left this B_pos
  · have hb1 : s * n0 * c + n1 * s * a * c ≤ s * c * (v - 1) := by
      have h1 : n1 * a ≤ a := by
        rcases Nat.le_one_iff_eq_zero_or_eq_one.1 hn1 with h | h <;> subst h <;> simp
      have h2 : n0 + n1 * a ≤ v - 1 := by omega
      calc s * n0 * c + n1 * s * a * c = s * c * (n0 + n1 * a) := by ring
        _ ≤ s * c * (v - 1) := Nat.mul_le_mul_left _ h2
    have hb2 : (n2 + n1) * e ≤ (v * s) * v := Nat.mul_le_mul hle he1
    have hb3 : ρ * v ≤ (B - 1) * v := Nat.mul_le_mul_right _ (by omega)
    have hlt : s * c * (v - 1) + (v * s) * v + (B - 1) * v < B * (2 * v) := by
      have e1 : B * v = v * s * v + s * c * v := by rw [hB, hc]; ring
      have e2 : (B - 1) * v + v = B * v := by
        rw [Nat.sub_mul, one_mul, Nat.sub_add_cancel]; exact Nat.le_mul_of_pos_left _ B_pos
      have e3 : s * c * (v - 1) ≤ s * c * v := Nat.mul_le_mul_left _ (by omega)
      have e4 : B * (2 * v) = B * v + B * v := by ring
      omega
    have h3 : B * n < B * (q1 * v + 2 * v) := by
      rw [key, mul_add]; omega
    exact lt_of_mul_lt_mul_left h3 (Nat.zero_le _)

/-- The part of `do_div` after the estimate. -/
theorem do_div_finish {v uh ul q1 n : ℕ} (hv0 : 0 < v) (hvB : v < B) (hh : uh < v) (hl : ul < B)
    (hN : uh * B + ul = n) (hq1B : q1 < B) (hnv : n < v * B) (hg1 : q1 * v ≤ n)
    (hg2 : n < q1 * v + 2 * v) :
    (do
      let p ← ct_mul_l_l (ct_negate_l (wadd q1 1)) v
      let (carry, r_l) := ct_add_l_l ul p.low
      let (carry, r_h) ← ct_add_l_l_c uh p.high carry
      let (borrow, r_h) := ct_sub_l_l r_h v
      M.assert (carry = 0 ∨ borrow ≠ 0)
      let borrow := borrow ^^^ carry
      let is_negative ← LimbChoice.from' borrow
      let q ← M.addL q1 (is_negative.not.select 0 1)
      let (carry, r_l) := ct_add_l_l r_l (is_negative.select 0 v)
      M.assert (wadd r_h carry = 0)
      M.assert (r_l < v)
      pure (q, r_l) : M (ℕ × ℕ)) = pure (n / v, n % v) := by
  have hneg : ct_negate_l (wadd q1 1) = B - (q1 + 1) := by
    rw [ct_negate_l_eq wadd_lt, wadd_eq hq1B one_lt_B]
    split
    · rw [Nat.mod_eq_of_lt (by omega)]
    · have : q1 + 1 = B := by omega
      rw [this]; simp
  rw [hneg, ct_mul_l_l_eq (by omega) hvB, M.pure_bind]
  dsimp only
  have hpe2 := Nat.div_add_mod ((B - (q1 + 1)) * v) B
  have hpl2 := Nat.mod_lt ((B - (q1 + 1)) * v) B_pos
  have hph2 : (B - (q1 + 1)) * v / B < B :=
    Nat.div_lt_of_lt_mul (Nat.mul_lt_mul'' (by omega) hvB)
  have hpv : (B - (q1 + 1)) * v + (q1 + 1) * v = B * v := by
    rw [← add_mul]; congr 1; omega
  generalize (B - (q1 + 1)) * v = p2 at *
  generalize p2 / B = ph2 at *
  generalize p2 % B = pl2 at *
  rw [ct_add_l_l_eq hl hpl2]
  dsimp only
  have h4 := Nat.div_add_mod (ul + pl2) B
  have h5 := Nat.mod_lt (ul + pl2) B_pos
  have h6 := add_div_le_one hl hpl2
  generalize (ul + pl2) / B = c2 at *
  generalize (ul + pl2) % B = rl at *
  obtain ⟨c3, rh, h7, h8, h9, h10⟩ := ct_add_l_l_c_spec (a := uh) (b := ph2) (c := c2)
    (by omega) hph2 h6
  rw [h7, M.pure_bind]
  dsimp only
  obtain ⟨w, rh', h11, h12, h13, h14, -⟩ := ct_sub_l_l_spec h9 hvB
  rw [h11]
  dsimp only
  -- value equation
  have hval : n + w * (B * B) = (q1 + 1) * v + c3 * (B * B) + rh' * B + rl := by
    have e1 : (uh + ph2 + c2) * B = (rh + c3 * B) * B := by rw [h10]
    have e2 : (rh + w * B) * B = (v + rh') * B := by rw [h14]
    have e3 : uh * B = n - ul := by omega
    zify at e1 e2 hN h4 hpe2 hpv ⊢
    linear_combination e1 + e2 - hN - h4 - hpe2 - hpv
  have hqv : (q1 + 1) * v = q1 * v + v := by ring
  have hBB : B * B = B * (B - 1) + B := by
    obtain ⟨b, hb⟩ : ∃ b, B = b + 1 := ⟨B - 1, by have := B_pos; omega⟩
    rw [hb]; simp; ring
  have hvBB : v < B * B := lt_of_lt_of_le hvB (Nat.le_mul_of_pos_left _ B_pos)
  have hrB : rh' * B + rl < B * B := by
    have : (rh' + 1) * B ≤ B * B := Nat.mul_le_mul_right _ h13
    rw [add_mul] at this; omega
  have hmul : ∀ x : ℕ, x = 0 ∨ x = 1 ∨ 2 ≤ x := by intro x; omega
  by_cases hneg' : n < (q1 + 1) * v
  · -- negative
    have hw1 : w = 1 := by
      rcases Nat.le_one_iff_eq_zero_or_eq_one.1 h12 with h | h
      · subst h; omega
      · exact h
    have hc0 : c3 = 0 := by
      rcases Nat.le_one_iff_eq_zero_or_eq_one.1 h8 with h | h
      · exact h
      · subst h; subst hw1; omega
    subst hw1; subst hc0
    rw [M.assert_eq (by simp), M.pure_bind]
    simp only [Nat.xor_zero]
    rw [LimbChoice.from'_eq (by omega), M.pure_bind]
    simp only [decide_true, LimbChoice.not_ofBool, Bool.not_true]
    rw [LimbChoice.select_ofBool B_pos one_lt_B, LimbChoice.select_ofBool B_pos hvB]
    simp only [Bool.false_eq_true, if_false, if_true, add_zero]
    rw [M.addL_eq (by omega), M.pure_bind, ct_add_l_l_eq h5 hvB]
    dsimp only
    -- r_h = B - 1 and r_l + v overflows
    have hrl : rh' = B - 1 ∧ rl + v = n - q1 * v + B := by
      have hrh : rh' = B - 1 := by
        by_contra hcon
        have h15 : rh' + 1 ≤ B - 1 := by omega
        have h16 : (rh' + 1) * B ≤ (B - 1) * B := Nat.mul_le_mul_right _ h15
        rw [add_mul, one_mul, mul_comm (B - 1)] at h16
        omega
      refine ⟨hrh, ?_⟩
      rw [hrh, mul_comm (B - 1)] at hval
      omega
    have hdiv : n / v = q1 := Nat.div_eq_of_lt_le (by omega) (by omega)
    have hmod : n % v = n - q1 * v := by
      have := Nat.div_add_mod n v; rw [hdiv, mul_comm] at this; omega
    rw [hrl.2, hrl.1]
    have hr1 : n - q1 * v < B := by omega
    rw [Nat.add_div_right _ B_pos, Nat.div_eq_of_lt hr1, Nat.add_mod_right, Nat.mod_eq_of_lt hr1]
    have hw1 : wadd (B - 1) (Nat.succ 0) = 0 := by
      unfold wadd; rw [show B - 1 + Nat.succ 0 = B by omega]; simp
    rw [M.assert_eq hw1, M.pure_bind, M.assert_eq (by omega), M.pure_bind, hdiv, hmod]; rfl
  · have hcw : c3 = w := by
      rcases Nat.le_one_iff_eq_zero_or_eq_one.1 h12 with h | h <;>
      rcases Nat.le_one_iff_eq_zero_or_eq_one.1 h8 with h' | h' <;> subst h <;> subst h' <;> omega
    subst hcw
    rw [M.assert_eq (by omega), M.pure_bind]
    simp only [Nat.xor_self]
    rw [LimbChoice.from'_eq (by omega), M.pure_bind]
    simp only [show ¬ (0 = 1) by omega, decide_false, LimbChoice.not_ofBool, Bool.not_false]
    rw [LimbChoice.select_ofBool B_pos one_lt_B, LimbChoice.select_ofBool B_pos hvB]
    simp only [Bool.false_eq_true, if_false, if_true]
    have hq2 : q1 + 1 < B := by
      have : (q1 + 1) * v < B * v := by rw [mul_comm B]; omega
      exact lt_of_mul_lt_mul_right this (Nat.zero_le _)
    rw [M.addL_eq hq2, M.pure_bind, ct_add_l_l_eq h5 B_pos]
    dsimp only
    have hrl : rh' = 0 ∧ rl = n - (q1 + 1) * v := by
      have hrh : rh' = 0 := by
        by_contra hcon
        have h16 : 1 * B ≤ rh' * B := Nat.mul_le_mul_right _ (by omega)
        omega
      subst hrh
      exact ⟨rfl, by omega⟩
    have hdiv : n / v = q1 + 1 := by
      apply Nat.div_eq_of_lt_le (by omega)
      have : (q1 + 1 + 1) * v = q1 * v + 2 * v := by ring
      omega
    have hmod : n % v = n - (q1 + 1) * v := by
      have := Nat.div_add_mod n v; rw [hdiv, mul_comm] at this; omega
    rw [hrl.1, add_zero, Nat.div_eq_of_lt h5, Nat.mod_eq_of_lt h5]
    have hw0 : wadd 0 0 = 0 := by simp [wadd]
    rw [M.assert_eq hw0, M.pure_bind, M.assert_eq (by omega), M.pure_bind, hdiv, hmod, ← hrl.2]

/-- Division of a double limb by a limb. -/
theorem CtLDivisor.do_div_eq {d : CtLDivisor} (hd : d.Valid) {u : DoubleLimb}
    (hh : u.high < d.v) (hl : u.low < B) :
    d.do_div u = pure ((u.high * B + u.low) / d.v, (u.high * B + u.low) % d.v) := by
  obtain ⟨hv0, hvB, hw, hmB, hme⟩ := hd
  obtain ⟨h1, h2, h3⟩ := size_bounds hv0.ne'
  rw [← hw] at h1 h2 h3
  have hlW : d.v_width ≤ W := by rw [hw]; exact size_le_W hvB
  unfold CtLDivisor.do_div
  dsimp only
  generalize d.v_width = l at *
  generalize d.v = v at *
  generalize d.m = m at *
  rcases u with ⟨uh, ul⟩
  dsimp only at *
  rw [M.assert_eq ⟨h1, hlW⟩, M.pure_bind]
  -- constants
  have hp : 0 < 2 ^ (W - l) := Nat.two_pow_pos _
  have h2l : 2 ^ l = 2 * 2 ^ (l - 1) := by rw [← pow_succ']; congr 1; omega
  have hBl : B = 2 ^ l * 2 ^ (W - l) := by rw [← pow_add, B_eq_two_pow]; congr 1; omega
  have hBh : 2 ^ (W - 1) = 2 ^ (l - 1) * 2 ^ (W - l) := by rw [← pow_add]; congr 1; omega
  have hB := B_half
  set P := 2 ^ (l - 1) with hPdef
  set s := 2 ^ (W - l) with hsdef
  have hP : 0 < P := Nat.two_pow_pos _
  have hvn : v * s + s ≤ B := by rw [hBl, ← Nat.succ_mul]; exact Nat.mul_le_mul_right _ h3
  have hvn2 : 2 ^ (W - 1) ≤ v * s := by rw [hBh]; exact Nat.mul_le_mul_right _ h2
  -- u2
  have hdl : ul / 2 ^ l < s := by apply Nat.div_lt_of_lt_mul; rw [← hBl]; exact hl
  have huhs : uh * s < B := lt_of_lt_of_le (Nat.mul_lt_mul_of_pos_right hh hp) (by omega)
  have hu2 : shr (shr ul (l - 1)) 1 ||| shl uh (W - l) = uh * s + ul / 2 ^ l := by
    rw [shr_eq, shr_eq, Nat.div_div_eq_div_mul, ← pow_add, show l - 1 + 1 = l by omega, shl_eq,
      Nat.mod_eq_of_lt huhs, Nat.or_comm, or_eq_add_of_lt hdl]
  rw [hu2]
  -- u10
  have hu10 : shl ul (W - l) = (ul % 2 ^ l) * s := by
    rw [shl_eq, hBl, ← hsdef, Nat.mul_mod_mul_right]
  rw [hu10]
  have hml := Nat.mod_lt ul (Nat.two_pow_pos l)
  have hdm := Nat.div_add_mod ul (2 ^ l)
  generalize ul / 2 ^ l = uq at *
  generalize ul % 2 ^ l = ur at *
  have hurs : ur * s + s ≤ B := by rw [hBl, ← Nat.succ_mul]; exact Nat.mul_le_mul_right _ hml
  have hvnorm : shl v (W - l) = v * s := by
    rw [shl_eq, ← hsdef, Nat.mod_eq_of_lt (by omega)]
  rw [hvnorm, shr_top (by omega), shr_top (by omega), if_pos hvn2, M.assert_eq rfl, M.pure_bind]
  -- split ur
  obtain ⟨n1, n0, hn1, hn0, hur⟩ : ∃ n1 n0, n1 ≤ 1 ∧ n0 < P ∧ ur = n1 * P + n0 := by
    rcases Nat.lt_or_ge ur P with h | h
    · exact ⟨0, ur, by omega, h, by omega⟩
    · exact ⟨1, ur - P, by omega, by omega, by omega⟩
  have hu1 : (if 2 ^ (W - 1) ≤ ur * s then 1 else 0) = n1 := by
    rw [hBh]
    by_cases h : P ≤ ur
    · rw [if_pos (Nat.mul_le_mul_right _ h)]
      rcases Nat.le_one_iff_eq_zero_or_eq_one.1 hn1 with h' | h' <;> subst h' <;> omega
    · have : ¬ P * s ≤ ur * s := fun hc => h (Nat.le_of_mul_le_mul_right hc hp)
      rw [if_neg this]
      rcases Nat.le_one_iff_eq_zero_or_eq_one.1 hn1 with h' | h' <;> subst h' <;> omega
  rw [hu1, LimbChoice.from'_eq hn1, M.pure_bind, LimbChoice.select_ofBool B_pos (by omega)]
  have hnadj : wadd (ur * s) (if decide (n1 = 1) = true then v * s else 0)
      = s * (n0 + n1 * (v - P)) := by
    rw [wadd_eq (by omega) (by split <;> omega)]
    obtain ⟨a, ha⟩ : ∃ a, v = P + a := ⟨v - P, by omega⟩
    have hva : v - P = a := by omega
    rcases Nat.le_one_iff_eq_zero_or_eq_one.1 hn1 with h' | h' <;> subst h'
    · simp only [show ¬ (0 = 1) by omega, decide_false, Bool.false_eq_true, if_false]
      rw [if_pos (by omega), hur]; ring
    · simp only [decide_true, if_true]
      have e1 : ur * s + v * s = B + s * (n0 + 1 * (v - P)) := by
        rw [hBl, h2l, hva, hur, ha]; ring
      rw [if_neg (by omega), e1]; omega
  rw [hnadj]
  -- the dividend
  have hn : uh * B + ul = (uh * s + uq) * (2 * P) + n1 * P + n0 := by
    rw [← h2l]
    have : 2 ^ l * uq = uq * 2 ^ l := mul_comm _ _
    rw [hBl, add_mul]
    have : uh * (2 ^ l * s) = uh * s * 2 ^ l := by ring
    omega
  have hnv : uh * B + ul < v * B := by
    calc uh * B + ul < uh * B + B := by omega
      _ = (uh + 1) * B := by ring
      _ ≤ v * B := Nat.mul_le_mul_right _ hh
  generalize hN : uh * B + ul = n at *
  generalize hN2 : uh * s + uq = n2 at *
  -- the reciprocal
  have hmv : ∃ e, (m + B) * v + e = B * (2 * P) ∧ e ≤ v := by
    rw [hme, ← h2l]
    have e1 := Nat.div_add_mod (B * 2 ^ l - 1) v
    have e2 := Nat.mod_lt (B * 2 ^ l - 1) hv0
    have e3 : 0 < B * 2 ^ l := Nat.mul_pos B_pos (Nat.two_pow_pos _)
    refine ⟨(B * 2 ^ l - 1) % v + 1, ?_, by omega⟩
    rw [mul_comm ((B * 2 ^ l - 1) / v)]
    omega
  obtain ⟨e, hmv, hev⟩ := hmv
  have hBP : B = 2 * P * s := by rw [← h2l]; exact hBl
  -- u2 + u1 fits: from n2 < v*s
  have hn2 : n2 + n1 ≤ v * s := by
    have h1 : n2 * (2 * P) < (v * s) * (2 * P) := by
      calc n2 * (2 * P) ≤ n := by rw [hn]; omega
        _ < v * B := hnv
        _ = (v * s) * (2 * P) := by rw [hBP]; ring
    have := lt_of_mul_lt_mul_right h1 (Nat.zero_le _)
    omega
  have hn2B : n2 + n1 < B := by omega
  have hlm : lmax = B - 1 := rfl
  rw [M.assert_eq (by rw [hlm]; omega), M.pure_bind, M.addL_eq hn2B, M.pure_bind,
    ct_mul_l_l_eq hmB hn2B, M.pure_bind]
  dsimp only
  have hadjB : s * (n0 + n1 * (v - P)) < B := by rw [← hnadj]; exact wadd_lt
  rw [ct_add_l_l_eq (Nat.mod_lt _ B_pos) hadjB]
  dsimp only
  have hpe := Nat.div_add_mod (m * (n2 + n1)) B
  have hpl := Nat.mod_lt (m * (n2 + n1)) B_pos
  have hph : m * (n2 + n1) / B < B :=
    Nat.div_lt_of_lt_mul (Nat.mul_lt_mul'' hmB hn2B)
  generalize hX : s * (n0 + n1 * (v - P)) = adj at *
  generalize m * (n2 + n1) / B = ph at *
  generalize hpl' : m * (n2 + n1) % B = pl at *
  have hce := Nat.div_add_mod (pl + adj) B
  have hcl := Nat.mod_lt (pl + adj) B_pos
  have hc1 := add_div_le_one hpl hadjB
  generalize (pl + adj) / B = c at *
  generalize (pl + adj) % B = ρ at *
  have hq : (n2 + ph + c) * B + ρ = n2 * B + (n2 + n1) * m + adj := by
    have : (n2 + n1) * m = m * (n2 + n1) := mul_comm _ _
    rw [this, add_mul, add_mul, mul_comm ph, mul_comm c]; omega
  rw [← hX] at hq
  obtain ⟨hg1, hg2, -⟩ := gm_estimate hp h2 (by omega) hBP hmv hev hn hn0 hn1 hnv hq hcl
  have hq1B : n2 + ph + c < B := by
    have : (n2 + ph + c) * v < B * v := by rw [mul_comm B]; omega
    exact lt_of_mul_lt_mul_right this (Nat.zero_le _)
  rw [ct_add_l_l_c_eq (by omega) hph hc1, M.pure_bind]
  dsimp only
  rw [Nat.div_eq_of_lt hq1B, Nat.mod_eq_of_lt hq1B, M.assert_eq rfl, M.pure_bind]
  generalize n2 + ph + c = q1 at *
  exact do_div_finish hv0 hvB hh hl hN hq1B hnv hg1 hg2

end Cmpa
