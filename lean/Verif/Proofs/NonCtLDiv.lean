import Verif.Proofs.LDiv

namespace Cmpa
variable [LimbCfg]
set_option linter.unusedSectionVars false

/-- Knuth's quotient estimate from one leading digit: too large by at most two. -/
theorem knuth_estimate {H vh vl uh x0 : ℕ} (hvl : vl < H)
    (hnorm : H ≤ 2 * vh) (hx : x0 < H) (huh : uh < vh * H + vl) :
    let v := vh * H + vl
    let X := uh * H + x0
    let qe := min (uh / vh) (H - 1)
    X / v ≤ qe ∧ qe ≤ X / v + 2 ∧ qe * vh ≤ uh ∧ X < v * H := by
  intro v X qe
  have hH : 0 < H := by omega
  have hvh : 0 < vh := by omega
  have hv : 0 < v := by
    have : 0 < vh * H := Nat.mul_pos hvh hH
    omega
  have hXv : X < v * H := by
    have : (uh + 1) * H ≤ v * H := Nat.mul_le_mul_right _ huh
    rw [add_mul] at this; omega
  have hqe : qe * vh ≤ uh := by
    calc qe * vh ≤ uh / vh * vh := Nat.mul_le_mul_right _ (Nat.min_le_left _ _)
      _ ≤ uh := Nat.div_mul_le_self _ _
  have hqeH : qe ≤ H - 1 := Nat.min_le_right _ _
  refine ⟨?_, ?_, hqe, hXv⟩
  · apply Nat.le_min.2
    constructor
    · rw [Nat.le_div_iff_mul_le hvh]
      have h1 : X / v * v ≤ X := Nat.div_mul_le_self _ _
      have h2 : X / v * vh * H ≤ X / v * v := by
        rw [mul_assoc]; exact Nat.mul_le_mul_left _ (by omega)
      by_contra hcon
      have h3 : (uh + 1) * H ≤ X / v * vh * H := Nat.mul_le_mul_right _ (by omega)
      rw [add_mul] at h3
      omega
    · have := Nat.div_lt_of_lt_mul hXv; omega
  · by_contra hcon
    have h00 := Nat.zero_le (X / v)
    have h01 : 3 ≤ qe := by omega
    have h1 : (X / v + 1) * v ≤ (qe - 2) * v := Nat.mul_le_mul_right _ (by omega)
    have h2 : (qe - 2) * v + 2 * v = qe * v := by rw [← add_mul]; congr 1; omega
    have h3 : qe * v = qe * vh * H + qe * vl := by show qe * (vh * H + vl) = _; ring
    have h4 : qe * vh * H ≤ uh * H := Nat.mul_le_mul_right _ hqe
    have h5 : qe * vl ≤ H * H := Nat.mul_le_mul (by omega) hvl.le
    have h6 : H * H ≤ 2 * v := by
      have : H * H ≤ 2 * vh * H := Nat.mul_le_mul_right _ hnorm
      have h7 : 2 * v = 2 * vh * H + 2 * vl := by show 2 * (vh * H + vl) = _; ring
      omega
    have h8 : X < (X / v + 1) * v := Nat.lt_succ_mul_div_self' X hv
    omega
where
  Nat.lt_succ_mul_div_self' (X : ℕ) {v : ℕ} (hv : 0 < v) : X < (X / v + 1) * v := by
    have := Nat.div_add_mod X v
    have := Nat.mod_lt X hv
    rw [add_mul, mul_comm]; omega

theorem H_mul : (2 : ℕ) ^ HW * 2 ^ HW = B := B_eq_half_sq.symm

theorem shl_HW {x : ℕ} : shl x HW = (x % 2 ^ HW) * 2 ^ HW := by
  rw [shl_eq, B_eq_half_sq, Nat.mul_mod_mul_right]

theorem NonCtLDivisor.do_div_step_spec {v : ℕ} {s : NonCtDiv} (hv : v < B)
    (hn : 2 ^ (W - 1) ≤ v) (hh : s.u_h < v) (hl : s.u_l < B) :
    M.Sat (NonCtLDivisor.do_div_step v s) (fun s' =>
      let X := s.u_h * 2 ^ HW + s.u_l / 2 ^ HW
      s'.u_h = X % v ∧ s'.u_l = (s.u_l % 2 ^ HW) * 2 ^ HW ∧
      X / v < 2 ^ HW ∧ s'.q = (s.q % 2 ^ HW) * 2 ^ HW + X / v) := by
  unfold NonCtLDivisor.do_div_step
  simp only [shr_eq, HALF_LIMB_MASK_eq, Nat.and_two_pow_sub_one_eq_mod, shl_HW]
  have hHB := H_mul
  have hH := Nat.two_pow_pos HW
  have hWh : 2 ^ (W - 1) * 2 = B := by rw [← pow_succ, B_eq_two_pow]; congr 1; have := W_pos; omega
  have hHe : 2 ^ HW = 2 * 2 ^ (HW - 1) := by
    rw [← pow_succ']; congr 1; rcases HW_cases with h | h <;> omega
  generalize 2 ^ HW = H at *
  have hvd := Nat.div_add_mod v H
  have hvl := Nat.mod_lt v hH
  have hvhH : v / H < H := Nat.div_lt_of_lt_mul (by omega)
  have hnorm : H ≤ 2 * (v / H) := by
    by_contra hcon
    have h1 : 2 * (v / H) + 2 ≤ H := by omega
    have h2 : (2 * (v / H) + 2) * H ≤ H * H := Nat.mul_le_mul_right _ h1
    have h3 : (2 * (v / H) + 2) * H = 2 * (H * (v / H)) + 2 * H := by ring
    omega
  rw [M.check_eq (by omega), M.pure_bind]
  generalize v / H = vh at *
  generalize v % H = vl at *
  rcases s with ⟨uh, ul, q0⟩
  dsimp only at *
  have hud := Nat.div_add_mod ul H
  have hx0 := Nat.mod_lt ul hH
  have hx1 : ul / H < H := Nat.div_lt_of_lt_mul (by omega)
  generalize ul / H = x1 at *
  generalize ul % H = x0 at *
  have hve : v = vh * H + vl := by rw [mul_comm]; exact hvd.symm
  have hK := knuth_estimate (x0 := x1) hvl hnorm hx1 (by rw [← hve]; exact hh)
  dsimp only at hK
  rw [← hve] at hK
  obtain ⟨k1, k2, k3, k4⟩ := hK
  have hv0 : 0 < v := by omega
  generalize hX : uh * H + x1 = X at *
  have hqd := Nat.div_add_mod X v
  have hqm := Nat.mod_lt X hv0
  have hqH : X / v < H := Nat.div_lt_of_lt_mul k4
  have hqeH : min (uh / vh) (H - 1) ≤ H - 1 := Nat.min_le_right _ _
  generalize min (uh / vh) (H - 1) = qe at *
  generalize X / v = qx at *
  generalize X % v = rx at *
  have huhB : uh < B := by omega
  rw [M.mulL_eq (by omega), M.pure_bind, M.sub_eq k3, M.pure_bind]
  have hqvl : qe * vl < B := by
    rw [← hHB]; exact Nat.mul_lt_mul'' (by omega) hvl
  rw [M.mulL_eq hqvl, M.pure_bind]
  -- the correction test
  have htest : (¬ (uh - qe * vh) / H ≠ 0 ∧ qe * vl > ((uh - qe * vh) % H * H ||| x1)) ↔
      X < qe * v := by
    have e1 : qe * v = qe * vh * H + qe * vl := by rw [hve]; ring
    have e2 : (uh - qe * vh) * H + qe * vh * H = uh * H := by rw [← add_mul]; congr 1; omega
    generalize hr : uh - qe * vh = r at *
    rw [not_not]
    have hor : r % H * H ||| x1 = r % H * H + x1 := by
      have : H = 2 ^ HW := by
        exact Nat.mul_self_inj.1 (hHB.trans H_mul.symm)
      rw [this] at hx1 ⊢
      exact or_eq_add_of_lt hx1
    rw [hor]
    constructor
    · rintro ⟨h1, h2⟩
      have : r < H := by
        rcases Nat.div_eq_zero_iff.1 h1 with h | h
        · omega
        · exact h
      rw [Nat.mod_eq_of_lt this] at h2
      omega
    · intro h
      have hrH : r < H := by
        by_contra hcon
        have : H * H ≤ r * H := Nat.mul_le_mul_right _ (by omega)
        omega
      rw [Nat.mod_eq_of_lt hrH]
      exact ⟨Nat.div_eq_of_lt hrH, by omega⟩
  -- value of the quotient digit candidate
  have hcand : M.Sat (M.cond (¬ (uh - qe * vh) / H ≠ 0 ∧
      qe * vl > ((uh - qe * vh) % H * H ||| x1)) (M.sub qe 1) (pure qe)) (fun qc =>
      qx ≤ qc ∧ qc ≤ qx + 1 ∧ qc < H) := by
    apply M.Sat.cond
    · intro h
      rw [htest] at h
      have hlt : qx < qe := by
        by_contra hcon
        have : qe * v ≤ qx * v := Nat.mul_le_mul_right _ (by omega)
        rw [mul_comm qx] at this; omega
      rw [M.sub_eq (by omega), M.sat_pure]
      exact ⟨by omega, by omega, by omega⟩
    · intro h
      rw [htest] at h
      have hle : qe ≤ qx := by
        by_contra hcon
        have : (qx + 1) * v ≤ qe * v := Nat.mul_le_mul_right _ (by omega)
        rw [add_mul, mul_comm qx] at this; omega
      rw [M.sat_pure]
      exact ⟨by omega, by omega, by omega⟩
  refine M.Sat.bind hcand ?_
  rintro qc ⟨hc1, hc2, hc3⟩
  have hHpow : H = 2 ^ HW := by
    exact Nat.mul_self_inj.1 (hHB.trans H_mul.symm)
  have hor : uh % H * H ||| x1 = uh % H * H + x1 := by
    rw [hHpow] at hx1 ⊢; exact or_eq_add_of_lt hx1
  have hor2 : ∀ q, q < H → q0 % H * H ||| q = q0 % H * H + q := by
    intro q hq; rw [hHpow] at hq ⊢; exact or_eq_add_of_lt hq
  rw [hor]
  have huhd := Nat.div_add_mod uh H
  have huhm := Nat.mod_lt uh hH
  have huhh : uh / H < H := Nat.div_lt_of_lt_mul (by omega)
  have hu1B : uh % H * H + x1 < B := by
    have : (uh % H + 1) * H ≤ H * H := Nat.mul_le_mul_right _ huhm
    rw [add_mul] at this; omega
  have hHltB : H ≤ B := by rw [← hHB]; exact Nat.le_mul_of_pos_left _ hH
  have hqcB : qc < B := by omega
  obtain ⟨w, r1, hms, hwB, hr1B, hme⟩ := ct_mul_sub_l_l_l_b_spec hu1B hqcB hv (B_pos)
  rw [hms, M.pure_bind]
  dsimp only
  obtain ⟨bw, d, hsub, hbw, hdB, hse, -⟩ := ct_sub_l_l_spec (a := uh / H) (b := w) (by omega) hwB
  rw [hsub]
  dsimp only
  -- X = (uh / H) * B + (uh % H * H + x1)
  have hXe : X = uh / H * B + (uh % H * H + x1) := by
    rw [← hX, ← hHB]
    conv_lhs => rw [← huhd]
    ring
  generalize uh % H * H + x1 = u1 at *
  generalize uh / H = u2 at *
  have hval : X + bw * (B * B) = qc * v + d * B + r1 := by
    have e1 : (u2 + bw * B) * B = (w + d) * B := by rw [hse]
    rw [hXe]; linear_combination e1 + hme
  have hqcv : qc = qx ∨ qc = qx + 1 := by omega
  have hBB : B * B = B * (B - 1) + B := by
    obtain ⟨b, hb⟩ : ∃ b, B = b + 1 := ⟨B - 1, by have := B_pos; omega⟩
    rw [hb]; simp; ring
  have hdr : d * B + r1 < B * B := by
    have : (d + 1) * B ≤ B * B := Nat.mul_le_mul_right _ hdB
    rw [add_mul] at this; omega
  rw [M.sat_bind_iff, M.sat_cond_iff]
  rcases hqcv with rfl | rfl
  · -- exact candidate
    have hbw0 : bw = 0 := by
      rcases Nat.le_one_iff_eq_zero_or_eq_one.1 hbw with h | h
      · exact h
      · subst h; rw [mul_comm qc v] at hval; omega
    subst hbw0
    have hd0 : d = 0 := by
      by_contra hcon
      have : 1 * B ≤ d * B := Nat.mul_le_mul_right _ (by omega)
      rw [mul_comm qc v] at hval; omega
    subst hd0
    rw [if_neg (by simp), M.sat_pure]
    dsimp only
    rw [M.assert_eq rfl, M.pure_bind, M.sat_pure, hor2 _ hc3]
    rw [mul_comm qc v] at hval
    exact ⟨by dsimp only; omega, rfl, hqH, rfl⟩
  · have hbw1 : bw = 1 := by
      rcases Nat.le_one_iff_eq_zero_or_eq_one.1 hbw with h | h
      · subst h; rw [add_mul, mul_comm qx v] at hval; omega
      · exact h
    subst hbw1
    have hvq : (qx + 1) * v = v * qx + v := by ring
    rw [hvq] at hval
    have hdB1 : d = B - 1 := by
      by_contra hcon
      have h16 : (d + 1) * B ≤ (B - 1) * B := Nat.mul_le_mul_right _ (by omega)
      rw [add_mul, one_mul, mul_comm (B - 1)] at h16
      omega
    subst hdB1
    rw [if_pos (by simp)]
    rw [M.sub_eq (by omega), M.pure_bind, ct_add_l_l_eq hr1B hv]
    dsimp only
    have hsum : r1 + v = rx + B := by
      rw [mul_comm (B - 1)] at hval; omega
    have hrxB : rx < B := by omega
    rw [hsum, Nat.add_div_right _ B_pos, Nat.div_eq_of_lt hrxB, Nat.add_mod_right,
      Nat.mod_eq_of_lt hrxB, ct_add_l_l_eq (by omega) (by have := one_lt_B; omega)]
    rw [M.sat_pure]
    dsimp only
    have : (B - 1 + Nat.succ 0) % B = 0 := by
      rw [show B - 1 + Nat.succ 0 = B by omega]; simp
    rw [M.assert_eq this, M.pure_bind, M.sat_pure, hor2 _ (by omega)]
    exact ⟨rfl, rfl, hqH, by simp⟩

/-- A divisor object as produced by the constructor. -/
structure NonCtLDivisor.Valid (d : NonCtLDivisor) : Prop where
  v_pos : 0 < d.v
  v_lt : d.v < B
  shift_lt : d.scaling_shift < W
  norm_le : 2 ^ (W - 1) ≤ d.v * 2 ^ d.scaling_shift
  norm_lt : d.v * 2 ^ d.scaling_shift < B
  rshift : d.scaling_low_src_rshift = (W - d.scaling_shift) % W
  mask : d.scaling_low_src_mask = 2 ^ d.scaling_shift - 1

theorem NonCtLDivisor.new_spec {v : ℕ} (hv : v < B) (h0 : v ≠ 0) :
    M.Sat (NonCtLDivisor.new v) (fun o => ∃ d, o = some d ∧ d.Valid ∧ d.v = v) := by
  unfold NonCtLDivisor.new
  rw [M.sat_branch_bind]
  simp only [h0, decide_false, Bool.false_eq_true, if_false]
  rw [M.sat_pure]
  have h1 := Nat.log2_self_le h0
  have h2 : v < 2 ^ (Nat.log2 v + 1) := Nat.lt_log2_self
  have h3 : Nat.log2 v < W := (Nat.log2_lt h0).2 hv
  have hlz : leading_zeros v = W - 1 - Nat.log2 v := by unfold leading_zeros; rw [if_neg h0]
  rw [hlz]
  refine ⟨_, rfl, ⟨Nat.pos_of_ne_zero h0, hv, ?_, ?_, ?_, rfl, ?_⟩, rfl⟩
  · dsimp only; omega
  · dsimp only
    calc 2 ^ (W - 1) = 2 ^ Nat.log2 v * 2 ^ (W - 1 - Nat.log2 v) := by
          rw [← pow_add]; congr 1; omega
      _ ≤ _ := Nat.mul_le_mul_right _ h1
  · dsimp only
    calc v * 2 ^ (W - 1 - Nat.log2 v) < 2 ^ (Nat.log2 v + 1) * 2 ^ (W - 1 - Nat.log2 v) :=
          Nat.mul_lt_mul_of_pos_right h2 (Nat.two_pow_pos _)
      _ = B := by rw [← pow_add, B_eq_two_pow]; congr 1; omega
  · dsimp only; rw [ct_lsb_mask_l_eq (by omega)]

theorem NonCtLDivisor.new_zero : M.Sat (NonCtLDivisor.new 0) (fun o => o = none) := by
  unfold NonCtLDivisor.new
  rw [M.sat_branch_bind]
  simp [M.sat_pure]

theorem NonCtLDivisor.do_div_spec {d : NonCtLDivisor} (hd : d.Valid) {u : DoubleLimb}
    (hh : u.high < d.v) (hl : u.low < B) :
    M.Sat (d.do_div u) (fun r =>
      r = ((u.high * B + u.low) / d.v, (u.high * B + u.low) % d.v)) := by
  obtain ⟨hv0, hvB, hsW, hn1, hn2, hr, hmask⟩ := hd
  unfold NonCtLDivisor.do_div
  dsimp only
  rcases u with ⟨uh, ul⟩
  generalize d.scaling_shift = s at *
  generalize d.v = v at *
  generalize d.scaling_low_src_rshift = rs at *
  generalize d.scaling_low_src_mask = mk at *
  subst hr; subst hmask
  dsimp only at *
  have hs0 := Nat.two_pow_pos s
  have hBs : B = 2 ^ (W - s) * 2 ^ s := by rw [← pow_add, B_eq_two_pow]; congr 1; omega
  have hlow : shr ul ((W - s) % W) &&& (2 ^ s - 1) = ul / 2 ^ (W - s) := by
    rw [Nat.and_two_pow_sub_one_eq_mod, shr_eq]
    by_cases h : s = 0
    · subst h; simp; symm; rw [← B_eq_two_pow, Nat.mod_one]; exact Nat.div_eq_of_lt hl
    · rw [Nat.mod_eq_of_lt (by omega : W - s < W)]
      apply Nat.mod_eq_of_lt
      apply Nat.div_lt_of_lt_mul; rw [← hBs]; exact hl
  have hlow_lt : ul / 2 ^ (W - s) < 2 ^ s := by
    apply Nat.div_lt_of_lt_mul; rw [← hBs]; exact hl
  have hvs : shl v s = v * 2 ^ s := by rw [shl_eq, Nat.mod_eq_of_lt hn2]
  have huhs : uh * 2 ^ s + 2 ^ s ≤ v * 2 ^ s := by
    rw [← Nat.succ_mul]; exact Nat.mul_le_mul_right _ hh
  rw [hlow, hvs, shl_eq, Nat.mod_eq_of_lt (by omega : uh * 2 ^ s < B), or_eq_add_of_lt hlow_lt,
    shl_eq]
  have hul : ul * 2 ^ s % B = (ul % 2 ^ (W - s)) * 2 ^ s := by rw [hBs, Nat.mul_mod_mul_right]
  have hassert : shr (uh * 2 ^ s + ul / 2 ^ (W - s)) s = uh := by
    rw [shr_eq, mul_comm, Nat.mul_add_div hs0, Nat.div_eq_of_lt hlow_lt, add_zero]
  rw [M.assert_eq hassert, M.pure_bind]
  have huld := Nat.div_add_mod ul (2 ^ (W - s))
  -- scaled dividend
  have hscaled : (uh * 2 ^ s + ul / 2 ^ (W - s)) * B + ul * 2 ^ s % B
      = (uh * B + ul) * 2 ^ s := by
    rw [hul]
    calc (uh * 2 ^ s + ul / 2 ^ (W - s)) * B + (ul % 2 ^ (W - s)) * 2 ^ s
        = uh * 2 ^ s * B + (2 ^ (W - s) * (ul / 2 ^ (W - s)) + ul % 2 ^ (W - s)) * 2 ^ s := by
          rw [add_mul, add_mul]
          have : ul / 2 ^ (W - s) * B = 2 ^ (W - s) * (ul / 2 ^ (W - s)) * 2 ^ s := by
            rw [hBs]; ring
          rw [this]; ring
      _ = (uh * B + ul) * 2 ^ s := by rw [huld]; ring
  have huL : ul * 2 ^ s % B < B := Nat.mod_lt _ B_pos
  have huH : uh * 2 ^ s + ul / 2 ^ (W - s) < v * 2 ^ s := by omega
  generalize uh * 2 ^ s + ul / 2 ^ (W - s) = U at *
  generalize ul * 2 ^ s % B = L at *
  have hHB := H_mul
  have hH := Nat.two_pow_pos HW
  refine M.Sat.bind (NonCtLDivisor.do_div_step_spec hn2 hn1 (s := ⟨U, L, 0⟩) huH huL) ?_
  rintro ⟨a1, b1, q1⟩ ⟨ha1, hb1, hq1, hq1e⟩
  dsimp only at *
  have hvp : 0 < v * 2 ^ s := by positivity
  have hb1B : b1 < B := by
    rw [hb1, ← hHB]; exact Nat.mul_lt_mul_of_pos_right (Nat.mod_lt _ hH) hH
  refine M.Sat.bind (NonCtLDivisor.do_div_step_spec hn2 hn1 (s := ⟨a1, b1, q1⟩)
    (by rw [ha1]; exact Nat.mod_lt _ hvp) hb1B) ?_
  rintro ⟨a2, b2, q2⟩ ⟨ha2, hb2, hq2, hq2e⟩
  dsimp only at *
  have hb2' : b2 = 0 := by rw [hb2, hb1]; simp
  rw [M.assert_eq hb2', M.pure_bind, M.sat_pure]
  have hb1d : b1 / 2 ^ HW = L % 2 ^ HW := by rw [hb1]; exact Nat.mul_div_cancel _ hH
  rw [hb1d] at ha2 hq2 hq2e
  simp only [Nat.zero_mod, zero_mul, zero_add] at hq1e
  have hLd := Nat.div_add_mod L (2 ^ HW)
  have hX1 := Nat.div_add_mod (U * 2 ^ HW + L / 2 ^ HW) (v * 2 ^ s)
  have hX2 := Nat.div_add_mod (a1 * 2 ^ HW + L % 2 ^ HW) (v * 2 ^ s)
  rw [← hq1e, ← ha1] at hX1
  rw [hq1e, Nat.mod_eq_of_lt hq1, ← hq1e] at hq2e
  have ha2lt : a2 < v * 2 ^ s := by rw [ha2]; exact Nat.mod_lt _ hvp
  rw [← ha2] at hX2
  generalize (a1 * 2 ^ HW + L % 2 ^ HW) / (v * 2 ^ s) = y at *
  -- total
  have htot : (uh * B + ul) * 2 ^ s = q2 * v * 2 ^ s + a2 := by
    rw [← hscaled, ← hHB, hq2e]
    generalize L / 2 ^ HW = lh at *
    generalize L % 2 ^ HW = ll at *
    generalize 2 ^ HW = H at *
    have e1 : (v * 2 ^ s * q1 + a1) * H = (U * H + lh) * H := by rw [hX1]
    have : U * (H * H) + L = (U * H + lh) * H + ll := by rw [← hLd]; ring
    rw [this, ← e1]
    have : (v * 2 ^ s * q1 + a1) * H + ll = v * 2 ^ s * q1 * H + (a1 * H + ll) := by ring
    rw [this, ← hX2]; ring
  have hmod : a2 % 2 ^ s = 0 := by
    have h1 : (q2 * v * 2 ^ s + a2) % 2 ^ s = 0 := by rw [← htot]; simp
    rw [mul_comm, Nat.mul_add_mod] at h1; exact h1
  obtain ⟨r, hr⟩ := Nat.dvd_of_mod_eq_zero hmod
  have hnr : uh * B + ul = q2 * v + r := by
    apply Nat.eq_of_mul_eq_mul_right hs0
    rw [htot, hr]; ring
  have hrv : r < v := by
    rw [hr, mul_comm] at ha2lt
    exact lt_of_mul_lt_mul_right ha2lt (Nat.zero_le _)
  have hdiv : (uh * B + ul) / v = q2 := by
    rw [hnr, mul_comm, Nat.mul_add_div hv0, Nat.div_eq_of_lt hrv, add_zero]
  have hmod' : (uh * B + ul) % v = r := by
    rw [hnr, mul_comm, Nat.mul_add_mod, Nat.mod_eq_of_lt hrv]
  rw [hdiv, hmod', shr_eq, hr, Nat.mul_div_cancel_left _ hs0]

theorem CtLDivisor.nonct_new_spec {v : ℕ} (hv : v < B) (h0 : v ≠ 0) :
    M.Sat (CtLDivisor.nonct_new v) (fun o => ∃ d, o = some d ∧ d.Valid ∧ d.v = v) := by
  unfold CtLDivisor.nonct_new
  rw [M.sat_branch_bind]
  simp only [h0, decide_false, Bool.false_eq_true, if_false]
  rw [ct_find_last_set_bit_l_eq hv, M.pure_bind]
  obtain ⟨h1, h2, h3⟩ := size_bounds h0
  have hsW := size_le_W hv
  have hl : v.size ≤ W := hsW
  have hnc : M.Sat (nonct_compute_m v v.size) (fun m => m < B ∧ m + B = (B * 2 ^ v.size - 1) / v) := by
    unfold nonct_compute_m
    refine M.Sat.bind (NonCtLDivisor.new_spec hv h0) ?_
    rintro _ ⟨d, rfl, hd, rfl⟩
    simp only [M.ofOption]
    rw [M.mk_bind, ct_lsb_mask_l_eq hsW, M.sub_eq (by omega), M.pure_bind]
    have hh : 2 ^ d.v.size - 1 - d.v < d.v := by
      have : 2 ^ d.v.size = 2 * 2 ^ (d.v.size - 1) := by rw [← pow_succ']; congr 1; omega
      omega
    refine M.Sat.bind (NonCtLDivisor.do_div_spec hd (u := ⟨2 ^ d.v.size - 1 - d.v, lmax⟩) hh lmax_lt) ?_
    rintro _ rfl
    dsimp only
    rw [M.sat_pure]
    have hlm : lmax = B - 1 := rfl
    rw [hlm]
    have hB := B_pos
    have e1 : B * 2 ^ d.v.size - 1 = ((2 ^ d.v.size - 1 - d.v) * B + (B - 1)) + d.v * B := by
      obtain ⟨k, hk⟩ : ∃ k, 2 ^ d.v.size = d.v + 1 + k := ⟨2 ^ d.v.size - 1 - d.v, by omega⟩
      rw [hk]
      have : d.v + 1 + k - 1 - d.v = k := by omega
      rw [this]
      have : B * (d.v + 1 + k) = k * B + B + d.v * B := by ring
      omega
    constructor
    · apply Nat.div_lt_of_lt_mul
      have h4 : (2 ^ d.v.size - 1 - d.v + 1) * B ≤ d.v * B := Nat.mul_le_mul_right _ hh
      rw [add_mul] at h4; omega
    · rw [e1, Nat.add_mul_div_left _ _ (Nat.pos_of_ne_zero h0)]
  refine M.Sat.bind hnc ?_
  rintro m ⟨hm1, hm2⟩
  exact M.sat_pure.2 ⟨_, rfl, ⟨Nat.pos_of_ne_zero h0, hv, rfl, hm1, hm2⟩, rfl⟩

end Cmpa
