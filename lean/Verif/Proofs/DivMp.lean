import Verif.Proofs.DivCommon

/-!
# Long division
-/

set_option linter.unusedSectionVars false

namespace Cmpa
variable [LimbCfg] {f g h : Fmt}

open M

/-- The composite `c` has the shape of `c0` and the value `x`. -/
def CVal (c0 : Composite f) (x : ℕ) (c : Composite f) : Prop := Composite.Same c0 c ∧ c.toNat = x

/-- A well-formed composite of `N` whole limbs. -/
def CShape (c0 : Composite f) (N : ℕ) : Prop := Composite.WF 0 c0 ∧ c0.len = N * LB

theorem CVal.load {c0 c : Composite f} {N x i : ℕ} (hs : CShape c0 N) (hc : CVal c0 x c)
    (hi : i < N) {Q : ℕ → Prop} (hQ : Q (x / B ^ i % B)) : Sat (c.load i) Q := by
  refine Sat.mono (Composite.load_sat (hc.1.wf hs.1) ?_) ?_
  · rw [← hc.1.len_eq, hs.2, nlimbs_mul]; exact hi
  · rintro l rfl; rw [hc.2]; exact hQ

theorem CVal.store {c0 c : Composite f} {N x i v : ℕ} (hs : CShape c0 N) (hc : CVal c0 x c)
    (hi : i < N) (hv : v < B) {Q : Composite f → Prop}
    (hQ : ∀ c', CVal c0 (upd x i v) c' → Q c') : Sat (c.store i v) Q := by
  refine Sat.mono (Composite.store_sat (hc.1.wf hs.1) ?_ hv ?_) ?_
  · rw [← hc.1.len_eq, hs.2, nlimbs_mul]; exact hi
  · rw [← hc.1.len_eq, hs.2]
    refine lt_of_lt_of_le hv ?_
    rw [B_eq_256_pow]
    refine Nat.pow_le_pow_right (by norm_num) ?_
    rw [← Nat.sub_mul]
    exact Nat.le_mul_of_pos_left _ (by omega)
  · rintro c' ⟨h1, h2⟩
    exact hQ c' ⟨hc.1.trans h1, by rw [h2, hc.2]⟩

theorem lowN_offset {x j i y r : ℕ} :
    x % B ^ j + B ^ j * y + B ^ (j + i) * r = x % B ^ j + B ^ j * (y + B ^ i * r) := by
  rw [pow_add]; ring

theorem lowN_start (x j : ℕ) : LowN x (x % B ^ j + B ^ j * 0) (j + 0) x := by
  simpa using LowN.self x j

/-- The subtraction loop of a division step. -/
theorem div_sub_loop {d : CtMpDivisor g} {V : ℕ} (hd : d.Ok V) {c0 c : Composite f} {N x j q : ℕ}
    (hs : CShape c0 N) (hc : CVal c0 x c) (hj : j + ct_mp_nlimbs d.v_len < N) (hq : q < B) :
    Sat (M.forRange 0 (ct_mp_nlimbs d.v_len) (c, d.decrement, 0, 0)
      fun i (u_parts, v_decrement_borrow, scaled_v_carry, borrow) => do
        let u_val ← u_parts.load (j + i)
        let (v_decrement_borrow, scaled_v_carry, borrow, u_val) ←
          d.sub_scaled_qv_val u_val i q v_decrement_borrow scaled_v_carry borrow
        let u_parts ← u_parts.store (j + i) u_val
        pure (u_parts, v_decrement_borrow, scaled_v_carry, borrow))
      (fun s => ∃ x' y, CVal c0 x' s.1 ∧
        LowN x (x % B ^ j + B ^ j * y) (j + ct_mp_nlimbs d.v_len) x' ∧
        CtMpDivisor.Ok.SubI d V q (x / B ^ j) (ct_mp_nlimbs d.v_len) y s.2.1 s.2.2.1 s.2.2.2) := by
  refine Sat.forRange (P := fun i (s : Composite f × ℕ × ℕ × ℕ) => ∃ x' y, CVal c0 x' s.1 ∧
        LowN x (x % B ^ j + B ^ j * y) (j + i) x' ∧
        CtMpDivisor.Ok.SubI d V q (x / B ^ j) i y s.2.1 s.2.2.1 s.2.2.2) (Nat.zero_le _) ?_ ?_
  · exact ⟨x, 0, hc, lowN_start x j, hd.sub_zero _ _⟩
  · rintro i ⟨c, vdb, svc, b⟩ - hi ⟨x', y, h1, h2, h3⟩
    dsimp only at h1 h2 h3 ⊢
    refine Sat.bind (P := fun l => l = x / B ^ j / B ^ i % B)
      (h1.load hs (by omega) (by rw [h2.dig, div_pow_add])) fun l hl => ?_
    subst l
    refine Sat.bind (hd.sub_step_sat hi hq h3) ?_
    rintro ⟨vdb', svc', b', r⟩ ⟨h4, h5⟩
    dsimp only at h4 h5 ⊢
    refine Sat.bind (P := fun c' => CVal c0 (upd x' (j + i) r) c')
      (h1.store hs (by omega) h4 fun c' hc' => hc') fun c' hc' => ?_
    refine Sat.pure ⟨_, _, hc', ?_, h5⟩
    have := h2.upd h4
    rwa [lowN_offset] at this

/-- The addition loop of a division step. -/
theorem div_add_loop {d : CtMpDivisor g} {V : ℕ} (hd : d.Ok V) {c0 c : Composite f} {N x j : ℕ}
    {cond : Bool} (hs : CShape c0 N) (hc : CVal c0 x c) (hj : j + ct_mp_nlimbs d.v_len < N) :
    Sat (M.forRange 0 (ct_mp_nlimbs d.v_len) (c, d.decrement, 0)
      fun i (u_parts, v_decrement_borrow, carry) => do
        let u_val ← u_parts.load (j + i)
        let (v_decrement_borrow, carry, u_val) ←
          d.add_scaled_v_val_cond u_val i v_decrement_borrow carry (.ofBool cond)
        let u_parts ← u_parts.store (j + i) u_val
        pure (u_parts, v_decrement_borrow, carry))
      (fun s => ∃ x' y, CVal c0 x' s.1 ∧
        LowN x (x % B ^ j + B ^ j * y) (j + ct_mp_nlimbs d.v_len) x' ∧
        CtMpDivisor.Ok.AddI d V cond (x / B ^ j) (ct_mp_nlimbs d.v_len) y s.2.1 s.2.2) := by
  refine Sat.forRange (P := fun i (s : Composite f × ℕ × ℕ) => ∃ x' y, CVal c0 x' s.1 ∧
        LowN x (x % B ^ j + B ^ j * y) (j + i) x' ∧
        CtMpDivisor.Ok.AddI d V cond (x / B ^ j) i y s.2.1 s.2.2) (Nat.zero_le _) ?_ ?_
  · exact ⟨x, 0, hc, lowN_start x j, hd.add_zero _ _⟩
  · rintro i ⟨c, vdb, k⟩ - hi ⟨x', y, h1, h2, h3⟩
    dsimp only at h1 h2 h3 ⊢
    refine Sat.bind (P := fun l => l = x / B ^ j / B ^ i % B)
      (h1.load hs (by omega) (by rw [h2.dig, div_pow_add])) fun l hl => ?_
    subst l
    refine Sat.bind (hd.add_step_sat hi h3) ?_
    rintro ⟨vdb', k', r⟩ ⟨h4, h5⟩
    dsimp only at h4 h5 ⊢
    refine Sat.bind (P := fun c' => CVal c0 (upd x' (j + i) r) c')
      (h1.store hs (by omega) h4 fun c' hc' => hc') fun c' hc' => ?_
    refine Sat.pure ⟨_, _, hc', ?_, h5⟩
    have := h2.upd h4
    rwa [lowN_offset] at this

theorem div_step_sat {d : CtMpDivisor g} {V : ℕ} (hd : d.Ok V) {c0 c : Composite f} {N U j : ℕ}
    {q0 q : Option (Buf h)}
    (hs : CShape c0 N) (hc : CVal c0 (U % (B ^ (j + 1) * (V * 2 ^ d.scaling_shift))) c)
    (hj : j + ct_mp_nlimbs d.v_len < N)
    (hqf : QFits q0 (U / (V * 2 ^ d.scaling_shift))) (hqj : ∀ b ∈ q0, j ≤ b.nlimbs)
    (hq : QInv q0 (U / (V * 2 ^ d.scaling_shift)) (j + 1) q) :
    Sat (div_step d j (c, q)) (OkErr (fun s =>
      CVal c0 (U % (B ^ j * (V * 2 ^ d.scaling_shift))) s.1 ∧
      QInv q0 (U / (V * 2 ^ d.scaling_shift)) j s.2)
      (QErr q0 (U / (V * 2 ^ d.scaling_shift)))) := by
  unfold div_step
  dsimp only
  have hV := hd.scaled_pos
  have hVB := hd.lt
  have hn := hd.n_pos
  have hZlt := window_lt (U := U) (j := j) hV
  have hZdiv := window_div U (V * 2 ^ d.scaling_shift) j
  have hZmod := window_mod U (V * 2 ^ d.scaling_shift) j
  have hmodn := hd.scaled_mod_n
  have hmodn' := hd.mod_n
  generalize hV' : V * 2 ^ d.scaling_shift = V' at *
  generalize U % (B ^ (j + 1) * V') = x at *
  generalize hn' : ct_mp_nlimbs d.v_len = n at *
  have hZB : x / B ^ j < B ^ (n + 1) := by
    refine lt_of_lt_of_le hZlt ?_
    rw [pow_succ]; exact Nat.mul_le_mul_right _ hVB.le
  have hxB : x < B ^ (j + n + 1) := by
    have := Nat.lt_mul_div_succ x (B_pow_pos j)
    refine lt_of_lt_of_le this ?_
    rw [show j + n + 1 = j + (n + 1) by omega, pow_add B j]
    exact Nat.mul_le_mul_left _ hZB
  refine Sat.bind (P := fun l => l = x / B ^ j / B ^ n)
    (hc.load hs (by omega) (by
      rw [show n + j = j + n by omega, div_pow_add, Nat.mod_eq_of_lt]
      rw [Nat.div_lt_iff_lt_mul (B_pow_pos _), ← pow_succ']; exact hZB)) fun u0 hu0 => ?_
  rw [M.sub_eq (by omega), M.pure_bind]
  refine Sat.bind (P := fun l => l = x / B ^ j / B ^ (n - 1) % B)
    (hc.load hs (by omega) (by rw [show n + j - 1 = j + (n - 1) by omega, div_pow_add]))
    fun u1 hu1 => ?_
  refine Sat.bind (P := fun l => l < B ∧ (2 ≤ n → l = x / B ^ j / B ^ (n - 2) % B)) ?_ ?_
  · refine Sat.cond (fun h2 => ?_) fun h2 => ?_
    · refine hc.load hs (by omega) ⟨dig_lt _ _, fun h3 => ?_⟩
      rw [show n + j - 2 = j + (n - 2) by omega, div_pow_add]
    · exact Sat.pure ⟨B_pos, fun h3 => by omega⟩
  rintro u2 ⟨hu2, hu2'⟩
  refine Sat.bind (hd.make_q_estimate_sat (U := x / B ^ j) (by rw [hV']; exact hZlt)
    (by rw [hn']; exact hu0) (by rw [hn']; exact hu1) hu2 (by rw [hn']; exact hu2')) ?_
  rintro qe ⟨hq1, hq2, hq3⟩
  rw [hV'] at hq2 hq3
  have hloop := div_sub_loop hd hs hc (j := j) (q := qe) (by rw [hn']; exact hj) hq1
  rw [hn'] at hloop
  refine Sat.bind hloop ?_
  rintro ⟨c1, vdb, svc, b⟩ ⟨x1, y, h1, h2, h3⟩
  dsimp only at h1 h2 h3 ⊢
  rw [M.assert_eq (hd.svc_n (by rw [hn']; exact h3.svc)), M.pure_bind]
  have hZn : x / B ^ j / B ^ n < B := by
    rw [Nat.div_lt_iff_lt_mul (B_pow_pos _), ← pow_succ']; exact hZB
  refine Sat.bind (P := fun l => l = x / B ^ j / B ^ n)
    (h1.load hs (by omega) (by rw [h2.dig, div_pow_add, Nat.mod_eq_of_lt hZn])) fun l hl => ?_
  subst l
  obtain ⟨w, t, e1, hw, ht, e2, -⟩ := ct_sub_l_l_spec hZn h3.b_lt
  rw [e1]
  dsimp only
  refine Sat.bind (P := fun c' => CVal c0 (upd x1 (j + n) t) c')
    (h1.store hs (by omega) ht fun c' hc' => hc') fun c2 hc2 => ?_
  have h3eq := h3.eq
  rw [hV', hmodn] at h3eq
  obtain ⟨k1, k2, k3, k4⟩ := div_sub_final hV h3eq h3.lt e2 ht hw hq2 hq3
  have hx2 : upd x1 (j + n) t = x % B ^ j + B ^ j * (y + B ^ n * t) := by
    have := (h2.upd ht).final hxB
    rwa [lowN_offset] at this
  rw [hx2] at hc2
  generalize hZ1 : y + B ^ n * t = Z1 at *
  rw [from'_le_one hw, M.pure_bind]
  refine Sat.bindE (store_q_sat hqf hqj hq hw k1 (by rw [k2, hZdiv])) ?_
  intro q' hq'
  have hloop2 := div_add_loop hd (j := j) (cond := decide (w = 1)) hs hc2 (by rw [hn']; exact hj)
  rw [hn'] at hloop2
  refine Sat.bind hloop2 ?_
  rintro ⟨c3, vdb', k⟩ ⟨x3, y2, h4, h5, h6⟩
  dsimp only at h4 h5 h6 ⊢
  have hmj : (x % B ^ j + B ^ j * Z1) / B ^ j = Z1 := by
    rw [Nat.add_mul_div_left _ _ (B_pow_pos j), Nat.div_eq_of_lt (mod_lt_pow _ _), Nat.zero_add]
  have hmm : (x % B ^ j + B ^ j * Z1) % B ^ j = x % B ^ j := by
    rw [Nat.add_mul_mod_self_left, Nat.mod_eq_of_lt (mod_lt_pow _ _)]
  have hZ1n : Z1 / B ^ n < B := by
    rw [Nat.div_lt_iff_lt_mul (B_pow_pos _), ← pow_succ']; exact k4
  rw [hmm] at h5
  rw [hmj] at h6
  refine Sat.bind (P := fun l => l = Z1 / B ^ n)
    (h4.load hs (by omega) (by
      rw [h5.dig, div_pow_add, hmj, Nat.mod_eq_of_lt hZ1n])) fun l hl => ?_
  subst l
  have hkB : k < B := lt_of_le_of_lt h6.k_le (two_pow_lt_B hd.shift_lt)
  rw [ct_add_l_l_eq hZ1n hkB]
  dsimp only
  have hmB : (Z1 / B ^ n + k) % B < B := Nat.mod_lt _ B_pos
  refine Sat.bind (P := fun c' => CVal c0 (upd x3 (j + n) ((Z1 / B ^ n + k) % B)) c')
    (h4.store hs (by omega) hmB fun c' hc' => hc') fun c4 hc4 => ?_
  refine Sat.pure ⟨?_, hq'⟩
  have h6eq := h6.eq
  simp only [decide_eq_true_eq] at h6eq
  rw [hmodn', hV'] at h6eq
  have hfin := div_add_final (t := Z1 / B ^ n) hV hVB k1 k2 hw k3 rfl h6eq h6.lt
  have hx1B : x % B ^ j + B ^ j * Z1 < B ^ (j + n + 1) := by
    have h7 := mod_lt_pow x j
    have h8 : B ^ j * (Z1 + 1) ≤ B ^ j * B ^ (n + 1) := Nat.mul_le_mul_left _ k4
    rw [Nat.mul_add, mul_one] at h8
    rw [show j + n + 1 = j + (n + 1) by omega, pow_add B j]
    omega
  have hx4 : upd x3 (j + n) ((Z1 / B ^ n + k) % B) = U % (B ^ j * V') := by
    have := (h5.upd hmB).final hx1B
    rw [lowN_offset, hfin] at this
    rw [this, hZmod]
  rw [hx4] at hc4
  exact hc4

theorem Buf.zeros_toNat (f : Fmt) (n : ℕ) : (Buf.zeros f n).toNat = 0 := by
  cases f <;> simp [Buf.zeros, Buf.toNat]

theorem Buf.zeros_len {f : Fmt} {n : ℕ} (hn : f.unaligned = true ∨ LB ∣ n) :
    (Buf.zeros f n).len = n := by
  cases f
  · simp [Buf.zeros, Buf.len, Buf.n_backing_elements_for_len, Buf._limbs_align_len, Fmt.usz,
      Fmt.unaligned, Nat.mod_one]
  · simp [Buf.zeros, Buf.len, Buf.n_backing_elements_for_len, Buf._limbs_align_len, Fmt.usz,
      Fmt.unaligned, Nat.mod_one]
  · obtain ⟨k, rfl⟩ : LB ∣ n := by simpa [Fmt.unaligned] using hn
    have : ct_mp_limbs_align_len (LB * k) = LB * k := by
      unfold ct_mp_limbs_align_len
      rw [Nat.mul_comm LB k, nlimbs_mul]
    simp [Buf.zeros, Buf.len, Buf.n_backing_elements_for_len, Buf._limbs_align_len, Fmt.usz,
      Fmt.unaligned, this, LB_pos]
    exact Nat.mul_comm _ _

/-- The quotient limbs fit above the divisor's in the dividend extended by one limb. -/
theorem nlimbs_split {a b : ℕ} (ha : 0 < a) :
    ct_mp_nlimbs a + ct_mp_nlimbs (b + 1) ≤ ct_mp_nlimbs (a + b) + 1 := by
  have h1 := nlimbs_pos_iff.2 ha
  have h2 := nlimbs_pos_iff.2 (Nat.succ_pos b)
  have h3 : (ct_mp_nlimbs a - 1) * LB < a := lt_nlimbs_iff.1 (by omega)
  have h4 : (ct_mp_nlimbs (b + 1) - 1) * LB < b + 1 := lt_nlimbs_iff.1 (by
    have := h2; simp only [Nat.succ_eq_add_one] at this; omega)
  have h5 : (ct_mp_nlimbs a - 1 + (ct_mp_nlimbs (b + 1) - 1)) * LB < a + b := by
    rw [Nat.add_mul]; omega
  have h6 := lt_nlimbs_iff.2 h5
  simp only [Nat.succ_eq_add_one] at h2
  omega

theorem nlimbs_succ_le (n : ℕ) : ct_mp_nlimbs (n + 1) ≤ ct_mp_nlimbs n + 1 := by
  have h1 := le_nlimbs_mul n
  have := LB_pos
  exact nlimbs_le_iff.2 (by rw [Nat.add_mul]; omega)

/-- The padding of the dividend to whole limbs. -/
theorem pad_len (n : ℕ) :
    n + (if n % LB = 0 then 0 else LB - n % LB) = ct_mp_nlimbs n * LB := by
  have hd := Nat.div_add_mod' n LB
  have hm := Nat.mod_lt n LB_pos
  have e : ct_mp_nlimbs n = n / LB + ct_mp_nlimbs (n % LB) := by
    conv_lhs => rw [← hd]
    exact Composite.nlimbs_add_mul _ _
  split
  · rename_i h0
    rw [h0] at hd
    rw [e, h0, nlimbs_zero, Nat.add_zero, Nat.add_zero]
    omega
  · rename_i h0
    rw [e, Composite.nlimbs_one (by omega) hm.le, Nat.add_mul]; omega

theorem div_quot_lt {d : CtMpDivisor g} {V : ℕ} (hd : d.Ok V) {U n : ℕ} (hU : U < 256 ^ n)
    (hn : d.v_len ≤ n) : U / V < 256 ^ (n + 1 - d.v_len) := by
  rw [Nat.div_lt_iff_lt_mul hd.pos]
  have h1 := hd.len_pos
  calc U < 256 ^ n := hU
    _ = 256 ^ (n + 1 - d.v_len) * 256 ^ (d.v_len - 1) := by rw [← pow_add]; congr 1; omega
    _ ≤ _ := Nat.mul_le_mul_left _ hd.lo

/-- The scaling loop. -/
theorem div_scale_loop {d : CtMpDivisor g} {V : ℕ} (hd : d.Ok V) {c0 : Composite f} {N U : ℕ}
    (hs : CShape c0 N) (hc : c0.toNat = U) (hU : U * 2 ^ d.scaling_shift < B ^ N) :
    Sat (M.forRange 0 N (c0, 0) fun i (u_parts, carry) => do
        let u_val ← u_parts.load i
        let (carry, u_val) ← d.scale_val u_val carry
        let u_parts ← u_parts.store i u_val
        pure (u_parts, carry))
      (fun s => CVal c0 (U * 2 ^ d.scaling_shift) s.1 ∧ s.2 = 0) := by
  have hUN : U < B ^ N := lt_of_le_of_lt (Nat.le_mul_of_pos_right _ (Nat.two_pow_pos _)) hU
  refine Sat.mono (Sat.forRange (P := fun i (s : Composite f × ℕ) => ∃ x, CVal c0 x s.1 ∧
    LowN U (U * 2 ^ d.scaling_shift % B ^ i) i x ∧ Svc U d.scaling_shift i s.2)
    (Nat.zero_le _) ?_ ?_) ?_
  · exact ⟨U, ⟨Composite.Same.refl _, hc⟩, by simpa [Nat.mod_one] using LowN.self U 0, Svc.zero⟩
  · rintro i ⟨c, k⟩ - hi ⟨x, h1, h2, h3⟩
    dsimp only at h1 h2 h3 ⊢
    refine Sat.bind (P := fun l => l = U / B ^ i % B) (h1.load hs hi h2.dig) fun l hl => ?_
    subst l
    rw [hd.scale_val_eq (dig_lt _ _) h3.le, M.pure_bind]
    dsimp only
    rw [h3.step.2]
    refine Sat.bind (P := fun c' => CVal c0 (upd x i (U * 2 ^ d.scaling_shift / B ^ i % B)) c')
      (h1.store hs hi (dig_lt _ _) fun c' hc' => hc') fun c' hc' => ?_
    refine Sat.pure ⟨_, hc', ?_, h3.step.1⟩
    have := h2.upd (dig_lt (U * 2 ^ d.scaling_shift) i)
    rwa [← mod_succ] at this
  · rintro ⟨c, k⟩ ⟨x, h1, h2, h3⟩
    dsimp only at h1 h2 h3 ⊢
    have h4 := h2.final hUN
    rw [Nat.mod_eq_of_lt hU] at h4
    refine ⟨h4 ▸ h1, ?_⟩
    rw [h3, Nat.mod_eq_of_lt hUN, Nat.div_eq_of_lt hU]

/-- The unscaling loop. -/
theorem div_unscale_loop {d : CtMpDivisor g} {V : ℕ} (hd : d.Ok V) {c0 c : Composite f} {N x : ℕ}
    (hs : CShape c0 N) (hc : CVal c0 x c) (hn : ct_mp_nlimbs d.v_len ≤ N)
    (hx : x < B ^ ct_mp_nlimbs d.v_len) :
    Sat (M.forDown (ct_mp_nlimbs d.v_len) (c, 0) fun j (u_parts, u_h) => do
          let u_l ← u_parts.load j
          let u_val ← d.unscale_val u_l u_h
          let u_parts ← u_parts.store j u_val
          pure (u_parts, u_l))
      (fun s => CVal c0 (x / 2 ^ d.scaling_shift) s.1) := by
  refine Sat.mono (Sat.forDown (P := fun i (s : Composite f × ℕ) => ∃ y, CVal c0 y s.1 ∧
    y % B ^ i = x % B ^ i ∧ y / B ^ i = x / 2 ^ d.scaling_shift / B ^ i ∧
    s.2 = x / B ^ i % B) ?_ ?_) ?_
  · refine ⟨x, hc, rfl, ?_, ?_⟩
    · have h2 : x / 2 ^ d.scaling_shift ≤ x := Nat.div_le_self _ _
      rw [Nat.div_eq_of_lt hx, Nat.div_eq_of_lt (by omega)]
    · rw [Nat.div_eq_of_lt hx]; rfl
  · rintro i ⟨c, u⟩ hi ⟨y, h1, h2, h3, h4⟩
    dsimp only at h1 h2 h3 h4 ⊢
    have h5 : y / B ^ i % B = x / B ^ i % B := by
      rw [← Nat.mod_mul_right_div_self, ← Nat.mod_mul_right_div_self, ← pow_succ, h2]
    refine Sat.bind (P := fun l => l = x / B ^ i % B) (h1.load hs (by omega) h5) fun l hl => ?_
    subst l
    subst u
    rw [hd.unscale_val_eq (dig_lt _ _), M.pure_bind, unscale_dig x i hd.shift_lt]
    refine Sat.bind (P := fun c' => CVal c0 (upd y i (x / 2 ^ d.scaling_shift / B ^ i % B)) c')
      (h1.store hs (by omega) (dig_lt _ _) fun c' hc' => hc') fun c' hc' => ?_
    refine Sat.pure ⟨_, hc', ?_, ?_, rfl⟩
    · rw [upd_mod _ _ _ le_rfl, ← Nat.mod_mod_of_dvd y (pow_dvd_pow B (Nat.le_succ i)), h2,
        Nat.mod_mod_of_dvd x (pow_dvd_pow B (Nat.le_succ i))]
    · rw [upd_div_le, h3]; exact (div_succ _ i).symm
  · rintro ⟨c, u⟩ ⟨y, h1, h2, h3, h4⟩
    dsimp only at h1 h3 ⊢
    simp only [pow_zero, Nat.div_one] at h3
    exact h3 ▸ h1

/-- The error of `ct_div_mp_mp`. -/
def DivErr (q0 : Option (Buf h)) (Q lim : ℕ) (e : DivError) : Prop :=
  e = .InsufficientQuotientSpace ∧ ∃ b ∈ q0, b.len < lim ∨ B ^ b.nlimbs ≤ Q

theorem ct_div_mp_mp_sat {d : CtMpDivisor g} {V : ℕ} (hd : d.Ok V) (u_h : Option (Buf f))
    (u_l : Buf f) (q0 : Option (Buf h)) {U ulen : ℕ}
    (hU : U = u_l.toNat + 256 ^ u_l.len * (u_h.map Buf.toNat).getD 0)
    (hul : ulen = u_l.len + (u_h.map Buf.len).getD 0)
    (hq : ∀ b ∈ q0, U / V < 256 ^ b.len ∨ B ^ b.nlimbs ≤ U / V ∨ b.len + d.v_len < ulen) :
    Sat (ct_div_mp_mp u_h u_l d q0) (OkErr (fun r =>
      r.1.map Buf.len = u_h.map Buf.len ∧ r.2.1.len = u_l.len ∧
      r.2.1.toNat + 256 ^ u_l.len * (r.1.map Buf.toNat).getD 0 = U % V ∧
      r.2.2.map Buf.len = q0.map Buf.len ∧ ∀ b ∈ r.2.2, b.toNat = U / V)
      (DivErr q0 (U / V) (ulen - d.v_len))) := by
  have hz0 : (Buf.zeros f 0).len = 0 := Buf.zeros_len (Or.inr (Dvd.intro 0 rfl))
  have hhl : (u_h.getD (Buf.zeros f 0)).len = (u_h.map Buf.len).getD 0 := by
    cases u_h with
    | none => exact hz0
    | some b => rfl
  have hhn : (u_h.getD (Buf.zeros f 0)).toNat = (u_h.map Buf.toNat).getD 0 := by
    cases u_h with
    | none => exact Buf.zeros_toNat _ _
    | some b => rfl
  unfold ct_div_mp_mp
  dsimp only
  rw [← hhl] at hul
  rw [← hhn] at hU
  rw [← hul]
  have hU256 : U < 256 ^ ulen := by
    have h1 := u_l.toNat_lt
    have h2 := (u_h.getD (Buf.zeros f 0)).toNat_lt
    rw [hU, hul, pow_add]
    have h3 : 256 ^ u_l.len * ((u_h.getD (Buf.zeros f 0)).toNat + 1) ≤
      256 ^ u_l.len * 256 ^ (u_h.getD (Buf.zeros f 0)).len := Nat.mul_le_mul_left _ h2
    rw [Nat.mul_add, mul_one] at h3
    omega
  refine Sat.cond (fun hc => ?_) fun hc => ?_
  · obtain ⟨b, hb, hlt⟩ := hc
    exact Sat.pure ⟨rfl, b, hb, Or.inl (by omega)⟩
  have hc' : ∀ b ∈ q0, ulen ≤ b.len + d.v_len := fun b hb => by
    by_contra hlt
    exact hc ⟨b, hb, by omega⟩
  have hqf : QFits q0 (U / V) := fun b hb => by
    rcases hq b hb with h1 | h1 | h1
    · exact Or.inl h1
    · exact Or.inr h1
    · exact absurd (hc' b hb) (by omega)
  refine Sat.cond (fun hlt => ?_) fun hge => ?_
  · have hUV : U < V := by
      refine lt_of_lt_of_le hU256 (le_trans ?_ hd.lo)
      exact Nat.pow_le_pow_right (by norm_num) (by omega)
    rw [Nat.div_eq_of_lt hUV]
    refine Sat.bind (clear_q_sat (q0 := q0) (Q := 0) (n := 0) (by norm_num)) fun q hq' => ?_
    rw [nlimbs_zero] at hq'
    refine Sat.pure ⟨rfl, rfl, ?_, hq'.final⟩
    dsimp only
    rw [Nat.mod_eq_of_lt hUV, hU, hhn]
  have hvle : d.v_len ≤ ulen := by omega
  have hQlt := div_quot_lt hd hU256 hvle
  refine Sat.bind (clear_q_sat (q0 := q0) (n := ulen + 1 - d.v_len) hQlt) fun q1 hq1 => ?_
  have hpad := pad_len ulen
  set pad := (if ulen % LB = 0 then 0 else LB - ulen % LB) with hpaddef
  have hzl : (Buf.zeros f (LB + pad)).len = LB + pad := by
    refine Buf.zeros_len ?_
    by_cases hu : f.unaligned = true
    · exact Or.inl hu
    · right
      have h1 := u_l.aligned (by simpa using hu)
      have h2 := (u_h.getD (Buf.zeros f 0)).aligned (by simpa using hu)
      have h3 : LB ∣ ulen := by
        rw [hul, h1, h2]
        exact Dvd.dvd.add (Dvd.intro_left _ rfl) (Dvd.intro_left _ rfl)
      have h4 : pad = 0 := by rw [hpaddef, if_pos (Nat.mod_eq_zero_of_dvd h3)]
      rw [h4]; exact ⟨1, by omega⟩
  refine Sat.bind (Composite.new_sat _) ?_
  rintro c0 ⟨hwf, hlen, hval, hparts⟩
  have hvalU : c0.toNat = U := by
    rw [hval, hU]
    simp [catNat, Buf.zeros_toNat]
  have hlen' : c0.len = (ct_mp_nlimbs ulen + 1) * LB := by
    rw [hlen]
    simp only [catLen, List.map_cons, List.map_nil, List.sum_cons, List.sum_nil, hzl]
    rw [Nat.add_mul, one_mul, ← hpad, hul]; omega
  have hs : CShape c0 (ct_mp_nlimbs ulen + 1) := ⟨hwf, hlen'⟩
  have hUB : U < B ^ ct_mp_nlimbs ulen := lt_of_lt_of_le hU256 (pow_len_le _)
  have hU'B : U * 2 ^ d.scaling_shift < B ^ (ct_mp_nlimbs ulen + 1) := by
    rw [pow_succ]
    exact Nat.mul_lt_mul_of_lt_of_le hUB (two_pow_lt_B hd.shift_lt).le B_pos
  refine Sat.bind (div_scale_loop hd hs hvalU hU'B) ?_
  rintro ⟨c1, k⟩ ⟨hc1, hk⟩
  dsimp only at hc1 hk ⊢
  rw [M.assert_eq hk, M.pure_bind]
  have hsplit := nlimbs_split (a := d.v_len) (b := ulen - d.v_len) hd.len_pos
  rw [show d.v_len + (ulen - d.v_len) = ulen by omega,
    show ulen - d.v_len + 1 = ulen + 1 - d.v_len by omega] at hsplit
  have hQ' : U * 2 ^ d.scaling_shift / (V * 2 ^ d.scaling_shift) = U / V := scaled_div _ _ _
  have hstart : U * 2 ^ d.scaling_shift %
      (B ^ ct_mp_nlimbs (ulen + 1 - d.v_len) * (V * 2 ^ d.scaling_shift))
      = U * 2 ^ d.scaling_shift := by
    refine Nat.mod_eq_of_lt ?_
    rw [← Nat.div_lt_iff_lt_mul hd.scaled_pos, hQ']
    exact lt_of_lt_of_le hQlt (pow_len_le _)
  refine Sat.bindE (P := fun s : Composite f × Option (Buf h) =>
    CVal c0 (U * 2 ^ d.scaling_shift % (V * 2 ^ d.scaling_shift)) s.1 ∧ QInv q0 (U / V) 0 s.2) ?_ ?_
  · have hl := Sat.forDownE (f := div_step (f := f) (h := h) d) (P := fun j s =>
      CVal c0 (U * 2 ^ d.scaling_shift % (B ^ j * (V * 2 ^ d.scaling_shift))) s.1 ∧
        QInv q0 (U / V) j s.2) (E := QErr q0 (U / V))
      (hi := ct_mp_nlimbs (ulen + 1 - d.v_len)) (s := (c1, q1))
      ⟨by rw [hstart]; exact hc1, hq1⟩ ?_
    · refine hl.mono ?_
      rintro (e | ⟨c, q⟩) hr
      · obtain ⟨h1, b, hb, h2⟩ := hr
        exact ⟨h1, b, hb, Or.inr h2⟩
      · obtain ⟨h1, h2⟩ := hr
        dsimp only at h1 h2
        rw [pow_zero, one_mul] at h1
        exact ⟨h1, h2⟩
    · rintro j ⟨c, q⟩ hj ⟨h1, h2⟩
      have := div_step_sat hd (U := U * 2 ^ d.scaling_shift) (j := j) (q0 := q0) (q := q) hs h1
        (by omega) (by rw [hQ']; exact hqf) (fun b hb => by
          have h3 := hc' b hb
          have h4 : ct_mp_nlimbs (ulen + 1 - d.v_len) ≤ ct_mp_nlimbs (b.len + 1) :=
            nlimbs_mono (by omega)
          have h5 := nlimbs_succ_le b.len
          rw [Buf.nlimbs_eq]; omega) (by rw [hQ']; exact h2)
      rw [hQ'] at this
      exact this
  rintro ⟨c2, q2⟩ ⟨hc2, hq2⟩
  dsimp only at hc2 hq2 ⊢
  have hrV : U * 2 ^ d.scaling_shift % (V * 2 ^ d.scaling_shift) < B ^ ct_mp_nlimbs d.v_len :=
    lt_trans (Nat.mod_lt _ hd.scaled_pos) hd.lt
  have hnu : ct_mp_nlimbs d.v_len ≤ ct_mp_nlimbs ulen := nlimbs_mono hvle
  rw [M.assertM_eq ?_, M.pure_bind]
  swap
  · refine Sat.forRange (P := fun _ (s : Bool) => s = true) (by omega) rfl ?_
    rintro i ok hi hi2 rfl
    refine Sat.bind (P := fun l => l = 0) (hc2.load hs hi2 ?_) fun l hl => ?_
    · rw [Nat.div_eq_of_lt]
      · rfl
      · exact lt_of_lt_of_le hrV (Nat.pow_le_pow_right B_pos hi)
    · subst l; exact Sat.pure rfl
  refine Sat.bind (div_unscale_loop hd hs hc2 (by omega) hrV) ?_
  rintro ⟨c3, _⟩ hc3
  dsimp only at hc3 ⊢
  rw [scaled_mod] at hc3
  have hp := hc3.1.parts
  have hv3 := Composite.parts_val c3 (hc3.1.wf hs.1)
  rw [hc3.2] at hv3
  rw [hparts] at hp
  generalize c3.parts = ps at hp hv3 ⊢
  match ps, hp with
  | [], hp => simp at hp
  | [_], hp => simp at hp
  | [_, _], hp => simp at hp
  | _ :: _ :: _ :: _ :: _, hp => simp at hp
  | [a, b, p], hp =>
    simp only [List.map_cons, List.map_nil, List.cons.injEq, and_true] at hp
    obtain ⟨e1, e2, e3⟩ := hp
    have hm : U % V < 256 ^ ulen := lt_of_le_of_lt (Nat.mod_le _ _) hU256
    have hp0 : a.toNat + 256 ^ a.len * b.toNat = U % V := by
      simp only [catNat, Nat.mul_zero, Nat.add_zero] at hv3
      have hz : p.toNat = 0 := by
        by_contra hne
        have h1 : 1 ≤ p.toNat := by omega
        have h2 : 256 ^ ulen * 1 ≤ 256 ^ ulen * p.toNat := Nat.mul_le_mul_left _ h1
        rw [hul, pow_add] at h2
        rw [← e1, ← e2] at hv3
        have h3 : 256 ^ u_l.len * (b.toNat + 256 ^ (u_h.getD (Buf.zeros f 0)).len * p.toNat)
          = 256 ^ u_l.len * b.toNat +
            256 ^ u_l.len * 256 ^ (u_h.getD (Buf.zeros f 0)).len * p.toNat := by ring
        rw [hul, pow_add] at hm
        omega
      rw [hz, Nat.mul_zero, Nat.add_zero] at hv3
      exact hv3
    refine Sat.pure ⟨?_, e1.symm, ?_, hq2.final⟩
    · cases u_h with
      | none => rfl
      | some b' => simpa using e2.symm
    · dsimp only
      cases u_h with
      | none =>
        have hb0 : b.toNat = 0 := by
          have h1 := b.toNat_lt
          rw [← e2] at h1
          simp only [Option.getD_none, hz0, pow_zero] at h1
          omega
        rw [hb0] at hp0
        simpa using hp0
      | some b' => rw [e1]; simpa using hp0

theorem ct_mod_mp_mp_sat {d : CtMpDivisor g} {V : ℕ} (hd : d.Ok V) (u_h : Option (Buf f))
    (u_l : Buf f) :
    Sat (ct_mod_mp_mp u_h u_l d) (fun r =>
      r.1.map Buf.len = u_h.map Buf.len ∧ r.2.len = u_l.len ∧
      r.2.toNat + 256 ^ u_l.len * (r.1.map Buf.toNat).getD 0
        = (u_l.toNat + 256 ^ u_l.len * (u_h.map Buf.toNat).getD 0) % V) := by
  unfold ct_mod_mp_mp
  refine Sat.bind (ct_div_mp_mp_sat hd u_h u_l (none : Option (Buf .ne)) rfl rfl (by simp)) ?_
  rintro (e | ⟨a, b, c⟩) hr
  · obtain ⟨-, b, hb, -⟩ := hr
    simp at hb
  · exact Sat.pure ⟨hr.1, hr.2.1, hr.2.2.1⟩

end Cmpa
