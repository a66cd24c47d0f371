import Verif.Proofs.DivMp

/-!
# Division of a power of two
-/

set_option linter.unusedSectionVars false

namespace Cmpa
variable [LimbCfg] {f g h : Fmt}

open M

theorem dig_low {a T m i : ℕ} (hi : i < m) : (a + B ^ m * T) / B ^ i % B = a / B ^ i % B := by
  obtain ⟨k, rfl⟩ := Nat.exists_eq_add_of_le (Nat.succ_le_of_lt hi)
  rw [show B ^ (i.succ + k) * T = B ^ i * (B * (B ^ k * T)) by
    rw [Nat.succ_eq_add_one, pow_add, pow_succ]; ring,
    Nat.add_mul_div_left _ _ (B_pow_pos i), Nat.add_mul_mod_self_left]

theorem dig_at {a T m : ℕ} (ha : a < B ^ m) : (a + B ^ m * T) / B ^ m = T := by
  rw [Nat.add_mul_div_left _ _ (B_pow_pos m), Nat.div_eq_of_lt ha, Nat.zero_add]

/-- The subtraction loop on a buffer holding the window shifted by a limb. -/
theorem shift_sub_loop {d : CtMpDivisor g} {V : ℕ} (hd : d.Ok V) (b0 : Buf f) {q Z m : ℕ}
    (hq : q < B) (hm : m ≤ ct_mp_nlimbs d.v_len) (hl : m * LB ≤ b0.len) (hz : Z % B = 0)
    (hZ : ∀ i < m, Z / B ^ (i + 1) % B = b0.toNat / B ^ i % B) :
    Sat (M.forRange 0 m (b0, d.decrement, 0, 0, 0)
          fun i (r_out, vdb, svc, borrow, next_u_val) => do
            let u_val := next_u_val
            let next_u_val ← r_out.load_l_full i
            let (vdb, svc, borrow, u_val) ← d.sub_scaled_qv_val u_val i q vdb svc borrow
            let r_out ← r_out.store_l_full i u_val
            pure (r_out, vdb, svc, borrow, next_u_val))
      (fun s => ∃ y, Low b0 y m s.1 ∧
        CtMpDivisor.Ok.SubI d V q Z m y s.2.1 s.2.2.1 s.2.2.2.1 ∧ s.2.2.2.2 = Z / B ^ m % B) := by
  refine Sat.forRange (P := fun i (s : Buf f × ℕ × ℕ × ℕ × ℕ) => ∃ y, Low b0 y i s.1 ∧
        CtMpDivisor.Ok.SubI d V q Z i y s.2.1 s.2.2.1 s.2.2.2.1 ∧ s.2.2.2.2 = Z / B ^ i % B)
    (Nat.zero_le _) ?_ ?_
  · exact ⟨0, Low.zero b0, hd.sub_zero _ _, by rw [pow_zero, Nat.div_one, hz]⟩
  · rintro i ⟨b, vdb, svc, k, nx⟩ - hi ⟨y, h1, h2, h3⟩
    dsimp only at h1 h2 h3 ⊢
    subst nx
    have hil : i * LB + LB ≤ b0.len := by
      have := Nat.mul_le_mul_right LB (Nat.succ_le_of_lt hi)
      rw [Nat.succ_mul] at this; omega
    refine Sat.bind (P := fun l => l = Z / B ^ (i + 1) % B)
      (h1.sat_load_full hil le_rfl (hZ i hi).symm) fun l hl => ?_
    subst l
    refine Sat.bind (hd.sub_step_sat (by omega) hq h2) ?_
    rintro ⟨vdb', svc', k', r⟩ ⟨h4, h5⟩
    dsimp only at h4 h5 ⊢
    refine Sat.bind (P := fun b' => Low b0 (y + B ^ i * r) (i + 1) b')
      (h1.sat_store_full hil h4 fun b' hb' => hb') fun b' hb' => ?_
    exact Sat.pure ⟨_, hb', h5, rfl⟩

/-- The addition loop on a buffer. -/
theorem buf_add_loop {d : CtMpDivisor g} {V : ℕ} (hd : d.Ok V) (b0 : Buf f) {Z m : ℕ} {cond : Bool}
    (hm : m ≤ ct_mp_nlimbs d.v_len) (hl : m * LB ≤ b0.len)
    (hZ : ∀ i < m, Z / B ^ i % B = b0.toNat / B ^ i % B) :
    Sat (M.forRange 0 m (b0, d.decrement, 0)
      fun i (r_out, vdb, carry) => do
        let u_val ← r_out.load_l_full i
        let (vdb, carry, u_val) ← d.add_scaled_v_val_cond u_val i vdb carry (.ofBool cond)
        let r_out ← r_out.store_l_full i u_val
        pure (r_out, vdb, carry))
      (fun s => ∃ y, Low b0 y m s.1 ∧
        CtMpDivisor.Ok.AddI d V cond Z m y s.2.1 s.2.2) := by
  refine Sat.forRange (P := fun i (s : Buf f × ℕ × ℕ) => ∃ y, Low b0 y i s.1 ∧
        CtMpDivisor.Ok.AddI d V cond Z i y s.2.1 s.2.2) (Nat.zero_le _) ?_ ?_
  · exact ⟨0, Low.zero b0, hd.add_zero _ _⟩
  · rintro i ⟨b, vdb, k⟩ - hi ⟨y, h1, h2⟩
    dsimp only at h1 h2 ⊢
    have hil : i * LB + LB ≤ b0.len := by
      have := Nat.mul_le_mul_right LB (Nat.succ_le_of_lt hi)
      rw [Nat.succ_mul] at this; omega
    refine Sat.bind (P := fun l => l = Z / B ^ i % B)
      (h1.sat_load_full hil le_rfl (hZ i hi).symm) fun l hl => ?_
    subst l
    refine Sat.bind (hd.add_step_sat (by omega) h2) ?_
    rintro ⟨vdb', k', r⟩ ⟨h4, h5⟩
    dsimp only at h4 h5 ⊢
    refine Sat.bind (P := fun b' => Low b0 (y + B ^ i * r) (i + 1) b')
      (h1.sat_store_full hil h4 fun b' hb' => hb') fun b' hb' => ?_
    exact Sat.pure ⟨_, hb', h5⟩

theorem full_of_le {n m l : ℕ} (h : n ≤ l) (hm : m + 1 ≤ ct_mp_nlimbs n) : m * LB ≤ l := by
  have h1 : m < ct_mp_nlimbs n := hm
  have := lt_nlimbs_iff.1 h1
  omega

theorem pow2_sub_low_sat {d : CtMpDivisor g} {V : ℕ} (hd : d.Ok V) (b0 : Buf f) {q Z : ℕ}
    (hq : q < B) (hl : d.v_len ≤ b0.len) (hz : 2 ≤ ct_mp_nlimbs d.v_len → Z % B = 0)
    (hZ : ∀ i < ct_mp_nlimbs d.v_len - 2, Z / B ^ (i + 1) % B = b0.toNat / B ^ i % B) :
    Sat (pow2_sub_low d q b0) (fun s => ∃ y, Low b0 y (ct_mp_nlimbs d.v_len - 2) s.1 ∧
      s.2.2.2.2.1 + 1 = ct_mp_nlimbs d.v_len ∧ s.2.2.2.2.2 < B ∧
      (ct_mp_nlimbs d.v_len = 1 → s.2.2.2.2.2 = 0) ∧
      CtMpDivisor.Ok.SubI d V q Z (ct_mp_nlimbs d.v_len - 1)
        (y + B ^ (ct_mp_nlimbs d.v_len - 2) * s.2.2.2.2.2) s.2.1 s.2.2.1 s.2.2.2.1) := by
  have hn := hd.n_pos
  unfold pow2_sub_low
  refine Sat.cond (fun h2 => ?_) fun h2 => ?_
  · refine Sat.bind (shift_sub_loop hd b0 (m := ct_mp_nlimbs d.v_len - 2) hq (by omega)
      (full_of_le hl (by omega)) (hz h2) hZ) ?_
    rintro ⟨b, vdb, svc, k, nx⟩ ⟨y, h3, h4, h5⟩
    dsimp only at h3 h4 h5 ⊢
    subst nx
    refine Sat.bind (hd.sub_step_sat (by omega) hq h4) ?_
    rintro ⟨vdb', svc', k', r⟩ ⟨h6, h7⟩
    refine Sat.pure ⟨y, h3, by dsimp only; omega, h6, fun h8 => by omega, ?_⟩
    dsimp only at h7 ⊢
    rwa [show ct_mp_nlimbs d.v_len - 2 + 1 = ct_mp_nlimbs d.v_len - 1 by omega] at h7
  · have e : ct_mp_nlimbs d.v_len = 1 := by omega
    refine Sat.pure ⟨0, ?_, by dsimp only; omega, B_pos, fun _ => rfl, ?_⟩
    · rw [e]; exact Low.zero b0
    · rw [e]; exact hd.sub_zero _ _

/-- State of the main loop: the window of the dividend. -/
def Pow2I (U V' n len j : ℕ) (r : Buf f) (s0 s1 : ℕ) : Prop :=
  r.len = len ∧ r.toNat < B ^ (n - 2) ∧ s0 < B ∧ s1 < B ∧
    ((s1 * B + s0) * B ^ (n - 1) + r.toNat * B) * B ^ j = U % (B ^ j * V') * B

theorem pow2_step_sat {d : CtMpDivisor g} {V : ℕ} (hd : d.Ok V) {U j len : ℕ}
    {q0 q : Option (Buf h)} {r : Buf f} {s0 s1 : ℕ}
    (hi : Pow2I U (V * 2 ^ d.scaling_shift) (ct_mp_nlimbs d.v_len) len (j + 1) r s0 s1)
    (hl : d.v_len ≤ len)
    (hqf : QFits q0 (U / (V * 2 ^ d.scaling_shift))) (hqj : ∀ b ∈ q0, j ≤ b.nlimbs)
    (hq : QInv q0 (U / (V * 2 ^ d.scaling_shift)) (j + 1) q) :
    Sat (pow2_step d j (r, s0, s1, q)) (OkErr (fun s =>
      Pow2I U (V * 2 ^ d.scaling_shift) (ct_mp_nlimbs d.v_len) len j s.1 s.2.1 s.2.2.1 ∧
      QInv q0 (U / (V * 2 ^ d.scaling_shift)) j s.2.2.2)
      (QErr q0 (U / (V * 2 ^ d.scaling_shift)))) := by
  obtain ⟨hrl, hrB, hs0, hs1, hZ⟩ := hi
  rw [← hrl] at hl
  have hV := hd.scaled_pos
  have hVB := hd.lt
  have hn := hd.n_pos
  have hZlt := window_lt (U := U) (j := j) hV
  have hZdiv := window_div U (V * 2 ^ d.scaling_shift) j
  have hZmod := window_mod U (V * 2 ^ d.scaling_shift) j
  have hmodn := hd.scaled_mod_n
  have hmodn' := hd.mod_n
  unfold pow2_step
  dsimp only
  have hlow := fun q Z => pow2_sub_low_sat hd r (q := q) (Z := Z)
  have hsub := fun q Z y vdb svc b i => hd.sub_step_sat (q := q) (Z := Z) (y := y) (vdb := vdb)
    (svc := svc) (b := b) (i := i)
  generalize hV' : V * 2 ^ d.scaling_shift = V' at *
  generalize hn' : ct_mp_nlimbs d.v_len = n at *
  generalize hx : U % (B ^ (j + 1) * V') = x at *
  generalize hR : r.toNat = R at *
  have hZx : ((s1 * B + s0) * B ^ (n - 1) + R * B) * B ^ j = x := by
    rw [pow_succ, ← mul_assoc] at hZ
    exact Nat.eq_of_mul_eq_mul_right B_pos hZ
  clear hZ
  generalize hZe : (s1 * B + s0) * B ^ (n - 1) + R * B = Z at *
  have hxj : x / B ^ j = Z := by rw [← hZx]; exact Nat.mul_div_cancel _ (B_pow_pos _)
  have hxm : x % B ^ j = 0 := by rw [← hZx]; exact Nat.mul_mod_left _ _
  rw [hxj] at hZlt hZdiv hZmod
  rw [hxm, Nat.zero_add] at hZmod
  -- digits of the window
  have hZn : Z / B ^ n = s1 ∧ Z / B ^ (n - 1) % B = s0 ∧ (2 ≤ n → Z % B = 0) ∧
      (∀ i < n - 2, Z / B ^ (i + 1) % B = R / B ^ i % B) := by
    rcases Nat.lt_or_ge n 2 with h1 | h2
    · have e : n = 1 := by omega
      have e2 : n - 2 = 0 := by omega
      rw [e2, pow_zero] at hrB
      have hR0 : R = 0 := by omega
      rw [e2]
      rw [e, hR0, Nat.sub_self, pow_zero, mul_one, Nat.zero_mul, Nat.add_zero, Nat.add_comm,
        Nat.mul_comm] at hZe
      rw [e, ← hZe]
      refine ⟨?_, ?_, fun h => by omega, fun i hi => by omega⟩
      · have := dig_at (a := s0) (T := s1) (m := 1) (by rw [pow_one]; exact hs0)
        rwa [pow_one] at this ⊢
      · simp only [Nat.sub_self, pow_zero, Nat.div_one]
        rw [Nat.add_mul_mod_self_left, Nat.mod_eq_of_lt hs0]
    · obtain ⟨m, rfl⟩ := Nat.exists_eq_add_of_le' h2
      have hm2 : m + 2 - 2 = m := by omega
      have hm1 : m + 2 - 1 = m + 1 := by omega
      rw [hm2] at hrB ⊢
      rw [hm1] at hZe ⊢
      have e3 : Z = B * (R + B ^ m * (s0 + B * s1)) := by rw [← hZe, pow_succ]; ring
      have e4 : ∀ i, Z / B ^ (i + 1) = (R + B ^ m * (s0 + B * s1)) / B ^ i := by
        intro i
        rw [e3, pow_succ', Nat.mul_div_mul_left _ _ B_pos]
      refine ⟨?_, ?_, fun _ => ?_, fun i hi => ?_⟩
      · rw [show m + 2 = m + 1 + 1 by omega, e4, pow_succ, ← Nat.div_div_eq_div_mul, dig_at hrB,
          Nat.add_mul_div_left _ _ B_pos, Nat.div_eq_of_lt hs0, Nat.zero_add]
      · rw [e4, dig_at hrB, Nat.add_mul_mod_self_left, Nat.mod_eq_of_lt hs0]
      · rw [e3]; exact Nat.mul_mod_right _ _
      · rw [e4, dig_low hi]
  obtain ⟨hd1, hd2, hd3, hd4⟩ := hZn
  have hZB : Z < B ^ (n + 1) := by
    refine lt_of_lt_of_le hZlt ?_
    rw [pow_succ]; exact Nat.mul_le_mul_right _ hVB.le
  refine Sat.bind (P := fun l => l < B ∧ (2 ≤ n → l = Z / B ^ (n - 2) % B)) ?_ ?_
  · refine Sat.cond (fun h2 => ?_) fun h2 => ?_
    · refine Buf.sat_load_l_full r ?_ ⟨dig_lt _ _, fun h3 => ?_⟩
      · have h5 : (n - 2 - 1 + 1) * LB ≤ r.len := full_of_le hl (by rw [hn']; omega)
        rw [Nat.add_mul, one_mul] at h5
        exact h5
      · rw [hR, ← hd4 (n - 2 - 1) (by omega), show n - 2 - 1 + 1 = n - 2 by omega]
    · refine Sat.pure ⟨B_pos, fun h3 => ?_⟩
      have e : n = 2 := by omega
      rw [e, Nat.sub_self, pow_zero, Nat.div_one, hd3 h3]
  rintro u2 ⟨hu2, hu2'⟩
  refine Sat.bind (hd.make_q_estimate_sat (U := Z) (by rw [hV']; exact hZlt)
    (by rw [hn', hd1]) (by rw [hn', hd2]) hu2 (by rw [hn']; exact hu2')) ?_
  rintro qe ⟨hq1, hq2, hq3⟩
  rw [hV'] at hq2 hq3
  refine Sat.bind (hlow qe Z hq1 hl hd3 hd4) ?_
  rintro ⟨r1, vdb, svc, b, i, u⟩ ⟨y0, hr1, hin, huB, hu0, hS⟩
  dsimp only at hr1 hin huB hu0 hS ⊢
  rw [M.assert_eq hin, M.pure_bind]
  have ei : i = n - 1 := by omega
  subst i
  have hst := hsub qe Z _ _ _ _ _ (by omega : n - 1 < n) hq1 hS
  rw [hd2] at hst
  refine Sat.bind hst ?_
  rintro ⟨vdb1, svc1, b1, u1⟩ ⟨hu1B, hS1⟩
  dsimp only at hu1B hS1 ⊢
  rw [show n - 1 + 1 = n by omega] at hS1
  rw [M.assert_eq (hd.svc_n (by rw [hn']; exact hS1.svc)), M.pure_bind]
  obtain ⟨w, t, e1, hw, ht, e2, -⟩ := ct_sub_l_l_spec hs1 hS1.b_lt
  rw [e1]
  dsimp only
  rw [← hd1] at e2
  have h3eq := hS1.eq
  rw [hV', hmodn] at h3eq
  obtain ⟨k1, k2, k3, k4⟩ := div_sub_final hV h3eq hS1.lt e2 ht hw hq2 hq3
  have hwt : w ≠ 0 ∨ t = 0 := by
    by_contra hc
    have hw0 : w = 0 := by by_contra h; exact hc (Or.inl h)
    have ht0 : t ≠ 0 := fun h => hc (Or.inr h)
    rw [hw0, Nat.zero_mul, Nat.add_zero] at k3
    rw [hw0, Nat.sub_zero] at k2
    have h5 := Nat.div_add_mod Z V'
    rw [← k2, Nat.mul_comm] at h5
    have h6 := Nat.mod_lt Z hV
    have h7 : B ^ n * 1 ≤ B ^ n * t := Nat.mul_le_mul_left _ (by omega)
    omega
  rw [M.assert_eq hwt, M.pure_bind, from'_le_one hw, M.pure_bind]
  refine Sat.bindE (store_q_sat hqf hqj hq hw k1 (by rw [k2, hZdiv])) ?_
  intro q' hq'
  -- the window after the subtraction
  have hr1n : r1.toNat = y0 := by
    rw [hr1.toNat, hR, Nat.div_eq_of_lt hrB, Nat.mul_zero, Nat.add_zero]
  have hy0 : y0 < B ^ (n - 2) := hr1.lt
  generalize hZ1 : y0 + B ^ (n - 2) * u + B ^ (n - 1) * u1 + B ^ n * t = Z1 at *
  have hdig : (∀ i < n - 2, Z1 / B ^ i % B = r1.toNat / B ^ i % B) ∧
      (2 ≤ n → Z1 / B ^ (n - 2) % B = u) ∧ Z1 / B ^ (n - 1) % B = u1 ∧ Z1 / B ^ n = t := by
    rw [hr1n]
    rcases Nat.lt_or_ge n 2 with h1 | h2
    · have e : n = 1 := by omega
      have hy00 : y0 = 0 := by rw [e] at hy0; simpa using hy0
      refine ⟨fun i hi => by omega, fun h => by omega, ?_, ?_⟩
      · rw [← hZ1, hy00, hu0 e, e]
        simp [Nat.mod_eq_of_lt hu1B]
      · rw [← hZ1, hy00, hu0 e, e]
        have := dig_at (a := u1) (T := t) (m := 1) (by rw [pow_one]; exact hu1B)
        simpa using this
    · obtain ⟨m, rfl⟩ := Nat.exists_eq_add_of_le' h2
      rw [show m + 2 - 2 = m by omega] at *
      rw [show m + 2 - 1 = m + 1 by omega] at *
      have e3 : Z1 = y0 + B ^ m * (u + B * (u1 + B * t)) := by
        rw [← hZ1, show m + 2 = m + 1 + 1 by omega, pow_succ, pow_succ]; ring
      have e4 : Z1 / B ^ m = u + B * (u1 + B * t) := by rw [e3, dig_at hy0]
      have e5 : Z1 / B ^ (m + 1) = u1 + B * t := by
        rw [pow_succ, ← Nat.div_div_eq_div_mul, e4, Nat.add_mul_div_left _ _ B_pos,
          Nat.div_eq_of_lt huB, Nat.zero_add]
      refine ⟨fun i hi => ?_, fun _ => ?_, ?_, ?_⟩
      · rw [e3, dig_low hi]
      · rw [e4, Nat.add_mul_mod_self_left, Nat.mod_eq_of_lt huB]
      · rw [e5, Nat.add_mul_mod_self_left, Nat.mod_eq_of_lt hu1B]
      · rw [show m + 2 = m + 1 + 1 by omega, pow_succ, ← Nat.div_div_eq_div_mul, e5,
          Nat.add_mul_div_left _ _ B_pos, Nat.div_eq_of_lt hu1B, Nat.zero_add]
  obtain ⟨g1, g2, g3, g4⟩ := hdig
  have hloop := buf_add_loop hd r1 (Z := Z1) (cond := decide (w = 1)) (m := n - 2) (by omega)
    (by rw [hr1.len]
        rcases Nat.lt_or_ge n 2 with h1 | h2
        · rw [show n - 2 = 0 by omega, Nat.zero_mul]; exact Nat.zero_le _
        · exact full_of_le hl (by omega)) g1
  refine Sat.bind hloop ?_
  rintro ⟨r2, vdb2, c2⟩ ⟨y1, hr2, hA⟩
  dsimp only at hr2 hA ⊢
  have hr2n : r2.toNat = y1 := by
    rw [hr2.toNat, hr1n, Nat.div_eq_of_lt hy0, Nat.mul_zero, Nat.add_zero]
  have hy1 : y1 < B ^ (n - 2) := hr2.lt
  refine Sat.bind (P := fun s : ℕ × ℕ × ℕ × ℕ => s.1 < B ∧ (n = 1 → s.1 = 0) ∧
    s.2.2.2 + 1 = n ∧ CtMpDivisor.Ok.AddI d V (decide (w = 1)) Z1 (n - 1)
      (y1 + B ^ (n - 2) * s.1) s.2.1 s.2.2.1) ?_ ?_
  · refine Sat.cond (fun h2 => ?_) fun h2 => ?_
    · have hst := hd.add_step_sat (by omega) hA
      rw [g2 h2] at hst
      refine Sat.bind hst ?_
      rintro ⟨vdb', k', r'⟩ ⟨h4, h5⟩
      dsimp only at h4 h5 ⊢
      rw [show n - 2 + 1 = n - 1 by omega] at h5
      exact Sat.pure ⟨h4, fun h => by omega, by dsimp only; omega, h5⟩
    · have e : n = 1 := by omega
      refine Sat.pure ⟨huB, fun _ => hu0 e, by dsimp only; omega, ?_⟩
      dsimp only
      rw [hu0 e, Nat.mul_zero, Nat.add_zero]
      rwa [show n - 1 = n - 2 by omega]
  rintro ⟨s0', vdb3, c3, i⟩ ⟨hs0', hs00, hi3, hA2⟩
  dsimp only at hs0' hs00 hi3 hA2 ⊢
  have ei : i = n - 1 := by omega
  subst i
  have hst := hd.add_step_sat (by omega) hA2
  rw [g3] at hst
  refine Sat.bind hst ?_
  rintro ⟨vdb4, k, s1'⟩ ⟨hs1', hA3⟩
  dsimp only at hs1' hA3 ⊢
  rw [M.assert_eq hi3, M.pure_bind]
  rw [show n - 1 + 1 = n by omega] at hA3
  have h6eq := hA3.eq
  simp only [decide_eq_true_eq] at h6eq
  rw [hmodn', hV'] at h6eq
  have hfin := div_add_final (t := t) hV hVB k1 k2 hw k3 g4.symm h6eq hA3.lt
  have hmk : (t + k) % B = 0 := by
    by_contra hne
    have h7 : B ^ n * 1 ≤ B ^ n * ((t + k) % B) := Nat.mul_le_mul_left _ (by omega)
    have h6 := Nat.mod_lt Z hV
    omega
  rw [hmk, Nat.mul_zero, Nat.add_zero] at hfin
  refine Sat.pure ⟨⟨?_, ?_, hs0', hs1', ?_⟩, hq'⟩
  · dsimp only; rw [hr2.len, hr1.len, hrl]
  · dsimp only; rw [hr2n]; exact hy1
  · dsimp only
    rw [hr2n, hZmod, ← hfin]
    rcases Nat.lt_or_ge n 2 with h1 | h2
    · have e : n = 1 := by omega
      have hy10 : y1 = 0 := by rw [e] at hy1; simpa using hy1
      rw [hs00 e, hy10, e]
      simp; ring
    · obtain ⟨m, rfl⟩ := Nat.exists_eq_add_of_le' h2
      rw [show m + 2 - 2 = m by omega, show m + 2 - 1 = m + 1 by omega, pow_succ]
      ring

theorem nlimbs_split_ge {a b : ℕ} :
    ct_mp_nlimbs (a + b) ≤ ct_mp_nlimbs a + ct_mp_nlimbs (b + 1) := by
  have h1 := le_nlimbs_mul a
  have h2 := le_nlimbs_mul (b + 1)
  exact nlimbs_le_iff.2 (by rw [Nat.add_mul]; omega)

/-- The number of limbs of a power of two. -/
theorem nlimbs_pow2 (e : ℕ) : ct_mp_nlimbs ((e + 1 + 8 - 1) / 8) = e / W + 1 := by
  have hL := LB_pos
  have hW := W_eq
  have hd := Nat.div_add_mod' e W
  have hm := Nat.mod_lt e W_pos
  have e1 : (e + 1 + 8 - 1) / 8 = e / W * LB + (e % W / 8 + 1) := by
    have : e + 1 + 8 - 1 = (e / W * LB + 1) * 8 + e % W := by
      have h2 : e / W * W = e / W * LB * 8 := by rw [hW]; ring
      omega
    rw [this]; omega
  rw [e1, Composite.nlimbs_add_mul, Composite.nlimbs_one (by omega) (by omega)]

theorem two_pow_split (e : ℕ) : 2 ^ e = B ^ (e / W) * 2 ^ (e % W) := by
  rw [B_pow_eq, ← pow_add, Nat.div_add_mod']

theorem pow2_lt (e : ℕ) : 2 ^ e < 256 ^ ((e + 1 + 8 - 1) / 8) := by
  rw [pow_256_eq]
  exact Nat.pow_lt_pow_right (by norm_num) (by omega)

/-- Errors of the divisions with a separate remainder buffer. -/
def DivErr2 (q0 : Option (Buf h)) (Q lim rlen rlim : ℕ) (e : DivError) : Prop :=
  DivErr q0 Q lim e ∨ (e = .InsufficientRemainderSpace ∧ rlen < rlim)

/-- A store of the digit of a number that fits into the buffer. -/
theorem sat_store_dig (b : Buf f) {i x : ℕ} (hi : i < b.nlimbs) (hx : x < 256 ^ b.len)
    {Q : Buf f → Prop}
    (hQ : ∀ b' : Buf f, b'.len = b.len → b'.toNat = upd b.toNat i (x / B ^ i % B) → Q b') :
    Sat (b.store_l i (x / B ^ i % B)) Q :=
  Buf.sat_store_l b hi (dig_lt _ _)
    (fun h1 => dig_high_lt hx (by rw [h1, Buf.nlimbs_eq])) hQ

theorem upd_zero_eq (x i : ℕ) (v : ℕ) (hx : x = 0) : upd x i v = B ^ i * v := by
  subst hx; simp [upd]

/-- The final unscaling: one limb. -/
theorem unscale_step {y x i s : ℕ} (h1 : y % B ^ (i + 1) = x % B ^ (i + 1))
    (h2 : y / B ^ (i + 1) = x / 2 ^ s / B ^ (i + 1)) :
    upd y i (x / 2 ^ s / B ^ i % B) % B ^ i = x % B ^ i ∧
      upd y i (x / 2 ^ s / B ^ i % B) / B ^ i = x / 2 ^ s / B ^ i := by
  refine ⟨?_, ?_⟩
  · rw [upd_mod _ _ _ le_rfl, ← Nat.mod_mod_of_dvd y (pow_dvd_pow B (Nat.le_succ i)), h1,
      Nat.mod_mod_of_dvd x (pow_dvd_pow B (Nat.le_succ i))]
  · rw [upd_div_le, h2]; exact (div_succ _ i).symm

/-- The unscaling loop on a buffer holding the lower limbs of the scaled remainder `x`, and the
already unscaled limbs above. -/
theorem buf_unscale_loop {d : CtMpDivisor g} {V : ℕ} (hd : d.Ok V) {b0 : Buf f} {x m : ℕ}
    {st : Buf f → ℕ → ℕ → M (Buf f)}
    (hst : ∀ (b : Buf f) i, b.len = b0.len → i < m → ∀ Q : Buf f → Prop,
      (∀ b' : Buf f, b'.len = b.len →
        b'.toNat = upd b.toNat i (x / 2 ^ d.scaling_shift / B ^ i % B) → Q b') →
      Sat (st b i (x / 2 ^ d.scaling_shift / B ^ i % B)) Q)
    (hl : m * LB ≤ b0.len)
    (h1 : b0.toNat % B ^ m = x % B ^ m) (h2 : b0.toNat / B ^ m = x / 2 ^ d.scaling_shift / B ^ m)
    {u : ℕ} (hu : u = x / B ^ m % B) :
    Sat (M.forDown m (b0, u) fun j (r_out, u_h) => do
              let u_l ← r_out.load_l_full j
              let u_val ← d.unscale_val u_l u_h
              let r_out ← st r_out j u_val
              pure (r_out, u_l))
      (fun s => s.1.len = b0.len ∧ s.1.toNat = x / 2 ^ d.scaling_shift) := by
  refine Sat.mono (Sat.forDown (P := fun i (s : Buf f × ℕ) => s.1.len = b0.len ∧
    s.1.toNat % B ^ i = x % B ^ i ∧ s.1.toNat / B ^ i = x / 2 ^ d.scaling_shift / B ^ i ∧
    s.2 = x / B ^ i % B) ⟨rfl, h1, h2, hu⟩ ?_) ?_
  · rintro i ⟨c, u⟩ hi ⟨k1, k2, k3, k4⟩
    dsimp only at k1 k2 k3 k4 ⊢
    subst u
    have hil : i * LB + LB ≤ c.len := by
      have := Nat.mul_le_mul_right LB (Nat.succ_le_of_lt hi)
      rw [Nat.succ_mul] at this; omega
    have h5 : c.toNat / B ^ i % B = x / B ^ i % B := by
      rw [← Nat.mod_mul_right_div_self, ← Nat.mod_mul_right_div_self, ← pow_succ, k2]
    refine Sat.bind (P := fun l => l = x / B ^ i % B) (Buf.sat_load_l_full c hil h5) fun l hl => ?_
    subst l
    rw [hd.unscale_val_eq (dig_lt _ _), M.pure_bind, unscale_dig x i hd.shift_lt]
    refine Sat.bind (hst c i k1 hi (fun b' => b'.len = c.len ∧ b'.toNat =
      upd c.toNat i (x / 2 ^ d.scaling_shift / B ^ i % B)) fun b' e1 e2 => ⟨e1, e2⟩) ?_
    rintro b' ⟨e1, e2⟩
    obtain ⟨e3, e4⟩ := unscale_step k2 k3
    refine Sat.pure ⟨e1.trans k1, ?_, ?_, rfl⟩
    · dsimp only; rw [e2, e3]
    · dsimp only; rw [e2, e4]
  · rintro ⟨c, u⟩ ⟨k1, k2, k3, k4⟩
    dsimp only at k1 k3 ⊢
    simp only [pow_zero, Nat.div_one] at k3
    exact ⟨k1, k3⟩

/-- Undoing the scaling at the end of the division of a power of two. -/
theorem pow2_unscale_sat {d : CtMpDivisor g} {V : ℕ} (hd : d.Ok V) {r : Buf f} {s0 s1 x : ℕ}
    (hrl : d.v_len ≤ r.len) (hrB : r.toNat < B ^ (ct_mp_nlimbs d.v_len - 2)) (hs0 : s0 < B)
    (hs1 : s1 < B) (hx : x / 2 ^ d.scaling_shift < 256 ^ r.len)
    (hxB : x < B ^ ct_mp_nlimbs d.v_len)
    (h1 : s1 = x / B ^ (ct_mp_nlimbs d.v_len - 1) % B)
    (h0 : 2 ≤ ct_mp_nlimbs d.v_len → s0 = x / B ^ (ct_mp_nlimbs d.v_len - 2) % B)
    (hr : r.toNat = x % B ^ (ct_mp_nlimbs d.v_len - 2)) :
    Sat (do
            let u_val ← d.unscale_val s1 0
            let r_out ← r.store_l (ct_mp_nlimbs d.v_len - 1) u_val
            let (r_out, u_h) ← M.cond (ct_mp_nlimbs d.v_len ≥ 2)
              (do
                let u_val ← d.unscale_val s0 s1
                let r_out ← r_out.store_l (ct_mp_nlimbs d.v_len - 2) u_val
                pure (r_out, s0))
              (pure (r_out, s1))
            let (r_out, _) ← M.forDown (ct_mp_nlimbs d.v_len - 2) (r_out, u_h)
              fun j (r_out, u_h) => do
                let u_l ← r_out.load_l_full j
                let u_val ← d.unscale_val u_l u_h
                let r_out ← r_out.store_l_full j u_val
                pure (r_out, u_l)
            pure r_out)
      (fun b => b.len = r.len ∧ b.toNat = x / 2 ^ d.scaling_shift) := by
  have hn := hd.n_pos
  have hnl : ct_mp_nlimbs d.v_len ≤ r.nlimbs := by rw [Buf.nlimbs_eq]; exact nlimbs_mono hrl
  generalize hn' : ct_mp_nlimbs d.v_len = n at *
  have hxle : x / 2 ^ d.scaling_shift ≤ x := Nat.div_le_self _ _
  have hxn : x / B ^ n % B = 0 := by rw [Nat.div_eq_of_lt hxB]; rfl
  rw [hd.unscale_val_eq hs1, M.pure_bind, h1]
  have e1 := unscale_dig x (n - 1) hd.shift_lt
  rw [show n - 1 + 1 = n by omega, hxn] at e1
  rw [e1]
  refine Sat.bind (P := fun b' : Buf f => b'.len = r.len ∧ b'.toNat =
    upd r.toNat (n - 1) (x / 2 ^ d.scaling_shift / B ^ (n - 1) % B))
    (sat_store_dig r (by omega) hx fun b' h1 h2 => ⟨h1, h2⟩) ?_
  rintro r1 ⟨hr1l, hr1⟩
  have hlow : r.toNat % B ^ (n - 2) = x % B ^ (n - 2) := by rw [hr, Nat.mod_mod]
  have hz : r.toNat / B ^ n = 0 := Nat.div_eq_of_lt
    (lt_of_lt_of_le hrB (Nat.pow_le_pow_right B_pos (by omega)))
  have hz2 : x / 2 ^ d.scaling_shift / B ^ n = 0 := Nat.div_eq_of_lt (by omega)
  have hd1 : r1.toNat / B ^ (n - 1) = x / 2 ^ d.scaling_shift / B ^ (n - 1) := by
    have h3 := div_succ (x / 2 ^ d.scaling_shift) (n - 1)
    rw [show n - 1 + 1 = n by omega, hz2] at h3
    rw [hr1, upd_div_le, show n - 1 + 1 = n by omega, hz]; exact h3.symm
  have hm1 : r1.toNat % B ^ (n - 2) = x % B ^ (n - 2) := by
    rw [hr1, upd_mod _ _ _ (by omega), hlow]
  refine Sat.bind (P := fun s : Buf f × ℕ => s.1.len = r.len ∧
    s.1.toNat % B ^ (n - 2) = x % B ^ (n - 2) ∧
    s.1.toNat / B ^ (n - 2) = x / 2 ^ d.scaling_shift / B ^ (n - 2) ∧
    s.2 = x / B ^ (n - 2) % B) ?_ ?_
  · refine Sat.cond (fun h2 => ?_) fun h2 => ?_
    · rw [hd.unscale_val_eq hs0, M.pure_bind, h0 h2]
      have e2 := unscale_dig x (n - 2) hd.shift_lt
      rw [show n - 2 + 1 = n - 1 by omega] at e2
      rw [e2]
      refine Sat.bind (P := fun b' : Buf f => b'.len = r1.len ∧ b'.toNat =
        upd r1.toNat (n - 2) (x / 2 ^ d.scaling_shift / B ^ (n - 2) % B))
        (sat_store_dig r1 (by rw [Buf.nlimbs_congr hr1l]; omega) (by rw [hr1l]; exact hx)
          fun b' h1 h2 => ⟨h1, h2⟩) ?_
      rintro r2 ⟨hr2l, hr2⟩
      refine Sat.pure ⟨hr2l.trans hr1l, ?_, ?_, rfl⟩
      · dsimp only; rw [hr2, upd_mod _ _ _ le_rfl, hm1]
      · dsimp only
        have h3 := div_succ (x / 2 ^ d.scaling_shift) (n - 2)
        rw [show n - 2 + 1 = n - 1 by omega] at h3
        rw [hr2, upd_div_le, show n - 2 + 1 = n - 1 by omega, hd1]; exact h3.symm
    · rw [show n - 2 = n - 1 by omega] at *
      exact Sat.pure ⟨hr1l, hm1, hd1, rfl⟩
  rintro ⟨r2, u⟩ ⟨k1, k2, k3, k4⟩
  dsimp only at k1 k2 k3 k4 ⊢
  refine Sat.bind (buf_unscale_loop hd (b0 := r2) (x := x) (m := n - 2)
    (st := fun b i v => b.store_l_full i v) ?_ ?_ k2 k3 k4) ?_
  · intro b i hb hi Q hQ
    refine Buf.sat_store_l_full b ?_ (dig_lt _ _) hQ
    have h5 : (i + 1) * LB ≤ b.len := full_of_le (n := d.v_len) (by omega) (by omega)
    rw [Nat.add_mul, one_mul] at h5
    exact h5
  · rw [k1]
    rcases Nat.lt_or_ge n 2 with h1 | h2
    · rw [show n - 2 = 0 by omega, Nat.zero_mul]; exact Nat.zero_le _
    · exact full_of_le hrl (by omega)
  rintro ⟨r3, _⟩ ⟨k5, k6⟩
  exact Sat.pure ⟨k5.trans k1, k6⟩

theorem M.bind_assoc' {α β γ : Type} (m : M α) (k : α → M β) (l : β → M γ) :
    (m >>= k) >>= l = m >>= fun a => k a >>= l := bind_assoc m k l

theorem ct_div_pow2_mp_sat {d : CtMpDivisor g} {V : ℕ} (hd : d.Ok V) (e : ℕ) (r : Buf f)
    (q0 : Option (Buf h)) {ulen : ℕ} (hul : ulen = (e + 1 + 8 - 1) / 8)
    (hq : ∀ b ∈ q0, 2 ^ e / V < 256 ^ b.len ∨ B ^ b.nlimbs ≤ 2 ^ e / V ∨ b.len + d.v_len < ulen) :
    Sat (ct_div_pow2_mp e r d q0) (OkErr (fun s =>
      s.1.len = r.len ∧ s.1.toNat = 2 ^ e % V ∧
      s.2.map Buf.len = q0.map Buf.len ∧ ∀ b ∈ s.2, b.toNat = 2 ^ e / V)
      (DivErr2 q0 (2 ^ e / V) (ulen - d.v_len) r.len (min d.v_len ulen))) := by
  unfold ct_div_pow2_mp
  dsimp only
  have hU256 : 2 ^ e < 256 ^ ulen := by rw [hul]; exact pow2_lt e
  have hnu : ct_mp_nlimbs ulen = e / W + 1 := by rw [hul]; exact nlimbs_pow2 e
  rw [← hul, hnu]
  have hsplitU := two_pow_split e
  have hmodW := Nat.mod_lt e W_pos
  refine Sat.cond (fun hc => ?_) fun hc => ?_
  · obtain ⟨b, hb, hlt⟩ := hc
    exact Sat.pure (Or.inl ⟨rfl, b, hb, Or.inl (by omega)⟩)
  have hc' : ∀ b ∈ q0, ulen ≤ b.len + d.v_len := fun b hb => by
    by_contra hlt
    exact hc ⟨b, hb, by omega⟩
  have hqf : QFits q0 (2 ^ e / V) := fun b hb => by
    rcases hq b hb with h1 | h1 | h1
    · exact Or.inl h1
    · exact Or.inr h1
    · exact absurd (hc' b hb) (by omega)
  refine Sat.cond (fun hr => ?_) fun hr => ?_
  · exact Sat.pure (Or.inr ⟨rfl, hr⟩)
  refine Sat.bind (P := fun b' => b'.len = r.len ∧ b'.toNat = r.toNat % 256 ^ 0)
    (Buf.sat_clear_bytes_above r 0 fun b' h1 h2 => ⟨h1, h2⟩) ?_
  rintro r0 ⟨hr0l, hr0⟩
  rw [pow_zero, Nat.mod_one] at hr0
  rw [shlC_eq hmodW, M.pure_bind]
  have hpB := two_pow_lt_B hmodW
  have hshl : shl 1 (e % W) = 2 ^ (e % W) := by
    rw [shl_eq, one_mul, Nat.mod_eq_of_lt hpB]
  rw [hshl]
  refine Sat.cond (fun hlt => ?_) fun hge => ?_
  · have hUV : 2 ^ e < V := by
      refine lt_of_lt_of_le hU256 (le_trans ?_ hd.lo)
      exact Nat.pow_le_pow_right (by norm_num) (by omega)
    have hdig : 2 ^ (e % W) = 2 ^ e / B ^ (e / W) % B := by
      conv_rhs => rw [hsplitU]
      rw [Nat.mul_div_cancel_left _ (B_pow_pos _), Nat.mod_eq_of_lt hpB]
    rw [Nat.add_sub_cancel]
    rw [hdig]
    have hle : ulen ≤ r0.len := by omega
    refine Sat.bind (P := fun b' : Buf f => b'.len = r0.len ∧ b'.toNat =
      upd r0.toNat (e / W) (2 ^ e / B ^ (e / W) % B)) (sat_store_dig r0 ?_ ?_
        fun b' h1 h2 => ⟨h1, h2⟩) ?_
    · have := nlimbs_mono hle
      rw [Buf.nlimbs_eq]; omega
    · exact lt_of_lt_of_le hU256 (Nat.pow_le_pow_right (by norm_num) hle)
    rintro r1 ⟨hr1l, hr1⟩
    rw [Nat.div_eq_of_lt hUV]
    refine Sat.bind (clear_q_sat (q0 := q0) (Q := 0) (n := 0) (by norm_num)) fun q hq' => ?_
    rw [nlimbs_zero] at hq'
    refine Sat.pure ⟨hr1l.trans hr0l, ?_, hq'.final⟩
    dsimp only
    rw [Nat.mod_eq_of_lt hUV, hr1, upd_zero_eq _ _ _ hr0, ← hdig, hsplitU]
  have hvle : d.v_len ≤ ulen := by omega
  have hvr : d.v_len ≤ r.len := by omega
  have hQlt := div_quot_lt hd hU256 hvle
  refine Sat.bind (clear_q_sat (q0 := q0) (n := ulen + 1 - d.v_len) hQlt) fun q1 hq1 => ?_
  have hs2 := two_pow_lt_B hd.shift_lt
  rw [hd.scale_val_eq hpB (Nat.zero_le _), M.pure_bind]
  dsimp only
  rw [Nat.add_zero]
  have hcl : 2 ^ (e % W) * 2 ^ d.scaling_shift / B ≤ 2 ^ d.scaling_shift := by
    have := CtMpDivisor.Ok.scaled_carry_le (s := d.scaling_shift) (c := 0) hpB (Nat.zero_le _)
    rwa [Nat.add_zero] at this
  rw [hd.scale_val_eq B_pos hcl, M.pure_bind]
  dsimp only
  rw [Nat.zero_mul, Nat.zero_add]
  rw [M.assert_eq (Nat.div_eq_of_lt (by omega)), M.pure_bind, Nat.mod_eq_of_lt (by omega)]
  have hsplit := nlimbs_split (a := d.v_len) (b := ulen - d.v_len) hd.len_pos
  have hsplit2 := nlimbs_split_ge (a := d.v_len) (b := ulen - d.v_len)
  rw [show d.v_len + (ulen - d.v_len) = ulen by omega,
    show ulen - d.v_len + 1 = ulen + 1 - d.v_len by omega] at hsplit hsplit2
  rw [hnu] at hsplit hsplit2
  rw [M.assert_eq (by omega), M.pure_bind]
  have hQ' : 2 ^ e * 2 ^ d.scaling_shift / (V * 2 ^ d.scaling_shift) = 2 ^ e / V := scaled_div _ _ _
  have hstart : 2 ^ e * 2 ^ d.scaling_shift <
      B ^ ct_mp_nlimbs (ulen + 1 - d.v_len) * (V * 2 ^ d.scaling_shift) := by
    rw [← Nat.div_lt_iff_lt_mul hd.scaled_pos, hQ']
    exact lt_of_lt_of_le hQlt (pow_len_le _)
  have hUeq : 2 ^ e * 2 ^ d.scaling_shift = B ^ (e / W) * (2 ^ (e % W) * 2 ^ d.scaling_shift) := by
    rw [hsplitU]; ring
  have hn := hd.n_pos
  have hlt := hd.lt
  have hsp := hd.scaled_pos
  have hhead : 2 ^ (e % W) * 2 ^ d.scaling_shift = 2 ^ (e % W) * 2 ^ d.scaling_shift % B +
    B * (2 ^ (e % W) * 2 ^ d.scaling_shift / B) := (Nat.mod_add_div _ _).symm
  have hlB : 2 ^ (e % W) * 2 ^ d.scaling_shift % B < B := Nat.mod_lt _ B_pos
  have hhB : 2 ^ (e % W) * 2 ^ d.scaling_shift / B < B := by omega
  refine Sat.bind (P := fun s : ℕ × ℕ => Pow2I (2 ^ e * 2 ^ d.scaling_shift)
    (V * 2 ^ d.scaling_shift) (ct_mp_nlimbs d.v_len) r.len (ct_mp_nlimbs (ulen + 1 - d.v_len))
    r0 s.1 s.2) ?_ ?_
  · refine Sat.cond (fun h1 => ?_) fun h1 => ?_
    · have hh0 : 2 ^ (e % W) * 2 ^ d.scaling_shift / B = 0 := by
        refine Nat.div_eq_of_lt ?_
        have h2 : B ^ (e / W) * (2 ^ (e % W) * 2 ^ d.scaling_shift) < B ^ (e / W) * B := by
          rw [← hUeq, ← pow_succ, ← h1, Nat.add_comm, pow_add]
          exact lt_of_lt_of_le hstart (Nat.mul_le_mul_left _ hlt.le)
        exact Nat.lt_of_mul_lt_mul_left h2
      rw [M.assert_eq hh0, M.pure_bind]
      refine Sat.pure ⟨hr0l, by rw [hr0]; exact B_pow_pos _, B_pos, hlB, ?_⟩
      dsimp only
      rw [Nat.mod_eq_of_lt hstart, hr0, hUeq]
      rw [hh0, Nat.mul_zero, Nat.add_zero] at hhead
      rw [← hhead]
      generalize 2 ^ (e % W) * 2 ^ d.scaling_shift = T
      have h3 : B ^ (e / W) * B = B ^ (ct_mp_nlimbs d.v_len - 1) * B *
          B ^ ct_mp_nlimbs (ulen + 1 - d.v_len) := by
        rw [← pow_succ, ← pow_succ, ← pow_add]; congr 1; omega
      rw [Nat.zero_mul, Nat.add_zero, Nat.add_zero]
      calc _ = T * (B ^ (ct_mp_nlimbs d.v_len - 1) * B *
            B ^ ct_mp_nlimbs (ulen + 1 - d.v_len)) := by ring
        _ = T * (B ^ (e / W) * B) := by rw [h3]
        _ = _ := by ring
    · refine Sat.pure ⟨hr0l, by rw [hr0]; exact B_pow_pos _, hlB, hhB, ?_⟩
      dsimp only
      rw [Nat.mod_eq_of_lt hstart, hr0, hUeq]
      rw [show 2 ^ (e % W) * 2 ^ d.scaling_shift / B * B + 2 ^ (e % W) * 2 ^ d.scaling_shift % B
        = 2 ^ (e % W) * 2 ^ d.scaling_shift by rw [Nat.mul_comm, Nat.div_add_mod]]
      generalize 2 ^ (e % W) * 2 ^ d.scaling_shift = T
      have h3 : B ^ (e / W) * B = B ^ (ct_mp_nlimbs d.v_len - 1) *
          B ^ ct_mp_nlimbs (ulen + 1 - d.v_len) := by
        rw [← pow_succ, ← pow_add]; congr 1; omega
      rw [Nat.zero_mul, Nat.add_zero]
      calc _ = T * (B ^ (ct_mp_nlimbs d.v_len - 1) * B ^ ct_mp_nlimbs (ulen + 1 - d.v_len)) := by
            ring
        _ = T * (B ^ (e / W) * B) := by rw [h3]
        _ = _ := by ring
  rintro ⟨s0, s1⟩ hP
  dsimp only at hP ⊢
  refine Sat.bindE (P := fun s : Buf f × ℕ × ℕ × Option (Buf h) =>
    Pow2I (2 ^ e * 2 ^ d.scaling_shift) (V * 2 ^ d.scaling_shift) (ct_mp_nlimbs d.v_len) r.len 0
      s.1 s.2.1 s.2.2.1 ∧ QInv q0 (2 ^ e / V) 0 s.2.2.2) ?_ ?_
  · have hl := Sat.forDownE (f := pow2_step (f := f) (h := h) d) (P := fun j s =>
      Pow2I (2 ^ e * 2 ^ d.scaling_shift) (V * 2 ^ d.scaling_shift) (ct_mp_nlimbs d.v_len) r.len j
        s.1 s.2.1 s.2.2.1 ∧ QInv q0 (2 ^ e / V) j s.2.2.2) (E := QErr q0 (2 ^ e / V))
      (hi := ct_mp_nlimbs (ulen + 1 - d.v_len)) (s := (r0, s0, s1, q1)) ⟨hP, hq1⟩ ?_
    · refine hl.mono ?_
      rintro (er | s) hr
      · obtain ⟨h1, b, hb, h2⟩ := hr
        exact Or.inl ⟨h1, b, hb, Or.inr h2⟩
      · exact hr
    · rintro j ⟨c, s0, s1, q⟩ hj ⟨h1, h2⟩
      have := pow2_step_sat hd (q0 := q0) (q := q) h1 hvr (by rw [hQ']; exact hqf)
        (fun b hb => by
          have h3 := hc' b hb
          have h4 : ct_mp_nlimbs (ulen + 1 - d.v_len) ≤ ct_mp_nlimbs (b.len + 1) :=
            nlimbs_mono (by omega)
          have h5 := nlimbs_succ_le b.len
          rw [Buf.nlimbs_eq]; omega) (by rw [hQ']; exact h2)
      rw [hQ'] at this
      exact this
  rintro ⟨r2, s0, s1, q2⟩ ⟨⟨hr2l, hr2B, hs0, hs1, hZ⟩, hq2⟩
  dsimp only at hr2l hr2B hs0 hs1 hZ hq2 ⊢
  rw [pow_zero, mul_one, one_mul] at hZ
  have hrem : 2 ^ e * 2 ^ d.scaling_shift % (V * 2 ^ d.scaling_shift) / 2 ^ d.scaling_shift
    = 2 ^ e % V := scaled_mod _ _ _
  have hxV : 2 ^ e * 2 ^ d.scaling_shift % (V * 2 ^ d.scaling_shift) < B ^ ct_mp_nlimbs d.v_len :=
    lt_trans (Nat.mod_lt _ hsp) hlt
  have hxr : 2 ^ e % V < 256 ^ r2.len := by
    refine lt_of_lt_of_le (lt_trans (Nat.mod_lt _ hd.pos) hd.hi) ?_
    exact Nat.pow_le_pow_right (by norm_num) (by omega)
  rw [← hrem]
  rw [← hrem] at hxr
  generalize 2 ^ e * 2 ^ d.scaling_shift % (V * 2 ^ d.scaling_shift) = x at *
  have hdigs : (1 < ct_mp_nlimbs d.v_len ∨ s0 = 0) ∧ s1 = x / B ^ (ct_mp_nlimbs d.v_len - 1) % B ∧
      (2 ≤ ct_mp_nlimbs d.v_len → s0 = x / B ^ (ct_mp_nlimbs d.v_len - 2) % B) ∧
      r2.toNat = x % B ^ (ct_mp_nlimbs d.v_len - 2) := by
    generalize ct_mp_nlimbs d.v_len = n at *
    rcases Nat.lt_or_ge n 2 with h1 | h2
    · have e1 : n = 1 := by omega
      rw [e1] at hr2B hZ ⊢
      have hr20 : r2.toNat = 0 := by simpa using hr2B
      rw [hr20] at hZ ⊢
      simp only [Nat.sub_self, pow_zero, mul_one, Nat.zero_mul, Nat.add_zero, Nat.div_one] at hZ ⊢
      have h3 : s0 = 0 := by
        have h4 := congrArg (· % B) hZ
        simp only [Nat.mul_mod_left, Nat.mul_add_mod_self_right] at h4
        rwa [Nat.mod_eq_of_lt hs0] at h4
      rw [h3, Nat.add_zero] at hZ
      have h5 := Nat.eq_of_mul_eq_mul_right B_pos hZ
      refine ⟨Or.inr h3, ?_, fun h => by omega, ?_⟩
      · rw [← h5, Nat.mod_eq_of_lt hs1]
      · rw [show (1 : ℕ) - 2 = 0 from rfl, pow_zero, Nat.mod_one]
    · obtain ⟨m, rfl⟩ := Nat.exists_eq_add_of_le' h2
      rw [show m + 2 - 2 = m by omega, show m + 2 - 1 = m + 1 by omega] at *
      have h5 : x = r2.toNat + B ^ m * (s0 + B * s1) := by
        refine Nat.eq_of_mul_eq_mul_right B_pos ?_
        rw [← hZ, pow_succ]; ring
      have h6 : x / B ^ m = s0 + B * s1 := by rw [h5, dig_at hr2B]
      refine ⟨Or.inl (by omega), ?_, fun _ => ?_, ?_⟩
      · rw [pow_succ, ← Nat.div_div_eq_div_mul, h6, Nat.add_mul_div_left _ _ B_pos,
          Nat.div_eq_of_lt hs0, Nat.zero_add, Nat.mod_eq_of_lt hs1]
      · rw [h6, Nat.add_mul_mod_self_left, Nat.mod_eq_of_lt hs0]
      · rw [h5, Nat.add_mul_mod_self_left, Nat.mod_eq_of_lt hr2B]
  obtain ⟨g1, g2, g3, g4⟩ := hdigs
  rw [M.assert_eq g1, M.pure_bind]
  have hfin := pow2_unscale_sat hd (r := r2) (by omega) hr2B hs0 hs1 hxr hxV g2 g3 g4
  have hfin2 := Sat.bind hfin (f := fun b => pure (.ok (b, q2) : Except DivError (Buf f × Option (Buf h))))
    (Q := OkErr (fun s : Buf f × Option (Buf h) =>
      s.1.len = r.len ∧ s.1.toNat = x / 2 ^ d.scaling_shift ∧
      s.2.map Buf.len = q0.map Buf.len ∧ ∀ b ∈ s.2, b.toNat = 2 ^ e / V)
      (DivErr2 q0 (2 ^ e / V) (ulen - d.v_len) r.len (min d.v_len ulen))) ?_
  · simpa only [M.bind_assoc', M.pure_bind] using hfin2
  · rintro b ⟨h1, h2⟩
    exact Sat.pure ⟨h1.trans hr2l, h2, hq2.final⟩

theorem ct_mod_pow2_mp_sat {d : CtMpDivisor g} {V : ℕ} (hd : d.Ok V) (e : ℕ) (r : Buf f) :
    Sat (ct_mod_pow2_mp e r d) (OkErr (fun s => s.len = r.len ∧ s.toNat = 2 ^ e % V)
      (fun er => er = .InsufficientRemainderSpace ∧
        r.len < min d.v_len ((e + 1 + 8 - 1) / 8))) := by
  unfold ct_mod_pow2_mp
  refine Sat.bind (ct_div_pow2_mp_sat hd e r (none : Option (Buf .ne)) rfl (by simp)) ?_
  rintro (er | ⟨s, q⟩) hr
  · rcases hr with ⟨-, b, hb, -⟩ | ⟨h1, h2⟩
    · simp at hb
    · subst h1
      exact Sat.pure ⟨rfl, h2⟩
  · exact Sat.pure ⟨hr.1, hr.2.1⟩

end Cmpa
