import Verif.Proofs.DivPow2

/-!
# Division of a shifted integer
-/

set_option linter.unusedSectionVars false

namespace Cmpa
variable [LimbCfg] {f g h : Fmt}

open M

theorem dig_mod {x i k : ℕ} (hi : i < k) : x % B ^ k / B ^ i % B = x / B ^ i % B := by
  conv_rhs => rw [low_high x k]
  rw [dig_low hi]

theorem upd_low_part (x T v : ℕ) {i k : ℕ} (hi : i < k) (hv : v < B) :
    upd x i v % B ^ k + B ^ k * T = upd (x % B ^ k + B ^ k * T) i v := by
  obtain ⟨e, rfl⟩ := Nat.exists_eq_add_of_le (Nat.succ_le_of_lt hi)
  rw [Nat.succ_eq_add_one]
  rw [mod_pow_add, upd_mod_succ hv, upd_div hv (Nat.lt_succ_self _)]
  have e1 : (x % B ^ (i + 1 + e) + B ^ (i + 1 + e) * T) % B ^ i = x % B ^ i := by
    rw [show B ^ (i + 1 + e) * T = B ^ i * (B * B ^ e * T) by rw [pow_add, pow_succ]; ring,
      Nat.add_mul_mod_self_left, Nat.mod_mod_of_dvd _ (pow_dvd_pow B (by omega))]
  have e2 : (x % B ^ (i + 1 + e) + B ^ (i + 1 + e) * T) / B ^ (i + 1)
      = x / B ^ (i + 1) % B ^ e + B ^ e * T := by
    rw [mod_pow_add, show B ^ (i + 1 + e) * T = B ^ (i + 1) * (B ^ e * T) by rw [pow_add]; ring,
      add_assoc, ← Nat.mul_add, dig_at (mod_lt_pow _ _)]
  unfold upd
  rw [e1, e2, pow_add, pow_succ]; ring

theorem upd_high_part {a k : ℕ} (ha : a < B ^ k) (T c v : ℕ) :
    upd (a + B ^ k * T) (k + c) v = a + B ^ k * upd T c v := by
  unfold upd
  have e1 : (a + B ^ k * T) % B ^ (k + c) = a + B ^ k * (T % B ^ c) := by
    rw [mod_pow_add, dig_at ha, Nat.add_mul_mod_self_left, Nat.mod_eq_of_lt ha]
  have e2 : (a + B ^ k * T) / B ^ (k + c + 1) = T / B ^ (c + 1) := by
    rw [add_assoc, div_pow_add, dig_at ha]
  rw [e1, e2, pow_add]; ring

theorem dig_high_part {a k : ℕ} (ha : a < B ^ k) (T c : ℕ) :
    (a + B ^ k * T) / B ^ (k + c) = T / B ^ c := by
  rw [div_pow_add, dig_at ha]

/-- The head part of the dividend in `u` and the shadow of its most significant limbs has value
`X`. -/
def HVal (L k X : ℕ) (u : Buf f) (sh : List ℕ) : Prop :=
  u.len = L ∧ ∃ s0 s1 s2, sh = [s0, s1, s2] ∧ s0 < B ∧ s1 < B ∧ s2 < B ∧
    X = u.toNat % B ^ k + B ^ k * (s0 + B * (s1 + B * s2))

theorem three_digs {s0 s1 s2 : ℕ} (h0 : s0 < B) (h1 : s1 < B) (h2 : s2 < B) :
    (s0 + B * (s1 + B * s2)) / B ^ 0 % B = s0 ∧ (s0 + B * (s1 + B * s2)) / B ^ 1 % B = s1 ∧
      (s0 + B * (s1 + B * s2)) / B ^ 2 % B = s2 := by
  have hB := B_pos
  refine ⟨?_, ?_, ?_⟩
  · rw [pow_zero, Nat.div_one, Nat.add_mul_mod_self_left, Nat.mod_eq_of_lt h0]
  · rw [pow_one, Nat.add_mul_div_left _ _ hB, Nat.div_eq_of_lt h0, Nat.zero_add,
      Nat.add_mul_mod_self_left, Nat.mod_eq_of_lt h1]
  · rw [pow_two, ← Nat.div_div_eq_div_mul, Nat.add_mul_div_left _ _ hB, Nat.div_eq_of_lt h0,
      Nat.zero_add, Nat.add_mul_div_left _ _ hB, Nat.div_eq_of_lt h1, Nat.zero_add,
      Nat.mod_eq_of_lt h2]

theorem three_upd {s0 s1 s2 v : ℕ} (h0 : s0 < B) (h1 : s1 < B) :
    upd (s0 + B * (s1 + B * s2)) 0 v = v + B * (s1 + B * s2) ∧
    upd (s0 + B * (s1 + B * s2)) 1 v = s0 + B * (v + B * s2) ∧
    (s2 < B → upd (s0 + B * (s1 + B * s2)) 2 v = s0 + B * (s1 + B * v)) := by
  have hB := B_pos
  have e1 : (s0 + B * (s1 + B * s2)) / B = s1 + B * s2 := by
    rw [Nat.add_mul_div_left _ _ hB, Nat.div_eq_of_lt h0, Nat.zero_add]
  have e2 : (s1 + B * s2) / B = s2 := by
    rw [Nat.add_mul_div_left _ _ hB, Nat.div_eq_of_lt h1, Nat.zero_add]
  refine ⟨?_, ?_, fun h2 => ?_⟩
  · unfold upd
    rw [pow_zero, Nat.mod_one, zero_add, pow_one, e1]; omega
  · unfold upd
    rw [pow_one, Nat.add_mul_mod_self_left, Nat.mod_eq_of_lt h0, show 1 + 1 = 2 from rfl, pow_two,
      ← Nat.div_div_eq_div_mul, e1, e2]
  · unfold upd
    have e3 : (s0 + B * (s1 + B * s2)) % B ^ 2 = s0 + B * s1 := by
      rw [show s0 + B * (s1 + B * s2) = s0 + B * s1 + B ^ 2 * s2 by ring,
        Nat.add_mul_mod_self_left, Nat.mod_eq_of_lt]
      have : B * (s1 + 1) ≤ B * B := Nat.mul_le_mul_left _ h1
      rw [Nat.mul_add, mul_one] at this
      rw [pow_two]; omega
    have e4 : (s0 + B * (s1 + B * s2)) / B ^ (2 + 1) = 0 := by
      rw [show B ^ (2 + 1) = B * B * B by ring, ← Nat.div_div_eq_div_mul,
        ← Nat.div_div_eq_div_mul, e1, e2, Nat.div_eq_of_lt h2]
    rw [e3, e4]
    ring

theorem HVal.lt {L k X : ℕ} {u : Buf f} {sh : List ℕ} (h : HVal L k X u sh) :
    X < B ^ (k + 3) := by
  obtain ⟨hl, s0, s1, s2, rfl, h0, h1, h2, hX⟩ := h
  have ha := mod_lt_pow u.toNat k
  have h3 : B * (s2 + 1) ≤ B * B := Nat.mul_le_mul_left _ h2
  have h4 : B * (s1 + B * s2 + 1) ≤ B * (B * B) := Nat.mul_le_mul_left _ (by
    rw [Nat.mul_add] at h3; omega)
  have h5 : B ^ k * (s0 + B * (s1 + B * s2) + 1) ≤ B ^ k * (B * (B * B)) :=
    Nat.mul_le_mul_left _ (by rw [Nat.mul_add B (s1 + B * s2)] at h4; omega)
  rw [Nat.mul_add (B ^ k), mul_one] at h5
  rw [hX, pow_add, show B ^ 3 = B * (B * B) by ring]
  omega

theorem HVal.modify {L k N X i : ℕ} {u : Buf f} {sh : List ℕ} {α : Type} (hN : N = ct_mp_nlimbs L)
    (hk : k + 1 = N) (h : HVal L k X u sh) (hi : i < k + 3) {op : ℕ → M (α × ℕ)}
    {R : α → ℕ → Prop} (hop : Sat (op (X / B ^ i % B)) (fun p => p.2 < B ∧ R p.1 p.2)) :
    Sat (lshifted_modify N u sh i op)
      (fun r => ∃ v, v < B ∧ R r.2.2 v ∧ HVal L k (upd X i v) r.1 r.2.1) := by
  obtain ⟨hl, s0, s1, s2, rfl, h0, h1, h2, hX⟩ := h
  have ha := mod_lt_pow u.toNat k
  obtain ⟨g0, g1, g2⟩ := three_digs h0 h1 h2
  unfold lshifted_modify
  rw [show N - 1 = k by omega]
  refine Sat.cond (fun hc => ?_) fun hc => ?_
  · have hfull : i * LB + LB ≤ u.len := full_of_lt_pred (by rw [hl]; omega)
    refine Sat.bind (P := fun l => l = X / B ^ i % B) (Buf.sat_load_l_full u hfull ?_)
      fun l hl' => ?_
    · rw [hX, dig_low hc, dig_mod hc]
    subst l
    refine Sat.bind hop ?_
    rintro ⟨r, v⟩ ⟨hv, hR⟩
    refine Sat.bind (P := fun u' => u'.len = u.len ∧ u'.toNat = upd u.toNat i v)
      (Buf.sat_store_l_full u hfull hv fun u' e1 e2 => ⟨e1, e2⟩) ?_
    rintro u' ⟨e1, e2⟩
    refine Sat.pure ⟨v, hv, hR, e1.trans hl, s0, s1, s2, rfl, h0, h1, h2, ?_⟩
    rw [hX, e2, upd_low_part _ _ _ hc hv]
  · obtain ⟨c, rfl⟩ := Nat.exists_eq_add_of_le (not_lt.1 hc)
    rw [M.sub_eq (by omega), M.pure_bind, Nat.add_sub_cancel_left]
    have hdig : X / B ^ (k + c) % B = (s0 + B * (s1 + B * s2)) / B ^ c % B := by
      rw [hX, dig_high_part ha]
    have hupd : ∀ v, upd X (k + c) v =
        u.toNat % B ^ k + B ^ k * upd (s0 + B * (s1 + B * s2)) c v := by
      intro v; rw [hX, upd_high_part ha]
    rw [hdig] at hop
    have hc3 : c = 0 ∨ c = 1 ∨ c = 2 := by omega
    rcases hc3 with rfl | rfl | rfl
    · rw [g0] at hop
      show Sat ((pure s0 : M ℕ) >>= _) _
      rw [M.pure_bind]
      refine Sat.bind hop ?_
      rintro ⟨r, v⟩ ⟨hv, hR⟩
      show Sat ((do M.assert (0 < 3); pure [v, s1, s2] : M (List ℕ)) >>= _) _
      rw [M.assert_eq (by norm_num), M.pure_bind, M.pure_bind]
      refine Sat.pure ⟨v, hv, hR, hl, v, s1, s2, rfl, hv, h1, h2, ?_⟩
      rw [hupd, (three_upd h0 h1).1]
    · rw [g1] at hop
      show Sat ((pure s1 : M ℕ) >>= _) _
      rw [M.pure_bind]
      refine Sat.bind hop ?_
      rintro ⟨r, v⟩ ⟨hv, hR⟩
      show Sat ((do M.assert (1 < 3); pure [s0, v, s2] : M (List ℕ)) >>= _) _
      rw [M.assert_eq (by norm_num), M.pure_bind, M.pure_bind]
      refine Sat.pure ⟨v, hv, hR, hl, s0, v, s2, rfl, h0, hv, h2, ?_⟩
      rw [hupd, (three_upd h0 h1).2.1]
    · rw [g2] at hop
      show Sat ((pure s2 : M ℕ) >>= _) _
      rw [M.pure_bind]
      refine Sat.bind hop ?_
      rintro ⟨r, v⟩ ⟨hv, hR⟩
      show Sat ((do M.assert (2 < 3); pure [s0, s1, v] : M (List ℕ)) >>= _) _
      rw [M.assert_eq (by norm_num), M.pure_bind, M.pure_bind]
      refine Sat.pure ⟨v, hv, hR, hl, s0, s1, v, rfl, h0, h1, hv, ?_⟩
      rw [hupd, (three_upd h0 h1).2.2 h2]

theorem HVal.load {L k N X n j i : ℕ} {u : Buf f} {sh : List ℕ} (hN : N = ct_mp_nlimbs L)
    (hk : k + 1 = N) (h : HVal L k X u sh) (hi : n + j + i < k + 5) :
    Sat (lshifted_load u sh N n j i) (fun l => l < B ∧
      (2 ≤ n + j + i → l = X / B ^ (n + j + i - 2) % B)) := by
  obtain ⟨hl, s0, s1, s2, rfl, h0, h1, h2, hX⟩ := h
  have ha := mod_lt_pow u.toNat k
  obtain ⟨g0, g1, g2⟩ := three_digs h0 h1 h2
  unfold lshifted_load
  rw [show N - 1 = k by omega]
  refine Sat.cond (fun hc => ?_) fun hc => ?_
  · obtain ⟨c, hc'⟩ : ∃ c, n + j + i - 2 = k + c := ⟨n + j + i - 2 - k, by omega⟩
    have hdig : X / B ^ (k + c) % B = (s0 + B * (s1 + B * s2)) / B ^ c % B := by
      rw [hX, dig_high_part ha]
    rw [hc', Nat.add_sub_cancel_left, hdig]
    have hc3 : c = 0 ∨ c = 1 ∨ c = 2 := by omega
    rcases hc3 with rfl | rfl | rfl
    · rw [g0]; exact Sat.pure ⟨h0, fun _ => rfl⟩
    · rw [g1]; exact Sat.pure ⟨h1, fun _ => rfl⟩
    · rw [g2]; exact Sat.pure ⟨h2, fun _ => rfl⟩
  · refine Sat.cond (fun hc2 => ?_) fun hc2 => ?_
    · refine Buf.sat_load_l_full u (full_of_lt_pred (by rw [hl]; omega)) ⟨dig_lt _ _, fun _ => ?_⟩
      have hlt : n + j + i - 2 < k := by omega
      rw [hX, dig_low hlt, dig_mod hlt]
    · exact Sat.pure ⟨B_pos, fun h => by omega⟩

/-- The subtraction loop of a head division step. -/
theorem head_sub_loop {d : CtMpDivisor g} {V : ℕ} (hd : d.Ok V) {L k N x j q : ℕ} {u : Buf f}
    {sh : List ℕ} (hN : N = ct_mp_nlimbs L) (hk : k + 1 = N) (hc : HVal L k x u sh)
    (hj : j + ct_mp_nlimbs d.v_len < k + 3) (hq : q < B) :
    Sat (M.forRange 0 (ct_mp_nlimbs d.v_len) (u, sh, d.decrement, 0, 0)
      fun i (u, shadow, vdb, svc, borrow) => do
        let (u, shadow, vdb, svc, borrow) ← lshifted_modify N u shadow (j + i) fun u_val => do
          let (vdb, svc, borrow, u_val) ← d.sub_scaled_qv_val u_val i q vdb svc borrow
          pure ((vdb, svc, borrow), u_val)
        pure (u, shadow, vdb, svc, borrow))
      (fun s => ∃ x' y, HVal L k x' s.1 s.2.1 ∧
        LowN x (x % B ^ j + B ^ j * y) (j + ct_mp_nlimbs d.v_len) x' ∧
        CtMpDivisor.Ok.SubI d V q (x / B ^ j) (ct_mp_nlimbs d.v_len) y s.2.2.1 s.2.2.2.1
          s.2.2.2.2) := by
  refine Sat.forRange (P := fun i (s : Buf f × List ℕ × ℕ × ℕ × ℕ) => ∃ x' y, HVal L k x' s.1 s.2.1 ∧
        LowN x (x % B ^ j + B ^ j * y) (j + i) x' ∧
        CtMpDivisor.Ok.SubI d V q (x / B ^ j) i y s.2.2.1 s.2.2.2.1 s.2.2.2.2) (Nat.zero_le _) ?_ ?_
  · exact ⟨x, 0, hc, lowN_start x j, hd.sub_zero _ _⟩
  · rintro i ⟨c, sh, vdb, svc, b⟩ - hi ⟨x', y, h1, h2, h3⟩
    dsimp only at h1 h2 h3 ⊢
    refine Sat.bind (h1.modify hN hk (i := j + i) (by omega)
      (R := fun p v => CtMpDivisor.Ok.SubI d V q (x / B ^ j) (i + 1) (y + B ^ i * v) p.1 p.2.1 p.2.2)
      ?_) ?_
    · rw [h2.dig, div_pow_add]
      refine Sat.bind (hd.sub_step_sat hi hq h3) ?_
      rintro ⟨vdb', svc', b', r⟩ ⟨h4, h5⟩
      exact Sat.pure ⟨h4, h5⟩
    · rintro ⟨u', sh', vdb', svc', b'⟩ ⟨v, h4, h5, h6⟩
      dsimp only at h5 h6 ⊢
      refine Sat.pure ⟨_, _, h6, ?_, h5⟩
      have := h2.upd h4
      rwa [lowN_offset] at this

/-- The addition loop of a head division step. -/
theorem head_add_loop {d : CtMpDivisor g} {V : ℕ} (hd : d.Ok V) {L k N x j : ℕ} {u : Buf f}
    {sh : List ℕ} {cond : Bool} (hN : N = ct_mp_nlimbs L) (hk : k + 1 = N) (hc : HVal L k x u sh)
    (hj : j + ct_mp_nlimbs d.v_len < k + 3) :
    Sat (M.forRange 0 (ct_mp_nlimbs d.v_len) (u, sh, d.decrement, 0)
        fun i (u, shadow, vdb, carry) => do
          let (u, shadow, vdb, carry) ← lshifted_modify N u shadow (j + i) fun u_val => do
            let (vdb, carry, u_val) ← d.add_scaled_v_val_cond u_val i vdb carry (.ofBool cond)
            pure ((vdb, carry), u_val)
          pure (u, shadow, vdb, carry))
      (fun s => ∃ x' y, HVal L k x' s.1 s.2.1 ∧
        LowN x (x % B ^ j + B ^ j * y) (j + ct_mp_nlimbs d.v_len) x' ∧
        CtMpDivisor.Ok.AddI d V cond (x / B ^ j) (ct_mp_nlimbs d.v_len) y s.2.2.1 s.2.2.2) := by
  refine Sat.forRange (P := fun i (s : Buf f × List ℕ × ℕ × ℕ) => ∃ x' y, HVal L k x' s.1 s.2.1 ∧
        LowN x (x % B ^ j + B ^ j * y) (j + i) x' ∧
        CtMpDivisor.Ok.AddI d V cond (x / B ^ j) i y s.2.2.1 s.2.2.2) (Nat.zero_le _) ?_ ?_
  · exact ⟨x, 0, hc, lowN_start x j, hd.add_zero _ _⟩
  · rintro i ⟨c, sh, vdb, b⟩ - hi ⟨x', y, h1, h2, h3⟩
    dsimp only at h1 h2 h3 ⊢
    refine Sat.bind (h1.modify hN hk (i := j + i) (by omega)
      (R := fun p v => CtMpDivisor.Ok.AddI d V cond (x / B ^ j) (i + 1) (y + B ^ i * v) p.1 p.2)
      ?_) ?_
    · rw [h2.dig, div_pow_add]
      refine Sat.bind (hd.add_step_sat hi h3) ?_
      rintro ⟨vdb', b', r⟩ ⟨h4, h5⟩
      exact Sat.pure ⟨h4, h5⟩
    · rintro ⟨u', sh', vdb', b'⟩ ⟨v, h4, h5, h6⟩
      dsimp only at h5 h6 ⊢
      refine Sat.pure ⟨_, _, h6, ?_, h5⟩
      have := h2.upd h4
      rwa [lowN_offset] at this

theorem head_step_sat {d : CtMpDivisor g} {V : ℕ} (hd : d.Ok V) {L k N U j T Q : ℕ} {u : Buf f}
    {sh : List ℕ} {q0 q : Option (Buf h)} (hN : N = ct_mp_nlimbs L) (hk : k + 1 = N)
    (hc : HVal L k (U % (B ^ (j + 1) * (V * 2 ^ d.scaling_shift))) u sh)
    (hj : j + ct_mp_nlimbs d.v_len < k + 3)
    (hQ : Q / B ^ T = U / (V * 2 ^ d.scaling_shift))
    (hqf : QFits q0 Q) (hqj : ∀ b ∈ q0, T + j ≤ b.nlimbs)
    (hq : QInv q0 Q (T + (j + 1)) q) :
    Sat (lshifted_head_step d N T j (u, sh, q)) (OkErr (fun s =>
      HVal L k (U % (B ^ j * (V * 2 ^ d.scaling_shift))) s.1 s.2.1 ∧
      QInv q0 Q (T + j) s.2.2) (QErr q0 Q)) := by
  unfold lshifted_head_step
  dsimp only
  have hV := hd.scaled_pos
  have hVB := hd.lt
  have hn := hd.n_pos
  have hZlt := window_lt (U := U) (j := j) hV
  have hZdiv := window_div U (V * 2 ^ d.scaling_shift) j
  have hZmod := window_mod U (V * 2 ^ d.scaling_shift) j
  have hmodn := hd.scaled_mod_n
  have hmodn' := hd.mod_n
  generalize hV' : V * 2 ^ d.scaling_shift = V' at *
  generalize U % (B ^ (j + 1) * V') = x at *
  generalize hn' : ct_mp_nlimbs d.v_len = n at *
  have hZB : x / B ^ j < B ^ (n + 1) := by
    refine lt_of_lt_of_le hZlt ?_
    rw [pow_succ]; exact Nat.mul_le_mul_right _ hVB.le
  have hxB : x < B ^ (j + n + 1) := by
    have := Nat.lt_mul_div_succ x (B_pow_pos j)
    refine lt_of_lt_of_le this ?_
    rw [show j + n + 1 = j + (n + 1) by omega, pow_add B j]
    exact Nat.mul_le_mul_left _ hZB
  have hZn : x / B ^ j / B ^ n < B := by
    rw [Nat.div_lt_iff_lt_mul (B_pow_pos _), ← pow_succ']; exact hZB
  refine Sat.bind (hc.load (i := 2) hN hk (by omega)) ?_
  rintro u0 ⟨-, hu0⟩
  have hu0' := hu0 (by omega)
  rw [show n + j + 2 - 2 = j + n by omega, div_pow_add, Nat.mod_eq_of_lt hZn] at hu0'
  refine Sat.bind (hc.load (i := 1) hN hk (by omega)) ?_
  rintro u1 ⟨-, hu1⟩
  have hu1' := hu1 (by omega)
  rw [show n + j + 1 - 2 = j + (n - 1) by omega, div_pow_add] at hu1'
  refine Sat.bind (hc.load (i := 0) hN hk (by omega)) ?_
  rintro u2 ⟨hu2, hu2'⟩
  refine Sat.bind (hd.make_q_estimate_sat (U := x / B ^ j) (by rw [hV']; exact hZlt)
    (by rw [hn']; exact hu0') (by rw [hn']; exact hu1') hu2 (by
      rw [hn']; intro h2
      rw [hu2' (by omega), show n + j + 0 - 2 = j + (n - 2) by omega, div_pow_add])) ?_
  rintro qe ⟨hq1, hq2, hq3⟩
  rw [hV'] at hq2 hq3
  have hloop := head_sub_loop hd (j := j) (q := qe) hN hk hc (by rw [hn']; exact hj) hq1
  rw [hn'] at hloop
  refine Sat.bind hloop ?_
  rintro ⟨c1, sh1, vdb, svc, b⟩ ⟨x1, y, h1, h2, h3⟩
  dsimp only at h1 h2 h3 ⊢
  rw [M.assert_eq (hd.svc_n (by rw [hn']; exact h3.svc)), M.pure_bind]
  obtain ⟨w, t, e1, hw, ht, e2, -⟩ := ct_sub_l_l_spec hZn h3.b_lt
  refine Sat.bind (h1.modify hN hk (i := j + n) (by omega) (R := fun p v => p = w ∧ v = t) ?_) ?_
  · rw [h2.dig, div_pow_add, Nat.mod_eq_of_lt hZn, e1]
    exact Sat.pure ⟨ht, rfl, rfl⟩
  rintro ⟨c2, sh2, b2⟩ ⟨v, -, ⟨hb2, rfl⟩, hc2⟩
  dsimp only at hb2 hc2 ⊢
  subst hb2
  have h3eq := h3.eq
  rw [hV', hmodn] at h3eq
  obtain ⟨k1, k2, k3, k4⟩ := div_sub_final hV h3eq h3.lt e2 ht hw hq2 hq3
  have hx2 : upd x1 (j + n) v = x % B ^ j + B ^ j * (y + B ^ n * v) := by
    have := (h2.upd ht).final hxB
    rwa [lowN_offset] at this
  rw [hx2] at hc2
  generalize hZ1 : y + B ^ n * v = Z1 at *
  rw [from'_le_one hw, M.pure_bind]
  refine Sat.bindE (store_q_sat hqf hqj hq hw k1 (by rw [k2, hZdiv, div_pow_add, hQ])) ?_
  intro q' hq'
  have hloop2 := head_add_loop hd (j := j) (cond := decide (b2 = 1)) hN hk hc2 (by rw [hn']; exact hj)
  rw [hn'] at hloop2
  refine Sat.bind hloop2 ?_
  rintro ⟨c3, sh3, vdb', kk⟩ ⟨x3, y2, h4, h5, h6⟩
  dsimp only at h4 h5 h6 ⊢
  have hmj : (x % B ^ j + B ^ j * Z1) / B ^ j = Z1 := dig_at (mod_lt_pow _ _)
  have hmm : (x % B ^ j + B ^ j * Z1) % B ^ j = x % B ^ j := by
    rw [Nat.add_mul_mod_self_left, Nat.mod_eq_of_lt (mod_lt_pow _ _)]
  have hZ1n : Z1 / B ^ n < B := by
    rw [Nat.div_lt_iff_lt_mul (B_pow_pos _), ← pow_succ']; exact k4
  rw [hmm] at h5
  rw [hmj] at h6
  have hkB : kk < B := lt_of_le_of_lt h6.k_le (two_pow_lt_B hd.shift_lt)
  have hmB : (Z1 / B ^ n + kk) % B < B := Nat.mod_lt _ B_pos
  refine Sat.bind (h4.modify hN hk (i := j + n) (by omega)
    (R := fun p v => v = (Z1 / B ^ n + kk) % B) ?_) ?_
  · rw [h5.dig, div_pow_add, hmj, Nat.mod_eq_of_lt hZ1n, ct_add_l_l_eq hZ1n hkB]
    exact Sat.pure ⟨hmB, rfl⟩
  rintro ⟨c4, sh4, b4⟩ ⟨v4, -, hv4, hc4⟩
  dsimp only at hc4 ⊢
  subst hv4
  refine Sat.pure ⟨?_, hq'⟩
  have h6eq := h6.eq
  simp only [decide_eq_true_eq] at h6eq
  rw [hmodn', hV'] at h6eq
  have hfin := div_add_final (t := Z1 / B ^ n) hV hVB k1 k2 hw k3 rfl h6eq h6.lt
  have hx1B : x % B ^ j + B ^ j * Z1 < B ^ (j + n + 1) := by
    have h7 := mod_lt_pow x j
    have h8 : B ^ j * (Z1 + 1) ≤ B ^ j * B ^ (n + 1) := Nat.mul_le_mul_left _ k4
    rw [Nat.mul_add, mul_one] at h8
    rw [show j + n + 1 = j + (n + 1) by omega, pow_add B j]
    omega
  have hx4 : upd x3 (j + n) ((Z1 / B ^ n + kk) % B) = U % (B ^ j * V') := by
    have := (h5.upd hmB).final hx1B
    rw [lowN_offset, hfin] at this
    rw [this, hZmod]
  rw [hx4] at hc4
  exact hc4

/-- State of the second loop. -/
def TailI (U V' n len j : ℕ) (u : Buf f) (s : ℕ) : Prop :=
  u.len = len ∧ u.toNat / B ^ n = 0 ∧ s < B ∧
    (u.toNat % B ^ (n - 1) + B ^ (n - 1) * s) * B ^ j = U % (B ^ j * V')

theorem tail_step_sat {d : CtMpDivisor g} {V : ℕ} (hd : d.Ok V) {U j len : ℕ}
    {q0 q : Option (Buf h)} {r : Buf f} {s1 : ℕ}
    (hi : TailI U (V * 2 ^ d.scaling_shift) (ct_mp_nlimbs d.v_len) len (j + 1) r s1)
    (hl : d.v_len ≤ len)
    (hqf : QFits q0 (U / (V * 2 ^ d.scaling_shift))) (hqj : ∀ b ∈ q0, j ≤ b.nlimbs)
    (hq : QInv q0 (U / (V * 2 ^ d.scaling_shift)) (j + 1) q) :
    Sat (lshifted_tail_step d j (r, s1, q)) (OkErr (fun s =>
      TailI U (V * 2 ^ d.scaling_shift) (ct_mp_nlimbs d.v_len) len j s.1 s.2.1 ∧
      QInv q0 (U / (V * 2 ^ d.scaling_shift)) j s.2.2)
      (QErr q0 (U / (V * 2 ^ d.scaling_shift)))) := by
  obtain ⟨hrl, hrH, hs1, hZx⟩ := hi
  rw [← hrl] at hl
  have hV := hd.scaled_pos
  have hVB := hd.lt
  have hn := hd.n_pos
  have hZlt := window_lt (U := U) (j := j) hV
  have hZdiv := window_div U (V * 2 ^ d.scaling_shift) j
  have hZmod := window_mod U (V * 2 ^ d.scaling_shift) j
  have hmodn := hd.scaled_mod_n
  have hmodn' := hd.mod_n
  unfold lshifted_tail_step
  dsimp only
  have hloopS := fun q Z => shift_sub_loop hd r (q := q) (Z := Z) (m := ct_mp_nlimbs d.v_len - 1)
  generalize hV' : V * 2 ^ d.scaling_shift = V' at *
  generalize hn' : ct_mp_nlimbs d.v_len = n at *
  generalize hx : U % (B ^ (j + 1) * V') = x at *
  have hm1 : n - 1 + 1 = n := by omega
  have hRB : r.toNat % B ^ (n - 1) < B ^ (n - 1) := mod_lt_pow _ _
  generalize hYe : r.toNat % B ^ (n - 1) + B ^ (n - 1) * s1 = Y at *
  have hxj : x / B ^ j = B * Y := by
    rw [← hZx, pow_succ, show Y * (B ^ j * B) = B * Y * B ^ j by ring]
    exact Nat.mul_div_cancel _ (B_pow_pos _)
  have hxm : x % B ^ j = 0 := by
    rw [← hZx, pow_succ, show Y * (B ^ j * B) = B * Y * B ^ j by ring]; exact Nat.mul_mod_left _ _
  rw [hxj] at hZlt hZdiv hZmod
  rw [hxm, Nat.zero_add] at hZmod
  have hdS : ∀ i, B * Y / B ^ (i + 1) = Y / B ^ i := by
    intro i; rw [pow_succ', Nat.mul_div_mul_left _ _ B_pos]
  have hd0 : B * Y % B = 0 := Nat.mul_mod_right _ _
  have hd1 : B * Y / B ^ n = s1 := by rw [← hm1, hdS, ← hYe, dig_at hRB]
  have hd4 : ∀ i < n - 1, B * Y / B ^ (i + 1) % B = r.toNat / B ^ i % B := by
    intro i hi; rw [hdS, ← hYe, dig_low hi, dig_mod hi]
  generalize hZ : B * Y = Z at *
  have hZB : Z < B ^ (n + 1) := by
    refine lt_of_lt_of_le hZlt ?_
    rw [pow_succ]; exact Nat.mul_le_mul_right _ hVB.le
  have hfull : ∀ i, i + 1 < n → i * LB + LB ≤ r.len := by
    intro i hi
    have h5 : (i + 1) * LB ≤ r.len := full_of_le hl (by rw [hn']; omega)
    rw [Nat.add_mul, one_mul] at h5
    exact h5
  refine Sat.bind (P := fun l => l = Z / B ^ (n - 1) % B) ?_ ?_
  · refine Sat.cond (fun h2 => ?_) fun h2 => ?_
    · refine Buf.sat_load_l_full r (hfull _ (by omega)) ?_
      rw [← hd4 (n - 2) (by omega), show n - 2 + 1 = n - 1 by omega]
    · rw [show n - 1 = 0 by omega, pow_zero, Nat.div_one, hd0]; exact Sat.pure rfl
  intro u1 hu1
  refine Sat.bind (P := fun l => l < B ∧ (2 ≤ n → l = Z / B ^ (n - 2) % B)) ?_ ?_
  · refine Sat.cond (fun h2 => ?_) fun h2 => ?_
    · refine Buf.sat_load_l_full r (hfull _ (by omega)) ⟨dig_lt _ _, fun h3 => ?_⟩
      rw [← hd4 (n - 3) (by omega), show n - 3 + 1 = n - 2 by omega]
    · refine Sat.pure ⟨B_pos, fun h3 => ?_⟩
      rw [show n - 2 = 0 by omega, pow_zero, Nat.div_one, hd0]
  rintro u2 ⟨hu2, hu2'⟩
  refine Sat.bind (hd.make_q_estimate_sat (U := Z) (by rw [hV']; exact hZlt)
    (by rw [hn', hd1]) (by rw [hn']; exact hu1) hu2 (by rw [hn']; exact hu2')) ?_
  rintro qe ⟨hq1, hq2, hq3⟩
  rw [hV'] at hq2 hq3
  have hml : (n - 1) * LB ≤ r.len := full_of_le hl (by omega)
  refine Sat.bind (hloopS qe Z hq1 (by omega) hml hd0 hd4) ?_
  rintro ⟨r1, vdb, svc, b, nx⟩ ⟨y0, hr1, hS, hnx⟩
  dsimp only at hr1 hS hnx ⊢
  subst nx
  refine Sat.bind (hd.sub_step_sat (by omega) hq1 hS) ?_
  rintro ⟨vdb1, svc1, b1, u1'⟩ ⟨hu1B, hS1⟩
  dsimp only at hu1B hS1 ⊢
  rw [hm1] at hS1
  rw [M.assert_eq (hd.svc_n (by rw [hn']; exact hS1.svc)), M.pure_bind]
  obtain ⟨w, t, e1, hw, ht, e2, -⟩ := ct_sub_l_l_spec hs1 hS1.b_lt
  rw [e1]
  dsimp only
  rw [← hd1] at e2
  have h3eq := hS1.eq
  rw [hV', hmodn] at h3eq
  obtain ⟨k1, k2, k3, k4⟩ := div_sub_final hV h3eq hS1.lt e2 ht hw hq2 hq3
  rw [from'_le_one hw, M.pure_bind]
  refine Sat.bindE (store_q_sat hqf hqj hq hw k1 (by rw [k2, hZdiv])) ?_
  intro q' hq'
  have hy0 : y0 < B ^ (n - 1) := hr1.lt
  have hr1m : r1.toNat % B ^ (n - 1) = y0 := hr1.2.1
  generalize hZ1 : y0 + B ^ (n - 1) * u1' + B ^ n * t = Z1 at *
  have e3 : Z1 = y0 + B ^ (n - 1) * (u1' + B * t) := by
    rw [← hZ1]
    conv_lhs => rw [← hm1]
    rw [pow_succ, hm1]; ring
  have e4 : Z1 / B ^ (n - 1) = u1' + B * t := by rw [e3, dig_at hy0]
  have g3 : Z1 / B ^ (n - 1) % B = u1' := by
    rw [e4, Nat.add_mul_mod_self_left, Nat.mod_eq_of_lt hu1B]
  have g4 : Z1 / B ^ n = t := by
    rw [← hm1, pow_succ, ← Nat.div_div_eq_div_mul, e4, Nat.add_mul_div_left _ _ B_pos,
      Nat.div_eq_of_lt hu1B, Nat.zero_add]
  have g1 : ∀ i < n - 1, Z1 / B ^ i % B = r1.toNat / B ^ i % B := by
    intro i hi; rw [e3, dig_low hi, ← hr1m, dig_mod hi]
  refine Sat.bind (buf_add_loop hd r1 (Z := Z1) (cond := decide (w = 1)) (m := n - 1) (by omega)
    (by rw [hr1.len]; exact hml) g1) ?_
  rintro ⟨r2, vdb2, c2⟩ ⟨y1, hr2, hA⟩
  dsimp only at hr2 hA ⊢
  have hst := hd.add_step_sat (by omega) hA
  rw [g3] at hst
  refine Sat.bind hst ?_
  rintro ⟨vdb4, k, s1'⟩ ⟨hs1', hA3⟩
  dsimp only at hs1' hA3 ⊢
  rw [hm1] at hA3
  have h6eq := hA3.eq
  simp only [decide_eq_true_eq] at h6eq
  rw [hmodn', hV'] at h6eq
  have hfin := div_add_final (t := t) hV hVB k1 k2 hw k3 g4.symm h6eq hA3.lt
  have hmk : (t + k) % B = 0 := by
    by_contra hne
    have h7 : B ^ n * 1 ≤ B ^ n * ((t + k) % B) := Nat.mul_le_mul_left _ (by omega)
    have h6 := Nat.mod_lt Z hV
    omega
  rw [hmk, Nat.mul_zero, Nat.add_zero] at hfin
  refine Sat.pure ⟨⟨?_, ?_, hs1', ?_⟩, hq'⟩
  · dsimp only; rw [hr2.len, hr1.len, hrl]
  · dsimp only; rw [hr2.div (by omega), hr1.div (by omega), hrH]
  · dsimp only
    rw [hr2.2.1, hZmod, ← hfin]; ring

/-- The shadow of the most significant limb and the bits shifted out. -/
theorem head_shadow (u : Buf f) (h0 : 0 < u.len) {out : ℕ} (ho : out < B) :
    Sat (M.cond (u.len % LB ≠ 0)
      (do
        let s1 ← shrC out (8 * (LB - u.len % LB))
        let s0 ← shlC out (8 * (u.len % LB))
        let l ← u.load_l (u.nlimbs - 1)
        pure (s0 ||| l, s1))
      (do
        let l ← u.load_l (u.nlimbs - 1)
        pure (l, out)))
      (fun s => s.1 < B ∧ s.2 < B ∧ u.toNat + 256 ^ u.len * out =
        u.toNat % B ^ (u.nlimbs - 1) + B ^ (u.nlimbs - 1) * (s.1 + B * s.2)) := by
  have hn : 0 < u.nlimbs := by rw [Buf.nlimbs_eq]; exact nlimbs_pos_iff.2 h0
  have hload : u.toNat / B ^ (u.nlimbs - 1) % B = u.toNat / B ^ (u.nlimbs - 1) := by
    refine Nat.mod_eq_of_lt ?_
    rw [Nat.div_lt_iff_lt_mul (B_pow_pos _), ← pow_succ', show u.nlimbs - 1 + 1 = u.nlimbs by omega]
    exact u.toNat_lt_B
  have hlow := low_high u.toNat (u.nlimbs - 1)
  have hhigh := u.toNat_div_high
  have hlen := pow_len h0
  rw [← Buf.nlimbs_eq] at hlen
  have hLB := LB_pos
  have hm := Nat.mod_lt u.len hLB
  refine Sat.cond (fun hp => ?_) fun hp => ?_
  · have hW := W_eq
    have hhb : hbytes u.len = u.len % LB := by
      rcases Composite.full_or_part (n := u.len) (k := u.nlimbs - 1)
        (by rw [← Buf.nlimbs_eq]; omega) with h1 | ⟨h1, h2, h3⟩
      · exfalso
        have h4 := le_nlimbs_mul u.len
        rw [← Buf.nlimbs_eq] at h4
        have h5 : (u.nlimbs - 1) * LB + LB = u.nlimbs * LB := by
          rw [← Nat.succ_mul]; congr 1; omega
        have h6 : u.len = u.nlimbs * LB := by omega
        rw [h6, Nat.mul_mod_left] at hp
        exact hp rfl
      · unfold hbytes
        rw [← Buf.nlimbs_eq]; omega
    rw [hhb] at hhigh hlen
    generalize u.len % LB = p at *
    rw [shrC_eq (by omega), M.pure_bind, shlC_eq (by omega), M.pure_bind]
    refine Sat.bind (P := fun l => l = u.toNat / B ^ (u.nlimbs - 1))
      (Buf.sat_load_l u (by omega) hload) fun l hl => ?_
    subst l
    generalize u.toNat / B ^ (u.nlimbs - 1) = l at *
    have hB : B = 256 ^ (LB - p) * 256 ^ p := by
      rw [← pow_add, B_eq_256_pow]; congr 1; omega
    have hp0 : 0 < 256 ^ p := by positivity
    have hp1 : 0 < 256 ^ (LB - p) := by positivity
    have e1 : shl out (8 * p) = out % 256 ^ (LB - p) * 256 ^ p := by
      rw [shl_eq, two_pow_8]
      conv_lhs => rw [hB]
      rw [Nat.mul_mod_mul_right]
    have e2 : shr out (8 * (LB - p)) = out / 256 ^ (LB - p) := by
      rw [shr_eq, two_pow_8]
    have e3 : shl out (8 * p) ||| l = out % 256 ^ (LB - p) * 256 ^ p + l := by
      rw [e1, ← two_pow_8 p, or_eq_add_of_lt (by rw [two_pow_8]; exact hhigh)]
    refine Sat.pure ⟨?_, ?_, ?_⟩
    · dsimp only
      rw [e3]
      have h1 : (out % 256 ^ (LB - p) + 1) * 256 ^ p ≤ 256 ^ (LB - p) * 256 ^ p :=
        Nat.mul_le_mul_right _ (Nat.mod_lt _ hp1)
      rw [← hB, Nat.add_mul, one_mul] at h1
      omega
    · dsimp only
      rw [e2]; exact lt_of_le_of_lt (Nat.div_le_self _ _) ho
    · dsimp only
      rw [e3, e2, hlen]
      have h2 := Nat.mod_add_div out (256 ^ (LB - p))
      have h3 : B * (out / 256 ^ (LB - p)) = 256 ^ p * (256 ^ (LB - p) * (out / 256 ^ (LB - p))) := by
        conv_lhs => rw [hB]
        ring
      rw [h3]
      generalize out % 256 ^ (LB - p) = o0 at *
      generalize 256 ^ (LB - p) * (out / 256 ^ (LB - p)) = o1 at *
      generalize u.toNat % B ^ (u.nlimbs - 1) = a at *
      rw [hlow, ← h2]; ring
  · refine Sat.bind (P := fun l => l = u.toNat / B ^ (u.nlimbs - 1))
      (Buf.sat_load_l u (by omega) hload) fun l hl => ?_
    subst l
    have hp' : u.len % LB = 0 := by simpa using hp
    have hfull : 256 ^ u.len = B ^ (u.nlimbs - 1) * B := by
      rw [← pow_succ, show u.nlimbs - 1 + 1 = u.nlimbs by omega, ← pow_256, Buf.nlimbs_eq]
      congr 1
      obtain ⟨m, hm⟩ := Nat.dvd_of_mod_eq_zero hp'
      rw [hm, Nat.mul_comm, nlimbs_mul]
    refine Sat.pure ⟨?_, ho, ?_⟩
    · dsimp only; rw [← hload]; exact dig_lt _ _
    · dsimp only
      rw [hfull]
      generalize u.toNat / B ^ (u.nlimbs - 1) = l at *
      generalize u.toNat % B ^ (u.nlimbs - 1) = a at *
      rw [hlow]; ring

/-- Scaling the limbs of the head part in the buffer. -/
theorem head_scale_loop {d : CtMpDivisor g} {V : ℕ} (hd : d.Ok V) (u : Buf f) {k : ℕ}
    (hk : k * LB ≤ u.len) :
    Sat (M.forRange 0 k (u, 0) fun i (u, carry) => do
        let u_val ← u.load_l_full i
        let (carry, u_val) ← d.scale_val u_val carry
        let u ← u.store_l_full i u_val
        pure (u, carry))
      (fun s => Low u (u.toNat * 2 ^ d.scaling_shift % B ^ k) k s.1 ∧
        Svc u.toNat d.scaling_shift k s.2) := by
  refine Sat.forRange (P := fun i (s : Buf f × ℕ) =>
    Low u (u.toNat * 2 ^ d.scaling_shift % B ^ i) i s.1 ∧ Svc u.toNat d.scaling_shift i s.2)
    (Nat.zero_le _) ?_ ?_
  · exact ⟨by simpa [Nat.mod_one] using Low.zero u, Svc.zero⟩
  · rintro i ⟨c, k'⟩ - hi ⟨h1, h3⟩
    dsimp only at h1 h3 ⊢
    have hil : i * LB + LB ≤ u.len := by
      have := Nat.mul_le_mul_right LB (Nat.succ_le_of_lt hi)
      rw [Nat.succ_mul] at this; omega
    refine Sat.bind (P := fun l => l = u.toNat / B ^ i % B)
      (h1.sat_load_full hil le_rfl rfl) fun l hl => ?_
    subst l
    rw [hd.scale_val_eq (dig_lt _ _) h3.le, M.pure_bind]
    dsimp only
    rw [h3.step.2]
    refine Sat.bind (P := fun c' => Low u (u.toNat * 2 ^ d.scaling_shift % B ^ (i + 1)) (i + 1) c')
      (h1.sat_store_full hil (dig_lt _ _) fun c' hc' => ?_) fun c' hc' => ?_
    · rw [mod_succ]; exact hc'
    · exact Sat.pure ⟨hc', h3.step.1⟩

/-- The number of limbs by which the dividend is shifted at once. -/
theorem head_len_bounds {free h0 shl : ℕ} (hh : h0 = shl % LB) {n hl : ℕ}
    (hn : n = ct_mp_nlimbs (free + LB - h0 + 1) - 1) (hhl : hl = min (n * LB) (shl - h0) + h0) :
    1 ≤ ct_mp_nlimbs (free + LB - h0 + 1) ∧ hl % LB = shl % LB ∧ hl ≤ shl ∧ hl ≤ free + LB ∧
      (hl = shl ∨ free + 1 ≤ hl) ∧ LB ∣ shl - hl := by
  have hLB := LB_pos
  have hm := Nat.mod_lt shl hLB
  have hdm := Nat.div_add_mod' shl LB
  have h1 : 1 ≤ ct_mp_nlimbs (free + LB - h0 + 1) := nlimbs_pos_iff.2 (by omega)
  have h2 : n * LB < free + LB - h0 + 1 := lt_nlimbs_iff.1 (by omega)
  have h3 : free + LB - h0 + 1 ≤ (n + 1) * LB := nlimbs_le_iff.1 (by omega)
  rw [Nat.add_mul, one_mul] at h3
  have h4 : shl - h0 = shl / LB * LB := by omega
  rw [h4] at hhl
  rcases Nat.le_total (n * LB) (shl / LB * LB) with h5 | h5
  · rw [min_eq_left h5] at hhl
    refine ⟨h1, ?_, by omega, by omega, Or.inr (by omega), ?_⟩
    · rw [hhl, hh, Nat.add_comm, Nat.add_mul_mod_self_right, Nat.mod_mod]
    · rw [show shl - hl = shl / LB * LB - n * LB by omega, ← Nat.sub_mul]
      exact Dvd.intro_left _ rfl
  · rw [min_eq_right h5] at hhl
    refine ⟨h1, ?_, by omega, by omega, Or.inl (by omega), ?_⟩
    · rw [show hl = shl by omega]
    · rw [show shl - hl = 0 by omega]; exact dvd_zero _

theorem lshifted_main_sat {d : CtMpDivisor g} {V : ℕ} (hd : d.Ok V) (u : Buf f)
    (q0 : Option (Buf h)) {u_in_len shl U : ℕ} (hin : u_in_len ≤ u.len)
    (hx : u.toNat < 256 ^ u_in_len) (hU : U = u.toNat * 256 ^ shl)
    (hvle : d.v_len ≤ u_in_len + shl) (hvl : d.v_len ≤ u.len)
    (hc' : ∀ b ∈ q0, u_in_len + shl ≤ b.len + d.v_len) (hqf : QFits q0 (U / V)) :
    Sat (lshifted_main u u_in_len shl d q0) (OkErr (fun s =>
      s.1.len = u.len ∧ s.1.toNat = U % V ∧
      s.2.map Buf.len = q0.map Buf.len ∧ ∀ b ∈ s.2, b.toNat = U / V) (QErr q0 (U / V))) := by
  have hul : 0 < u.len := lt_of_lt_of_le hd.len_pos hvl
  have hU256 : U < 256 ^ (u_in_len + shl) := by
    rw [hU, pow_add]; exact Nat.mul_lt_mul_of_pos_right hx (by positivity)
  have hQlt := div_quot_lt hd hU256 hvle
  unfold lshifted_main
  dsimp only
  refine Sat.bind (clear_q_sat (q0 := q0) hQlt) fun q1 hq1 => ?_
  rw [M.sub_eq hin, M.pure_bind]
  obtain ⟨b1, b2, b3, b4, b5, b6⟩ := head_len_bounds (free := u.len - u_in_len) (shl := shl) rfl
    rfl rfl
  rw [M.sub_eq b1, M.pure_bind]
  generalize min ((ct_mp_nlimbs (u.len - u_in_len + LB - shl % LB + 1) - 1) * LB) (shl - shl % LB)
    + shl % LB = hl at *
  rw [M.assert_eq b2, M.pure_bind, M.sub_eq b3, M.pure_bind]
  obtain ⟨T, hT⟩ := b6
  have hTd : (shl - hl) / LB = T := by rw [hT]; exact Nat.mul_div_cancel_left _ LB_pos
  rw [hTd]
  -- the head part
  generalize hX : u.toNat * 256 ^ hl = X at *
  have hXlt : X < 256 ^ (u_in_len + hl) := by
    rw [← hX, pow_add]; exact Nat.mul_lt_mul_of_pos_right hx (by positivity)
  have hUX : U = B ^ T * X := by
    rw [hU, ← hX, ← pow_256, show shl = T * LB + hl by rw [Nat.mul_comm]; omega, pow_add]; ring
  have hXo : X < 256 ^ u.len * B := by
    refine lt_of_lt_of_le hXlt ?_
    rw [B_eq_256_pow, ← pow_add]
    exact Nat.pow_le_pow_right (by norm_num) (by omega)
  refine Sat.bind (P := fun p : Buf f × ℕ => p.1.len = u.len ∧ p.2 < B ∧
    p.1.toNat + 256 ^ p.1.len * p.2 = X) ((ct_lshift_mp_sat u (8 * hl)).mono ?_) ?_
  · rintro ⟨u1, out⟩ ⟨h1, h2, h3⟩
    dsimp only at h1 h2 h3 ⊢
    rw [if_neg hul.ne', two_pow_8, two_pow_8, hX] at h3
    rw [two_pow_8, two_pow_8, hX] at h2
    refine ⟨h1, by rw [h3]; exact Nat.mod_lt _ B_pos, ?_⟩
    rw [h3, h2, h1, Nat.mod_eq_of_lt (Nat.div_lt_of_lt_mul hXo)]
    exact Nat.mod_add_div _ _
  rintro ⟨u1, out⟩ ⟨hu1l, hout, hu1⟩
  dsimp only at hu1l hout hu1 ⊢
  have hN : u1.nlimbs = ct_mp_nlimbs u.len := by rw [Buf.nlimbs_eq, hu1l]
  have hNpos : 0 < ct_mp_nlimbs u1.len := nlimbs_pos_iff.2 (by omega)
  rw [M.sub_eq hNpos, M.pure_bind]
  have hsh := head_shadow u1 (by omega) hout
  rw [Buf.nlimbs_eq] at hsh
  refine Sat.bind hsh ?_
  rintro ⟨s0, s1⟩ ⟨hs0, hs1, hX1⟩
  dsimp only at hs0 hs1 hX1 ⊢
  rw [hu1] at hX1
  rw [hu1l] at hX1 hNpos ⊢
  generalize hNe : ct_mp_nlimbs u.len = N at *
  have hkl : (N - 1) * LB ≤ u1.len := full_of_le (n := u.len) hu1l.ge (by omega)
  refine Sat.bind (head_scale_loop hd u1 hkl) ?_
  rintro ⟨u2, c0⟩ ⟨hu2, hc0⟩
  dsimp only at hu2 hc0 ⊢
  have hc0le := hc0.le
  rw [hd.scale_val_eq hs0 hc0le, M.pure_bind]
  dsimp only
  have hc1le := CtMpDivisor.Ok.scaled_carry_le hs0 hc0le
  rw [hd.scale_val_eq hs1 hc1le, M.pure_bind]
  dsimp only
  have hc2le := CtMpDivisor.Ok.scaled_carry_le hs1 hc1le
  have hs2B := two_pow_lt_B hd.shift_lt
  generalize hk : N - 1 = k at *
  have hkN : k + 1 = N := by omega
  -- the scaled head part
  have hH : HVal u.len k (X * 2 ^ d.scaling_shift) u2
      [(s0 * 2 ^ d.scaling_shift + c0) % B,
        (s1 * 2 ^ d.scaling_shift + (s0 * 2 ^ d.scaling_shift + c0) / B) % B,
        (s1 * 2 ^ d.scaling_shift + (s0 * 2 ^ d.scaling_shift + c0) / B) / B] := by
    refine ⟨hu2.len.trans hu1l, _, _, _, rfl, Nat.mod_lt _ B_pos, Nat.mod_lt _ B_pos, by omega, ?_⟩
    rw [hu2.2.1]
    have h1 := hc0.eq
    have h2 := Nat.mod_add_div (s0 * 2 ^ d.scaling_shift + c0) B
    generalize (s0 * 2 ^ d.scaling_shift + c0) / B = c1 at *
    have h3 := Nat.mod_add_div (s1 * 2 ^ d.scaling_shift + c1) B
    rw [h3]
    generalize (s0 * 2 ^ d.scaling_shift + c0) % B = t0 at *
    generalize u1.toNat * 2 ^ d.scaling_shift % B ^ k = a at *
    rw [hX1]
    linear_combination h1 - B ^ k * h2
  generalize hXs : X * 2 ^ d.scaling_shift = X' at *
  have hU' : U * 2 ^ d.scaling_shift = B ^ T * X' := by rw [hUX, ← hXs]; ring
  have hQ' : U * 2 ^ d.scaling_shift / (V * 2 ^ d.scaling_shift) = U / V := scaled_div _ _ _
  have hQX : U / V / B ^ T = X' / (V * 2 ^ d.scaling_shift) := by
    rw [← hQ', hU', Nat.div_div_eq_div_mul, Nat.mul_comm (V * 2 ^ d.scaling_shift),
      Nat.mul_div_mul_left _ _ (B_pow_pos T)]
  have hvX : d.v_len ≤ u_in_len + hl := by
    rcases b5 with h1 | h1 <;> omega
  have hXQ := div_quot_lt hd hXlt hvX
  have hqmax : ct_mp_nlimbs (u_in_len + shl + 1 - d.v_len)
      = T + ct_mp_nlimbs (u_in_len + hl + 1 - d.v_len) := by
    rw [← Composite.nlimbs_add_mul]; congr 1
    have : T * LB = shl - hl := by rw [hT, Nat.mul_comm]
    omega
  rw [hqmax] at hq1 ⊢
  rw [M.sub_eq (by omega), M.pure_bind, Nat.add_sub_cancel_left]
  have hsplit := nlimbs_split (a := d.v_len) (b := u_in_len + hl - d.v_len) hd.len_pos
  rw [show d.v_len + (u_in_len + hl - d.v_len) = u_in_len + hl by omega,
    show u_in_len + hl - d.v_len + 1 = u_in_len + hl + 1 - d.v_len by omega] at hsplit
  have hidx : ct_mp_nlimbs (u_in_len + hl) ≤ N + 1 := by
    have h1 : u_in_len + hl ≤ 1 * LB + u.len := by omega
    have h2 := nlimbs_mono h1
    rw [Composite.nlimbs_add_mul, hNe] at h2
    omega
  have hnN : ct_mp_nlimbs d.v_len ≤ N := by rw [← hNe]; exact nlimbs_mono hvl
  have hqj : ∀ b ∈ q0, ∀ j, j < T + ct_mp_nlimbs (u_in_len + hl + 1 - d.v_len) → j ≤ b.nlimbs := by
    intro b hb j hj
    have h3 := hc' b hb
    have h4 : ct_mp_nlimbs (u_in_len + shl + 1 - d.v_len) ≤ ct_mp_nlimbs (b.len + 1) :=
      nlimbs_mono (by omega)
    have h5 := nlimbs_succ_le b.len
    rw [Buf.nlimbs_eq]; omega
  have hXstart : X' % (B ^ ct_mp_nlimbs (u_in_len + hl + 1 - d.v_len) *
      (V * 2 ^ d.scaling_shift)) = X' := by
    refine Nat.mod_eq_of_lt ?_
    rw [← Nat.div_lt_iff_lt_mul hd.scaled_pos, ← hXs, scaled_div]
    exact lt_of_lt_of_le hXQ (pow_len_le _)
  refine Sat.bindE (P := fun s : Buf f × List ℕ × Option (Buf h) =>
    HVal u.len k (X' % (V * 2 ^ d.scaling_shift)) s.1 s.2.1 ∧ QInv q0 (U / V) T s.2.2) ?_ ?_
  · have hlp := Sat.forDownE (f := lshifted_head_step (f := f) (h := h) d N T) (P := fun j s =>
      HVal u.len k (X' % (B ^ j * (V * 2 ^ d.scaling_shift))) s.1 s.2.1 ∧
        QInv q0 (U / V) (T + j) s.2.2) (E := QErr q0 (U / V))
      (hi := ct_mp_nlimbs (u_in_len + hl + 1 - d.v_len)) (s := (u2, [_, _, _], q1))
      ⟨by rw [hXstart]; exact hH, hq1⟩ ?_
    · refine hlp.mono ?_
      rintro (er | s) hr
      · exact hr
      · obtain ⟨h1, h2⟩ := hr
        rw [pow_zero, one_mul] at h1
        exact ⟨h1, h2⟩
    · rintro j ⟨c, sh, q⟩ hj ⟨h1, h2⟩
      exact head_step_sat hd (q0 := q0) (q := q) hNe.symm hkN h1 (by omega) hQX hqf
        (fun b hb => hqj b hb _ (by omega)) h2
  rintro ⟨u3, sh3, q3⟩ ⟨⟨hu3l, t0, t1, t2, hsh3, ht0, ht1, ht2, hX3⟩, hq3⟩
  dsimp only at hu3l hsh3 hX3 hq3 ⊢
  subst hsh3
  have hn := hd.n_pos
  have hVlt := hd.lt
  have hVpos := hd.scaled_pos
  have hxV : X' % (V * 2 ^ d.scaling_shift) < V * 2 ^ d.scaling_shift := Nat.mod_lt _ hVpos
  have htail : U * 2 ^ d.scaling_shift % (B ^ T * (V * 2 ^ d.scaling_shift))
      = B ^ T * (X' % (V * 2 ^ d.scaling_shift)) := by rw [hU', Nat.mul_mod_mul_left]
  generalize hx' : X' % (V * 2 ^ d.scaling_shift) = x at *
  have hxB : x < B ^ ct_mp_nlimbs d.v_len := lt_trans hxV hVlt
  have hxN : x < B ^ (k + 1) := lt_of_lt_of_le hxB (Nat.pow_le_pow_right B_pos (by omega))
  have ha := mod_lt_pow u3.toNat k
  obtain ⟨g0, g1, g2⟩ := three_digs ht0 ht1 ht2
  have hz : ∀ c, 1 ≤ c → (t0 + B * (t1 + B * t2)) / B ^ c % B = 0 := by
    intro c hc
    rw [← dig_high_part ha (t0 + B * (t1 + B * t2)) c, ← hX3, Nat.div_eq_of_lt, Nat.zero_mod]
    exact lt_of_lt_of_le hxN (Nat.pow_le_pow_right B_pos (by omega))
  have ht1z : t1 = 0 := by rw [← g1, hz 1 le_rfl]
  have ht2z : t2 = 0 := by rw [← g2, hz 2 (by norm_num)]
  show Sat ((pure t2 : M ℕ) >>= _) _
  rw [M.pure_bind, M.assert_eq ht2z, M.pure_bind]
  show Sat ((pure t1 : M ℕ) >>= _) _
  rw [M.pure_bind, M.assert_eq ht1z, M.pure_bind]
  show Sat ((pure t0 : M ℕ) >>= _) _
  rw [M.pure_bind]
  rw [ht1z, ht2z, Nat.mul_zero, Nat.add_zero, Nat.mul_zero, Nat.add_zero] at hX3
  -- clearing the stale most significant limb
  have hn3 : u3.nlimbs = N := by rw [Buf.nlimbs_eq, hu3l, hNe]
  refine Sat.bind (P := fun u4 : Buf f => u4.len = u.len ∧
    (ct_mp_nlimbs d.v_len < N → u4.toNat = x) ∧
    (ct_mp_nlimbs d.v_len = N → u4 = u3)) ?_ ?_
  · refine Sat.cond (fun hc => ?_) fun hc => ?_
    · have ht0z : t0 = 0 := by
        have h1 : x / B ^ k = t0 := by rw [hX3, dig_at ha]
        rw [← h1]
        exact Nat.div_eq_of_lt (lt_of_lt_of_le hxB (Nat.pow_le_pow_right B_pos (by omega)))
      rw [M.assert_eq ht0z, M.pure_bind]
      refine Buf.sat_store_l u3 (by omega) B_pos (fun _ => by positivity) ?_
      intro u4 h1 h2
      refine ⟨h1.trans hu3l, fun _ => ?_, fun h => by omega⟩
      rw [h2, hX3, ht0z, Nat.mul_zero, Nat.add_zero]
      unfold upd
      rw [hkN, ← hn3, u3.toNat_div]; ring
    · exact Sat.pure ⟨hu3l, fun h => by omega, fun _ => rfl⟩
  rintro u4 ⟨hu4l, hu4a, hu4b⟩
  have hfull : ∀ i, i + 1 < N → i * LB + LB ≤ u4.len := by
    intro i hi
    exact full_of_lt_pred (by rw [hu4l]; omega)
  rw [M.assertM_eq ?_, M.pure_bind]
  swap
  · rcases Nat.lt_or_ge (ct_mp_nlimbs d.v_len) N with hc | hc
    · refine Sat.forRange (P := fun _ (s : Bool) => s = true) (by omega) rfl ?_
      rintro i ok hi hi2 rfl
      refine Sat.bind (P := fun l => l = 0) (Buf.sat_load_l_full u4 (hfull i (by omega)) ?_)
        fun l hl => ?_
      · rw [hu4a hc, Nat.div_eq_of_lt]
        · rfl
        · exact lt_of_lt_of_le hxB (Nat.pow_le_pow_right B_pos hi)
      · subst l; exact Sat.pure rfl
    · unfold M.forRange
      rw [show k - ct_mp_nlimbs d.v_len = 0 by omega]
      exact Sat.pure rfl
  refine Sat.bind (P := fun s => TailI (U * 2 ^ d.scaling_shift) (V * 2 ^ d.scaling_shift)
    (ct_mp_nlimbs d.v_len) u.len T u4 s) ?_ ?_
  · refine Sat.cond (fun hc => ?_) fun hc => ?_
    · have hnN' : ct_mp_nlimbs d.v_len = N := by omega
      have := hu4b hnN'
      subst this
      refine Sat.pure ⟨hu4l, ?_, ht0, ?_⟩
      · rw [hnN', ← hn3, u4.toNat_div]
      · rw [htail, hX3, show ct_mp_nlimbs d.v_len - 1 = k by omega, Nat.mul_comm]
    · have hlt : ct_mp_nlimbs d.v_len < N := by omega
      have hu4 := hu4a hlt
      refine Buf.sat_load_l_full u4 (hfull _ (by omega)) ⟨hu4l, ?_, dig_lt _ _, ?_⟩
      · rw [hu4]; exact Nat.div_eq_of_lt hxB
      · rw [htail, hu4, ← mod_succ,
          show ct_mp_nlimbs d.v_len - 1 + 1 = ct_mp_nlimbs d.v_len by omega,
          Nat.mod_eq_of_lt hxB, Nat.mul_comm]
  intro s hs
  refine Sat.bindE (P := fun s : Buf f × ℕ × Option (Buf h) =>
    TailI (U * 2 ^ d.scaling_shift) (V * 2 ^ d.scaling_shift) (ct_mp_nlimbs d.v_len) u.len 0
      s.1 s.2.1 ∧ QInv q0 (U / V) 0 s.2.2)
    (Sat.forDownE (f := lshifted_tail_step (f := f) (h := h) d) (P := fun j s =>
      TailI (U * 2 ^ d.scaling_shift) (V * 2 ^ d.scaling_shift) (ct_mp_nlimbs d.v_len) u.len j
      s.1 s.2.1 ∧ QInv q0 (U / V) j s.2.2) (E := QErr q0 (U / V)) ⟨hs, hq3⟩ ?_) ?_
  · rintro j ⟨c, s, q⟩ hj ⟨h1, h2⟩
    have := tail_step_sat hd (q0 := q0) (q := q) h1 hvl (by rw [hQ']; exact hqf)
      (fun b hb => hqj b hb j (by omega)) (by rw [hQ']; exact h2)
    rw [hQ'] at this
    exact this
  rintro ⟨u5, s5, q5⟩ ⟨⟨hu5l, hu5h, hs5, hu5⟩, hq5⟩
  dsimp only at hu5l hu5h hs5 hu5 hq5 ⊢
  rw [pow_zero, mul_one, one_mul] at hu5
  have hrem : U * 2 ^ d.scaling_shift % (V * 2 ^ d.scaling_shift) / 2 ^ d.scaling_shift
    = U % V := scaled_mod _ _ _
  have hyV : U * 2 ^ d.scaling_shift % (V * 2 ^ d.scaling_shift) < B ^ ct_mp_nlimbs d.v_len :=
    lt_trans (Nat.mod_lt _ hVpos) hVlt
  have hyr : U % V < 256 ^ u5.len := by
    refine lt_of_lt_of_le (lt_trans (Nat.mod_lt _ hd.pos) hd.hi) ?_
    exact Nat.pow_le_pow_right (by norm_num) (by omega)
  rw [← hrem]
  rw [← hrem] at hyr
  clear htail
  generalize U * 2 ^ d.scaling_shift % (V * 2 ^ d.scaling_shift) = y at *
  generalize hne : ct_mp_nlimbs d.v_len = n at *
  have hylow : y % B ^ (n - 1) = u5.toNat % B ^ (n - 1) := by
    rw [← hu5, Nat.add_mul_mod_self_left, Nat.mod_mod]
  have hyhigh : y / B ^ (n - 1) = s5 := by rw [← hu5, dig_at (mod_lt_pow _ _)]
  have hyle : y / 2 ^ d.scaling_shift ≤ y := Nat.div_le_self _ _
  rw [hd.unscale_val_eq hs5, M.pure_bind]
  have e1 := unscale_dig y (n - 1) hd.shift_lt
  rw [show n - 1 + 1 = n by omega, Nat.div_eq_of_lt hyV, Nat.zero_mod, hyhigh,
    Nat.mod_eq_of_lt hs5] at e1
  rw [e1]
  refine Sat.bind (P := fun b' : Buf f => b'.len = u5.len ∧ b'.toNat =
    upd u5.toNat (n - 1) (y / 2 ^ d.scaling_shift / B ^ (n - 1) % B))
    (sat_store_dig u5 (by rw [Buf.nlimbs_eq, hu5l]; omega) hyr fun b' h1 h2 => ⟨h1, h2⟩) ?_
  rintro u6 ⟨hu6l, hu6⟩
  refine Sat.bind (buf_unscale_loop hd (b0 := u6) (x := y) (m := n - 1)
    (st := fun b i v => b.store_l i v) ?_ ?_ ?_ ?_ ?_) ?_
  · intro b i hb hi Q hQ
    refine sat_store_dig b ?_ ?_ hQ
    · rw [Buf.nlimbs_eq, hb, hu6l, hu5l, hNe]; omega
    · rw [hb, hu6l]; exact hyr
  · rw [hu6l, hu5l]; exact full_of_le hvl (by omega)
  · rw [hu6, upd_mod _ _ _ le_rfl, hylow]
  · have h3 := div_succ (y / 2 ^ d.scaling_shift) (n - 1)
    rw [show n - 1 + 1 = n by omega, Nat.div_eq_of_lt (lt_of_le_of_lt hyle hyV)] at h3
    rw [hu6, upd_div_le, show n - 1 + 1 = n by omega, hu5h]; exact h3.symm
  · rw [hyhigh, Nat.mod_eq_of_lt hs5]
  rintro ⟨u7, _⟩ ⟨h1, h2⟩
  exact Sat.pure ⟨h1.trans (hu6l.trans hu5l), h2, hq5.final⟩

theorem ct_div_lshifted_mp_mp_sat {d : CtMpDivisor g} {V : ℕ} (hd : d.Ok V) (u : Buf f)
    (q0 : Option (Buf h)) {u_in_len shl U : ℕ} (hin : u_in_len ≤ u.len)
    (hx : u.toNat < 256 ^ u_in_len) (hU : U = u.toNat * 256 ^ shl)
    (hq : ∀ b ∈ q0, U / V < 256 ^ b.len ∨ B ^ b.nlimbs ≤ U / V ∨
      b.len + d.v_len < u_in_len + shl) :
    Sat (ct_div_lshifted_mp_mp u u_in_len shl d q0) (OkErr (fun s =>
      s.1.len = u.len ∧ s.1.toNat = U % V ∧
      s.2.map Buf.len = q0.map Buf.len ∧ ∀ b ∈ s.2, b.toNat = U / V)
      (DivErr2 q0 (U / V) (u_in_len + shl - d.v_len) u.len (min d.v_len (u_in_len + shl)))) := by
  unfold ct_div_lshifted_mp_mp
  rw [M.assert_eq hin, M.pure_bind]
  dsimp only
  refine Sat.cond (fun hc => ?_) fun hc => ?_
  · obtain ⟨b, hb, hlt⟩ := hc
    exact Sat.pure (Or.inl ⟨rfl, b, hb, Or.inl (by omega)⟩)
  have hc' : ∀ b ∈ q0, u_in_len + shl ≤ b.len + d.v_len := fun b hb => by
    by_contra hlt
    exact hc ⟨b, hb, by omega⟩
  have hqf : QFits q0 (U / V) := fun b hb => by
    rcases hq b hb with h1 | h1 | h1
    · exact Or.inl h1
    · exact Or.inr h1
    · exact absurd (hc' b hb) (by omega)
  refine Sat.cond (fun hr => ?_) fun hr => ?_
  · exact Sat.pure (Or.inr ⟨rfl, hr⟩)
  refine Sat.cond (fun hlt => ?_) fun hge => ?_
  · have hU256 : U < 256 ^ (u_in_len + shl) := by
      rw [hU, pow_add]; exact Nat.mul_lt_mul_of_pos_right hx (by positivity)
    have hUV : U < V := by
      refine lt_of_lt_of_le hU256 (le_trans ?_ hd.lo)
      exact Nat.pow_le_pow_right (by norm_num) (by omega)
    refine Sat.bind (ct_lshift_mp_sat u (8 * shl)) ?_
    rintro ⟨u1, out⟩ ⟨h1, h2, h3⟩
    dsimp only at h1 h2 ⊢
    rw [Nat.div_eq_of_lt hUV]
    refine Sat.bind (clear_q_sat (q0 := q0) (Q := 0) (n := 0) (by norm_num)) fun q hq' => ?_
    rw [nlimbs_zero] at hq'
    refine Sat.pure ⟨h1, ?_, hq'.final⟩
    dsimp only
    rw [h2, two_pow_8, two_pow_8, ← hU, Nat.mod_eq_of_lt hUV, Nat.mod_eq_of_lt]
    exact lt_of_lt_of_le hU256 (Nat.pow_le_pow_right (by norm_num) (by omega))
  · refine (lshifted_main_sat hd u q0 hin hx hU (by omega) (by omega) hc' hqf).mono ?_
    rintro (er | s) hr
    · obtain ⟨h1, b, hb, h2⟩ := hr
      exact Or.inl ⟨h1, b, hb, Or.inr h2⟩
    · exact hr

theorem ct_mod_lshifted_mp_mp_sat {d : CtMpDivisor g} {V : ℕ} (hd : d.Ok V) (u : Buf f)
    {u_in_len shl : ℕ} (hin : u_in_len ≤ u.len) (hx : u.toNat < 256 ^ u_in_len) :
    Sat (ct_mod_lshifted_mp_mp u u_in_len shl d) (OkErr (fun s =>
      s.len = u.len ∧ s.toNat = u.toNat * 256 ^ shl % V)
      (fun er => er = .InsufficientRemainderSpace ∧
        u.len < min d.v_len (u_in_len + shl))) := by
  unfold ct_mod_lshifted_mp_mp
  refine Sat.bind (ct_div_lshifted_mp_mp_sat hd u (none : Option (Buf .ne)) (shl := shl) hin hx rfl
    (by simp)) ?_
  rintro (er | ⟨s, q⟩) hr
  · rcases hr with ⟨-, b, hb, -⟩ | ⟨h1, h2⟩
    · simp at hb
    · subst h1
      exact Sat.pure ⟨rfl, h2⟩
  · exact Sat.pure ⟨hr.1, hr.2.1⟩

end Cmpa
