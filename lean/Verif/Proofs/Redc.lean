import Verif.Proofs.RedcKernel
import Verif.Proofs.BufCopy

/-!
# Montgomery reduction
-/

set_option linter.unusedSectionVars false

namespace Cmpa
variable [LimbCfg] {f g h : Fmt}

open M

/-- The state of the inner loop of a reduction step: `j` limbs have been written to the buffer
`t0`, and the limbs `0..=j` consumed make up `X`. -/
def StepInv (t0 : Buf f) (X n m j : ℕ) (t : Buf f) (k : RedcKernel) : Prop :=
  ∃ out, Low t0 out j t ∧ k.m = m ∧ k.Inv W (X + m * (n % B ^ (j + 1))) j out

theorem StepInv.m_lt {t0 : Buf f} {X n m j : ℕ} {t : Buf f} {k : RedcKernel}
    (h : StepInv t0 X n m j t k) : m < B := by
  obtain ⟨_, _, h1, h2⟩ := h
  rw [← h1, B_eq_two_pow]; exact h2.m_lt

theorem StepInv.start (t0 : Buf f) {n n0 neg v : ℕ} (hn0 : n0 = n % B) (hv : v < B)
    (hneg : wmul n0 neg = lmax) {Q : RedcKernel → Prop}
    (hQ : ∀ m k, StepInv t0 v n m 0 t0 k → Q k) :
    Sat (RedcKernel.start W v n0 neg) Q := by
  have hn0B : n0 < B := by rw [hn0]; exact Nat.mod_lt _ B_pos
  refine (RedcKernel.start_sat le_rfl hv hn0B hneg).mono fun k hk => hQ k.m k ?_
  refine ⟨0, Low.zero t0, rfl, ?_⟩
  rw [Nat.zero_add, pow_one, ← hn0]; exact hk

theorem StepInv.step {t0 : Buf f} {X n m j : ℕ} {t : Buf f} {k : RedcKernel}
    (h : StepInv t0 X n m j t k) {v w : ℕ} (hv : v < B) (hw : w = n / B ^ (j + 1) % B)
    (hj : j * LB + LB ≤ t0.len) :
    Sat (k.update v w) (fun s => Sat (t.store_l_full j s.2) (fun t' =>
      StepInv t0 (X + B ^ (j + 1) * v) n m (j + 1) t' s.1)) := by
  obtain ⟨out, hlow, hm, hk⟩ := h
  have hwB : w < B := by rw [hw]; exact Nat.mod_lt _ B_pos
  refine (RedcKernel.update_sat le_rfl hk hv hwB).mono fun s ⟨h1, h2, h3⟩ => ?_
  refine hlow.sat_store_full hj h2 fun t' ht' => ?_
  refine ⟨_, ht', h1.trans hm, ?_⟩
  have e : X + m * (n % B ^ (j + 1)) + B ^ (j + 1) * (v + k.m * w)
      = X + B ^ (j + 1) * v + m * (n % B ^ (j + 1 + 1)) := by
    rw [mod_succ n (j + 1), ← hw, hm]; ring
  rw [← e]; exact h3

theorem StepInv.finish {t0 : Buf f} {X n m N : ℕ} {t : Buf f} {k : RedcKernel} (hN : 0 < N)
    (h : StepInv t0 X n m (N - 1) t k) {v : ℕ} (hv : v < B) (hn : n < B ^ N) :
    t.len = t0.len ∧ Sat (k.finish v) (fun s => s.1 ≤ 1 ∧ s.2 < B ∧
      B * shadowVal N t s.2 s.1 = X + B ^ N * v + m * n) := by
  obtain ⟨out, hlow, hm, hk⟩ := h
  refine ⟨hlow.len, (RedcKernel.finish_sat hk hv).mono fun s ⟨h1, h2, h3⟩ => ⟨h1, h2, ?_⟩⟩
  have e : N - 1 + 1 = N := by omega
  rw [e, Nat.mod_eq_of_lt hn] at h3
  unfold shadowVal
  rw [hlow.2.1, h3]; ring

/-- A step of the reduction. -/
theorem redc_step_sat {n : Buf g} {n0 neg : ℕ} (hn0 : n0 = n.toNat % B)
    (hneg : wmul n0 neg = lmax) (t : Buf f) {high carry : ℕ} (hh : high < B) (hc : carry ≤ 1)
    (hn2 : 2 ≤ n.nlimbs) (hnt : n.nlimbs ≤ t.nlimbs) :
    Sat (redc_step n n0 neg (t, high, carry)) (fun s => s.1.len = t.len ∧ s.2.1 < B ∧
      s.2.2 ≤ 1 ∧ ∃ m < B, B * shadowVal t.nlimbs s.1 s.2.1 s.2.2
        = shadowVal t.nlimbs t high carry + m * n.toNat) := by
  have hnN : n.toNat < B ^ t.nlimbs := lt_of_lt_of_le n.toNat_lt_B
    (Nat.pow_le_pow_right B_pos hnt)
  unfold redc_step
  dsimp only
  generalize hT : shadowVal t.nlimbs t high carry = T
  have hdig : ∀ i, i < t.nlimbs - 1 → t.toNat / B ^ i % B = T / B ^ i % B := by
    intro i hi; rw [← hT, shadow_dig hi]
  have hhigh : high = T / B ^ (t.nlimbs - 1) % B := by rw [← hT, shadow_high hh]
  have hstep : ∀ X j, X = T % B ^ (j + 1) → X + B ^ (j + 1) * (T / B ^ (j + 1) % B)
      = T % B ^ (j + 1 + 1) := by
    intro X j h; rw [h, ← mod_succ]
  have hfull : ∀ i, i + 1 < t.nlimbs → i * LB + LB ≤ t.len :=
    fun i hi => full_of_lt_pred (by rw [← Buf.nlimbs_eq]; exact hi)
  have hnfull : ∀ i, i + 1 < n.nlimbs → i * LB + LB ≤ n.len :=
    fun i hi => full_of_lt_pred (by rw [← Buf.nlimbs_eq]; exact hi)
  refine Sat.bind (Buf.sat_load_l t (Q := fun v => v = t.toNat / B ^ 0 % B) (by omega) rfl) ?_
  intro v0 hv0
  have hv0' : v0 = T % B ^ (0 + 1) := by
    rw [hv0, hdig 0 (by omega)]; simp
  refine Sat.bind (StepInv.start t (Q := fun k => ∃ m, StepInv t (T % B ^ (0 + 1))
    n.toNat m 0 t k) hn0 (by rw [hv0]; exact dig_lt _ _) hneg
    (fun m k h => ⟨m, by rw [← hv0']; exact h⟩)) ?_
  rintro k ⟨m, hk⟩
  have hm := hk.m_lt
  refine Sat.bind (P := fun s : Buf f × RedcKernel => StepInv t (T % B ^ (n.nlimbs - 2 + 1))
    n.toNat m (n.nlimbs - 2) s.1 s.2) ?_ ?_
  · refine Sat.forRange (P := fun j (s : Buf f × RedcKernel) => StepInv t (T % B ^ (j + 1))
      n.toNat m j s.1 s.2) (Nat.zero_le _) hk ?_
    rintro j ⟨t', k'⟩ - hj hi
    dsimp only at hi ⊢
    rw [M.sub_eq (by omega), M.pure_bind, M.assertM_eq (Sat.pure (by simp; omega)), M.pure_bind]
    have hlow := hi
    obtain ⟨out, hlow, -⟩ := hlow
    refine Sat.bind (hlow.sat_load_full (Q := fun v => v = t.toNat / B ^ (j + 1) % B)
      (hfull _ (by omega)) (by omega) rfl) ?_
    intro tv htv
    refine Sat.bind (Buf.sat_load_l_full n (Q := fun v => v = n.toNat / B ^ (j + 1) % B)
      (hnfull _ (by omega)) rfl) ?_
    intro nv hnv
    have htv' := htv.trans (hdig (j + 1) (by omega))
    refine Sat.bind (hi.step (by rw [htv]; exact dig_lt _ _) hnv (hfull j (by omega))) ?_
    intro s hs
    refine Sat.bind hs fun t'' ht'' => Sat.pure ?_
    rw [← hstep _ j rfl, ← htv']; exact ht''
  rintro ⟨t1, k1⟩ h1
  dsimp only at h1 ⊢
  rw [M.assert_eq (by omega), M.pure_bind]
  have e2 : n.nlimbs - 2 + 1 = n.nlimbs - 1 := by omega
  refine Sat.bind (P := fun tv => tv = T / B ^ (n.nlimbs - 2 + 1) % B) ?_ ?_
  · refine Sat.cond (fun hc => ?_) fun hc => Sat.pure ?_
    · obtain ⟨out, hlow, -⟩ := h1
      exact hlow.sat_load_full (hfull _ (by omega)) (by omega) (hdig _ (by omega))
    · rw [hhigh]; congr 3; omega
  intro tv htv
  refine Sat.bind (Buf.sat_load_l n (Q := fun v => v = n.toNat / B ^ (n.nlimbs - 2 + 1) % B)
    (by omega) rfl) ?_
  intro nv hnv
  refine Sat.bind (h1.step (by rw [htv]; exact dig_lt _ _) hnv (hfull _ (by omega))) ?_
  intro s hs
  refine Sat.bind hs fun t2 h2 => ?_
  rw [htv, hstep _ _ rfl] at h2
  have hj1 : n.nlimbs - 2 + 1 ≤ max (n.nlimbs - 2 + 1) (t.nlimbs - 2) := le_max_left _ _
  have hzero : ∀ i, n.nlimbs ≤ i → 0 = n.toNat / B ^ i % B := by
    intro i hi
    rw [Nat.div_eq_of_lt (lt_of_lt_of_le n.toNat_lt_B (Nat.pow_le_pow_right B_pos hi)),
      Nat.zero_mod]
  refine Sat.bind (P := fun s : Buf f × RedcKernel =>
    StepInv t (T % B ^ (max (n.nlimbs - 2 + 1) (t.nlimbs - 2) + 1))
    n.toNat m (max (n.nlimbs - 2 + 1) (t.nlimbs - 2)) s.1 s.2) ?_ ?_
  · rcases Nat.lt_or_ge (t.nlimbs - 2) (n.nlimbs - 2 + 1) with hlt | hge
    · rw [max_eq_left hlt.le, M.forRange, Nat.sub_eq_zero_of_le hlt.le]
      exact Sat.pure h2
    · rw [max_eq_right hge]
      refine Sat.forRange (P := fun j (s : Buf f × RedcKernel) => StepInv t (T % B ^ (j + 1))
        n.toNat m j s.1 s.2) hge h2 ?_
      rintro j ⟨t', k'⟩ hj1 hj hi
      dsimp only at hi ⊢
      have hlow := hi
      obtain ⟨out, hlow, -⟩ := hlow
      refine Sat.bind (hlow.sat_load_full (Q := fun v => v = t.toNat / B ^ (j + 1) % B)
        (hfull _ (by omega)) (by omega) rfl) ?_
      intro tv htv
      have htv' := htv.trans (hdig (j + 1) (by omega))
      refine Sat.bind (hi.step (by rw [htv]; exact dig_lt _ _) (hzero _ (by omega))
        (hfull j (by omega))) ?_
      intro s hs
      refine Sat.bind hs fun t'' ht'' => Sat.pure ?_
      rw [← hstep _ j rfl, ← htv']; exact ht''
  rintro ⟨t3, k3⟩ h3
  dsimp only at h3 ⊢
  rw [M.sub_eq (by omega), M.pure_bind]
  refine Sat.bind (P := fun s : Buf f × RedcKernel × ℕ => s.2.2 = t.nlimbs - 1 ∧
    StepInv t (T % B ^ t.nlimbs) n.toNat m (t.nlimbs - 1) s.1 s.2.1) ?_ ?_
  · have hmax : max (n.nlimbs - 2 + 1) (t.nlimbs - 2) = n.nlimbs - 2 + 1 ∨
        max (n.nlimbs - 2 + 1) (t.nlimbs - 2) = t.nlimbs - 2 := by
      rcases Nat.le_total (n.nlimbs - 2 + 1) (t.nlimbs - 2) with hm | hm
      · exact Or.inr (max_eq_right hm)
      · exact Or.inl (max_eq_left hm)
    have hmax2 : t.nlimbs - 2 ≤ max (n.nlimbs - 2 + 1) (t.nlimbs - 2) := le_max_right _ _
    generalize max (n.nlimbs - 2 + 1) (t.nlimbs - 2) = j at *
    refine Sat.cond (fun hc => ?_) fun hc => Sat.pure ?_
    · have ej : j + 1 + 1 = t.nlimbs := by omega
      refine Sat.bind (h3.step hh (hzero _ (by omega)) (hfull _ (by omega))) ?_
      intro s hs
      refine Sat.bind hs fun t4 h4 => Sat.pure ⟨by dsimp only; omega, ?_⟩
      dsimp only
      have e3 : t.nlimbs - 1 = j + 1 := by omega
      rw [hhigh, e3, hstep _ _ rfl] at h4
      rw [← ej]; exact h4
    · have ej : j = t.nlimbs - 1 := by omega
      refine ⟨ej, ?_⟩
      dsimp only
      have e4 : t.nlimbs = j + 1 := by omega
      rw [← ej, e4]; exact h3
  rintro ⟨t4, k4, j4⟩ ⟨hj4, h4⟩
  dsimp only at hj4 h4 ⊢
  rw [M.pure_bind, M.assertM_eq (Sat.pure (by simp [hj4])), M.pure_bind]
  have hcB : carry < B := by have := one_lt_B; omega
  obtain ⟨hl, hfin⟩ := h4.finish (by omega) hcB hnN
  refine Sat.bind hfin ?_
  rintro ⟨c', v'⟩ ⟨hc1, hv1, heq⟩
  refine Sat.pure ⟨hl, hv1, hc1, m, hm, ?_⟩
  dsimp only at heq ⊢
  rw [heq, ← hT, shadow_mod (by omega) hh]

/-- The value in the loop, given that after `i` reduction steps a multiple of `n` was added. -/
theorem redc_bound {T0 T M n N : ℕ} (h : B ^ N * T = T0 + M * n) (hM : M < B ^ N)
    (hT : T0 < n * B ^ N) : T < 2 * n := by
  have h1 : B ^ N * T < B ^ N * (2 * n) := by
    have h2 : M * n ≤ B ^ N * n := Nat.mul_le_mul_right _ hM.le
    calc B ^ N * T = T0 + M * n := h
      _ < n * B ^ N + B ^ N * n := by omega
      _ = _ := by ring
  exact Nat.lt_of_mul_lt_mul_left h1

/-- The subtraction of `n` at the end panics if the result has another length than the modulus, and the
number is too long for the shorter one. -/
theorem redc_finish_exact {t : Buf f} {n : Buf g} {b : Buf h} {high carry : ℕ} (hh : high < B)
    (hb0 : 0 < b.len) (hbt : b.nlimbs = t.nlimbs) (hnt : n.nlimbs ≤ t.nlimbs)
    (hnb : n.toNat < 256 ^ b.len) (hnl : n.toNat < 256 ^ t.len)
    (hT : shadowVal t.nlimbs t high carry < 2 * n.toNat ∨
      b.len = t.len ∧ shadowVal t.nlimbs t high carry < 256 ^ b.len) :
    Exact (shadowVal t.nlimbs t high carry < 2 * n.toNat ∧
        (b.len = t.len ∨ shadowVal t.nlimbs t high carry < 256 ^ min b.len t.len))
      (redc_finish t n b.partial_high_mask b.partial_high_shift high carry)
      (fun s => s.len = t.len ∧ s.toNat = shadowVal t.nlimbs t high carry % n.toNat) := by
  unfold redc_finish
  have hN : 0 < t.nlimbs := by rw [← hbt]; exact nlimbs_pos_iff.2 hb0
  have hN' : t.nlimbs - 1 + 1 = ct_mp_nlimbs b.len := by rw [← Buf.nlimbs_eq, hbt]; omega
  have hN'' : t.nlimbs - 1 + 1 = ct_mp_nlimbs t.len := by rw [← Buf.nlimbs_eq]; omega
  have hpl := pow_len' hN'
  have hpl' := pow_len' hN''
  have hlow := Nat.mod_lt t.toNat (B_pow_pos (t.nlimbs - 1))
  have hTe : t.toNat % B ^ (t.nlimbs - 1) + B ^ (t.nlimbs - 1) * (high + carry * B)
      = shadowVal t.nlimbs t high carry := by unfold shadowVal; ring
  generalize shadowVal t.nlimbs t high carry = T at *
  have hTm : B ^ (t.nlimbs - 1) * (high + carry * B) ≤ T := by rw [← hTe]; exact Nat.le_add_left _ _
  have hcv : high + carry * B < 2 * 256 ^ hbytes b.len := by
    have h1 : B ^ (t.nlimbs - 1) * (high + carry * B) < B ^ (t.nlimbs - 1) *
        (2 * 256 ^ hbytes b.len) := by
      calc _ ≤ T := hTm
        _ < 2 * 256 ^ b.len := by omega
        _ = _ := by rw [hpl]; ring
    exact Nat.lt_of_mul_lt_mul_left h1
  obtain ⟨-, hc1, hc2⟩ := high_carry b hb0 hh hcv
  have hcc : b.partial_high_shift = 0 ∨ carry = 0 := by
    rcases b.partial_high_shift_cases hb0 with h | h
    · exact Or.inl h.2
    · right
      have h1 := pow_hbytes_lt h.1
      have h2 := B_half
      rcases Nat.eq_zero_or_pos carry with h0 | h0
      · exact h0
      · have h3 : 1 * B ≤ carry * B := Nat.mul_le_mul_right _ h0
        have h4 : 0 < 2 ^ (W - 1) := by positivity
        omega
  have hsh : b.partial_high_shift < W := by
    have hW := W_pos
    rcases b.partial_high_shift_cases hb0 with h | h
    · omega
    · rw [h.2.1, W_eq]; omega
  rw [M.check_eq hcc, M.pure_bind, shrC_eq hsh, M.pure_bind, M.sub_eq (by omega), M.pure_bind,
    Buf.and_partial_high_mask b hb0]
  generalize (carry ||| shr (high &&& bnot b.partial_high_mask) b.partial_high_shift) = c at *
  have hhm : high % 256 ^ hbytes b.len < 256 ^ hbytes b.len := Nat.mod_lt _ (by positivity)
  have hbl : b.len = (t.nlimbs - 1) * LB + hbytes b.len := by
    have h1 := b.nlimbs_eq
    have h2 := pred_nlimbs_mul_lt hb0
    unfold hbytes
    rw [← h1, hbt] at *; omega
  have htl : t.len = (t.nlimbs - 1) * LB + hbytes t.len := by
    have h1 := t.nlimbs_eq
    have h2 := pred_nlimbs_mul_lt (n := t.len) (nlimbs_pos_iff.1 (by omega))
    unfold hbytes
    rw [← h1] at *; omega
  have hle256 : ∀ {x y : ℕ}, x < y → 256 * 256 ^ x ≤ 256 ^ y := by
    intro x y hxy
    rw [← pow_succ']; exact Nat.pow_le_pow_right (by norm_num) hxy
  by_cases hA : t.len < b.len ∧ 256 ^ t.len ≤ T
  · refine ⟨fun ⟨_, h⟩ => ?_, fun _ => M.bind_panic ?_⟩
    · rw [min_eq_right hA.1.le] at h; omega
    have hT2 : T < 2 * n.toNat := hT.resolve_right fun h => by omega
    have h2 := hle256 hA.1
    have hcz : c = 0 := by
      by_contra hne
      have h1 : 1 * 256 ^ hbytes b.len ≤ c * 256 ^ hbytes b.len := Nat.mul_le_mul_right _ (by omega)
      have h3 : B ^ (t.nlimbs - 1) * 256 ^ hbytes b.len ≤
          B ^ (t.nlimbs - 1) * (high + carry * B) := Nat.mul_le_mul_left _ (by omega)
      rw [← hpl] at h3
      linarith
    rw [hcz, Nat.zero_mul, Nat.add_zero] at hc2
    refine Buf.store_l_high_panic t (by omega) ?_ ?_
    · have := hbytes_le b.len; omega
    · rw [show t.len - (t.nlimbs - 1) * LB = hbytes t.len by omega, hc2]
      by_contra hlt
      have h3 : B ^ (t.nlimbs - 1) * (high + carry * B + 1) ≤
          B ^ (t.nlimbs - 1) * 256 ^ hbytes t.len := Nat.mul_le_mul_left _ (by omega)
      rw [← hpl', Nat.mul_add, mul_one] at h3
      omega
  refine Sat.bindExact (P := fun t' : Buf f => t'.len = t.len ∧
    t'.toNat + c * 256 ^ b.len = T ∧ t'.toNat < 256 ^ b.len) ?_ ?_
  · refine (Low.self t (t.nlimbs - 1)).sat_store (by omega)
      (lt_of_le_of_lt (Nat.mod_le _ _) hh) (fun _ => ?_) ?_
    · rcases Nat.lt_or_ge t.len b.len with hlt | hge
      · have hTt : T < 256 ^ t.len := by omega
        refine lt_of_le_of_lt (Nat.mod_le _ _) ?_
        have h3 : B ^ (t.nlimbs - 1) * high < B ^ (t.nlimbs - 1) * 256 ^ hbytes t.len := by
          rw [← hpl']
          have : B ^ (t.nlimbs - 1) * high ≤ B ^ (t.nlimbs - 1) * (high + carry * B) :=
            Nat.mul_le_mul_left _ (Nat.le_add_right _ _)
          linarith
        exact Nat.lt_of_mul_lt_mul_left h3
      · exact lt_of_lt_of_le hhm (Nat.pow_le_pow_right (by norm_num) (by omega))
    intro t' ht'
    refine ⟨ht'.len, ?_, ?_⟩
    · rw [ht'.final (by omega), hpl, ← hTe, ← hc2]; ring
    · rw [ht'.final (by omega), hpl]
      have : B ^ (t.nlimbs - 1) * (high % 256 ^ hbytes b.len + 1) ≤
          B ^ (t.nlimbs - 1) * 256 ^ hbytes b.len := Nat.mul_le_mul_left _ hhm
      rw [Nat.mul_add, mul_one] at this
      omega
  intro t' ⟨hl, hv, hvP⟩
  have hnl' : t'.nlimbs = t.nlimbs := Buf.nlimbs_congr hl
  rw [LimbChoice.from'_eq hc1, M.pure_bind]
  refine Sat.bindExact (ct_geq_mp_mp_sat t' n) ?_
  intro q hq
  have hor : (LimbChoice.ofBool (decide (c = 1))).or q
      = .ofBool (decide (c = 1) || decide (n.toNat ≤ t'.toNat)) := by
    rw [hq, LimbChoice.or_ofBool]
  rw [hor]
  refine Sat.bindExact (ct_sub_cond_mp_mp_sat t' n _ (by omega) (fun _ => by rw [hl]; exact hnl)) ?_
  rintro ⟨t2, bo⟩ ⟨hl2, hbo, hs⟩
  dsimp only at hl2 hbo hs ⊢
  have ht2 := t2.toNat_lt
  have htlt := t'.toNat_lt
  rw [hl] at htlt hl2 hs
  rw [hl2] at ht2
  have key : (t2.toNat < n.toNat ↔ T < 2 * n.toNat ∧ (b.len = t.len ∨ T < 256 ^ min b.len t.len)) ∧
      (t2.toNat < n.toNat → t2.toNat = T ∨ t2.toNat + n.toNat = T) := by
    rcases (by omega : c = 0 ∨ c = 1) with rfl | rfl
    · rw [Nat.zero_mul, Nat.add_zero] at hv
      have hTm : T < 256 ^ min b.len t.len := by
        rcases Nat.le_total b.len t.len with h | h
        · rw [min_eq_left h]; omega
        · rw [min_eq_right h]; omega
      simp only [hTm, or_true, and_true]
      by_cases hge : n.toNat ≤ t'.toNat
      · simp only [zero_ne_one, decide_false, Bool.false_or, hge, decide_true, if_true] at hs
        rcases (by omega : bo = 0 ∨ bo = 1) with h | h <;> subst h <;>
          exact ⟨by constructor <;> intro <;> omega, by omega⟩
      · simp only [zero_ne_one, decide_false, Bool.false_or, hge, if_false,
          Bool.false_eq_true] at hs
        rcases (by omega : bo = 0 ∨ bo = 1) with h | h <;> subst h <;>
          exact ⟨by constructor <;> intro <;> omega, by omega⟩
    · simp only [decide_true, Bool.true_or, if_true] at hs
      rw [one_mul] at hv
      have hT2 : T < 2 * n.toNat := hT.resolve_right fun h => by omega
      rcases Nat.lt_trichotomy b.len t.len with hlt | heq | hgt
      · have h2 := hle256 hlt
        have h3 : ¬ (b.len = t.len ∨ T < 256 ^ min b.len t.len) := by
          rw [min_eq_left hlt.le]; omega
        simp only [h3, and_false, iff_false]
        rcases (by omega : bo = 0 ∨ bo = 1) with h | h <;> subst h <;> exact ⟨by omega, by omega⟩
      · simp only [heq, true_or, and_true]
        rw [heq] at hv
        rcases (by omega : bo = 0 ∨ bo = 1) with h | h <;> subst h <;>
          exact ⟨by constructor <;> intro <;> omega, by omega⟩
      · have h2 := hle256 hgt
        have h4 : 256 ^ t.len ≤ T := by omega
        exact absurd ⟨hgt, h4⟩ hA
  refine (Exact.assertM (c := t2.toNat < n.toNat) (S' := True) ?_ fun hlt => (Sat.exact ?_)).congr
    (by rw [and_true]; exact key.1)
  · refine Sat.bind (ct_geq_mp_mp_sat t2 n) ?_
    intro q hq
    refine Sat.pure ?_
    rw [hq, LimbChoice.unwrap_ofBool]
    by_cases h : n.toNat ≤ t2.toNat
    · simp [h]
    · simp [h]; omega
  · refine Sat.pure ⟨hl2, ?_⟩
    rcases key.2 hlt with h | h
    · rw [← h, Nat.mod_eq_of_lt hlt]
    · rw [← h, Nat.add_mod_right, Nat.mod_eq_of_lt hlt]

theorem redc_finish_sat {t : Buf f} {n : Buf g} {b : Buf h} {high carry : ℕ} (hh : high < B)
    (hb0 : 0 < b.len) (hbl : b.len ≤ t.len) (hbt : b.nlimbs = t.nlimbs)
    (hnt : n.nlimbs ≤ t.nlimbs) (hn : n.toNat < 256 ^ b.len)
    (hT' : b.len = t.len ∨ shadowVal t.nlimbs t high carry < 256 ^ b.len)
    (hT : shadowVal t.nlimbs t high carry < 2 * n.toNat) :
    Sat (redc_finish t n b.partial_high_mask b.partial_high_shift high carry)
      (fun s => s.len = t.len ∧ s.toNat < n.toNat ∧
        (s.toNat = shadowVal t.nlimbs t high carry ∨
          s.toNat + n.toNat = shadowVal t.nlimbs t high carry)) := by
  refine ((redc_finish_exact hh hb0 hbt hnt hn (lt_of_lt_of_le hn
    (Nat.pow_le_pow_right (by norm_num) hbl)) (Or.inl hT)).sat
    ⟨hT, by rwa [min_eq_left hbl]⟩).mono ?_
  rintro s ⟨h1, h2⟩
  generalize shadowVal t.nlimbs t high carry = T at *
  have hlt : T % n.toNat < n.toNat := Nat.mod_lt _ (by omega)
  refine ⟨h1, by rw [h2]; exact hlt, ?_⟩
  rcases Nat.lt_or_ge T n.toNat with h | h
  · rw [Nat.mod_eq_of_lt h] at h2; exact Or.inl h2
  · rw [Nat.mod_eq_sub_mod h, Nat.mod_eq_of_lt (by omega)] at h2; right; omega

end Cmpa
