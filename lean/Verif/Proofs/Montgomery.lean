import Verif.Proofs.MgRun
import Verif.Proofs.BufCopy
import Mathlib.Data.Nat.ModEq

/-!
# Montgomery reduction and multiplication
-/

set_option linter.unusedSectionVars false

namespace Cmpa
variable [LimbCfg] {f g h f' : Fmt}

open M

/-- The outcome of a function returning a `Result`: the error `err`, if there is one, or a value
with `P`. -/
def Outcome {α ε : Type} (err : Option ε) (P : α → Prop) : Except ε α → Prop
  | .ok a => err = none ∧ P a
  | .error e => err = some e

theorem Outcome.mono {α ε : Type} {err : Option ε} {P Q : α → Prop} {r : Except ε α}
    (h : Outcome err P r) (hPQ : err = none → ∀ a, P a → Q a) : Outcome err Q r := by
  cases r with
  | ok a => exact ⟨h.1, hPQ h.1 a h.2⟩
  | error e => exact h

theorem even_check {n : ℕ} : (ct_eq_l_l (n % B &&& 1) 0).unwrap ≠ 0 ↔ n % 2 = 0 := by
  have h1 : n % B &&& 1 = n % 2 := by
    have h2 : (1 : ℕ) = 2 ^ 1 - 1 := by norm_num
    conv_lhs => rw [h2]
    rw [Nat.and_two_pow_sub_one_eq_mod, Nat.mod_mod_of_dvd]
    · rw [B_eq_two_pow]; exact dvd_pow_self _ W_pos.ne'
  have h3 : n % 2 < B := lt_of_lt_of_le (Nat.mod_lt _ (by norm_num)) one_lt_B
  rw [h1, ct_eq_l_l_eq h3 B_pos, LimbChoice.unwrap_ofBool]
  by_cases h : n % 2 = 0 <;> simp [h]

theorem shadow_init {N : ℕ} (hN : 0 < N) {t : Buf f} (ht : t.toNat < B ^ N) :
    shadowVal N t (t.toNat / B ^ (N - 1) % B) 0 = t.toNat := by
  unfold shadowVal
  rw [Nat.mul_zero, Nat.add_zero, ← mod_succ, show N - 1 + 1 = N by omega, Nat.mod_eq_of_lt ht]

theorem Buf.sat_shrink_to (b : Buf f) {m : ℕ} (hx : b.toNat < 256 ^ m) :
    Sat (b.shrink_to m) (fun s => s.1.len = _limbs_align_len f (min m b.len) ∧
      s.1.toNat = b.toNat ∧ s.2.toNat = 0 ∧ s.1.len + s.2.len = b.len ∧
      s.1.nlimbs = ct_mp_nlimbs (min m b.len)) := by
  unfold Buf.shrink_to
  dsimp only
  have hx' : b.toNat < 256 ^ (min m b.len) := by
    rcases Nat.le_total m b.len with h | h
    · rwa [min_eq_left h]
    · rw [min_eq_right h]; exact b.toNat_lt
  generalize hk : min m b.len = k at *
  have hkl : k ≤ b.len := by rw [← hk]; exact min_le_right _ _
  rw [assert_fits b hx', M.pure_bind]
  obtain ⟨l, hh, e, h1, h2, h3, h4, -⟩ := Buf.shrink_to_eq' b hkl
  rw [e]
  have hle := Buf.limbs_align_len_le b hkl
  have hge : k ≤ _limbs_align_len f k := by
    cases f
    · exact le_rfl
    · exact le_rfl
    · exact le_nlimbs_mul k
  have hx2 : b.toNat < 256 ^ _limbs_align_len f k :=
    lt_of_lt_of_le hx' (Nat.pow_le_pow_right (by norm_num) hge)
  refine M.sat_mk.2 ⟨h1, ?_, ?_, ?_, ?_⟩
  · rw [h3, Nat.mod_eq_of_lt hx2]
  · rw [h4, Nat.div_eq_of_lt hx2]
  · dsimp only; omega
  · dsimp only
    rw [Buf.nlimbs_eq, h1]
    cases f
    · rfl
    · rfl
    · exact nlimbs_mul _

theorem LenCompat.nlimbs_min {n : Buf f} {len : ℕ} (h : LenCompat n len) :
    ct_mp_nlimbs (min n.len len) = n.nlimbs := by
  have h1 := h.nlimbs
  rw [Buf.nlimbs_eq] at *
  rcases Nat.le_total n.len len with h2 | h2
  · rw [min_eq_left h2]
  · rw [min_eq_right h2]; exact le_antisymm (nlimbs_mono h2) h1

/-! ### `ct_montgomery_redc_mp` -/

/-- The error returned by `ct_montgomery_redc_mp`. -/
def redcErr (t : Buf f) (n : Buf g) : Option MgError :=
  if n.len = 0 ∨ n.toNat % 2 = 0 then some .InvalidModulus
  else if ¬ LenCompat n t.len then some .InsufficientResultSpace
  else if ¬ LenCompat t (2 * n.len) then some .InputValueOutOfRange
  else none

theorem len_pos_of_two_le {n : Buf f} (h : 2 ≤ n.nlimbs) : 0 < n.len :=
  len_pos_of_lt (i := 0) (by omega)

/-- A number too large for the modulus stays below the buffer's length. -/
theorem redcRun_lt {N n neg T L : ℕ} (hneg : wmul (n % B) neg = lmax) (hN : 0 < N) (hT : T < L)
    (h : ¬ redcRun n neg T N < 2 * n) : redcRun n neg T N < L := by
  obtain ⟨K, hK, h1⟩ := redcRun_spec hneg T N
  generalize redcRun n neg T N = R at *
  have h2 : 2 ≤ B ^ N := le_trans one_lt_B (Nat.le_self_pow hN.ne' _)
  generalize B ^ N = D at *
  have h3 : (K + 1) * n ≤ D * n := Nat.mul_le_mul_right _ hK
  have h4 : D * (2 * n) ≤ D * R := Nat.mul_le_mul_left _ (by omega)
  have h5 : 2 * L ≤ D * L := Nat.mul_le_mul_right _ h2
  have h6 : D * (2 * n) = 2 * (D * n) := by ring
  rw [Nat.add_mul, one_mul] at h3
  refine Nat.lt_of_mul_lt_mul_left (a := D) ?_
  omega

theorem redcRun_lt_of_lt {N n neg T : ℕ} (hneg : wmul (n % B) neg = lmax)
    (hT : T < n * B ^ N) : redcRun n neg T N < 2 * n := by
  obtain ⟨K, hK, h1⟩ := redcRun_spec hneg T N
  exact redc_bound h1 hK hT

theorem redcRun_modEq {N n neg T : ℕ} (hneg : wmul (n % B) neg = lmax) :
    redcRun n neg T N % n * B ^ N ≡ T [MOD n] := by
  obtain ⟨K, hK, h1⟩ := redcRun_spec hneg T N
  calc redcRun n neg T N % n * B ^ N ≡ redcRun n neg T N * B ^ N [MOD n] :=
        (Nat.mod_modEq _ _).mul_right _
    _ = T + K * n := by rw [Nat.mul_comm, h1]
    _ ≡ T [MOD n] := by simp [Nat.ModEq]

theorem redc_step_panic {n : Buf g} (h1 : n.nlimbs = 1) (n0 neg : ℕ) (s : Buf f × ℕ × ℕ) :
    (redc_step n n0 neg s).val = none := by
  obtain ⟨t, hi, c⟩ := s
  unfold redc_step
  refine bind_panic' fun t0 => bind_panic' fun k => bind_panic' fun tk => bind_panic ?_
  exact assert_panic (by rw [h1]; decide)

theorem exact_error {α ε : Type} {err : Option ε} {e : ε} {S : Prop} {P : α → Prop}
    (h : err = some e) : Exact (err = none → S) (pure (.error e) : M (Except ε α))
      (Outcome err P) :=
  (Sat.pure h : Sat (pure (.error e) : M (Except ε α)) (Outcome err P)).exact.congr
    ⟨fun _ h1 => (by rw [h] at h1; cases h1), fun _ => trivial⟩

theorem Exact.of_none {α ε : Type} {err : Option ε} {S : Prop} {m : M (Except ε α)}
    {P : Except ε α → Prop} (h : err = none) (hm : Exact S m P) : Exact (err = none → S) m P :=
  hm.congr ⟨fun h1 _ => h1, fun h1 => h1 h⟩

/-- The reduction: with a modulus of a single limb, with a wrong inverse and with a number too
large it panics. -/
theorem ct_montgomery_redc_mp_exact (t : Buf f) (n : Buf g) (neg : ℕ) :
    Exact (redcErr t n = none → wmul (n.toNat % B) neg = lmax ∧ 2 ≤ n.nlimbs ∧
        redcRun n.toNat neg t.toNat n.nlimbs < 2 * n.toNat)
      (ct_montgomery_redc_mp t n neg) (Outcome (redcErr t n) fun s => s.len = t.len ∧
        s.toNat = redcRun n.toNat neg t.toNat n.nlimbs % n.toNat) := by
  unfold ct_montgomery_redc_mp
  refine Exact.cond (fun h => ?_) fun h => ?_
  · rw [Buf.is_empty_iff] at h
    exact exact_error (by simp [redcErr, h])
  rw [Buf.is_empty_iff] at h
  have hn1 : 0 < n.nlimbs := nlimbs_pos_iff.2 (by omega)
  refine Sat.bindExact (Buf.sat_load_l n (Q := fun v => v = n.toNat % B) hn1 (by simp)) ?_
  intro n0 hn0
  rw [hn0]
  refine Exact.cond (fun h2 => ?_) fun h2 => ?_
  · rw [even_check] at h2
    exact exact_error (by simp [redcErr, h2])
  rw [even_check] at h2
  refine Sat.bindExact (len_is_compatible_with_sat n t.len) ?_
  intro c hc
  refine Exact.cond (fun h3 => ?_) fun h3 => ?_
  · rw [hc, decide_eq_false_iff_not] at h3
    exact exact_error (by simp [redcErr, h, h2, h3])
  rw [hc, decide_eq_false_iff_not, not_not] at h3
  refine Sat.bindExact (len_is_compatible_with_sat t (2 * n.len)) ?_
  intro c hc
  refine Exact.cond (fun h4 => ?_) fun h4 => ?_
  · rw [hc, decide_eq_false_iff_not] at h4
    exact exact_error (by simp [redcErr, h, h2, h3, h4])
  rw [hc, decide_eq_false_iff_not, not_not] at h4
  have herr : redcErr t n = none := by simp [redcErr, h, h2, h3, h4]
  refine Exact.of_none herr ?_
  have hnt : n.nlimbs ≤ t.nlimbs := by rw [Buf.nlimbs_eq t]; exact h3.nlimbs
  refine Exact.assert fun hneg => ?_
  rw [M.sub_eq (by omega), M.pure_bind]
  refine Sat.bindExact (Buf.sat_load_l t (Q := fun v => v = t.toNat / B ^ (t.nlimbs - 1) % B)
    (by omega) rfl) ?_
  intro hi hhi
  have e : ct_montgomery_radix_shift_mp_nlimbs n.len = n.nlimbs := (Buf.nlimbs_eq n).symm
  rw [e]
  refine Exact.bind (P := fun s : Buf f × ℕ × ℕ => s.1.len = t.len ∧ s.2.1 < B ∧
    shadowVal t.nlimbs s.1 s.2.1 s.2.2 = redcRun n.toNat neg t.toNat n.nlimbs)
    ⟨fun hn2 => ?_, fun hn2 => forRange_panic hn1 (redc_step_panic (by omega) _ _ _)⟩ ?_
  · refine (Sat.forRange (P := fun i (s : Buf f × ℕ × ℕ) => (s.1.len = t.len ∧ s.2.1 < B ∧
      shadowVal t.nlimbs s.1 s.2.1 s.2.2 = redcRun n.toNat neg t.toNat i) ∧ s.2.2 ≤ 1)
      (Nat.zero_le _) ?_ ?_).mono fun s h => h.1
    · refine ⟨⟨rfl, by rw [hhi]; exact dig_lt _ _, ?_⟩, Nat.zero_le _⟩
      dsimp only
      rw [hhi, shadow_init (by omega) t.toNat_lt_B]; rfl
    · rintro i ⟨t', hi', c'⟩ - hi1 ⟨⟨h5, h6, h8⟩, h7⟩
      dsimp only at h5 h6 h7 h8
      have hnl : t'.nlimbs = t.nlimbs := Buf.nlimbs_congr h5
      refine (redc_step_sat rfl hneg t' h6 h7 hn2 (by omega)).mono ?_
      rintro ⟨t2, hi2, c2⟩ ⟨h9, h10, h11, m, hm, h12⟩
      dsimp only at h9 h10 h11 h12 ⊢
      rw [hnl, h8] at h12
      exact ⟨⟨h9.trans h5, h10, redcStep_eq hneg hm h12⟩, h11⟩
  rintro ⟨t', hi', c'⟩ hn2 ⟨h5, h6, h8⟩
  dsimp only at h5 h6 h8 ⊢
  have hnl : t'.nlimbs = t.nlimbs := Buf.nlimbs_congr h5
  have hl0 : 0 < t.len := len_pos_of_lt (i := 0) (by omega)
  rw [← hnl] at h8
  have hn' : n.toNat < 256 ^ t'.len := by rw [h5]; exact h3.lt
  have hf := redc_finish_exact (t := t') (n := n) (b := t') (carry := c') h6 (by omega) rfl
    (by omega) hn' hn' (by
      rw [h8]
      by_cases hlt : redcRun n.toNat neg t.toNat n.nlimbs < 2 * n.toNat
      · exact Or.inl hlt
      · exact Or.inr ⟨rfl, redcRun_lt hneg (by omega) (by rw [h5]; exact t.toNat_lt) hlt⟩)
  rw [h8] at hf
  refine (Exact.bind hf fun s _ hs => Sat.exact (Sat.pure ⟨herr, hs.1.trans h5, hs.2⟩)).congr ?_
  simp

theorem ct_montgomery_redc_mp_sat (t : Buf f) (n : Buf g) {neg : ℕ}
    (H : redcErr t n = none → 2 ≤ n.nlimbs ∧ wmul (n.toNat % B) neg = lmax ∧
      t.toNat < n.toNat * B ^ n.nlimbs) :
    Sat (ct_montgomery_redc_mp t n neg) (Outcome (redcErr t n) fun s => s.len = t.len ∧
      s.toNat < n.toNat ∧ s.toNat * B ^ n.nlimbs ≡ t.toNat [MOD n.toNat]) := by
  refine ((ct_montgomery_redc_mp_exact t n neg).sat fun he => ?_).mono fun r hr =>
    hr.mono fun he s hs => ?_
  · obtain ⟨h1, h2, h3⟩ := H he
    exact ⟨h2, h1, redcRun_lt_of_lt h2 h3⟩
  · obtain ⟨h1, h2, h3⟩ := H he
    have hn0 : 0 < n.toNat := by
      rcases Nat.eq_zero_or_pos n.toNat with h0 | h0
      · rw [h0] at h3; omega
      · exact h0
    refine ⟨hs.1, ?_, ?_⟩
    · rw [hs.2]; exact Nat.mod_lt _ hn0
    · rw [hs.2]; exact redcRun_modEq h2

/-! ### `ct_montgomery_mul_mod_mp_mp` -/

theorem load_shadow_sat {t0 t : Buf f} {r i j N high carry : ℕ} (hlow : Low t0 r i t)
    (hN : t0.nlimbs = N) (hij : i ≤ j) (hj : j < N) (hh : high < B) :
    Sat (load_shadow t high N j) (fun v => v = shadowVal N t0 high carry / B ^ j % B) := by
  unfold load_shadow
  rw [M.sub_eq (by omega), M.pure_bind]
  refine Sat.cond (fun h => ?_) fun h => Sat.pure ?_
  · refine hlow.sat_load_full (full_of_lt_pred (by rw [← Buf.nlimbs_eq]; omega)) hij ?_
    rw [shadow_dig (by omega)]
  · rw [show j = N - 1 by omega, shadow_high hh]

/-- The state of the inner loops of a multiplication step. -/
def MulInv (t0 : Buf f) (S a b n m j : ℕ) (t : Buf f) (k : RedcKernel) (mc : ℕ) : Prop :=
  ∃ X, StepInv t0 X n m j t k ∧ mc < B ∧ X < B ^ (j + 1) ∧
    X + B ^ (j + 1) * mc = S % B ^ (j + 1) + a * (b % B ^ (j + 1))

theorem add_mul_lt {X x j : ℕ} (hX : X < B ^ j) (hx : x < B) : X + B ^ j * x < B ^ (j + 1) := by
  have : B ^ j * (x + 1) ≤ B ^ j * B := Nat.mul_le_mul_left _ hx
  rw [Nat.mul_add, mul_one] at this
  rw [pow_succ]; omega

theorem mg_mul_step_sat {op0 : Buf g} {op1 : Buf h} {n : Buf f'} {n0 neg i : ℕ}
    (hn0 : n0 = n.toNat % B) (hneg : wmul n0 neg = lmax) (hi : i < op0.nlimbs)
    (h1 : 0 < op1.nlimbs) (h1n : op1.nlimbs ≤ n.nlimbs) (t : Buf f) (ht : t.nlimbs = n.nlimbs)
    {high carry : ℕ} (hh : high < B) (hc : carry ≤ 1) :
    Sat (mg_mul_step op0 op1 n n0 neg i (t, high, carry)) (fun s => s.1.len = t.len ∧
      s.2.1 < B ∧ s.2.2 ≤ 1 ∧ ∃ m < B, B * shadowVal n.nlimbs s.1 s.2.1 s.2.2
        = (shadowVal n.nlimbs t high carry + op0.toNat / B ^ i % B * op1.toNat)
            % B ^ (n.nlimbs + 1) + m * n.toNat) := by
  have hnN : n.toNat < B ^ n.nlimbs := n.toNat_lt_B
  unfold mg_mul_step
  dsimp only
  have hmod := shadow_mod (N := n.nlimbs) (by omega) (t := t) (carry := carry) hh
  have hload : ∀ {r i j : ℕ} {t' : Buf f}, Low t r i t' → i ≤ j → j < n.nlimbs →
      Sat (load_shadow t' high n.nlimbs j)
        (fun v => v = shadowVal n.nlimbs t high carry / B ^ j % B) :=
    fun hlow hij hj => load_shadow_sat hlow ht hij hj hh
  generalize hS : shadowVal n.nlimbs t high carry = S at *
  have hfull : ∀ i, i + 1 < n.nlimbs → i * LB + LB ≤ t.len :=
    fun i hi => full_of_lt_pred (by rw [← Buf.nlimbs_eq, ht]; exact hi)
  rw [M.assert_eq hc, M.pure_bind]
  refine Sat.bind (Buf.sat_load_l op0 (Q := fun v => v = op0.toNat / B ^ i % B) hi rfl) ?_
  intro a ha
  rw [← ha]
  have haB : a < B := by rw [ha]; exact dig_lt _ _
  refine Sat.bind (hload (Low.zero t) le_rfl (by omega)) ?_
  intro rv hrv
  have hrvB : rv < B := by rw [hrv]; exact dig_lt _ _
  refine Sat.bind (Buf.sat_load_l op1 (Q := fun v => v = op1.toNat / B ^ 0 % B) h1 rfl) ?_
  intro bv hbv
  have hbvB : bv < B := by rw [hbv]; exact dig_lt _ _
  obtain ⟨mc, x, e1, hmc, hx, hv⟩ := ct_mul_add_l_l_l_c_spec hrvB haB hbvB B_pos
  rw [e1, M.pure_bind]
  dsimp only
  refine Sat.bind (StepInv.start t (Q := fun k => ∃ m, MulInv t S a op1.toNat n.toNat m 0 t k mc)
    hn0 hx hneg (fun m k hk => ⟨m, x, hk, hmc, by simpa using hx, ?_⟩)) ?_
  · rw [Nat.zero_add, pow_one]
    rw [pow_zero, Nat.div_one] at hrv hbv
    rw [← hrv, ← hbv]; linarith
  rintro k ⟨m, hk⟩
  have hm : m < B := by obtain ⟨X, h, -⟩ := hk; exact h.m_lt
  refine Sat.bind (P := fun s : Buf f × RedcKernel × ℕ => MulInv t S a op1.toNat n.toNat m
    (op1.nlimbs - 1) s.1 s.2.1 s.2.2) ?_ ?_
  · refine Sat.forRange (P := fun j (s : Buf f × RedcKernel × ℕ) => MulInv t S a op1.toNat
      n.toNat m j s.1 s.2.1 s.2.2) (Nat.zero_le _) hk ?_
    rintro j ⟨t', k', mc'⟩ - hj hi
    dsimp only at hi ⊢
    obtain ⟨X, hst, hmc', hXB, hX⟩ := hi
    refine Sat.bind (Buf.sat_load_l op1 (Q := fun v => v = op1.toNat / B ^ (j + 1) % B)
      (by omega) rfl) ?_
    intro bv hbv
    have hbvB : bv < B := by rw [hbv]; exact dig_lt _ _
    have hlow := hst
    obtain ⟨out, hlow, -⟩ := hlow
    refine Sat.bind (hload hlow (Nat.le_succ _) (by omega)) ?_
    intro rv hrv
    have hrvB : rv < B := by rw [hrv]; exact dig_lt _ _
    obtain ⟨mc2, x, e1, hmc2, hx, hv⟩ := ct_mul_add_l_l_l_c_spec hrvB haB hbvB hmc'
    rw [e1, M.pure_bind]
    dsimp only
    refine Sat.bind (Buf.sat_load_l n (Q := fun v => v = n.toNat / B ^ (j + 1) % B)
      (by omega) rfl) ?_
    intro nv hnv
    refine Sat.bind (hst.step hx hnv (hfull _ (by omega))) ?_
    intro s hs
    refine Sat.bind hs fun t'' ht'' => Sat.pure ⟨_, ht'', hmc2, add_mul_lt hXB hx, ?_⟩
    rw [mod_succ S, mod_succ op1.toNat, ← hrv, ← hbv, pow_succ]
    calc X + B ^ (j + 1) * x + B ^ (j + 1) * B * mc2
        = X + B ^ (j + 1) * (x + mc2 * B) := by ring
      _ = X + B ^ (j + 1) * (rv + a * bv + mc') := by rw [← hv]
      _ = (X + B ^ (j + 1) * mc') + B ^ (j + 1) * (rv + a * bv) := by ring
      _ = _ := by rw [hX]; ring
  rintro ⟨t1, k1, mc1⟩ hk1
  dsimp only at hk1 ⊢
  rw [M.assert_eq (by omega), M.pure_bind]
  refine Sat.bind (P := fun s : Buf f × RedcKernel × ℕ => MulInv t S a op1.toNat n.toNat m
    (n.nlimbs - 1) s.1 s.2.1 s.2.2) ?_ ?_
  · refine Sat.forRange (P := fun j (s : Buf f × RedcKernel × ℕ) => MulInv t S a op1.toNat
      n.toNat m j s.1 s.2.1 s.2.2) (by omega) hk1 ?_
    rintro j ⟨t', k', mc'⟩ hj1 hj hi
    dsimp only at hi ⊢
    obtain ⟨X, hst, hmc', hXB, hX⟩ := hi
    have hlow := hst
    obtain ⟨out, hlow, -⟩ := hlow
    refine Sat.bind (hload hlow (Nat.le_succ _) (by omega)) ?_
    intro rv hrv
    have hrvB : rv < B := by rw [hrv]; exact dig_lt _ _
    rw [ct_add_l_l_eq hrvB hmc']
    dsimp only
    refine Sat.bind (Buf.sat_load_l n (Q := fun v => v = n.toNat / B ^ (j + 1) % B)
      (by omega) rfl) ?_
    intro nv hnv
    refine Sat.bind (hst.step (Nat.mod_lt _ B_pos) hnv (hfull _ (by omega))) ?_
    intro s hs
    refine Sat.bind hs fun t'' ht'' => Sat.pure ⟨_, ht'', ?_,
      add_mul_lt hXB (Nat.mod_lt _ B_pos), ?_⟩
    · have : (rv + mc') / B < 2 := Nat.div_lt_of_lt_mul (by omega)
      have := one_lt_B
      dsimp only; omega
    · dsimp only
      have hb0 : op1.toNat / B ^ (j + 1) % B = 0 := by
        rw [Nat.div_eq_of_lt (lt_of_lt_of_le op1.toNat_lt_B
          (Nat.pow_le_pow_right B_pos (by omega))), Nat.zero_mod]
      rw [mod_succ S, mod_succ op1.toNat, ← hrv, hb0, pow_succ, Nat.mul_zero, Nat.add_zero]
      have hdm := Nat.mod_add_div (rv + mc') B
      calc X + B ^ (j + 1) * ((rv + mc') % B) + B ^ (j + 1) * B * ((rv + mc') / B)
          = X + B ^ (j + 1) * ((rv + mc') % B + B * ((rv + mc') / B)) := by ring
        _ = (X + B ^ (j + 1) * mc') + B ^ (j + 1) * rv := by rw [hdm]; ring
        _ = _ := by rw [hX]; ring
  rintro ⟨t2, k2, mc2⟩ ⟨X, hst, hmc2, hXB, hX⟩
  dsimp only at hst hmc2 hXB hX ⊢
  have hone := one_lt_B
  rw [M.assert_eq (by omega), M.pure_bind, M.pure_bind, ct_add_l_l_eq (by omega) hmc2]
  dsimp only
  rw [show n.nlimbs - 1 + 1 = n.nlimbs by omega] at hXB
  rw [show n.nlimbs - 1 + 1 = n.nlimbs by omega,
    Nat.mod_eq_of_lt (lt_of_lt_of_le op1.toNat_lt_B (Nat.pow_le_pow_right B_pos h1n))] at hX
  have htot : X + B ^ n.nlimbs * (carry + mc2) = S + a * op1.toNat := by
    rw [← hmod, Nat.mul_add]; linarith
  have hdm := Nat.mod_add_div (carry + mc2) B
  have hrc : (carry + mc2) / B ≤ 1 := by
    rw [← Nat.lt_succ_iff]; exact Nat.div_lt_of_lt_mul (by omega)
  have hrc' : (carry + mc2) / B = 0 ∨ (carry + mc2) % B = 0 := by
    rcases Nat.lt_or_ge (carry + mc2) B with h | h
    · exact Or.inl (Nat.div_eq_of_lt h)
    · right; rw [show carry + mc2 = B by omega, Nat.mod_self]
  have hrB := Nat.mod_lt (carry + mc2) B_pos
  rw [M.assert_eq hrc, M.pure_bind, M.assert_eq hrc', M.pure_bind]
  have hval : (S + a * op1.toNat) % B ^ (n.nlimbs + 1)
      = X + B ^ n.nlimbs * ((carry + mc2) % B) := by
    rw [← htot]
    conv_lhs => rw [← hdm]
    rw [Nat.mul_add, ← Nat.add_assoc, ← Nat.mul_assoc, ← pow_succ, Nat.add_mul_mod_self_left,
      Nat.mod_eq_of_lt (add_mul_lt hXB hrB)]
  obtain ⟨hl, hfin⟩ := hst.finish (by omega) hrB hnN
  refine Sat.bind hfin ?_
  rintro ⟨c', v'⟩ ⟨hc1, hv1, heq⟩
  dsimp only at hc1 hv1 heq ⊢
  rw [M.assert_eq hc1, M.pure_bind]
  refine Sat.pure ⟨hl, hv1, hc1, m, hm, ?_⟩
  dsimp only
  rw [heq, hval]

theorem mg_redc_step_sat {n : Buf f'} {n0 neg : ℕ} (hn0 : n0 = n.toNat % B)
    (hneg : wmul n0 neg = lmax) (hn1 : 0 < n.nlimbs) (t : Buf f) (ht : t.nlimbs = n.nlimbs)
    {high carry : ℕ} (hh : high < B) (hc : carry ≤ 1) :
    Sat (mg_redc_step n n0 neg (t, high, carry)) (fun s => s.1.len = t.len ∧
      s.2.1 < B ∧ s.2.2 ≤ 1 ∧ ∃ m < B, B * shadowVal n.nlimbs s.1 s.2.1 s.2.2
        = shadowVal n.nlimbs t high carry + m * n.toNat) := by
  have hnN : n.toNat < B ^ n.nlimbs := n.toNat_lt_B
  unfold mg_redc_step
  dsimp only
  have hmod := shadow_mod (N := n.nlimbs) (by omega) (t := t) (carry := carry) hh
  have hload : ∀ {r i j : ℕ} {t' : Buf f}, Low t r i t' → i ≤ j → j < n.nlimbs →
      Sat (load_shadow t' high n.nlimbs j)
        (fun v => v = shadowVal n.nlimbs t high carry / B ^ j % B) :=
    fun hlow hij hj => load_shadow_sat hlow ht hij hj hh
  generalize hS : shadowVal n.nlimbs t high carry = S at *
  have hfull : ∀ i, i + 1 < n.nlimbs → i * LB + LB ≤ t.len :=
    fun i hi => full_of_lt_pred (by rw [← Buf.nlimbs_eq, ht]; exact hi)
  refine Sat.bind (hload (Low.zero t) le_rfl (by omega)) ?_
  intro rv hrv
  have hrv' : rv = S % B ^ (0 + 1) := by rw [hrv]; simp
  refine Sat.bind (StepInv.start t (Q := fun k => ∃ m, StepInv t (S % B ^ (0 + 1))
    n.toNat m 0 t k) hn0 (by rw [hrv]; exact dig_lt _ _) hneg
    (fun m k h => ⟨m, by rw [← hrv']; exact h⟩)) ?_
  rintro k ⟨m, hk⟩
  have hm := hk.m_lt
  refine Sat.bind (P := fun s : Buf f × RedcKernel => StepInv t (S % B ^ (n.nlimbs - 1 + 1))
    n.toNat m (n.nlimbs - 1) s.1 s.2) ?_ ?_
  · refine Sat.forRange (P := fun j (s : Buf f × RedcKernel) => StepInv t (S % B ^ (j + 1))
      n.toNat m j s.1 s.2) (Nat.zero_le _) hk ?_
    rintro j ⟨t', k'⟩ - hj hi
    dsimp only at hi ⊢
    have hlow := hi
    obtain ⟨out, hlow, -⟩ := hlow
    refine Sat.bind (hload hlow (Nat.le_succ _) (by omega)) ?_
    intro tv htv
    refine Sat.bind (Buf.sat_load_l n (Q := fun v => v = n.toNat / B ^ (j + 1) % B)
      (by omega) rfl) ?_
    intro nv hnv
    refine Sat.bind (hi.step (by rw [htv]; exact dig_lt _ _) hnv (hfull j (by omega))) ?_
    intro s hs
    refine Sat.bind hs fun t'' ht'' => Sat.pure ?_
    rw [mod_succ S, ← htv]; exact ht''
  rintro ⟨t4, k4⟩ h4
  dsimp only at h4 ⊢
  have hcB : carry < B := by have := one_lt_B; omega
  rw [M.assert_eq (by omega), M.pure_bind]
  rw [show n.nlimbs - 1 + 1 = n.nlimbs by omega] at h4
  obtain ⟨hl, hfin⟩ := h4.finish hn1 hcB hnN
  refine Sat.bind hfin ?_
  rintro ⟨c', v'⟩ ⟨hc1, hv1, heq⟩
  dsimp only at hc1 hv1 heq ⊢
  rw [M.assert_eq hc1, M.pure_bind]
  refine Sat.pure ⟨hl, hv1, hc1, m, hm, ?_⟩
  dsimp only
  rw [heq, hmod]

/-- The error returned by `ct_montgomery_mul_mod_mp_mp`. -/
def mulErr (result : Buf f) (op0 : Buf g) (op1 : Buf h) (n : Buf f') : Option MgError :=
  if n.len = 0 ∨ n.toNat % 2 = 0 then some .InvalidModulus
  else if ¬ LenCompat n result.len then some .InsufficientResultSpace
  else if ¬ LenCompat op0 n.len ∨ ¬ LenCompat op1 n.len then some .InconsistentOperandLengths
  else none

/-- The moduli the multiplication into a buffer with format `f` and length `len` can handle. -/
structure MgModulus (f : Fmt) (len : ℕ) (n : Buf g) : Prop where
  /-- The sum of two limb products at the most significant limb does not overflow. -/
  high : (B + 1) * n.toNat ≤ B ^ (n.nlimbs + 1)
  len : n.len ≤ len
  /-- The result's most significant limb is as long as the modulus', or isn't exhausted. -/
  align : f.unaligned = true ∨ LB ∣ n.len ∨ 257 * n.toNat ≤ 256 ^ (n.len + 1)

/-- The number before the last subtraction fits into what the result and the modulus both have of
the most significant limb, or they have the same of it. -/
def MgFits (f : Fmt) (rlen : ℕ) (n : Buf g) (T : ℕ) : Prop :=
  n.len = Buf._limbs_align_len f (min n.len rlen) ∨
    T < 256 ^ min n.len (Buf._limbs_align_len f (min n.len rlen))

instance (f : Fmt) (rlen : ℕ) (n : Buf g) (T : ℕ) : Decidable (MgFits f rlen n T) := by
  unfold MgFits; infer_instance

theorem mg_mul_step_panic {op1 : Buf h} (h0 : op1.nlimbs = 0) (op0 : Buf g) (n : Buf f')
    (n0 neg i : ℕ) (s : Buf f × ℕ × ℕ) : (mg_mul_step op0 op1 n n0 neg i s).val = none := by
  obtain ⟨t, hi, c⟩ := s
  unfold mg_mul_step
  refine bind_panic' fun _ => bind_panic' fun _ => bind_panic' fun _ => bind_panic' fun _ =>
    bind_panic' fun x => bind_panic' fun _ => bind_panic' fun y => bind_panic ?_
  exact assert_panic (by rw [h0]; decide)

theorem le_align_len (f : Fmt) (l : ℕ) : l ≤ Buf._limbs_align_len f l := by
  cases f
  · exact le_rfl
  · exact le_rfl
  · exact le_nlimbs_mul _

/-- The multiplication: whether it panics, and what it calculates, even if a carry is lost. -/
theorem ct_montgomery_mul_mod_mp_mp_exact (result : Buf f) (op0 : Buf g) (op1 : Buf h)
    (n : Buf f') (neg : ℕ) :
    Exact (mulErr result op0 op1 n = none → op0.toNat < n.toNat ∧ op1.toNat < n.toNat ∧
        wmul (n.toNat % B) neg = lmax ∧ (op0.len = 0 ∨ op1.len ≠ 0) ∧
        MgFits f result.len n (mgRun n.nlimbs n.toNat neg op0.toNat op1.toNat n.nlimbs))
      (ct_montgomery_mul_mod_mp_mp result op0 op1 n neg)
      (Outcome (mulErr result op0 op1 n) fun s => s.len = result.len ∧
        s.toNat = mgMul n.nlimbs n.toNat neg op0.toNat op1.toNat) := by
  unfold ct_montgomery_mul_mod_mp_mp
  refine Exact.cond (fun h => ?_) fun h => ?_
  · rw [Buf.is_empty_iff] at h
    exact exact_error (by simp [mulErr, h])
  rw [Buf.is_empty_iff] at h
  have hn1 : 0 < n.nlimbs := nlimbs_pos_iff.2 (by omega)
  refine Sat.bindExact (Buf.sat_load_l n (Q := fun v => v = n.toNat % B) hn1 (by simp)) ?_
  intro n0 hn0
  rw [hn0]
  refine Exact.cond (fun h2 => ?_) fun h2 => ?_
  · rw [even_check] at h2
    exact exact_error (by simp [mulErr, h2])
  rw [even_check] at h2
  refine Sat.bindExact (len_is_compatible_with_sat n result.len) ?_
  intro c hc
  refine Exact.cond (fun h3 => ?_) fun h3 => ?_
  · rw [hc, decide_eq_false_iff_not] at h3
    exact exact_error (by simp [mulErr, h, h2, h3])
  rw [hc, decide_eq_false_iff_not, not_not] at h3
  have hnr : n.nlimbs ≤ result.nlimbs := by rw [Buf.nlimbs_eq result]; exact h3.nlimbs
  rw [M.assert_eq hnr, M.pure_bind]
  refine Sat.bindExact (len_is_compatible_with_sat op0 n.len) ?_
  intro c hc
  refine Sat.bindExact
    (P := fun r => r = decide (LenCompat op0 n.len ∧ LenCompat op1 n.len)) ?_ ?_
  · refine Sat.cond (fun h4 => Sat.pure ?_) fun h4 => ?_
    · rw [hc, decide_eq_false_iff_not] at h4
      simp [h4]
    · rw [hc, decide_eq_false_iff_not, not_not] at h4
      refine (len_is_compatible_with_sat op1 n.len).mono fun r hr => ?_
      simp [hr, h4]
  clear hc
  intro c hc
  refine Exact.cond (fun h4 => ?_) fun h4 => ?_
  · rw [hc, decide_eq_false_iff_not, not_and_or] at h4
    exact exact_error (by simp [mulErr, h, h2, h3, h4])
  rw [hc, decide_eq_false_iff_not, not_not] at h4
  have herr : mulErr result op0 op1 n = none := by simp [mulErr, h, h2, h3, h4.1, h4.2]
  refine Exact.of_none herr ?_
  have h0n : op0.nlimbs ≤ n.nlimbs := by rw [Buf.nlimbs_eq n]; exact h4.1.nlimbs
  have h1n : op1.nlimbs ≤ n.nlimbs := by rw [Buf.nlimbs_eq n]; exact h4.2.nlimbs
  rw [M.assert_eq h0n, M.pure_bind]
  refine Exact.assertM (lt_sat' op0 n) fun hop0 => ?_
  rw [M.assert_eq h1n, M.pure_bind]
  refine Exact.assertM (lt_sat' op1 n) fun hop1 => ?_
  refine Exact.assert fun hneg => ?_
  refine Sat.bindExact (P := fun r : Buf f => r.len = result.len ∧ r.toNat = 0)
    (result.sat_clear_bytes_above 0 fun b' h1 h2 => ⟨h1, by rw [h2]; simp [Nat.mod_one]⟩) ?_
  intro r ⟨hrl, hr0⟩
  refine Sat.bindExact (r.sat_shrink_to (m := n.len) (by rw [hr0]; positivity)) ?_
  rintro ⟨t, rest⟩ ⟨htl, ht0, hrest, hlen, htn⟩
  dsimp only at htl ht0 hrest hlen htn ⊢
  rw [hr0] at ht0
  rw [hrl] at htl htn
  rw [h3.nlimbs_min] at htn
  rw [M.assert_eq htn, M.pure_bind]
  have hnN : n.toNat < B ^ n.nlimbs := n.toNat_lt_B
  refine Exact.bind (P := fun s : Buf f × ℕ × ℕ => s.1.len = t.len ∧ s.2.1 < B ∧ s.2.2 ≤ 1 ∧
    shadowVal n.nlimbs s.1 s.2.1 s.2.2
      = mgRun n.nlimbs n.toNat neg op0.toNat op1.toNat op0.nlimbs)
    ⟨fun hne => ?_, fun hne => ?_⟩ ?_
  · refine Sat.forRange (P := fun i (s : Buf f × ℕ × ℕ) => s.1.len = t.len ∧ s.2.1 < B ∧
      s.2.2 ≤ 1 ∧ shadowVal n.nlimbs s.1 s.2.1 s.2.2
      = mgRun n.nlimbs n.toNat neg op0.toNat op1.toNat i) (Nat.zero_le _) ?_ ?_
    · refine ⟨rfl, B_pos, Nat.zero_le _, ?_⟩
      dsimp only
      simp [shadowVal, ht0, mgRun]
    · rintro i ⟨t', hi', c'⟩ - hi1 ⟨h5, h6, h7, h8⟩
      dsimp only at h5 h6 h7 h8
      have h0p : 0 < op0.len := len_pos_of_lt hi1
      have h1p : 0 < op1.nlimbs := nlimbs_pos_iff.2 (by omega)
      refine (mg_mul_step_sat rfl hneg hi1 h1p h1n t' ((Buf.nlimbs_congr h5).trans htn) h6
        h7).mono ?_
      rintro ⟨t2, hi2, c2⟩ ⟨h9, h10, h11, m, hm, h12⟩
      dsimp only at h9 h10 h11 h12 ⊢
      rw [h8] at h12
      exact ⟨h9.trans h5, h10, h11, redcStep_eq hneg hm h12⟩
  · obtain ⟨hne0, hne1⟩ := not_or.1 hne
    have h00 : 0 < op0.nlimbs := nlimbs_pos_iff.2 (by omega)
    have h10 : op1.nlimbs = 0 := by
      rcases Nat.eq_zero_or_pos op1.nlimbs with h0 | h0
      · exact h0
      · exact absurd (nlimbs_pos_iff.1 h0).ne' hne1
    exact forRange_panic h00 (mg_mul_step_panic h10 _ _ _ _ _ _)
  rintro s - hs
  have hradix : ct_montgomery_radix_shift_mp_nlimbs n.len = n.nlimbs := (Buf.nlimbs_eq n).symm
  rw [hradix]
  refine Sat.bindExact (P := fun s : Buf f × ℕ × ℕ => s.1.len = t.len ∧ s.2.1 < B ∧ s.2.2 ≤ 1 ∧
    shadowVal n.nlimbs s.1 s.2.1 s.2.2
      = mgRun n.nlimbs n.toNat neg op0.toNat op1.toNat n.nlimbs) ?_ ?_
  · refine Sat.forRange (P := fun i (s : Buf f × ℕ × ℕ) => s.1.len = t.len ∧ s.2.1 < B ∧
      s.2.2 ≤ 1 ∧ shadowVal n.nlimbs s.1 s.2.1 s.2.2
      = mgRun n.nlimbs n.toNat neg op0.toNat op1.toNat i) h0n hs ?_
    rintro i ⟨t', hi', c'⟩ hi0 hi1 ⟨h5, h6, h7, h8⟩
    dsimp only at h5 h6 h7 h8
    refine (mg_redc_step_sat rfl hneg hn1 t' ((Buf.nlimbs_congr h5).trans htn) h6 h7).mono ?_
    rintro ⟨t2, hi2, c2⟩ ⟨h9, h10, h11, m, hm, h12⟩
    dsimp only at h9 h10 h11 h12 ⊢
    refine ⟨h9.trans h5, h10, h11, ?_⟩
    rw [h8] at h12
    rw [mgRun, Nat.div_eq_of_lt (lt_of_lt_of_le op0.toNat_lt_B (Nat.pow_le_pow_right B_pos hi0)),
      Nat.zero_mod, Nat.zero_mul, Nat.add_zero, Nat.mod_eq_of_lt]
    · exact redcStep_eq hneg hm h12
    · have hlt := mgRun_lt (N := n.nlimbs) (a := op0.toNat) hneg hop1 i
      have h13 : 2 * B ^ n.nlimbs ≤ B * B ^ n.nlimbs := Nat.mul_le_mul_right _ one_lt_B
      rw [pow_succ']; omega
  clear hs s
  rintro ⟨t', hi', c'⟩ ⟨h5, h6, h7, h8⟩
  dsimp only at h5 h6 h7 h8 ⊢
  have hnl : t'.nlimbs = n.nlimbs := (Buf.nlimbs_congr h5).trans htn
  have hlt := mgRun_lt (N := n.nlimbs) (a := op0.toNat) hneg hop1 n.nlimbs
  rw [M.assert_eq hnl, M.pure_bind]
  have h8' : shadowVal t'.nlimbs t' hi' c'
      = mgRun n.nlimbs n.toNat neg op0.toNat op1.toNat n.nlimbs := by rw [hnl]; exact h8
  have hn' : n.toNat < 256 ^ t'.len := by
    rw [h5, htl]
    refine lt_of_lt_of_le ?_ (Nat.pow_le_pow_right (by norm_num) (le_align_len f _))
    rcases Nat.le_total n.len result.len with h | h
    · rw [min_eq_left h]; exact n.toNat_lt
    · rw [min_eq_right h]; exact h3.lt
  have hf := redc_finish_exact (t := t') (n := n) (b := n) (carry := c') h6 (by omega) hnl.symm
    (by omega) n.toNat_lt hn' (Or.inl (by omega))
  rw [h8'] at hf
  refine (Exact.bind hf fun s _ hs => Sat.exact (Sat.pure ⟨herr, ?_, ?_⟩)).congr ?_
  · have h9 : t'.len = Buf._limbs_align_len f (min n.len result.len) := h5.trans htl
    rw [h9]
    exact ⟨fun h => h.1.2, fun h => ⟨⟨by omega, h⟩, trivial⟩⟩
  · rw [Buf.len_join, hs.1, h5, hlen, hrl]
  · rw [Buf.toNat_join, hrest, hs.2]; simp [mgMul]

theorem mgFits_of_modulus {rlen : ℕ} {n : Buf g} {neg a b : ℕ} (hmod : MgModulus f rlen n)
    (hneg : wmul (n.toNat % B) neg = lmax) (ha : a < n.toNat) (hb : b < n.toNat) :
    MgFits f rlen n (mgRun n.nlimbs n.toNat neg a b n.nlimbs) := by
  unfold MgFits
  rw [min_eq_left hmod.len, min_eq_left (le_align_len f _)]
  have hk := mgKeeps_of_le (a := a) hneg hb hmod.high
  obtain ⟨K, hK, h8⟩ := mgRun_spec (N := n.nlimbs) hneg a b n.nlimbs
  have hnN : n.toNat < B ^ n.nlimbs := n.toNat_lt_B
  rw [mgLost_eq_zero hk, Nat.zero_mul, Nat.add_zero, Nat.mod_eq_of_lt (by omega)] at h8
  generalize mgRun n.nlimbs n.toNat neg a b n.nlimbs = S at *
  rcases hmod.align with hal | hal | hal
  · left; unfold Buf._limbs_align_len; rw [if_pos hal]
  · left
    unfold Buf._limbs_align_len
    split
    · rfl
    · obtain ⟨k, hk⟩ := hal
      unfold ct_mp_limbs_align_len
      rw [hk, Nat.mul_comm LB k, nlimbs_mul]
  · by_cases hal' : n.len = Buf._limbs_align_len f n.len
    · exact Or.inl hal'
    · right
      have hle : n.len ≤ n.nlimbs * LB := le_nlimbs_mul _
      have hne : n.len ≠ n.nlimbs * LB := by
        intro he; apply hal'
        unfold Buf._limbs_align_len; split
        · rfl
        · exact he
      have hp : 256 ^ (n.len + 1) ≤ B ^ n.nlimbs := by
        rw [← pow_256]; exact Nat.pow_le_pow_right (by norm_num) (by omega)
      have hnlt := n.toNat_lt
      refine Nat.lt_of_mul_lt_mul_left (a := 256 * B ^ n.nlimbs) ?_
      have h9 : a * b ≤ n.toNat * n.toNat := Nat.mul_le_mul ha.le hb.le
      have h10 : (K + 1) * n.toNat ≤ B ^ n.nlimbs * n.toNat := Nat.mul_le_mul_right _ hK
      have hnpos : 0 < n.toNat := by omega
      have h11 : 256 * n.toNat ≤ B ^ n.nlimbs := by
        rw [pow_succ] at hp; omega
      calc 256 * B ^ n.nlimbs * S = 256 * (a * b + K * n.toNat) := by
            rw [Nat.mul_assoc, h8]
        _ < 256 * (n.toNat * n.toNat + B ^ n.nlimbs * n.toNat) := by
            rw [Nat.add_mul, one_mul] at h10; omega
        _ = 256 * n.toNat * n.toNat + 256 * B ^ n.nlimbs * n.toNat := by ring
        _ ≤ B ^ n.nlimbs * n.toNat + 256 * B ^ n.nlimbs * n.toNat :=
            Nat.add_le_add_right (Nat.mul_le_mul_right _ h11) _
        _ = B ^ n.nlimbs * (257 * n.toNat) := by ring
        _ ≤ B ^ n.nlimbs * 256 ^ (n.len + 1) := Nat.mul_le_mul_left _ hal
        _ = _ := by ring

theorem mulErr_none {result : Buf f} {op0 : Buf g} {op1 : Buf h} {n : Buf f'}
    (he : mulErr result op0 op1 n = none) : n.len ≠ 0 ∧ n.toNat % 2 ≠ 0 ∧
      LenCompat n result.len ∧ LenCompat op0 n.len ∧ LenCompat op1 n.len := by
  unfold mulErr at he
  split_ifs at he with e1 e2 e3
  obtain ⟨e1, e1'⟩ := not_or.1 e1
  obtain ⟨e3, e4⟩ := not_or.1 e3
  exact ⟨e1, e1', e2, not_not.1 e3, not_not.1 e4⟩

theorem ct_montgomery_mul_mod_mp_mp_sat (result : Buf f) (op0 : Buf g) (op1 : Buf h)
    (n : Buf f') {neg : ℕ} (H : mulErr result op0 op1 n = none →
      op0.toNat < n.toNat ∧ op1.toNat < n.toNat ∧ wmul (n.toNat % B) neg = lmax ∧
      (op0.len = 0 ∨ op1.len ≠ 0) ∧ MgModulus f result.len n) :
    Sat (ct_montgomery_mul_mod_mp_mp result op0 op1 n neg)
      (Outcome (mulErr result op0 op1 n) fun s => s.len = result.len ∧ s.toNat < n.toNat ∧
        s.toNat * B ^ n.nlimbs ≡ op0.toNat * op1.toNat [MOD n.toNat]) := by
  refine ((ct_montgomery_mul_mod_mp_mp_exact result op0 op1 n neg).sat fun he => ?_).mono
    fun r hr => hr.mono fun he s hs => ?_
  · obtain ⟨h0, h1, h2, h3, h4⟩ := H he
    exact ⟨h0, h1, h2, h3, mgFits_of_modulus h4 h2 h0 h1⟩
  · obtain ⟨h0, h1, h2, h3, h4⟩ := H he
    have hnN : n.toNat < B ^ n.nlimbs := n.toNat_lt_B
    refine ⟨hs.1, ?_, ?_⟩
    · rw [hs.2]; exact Nat.mod_lt _ (by omega)
    · rw [hs.2]
      exact (mgMul_modEq_iff h2 (mulErr_none he).2.1 (by omega) h1 hnN).2
        (mgKeeps_of_le h2 h1 h4.high)

/-! ### The inverse modulo the limb radix -/

theorem ct_montgomery_neg_n0_inv_mod_l_mp_sat (n : Buf f) :
    Sat (ct_montgomery_neg_n0_inv_mod_l_mp n)
      (Outcome (if n.len = 0 ∨ n.toNat % 2 = 0 then some .InvalidModulus else none)
        fun x => x < B ∧ wmul (n.toNat % B) x = lmax) := by
  unfold ct_montgomery_neg_n0_inv_mod_l_mp
  refine Sat.cond (fun h => Sat.pure ?_) fun h => ?_
  · rw [Buf.is_empty_iff] at h
    simp [Outcome, h]
  rw [Buf.is_empty_iff] at h
  have hn1 : 0 < n.nlimbs := nlimbs_pos_iff.2 (by omega)
  refine Sat.bind (Buf.sat_load_l n (Q := fun v => v = n.toNat % B) hn1 (by simp)) ?_
  intro n0 hn0
  rw [hn0]
  refine Sat.cond (fun h2 => Sat.pure ?_) fun h2 => ?_
  · rw [even_check] at h2
    simp [Outcome, h2]
  rw [even_check] at h2
  have hodd : n.toNat % B % 2 = 1 := by
    rw [Nat.mod_mod_of_dvd]
    · omega
    · rw [B_eq_two_pow]; exact dvd_pow_self _ W_pos.ne'
  obtain ⟨r, e, hr, hinv⟩ := ct_inv_mod_l_spec hodd
  rw [e, M.pure_bind]
  refine Sat.pure ⟨by simp [h, h2], wadd_lt, ?_⟩
  have hr0 : 0 < r := by
    rcases Nat.eq_zero_or_pos r with h0 | h0
    · subst h0
      have := one_lt_B
      simp at hinv
    · exact h0
  have hone := one_lt_B
  have hneg : wadd (bnot r) 1 = B - r := by
    unfold wadd bnot
    rw [show B - 1 - r + 1 = B - r by omega, Nat.mod_eq_of_lt (by omega)]
  rw [hneg]
  unfold wmul lmax
  generalize n.toNat % B = a at *
  have h3 : a * (B - r) + a * r = a * B := by rw [← Nat.mul_add]; congr 1; omega
  have h4 := Nat.mod_add_div (a * r) B
  rw [hinv] at h4
  have h5 : a * (B - r) = B * (a - a * r / B) - 1 := by
    rw [Nat.mul_sub B, Nat.mul_comm B a]; omega
  have h6 : 0 < a - a * r / B := by
    have h7 : a * r / B < a ∨ a = 0 := by
      rcases Nat.eq_zero_or_pos a with h0 | h0
      · exact Or.inr h0
      · left
        refine Nat.div_lt_of_lt_mul ?_
        rw [Nat.mul_comm B a]; exact Nat.mul_lt_mul_of_pos_left hr h0
    rcases h7 with h7 | h7
    · omega
    · subst h7; simp at hodd
  obtain ⟨q, hq⟩ := Nat.exists_eq_succ_of_ne_zero h6.ne'
  rw [h5, hq, Nat.mul_succ, show B * q + B - 1 = B - 1 + B * q by omega,
    Nat.add_mul_mod_self_left, Nat.mod_eq_of_lt (by omega)]

end Cmpa
