import Verif.Proofs.Redc
import Mathlib.Data.Nat.ModEq
import Mathlib.Data.Nat.Prime.Basic

/-!
# The course of a Montgomery multiplication

A description by natural numbers of what is calculated, including the carry lost for moduli close to a power of the
limb radix (finding M4).
-/

namespace Cmpa
variable [LimbCfg]

/-- A step of the reduction: a multiple of `n` is added so that the least significant limb becomes zero, and this limb
is removed.  `neg` is the inverse of `-n` modulo `B`. -/
def redcStep (n neg T : ℕ) : ℕ := (T + T * neg % B * n) / B

/-- The reduction, by `i` limbs. -/
def redcRun (n neg T : ℕ) : ℕ → ℕ
  | 0 => T
  | i + 1 => redcStep n neg (redcRun n neg T i)

/-- The multiplication after `i` limbs of the first factor: from the sum only `N + 1` limbs are retained. -/
def mgRun (N n neg a b : ℕ) : ℕ → ℕ
  | 0 => 0
  | i + 1 => redcStep n neg ((mgRun N n neg a b i + a / B ^ i % B * b) % B ^ (N + 1))

/-- The product: the number obtained at the end, minus `n`, if it's not less than `n`. -/
def mgMul (N n neg a b : ℕ) : ℕ := mgRun N n neg a b N % n

/-- The sums fit all into `N + 1` limbs. -/
def MgKeeps (N n neg a b : ℕ) : Prop :=
  ∀ i < N, mgRun N n neg a b i + a / B ^ i % B * b < B ^ (N + 1)

instance (N n neg a b : ℕ) : Decidable (MgKeeps N n neg a b) := by
  unfold MgKeeps; infer_instance

/-- What is lost. -/
def mgLost (N n neg a b : ℕ) : ℕ → ℕ
  | 0 => 0
  | i + 1 => mgLost N n neg a b i
      + B ^ i * ((mgRun N n neg a b i + a / B ^ i % B * b) / B ^ (N + 1))

theorem neg_mul {n neg : ℕ} (hneg : wmul (n % B) neg = lmax) :
    ∃ q, n * neg = q * B + (B - 1) := by
  refine ⟨n * neg / B, ?_⟩
  have h1 : n * neg % B = B - 1 := by
    rw [← Nat.mod_mul_mod]; exact hneg
  rw [← h1, Nat.div_add_mod']

/-- The multiple of `n` to be added is unique. -/
theorem redcFactor_unique {n neg X m S : ℕ} (hneg : wmul (n % B) neg = lmax) (hm : m < B)
    (h : B * S = X + m * n) : m = X * neg % B := by
  obtain ⟨q, hq⟩ := neg_mul hneg
  have hB := B_pos
  have h1 : X * neg + B * (m * q + m) = m + B * (S * neg) := by
    obtain ⟨c, hc⟩ := Nat.exists_eq_add_of_le (Nat.succ_le_of_lt hB)
    have h2 : B * S * neg = X * neg + m * (n * neg) := by rw [h]; ring
    rw [hq] at h2
    have h3 : B - 1 = c := by omega
    rw [h3] at h2
    calc X * neg + B * (m * q + m) = X * neg + m * (q * B) + m * B := by ring
      _ = X * neg + m * (q * B) + m * (1 + c) := by congr 2
      _ = X * neg + m * (q * B + c) + m := by ring
      _ = m + B * (S * neg) := by rw [← h2]; ring
  have h2 := congrArg (· % B) h1
  simp only [Nat.add_mul_mod_self_left] at h2
  rw [h2, Nat.mod_eq_of_lt hm]

theorem redcStep_eq {n neg X m S : ℕ} (hneg : wmul (n % B) neg = lmax) (hm : m < B)
    (h : B * S = X + m * n) : S = redcStep n neg X := by
  unfold redcStep
  rw [← redcFactor_unique hneg hm h, ← h, Nat.mul_div_cancel_left _ B_pos]

theorem redcStep_spec {n neg : ℕ} (hneg : wmul (n % B) neg = lmax) (X : ℕ) :
    B * redcStep n neg X = X + X * neg % B * n := by
  unfold redcStep
  refine Nat.mul_div_cancel' ?_
  obtain ⟨q, hq⟩ := neg_mul hneg
  have hB := B_pos
  obtain ⟨c, hc⟩ := Nat.exists_eq_add_of_le (Nat.succ_le_of_lt hB)
  have h1 : X + X * neg * n ≡ 0 [MOD B] := by
    have : X + X * neg * n = B * (X * q + X) := by
      calc X + X * neg * n = X + X * (n * neg) := by ring
        _ = X + X * (q * B + c) := by rw [hq]; congr 3; omega
        _ = X * q * B + X * (1 + c) := by ring
        _ = X * q * B + X * B := by congr 2; omega
        _ = _ := by ring
    rw [this]; exact (Nat.modEq_zero_iff_dvd).2 (dvd_mul_right _ _)
  have h2 : X + X * neg % B * n ≡ X + X * neg * n [MOD B] :=
    ((Nat.mod_modEq _ _).mul_right _).add_left _
  exact (Nat.modEq_zero_iff_dvd).1 (h2.trans h1)

theorem redcStep_congr {n neg neg' : ℕ} (h : wmul (n % B) neg = lmax)
    (h' : wmul (n % B) neg' = lmax) (X : ℕ) : redcStep n neg X = redcStep n neg' X :=
  redcStep_eq h' (Nat.mod_lt _ B_pos) (redcStep_spec h X)

theorem redcRun_congr {n neg neg' : ℕ} (h : wmul (n % B) neg = lmax)
    (h' : wmul (n % B) neg' = lmax) (T : ℕ) : ∀ i, redcRun n neg T i = redcRun n neg' T i
  | 0 => rfl
  | i + 1 => by rw [redcRun, redcRun, redcRun_congr h h', redcStep_congr h h']

/-- What is calculated doesn't depend on which representative of the inverse is used. -/
theorem mgRun_congr {N n neg neg' a b : ℕ} (h : wmul (n % B) neg = lmax)
    (h' : wmul (n % B) neg' = lmax) : ∀ i, mgRun N n neg a b i = mgRun N n neg' a b i
  | 0 => rfl
  | i + 1 => by rw [mgRun, mgRun, mgRun_congr h h', redcStep_congr h h']

theorem redcRun_spec {n neg : ℕ} (hneg : wmul (n % B) neg = lmax) (T : ℕ) :
    ∀ i, ∃ K < B ^ i, B ^ i * redcRun n neg T i = T + K * n
  | 0 => ⟨0, by simp, by simp [redcRun]⟩
  | i + 1 => by
    obtain ⟨K, hK, h⟩ := redcRun_spec hneg T i
    have h1 := redcStep_spec hneg (redcRun n neg T i)
    have hm := Nat.mod_lt (redcRun n neg T i * neg) B_pos
    generalize redcRun n neg T i * neg % B = m at *
    refine ⟨K + B ^ i * m, ?_, ?_⟩
    · have : B ^ i * (m + 1) ≤ B ^ i * B := Nat.mul_le_mul_left _ hm
      rw [Nat.mul_add, mul_one] at this
      rw [pow_succ]; omega
    · rw [redcRun, pow_succ, Nat.mul_assoc, h1, Nat.mul_add, h]; ring

theorem mgRun_lt {N n neg a b : ℕ} (hneg : wmul (n % B) neg = lmax) (hb : b < n) :
    ∀ i, mgRun N n neg a b i < b + n
  | 0 => by rw [mgRun]; omega
  | i + 1 => by
    have ih := mgRun_lt (N := N) (a := a) hneg hb i
    rw [mgRun]
    generalize mgRun N n neg a b i = S at *
    have h1 := redcStep_spec hneg ((S + a / B ^ i % B * b) % B ^ (N + 1))
    have hX := Nat.mod_le (S + a / B ^ i % B * b) (B ^ (N + 1))
    generalize (S + a / B ^ i % B * b) % B ^ (N + 1) = X at *
    have hm := Nat.mod_lt (X * neg) B_pos
    have hd := Nat.mod_lt (a / B ^ i) B_pos
    generalize a / B ^ i % B = d at *
    generalize X * neg % B = m at *
    refine Nat.lt_of_mul_lt_mul_left (a := B) ?_
    have h2 : (d + 1) * b ≤ B * b := Nat.mul_le_mul_right _ hd
    have h3 : (m + 1) * n ≤ B * n := Nat.mul_le_mul_right _ hm
    rw [h1, Nat.mul_add]
    rw [Nat.add_mul, one_mul] at h2 h3
    omega

/-- What the number calculated is congruent to. -/
theorem mgRun_spec {N n neg : ℕ} (hneg : wmul (n % B) neg = lmax) (a b : ℕ) :
    ∀ i, ∃ K < B ^ i, B ^ i * mgRun N n neg a b i + mgLost N n neg a b i * B ^ (N + 1)
      = a % B ^ i * b + K * n
  | 0 => ⟨0, by simp, by simp [mgRun, mgLost, Nat.mod_one]⟩
  | i + 1 => by
    obtain ⟨K, hK, h⟩ := mgRun_spec (N := N) hneg a b i
    rw [mgRun, mgLost]
    generalize mgRun N n neg a b i = S at *
    have h1 := redcStep_spec hneg ((S + a / B ^ i % B * b) % B ^ (N + 1))
    have hX := Nat.mod_add_div (S + a / B ^ i % B * b) (B ^ (N + 1))
    generalize (S + a / B ^ i % B * b) % B ^ (N + 1) = X at *
    generalize (S + a / B ^ i % B * b) / B ^ (N + 1) = l at *
    have hm := Nat.mod_lt (X * neg) B_pos
    generalize X * neg % B = m at *
    refine ⟨K + B ^ i * m, ?_, ?_⟩
    · have : B ^ i * (m + 1) ≤ B ^ i * B := Nat.mul_le_mul_left _ hm
      rw [Nat.mul_add, mul_one] at this
      rw [pow_succ]; omega
    rw [mod_succ, pow_succ]
    generalize a / B ^ i % B = d at *
    calc B ^ i * B * redcStep n neg X + (mgLost N n neg a b i + B ^ i * l) * B ^ (N + 1)
        = B ^ i * (B * redcStep n neg X) + (mgLost N n neg a b i + B ^ i * l) * B ^ (N + 1) := by
          ring
      _ = B ^ i * (X + B ^ (N + 1) * l) + mgLost N n neg a b i * B ^ (N + 1)
            + B ^ i * m * n := by rw [h1]; ring
      _ = (B ^ i * S + mgLost N n neg a b i * B ^ (N + 1)) + B ^ i * (d * b + m * n) := by
          rw [hX]; ring
      _ = _ := by rw [h]; ring

theorem mgLost_eq_zero {N n neg a b : ℕ} : ∀ {i : ℕ}, (∀ j < i,
    mgRun N n neg a b j + a / B ^ j % B * b < B ^ (N + 1)) → mgLost N n neg a b i = 0
  | 0, _ => rfl
  | i + 1, h => by
    rw [mgLost, mgLost_eq_zero fun j hj => h j (by omega), Nat.div_eq_of_lt (h i (by omega))]
    simp

/-- No carry is lost if the modulus isn't close to a power of `B`. -/
theorem mgKeeps_of_le {N n neg a b : ℕ} (hneg : wmul (n % B) neg = lmax) (hb : b < n)
    (hn : (B + 1) * n ≤ B ^ (N + 1)) : MgKeeps N n neg a b := by
  intro i _
  have h1 := mgRun_lt (N := N) (a := a) hneg hb i
  have hd := Nat.mod_lt (a / B ^ i) B_pos
  generalize a / B ^ i % B = d at *
  have h2 : (d + 1) * b ≤ B * b := Nat.mul_le_mul_right _ hd
  have h3 : B * b ≤ B * n := Nat.mul_le_mul_left _ hb.le
  rw [Nat.add_mul, one_mul] at h2 hn
  omega

theorem coprime_B_pow {n : ℕ} (hodd : n % 2 ≠ 0) (k : ℕ) : Nat.Coprime n (B ^ k) := by
  rw [B_eq_two_pow]
  refine Nat.Coprime.pow_right _ (Nat.Coprime.pow_right _ ?_)
  exact (Nat.coprime_comm.1 ((Nat.Prime.coprime_iff_not_dvd Nat.prime_two).2 (by omega)))

/-- At most one is lost at each limb. -/
theorem mgLost_le {N n neg a b : ℕ} (hneg : wmul (n % B) neg = lmax) (hb : b < n)
    (hn : n < B ^ N) : ∀ i, (B - 1) * mgLost N n neg a b i + 1 ≤ B ^ i
  | 0 => by simp [mgLost]
  | i + 1 => by
    have ih := mgLost_le (a := a) hneg hb hn i
    have h1 := mgRun_lt (N := N) (a := a) hneg hb i
    rw [mgLost]
    have hd := Nat.mod_lt (a / B ^ i) B_pos
    have hl : (mgRun N n neg a b i + a / B ^ i % B * b) / B ^ (N + 1) ≤ 1 := by
      rw [← Nat.lt_succ_iff]
      refine Nat.div_lt_of_lt_mul ?_
      generalize a / B ^ i % B = d at *
      have h2 : (d + 1) * b ≤ B * b := Nat.mul_le_mul_right _ hd
      have h3 : B * b ≤ B * n := Nat.mul_le_mul_left _ hb.le
      have h4 : B * n ≤ B * B ^ N := Nat.mul_le_mul_left _ hn.le
      have h5 : 1 * n ≤ B * n := Nat.mul_le_mul_right _ B_pos
      rw [Nat.add_mul, one_mul] at h2
      rw [pow_succ']
      omega
    generalize (mgRun N n neg a b i + a / B ^ i % B * b) / B ^ (N + 1) = l at *
    have h6 : (B - 1) * (B ^ i * l) ≤ (B - 1) * (B ^ i * 1) :=
      Nat.mul_le_mul_left _ (Nat.mul_le_mul_left _ hl)
    have hB := B_pos
    have h7 : (B - 1) * (B ^ i * 1) + B ^ i = B ^ (i + 1) := by
      rw [mul_one, Nat.sub_mul, one_mul, pow_succ']
      have : 1 * B ^ i ≤ B * B ^ i := Nat.mul_le_mul_right _ hB
      omega
    rw [Nat.mul_add]
    omega

/-- The product is right exactly if no carry is lost. -/
theorem mgMul_modEq_iff {N n neg a b : ℕ} (hneg : wmul (n % B) neg = lmax) (hodd : n % 2 ≠ 0)
    (ha : a < B ^ N) (hb : b < n) (hn : n < B ^ N) :
    mgMul N n neg a b * B ^ N ≡ a * b [MOD n] ↔ MgKeeps N n neg a b := by
  obtain ⟨K, -, h⟩ := mgRun_spec (N := N) hneg a b N
  rw [Nat.mod_eq_of_lt ha] at h
  have h1 : mgMul N n neg a b * B ^ N ≡ B ^ N * mgRun N n neg a b N [MOD n] := by
    rw [Nat.mul_comm]; exact (Nat.mod_modEq _ _).mul_left _
  constructor
  · intro h2
    by_contra hk
    have h3 : a * b + mgLost N n neg a b N * B ^ (N + 1) ≡ a * b + 0 [MOD n] := by
      refine ((h2.symm.trans h1).add_right _).trans ?_
      rw [h]
      show _ % n = _
      rw [Nat.add_mul_mod_self_right, Nat.add_zero]
    have h4 : mgLost N n neg a b N * B ^ (N + 1) ≡ 0 * B ^ (N + 1) [MOD n] := by
      rw [Nat.zero_mul]; exact Nat.ModEq.add_left_cancel' _ h3
    have h5 := Nat.ModEq.cancel_right_of_coprime (coprime_B_pow hodd _) h4
    have h6 := mgLost_le (a := a) hneg hb hn N
    have hB := one_lt_B
    -- the modulus is close to a power of `B`
    have h7 : B ^ (N + 1) < (B + 1) * n := by
      by_contra h8
      exact hk (mgKeeps_of_le hneg hb (by omega))
    have h8 : mgLost N n neg a b N < n := by
      by_contra hge
      have h9 : (B - 1) * n ≤ (B - 1) * mgLost N n neg a b N := Nat.mul_le_mul_left _ (by omega)
      have h10 : (B + 1) * ((B - 1) * n) < (B + 1) * B ^ N :=
        Nat.mul_lt_mul_of_pos_left (by omega) (by omega)
      have h11 : (B - 1) * B ^ (N + 1) < (B - 1) * ((B + 1) * n) :=
        Nat.mul_lt_mul_of_pos_left h7 (by omega)
      have h12 : (B + 1) * B ^ N ≤ (B - 1) * B ^ (N + 1) := by
        rw [pow_succ', ← Nat.mul_assoc]
        refine Nat.mul_le_mul_right _ ?_
        have h4B : 4 ≤ B := by
          rw [B_eq_two_pow]
          have : 2 ≤ W := by rw [W_eq]; have := LB_pos; omega
          calc 4 = 2 ^ 2 := by norm_num
            _ ≤ 2 ^ W := Nat.pow_le_pow_right (by norm_num) this
        obtain ⟨c, hc⟩ := Nat.exists_eq_add_of_le h4B
        rw [hc, show 4 + c - 1 = 3 + c by omega]; nlinarith
      have h13 : (B - 1) * ((B + 1) * n) = (B + 1) * ((B - 1) * n) := by ring
      omega
    have h9 : mgLost N n neg a b N = 0 := by
      have : mgLost N n neg a b N % n = 0 % n := h5
      rwa [Nat.mod_eq_of_lt h8, Nat.zero_mod] at this
    -- if nothing is lost in total, then nothing is lost at any limb
    refine hk fun i hi => ?_
    have h10 : ∀ k, mgLost N n neg a b k = 0 → ∀ j < k,
        mgRun N n neg a b j + a / B ^ j % B * b < B ^ (N + 1) := by
      intro k
      induction k with
      | zero => intro _ j hj; omega
      | succ k ih =>
        intro h0 j hj
        rw [mgLost] at h0
        obtain ⟨h11, h12⟩ := Nat.add_eq_zero_iff.1 h0
        rcases Nat.lt_succ_iff_lt_or_eq.1 hj with hj | rfl
        · exact ih h11 j hj
        · have h13 := (Nat.mul_eq_zero.1 h12).resolve_left (B_pow_pos _).ne'
          exact (Nat.div_eq_zero_iff.1 h13).resolve_left (B_pow_pos _).ne'
    exact h10 N h9 i hi
  · intro hk
    rw [mgLost_eq_zero hk, Nat.zero_mul, Nat.add_zero] at h
    refine h1.trans ?_
    rw [h]
    show _ % n = _
    rw [Nat.add_mul_mod_self_right]

theorem mgMul_lt {N n neg a b : ℕ} (hn : 0 < n) : mgMul N n neg a b < n := Nat.mod_lt _ hn

theorem mgMul_congr {N n neg neg' a b : ℕ} (h : wmul (n % B) neg = lmax)
    (h' : wmul (n % B) neg' = lmax) : mgMul N n neg a b = mgMul N n neg' a b := by
  unfold mgMul; rw [mgRun_congr h h']

/-! ### Exponentiation -/

/-- A step of the exponentiation: the power is squared, and multiplied by the base `x` if the bit
`b` is set. -/
def expStep (N n neg x : ℕ) (b : Bool) (r : ℕ) : ℕ :=
  if b then mgMul N n neg (mgMul N n neg r r) x else mgMul N n neg r r

/-- The exponentiation after the `i` most significant ones of the `nb` bits of the exponent `e`,
starting from `r`. -/
def expRun (N n neg x e nb r : ℕ) : ℕ → ℕ
  | 0 => r
  | i + 1 => expStep N n neg x (e.testBit (nb - i - 1)) (expRun N n neg x e nb r i)

/-- No carry is lost in any of the multiplications contributing to the power after the `m` most
significant bits. -/
def ExpKeeps (N n neg x e nb r m : ℕ) : Prop :=
  ∀ i < m, MgKeeps N n neg (expRun N n neg x e nb r i) (expRun N n neg x e nb r i) ∧
    (e.testBit (nb - i - 1) = true → MgKeeps N n neg
      (mgMul N n neg (expRun N n neg x e nb r i) (expRun N n neg x e nb r i)) x)

instance (N n neg x e nb r m : ℕ) : Decidable (ExpKeeps N n neg x e nb r m) := by
  unfold ExpKeeps; infer_instance

theorem expRun_lt {N n neg x e nb r : ℕ} (hn : 0 < n) (hr : r < n) :
    ∀ i, expRun N n neg x e nb r i < n
  | 0 => hr
  | i + 1 => by
    rw [expRun, expStep]
    split <;> exact mgMul_lt hn

theorem expRun_congr {N n neg neg' x e nb r : ℕ} (h : wmul (n % B) neg = lmax)
    (h' : wmul (n % B) neg' = lmax) : ∀ i, expRun N n neg x e nb r i = expRun N n neg' x e nb r i
  | 0 => rfl
  | i + 1 => by
    rw [expRun, expRun, expRun_congr h h', expStep, expStep, mgMul_congr h h', mgMul_congr h h']

theorem exp_step {e i nb : ℕ} (hi : i < nb) (he : e < 2 ^ nb) :
    e / 2 ^ (nb - (i + 1)) = 2 * (e / 2 ^ (nb - i)) + (e.testBit (nb - i - 1)).toNat := by
  obtain ⟨k, rfl⟩ := Nat.exists_eq_add_of_lt hi
  rw [show i + k + 1 - (i + 1) = k by omega, show i + k + 1 - i = k + 1 by omega,
    show k + 1 - 1 = k by omega, pow_succ, ← Nat.div_div_eq_div_mul, Nat.testBit,
    Nat.shiftRight_eq_div_pow]
  generalize e / 2 ^ k = y
  rw [Nat.and_comm, Nat.and_one_is_mod]
  rcases Nat.mod_two_eq_zero_or_one y with h | h <;> simp [h] <;> omega

/-- If no carry is lost, the power is right. -/
theorem expRun_spec {N n neg x e nb r y : ℕ} (hneg : wmul (n % B) neg = lmax) (hodd : n % 2 ≠ 0)
    (hn : n < B ^ N) (hr : r < n) (hr1 : r ≡ B ^ N [MOD n]) (hx : x < n)
    (hxy : x ≡ y * B ^ N [MOD n]) :
    ∀ i ≤ nb, ExpKeeps N n neg x e nb r i → expRun N n neg x e nb r i ≡ y ^ (e % 2 ^ nb / 2 ^ (nb - i)) * B ^ N [MOD n]
  | 0, _, _ => by
    rw [Nat.sub_zero, Nat.div_eq_of_lt (Nat.mod_lt _ (by positivity)), pow_zero, one_mul]
    exact hr1
  | i + 1, hi, hk => by
    have ih := expRun_spec hneg hodd hn hr hr1 hx hxy i (by omega) fun j hj => hk j (by omega)
    obtain ⟨h1, h2⟩ := hk i (by omega)
    have hlt : expRun N n neg x e nb r i < n := expRun_lt (by omega) hr i
    rw [exp_step (by omega) (Nat.mod_lt _ (by positivity)), expRun, expStep]
    rw [Nat.testBit_mod_two_pow, decide_eq_true (show nb - i - 1 < nb by omega), Bool.true_and]
    generalize expRun N n neg x e nb r i = z at *
    generalize e % 2 ^ nb / 2 ^ (nb - i) = k at *
    have h3 := (mgMul_modEq_iff hneg hodd (by omega) hlt hn).2 h1
    have hsq : mgMul N n neg z z ≡ y ^ (2 * k) * B ^ N [MOD n] := by
      refine Nat.ModEq.cancel_right_of_coprime (coprime_B_pow hodd N) ?_
      refine h3.trans ((ih.mul ih).trans (congrArg (· % n) ?_))
      rw [pow_mul']; ring
    have hsqn : mgMul N n neg z z < n := mgMul_lt (by omega)
    cases hb : e.testBit (nb - i - 1)
    · simpa using hsq
    · rw [if_pos rfl]
      have h4 := (mgMul_modEq_iff hneg hodd (by omega) hx hn).2 (h2 hb)
      refine Nat.ModEq.cancel_right_of_coprime (coprime_B_pow hodd N) ?_
      refine h4.trans ((hsq.mul hxy).trans (congrArg (· % n) ?_))
      simp only [Bool.toNat_true]
      ring

theorem expKeeps_of_le {N n neg x e nb r m : ℕ} (hneg : wmul (n % B) neg = lmax) (hx : x < n)
    (hr : r < n) (hn : (B + 1) * n ≤ B ^ (N + 1)) : ExpKeeps N n neg x e nb r m := fun i _ =>
  ⟨mgKeeps_of_le hneg (expRun_lt (by omega) hr i) hn, fun _ => mgKeeps_of_le hneg hx hn⟩

end Cmpa
