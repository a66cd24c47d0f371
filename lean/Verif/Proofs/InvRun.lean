import Verif.Proofs.Gcd

/-!
# The coefficients of the inverse, as numbers

What `apply_to_mod_odd_n` computes, without reference to limbs other than by the truncations, right or wrong,
done by the code.
-/

set_option linter.unusedSectionVars false

namespace Cmpa
variable [LimbCfg]

/-- Half of `v` modulo the odd number `n`. -/
def halve (n v : ℤ) : ℤ := if v % 2 = 0 then v / 2 else (v + n) / 2

/-- `v / 2 ^ e` modulo the odd number `n`. -/
def redc (n : ℤ) (e : ℕ) (v : ℤ) : ℤ := (halve n)^[e] v

theorem halve_spec {n : ℤ} (hn : n % 2 = 1) (v : ℤ) :
    ∃ m : ℕ, m < 2 ∧ 2 * halve n v = v + m * n := by
  unfold halve
  split
  · exact ⟨0, by omega, by push_cast; omega⟩
  · exact ⟨1, by omega, by push_cast; omega⟩

theorem redc_spec {n : ℤ} (hn : n % 2 = 1) (e : ℕ) (v : ℤ) :
    ∃ m : ℕ, m < 2 ^ e ∧ 2 ^ e * redc n e v = v + m * n := by
  unfold redc
  induction e with
  | zero => exact ⟨0, by simp, by simp⟩
  | succ e ih =>
    obtain ⟨m, hm, h⟩ := ih
    obtain ⟨k, hk, h'⟩ := halve_spec hn ((halve n)^[e] v)
    rw [Function.iterate_succ_apply']
    refine ⟨m + 2 ^ e * k, ?_, ?_⟩
    · have : 2 ^ e * k ≤ 2 ^ e * 1 := Nat.mul_le_mul_left _ (by omega)
      rw [pow_succ]; omega
    · push_cast
      rw [pow_succ]
      linear_combination h + 2 ^ e * h'

theorem redc_unique {n : ℕ} (hn : n % 2 = 1) {e m : ℕ} {v U : ℤ} (hm : m < 2 ^ e)
    (hU : 2 ^ e * U = v + m * n) : U = redc n e v := by
  obtain ⟨m', hm', h⟩ := redc_spec (n := n) (by omega) e v
  have hd : (2 : ℤ) ^ e ∣ ((m : ℤ) - m') * n := ⟨U - redc n e v, by linear_combination h - hU⟩
  have hc : Int.gcd ((2 : ℤ) ^ e) n = 1 := by
    have : Nat.Coprime n (2 ^ e) := by
      apply Nat.Coprime.pow_right
      exact Nat.coprime_comm.1 ((Nat.Prime.coprime_iff_not_dvd Nat.prime_two).2 (by omega))
    have h2 : ((2 ^ e : ℕ) : ℤ) = 2 ^ e := by push_cast; ring
    rw [← h2, Int.gcd_natCast_natCast]; exact this.symm
  have hd' := Int.dvd_of_dvd_mul_left_of_gcd_one hd hc
  have h0 : (m : ℤ) - m' = 0 := by
    apply Int.eq_zero_of_abs_lt_dvd hd'
    have h1 : (m : ℤ) < 2 ^ e := by exact_mod_cast hm
    have h2 : (m' : ℤ) < 2 ^ e := by exact_mod_cast hm'
    rw [abs_lt]; constructor <;> omega
  have h2 : (2 : ℤ) ^ e ≠ 0 := by positivity
  refine mul_left_cancel₀ h2 ?_
  rw [hU, h, show (m : ℤ) = m' by omega]

/-- The number represented by the limbs written by the code, if it is to be `u`: non-negative numbers
lose what doesn't fit `N` limbs, negative ones are extended from `e` bits of the most significant limb on. -/
def fit (N e : ℕ) (u : ℤ) : ℤ :=
  if u < 0 then u % (2 ^ e * B ^ (N - 1)) - 2 ^ e * B ^ (N - 1) else u % B ^ N

/-- The number `x` brought into range by adding or subtracting `n`. -/
def intoRange (n x : ℤ) : ℤ := if x < 0 then x + n else if n ≤ x then x - n else x

/-- A new coefficient. -/
def newCoef (n : ℤ) (N e : ℕ) (v : ℤ) : ℤ := intoRange n (fit N e (redc n e v))

/-- The coefficients before batch `j`, if `f = n` and `g` are the numbers to start with. -/
def coefs (n g : ℤ) (N : ℕ) : ℕ → ℤ × ℤ
  | 0 => (0, if n = 1 then 0 else 1)
  | j + 1 =>
    let x := batchRun n g j
    let (u, v) := coefs n g N j
    (newCoef n N x.s (x.a * u + x.b * v), newCoef n N STEPS_PER_BATCH (x.c * u + x.d * v))

/-- Nothing is lost. -/
def Fits (N e : ℕ) (u : ℤ) : Prop := -(2 ^ e * B ^ (N - 1)) ≤ u ∧ u < B ^ N

instance (N e : ℕ) (u : ℤ) : Decidable (Fits N e u) := instDecidableAnd

theorem Fits.fit_eq {N e : ℕ} {u : ℤ} (h : Fits N e u) : fit N e u = u := by
  have hB : (0 : ℤ) < B := by exact_mod_cast B_pos
  have hM : (0 : ℤ) < 2 ^ e * (B : ℤ) ^ (N - 1) := by positivity
  unfold fit
  obtain ⟨h1, h2⟩ := h
  split
  · next h0 =>
    rw [← Int.add_emod_right, Int.emod_eq_of_lt (by linarith) (by linarith)]; ring
  · next h0 => exact Int.emod_eq_of_lt (by omega) h2

theorem intoRange_modEq (n x : ℤ) : intoRange n x ≡ x [ZMOD n] := by
  unfold intoRange
  split
  · exact Int.modEq_iff_dvd.2 ⟨-1, by ring⟩
  · split
    · exact Int.modEq_iff_dvd.2 ⟨1, by ring⟩
    · rfl

/-- A coefficient which fits is right. -/
theorem newCoef_modEq {n : ℤ} (hn : n % 2 = 1) {N e : ℕ} {v : ℤ} (h : Fits N e (redc n e v)) :
    2 ^ e * newCoef n N e v ≡ v [ZMOD n] := by
  unfold newCoef
  rw [h.fit_eq]
  refine ((intoRange_modEq _ _).mul_left _).trans ?_
  obtain ⟨m, -, h'⟩ := redc_spec hn e v
  rw [h']
  exact Int.modEq_iff_dvd.2 ⟨-m, by ring⟩

/-! ### Runs of division steps -/

/-- The matrix of a run takes the numbers before to the ones after it. -/
structure DivSteps.Good (f g : ℤ) (i : ℕ) (x : DivSteps) : Prop where
  s : x.s ≤ i
  odd : x.t.2.1 % 2 = 1
  ef : x.a * f + x.b * g = 2 ^ x.s * x.t.2.1
  eg : x.c * f + x.d * g = 2 ^ i * x.t.2.2
  bf : |x.a| + |x.b| ≤ 2 ^ x.s
  bg : |x.c| + |x.d| ≤ 2 ^ i

theorem add_mul_abs_le {c d a b p q r : ℤ} (hp : 0 ≤ p) (h1 : |c| + |d| ≤ q) (h2 : |a| + |b| ≤ r)
    (hr : p * r = q) : |c + a * p| + |d + b * p| ≤ 2 * q := by
  have e1 : |c + a * p| ≤ |c| + |a| * p := (abs_add_le _ _).trans (by rw [abs_mul, abs_of_nonneg hp])
  have e2 : |d + b * p| ≤ |d| + |b| * p := (abs_add_le _ _).trans (by rw [abs_mul, abs_of_nonneg hp])
  have e3 := mul_le_mul_of_nonneg_left h2 hp
  linarith

theorem DivSteps.Good.next {f g : ℤ} {i : ℕ} {x : DivSteps} (h : x.Good f g i) :
    (x.next i).Good f g (i + 1) := by
  obtain ⟨⟨δ, F, G⟩, a, b, c, d, s⟩ := x
  obtain ⟨hs, hodd, ef, eg, bf, bg⟩ := h
  dsimp only at hs hodd ef eg bf bg
  have hp : (2 : ℤ) ^ (i - s) * 2 ^ s = 2 ^ i := by rw [← pow_add]; congr 1; omega
  have hp0 : (0 : ℤ) ≤ 2 ^ (i - s) := by positivity
  by_cases hc : 0 < δ ∧ G % 2 = 1
  · rw [DivSteps.next_swap hc.1 hc.2]
    refine ⟨by dsimp only; omega, hc.2, eg, ?_, bg, ?_⟩
    · dsimp only
      have : 2 * ((G - F) / 2) = G - F := by omega
      rw [pow_succ]
      linear_combination eg - 2 ^ (i - s) * ef - F * hp - 2 ^ i * this
    · dsimp only
      rw [pow_succ, mul_comm ((2 : ℤ) ^ i)]
      exact add_mul_abs_le hp0 bg (by rw [abs_neg, abs_neg]; exact bf) hp
  · rw [DivSteps.next_keep (by omega)]
    refine ⟨by dsimp only; omega, hodd, ef, ?_, bf, ?_⟩
    · dsimp only
      have : 2 * ((G + G % 2 * F) / 2) = G + G % 2 * F := by
        rcases Int.emod_two_eq_zero_or_one G with h0 | h0 <;> rw [h0] <;> omega
      rw [pow_succ]
      rcases Int.emod_two_eq_zero_or_one G with h0 | h0
      · simp only [h0, zero_mul, add_zero] at this ⊢
        simp only [decide_false, zero_ne_one, Bool.false_eq_true, if_false, zero_mul, add_zero]
        linear_combination eg - 2 ^ i * this
      · simp only [h0, one_mul] at this ⊢
        simp only [decide_true, if_true]
        linear_combination eg + 2 ^ (i - s) * ef + F * hp - 2 ^ i * this
    · dsimp only
      rw [pow_succ, mul_comm ((2 : ℤ) ^ i)]
      generalize decide (G % 2 = 1) = w
      cases w
      · simp only [Bool.false_eq_true, if_false]
        exact add_mul_abs_le hp0 bg (by rw [abs_zero, add_zero]; positivity) hp
      · simp only [if_true]
        exact add_mul_abs_le hp0 bg bf hp

theorem divsteps_good {f g : ℤ} (hf : f % 2 = 1) (δ : ℤ) (i : ℕ) :
    (divsteps (δ, f, g) i).Good f g i := by
  induction i with
  | zero => exact ⟨le_rfl, hf, by simp [divsteps], by simp [divsteps], by simp [divsteps],
      by simp [divsteps]⟩
  | succ i ih => exact ih.next

theorem batchStart_succ (f g : ℤ) (j : ℕ) : batchStart f g (j + 1) = (batchRun f g j).t := by
  unfold batchRun
  rw [divsteps_t]
  unfold batchStart
  rw [Nat.succ_mul, Nat.add_comm, Function.iterate_add_apply]

theorem batchStart_odd {f g : ℤ} (hf : f % 2 = 1) (j : ℕ) : (batchStart f g j).2.1 % 2 = 1 :=
  divstep_iter_odd _ _ hf

theorem batchRun_good {f g : ℤ} (hf : f % 2 = 1) (j : ℕ) :
    (batchRun f g j).Good (batchStart f g j).2.1 (batchStart f g j).2.2 STEPS_PER_BATCH := by
  unfold batchRun
  exact divsteps_good (batchStart_odd hf j) _ _

/-! ### The inverse -/

/-- The number `ct_inv_mod_odd_mp_mp` arrives at, before the sign is taken into account. -/
def invCoef (n a : ℤ) (N : ℕ) : ℤ := (coefs n a N (nbatches (N * LB))).1

/-- The number `f` is left with: the greatest common divisor or its negative. -/
def invGcd (n a : ℤ) (N : ℕ) : ℤ := (batchStart n a (nbatches (N * LB))).2.1

/-- The number returned by `ct_inv_mod_odd_mp_mp`. -/
def invValue (n a : ℤ) (N : ℕ) : ℤ :=
  if invGcd n a N < 0 ∧ n ≠ 1 then n - invCoef n a N else invCoef n a N

/-- The number of batches is sufficient. -/
theorem invGcd_natAbs {n a N : ℕ} (hodd : n % 2 = 1) (hn : n < B ^ N) (ha : a < B ^ N) :
    (invGcd n a N).natAbs = Nat.gcd n a := by
  have hbound : ∀ x : ℕ, x < B ^ N → |(x : ℤ)| ≤ 2 ^ (8 * (N * LB)) := by
    intro x hx
    rw [abs_of_nonneg (by positivity)]
    rw [← pow_256, ← two_pow_8] at hx
    exact_mod_cast hx.le
  obtain ⟨m, hm1, hm2⟩ := nbatches_even (N * LB)
  have h0 := divstep_bound (f := (n : ℤ)) (g := (a : ℤ)) (by omega) (hbound _ hn) (hbound _ ha) hm2
  rw [← hm1] at h0
  change (batchStart _ _ _).2.2 = 0 at h0
  have hgcd := divstep_iter_gcd (nbatches (N * LB) * STEPS_PER_BATCH) (1, (n : ℤ), (a : ℤ))
    (by dsimp only; omega)
  change Int.gcd (batchStart _ _ _).2.1 (batchStart _ _ _).2.2 = _ at hgcd
  rw [h0, Int.gcd_zero_right] at hgcd
  dsimp only at hgcd
  rw [Int.gcd_natCast_natCast] at hgcd
  exact hgcd

/-- Both coefficients calculated in batch `j` fit. -/
def FitsAt (n a : ℤ) (N j : ℕ) : Prop :=
  let x := batchRun n a j
  let (u, v) := coefs n a N j
  Fits N x.s (redc n x.s (x.a * u + x.b * v)) ∧
    Fits N STEPS_PER_BATCH (redc n STEPS_PER_BATCH (x.c * u + x.d * v))

instance (n a : ℤ) (N j : ℕ) : Decidable (FitsAt n a N j) := instDecidableAnd

/-- All of the coefficients fit. -/
def FitsRun (n a : ℤ) (N : ℕ) : Prop := ∀ j, j < nbatches (N * LB) → FitsAt n a N j

instance (n a : ℤ) (N : ℕ) : Decidable (FitsRun n a N) := Nat.decidableBallLT _ _

theorem cancel_two_pow {n e : ℕ} (hodd : n % 2 = 1) {x y : ℤ}
    (h : 2 ^ e * x ≡ 2 ^ e * y [ZMOD n]) : x ≡ y [ZMOD n] := by
  have hc : Int.gcd (n : ℤ) (2 ^ e) = 1 := by
    have : Nat.Coprime n (2 ^ e) := by
      apply Nat.Coprime.pow_right
      exact Nat.coprime_comm.1 ((Nat.Prime.coprime_iff_not_dvd Nat.prime_two).2 (by omega))
    have h2 : ((2 ^ e : ℕ) : ℤ) = 2 ^ e := by push_cast; ring
    rw [← h2, Int.gcd_natCast_natCast]; exact this
  refine Int.modEq_iff_dvd.2 (Int.dvd_of_dvd_mul_right_of_gcd_one (b := 2 ^ e) ?_ hc)
  rw [mul_sub]; exact Int.modEq_iff_dvd.1 h

theorem row_step {n e : ℕ} (hodd : n % 2 = 1) {N : ℕ} {p q F G F' u v a : ℤ}
    (he : p * F + q * G = 2 ^ e * F') (hF : F ≡ u * a [ZMOD n]) (hG : G ≡ v * a [ZMOD n])
    (h : Fits N e (redc n e (p * u + q * v))) : F' ≡ newCoef n N e (p * u + q * v) * a [ZMOD n] := by
  refine cancel_two_pow hodd (e := e) ?_
  rw [← he, ← mul_assoc]
  refine ((hF.mul_left _).add (hG.mul_left _)).trans ?_
  refine Int.ModEq.trans ?_ ((newCoef_modEq (by omega) h).symm.mul_right _)
  exact Int.modEq_iff_dvd.2 ⟨0, by ring⟩

/-- As long as the coefficients fit, `f ≡ u a` and `g ≡ v a`. -/
theorem coefs_modEq {n : ℕ} (hodd : n % 2 = 1) (a : ℤ) (N : ℕ) :
    ∀ j, (∀ i, i < j → FitsAt n a N i) →
      (batchStart n a j).2.1 ≡ (coefs n a N j).1 * a [ZMOD n] ∧
      (batchStart n a j).2.2 ≡ (coefs n a N j).2 * a [ZMOD n]
  | 0, _ => by
    unfold batchStart coefs
    rw [Nat.zero_mul]
    refine ⟨Int.modEq_iff_dvd.2 ⟨-1, by dsimp; ring⟩, ?_⟩
    dsimp only [Function.iterate_zero, id]
    split
    · next h => rw [h]; exact Int.modEq_iff_dvd.2 (one_dvd _)
    · rw [one_mul]
  | j + 1, h => by
    obtain ⟨h1, h2⟩ := coefs_modEq hodd a N j fun i hi => h i (by omega)
    obtain ⟨f1, f2⟩ := h j (by omega)
    have hx := batchRun_good (g := a) (show (n : ℤ) % 2 = 1 by omega) j
    rw [batchStart_succ]
    exact ⟨row_step hodd hx.ef h1 h2 f1, row_step hodd hx.eg h1 h2 f2⟩

theorem intoRange_mem {n x : ℤ} (h1 : -n ≤ x) (h2 : x < 2 * n) :
    0 ≤ intoRange n x ∧ intoRange n x < n := by
  unfold intoRange
  split
  · omega
  · split <;> omega

theorem redc_bounds {n : ℕ} (hodd : n % 2 = 1) {e : ℕ} {p q u v : ℤ} (hb : |p| + |q| ≤ 2 ^ e)
    (hu : 0 ≤ u ∧ u < n) (hv : 0 ≤ v ∧ v < n) :
    -(n : ℤ) < redc n e (p * u + q * v) ∧ redc n e (p * u + q * v) < 2 * n := by
  obtain ⟨m, hm, h⟩ := redc_spec (n := n) (by omega) e (p * u + q * v)
  have hp : (0 : ℤ) < 2 ^ e := by positivity
  have hn : (0 : ℤ) < n := by omega
  have hm' : (m : ℤ) + 1 ≤ 2 ^ e := by exact_mod_cast hm
  have hV : |p * u + q * v| ≤ 2 ^ e * (n - 1) := by
    have e1 : |p * u| ≤ |p| * (n - 1) := by
      rw [abs_mul, abs_of_nonneg hu.1]; exact mul_le_mul_of_nonneg_left (by omega) (abs_nonneg _)
    have e2 : |q * v| ≤ |q| * (n - 1) := by
      rw [abs_mul, abs_of_nonneg hv.1]; exact mul_le_mul_of_nonneg_left (by omega) (abs_nonneg _)
    have e3 : (|p| + |q|) * (n - 1) ≤ 2 ^ e * ((n : ℤ) - 1) :=
      mul_le_mul_of_nonneg_right hb (by omega)
    have := abs_add_le (p * u) (q * v)
    linarith
  rw [abs_le] at hV
  have hmn : ((m : ℤ) + 1) * n ≤ 2 ^ e * n := mul_le_mul_of_nonneg_right hm' hn.le
  have hmn0 : (0 : ℤ) ≤ m * n := by positivity
  constructor
  · refine lt_of_mul_lt_mul_left (a := (2 : ℤ) ^ e) ?_ hp.le
    rw [h]; linarith
  · refine lt_of_mul_lt_mul_left (a := (2 : ℤ) ^ e) ?_ hp.le
    rw [h]; linarith

theorem fits_of_le {n N : ℕ} (hn : n ≤ B ^ (N - 1)) (hN : 0 < N) {e : ℕ} {x : ℤ} (h1 : -(n : ℤ) < x)
    (h2 : x < 2 * n) : Fits N e x := by
  have hn' : (n : ℤ) ≤ (B : ℤ) ^ (N - 1) := by exact_mod_cast hn
  have hB : (2 : ℤ) ≤ B := by exact_mod_cast one_lt_B
  have hp : (1 : ℤ) ≤ 2 ^ e := by exact_mod_cast Nat.one_le_two_pow
  have hq : (0 : ℤ) ≤ (B : ℤ) ^ (N - 1) := by positivity
  constructor
  · have := mul_le_mul_of_nonneg_right hp hq
    linarith
  · have e1 : (B : ℤ) ^ N = B * (B : ℤ) ^ (N - 1) := by rw [← pow_succ']; congr 1; omega
    have := mul_le_mul_of_nonneg_right hB hq
    rw [e1]; linarith

theorem coefs_mem {n N : ℕ} (hodd : n % 2 = 1) (hN : 0 < N) (hn : n ≤ B ^ (N - 1)) (a : ℤ) :
    ∀ j, (0 ≤ (coefs n a N j).1 ∧ (coefs n a N j).1 < n) ∧
      (0 ≤ (coefs n a N j).2 ∧ (coefs n a N j).2 < n) ∧ FitsAt n a N j := by
  have key : ∀ j, (0 ≤ (coefs n a N j).1 ∧ (coefs n a N j).1 < n) →
      (0 ≤ (coefs n a N j).2 ∧ (coefs n a N j).2 < n) → FitsAt n a N j := by
    intro j h1 h2
    have hx := batchRun_good (g := a) (show (n : ℤ) % 2 = 1 by omega) j
    obtain ⟨l1, r1⟩ := redc_bounds hodd hx.bf h1 h2
    obtain ⟨l2, r2⟩ := redc_bounds hodd hx.bg h1 h2
    exact ⟨fits_of_le hn hN l1 r1, fits_of_le hn hN l2 r2⟩
  intro j
  induction j with
  | zero =>
    have h1 : 0 ≤ (coefs n a N 0).1 ∧ (coefs n a N 0).1 < n := by
      unfold coefs; dsimp only; omega
    have h2 : 0 ≤ (coefs n a N 0).2 ∧ (coefs n a N 0).2 < n := by
      unfold coefs; dsimp only; split <;> omega
    exact ⟨h1, h2, key 0 h1 h2⟩
  | succ j ih =>
    obtain ⟨i1, i2, f1, f2⟩ := ih
    have hx := batchRun_good (g := a) (show (n : ℤ) % 2 = 1 by omega) j
    obtain ⟨l1, r1⟩ := redc_bounds hodd hx.bf i1 i2
    obtain ⟨l2, r2⟩ := redc_bounds hodd hx.bg i1 i2
    have h1 : 0 ≤ (coefs n a N (j + 1)).1 ∧ (coefs n a N (j + 1)).1 < n := by
      have := intoRange_mem l1.le r1
      rw [← f1.fit_eq] at this; exact this
    have h2 : 0 ≤ (coefs n a N (j + 1)).2 ∧ (coefs n a N (j + 1)).2 < n := by
      have := intoRange_mem l2.le r2
      rw [← f2.fit_eq] at this; exact this
    exact ⟨h1, h2, key _ h1 h2⟩

/-- The coefficients fit if the modulus does without its most significant limb. -/
theorem fitsRun_of_le {n N : ℕ} (hodd : n % 2 = 1) (hN : 0 < N) (hn : n ≤ B ^ (N - 1)) (a : ℤ) :
    FitsRun n a N := fun j _ => (coefs_mem hodd hN hn a j).2.2

/-- If the coefficients fit, then there is something to return. -/
theorem invCoef_ne {n : ℕ} (hodd : n % 2 = 1) (h1 : n ≠ 1) {a : ℤ} {N : ℕ} (h : FitsRun n a N)
    (hg : (invGcd n a N).natAbs = 1) : invCoef n a N ≠ 0 := by
  intro h0
  have := (coefs_modEq hodd a N _ h).1
  change invGcd n a N ≡ invCoef n a N * a [ZMOD n] at this
  rw [h0, zero_mul] at this
  have h4 := Int.natCast_dvd.1 (Int.modEq_zero_iff_dvd.1 this)
  rw [hg] at h4
  exact h1 (Nat.dvd_one.1 h4)

/-- If the coefficients fit, then the number returned is the inverse. -/
theorem invValue_modEq {n : ℕ} (hodd : n % 2 = 1) {a : ℤ} {N : ℕ} (h : FitsRun n a N)
    (hg : (invGcd n a N).natAbs = 1) : a * invValue n a N ≡ 1 [ZMOD n] := by
  have := (coefs_modEq hodd a N _ h).1
  change invGcd n a N ≡ invCoef n a N * a [ZMOD n] at this
  by_cases h1 : n = 1
  · rw [h1]; exact Int.modEq_iff_dvd.2 (one_dvd _)
  unfold invValue
  obtain ⟨k, hk⟩ := Int.modEq_iff_dvd.1 this
  split
  · next hF =>
    have hF1 : invGcd n a N = -1 := by omega
    rw [hF1] at hk
    exact Int.modEq_iff_dvd.2 ⟨k - a, by linear_combination hk⟩
  · next hF =>
    have hF1 : invGcd n a N = 1 := by
      have : ¬ invGcd n a N < 0 := fun h' => hF ⟨h', by exact_mod_cast h1⟩
      omega
    rw [hF1] at hk
    exact Int.modEq_iff_dvd.2 ⟨-k, by linear_combination -hk⟩

end Cmpa
