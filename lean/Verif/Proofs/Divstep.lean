import Mathlib.Tactic.Ring
import Mathlib.Tactic.Linarith
import Mathlib.Tactic.LinearCombination
import Mathlib.Algebra.Order.Ring.Abs
import Mathlib.Algebra.Order.Ring.Int
import Mathlib.Data.Int.GCD
import Mathlib.Data.Nat.Prime.Basic

/-!
# Division steps

The division steps of Bernstein and Yang, "Fast constant-time gcd computation and modular
inversion", on integers, and a bound on the number of steps after which the second integer is zero.

The bound is proved with a norm the unit ball of which is a decagon: `2 * e` consecutive
steps shrink it by at least `(633/1024)^e`.
-/

namespace Cmpa

/-- One division step: a map of `(δ, f, g)`, for odd `f`. -/
def divstep : ℤ × ℤ × ℤ → ℤ × ℤ × ℤ
  | (δ, f, g) =>
    if 0 < δ ∧ g % 2 = 1 then (1 - δ, g, (g - f) / 2) else (1 + δ, f, (g + g % 2 * f) / 2)

theorem divstep_swap {δ f g : ℤ} (hδ : 0 < δ) (hg : g % 2 = 1) :
    divstep (δ, f, g) = (1 - δ, g, (g - f) / 2) := if_pos ⟨hδ, hg⟩

theorem divstep_keep {δ f g : ℤ} (h : δ ≤ 0 ∨ g % 2 = 0) :
    divstep (δ, f, g) = (1 + δ, f, (g + g % 2 * f) / 2) := if_neg (by omega)

/-! ### Runs of steps -/

theorem divstep_even (k : ℕ) (δ f g : ℤ) :
    divstep^[k] (δ, f, 2 ^ k * g) = (δ + k, f, g) := by
  induction k generalizing δ with
  | zero => simp
  | succ k ih =>
    have e : (2 : ℤ) ^ (k + 1) * g = 2 * (2 ^ k * g) := by ring
    have h0 : (2 : ℤ) ^ (k + 1) * g % 2 = 0 := by omega
    rw [Function.iterate_succ_apply, divstep_keep (.inr h0), h0, zero_mul, add_zero, e,
      Int.mul_ediv_cancel_left _ (by norm_num), ih]
    simp only [Prod.mk.injEq, and_true]
    push_cast
    ring

theorem divstep_keep_run (m : ℕ) (δ f g : ℤ) (hδ : δ + m ≤ 1) (hf : f % 2 = 1) :
    ∃ c g' : ℤ, 0 ≤ c ∧ c < 2 ^ m ∧ 2 ^ m * g' = g + c * f ∧
      divstep^[m] (δ, f, g) = (δ + m, f, g') := by
  induction m generalizing δ g with
  | zero => exact ⟨0, g, le_refl _, by norm_num, by ring, by simp⟩
  | succ m ih =>
    push_cast at hδ
    rw [Function.iterate_succ_apply, divstep_keep (.inl (by omega))]
    have h2 : (g + g % 2 * f) % 2 = 0 := by
      rcases Int.emod_two_eq_zero_or_one g with h | h <;> rw [h] <;> omega
    obtain ⟨c, g', h0, hc, he, hr⟩ := ih (1 + δ) ((g + g % 2 * f) / 2) (by omega)
    have hd : 2 * ((g + g % 2 * f) / 2) = g + g % 2 * f := by omega
    refine ⟨2 * c + g % 2, g', by omega, ?_, ?_, ?_⟩
    · rw [pow_succ]; omega
    · rw [pow_succ]; linear_combination 2 * he + hd
    · rw [hr]
      simp only [Prod.mk.injEq, and_true]
      push_cast
      ring

/-- `2 * e` steps starting with `δ = 1`, where `2 ^ (e - 1)` is the power of two in `g`. -/
theorem divstep_macro (k : ℕ) (f g : ℤ) (hf : f % 2 = 1) (hg : g % 2 = 1) :
    ∃ q g' : ℤ, 1 ≤ q ∧ q ≤ 2 ^ (k + 2) - 1 ∧ 2 ^ (k + 2) * g' = q * g - f ∧
      divstep^[2 * (k + 1)] (1, f, 2 ^ k * g) = (1, g, g') := by
  have e : 2 * (k + 1) = (k + 1) + 1 + k := by omega
  rw [e, Function.iterate_add_apply, divstep_even, Function.iterate_add_apply,
    Function.iterate_one, divstep_swap (by positivity) hg]
  obtain ⟨c, g', h0, hc, he, hr⟩ :=
    divstep_keep_run (k + 1) (1 - (1 + (k : ℤ))) g ((g - f) / 2) (by push_cast; omega) hg
  have hd : 2 * ((g - f) / 2) = g - f := by omega
  refine ⟨2 * c + 1, g', by omega, ?_, ?_, ?_⟩
  · have : (2 : ℤ) ^ (k + 2) = 2 * 2 ^ (k + 1) := by ring
    omega
  · have : (2 : ℤ) ^ (k + 2) = 2 * 2 ^ (k + 1) := by ring
    rw [this]
    linear_combination 2 * he + hd
  · rw [hr]
    simp only [Prod.mk.injEq, and_true]
    push_cast
    ring

/-! ### The norm -/

/-- The linear forms defining the norm. -/
def ballForms : List (ℤ × ℤ) := [(280, -233), (280, 47), (189, 132), (0, 285), (-231, 346)]

/-- The norm of `(x, y)`, scaled by `(633/1024)^m`, is at most `K`. -/
def InBall (K m : ℕ) (x y : ℤ) : Prop :=
  ∀ p ∈ ballForms, 633 ^ m * |p.1 * x + p.2 * y| ≤ (K : ℤ) * 1024 ^ m

/-- A linear form is a combination of two of the `ballForms`, with coefficients of absolute values
adding up to at most `num / den`. -/
def ballCert (s : ℤ × ℤ) (num den : ℤ) : Bool :=
  ballForms.any fun p => ballForms.any fun q =>
    decide (0 < |p.1 * q.2 - p.2 * q.1| ∧
      (|s.1 * q.2 - s.2 * q.1| + |p.1 * s.2 - p.2 * s.1|) * den ≤ |p.1 * q.2 - p.2 * q.1| * num)

theorem ballCert_sound {s : ℤ × ℤ} {num den : ℤ} (h : ballCert s num den = true) (hden : 0 ≤ den)
    {L R x y : ℤ} (hL : 0 ≤ L) (hR : 0 ≤ R) (hb : ∀ p ∈ ballForms, L * |p.1 * x + p.2 * y| ≤ R) :
    den * (L * |s.1 * x + s.2 * y|) ≤ num * R := by
  simp only [ballCert, List.any_eq_true, decide_eq_true_eq] at h
  obtain ⟨p, hp, q, hq, hD, hc⟩ := h
  have h1 := hb p hp
  have h2 := hb q hq
  set D := p.1 * q.2 - p.2 * q.1 with hDdef
  set l := s.1 * q.2 - s.2 * q.1 with hldef
  set m := p.1 * s.2 - p.2 * s.1 with hmdef
  have id : D * (s.1 * x + s.2 * y) =
      l * (p.1 * x + p.2 * y) + m * (q.1 * x + q.2 * y) := by
    rw [hDdef, hldef, hmdef]; ring
  have habs : |D| * |s.1 * x + s.2 * y| ≤
      |l| * |p.1 * x + p.2 * y| + |m| * |q.1 * x + q.2 * y| := by
    rw [← abs_mul, id, ← abs_mul, ← abs_mul]
    exact abs_add_le _ _
  have h3 : |D| * (L * |s.1 * x + s.2 * y|) ≤ (|l| + |m|) * R := by
    calc |D| * (L * |s.1 * x + s.2 * y|) = L * (|D| * |s.1 * x + s.2 * y|) := by ring
      _ ≤ L * (|l| * |p.1 * x + p.2 * y| + |m| * |q.1 * x + q.2 * y|) :=
          mul_le_mul_of_nonneg_left habs hL
      _ = |l| * (L * |p.1 * x + p.2 * y|) + |m| * (L * |q.1 * x + q.2 * y|) := by ring
      _ ≤ |l| * R + |m| * R :=
          add_le_add (mul_le_mul_of_nonneg_left h1 (abs_nonneg _))
            (mul_le_mul_of_nonneg_left h2 (abs_nonneg _))
      _ = (|l| + |m|) * R := by ring
  have h4 : |D| * (den * (L * |s.1 * x + s.2 * y|)) ≤ |D| * (num * R) := by
    calc |D| * (den * (L * |s.1 * x + s.2 * y|)) = den * (|D| * (L * |s.1 * x + s.2 * y|)) := by
          ring
      _ ≤ den * ((|l| + |m|) * R) := mul_le_mul_of_nonneg_left h3 hden
      _ = ((|l| + |m|) * den) * R := by ring
      _ ≤ (|D| * num) * R := mul_le_mul_of_nonneg_right hc hR
      _ = |D| * (num * R) := by ring
  exact le_of_mul_le_mul_left h4 hD

/-- A function affine in `t` is bounded by its values at the ends of an interval. -/
theorem abs_affine_le {A C K lo hi t : ℤ} (h1 : |A + lo * C| ≤ K) (h2 : |A + hi * C| ≤ K)
    (hlo : lo ≤ t) (hhi : t ≤ hi) : |A + t * C| ≤ K := by
  rw [abs_le] at h1 h2 ⊢
  rcases le_total 0 C with hC | hC
  · have a := mul_le_mul_of_nonneg_right hlo hC
    have b := mul_le_mul_of_nonneg_right hhi hC
    constructor <;> linarith [h1.1, h2.2]
  · have a := mul_le_mul_of_nonpos_right hlo hC
    have b := mul_le_mul_of_nonpos_right hhi hC
    constructor <;> linarith [h1.2, h2.1]

theorem ballCert_small : ∀ e ∈ [1, 2], ∀ p ∈ ballForms, ∀ q ∈ [1, 2 ^ (e + 1) - 1],
    ballCert (-p.2 * 2 ^ e, p.1 * 2 ^ e + p.2 * q) (633 ^ e * 4 ^ e) (1024 ^ e) = true := by
  decide +kernel

theorem ballCert_large : ∀ p ∈ ballForms, ∀ t ∈ [0, 2],
    ballCert (-p.2, p.1 + p.2 * t) (633 ^ 3 * 2 ^ 3) (1024 ^ 3) = true := by
  decide +kernel

theorem ball_scale {L A C K : ℤ} (hL : 0 ≤ L) {t : ℤ} (h : L * |A + t * C| ≤ K) :
    |L * A + t * (L * C)| ≤ K := by
  have e : L * A + t * (L * C) = L * (A + t * C) := by ring
  rw [e, abs_mul, abs_of_nonneg hL]
  exact h

theorem ball_unscale {L A C K : ℤ} (hL : 0 ≤ L) {t : ℤ} (h : |L * A + t * (L * C)| ≤ K) :
    L * |A + t * C| ≤ K := by
  have e : L * A + t * (L * C) = L * (A + t * C) := by ring
  rw [e, abs_mul, abs_of_nonneg hL] at h
  exact h

theorem InBall.step_small {K m e : ℕ} {x y x' y' q : ℤ} (he : e ∈ [1, 2])
    (h : InBall K (m + e) x y) (hy : y = 2 ^ e * x') (hy' : 2 ^ e * y' = q * x' - x)
    (h1 : 1 ≤ q) (h2 : q ≤ 2 ^ (e + 1) - 1) : InBall K m x' y' := by
  intro p hp
  have cert : ∀ q0 ∈ [1, 2 ^ (e + 1) - 1],
      1024 ^ e * 633 ^ (m + e) * |(-p.2 * 2 ^ e * x + p.1 * 2 ^ e * y) + q0 * (p.2 * y)| ≤
        633 ^ e * 4 ^ e * ((K : ℤ) * 1024 ^ (m + e)) := by
    intro q0 hq0
    have := ballCert_sound (ballCert_small e he p hp q0 hq0) (by positivity) (by positivity)
      (by positivity) h
    rw [mul_assoc]
    refine le_of_eq_of_le ?_ this
    congr 3
    ring
  have key := ball_unscale (by positivity)
    (abs_affine_le (ball_scale (by positivity) (cert 1 (by simp)))
      (ball_scale (by positivity) (cert _ (by simp))) h1 h2)
  have id : (-p.2 * 2 ^ e * x + p.1 * 2 ^ e * y) + q * (p.2 * y) =
      4 ^ e * (p.1 * x' + p.2 * y') := by
    have e4 : (4 : ℤ) ^ e = 2 ^ e * 2 ^ e := by rw [← mul_pow]; norm_num
    rw [e4, hy]
    linear_combination -(2 ^ e * p.2) * hy'
  rw [id, abs_mul, abs_of_nonneg (by positivity : (0 : ℤ) ≤ 4 ^ e)] at key
  have hpos : (0 : ℤ) < 1024 ^ e * 633 ^ e * 4 ^ e := by positivity
  refine le_of_mul_le_mul_left ?_ hpos
  calc 1024 ^ e * 633 ^ e * 4 ^ e * (633 ^ m * |p.1 * x' + p.2 * y'|) =
      1024 ^ e * 633 ^ (m + e) * (4 ^ e * |p.1 * x' + p.2 * y'|) := by rw [pow_add]; ring
    _ ≤ 633 ^ e * 4 ^ e * ((K : ℤ) * 1024 ^ (m + e)) := key
    _ = 1024 ^ e * 633 ^ e * 4 ^ e * ((K : ℤ) * 1024 ^ m) := by rw [pow_add]; ring

theorem InBall.step_large {K m j : ℕ} {x y x' y' q : ℤ}
    (h : InBall K (m + (3 + j)) x y) (hy : y = 2 ^ (3 + j) * x')
    (hy' : 2 ^ (3 + j) * y' = q * x' - x) (h1 : 1 ≤ q) (h2 : q ≤ 2 ^ (3 + j + 1) - 1) :
    InBall K m x' y' := by
  intro p hp
  have cert : ∀ t ∈ [0, 2],
      1024 ^ 3 * (633 ^ (m + (3 + j)) * |-p.2 * x + (p.1 + p.2 * t) * y|) ≤
        633 ^ 3 * 2 ^ 3 * ((K : ℤ) * 1024 ^ (m + (3 + j))) := fun t ht =>
    ballCert_sound (ballCert_large p hp t ht) (by positivity) (by positivity) (by positivity) h
  have c0 : 1024 ^ 3 * 633 ^ (m + (3 + j)) * |(-p.2 * x + p.1 * y) + 0 * (p.2 * x')| ≤
      633 ^ 3 * 2 ^ 3 * ((K : ℤ) * 1024 ^ (m + (3 + j))) := by
    rw [mul_assoc]
    refine le_of_eq_of_le ?_ (cert 0 (by simp))
    congr 3
    ring
  have c2 : 1024 ^ 3 * 633 ^ (m + (3 + j)) *
      |(-p.2 * x + p.1 * y) + 2 ^ (3 + j + 1) * (p.2 * x')| ≤
      633 ^ 3 * 2 ^ 3 * ((K : ℤ) * 1024 ^ (m + (3 + j))) := by
    rw [mul_assoc]
    refine le_of_eq_of_le ?_ (cert 2 (by simp))
    congr 3
    rw [hy]
    ring
  have key := ball_unscale (by positivity)
    (abs_affine_le (t := q) (ball_scale (by positivity) c0) (ball_scale (by positivity) c2)
      (by omega) (by omega))
  have id : (-p.2 * x + p.1 * y) + q * (p.2 * x') = 2 ^ (3 + j) * (p.1 * x' + p.2 * y') := by
    rw [hy]
    linear_combination -p.2 * hy'
  rw [id, abs_mul, abs_of_nonneg (by positivity : (0 : ℤ) ≤ 2 ^ (3 + j))] at key
  have k2 : 1266 ^ j * (633 ^ m * |p.1 * x' + p.2 * y'|) ≤ 1024 ^ j * ((K : ℤ) * 1024 ^ m) := by
    have hpos : (0 : ℤ) < 1024 ^ 3 * 633 ^ 3 * 2 ^ 3 := by positivity
    refine le_of_mul_le_mul_left ?_ hpos
    have e6 : (1266 : ℤ) ^ j = 633 ^ j * 2 ^ j := by rw [← mul_pow]; norm_num
    calc 1024 ^ 3 * 633 ^ 3 * 2 ^ 3 * (1266 ^ j * (633 ^ m * |p.1 * x' + p.2 * y'|)) =
        1024 ^ 3 * 633 ^ (m + (3 + j)) * (2 ^ (3 + j) * |p.1 * x' + p.2 * y'|) := by
          rw [e6, pow_add, pow_add, pow_add (2 : ℤ) 3 j]; ring
      _ ≤ 633 ^ 3 * 2 ^ 3 * ((K : ℤ) * 1024 ^ (m + (3 + j))) := key
      _ = 1024 ^ 3 * 633 ^ 3 * 2 ^ 3 * (1024 ^ j * ((K : ℤ) * 1024 ^ m)) := by
          rw [pow_add, pow_add]; ring
  have k3 : (1024 : ℤ) ^ j ≤ 1266 ^ j := pow_le_pow_left₀ (by norm_num) (by norm_num) j
  refine le_of_mul_le_mul_left (a := (1024 : ℤ) ^ j) ?_ (by positivity)
  exact le_trans (mul_le_mul_of_nonneg_right k3 (by positivity)) k2

theorem InBall.step {K m e : ℕ} {x y x' y' q : ℤ} (he : 1 ≤ e)
    (h : InBall K (m + e) x y) (hy : y = 2 ^ e * x') (hy' : 2 ^ e * y' = q * x' - x)
    (h1 : 1 ≤ q) (h2 : q ≤ 2 ^ (e + 1) - 1) : InBall K m x' y' := by
  by_cases h3 : e ≤ 2
  · exact InBall.step_small (by simp; omega) h hy hy' h1 h2
  · obtain ⟨j, rfl⟩ := Nat.exists_eq_add_of_le (show 3 ≤ e by omega)
    exact InBall.step_large h hy hy' h1 h2

/-! ### The number of steps -/

theorem divstep_zero (n : ℕ) (δ f : ℤ) : divstep^[n] (δ, f, 0) = (δ + n, f, 0) := by
  have := divstep_even n δ f 0
  rwa [mul_zero] at this

theorem exists_odd_part {g : ℤ} (hg : g ≠ 0) : ∃ (k : ℕ) (g' : ℤ), g' % 2 = 1 ∧ g = 2 ^ k * g' := by
  obtain ⟨n, hn⟩ : ∃ n, g.natAbs ≤ n := ⟨_, le_refl _⟩
  induction n generalizing g with
  | zero => omega
  | succ n ih =>
    rcases Int.emod_two_eq_zero_or_one g with h | h
    · obtain ⟨k, g', h1, h2⟩ := ih (g := g / 2) (by omega) (by omega)
      refine ⟨k + 1, g', h1, ?_⟩
      rw [pow_succ, mul_right_comm, ← h2]
      omega
    · exact ⟨0, g, h, by simp⟩

theorem divstep_terminates (m : ℕ) (f g : ℤ) (hf : f % 2 = 1) (h : InBall 569 m f (2 * g)) :
    (divstep^[2 * m] (1, f, g)).2.2 = 0 := by
  induction m using Nat.strong_induction_on generalizing f g with
  | _ m ih =>
    by_cases hg : g = 0
    · rw [hg, divstep_zero]
    · obtain ⟨k, g', hg', rfl⟩ := exists_odd_part hg
      by_cases hk : k + 1 ≤ m
      · obtain ⟨q, g2, h1, h2, he, hr⟩ := divstep_macro k f g' hf hg'
        obtain ⟨m', rfl⟩ := Nat.exists_eq_add_of_le' hk
        have e : 2 * (m' + (k + 1)) = 2 * m' + 2 * (k + 1) := by ring
        rw [e, Function.iterate_add_apply, hr]
        refine ih m' (by omega) g' g2 hg' ?_
        refine InBall.step (e := k + 1) (by omega) h ?_ ?_ h1 h2
        · ring
        · rw [← he]; ring
      · exfalso
        have h1 := h (0, 285) (by simp [ballForms])
        simp only [zero_mul, zero_add] at h1
        have h2 : (2 : ℤ) * (2 ^ k * g') = 2 ^ (k + 1) * g' := by ring
        rw [h2, abs_mul, abs_mul, abs_of_nonneg (by positivity : (0 : ℤ) ≤ 2 ^ (k + 1)),
          abs_of_nonneg (by norm_num : (0 : ℤ) ≤ 285)] at h1
        have h3 : 1 ≤ |g'| := Int.one_le_abs (by omega)
        have h4 : (2 : ℤ) ^ (m + 1) ≤ 2 ^ (k + 1) * |g'| := by
          calc (2 : ℤ) ^ (m + 1) ≤ 2 ^ (k + 1) := pow_le_pow_right₀ (by norm_num) (by omega)
            _ = 2 ^ (k + 1) * 1 := by ring
            _ ≤ 2 ^ (k + 1) * |g'| := mul_le_mul_of_nonneg_left h3 (by positivity)
        have h5 : 633 ^ m * (285 * (2 : ℤ) ^ (m + 1)) ≤ ((569 : ℕ) : ℤ) * 1024 ^ m :=
          le_trans (mul_le_mul_of_nonneg_left (mul_le_mul_of_nonneg_left h4 (by norm_num))
            (by positivity)) h1
        have h6 : 633 ^ m * (285 * (2 : ℤ) ^ (m + 1)) = 570 * 1266 ^ m := by
          have : (1266 : ℤ) ^ m = 633 ^ m * 2 ^ m := by rw [← mul_pow]; norm_num
          rw [this, pow_succ]; ring
        rw [h6] at h5
        have h7 : (1024 : ℤ) ^ m ≤ 1266 ^ m := pow_le_pow_left₀ (by norm_num) (by norm_num) m
        have h8 : (0 : ℤ) < 1024 ^ m := by positivity
        push_cast at h5
        linarith

theorem ball_rate {m d : ℕ} (h : 49 * (d + 2) ≤ 34 * m) : 2 ^ (d + 2) * 633 ^ m ≤ 1024 ^ m := by
  have h1 : (2 ^ (d + 2) * 633 ^ m) ^ 49 ≤ (1024 ^ m) ^ 49 := by
    calc (2 ^ (d + 2) * 633 ^ m) ^ 49 = 2 ^ (49 * (d + 2)) * (633 ^ 49) ^ m := by
          rw [mul_pow, ← pow_mul, ← pow_mul, ← pow_mul]
          ring_nf
      _ ≤ 2 ^ (34 * m) * (633 ^ 49) ^ m :=
          Nat.mul_le_mul_right _ (Nat.pow_le_pow_right (by norm_num) h)
      _ = (2 ^ 34 * 633 ^ 49) ^ m := by rw [mul_pow, ← pow_mul, ← pow_mul]
      _ ≤ (1024 ^ 49) ^ m := Nat.pow_le_pow_left (by norm_num) m
      _ = (1024 ^ m) ^ 49 := by rw [← pow_mul, ← pow_mul]; ring_nf
  exact (Nat.pow_le_pow_iff_left (by norm_num)).1 h1

/-- The bound on the number of steps. -/
theorem divstep_bound {m d : ℕ} {f g : ℤ} (hf : f % 2 = 1) (hfd : |f| ≤ 2 ^ d) (hgd : |g| ≤ 2 ^ d)
    (h : 49 * (d + 2) ≤ 34 * m) : (divstep^[2 * m] (1, f, g)).2.2 = 0 := by
  refine divstep_terminates m f g hf ?_
  have hr : (2 : ℤ) ^ (d + 2) * 633 ^ m ≤ 1024 ^ m := by exact_mod_cast ball_rate h
  have hmax : ∀ p ∈ ballForms, |p.1| + 2 * |p.2| ≤ 923 := by decide
  intro p hp
  have h1 : |p.1 * f + p.2 * (2 * g)| ≤ 923 * 2 ^ d := by
    calc |p.1 * f + p.2 * (2 * g)| ≤ |p.1 * f| + |p.2 * (2 * g)| := abs_add_le _ _
      _ = |p.1| * |f| + 2 * |p.2| * |g| := by
          rw [abs_mul, abs_mul, abs_mul, abs_of_nonneg (by norm_num : (0 : ℤ) ≤ 2)]; ring
      _ ≤ |p.1| * 2 ^ d + 2 * |p.2| * 2 ^ d :=
          add_le_add (mul_le_mul_of_nonneg_left hfd (abs_nonneg _))
            (mul_le_mul_of_nonneg_left hgd (by positivity))
      _ = (|p.1| + 2 * |p.2|) * 2 ^ d := by ring
      _ ≤ 923 * 2 ^ d := mul_le_mul_of_nonneg_right (hmax p hp) (by positivity)
  have h2 : (0 : ℤ) < 2 ^ d * 633 ^ m := by positivity
  calc 633 ^ m * |p.1 * f + p.2 * (2 * g)| ≤ 633 ^ m * (923 * 2 ^ d) :=
        mul_le_mul_of_nonneg_left h1 (by positivity)
    _ ≤ 569 * (2 ^ (d + 2) * 633 ^ m) := by rw [pow_add]; linarith
    _ ≤ 569 * 1024 ^ m := by linarith

/-! ### Invariants -/

theorem divstep_odd {δ f g : ℤ} (hf : f % 2 = 1) : (divstep (δ, f, g)).2.1 % 2 = 1 := by
  by_cases h : 0 < δ ∧ g % 2 = 1
  · rw [divstep_swap h.1 h.2]; exact h.2
  · rw [divstep_keep (by omega)]; exact hf

theorem divstep_iter_odd (n : ℕ) (s : ℤ × ℤ × ℤ) (hf : s.2.1 % 2 = 1) :
    (divstep^[n] s).2.1 % 2 = 1 := by
  induction n with
  | zero => exact hf
  | succ n ih => rw [Function.iterate_succ_apply']; exact divstep_odd ih

theorem divstep_gcd {δ f g : ℤ} (hf : f % 2 = 1) :
    Int.gcd (divstep (δ, f, g)).2.1 (divstep (δ, f, g)).2.2 = Int.gcd f g := by
  have half : ∀ a b : ℤ, a % 2 = 1 → Int.gcd a (2 * b) = Int.gcd a b := by
    intro a b ha
    have hc : Nat.Coprime 2 a.natAbs := by
      rw [Nat.coprime_two_left, Nat.odd_iff]
      omega
    rw [Int.gcd, Int.gcd, Int.natAbs_mul]
    exact hc.gcd_mul_left_cancel_right _
  by_cases h : 0 < δ ∧ g % 2 = 1
  · rw [divstep_swap h.1 h.2]
    dsimp only
    have hd : 2 * ((g - f) / 2) = g - f := by omega
    rw [← half g _ h.2, hd, Int.gcd_comm f g]
    simp
  · rw [divstep_keep (by omega)]
    dsimp only
    have hd : 2 * ((g + g % 2 * f) / 2) = g + g % 2 * f := by
      rcases Int.emod_two_eq_zero_or_one g with h | h <;> rw [h] <;> omega
    rw [← half f _ hf, hd]
    simp

theorem divstep_iter_gcd (n : ℕ) (s : ℤ × ℤ × ℤ) (hf : s.2.1 % 2 = 1) :
    Int.gcd (divstep^[n] s).2.1 (divstep^[n] s).2.2 = Int.gcd s.2.1 s.2.2 := by
  induction n with
  | zero => rfl
  | succ n ih =>
    rw [Function.iterate_succ_apply', ← ih]
    exact divstep_gcd (divstep_iter_odd n s hf)

theorem divstep_abs {δ f g K : ℤ} (h1 : |f| ≤ K) (h2 : |g| ≤ K) :
    |(divstep (δ, f, g)).2.1| ≤ K ∧ |(divstep (δ, f, g)).2.2| ≤ K := by
  rw [abs_le] at h1 h2
  by_cases h : 0 < δ ∧ g % 2 = 1
  · rw [divstep_swap h.1 h.2]
    dsimp only
    rw [abs_le, abs_le]
    omega
  · rw [divstep_keep (by omega)]
    dsimp only
    rw [abs_le, abs_le]
    rcases Int.emod_two_eq_zero_or_one g with h | h <;> rw [h] <;> omega

theorem divstep_iter_abs (n : ℕ) (s : ℤ × ℤ × ℤ) {K : ℤ} (h1 : |s.2.1| ≤ K) (h2 : |s.2.2| ≤ K) :
    |(divstep^[n] s).2.1| ≤ K ∧ |(divstep^[n] s).2.2| ≤ K := by
  induction n with
  | zero => exact ⟨h1, h2⟩
  | succ n ih => rw [Function.iterate_succ_apply']; exact divstep_abs ih.1 ih.2

/-! ### Transition matrices -/

/-- Numbers `(δ, f, g)` reached by a run of `i` division steps, and the matrix of the run: if it started from
`f₀` and `g₀`, then `2 ^ s * f = a * f₀ + b * g₀` and `2 ^ i * g = c * f₀ + d * g₀`. -/
structure DivSteps where
  t : ℤ × ℤ × ℤ
  a : ℤ
  b : ℤ
  c : ℤ
  d : ℤ
  s : ℕ

/-- Step number `i` of a run. -/
def DivSteps.next (i : ℕ) : DivSteps → DivSteps
  | ⟨(δ, f, g), a, b, c, d, s⟩ =>
    if 0 < δ ∧ g % 2 = 1 then
      ⟨divstep (δ, f, g), c, d, c - a * 2 ^ (i - s), d - b * 2 ^ (i - s), i⟩
    else
      ⟨divstep (δ, f, g), a, b, c + g % 2 * a * 2 ^ (i - s), d + g % 2 * b * 2 ^ (i - s), s⟩

/-- A run from `t`. -/
def divsteps (t : ℤ × ℤ × ℤ) : ℕ → DivSteps
  | 0 => ⟨t, 1, 0, 0, 1, 0⟩
  | i + 1 => (divsteps t i).next i

theorem DivSteps.next_t (i : ℕ) (x : DivSteps) : (x.next i).t = divstep x.t := by
  obtain ⟨⟨δ, f, g⟩, a, b, c, d, s⟩ := x
  unfold DivSteps.next
  dsimp only
  split <;> rfl

theorem divsteps_t (t : ℤ × ℤ × ℤ) (i : ℕ) : (divsteps t i).t = divstep^[i] t := by
  induction i with
  | zero => rfl
  | succ i ih => rw [divsteps, DivSteps.next_t, ih, Function.iterate_succ_apply']

theorem DivSteps.next_swap {i s : ℕ} {δ f g a b c d : ℤ} (hδ : 0 < δ) (hg : g % 2 = 1) :
    DivSteps.next i ⟨(δ, f, g), a, b, c, d, s⟩ = ⟨(1 - δ, g, (g - f) / 2), c, d,
      c + -a * 2 ^ (i - s), d + -b * 2 ^ (i - s), i⟩ := by
  unfold DivSteps.next
  dsimp only
  rw [if_pos ⟨hδ, hg⟩, divstep_swap hδ hg, neg_mul, neg_mul, ← sub_eq_add_neg, ← sub_eq_add_neg]

theorem DivSteps.next_keep {i s : ℕ} {δ f g a b c d : ℤ} (h : δ ≤ 0 ∨ g % 2 = 0) :
    DivSteps.next i ⟨(δ, f, g), a, b, c, d, s⟩ = ⟨(1 + δ, f, (g + g % 2 * f) / 2), a, b,
      c + (if decide (g % 2 = 1) then a else 0) * 2 ^ (i - s),
      d + (if decide (g % 2 = 1) then b else 0) * 2 ^ (i - s), s⟩ := by
  unfold DivSteps.next
  dsimp only
  rw [if_neg (by omega), divstep_keep h]
  rcases Int.emod_two_eq_zero_or_one g with h0 | h0 <;> rw [h0] <;> simp

end Cmpa
