import Verif.Proofs.MillerRabin
import Mathlib.NumberTheory.LucasPrimality
import Mathlib.Tactic.NormNum.Prime

/-!
# Strong probable primes

The criterion, its relation to the loop of the Miller–Rabin test, and that primes meet it.
-/

namespace Cmpa

/-- Specification: `n` is a strong probable prime to the base `a`.  With `n - 1 = 2 ^ s * d`, `d` odd, either
`a ^ d` is one modulo `n`, or one of `a ^ d`, `a ^ (2 * d)`, …, `a ^ (2 ^ (s - 1) * d)` is minus one. -/
def StrongProbablePrime (n a : ℕ) : Prop :=
  ∃ s d, n - 1 = 2 ^ s * d ∧ d % 2 = 1 ∧
    (a ^ d ≡ 1 [MOD n] ∨ ∃ r, r < s ∧ a ^ (2 ^ r * d) + 1 ≡ 0 [MOD n])

theorem isTz_of_eq {v s d : ℕ} (h : v = 2 ^ s * d) (hd : d % 2 = 1) : IsTz 0 v s := by
  refine Or.inr ⟨?_, ⟨d, h⟩, ?_⟩
  · rw [h]
    have : 0 < 2 ^ s := by positivity
    have h1 : 0 < d := by omega
    exact (Nat.mul_pos this h1).ne'
  · rintro ⟨k, hk⟩
    rw [h, pow_succ, mul_assoc] at hk
    have := Nat.eq_of_mul_eq_mul_left (by positivity) hk
    omega

theorem exists_tz {v : ℕ} (hv : v ≠ 0) : ∃ s d, v = 2 ^ s * d ∧ d % 2 = 1 := by
  obtain ⟨s, d, hd, h⟩ := Nat.exists_eq_two_pow_mul_odd hv
  exact ⟨s, d, h, Nat.odd_iff.1 hd⟩

theorem div_two_pow {P s d t : ℕ} (h : P - 1 = 2 ^ s * d) (hP : 1 ≤ P) (h1 : 1 ≤ t) (h2 : t ≤ s) :
    P / 2 ^ t = 2 ^ (s - t) * d := by
  obtain ⟨k, rfl⟩ := Nat.exists_eq_add_of_le h2
  rw [show P = 2 ^ t * (2 ^ k * d) + 1 by rw [← mul_assoc, ← pow_add]; omega,
    Nat.add_sub_cancel_left, Nat.mul_add_div (by positivity),
    Nat.div_eq_of_lt (Nat.one_lt_two_pow (by omega)), Nat.add_zero]

theorem mrCond_iff [LimbCfg] {P x s : ℕ} (hP : 1 < P) (hodd : P % 2 = 1) (hs : IsTz 0 (P - 1) s) :
    (∃ t, 1 ≤ t ∧ MrCond P x s t) ↔ StrongProbablePrime P x := by
  obtain ⟨s', d, hd, hd1⟩ := exists_tz (v := P - 1) (by omega)
  have hss := IsTz.unique hs (isTz_of_eq hd hd1)
  subst hss
  have hs0 : 1 ≤ s := by
    by_contra hc
    rw [show s = 0 by omega, pow_zero, one_mul] at hd
    omega
  constructor
  · rintro ⟨t, ht1, ⟨rfl, h⟩ | ⟨hts, h⟩⟩
    · refine ⟨t, d, hd, hd1, Or.inl ?_⟩
      rwa [div_two_pow hd hP.le ht1 le_rfl, Nat.sub_self, pow_zero, one_mul] at h
    · refine ⟨s, d, hd, hd1, Or.inr ⟨s - t, by omega, ?_⟩⟩
      rwa [div_two_pow hd hP.le ht1 hts] at h
  · rintro ⟨s', d', hd', hd1', h⟩
    have hss := IsTz.unique hs (isTz_of_eq hd' hd1')
    subst hss
    rcases h with h | ⟨r, hr, h⟩
    · refine ⟨s, hs0, Or.inl ⟨rfl, ?_⟩⟩
      rwa [div_two_pow hd' hP.le hs0 le_rfl, Nat.sub_self, pow_zero, one_mul]
    · refine ⟨s - r, by omega, Or.inr ⟨by omega, ?_⟩⟩
      rw [div_two_pow hd' hP.le (by omega) (by omega), show s - (s - r) = r by omega]
      exact h

/-- An odd prime is a strong probable prime to any base it does not divide. -/
theorem strongProbablePrime_of_prime {p a : ℕ} (hp : p.Prime) (hodd : p % 2 = 1) (ha : ¬ p ∣ a) :
    StrongProbablePrime p a := by
  have : Fact p.Prime := ⟨hp⟩
  obtain ⟨s, d, hd, hd1⟩ := exists_tz (v := p - 1) (by have := hp.two_le; omega)
  have ha' : (a : ZMod p) ≠ 0 := fun h => ha ((ZMod.natCast_eq_zero_iff a p).1 h)
  have hone := ZMod.pow_card_sub_one_eq_one ha'
  have key : ∀ k, (a : ZMod p) ^ (2 ^ k * d) = 1 →
      (a : ZMod p) ^ d = 1 ∨ ∃ r, r < k ∧ (a : ZMod p) ^ (2 ^ r * d) = -1 := by
    intro k
    induction k with
    | zero => intro h; rw [pow_zero, one_mul] at h; exact Or.inl h
    | succ k ih =>
      intro h
      rw [pow_succ', mul_assoc, mul_comm 2, pow_mul, sq, mul_self_eq_one_iff] at h
      rcases h with h | h
      · rcases ih h with h | ⟨r, hr, h⟩
        · exact Or.inl h
        · exact Or.inr ⟨r, by omega, h⟩
      · exact Or.inr ⟨k, by omega, h⟩
  refine ⟨s, d, hd, hd1, ?_⟩
  rcases key s (by rw [← hd]; exact hone) with h | ⟨r, hr, h⟩
  · refine Or.inl ((ZMod.natCast_eq_natCast_iff _ _ _).1 ?_)
    push_cast
    exact h
  · refine Or.inr ⟨r, hr, (ZMod.natCast_eq_natCast_iff _ _ _).1 ?_⟩
    push_cast
    rw [h]; ring

/-! ### A prime of two 32 bit limbs -/

/-- `a ^ e` modulo `m`, for `e < 2 ^ fuel`. -/
def powMod : ℕ → ℕ → ℕ → ℕ → ℕ
  | 0, _, _, m => 1 % m
  | f + 1, a, e, m =>
    if e % 2 = 1 then powMod f (a * a % m) (e / 2) m * a % m else powMod f (a * a % m) (e / 2) m

theorem powMod_eq (m : ℕ) : ∀ f a e, e < 2 ^ f → powMod f a e m = a ^ e % m
  | 0, a, e, h => by
    rw [pow_zero, Nat.lt_one_iff] at h
    rw [h, pow_zero, powMod]
  | f + 1, a, e, h => by
    have ih := powMod_eq m f (a * a % m) (e / 2) (by rw [pow_succ] at h; omega)
    rw [← Nat.pow_mod, ← sq, ← pow_mul] at ih
    rw [powMod, ← sq, ih]
    split
    · next h1 =>
      rw [Nat.mod_mul_mod, ← pow_succ, show 2 * (e / 2) + 1 = e by omega]
    · next h1 => rw [show 2 * (e / 2) = e by omega]

/-- The second largest prime below `2 ^ 64`. -/
theorem prime_64 : Nat.Prime 18446744073709551533 := by
  have hpw : ∀ e, e < 2 ^ 64 → ((2 : ℕ) : ZMod 18446744073709551533) ^ e =
      (powMod 64 2 e 18446744073709551533 : ℕ) := by
    intro e he
    rw [powMod_eq _ _ _ _ he, ZMod.natCast_mod, Nat.cast_pow]
  refine lucas_primality _ ((2 : ℕ) : ZMod 18446744073709551533) ?_ ?_
  · rw [hpw _ (by norm_num),
      show powMod 64 2 (18446744073709551533 - 1) 18446744073709551533 = 1 by decide +kernel, Nat.cast_one]
  · intro q hq hd hone
    rw [show 18446744073709551533 - 1 = 2 * 2 * 43 * 67 * 193 * 809383 * 10247197 by norm_num] at hd
    have h : q = 2 ∨ q = 43 ∨ q = 67 ∨ q = 193 ∨ q = 809383 ∨ q = 10247197 := by
      simp only [hq.dvd_mul] at hd
      rcases hd with (((((h | h) | h) | h) | h) | h) | h
      · exact Or.inl ((Nat.prime_dvd_prime_iff_eq hq Nat.prime_two).1 h)
      · exact Or.inl ((Nat.prime_dvd_prime_iff_eq hq Nat.prime_two).1 h)
      · exact Or.inr (Or.inl ((Nat.prime_dvd_prime_iff_eq hq (by norm_num)).1 h))
      · exact Or.inr (Or.inr (Or.inl ((Nat.prime_dvd_prime_iff_eq hq (by norm_num)).1 h)))
      · exact Or.inr (Or.inr (Or.inr (Or.inl ((Nat.prime_dvd_prime_iff_eq hq (by norm_num)).1 h))))
      · exact Or.inr (Or.inr (Or.inr (Or.inr (Or.inl
          ((Nat.prime_dvd_prime_iff_eq hq (by norm_num)).1 h)))))
      · exact Or.inr (Or.inr (Or.inr (Or.inr (Or.inr
          ((Nat.prime_dvd_prime_iff_eq hq (by norm_num)).1 h)))))
    have hlt : (18446744073709551533 - 1) / q < 2 ^ 64 :=
      lt_of_le_of_lt (Nat.div_le_self _ _) (by norm_num)
    rw [hpw _ hlt] at hone
    have hone := (ZMod.natCast_eq_natCast_iff _ 1 _).1 (hone.trans Nat.cast_one.symm)
    have hall : ∀ q ∈ [2, 43, 67, 193, 809383, 10247197],
        ¬ powMod 64 2 ((18446744073709551533 - 1) / q) 18446744073709551533 % 18446744073709551533
          = 1 % 18446744073709551533 := by decide +kernel
    refine hall q ?_ hone
    simpa using h

end Cmpa
