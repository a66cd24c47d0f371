import Verif.Proofs.SmallFactor
import Verif.Proofs.StrongPrime
import Verif.Props.Montgomery

/-!
# Primality tests (C34, C35)

Primality is Mathlib's `Nat.Prime`; `StrongProbablePrime n a` is the textbook criterion of the Miller–Rabin
test, defined in `Verif.Proofs.StrongPrime`.  `radix p` is the Montgomery radix of `p`, see
`Verif.Props.Montgomery`.  Answers are given as `LimbChoice`s: `.ofBool true` is "yes".
-/

namespace Cmpa
namespace Props
open M
variable [LimbCfg] {φ ψ χ : Fmt}

/-! ## C34 -/

/-- C34: the test answers exactly according to the strong probable prime criterion.
Missing: candidates outside the domain of the Montgomery multiplication (C26), where primes may be
rejected or the function may panic, candidates equal to one, where it panics, and radix buffers of fewer limbs than
the candidate, where it may panic. -/
theorem C34_miller_rabin_partial (mg_base : Buf χ) (p : Buf φ) (mg_radix : Buf ψ)
    (scratch0 scratch1 : Buf .ne) (a : ℕ) (hp : 1 < p.toNat) (hodd : p.toNat % 2 = 1)
    (hbase : mg_base.toNat = a * radix p % p.toNat) (hbl : LenCompat mg_base p.len)
    (hbne : mg_base.len ≠ 0) (hrad : mg_radix.toNat = radix p % p.toNat)
    (hrl : LenCompat mg_radix p.len) (hrn : p.nlimbs ≤ mg_radix.nlimbs)
    (hs0 : p.nlimbs ≤ scratch0.nlimbs) (hs1 : p.nlimbs ≤ scratch1.nlimbs)
    (hhigh : (B + 1) * p.toNat ≤ B ^ (p.nlimbs + 1))
    (halign : LB ∣ p.len ∨ 257 * p.toNat ≤ 256 ^ (p.len + 1)) :
    Sat (ct_prime_test_miller_rabin_mp mg_base p mg_radix scratch0 scratch1)
      (fun r => ∃ c : Bool, r = .ok (.ofBool c) ∧
        (c = true ↔ StrongProbablePrime p.toNat a)) := by
  classical
  obtain ⟨s, d, h1, h2⟩ := exists_tz (v := p.toNat - 1) (by omega)
  have hs := isTz_of_eq h1 h2
  have hpos : 0 < p.toNat := by omega
  have hb : mg_base.toNat < p.toNat := by rw [hbase]; exact Nat.mod_lt _ hpos
  have hr : mg_radix.toNat < p.toNat := by rw [hrad]; exact Nat.mod_lt _ hpos
  refine (ok_of_outcome (ct_prime_test_miller_rabin_mp_sat mg_base p mg_radix scratch0 scratch1
    (x := a) (s := s) hb hr (decide (StrongProbablePrime p.toNat a)) fun _ =>
    ⟨hp, hhigh, halign, hbne, ?_, hrn, ?_, hs, ?_⟩) ?_).mono ?_
  · rw [hbase]; exact Nat.mod_modEq _ _
  · rw [hrad]; exact Nat.mod_modEq _ _
  · rw [decide_eq_true_iff, mrCond_iff hp hodd hs]
  · simp [mrErr, hodd, hbl, hrl, Nat.not_lt.2 hs0, Nat.not_lt.2 hs1]
  · rintro r ⟨x, hx, rfl⟩
    exact ⟨_, hx, decide_eq_true_iff⟩

/-- C34: an odd prime is never rejected, for any base which is not a multiple of it.  Missing: as
for `C34_miller_rabin_partial`. -/
theorem C34_prime_partial (mg_base : Buf χ) (p : Buf φ) (mg_radix : Buf ψ)
    (scratch0 scratch1 : Buf .ne) (a : ℕ) (hp : p.toNat.Prime) (hodd : p.toNat ≠ 2)
    (ha : ¬ p.toNat ∣ a)
    (hbase : mg_base.toNat = a * radix p % p.toNat) (hbl : LenCompat mg_base p.len)
    (hrad : mg_radix.toNat = radix p % p.toNat)
    (hrl : LenCompat mg_radix p.len) (hrn : p.nlimbs ≤ mg_radix.nlimbs)
    (hs0 : p.nlimbs ≤ scratch0.nlimbs) (hs1 : p.nlimbs ≤ scratch1.nlimbs)
    (hhigh : (B + 1) * p.toNat ≤ B ^ (p.nlimbs + 1))
    (halign : LB ∣ p.len ∨ 257 * p.toNat ≤ 256 ^ (p.len + 1)) :
    Sat (ct_prime_test_miller_rabin_mp mg_base p mg_radix scratch0 scratch1)
      (fun r => r = .ok (.ofBool true)) := by
  have hodd' : p.toNat % 2 = 1 := by
    rcases hp.eq_two_or_odd with h | h
    · exact absurd h hodd
    · exact h
  have hbne : mg_base.len ≠ 0 := by
    intro h
    have h1 := mg_base.toNat_lt
    rw [h, pow_zero, Nat.lt_one_iff, hbase] at h1
    have h2 := Nat.dvd_of_mod_eq_zero h1
    have h3 : Nat.Coprime p.toNat (radix p) := coprime_radix (by omega) _
    exact ha (h3.dvd_of_dvd_mul_right h2)
  refine (C34_miller_rabin_partial mg_base p mg_radix scratch0 scratch1 a hp.one_lt hodd' hbase hbl
    hbne hrad hrl hrn hs0 hs1 hhigh halign).mono ?_
  rintro r ⟨c, rfl, hc⟩
  rw [hc.2 (strongProbablePrime_of_prime hp hodd' ha)]

/-- C34: the errors. -/
theorem C34_error (mg_base : Buf χ) (p : Buf φ) (mg_radix : Buf ψ)
    (scratch0 scratch1 : Buf .ne) (hb : mg_base.toNat < p.toNat) (hr : mg_radix.toNat < p.toNat)
    (h : p.toNat % 2 = 0 ∨ ¬ LenCompat mg_base p.len ∨ ¬ LenCompat mg_radix p.len ∨
      scratch0.nlimbs < p.nlimbs ∨ scratch1.nlimbs < p.nlimbs) :
    Sat (ct_prime_test_miller_rabin_mp mg_base p mg_radix scratch0 scratch1)
      (fun r => r = .error (
        if p.toNat % 2 = 0 then .InvalidCandidate
        else if ¬ LenCompat mg_base p.len then .InconsistentBaseLength
        else if ¬ LenCompat mg_radix p.len then .InconsistentMgRadixModPLength
        else .InsufficientScratchSpace)) := by
  have he : mrErr mg_base p mg_radix scratch0 scratch1 = some (
        if p.toNat % 2 = 0 then .InvalidCandidate
        else if ¬ LenCompat mg_base p.len then .InconsistentBaseLength
        else if ¬ LenCompat mg_radix p.len then .InconsistentMgRadixModPLength
        else .InsufficientScratchSpace) := by
    unfold mrErr
    by_cases h1 : p.toNat % 2 = 0
    · rw [if_pos h1, if_pos h1]
    rw [if_neg h1, if_neg h1]
    by_cases h2 : LenCompat mg_base p.len
    · rw [if_neg (not_not.2 h2), if_neg (not_not.2 h2)]
      by_cases h3 : LenCompat mg_radix p.len
      · rw [if_neg (not_not.2 h3), if_neg (not_not.2 h3), if_pos]
        rcases h with h | h | h | h
        · exact absurd h h1
        · exact absurd h2 h
        · exact absurd h3 h
        · exact h
      · rw [if_pos h3, if_pos h3]
    · rw [if_pos h2, if_pos h2]
  exact err_of_outcome (ct_prime_test_miller_rabin_mp_sat mg_base p mg_radix scratch0 scratch1
    (x := 0) (s := 0) hb hr false (fun h0 => by rw [he] at h0; cases h0)) he

omit [LimbCfg] in
/-- C34 doesn't hold as stated: with 32 bit limbs the prime `2 ^ 64 - 83` is reported composite for a base
below it. -/
theorem C34_prime_rejected_fails : ∃ (c : LimbCfg) (mg_base p mg_radix : @Buf c .be)
    (scratch0 scratch1 : @Buf c .ne) (a : ℕ),
    (@Buf.toNat c .be p).Prime ∧ 0 < a ∧ a < @Buf.toNat c .be p ∧
    @Buf.toNat c .be mg_base = a * @radix c .be p % @Buf.toNat c .be p ∧
    @Buf.toNat c .be mg_radix = @radix c .be p % @Buf.toNat c .be p ∧
    @Buf.len c .be p = 8 ∧ @Buf.len c .be mg_base = 8 ∧ @Buf.len c .be mg_radix = 8 ∧
    @Buf.len c .ne scratch0 = 8 ∧ @Buf.len c .ne scratch1 = 8 ∧
    (@ct_prime_test_miller_rabin_mp c .be .be .be mg_base p mg_radix scratch0 scratch1).val.map
      (fun r => r.toOption.map (fun x => @LimbChoice.unwrap x)) = some (some 0) :=
  ⟨cfg32, @Buf.ofNat cfg32 .be 8 18446744073709551532, @Buf.ofNat cfg32 .be 8 18446744073709551533,
    @Buf.ofNat cfg32 .be 8 83, @Buf.ofNat cfg32 .ne 8 0, @Buf.ofNat cfg32 .ne 8 0,
    18446744073709551532 * 11779246215742243750 % 18446744073709551533,
    by
      rw [show @Buf.toNat cfg32 .be (@Buf.ofNat cfg32 .be 8 18446744073709551533)
        = 18446744073709551533 by decide +kernel]
      exact prime_64,
    by decide +kernel, by decide +kernel, by decide +kernel, by decide +kernel, by decide +kernel,
    by decide +kernel, by decide +kernel, by decide +kernel, by decide +kernel, by decide +kernel⟩

omit [LimbCfg] in
/-- C34 doesn't hold as stated: with 32 bit limbs the prime `2 ^ 24 - 3`, of three bytes, panics for the base
four. -/
theorem C34_align_fails : ∃ (c : LimbCfg) (mg_base p mg_radix : @Buf c .be)
    (scratch0 scratch1 : @Buf c .ne),
    (@Buf.toNat c .be p).Prime ∧
    @Buf.toNat c .be mg_base = 4 * @radix c .be p % @Buf.toNat c .be p ∧
    @Buf.toNat c .be mg_radix = @radix c .be p % @Buf.toNat c .be p ∧
    @Buf.len c .be p = 3 ∧ @Buf.len c .be mg_base = 3 ∧ @Buf.len c .be mg_radix = 3 ∧
    @Buf.len c .ne scratch0 = 4 ∧ @Buf.len c .ne scratch1 = 4 ∧
    (@ct_prime_test_miller_rabin_mp c .be .be .be mg_base p mg_radix scratch0 scratch1).val.isNone
      = true :=
  ⟨cfg32, @Buf.ofNat cfg32 .be 3 (4 * 2 ^ 32 % 16777213), @Buf.ofNat cfg32 .be 3 16777213,
    @Buf.ofNat cfg32 .be 3 (2 ^ 32 % 16777213), @Buf.ofNat cfg32 .ne 4 0, @Buf.ofNat cfg32 .ne 4 0,
    by
      rw [show @Buf.toNat cfg32 .be (@Buf.ofNat cfg32 .be 3 16777213) = 16777213 by decide +kernel]
      norm_num,
    by decide +kernel, by decide +kernel, by decide +kernel,
    by decide +kernel, by decide +kernel, by decide +kernel, by decide +kernel, by decide +kernel⟩

omit [LimbCfg] in
/-- C34 doesn't hold as stated: a buffer in limbs for the radix modulo the candidate, of fewer limbs than
the candidate, which is not refused, panics. -/
theorem C34_short_radix_fails : ∃ (c : LimbCfg) (mg_base p : @Buf c .be)
    (mg_radix : @Buf c .ne)(scratch0 scratch1 : @Buf c .ne),
    @Buf.toNat c .be p = 2 ^ 64 + 13 ∧
    @Buf.toNat c .be mg_base = 2 * @radix c .be p % @Buf.toNat c .be p ∧
    @Buf.toNat c .ne mg_radix = @radix c .be p % @Buf.toNat c .be p ∧
    @LenCompat c .ne mg_radix (@Buf.len c .be p) ∧
    @Buf.len c .be p = 16 ∧ @Buf.len c .be mg_base = 16 ∧ @Buf.len c .ne mg_radix = 8 ∧
    @Buf.len c .ne scratch0 = 16 ∧ @Buf.len c .ne scratch1 = 16 ∧
    (@ct_prime_test_miller_rabin_mp c .be .ne .be mg_base p mg_radix scratch0 scratch1).val.isNone
      = true :=
  ⟨cfg64, @Buf.ofNat cfg64 .be 16 338, @Buf.ofNat cfg64 .be 16 (2 ^ 64 + 13),
    @Buf.ofNat cfg64 .ne 8 169, @Buf.ofNat cfg64 .ne 16 0, @Buf.ofNat cfg64 .ne 16 0,
    by decide +kernel, by decide +kernel, by decide +kernel, by decide +kernel, by decide +kernel,
    by decide +kernel, by decide +kernel, by decide +kernel, by decide +kernel, by decide +kernel⟩

omit [LimbCfg] in
/-- The candidate one, which is odd, panics in a debug build. -/
theorem C34_one_fails : ∃ (c : LimbCfg) (mg_base p mg_radix : @Buf c .be)
    (scratch0 scratch1 : @Buf c .ne),
    @Buf.toNat c .be p = 1 ∧ @Buf.toNat c .be mg_base = 0 ∧ @Buf.toNat c .be mg_radix = 0 ∧
    @Buf.len c .be p = 8 ∧ @Buf.len c .be mg_base = 8 ∧ @Buf.len c .be mg_radix = 8 ∧
    @Buf.len c .ne scratch0 = 8 ∧ @Buf.len c .ne scratch1 = 8 ∧
    (@ct_prime_test_miller_rabin_mp c .be .be .be mg_base p mg_radix scratch0 scratch1).val.isNone
      = true :=
  ⟨cfg64, @Buf.ofNat cfg64 .be 8 0, @Buf.ofNat cfg64 .be 8 1, @Buf.ofNat cfg64 .be 8 0,
    @Buf.ofNat cfg64 .ne 8 0, @Buf.ofNat cfg64 .ne 8 0,
    by decide +kernel, by decide +kernel, by decide +kernel, by decide +kernel,
    by decide +kernel, by decide +kernel, by decide +kernel, by decide +kernel, by decide +kernel⟩

-- The hypotheses can be met: a prime and a strong pseudoprime.
example : letI := cfg64;
    (ct_prime_test_miller_rabin_mp (Buf.ofNat .le 12 (2 * 2 ^ 128 % (2 ^ 89 - 1)))
      (Buf.ofNat .be 12 (2 ^ 89 - 1)) (Buf.ofNat .ne 16 (2 ^ 128 % (2 ^ 89 - 1)))
      (Buf.ofNat .ne 16 5) (Buf.ofNat .ne 24 7)).val.map
      (fun r => r.toOption.map LimbChoice.unwrap) = some (some 1) ∧
    LenCompat (Buf.ofNat .ne 16 (2 ^ 128 % (2 ^ 89 - 1))) 12 ∧
    (B + 1) * (2 ^ 89 - 1) ≤ B ^ 3 ∧ 257 * (2 ^ 89 - 1) ≤ 256 ^ 13 := by
  decide +kernel
example : letI := cfg32;
    (ct_prime_test_miller_rabin_mp (Buf.ofNat .be 4 (2 * 2 ^ 32 % 2047))
      (Buf.ofNat .be 4 2047) (Buf.ofNat .be 4 (2 ^ 32 % 2047))
      (Buf.ofNat .ne 4 5) (Buf.ofNat .ne 4 7)).val.map
      (fun r => r.toOption.map LimbChoice.unwrap) = some (some 1) ∧
    (ct_prime_test_miller_rabin_mp (Buf.ofNat .be 4 (3 * 2 ^ 32 % 2047))
      (Buf.ofNat .be 4 2047) (Buf.ofNat .be 4 (2 ^ 32 % 2047))
      (Buf.ofNat .ne 4 5) (Buf.ofNat .ne 4 7)).val.map
      (fun r => r.toOption.map LimbChoice.unwrap) = some (some 0) := by
  decide +kernel

/-! ## C35 -/

/-- Specification: the largest prime the test looks for, by the length of the candidate in bytes, rounded up
to limbs. -/
def largestTestedPrime (len : ℕ) : ℕ :=
  if 256 ≤ len then 1471 else if 128 ≤ len then 739 else if 64 ≤ len then 379
  else if 32 ≤ len then 193 else if 16 ≤ len then 101 else if 8 ≤ len then 53
  else 29

/-- C35: the answer is "composite" exactly for numbers, of whatever length and value, which are even or divisible
by one of the odd primes up to the bound for their length. -/
theorem C35_small_factor (p : Buf φ) (scratch0 scratch1 : Buf .ne)
    (hs0 : p.nlimbs ≤ scratch0.nlimbs) (hs1 : p.nlimbs ≤ scratch1.nlimbs) :
    Sat (ct_composite_test_small_prime_gcd_mp p scratch0 scratch1)
      (fun r => ∃ c : Bool, r = .ok (.ofBool c) ∧
        (c = true ↔ ∃ q, q.Prime ∧ q ≤ largestTestedPrime (p.nlimbs * LB) ∧ q ∣ p.toNat)) := by
  classical
  have key : ∀ q : ℕ, q.Prime → q ∣ p.toNat →
      (p.len = 0 ∨ ((q = 2 ∨ q ≤ smallPrimeBound (p.nlimbs * LB)) ↔
        q ≤ largestTestedPrime (p.nlimbs * LB))) := by
    intro q hq hd
    rcases Nat.eq_zero_or_pos p.len with h0 | h0
    · exact Or.inl h0
    right
    have hN : 0 < p.nlimbs := nlimbs_pos_iff.2 h0
    have hLB : 4 ≤ LB := by rcases LB_cases with h | h <;> omega
    have h4 : 4 ≤ p.nlimbs * LB := hLB.trans (Nat.le_mul_of_pos_left _ hN)
    have heq : smallPrimeBound (p.nlimbs * LB) = largestTestedPrime (p.nlimbs * LB) := by
      unfold smallPrimeBound largestTestedPrime
      rw [if_pos h4]
    have h2 : 2 ≤ largestTestedPrime (p.nlimbs * LB) := by
      unfold largestTestedPrime
      split_ifs <;> omega
    rw [heq]
    constructor
    · rintro (h | h)
      · rw [h]; exact h2
      · exact h
    · exact Or.inr
  refine (ok_of_outcome (ct_composite_test_small_prime_gcd_mp_sat p scratch0 scratch1
    (decide (∃ q, q.Prime ∧ q ≤ largestTestedPrime (p.nlimbs * LB) ∧ q ∣ p.toNat)) ?_) ?_).mono ?_
  · rw [decide_eq_true_iff]
    constructor
    · rintro ⟨q, h1, h2, h3⟩
      rcases key q h1 h3 with h | h
      · refine ⟨2, Nat.prime_two, Or.inl rfl, ?_⟩
        have h4 := p.toNat_lt
        rw [h, pow_zero, Nat.lt_one_iff] at h4
        rw [h4]; exact dvd_zero _
      · exact ⟨q, h1, h.2 h2, h3⟩
    · rintro ⟨q, h1, h2, h3⟩
      rcases key q h1 h3 with h | h
      · refine ⟨2, Nat.prime_two, ?_, ?_⟩
        · unfold largestTestedPrime
          split_ifs <;> omega
        · have h4 := p.toNat_lt
          rw [h, pow_zero, Nat.lt_one_iff] at h4
          rw [h4]; exact dvd_zero _
      · exact ⟨q, h1, h.1 h2, h3⟩
  · unfold compositeErr
    split
    · rfl
    · rw [if_neg (by omega)]
  · rintro r ⟨x, hx, rfl⟩
    exact ⟨_, hx, decide_eq_true_iff⟩

/-- C35: a prime is reported composite only if it is itself one of the small primes. -/
theorem C35_prime (p : Buf φ) (scratch0 scratch1 : Buf .ne)
    (hs0 : p.nlimbs ≤ scratch0.nlimbs) (hs1 : p.nlimbs ≤ scratch1.nlimbs) (hp : p.toNat.Prime) :
    Sat (ct_composite_test_small_prime_gcd_mp p scratch0 scratch1)
      (fun r => r = .ok (.ofBool (decide (p.toNat ≤ largestTestedPrime (p.nlimbs * LB))))) := by
  refine (C35_small_factor p scratch0 scratch1 hs0 hs1).mono ?_
  rintro r ⟨c, rfl, hc⟩
  congr 2
  rw [Bool.eq_iff_iff, hc, decide_eq_true_iff]
  constructor
  · rintro ⟨q, h1, h2, h3⟩
    rw [← (Nat.prime_dvd_prime_iff_eq h1 hp).1 h3]; exact h2
  · intro h
    exact ⟨p.toNat, hp, h, dvd_rfl⟩

/-- C35: insufficient scratch space is refused, unless the number is empty. -/
theorem C35_error (p : Buf φ) (scratch0 scratch1 : Buf .ne) (hl : p.len ≠ 0)
    (h : scratch0.nlimbs < p.nlimbs ∨ scratch1.nlimbs < p.nlimbs) :
    Sat (ct_composite_test_small_prime_gcd_mp p scratch0 scratch1)
      (fun r => r = .error .InsufficientScratchSpace) := by
  classical
  exact err_of_outcome (ct_composite_test_small_prime_gcd_mp_sat p scratch0 scratch1
    (decide _) decide_eq_true_iff) (by unfold compositeErr; rw [if_neg hl, if_pos h])

omit [LimbCfg] in
/-- C35: the built-in products, by length in bytes, are the products of all odd primes up to a bound. -/
theorem C35_products : SMALL_ODD_PRIME_PRODUCTS =
    [(1, 7), (2, 13), (4, 29), (8, 53), (16, 101), (32, 193), (64, 379), (128, 739),
      (256, 1471)].map (fun x => (x.1,
        ((List.range (x.2 + 1)).filter fun q => decide (q.Prime ∧ q ≠ 2)).prod)) := by
  have h : ∀ N, N < 1600 → (List.range (N + 1)).filter (fun q => decide (q.Prime ∧ q ≠ 2)) =
      oddPrimesUpTo N := by
    intro N hN
    unfold oddPrimesUpTo
    refine List.filter_congr fun q hq => ?_
    rw [Bool.eq_iff_iff, Bool.and_eq_true, decide_eq_true_iff, decide_eq_true_iff,
      smallPrime_iff (by have := List.mem_range.1 hq; omega), and_comm]
  rw [products_eq]
  simp only [List.map_cons, List.map_nil]
  rw [h 7 (by omega), h 13 (by omega), h 29 (by omega), h 53 (by omega), h 101 (by omega),
    h 193 (by omega), h 379 (by omega), h 739 (by omega), h 1471 (by omega)]

-- The hypotheses can be met: `59 * 61` has no factor up to 53, `53 * 59` has.
example : letI := cfg64;
    (ct_composite_test_small_prime_gcd_mp (Buf.ofNat .be 5 (59 * 61))
      (Buf.ofNat .ne 8 5) (Buf.ofNat .ne 16 7)).val.map
      (fun r => r.toOption.map LimbChoice.unwrap) = some (some 0) ∧
    (ct_composite_test_small_prime_gcd_mp (Buf.ofNat .be 5 (53 * 59))
      (Buf.ofNat .ne 8 5) (Buf.ofNat .ne 16 7)).val.map
      (fun r => r.toOption.map LimbChoice.unwrap) = some (some 1) := by
  decide +kernel
example : letI := cfg32;
    (ct_composite_test_small_prime_gcd_mp (Buf.ofNat .ne 4 (53 * 59))
      (Buf.ofNat .ne 8 5) (Buf.ofNat .ne 16 7)).val.map
      (fun r => r.toOption.map LimbChoice.unwrap) = some (some 0) ∧
    (ct_composite_test_small_prime_gcd_mp (Buf.ofNat .ne 4 (23 * 59))
      (Buf.ofNat .ne 8 5) (Buf.ofNat .ne 16 7)).val.map
      (fun r => r.toOption.map LimbChoice.unwrap) = some (some 1) := by
  decide +kernel

end Props
end Cmpa
