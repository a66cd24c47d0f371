import Mathlib.NumberTheory.Bertrand
import Verif.Props.Padded

/-!
# A search for primes ends (C53, C65)

By Bertrand's postulate (proved in Mathlib) there is a prime between a number and its double.  So a search
for primes succeeds whenever twice the lower bound fits into the buffer, and what it finds is at most twice the
lower bound.
-/

namespace Cmpa.Props
open M
variable [LimbCfg] {φ χ : Fmt}

omit [LimbCfg] in
theorem largestTestedPrime_le (len : ℕ) : largestTestedPrime len ≤ 1471 := by
  unfold largestTestedPrime
  repeat' split
  all_goals norm_num

theorem wheelPrimes_le : ∀ q ∈ wheelPrimes, q ≤ 47 := by
  unfold wheelPrimes; split <;> decide

/-- Between a number from 1471 on and its double there's one which passes the tests. -/
theorem exists_passes (nlimbs : ℕ) (bases : List ℕ) {x : ℕ} (hx : 1471 ≤ x) (hb : ∀ a ∈ bases, 0 < a ∧ a ≤ x) :
    ∃ Q, x < Q ∧ Q ≤ 2 * x ∧ Q.Prime ∧ Passes nlimbs bases Q := by
  obtain ⟨Q, hQ, h1, h2⟩ := Nat.exists_prime_lt_and_le_two_mul x (by omega)
  refine ⟨Q, h1, h2, hQ, Passes.of_prime hQ (fun h => ?_) ?_ fun a ha hd => ?_⟩
  · have := wheelPrimes_le Q h
    omega
  · have := largestTestedPrime_le (nlimbs * LB)
    omega
  · obtain ⟨h3, h4⟩ := hb a ha
    have := Nat.le_of_dvd h3 hd
    omega

/-- C53: a search from 1471 or more on, for bases up to the lower bound, succeeds, and finds a number at most twice the
lower bound, which is the least one to pass.

Missing: as for `C53_search_partial`. -/
theorem C53_succeeds_partial (lower : Buf φ) (one : Buf χ) (bases : List (Buf χ)) (s0 s1 : Buf .ne) (tries : ℕ)
    (hbufs : SearchBufs lower.len lower.nlimbs one bases s0 s1) (hl : 1471 ≤ lower.toNat)
    (hfit : 2 * lower.toNat < 256 ^ lower.len) (hb : ∀ a ∈ bases, 0 < a.toNat ∧ a.toNat ≤ lower.toNat)
    (hd : MrDomain lower.len lower.nlimbs (2 * lower.toNat)) (ht : lower.toNat < tries) :
    Sat (searchPrime lower one bases s0 s1 tries) (fun r => ∃ b, r = some b ∧ b.toNat ≤ 2 * lower.toNat ∧
      IsLeast {m | lower.toNat ≤ m ∧ Passes lower.nlimbs (bases.map Buf.toNat) m} b.toNat) := by
  obtain ⟨Q, h1, h2, -, h3⟩ := exists_passes lower.nlimbs (bases.map Buf.toNat) hl (by simpa using hb)
  refine (C53_search_partial lower one bases s0 s1 tries Q hbufs h1.le (by omega) h3 (hd.mono h2) (by omega)).mono ?_
  rintro r ⟨b, rfl, -, h4⟩
  exact ⟨b, rfl, (h4.2 ⟨h1.le, h3⟩).trans h2, h4⟩

/-- **C65**: with a limb to spare, every search from 1471 or more on, for bases up to the lower bound, succeeds if twice the
lower bound has the length of the lower bound.  No odd prime from the lower bound on is less than the number found, and
that number is at most twice the lower bound. -/
theorem C65_search_succeeds (lower : Buf .be) (bases : List (Buf .be)) (tries : ℕ)
    (hlen : ∀ a ∈ bases, a.len = lower.len) (hb : ∀ a ∈ bases, 0 < a.toNat ∧ a.toNat ≤ lower.toNat)
    (hl : 1471 ≤ lower.toNat) (hfit : 2 * lower.toNat < 256 ^ lower.len) (ht : lower.toNat < tries) :
    Sat (searchPadded lower bases tries) (fun r => ∃ b, r = some b ∧ lower.toNat ≤ b.toNat ∧
      b.toNat ≤ 2 * lower.toNat ∧ (∀ a ∈ bases, StrongProbablePrime b.toNat a.toNat) ∧
      ∀ q, q.Prime → lower.toNat < q → b.toNat ≤ q) := by
  have hb' : ∀ a ∈ bases.map Buf.toNat, 0 < a ∧ a ≤ lower.toNat := by simpa using hb
  obtain ⟨Q, h1, h2, -, h3⟩ := exists_passes (lower.nlimbs + 1) (bases.map Buf.toNat) hl hb'
  refine (C65_search lower bases tries Q hlen h1.le (by omega) h3 (by omega)).mono ?_
  rintro r ⟨b, rfl, -, h4⟩
  refine ⟨b, rfl, h4.1.1, (h4.2 ⟨h1.le, h3⟩).trans h2, by simpa using h4.1.2.strong, fun q hq hlq => ?_⟩
  refine h4.2 ⟨hlq.le, Passes.of_prime hq (fun h => ?_) ?_ fun a ha hd => ?_⟩
  · have := wheelPrimes_le q h
    omega
  · have := largestTestedPrime_le ((lower.nlimbs + 1) * LB)
    omega
  · obtain ⟨h5, h6⟩ := hb' a ha
    have := Nat.le_of_dvd h5 hd
    omega

/-- **C65**: if the bases tried include all numbers up to more than half of the lower bound, what is found is the least prime
at or above the lower bound. -/
theorem C65_next_prime (lower : Buf .be) (bases : List (Buf .be)) (tries K : ℕ)
    (hlen : ∀ a ∈ bases, a.len = lower.len) (hb : ∀ a ∈ bases, 0 < a.toNat ∧ a.toNat < lower.toNat)
    (hall : ∀ k, 0 < k → k ≤ K → ∃ a ∈ bases, a.toNat = k) (hK : lower.toNat < 2 * K)
    (hl : 1472 ≤ lower.toNat) (hfit : 2 * lower.toNat < 256 ^ lower.len) (ht : lower.toNat < tries) :
    Sat (searchPadded lower bases tries) (fun r => ∃ b, r = some b ∧
      IsLeast {q | q.Prime ∧ lower.toNat ≤ q} b.toNat) := by
  have hb' : ∀ a ∈ bases.map Buf.toNat, 0 < a ∧ a ≤ lower.toNat := by
    simpa using fun a ha => ⟨(hb a ha).1, (hb a ha).2.le⟩
  obtain ⟨Q, h1, h2, -, h3⟩ := exists_passes (lower.nlimbs + 1) (bases.map Buf.toNat) (by omega) hb'
  refine (C65_search lower bases tries Q hlen h1.le (by omega) h3 (by omega)).mono ?_
  rintro r ⟨b, rfl, -, h4⟩
  have hbQ := (h4.2 ⟨h1.le, h3⟩).trans h2
  have hlb := h4.1.1
  have h2w : (2 : ℕ) ∈ wheelPrimes := by unfold wheelPrimes; split <;> decide
  have hodd : b.toNat % 2 = 1 := by
    have := h4.1.2.wheel 2 h2w
    omega
  have hprime : b.toNat.Prime := by
    classical
    by_contra hc
    have h5 := Rabin.liars_le (by omega) hodd hc
    have h6 : Finset.Icc 1 (min K (b.toNat - 1)) ⊆ Rabin.liars b.toNat := by
      intro k hk
      obtain ⟨h7, h8⟩ := Finset.mem_Icc.1 hk
      obtain ⟨a, ha, rfl⟩ := hall k h7 (by omega)
      unfold Rabin.liars
      rw [Finset.mem_filter, Finset.mem_range]
      exact ⟨by omega, h4.1.2.strong _ (List.mem_map_of_mem ha)⟩
    have h9 := Finset.card_le_card h6
    rw [Nat.card_Icc] at h9
    omega
  refine ⟨b, rfl, ⟨hprime, hlb⟩, fun q hq => ?_⟩
  obtain ⟨hq, hlq⟩ := hq
  by_contra hlt
  refine absurd (h4.2 ⟨hlq, Passes.of_prime hq (fun h => ?_) ?_ fun a ha hd => ?_⟩) hlt
  · have := wheelPrimes_le q h
    omega
  · have := largestTestedPrime_le ((lower.nlimbs + 1) * LB)
    omega
  · obtain ⟨c, hc, rfl⟩ := List.mem_map.1 ha
    obtain ⟨h5, h6⟩ := hb c hc
    have := Nat.le_of_dvd h5 hd
    omega

omit [LimbCfg] in
/-- From 1472 on. -/
example : letI := cfg32;
    (searchPadded (Buf.ofNat .be 4 1472) [Buf.ofNat .be 4 2, Buf.ofNat .be 4 3] 3).val.map (Option.map Buf.toNat)
      = some (some 1481) := by decide +kernel

omit [LimbCfg] in
example : letI := cfg32;
    let lower := Buf.ofNat .be 4 1472
    SearchBufs 4 1 (Buf.ofNat .le 4 1) [Buf.ofNat .le 4 2, Buf.ofNat .le 4 3] (Buf.ofNat .ne 4 5) (Buf.ofNat .ne 4 7) ∧
    1471 ≤ lower.toNat ∧ 2 * lower.toNat < 256 ^ lower.len ∧ MrDomain 4 1 (2 * lower.toNat) :=
  let _ := cfg32
  ⟨⟨by decide +kernel, by decide +kernel, by decide +kernel, by decide +kernel, by decide +kernel⟩,
    by decide +kernel, by decide +kernel, ⟨by decide +kernel, .inl (by decide +kernel)⟩⟩

omit [LimbCfg] in
/-- Bases for `C65_next_prime` from 1472 on. -/
example : letI := cfg32;
    let bases := (List.range' 1 737).map (Buf.ofNat .be 4)
    (∀ a ∈ bases, a.len = 4) ∧ (∀ a ∈ bases, 0 < a.toNat ∧ a.toNat < 1472) ∧
    (∀ k, 0 < k → k ≤ 737 → ∃ a ∈ bases, a.toNat = k) ∧ 1472 < 2 * 737 := by
  let _ := cfg32
  have key : ∀ k, k < 256 ^ 4 → (Buf.ofNat .be 4 k).toNat = k := fun k hk => by
    rw [toNat_ofNat_be, Nat.mod_eq_of_lt hk]
  refine ⟨fun a ha => ?_, fun a ha => ?_, fun k h1 h2 => ?_, by norm_num⟩
  · obtain ⟨k, -, rfl⟩ := List.mem_map.1 ha
    simp [Buf.ofNat, Buf.len]
  · obtain ⟨k, hk, rfl⟩ := List.mem_map.1 ha
    obtain ⟨h1, h2⟩ := List.mem_range'_1.1 hk
    rw [key k (by omega)]
    omega
  · exact ⟨_, List.mem_map_of_mem (List.mem_range'_1.2 ⟨h1, by omega⟩), key k (by omega)⟩

end Cmpa.Props
