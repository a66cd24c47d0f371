import Verif.Proofs.Wheel
import Mathlib.Data.Nat.Prime.Basic
import Mathlib.Data.List.Perm.Subperm

/-!
# The prime candidate wheel (C36)
-/

namespace Cmpa
namespace Props
open M
variable [LimbCfg] {φ : Fmt}

/-- The primes of the wheel: those up to 23 with 32 bit limbs, those up to 47 with 64 bit limbs. -/
def wheelPrimes : List ℕ :=
  if LB = 4 then [2, 3, 5, 7, 11, 13, 17, 19, 23]
  else [2, 3, 5, 7, 11, 13, 17, 19, 23, 29, 31, 37, 41, 43, 47]

theorem wheelPrimes_eq : FIRST_PRIMES.take WheelLvl1.PRIMORIAL_NFACTORS = wheelPrimes := by
  unfold wheelPrimes
  have hB : ∀ n, LB = n → B = 2 ^ (8 * n) := by
    rintro n rfl; rfl
  rcases LB_cases with h | h
  · rw [if_pos h]
    rcases primorial_cases with ⟨-, h1, -⟩ | ⟨h1, -, -⟩
    · rw [h1]; decide
    · rw [hB 4 h] at h1; norm_num at h1
  · rw [if_neg (by omega)]
    rcases primorial_cases with ⟨h1, -, -⟩ | ⟨-, h1, -⟩
    · rw [hB 8 h] at h1; norm_num at h1
    · rw [h1]; decide

/-- A history of the wheel: it is started with a lower bound, then `n` increments are drawn.  The
result is the list of the numbers reached by adding the increments one after the other to the lower bound. -/
def wheelRun (lower_bound : Buf φ) (n : ℕ) : M (List ℕ) := do
  let s ← WheelLvl1.start_geq_than lower_bound
  s.candidates lower_bound.toNat n

/-- C36: every history succeeds, the numbers reached are strictly ascending, and they are exactly the
integers from the bound (and from two) up to the last one reached which are not divisible by a prime of the wheel. -/
theorem C36_enumerate (lower_bound : Buf φ) (n : ℕ) :
    Sat (wheelRun lower_bound n) (fun l => l.length = n ∧ l.Pairwise (· < ·) ∧
      ∀ m, m ∈ l ↔ (2 ≤ m ∧ lower_bound.toNat ≤ m) ∧ (∀ q ∈ wheelPrimes, ¬ q ∣ m) ∧
        ∃ z ∈ l, m ≤ z) := by
  unfold wheelRun
  refine Sat.bind (start_geq_than_sat lower_bound) ?_
  rintro s ⟨h1, h2⟩
  refine (candidates_sat n h1 h2).mono ?_
  rintro l ⟨g1, g2, g3⟩
  refine ⟨g1, g2, fun m => ?_⟩
  rw [g3, Nat.add_zero, max_le_iff]
  unfold Cop
  rw [wheelPrimes_eq]

/-- C36: no prime is skipped, other than the primes of the wheel themselves. -/
theorem C36_no_prime_skipped (lower_bound : Buf φ) (n p : ℕ) (hp : p.Prime)
    (hb : lower_bound.toNat ≤ p) (hw : p ∉ wheelPrimes) :
    Sat (wheelRun lower_bound n) (fun l => (∃ z ∈ l, p ≤ z) → p ∈ l) := by
  refine (C36_enumerate lower_bound n).mono ?_
  rintro l ⟨-, -, h⟩ hz
  refine (h p).2 ⟨⟨hp.two_le, hb⟩, fun q hq hd => ?_, hz⟩
  rcases (Nat.dvd_prime hp).1 hd with rfl | rfl
  · revert hq; unfold wheelPrimes; split <;> decide
  · exact hw hq

/-- C36: the candidates are unbounded, so every prime above the bound (and not of the wheel) is reached in the
end: after at most as many increments as its distance from the bound, plus one. -/
theorem C36_prime_reached (lower_bound : Buf φ) (p n : ℕ) (hp : p.Prime)
    (hb : lower_bound.toNat ≤ p) (hw : p ∉ wheelPrimes) (hn : p < lower_bound.toNat + n) :
    Sat (wheelRun lower_bound n) (fun l => p ∈ l) := by
  refine ((C36_enumerate lower_bound n).and (C36_no_prime_skipped lower_bound n p hp hb hw)).mono ?_
  rintro l ⟨⟨h1, h2, h3⟩, h4⟩
  refine h4 ?_
  by_contra hz
  push_neg at hz
  have hbound : ∀ z ∈ l, lower_bound.toNat ≤ z ∧ z < p := fun z hzl => ⟨((h3 z).1 hzl).1.2, hz z hzl⟩
  have hnd : l.Nodup := h2.imp fun h => ne_of_lt h
  have hsub : l ⊆ List.range' lower_bound.toNat (p - lower_bound.toNat) := by
    intro z hzl
    have := hbound z hzl
    rw [List.mem_range'_1]; omega
  have hlen := (List.Nodup.subperm hnd hsub).length_le
  rw [List.length_range', h1] at hlen
  omega

/-- C36: the number of offsets computed at compile time is that of the table (otherwise the crate wouldn't compile), the
compile time assertion holds, and the table has the numbers below 30 which are coprime to it, in ascending order. -/
theorem C36_offsets : Sat WheelLvl0.noffsets (fun n => n = WheelLvl0.OFFSETS.length) ∧
    WheelLvl0.PRIMORIAL = 30 ∧ WheelLvl0.PRIMORIAL < FIRST_PRIMES.getD 3 0 * FIRST_PRIMES.getD 3 0 ∧
    WheelLvl0.OFFSETS = (List.range 30).filter (fun m => Nat.gcd m 30 = 1) := by
  refine ⟨⟨8, by decide +kernel, by decide⟩, by decide +kernel, by decide +kernel, by decide +kernel⟩

/-- 11 bytes, a bound two below the start of the second turn of the 64 bit wheel. -/
example : letI := cfg64
    (wheelRun (Buf.ofNat .be 11 614889782588491408) 4).val =
      some [614889782588491409, 614889782588491411, 614889782588491463, 614889782588491469] := by
  decide +kernel

example : letI := cfg32
    (wheelRun (Buf.ofNat .le 5 0) 4).val = some [29, 31, 37, 41] := by decide +kernel

example : Nat.Prime 53 ∧ (letI := cfg64; (Buf.ofNat .be 3 50).toNat ≤ 53 ∧ 53 ∉ wheelPrimes ∧
    53 < (Buf.ofNat .be 3 50).toNat + 4) := ⟨by decide +kernel, by decide +kernel⟩

end Props
end Cmpa
