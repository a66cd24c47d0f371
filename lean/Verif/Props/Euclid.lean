import Verif.Proofs.Gcd
import Verif.Props.Montgomery

/-!
# Greatest common divisors (C29)

The result is stated with Mathlib's `Nat.gcd`.  `LenCompat x len` is explained in
`Verif.Props.Montgomery`; two buffers of the same length are always compatible.
-/

namespace Cmpa
namespace Props
open M
variable [LimbCfg] {φ ψ : Fmt}

/-! ## C29 -/

/-- C29: for an odd first operand. -/
theorem C29_gcd_odd (f : Buf φ) (g : Buf ψ) (hodd : f.toNat % 2 = 1)
    (h0 : LenCompat f g.len) (h1 : LenCompat g f.len) :
    Sat (ct_gcd_odd_mp_mp f g) (fun r => ∃ f' g', r = .ok (f', g') ∧
      f'.len = f.len ∧ g'.len = g.len ∧
      f'.toNat = Nat.gcd f.toNat g.toNat ∧ g'.toNat = 0) := by
  refine (ok_of_outcome (ct_gcd_odd_mp_mp_sat f g) (by simp [gcdOddErr, hodd, h0, h1])).mono ?_
  rintro r ⟨⟨f', g'⟩, hr, h⟩
  exact ⟨f', g', hr, h⟩

/-- C29: operands of the same length. -/
theorem C29_gcd_odd_same_len (f : Buf φ) (g : Buf ψ) (hodd : f.toNat % 2 = 1)
    (hl : f.len = g.len) :
    Sat (ct_gcd_odd_mp_mp f g) (fun r => ∃ f' g', r = .ok (f', g') ∧
      f'.len = f.len ∧ g'.len = g.len ∧
      f'.toNat = Nat.gcd f.toNat g.toNat ∧ g'.toNat = 0) :=
  C29_gcd_odd f g hodd (.inl hl.le) (.inl hl.ge)

/-- C29: an even or empty first operand is refused, and so are operands of different size. -/
theorem C29_gcd_odd_error (f : Buf φ) (g : Buf ψ)
    (h : f.toNat % 2 = 0 ∨ ¬ LenCompat f g.len ∨ ¬ LenCompat g f.len) :
    Sat (ct_gcd_odd_mp_mp f g) (fun r => r = .error (
      if f.toNat % 2 = 0 then .InvalidInputOperandValue else .InconsistentOperandLengths)) := by
  refine err_of_outcome (ct_gcd_odd_mp_mp_sat f g) ?_
  unfold gcdOddErr
  by_cases h1 : f.toNat % 2 = 0
  · rw [if_pos h1, if_pos h1]
  · rw [if_neg h1, if_neg h1, if_pos (h.resolve_left h1)]

/-- C29: for any two operands which are not both zero. -/
theorem C29_gcd (op0 : Buf φ) (op1 : Buf ψ) (hne : op0.len ≠ 0)
    (h0 : LenCompat op0 op1.len) (h1 : LenCompat op1 op0.len)
    (hnz : ¬ (op0.toNat = 0 ∧ op1.toNat = 0)) :
    Sat (ct_gcd_mp_mp op0 op1) (fun r => ∃ r0 r1, r = .ok (r0, r1) ∧
      r0.len = op0.len ∧ r1.len = op1.len ∧
      r0.toNat = Nat.gcd op0.toNat op1.toNat ∧ r1.toNat = 0) := by
  refine (ok_of_outcome (ct_gcd_mp_mp_sat op0 op1) (by simp [gcdErr, hne, h0, h1])).mono ?_
  rintro r ⟨⟨r0, r1⟩, hr, h⟩
  rw [gcdVal, if_neg hnz] at h
  exact ⟨r0, r1, hr, h⟩

/-- C29: for two zero operands the result is one. -/
theorem C29_gcd_zero_zero (op0 : Buf φ) (op1 : Buf ψ) (hne : op0.len ≠ 0)
    (h0 : LenCompat op0 op1.len) (h1 : LenCompat op1 op0.len)
    (hz : op0.toNat = 0) (hz' : op1.toNat = 0) :
    Sat (ct_gcd_mp_mp op0 op1) (fun r => ∃ r0 r1, r = .ok (r0, r1) ∧
      r0.len = op0.len ∧ r1.len = op1.len ∧ r0.toNat = 1 ∧ r1.toNat = 0) := by
  refine (ok_of_outcome (ct_gcd_mp_mp_sat op0 op1) (by simp [gcdErr, hne, h0, h1])).mono ?_
  rintro r ⟨⟨r0, r1⟩, hr, h⟩
  rw [gcdVal, if_pos ⟨hz, hz'⟩] at h
  exact ⟨r0, r1, hr, h⟩

/-- C29: `gcd(a, 0) = a = gcd(0, a)` for `a ≠ 0`. -/
theorem C29_gcd_with_zero (op0 : Buf φ) (op1 : Buf ψ) (hl : op0.len = op1.len)
    (hz : op0.toNat = 0 ∧ op1.toNat ≠ 0 ∨ op0.toNat ≠ 0 ∧ op1.toNat = 0) :
    Sat (ct_gcd_mp_mp op0 op1) (fun r => ∃ r0 r1, r = .ok (r0, r1) ∧
      r0.len = op0.len ∧ r1.len = op1.len ∧
      r0.toNat = op0.toNat + op1.toNat ∧ r1.toNat = 0) := by
  refine (C29_gcd op0 op1 ?_ (.inl hl.le) (.inl hl.ge) (by omega)).mono ?_
  · intro h0
    have h1 := op0.toNat_lt
    have h2 := op1.toNat_lt
    rw [← hl, h0, pow_zero] at h2
    rw [h0, pow_zero] at h1
    omega
  · rintro r ⟨r0, r1, hr, h2, h3, h4, h5⟩
    refine ⟨r0, r1, hr, h2, h3, ?_, h5⟩
    rw [h4]
    rcases hz with ⟨h, -⟩ | ⟨-, h⟩ <;> rw [h] <;> simp

/-- C29: an empty first operand is refused, and so are operands of different size. -/
theorem C29_gcd_error (op0 : Buf φ) (op1 : Buf ψ)
    (h : op0.len = 0 ∨ ¬ LenCompat op0 op1.len ∨ ¬ LenCompat op1 op0.len) :
    Sat (ct_gcd_mp_mp op0 op1) (fun r => r = .error (
      if op0.len = 0 then .InsufficientResultSpace else .InconsistentOperandLengths)) := by
  refine err_of_outcome (ct_gcd_mp_mp_sat op0 op1) ?_
  unfold gcdErr
  by_cases h1 : op0.len = 0
  · rw [if_pos h1, if_pos h1]
  · rw [if_neg h1, if_neg h1, if_pos (h.resolve_left h1)]

/-- The numbers of a result, for the examples. -/
def gcdNums : Except GcdError (Buf φ × Buf ψ) → Option (ℕ × ℕ)
  | .ok (a, b) => some (a.toNat, b.toNat)
  | .error _ => none

-- The hypotheses can be met, and the result is not trivial: `gcd(189, 45) = 9`,
-- `gcd(12, 18) = 6`, `gcd(0, 0) = 1`, also for buffers of different formats and lengths.
example : letI := cfg64; (ct_gcd_odd_mp_mp (Buf.ofNat .be 3 189) (Buf.ofNat .be 3 45)).val.map
    gcdNums = some (some (9, 0)) := by decide +kernel
example : letI := cfg32; (ct_gcd_mp_mp (Buf.ofNat .le 5 12) (Buf.ofNat .be 5 18)).val.map
    gcdNums = some (some (6, 0)) := by decide +kernel
example : letI := cfg32; (ct_gcd_mp_mp (Buf.ofNat .ne 4 12) (Buf.ofNat .be 3 18)).val.map
    gcdNums = some (some (6, 0)) := by decide +kernel
example : letI := cfg64; (ct_gcd_mp_mp (Buf.ofNat .be 2 0) (Buf.ofNat .be 2 0)).val.map
    gcdNums = some (some (1, 0)) := by decide +kernel
example : letI := cfg32; LenCompat (Buf.ofNat .ne 4 12) 3 ∧ LenCompat (Buf.ofNat .be 3 18) 4 := by
  decide +kernel

end Props
end Cmpa
