import Verif.Proofs.WheelGap
import Verif.Props.Wheel

/-!
# The increments and the work of the prime candidate wheel (C36, C70)
-/

namespace Cmpa
namespace Props
open M
variable [LimbCfg] {φ : Fmt}

/-- C36: every increment is at most 510, the first one counted from the bound or from two. -/
theorem C36_increments (lower_bound : Buf φ) (n : ℕ) :
    Sat (wheelRun lower_bound n) (fun l => List.IsChain (fun a b => b ≤ a + 510) (max 2 lower_bound.toNat :: l)) := by
  unfold wheelRun
  refine Sat.bind (start_geq_than_sat lower_bound) ?_
  rintro s ⟨h1, h2⟩
  exact candidates_gap n h1 h2

/-- C36: so the numbers reached with `n` increments are at most `510 * n` above the bound, or two. -/
theorem C36_reach (lower_bound : Buf φ) (n : ℕ) :
    Sat (wheelRun lower_bound n) (fun l => ∀ z ∈ l, z ≤ max 2 lower_bound.toNat + 510 * n) := by
  refine ((C36_increments lower_bound n).and (C36_enumerate lower_bound n)).mono ?_
  rintro l ⟨h1, rfl, -⟩
  generalize max 2 lower_bound.toNat = x at h1 ⊢
  induction l generalizing x with
  | nil => intro z hz; cases hz
  | cons a l ih =>
    obtain ⟨h2, h3⟩ := List.isChain_cons_cons.1 h1
    have h2 : a ≤ x + 510 := h2
    intro z hz
    rw [List.length_cons]
    rcases List.mem_cons.1 hz with rfl | hz
    · refine h2.trans ?_
      rw [Nat.mul_succ]
      exact Nat.add_le_add_left (Nat.le_add_left _ _) _
    · refine (ih a h3 z hz).trans ?_
      rw [Nat.mul_succ, Nat.add_left_comm, Nat.add_comm]
      omega

/-- C36: no 510 successive numbers are all divisible by primes of the wheel. -/
theorem C36_density (x : ℕ) : ∃ m, x ≤ m ∧ m < x + 510 ∧ ∀ q ∈ wheelPrimes, ¬ q ∣ m := by
  obtain ⟨j, hj, h⟩ := exists_cop x
  rw [← wheelPrimes_eq]
  exact ⟨x + j, by omega, by omega, h⟩

/-- C70: starting the wheel is linear in the length of the bound, and each increment takes a bounded number of steps. -/
theorem C70_wheel (lower_bound : Buf φ) (n : ℕ) :
    (wheelRun lower_bound n).steps ≤ 5 * lower_bound.nlimbs + 31 + 2055 * n := by
  unfold wheelRun
  refine steps_bind (WheelLvl1.start_geq_than_steps lower_bound) fun s hs => ?_
  obtain ⟨h1, h2⟩ := (start_geq_than_sat lower_bound).post s hs
  exact candidates_steps n h1 h2

/-- C70: formatting is linear in the number of bytes. -/
theorem C70_format (b : Buf φ) (alternate : Bool) :
    (b.fmt_lower_hex alternate).steps ≤ b.nlimbs * (LB + 2) + LB + 2 :=
  fmt_lower_hex_steps b alternate

/-- From 1 to 29 the 32 bit wheel passes over seven numbers not divisible by 2, 3 or 5. -/
example : letI := cfg32; (wheelRun (Buf.ofNat .le 5 0) 2).val = some [29, 31] ∧
    (wheelRun (Buf.ofNat .le 5 0) 2).steps = 94 ∧ ((Buf.ofNat .le 5 0).fmt_lower_hex false).steps = 9 := by
  decide +kernel

end Props
end Cmpa
