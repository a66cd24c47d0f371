import Verif.Model.X86
import Verif.Proofs.NonCtLDiv

/-!
# C42: the assembly variants of the limb primitives compute what the portable ones compute

For all initial contents of the registers and flags and for every choice of different registers for the operands
the compiler may make.
-/

namespace Cmpa.Props
open Cmpa M

theorem B_cfg64 : @B cfg64 = 2 ^ 64 := by decide

/-- Zero tests. -/
theorem C42_zero (s : X86.State) {rv rr v : ℕ} (h : rv ≠ rr) (hv : v < 2 ^ 64) :
    X86.ct_is_nonzero_l s rv rr v = @ct_is_nonzero_l cfg64 v ∧
      X86.ct_is_zero_l s rv rr v = @ct_is_zero_l cfg64 v := by
  have hv' : v < @B cfg64 := by rw [B_cfg64]; exact hv
  rw [@ct_is_nonzero_l_eq cfg64 v hv', @ct_is_zero_l_eq cfg64 v hv']
  by_cases h0 : v = 0 <;>
  simp [X86.ct_is_nonzero_l, X86.ct_is_zero_l, X86.State.setnz, X86.State.setz, X86.State.setLow,
    X86.State.test, X86.State.xor, X86.State.set, h, h0]

/-- Addition with carry out. -/
theorem C42_add (s : X86.State) {r0 r1 rc v0 v1 : ℕ} (h01 : r0 ≠ r1) (h0c : r0 ≠ rc) (h1c : r1 ≠ rc)
    (h0 : v0 < 2 ^ 64) (h1 : v1 < 2 ^ 64) :
    X86.ct_add_l_l s r0 r1 rc v0 v1 = @ct_add_l_l cfg64 v0 v1 := by
  rw [@ct_add_l_l_eq cfg64 v0 v1 (by rw [B_cfg64]; exact h0) (by rw [B_cfg64]; exact h1), B_cfg64]
  simp only [X86.ct_add_l_l, X86.State.setc, X86.State.setLow, X86.State.add, X86.State.xor, X86.State.set,
    if_true, if_neg h01, if_neg h0c, if_neg h1c, if_neg h0c.symm, if_neg h1c.symm, if_neg h01.symm,
    Nat.xor_self, Nat.zero_div, Nat.zero_mul, Nat.zero_add]
  refine Prod.ext ?_ rfl
  dsimp only
  by_cases h : 2 ^ 64 ≤ v0 + v1
  · rw [decide_eq_true h]; simp only [Bool.toNat_true]; omega
  · rw [decide_eq_false h]; simp only [Bool.toNat_false]; omega

/-- Subtraction with borrow out. -/
theorem C42_sub (s : X86.State) {r0 r1 rc v0 v1 : ℕ} (h01 : r0 ≠ r1) (h0c : r0 ≠ rc) (h1c : r1 ≠ rc)
    (h0 : v0 < 2 ^ 64) (h1 : v1 < 2 ^ 64) :
    X86.ct_sub_l_l s r0 r1 rc v0 v1 = @ct_sub_l_l cfg64 v0 v1 := by
  rw [@ct_sub_l_l_eq cfg64 v0 v1 (by rw [B_cfg64]; exact h0) (by rw [B_cfg64]; exact h1), B_cfg64]
  simp only [X86.ct_sub_l_l, X86.State.setc, X86.State.setLow, X86.State.sub, X86.State.xor, X86.State.set,
    if_true, if_neg h01, if_neg h0c, if_neg h1c, if_neg h0c.symm, if_neg h1c.symm, if_neg h01.symm,
    Nat.xor_self, Nat.zero_div, Nat.zero_mul, Nat.zero_add]
  by_cases h : v0 < v1
  · rw [decide_eq_true h, if_pos h, if_neg (by omega)]; refine Prod.ext rfl ?_; dsimp only; omega
  · rw [decide_eq_false h, if_neg h, if_pos (by omega)]; refine Prod.ext rfl ?_; dsimp only; omega

/-- Multiplication to a double limb; `rdx` is taken by the upper half of the result. -/
theorem C42_mul (s : X86.State) {r1 v0 v1 : ℕ} (ha : r1 ≠ X86.rax) (hd : r1 ≠ X86.rdx)
    (h0 : v0 < 2 ^ 64) (h1 : v1 < 2 ^ 64) :
    (@ct_mul_l_l cfg64 v0 v1).val = some (X86.ct_mul_l_l s r1 v0 v1) := by
  rw [@ct_mul_l_l_eq cfg64 v0 v1 (by rw [B_cfg64]; exact h0) (by rw [B_cfg64]; exact h1), B_cfg64]
  have hax : X86.rax ≠ X86.rdx := by decide
  simp only [X86.ct_mul_l_l, X86.State.mul, X86.State.set, if_true, if_neg ha, if_neg ha.symm, if_neg hax,
    if_neg hax.symm]
  rfl

/-- Division of a double limb: no divide error if the quotient fits into a limb, and quotient and remainder are those
of the portable variant. -/
theorem C42_div (s : X86.State) {rv v : ℕ} {u : DoubleLimb} (ha : rv ≠ X86.rax) (hd : rv ≠ X86.rdx)
    (h0 : v ≠ 0) (hv : v < 2 ^ 64) (hh : u.high < v) (hl : u.low < 2 ^ 64) :
    (X86.NonCtLDivisor.do_div s rv v u).val =
        some ((u.high * 2 ^ 64 + u.low) / v, (u.high * 2 ^ 64 + u.low) % v) ∧
      ∃ d, (@NonCtLDivisor.new cfg64 v).val = some (some d) ∧
        (@NonCtLDivisor.do_div cfg64 d u).val = (X86.NonCtLDivisor.do_div s rv v u).val := by
  have hB := B_cfg64
  have hax : X86.rax ≠ X86.rdx := by decide
  have e : (X86.NonCtLDivisor.do_div s rv v u).val =
      some ((u.high * 2 ^ 64 + u.low) / v, (u.high * 2 ^ 64 + u.low) % v) := by
    have hq : (u.high * 2 ^ 64 + u.low) / v < 2 ^ 64 := by
      refine Nat.div_lt_of_lt_mul ?_
      calc u.high * 2 ^ 64 + u.low < (u.high + 1) * 2 ^ 64 := by rw [Nat.add_mul, Nat.one_mul]; omega
        _ ≤ v * 2 ^ 64 := Nat.mul_le_mul_right _ hh
    simp only [X86.NonCtLDivisor.do_div, X86.State.div, X86.State.set, if_true, if_neg ha, if_neg ha.symm,
      if_neg hd, if_neg hd.symm, if_neg hax, if_neg hax.symm]
    rw [if_neg (by omega)]
    simp only [M.ofOption]
    rw [M.mk_bind]
    simp only [if_true, if_neg hax]
    rfl
  refine ⟨e, ?_⟩
  obtain ⟨_, ed, d, rfl, hd1, hd2⟩ := @NonCtLDivisor.new_spec cfg64 v (by rw [hB]; exact hv) h0
  refine ⟨d, ed, ?_⟩
  obtain ⟨r, er, rfl⟩ := @NonCtLDivisor.do_div_spec cfg64 d hd1 u (by rw [hd2]; exact hh)
    (by rw [hB]; exact hl)
  rw [er, e, hd2, hB]

/-- The only division made outside of tests, the one for the reciprocal of a divisor: never a divide error, and the same
reciprocal. -/
theorem C42_reciprocal (s : X86.State) {rv v : ℕ} (ha : rv ≠ X86.rax) (hd : rv ≠ X86.rdx)
    (h0 : v ≠ 0) (hv : v < 2 ^ 64) :
    ∃ m, (@X86.nonct_compute_m cfg64 s rv v v.size).val = some m ∧
      (@nonct_compute_m cfg64 v v.size).val = some m := by
  have hB := B_cfg64
  have hvB : v < @B cfg64 := by rw [hB]; exact hv
  obtain ⟨h1, h2, h3⟩ := @size_bounds cfg64 v h0
  have hsW := @size_le_W cfg64 v hvB
  have hh : 2 ^ v.size - 1 - v < v := by
    have : 2 ^ v.size = 2 * 2 ^ (v.size - 1) := by rw [← pow_succ']; congr 1; omega
    omega
  have hlm : @lmax cfg64 < 2 ^ 64 := by decide
  obtain ⟨e, d, ed, e'⟩ := C42_div s (u := ⟨2 ^ v.size - 1 - v, @lmax cfg64⟩) ha hd h0 hv hh hlm
  rw [e] at e'
  refine ⟨((2 ^ v.size - 1 - v) * 2 ^ 64 + @lmax cfg64) / v, ?_, ?_⟩
  · letI := cfg64
    have : Sat (X86.nonct_compute_m s rv v v.size)
        (fun m => m = ((2 ^ v.size - 1 - v) * 2 ^ 64 + lmax) / v) := by
      unfold X86.nonct_compute_m
      rw [M.sat_branch_bind]
      simp only [h0, decide_false, Bool.false_eq_true, if_false]
      rw [ct_lsb_mask_l_eq hsW, M.sub_eq (by omega), M.pure_bind]
      refine Sat.bind ⟨_, e, rfl⟩ ?_
      rintro _ rfl
      rw [M.sat_pure]
    obtain ⟨_, hm, rfl⟩ := this
    exact hm
  · letI := cfg64
    have : Sat (nonct_compute_m v v.size)
        (fun m => m = ((2 ^ v.size - 1 - v) * 2 ^ 64 + lmax) / v) := by
      unfold nonct_compute_m
      refine Sat.bind (P := fun o => o = some d) ⟨_, ed, rfl⟩ ?_
      rintro _ rfl
      simp only [M.ofOption]
      rw [M.mk_bind, ct_lsb_mask_l_eq hsW, M.sub_eq (by omega), M.pure_bind]
      refine Sat.bind ⟨_, e', rfl⟩ ?_
      rintro _ rfl
      rw [M.sat_pure]
    obtain ⟨_, hm, rfl⟩ := this
    exact hm

/-- The restriction in `C42_div` is needed: for a quotient of 65 bits there is a divide error. -/
theorem C42_div_overflow (s : X86.State) :
    (X86.NonCtLDivisor.do_div s 1 3 ⟨3, 0⟩).val = none := by
  simp only [X86.NonCtLDivisor.do_div, X86.State.div, X86.State.set, X86.rax, X86.rdx]
  rw [if_pos (by norm_num)]
  rfl

-- Hypotheses met: different registers, with a register file full of garbage.
example : X86.ct_add_l_l ⟨fun i => 1000 + i, true, true⟩ 1 3 6 (2 ^ 64 - 1) 2 = (1, 1) := by decide +kernel
example : X86.ct_sub_l_l ⟨fun i => 1000 + i, true, true⟩ 1 3 6 1 2 = (1, 2 ^ 64 - 1) := by decide +kernel
example : X86.ct_is_zero_l ⟨fun i => 1000 + i, true, true⟩ 1 3 0 = 1 := by decide +kernel
example : X86.ct_is_nonzero_l ⟨fun i => 1000 + i, true, true⟩ 1 3 0 = 0 := by decide +kernel
example : X86.ct_mul_l_l ⟨fun i => 1000 + i, true, true⟩ 1 (2 ^ 64 - 1) (2 ^ 64 - 1) = ⟨2 ^ 64 - 2, 1⟩ := by
  decide +kernel
example : (X86.NonCtLDivisor.do_div ⟨fun i => 1000 + i, true, true⟩ 1 10 ⟨7, 5⟩).val =
    some ((7 * 2 ^ 64 + 5) / 10, (7 * 2 ^ 64 + 5) % 10) := by decide +kernel
-- a register shared with the result would be overwritten: the operands' registers have to be different
example : X86.ct_is_nonzero_l ⟨fun _ => 0, true, true⟩ 1 1 5 = 0 := by decide +kernel

end Cmpa.Props
