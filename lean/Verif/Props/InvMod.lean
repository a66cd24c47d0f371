import Verif.Proofs.InvModOddMp
import Verif.Props.Montgomery

/-!
# Modular inverses (C30)

The inverse of `a` modulo `n` is specified as the number `x < n` with `a * x % n = 1`; there is at
most one (`inverse_unique`).  `LenCompat x len` is explained in `Verif.Props.Montgomery`; two buffers of the
same length are always compatible.
-/

namespace Cmpa
namespace Props
open M
variable [LimbCfg] {φ ψ χ : Fmt}

omit [LimbCfg] in
/-- There is at most one inverse. -/
theorem inverse_unique {a n x y : ℕ} (hx : x < n) (hy : y < n) (h1 : a * x % n = 1)
    (h2 : a * y % n = 1) : x = y := by
  have hx1 : y * (a * x) ≡ y * 1 [MOD n] := Nat.ModEq.mul_left _ (by
    rw [Nat.ModEq, h1]; exact (Nat.mod_eq_of_lt (by
      by_contra h
      have : n = 1 := by omega
      rw [this, Nat.mod_one] at h1; cases h1)).symm)
  have hy1 : x * (a * y) ≡ x * 1 [MOD n] := Nat.ModEq.mul_left _ (by
    rw [Nat.ModEq, h2]; exact (Nat.mod_eq_of_lt (by
      by_contra h
      have : n = 1 := by omega
      rw [this, Nat.mod_one] at h1; cases h1)).symm)
  have h3 : x ≡ y [MOD n] := by
    have e : y * (a * x) = x * (a * y) := by ring
    rw [mul_one] at hx1 hy1
    exact hy1.symm.trans (e ▸ hx1)
  rwa [Nat.ModEq, Nat.mod_eq_of_lt hx, Nat.mod_eq_of_lt hy] at h3

/-- Where `ct_inv_mod_odd_mp_mp` finds room for its work. -/
def InvOddRoom (result : Buf φ) (op0 : Buf ψ) (n : Buf χ) (scratch0 scratch1 : Buf .ne) : Prop :=
  LenCompat n result.len ∧ LenCompat op0 n.len ∧ LenCompat n op0.len ∧
    n.nlimbs ≤ scratch0.nlimbs ∧ n.nlimbs ≤ scratch1.nlimbs

theorem invOddErr_none_iff {result : Buf φ} {op0 : Buf ψ} {n : Buf χ} {scratch0 scratch1 : Buf .ne} :
    invOddErr result op0 n scratch0 scratch1 = none ↔
      InvOddRoom result op0 n scratch0 scratch1 ∧ n.toNat % 2 = 1 ∧
        Nat.gcd op0.toNat n.toNat = 1 := by
  unfold invOddErr InvOddRoom
  constructor
  · intro h
    split_ifs at h with e1 e2 e3 e4 e5
    push Not at e2 e3
    exact ⟨⟨e1, e2.1, e2.2, e3⟩, by omega, not_not.1 e5⟩
  · rintro ⟨⟨e1, e2, e3, e4⟩, e5, e6⟩
    rw [if_neg (not_not.2 e1), if_neg (not_or.2 ⟨not_not.2 e2, not_not.2 e3⟩), if_neg (by omega),
      if_neg (by omega), if_neg (not_not.2 e6)]

theorem invOddErr'_none {result : Buf φ} {op0 : Buf ψ} {n : Buf χ} {scratch0 scratch1 : Buf .ne}
    (hr : InvOddRoom result op0 n scratch0 scratch1) (hodd : n.toNat % 2 = 1) (h1 : 1 < n.toNat)
    (hcop : Nat.gcd op0.toNat n.toNat = 1) : invOddErr' result op0 n scratch0 scratch1 = none := by
  unfold invOddErr'
  rw [invOddErr_none_iff.2 ⟨hr, hodd, hcop⟩, if_neg (by omega)]; rfl

/-! ## C30 -/

/-- C30, partial: the inverse of `op0`, which need not be reduced, modulo an odd `n > 1`.

Missing: that the result is correct if the most significant limb of the buffer holding the modulus is not
zero (hypothesis `hn`).  It isn't: see `C30_inv_odd_fails`. -/
theorem C30_inv_odd_partial (result : Buf φ) (op0 : Buf ψ) (n : Buf χ) (scratch0 scratch1 : Buf .ne)
    (hr : InvOddRoom result op0 n scratch0 scratch1) (hodd : n.toNat % 2 = 1) (h1 : 1 < n.toNat)
    (hcop : Nat.gcd op0.toNat n.toNat = 1) (hn : n.toNat < B ^ (n.nlimbs - 1)) :
    Sat (ct_inv_mod_odd_mp_mp result op0 n scratch0 scratch1)
      (fun r => ∃ r' op0' s0 s1, r = .ok (r', op0', s0, s1) ∧ r'.len = result.len ∧
        op0'.len = op0.len ∧ s0.len = scratch0.len ∧ s1.len = scratch1.len ∧
        r'.toNat < n.toNat ∧ op0.toNat * r'.toNat % n.toNat = 1) := by
  refine (ok_of_outcome (ct_inv_mod_odd_mp_mp_sat result op0 n scratch0 scratch1 (fun _ => hn.le))
    (invOddErr'_none hr hodd h1 hcop)).mono ?_
  rintro r ⟨⟨r', op0', s0, s1⟩, hr, h⟩
  exact ⟨r', op0', s0, s1, hr, h⟩

/-- C30, partial: the inverse modulo an odd `n > 1` of any size, as long as the coefficients fit.

The function runs Bernstein and Yang's division steps from `(n, op0)`, in batches, and keeps track of numbers `u`, `v`
with `f ≡ u * op0` and `g ≡ v * op0` modulo `n`.  `coefs` are these numbers, as calculated by the code:
each batch multiplies them by a matrix, divides by a power of two modulo `n`, which gives a number between `-n` and
`2 * n`, writes this number to the limbs available, and adds or subtracts `n`.  `FitsRun` says that each of these
numbers is in the range for which the limbs are written properly.

Missing: that they are.  They aren't for `C30_inv_odd_fails` and `C30_inv_odd_top_bit_fails`. -/
theorem C30_inv_odd_run_partial (result : Buf φ) (op0 : Buf ψ) (n : Buf χ) (scratch0 scratch1 : Buf .ne)
    (hr : InvOddRoom result op0 n scratch0 scratch1) (hodd : n.toNat % 2 = 1) (h1 : 1 < n.toNat)
    (hcop : Nat.gcd op0.toNat n.toNat = 1) (hfit : FitsRun n.toNat op0.toNat n.nlimbs) :
    Sat (ct_inv_mod_odd_mp_mp result op0 n scratch0 scratch1)
      (fun r => ∃ r' op0' s0 s1, r = .ok (r', op0', s0, s1) ∧ r'.len = result.len ∧
        op0'.len = op0.len ∧ s0.len = scratch0.len ∧ s1.len = scratch1.len ∧
        r'.toNat < n.toNat ∧ op0.toNat * r'.toNat % n.toNat = 1) := by
  refine (ok_of_outcome (ct_inv_mod_odd_mp_mp_run result op0 n scratch0 scratch1 (fun _ => hfit))
    (invOddErr'_none hr hodd h1 hcop)).mono ?_
  rintro r ⟨⟨r', op0', s0, s1⟩, hr, h⟩
  exact ⟨r', op0', s0, s1, hr, h⟩

/-- C30: exactly when the function panics, for any arguments: the debug assertion that the inverse, before its sign is
taken into account, is not zero. -/
theorem C30_inv_odd_panics_fails (result : Buf φ) (op0 : Buf ψ) (n : Buf χ)
    (scratch0 scratch1 : Buf .ne) :
    (ct_inv_mod_odd_mp_mp result op0 n scratch0 scratch1).val = none ↔
      InvOddRoom result op0 n scratch0 scratch1 ∧ n.toNat % 2 = 1 ∧ 1 < n.toNat ∧
      Nat.gcd op0.toNat n.toNat = 1 ∧ invCoef n.toNat op0.toNat n.nlimbs = 0 := by
  rw [(ct_inv_mod_odd_mp_mp_exact result op0 n scratch0 scratch1).iff]
  unfold InvOddOk
  rw [Classical.not_imp, invOddErr_none_iff, not_or, not_not]
  refine ⟨fun ⟨⟨h1, h2, h3⟩, h4, h5⟩ => ⟨h1, h2, by omega, h3, h5⟩, fun ⟨h1, h2, h3, h4, h5⟩ =>
    ⟨⟨h1, h2, h4⟩, by omega, h5⟩⟩

/-- C30: what is returned for any odd modulus greater than one, and any operand coprime to it, right or wrong:
the number `invValue`, unless the function panics.  It is always less than the modulus, and not zero. -/
theorem C30_inv_odd_value (result : Buf φ) (op0 : Buf ψ) (n : Buf χ) (scratch0 scratch1 : Buf .ne)
    (hr : InvOddRoom result op0 n scratch0 scratch1) (hodd : n.toNat % 2 = 1) (h1 : 1 < n.toNat)
    (hcop : Nat.gcd op0.toNat n.toNat = 1) (hne : invCoef n.toNat op0.toNat n.nlimbs ≠ 0) :
    Sat (ct_inv_mod_odd_mp_mp result op0 n scratch0 scratch1)
      (fun r => ∃ r' op0' s0 s1, r = .ok (r', op0', s0, s1) ∧ r'.len = result.len ∧
        op0'.len = op0.len ∧ s0.len = scratch0.len ∧ s1.len = scratch1.len ∧
        0 < r'.toNat ∧ r'.toNat < n.toNat ∧
        (r'.toNat : ℤ) = invValue n.toNat op0.toNat n.nlimbs) := by
  refine (ok_of_outcome ((ct_inv_mod_odd_mp_mp_exact result op0 n scratch0 scratch1).sat
    (fun _ => Or.inr hne)) (invOddErr'_none hr hodd h1 hcop)).mono ?_
  rintro r ⟨⟨r', op0', s0, s1⟩, hr, h⟩
  exact ⟨r', op0', s0, s1, hr, h⟩

/-- C30: operands which aren't coprime are always refused, for any odd modulus; so is the modulus
one. -/
theorem C30_inv_odd_not_coprime (result : Buf φ) (op0 : Buf ψ) (n : Buf χ)
    (scratch0 scratch1 : Buf .ne) (hr : InvOddRoom result op0 n scratch0 scratch1)
    (hodd : n.toNat % 2 = 1) (hcop : Nat.gcd op0.toNat n.toNat ≠ 1 ∨ n.toNat = 1) :
    Sat (ct_inv_mod_odd_mp_mp result op0 n scratch0 scratch1)
      (fun r => r = .error .OperandsNotCoprime) := by
  obtain ⟨h2, h3, h4, h5, h6⟩ := hr
  refine err_of_outcome (ct_inv_mod_odd_mp_mp_sat result op0 n scratch0 scratch1 ?_) ?_
  · intro h
    rcases hcop with hcop | hcop
    · unfold invOddErr at h
      simp [h2, h3, h4, Nat.not_lt.2 h5, Nat.not_lt.2 h6, hodd, hcop] at h
    · rw [hcop]; exact B_pow_pos _
  · unfold invOddErr' invOddErr
    rcases hcop with hcop | hcop
    · simp [h2, h3, h4, Nat.not_lt.2 h5, Nat.not_lt.2 h6, hodd, hcop]
    · simp [h2, h3, h4, Nat.not_lt.2 h5, Nat.not_lt.2 h6, hcop]

/-- C30: an even modulus, too small a result, operands of different size and too little scratch
space are refused. -/
theorem C30_inv_odd_error (result : Buf φ) (op0 : Buf ψ) (n : Buf χ)
    (scratch0 scratch1 : Buf .ne)
    (h : ¬ InvOddRoom result op0 n scratch0 scratch1 ∨ n.toNat % 2 = 0) :
    Sat (ct_inv_mod_odd_mp_mp result op0 n scratch0 scratch1) (fun r => r = .error (
      if ¬ LenCompat n result.len then .InsufficientResultSpace
      else if ¬ (LenCompat op0 n.len ∧ LenCompat n op0.len) then .InconsistentOperandLengths
      else if ¬ (n.nlimbs ≤ scratch0.nlimbs ∧ n.nlimbs ≤ scratch1.nlimbs) then
        .InsufficientScratchSpace
      else .InvalidModulus)) := by
  have key : invOddErr result op0 n scratch0 scratch1 = some (
      if ¬ LenCompat n result.len then .InsufficientResultSpace
      else if ¬ (LenCompat op0 n.len ∧ LenCompat n op0.len) then .InconsistentOperandLengths
      else if ¬ (n.nlimbs ≤ scratch0.nlimbs ∧ n.nlimbs ≤ scratch1.nlimbs) then
        .InsufficientScratchSpace
      else .InvalidModulus) := by
    unfold invOddErr
    unfold InvOddRoom at h
    by_cases a1 : LenCompat n result.len
    · by_cases a2 : LenCompat op0 n.len ∧ LenCompat n op0.len
      · rw [if_neg (not_not.2 a1), if_neg (fun h => (not_and_or.2 h) a2), if_neg (not_not.2 a1),
          if_neg (not_not.2 a2)]
        by_cases a3 : n.nlimbs ≤ scratch0.nlimbs ∧ n.nlimbs ≤ scratch1.nlimbs
        · rw [if_neg (by omega), if_neg (not_not.2 a3), if_pos]
          exact h.resolve_left (fun h' => h' ⟨a1, a2.1, a2.2, a3⟩)
        · rw [if_pos (by omega), if_pos a3]
      · rw [if_neg (not_not.2 a1), if_pos (not_and_or.1 a2), if_neg (not_not.2 a1), if_pos a2]
    · rw [if_pos a1, if_pos a1]
  refine err_of_outcome (ct_inv_mod_odd_mp_mp_sat result op0 n scratch0 scratch1 ?_) ?_
  · intro h'; rw [key] at h'; cases h'
  · unfold invOddErr'; rw [key]; rfl

/-- The result, for the examples. -/
def invNum {α : Type} : Except GcdError (Buf φ × α) → Option ℕ
  | .ok (a, _) => some a.toNat
  | .error _ => none

omit [LimbCfg] in
/-- C30 doesn't hold as stated: modulo `666634813049`, in buffers of one limb of 64 bits, the number
returned for `407238868042` is not its inverse. -/
theorem C30_inv_odd_fails : ∃ (c : LimbCfg) (result op0 n : @Buf c .be) (s0 s1 : @Buf c .ne) (x : ℕ),
    @Buf.toNat c .be n = 666634813049 ∧ @Buf.toNat c .be op0 = 407238868042 ∧
    @InvOddRoom c .be .be .be result op0 n s0 s1 ∧
    Nat.gcd 407238868042 666634813049 = 1 ∧
    (@ct_inv_mod_odd_mp_mp c .be .be .be result op0 n s0 s1).val.bind (@invNum c .be _) = some x ∧
    ¬ 407238868042 * x % 666634813049 = 1 :=
  ⟨cfg64, @Buf.ofNat cfg64 .be 8 0, @Buf.ofNat cfg64 .be 8 407238868042,
    @Buf.ofNat cfg64 .be 8 666634813049, @Buf.ofNat cfg64 .ne 8 0, @Buf.ofNat cfg64 .ne 8 0,
    666634807410, by decide +kernel, by decide +kernel,
    ⟨by decide +kernel, by decide +kernel, by decide +kernel, by decide +kernel, by decide +kernel⟩,
    by decide +kernel, by decide +kernel, by decide +kernel⟩

omit [LimbCfg] in
/-- C30 doesn't hold for moduli with the most significant bit of their buffer set, for another reason (finding
I2): the bit lost when reducing intermediate values to the modulus. -/
theorem C30_inv_odd_top_bit_fails : ∃ (c : LimbCfg) (result op0 n : @Buf c .be) (s0 s1 : @Buf c .ne) (x : ℕ),
    @Buf.toNat c .be n = 3767961369 ∧ @Buf.toNat c .be op0 = 79855859 ∧
    @InvOddRoom c .be .be .be result op0 n s0 s1 ∧
    Nat.gcd 79855859 3767961369 = 1 ∧
    (@ct_inv_mod_odd_mp_mp c .be .be .be result op0 n s0 s1).val.bind (@invNum c .be _) = some x ∧
    ¬ 79855859 * x % 3767961369 = 1 :=
  ⟨cfg32, @Buf.ofNat cfg32 .be 4 0, @Buf.ofNat cfg32 .be 4 79855859,
    @Buf.ofNat cfg32 .be 4 3767961369, @Buf.ofNat cfg32 .ne 4 0, @Buf.ofNat cfg32 .ne 4 0,
    964722355, by decide +kernel, by decide +kernel,
    ⟨by decide +kernel, by decide +kernel, by decide +kernel, by decide +kernel, by decide +kernel⟩,
    by decide +kernel, by decide +kernel, by decide +kernel⟩

-- The hypotheses can be met: the same numbers in buffers with a limb more; and with limbs of 32 bits.
example : letI := cfg64;
    (ct_inv_mod_odd_mp_mp (Buf.ofNat .be 9 0) (Buf.ofNat .le 9 407238868042)
      (Buf.ofNat .be 9 666634813049) (Buf.ofNat .ne 16 0) (Buf.ofNat .ne 16 0)).val.bind invNum
        = some 666587916402 ∧
    407238868042 * 666587916402 % 666634813049 = 1 := by decide +kernel
example : letI := cfg64; (Buf.ofNat .be 9 666634813049).toNat
    < B ^ ((Buf.ofNat .be 9 666634813049).nlimbs - 1) := by decide +kernel
example : letI := cfg32;
    (ct_inv_mod_odd_mp_mp (Buf.ofNat .ne 8 0) (Buf.ofNat .le 5 500)
      (Buf.ofNat .be 5 1009) (Buf.ofNat .ne 8 0) (Buf.ofNat .ne 8 0)).val.bind invNum
        = some 224 ∧ 500 * 224 % 1009 = 1 := by decide +kernel
-- The coefficients fit for some moduli of full length: one of a limb, and the prime `2^256 - 2^224 + 2^192 + 2^96 - 1`,
-- which makes `C30_inv_odd_run_partial` apply.  They don't fit for the numbers above.
example : letI := cfg64; FitsRun (2 ^ 64 - 59) 12345678901234567 1 := by decide +kernel
example : letI := cfg64; FitsRun (2 ^ 256 - 2 ^ 224 + 2 ^ 192 + 2 ^ 96 - 1) (2 ^ 255 + 12345) 4 := by decide +kernel
example : letI := cfg64; ¬ FitsRun 666634813049 407238868042 1 := by decide +kernel
example : letI := cfg32; ¬ FitsRun 3767961369 79855859 1 := by decide +kernel
example : letI := cfg64;
    (ct_inv_mod_odd_mp_mp (Buf.ofNat .be 8 0) (Buf.ofNat .le 8 12345678901234567)
      (Buf.ofNat .be 8 (2 ^ 64 - 59)) (Buf.ofNat .ne 8 0) (Buf.ofNat .ne 8 0)).val.bind invNum
        = some (invValue (2 ^ 64 - 59) 12345678901234567 1).toNat ∧
    12345678901234567 * (invValue (2 ^ 64 - 59) 12345678901234567 1).toNat % (2 ^ 64 - 59) = 1 := by
  decide +kernel
-- The wrong numbers returned, and the assertion failing.
example : letI := cfg64; invValue 666634813049 407238868042 1 = 666634807410 := by decide +kernel
example : letI := cfg32; invValue 3767961369 79855859 1 = 964722355 := by decide +kernel
example : letI := cfg32; invCoef 3443927703 1445968151 1 = 0 := by decide +kernel
-- Operands which are not coprime.
example : letI := cfg32;
    (ct_inv_mod_odd_mp_mp (Buf.ofNat .be 3 0) (Buf.ofNat .be 3 15)
      (Buf.ofNat .be 3 21) (Buf.ofNat .ne 4 0) (Buf.ofNat .ne 4 0)).val.map
        (fun r => match r with | .error e => decide (e = .OperandsNotCoprime) | _ => false)
      = some true := by decide +kernel

end Props
end Cmpa
