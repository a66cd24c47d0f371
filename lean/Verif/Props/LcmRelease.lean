import Verif.Proofs.LcmRelease
import Verif.Props.Lcm
import Verif.Props.Release

/-!
# C33, C49: the least common multiple in release builds

Two of the conditions which make a debug build panic are assertions, namely that the operands' buffers
are of the same length, and that the space for the product consists of whole limbs.  Without them, the
function is right for more arguments, and wrong for some.
-/

namespace Cmpa.Props
open Cmpa M
variable [LimbCfg] {φ ψ χ : Fmt}

theorem lt_min_pow {b : Buf φ} {m : ℕ} (h : b.toNat < 256 ^ m) : b.toNat < 256 ^ min m b.len := by
  rcases Nat.le_total m b.len with h' | h'
  · rwa [min_eq_left h']
  · rw [min_eq_right h']; exact b.toNat_lt

/-- C33 in release builds: with the second operand in bytes, the result is right for all operands of
compatible buffer lengths, equal or not, and for all result and scratch buffers as long as the sum of the
declared lengths. -/
theorem C33_lcm_release_bytes (result : Buf φ) (op0 : Buf ψ) (m0 : ℕ) (op1 : Buf χ) (m1 : ℕ)
    (scratch : Buf χ) (hbytes : χ = .be ∨ χ = .le)
    (hc0 : LenCompat op0 op1.len) (hc1 : LenCompat op1 op0.len)
    (h0 : op0.toNat < 256 ^ m0) (h1 : op1.toNat < 256 ^ m1)
    (hres : min m0 op0.len + min m1 op1.len ≤ result.len)
    (hscr : min m0 op0.len + min m1 op1.len ≤ scratch.len) :
    RSat (ct_lcm_mp_mp result op0 m0 op1 m1 scratch) (fun r => ∃ res, r = .ok res ∧
      res.len = result.len ∧ res.toNat = Nat.lcm op0.toNat op1.toNat) := by
  have hu : χ.unaligned = true := by rcases hbytes with rfl | rfl <;> rfl
  have hl : op1.len ≤ op0.len := by
    rcases hc1 with h | h
    · exact h
    · rw [hu] at h; exact absurd h.1 (by simp)
  have herr : lcmErr result op0 (min m0 op0.len) op1 (min m1 op1.len) scratch = none := by
    unfold lcmErr
    split
    · rfl
    · rw [if_neg (not_or.2 ⟨not_not.2 hc0, not_not.2 hc1⟩), if_neg (by omega),
        if_neg (by rw [backing_lt_bytes _ _ hu]; omega)]
  have h := ct_lcm_mp_mp_rel result op0 m0 op1 m1 scratch rfl rfl (lt_min_pow h0) (lt_min_pow h1)
    (fun _ _ _ => ⟨by omega, by
      unfold Buf._limbs_align_len
      rw [if_pos hu, if_pos hu]
      omega⟩)
  rw [herr] at h
  refine h.mono ?_
  rintro (e | r) hr
  · exact absurd hr (by simp [Outcome])
  · exact ⟨r, rfl, hr.2⟩

/-- C33 in release builds: with the second operand in limbs, the result is right for operands of compatible
buffer lengths and any declared lengths, if the second one does not exceed the length of the first buffer,
and the result has room for the sum rounded up to whole limbs and for the excess of the longer declared
length over a multiple of the limb size. -/
theorem C33_lcm_release_limbs_partial (result : Buf φ) (op0 : Buf ψ) (m0 : ℕ) (op1 : Buf .ne) (m1 : ℕ)
    (scratch : Buf .ne) {n0 n1 : ℕ} (hn0 : n0 = min m0 op0.len) (hn1 : n1 = min m1 op1.len)
    (hc0 : LenCompat op0 op1.len) (hc1 : LenCompat op1 op0.len)
    (h0 : op0.toNat < 256 ^ m0) (h1 : op1.toNat < 256 ^ m1) (hle : n1 ≤ op0.len)
    (hres : ct_mp_nlimbs (n0 + n1) * LB + (ct_mp_nlimbs (max n0 n1) * LB - max n0 n1) ≤ result.len)
    (hscr : n0 + n1 ≤ scratch.len) :
    RSat (ct_lcm_mp_mp result op0 m0 op1 m1 scratch) (fun r => ∃ res, r = .ok res ∧
      res.len = result.len ∧ res.toNat = Nat.lcm op0.toNat op1.toNat) := by
  have hal := le_nlimbs_mul (n0 + n1)
  have hal' := le_nlimbs_mul (max n0 n1)
  have herr : lcmErr result op0 n0 op1 n1 scratch = none := by
    unfold lcmErr
    split
    · rfl
    · rw [if_neg (not_or.2 ⟨not_not.2 hc0, not_not.2 hc1⟩), if_neg (by omega),
        if_neg (by rw [backing_lt_limbs]; omega)]
  have h := ct_lcm_mp_mp_rel result op0 m0 op1 m1 scratch hn0 hn1 (by rw [hn0]; exact lt_min_pow h0)
    (by rw [hn1]; exact lt_min_pow h1)
    (fun _ _ _ => ⟨hle, by
      unfold Buf._limbs_align_len ct_mp_limbs_align_len
      rw [if_neg (by simp [Fmt.unaligned]), if_neg (by simp [Fmt.unaligned])]
      omega⟩)
  rw [herr] at h
  refine h.mono ?_
  rintro (e | r) hr
  · exact absurd hr (by simp [Outcome])
  · exact ⟨r, rfl, hr.2⟩

/-! The conditions can be met where debug builds panic: operands of eight and seven bytes, and declared
lengths of five and four bytes in limb buffers. -/

example : letI := cfg64; ∃ (result : Buf .be) (op0 : Buf .ne) (op1 scratch : Buf .be),
    LenCompat op0 op1.len ∧ LenCompat op1 op0.len ∧ op0.len ≠ op1.len ∧
    op0.toNat < 256 ^ 8 ∧ op1.toNat < 256 ^ 7 ∧ min 8 op0.len + min 7 op1.len ≤ result.len ∧
    min 8 op0.len + min 7 op1.len ≤ scratch.len ∧ Nat.lcm op0.toNat op1.toNat = 3 * 2 ^ 56 - 24 ∧
    (ct_lcm_mp_mp result op0 8 op1 7 scratch).val.isNone = true :=
  letI := cfg64
  ⟨Buf.ofNat .be 15 0, Buf.ofNat .ne 8 (2 ^ 56 - 8), Buf.ofNat .be 7 6, Buf.ofNat .be 15 0,
    by decide +kernel, by decide +kernel, by decide +kernel, by decide +kernel, by decide +kernel,
    by decide +kernel, by decide +kernel, by decide +kernel, by decide +kernel⟩

example : letI := cfg64; ∃ result op0 op1 scratch : Buf .ne,
    LenCompat op0 op1.len ∧ LenCompat op1 op0.len ∧ op0.toNat < 256 ^ 5 ∧ op1.toNat < 256 ^ 4 ∧
    ct_mp_nlimbs (5 + 4) * LB + (ct_mp_nlimbs (max 5 4) * LB - max 5 4) ≤ result.len ∧
    5 + 4 ≤ scratch.len ∧ 5 = min 5 op0.len ∧ 4 = min 4 op1.len ∧ 4 ≤ op0.len ∧
    (ct_lcm_mp_mp result op0 5 op1 4 scratch).val.isNone = true :=
  letI := cfg64
  ⟨Buf.ofNat .ne 24 0, Buf.ofNat .ne 8 6, Buf.ofNat .ne 8 10, Buf.ofNat .ne 16 0,
    by decide +kernel, by decide +kernel, by decide +kernel, by decide +kernel, by decide +kernel,
    by decide +kernel, by decide +kernel, by decide +kernel, by decide +kernel, by decide +kernel⟩

omit [LimbCfg] in
/-- C33 doesn't hold in release builds (finding L2): of operands `2 (2^15 - 1)` in seven bytes and
`3 (2^15 - 1)` in a limb the least common multiple is `6 (2^15 - 1)`, returned is another number.  The
greatest common divisor, shifted to the top of the declared length of eight bytes, does not fit into the
seven bytes of the first operand. -/
theorem C33_lcm_release_fails : ∃ (c : LimbCfg) (result op0 : @Buf c .be) (op1 scratch : @Buf c .ne),
    @LenCompat c .be op0 (@Buf.len c .ne op1) ∧ @LenCompat c .ne op1 (@Buf.len c .be op0) ∧
    @Buf.toNat c .be op0 = 2 * (2 ^ 15 - 1) ∧ @Buf.toNat c .ne op1 = 3 * (2 ^ 15 - 1) ∧
    @Buf.len c .be result = 24 ∧ @Buf.len c .ne scratch = 24 ∧
    (@ct_lcm_mp_mp c .be .be .ne result op0 7 op1 8 scratch).val.isNone = true ∧
    (@ct_lcm_mp_mp c .be .be .ne result op0 7 op1 8 scratch).rel.map
      (fun r => r.toOption.map (@Buf.toNat c .be)) = some (some 50724864) :=
  ⟨cfg64, @Buf.ofNat cfg64 .be 24 0, @Buf.ofNat cfg64 .be 7 (2 * (2 ^ 15 - 1)),
    @Buf.ofNat cfg64 .ne 8 (3 * (2 ^ 15 - 1)), @Buf.ofNat cfg64 .ne 24 0,
    by decide +kernel, by decide +kernel, by decide +kernel, by decide +kernel, by decide +kernel,
    by decide +kernel, by decide +kernel, by decide +kernel⟩

end Cmpa.Props
