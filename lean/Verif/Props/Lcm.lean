import Verif.Proofs.Lcm
import Verif.Props.Montgomery

/-!
# The least common multiple (C33)
-/

namespace Cmpa
namespace Props
open M
variable [LimbCfg] {φ ψ χ : Fmt}

/-- C33, partial: the least common multiple of operands of equal buffer lengths, with the second
operand stored as bytes, in either order.  `m0` and `m1` are the declared operand lengths.

Missing: operands of different buffer lengths, see `C33_lcm_mixed_len_fails`, and second operands stored
as limbs, see `C33_lcm_limbs_partial`. -/
theorem C33_lcm_bytes_partial (result : Buf φ) (op0 : Buf ψ) (m0 : ℕ) (op1 : Buf χ) (m1 : ℕ)
    (scratch : Buf χ) (hbytes : χ = .be ∨ χ = .le) (hlen : op0.len = op1.len)
    (h0 : op0.toNat < 256 ^ m0) (h1 : op1.toNat < 256 ^ m1)
    (hres : min m0 op0.len + min m1 op1.len ≤ result.len)
    (hscr : min m0 op0.len + min m1 op1.len ≤ scratch.len) :
    Sat (ct_lcm_mp_mp result op0 m0 op1 m1 scratch) (fun r => ∃ res, r = .ok res ∧
      res.len = result.len ∧ res.toNat = Nat.lcm op0.toNat op1.toNat) := by
  have hu : χ.unaligned = true := by rcases hbytes with rfl | rfl <;> rfl
  refine ok_of_outcome (ct_lcm_mp_mp_sat result op0 m0 op1 m1 scratch rfl rfl h0 h1
    (fun _ _ _ _ => hlen) fun _ _ _ => Or.inl hu) ?_
  unfold lcmErr
  split
  · rfl
  · have c0 : LenCompat op0 op1.len := Or.inl hlen.le
    have c1 : LenCompat op1 op0.len := Or.inl hlen.ge
    rw [if_neg (not_or.2 ⟨not_not.2 c0, not_not.2 c1⟩), if_neg (by omega), if_neg]
    rw [backing_lt_bytes _ _ hu]; omega

/-- C33, partial: the least common multiple of operands of equal buffer lengths, with the second
operand stored as limbs.

Missing: declared lengths the sum of which is no multiple of the limb size, see
`C33_lcm_unaligned_fails`, and results too short for the excess of the longer declared length over a
multiple of the limb size, see `C33_lcm_tight_fails`. -/
theorem C33_lcm_limbs_partial (result : Buf φ) (op0 : Buf ψ) (m0 : ℕ) (op1 : Buf .ne) (m1 : ℕ)
    (scratch : Buf .ne) (hlen : op0.len = op1.len)
    (h0 : op0.toNat < 256 ^ m0) (h1 : op1.toNat < 256 ^ m1)
    (hal : LB ∣ min m0 op0.len + min m1 op1.len)
    (hres : min m0 op0.len + min m1 op1.len +
      (ct_mp_nlimbs (max (min m0 op0.len) (min m1 op1.len)) * LB -
        max (min m0 op0.len) (min m1 op1.len)) ≤ result.len)
    (hscr : min m0 op0.len + min m1 op1.len ≤ scratch.len) :
    Sat (ct_lcm_mp_mp result op0 m0 op1 m1 scratch) (fun r => ∃ res, r = .ok res ∧
      res.len = result.len ∧ res.toNat = Nat.lcm op0.toNat op1.toNat) := by
  have hLB := LB_pos
  refine ok_of_outcome (ct_lcm_mp_mp_sat result op0 m0 op1 m1 scratch rfl rfl h0 h1
    (fun _ _ _ _ => hlen) fun _ _ _ => Or.inr ⟨hal, ?_⟩) ?_
  · unfold ct_mp_limbs_align_len; omega
  unfold lcmErr
  split
  · rfl
  · have c0 : LenCompat op0 op1.len := Or.inl hlen.le
    have c1 : LenCompat op1 op0.len := Or.inl hlen.ge
    rw [if_neg (not_or.2 ⟨not_not.2 c0, not_not.2 c1⟩), if_neg (by omega), if_neg]
    rw [backing_lt_limbs]; omega

/-- C33: operands of a declared length of a limb multiple each, stored as limbs. -/
theorem C33_lcm_aligned_partial (result op0 op1 scratch : Buf .ne) (k0 k1 : ℕ)
    (hlen : op0.nlimbs = op1.nlimbs) (hk0 : k0 ≤ op0.nlimbs) (hk1 : k1 ≤ op1.nlimbs)
    (h0 : op0.toNat < B ^ k0) (h1 : op1.toNat < B ^ k1)
    (hres : k0 + k1 ≤ result.nlimbs) (hscr : k0 + k1 ≤ scratch.nlimbs) :
    Sat (ct_lcm_mp_mp result op0 (k0 * LB) op1 (k1 * LB) scratch) (fun r => ∃ res, r = .ok res ∧
      res.len = result.len ∧ res.toNat = Nat.lcm op0.toNat op1.toNat) := by
  have e : ∀ b : Buf .ne, b.len = b.nlimbs * LB := fun b => b.aligned rfl
  have e0 : min (k0 * LB) op0.len = k0 * LB := min_eq_left (by
    rw [e op0]; exact Nat.mul_le_mul_right _ hk0)
  have e1 : min (k1 * LB) op1.len = k1 * LB := min_eq_left (by
    rw [e op1]; exact Nat.mul_le_mul_right _ hk1)
  have hB : ∀ k, 256 ^ (k * LB) = B ^ k := fun k => by rw [B_eq_256_pow, ← pow_mul, Nat.mul_comm]
  refine C33_lcm_limbs_partial result op0 (k0 * LB) op1 (k1 * LB) scratch
    (by rw [e op0, e op1, hlen]) (by rw [hB]; exact h0) (by rw [hB]; exact h1) ?_ ?_ ?_
  · rw [e0, e1, ← Nat.add_mul]; exact Nat.dvd_mul_left _ _
  · rw [e0, e1, Nat.mul_max_mul_right, nlimbs_mul, Nat.sub_self, Nat.add_zero, ← Nat.add_mul, e result]
    exact Nat.mul_le_mul_right _ hres
  · rw [e0, e1, ← Nat.add_mul, e scratch]; exact Nat.mul_le_mul_right _ hscr

/-- C33: without room for the operands, the result is zero. -/
theorem C33_lcm_empty (result : Buf φ) (op0 : Buf ψ) (m0 : ℕ) (op1 : Buf χ) (m1 : ℕ)
    (scratch : Buf χ) (h : min m0 op0.len = 0 ∨ min m1 op1.len = 0) :
    Sat (ct_lcm_mp_mp result op0 m0 op1 m1 scratch) (fun r => ∃ res, r = .ok res ∧
      res.len = result.len ∧ res.toNat = 0) := by
  unfold ct_lcm_mp_mp
  dsimp only
  refine Sat.cond (fun _ => ?_) fun hz => absurd h hz
  refine Sat.bind (Buf.sat_clear_bytes_above result 0 (fun b' e1 e2 => And.intro e1 e2)) ?_
  rintro r ⟨e1, e2⟩
  exact Sat.pure ⟨r, rfl, e1, by rw [e2, pow_zero, Nat.mod_one]⟩

theorem backing_lt (b : Buf χ) (n : ℕ) :
    b.backing_len < Buf.n_backing_elements_for_len χ n ↔ b.len < n := by
  cases χ
  · exact backing_lt_bytes b n rfl
  · exact backing_lt_bytes b n rfl
  · exact backing_lt_limbs b n

/-- C33: operands of different lengths, too short a result and too short a scratch buffer are refused.
(Lengths of a limb and a byte buffer are different only if they differ by a limb or more, see
`C33_lcm_panics_fails` for the others.) -/
theorem C33_lcm_error (result : Buf φ) (op0 : Buf ψ) (m0 : ℕ) (op1 : Buf χ) (m1 : ℕ)
    (scratch : Buf χ) (h0 : op0.toNat < 256 ^ m0) (h1 : op1.toNat < 256 ^ m1)
    (hm0 : min m0 op0.len ≠ 0) (hm1 : min m1 op1.len ≠ 0) :
    (¬ LenCompat op0 op1.len ∨ ¬ LenCompat op1 op0.len →
      Sat (ct_lcm_mp_mp result op0 m0 op1 m1 scratch)
        (fun r => r = .error .InconsistentOperandLengths)) ∧
    (op0.len = op1.len → result.len < min m0 op0.len + min m1 op1.len →
      Sat (ct_lcm_mp_mp result op0 m0 op1 m1 scratch)
        (fun r => r = .error .InsufficientResultSpace)) ∧
    (op0.len = op1.len → min m0 op0.len + min m1 op1.len ≤ result.len →
      scratch.len < min m0 op0.len + min m1 op1.len →
      Sat (ct_lcm_mp_mp result op0 m0 op1 m1 scratch)
        (fun r => r = .error .InsufficientScratchSpace)) := by
  have hsat := ct_lcm_mp_mp_exact result op0 m0 op1 m1 scratch rfl rfl h0 h1
  have hz := not_or.2 ⟨hm0, hm1⟩
  have hc : ∀ hl : op0.len = op1.len, ¬ (¬ LenCompat op0 op1.len ∨ ¬ LenCompat op1 op0.len) :=
    fun hl => not_or.2 ⟨not_not.2 (Or.inl hl.le), not_not.2 (Or.inl hl.ge)⟩
  refine ⟨fun hl => err_of_outcome (hsat.sat ?_) ?_, fun hl hr => err_of_outcome (hsat.sat ?_) ?_,
    fun hl hr hs => err_of_outcome (hsat.sat ?_) ?_⟩
  · intro _ _ c0 c1
    exact absurd hl (not_or.2 ⟨not_not.2 c0, not_not.2 c1⟩)
  · unfold lcmErr
    rw [if_neg hz, if_pos hl]
  · intro _ _ _ _
    exact ⟨hl, fun h => absurd h (by omega)⟩
  · unfold lcmErr
    rw [if_neg hz, if_neg (hc hl), if_pos hr]
  · intro _ _ _ _
    exact ⟨hl, fun _ h => absurd ((backing_lt _ _).2 hs) h⟩
  · unfold lcmErr
    rw [if_neg hz, if_neg (hc hl), if_neg (by omega), if_pos ((backing_lt _ _).2 hs)]

/-- C33: byte buffers of different lengths are refused. -/
theorem C33_lcm_lengths_error (result : Buf φ) (op0 : Buf ψ) (m0 : ℕ) (op1 : Buf χ) (m1 : ℕ)
    (scratch : Buf χ) (hb0 : ψ = .be ∨ ψ = .le) (hb1 : χ = .be ∨ χ = .le)
    (h0 : op0.toNat < 256 ^ m0) (h1 : op1.toNat < 256 ^ m1)
    (hm0 : min m0 op0.len ≠ 0) (hm1 : min m1 op1.len ≠ 0) (hl : op0.len ≠ op1.len) :
    Sat (ct_lcm_mp_mp result op0 m0 op1 m1 scratch)
      (fun r => r = .error .InconsistentOperandLengths) := by
  have hu0 : ψ.unaligned = true := by rcases hb0 with rfl | rfl <;> rfl
  have hu : χ.unaligned = true := by rcases hb1 with rfl | rfl <;> rfl
  have c0 : LenCompat op0 op1.len ↔ op0.len ≤ op1.len := by simp [LenCompat, hu0]
  have c1 : LenCompat op1 op0.len ↔ op1.len ≤ op0.len := by simp [LenCompat, hu]
  exact (C33_lcm_error result op0 m0 op1 m1 scratch h0 h1 hm0 hm1).1 (by rw [c0, c1]; omega)

/-- C33 (findings L1 and L2): the function panics exactly if none of the declared lengths is zero, the
buffer lengths of the operands are compatible, and either are not equal though (L2), or result and scratch
are of the length required, the second operand is in limbs, and the sum of the declared lengths is no
multiple of the limb size, or the result has no room for the excess of the longer one over such a multiple
(L1). -/
theorem C33_lcm_panics_fails (result : Buf φ) (op0 : Buf ψ) (m0 : ℕ) (op1 : Buf χ) (m1 : ℕ)
    (scratch : Buf χ) {n0 n1 : ℕ} (hn0 : n0 = min m0 op0.len) (hn1 : n1 = min m1 op1.len)
    (h0 : op0.toNat < 256 ^ m0) (h1 : op1.toNat < 256 ^ m1) :
    (ct_lcm_mp_mp result op0 m0 op1 m1 scratch).val = none ↔
      n0 ≠ 0 ∧ n1 ≠ 0 ∧ LenCompat op0 op1.len ∧ LenCompat op1 op0.len ∧
      (op0.len ≠ op1.len ∨
        n0 + n1 ≤ result.len ∧ n0 + n1 ≤ scratch.len ∧ χ = .ne ∧
        (¬ LB ∣ n0 + n1 ∨
          result.len < n0 + n1 + (ct_mp_nlimbs (max n0 n1) * LB - max n0 n1))) := by
  rw [(ct_lcm_mp_mp_exact result op0 m0 op1 m1 scratch hn0 hn1 h0 h1).iff]
  unfold LcmOk LcmRoom ct_mp_limbs_align_len
  rw [backing_lt]
  have hle := le_nlimbs_mul (max n0 n1)
  have hu : χ.unaligned = true ↔ χ ≠ .ne := by cases χ <;> simp [Fmt.unaligned]
  rw [hu]
  constructor
  · intro h
    push Not at h
    obtain ⟨a1, a2, a3, a4, h⟩ := h
    refine ⟨a1, a2, a3, a4, ?_⟩
    by_cases hl : op0.len = op1.len
    · obtain ⟨b1, b2, b3, b4⟩ := h hl
      refine Or.inr ⟨b1, b2, b3, ?_⟩
      by_cases hd : LB ∣ n0 + n1
      · exact Or.inr (by have := b4 hd; omega)
      · exact Or.inl hd
    · exact Or.inl hl
  · rintro ⟨a1, a2, a3, a4, h⟩ hc
    obtain ⟨b1, b2⟩ := hc a1 a2 a3 a4
    rcases h with h | ⟨c1, c2, c3, c4⟩
    · exact h b1
    · rcases b2 c1 (by omega) with h | ⟨h, h'⟩
      · exact h c3
      · rcases c4 with c4 | c4
        · exact c4 h
        · omega

omit [LimbCfg] in
/-- C33 doesn't hold as stated: with the second operand in limbs, declared lengths of five and
four bytes panic. -/
theorem C33_lcm_unaligned_fails : ∃ (c : LimbCfg) (result op0 op1 scratch : @Buf c .ne),
    @Buf.len c .ne result = 16 ∧ @Buf.len c .ne op0 = 8 ∧ @Buf.len c .ne op1 = 8 ∧
    @Buf.len c .ne scratch = 16 ∧ @Buf.toNat c .ne op0 = 6 ∧ @Buf.toNat c .ne op1 = 10 ∧
    (@ct_lcm_mp_mp c .ne .ne .ne result op0 5 op1 4 scratch).val.isNone = true :=
  ⟨cfg64, @Buf.ofNat cfg64 .ne 16 0, @Buf.ofNat cfg64 .ne 8 6, @Buf.ofNat cfg64 .ne 8 10,
    @Buf.ofNat cfg64 .ne 16 0, by decide +kernel, by decide +kernel, by decide +kernel,
    by decide +kernel, by decide +kernel, by decide +kernel, by decide +kernel⟩

omit [LimbCfg] in
/-- C33 doesn't hold as stated: with the second operand in limbs, a result of the sum of the declared
lengths of five and three bytes, which the function does not refuse, panics. -/
theorem C33_lcm_tight_fails : ∃ (c : LimbCfg) (result : @Buf c .be) (op0 op1 scratch : @Buf c .ne),
    @Buf.len c .be result = 8 ∧ @Buf.len c .ne op0 = 8 ∧ @Buf.len c .ne op1 = 8 ∧
    @Buf.len c .ne scratch = 8 ∧ @Buf.toNat c .ne op0 = 6 ∧ @Buf.toNat c .ne op1 = 10 ∧
    (@ct_lcm_mp_mp c .be .ne .ne result op0 5 op1 3 scratch).val.isNone = true :=
  ⟨cfg64, @Buf.ofNat cfg64 .be 8 0, @Buf.ofNat cfg64 .ne 8 6, @Buf.ofNat cfg64 .ne 8 10,
    @Buf.ofNat cfg64 .ne 8 0, by decide +kernel, by decide +kernel, by decide +kernel,
    by decide +kernel, by decide +kernel, by decide +kernel, by decide +kernel⟩

omit [LimbCfg] in
/-- C33 doesn't hold as stated: operands with compatible lengths, which are not refused, of one limb and
of seven bytes panic in a debug build. -/
theorem C33_lcm_mixed_len_fails : ∃ (c : LimbCfg) (result : @Buf c .be) (op0 : @Buf c .ne)
    (op1 scratch : @Buf c .be),
    @Buf.len c .be result = 16 ∧ @Buf.len c .ne op0 = 8 ∧ @Buf.len c .be op1 = 7 ∧
    @Buf.len c .be scratch = 16 ∧ @Buf.toNat c .ne op0 = 6 ∧ @Buf.toNat c .be op1 = 10 ∧
    (@ct_lcm_mp_mp c .be .ne .be result op0 8 op1 7 scratch).val.isNone = true :=
  ⟨cfg64, @Buf.ofNat cfg64 .be 16 0, @Buf.ofNat cfg64 .ne 8 6, @Buf.ofNat cfg64 .be 7 10,
    @Buf.ofNat cfg64 .be 16 0, by decide +kernel, by decide +kernel, by decide +kernel,
    by decide +kernel, by decide +kernel, by decide +kernel, by decide +kernel⟩

-- The hypotheses can be met.
example : letI := cfg64;
    (ct_lcm_mp_mp (Buf.ofNat .be 24 0) (Buf.ofNat .le 13 123456789012) 11
      (Buf.ofNat .be 13 123456000) 13 (Buf.ofNat .be 24 77)).val.map
      (fun r => r.toOption.map Buf.toNat) = some (some 1270123445355456000) ∧
    Nat.lcm 123456789012 123456000 = 1270123445355456000 := by
  decide +kernel
example : letI := cfg32;
    (ct_lcm_mp_mp (Buf.ofNat .ne 16 0) (Buf.ofNat .le 12 123456789012) 7
      (Buf.ofNat .ne 12 123456000) 5 (Buf.ofNat .ne 16 77)).val.map
      (fun r => r.toOption.map Buf.toNat) = some (some 1270123445355456000) := by
  decide +kernel
example : letI := cfg64;
    (ct_lcm_mp_mp (Buf.ofNat .ne 24 0) (Buf.ofNat .ne 16 12345678) 8
      (Buf.ofNat .ne 16 0) 16 (Buf.ofNat .ne 24 77)).val.map
      (fun r => r.toOption.map Buf.toNat) = some (some 0) := by
  decide +kernel

end Props
end Cmpa
