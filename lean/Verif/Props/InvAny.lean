import Verif.Proofs.InvMod
import Verif.Props.InvMod

/-!
# Inverses modulo powers of two and modulo any number (C31, C32)

`liftSeq a k` (`Verif.Proofs.InvPow2`) is `1` for `k = 0`, and `2 * x - a * x ^ 2` modulo
`2 ^ (2 ^ k)` with `x = liftSeq a (k - 1)` otherwise.  For odd `a` this is the inverse of `a` modulo
`2 ^ (2 ^ k)` (`liftSeq_is_inverse`).  `LiftOk a max_exp` says that all the values of this sequence for
`2 ^ k < max_exp` are among the numbers the squaring gets right, as in `C10_square_partial`: this always
is the case if `max_exp ≤ 2 * W`.
-/

namespace Cmpa
namespace Props
open M
variable [LimbCfg] {φ ψ χ : Fmt}

/-- The sequence `liftSeq` consists of inverses. -/
theorem liftSeq_is_inverse {a : ℕ} (ha : a % 2 = 1) (k : ℕ) :
    liftSeq a k < 2 ^ (2 ^ k) ∧ a * liftSeq a k % 2 ^ (2 ^ k) = 1 := by
  refine ⟨liftSeq_lt a k, ?_⟩
  have h2 : ((a * liftSeq a k : ℕ) : ℤ) ≡ ((1 : ℕ) : ℤ) [ZMOD ((2 ^ (2 ^ k) : ℕ) : ℤ)] := by
    push_cast
    exact (Int.modEq_iff_dvd.2 (liftSeq_inv ha k)).symm
  have h3 : a * liftSeq a k % 2 ^ (2 ^ k) = 1 % 2 ^ (2 ^ k) := (Int.natCast_modEq_iff).1 h2
  have h4 : 2 ^ 1 ≤ 2 ^ (2 ^ k) := Nat.pow_le_pow_right (by norm_num) Nat.one_le_two_pow
  rw [h3, Nat.mod_eq_of_lt (by omega)]

/-! ## C31 -/

/-- C31, partial: the inverse modulo `2 ^ e`.  For `e = 0` the result is zero, and `op0` need not be odd.

Missing: operands whose inverses meet the defect of the squaring, see `C31_inv_pow2_fails`. -/
theorem C31_inv_pow2_partial (result : Buf φ) (op0 : Buf ψ) (e max_exp : ℕ) (scratch : Buf .ne)
    (h0 : op0.len ≠ 0) (hodd : e = 0 ∨ op0.toNat % 2 = 1) (hmx : max_exp ≠ 0) (he : e ≤ max_exp)
    (hr : (max_exp + 7) / 8 ≤ result.len)
    (hs : ct_mp_nlimbs ((max_exp + 7) / 8) ≤ scratch.nlimbs)
    (hok : LiftOk op0.toNat max_exp) :
    Sat (ct_inv_mod_pow2_mp result op0 e max_exp scratch) (fun s => s.1.len = result.len ∧
      s.2.len = scratch.len ∧ s.1.toNat < 2 ^ e ∧ op0.toNat * s.1.toNat % 2 ^ e = 1 % 2 ^ e) :=
  ct_inv_mod_pow2_mp_sat result op0 scratch h0 hodd hmx he hr hs hok

/-- C31: in particular, without any further condition, up to the size of two limbs. -/
theorem C31_inv_pow2_two_limbs_partial (result : Buf φ) (op0 : Buf ψ) (e max_exp : ℕ)
    (scratch : Buf .ne)
    (h0 : op0.len ≠ 0) (hodd : e = 0 ∨ op0.toNat % 2 = 1) (hmx : max_exp ≠ 0) (he : e ≤ max_exp)
    (hr : (max_exp + 7) / 8 ≤ result.len)
    (hs : ct_mp_nlimbs ((max_exp + 7) / 8) ≤ scratch.nlimbs)
    (hsmall : max_exp ≤ 2 * W) :
    Sat (ct_inv_mod_pow2_mp result op0 e max_exp scratch) (fun s => s.1.len = result.len ∧
      s.2.len = scratch.len ∧ s.1.toNat < 2 ^ e ∧ op0.toNat * s.1.toNat % 2 ^ e = 1 % 2 ^ e) :=
  ct_inv_mod_pow2_mp_sat result op0 scratch h0 hodd hmx he hr hs (liftOk_small hsmall)

/-- C31: for the arguments it is documented for, the function panics exactly if one of the inverses on the
way can't be squared. -/
theorem C31_inv_pow2_panics_fails (result : Buf φ) (op0 : Buf ψ) (e max_exp : ℕ) (scratch : Buf .ne)
    (h0 : op0.len ≠ 0) (hodd : e = 0 ∨ op0.toNat % 2 = 1) (hmx : max_exp ≠ 0) (he : e ≤ max_exp)
    (hr : (max_exp + 7) / 8 ≤ result.len)
    (hs : ct_mp_nlimbs ((max_exp + 7) / 8) ≤ scratch.nlimbs) :
    (ct_inv_mod_pow2_mp result op0 e max_exp scratch).val = none ↔ ¬ LiftOk op0.toNat max_exp :=
  (ct_inv_mod_pow2_mp_exact result op0 scratch h0 hodd hmx he hr hs).iff

omit [LimbCfg] in
/-- C31 doesn't hold as stated: an odd operand for which the function panics in a debug build. -/
theorem C31_inv_pow2_fails : ∃ (c : LimbCfg) (result op0 scratch : @Buf c .ne),
    @Buf.len c .ne result = 32 ∧ @Buf.len c .ne op0 = 16 ∧ @Buf.len c .ne scratch = 32 ∧
    @Buf.toNat c .ne op0 % 2 = 1 ∧
    (@ct_inv_mod_pow2_mp c .ne .ne result op0 129 129 scratch).val.isNone = true :=
  ⟨cfg64, @Buf.ofNat cfg64 .ne 32 0, @Buf.ofNat cfg64 .ne 16 170141183460469231713240559642174554111,
    @Buf.ofNat cfg64 .ne 32 0, by decide +kernel, by decide +kernel, by decide +kernel,
    by decide +kernel, by decide +kernel⟩

-- The hypotheses can be met.
example : letI := cfg64;
    (ct_inv_mod_pow2_mp (Buf.ofNat .be 17 99) (Buf.ofNat .le 3 77777) 125 127
      (Buf.ofNat .ne 16 5)).val.map (fun s => 77777 * s.1.toNat % 2 ^ 125) = some 1 := by
  decide +kernel
example : letI := cfg32;
    (ct_inv_mod_pow2_mp (Buf.ofNat .ne 16 99) (Buf.ofNat .le 3 77777) 61 64
      (Buf.ofNat .ne 8 5)).val.map (fun s => 77777 * s.1.toNat % 2 ^ 61) = some 1 := by
  decide +kernel
-- More than two limbs: `LiftOk` holds for `3` up to 256 bits.
example : letI := cfg64; LiftOk 3 256 := by
  let _ := cfg64
  have h : ∀ (k : Fin 8) (i j : Fin 4), i.1 < j.1 →
      (liftSeq 3 k / B ^ i.1 % B) * (liftSeq 3 k / B ^ j.1 % B) / B ≠ 2 ^ (W - 1) - 1 ∧
      (liftSeq 3 k / B ^ i.1 % B) * (liftSeq 3 k / B ^ j.1 % B) / B ≠ 2 ^ (W - 1) - 2 := by
    decide +kernel
  refine fun k hk => SquareOk.of_ne fun i j hij hs => ?_
  have hs' : i + j + 1 < 4 := hs
  have hk8 : k < 8 := (Nat.pow_lt_pow_iff_right (by norm_num : 1 < 2)).1
    (show 2 ^ k < 2 ^ 8 by omega)
  exact h ⟨k, hk8⟩ ⟨i, by omega⟩ ⟨j, by omega⟩ hij

/-! ## C32 -/

/-- Where `ct_inv_mod_mp_mp` finds room for its work. -/
def InvRoom (op0 : Buf φ) (n : Buf ψ) (s0 s1 s2 s3 : Buf .ne) : Prop :=
  n.len ≠ 0 ∧ LenCompat n op0.len ∧ LenCompat op0 n.len ∧ n.nlimbs ≤ s0.nlimbs ∧
    n.nlimbs ≤ s1.nlimbs ∧ n.nlimbs ≤ s2.nlimbs ∧ n.nlimbs ≤ s3.nlimbs

theorem early_none {op0 : Buf φ} {n : Buf ψ} {s0 s1 s2 s3 : Buf .ne}
    (hr : InvRoom op0 n s0 s1 s2 s3) (h0 : n.toNat ≠ 0)
    (h2 : ¬ (op0.toNat % 2 = 0 ∧ n.toNat % 2 = 0)) : invModEarly op0 n s0 s1 s2 s3 = none := by
  obtain ⟨a1, a2, a3, a4, a5, a6, a7⟩ := hr
  unfold invModEarly
  rw [if_neg a1, if_neg (not_not.2 a2), if_neg (not_not.2 a3), if_neg h2, if_neg (by omega),
    if_neg h0]

omit [LimbCfg] in
theorem not_both_even {a n : ℕ} (h : Nat.gcd a n = 1) : ¬ (a % 2 = 0 ∧ n % 2 = 0) := fun ⟨h1, h2⟩ => by
  have := Nat.dvd_gcd (Nat.dvd_of_mod_eq_zero h1) (Nat.dvd_of_mod_eq_zero h2)
  rw [h] at this
  omega

/-- C32, partial: the inverse modulo any `n > 1`, as long as the coefficients modulo the odd part of `n` fit
(see `C30_inv_odd_run_partial`).

Missing: that they do (see `C32_inv_fails`), and operands meeting the defect of the squaring (`hok`, `hok'`; see
`C32_inv_panic_fails`). -/
theorem C32_inv_run_partial (op0 : Buf φ) (n : Buf ψ) (s0 s1 s2 s3 : Buf .ne)
    (hr : InvRoom op0 n s0 s1 s2 s3) (h1 : 1 < n.toNat) (hcop : Nat.gcd op0.toNat n.toNat = 1)
    (hfit : ∀ m e, m % 2 = 1 → n.toNat = m * 2 ^ e → FitsRun m op0.toNat n.nlimbs)
    (hok : LiftOk op0.toNat (8 * n.len - 1))
    (hok' : ∀ m e, m % 2 = 1 → n.toNat = m * 2 ^ e → LiftOk m (8 * n.len - 1)) :
    Sat (ct_inv_mod_mp_mp op0 n s0 s1 s2 s3) (fun r => r.1.len = n.len ∧ r.1.toNat = n.toNat ∧
      ∃ o, r.2 = .ok o ∧ o.len = op0.len ∧ o.toNat < n.toNat ∧
        op0.toNat * o.toNat % n.toNat = 1) := by
  refine (ct_inv_mod_mp_mp_sat op0 n s0 s1 s2 s3 fun _ => ⟨hok, fun m e h2 h3 _ =>
    ⟨hfit m e h2 h3, hok' m e h2 h3⟩⟩).mono ?_
  rintro ⟨n', r⟩ ⟨a1, a2, a3⟩
  refine ⟨a1, a2, ?_⟩
  have he : invModErr op0 n s0 s1 s2 s3 = none := by
    unfold invModErr
    rw [early_none hr (by omega) (not_both_even hcop), if_neg (by omega)]; rfl
  dsimp only at a3
  rw [he] at a3
  cases r with
  | error er => cases a3
  | ok o => exact ⟨o, rfl, a3.2⟩

/-- C32: exactly when the function panics, for any arguments: by one of the squarings done to invert the operand modulo
a power of two, or, for coprime operands, by the inversion modulo the odd part of the modulus, or by a squaring done
to invert the odd part modulo a power of two. -/
theorem C32_inv_panics_fails (op0 : Buf φ) (n : Buf ψ) (s0 s1 s2 s3 : Buf .ne) :
    (ct_inv_mod_mp_mp op0 n s0 s1 s2 s3).val = none ↔
      InvRoom op0 n s0 s1 s2 s3 ∧ n.toNat ≠ 0 ∧ ¬ (op0.toNat % 2 = 0 ∧ n.toNat % 2 = 0) ∧
      (¬ LiftOk op0.toNat (8 * n.len - 1) ∨ Nat.gcd op0.toNat n.toNat = 1 ∧
        ∃ m e, m % 2 = 1 ∧ n.toNat = m * 2 ^ e ∧
          (m ≠ 1 ∧ invCoef m op0.toNat n.nlimbs = 0 ∨ ¬ LiftOk m (8 * n.len - 1))) := by
  rw [(ct_inv_mod_mp_mp_exact op0 n s0 s1 s2 s3).iff]
  unfold InvAnyOk
  rw [Classical.not_imp]
  constructor
  · rintro ⟨h0, h1⟩
    have hr : InvRoom op0 n s0 s1 s2 s3 ∧ n.toNat ≠ 0 ∧ ¬ (op0.toNat % 2 = 0 ∧ n.toNat % 2 = 0) := by
      unfold invModEarly at h0
      split_ifs at h0 with e1 e2 e3 e4 e5 e6
      exact ⟨⟨e1, e2, e3, by omega⟩, e6, e4⟩
    refine ⟨hr.1, hr.2.1, hr.2.2, ?_⟩
    rcases not_and_or.1 h1 with h1 | h1
    · exact Or.inl h1
    · right
      push Not at h1
      obtain ⟨m, e, h2, h3, h4, h5⟩ := h1
      refine ⟨h4, m, e, h2, h3, ?_⟩
      by_cases h6 : m = 1 ∨ invCoef m op0.toNat n.nlimbs ≠ 0
      · exact Or.inr (h5 h6)
      · rw [not_or, not_not] at h6
        exact Or.inl h6
  · rintro ⟨h1, h2, h3, h4⟩
    refine ⟨early_none h1 h2 h3, ?_⟩
    rintro ⟨h5, h6⟩
    rcases h4 with h4 | ⟨h4, m, e, h7, h8, h9⟩
    · exact h4 h5
    · obtain ⟨h10, h11⟩ := h6 m e h7 h8 h4
      rcases h9 with ⟨h9, h9'⟩ | h9
      · exact h10.elim h9 (fun h => h h9')
      · exact h9 h11

/-- C32, partial: the inverse of `op0`, which need not be reduced, modulo any `n > 1`; `n` is unchanged.

Missing: moduli whose odd part uses the most significant limb of the buffer (`hn`; see
`C32_inv_fails`) and operands meeting the defect of the squaring (`hok`, `hok'`; see
`C32_inv_panic_fails`). -/
theorem C32_inv_partial (op0 : Buf φ) (n : Buf ψ) (s0 s1 s2 s3 : Buf .ne)
    (hr : InvRoom op0 n s0 s1 s2 s3) (h1 : 1 < n.toNat) (hcop : Nat.gcd op0.toNat n.toNat = 1)
    (hn : ∀ m e, m % 2 = 1 → n.toNat = m * 2 ^ e → m < B ^ (n.nlimbs - 1) ∨ m = 1)
    (hok : LiftOk op0.toNat (8 * n.len - 1))
    (hok' : ∀ m e, m % 2 = 1 → n.toNat = m * 2 ^ e → LiftOk m (8 * n.len - 1)) :
    Sat (ct_inv_mod_mp_mp op0 n s0 s1 s2 s3) (fun r => r.1.len = n.len ∧ r.1.toNat = n.toNat ∧
      ∃ o, r.2 = .ok o ∧ o.len = op0.len ∧ o.toNat < n.toNat ∧
        op0.toNat * o.toNat % n.toNat = 1) := by
  refine C32_inv_run_partial op0 n s0 s1 s2 s3 hr h1 hcop (fun m e h2 h3 => ?_) hok hok'
  refine fitsRun_of_le h2 ?_ ?_ _
  · rw [Buf.nlimbs_eq, nlimbs_pos_iff]; exact Nat.pos_of_ne_zero hr.1
  · rcases hn m e h2 h3 with h | h
    · exact h.le
    · rw [h]; exact B_pow_pos _

/-- C32: in particular, without conditions on the squaring, for moduli in buffers of at most two
limbs. -/
theorem C32_inv_two_limbs_partial (op0 : Buf φ) (n : Buf ψ) (s0 s1 s2 s3 : Buf .ne)
    (hr : InvRoom op0 n s0 s1 s2 s3) (h1 : 1 < n.toNat) (hcop : Nat.gcd op0.toNat n.toNat = 1)
    (hn : ∀ m e, m % 2 = 1 → n.toNat = m * 2 ^ e → m < B ^ (n.nlimbs - 1) ∨ m = 1)
    (hsmall : n.len ≤ 2 * LB) :
    Sat (ct_inv_mod_mp_mp op0 n s0 s1 s2 s3) (fun r => r.1.len = n.len ∧ r.1.toNat = n.toNat ∧
      ∃ o, r.2 = .ok o ∧ o.len = op0.len ∧ o.toNat < n.toNat ∧
        op0.toNat * o.toNat % n.toNat = 1) := by
  have h : 8 * n.len - 1 ≤ 2 * W := by rw [W_eq]; omega
  exact C32_inv_partial op0 n s0 s1 s2 s3 hr h1 hcop hn (liftOk_small h)
    fun _ _ _ _ => liftOk_small h

/-- C32: operands which are not coprime, and the modulus one, are refused; `n` is unchanged. -/
theorem C32_inv_not_coprime_partial (op0 : Buf φ) (n : Buf ψ) (s0 s1 s2 s3 : Buf .ne)
    (hr : InvRoom op0 n s0 s1 s2 s3) (h0 : n.toNat ≠ 0)
    (hcop : Nat.gcd op0.toNat n.toNat ≠ 1 ∨ n.toNat = 1)
    (hok : LiftOk op0.toNat (8 * n.len - 1)) (hok' : n.toNat = 1 → LiftOk 1 (8 * n.len - 1)) :
    Sat (ct_inv_mod_mp_mp op0 n s0 s1 s2 s3) (fun r => r.1.len = n.len ∧ r.1.toNat = n.toNat ∧
      r.2 = .error .OperandsNotCoprime) := by
  refine (ct_inv_mod_mp_mp_sat op0 n s0 s1 s2 s3 fun _ => ⟨hok, fun m e h2 h3 h4 => ?_⟩).mono ?_
  · have hn1 := hcop.resolve_left (not_not.2 h4)
    rw [hn1] at h3
    have hm : m = 1 := Nat.dvd_one.1 ⟨2 ^ e, h3⟩
    rw [hm]
    refine ⟨fitsRun_of_le (by norm_num) ?_ (B_pow_pos _) _, hok' hn1⟩
    rw [Buf.nlimbs_eq, nlimbs_pos_iff]; exact Nat.pos_of_ne_zero hr.1
  · rintro ⟨n', r⟩ ⟨a1, a2, a3⟩
    refine ⟨a1, a2, ?_⟩
    have he : invModErr op0 n s0 s1 s2 s3 = some .OperandsNotCoprime := by
      unfold invModErr
      rw [if_pos hcop]
      by_cases hev : op0.toNat % 2 = 0 ∧ n.toNat % 2 = 0
      · obtain ⟨b1, b2, b3, -⟩ := hr
        unfold invModEarly
        rw [if_neg b1, if_neg (not_not.2 b2), if_neg (not_not.2 b3), if_pos hev]; rfl
      · rw [early_none hr h0 hev]; rfl
    dsimp only at a3 ⊢
    rw [he] at a3
    cases r with
    | error er => cases a3; rfl
    | ok o => cases a3.1

/-- C32: an empty or zero modulus, buffers of different size, two even operands and too little scratch space are
refused, without any condition on the operands; `n` is unchanged. -/
theorem C32_inv_error (op0 : Buf φ) (n : Buf ψ) (s0 s1 s2 s3 : Buf .ne)
    (h : ¬ InvRoom op0 n s0 s1 s2 s3 ∨ n.toNat = 0 ∨ (op0.toNat % 2 = 0 ∧ n.toNat % 2 = 0)) :
    Sat (ct_inv_mod_mp_mp op0 n s0 s1 s2 s3) (fun r => r.1.len = n.len ∧ r.1.toNat = n.toNat ∧
      r.2 = .error (
        if n.len = 0 then .InvalidModulus
        else if ¬ LenCompat n op0.len then .InsufficientResultSpace
        else if ¬ LenCompat op0 n.len then .InconsistentOperandLengths
        else if op0.toNat % 2 = 0 ∧ n.toNat % 2 = 0 then .OperandsNotCoprime
        else if ¬ (n.nlimbs ≤ s0.nlimbs ∧ n.nlimbs ≤ s1.nlimbs ∧ n.nlimbs ≤ s2.nlimbs ∧
          n.nlimbs ≤ s3.nlimbs) then .InsufficientScratchSpace
        else .InvalidModulus)) := by
  have key : invModEarly op0 n s0 s1 s2 s3 = some (
        if n.len = 0 then .InvalidModulus
        else if ¬ LenCompat n op0.len then .InsufficientResultSpace
        else if ¬ LenCompat op0 n.len then .InconsistentOperandLengths
        else if op0.toNat % 2 = 0 ∧ n.toNat % 2 = 0 then .OperandsNotCoprime
        else if ¬ (n.nlimbs ≤ s0.nlimbs ∧ n.nlimbs ≤ s1.nlimbs ∧ n.nlimbs ≤ s2.nlimbs ∧
          n.nlimbs ≤ s3.nlimbs) then .InsufficientScratchSpace
        else .InvalidModulus) := by
    unfold invModEarly
    unfold InvRoom at h
    by_cases a1 : n.len = 0
    · rw [if_pos a1, if_pos a1]
    rw [if_neg a1, if_neg a1]
    by_cases a2 : ¬ LenCompat n op0.len
    · rw [if_pos a2, if_pos a2]
    rw [if_neg a2, if_neg a2]
    by_cases a3 : ¬ LenCompat op0 n.len
    · rw [if_pos a3, if_pos a3]
    rw [if_neg a3, if_neg a3]
    by_cases a4 : op0.toNat % 2 = 0 ∧ n.toNat % 2 = 0
    · rw [if_pos a4, if_pos a4]
    rw [if_neg a4, if_neg a4]
    by_cases a5 : n.nlimbs ≤ s0.nlimbs ∧ n.nlimbs ≤ s1.nlimbs ∧ n.nlimbs ≤ s2.nlimbs ∧
          n.nlimbs ≤ s3.nlimbs
    · rw [if_neg (by omega), if_neg (not_not.2 a5), if_pos]
      rcases h with h | h | h
      · exact absurd ⟨a1, not_not.1 a2, not_not.1 a3, a5⟩ h
      · exact h
      · exact absurd h a4
    · rw [if_pos (by omega), if_pos a5]
  refine (ct_inv_mod_mp_mp_sat op0 n s0 s1 s2 s3 fun h => by rw [key] at h; cases h).mono ?_
  rintro ⟨n', r⟩ ⟨a1, a2, a3⟩
  refine ⟨a1, a2, ?_⟩
  dsimp only at a3 ⊢
  unfold invModErr at a3
  rw [key] at a3
  cases r with
  | error er => exact congrArg Except.error (Option.some.inj a3).symm
  | ok o => cases a3.1

/-- The result, for the examples. -/
def invAnyNum : Buf ψ × Except GcdError (Buf φ) → Option ℕ
  | (_, .ok a) => some a.toNat
  | (_, .error _) => none

omit [LimbCfg] in
/-- C32 doesn't hold as stated: modulo `666634813049`, in buffers of one limb of 64 bits, the number
returned for `407238868042` is not its inverse. -/
theorem C32_inv_fails : ∃ (c : LimbCfg) (op0 n : @Buf c .be) (s : @Buf c .ne) (x : ℕ),
    @Buf.toNat c .be n = 666634813049 ∧ @Buf.toNat c .be op0 = 407238868042 ∧
    @InvRoom c .be .be op0 n s s s s ∧
    Nat.gcd 407238868042 666634813049 = 1 ∧
    (@ct_inv_mod_mp_mp c .be .be op0 n s s s s).val.bind (@invAnyNum c .be .be) = some x ∧
    ¬ 407238868042 * x % 666634813049 = 1 :=
  ⟨cfg64, @Buf.ofNat cfg64 .be 8 407238868042, @Buf.ofNat cfg64 .be 8 666634813049,
    @Buf.ofNat cfg64 .ne 8 0, 666634807410, by decide +kernel, by decide +kernel,
    ⟨by decide +kernel, by decide +kernel, by decide +kernel, by decide +kernel, by decide +kernel,
      by decide +kernel, by decide +kernel⟩, by decide +kernel, by decide +kernel, by decide +kernel⟩

omit [LimbCfg] in
/-- C32: nor does the function return for all coprime operands: an operand and a modulus of `256`, in
buffers of four limbs, for which it panics in a debug build. -/
theorem C32_inv_panic_fails : ∃ (c : LimbCfg) (op0 n s : @Buf c .ne),
    @Buf.toNat c .ne n = 256 ∧ @Buf.toNat c .ne op0 % 2 = 1 ∧
    @InvRoom c .ne .ne op0 n s s s s ∧
    (@ct_inv_mod_mp_mp c .ne .ne op0 n s s s s).val.isNone = true :=
  ⟨cfg64, @Buf.ofNat cfg64 .ne 32 170141183460469231713240559642174554111,
    @Buf.ofNat cfg64 .ne 32 256, @Buf.ofNat cfg64 .ne 32 0, by decide +kernel, by decide +kernel,
    ⟨by decide +kernel, by decide +kernel, by decide +kernel, by decide +kernel, by decide +kernel,
      by decide +kernel, by decide +kernel⟩, by decide +kernel⟩

-- The hypotheses can be met: even and odd moduli, and a power of two using all of the buffer.
example : letI := cfg64;
    ((ct_inv_mod_mp_mp (Buf.ofNat .be 12 12345) (Buf.ofNat .le 12 (2 ^ 30 * 1000003))
      (Buf.ofNat .ne 16 1) (Buf.ofNat .ne 16 2) (Buf.ofNat .ne 16 3) (Buf.ofNat .ne 16 4)).val.bind
        invAnyNum).map (fun x => 12345 * x % (2 ^ 30 * 1000003)) = some 1 := by decide +kernel
example : letI := cfg64;
    ((ct_inv_mod_mp_mp (Buf.ofNat .be 8 12345) (Buf.ofNat .le 8 (2 ^ 63))
      (Buf.ofNat .ne 16 1) (Buf.ofNat .ne 16 2) (Buf.ofNat .ne 16 3) (Buf.ofNat .ne 16 4)).val.bind
        invAnyNum).map (fun x => 12345 * x % 2 ^ 63) = some 1 := by decide +kernel
example : letI := cfg32;
    ((ct_inv_mod_mp_mp (Buf.ofNat .ne 8 12346) (Buf.ofNat .le 7 1000003)
      (Buf.ofNat .ne 8 1) (Buf.ofNat .ne 8 2) (Buf.ofNat .ne 8 3) (Buf.ofNat .ne 8 4)).val.bind
        invAnyNum).map (fun x => 12346 * x % 1000003) = some 1 := by decide +kernel
example : letI := cfg32;
    ((ct_inv_mod_mp_mp (Buf.ofNat .ne 8 15) (Buf.ofNat .le 7 24)
      (Buf.ofNat .ne 8 1) (Buf.ofNat .ne 8 2) (Buf.ofNat .ne 8 3) (Buf.ofNat .ne 8 4)).val.map
        (fun r => (r.1.toNat, (invAnyNum r).isNone))) = some (24, true) := by decide +kernel

end Props
end Cmpa
