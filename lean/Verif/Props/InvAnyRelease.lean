import Verif.Proofs.InvModRelease
import Verif.Props.InvAny

/-!
# Inverses modulo any number, in a release build (C32)

A debug build panics if a squaring done to invert a number modulo a power of two meets the defect of the squaring, even
if the modulus is odd and that inverse is modulo one.  A release build goes on.  Only the bits of that inverse below the
power of two dividing the modulus matter, and these are right if that power of two has three limbs at most.
-/

namespace Cmpa
namespace Props
open M
variable [LimbCfg] {φ ψ : Fmt}

/-- C32, in a release build: the inverse modulo any `n > 1` which isn't a multiple of `2 ^ (3 * W + 1)`, without any
condition on the squarings, as long as the coefficients modulo the odd part of `n` fit. -/
theorem C32_inv_release_run_partial (op0 : Buf φ) (n : Buf ψ) (s0 s1 s2 s3 : Buf .ne)
    (hr : InvRoom op0 n s0 s1 s2 s3) (h1 : 1 < n.toNat) (hcop : Nat.gcd op0.toNat n.toNat = 1)
    (hfit : ∀ m e, m % 2 = 1 → n.toNat = m * 2 ^ e → FitsRun m op0.toNat n.nlimbs)
    (h3 : ¬ 2 ^ (3 * W + 1) ∣ n.toNat) :
    RSat (ct_inv_mod_mp_mp op0 n s0 s1 s2 s3) (fun r => r.1.len = n.len ∧ r.1.toNat = n.toNat ∧
      ∃ o, r.2 = .ok o ∧ o.len = op0.len ∧ o.toNat < n.toNat ∧ op0.toNat * o.toNat % n.toNat = 1) := by
  refine (ct_inv_mod_mp_mp_rel op0 n s0 s1 s2 s3 fun _ m e h4 h5 => ⟨?_, fun _ => hfit m e h4 h5⟩).mono ?_
  · by_contra h
    exact h3 (h5 ▸ (pow_dvd_pow 2 (by omega)).mul_left m)
  rintro ⟨n', r⟩ ⟨a1, a2, a3⟩
  refine ⟨a1, a2, ?_⟩
  have he : invModErr op0 n s0 s1 s2 s3 = none := by
    unfold invModErr
    rw [early_none hr (by omega) (not_both_even hcop), if_neg (by omega)]; rfl
  dsimp only at a3
  rw [he] at a3
  cases r with
  | error er => cases a3
  | ok o => exact ⟨o, rfl, a3.2⟩

/-- C32, in a release build: in particular if the odd part of `n` leaves the most significant limb of the buffer zero. -/
theorem C32_inv_release_partial (op0 : Buf φ) (n : Buf ψ) (s0 s1 s2 s3 : Buf .ne)
    (hr : InvRoom op0 n s0 s1 s2 s3) (h1 : 1 < n.toNat) (hcop : Nat.gcd op0.toNat n.toNat = 1)
    (hn : ∀ m e, m % 2 = 1 → n.toNat = m * 2 ^ e → m < B ^ (n.nlimbs - 1) ∨ m = 1)
    (h3 : ¬ 2 ^ (3 * W + 1) ∣ n.toNat) :
    RSat (ct_inv_mod_mp_mp op0 n s0 s1 s2 s3) (fun r => r.1.len = n.len ∧ r.1.toNat = n.toNat ∧
      ∃ o, r.2 = .ok o ∧ o.len = op0.len ∧ o.toNat < n.toNat ∧ op0.toNat * o.toNat % n.toNat = 1) := by
  refine C32_inv_release_run_partial op0 n s0 s1 s2 s3 hr h1 hcop (fun m e h2 h4 => ?_) h3
  refine fitsRun_of_le h2 ?_ ?_ _
  · rw [Buf.nlimbs_eq, nlimbs_pos_iff]; exact Nat.pos_of_ne_zero hr.1
  · rcases hn m e h2 h4 with h | h
    · exact h.le
    · rw [h]; exact B_pow_pos _

/-- C32, in a release build: so for all odd `n` leaving the most significant limb zero. -/
theorem C32_inv_release_odd_partial (op0 : Buf φ) (n : Buf ψ) (s0 s1 s2 s3 : Buf .ne)
    (hr : InvRoom op0 n s0 s1 s2 s3) (h1 : 1 < n.toNat) (hodd : n.toNat % 2 = 1)
    (hcop : Nat.gcd op0.toNat n.toNat = 1) (hn : n.toNat < B ^ (n.nlimbs - 1)) :
    RSat (ct_inv_mod_mp_mp op0 n s0 s1 s2 s3) (fun r => r.1.len = n.len ∧ r.1.toNat = n.toNat ∧
      ∃ o, r.2 = .ok o ∧ o.len = op0.len ∧ o.toNat < n.toNat ∧ op0.toNat * o.toNat % n.toNat = 1) := by
  refine C32_inv_release_partial op0 n s0 s1 s2 s3 hr h1 hcop (fun m e _ h => Or.inl ?_) fun h => ?_
  · exact lt_of_le_of_lt (by rw [h]; exact Nat.le_mul_of_pos_right _ (by positivity)) hn
  · have := (dvd_pow_self 2 (by omega : 3 * W + 1 ≠ 0)).trans h
    omega

/-- C32, in a release build: operands which are not coprime, and the modulus one, are refused; `n` is unchanged. -/
theorem C32_inv_release_not_coprime_partial (op0 : Buf φ) (n : Buf ψ) (s0 s1 s2 s3 : Buf .ne)
    (hr : InvRoom op0 n s0 s1 s2 s3) (h0 : n.toNat ≠ 0)
    (hcop : Nat.gcd op0.toNat n.toNat ≠ 1 ∨ n.toNat = 1) (h3 : ¬ 2 ^ (3 * W + 1) ∣ n.toNat) :
    RSat (ct_inv_mod_mp_mp op0 n s0 s1 s2 s3) (fun r => r.1.len = n.len ∧ r.1.toNat = n.toNat ∧
      r.2 = .error .OperandsNotCoprime) := by
  refine (ct_inv_mod_mp_mp_rel op0 n s0 s1 s2 s3 fun _ m e h4 h5 => ⟨?_, fun h6 => ?_⟩).mono ?_
  · by_contra h
    exact h3 (h5 ▸ (pow_dvd_pow 2 (by omega)).mul_left m)
  · have hn1 := hcop.resolve_left (not_not.2 h6)
    rw [hn1] at h5
    have hm : m = 1 := Nat.dvd_one.1 ⟨2 ^ e, h5⟩
    rw [hm]
    refine fitsRun_of_le (by norm_num) ?_ (B_pow_pos _) _
    rw [Buf.nlimbs_eq, nlimbs_pos_iff]; exact Nat.pos_of_ne_zero hr.1
  · rintro ⟨n', r⟩ ⟨a1, a2, a3⟩
    refine ⟨a1, a2, ?_⟩
    have he : invModErr op0 n s0 s1 s2 s3 = some .OperandsNotCoprime := by
      unfold invModErr
      rw [if_pos hcop]
      by_cases hev : op0.toNat % 2 = 0 ∧ n.toNat % 2 = 0
      · obtain ⟨b1, b2, b3, -⟩ := hr
        unfold invModEarly
        rw [if_neg b1, if_neg (not_not.2 b2), if_neg (not_not.2 b3), if_pos hev]; rfl
      · rw [early_none hr h0 hev]; rfl
    dsimp only at a3
    rw [he] at a3
    cases r with
    | error er => cases a3; rfl
    | ok o => cases a3.1

-- The operand of `C32_inv_panic_fails`, for which a debug build panics.
example : letI := cfg64;
    let s := Buf.ofNat .ne 32 0
    ((ct_inv_mod_mp_mp (Buf.ofNat .ne 32 170141183460469231713240559642174554111) (Buf.ofNat .ne 32 256)
      s s s s).rel.bind invAnyNum).map (fun x => x * 170141183460469231713240559642174554111 % 256) = some 1 := by
  decide +kernel

omit [LimbCfg] in
/-- C32 doesn't hold for larger powers of two: an odd number and the modulus `2 ^ 191`, in buffers of six limbs of 32
bits, for which a release build returns a number which isn't the inverse (finding S1). -/
theorem C32_inv_release_fails : ∃ (c : LimbCfg) (op0 n s : @Buf c .ne) (x : ℕ),
    @Buf.toNat c .ne n = 2 ^ 191 ∧ @Buf.toNat c .ne op0 % 2 = 1 ∧ @InvRoom c .ne .ne op0 n s s s s ∧
    (@ct_inv_mod_mp_mp c .ne .ne op0 n s s s s).rel.bind (@invAnyNum c .ne .ne) = some x ∧
    ¬ @Buf.toNat c .ne op0 * x % 2 ^ 191 = 1 :=
  ⟨cfg32, @Buf.ofNat cfg32 .ne 24 85070591651006453342355942223248359423, @Buf.ofNat cfg32 .ne 24 (2 ^ 191),
    @Buf.ofNat cfg32 .ne 24 0, 784637718750212141462537591892915578486439955825367711743, by decide +kernel, by decide +kernel,
    ⟨by decide +kernel, by decide +kernel, by decide +kernel, by decide +kernel, by decide +kernel,
      by decide +kernel, by decide +kernel⟩, by decide +kernel, by decide +kernel⟩

end Props
end Cmpa
