import Verif.Proofs.InvPow2Release
import Verif.Props.Mul
import Verif.Props.InvAny

/-!
# Squaring, and inverses modulo powers of two, in a release build (C10, C31)

A debug build panics for the operands which are not `Squarable`.  A release build always returns a number.  Which one
is stated here, for all operands.
-/

namespace Cmpa
namespace Props
open M
variable [LimbCfg] {f φ ψ : Fmt}

/-- Specification: nothing gets lost on the way to the low `N` limbs of the square of `x`: for each two different limbs,
the carry following their product has the same upper limb as the doubled upper half of that product. -/
def SquareKept (N x : ℕ) : Prop := ∀ i j, i < j → i + j + 2 < N →
  crossCarry x i j / B = 2 * ((x / B ^ i % B) * (x / B ^ j % B) / B) / B

/-- C10: in a release build, the result is the square less a sum of powers of the limb base, one for each loss, the
losses being those of `SquareKept`. -/
theorem C10_square_release_exact (a : Buf f) (n : ℕ) (hn : n ≤ a.len) :
    RSat (ct_square_trunc_mp a n) (fun a' => a'.len = a.len ∧ ∃ S : Finset (ℕ × ℕ),
      (∀ p ∈ S, p.1 ≤ p.2 ∧ p.1 + p.2 + 1 < a.nlimbs) ∧ (S = ∅ ↔ SquareKept a.nlimbs (a.toNat % 256 ^ n)) ∧
      (a'.toNat + ∑ p ∈ S, B ^ (p.1 + p.2 + 1)) % 256 ^ a.len = (a.toNat % 256 ^ n) ^ 2 % 256 ^ a.len) := by
  refine (ct_square_trunc_mp_rel a n hn le_rfl).mono ?_
  rw [← Buf.nlimbs_eq]
  rintro a' ⟨h1, S, h2, h3⟩
  refine ⟨h1, S.map (Equiv.prodComm ℕ ℕ).toEmbedding, ?_, ?_, ?_⟩
  · intro p hp
    obtain ⟨q, hq, rfl⟩ := Finset.mem_map.1 hp
    have := h2.mem q hq
    dsimp [Equiv.prodComm] at this ⊢
    omega
  · rw [Finset.map_eq_empty, h2.iff]
    exact ⟨fun h i j h4 h5 => h i j h4 h5 (Nat.zero_le _), fun h i j h4 h5 _ => h i j h4 h5⟩
  · rw [Finset.sum_map, ← Nat.ModEq, ← ZMod.natCast_eq_natCast_iff]
    push_cast
    rw [← h3]
    unfold lossSum
    congr 1
    refine Finset.sum_congr rfl fun p _ => ?_
    dsimp [Equiv.prodComm]
    rw [Nat.add_comm p.2]

/-- C10: so it is the square if nothing gets lost. -/
theorem C10_square_release_partial (a : Buf f) (n : ℕ) (hn : n ≤ a.len)
    (hk : SquareKept a.nlimbs (a.toNat % 256 ^ n)) :
    RSat (ct_square_trunc_mp a n) (fun a' => a'.len = a.len ∧
      a'.toNat = (a.toNat % 256 ^ n) ^ 2 % 256 ^ a.len) := by
  refine (C10_square_release_exact a n hn).mono ?_
  rintro a' ⟨h1, S, -, h2, h3⟩
  refine ⟨h1, ?_⟩
  rw [h2.2 hk, Finset.sum_empty, Nat.add_zero] at h3
  rwa [Nat.mod_eq_of_lt (by rw [← h1]; exact a'.toNat_lt)] at h3

/-- C10: and only if nothing gets lost, as long as the bytes of the highest limb can count the limbs. -/
theorem C10_square_release_iff (a : Buf f) (n : ℕ) (hn : n ≤ a.len)
    (hc : a.nlimbs < 256 ^ (a.len - (a.nlimbs - 1) * LB)) :
    RSat (ct_square_trunc_mp a n) (fun a' => a'.len = a.len ∧
      (a'.toNat = (a.toNat % 256 ^ n) ^ 2 % 256 ^ a.len ↔ SquareKept a.nlimbs (a.toNat % 256 ^ n))) := by
  refine (ct_square_trunc_mp_rel a n hn le_rfl).mono ?_
  rw [← Buf.nlimbs_eq]
  rintro a' ⟨h1, S, h2, h3⟩
  refine ⟨h1, ?_⟩
  have h4 : S = ∅ ↔ SquareKept a.nlimbs (a.toNat % 256 ^ n) := by
    rw [h2.iff]
    exact ⟨fun h i j h4 h5 => h i j h4 h5 (Nat.zero_le _), fun h i j h4 h5 _ => h i j h4 h5⟩
  rw [← h4]
  constructor
  · intro h5
    by_contra hS
    refine lossSum_ne (by rw [Buf.nlimbs_eq]) h2 (Finset.nonempty_iff_ne_empty.2 hS) hc ?_
    have h6 : (a'.toNat : RingOf a.len) = ((a.toNat % 256 ^ n : ℕ) : RingOf a.len) ^ 2 := by
      rw [h5, ← Nat.cast_pow, ZMod.natCast_eq_natCast_iff]
      exact Nat.mod_modEq _ _
    rw [h6] at h3
    exact left_eq_add.1 h3.symm
  · intro hS
    refine ring_eq (by rw [← h1]; exact a'.toNat_lt) ?_
    rw [hS] at h3
    push_cast
    simpa [lossSum] using h3

theorem kept_of_two_limbs {N x : ℕ} (hx : x < B ^ 2) : SquareKept N x := by
  intro i j hij _
  have h3 : x % B ^ (j + 1) = x := Nat.mod_eq_of_lt (hx.trans_le (Nat.pow_le_pow_right B_pos (by omega)))
  unfold crossCarry
  rw [h3, Nat.sub_self, Nat.zero_div, Nat.zero_mod, Nat.zero_add]
  rcases Nat.lt_or_ge 1 j with hj | hj
  · have h4 : x / B ^ j = 0 := Nat.div_eq_of_lt (hx.trans_le (Nat.pow_le_pow_right B_pos (by omega)))
    simp [h4]
  · obtain rfl : j = 1 := by omega
    obtain rfl : i = 0 := by omega
    have hB := B_half'
    rw [Nat.zero_add, pow_one, pow_zero, Nat.div_one, Nat.mul_comm (x % B), Nat.mul_assoc]
    generalize x / B % B * (x % B) = P
    rw [hB]
    generalize 2 ^ (W - 1) = H
    rw [Nat.mul_div_mul_left _ _ (by norm_num), Nat.mul_div_mul_left _ _ (by norm_num), Nat.div_div_eq_div_mul,
      Nat.div_div_eq_div_mul, Nat.mul_comm]

/-- C10: in particular, a release build squares all numbers of up to two limbs correctly, of any double length, where
a debug build may panic. -/
theorem C10_square_release_two_limbs_partial (a : Buf f) (n : ℕ) (hn : n ≤ a.len) (h2 : n ≤ 2 * LB) :
    RSat (ct_square_trunc_mp a n) (fun a' => a'.len = a.len ∧
      a'.toNat = (a.toNat % 256 ^ n) ^ 2 % 256 ^ a.len) := by
  refine C10_square_release_partial a n hn (kept_of_two_limbs ?_)
  rw [← pow_256]
  exact lt_of_lt_of_le (Nat.mod_lt _ (by positivity)) (Nat.pow_le_pow_right (by norm_num) h2)

/-- C10: and all numbers into a buffer of up to three limbs. -/
theorem C10_square_release_three_limbs_partial (a : Buf f) (n : ℕ) (hn : n ≤ a.len) (h3 : a.nlimbs ≤ 3) :
    RSat (ct_square_trunc_mp a n) (fun a' => a'.len = a.len ∧
      a'.toNat = (a.toNat % 256 ^ n) ^ 2 % 256 ^ a.len) :=
  C10_square_release_partial a n hn fun i j _ _ => by omega

/-- C10: in any case the low bytes of the square are right, up to where the first loss shows. -/
theorem C10_square_release_low_partial (a : Buf f) (n : ℕ) (hn : n ≤ a.len) (L : ℕ) (hL : L ≤ a.len)
    (hk : SquareKept (ct_mp_nlimbs L) (a.toNat % 256 ^ n)) :
    RSat (ct_square_trunc_mp a n) (fun a' => a'.len = a.len ∧
      a'.toNat % 256 ^ L = (a.toNat % 256 ^ n) ^ 2 % 256 ^ L) :=
  ct_square_trunc_mp_low a n hn hL hk

/-- C10: so the three least significant limbs of a square are right for all operands. -/
theorem C10_square_release_low_three_limbs (a : Buf f) (n : ℕ) (hn : n ≤ a.len) (L : ℕ) (hL : L ≤ a.len)
    (h3 : L ≤ 3 * LB) :
    RSat (ct_square_trunc_mp a n) (fun a' => a'.len = a.len ∧
      a'.toNat % 256 ^ L = (a.toNat % 256 ^ n) ^ 2 % 256 ^ L) := by
  refine C10_square_release_low_partial a n hn L hL fun i j _ h => ?_
  have : ct_mp_nlimbs L ≤ 3 := nlimbs_le_iff.2 h3
  omega

-- Five limbs of this square are right in a release build; the sixth is not.
example : letI := cfg64;
    let a := Buf.ne [2 ^ 64 - 1, 2 ^ 63, 2 ^ 64 - 1, 0, 0, 0]
    (ct_square_trunc_mp a 24).rel.map (fun r => (decide (r.toNat % 2 ^ 320 = a.toNat ^ 2 % 2 ^ 320),
      decide (r.toNat % 2 ^ 384 = a.toNat ^ 2 % 2 ^ 384))) = some (true, false) := by
  decide +kernel

/-- C10: the operands a debug build accepts are among those a release build squares correctly. -/
theorem Squarable.kept (a : Buf f) (n : ℕ) (hn : n ≤ a.len)
    (hc : a.nlimbs < 256 ^ (a.len - (a.nlimbs - 1) * LB)) (h : Squarable a.nlimbs (a.toNat % 256 ^ n)) :
    SquareKept a.nlimbs (a.toNat % 256 ^ n) := by
  obtain ⟨x, hx, -, h1⟩ := C10_square_release_iff a n hn hc
  obtain ⟨y, hy, -, h2⟩ := (C10_square_partial a n hn h).rel
  rw [hx] at hy
  cases hy
  exact h1.1 h2

/-! A number a debug build refuses, and a release build squares correctly; one for which a carry is lost. -/

example : letI := cfg64; (ct_square_trunc_mp (Buf.ne [2 ^ 63, 2 ^ 64 - 1, 0, 0]) 16).val = none ∧
    (ct_square_trunc_mp (Buf.ne [2 ^ 63, 2 ^ 64 - 1, 0, 0]) 16).rel.map Buf.toNat =
      some ((2 ^ 63 + (2 ^ 64 - 1) * 2 ^ 64) ^ 2) := by
  refine ⟨?_, ?_⟩ <;> decide +kernel

example : letI := cfg64; SquareKept 6 (2 ^ 191 + (2 ^ 64 - 1)) := by
  let _ := cfg64
  intro i j h1 h2
  obtain ⟨rfl, rfl⟩ | ⟨rfl, rfl⟩ | ⟨rfl, rfl⟩ | ⟨rfl, rfl⟩ : (i = 0 ∧ j = 1) ∨ (i = 0 ∧ j = 2) ∨ (i = 0 ∧ j = 3) ∨
    (i = 1 ∧ j = 2) := by omega
  all_goals decide +kernel

example : letI := cfg64; ¬ Squarable 6 (2 ^ 191 + (2 ^ 64 - 1)) := by
  let _ := cfg64
  exact fun h => absurd (h 0 2 (by decide) (by decide)).1 (by decide +kernel)

example : letI := cfg64; ¬ SquareKept 6 (2 ^ 64 - 1 + 2 ^ 63 * 2 ^ 64 + (2 ^ 64 - 1) * 2 ^ 128) := by
  let _ := cfg64
  exact fun h => absurd (h 1 2 (by decide) (by decide)) (by decide +kernel)

/-! ## C31 -/

/-- C31: in a release build, the inverse modulo `2 ^ e` is right if nothing is lost by squaring the inverses modulo
`2 ^ (2 ^ k)` on the way. -/
theorem C31_inv_pow2_release_partial (result : Buf φ) (op0 : Buf ψ) (e max_exp : ℕ) (scratch : Buf .ne)
    (h0 : op0.len ≠ 0) (hodd : op0.toNat % 2 = 1) (hmx : max_exp ≠ 0) (he : e ≤ max_exp)
    (hr : (max_exp + 7) / 8 ≤ result.len) (hs : ct_mp_nlimbs ((max_exp + 7) / 8) ≤ scratch.nlimbs)
    (hok : ∀ k x, 2 ^ k < max_exp → x < 2 ^ (2 ^ k) → op0.toNat * x % 2 ^ (2 ^ k) = 1 →
      SquareKept (ct_mp_nlimbs ((max_exp + 7) / 8)) x) :
    RSat (ct_inv_mod_pow2_mp result op0 e max_exp scratch) (fun s => s.1.len = result.len ∧
      s.2.len = scratch.len ∧ s.1.toNat < 2 ^ e ∧ op0.toNat * s.1.toNat % 2 ^ e = 1 % 2 ^ e) := by
  refine ct_inv_mod_pow2_mp_rel result op0 scratch h0 (Or.inr hodd) hmx he hr hs fun k hk => ?_
  exact hok k _ hk (liftSeq_is_inverse hodd k).1 (liftSeq_is_inverse hodd k).2

/-- C31: in particular, for all operands, up to the size of four limbs. -/
theorem C31_inv_pow2_release_four_limbs_partial (result : Buf φ) (op0 : Buf ψ) (e max_exp : ℕ) (scratch : Buf .ne)
    (h0 : op0.len ≠ 0) (hodd : e = 0 ∨ op0.toNat % 2 = 1) (hmx : max_exp ≠ 0) (he : e ≤ max_exp)
    (hr : (max_exp + 7) / 8 ≤ result.len) (hs : ct_mp_nlimbs ((max_exp + 7) / 8) ≤ scratch.nlimbs)
    (hsmall : max_exp ≤ 4 * W) :
    RSat (ct_inv_mod_pow2_mp result op0 e max_exp scratch) (fun s => s.1.len = result.len ∧
      s.2.len = scratch.len ∧ s.1.toNat < 2 ^ e ∧ op0.toNat * s.1.toNat % 2 ^ e = 1 % 2 ^ e) := by
  refine ct_inv_mod_pow2_mp_rel result op0 scratch h0 hodd hmx he hr hs fun k hk => ?_
  refine kept_of_two_limbs (lt_of_lt_of_le (liftSeq_lt _ k) ?_)
  rw [B, ← pow_mul]
  refine Nat.pow_le_pow_right (by norm_num) ?_
  have hW : ∃ w, W = 2 ^ w := by rcases W_cases with h | h <;> rw [h]; exacts [⟨5, rfl⟩, ⟨6, rfl⟩]
  obtain ⟨w, hw⟩ := hW
  rw [hw] at hsmall ⊢
  have h1 : 2 ^ k < 2 ^ (w + 2) := by rw [pow_add]; omega
  have h2 : k ≤ w + 1 := by have := (Nat.pow_lt_pow_iff_right (by norm_num : 1 < 2)).1 h1; omega
  calc 2 ^ k ≤ 2 ^ (w + 1) := Nat.pow_le_pow_right (by norm_num) h2
    _ = 2 ^ w * 2 := pow_succ _ _

/-- C31: and for all operands and exponents up to the size of three limbs, however large the maximum exponent is. -/
theorem C31_inv_pow2_release_three_limbs_partial (result : Buf φ) (op0 : Buf ψ) (e max_exp : ℕ) (scratch : Buf .ne)
    (h0 : op0.len ≠ 0) (hodd : e = 0 ∨ op0.toNat % 2 = 1) (hmx : max_exp ≠ 0) (he : e ≤ max_exp)
    (hr : (max_exp + 7) / 8 ≤ result.len) (hs : ct_mp_nlimbs ((max_exp + 7) / 8) ≤ scratch.nlimbs)
    (hsmall : e ≤ 3 * W) :
    RSat (ct_inv_mod_pow2_mp result op0 e max_exp scratch) (fun s => s.1.len = result.len ∧
      s.2.len = scratch.len ∧ s.1.toNat < 2 ^ e ∧ op0.toNat * s.1.toNat % 2 ^ e = 1 % 2 ^ e) :=
  ct_inv_mod_pow2_mp_low result op0 scratch h0 hodd hmx he hr hs hsmall

omit [LimbCfg] in
/-- C31 doesn't hold as stated in a release build either, where a wrong inverse is returned (finding S1). -/
theorem C31_inv_pow2_release_fails : ∃ (c : LimbCfg) (result op0 scratch : @Buf c .ne) (x : ℕ),
    @Buf.toNat c .ne op0 % 2 = 1 ∧
    (@ct_inv_mod_pow2_mp c .ne .ne result op0 192 192 scratch).rel.map (fun s => @Buf.toNat c .ne s.1) = some x ∧
    x * @Buf.toNat c .ne op0 % 2 ^ 192 ≠ 1 :=
  ⟨cfg32, @Buf.ofNat cfg32 .ne 24 0, @Buf.ofNat cfg32 .ne 16 85070591651006453342355942223248359423, @Buf.ofNat cfg32 .ne 24 0, 3923188586443552523380432303496748786537617678057384968191,
    by decide +kernel, by decide +kernel, by decide +kernel⟩

-- A debug build panics for this operand, a release build does not.
example : letI := cfg64;
    (ct_inv_mod_pow2_mp (Buf.ofNat .ne 32 0) (Buf.ofNat .ne 16 170141183460469231713240559642174554111) 129 129
      (Buf.ofNat .ne 32 0)).rel.map (fun s => s.1.toNat * 170141183460469231713240559642174554111 % 2 ^ 129) = some 1 := by
  decide +kernel

end Props
end Cmpa
