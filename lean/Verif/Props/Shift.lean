import Verif.Proofs.Shift

/-!
# Shifts (C07, C08)

`b.toNat` is the integer a buffer holds, `b.len` its length in bytes, `W` the number of bits in a
limb and `B = 2 ^ W`.  All theorems are for all storage formats, both limb sizes and every shift
distance, no matter how large.
-/

namespace Cmpa
namespace Props
open M
variable [LimbCfg] {f : Fmt}

/-- C07: the buffer receives the shifted value truncated to its length, and the returned limb the
next `W` bits above. -/
theorem C07_lshift (a : Buf f) (d : ℕ) (ha : 0 < a.len) :
    Sat (ct_lshift_mp a d) (fun (a', out) => a'.len = a.len ∧ out < B ∧
      a'.toNat = a.toNat * 2 ^ d % 2 ^ (8 * a.len) ∧
      out = a.toNat * 2 ^ d / 2 ^ (8 * a.len) % B) :=
  (ct_lshift_mp_sat a d).mono fun p h => by
    rw [if_neg (by omega)] at h
    exact ⟨h.1, by rw [h.2.2]; exact Nat.mod_lt _ B_pos, h.2.1, h.2.2⟩

/-- C07: as long as the distance is at most the limb size, nothing is lost. -/
theorem C07_lshift_lossless (a : Buf f) (d : ℕ) (ha : 0 < a.len) (hd : d ≤ W) :
    Sat (ct_lshift_mp a d) (fun (a', out) =>
      a'.toNat + out * 2 ^ (8 * a.len) = a.toNat * 2 ^ d) :=
  (C07_lshift a d ha).mono fun p h => by
    obtain ⟨_, _, h3, h4⟩ := h
    have hx : a.toNat < 2 ^ (8 * a.len) := by rw [← pow_256_eq]; exact a.toNat_lt
    have : a.toNat * 2 ^ d / 2 ^ (8 * a.len) < B := by
      refine Nat.div_lt_of_lt_mul ?_
      calc a.toNat * 2 ^ d < 2 ^ (8 * a.len) * 2 ^ d := by
            apply Nat.mul_lt_mul_of_pos_right hx; positivity
        _ ≤ 2 ^ (8 * a.len) * B := Nat.mul_le_mul_left _ (Nat.pow_le_pow_right (by norm_num) hd)
    rw [Nat.mod_eq_of_lt this] at h4
    dsimp only; rw [h3, h4, Nat.mul_comm _ (2 ^ (8 * a.len))]; exact Nat.mod_add_div _ _

/-- C07: the empty buffer. -/
theorem C07_lshift_empty (a : Buf f) (d : ℕ) (ha : a.len = 0) :
    Sat (ct_lshift_mp a d) (fun (a', out) => a'.len = 0 ∧ out = 0) :=
  (ct_lshift_mp_sat a d).mono fun p h => by
    rw [if_pos ha] at h
    exact ⟨h.1.trans ha, h.2.2⟩

example : letI := cfg64;
    ((ct_lshift_mp (Buf.be [1, 2, 3, 4, 5, 6, 7, 8, 9]) 13).val.map
      fun (a, c) => (a.toNat, c)) =
      some (0x010203040506070809 * 2 ^ 13 % 2 ^ 72, 0x010203040506070809 * 2 ^ 13 / 2 ^ 72) := by
  decide +kernel
example : letI := cfg32;
    ((ct_lshift_mp (Buf.le [1, 2, 3, 4, 5, 6, 7, 8, 9]) 80).val.map
      fun (a, c) => (a.toNat, c)) = some (0, 0x03020100) := by
  decide +kernel

/-- C08: the buffer receives the quotient by the power of two, and the returned limb the most
significant `W` of the bits shifted out, as a binary fraction. -/
theorem C08_rshift (a : Buf f) (d : ℕ) :
    Sat (ct_rshift_mp a d) (fun (a', out) => a'.len = a.len ∧ out < B ∧
      a'.toNat = a.toNat / 2 ^ d ∧ out = a.toNat * B / 2 ^ d % B) :=
  (ct_rshift_mp_sat a d).mono fun p h =>
    ⟨h.1, by rw [h.2.2]; exact Nat.mod_lt _ B_pos, h.2.1, h.2.2⟩

/-- C08: as long as the distance is at most the limb size, nothing is lost: the returned limb holds
the shifted out bits at its top. -/
theorem C08_rshift_lossless (a : Buf f) (d : ℕ) (hd : d ≤ W) :
    Sat (ct_rshift_mp a d) (fun (a', out) =>
      a'.toNat * B + out = a.toNat * 2 ^ (W - d)) :=
  (C08_rshift a d).mono fun p h => by
    obtain ⟨_, _, h3, h4⟩ := h
    have e : a.toNat * B = a.toNat * 2 ^ (W - d) * 2 ^ d := by
      unfold B
      rw [Nat.mul_assoc, ← pow_add]; congr 2; omega
    rw [e, Nat.mul_div_cancel _ (by positivity)] at h4
    have e2 : a.toNat / 2 ^ d = a.toNat * 2 ^ (W - d) / B := by
      rw [show B = 2 ^ d * 2 ^ (W - d) by unfold B; rw [← pow_add]; congr 1; omega,
        Nat.mul_div_mul_right _ _ (by positivity)]
    dsimp only; rw [h3, h4, e2, Nat.mul_comm _ B]; exact Nat.div_add_mod _ _

example : letI := cfg64;
    ((ct_rshift_mp (Buf.be [1, 2, 3, 4, 5, 6, 7, 8, 9]) 13).val.map
      fun (a, c) => (a.toNat, c)) =
      some (0x010203040506070809 / 2 ^ 13, 0x010203040506070809 * 2 ^ 51 % 2 ^ 64) := by
  decide +kernel

/-- Shifting left and right again truncates. -/
theorem C08_lshift_rshift (a : Buf f) (d : ℕ) (ha : 0 < a.len) (hd : a.toNat * 2 ^ d < 256 ^ a.len) :
    Sat (do let (a, _) ← ct_lshift_mp a d; ct_rshift_mp a d) (fun (a', _) => a' = a) := by
  refine Sat.bind (C07_lshift a d ha) ?_
  rintro ⟨b, o⟩ ⟨h1, -, h2, -⟩
  refine (C08_rshift b d).mono ?_
  rintro ⟨c, o'⟩ ⟨h3, -, h4, -⟩
  refine Buf.ext' (h3.trans h1) ?_
  rw [pow_256_eq] at hd
  rw [h4, h2, Nat.mod_eq_of_lt hd, Nat.mul_div_cancel _ (by positivity)]

end Props
end Cmpa
