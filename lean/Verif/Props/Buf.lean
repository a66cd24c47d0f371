import Verif.Proofs.BufCopy
import Verif.Proofs.BufExact

/-!
# Properties of buffers (C15 - C18, C39)

`b.toNat` (Verif/Model/Value.lean) is the integer a buffer holds, `b.len` its length
in bytes.  All theorems are for all three storage formats `f`, and for both limb
sizes.  `M.Sat m P` says that `m` does not panic and that its result satisfies `P`.
-/

namespace Cmpa
namespace Props
open M
variable [LimbCfg] {f g : Fmt}

/-! ## C15 -/

/-- C15: a buffer of `n` bytes holds any integer below `256^n` ... -/
theorem C15_range (b : Buf f) : b.toNat < 256 ^ b.len := b.toNat_lt

/-- C15: ... and its contents are determined by this integer. -/
theorem C15_ext (a b : Buf f) (hl : a.len = b.len) (h : a.toNat = b.toNat) : a = b :=
  Buf.ext' hl h

example : letI := cfg64; (Buf.be [1, 2, 3]).toNat = 0x010203 ∧ (Buf.le [1, 2, 3]).toNat = 0x030201 := by
  decide +kernel
example : letI := cfg64; (Buf.ne [1, 2]).toNat = 2 ^ 65 + 1 := by decide +kernel

/-- C15: loading limb `i` gives the digit number `i` to base `2^LIMB_BITS`. -/
theorem C15_load (b : Buf f) (i : ℕ) (h : i * LB < b.len) :
    Sat (b.load_l i) (fun v => v = b.toNat / B ^ i % B) :=
  b.sat_load_l (lt_nlimbs_iff.2 h) rfl

example : letI := cfg64; ((Buf.be [9, 1, 2, 3, 4, 5, 6, 7, 8]).load_l 1).val = some 9 := by
  decide +kernel

/-- C15: `load_l_full` does the same for limbs the buffer covers completely. -/
theorem C15_load_full (b : Buf f) (i : ℕ) (h : i * LB + LB ≤ b.len) :
    Sat (b.load_l_full i) (fun v => v = b.toNat / B ^ i % B) :=
  b.sat_load_l_full h rfl

example : letI := cfg32; ((Buf.be [9, 1, 2, 3, 4]).load_l_full 0).val = some 0x01020304 := by
  decide +kernel

/-- C15: storing to limb `i` changes that digit only.  The value must fit into those
of the limb's bytes which exist. -/
theorem C15_store (b : Buf f) (i v : ℕ) (h : i * LB < b.len) (hv : v < B)
    (hv' : v < 256 ^ (b.len - i * LB)) :
    Sat (b.store_l i v) (fun b' => b'.len = b.len ∧
      ∀ j, b'.toNat / B ^ j % B = if j = i then v else b.toNat / B ^ j % B) := by
  obtain ⟨b', h1, h2, h3⟩ := b.store_l_eq (lt_nlimbs_iff.2 h) hv hv'
  rw [h1]
  refine sat_mk.2 ⟨h2, fun j => ?_⟩
  rw [h3]
  rcases Nat.lt_trichotomy j i with h | h | h
  · rw [upd_dig_lt h, if_neg h.ne]
  · rw [h, upd_dig hv, if_pos rfl]
  · rw [upd_dig_gt hv h, if_neg h.ne']

example : letI := cfg64;
    ((Buf.be [9, 1, 2, 3, 4, 5, 6, 7, 8]).store_l 1 7).val.map Buf.toNat
      = some 0x070102030405060708 := by decide +kernel

/-- C15: `store_l_full` does the same for limbs the buffer covers completely. -/
theorem C15_store_full (b : Buf f) (i v : ℕ) (h : i * LB + LB ≤ b.len) (hv : v < B) :
    Sat (b.store_l_full i v) (fun b' => b'.len = b.len ∧
      ∀ j, b'.toNat / B ^ j % B = if j = i then v else b.toNat / B ^ j % B) := by
  obtain ⟨b', h1, h2, h3⟩ := b.store_l_full_eq h hv
  rw [h1]
  refine sat_mk.2 ⟨h2, fun j => ?_⟩
  rw [h3]
  rcases Nat.lt_trichotomy j i with h | h | h
  · rw [upd_dig_lt h, if_neg h.ne]
  · rw [h, upd_dig hv, if_pos rfl]
  · rw [upd_dig_gt hv h, if_neg h.ne']

example : letI := cfg32;
    ((Buf.be [9, 1, 2, 3, 4]).store_l_full 0 0xa0b0c0d0).val.map Buf.toNat
      = some 0x09a0b0c0d0 := by decide +kernel

/-- C15: splitting off the low `n` bytes; for the limb format `n` must be a multiple
of the limb size, as the code demands. -/
theorem C15_take (b : Buf f) (n : ℕ) (hn : n ≤ b.len) (ha : f = .ne → LB ∣ n) :
    Sat (b.take n) (fun r => r.2.len = n ∧ r.1.len = b.len - n ∧
      r.2.toNat = b.toNat % 256 ^ n ∧ r.1.toNat = b.toNat / 256 ^ n) := by
  obtain ⟨h, l, e, h1, h2, h3, h4, -⟩ := b.take_eq hn (by
    cases f
    · exact Or.inl rfl
    · exact Or.inl rfl
    · exact Or.inr (ha rfl))
  rw [e]
  exact sat_mk.2 ⟨h1, h2, h3, h4⟩

example : letI := cfg64; ((Buf.be [9, 1, 2]).take 2).val.map (fun r => (r.1.toNat, r.2.toNat))
    = some (9, 0x0102) := by decide +kernel

/-- C15: `shrink_to` keeps the integer if it fits, whatever the format. -/
theorem C15_shrink_to (b : Buf f) (n : ℕ) (hn : b.toNat < 256 ^ n) :
    Sat (b.shrink_to n) (fun r => r.1.toNat = b.toNat ∧ r.1.len ≤ b.len ∧
      (f ≠ .ne → r.1.len = min n b.len) ∧ (f = .ne → r.1.nlimbs = min (ct_mp_nlimbs n) b.nlimbs)) := by
  unfold Buf.shrink_to
  dsimp only
  have hlt : b.toNat < 256 ^ (min n b.len) := by
    rcases min_choice n b.len with h | h <;> rw [h]
    · exact hn
    · exact b.toNat_lt
  rw [assert_fits b hlt, M.pure_bind]
  obtain ⟨l, h, e, h1, h2, h3, h4, h5⟩ := b.shrink_to_eq' (n := min n b.len) (min_le_right _ _)
  rw [e]
  have ha : min n b.len ≤ Buf._limbs_align_len f (min n b.len) := by
    cases f
    · exact le_rfl
    · exact le_rfl
    · exact le_nlimbs_mul _
  refine sat_mk.2 ⟨?_, ?_, ?_, ?_⟩
  · rw [h3]
    exact Nat.mod_eq_of_lt (lt_of_lt_of_le hlt (Nat.pow_le_pow_right (by norm_num) ha))
  · rw [h1]; exact b.limbs_align_len_le (min_le_right _ _)
  · intro hf
    rw [h1]
    cases f
    · rfl
    · rfl
    · exact absurd rfl hf
  · rintro rfl
    show ct_mp_nlimbs l.len = _
    rw [h1]
    show ct_mp_nlimbs (ct_mp_nlimbs (min n b.len) * LB) = _
    rw [nlimbs_mul]
    rw [Buf.nlimbs_eq]
    rcases le_total n b.len with h | h
    · rw [min_eq_left h, min_eq_left (nlimbs_mono h)]
    · rw [min_eq_right h, min_eq_right (nlimbs_mono h)]

example : letI := cfg64; ((Buf.be [0, 0, 1, 2]).shrink_to 3).val.map (fun r => (r.1.toNat, r.1.len))
    = some (0x0102, 3) := by decide +kernel

/-! ## C16 -/

/-- C16: `clear_bytes_above` reduces modulo `256^k`. -/
theorem C16_clear_bytes_above (b : Buf f) (k : ℕ) :
    Sat (b.clear_bytes_above k) (fun b' => b'.len = b.len ∧ b'.toNat = b.toNat % 256 ^ k) :=
  b.sat_clear_bytes_above k fun _ h1 h2 => ⟨h1, h2⟩

example : letI := cfg64; ((Buf.ne [0x0102, 3]).clear_bytes_above 1).val.map Buf.toNat = some 2 := by
  decide +kernel

/-- C16: `clear_bytes_below` clears the low `k` bytes.  Partial: for the limb format and a
position beyond the end which is no multiple of the limb size see
`C16_clear_bytes_below_fails`. -/
theorem C16_clear_bytes_below_partial (b : Buf f) (k : ℕ)
    (hk : f ≠ .ne ∨ k ≤ b.len ∨ LB ∣ k) :
    Sat (b.clear_bytes_below k)
      (fun b' => b'.len = b.len ∧ b'.toNat = b.toNat / 256 ^ k * 256 ^ k) :=
  b.sat_clear_bytes_below (by
    rcases hk with h | h
    · left; cases f <;> first | rfl | exact absurd rfl h
    · exact Or.inr h) fun _ h1 h2 => ⟨h1, h2⟩

example : letI := cfg64; ((Buf.ne [0x0102, 3]).clear_bytes_below 1).val.map Buf.toNat
    = some (3 * 2 ^ 64 + 0x0100) := by decide +kernel

omit [LimbCfg] in
/-- C16 (finding B2): on the limb format, `clear_bytes_below` with a position beyond the end
which is not a multiple of the limb size leaves bytes of the top limb in place, and panics if the
buffer is empty. -/
theorem C16_clear_bytes_below_fails :
    ∃ (c : LimbCfg) (a b : @Buf c .ne) (k : ℕ), a.len < k ∧
      (@Buf.clear_bytes_below c .ne a k).val.map Buf.toNat = some 0x0500 ∧
      (@Buf.clear_bytes_below c .ne b k).val = none :=
  ⟨cfg64, @Buf.ne cfg64 [0x0501], @Buf.ne cfg64 [], 9, by decide +kernel, by decide +kernel,
    by decide +kernel⟩

/-- C16 (finding B2): on an empty buffer of limbs, every position not at a limb's boundary panics. -/
theorem C16_clear_bytes_below_empty_fails (b : Buf .ne) (k : ℕ) (h0 : b.len = 0) (hd : ¬ LB ∣ k) :
    (b.clear_bytes_below k).val = none := b.clear_bytes_below_empty h0 hd

/-- C16 (finding B2): on any other buffer of limbs, a position `k` beyond the end, not at a limb's
boundary, is taken for the position `k % LB` within the most significant limb.  So, the result is right
only if that limb is zero from there on. -/
theorem C16_clear_bytes_below_beyond_fails (b : Buf .ne) (k : ℕ) (h0 : 0 < b.len) (hk : b.len < k)
    (hd : ¬ LB ∣ k) :
    Sat (b.clear_bytes_below k) (fun b' => b'.len = b.len ∧
      b'.toNat = b.toNat / 256 ^ (b.len - LB + k % LB) * 256 ^ (b.len - LB + k % LB) ∧
      (b'.toNat = b.toNat / 256 ^ k * 256 ^ k ↔ b.toNat < 256 ^ (b.len - LB + k % LB))) := by
  refine (b.clear_bytes_below_beyond h0 hk hd).mono ?_
  rintro b' ⟨h1, h2⟩
  refine ⟨h1, h2, ?_⟩
  have h3 : b.toNat / 256 ^ k = 0 := Nat.div_eq_of_lt
    (lt_of_lt_of_le b.toNat_lt (Nat.pow_le_pow_right (by norm_num) hk.le))
  have h4 : 0 < 256 ^ (b.len - LB + k % LB) := by positivity
  rw [h2, h3, Nat.zero_mul, Nat.mul_eq_zero, or_iff_left h4.ne', Nat.div_eq_zero_iff]
  omega

example : letI := cfg64; ((Buf.ne [7, 0x0501]).clear_bytes_below 33).val.map Buf.toNat
    = some (0x0500 * 2 ^ 64) ∧ (Buf.ne [7, 0x0501]).len = 16 ∧ ¬ LB ∣ 33 := by decide +kernel

/-- C16: `ct_clear_bits_above_mp` reduces modulo `2^k`. -/
theorem C16_ct_clear_bits_above (b : Buf f) (k : ℕ) :
    Sat (ct_clear_bits_above_mp b k) (fun b' => b'.len = b.len ∧ b'.toNat = b.toNat % 2 ^ k) :=
  ct_clear_bits_above_mp_sat b k

example : letI := cfg64;
    (ct_clear_bits_above_mp (Buf.be [255, 255]) 9).val.map Buf.toNat = some 511 := by decide +kernel

/-- C16: `clear_bits_above_mp` reduces modulo `2^k`. -/
theorem C16_clear_bits_above (b : Buf f) (k : ℕ) :
    Sat (clear_bits_above_mp b k) (fun b' => b'.len = b.len ∧ b'.toNat = b.toNat % 2 ^ k) :=
  clear_bits_above_mp_sat b k

example : letI := cfg64;
    (clear_bits_above_mp (Buf.be [255, 255]) 9).val.map Buf.toNat = some 511 := by decide +kernel

/-- C16: `ct_clear_bits_below_mp` clears the low `k` bits. -/
theorem C16_ct_clear_bits_below (b : Buf f) (k : ℕ) :
    Sat (ct_clear_bits_below_mp b k)
      (fun b' => b'.len = b.len ∧ b'.toNat = b.toNat / 2 ^ k * 2 ^ k) :=
  ct_clear_bits_below_mp_sat b k

example : letI := cfg64;
    (ct_clear_bits_below_mp (Buf.be [255, 255]) 9).val.map Buf.toNat = some 0xfe00 := by
  decide +kernel

/-- C16: `clear_bits_below_mp` clears the low `k` bits. -/
theorem C16_clear_bits_below (b : Buf f) (k : ℕ) :
    Sat (clear_bits_below_mp b k)
      (fun b' => b'.len = b.len ∧ b'.toNat = b.toNat / 2 ^ k * 2 ^ k) :=
  clear_bits_below_mp_sat b k

example : letI := cfg64;
    (clear_bits_below_mp (Buf.be [255, 255]) 9).val.map Buf.toNat = some 0xfe00 := by
  decide +kernel

/-- C16: `clear_bytes_above_cond` with a false condition (or nothing to clear) leaves the
buffer alone.  Partial: with a true condition it is wrong, see
`C16_clear_bytes_above_cond_fails`. -/
theorem C16_clear_bytes_above_cond_partial (b : Buf f) (k : ℕ) (c : Bool)
    (h : c = false ∨ b.len ≤ k) :
    Sat (b.clear_bytes_above_cond k (.ofBool c)) (fun b' => b' = b) :=
  b.clear_bytes_above_cond_noop k c h

example : letI := cfg64; ((Buf.be [1, 2, 3]).clear_bytes_above_cond 1 (.ofBool false)).val.map Buf.toNat
    = some 0x010203 := by decide +kernel

omit [LimbCfg] in
/-- C16 (finding B1): `clear_bytes_above_cond` with a true condition does not clear the bytes
from position `k` on: from `0x010203` it makes `0x010200` instead of `0x03`. -/
theorem C16_clear_bytes_above_cond_fails :
    ¬ ∀ (_ : LimbCfg) (f : Fmt) (b : Buf f) (k : ℕ),
      Sat (b.clear_bytes_above_cond k (.ofBool true)) (fun b' => b'.toNat = b.toNat % 256 ^ k) := by
  intro h
  obtain ⟨b', h1, h2⟩ := h cfg64 .be (@Buf.be cfg64 [1, 2, 3]) 1
  have h3 : (@Buf.clear_bytes_above_cond cfg64 .be (@Buf.be cfg64 [1, 2, 3]) 1
    (@LimbChoice.ofBool cfg64 true)).val.map (@Buf.toNat cfg64 .be) = some 0x010200 := by
    decide +kernel
  rw [h1, Option.map_some, h2] at h3
  revert h3; decide +kernel

/-- C16 (finding B1): what a true condition does in general: with `w = k / LB`, the limbs below the
`w`-th are kept, those above are cleared, but of the `w`-th itself the bytes *below* position `k` are
cleared and the others kept.  The result is right only if that limb is zero. -/
theorem C16_clear_bytes_above_cond_exact_fails (b : Buf f) (k : ℕ) (hk : k < b.len) :
    Sat (b.clear_bytes_above_cond k (.ofBool true)) (fun b' => b'.len = b.len ∧
      b'.toNat = b.toNat % B ^ (k / LB)
        + B ^ (k / LB) * (b.toNat / B ^ (k / LB) % B / 256 ^ (k % LB) * 256 ^ (k % LB)) ∧
      (b'.toNat = b.toNat % 256 ^ k ↔ b.toNat / B ^ (k / LB) % B = 0)) := by
  refine (b.clear_bytes_above_cond_true hk).mono ?_
  rintro b' ⟨h1, h2⟩
  exact ⟨h1, h2, by rw [h2]; exact clearedAbove_iff _ _⟩

example : letI := cfg32;
    ((Buf.be [1, 2, 3, 4, 5, 6, 7, 8, 9]).clear_bytes_above_cond 6 (.ofBool true)).val.map Buf.toNat
    = some 0x0203000006070809 := by decide +kernel

/-! ## C17 -/

/-- C17: `copy_from` between any two formats and lengths. -/
theorem C17_copy_from (b : Buf f) (src : Buf g) (h : src.toNat < 256 ^ b.len) :
    Sat (b.copy_from src) (fun b' => b'.len = b.len ∧ b'.toNat = src.toNat) :=
  b.copy_from_sat src h

example : letI := cfg64;
    ((Buf.be [1, 2, 3]).copy_from (Buf.ne [0x0405, 0])).val.map Buf.toNat = some 0x0405 := by
  decide +kernel

/-- C17: `copy_from_cond`.  Partial: with a true condition the destination must not be longer
than the source, see `C17_copy_from_cond_fails`. -/
theorem C17_copy_from_cond_partial (b : Buf f) (src : Buf g) (c : Bool)
    (h : src.toNat < 256 ^ b.len) (hc : c = false ∨ b.len ≤ src.len) :
    Sat (b.copy_from_cond src (.ofBool c))
      (fun b' => b'.len = b.len ∧ b'.toNat = if c then src.toNat else b.toNat) :=
  b.copy_from_cond_sat src c h hc

example : letI := cfg64;
    ((Buf.be [1, 2, 3]).copy_from_cond (Buf.ne [0x0405, 0]) (.ofBool true)).val.map Buf.toNat
      = some 0x0405 := by decide +kernel

omit [LimbCfg] in
/-- C17 (finding B1): copying the single byte `5` to a two byte buffer holding `0x0102` under a
true condition yields `0x0000`. -/
theorem C17_copy_from_cond_fails :
    ¬ ∀ (_ : LimbCfg) (f g : Fmt) (b : Buf f) (src : Buf g), src.toNat < 256 ^ b.len →
      Sat (b.copy_from_cond src (.ofBool true)) (fun b' => b'.toNat = src.toNat) := by
  intro h
  obtain ⟨b', h1, h2⟩ := h cfg64 .be .be (@Buf.be cfg64 [1, 2]) (@Buf.be cfg64 [5])
    (by decide +kernel)
  have h3 : (@Buf.copy_from_cond cfg64 .be .be (@Buf.be cfg64 [1, 2]) (@Buf.be cfg64 [5])
    (@LimbChoice.ofBool cfg64 true)).val.map (@Buf.toNat cfg64 .be) = some 0 := by
    decide +kernel
  rw [h1, Option.map_some, h2] at h3
  revert h3; decide +kernel

/-- C17 (finding B1): what is copied under a true condition to a destination longer than the source in
general: the source's complete limbs only, while the limb following them keeps the destination's value
if the source's length is a multiple of a limb, and is cleared otherwise.  The result is right only if
the destination's, respectively the source's value of that limb is zero. -/
theorem C17_copy_from_cond_exact_fails (b : Buf f) (src : Buf g) (h : src.toNat < 256 ^ b.len)
    (hl : src.len < b.len) :
    Sat (b.copy_from_cond src (.ofBool true)) (fun b' => b'.len = b.len ∧
      b'.toNat = src.toNat % B ^ (src.len / LB)
        + (if src.len % LB = 0 then B ^ (src.len / LB) * (b.toNat / B ^ (src.len / LB) % B) else 0) ∧
      (b'.toNat = src.toNat ↔
        (if src.len % LB = 0 then b.toNat else src.toNat) / B ^ (src.len / LB) % B = 0)) := by
  refine (b.copy_from_cond_true src h hl).mono ?_
  rintro b' ⟨h1, h2⟩
  exact ⟨h1, h2, by rw [h2]; exact copiedCond_iff src.toNat_lt⟩

example : letI := cfg32;
    ((Buf.be [1, 2, 3, 4, 5, 6, 7, 8, 9]).copy_from_cond (Buf.le [11, 12, 13, 14]) (.ofBool true)).val.map
      Buf.toNat = some 0x020304050e0d0c0b ∧
    ((Buf.be [1, 2, 3, 4, 5, 6, 7, 8, 9]).copy_from_cond (Buf.le [11, 12, 13, 14, 15])
      (.ofBool true)).val.map Buf.toNat = some 0x0e0d0c0b := by decide +kernel

/-! ## C18 -/

/-- C18: `test_bit`; positions beyond the end count as zero bits. -/
theorem C18_test_bit (b : Buf f) (p : ℕ) :
    Sat (b.test_bit p) (fun c => c = .ofBool (b.toNat.testBit p)) := b.test_bit_sat p

example : letI := cfg64; ((Buf.be [4, 0]).test_bit 10).val.map LimbChoice.unwrap = some 1 := by
  decide +kernel

/-- C18: `set_bit_to` changes bit `p` and no other. -/
theorem C18_set_bit_to (b : Buf f) (p : ℕ) (v : Bool) (hp : p < 8 * b.len) :
    Sat (b.set_bit_to p v) (fun b' => b'.len = b.len ∧
      ∀ j, b'.toNat.testBit j = if j = p then v else b.toNat.testBit j) :=
  b.set_bit_to_sat v hp

example : letI := cfg64; ((Buf.be [4, 0]).set_bit_to 15 true).val.map Buf.toNat = some 0x8400 := by
  decide +kernel

/-- C18: `find_last_set_byte_mp` is the least number of bytes which can hold the integer. -/
theorem C18_byte_length (b : Buf f) :
    Sat (find_last_set_byte_mp b) (fun n => b.toNat < 256 ^ n ∧ ∀ m, b.toNat < 256 ^ m → n ≤ m) :=
  (find_last_set_byte_mp_sat b).mono fun _ h => h ▸ isByteLen_size _

example : letI := cfg64; (find_last_set_byte_mp (Buf.be [0, 4, 0])).val = some 2 := by
  decide +kernel

/-- C18: `ct_find_last_set_bit_mp` is the bit length. -/
theorem C18_bit_length (b : Buf f) :
    Sat (ct_find_last_set_bit_mp b) (fun r => r.1 = .ofBool (decide (b.toNat ≠ 0)) ∧
      b.toNat < 2 ^ r.2 ∧ ∀ m, b.toNat < 2 ^ m → r.2 ≤ m) :=
  (ct_find_last_set_bit_mp_sat b).mono fun _ h => by
    subst h
    exact ⟨rfl, Nat.lt_size_self _, fun m h => Nat.size_le.2 h⟩

example : letI := cfg64; (ct_find_last_set_bit_mp (Buf.be [0, 4, 0])).val.map (·.2) = some 11 := by
  decide +kernel

/-- C18: `ct_find_first_set_bit_mp` is the number of trailing zero bits (0 for zero). -/
theorem C18_trailing_zeros (b : Buf f) :
    Sat (ct_find_first_set_bit_mp b) (fun r => r.1 = .ofBool (decide (b.toNat ≠ 0)) ∧
      (b.toNat = 0 → r.2 = 0) ∧ (b.toNat ≠ 0 → 2 ^ r.2 ∣ b.toNat ∧ ¬ 2 ^ (r.2 + 1) ∣ b.toNat)) :=
  (ct_find_first_set_bit_mp_sat b).mono fun _ h => by
    refine ⟨h.1, ?_, ?_⟩ <;> rcases h.2 with ⟨h1, h2⟩ | ⟨h1, h2⟩ <;> simp_all

example : letI := cfg64; (ct_find_first_set_bit_mp (Buf.be [1, 4, 0])).val.map (·.2) = some 10 := by
  decide +kernel

/-! ## C39 -/

/-- C39: `set_to_u8`, ..., `set_to_u64` (`sz` = 1, 2, 4, 8). -/
theorem C39_set_to (b : Buf f) (sz v : ℕ) (hl : sz ≤ b.len) (hv : v < 256 ^ sz) :
    Sat (b.set_to_native sz v) (fun b' => b'.len = b.len ∧ b'.toNat = v) :=
  b.set_to_native_sat hl hv

example : letI := cfg32;
    ((Buf.be [1, 1, 1, 1, 1, 1, 1, 1, 1]).set_to_native 8 0x0102030405060708).val.map Buf.toNat
      = some 0x0102030405060708 := by decide +kernel

/-- Specification: the buffer has got the most significant limb of an `sz` byte number; with big
endian bytes, it's sufficient for it to be complete up to that limb. -/
def HasLimbs (b : Buf f) (sz : ℕ) : Prop :=
  (sz - 1) / LB * LB < b.len ∨ f = .be ∧ (sz - 1) / LB * LB = b.len

theorem HasLimbs.iff {b : Buf f} {sz : ℕ} (hsz : 0 < sz) :
    HasLimbs b sz ↔ b.Readable (ct_mp_nlimbs sz - 1) := by
  have e : ct_mp_nlimbs sz - 1 = (sz - 1) / LB := by
    have h1 := LB_pos
    unfold ct_mp_nlimbs
    rw [show sz + LB - 1 = sz - 1 + LB by omega, Nat.add_div_right _ h1]; rfl
  unfold HasLimbs Buf.Readable
  rw [e, Buf.nlimbs_eq, lt_nlimbs_iff]

/-- C39: `try_into_u8`, ..., `try_into_u64`.  Partial: the buffer must have as many limbs as the
native type, see `C39_try_into_fails`. -/
theorem C39_try_into_partial (b : Buf f) (sz : ℕ) (hsz : 0 < sz) (hl : HasLimbs b sz) :
    Sat (b.try_into_native sz)
      (fun r => r = if b.toNat < 256 ^ sz then some b.toNat else none) :=
  b.try_into_native_sat hsz ((HasLimbs.iff hsz).1 hl)

/-- C39 (finding B5): on all other buffers, `try_into_*` panics. -/
theorem C39_try_into_panics_fails (b : Buf f) (sz : ℕ) (hsz : 0 < sz) :
    (b.try_into_native sz).val = none ↔ ¬ HasLimbs b sz := by
  refine ⟨fun h hl => ?_, fun hl => b.try_into_native_panic (fun h => hl ((HasLimbs.iff hsz).2 h))⟩
  obtain ⟨r, hr, -⟩ := C39_try_into_partial b sz hsz hl
  rw [h] at hr; cases hr

example : letI := cfg32; HasLimbs (Buf.be [1, 1, 1, 1]) 8 ∧ ¬ HasLimbs (Buf.le [1, 1, 1, 1]) 8 ∧
    ((Buf.be [1, 1, 1, 1]).try_into_native 8).val = some (some 0x01010101) := by
  refine ⟨Or.inr ⟨rfl, by decide +kernel⟩, ?_, by decide +kernel⟩
  rintro (h | ⟨h, -⟩)
  · revert h; decide +kernel
  · cases h

example : letI := cfg32;
    ((Buf.be [1, 1, 1, 1, 1, 1, 1, 1]).try_into_native 8).val = some (some 0x0101010101010101) ∧
    ((Buf.be [1, 1, 1, 1, 1, 1, 1, 1]).try_into_native 4).val = some none := by decide +kernel

omit [LimbCfg] in
/-- C39 (finding B5): `try_into_u64` panics on a little endian buffer of four bytes if limbs are 32
bits wide, though any such buffer's integer fits an `u64`. -/
theorem C39_try_into_fails :
    ∃ (c : LimbCfg) (b : @Buf c .le), b.toNat < 256 ^ 8 ∧
      (@Buf.try_into_native c .le 8 b).val = none :=
  ⟨cfg32, @Buf.le cfg32 [1, 2, 3, 4], by decide +kernel, by decide +kernel⟩

/-- C39: what has been set by `set_to_*` is read back by `try_into_*`. -/
theorem C39_roundtrip (b : Buf f) (sz v : ℕ) (hsz : 0 < sz) (hl : sz ≤ b.len) (hv : v < 256 ^ sz) :
    Sat (do let b' ← b.set_to_native sz v; b'.try_into_native sz) (fun r => r = some v) := by
  refine Sat.bind (b.set_to_native_sat hl hv) ?_
  rintro b' ⟨h1, h2⟩
  refine (b'.try_into_native_sat hsz ?_).mono ?_
  · exact (HasLimbs.iff hsz).1 (Or.inl (by
      rw [h1]; have := Nat.div_mul_le_self (sz - 1) LB; omega))
  · rintro r rfl
    rw [h2, if_pos hv]

example : letI := cfg32;
    (do let b' ← (Buf.be [1, 1, 1, 1, 1, 1, 1, 1, 1]).set_to_native 8 5; b'.try_into_native 8 : M _).val
      = some (some 5) := by decide +kernel

end Props
end Cmpa
