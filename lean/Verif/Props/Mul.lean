import Verif.Proofs.Square

/-!
# Multiplication and squaring (C04, C09, C10)

`b.toNat` is the integer a buffer holds, `b.len` its length in bytes.  All theorems are for all
storage formats and for both limb sizes.
-/

namespace Cmpa
namespace Props
open M
variable [LimbCfg] {f g : Fmt}

/-! ## C09 -/

/-- C09: the product, truncated to the length of the buffer. -/
theorem C09_mul (a : Buf f) (n : ℕ) (b : Buf g) (hn : n ≤ a.len) :
    Sat (ct_mul_trunc_mp_mp a n b) (fun a' => a'.len = a.len ∧
      a'.toNat = (a.toNat % 256 ^ n) * b.toNat % 256 ^ a.len) := ct_mul_trunc_mp_mp_sat a n b hn

/-- C09: the exact product whenever the buffer is long enough. -/
theorem C09_mul_exact (a : Buf f) (n : ℕ) (b : Buf g) (hl : n + b.len ≤ a.len) :
    Sat (ct_mul_trunc_mp_mp a n b) (fun a' => a'.len = a.len ∧
      a'.toNat = (a.toNat % 256 ^ n) * b.toNat) :=
  (C09_mul a n b (by omega)).mono fun a' h => ⟨h.1, by
    rw [h.2]
    apply Nat.mod_eq_of_lt
    calc (a.toNat % 256 ^ n) * b.toNat < 256 ^ n * 256 ^ b.len := by
          apply Nat.mul_lt_mul_of_lt_of_lt (Nat.mod_lt _ (by positivity)) b.toNat_lt
      _ ≤ 256 ^ a.len := by rw [← pow_add]; exact Nat.pow_le_pow_right (by norm_num) hl⟩

/-- C09: multiplication by a limb. -/
theorem C09_mul_l (a : Buf f) (n : ℕ) (v : ℕ) (hv : v < B) (hn : n ≤ a.len) :
    Sat (ct_mul_trunc_mp_l a n v) (fun a' => a'.len = a.len ∧
      a'.toNat = (a.toNat % 256 ^ n) * v % 256 ^ a.len) := ct_mul_trunc_mp_l_sat a n hv hn

/-- C09: a too large input length is refused. -/
theorem C09_in_len (a : Buf f) (n : ℕ) (b : Buf g) (hn : a.len < n) :
    (ct_mul_trunc_mp_mp a n b).val = none := by
  unfold ct_mul_trunc_mp_mp ct_mul_trunc_cond_mp_mp M.assert
  rw [if_neg (by omega)]; rfl

example : letI := cfg64;
    ((ct_mul_trunc_mp_mp (Buf.be [7, 7, 0xff, 0xff, 0xff, 0xff, 0xff, 0xff, 0xff, 0xff, 0xff]) 9
      (Buf.le [0xff, 0xff])).val.map Buf.toNat) =
      some ((2 ^ 72 - 1) * (2 ^ 16 - 1)) := by decide +kernel
example : letI := cfg32;
    ((ct_mul_trunc_mp_mp (Buf.be [7, 7, 0xff, 0xff, 0xff, 0xff, 0xff, 0xff, 0xff, 0xff, 0xff]) 9
      (Buf.ne [0xffffffff, 0xffffffff])).val.map Buf.toNat) =
      some ((2 ^ 72 - 1) * (2 ^ 64 - 1) % 2 ^ 88) := by decide +kernel
example : letI := cfg64;
    ((ct_mul_trunc_mp_l (Buf.be [7, 7, 0xff, 0xff, 0xff, 0xff, 0xff, 0xff, 0xff, 0xff, 0xff]) 9
      0xffffff).val.map Buf.toNat) =
      some ((2 ^ 72 - 1) * (2 ^ 24 - 1) % 2 ^ 88) := by decide +kernel

/-! ## C04 -/

/-- C04: conditional multiplication.  An unmet condition leaves the low `n` bytes as they are. -/
theorem C04_mul_cond (a : Buf f) (n : ℕ) (b : Buf g) (c : Bool) (hn : n ≤ a.len) (hb : 0 < b.len) :
    Sat (ct_mul_trunc_cond_mp_mp a n b (.ofBool c)) (fun a' => a'.len = a.len ∧
      a'.toNat = if c then (a.toNat % 256 ^ n) * b.toNat % 256 ^ a.len else a.toNat % 256 ^ n) :=
  (ct_mul_trunc_cond_mp_mp_sat a n b c hn).mono fun a' h => ⟨h.1, by
    rw [h.2, if_neg (by omega)]
    cases c
    · simp only [Bool.false_eq_true, if_false, Nat.mul_one]
      refine Nat.mod_eq_of_lt (lt_of_lt_of_le (Nat.mod_lt _ (by positivity)) ?_)
      exact Nat.pow_le_pow_right (by norm_num) hn
    · rfl⟩

/-- C04: conditional multiplication by the empty buffer, which stands for zero. -/
theorem C04_mul_cond_empty (a : Buf f) (n : ℕ) (b : Buf g) (c : Bool) (hn : n ≤ a.len)
    (hb : b.len = 0) :
    Sat (ct_mul_trunc_cond_mp_mp a n b (.ofBool c)) (fun a' => a'.len = a.len ∧
      a'.toNat = if c then 0 else a.toNat) :=
  (ct_mul_trunc_cond_mp_mp_sat a n b c hn).mono fun a' h => ⟨h.1, by rw [h.2, if_pos hb]⟩

example : letI := cfg64;
    ((ct_mul_trunc_cond_mp_mp (Buf.le [9, 8, 7, 6]) 3 (Buf.be [2]) (.ofBool false)).val.map
      Buf.toNat) = some 0x070809 := by decide +kernel

/-! ## C10 -/

/-- Specification: the carry out of the limb at `i + j`, when the square of `x` is summed up limb by
limb: after all the products with limbs above the `j`-th, with those of the limb `j` with the limbs
`0, ..., i` added two times each. -/
def crossCarry (x i j : ℕ) : ℕ :=
  ((x ^ 2 - (x % B ^ (j + 1)) ^ 2) / B ^ j % B ^ (i + 1)
    + 2 * (x / B ^ j % B) * (x % B ^ (i + 1))) / B ^ (i + 1)

/-- Specification: the numbers `x` the squaring can handle in `N` limbs: no product of two different
limbs contributing to more than the most significant one may have an upper half of `2 ^ (W - 1) - 1`; and
if it is `2 ^ (W - 1) - 2`, the carry must be less than `B - 1`. -/
def Squarable (N x : ℕ) : Prop := ∀ i j, i < j → i + j + 1 < N →
  (x / B ^ i % B) * (x / B ^ j % B) / B ≠ 2 ^ (W - 1) - 1 ∧
  ((x / B ^ i % B) * (x / B ^ j % B) / B = 2 ^ (W - 1) - 2 → crossCarry x i j + 2 ≤ B)

theorem Squarable.iff {N x : ℕ} : Squarable N x ↔ SquareOk N x := Iff.rfl

/-- C10: squaring is correct for all numbers which are `Squarable`. -/
theorem C10_square_partial (a : Buf f) (n : ℕ) (hn : n ≤ a.len)
    (hok : Squarable a.nlimbs (a.toNat % 256 ^ n)) :
    Sat (ct_square_trunc_mp a n) (fun a' => a'.len = a.len ∧
      a'.toNat = (a.toNat % 256 ^ n) ^ 2 % 256 ^ a.len) := ct_square_trunc_mp_sat a n hn hok

/-- C10 (finding S1): in a debug build, squaring all other numbers panics. -/
theorem C10_square_panics_fails (a : Buf f) (n : ℕ) (hn : n ≤ a.len) :
    (ct_square_trunc_mp a n).val = none ↔ ¬ Squarable a.nlimbs (a.toNat % 256 ^ n) :=
  (ct_square_trunc_mp_exact a n hn).iff

/-- C10: in particular, squaring is correct as long as no product of two different limbs of the operand
has an upper half of `2 ^ (W - 1) - 1` or `2 ^ (W - 1) - 2`. -/
theorem C10_square_products_partial (a : Buf f) (n : ℕ) (hn : n ≤ a.len)
    (hok : ∀ i j, i < j → i + j + 1 < a.nlimbs →
      (a.toNat % 256 ^ n / B ^ i % B) * (a.toNat % 256 ^ n / B ^ j % B) / B ≠ 2 ^ (W - 1) - 1 ∧
      (a.toNat % 256 ^ n / B ^ i % B) * (a.toNat % 256 ^ n / B ^ j % B) / B ≠ 2 ^ (W - 1) - 2) :
    Sat (ct_square_trunc_mp a n) (fun a' => a'.len = a.len ∧
      a'.toNat = (a.toNat % 256 ^ n) ^ 2 % 256 ^ a.len) :=
  C10_square_partial a n hn (SquareOk.of_ne hok)

/-- C10: in particular into a buffer of at most two limbs. -/
theorem C10_square_two_limbs_partial (a : Buf f) (n : ℕ) (hn : n ≤ a.len) (h2 : a.nlimbs ≤ 2) :
    Sat (ct_square_trunc_mp a n) (fun a' => a'.len = a.len ∧
      a'.toNat = (a.toNat % 256 ^ n) ^ 2 % 256 ^ a.len) :=
  C10_square_partial a n hn fun i j _ _ => by omega

/-- C10: in particular if all limbs but possibly the most significant one leave their topmost bit
unset. -/
theorem C10_square_small_limbs_partial (a : Buf f) (n : ℕ) (hn : n ≤ a.len)
    (h : ∀ i, i + 1 < ct_mp_nlimbs n → a.toNat / B ^ i % B < 2 ^ (W - 1) - 1) :
    Sat (ct_square_trunc_mp a n) (fun a' => a'.len = a.len ∧
      a'.toNat = (a.toNat % 256 ^ n) ^ 2 % 256 ^ a.len) := by
  refine C10_square_products_partial a n hn ?_
  intro i j hij _
  have h8 := half_ge
  have hX : a.toNat % 256 ^ n < B ^ ct_mp_nlimbs n :=
    lt_of_lt_of_le (Nat.mod_lt _ (by positivity)) (pow_len_le n)
  by_cases hj : j < ct_mp_nlimbs n
  · have hlt : i + 1 < ct_mp_nlimbs n := by omega
    have h1 := h i hlt
    have e : a.toNat % 256 ^ n / B ^ i % B = a.toNat / B ^ i % B := by
      have hfull := full_of_lt_pred hlt
      refine dig_congr (j := i + 1) ?_ (Nat.lt_succ_self _)
      refine Nat.mod_mod_of_dvd _ ?_
      rw [← pow_256]
      exact pow_dvd_pow _ (by rw [Nat.add_mul]; omega)
    rw [e]
    have h2 := dig_lt (a.toNat % 256 ^ n) j
    generalize a.toNat / B ^ i % B = u at *
    generalize a.toNat % 256 ^ n / B ^ j % B = v at *
    have : u * v / B < 2 ^ (W - 1) - 2 := by
      rcases Nat.eq_zero_or_pos u with rfl | hu
      · rw [Nat.zero_mul, Nat.zero_div]; omega
      · have h3 : u * v < u * B := Nat.mul_lt_mul_of_pos_left h2 hu
        have h4 : u * v / B < u := Nat.div_lt_of_lt_mul (by rw [Nat.mul_comm B]; exact h3)
        omega
    omega
  · have : a.toNat % 256 ^ n / B ^ j = 0 :=
      Nat.div_eq_of_lt (lt_of_lt_of_le hX (Nat.pow_le_pow_right B_pos (by omega)))
    rw [this, Nat.zero_mod, Nat.mul_zero, Nat.zero_div]
    omega

/-- C10: in particular for operands not longer than a limb. -/
theorem C10_square_single_limb_partial (a : Buf f) (n : ℕ) (hn : n ≤ a.len) (h : n ≤ LB) :
    Sat (ct_square_trunc_mp a n) (fun a' => a'.len = a.len ∧
      a'.toNat = (a.toNat % 256 ^ n) ^ 2 % 256 ^ a.len) := by
  refine C10_square_small_limbs_partial a n hn fun i hi => ?_
  have := full_of_lt_pred hi
  have h2 := lt_nlimbs_iff.1 hi
  rw [Nat.add_mul] at h2
  omega

example : letI := cfg64;
    ((ct_square_trunc_mp (Buf.be [7, 7, 0xff, 0xff, 0xff, 0xff, 0xff, 0xff, 0xff, 0xff, 0xff]) 9
      ).val.map Buf.toNat) = some ((2 ^ 72 - 1) ^ 2 % 2 ^ 88) := by decide +kernel

-- Two limbs whose product has an upper half of `2 ^ 63 - 2`: their carry is small enough.
example : letI := cfg64; Squarable 4 (2 ^ 64 * (2 ^ 64 - 4) + 2 ^ 63) ∧
    (2 ^ 64 - 4) * 2 ^ 63 / 2 ^ 64 = 2 ^ 63 - 2 := by
  let _ := cfg64
  refine ⟨fun i j h1 h2 => ?_, by decide +kernel⟩
  have h3 : j < 3 := by omega
  have h4 : i < 1 := by omega
  obtain rfl : i = 0 := by omega
  obtain rfl | rfl : j = 1 ∨ j = 2 := by omega
  all_goals decide +kernel

-- One of `2 ^ 63 - 1`: not supported.
example : letI := cfg64; ¬ Squarable 4 (2 ^ 64 * (2 ^ 64 - 1) + 2 ^ 63) := by
  let _ := cfg64
  exact fun h => absurd (h 0 1 (by decide) (by decide)).1 (by decide +kernel)

omit [LimbCfg] in
/-- C10: not so in general: an operand whose squaring panics in a debug build. -/
theorem C10_square_fails :
    ∃ (c : LimbCfg) (a : @Buf c .ne), @Buf.len c .ne a = 32 ∧
      (@ct_square_trunc_mp c .ne a 16).val = none :=
  ⟨cfg64, @Buf.ne cfg64 [2 ^ 63, 2 ^ 64 - 1, 0, 0], by decide +kernel, by decide +kernel⟩

omit [LimbCfg] in
/-- C10: the same with 32 bit limbs. -/
theorem C10_square_32_fails :
    ∃ (c : LimbCfg) (a : @Buf c .ne), @Buf.len c .ne a = 16 ∧
      (@ct_square_trunc_mp c .ne a 8).val = none :=
  ⟨cfg32, @Buf.ne cfg32 [2 ^ 31, 2 ^ 32 - 1, 0, 0], by decide +kernel, by decide +kernel⟩

omit [LimbCfg] in
/-- C10: and an operand for which a release build, i.e. without debug assertions and with wrapping
additions, returns a wrong square. -/
theorem C10_square_release_fails :
    ∃ (c : LimbCfg) (a a' : @Buf c .ne), @Buf.len c .ne a = 48 ∧
      (@ct_square_trunc_mp c .ne a 24).rel = some a' ∧
      @Buf.toNat c .ne a' ≠ (@Buf.toNat c .ne a % 256 ^ 24) ^ 2 % 256 ^ 48 :=
  ⟨cfg64, @Buf.ne cfg64 [2 ^ 64 - 1, 2 ^ 63, 2 ^ 64 - 1, 0, 0, 0],
    @Buf.ofNat cfg64 .ne 48 39402006196394479208007066028301793640550228058910303878427087770595803981982158057731736950090996894171832371904513,
    by decide +kernel, by decide +kernel, by decide +kernel⟩

end Props
end Cmpa
