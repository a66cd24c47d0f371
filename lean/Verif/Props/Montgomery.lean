import Verif.Proofs.MgExp
import Verif.Proofs.MgPanic

/-!
# Montgomery arithmetic and modular exponentiation (C25, C26, C27, C28)

The Montgomery radix of a modulus `n` is `radix n = B ^ n.nlimbs`, with `B` the limb radix and
`n.nlimbs` the number of limbs `n` is stored in.  Montgomery multiplication's result is stated
multiplied by the radix: for odd `n`, where the radix is invertible modulo `n`, there is only one
number `< n` satisfying the congruence.

`LenCompat x len` is what all functions check their arguments for: the buffer `x` is at most `len`
bytes long or, for buffers of native limbs, exceeds `len` by less than a limb and holds a value of at
most `len` bytes.
-/

namespace Cmpa
namespace Props
open M
variable [LimbCfg] {f g h f' e' : Fmt}

/-- Specification: the Montgomery radix. -/
def radix (n : Buf f) : ℕ := B ^ n.nlimbs

/-- Specification: `neg` is the limb `-n⁻¹` modulo the limb radix. -/
def NegInv (n : Buf f) (neg : ℕ) : Prop := neg < B ∧ (n.toNat * neg + 1) % B = 0

theorem NegInv.wmul {n : Buf f} {neg : ℕ} (h : NegInv n neg) :
    wmul (n.toNat % B) neg = lmax := by
  unfold Cmpa.wmul lmax
  rw [Nat.mod_mul_mod]
  have h1 := h.2
  have hB := one_lt_B
  have h2 := Nat.mod_lt (n.toNat * neg) B_pos
  rw [Nat.add_mod, Nat.mod_eq_of_lt hB] at h1
  generalize n.toNat * neg % B = x at *
  by_contra hne
  rw [Nat.mod_eq_of_lt (by omega)] at h1
  omega

theorem NegInv.of_wmul {n : Buf f} {neg : ℕ} (h0 : neg < B)
    (h : Cmpa.wmul (n.toNat % B) neg = lmax) : NegInv n neg := by
  unfold Cmpa.wmul lmax at h
  rw [Nat.mod_mul_mod] at h
  have hB := one_lt_B
  refine ⟨h0, ?_⟩
  rw [Nat.add_mod, h, Nat.mod_eq_of_lt hB, Nat.sub_add_cancel hB.le, Nat.mod_self]

theorem ok_of_outcome {α ε : Type} {m : M (Except ε α)} {err : Option ε} {P : α → Prop}
    (h : Sat m (Outcome err P)) (he : err = none) : Sat m (fun r => ∃ a, r = .ok a ∧ P a) := by
  refine h.mono ?_
  rintro (er | a) hr
  · rw [he] at hr; exact absurd hr (by simp [Outcome])
  · exact ⟨a, rfl, hr.2⟩

theorem err_of_outcome {α ε : Type} {m : M (Except ε α)} {err : Option ε} {P : α → Prop}
    {e : ε} (h : Sat m (Outcome err P)) (he : err = some e) : Sat m (fun r => r = .error e) := by
  refine h.mono ?_
  rintro (er | a) hr
  · have h1 : err = some er := hr
    rw [he] at h1; cases h1; rfl
  · have h1 : err = none := hr.1
    rw [he] at h1; cases h1

theorem odd_len_pos {n : Buf f} (h : n.toNat % 2 = 1) : n.len ≠ 0 := by
  intro h0
  have := n.toNat_lt
  rw [h0, pow_zero] at this
  omega

/-! ## The limb inverse -/

/-- C25 and C26: the constant needed by the reduction can be had from
`ct_montgomery_neg_n0_inv_mod_l_mp`. -/
theorem C25_neg_inv (n : Buf f) (hodd : n.toNat % 2 = 1) :
    Sat (ct_montgomery_neg_n0_inv_mod_l_mp n) (fun r => ∃ x, r = .ok x ∧ NegInv n x) := by
  refine (ok_of_outcome (ct_montgomery_neg_n0_inv_mod_l_mp_sat n) ?_).mono ?_
  · simp [odd_len_pos hodd, hodd]
  · rintro r ⟨x, h1, h2, h3⟩
    exact ⟨x, h1, .of_wmul h2 h3⟩

/-- C25: an even or empty modulus is refused. -/
theorem C25_neg_inv_error (n : Buf f) (heven : n.toNat % 2 = 0) :
    Sat (ct_montgomery_neg_n0_inv_mod_l_mp n) (fun r => r = .error .InvalidModulus) :=
  err_of_outcome (ct_montgomery_neg_n0_inv_mod_l_mp_sat n) (by simp [heven])

/-! ## C25 -/

/-- C25: the reduction.  Missing: moduli of a single limb, where the function panics. -/
theorem C25_redc_partial (t : Buf f) (n : Buf g) (neg : ℕ) (hodd : n.toNat % 2 = 1)
    (hneg : NegInv n neg) (hn : LenCompat n t.len) (ht : LenCompat t (2 * n.len))
    (hlt : t.toNat < n.toNat * radix n) (h2 : 2 ≤ n.nlimbs) :
    Sat (ct_montgomery_redc_mp t n neg) (fun r => ∃ s, r = .ok s ∧ s.len = t.len ∧
      s.toNat < n.toNat ∧ s.toNat * radix n ≡ t.toNat [MOD n.toNat]) :=
  ok_of_outcome (ct_montgomery_redc_mp_sat t n fun _ => ⟨h2, hneg.wmul, hlt⟩)
    (by simp [redcErr, odd_len_pos hodd, hodd, hn, ht])

/-- C25: the errors. -/
theorem C25_redc_error (t : Buf f) (n : Buf g) (neg : ℕ)
    (h : n.toNat % 2 = 0 ∨ ¬ LenCompat n t.len ∨ ¬ LenCompat t (2 * n.len)) :
    Sat (ct_montgomery_redc_mp t n neg) (fun r => r = .error (
      if n.toNat % 2 = 0 then .InvalidModulus
      else if ¬ LenCompat n t.len then .InsufficientResultSpace else .InputValueOutOfRange)) := by
  have he : redcErr t n = some (if n.toNat % 2 = 0 then .InvalidModulus
      else if ¬ LenCompat n t.len then .InsufficientResultSpace else .InputValueOutOfRange) := by
    unfold redcErr
    by_cases h1 : n.toNat % 2 = 0
    · simp [h1]
    · have := odd_len_pos (n := n) (by omega)
      by_cases h2 : LenCompat n t.len
      · have h3 : ¬ LenCompat t (2 * n.len) := by
          rcases h with h | h | h
          · exact absurd h h1
          · exact absurd h2 h
          · exact h
        simp [h1, h2, h3, this]
      · simp [h1, h2, this]
  exact err_of_outcome (ct_montgomery_redc_mp_sat t n fun h => by rw [he] at h; cases h) he

/-- The number of a result, for the examples. -/
def mgNum {f : Fmt} : Except MgError (Buf f) → Option ℕ
  | .ok b => some b.toNat
  | .error _ => none

omit [LimbCfg] in
/-- C25 doesn't hold as stated: a modulus of a single limb panics. -/
theorem C25_single_limb_fails : ∃ (c : LimbCfg) (t n : @Buf c .be) (neg : ℕ),
    @Buf.toNat c .be n % 2 = 1 ∧ @NegInv c .be n neg ∧
    @LenCompat c .be n (@Buf.len c .be t) ∧ @LenCompat c .be t (2 * @Buf.len c .be n) ∧
    @Buf.toNat c .be t < @Buf.toNat c .be n * @radix c .be n ∧
    (@ct_montgomery_redc_mp c .be .be t n neg).val.isNone = true :=
  ⟨cfg64, @Buf.ofNat cfg64 .be 8 2, @Buf.ofNat cfg64 .be 8 3, 0x5555555555555555,
    by decide +kernel, ⟨by decide +kernel, by decide +kernel⟩, by decide +kernel,
    by decide +kernel, by decide +kernel, by decide +kernel⟩

/-- C25: within the documented domain, the reduction panics exactly if the modulus has a single
limb. -/
theorem C25_redc_panics_fails (t : Buf f) (n : Buf g) (neg : ℕ) (hodd : n.toNat % 2 = 1)
    (hneg : NegInv n neg) (hn : LenCompat n t.len) (ht : LenCompat t (2 * n.len))
    (hlt : t.toNat < n.toNat * radix n) :
    (ct_montgomery_redc_mp t n neg).val = none ↔ n.nlimbs = 1 := by
  have hl := odd_len_pos hodd
  have hpos : 0 < n.nlimbs := nlimbs_pos_iff.2 (by omega)
  constructor
  · intro h
    by_contra h1
    obtain ⟨r, hr, -⟩ := C25_redc_partial t n neg hodd hneg hn ht hlt (by omega)
    rw [h] at hr; cases hr
  · intro h1
    rcases hv : (ct_montgomery_redc_mp t n neg).val with _ | r
    · rfl
    · obtain ⟨e, -, he⟩ := redc_single_post t h1 neg r hv
      simp [redcErr, hodd, hn, ht] at he
      omega

example : letI := cfg32; (Buf.ofNat .be 3 5).nlimbs = 1 ∧ NegInv (Buf.ofNat .be 3 5) 0x33333333 ∧
    (Buf.ofNat .le 4 (5 * 2 ^ 28 - 1)).toNat < (Buf.ofNat .be 3 5).toNat * radix (Buf.ofNat .be 3 5) :=
  ⟨by decide +kernel, ⟨by decide +kernel, by decide +kernel⟩, by decide +kernel⟩

example : letI := cfg64;
    (ct_montgomery_redc_mp (Buf.ofNat .be 18 (2 ^ 135 + 77)) (Buf.ofNat .le 9 (2 ^ 72 - 93))
      5752210517608354805).val.bind mgNum = some 4100470838981504863026 ∧
    4100470838981504863026 * 2 ^ 128 % (2 ^ 72 - 93) = (2 ^ 135 + 77) % (2 ^ 72 - 93) ∧
    NegInv (Buf.ofNat .le 9 (2 ^ 72 - 93)) 5752210517608354805 ∧
    LenCompat (Buf.ofNat .be 18 (2 ^ 135 + 77)) (2 * 9) :=
  ⟨by decide +kernel, by decide +kernel, ⟨by decide +kernel, by decide +kernel⟩,
    by decide +kernel⟩

/-! ## C26

What is excluded is:
* moduli with a most significant limb of all ones, roughly: `(B + 1) n > B ^ (limbs + 1)`.  There a
  carry gets lost.
* a result buffer shorter than the (native) modulus buffer.
* a result buffer of native limbs, with a modulus not a multiple of a limb long, and with a most
  significant byte of all ones.
* an empty buffer for the second factor, with the first one not empty.
-/

/-- C26: the multiplication. -/
theorem C26_mul_partial (result : Buf f) (a : Buf g) (b : Buf h) (n : Buf f') (neg : ℕ)
    (hodd : n.toNat % 2 = 1) (hneg : NegInv n neg) (ha : a.toNat < n.toNat)
    (hb : b.toNat < n.toNat) (hal : LenCompat a n.len) (hbl : LenCompat b n.len)
    (hhigh : (B + 1) * n.toNat ≤ B ^ (n.nlimbs + 1)) (hlen : n.len ≤ result.len)
    (halign : f.unaligned = true ∨ LB ∣ n.len ∨ 257 * n.toNat ≤ 256 ^ (n.len + 1))
    (hne : a.len = 0 ∨ b.len ≠ 0) :
    Sat (ct_montgomery_mul_mod_mp_mp result a b n neg) (fun r => ∃ s, r = .ok s ∧
      s.len = result.len ∧ s.toNat < n.toNat ∧
      s.toNat * radix n ≡ a.toNat * b.toNat [MOD n.toNat]) :=
  ok_of_outcome (ct_montgomery_mul_mod_mp_mp_sat result a b n fun _ =>
    ⟨ha, hb, hneg.wmul, hne, ⟨hhigh, hlen, halign⟩⟩) (by
      have : LenCompat n result.len := Or.inl hlen
      simp [mulErr, odd_len_pos hodd, hodd, hal, hbl, this])

/-- C26: moduli with a most significant limb not of all ones. -/
theorem C26_high_limb (n : Buf f) (h : n.toNat / B ^ (n.nlimbs - 1) + 1 < B) (hl : n.len ≠ 0) :
    (B + 1) * n.toNat ≤ B ^ (n.nlimbs + 1) := by
  have hN : 0 < n.nlimbs := nlimbs_pos_iff.2 (by omega)
  obtain ⟨k, hk⟩ := Nat.exists_eq_succ_of_ne_zero hN.ne'
  rw [hk, Nat.succ_eq_add_one, Nat.add_sub_cancel] at h
  rw [hk, Nat.succ_eq_add_one]
  have h1 : n.toNat < B ^ k * (n.toNat / B ^ k + 1) := Nat.lt_mul_div_succ _ (B_pow_pos k)
  have h2 : B ^ k * (n.toNat / B ^ k + 1) ≤ B ^ k * (B - 1) :=
    Nat.mul_le_mul_left _ (by omega)
  have hB := one_lt_B
  obtain ⟨c, hc⟩ := Nat.exists_eq_add_of_le hB.le
  calc (B + 1) * n.toNat ≤ (B + 1) * (B ^ k * (B - 1)) := Nat.mul_le_mul_left _ (by omega)
    _ = B ^ k * ((B + 1) * (B - 1)) := by ring
    _ ≤ B ^ k * (B * B) := Nat.mul_le_mul_left _ (by
        rw [hc, Nat.add_sub_cancel_left]; nlinarith)
    _ = _ := by ring

/-- C26: the errors. -/
theorem C26_mul_error (result : Buf f) (a : Buf g) (b : Buf h) (n : Buf f') (neg : ℕ)
    (h : n.toNat % 2 = 0 ∨ ¬ LenCompat n result.len ∨ ¬ LenCompat a n.len ∨
      ¬ LenCompat b n.len) :
    Sat (ct_montgomery_mul_mod_mp_mp result a b n neg) (fun r => r = .error (
      if n.toNat % 2 = 0 then .InvalidModulus
      else if ¬ LenCompat n result.len then .InsufficientResultSpace
      else .InconsistentOperandLengths)) := by
  have he : mulErr result a b n = some (if n.toNat % 2 = 0 then .InvalidModulus
      else if ¬ LenCompat n result.len then .InsufficientResultSpace
      else .InconsistentOperandLengths) := by
    unfold mulErr
    by_cases h1 : n.toNat % 2 = 0
    · simp [h1]
    · have := odd_len_pos (n := n) (by omega)
      by_cases h2 : LenCompat n result.len
      · have h3 : ¬ LenCompat a n.len ∨ ¬ LenCompat b n.len := by
          rcases h with h | h | h
          · exact absurd h h1
          · exact absurd h2 h
          · exact h
        simp only [h1, h2, this, not_true_eq_false, or_self, if_false, if_true, h3]
      · simp [h1, h2, this]
  exact err_of_outcome (ct_montgomery_mul_mod_mp_mp_sat result a b n
    fun h => by rw [he] at h; cases h) he

omit [LimbCfg] in
/-- C26 doesn't hold as stated: modulo `2 ^ 128 - 1`, where the radix is `1`, the square of `-1` is
given as `0`. -/
theorem C26_carry_fails : ∃ (c : LimbCfg) (result a n : @Buf c .be) (neg : ℕ),
    @Buf.toNat c .be n = 2 ^ 128 - 1 ∧ @NegInv c .be n neg ∧ @radix c .be n = 2 ^ 128 ∧
    @Buf.toNat c .be a = 2 ^ 128 - 2 ∧
    (@ct_montgomery_mul_mod_mp_mp c .be .be .be .be result a a n neg).val.bind mgNum = some 0 ∧
    ¬ 0 * 2 ^ 128 ≡ (2 ^ 128 - 2) * (2 ^ 128 - 2) [MOD 2 ^ 128 - 1] :=
  ⟨cfg64, @Buf.ofNat cfg64 .be 16 0, @Buf.ofNat cfg64 .be 16 (2 ^ 128 - 2),
    @Buf.ofNat cfg64 .be 16 (2 ^ 128 - 1), 1,
    by decide +kernel, ⟨by decide +kernel, by decide +kernel⟩, by decide +kernel,
    by decide +kernel, by decide +kernel, by decide +kernel⟩

omit [LimbCfg] in
/-- C26 doesn't hold as stated: an empty second factor panics. -/
theorem C26_empty_fails : ∃ (c : LimbCfg) (result a b n : @Buf c .be) (neg : ℕ),
    @Buf.toNat c .be n % 2 = 1 ∧ @NegInv c .be n neg ∧
    @Buf.toNat c .be a < @Buf.toNat c .be n ∧ @Buf.toNat c .be b < @Buf.toNat c .be n ∧
    @Buf.len c .be a = @Buf.len c .be n ∧ @Buf.len c .be b ≤ @Buf.len c .be n ∧
    @Buf.len c .be result = @Buf.len c .be n ∧
    (@ct_montgomery_mul_mod_mp_mp c .be .be .be .be result a b n neg).val.isNone = true :=
  ⟨cfg64, @Buf.ofNat cfg64 .be 16 0, @Buf.ofNat cfg64 .be 16 5, @Buf.ofNat cfg64 .be 0 0,
    @Buf.ofNat cfg64 .be 16 (2 ^ 72 - 1), 1, by decide +kernel,
    ⟨by decide +kernel, by decide +kernel⟩, by decide +kernel, by decide +kernel,
    by decide +kernel, by decide +kernel, by decide +kernel, by decide +kernel⟩

/-- C26: every multiplication by an empty second factor panics, unless the first is empty, too. -/
theorem C26_empty_panics_fails (result : Buf f) (a : Buf g) (b : Buf h) (n : Buf f') (neg : ℕ)
    (hodd : n.toNat % 2 = 1) (hal : LenCompat a n.len) (hlen : LenCompat n result.len)
    (ha : a.len ≠ 0) (hb : b.len = 0) :
    (ct_montgomery_mul_mod_mp_mp result a b n neg).val = none :=
  mg_mul_empty result neg (fun h => ha (nlimbs_zero_iff.1 h)) (nlimbs_zero_iff.2 hb) (by
    have : LenCompat b n.len := Or.inl (by omega)
    have := odd_len_pos hodd
    simp [mulErr, *])

example : letI := cfg64; LenCompat (Buf.ofNat .be 5 77) (Buf.ofNat .le 16 (2 ^ 72 - 1)).len ∧
    LenCompat (Buf.ofNat .le 16 (2 ^ 72 - 1)) (Buf.ofNat .ne 16 0).len := by decide +kernel

omit [LimbCfg] in
/-- C26 doesn't hold as stated: a result of bytes, long enough for the modulus, but shorter than the
modulus' native limbs, panics. -/
theorem C26_short_fails : ∃ (c : LimbCfg) (result a : @Buf c .be) (n : @Buf c .ne) (neg : ℕ),
    @Buf.toNat c .ne n % 2 = 1 ∧ @NegInv c .ne n neg ∧
    @Buf.toNat c .be a < @Buf.toNat c .ne n ∧
    @LenCompat c .ne n (@Buf.len c .be result) ∧
    @LenCompat c .be a (@Buf.len c .ne n) ∧
    (@ct_montgomery_mul_mod_mp_mp c .be .be .be .ne result a a n neg).val.isNone = true :=
  ⟨cfg64, @Buf.ofNat cfg64 .be 9 0, @Buf.ofNat cfg64 .be 9 (2 ^ 72 - 1 - 2 ^ 28),
    @Buf.ofNat cfg64 .ne 16 (2 ^ 72 - 1), 1, by decide +kernel,
    ⟨by decide +kernel, by decide +kernel⟩, by decide +kernel, by decide +kernel,
    by decide +kernel, by decide +kernel⟩

omit [LimbCfg] in
/-- C26 doesn't hold as stated: a result of native limbs, with a modulus of bytes, not a multiple of
a limb long, panics. -/
theorem C26_align_fails : ∃ (c : LimbCfg) (result : @Buf c .ne) (a n : @Buf c .be) (neg : ℕ),
    @Buf.toNat c .be n % 2 = 1 ∧ @NegInv c .be n neg ∧
    @Buf.toNat c .be a < @Buf.toNat c .be n ∧
    @Buf.len c .be n ≤ @Buf.len c .ne result ∧ @Buf.len c .be a = @Buf.len c .be n ∧
    (@ct_montgomery_mul_mod_mp_mp c .ne .be .be .be result a a n neg).val.isNone = true :=
  ⟨cfg64, @Buf.ofNat cfg64 .ne 16 0, @Buf.ofNat cfg64 .be 9 (2 ^ 72 - 1 - 2 ^ 28),
    @Buf.ofNat cfg64 .be 9 (2 ^ 72 - 1), 1, by decide +kernel,
    ⟨by decide +kernel, by decide +kernel⟩, by decide +kernel, by decide +kernel,
    by decide +kernel, by decide +kernel⟩

example : letI := cfg32;
    (ct_montgomery_mul_mod_mp_mp (Buf.ofNat .ne 16 0) (Buf.ofNat .be 9 (2 ^ 70 + 3))
      (Buf.ofNat .le 9 (2 ^ 71 + 5)) (Buf.ofNat .be 9 (2 ^ 72 - 2 ^ 64 - 1)) 1).val.bind mgNum
      = some (((2 ^ 70 + 3) * (2 ^ 71 + 5) * 279280248422400) % (2 ^ 72 - 2 ^ 64 - 1)) ∧
    (B + 1) * (2 ^ 72 - 2 ^ 64 - 1) ≤ B ^ 4 ∧ 257 * (2 ^ 72 - 2 ^ 64 - 1) ≤ 256 ^ 10 ∧
    NegInv (Buf.ofNat .be 9 (2 ^ 72 - 2 ^ 64 - 1)) 1 :=
  ⟨by decide +kernel, by decide +kernel, by decide +kernel, ⟨by decide +kernel, by decide +kernel⟩⟩

/-! ## C27 -/

/-- C27: the square of the radix. -/
theorem C27_radix2 (out : Buf f) (n : Buf g) (hodd : n.toNat % 2 = 1)
    (hn : LenCompat n out.len) :
    Sat (ct_montgomery_radix2_mod_n_mp out n) (fun r => ∃ s, r = .ok s ∧ s.len = out.len ∧
      s.toNat = radix n ^ 2 % n.toNat) := by
  refine (ok_of_outcome (ct_montgomery_radix2_mod_n_mp_sat out n)
    (by simp [transErr, hodd, hn])).mono ?_
  rintro r ⟨s, h1, h2, h3⟩
  exact ⟨s, h1, h2, by rw [h3, radix, sq]⟩

/-- C27: the direct conversion. -/
theorem C27_direct (t : Buf f) (n : Buf g) (hodd : n.toNat % 2 = 1) (hn : LenCompat n t.len) :
    Sat (ct_to_montgomery_form_direct_mp t n) (fun r => ∃ s, r = .ok s ∧ s.len = t.len ∧
      s.toNat = t.toNat * radix n % n.toNat) :=
  ok_of_outcome (ct_to_montgomery_form_direct_mp_sat t n) (by simp [transErr, hodd, hn])

/-- C27: the conversions' errors. -/
theorem C27_error (t : Buf f) (n : Buf g) (h : n.toNat % 2 = 0 ∨ ¬ LenCompat n t.len) :
    let e := if n.toNat % 2 = 0 then MgError.InvalidModulus else .InsufficientResultSpace
    Sat (ct_montgomery_radix2_mod_n_mp t n) (fun r => r = .error e) ∧
    Sat (ct_to_montgomery_form_direct_mp t n) (fun r => r = .error e) := by
  have he : transErr t n = some (if n.toNat % 2 = 0 then .InvalidModulus
      else .InsufficientResultSpace) := by
    unfold transErr
    by_cases h1 : n.toNat % 2 = 0
    · simp [h1]
    · simp [h1, h.resolve_left h1]
  exact ⟨err_of_outcome (ct_montgomery_radix2_mod_n_mp_sat t n) he,
    err_of_outcome (ct_to_montgomery_form_direct_mp_sat t n) he⟩

/-- C27: the conversion by multiplication.  Missing: the cases excluded from C26. -/
theorem C27_form_partial (result : Buf f) (t : Buf g) (n : Buf f') (neg : ℕ) (radix2 : Buf h)
    (hodd : n.toNat % 2 = 1) (hneg : NegInv n neg) (ht : t.toNat < n.toNat)
    (hr2 : radix2.toNat = radix n ^ 2 % n.toNat)
    (htl : LenCompat t n.len) (hrl : LenCompat radix2 n.len)
    (hhigh : (B + 1) * n.toNat ≤ B ^ (n.nlimbs + 1)) (hlen : n.len ≤ result.len)
    (halign : f.unaligned = true ∨ LB ∣ n.len ∨ 257 * n.toNat ≤ 256 ^ (n.len + 1))
    (hne : t.len = 0 ∨ radix2.len ≠ 0) :
    Sat (ct_to_montgomery_form_mp result t n neg radix2) (fun r => ∃ s, r = .ok s ∧
      s.len = result.len ∧ s.toNat = t.toNat * radix n % n.toNat) := by
  have hpos : 0 < n.toNat := by omega
  refine (ok_of_outcome (ct_to_montgomery_form_mp_sat result t n radix2 ht
    (by rw [hr2]; exact Nat.mod_lt _ hpos) fun _ => ⟨hneg.wmul, hne, ⟨hhigh, hlen, halign⟩⟩)
    (by
      have : LenCompat n result.len := Or.inl hlen
      simp [toMgErr, mulErr, odd_len_pos hodd, hodd, htl, hrl, this])).mono ?_
  rintro r ⟨s, h1, h2, h3, h4⟩
  refine ⟨s, h1, h2, ?_⟩
  rw [← Nat.mod_eq_of_lt h3]
  refine Nat.ModEq.cancel_right_of_coprime (c := radix n)
    (coprime_radix (by omega) n.nlimbs) (h4.trans ?_)
  rw [hr2, Nat.mul_assoc, ← sq]
  exact (Nat.mod_modEq _ _).mul_left _

/-- C27: reduction brings back the value, from what either conversion gave.  Missing: moduli of a
single limb. -/
theorem C27_back_partial (t : Buf f) (n : Buf g) (neg a : ℕ) (hodd : n.toNat % 2 = 1)
    (hneg : NegInv n neg) (hn : LenCompat n t.len) (htl : LenCompat t (2 * n.len))
    (ha : a < n.toNat) (ht : t.toNat = a * radix n % n.toNat) (h2 : 2 ≤ n.nlimbs) :
    Sat (ct_montgomery_redc_mp t n neg) (fun r => ∃ s, r = .ok s ∧ s.len = t.len ∧
      s.toNat = a) := by
  have hpos : 0 < n.toNat := by omega
  have hlt : t.toNat < n.toNat * radix n := by
    rw [ht]
    exact (Nat.mod_lt _ hpos).trans_le (Nat.le_mul_of_pos_right _ (B_pow_pos _))
  refine (C25_redc_partial t n neg hodd hneg hn htl hlt h2).mono ?_
  rintro r ⟨s, h1, h2, h3, h4⟩
  refine ⟨s, h1, h2, ?_⟩
  rw [← Nat.mod_eq_of_lt h3, ← Nat.mod_eq_of_lt ha]
  refine Nat.ModEq.cancel_right_of_coprime (c := radix n)
    (coprime_radix (by omega) n.nlimbs) (h4.trans ?_)
  rw [ht]; exact Nat.mod_modEq _ _

example : letI := cfg64;
    (ct_montgomery_radix2_mod_n_mp (Buf.ofNat .be 12 77) (Buf.ofNat .le 9 (2 ^ 72 - 93))).val.bind
      mgNum = some (2 ^ 256 % (2 ^ 72 - 93)) ∧
    (ct_to_montgomery_form_direct_mp (Buf.ofNat .be 12 77) (Buf.ofNat .le 9 (2 ^ 72 - 93))).val.bind
      mgNum = some (77 * 2 ^ 128 % (2 ^ 72 - 93)) ∧
    (ct_to_montgomery_form_mp (Buf.ofNat .ne 16 0) (Buf.ofNat .be 9 77)
      (Buf.ofNat .le 9 (2 ^ 71 - 93)) 5752210517608354805
      (Buf.ofNat .le 9 (2 ^ 256 % (2 ^ 71 - 93)))).val.bind
      mgNum = some (77 * 2 ^ 128 % (2 ^ 71 - 93)) ∧
    257 * (2 ^ 71 - 93) ≤ 256 ^ 10 := by decide +kernel

/-! ## C28 -/

/-- The number of a result, for the examples. -/
def expNum {f g : Fmt} : Except MgError (Buf f × Buf g × Buf .ne) → Option ℕ
  | .ok b => some b.1.toNat
  | .error _ => none

/-- C28: the modular exponentiation; of the exponent's bits the least significant `nbits` ones get
considered.  Missing: moduli of a single limb and those excluded from C26. -/
theorem C28_exp_partial (result : Buf f) (base : Buf g) (n : Buf f') (e : Buf e') (nbits : ℕ)
    (scratch : Buf .ne) (hodd : n.toNat % 2 = 1) (hb : base.toNat < n.toNat)
    (hbl : LenCompat base n.len) (hnb : LenCompat n base.len)
    (hsc : n.nlimbs ≤ scratch.nlimbs) (h2 : 2 ≤ n.nlimbs)
    (hhigh : (B + 1) * n.toNat ≤ B ^ (n.nlimbs + 1)) (hlen : n.len ≤ result.len)
    (halign : LB ∣ n.len ∨ 257 * n.toNat ≤ 256 ^ (n.len + 1)) :
    Sat (ct_exp_mod_odd_mp_mp result base n e nbits scratch) (fun r => ∃ s, r = .ok s ∧
      s.1.len = result.len ∧ s.2.1.len = base.len ∧ s.2.2.len = scratch.len ∧
      s.1.toNat = base.toNat ^ (e.toNat % 2 ^ nbits) % n.toNat) :=
  ok_of_outcome (ct_exp_mod_odd_mp_mp_sat result base n e nbits scratch hb fun _ =>
    ⟨h2, ⟨hhigh, hlen, Or.inr halign⟩, ⟨hhigh, ne_scratch_len hsc, Or.inr halign⟩⟩) (by
      have : LenCompat n result.len := Or.inl hlen
      simp [expErr, hodd, hbl, hnb, this]; omega)

/-- C28: the errors. -/
theorem C28_error (result : Buf f) (base : Buf g) (n : Buf f') (e : Buf e') (nbits : ℕ)
    (scratch : Buf .ne) (hb : base.toNat < n.toNat)
    (h : n.toNat % 2 = 0 ∨ ¬ LenCompat n result.len ∨ ¬ LenCompat base n.len ∨
      ¬ LenCompat n base.len ∨ scratch.nlimbs < n.nlimbs) :
    Sat (ct_exp_mod_odd_mp_mp result base n e nbits scratch) (fun r => r = .error (
      if ¬ LenCompat n result.len then .InsufficientResultSpace
      else if ¬ LenCompat base n.len ∨ ¬ LenCompat n base.len then .InconsistentOperandLengths
      else if scratch.nlimbs < n.nlimbs then .InsufficientScratchSpace
      else .InvalidModulus)) := by
  have he : expErr result base n scratch = some (
      if ¬ LenCompat n result.len then .InsufficientResultSpace
      else if ¬ LenCompat base n.len ∨ ¬ LenCompat n base.len then .InconsistentOperandLengths
      else if scratch.nlimbs < n.nlimbs then .InsufficientScratchSpace
      else .InvalidModulus) := by
    unfold expErr
    by_cases h1 : LenCompat n result.len
    · by_cases h2 : LenCompat base n.len
      · by_cases h3 : LenCompat n base.len
        · by_cases h4 : scratch.nlimbs < n.nlimbs
          · simp [h1, h2, h3, h4]
          · have h5 : n.toNat % 2 = 0 := by tauto
            simp [h1, h2, h3, h4, h5]
        · simp [h1, h2, h3]
      · simp [h1, h2]
    · simp [h1]
  exact err_of_outcome (ct_exp_mod_odd_mp_mp_sat result base n e nbits scratch hb
    fun h => by rw [he] at h; cases h) he

/-- C28: exponentiation of a base in Montgomery form, `x` being the number represented.  Missing:
the moduli excluded from C26. -/
theorem C28_mg_exp_partial (result : Buf f) (base : Buf g) (n : Buf f') (neg x : ℕ)
    (radix_mod_n : Buf h) (e : Buf e') (nbits : ℕ) (scratch : Buf .ne) (hodd : n.toNat % 2 = 1)
    (hneg : NegInv n neg) (hb : base.toNat = x * radix n % n.toNat)
    (hr : radix_mod_n.toNat = radix n % n.toNat)
    (hbl : LenCompat base n.len) (hrl : LenCompat radix_mod_n n.len) (hb0 : base.len ≠ 0)
    (hsc : n.nlimbs ≤ scratch.nlimbs)
    (hhigh : (B + 1) * n.toNat ≤ B ^ (n.nlimbs + 1)) (hlen : n.len ≤ result.len)
    (halign : LB ∣ n.len ∨ 257 * n.toNat ≤ 256 ^ (n.len + 1)) :
    Sat (ct_montogmery_exp_mod_odd_mp_mp result base n neg radix_mod_n e nbits scratch)
      (fun r => ∃ s, r = .ok s ∧ s.1.len = result.len ∧ s.2.len = scratch.len ∧
      s.1.toNat = x ^ (e.toNat % 2 ^ nbits) * radix n % n.toNat) := by
  have hpos : 0 < n.toNat := by omega
  refine (ok_of_outcome (ct_montogmery_exp_mod_odd_mp_mp_sat (x := x) result base n radix_mod_n e
    nbits scratch (by rw [hb]; exact Nat.mod_lt _ hpos) (by rw [hr]; exact Nat.mod_lt _ hpos)
    fun _ => ⟨hneg.wmul, hb0, ⟨hhigh, hlen, Or.inr halign⟩,
      ⟨hhigh, ne_scratch_len hsc, Or.inr halign⟩, by rw [hr]; exact Nat.mod_modEq _ _,
      by rw [hb]; exact Nat.mod_modEq _ _⟩) (by
      have : LenCompat n result.len := Or.inl hlen
      simp [mgExpErr, hodd, hbl, hrl, this]; omega)).mono ?_
  rintro r ⟨s, h1, h2, h3, h4, h5⟩
  refine ⟨s, h1, h2, h3, ?_⟩
  rw [← Nat.mod_eq_of_lt h4]; exact h5

omit [LimbCfg] in
/-- C28 doesn't hold as stated: a modulus of a single limb panics. -/
theorem C28_single_limb_fails : ∃ (c : LimbCfg) (result base n e : @Buf c .be)
    (scratch : @Buf c .ne), @Buf.toNat c .be n = 7 ∧ @Buf.toNat c .be base = 3 ∧
    @Buf.len c .be base = @Buf.len c .be n ∧ @Buf.len c .be result = @Buf.len c .be n ∧
    @Buf.len c .ne scratch = @Buf.len c .be n ∧
    (@ct_exp_mod_odd_mp_mp c .be .be .be .be result base n e 8 scratch).val.isNone = true :=
  ⟨cfg64, @Buf.ofNat cfg64 .be 8 0, @Buf.ofNat cfg64 .be 8 3, @Buf.ofNat cfg64 .be 8 7,
    @Buf.ofNat cfg64 .be 1 2, @Buf.ofNat cfg64 .ne 8 0, by decide +kernel, by decide +kernel,
    by decide +kernel, by decide +kernel, by decide +kernel, by decide +kernel⟩

/-- C28: with an odd modulus of a single limb and buffers of sufficient length, exponentiation always
panics. -/
theorem C28_single_limb_panics_fails (result : Buf f) (base : Buf g) (n : Buf f') (e : Buf e')
    (nbits : ℕ) (scratch : Buf .ne) (hodd : n.toNat % 2 = 1) (hbl : LenCompat base n.len)
    (hnb : LenCompat n base.len) (hsc : n.nlimbs ≤ scratch.nlimbs) (hlen : LenCompat n result.len)
    (h1 : n.nlimbs = 1) : (ct_exp_mod_odd_mp_mp result base n e nbits scratch).val = none :=
  ct_exp_mod_odd_single result base e nbits scratch h1 (by
    simp [expErr, hodd, hbl, hnb, hlen]; omega)

example : letI := cfg32; (Buf.ofNat .be 3 5).nlimbs = 1 ∧ LenCompat (Buf.ofNat .be 3 5) 4 ∧
    LenCompat (Buf.ofNat .ne 4 2) 3 ∧ (Buf.ofNat .be 3 5).nlimbs ≤ (Buf.ofNat .ne 4 2).nlimbs := by
  decide +kernel

omit [LimbCfg] in
/-- C28 doesn't hold as stated: the square of `-2` modulo `2 ^ 128 - 1` is given as `3`. -/
theorem C28_carry_fails : ∃ (c : LimbCfg) (result base n e : @Buf c .be)
    (scratch : @Buf c .ne), @Buf.toNat c .be n = 2 ^ 128 - 1 ∧
    @Buf.toNat c .be base = 2 ^ 128 - 3 ∧ @Buf.toNat c .be e = 2 ∧
    (@ct_exp_mod_odd_mp_mp c .be .be .be .be result base n e 8 scratch).val.bind expNum = some 3 ∧
    (2 ^ 128 - 3) ^ 2 % (2 ^ 128 - 1) = 4 :=
  ⟨cfg64, @Buf.ofNat cfg64 .be 16 0, @Buf.ofNat cfg64 .be 16 (2 ^ 128 - 3),
    @Buf.ofNat cfg64 .be 16 (2 ^ 128 - 1), @Buf.ofNat cfg64 .be 1 2, @Buf.ofNat cfg64 .ne 16 0,
    by decide +kernel, by decide +kernel, by decide +kernel, by decide +kernel,
    by decide +kernel⟩

example : letI := cfg64;
    (ct_exp_mod_odd_mp_mp (Buf.ofNat .be 10 0) (Buf.ofNat .le 9 (2 ^ 70 + 9))
      (Buf.ofNat .be 9 (2 ^ 71 - 93)) (Buf.ofNat .le 2 1234) 9 (Buf.ofNat .ne 16 0)).val.bind expNum
      = some ((2 ^ 70 + 9) ^ (1234 % 2 ^ 9) % (2 ^ 71 - 93)) ∧
    257 * (2 ^ 71 - 93) ≤ 256 ^ 10 ∧ (B + 1) * (2 ^ 71 - 93) ≤ B ^ 3 := by decide +kernel

end Props
end Cmpa
