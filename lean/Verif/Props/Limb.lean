import Verif.Proofs.NonCtLDiv
import Verif.Proofs.Usize

/-!
# Properties of single limbs (C11 - C14)

`B = 2^LIMB_BITS` is the limb base; everything is proved for both limb sizes
(`cfg32`, `cfg64`) at once.  `m = pure x` says that `m` does not panic, has no
observable events, and returns `x`.
-/

namespace Cmpa
namespace Props
variable [LimbCfg]

/-! ## C11 -/

/-- C11: `ct_add_l_l` returns the carry and the sum: `carry * B + sum = a + b`. -/
theorem C11_add {a b : ℕ} (ha : a < B) (hb : b < B) :
    (ct_add_l_l a b).1 * B + (ct_add_l_l a b).2 = a + b ∧
      (ct_add_l_l a b).1 ≤ 1 ∧ (ct_add_l_l a b).2 < B := by
  rw [ct_add_l_l_eq ha hb]
  exact ⟨by dsimp only; rw [mul_comm]; exact Nat.div_add_mod _ _, add_div_le_one ha hb,
    Nat.mod_lt _ B_pos⟩

example : @ct_add_l_l cfg64 (2 ^ 64 - 1) 2 = (1, 1) := by decide +kernel

/-- C11: addition with incoming carry. -/
theorem C11_add_carry {a b c : ℕ} (ha : a < B) (hb : b < B) (hc : c ≤ 1) :
    ∃ k r, ct_add_l_l_c a b c = pure (k, r) ∧ k ≤ 1 ∧ r < B ∧ k * B + r = a + b + c := by
  obtain ⟨k, r, h1, h2, h3, h4⟩ := ct_add_l_l_c_spec ha hb hc
  exact ⟨k, r, h1, h2, h3, by omega⟩

example : (@ct_add_l_l_c cfg64 (2 ^ 64 - 1) (2 ^ 64 - 1) 1).val = some (1, 2 ^ 64 - 1) := by
  decide +kernel

/-- C11: `ct_sub_l_l` returns borrow and difference: `difference - borrow * B = a - b`. -/
theorem C11_sub {a b : ℕ} (ha : a < B) (hb : b < B) :
    ((ct_sub_l_l a b).2 : ℤ) - (ct_sub_l_l a b).1 * B = a - b ∧
      (ct_sub_l_l a b).1 ≤ 1 ∧ (ct_sub_l_l a b).2 < B := by
  obtain ⟨w, d, h, h1, h2, h3, -⟩ := ct_sub_l_l_spec ha hb
  rw [h]
  refine ⟨?_, h1, h2⟩
  dsimp only; zify at h3; linarith

example : @ct_sub_l_l cfg32 0 1 = (1, 2 ^ 32 - 1) := by decide +kernel

/-- C11: subtraction with incoming borrow. -/
theorem C11_sub_borrow {a b c : ℕ} (ha : a < B) (hb : b < B) (hc : c ≤ 1) :
    ∃ w d, ct_sub_l_l_b a b c = pure (w, d) ∧ w ≤ 1 ∧ d < B ∧ (d : ℤ) - w * B = a - b - c := by
  obtain ⟨k, r, h1, h2, h3, h4⟩ := ct_sub_l_l_b_spec ha hb hc
  exact ⟨k, r, h1, h2, h3, by zify at h4; linarith⟩

example : (@ct_sub_l_l_b cfg64 0 (2 ^ 64 - 1) 1).val = some (1, 0) := by decide +kernel

/-- C11: the double-limb product. -/
theorem C11_mul {a b : ℕ} (ha : a < B) (hb : b < B) :
    ∃ h l, ct_mul_l_l a b = pure ⟨h, l⟩ ∧ h < B ∧ l < B ∧ h * B + l = a * b := by
  refine ⟨_, _, ct_mul_l_l_eq ha hb, ?_, Nat.mod_lt _ B_pos, ?_⟩
  · exact Nat.div_lt_of_lt_mul (Nat.mul_lt_mul'' ha hb)
  · rw [mul_comm]; exact Nat.div_add_mod _ _

example : (@ct_mul_l_l cfg64 (2 ^ 64 - 1) (2 ^ 64 - 1)).val = some ⟨2 ^ 64 - 2, 1⟩ := by
  decide +kernel

/-- C11: fused multiply-add `op0 + op10 * op11 + carry`. -/
theorem C11_mul_add {a b c d : ℕ} (ha : a < B) (hb : b < B) (hc : c < B) (hd : d < B) :
    ∃ k r, ct_mul_add_l_l_l_c a b c d = pure (k, r) ∧ k < B ∧ r < B ∧
      k * B + r = a + b * c + d := by
  obtain ⟨k, r, h1, h2, h3, h4⟩ := ct_mul_add_l_l_l_c_spec ha hb hc hd
  exact ⟨k, r, h1, h2, h3, by omega⟩

example : (@ct_mul_add_l_l_l_c cfg64 (2 ^ 64 - 1) (2 ^ 64 - 1) (2 ^ 64 - 1) (2 ^ 64 - 1)).val
    = some (2 ^ 64 - 1, 2 ^ 64 - 1) := by decide +kernel

/-- C11: fused multiply-subtract `op0 - op10 * op11 - borrow`. -/
theorem C11_mul_sub {a b c d : ℕ} (ha : a < B) (hb : b < B) (hc : c < B) (hd : d < B) :
    ∃ w r, ct_mul_sub_l_l_l_b a b c d = pure (w, r) ∧ w < B ∧ r < B ∧
      (r : ℤ) - w * B = a - b * c - d := by
  obtain ⟨k, r, h1, h2, h3, h4⟩ := ct_mul_sub_l_l_l_b_spec ha hb hc hd
  exact ⟨k, r, h1, h2, h3, by zify at h4; linarith⟩

example : (@ct_mul_sub_l_l_l_b cfg64 0 (2 ^ 64 - 1) (2 ^ 64 - 1) (2 ^ 64 - 1)).val
    = some (2 ^ 64 - 1, 0) := by decide +kernel

/-! ## C12 -/

/-- C12: the limb comparisons.  `LimbChoice.ofBool b` is the choice which selects its
second alternative iff `b` holds, see `C12_select`. -/
theorem C12_cmp {a b : ℕ} (ha : a < B) (hb : b < B) :
    ct_eq_l_l a b = .ofBool (decide (a = b)) ∧
    ct_neq_l_l a b = .ofBool (decide (a ≠ b)) ∧
    ct_lt_l_l a b = .ofBool (decide (a < b)) ∧
    ct_leq_l_l a b = .ofBool (decide (a ≤ b)) ∧
    ct_gt_l_l a b = .ofBool (decide (a > b)) ∧
    ct_geq_l_l a b = .ofBool (decide (a ≥ b)) ∧
    ct_lt_or_eq_l_l a b = pure (if a < b then 1 else 0, if a = b then 1 else 0) :=
  ⟨ct_eq_l_l_eq ha hb, ct_neq_l_l_eq ha hb, ct_lt_l_l_eq ha hb, ct_leq_l_l_eq ha hb,
    ct_gt_l_l_eq ha hb, ct_geq_l_l_eq ha hb, ct_lt_or_eq_l_l_eq ha hb⟩

example : (@ct_lt_l_l cfg64 (2 ^ 63 - 1) (2 ^ 63)).mask = 2 ^ 64 - 1 := by decide +kernel

/-- C12: the zero tests. -/
theorem C12_zero {v : ℕ} (hv : v < B) :
    ct_is_zero_l v = (if v = 0 then 1 else 0) ∧ ct_is_nonzero_l v = (if v ≠ 0 then 1 else 0) :=
  ⟨ct_is_zero_l_eq hv, by rw [ct_is_nonzero_l_eq hv]⟩

example : @ct_is_nonzero_l cfg64 (2 ^ 63) = 1 ∧ @ct_is_nonzero_l cfg64 0 = 0 := by decide +kernel

/-- C12: what a choice does: it reports 0/1, and selects the second alternative iff set;
`!`, `&` and `|` are the Boolean operations. -/
theorem C12_select (b c : Bool) {x y : ℕ} (hx : x < B) (hy : y < B) (i j : ℕ) :
    (LimbChoice.ofBool b).unwrap = b.toNat ∧
    (LimbChoice.ofBool b).select x y = (if b then y else x) ∧
    (LimbChoice.ofBool b).select_usize i j = (if b then j else i) ∧
    (LimbChoice.ofBool b).not = .ofBool (!b) ∧
    (LimbChoice.ofBool b).and (.ofBool c) = .ofBool (b && c) ∧
    (LimbChoice.ofBool b).or (.ofBool c) = .ofBool (b || c) ∧
    LimbChoice.from' b.toNat = pure (.ofBool b) :=
  ⟨by cases b <;> simp, LimbChoice.select_ofBool hx hy, LimbChoice.select_usize_ofBool,
    LimbChoice.not_ofBool b, LimbChoice.and_ofBool b c, LimbChoice.or_ofBool b c,
    by cases b <;> simp [LimbChoice.from'_eq]⟩

example : (@LimbChoice.ofBool cfg64 true).select 3 5 = 5 := by decide +kernel

/-- C12: the `usize` comparisons, for 32 and 64 bit `usize` (parameter `u`) with either
limb size. -/
theorem C12_usize (u : UsizeCfg) {a b : ℕ} (ha : a < @B u.cfg) (hb : b < @B u.cfg) :
    ct_eq_usize_usize' u a b = pure (.ofBool (decide (a = b))) ∧
    ct_lt_usize_usize' u a b = pure (.ofBool (decide (a < b))) ∧
    ct_leq_usize_usize' u a b = pure (.ofBool (decide (a ≤ b))) ∧
    ct_gt_usize_usize' u a b = pure (.ofBool (decide (a > b))) ∧
    ct_geq_usize_usize' u a b = pure (.ofBool (decide (a ≥ b))) := by
  refine ⟨?_, ?_, ?_, ?_, ?_⟩
  · rw [ct_eq_usize_usize_agrees u ha hb, ct_eq_usize_usize_eq]
  · rw [ct_lt_usize_usize_agrees u ha hb, ct_lt_usize_usize_eq]
  · rw [ct_leq_usize_usize_agrees u ha hb, ct_leq_usize_usize_eq]
  · unfold ct_gt_usize_usize'; rw [ct_lt_usize_usize_agrees u hb ha, ct_lt_usize_usize_eq]
  · unfold ct_geq_usize_usize'; rw [ct_leq_usize_usize_agrees u hb ha, ct_leq_usize_usize_eq]

example : ((@ct_lt_usize_usize' cfg32 ⟨cfg64⟩ (2 ^ 63) (2 ^ 63 + 1)).val.map (·.mask))
    = some (2 ^ 32 - 1) := by decide +kernel

/-! ## C13 -/

/-- C13: `CtLDivisor::new` accepts every non-zero limb, and dividing any double limb
whose high part is below the divisor (the documented condition for the quotient to fit
into a limb) gives the exact quotient and remainder. -/
theorem C13_ct_div {v : ℕ} (hv : v < B) (h0 : v ≠ 0) :
    M.Sat (CtLDivisor.new v) (fun o => ∃ d, o = some d ∧
      ∀ u : DoubleLimb, u.high < v → u.low < B →
        d.do_div u = pure ((u.high * B + u.low) / v, (u.high * B + u.low) % v)) := by
  refine (CtLDivisor.new_spec hv h0).mono ?_
  rintro _ ⟨d, rfl, hd, rfl⟩
  exact ⟨d, rfl, fun u h1 h2 => CtLDivisor.do_div_eq hd h1 h2⟩

example : ((do
    let d ← @CtLDivisor.new cfg64 (2 ^ 64 - 1)
    let d ← M.ofOption d
    @CtLDivisor.do_div cfg64 d ⟨2 ^ 64 - 2, 2 ^ 64 - 1⟩ : M (ℕ × ℕ)).val)
    = some (2 ^ 64 - 1, 2 ^ 64 - 2) := by decide +kernel

/-- C13: the same with the divisor object built by the variable-time constructor. -/
theorem C13_nonct_new_div {v : ℕ} (hv : v < B) (h0 : v ≠ 0) :
    M.Sat (CtLDivisor.nonct_new v) (fun o => ∃ d, o = some d ∧
      ∀ u : DoubleLimb, u.high < v → u.low < B →
        d.do_div u = pure ((u.high * B + u.low) / v, (u.high * B + u.low) % v)) := by
  refine (CtLDivisor.nonct_new_spec hv h0).mono ?_
  rintro _ ⟨d, rfl, hd, rfl⟩
  exact ⟨d, rfl, fun u h1 h2 => CtLDivisor.do_div_eq hd h1 h2⟩

example : ((do
    let d ← @CtLDivisor.nonct_new cfg32 641
    let d ← M.ofOption d
    @CtLDivisor.do_div cfg32 d ⟨1, 0⟩ : M (ℕ × ℕ)).val)
    = some (2 ^ 32 / 641, 2 ^ 32 % 641) := by decide +kernel

/-- C13: the variable-time divisor. -/
theorem C13_nonct_div {v : ℕ} (hv : v < B) (h0 : v ≠ 0) :
    M.Sat (NonCtLDivisor.new v) (fun o => ∃ d, o = some d ∧
      ∀ u : DoubleLimb, u.high < v → u.low < B →
        M.Sat (d.do_div u)
          (fun r => r = ((u.high * B + u.low) / v, (u.high * B + u.low) % v))) := by
  refine (NonCtLDivisor.new_spec hv h0).mono ?_
  rintro _ ⟨d, rfl, hd, rfl⟩
  exact ⟨d, rfl, fun u h1 h2 => NonCtLDivisor.do_div_spec hd h1 h2⟩

example : ((do
    let d ← @NonCtLDivisor.new cfg64 (2 ^ 33 + 1)
    let d ← M.ofOption d
    @NonCtLDivisor.do_div cfg64 d ⟨2 ^ 33, 5⟩ : M (ℕ × ℕ)).val)
    = some ((2 ^ 33 * 2 ^ 64 + 5) / (2 ^ 33 + 1), (2 ^ 33 * 2 ^ 64 + 5) % (2 ^ 33 + 1)) := by
  decide +kernel

/-- C13: a zero divisor is rejected, with an error and not a panic. -/
theorem C13_zero :
    M.Sat (CtLDivisor.new 0) (fun o => o = none) ∧
    M.Sat (NonCtLDivisor.new 0) (fun o => o = none) :=
  ⟨CtLDivisor.new_zero, NonCtLDivisor.new_zero⟩

/-! ## C14 -/

/-- C14: `ct_inv_mod_l` inverts odd limbs modulo `2^LIMB_BITS`. -/
theorem C14_inv {v : ℕ} (hodd : v % 2 = 1) :
    ∃ r, ct_inv_mod_l v = pure r ∧ r < B ∧ v * r % B = 1 := ct_inv_mod_l_spec hodd

example : ((@ct_inv_mod_l cfg64 3).val).map (· * 3 % 2 ^ 64) = some 1 := by decide +kernel

/-- C14: `ct_find_last_set_bit_l` is the bit length: `v < 2^n` and, unless `v = 0`,
`2^(n-1) ≤ v`; `ct_find_last_set_byte_l` is the byte length. -/
theorem C14_last_set {v : ℕ} (hv : v < B) :
    (∃ n, ct_find_last_set_bit_l v = pure n ∧ v < 2 ^ n ∧ (v = 0 → n = 0) ∧
      (v ≠ 0 → 0 < n ∧ 2 ^ (n - 1) ≤ v)) ∧
    (∃ n, ct_find_last_set_byte_l v = pure n ∧ v < 256 ^ n ∧ (v = 0 → n = 0) ∧
      (v ≠ 0 → 0 < n ∧ 256 ^ (n - 1) ≤ v)) := by
  constructor
  · refine ⟨_, ct_find_last_set_bit_l_eq hv, Nat.lt_size_self v, ?_, ?_⟩
    · rintro rfl; simp
    · intro h; obtain ⟨h1, h2, -⟩ := size_bounds h; exact ⟨h1, h2⟩
  · refine ⟨_, ct_find_last_set_byte_l_eq hv, ?_, ?_, ?_⟩
    · rw [show (256 : ℕ) = 2 ^ 8 by norm_num, ← pow_mul]
      exact lt_of_lt_of_le (Nat.lt_size_self v) (Nat.pow_le_pow_right (by norm_num) (by omega))
    · rintro rfl; simp
    · intro h
      obtain ⟨h1, h2, -⟩ := size_bounds h
      refine ⟨by omega, ?_⟩
      rw [show (256 : ℕ) = 2 ^ 8 by norm_num, ← pow_mul]
      exact le_trans (Nat.pow_le_pow_right (by norm_num) (by omega)) h2

example : (@ct_find_last_set_bit_l cfg64 (2 ^ 40)).val = some 41 ∧
    (@ct_find_last_set_byte_l cfg64 (2 ^ 40)).val = some 6 := by decide +kernel

/-- C14: `ct_find_first_set_bit_l` counts trailing zero bits; for zero it is the limb
width. -/
theorem C14_first_set {v : ℕ} (hv : v < B) :
    ∃ t, ct_find_first_set_bit_l v = pure t ∧
      ((v = 0 ∧ t = W) ∨ (v ≠ 0 ∧ 2 ^ t ∣ v ∧ ¬ 2 ^ (t + 1) ∣ v)) :=
  ct_find_first_set_bit_l_spec hv

example : (@ct_find_first_set_bit_l cfg64 (2 ^ 40 + 2 ^ 63)).val = some 40 ∧
    (@ct_find_first_set_bit_l cfg64 0).val = some 64 := by decide +kernel

/-- C14: `ct_lsb_mask_l(n)` has the `n` least significant bits set. -/
theorem C14_lsb_mask {n : ℕ} (h : n ≤ W) : ct_lsb_mask_l n = 2 ^ n - 1 := ct_lsb_mask_l_eq h

example : @ct_lsb_mask_l cfg64 64 = 2 ^ 64 - 1 ∧ @ct_lsb_mask_l cfg64 0 = 0 := by decide +kernel

/-- The value of a limb read as two's complement. -/
def signed (v : ℕ) : ℤ := if v < 2 ^ (W - 1) then v else (v : ℤ) - B

/-- C14: `ct_arithmetic_rshift_l` divides the two's complement value by `2^s`, rounding
towards minus infinity; all shift distances up to and including the limb width. -/
theorem C14_arithmetic_rshift {v s : ℕ} (hv : v < B) (hs : s ≤ W) :
    ∃ r, ct_arithmetic_rshift_l v s = pure r ∧ r < B ∧ signed r = signed v / 2 ^ s := by
  obtain ⟨r, h1, h2, h3⟩ := ct_arithmetic_rshift_l_spec hv hs
  refine ⟨r, h1, h2, ?_⟩
  have hB := B_half
  have hBs : B = 2 ^ (W - s) * 2 ^ s := by rw [← pow_add, B_eq_two_pow]; congr 1; omega
  unfold signed
  by_cases hn : v < 2 ^ (W - 1)
  · rw [if_pos hn] at h3 ⊢
    rw [if_pos (by rw [h3]; exact lt_of_le_of_lt (Nat.div_le_self _ _) hn), h3]
    norm_cast
  · rw [if_neg hn] at h3 ⊢
    have hdiv : v / 2 ^ s < 2 ^ (W - s) := by
      apply Nat.div_lt_of_lt_mul; rw [mul_comm, ← hBs]; exact hv
    have hge : 2 ^ (W - s) ≤ 2 ^ (W - 1) + v / 2 ^ s := by
      rcases Nat.eq_zero_or_pos s with h | h
      · subst h; simp; rw [← B_eq_two_pow]; omega
      · have : 2 ^ (W - s) ≤ 2 ^ (W - 1) := Nat.pow_le_pow_right (by norm_num) (by omega)
        have := Nat.zero_le (v / 2 ^ s)
        omega
    rw [if_neg (by omega)]
    have e1 : (v : ℤ) - B = v + (-(2 ^ (W - s) : ℕ) : ℤ) * (2 ^ s : ℕ) := by
      have : (B : ℤ) = (2 ^ (W - s) : ℕ) * (2 ^ s : ℕ) := by exact_mod_cast hBs
      rw [this]; ring
    have e2 : ((v : ℤ) - B) / 2 ^ s = v / (2 ^ s : ℕ) - (2 ^ (W - s) : ℕ) := by
      rw [e1]
      have hp : ((2 ^ s : ℕ) : ℤ) ≠ 0 := by exact_mod_cast (Nat.two_pow_pos s).ne'
      have := Int.add_mul_ediv_right (v : ℤ) (-(2 ^ (W - s) : ℕ) : ℤ) hp
      push_cast at this ⊢
      rw [this]; ring
    rw [e2]
    have e3 : ((v / 2 ^ s : ℕ) : ℤ) = (v : ℤ) / (2 ^ s : ℕ) := by norm_cast
    rw [← e3]; omega

example : (@ct_arithmetic_rshift_l cfg64 (2 ^ 64 - 5) 1).val = some (2 ^ 64 - 3) := by
  decide +kernel

/-- C14: `ct_negate_l` is negation modulo `2^LIMB_BITS`. -/
theorem C14_negate {v : ℕ} (hv : v < B) : (ct_negate_l v + v) % B = 0 ∧ ct_negate_l v < B := by
  rw [ct_negate_l_eq hv]
  refine ⟨?_, Nat.mod_lt _ B_pos⟩
  rw [Nat.mod_add_mod, Nat.sub_add_cancel hv.le, Nat.mod_self]

example : @ct_negate_l cfg64 1 = 2 ^ 64 - 1 := by decide +kernel

end Props
end Cmpa
