import Verif.Proofs.AddMod

/-!
# Comparison, addition, subtraction, negation (C01 - C06)

`b.toNat` is the integer a buffer holds, `b.len` its length in bytes, `b.nlimbs` the number of
limbs this makes.  `LimbChoice.ofBool b` is the library's representation of the condition `b`.
All theorems are for all storage formats and for both limb sizes.
-/

namespace Cmpa
namespace Props
open M
variable [LimbCfg] {f g h : Fmt}

/-! ## C01 -/

/-- C01: equality. -/
theorem C01_eq (a : Buf f) (b : Buf g) :
    Sat (ct_eq_mp_mp a b) (fun c => c = .ofBool (decide (a.toNat = b.toNat))) := ct_eq_mp_mp_sat a b
/-- C01: inequality. -/
theorem C01_neq (a : Buf f) (b : Buf g) :
    Sat (ct_neq_mp_mp a b) (fun c => c = .ofBool (decide (a.toNat ≠ b.toNat))) := ct_neq_mp_mp_sat a b
/-- C01: less or equal. -/
theorem C01_leq (a : Buf f) (b : Buf g) :
    Sat (ct_leq_mp_mp a b) (fun c => c = .ofBool (decide (a.toNat ≤ b.toNat))) := ct_leq_mp_mp_sat a b
/-- C01: less than. -/
theorem C01_lt (a : Buf f) (b : Buf g) :
    Sat (ct_lt_mp_mp a b) (fun c => c = .ofBool (decide (a.toNat < b.toNat))) := ct_lt_mp_mp_sat a b
/-- C01: greater or equal. -/
theorem C01_geq (a : Buf f) (b : Buf g) :
    Sat (ct_geq_mp_mp a b) (fun c => c = .ofBool (decide (a.toNat ≥ b.toNat))) := ct_geq_mp_mp_sat a b
/-- C01: greater than. -/
theorem C01_gt (a : Buf f) (b : Buf g) :
    Sat (ct_gt_mp_mp a b) (fun c => c = .ofBool (decide (a.toNat > b.toNat))) := ct_gt_mp_mp_sat a b
/-- C01: comparison with zero. -/
theorem C01_is_zero (a : Buf f) :
    Sat (ct_is_zero_mp a) (fun c => c = .ofBool (decide (a.toNat = 0))) := ct_is_zero_mp_sat a
/-- C01: comparison with one. -/
theorem C01_is_one (a : Buf f) :
    Sat (ct_is_one_mp a) (fun c => c = .ofBool (decide (a.toNat = 1))) := ct_is_one_mp_sat a
/-- C01: comparison with a limb. -/
theorem C01_leq_l (a : Buf f) (v : ℕ) (hv : v < B) :
    Sat (ct_leq_mp_l a v) (fun c => c = .ofBool (decide (a.toNat ≤ v))) := ct_leq_mp_l_sat a hv

/-- The two conditions are represented differently. -/
theorem C01_ofBool_inj (b c : Bool) (h : LimbChoice.ofBool b = LimbChoice.ofBool c) : b = c := by
  have := congrArg LimbChoice.unwrap h
  rw [LimbChoice.unwrap_ofBool, LimbChoice.unwrap_ofBool] at this
  cases b <;> cases c <;> simp at this ⊢

example : letI := cfg64;
    (ct_lt_mp_mp (Buf.be [0, 0, 0, 0, 0, 0, 0, 0, 0, 1, 2]) (Buf.le [3, 1])).val
      = some (.ofBool true) := by decide +kernel
example : letI := cfg64;
    (ct_eq_mp_mp (Buf.be [0, 0, 0, 0, 0, 0, 0, 0, 0, 1, 2]) (Buf.ne [258])).val
      = some (.ofBool true) := by decide +kernel

/-! ## C02 -/

/-- C02: addition with carry out. -/
theorem C02_add (a : Buf f) (b : Buf g) (hl : b.nlimbs ≤ a.nlimbs) (hb : b.toNat < 256 ^ a.len) :
    Sat (ct_add_mp_mp a b) (fun (a', carry) => a'.len = a.len ∧ carry ≤ 1 ∧
      a'.toNat + carry * 256 ^ a.len = a.toNat + b.toNat) := ct_add_mp_mp_sat a b hl hb

/-- C02: in particular whenever the second operand is not longer than the first. -/
theorem C02_add_len (a : Buf f) (b : Buf g) (hl : b.len ≤ a.len) :
    Sat (ct_add_mp_mp a b) (fun (a', carry) => a'.len = a.len ∧ carry ≤ 1 ∧
      a'.toNat + carry * 256 ^ a.len = a.toNat + b.toNat) :=
  ct_add_mp_mp_sat a b (nlimbs_mono hl)
    (lt_of_lt_of_le b.toNat_lt (Nat.pow_le_pow_right (by norm_num) hl))

example : letI := cfg64;
    ((ct_add_mp_mp (Buf.be [255, 255, 255, 255, 255, 255, 255, 255, 255]) (Buf.le [1, 0, 3])).val.map
      fun (a, c) => (a.toNat, c)) = some (0x30000, 1) := by decide +kernel

/-- C02: addition of a limb. -/
theorem C02_add_l (a : Buf f) (v : ℕ) (hv : v < B) (hv' : v < 256 ^ a.len) :
    Sat (ct_add_mp_l a v) (fun (a', carry) => a'.len = a.len ∧ carry ≤ 1 ∧
      a'.toNat + carry * 256 ^ a.len = a.toNat + v) := ct_add_mp_l_sat a hv hv'

example : letI := cfg64;
    ((ct_add_mp_l (Buf.be [255, 255, 255, 255, 255, 255, 255, 255, 255]) 3).val.map
      fun (a, c) => (a.toNat, c)) = some (2, 1) := by decide +kernel

/-! ## C03 -/

/-- C03: subtraction with borrow out. -/
theorem C03_sub (a : Buf f) (b : Buf g) (hl : b.nlimbs ≤ a.nlimbs) (hb : b.toNat < 256 ^ a.len) :
    Sat (ct_sub_mp_mp a b) (fun (a', borrow) => a'.len = a.len ∧ borrow ≤ 1 ∧
      a'.toNat + b.toNat = a.toNat + borrow * 256 ^ a.len) := ct_sub_mp_mp_sat a b hl hb

/-- C03: in particular whenever the second operand is not longer than the first. -/
theorem C03_sub_len (a : Buf f) (b : Buf g) (hl : b.len ≤ a.len) :
    Sat (ct_sub_mp_mp a b) (fun (a', borrow) => a'.len = a.len ∧ borrow ≤ 1 ∧
      a'.toNat + b.toNat = a.toNat + borrow * 256 ^ a.len) :=
  ct_sub_mp_mp_sat a b (nlimbs_mono hl)
    (lt_of_lt_of_le b.toNat_lt (Nat.pow_le_pow_right (by norm_num) hl))

example : letI := cfg64;
    ((ct_sub_mp_mp (Buf.be [0, 0, 0, 0, 0, 0, 0, 0, 5]) (Buf.le [7])).val.map
      fun (a, c) => (a.toNat, c)) = some (256 ^ 9 - 2, 1) := by decide +kernel

/-- C03: subtraction of a limb. -/
theorem C03_sub_l (a : Buf f) (v : ℕ) (hv : v < B) (hv' : v < 256 ^ a.len) :
    Sat (ct_sub_mp_l a v) (fun (a', borrow) => a'.len = a.len ∧ borrow ≤ 1 ∧
      a'.toNat + v = a.toNat + borrow * 256 ^ a.len) := ct_sub_mp_l_sat a hv hv'

example : letI := cfg64;
    ((ct_sub_mp_l (Buf.be [1, 0, 0, 0, 0, 0, 0, 0, 5]) 7).val.map
      fun (a, c) => (a.toNat, c)) = some (2 ^ 64 - 2, 0) := by decide +kernel

/-! ## C04 -/

/-- C04: conditional addition. -/
theorem C04_add_cond (a : Buf f) (b : Buf g) (c : Bool) (hl : b.nlimbs ≤ a.nlimbs)
    (hb : c = true → b.toNat < 256 ^ a.len) :
    Sat (ct_add_cond_mp_mp a b (.ofBool c)) (fun (a', carry) =>
      if c then a'.len = a.len ∧ carry ≤ 1 ∧ a'.toNat + carry * 256 ^ a.len = a.toNat + b.toNat
      else a' = a ∧ carry = 0) := by
  refine (ct_add_cond_mp_mp_sat a b c hl hb).mono ?_
  rintro ⟨a', k⟩ ⟨h1, h2, h3⟩
  dsimp only at *
  cases c
  · have h4 := a.toNat_lt
    have hk : k = 0 := by
      rcases Nat.le_one_iff_eq_zero_or_eq_one.1 h2 with rfl | rfl
      · rfl
      · simp at h3; omega
    subst hk
    refine ⟨Buf.ext' h1 (by simpa using h3), rfl⟩
  · exact ⟨h1, h2, by simpa using h3⟩

/-- C04: conditional subtraction. -/
theorem C04_sub_cond (a : Buf f) (b : Buf g) (c : Bool) (hl : b.nlimbs ≤ a.nlimbs)
    (hb : c = true → b.toNat < 256 ^ a.len) :
    Sat (ct_sub_cond_mp_mp a b (.ofBool c)) (fun (a', borrow) =>
      if c then a'.len = a.len ∧ borrow ≤ 1 ∧ a'.toNat + b.toNat = a.toNat + borrow * 256 ^ a.len
      else a' = a ∧ borrow = 0) := by
  refine (ct_sub_cond_mp_mp_sat a b c hl hb).mono ?_
  rintro ⟨a', k⟩ ⟨h1, h2, h3⟩
  dsimp only at *
  cases c
  · have h4 := a'.toNat_lt
    rw [h1] at h4
    have hk : k = 0 := by
      rcases Nat.le_one_iff_eq_zero_or_eq_one.1 h2 with rfl | rfl
      · rfl
      · simp at h3; omega
    subst hk
    refine ⟨Buf.ext' h1 (by simpa using h3), rfl⟩
  · exact ⟨h1, h2, by simpa using h3⟩

/-- C04: conditional negation. -/
theorem C04_negate_cond (a : Buf f) (c : Bool) :
    Sat (ct_negate_cond_mp a (.ofBool c)) (fun a' =>
      if c then a'.len = a.len ∧ a'.toNat = (256 ^ a.len - a.toNat) % 256 ^ a.len else a' = a) := by
  refine (ct_negate_cond_mp_sat a c).mono ?_
  rintro a' ⟨h1, h2⟩
  cases c
  · exact Buf.ext' h1 (by simpa using h2)
  · exact ⟨h1, by simpa using h2⟩

/-- C04: conditional exchange; the values must fit if they are to be exchanged. -/
theorem C04_swap_cond (a : Buf f) (b : Buf g) (c : Bool)
    (hc : c = true → a.toNat < 256 ^ b.len ∧ b.toNat < 256 ^ a.len)
    (hl : a.nlimbs = b.nlimbs) :
    Sat (ct_swap_cond_mp a b (.ofBool c)) (fun (a', b') => a'.len = a.len ∧ b'.len = b.len ∧
      a'.toNat = (if c then b.toNat else a.toNat) ∧ b'.toNat = (if c then a.toNat else b.toNat)) := by
  refine ct_swap_cond_mp_sat a b c hl ?_
  cases c
  · exact .inl rfl
  · exact .inr (hc rfl)

example : letI := cfg64;
    ((ct_sub_cond_mp_mp (Buf.be [5, 0]) (Buf.le [1]) (.ofBool false)).val.map
      fun (a, c) => (a.toNat, c)) = some (0x500, 0) := by decide +kernel
example : letI := cfg64;
    ((ct_add_cond_mp_mp (Buf.be [5, 0]) (Buf.le [1]) (.ofBool true)).val.map
      fun (a, c) => (a.toNat, c)) = some (0x501, 0) := by decide +kernel

/-! ## C05 -/

/-- C05: negation is two's complement. -/
theorem C05_negate (a : Buf f) :
    Sat (ct_negate_mp a) (fun a' => a'.len = a.len ∧
      a'.toNat = (256 ^ a.len - a.toNat) % 256 ^ a.len) := ct_negate_mp_sat a

/-- C05: negating twice restores the buffer. -/
theorem C05_involutive (a : Buf f) :
    Sat (do let b ← ct_negate_mp a; ct_negate_mp b) (fun a' => a' = a) := by
  refine Sat.bind (ct_negate_mp_sat a) ?_
  rintro b ⟨h1, h2⟩
  refine (ct_negate_mp_sat b).mono ?_
  rintro c ⟨h3, h4⟩
  refine Buf.ext' (h3.trans h1) ?_
  rw [h4, h1, h2]
  have ha := a.toNat_lt
  generalize 256 ^ a.len = L at *
  rcases Nat.eq_zero_or_pos a.toNat with h0 | h0
  · simp [h0]
  · rw [Nat.mod_eq_of_lt (show L - a.toNat < L by omega), Nat.mod_eq_of_lt (by omega)]; omega

example : letI := cfg64;
    (ct_negate_mp (Buf.be [0, 0, 0, 0, 0, 0, 0, 0, 1])).val.map Buf.toNat = some (256 ^ 9 - 1) := by
  decide +kernel

/-! ## C06 -/

/-- C06: modular addition.  Partial: if the first operand has more limbs than the modulus, then
the sum must not exceed the limbs of the modulus; see `C06_add_mod_fails`.

`n.len ≤ a.len`, or the modulus is native-endian and its excess bytes in the high limb are zero,
is what the function itself checks. -/
theorem C06_add_mod_partial (a : Buf f) (b : Buf g) (n : Buf h)
    (hn : n.len ≤ a.len ∨ (h.unaligned = false ∧ n.len - a.len < LB ∧ n.toNat < 256 ^ a.len))
    (ha : a.toNat < n.toNat) (hb : b.toNat < n.toNat)
    (hcase : a.nlimbs = n.nlimbs ∨ a.toNat + b.toNat < B ^ n.nlimbs) :
    Sat (ct_add_mod_mp_mp a b n) (fun r => ∃ a' : Buf f, r = .ok a' ∧ a'.len = a.len ∧
      a'.toNat = (a.toNat + b.toNat) % n.toNat) := ct_add_mod_mp_mp_sat a b n hn ha hb hcase

example : letI := cfg64;
    ((ct_add_mod_mp_mp (Buf.be [200]) (Buf.le [201]) (Buf.ne [211])).val.map fun
      | .ok a => some a.toNat | _ => none) = some (some 190) := by decide +kernel

omit [LimbCfg] in
/-- C06 (finding B3): with `n = 2^64 - 1` in one limb and `n - 1` in two limbs, adding `n - 1`
leaves a number which is not below `n`. -/
theorem C06_add_mod_fails :
    ∃ (c : LimbCfg) (a : @Buf c .ne) (b : @Buf c .ne) (n : @Buf c .ne) (a' : @Buf c .ne),
      n.len ≤ a.len ∧ a.toNat < n.toNat ∧ b.toNat < n.toNat ∧
      (ct_add_mod_mp_mp a b n).val = some (.ok a') ∧ n.toNat ≤ a'.toNat :=
  ⟨cfg64, @Buf.ne cfg64 [2 ^ 64 - 2, 0], @Buf.ne cfg64 [2 ^ 64 - 2], @Buf.ne cfg64 [2 ^ 64 - 1],
    @Buf.ne cfg64 [2 ^ 64 - 3, 2 ^ 64 - 1],
    by decide +kernel, by decide +kernel, by decide +kernel, by decide +kernel, by decide +kernel⟩

/-- C06: exactly where the sum is right. -/
theorem C06_add_mod_iff (a : Buf f) (b : Buf g) (n : Buf h)
    (hn : n.len ≤ a.len ∨ (h.unaligned = false ∧ n.len - a.len < LB ∧ n.toNat < 256 ^ a.len))
    (ha : a.toNat < n.toNat) (hb : b.toNat < n.toNat) :
    Sat (ct_add_mod_mp_mp a b n) (fun r => ∃ a' : Buf f, r = .ok a' ∧ a'.len = a.len ∧
      (a'.toNat = (a.toNat + b.toNat) % n.toNat ↔
        a.nlimbs = n.nlimbs ∨ a.toNat + b.toNat < B ^ n.nlimbs)) := by
  refine (ct_add_mod_mp_mp_sat' a b n hn ha hb).mono ?_
  rintro r ⟨a', h1, h2, h3, h4⟩
  refine ⟨a', h1, h2, fun h5 => ?_, h3⟩
  by_contra hc
  obtain ⟨hc1, hc2⟩ := not_or.1 hc
  have hle : n.nlimbs ≤ a.nlimbs := by rw [Buf.nlimbs_eq a]; exact LenCompat.nlimbs hn
  have hN : n.nlimbs < a.nlimbs := by omega
  have h6 := h4 hN (by omega)
  have h7 : B ^ n.nlimbs < 256 ^ a.len := by
    rw [← pow_256]; exact Nat.pow_lt_pow_right (by norm_num) (lt_nlimbs_iff.1 (Buf.nlimbs_eq a ▸ hN))
  have hnB := n.toNat_lt_B
  rw [Nat.mod_eq_sub_mod (by omega), Nat.mod_eq_of_lt (by omega)] at h5
  omega

/-- C06: modular subtraction.  Partial: if the first operand has more limbs than the modulus, then
the difference must not be negative; see `C06_sub_mod_fails`. -/
theorem C06_sub_mod_partial (a : Buf f) (b : Buf g) (n : Buf h)
    (hn : n.len ≤ a.len ∨ (h.unaligned = false ∧ n.len - a.len < LB ∧ n.toNat < 256 ^ a.len))
    (ha : a.toNat < n.toNat) (hb : b.toNat < n.toNat)
    (hcase : a.nlimbs = n.nlimbs ∨ b.toNat ≤ a.toNat) :
    Sat (ct_sub_mod_mp_mp a b n) (fun r => ∃ a' : Buf f, r = .ok a' ∧ a'.len = a.len ∧
      (a'.toNat : ℤ) = ((a.toNat : ℤ) - b.toNat) % n.toNat) := by
  refine (ct_sub_mod_mp_mp_sat a b n hn ha hb hcase).mono ?_
  rintro r ⟨a', h1, h2, h3⟩
  refine ⟨a', h1, h2, ?_⟩
  rw [h3]
  push_cast [Nat.cast_sub hb.le]
  rw [show (a.toNat : ℤ) + (n.toNat - b.toNat) = a.toNat - b.toNat + n.toNat by ring,
    Int.add_emod_right]

example : letI := cfg64;
    ((ct_sub_mod_mp_mp (Buf.be [200]) (Buf.le [201]) (Buf.ne [211])).val.map fun
      | .ok a => some a.toNat | _ => none) = some (some 210) := by decide +kernel

omit [LimbCfg] in
/-- C06 (finding B4): with `n = 5` in one limb and `0` in two limbs, subtracting 1 leaves
`2^64 + 4`. -/
theorem C06_sub_mod_fails :
    ∃ (c : LimbCfg) (a : @Buf c .ne) (b : @Buf c .ne) (n : @Buf c .ne) (a' : @Buf c .ne),
      n.len ≤ a.len ∧ a.toNat < n.toNat ∧ b.toNat < n.toNat ∧
      (ct_sub_mod_mp_mp a b n).val = some (.ok a') ∧ n.toNat ≤ a'.toNat :=
  ⟨cfg64, @Buf.ne cfg64 [0, 0], @Buf.ne cfg64 [1], @Buf.ne cfg64 [5],
    @Buf.ne cfg64 [4, 1],
    by decide +kernel, by decide +kernel, by decide +kernel, by decide +kernel, by decide +kernel⟩

/-- C06: exactly where the difference is right. -/
theorem C06_sub_mod_iff (a : Buf f) (b : Buf g) (n : Buf h)
    (hn : n.len ≤ a.len ∨ (h.unaligned = false ∧ n.len - a.len < LB ∧ n.toNat < 256 ^ a.len))
    (ha : a.toNat < n.toNat) (hb : b.toNat < n.toNat) :
    Sat (ct_sub_mod_mp_mp a b n) (fun r => ∃ a' : Buf f, r = .ok a' ∧ a'.len = a.len ∧
      ((a'.toNat : ℤ) = ((a.toNat : ℤ) - b.toNat) % n.toNat ↔
        a.nlimbs = n.nlimbs ∨ b.toNat ≤ a.toNat)) := by
  refine (ct_sub_mod_mp_mp_sat' a b n hn ha hb).mono ?_
  rintro r ⟨a', h1, h2, h3, h4⟩
  have e : ((a.toNat : ℤ) - b.toNat) % n.toNat
      = ((a.toNat + (n.toNat - b.toNat)) % n.toNat : ℕ) := by
    push_cast [Nat.cast_sub hb.le]
    rw [show (a.toNat : ℤ) + (n.toNat - b.toNat) = a.toNat - b.toNat + n.toNat by ring,
      Int.add_emod_right]
  rw [e]; simp only [Nat.cast_inj]
  refine ⟨a', h1, h2, fun h5 => ?_, h3⟩
  by_contra hc
  obtain ⟨hc1, hc2⟩ := not_or.1 hc
  have hle : n.nlimbs ≤ a.nlimbs := by rw [Buf.nlimbs_eq a]; exact LenCompat.nlimbs hn
  have h6 := h4 (by omega) (by omega)
  have hpos := B_pow_pos n.nlimbs
  have := Nat.mod_le (a.toNat + (n.toNat - b.toNat)) n.toNat
  omega

/-- C06: modular negation. -/
theorem C06_negate_mod (a : Buf f) (n : Buf g)
    (hn : n.len ≤ a.len ∨ (g.unaligned = false ∧ n.len - a.len < LB ∧ n.toNat < 256 ^ a.len))
    (ha : a.toNat < n.toNat) :
    Sat (ct_negate_mod_mp a n) (fun r => ∃ a' : Buf f, r = .ok a' ∧ a'.len = a.len ∧
      (a'.toNat : ℤ) = (-(a.toNat : ℤ)) % n.toNat) := by
  refine (ct_negate_mod_mp_sat a n hn ha).mono ?_
  rintro r ⟨a', h1, h2, h3⟩
  refine ⟨a', h1, h2, ?_⟩
  rw [h3]
  push_cast [Nat.cast_sub ha.le]
  rw [show (n.toNat : ℤ) - a.toNat = - a.toNat + n.toNat by ring, Int.add_emod_right]

example : letI := cfg64;
    ((ct_negate_mod_mp (Buf.be [0, 200]) (Buf.ne [211])).val.map fun
      | .ok a => some a.toNat | _ => none) = some (some 11) := by decide +kernel

/-- C06: any other length of the modulus is reported as an error. -/
theorem C06_lengths (a : Buf f) (b : Buf g) (n : Buf h)
    (hn : ¬ (n.len ≤ a.len ∨ (h.unaligned = false ∧ n.len - a.len < LB ∧ n.toNat < 256 ^ a.len))) :
    Sat (ct_add_mod_mp_mp a b n) (fun r => r = .error .InconsistentOperandLengths) ∧
    Sat (ct_sub_mod_mp_mp a b n) (fun r => r = .error .InconsistentOperandLengths) ∧
    Sat (ct_negate_mod_mp a n) (fun r => r = .error .InconsistentOperandLengths) :=
  ⟨mod_len_error a n hn _, mod_len_error a n hn _, mod_len_error a n hn _⟩

example : letI := cfg64;
    ((ct_add_mod_mp_mp (Buf.be [200]) (Buf.le [201]) (Buf.be [1, 211])).val.map fun
      | .ok _ => false | _ => true) = some true := by decide +kernel

end Props
end Cmpa
