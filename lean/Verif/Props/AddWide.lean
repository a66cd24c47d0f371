import Verif.Props.Add
import Verif.Proofs.AddWide

/-!
# Addition and subtraction of an operand that doesn't fit into the first one (C73)

The second operand of `ct_add_mp_mp` and `ct_sub_mp_mp` may be longer than the first one as long as it
doesn't have more limbs.  Its value then needn't be less than `256 ^ a.len`, and the contracts of C02 and
C03 don't apply.
-/

namespace Cmpa.Props
open M
variable [LimbCfg] {f g : Fmt}

/-- C73: an addition never panics and leaves the sum truncated to the length of the first operand.  The
carry is everything that was truncated, unless the sum exceeds the limbs, when it's 1. -/
theorem C73_add_cond (a : Buf f) (b : Buf g) (c : Bool) (hl : b.nlimbs ≤ a.nlimbs) {s : ℕ}
    (hs : s = a.toNat + if c then b.toNat else 0) :
    Sat (ct_add_cond_mp_mp a b (.ofBool c)) (fun (a', carry) => a'.len = a.len ∧
      a'.toNat = s % 256 ^ a.len ∧
      carry = if s < B ^ a.nlimbs then s / 256 ^ a.len else 1) := by
  have h := (ct_add_cond_mp_mp_wide a b c hl rfl).exact.1
  rw [← hs] at h
  have ha := a.toNat_lt
  have haB := a.toNat_lt_B
  have hb : s < a.toNat + B ^ a.nlimbs := by
    have h1 := b.toNat_lt_B.trans_le (Nat.pow_le_pow_right B_pos hl)
    have h2 := B_pow_pos a.nlimbs
    rw [hs]; split <;> omega
  have hm : B ^ a.nlimbs ≤ s → s % B ^ a.nlimbs = s - B ^ a.nlimbs := fun h1 => by
    rw [Nat.mod_eq_sub_mod h1, Nat.mod_eq_of_lt (by omega)]
  refine Sat.mono (h ?_) ?_
  · by_cases h1 : s < B ^ a.nlimbs
    · exact .inl h1
    · rw [hm (by omega)]
      exact .inr (by omega)
  · rintro ⟨a', c⟩ ⟨h1, h2, h3⟩
    dsimp only at *
    refine ⟨h1, h2, ?_⟩
    rw [h3]
    split
    · next h4 => rw [Nat.div_eq_of_lt h4, Nat.mod_eq_of_lt h4, Nat.zero_or]
    · next h4 =>
      rw [hm (by omega), Nat.div_eq_of_lt (show s - B ^ a.nlimbs < 256 ^ a.len by omega),
        Nat.or_zero, Nat.div_eq_of_lt_le (k := 1) (by omega) (by omega)]

/-- C73: the sum and the carry make up the exact sum if it fits into the limbs of the first operand. The
carry is then not just 0 or 1. -/
theorem C73_add_exact (a : Buf f) (b : Buf g) (hl : b.nlimbs ≤ a.nlimbs)
    (hfit : a.toNat + b.toNat < B ^ a.nlimbs) :
    Sat (ct_add_mp_mp a b) (fun (a', carry) => a'.len = a.len ∧
      a'.toNat + carry * 256 ^ a.len = a.toNat + b.toNat) := by
  unfold ct_add_mp_mp
  rw [LimbChoice.new_one]
  refine Sat.mono (C73_add_cond a b true hl (s := a.toNat + b.toNat) (by simp)) ?_
  rintro ⟨a', c⟩ ⟨h1, h2, h3⟩
  dsimp only at *
  refine ⟨h1, ?_⟩
  rw [h2, h3, if_pos hfit]
  exact Nat.mod_add_div' _ _

example : letI := cfg64;
    ((ct_add_mp_mp (Buf.be [2]) (Buf.le [255, 7, 1, 0])).val.map fun (a, c) => (a.toNat, c))
      = some (1, 0x108) := by decide +kernel

/-- C73: if the sum exceeds the limbs of the first operand, and those have room to spare, the carry
doesn't account for what was truncated, in debug and release builds alike. -/
theorem C73_add_carry (a : Buf f) (b : Buf g) (hl : b.nlimbs ≤ a.nlimbs) (hp : ¬ LB ∣ a.len)
    (hfit : B ^ a.nlimbs ≤ a.toNat + b.toNat) :
    Sat (ct_add_mp_mp a b) (fun (a', carry) =>
      a'.toNat + carry * 256 ^ a.len < a.toNat + b.toNat) := by
  unfold ct_add_mp_mp
  rw [LimbChoice.new_one]
  refine Sat.mono (C73_add_cond a b true hl (s := a.toNat + b.toNat) (by simp)) ?_
  rintro ⟨a', c⟩ ⟨h1, h2, h3⟩
  dsimp only at *
  rw [if_neg (by omega)] at h3
  have hlt : 2 * 256 ^ a.len ≤ B ^ a.nlimbs := by
    have h4 : a.len < LB * a.nlimbs := lt_of_le_of_ne (by
      rw [Nat.mul_comm, Buf.nlimbs_eq]; exact le_nlimbs_mul _) fun h => hp ⟨_, h⟩
    rw [B_eq_256_pow, ← pow_mul]
    have h5 : 256 ^ (a.len + 1) ≤ 256 ^ (LB * a.nlimbs) := Nat.pow_le_pow_right (by norm_num) h4
    rw [pow_succ] at h5
    omega
  have := Nat.mod_lt (a.toNat + b.toNat) (show 0 < 256 ^ a.len by positivity)
  rw [h2, h3, Nat.one_mul]
  omega

example : letI := cfg32;
    ((ct_add_mp_mp (Buf.be [2]) (Buf.le [255, 255, 255, 255])).val.map fun (a, c) => (a.toNat, c))
      = some (1, 1) ∧ 1 + 1 * 256 < 2 + (2 ^ 32 - 1) := by decide +kernel

/-- C73: a debug build panics while subtracting exactly if the limbs of the first operand have room to
spare and the second operand exceeds the first one by more than half of what the limbs hold. -/
theorem C73_sub_debug (a : Buf f) (b : Buf g) (hl : b.nlimbs ≤ a.nlimbs) :
    (ct_sub_mp_mp a b).val = none ↔
      ¬ LB ∣ a.len ∧ 2 * a.toNat + B ^ a.nlimbs < 2 * b.toNat := by
  unfold ct_sub_mp_mp
  rw [LimbChoice.new_one]
  have h := (ct_sub_cond_mp_mp_wide a b true hl rfl).exact.iff
  rw [if_pos rfl] at h
  refine h.trans ?_
  rw [not_or, Nat.not_le]

example : letI := cfg32;
    (ct_sub_mp_mp (Buf.be [2]) (Buf.le [3, 0, 0, 128])).val = none ∧
    ((ct_sub_mp_mp (Buf.be [2]) (Buf.le [2, 0, 0, 128])).val.map fun (a, c) => (a.toNat, c))
      = some (0, 1) := by decide +kernel

/-- C73: a release build never panics.  It leaves the difference modulo `256 ^ a.len`, and the borrow
says whether the second operand is greater. -/
theorem C73_sub_release (a : Buf f) (b : Buf g) (c : Bool) (hl : b.nlimbs ≤ a.nlimbs) {y : ℕ}
    (hy : y = if c then b.toNat else 0) :
    RSat (ct_sub_cond_mp_mp a b (.ofBool c)) (fun (a', borrow) => a'.len = a.len ∧
      (a'.toNat : ℤ) = ((a.toNat : ℤ) - y) % ((256 ^ a.len : ℕ) : ℤ) ∧
      borrow = if a.toNat < y then 1 else 0) := (ct_sub_cond_mp_mp_wide a b c hl hy).rsat

/-- C73: so does a debug build unless it panics. -/
theorem C73_sub (a : Buf f) (b : Buf g) (hl : b.nlimbs ≤ a.nlimbs)
    (h : LB ∣ a.len ∨ 2 * b.toNat ≤ 2 * a.toNat + B ^ a.nlimbs) :
    Sat (ct_sub_mp_mp a b) (fun (a', borrow) => a'.len = a.len ∧
      (a'.toNat : ℤ) = ((a.toNat : ℤ) - b.toNat) % ((256 ^ a.len : ℕ) : ℤ) ∧
      borrow = if a.toNat < b.toNat then 1 else 0) := by
  unfold ct_sub_mp_mp
  rw [LimbChoice.new_one]
  have h1 := (ct_sub_cond_mp_mp_wide a b true hl rfl).exact.1
  rw [if_pos rfl] at h1
  exact h1 h

example : letI := cfg32;
    ((ct_sub_mp_mp (Buf.be [2]) (Buf.le [3, 7, 0, 128])).rel.map fun (a, c) => (a.toNat, c))
      = some (255, 1) := by decide +kernel

/-- C73: a debug build panics on a limb exactly if it doesn't fit into the first operand. -/
theorem C73_limb_debug (a : Buf f) (v : ℕ) (hv : v < B) :
    ((ct_add_mp_l a v).val = none ↔ 256 ^ a.len ≤ v) ∧
    ((ct_sub_mp_l a v).val = none ↔ 256 ^ a.len ≤ v) := by
  refine ⟨⟨fun h => ?_, fun h => ?_⟩, ⟨fun h => ?_, fun h => ?_⟩⟩
  · by_contra hc
    obtain ⟨r, hr, -⟩ := ct_add_mp_l_sat a hv (by omega)
    rw [h] at hr; cases hr
  · unfold ct_add_mp_l
    exact limb_panic hv (by omega) _
  · by_contra hc
    obtain ⟨r, hr, -⟩ := ct_sub_mp_l_sat a hv (by omega)
    rw [h] at hr; cases hr
  · unfold ct_sub_mp_l
    exact limb_panic hv (by omega) _

example : letI := cfg64; (ct_add_mp_l (Buf.be [1]) 256).val = none ∧
    (ct_add_mp_l (Buf.be [1]) 255).val ≠ none := by decide +kernel

/-- C73: a release build adds any limb, the carry being everything that was truncated unless the sum
exceeds the limbs, when it's 1. -/
theorem C73_add_l_release (a : Buf f) (v : ℕ) (hv : v < B) (h0 : 0 < a.len) :
    RSat (ct_add_mp_l a v) (fun (a', carry) => a'.len = a.len ∧
      a'.toNat = (a.toNat + v) % 256 ^ a.len ∧
      carry = if a.toNat + v < B ^ a.nlimbs then (a.toNat + v) / 256 ^ a.len else 1) := by
  refine (ct_add_mp_l_rsat a hv h0).mono ?_
  rintro ⟨a', c⟩ ⟨h1, h2, h3⟩
  dsimp only at *
  refine ⟨h1, h2, ?_⟩
  have ha := a.toNat_lt
  have haB := a.toNat_lt_B
  have hvB : v < B ^ a.nlimbs := hv.trans_le (by
    have hp : 0 < a.nlimbs := by rw [Buf.nlimbs_eq]; exact nlimbs_pos_iff.2 h0
    simpa using Nat.pow_le_pow_right B_pos hp)
  rw [h3]
  split
  · next h4 => rw [Nat.div_eq_of_lt h4, Nat.mod_eq_of_lt h4, Nat.zero_or]
  · next h4 =>
    rw [Nat.mod_eq_sub_mod (by omega), Nat.mod_eq_of_lt (show a.toNat + v - B ^ a.nlimbs < _ by omega),
      Nat.div_eq_of_lt (show a.toNat + v - B ^ a.nlimbs < 256 ^ a.len by omega), Nat.or_zero,
      Nat.div_eq_of_lt_le (k := 1) (by omega) (by omega)]

example : letI := cfg64;
    ((ct_add_mp_l (Buf.be [2]) 0x7ff).rel.map fun (a, c) => (a.toNat, c)) = some (1, 8) := by
  decide +kernel

/-- C73: a release build subtracts any limb modulo `256 ^ a.len`, the borrow saying whether the limb is
greater. -/
theorem C73_sub_l_release (a : Buf f) (v : ℕ) (hv : v < B) (h0 : 0 < a.len) :
    RSat (ct_sub_mp_l a v) (fun (a', borrow) => a'.len = a.len ∧
      (a'.toNat : ℤ) = ((a.toNat : ℤ) - v) % ((256 ^ a.len : ℕ) : ℤ) ∧
      borrow = if a.toNat < v then 1 else 0) := ct_sub_mp_l_rsat a hv h0

example : letI := cfg64;
    ((ct_sub_mp_l (Buf.be [2]) 0x703).rel.map fun (a, c) => (a.toNat, c)) = some (255, 1) := by
  decide +kernel

end Cmpa.Props
