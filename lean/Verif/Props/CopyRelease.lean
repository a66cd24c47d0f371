import Verif.Props.Buf
import Verif.Proofs.CopyRelease
import Verif.Proofs.SwapRelease
import Verif.Proofs.BufCondLen

/-!
# Copies of values that don't fit, setting bits and numbers that don't fit (C74)
-/

namespace Cmpa.Props
open M
variable [LimbCfg] {f g : Fmt}

/-- C74: a debug build panics while copying exactly if the value doesn't fit into the destination. -/
theorem C74_copy_debug (b : Buf f) (src : Buf g) :
    (b.copy_from src).val = none ↔ 256 ^ b.len ≤ src.toNat := by
  constructor
  · intro h
    by_contra hc
    obtain ⟨r, hr, -⟩ := b.copy_from_sat src (by omega)
    rw [h] at hr; cases hr
  · intro h
    unfold Buf.copy_from
    exact fits_panic src h _

/-- C74: a conditional copy panics on the same values, whether or not it's to be carried out. -/
theorem C74_copy_cond_debug (b : Buf f) (src : Buf g) (c : Bool) :
    (b.copy_from_cond src (.ofBool c)).val = none ↔ 256 ^ b.len ≤ src.toNat := by
  constructor
  · intro h
    by_contra hc
    obtain ⟨r, hr, -⟩ := b.copy_from_cond_len src c (by omega)
    rw [h] at hr; cases hr
  · intro h
    unfold Buf.copy_from_cond
    exact fits_panic src h _

example : letI := cfg64;
    ((Buf.be [1, 2]).copy_from (Buf.le [3, 4, 5])).val = none ∧
    ((Buf.be [1, 2]).copy_from_cond (Buf.le [3, 4, 5]) (.ofBool false)).val = none ∧
    ((Buf.be [1, 2]).copy_from (Buf.le [3, 4, 0])).val ≠ none := by decide +kernel

/-- C74: a release build copies the least significant bytes there's room for. -/
theorem C74_copy_release (b : Buf f) (src : Buf g) :
    RSat (b.copy_from src) (fun b' => b'.len = b.len ∧ b'.toNat = src.toNat % 256 ^ b.len) :=
  b.copy_from_rsat src

/-- C74: a release build copies them conditionally. -/
theorem C74_copy_cond_release (b : Buf f) (src : Buf g) (c : Bool) (h : 256 ^ b.len ≤ src.toNat) :
    RSat (b.copy_from_cond src (.ofBool c)) (fun b' => b'.len = b.len ∧
      b'.toNat = if c then src.toNat % 256 ^ b.len else b.toNat) :=
  b.copy_from_cond_rsat src c
    (Nat.le_of_lt ((Nat.pow_lt_pow_iff_right (by norm_num)).1 (h.trans_lt src.toNat_lt)))

example : letI := cfg64;
    ((Buf.be [1, 2]).copy_from (Buf.le [3, 4, 5])).rel.map Buf.toNat = some 0x0403 ∧
    ((Buf.be [1, 2]).copy_from_cond (Buf.le [3, 4, 5]) (.ofBool true)).rel.map Buf.toNat = some 0x0403 ∧
    ((Buf.be [1, 2]).copy_from_cond (Buf.le [3, 4, 5]) (.ofBool false)).rel.map Buf.toNat
      = some 0x0102 := by decide +kernel

/-- C74: a debug build panics while shrinking a buffer exactly if its value doesn't fit. -/
theorem C74_shrink_debug (b : Buf f) (n : ℕ) :
    (b.shrink_to n).val = none ↔ 256 ^ n ≤ b.toNat := by
  have hb := b.toNat_lt
  constructor
  · intro h
    by_contra hc
    obtain ⟨r, hr, -⟩ := C15_shrink_to b n (by omega)
    rw [h] at hr; cases hr
  · intro h
    have hn : n < b.len := (Nat.pow_lt_pow_iff_right (by norm_num)).1 (h.trans_lt hb)
    unfold Buf.shrink_to
    dsimp only
    rw [Nat.min_eq_left (by omega)]
    exact fits_panic b h _

/-- C74: a release build drops the most significant bytes, or limbs of a buffer of limbs. -/
theorem C74_shrink_release (b : Buf f) (n : ℕ) :
    RSat (b.shrink_to n) (fun r => r.1.len ≤ b.len ∧ r.1.toNat = b.toNat % 256 ^ r.1.len ∧
      (f ≠ .ne → r.1.len = min n b.len) ∧ (f = .ne → r.1.nlimbs = min (ct_mp_nlimbs n) b.nlimbs)) := by
  unfold Buf.shrink_to
  dsimp only
  refine RSat.bind (P := fun _ => True) (RSat.assertM trivial) fun _ _ => Sat.rel ?_
  obtain ⟨l, h, e, h1, h2, h3, h4, h5⟩ := b.shrink_to_eq' (n := min n b.len) (min_le_right _ _)
  rw [e]
  refine sat_mk.2 ⟨?_, ?_, ?_, ?_⟩
  · rw [h1]; exact b.limbs_align_len_le (min_le_right _ _)
  · rw [h3, h1]
  · intro hf
    rw [h1]
    cases f
    · rfl
    · rfl
    · exact absurd rfl hf
  · rintro rfl
    show ct_mp_nlimbs l.len = _
    rw [h1]
    show ct_mp_nlimbs (ct_mp_nlimbs (min n b.len) * LB) = _
    rw [nlimbs_mul, Buf.nlimbs_eq]
    rcases le_total n b.len with h | h
    · rw [min_eq_left h, min_eq_left (nlimbs_mono h)]
    · rw [min_eq_right h, min_eq_right (nlimbs_mono h)]

example : letI := cfg64;
    ((Buf.be [1, 2, 3]).shrink_to 2).val.map (·.1.toNat) = none ∧
    ((Buf.be [1, 2, 3]).shrink_to 2).rel.map (·.1.toNat) = some 0x0203 := by decide +kernel

/-- C74: a debug build panics while setting a bit exactly if there is no limb for it, or if a one is to be stored
above the last byte. -/
theorem C74_set_bit_debug (b : Buf f) (p : ℕ) (v : Bool) :
    (b.set_bit_to p v).val = none ↔ b.nlimbs * W ≤ p ∨ (8 * b.len ≤ p ∧ v = true) := by
  have hlim : p / W < b.nlimbs ↔ p < b.nlimbs * W := Nat.div_lt_iff_lt_mul W_pos
  constructor
  · intro h
    by_contra hc
    rw [not_or] at hc
    obtain ⟨h1, h2⟩ := hc
    by_cases h3 : p < 8 * b.len
    · obtain ⟨r, hr, -⟩ := b.set_bit_to_sat v h3
      rw [h] at hr; cases hr
    · have hv : v = false := by
        cases v with
        | false => rfl
        | true => exact absurd ⟨by omega, rfl⟩ h2
      obtain ⟨r, hr, -⟩ := (b.set_bit_to_high v (by omega) (hlim.2 (by omega))).exact.sat hv
      rw [h] at hr; cases hr
  · rintro (h | ⟨h, hv⟩)
    · unfold Buf.set_bit_to
      refine M.bind_panic ?_
      unfold M.assert
      rw [if_neg (by rw [hlim]; omega)]; rfl
    · by_cases h3 : p < b.nlimbs * W
      · exact (b.set_bit_to_high v h (hlim.2 h3)).exact.panic (by rw [hv]; decide)
      · unfold Buf.set_bit_to
        refine M.bind_panic ?_
        unfold M.assert
        rw [if_neg (by rw [hlim]; omega)]; rfl

/-- C74: a release build ignores the bits of the last limb above the last byte. -/
theorem C74_set_bit_release (b : Buf f) (p : ℕ) (v : Bool) (hp : p < b.nlimbs * W) :
    RSat (b.set_bit_to p v) (fun b' => b'.len = b.len ∧
      ∀ j, b'.toNat.testBit j = if j = p ∧ p < 8 * b.len then v else b.toNat.testBit j) := by
  by_cases h : p < 8 * b.len
  · refine (b.set_bit_to_sat v h).rel.mono fun b' hb => ⟨hb.1, fun j => ?_⟩
    rw [hb.2 j]
    simp only [h, and_true]
  · refine (b.set_bit_to_high v (by omega) ((Nat.div_lt_iff_lt_mul W_pos).2 hp)).rsat.mono
      fun b' hb => ⟨hb.1, fun j => ?_⟩
    rw [hb.2, if_neg (by omega)]

example : letI := cfg64;
    ((Buf.be [1, 2, 3]).set_bit_to 24 true).val = none ∧ ((Buf.be [1, 2, 3]).set_bit_to 64 false).val = none ∧
    ((Buf.be [1, 2, 3]).set_bit_to 24 false).val.map Buf.toNat = some 0x010203 ∧
    ((Buf.be [1, 2, 3]).set_bit_to 24 true).rel.map Buf.toNat = some 0x010203 := by decide +kernel

/-- C74: a debug build panics while setting a buffer to a native integer exactly if the integer's type is longer than the
buffer, whatever the value. -/
theorem C74_set_native_debug (b : Buf f) (sz v : ℕ) (hv : v < 256 ^ sz) :
    (b.set_to_native sz v).val = none ↔ b.len < sz := by
  constructor
  · intro h
    by_contra hc
    obtain ⟨r, hr, -⟩ := b.set_to_native_sat (by omega) hv
    rw [h] at hr; cases hr
  · intro h
    unfold Buf.set_to_native
    refine M.bind_panic ?_
    unfold M.assert
    rw [if_neg (by omega)]; rfl

/-- C74: a release build stores the least significant bytes there's room for, if the buffer has as many limbs as the
integer's type. -/
theorem C74_set_native_release (b : Buf f) (sz v : ℕ) (hn : ct_mp_nlimbs sz ≤ b.nlimbs) (hv : v < 256 ^ sz) :
    RSat (b.set_to_native sz v) (fun b' => b'.len = b.len ∧ b'.toNat = v % 256 ^ b.len) := by
  rcases le_total b.len sz with h | h
  · exact b.set_to_native_rsat h hn hv
  · refine (b.set_to_native_sat h hv).rel.mono fun b' hb => ⟨hb.1, ?_⟩
    rw [hb.2, Nat.mod_eq_of_lt (lt_of_lt_of_le hv (Nat.pow_le_pow_right (by norm_num) h))]

example : letI := cfg64;
    ((Buf.be [1, 2, 3]).set_to_native 4 5).val = none ∧
    ((Buf.be [1, 2, 3]).set_to_native 4 0x7060504).rel.map Buf.toNat = some 0x060504 := by decide +kernel

/-- C74: a debug build panics in a conditional exchange exactly if the numbers of limbs differ, or if the condition holds
and one of the values doesn't fit into the other one's buffer. -/
theorem C74_swap_debug (a : Buf f) (b : Buf g) (c : Bool) :
    (ct_swap_cond_mp a b (.ofBool c)).val = none ↔
      a.nlimbs ≠ b.nlimbs ∨ (c = true ∧ (256 ^ a.len ≤ b.toNat ∨ 256 ^ b.len ≤ a.toNat)) := by
  by_cases hn : a.nlimbs = b.nlimbs
  · rw [(ct_swap_cond_mp_dbg a b c hn).exact.iff]
    constructor
    · intro h
      right
      by_contra hc
      exact h fun h1 => ⟨by by_contra h2; exact hc ⟨h1, .inl (by omega)⟩, by by_contra h2; exact hc ⟨h1, .inr (by omega)⟩⟩
    · rintro (h | ⟨h1, h2⟩) h3
      · exact h hn
      · have := h3 h1
        omega
  · refine iff_of_true ?_ (.inl hn)
    unfold ct_swap_cond_mp
    refine M.bind_panic ?_
    unfold M.assert
    rw [if_neg hn]; rfl

/-- C74: a release build exchanges the least significant bytes there's room for, so that values may get lost. -/
theorem C74_swap_release (a : Buf f) (b : Buf g) (c : Bool) (hn : a.nlimbs = b.nlimbs) :
    RSat (ct_swap_cond_mp a b (.ofBool c)) (fun (a', b') => a'.len = a.len ∧ b'.len = b.len ∧
      a'.toNat = (if c then b.toNat else a.toNat) % 256 ^ a.len ∧
      b'.toNat = (if c then a.toNat else b.toNat) % 256 ^ b.len) :=
  (ct_swap_cond_mp_dbg a b c hn).rsat

example : letI := cfg64;
    (ct_swap_cond_mp (Buf.be [1, 2]) (Buf.le [3, 4, 5]) (.ofBool true)).val = none ∧
    (ct_swap_cond_mp (Buf.be [1, 2]) (Buf.le [3, 4, 5]) (.ofBool false)).val ≠ none ∧
    (ct_swap_cond_mp (Buf.be [1, 2]) (Buf.le [3, 4, 5]) (.ofBool true)).rel.map (fun r => (r.1.toNat, r.2.toNat))
      = some (0x0403, 0x0102) := by decide +kernel

/-- C74: a release build exchanges as many limbs as the first operand has, if that's fewer; the second operand's upper
limbs stay. -/
theorem C74_swap_limbs_release (a : Buf f) (b : Buf g) (c : Bool) (hn : a.nlimbs < b.nlimbs) :
    RSat (ct_swap_cond_mp a b (.ofBool c)) (fun (a', b') => a'.len = a.len ∧ b'.len = b.len ∧
      a'.toNat = (if c then b.toNat else a.toNat) % 256 ^ a.len ∧
      b'.toNat = (if c then a.toNat + B ^ a.nlimbs * (b.toNat / B ^ a.nlimbs) else b.toNat)) :=
  ct_swap_cond_mp_rel a b c hn

example : letI := cfg32;
    (ct_swap_cond_mp (Buf.be [1, 2]) (Buf.le [3, 4, 5, 6, 7]) (.ofBool true)).rel.map (fun r => (r.1.toNat, r.2.toNat))
      = some (0x0403, 0x0700000102) := by decide +kernel

end Cmpa.Props
