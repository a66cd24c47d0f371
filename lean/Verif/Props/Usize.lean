import Verif.Proofs.GcdUsize
import Verif.Proofs.SmallFactor

/-!
# Lengths and counters fit in a `usize` (C50)

`u : UsizeCfg` is the size of `usize`, 32 or 64 bits, and `@B u.cfg` is `2^usize::BITS`.
`ct_gcd_odd_mp_mp' u` is `ct_gcd_odd_mp_mp` with the number of division steps and their counter
`delta` in a `usize` of this size.  Without `u`, these are unbounded integers.
-/

namespace Cmpa
namespace Props
open M

section
variable [LimbCfg] {φ ψ : Fmt} {σ : Type}

/-- C50: for all operands of which the number of steps fits in a `usize` (see below for what this
means in bytes) the greatest common divisor is right.  Missing: longer operands. -/
theorem C50_gcd_odd_partial (u : UsizeCfg) (f : Buf φ) (g : Buf ψ)
    (hu : 49 * (8 * max f.len g.len + 2) + 57 < @B u.cfg) (hodd : f.toNat % 2 = 1)
    (h0 : LenCompat f g.len) (h1 : LenCompat g f.len) :
    Sat (ct_gcd_odd_mp_mp' u f g) (fun r => ∃ f' g', r = .ok (f', g') ∧
      f'.len = f.len ∧ g'.len = g.len ∧
      f'.toNat = Nat.gcd f.toNat g.toNat ∧ g'.toNat = 0) := by
  rw [ct_gcd_odd_mp_mp'_eq u f g hu]
  have h := ct_gcd_odd_mp_mp_sat f g
  have he : gcdOddErr f g = none := by simp [gcdOddErr, hodd, h0, h1]
  refine h.mono ?_
  rintro (e | ⟨f', g'⟩) hr
  · rw [he] at hr; cases hr
  · exact ⟨f', g', rfl, hr.2⟩

/-- C50: if `usize` has 32 bits, then operands of up to 10956548 bytes are short enough. -/
theorem C50_gcd_odd_32_partial (f : Buf φ) (g : Buf ψ) (hf : f.len ≤ 10956548)
    (hg : g.len ≤ 10956548) (hodd : f.toNat % 2 = 1)
    (h0 : LenCompat f g.len) (h1 : LenCompat g f.len) :
    Sat (ct_gcd_odd_mp_mp' ⟨cfg32⟩ f g) (fun r => ∃ f' g', r = .ok (f', g') ∧
      f'.len = f.len ∧ g'.len = g.len ∧
      f'.toNat = Nat.gcd f.toNat g.toNat ∧ g'.toNat = 0) :=
  C50_gcd_odd_partial _ f g (by
    have : max f.len g.len ≤ 10956548 := max_le hf hg
    show _ < 2 ^ 32; omega) hodd h0 h1

/-- C50: if `usize` has 64 bits, then operands of up to `2^55` bytes are short enough. -/
theorem C50_gcd_odd_64 (f : Buf φ) (g : Buf ψ) (hf : f.len ≤ 2 ^ 55)
    (hg : g.len ≤ 2 ^ 55) (hodd : f.toNat % 2 = 1)
    (h0 : LenCompat f g.len) (h1 : LenCompat g f.len) :
    Sat (ct_gcd_odd_mp_mp' ⟨cfg64⟩ f g) (fun r => ∃ f' g', r = .ok (f', g') ∧
      f'.len = f.len ∧ g'.len = g.len ∧
      f'.toNat = Nat.gcd f.toNat g.toNat ∧ g'.toNat = 0) :=
  C50_gcd_odd_partial _ f g (by
    have : max f.len g.len ≤ 2 ^ 55 := max_le hf hg
    show _ < 2 ^ 64; omega) hodd h0 h1

/-- C50: for these lengths the size of `usize` makes no difference at all: the same results,
panics, branches and accesses of limbs, in debug and in release builds.  This is the common part
of the functions for greatest common divisors and for inverses, whatever is done (`upd`) along with
each batch of steps. -/
theorem C50_same_partial (u : UsizeCfg) (upd : TransitionMatrix → NegMask → σ → M σ) (e : σ)
    (f : Buf φ) (g : Buf ψ) (hu : 49 * (8 * max f.len g.len + 2) + 57 < @B u.cfg) :
    ct_gcd_ext_odd_mp_mp' u upd e f g = ct_gcd_ext_odd_mp_mp upd e f g :=
  ct_gcd_ext_odd_mp_mp'_eq u upd e f g hu

/-- C50: the bound is exact: the number of batches of steps can be computed if and only if
it holds. -/
theorem C50_nbatches_iff (u : UsizeCfg) (len : ℕ) :
    (nbatches' u len).val = some (nbatches len) ↔ 49 * (8 * len + 2) + 57 < @B u.cfg := by
  constructor
  · intro h
    by_contra hc
    rw [nbatches'_panic u hc] at h
    cases h
  · intro h
    rw [nbatches'_eq u h]; rfl

/-- C50 does not hold for longer operands: a debug build panics for all of them.  So if `usize` has
32 bits, there is no greatest common divisor of numbers of 10956549 bytes. -/
theorem C50_gcd_odd_too_long_fails (u : UsizeCfg) (f : Buf φ) (g : Buf ψ)
    (hu : @B u.cfg ≤ 49 * (8 * max f.len g.len + 2) + 57) (hodd : f.toNat % 2 = 1)
    (h0 : LenCompat f g.len) (h1 : LenCompat g f.len) :
    (ct_gcd_odd_mp_mp' u f g).val = none := by
  have hp := ct_gcd_ext_odd_mp_mp'_panic u (fun _ _ s => pure s) () f g (Nat.not_lt.2 hu)
  unfold ct_gcd_odd_mp_mp'
  obtain ⟨c, hc, hc'⟩ := f.test_bit_sat 0
  obtain ⟨c0, hc0, hc0'⟩ := len_is_compatible_with_sat f g.len
  obtain ⟨c1, hc1, hc1'⟩ := len_is_compatible_with_sat g f.len
  rw [bind_val, hc, Option.bind_some, cond_val_neg, bind_val, hc0, Option.bind_some, bind_val, hc1,
    Option.bind_some, cond_val_neg]
  · exact bind_panic hp
  · rw [hc0', hc1', decide_eq_true h0, decide_eq_true h1]; simp
  · rw [hc']; exact fun h => by have := odd_check.1 h; omega

end

/-- C50 does not hold in a release build either: if `usize` has 32 bits, the number of steps wraps
around, and the greatest common divisor of 3 and `2^60`, in buffers of 10956549 bytes, is
returned as 3. -/
theorem C50_gcd_odd_release_fails : letI := cfg32; ∃ f g : @Buf cfg32 .be, f.len = 10956549 ∧ g.len = 10956549 ∧
    f.toNat = 3 ∧ g.toNat = 2 ^ 60 ∧ Nat.gcd f.toNat g.toNat = 1 ∧
    RSat (@ct_gcd_odd_mp_mp' cfg32 .be .be ⟨cfg32⟩ f g) (fun r => ∃ f' g', r = .ok (f', g') ∧
      f'.toNat = 3) := by
  letI := cfg32
  have key : ∀ L, 8 ≤ L → (nbatches' ⟨cfg32⟩ L).rel = some 1 → ∃ f g : @Buf cfg32 .be, f.len = L ∧
      g.len = L ∧ f.toNat = 3 ∧ g.toNat = 2 ^ 60 ∧ Nat.gcd f.toNat g.toNat = 1 ∧
      RSat (@ct_gcd_odd_mp_mp' cfg32 .be .be ⟨cfg32⟩ f g) (fun r => ∃ f' g', r = .ok (f', g') ∧
        f'.toNat = 3) := by
    intro L hL hb
    have hp : (2 : ℕ) ^ 60 < 256 ^ L :=
      lt_of_lt_of_le (b := 256 ^ 8) (by norm_num) (Nat.pow_le_pow_right (by norm_num) hL)
    have hlen : ∀ v, (Buf.ofNat .be L v).len = L := fun v => by
      show (((List.range L).map fun k => Fin.ofNat 256 (v / 256 ^ k)).reverse).length = L
      rw [List.length_reverse, List.length_map, List.length_range]
    have hf : (Buf.ofNat .be L 3).toNat = 3 := by
      rw [toNat_ofNat_be, Nat.mod_eq_of_lt (lt_trans (by norm_num) hp)]
    have hg : (Buf.ofNat .be L (2 ^ 60)).toNat = 2 ^ 60 := by
      rw [toNat_ofNat_be, Nat.mod_eq_of_lt hp]
    refine ⟨.ofNat .be L 3, .ofNat .be L (2 ^ 60), hlen _, hlen _, hf, hg, by rw [hf, hg]; rfl, ?_⟩
    refine (ct_gcd_odd_mp_mp'_rel ⟨cfg32⟩ (n := 1) ((hlen _).trans (hlen _).symm) (by rw [hf])
      (by rw [hlen]; exact hb) (by decide +kernel)).mono ?_
    rintro r ⟨f', g', h1, -, h2⟩
    refine ⟨f', g', h1, ?_⟩
    rw [h2, hf, hg]
    decide +kernel
  exact key 10956549 (by norm_num) (by decide +kernel)

/-! ### Instances -/

example : (@nbatches' cfg32 ⟨cfg32⟩ 10956548).val = some 8421504 := by decide +kernel
example : (@nbatches' cfg32 ⟨cfg32⟩ 10956549).val = none := by decide +kernel
example : (@nbatches' cfg32 ⟨cfg32⟩ 10956549).rel = some 1 := by decide +kernel
example : (@nbatches' cfg64 ⟨cfg64⟩ (2 ^ 55)).val ≠ none := by decide +kernel

example : letI := cfg32
    (ct_gcd_odd_mp_mp' ⟨cfg32⟩ (.ofNat .be 5 (21 * 1000003)) (.ofNat .le 5 (35 * 1000))).val.map
      (fun r => r.toOption.map fun p => (p.1.toNat, p.2.toNat)) = some (some (7, 0)) := by
  decide +kernel

example : letI := cfg64
    (ct_gcd_odd_mp_mp' ⟨cfg32⟩ (.ofNat .be 5 (21 * 1000003)) (.ofNat .le 5 (35 * 1000))).val.map
      (fun r => r.toOption.map fun p => (p.1.toNat, p.2.toNat)) = some (some (7, 0)) := by
  decide +kernel

end Props
end Cmpa
