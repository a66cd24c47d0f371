import Verif.Props.Add
import Verif.Proofs.AddModRelease

/-!
# Modular addition, subtraction and negation of operands that are not reduced (C72)

`ct_add_mod_mp_mp`, `ct_sub_mod_mp_mp` and `ct_negate_mod_mp` expect operands less than the modulus.  A
debug build panics if one isn't.  A release build doesn't look: it adds or subtracts the modulus at most
once.  The result is congruent to the sum, difference or negation as long as it needn't be truncated to
the buffer, and is another number otherwise.
-/

namespace Cmpa.Props
open M
variable [LimbCfg] {f g h : Fmt}

/-- C72: a debug build panics exactly if an operand isn't less than the modulus. -/
theorem C72_debug (a : Buf f) (b : Buf g) (n : Buf h)
    (hn : n.len ≤ a.len ∨ (h.unaligned = false ∧ n.len - a.len < LB ∧ n.toNat < 256 ^ a.len)) :
    ((ct_add_mod_mp_mp a b n).val = none ↔ n.toNat ≤ a.toNat ∨ n.toNat ≤ b.toNat) ∧
    ((ct_sub_mod_mp_mp a b n).val = none ↔ n.toNat ≤ a.toNat ∨ n.toNat ≤ b.toNat) ∧
    ((ct_negate_mod_mp a n).val = none ↔ n.toNat ≤ a.toNat) := by
  refine ⟨⟨fun h1 => ?_, ct_add_mod_mp_mp_panic a b n hn⟩,
    ⟨fun h1 => ?_, ct_sub_mod_mp_mp_panic a b n hn⟩, ⟨fun h1 => ?_, ct_negate_mod_mp_panic a n hn⟩⟩
  · by_contra hc
    obtain ⟨h2, h3⟩ := not_or.1 hc
    obtain ⟨r, hr, -⟩ := ct_add_mod_mp_mp_sat' a b n hn (by omega) (by omega)
    rw [h1] at hr; cases hr
  · by_contra hc
    obtain ⟨h2, h3⟩ := not_or.1 hc
    obtain ⟨r, hr, -⟩ := ct_sub_mod_mp_mp_sat' a b n hn (by omega) (by omega)
    rw [h1] at hr; cases hr
  · by_contra hc
    obtain ⟨r, hr, -⟩ := ct_negate_mod_mp_sat a n hn (by omega)
    rw [h1] at hr; cases hr

example : letI := cfg64; (ct_add_mod_mp_mp (Buf.be [7]) (Buf.le [2]) (Buf.be [7])).val = none := by
  decide +kernel

/-- C72: a release build returns the sum, less the modulus if the sum isn't less, truncated to the
length of the first operand. -/
theorem C72_add_release (a : Buf f) (b : Buf g) (n : Buf h)
    (hn : n.len ≤ a.len ∨ (h.unaligned = false ∧ n.len - a.len < LB ∧ n.toNat < 256 ^ a.len))
    (heq : a.nlimbs = n.nlimbs) (hb : b.toNat < B ^ n.nlimbs) :
    RSat (ct_add_mod_mp_mp a b n) (fun r => ∃ a' : Buf f, r = .ok a' ∧ a'.len = a.len ∧
      a'.toNat = (if n.toNat ≤ a.toNat + b.toNat then a.toNat + b.toNat - n.toNat
        else a.toNat + b.toNat) % 256 ^ a.len) := by
  have := ct_add_mod_mp_mp_rsat a b n hn heq
  rwa [Nat.mod_eq_of_lt hb] at this

/-- C72: the sum is congruent in a release build if it exceeds the modulus by no more than the buffer
holds, and reduced if it's less than twice the modulus. -/
theorem C72_add_modEq (a : Buf f) (b : Buf g) (n : Buf h)
    (hn : n.len ≤ a.len ∨ (h.unaligned = false ∧ n.len - a.len < LB ∧ n.toNat < 256 ^ a.len))
    (heq : a.nlimbs = n.nlimbs) (hb : b.toNat < B ^ n.nlimbs)
    (hfit : a.toNat + b.toNat < n.toNat + 256 ^ a.len) :
    RSat (ct_add_mod_mp_mp a b n) (fun r => ∃ a' : Buf f, r = .ok a' ∧ a'.len = a.len ∧
      a'.toNat ≡ a.toNat + b.toNat [MOD n.toNat] ∧
      (a.toNat + b.toNat < 2 * n.toNat → a'.toNat = (a.toNat + b.toNat) % n.toNat)) := by
  refine (C72_add_release a b n hn heq hb).mono ?_
  rintro r ⟨a', h1, h2, h3⟩
  have hnlt : n.toNat < 256 ^ a.len := LenCompat.lt hn
  refine ⟨a', h1, h2, ?_⟩
  by_cases hc : n.toNat ≤ a.toNat + b.toNat
  · rw [if_pos hc, Nat.mod_eq_of_lt (by omega)] at h3
    refine ⟨?_, fun h4 => ?_⟩
    · rw [h3]; unfold Nat.ModEq; exact (Nat.mod_eq_sub_mod hc).symm
    · rw [h3, Nat.mod_eq_sub_mod hc, Nat.mod_eq_of_lt (by omega)]
  · rw [if_neg hc, Nat.mod_eq_of_lt (by omega)] at h3
    refine ⟨by rw [h3], fun _ => ?_⟩
    rw [h3, Nat.mod_eq_of_lt (by omega)]

example : letI := cfg64;
    ((ct_add_mod_mp_mp (Buf.be [200]) (Buf.le [50]) (Buf.be [100])).rel.map fun
      | .ok a => some a.toNat | _ => none) = some (some 150) := by decide +kernel

/-- C72: a release build returns the difference, plus the modulus if it's negative, truncated to the
length of the first operand. -/
theorem C72_sub_release (a : Buf f) (b : Buf g) (n : Buf h)
    (hn : n.len ≤ a.len ∨ (h.unaligned = false ∧ n.len - a.len < LB ∧ n.toNat < 256 ^ a.len))
    (heq : a.nlimbs = n.nlimbs) (hb : b.toNat < B ^ n.nlimbs) :
    RSat (ct_sub_mod_mp_mp a b n) (fun r => ∃ a' : Buf f, r = .ok a' ∧ a'.len = a.len ∧
      (a'.toNat : ℤ) = ((a.toNat : ℤ) - b.toNat + if a.toNat < b.toNat then (n.toNat : ℤ) else 0)
        % ((256 ^ a.len : ℕ) : ℤ)) := by
  have := ct_sub_mod_mp_mp_rsat a b n hn heq
  rwa [Nat.mod_eq_of_lt hb] at this

/-- C72: the difference is congruent in a release build if the second operand exceeds the first by no
more than the modulus, and reduced if the first doesn't exceed the second by the modulus. -/
theorem C72_sub_modEq (a : Buf f) (b : Buf g) (n : Buf h)
    (hn : n.len ≤ a.len ∨ (h.unaligned = false ∧ n.len - a.len < LB ∧ n.toNat < 256 ^ a.len))
    (heq : a.nlimbs = n.nlimbs) (hb : b.toNat < B ^ n.nlimbs)
    (hfit : b.toNat ≤ a.toNat + n.toNat) :
    RSat (ct_sub_mod_mp_mp a b n) (fun r => ∃ a' : Buf f, r = .ok a' ∧ a'.len = a.len ∧
      (a'.toNat : ℤ) ≡ (a.toNat : ℤ) - b.toNat [ZMOD n.toNat] ∧
      (a.toNat < b.toNat + n.toNat →
        (a'.toNat : ℤ) = ((a.toNat : ℤ) - b.toNat) % n.toNat)) := by
  refine (C72_sub_release a b n hn heq hb).mono ?_
  rintro r ⟨a', h1, h2, h3⟩
  have hnlt : n.toNat < 256 ^ a.len := LenCompat.lt hn
  have ha := a.toNat_lt
  refine ⟨a', h1, h2, ?_⟩
  by_cases hc : a.toNat < b.toNat
  · rw [if_pos hc, Int.emod_eq_of_lt (by omega) (by omega)] at h3
    refine ⟨?_, fun h4 => ?_⟩
    · rw [h3]; unfold Int.ModEq; exact Int.add_emod_right _ _
    · rw [← Int.add_emod_right, ← h3, Int.emod_eq_of_lt (by omega) (by omega)]
  · rw [if_neg hc, add_zero, Int.emod_eq_of_lt (by omega) (by omega)] at h3
    refine ⟨by rw [h3], fun h4 => ?_⟩
    rw [h3, Int.emod_eq_of_lt (by omega) (by omega)]

example : letI := cfg64;
    ((ct_sub_mod_mp_mp (Buf.be [50]) (Buf.le [120]) (Buf.be [100])).rel.map fun
      | .ok a => some a.toNat | _ => none) = some (some 30) := by decide +kernel

/-- C72: a release build returns the modulus less the operand, truncated to the length of the operand,
and zero for zero. -/
theorem C72_negate_release (a : Buf f) (n : Buf g)
    (hn : n.len ≤ a.len ∨ (g.unaligned = false ∧ n.len - a.len < LB ∧ n.toNat < 256 ^ a.len)) :
    RSat (ct_negate_mod_mp a n) (fun r => ∃ a' : Buf f, r = .ok a' ∧ a'.len = a.len ∧
      (a'.toNat : ℤ) = if a.toNat = 0 then 0
        else ((n.toNat : ℤ) - a.toNat) % ((256 ^ a.len : ℕ) : ℤ)) :=
  ct_negate_mod_mp_rsat a n hn

/-- C72: the modulus itself is negated to zero in a release build. -/
theorem C72_negate_modulus (a : Buf f) (n : Buf g)
    (hn : n.len ≤ a.len ∨ (g.unaligned = false ∧ n.len - a.len < LB ∧ n.toNat < 256 ^ a.len))
    (ha : a.toNat ≤ n.toNat) :
    RSat (ct_negate_mod_mp a n) (fun r => ∃ a' : Buf f, r = .ok a' ∧ a'.len = a.len ∧
      (a'.toNat : ℤ) = (-(a.toNat : ℤ)) % n.toNat) := by
  refine (C72_negate_release a n hn).mono ?_
  rintro r ⟨a', h1, h2, h3⟩
  have hnlt : n.toNat < 256 ^ a.len := LenCompat.lt hn
  refine ⟨a', h1, h2, ?_⟩
  by_cases hc : a.toNat = 0
  · rw [if_pos hc] at h3
    rw [h3, hc]; simp
  · rw [if_neg hc, Int.emod_eq_of_lt (by omega) (by omega)] at h3
    rw [h3, ← Int.add_emod_right, show -(a.toNat : ℤ) + n.toNat = n.toNat - a.toNat by ring,
      Int.emod_eq_of_lt (by omega) (by omega)]

example : letI := cfg64;
    ((ct_negate_mod_mp (Buf.be [100]) (Buf.be [100])).rel.map fun
      | .ok a => some a.toNat | _ => none) = some (some 0) := by decide +kernel

omit [LimbCfg] in
/-- C72: beyond these bounds the results of release builds aren't congruent: modulo three in one byte,
the sum of 255 and 255 is 251, the difference of zero and 255 is four, and 255 is negated to four. -/
theorem C72_bounds_sharp : letI := cfg64;
    ((ct_add_mod_mp_mp (Buf.be [255]) (Buf.be [255]) (Buf.be [3])).rel.map fun
      | .ok a => some a.toNat | _ => none) = some (some 251) ∧ ¬ 251 ≡ 255 + 255 [MOD 3] ∧
    ((ct_sub_mod_mp_mp (Buf.be [0]) (Buf.be [255]) (Buf.be [3])).rel.map fun
      | .ok a => some a.toNat | _ => none) = some (some 4) ∧ ¬ (4 : ℤ) ≡ 0 - 255 [ZMOD 3] ∧
    ((ct_negate_mod_mp (Buf.be [255]) (Buf.be [3])).rel.map fun
      | .ok a => some a.toNat | _ => none) = some (some 4) ∧ ¬ (4 : ℤ) ≡ -255 [ZMOD 3] := by
  decide +kernel

end Cmpa.Props
