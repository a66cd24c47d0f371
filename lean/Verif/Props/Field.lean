import Mathlib.Data.ZMod.Basic
import Mathlib.Algebra.Field.ZMod
import Verif.Props.Dsa

/-!
# Arithmetic in prime fields

A user's programs for the four operations of a prime field, the base of C59 and C60.
-/

namespace Cmpa
namespace Props

open M
variable [LimbCfg]

/-! ## The programs -/

/-- `vec![0; len]`. -/
def zeros (len : ℕ) : Buf .be := .be (List.replicate len 0)

/-- Scratch space for an operand of `len` bytes. -/
def scratchLimbs (len : ℕ) : Buf .ne := .ne (List.replicate (ct_mp_nlimbs len) 0)

/-- A user's program: a sum. -/
def fAdd (p a b : Buf .be) : M (Buf .be) := unwrapE (ct_add_mod_mp_mp a b p)

/-- A user's program: a difference. -/
def fSub (p a b : Buf .be) : M (Buf .be) := unwrapE (ct_sub_mod_mp_mp a b p)

/-- A user's program: a product. -/
def fMul (p a b : Buf .be) : M (Buf .be) := mulModTo (zeros p.len) (zeros (p.len + p.len)) a b p

/-- A user's program: a copy with a limb to spare. -/
def padded (a : Buf .be) : M (Buf .be) := (zeros (a.len + LB)).copy_from a

/-- A user's program: an inverse.  Operand and modulus are copied to buffers with a limb to spare, because the inversion
needs it (C30). -/
def fInv (p a : Buf .be) : M (Buf .be) := do
  let n ← padded p
  let b ← padded a
  let r ← invOdd (zeros n.len) b n (scratchLimbs n.len) (scratchLimbs n.len)
  (zeros p.len).copy_from r

/-- A user's program: a comparison. -/
def fEq (a b : Buf .be) : M Bool := do
  let c ← ct_eq_mp_mp a b
  pure (decide (c.unwrap ≠ 0))

/-! ## Specification -/

/-- An odd prime. -/
structure FieldModulus (p : Buf .be) : Prop where
  prime : p.toNat.Prime
  odd : p.toNat % 2 = 1

/-- The buffer `a` holds the reduced representative of the element `x`. -/
structure El (p a : Buf .be) (x : ZMod p.toNat) : Prop where
  len : a.len = p.len
  lt : a.toNat < p.toNat
  val : (a.toNat : ZMod p.toNat) = x

/-! ## Proofs -/

theorem zeros_len (n : ℕ) : (zeros n).len = n := by simp [zeros, Buf.len]

theorem scratchLimbs_nlimbs (n : ℕ) : (scratchLimbs n).nlimbs = ct_mp_nlimbs n := by
  simp [scratchLimbs, Buf.nlimbs, Buf.len, nlimbs_mul]

section
variable {p a b : Buf .be} {x y : ZMod p.toNat}

/-- Elements have one representative. -/
theorem El.eq_iff (ha : El p a x) (hb : El p b y) : a.toNat = b.toNat ↔ x = y := by
  rw [← ha.val, ← hb.val, ZMod.natCast_eq_natCast_iff, Nat.ModEq, Nat.mod_eq_of_lt ha.lt, Nat.mod_eq_of_lt hb.lt]

theorem El.zero_iff (ha : El p a x) : a.toNat = 0 ↔ x = 0 := by
  rw [← ha.val, ZMod.natCast_eq_zero_iff]
  exact ⟨fun h => h ▸ dvd_zero _, fun h => Nat.eq_zero_of_dvd_of_lt h ha.lt⟩

theorem unwrapE_sat {α ε : Type} {m : M (Except ε α)} {P : α → Prop} (h : Sat m (fun r => ∃ v, r = .ok v ∧ P v)) :
    Sat (unwrapE m) P := by
  refine h.bind ?_
  rintro _ ⟨v, rfl, hv⟩
  exact Sat.pure hv

theorem fAdd_sat (ha : El p a x) (hb : El p b y) : Sat (fAdd p a b) (fun r => El p r (x + y)) := by
  refine unwrapE_sat ((C06_add_mod_partial a b p (Or.inl ha.len.ge) ha.lt hb.lt
    (Or.inl (by rw [Buf.nlimbs, Buf.nlimbs, ha.len]))).mono ?_)
  rintro _ ⟨r, rfl, h1, h2⟩
  refine ⟨r, rfl, h1.trans ha.len, h2 ▸ Nat.mod_lt _ (lt_of_le_of_lt (Nat.zero_le _) ha.lt), ?_⟩
  rw [h2, ZMod.natCast_mod, Nat.cast_add, ha.val, hb.val]

theorem fSub_sat (ha : El p a x) (hb : El p b y) : Sat (fSub p a b) (fun r => El p r (x - y)) := by
  have hp : 0 < p.toNat := lt_of_le_of_lt (Nat.zero_le _) ha.lt
  refine unwrapE_sat ((C06_sub_mod_partial a b p (Or.inl ha.len.ge) ha.lt hb.lt
    (Or.inl (by rw [Buf.nlimbs, Buf.nlimbs, ha.len]))).mono ?_)
  rintro _ ⟨r, rfl, h1, h2⟩
  refine ⟨r, rfl, h1.trans ha.len, ?_, ?_⟩
  · have := Int.emod_lt_of_pos ((a.toNat : ℤ) - b.toNat) (by exact_mod_cast hp : (0 : ℤ) < p.toNat)
    rw [← h2] at this
    exact_mod_cast this
  · have h3 : ((r.toNat : ℤ) : ZMod p.toNat) = (((a.toNat : ℤ) - b.toNat : ℤ) : ZMod p.toNat) := by
      rw [h2]
      exact ZMod.intCast_mod _ _
    rw [Int.cast_natCast, Int.cast_sub, Int.cast_natCast, Int.cast_natCast, ha.val, hb.val] at h3
    exact h3

theorem fMul_sat (ha : El p a x) (hb : El p b y) : Sat (fMul p a b) (fun r => El p r (x * y)) := by
  have hp : 0 < p.toNat := lt_of_le_of_lt (Nat.zero_le _) ha.lt
  refine (mulModTo_sat (zeros p.len) (zeros (p.len + p.len)) a b p (by rw [zeros_len, ha.len, hb.len]) hp
    (by rw [zeros_len])).mono ?_
  rintro r ⟨h1, h2⟩
  refine ⟨h1.trans (zeros_len _), h2 ▸ Nat.mod_lt _ hp, ?_⟩
  rw [h2, ZMod.natCast_mod, Nat.cast_mul, ha.val, hb.val]

theorem fEq_sat (ha : El p a x) (hb : El p b y) : Sat (fEq a b) (fun c => c = true ↔ x = y) := by
  refine (C01_eq a b).bind ?_
  rintro _ rfl
  refine Sat.pure ?_
  rw [LimbChoice.unwrap_ofBool, ← ha.eq_iff hb]
  by_cases h : a.toNat = b.toNat <;> simp [h]

theorem FieldModulus.inst (hp : FieldModulus p) : Fact p.toNat.Prime := ⟨hp.prime⟩

theorem nlimbs_add_LB (n : ℕ) : ct_mp_nlimbs (n + LB) = ct_mp_nlimbs n + 1 := by
  unfold ct_mp_nlimbs
  rw [show n + LB + LB - 1 = n + LB - 1 + LB by have := LB_pos; omega, Nat.add_div_right _ LB_pos]

theorem padded_sat (a : Buf .be) : Sat (padded a) (fun r => r.len = a.len + LB ∧ r.toNat = a.toNat) := by
  refine (C17_copy_from (zeros (a.len + LB)) a (a.toNat_lt.trans_le (Nat.pow_le_pow_right (by norm_num)
    (by rw [zeros_len]; omega)))).mono fun r h => ⟨h.1.trans (zeros_len _), h.2⟩

/-- Inverses modulo all odd numbers. -/
theorem fInv_coprime_sat (hodd : p.toNat % 2 = 1) (h1 : 1 < p.toNat) (ha : El p a x)
    (hcop : Nat.Coprime a.toNat p.toNat) : Sat (fInv p a) (fun r => ∃ z, El p r z ∧ x * z = 1) := by
  unfold fInv
  refine (padded_sat p).bind fun n hn => ?_
  refine (padded_sat a).bind fun b hb => ?_
  refine (invOdd_sat (zeros n.len) b n (scratchLimbs n.len) (scratchLimbs n.len) (zeros_len _)
    (by rw [hb.1, hn.1, ha.len]) (by rw [scratchLimbs_nlimbs, Buf.nlimbs]) (by rw [scratchLimbs_nlimbs, Buf.nlimbs])
    (by rw [hn.2]; exact hodd) (by rw [hn.2]; exact h1) (by rw [hn.2, hb.2]; exact hcop) ?_).bind ?_
  · rw [hn.2, Buf.nlimbs, hn.1, nlimbs_add_LB, Nat.add_sub_cancel]
    exact p.toNat_lt_B
  · rintro r ⟨-, h3, h4⟩
    rw [hn.2] at h3 h4
    rw [hb.2] at h4
    refine (C17_copy_from (zeros p.len) r (by rw [zeros_len]; exact h3.trans p.toNat_lt)).mono fun r' h5 => ?_
    refine ⟨(r'.toNat : ZMod p.toNat), ⟨h5.1.trans (zeros_len _), by rw [h5.2]; exact h3, rfl⟩, ?_⟩
    rw [← ha.val, ← Nat.cast_mul, h5.2, ← ZMod.natCast_mod, h4, Nat.cast_one]

theorem fInv_sat (hp : FieldModulus p) (ha : El p a x) (hx : x ≠ 0) :
    Sat (fInv p a) (fun r => ∃ z, El p r z ∧ x * z = 1) := by
  have h0 : a.toNat ≠ 0 := fun h => hx (ha.zero_iff.1 h)
  exact fInv_coprime_sat hp.odd hp.prime.one_lt ha (Nat.Coprime.symm ((Nat.Prime.coprime_iff_not_dvd hp.prime).2
    (Nat.not_dvd_of_pos_of_lt (Nat.pos_of_ne_zero h0) ha.lt)))

end

end Props
end Cmpa
