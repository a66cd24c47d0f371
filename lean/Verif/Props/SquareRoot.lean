import Mathlib.NumberTheory.LegendreSymbol.Basic
import Verif.Props.Padded

/-!
# C62: quadratic residues and square roots

A user's programs which tell squares from other numbers modulo a prime, and which take square roots modulo primes
that leave the remainder 3 when divided by 4, on top of the modular exponentiation; points of an elliptic curve from
their abscissas.
-/

namespace Cmpa
namespace Props

open M
variable [LimbCfg]

/-! ## The programs -/

/-- A user's program: whether `a` is a square modulo `p`. -/
def squareTest (p a : Buf .be) : M Bool := do
  let (e, _) ← ct_rshift_mp p 1
  let r ← fPow p a e
  let z ← ct_is_zero_mp a
  let o ← ct_is_one_mp r
  pure (decide ((z.or o).unwrap ≠ 0))

/-- A user's program: a square root of `a` modulo `p`, if there is one. -/
def sqrtMod (p a : Buf .be) : M (Option (Buf .be)) := do
  let (e, _) ← ct_rshift_mp p 2
  let (e, _) ← ct_add_mp_l e 1
  let r ← fPow p a e
  let s ← fMul p r r
  let ok ← fEq s a
  M.cond (ok = true) (pure (some r)) (pure none)

/-- A user's program: a point with abscissa `x` of the curve with coefficients `A` and `D`. -/
def ecLift (p A D x : Buf .be) : M (Option (Buf .be)) := do
  let s ← fMul p x x
  let s ← fAdd p s A
  let s ← fMul p s x
  let s ← fAdd p s D
  sqrtMod p s

/-! ## Proofs -/

section
variable {p a : Buf .be} {x : ZMod p.toNat}

theorem fPow_sat {e : Buf .be} (hp : p.toNat % 2 = 1) (ha : El p a x) :
    Sat (fPow p a e) (fun r => El p r (x ^ e.toNat)) := by
  refine (C65_power p a e hp ha.len ha.lt).mono ?_
  rintro r ⟨h1, h2⟩
  refine ⟨h1, h2 ▸ Nat.mod_lt _ (by omega), ?_⟩
  rw [h2, ZMod.natCast_mod, Nat.cast_pow, ha.val]

theorem El.one_iff (hp : 1 < p.toNat) (ha : El p a x) : a.toNat = 1 ↔ x = 1 := by
  have h := ZMod.natCast_eq_natCast_iff a.toNat 1 p.toNat
  rw [Nat.cast_one] at h
  rw [← ha.val, h, Nat.ModEq, Nat.mod_eq_of_lt ha.lt, Nat.mod_eq_of_lt hp]

theorem isSquare_iff (p a : ℕ) [NeZero p] : IsSquare (a : ZMod p) ↔ ∃ r : ℕ, r ^ 2 ≡ a [MOD p] := by
  constructor
  · rintro ⟨y, hy⟩
    refine ⟨y.val, ?_⟩
    rw [← ZMod.natCast_eq_natCast_iff, Nat.cast_pow, ZMod.natCast_val, ZMod.cast_id, hy, sq]
  · rintro ⟨r, hr⟩
    refine ⟨(r : ZMod p), ?_⟩
    rw [← ZMod.natCast_eq_natCast_iff, Nat.cast_pow] at hr
    rw [← hr, sq]

/-- **C62**: the test tells squares from other numbers. -/
theorem C62_square_test (p a : Buf .be) (hp : p.toNat.Prime) (hm : p.toNat % 2 = 1) (hl : a.len = p.len)
    (ha : a.toNat < p.toNat) :
    Sat (squareTest p a) (fun b => b = true ↔ ∃ r : ℕ, r ^ 2 ≡ a.toNat [MOD p.toNat]) := by
  haveI : Fact p.toNat.Prime := ⟨hp⟩
  have hel : El p a (a.toNat : ZMod p.toNat) := ⟨hl, ha, rfl⟩
  unfold squareTest
  refine (C08_rshift p 1).bind fun e he => ?_
  obtain ⟨e, _⟩ := e
  refine (fPow_sat hm hel).bind fun r hr => ?_
  refine (C01_is_zero a).bind ?_
  intro z hz
  subst hz
  refine (C01_is_one r).bind ?_
  intro o ho
  subst ho
  refine Sat.pure ?_
  rw [LimbChoice.or_ofBool, LimbChoice.unwrap_ofBool, ← isSquare_iff]
  have h1 := hr.one_iff hp.one_lt
  have h2 := hel.zero_iff
  have e2 : e.toNat = p.toNat / 2 := by rw [he.2.2.1, pow_one]
  rw [e2] at h1
  by_cases h0 : (a.toNat : ZMod p.toNat) = 0
  · have h3 : a.toNat = 0 := h2.2 h0
    rw [h0]
    simp [h3]
  · have h3 : a.toNat ≠ 0 := fun h => h0 (h2.1 h)
    rw [ZMod.euler_criterion p.toNat h0, ← h1]
    by_cases h4 : r.toNat = 1 <;> simp [h3, h4]

/-- The square root, in the field. -/
theorem sqrtMod_sat (hp : p.toNat.Prime) (h4 : p.toNat % 4 = 3) (ha : El p a x) :
    Sat (sqrtMod p a) (fun o => (∀ r, o = some r → ∃ y, El p r y ∧ y ^ 2 = x) ∧ (o = none → ¬ IsSquare x)) := by
  haveI : Fact p.toNat.Prime := ⟨hp⟩
  have hlen : 0 < p.len := by
    rcases Nat.eq_zero_or_pos p.len with h | h
    · have := p.toNat_lt
      rw [h, pow_zero] at this
      omega
    · exact h
  unfold sqrtMod
  refine (C08_rshift p 2).bind fun e he => ?_
  obtain ⟨e, _⟩ := e
  obtain ⟨he1, -, he2, -⟩ := he
  have hB : 1 < 256 ^ e.len := by
    rw [he1]
    exact Nat.one_lt_pow hlen.ne' (by norm_num)
  refine (C02_add_l e 1 one_lt_B hB).bind fun e' he' => ?_
  obtain ⟨e', c⟩ := e'
  obtain ⟨h1, h2, h3⟩ := he'
  have hc : c = 0 := by
    by_contra hne
    have hc1 : c = 1 := by omega
    have h5 := p.toNat_lt
    rw [hc1, he1] at h3
    omega
  have he3 : e'.toNat = p.toNat / 4 + 1 := by
    rw [hc] at h3
    omega
  refine (fPow_sat (by omega) ha).bind fun r hr => ?_
  refine (fMul_sat hr hr).bind fun s hs => ?_
  refine (fEq_sat hs ha).bind fun ok hok => ?_
  refine Sat.cond (fun h => ?_) (fun h => ?_)
  · refine Sat.pure ⟨?_, fun h => by simp at h⟩
    intro r' h'
    cases h'
    refine ⟨_, hr, ?_⟩
    rw [sq]
    exact hok.1 h
  · refine Sat.pure ⟨fun r h => by simp at h, fun _ hsq => h (hok.2 ?_)⟩
    by_cases h0 : x = 0
    · rw [h0, zero_pow (by omega), mul_zero]
    · have h5 := (ZMod.euler_criterion p.toNat h0).1 hsq
      rw [← pow_add, he3, show p.toNat / 4 + 1 + (p.toNat / 4 + 1) = p.toNat / 2 + 1 by omega, pow_succ, h5, one_mul]

/-- **C62**: the square root is one, and there is none if none is found. -/
theorem C62_sqrt (p a : Buf .be) (hp : p.toNat.Prime) (h4 : p.toNat % 4 = 3)
    (hl : a.len = p.len) (ha : a.toNat < p.toNat) :
    Sat (sqrtMod p a) (fun o =>
      (∀ r, o = some r → r.len = p.len ∧ r.toNat < p.toNat ∧ r.toNat ^ 2 % p.toNat = a.toNat) ∧
      (o = none → ¬ ∃ r : ℕ, r ^ 2 ≡ a.toNat [MOD p.toNat])) := by
  haveI : NeZero p.toNat := ⟨hp.ne_zero⟩
  refine (sqrtMod_sat hp h4 (⟨hl, ha, rfl⟩ : El p a (a.toNat : ZMod p.toNat))).mono fun o ho => ⟨?_, ?_⟩
  · intro r hr
    obtain ⟨y, h1, h2⟩ := ho.1 r hr
    refine ⟨h1.len, h1.lt, ?_⟩
    rw [← h1.val, ← Nat.cast_pow, ZMod.natCast_eq_natCast_iff, Nat.ModEq, Nat.mod_eq_of_lt ha] at h2
    exact h2
  · intro hn
    rw [← isSquare_iff]
    exact ho.2 hn

/-- **C62**: a point is found exactly for the abscissas of points. -/
theorem C62_lift (p A D x : Buf .be) (hp : p.toNat.Prime) (h4 : p.toNat % 4 = 3)
    (hA : A.len = p.len ∧ A.toNat < p.toNat) (hD : D.len = p.len ∧ D.toNat < p.toNat)
    (hx : x.len = p.len ∧ x.toNat < p.toNat) :
    Sat (ecLift p A D x) (fun o =>
      (∀ y, o = some y → y.len = p.len ∧ y.toNat < p.toNat ∧
        y.toNat ^ 2 ≡ x.toNat ^ 3 + A.toNat * x.toNat + D.toNat [MOD p.toNat]) ∧
      (o = none → ¬ ∃ y : ℕ, y ^ 2 ≡ x.toNat ^ 3 + A.toNat * x.toNat + D.toNat [MOD p.toNat])) := by
  haveI : NeZero p.toNat := ⟨hp.ne_zero⟩
  have ex : El p x (x.toNat : ZMod p.toNat) := ⟨hx.1, hx.2, rfl⟩
  unfold ecLift
  refine (fMul_sat ex ex).bind fun _ t1 => ?_
  refine (fAdd_sat t1 ⟨hA.1, hA.2, rfl⟩).bind fun _ t2 => ?_
  refine (fMul_sat t2 ex).bind fun _ t3 => ?_
  refine (fAdd_sat t3 ⟨hD.1, hD.2, rfl⟩).bind fun _ t4 => ?_
  have e : ((x.toNat : ZMod p.toNat) * x.toNat + A.toNat) * x.toNat + D.toNat =
      ((x.toNat ^ 3 + A.toNat * x.toNat + D.toNat : ℕ) : ZMod p.toNat) := by
    push_cast
    ring
  rw [e] at t4
  refine (sqrtMod_sat hp h4 t4).mono fun o ho => ⟨?_, ?_⟩
  · intro y hy
    obtain ⟨z, h1, h2⟩ := ho.1 y hy
    refine ⟨h1.len, h1.lt, ?_⟩
    rw [← h1.val, ← Nat.cast_pow, ZMod.natCast_eq_natCast_iff] at h2
    exact h2
  · intro hn
    rw [← isSquare_iff]
    exact ho.2 hn

end

theorem squareTest_ct [Obs] (p : Buf .be) {a a' : Buf .be} (ha : a.len = a'.len) :
    SameTr (squareTest p a) (squareTest p a') (fun _ _ => True) := by
  unfold squareTest
  refine (SameTr.refl _).bind fun e e' he => ?_
  subst he
  obtain ⟨e, _⟩ := e
  refine (fPow_ct ha rfl).bind fun _ _ h1 => ?_
  refine (ct_is_zero_mp_ct ha).bind fun _ _ _ => ?_
  refine (ct_is_one_mp_ct h1).bind fun _ _ _ => ?_
  exact SameTr.pure trivial

/-- **C62**: the test reveals nothing about the number, not even whether it is a square. -/
theorem C62_constant_time (p a a' : Buf .be) (hp : p.toNat.Prime) (hm : p.toNat % 2 = 1) (hl : a.len = p.len)
    (ha : a.toNat < p.toNat) (hl' : a'.len = p.len) (ha' : a'.toNat < p.toNat) :
    (squareTest p a).tr = (squareTest p a').tr :=
  sameEvents (@squareTest_ct _ Obs.full p a a' (hl.trans hl'.symm))
    (C62_square_test p a hp hm hl ha).ne_none (C62_square_test p a' hp hm hl' ha').ne_none

/-! ## Examples -/

-- 2 is a square modulo 23, 5 isn't; there are points with abscissa 1, but none with abscissa 2 on y² = x³ + 1
example : letI := cfg32;
    ((squareTest (Buf.be [23]) (Buf.be [2])).val,
      (squareTest (Buf.be [23]) (Buf.be [5])).val) = (some true, some false) := by decide +kernel

example : letI := cfg32;
    ((sqrtMod (Buf.be [23]) (Buf.be [2])).val.map (Option.map Buf.toNat),
      (sqrtMod (Buf.be [23]) (Buf.be [5])).val.map (Option.map Buf.toNat)) =
    (some (some 18), some none) := by decide +kernel

end Props
end Cmpa
