import Mathlib.AlgebraicGeometry.EllipticCurve.Affine.Point
import Verif.Props.Field

/-!
# Elliptic curves over prime fields (C59)

Addition and scalar multiplication of the points of `y² = x³ + A x + D`, in affine coordinates, on top of the crate's
operations.  The specification is the group of points from Mathlib.
-/

namespace Cmpa
namespace Props

open M
variable [LimbCfg]

/-! ## The programs -/

/-- A point: there are no coordinates for the one at infinity. -/
abbrev Pt [LimbCfg] := Option (Buf .be × Buf .be)

/-- A user's program: the sum of two points, the line through them having slope `l`. -/
def ecChord (p l x₁ y₁ x₂ : Buf .be) : M Pt := do
  let s ← fMul p l l
  let s ← fSub p s x₁
  let x₃ ← fSub p s x₂
  let t ← fSub p x₁ x₃
  let t ← fMul p l t
  let y₃ ← fSub p t y₁
  pure (some (x₃, y₃))

/-- A user's program: the slope of the tangent. -/
def ecTangent (p A x y : Buf .be) : M (Buf .be) := do
  let s ← fMul p x x
  let t ← fAdd p s s
  let t ← fAdd p t s
  let t ← fAdd p t A
  let u ← fAdd p y y
  let u ← fInv p u
  fMul p t u

/-- A user's program: the slope of the line through two points. -/
def ecSlope (p x₁ y₁ x₂ y₂ : Buf .be) : M (Buf .be) := do
  let t ← fSub p y₁ y₂
  let u ← fSub p x₁ x₂
  let u ← fInv p u
  fMul p t u

/-- A user's program: the sum of two points. -/
def ecAdd (p A : Buf .be) : Pt → Pt → M Pt
  | none, Q => pure Q
  | some P, none => pure (some P)
  | some (x₁, y₁), some (x₂, y₂) => do
    let same ← fEq x₁ x₂
    M.cond (same = true)
      (do
        let s ← fAdd p y₁ y₂
        let z ← ct_is_zero_mp s
        M.cond (z.unwrap ≠ 0) (pure none) do
          let l ← ecTangent p A x₁ y₁
          ecChord p l x₁ y₁ x₂)
      (do
        let l ← ecSlope p x₁ y₁ x₂ y₂
        ecChord p l x₁ y₁ x₂)

/-- The loop of `ecMul`: from the `i` least significant bits of `k`. -/
def ecMulFrom (p A k : Buf .be) (P : Pt) : ℕ → Pt → M Pt
  | 0, R => pure R
  | i + 1, R => do
    let R ← ecAdd p A R R
    let b ← k.test_bit i
    let R ← M.cond (b.unwrap ≠ 0) (ecAdd p A R P) (pure R)
    ecMulFrom p A k P i R

/-- A user's program: a multiple of a point. -/
def ecMul (p A k : Buf .be) (P : Pt) : M Pt := ecMulFrom p A k P (8 * k.len) none

/-- A user's program: whether coordinates satisfy the equation of the curve. -/
def ecCheck (p A D x y : Buf .be) : M Bool := do
  let s ← fMul p x x
  let s ← fAdd p s A
  let s ← fMul p s x
  let s ← fAdd p s D
  let t ← fMul p y y
  fEq t s

/-! ## Specification -/

/-- The curve `y² = x³ + a x + d`. -/
abbrev shortCurve {F : Type} [Field F] (a d : F) : WeierstrassCurve.Affine F := ⟨0, 0, 0, a, d⟩

/-- The coordinates are those of the point. -/
def Rep {p : Buf .be} [Fact p.toNat.Prime] {W : WeierstrassCurve.Affine (ZMod p.toNat)} : Pt → W.Point → Prop
  | none, .zero => True
  | some (x, y), .some x' y' _ => El p x x' ∧ El p y y'
  | _, _ => False

/-! ## Proofs -/

section
variable {p A : Buf .be} [hp : Fact p.toNat.Prime] {a d : ZMod p.toNat}

theorem ecChord_sat {l x₁ y₁ x₂ : Buf .be} {l' x₁' y₁' x₂' : ZMod p.toNat} (hl : El p l l') (hx₁ : El p x₁ x₁')
    (hy₁ : El p y₁ y₁') (hx₂ : El p x₂ x₂') :
    Sat (ecChord p l x₁ y₁ x₂) (fun r => ∃ x₃ y₃, r = some (x₃, y₃) ∧
      El p x₃ ((shortCurve a d).addX x₁' x₂' l') ∧ El p y₃ ((shortCurve a d).addY x₁' x₂' y₁' l')) := by
  unfold ecChord
  refine (fMul_sat hl hl).bind fun _ h1 => ?_
  refine (fSub_sat h1 hx₁).bind fun _ h2 => ?_
  refine (fSub_sat h2 hx₂).bind fun x₃ h3 => ?_
  refine (fSub_sat hx₁ h3).bind fun _ h4 => ?_
  refine (fMul_sat hl h4).bind fun _ h5 => ?_
  refine (fSub_sat h5 hy₁).bind fun y₃ h6 => ?_
  refine Sat.pure ⟨x₃, y₃, rfl, ?_, ?_⟩
  · convert h3 using 1
    simp only [WeierstrassCurve.Affine.addX]
    ring
  · convert h6 using 1
    simp only [WeierstrassCurve.Affine.addX, WeierstrassCurve.Affine.addY, WeierstrassCurve.Affine.negY,
      WeierstrassCurve.Affine.negAddY]
    ring

/-- C59: the sum of two points of the curve. -/
theorem C59_add (hm : FieldModulus p) (hA : El p A a) (P Q : Pt) (P' Q' : (shortCurve a d).Point)
    (hP : Rep P P') (hQ : Rep Q Q') : Sat (ecAdd p A P Q) (fun R => Rep R (P' + Q')) := by
  rcases P with _ | ⟨x₁, y₁⟩
  · rcases P' with _ | ⟨x₁', y₁', h₁⟩
    · rw [ecAdd]
      exact Sat.pure (by rw [← WeierstrassCurve.Affine.Point.zero_def, zero_add]; exact hQ)
    · exact hP.elim
  · rcases P' with _ | ⟨x₁', y₁', h₁⟩
    · exact hP.elim
    rcases Q with _ | ⟨x₂, y₂⟩
    · rcases Q' with _ | ⟨x₂', y₂', h₂⟩
      · rw [ecAdd]
        exact Sat.pure (by rw [← WeierstrassCurve.Affine.Point.zero_def, add_zero]; exact hP)
      · exact hQ.elim
    · rcases Q' with _ | ⟨x₂', y₂', h₂⟩
      · exact hQ.elim
      obtain ⟨hx₁, hy₁⟩ := hP
      obtain ⟨hx₂, hy₂⟩ := hQ
      rw [ecAdd]
      refine (fEq_sat hx₁ hx₂).bind fun c hc => ?_
      have hneg : (shortCurve a d).negY x₂' y₂' = -y₂' := by
        simp [WeierstrassCurve.Affine.negY]
      have hneg₁ : (shortCurve a d).negY x₁' y₁' = -y₁' := by
        simp [WeierstrassCurve.Affine.negY]
      refine Sat.cond (fun h => ?_) (fun h => ?_)
      · have hx : x₁' = x₂' := hc.1 h
        refine (fAdd_sat hy₁ hy₂).bind fun s hs => ?_
        refine (C01_is_zero s).bind ?_
        rintro _ rfl
        rw [LimbChoice.unwrap_ofBool]
        refine Sat.cond (fun hz => ?_) (fun hz => ?_)
        · have hz' : s.toNat = 0 := by
            by_contra h0
            simp [h0] at hz
          have hy : y₁' + y₂' = 0 := hs.zero_iff.1 hz'
          refine Sat.pure ?_
          rw [WeierstrassCurve.Affine.Point.add_of_Y_eq hx (by rw [hneg]; exact eq_neg_of_add_eq_zero_left hy)]
          trivial
        · have hz' : s.toNat ≠ 0 := by
            intro h0
            simp [h0] at hz
          have hy : y₁' + y₂' ≠ 0 := fun h0 => hz' (hs.zero_iff.2 h0)
          have hyn : y₁' ≠ (shortCurve a d).negY x₂' y₂' := by
            rw [hneg]
            intro h0
            exact hy (by rw [h0, neg_add_cancel])
          -- the second point is the first one
          have hyy : y₁' = y₂' := by
            have e₁ := (WeierstrassCurve.Affine.equation_iff _ _).1 h₁.1
            have e₂ := (WeierstrassCurve.Affine.equation_iff _ _).1 h₂.1
            rw [← hx] at e₂
            have e : (y₁' - y₂') * (y₁' + y₂') = 0 := by linear_combination e₁ - e₂
            exact sub_eq_zero.1 ((mul_eq_zero.1 e).resolve_right hy)
          have h2y : y₁' + y₁' ≠ 0 := by rwa [← hyy] at hy
          have hl : Sat (ecTangent p A x₁ y₁) (fun l => El p l ((shortCurve a d).slope x₁' x₂' y₁' y₂')) := by
            unfold ecTangent
            refine (fMul_sat hx₁ hx₁).bind fun _ t1 => ?_
            refine (fAdd_sat t1 t1).bind fun _ t2 => ?_
            refine (fAdd_sat t2 t1).bind fun _ t3 => ?_
            refine (fAdd_sat t3 hA).bind fun _ t4 => ?_
            refine (fAdd_sat hy₁ hy₁).bind fun _ t5 => ?_
            refine (fInv_sat hm t5 h2y).bind ?_
            rintro _ ⟨z, t6, hz⟩
            refine (fMul_sat t4 t6).mono fun _ t7 => ?_
            convert t7 using 1
            rw [WeierstrassCurve.Affine.slope_of_Y_ne hx hyn, hneg₁, div_eq_iff (by rwa [sub_neg_eq_add])]
            linear_combination (-(3 * x₁' ^ 2 + a)) * hz
          refine hl.bind fun l hl' => ?_
          refine (ecChord_sat (a := a) (d := d) hl' hx₁ hy₁ hx₂).mono ?_
          rintro _ ⟨x₃, y₃, rfl, h3, h4⟩
          rw [WeierstrassCurve.Affine.Point.add_of_Y_ne hyn]
          exact ⟨h3, h4⟩
      · have hx : x₁' ≠ x₂' := fun h0 => h (hc.2 h0)
        have hl : Sat (ecSlope p x₁ y₁ x₂ y₂) (fun l => El p l ((shortCurve a d).slope x₁' x₂' y₁' y₂')) := by
          unfold ecSlope
          refine (fSub_sat hy₁ hy₂).bind fun _ t1 => ?_
          refine (fSub_sat hx₁ hx₂).bind fun _ t2 => ?_
          refine (fInv_sat hm t2 (sub_ne_zero.2 hx)).bind ?_
          rintro _ ⟨z, t3, hz⟩
          refine (fMul_sat t1 t3).mono fun _ t4 => ?_
          convert t4 using 1
          rw [WeierstrassCurve.Affine.slope_of_X_ne hx, div_eq_iff (sub_ne_zero.2 hx)]
          linear_combination (-(y₁' - y₂')) * hz
        refine hl.bind fun l hl' => ?_
        refine (ecChord_sat (a := a) (d := d) hl' hx₁ hy₁ hx₂).mono ?_
        rintro _ ⟨x₃, y₃, rfl, h3, h4⟩
        rw [WeierstrassCurve.Affine.Point.add_of_X_ne hx]
        exact ⟨h3, h4⟩

theorem ecMulFrom_sat (hm : FieldModulus p) (hA : El p A a) (k : Buf .be) (P : Pt) (P' : (shortCurve a d).Point)
    (hP : Rep P P') (i : ℕ) (R : Pt) (hR : Rep R ((k.toNat / 2 ^ i) • P')) :
    Sat (ecMulFrom p A k P i R) (fun R => Rep R (k.toNat • P')) := by
  induction i generalizing R with
  | zero =>
    rw [ecMulFrom]
    rw [pow_zero, Nat.div_one] at hR
    exact Sat.pure hR
  | succ i ih =>
    rw [ecMulFrom]
    refine (C59_add hm hA R R _ _ hR hR).bind fun R2 hR2 => ?_
    refine (C18_test_bit k i).bind ?_
    rintro _ rfl
    rw [LimbChoice.unwrap_ofBool]
    have hd : k.toNat / 2 ^ i = 2 * (k.toNat / 2 ^ (i + 1)) + (k.toNat.testBit i).toNat := by
      rw [pow_succ, ← Nat.div_div_eq_div_mul, Nat.toNat_testBit]
      omega
    refine Sat.bind (P := fun R => Rep R ((k.toNat / 2 ^ i) • P')) ?_ fun R3 hR3 => ih R3 hR3
    refine Sat.cond (fun hb => ?_) (fun hb => ?_)
    · have hb' : k.toNat.testBit i = true := by
        by_contra h0
        simp [h0] at hb
      rw [hd, hb', Bool.toNat_true, add_nsmul, one_nsmul, two_mul, add_nsmul]
      exact C59_add hm hA R2 P _ _ hR2 hP
    · have hb' : k.toNat.testBit i = false := by
        by_contra h0
        simp [h0] at hb
      rw [hd, hb', Bool.toNat_false, add_zero, two_mul, add_nsmul]
      exact Sat.pure hR2

/-- C59: multiples of a point of the curve. -/
theorem C59_mul (hm : FieldModulus p) (hA : El p A a) (k : Buf .be) (P : Pt) (P' : (shortCurve a d).Point)
    (hP : Rep P P') : Sat (ecMul p A k P) (fun R => Rep R (k.toNat • P')) := by
  unfold ecMul
  refine ecMulFrom_sat hm hA k P P' hP _ none ?_
  have : k.toNat < 2 ^ (8 * k.len) := by
    rw [pow_mul]
    exact k.toNat_lt
  rw [Nat.div_eq_of_lt this, zero_nsmul]
  trivial

/-- C59: whether coordinates satisfy the equation of the curve is decided for all primes. -/
theorem C59_check {D x y : Buf .be} {x' y' : ZMod p.toNat} (hA : El p A a) (hD : El p D d) (hx : El p x x')
    (hy : El p y y') :
    Sat (ecCheck p A D x y) (fun b => b = true ↔ y' ^ 2 = x' ^ 3 + a * x' + d) := by
  unfold ecCheck
  refine (fMul_sat hx hx).bind fun _ t1 => ?_
  refine (fAdd_sat t1 hA).bind fun _ t2 => ?_
  refine (fMul_sat t2 hx).bind fun _ t3 => ?_
  refine (fAdd_sat t3 hD).bind fun _ t4 => ?_
  refine (fMul_sat hy hy).bind fun _ t5 => ?_
  refine (fEq_sat t5 t4).mono fun b hb => ?_
  rw [hb]
  constructor <;> intro h <;> linear_combination h

/-- Points have one representation each. -/
theorem Rep.unique {W : WeierstrassCurve.Affine (ZMod p.toNat)} {P Q : Pt} {P' : W.Point} (h : Rep P P') (h' : Rep Q P') :
    P = Q := by
  rcases P with _ | ⟨x, y⟩ <;> rcases Q with _ | ⟨x₂, y₂⟩ <;> rcases P' with _ | ⟨x', y', hn⟩
  · rfl
  · exact h.elim
  · exact h'.elim
  · exact h.elim
  · exact h.elim
  · exact h'.elim
  · exact h.elim
  · have e1 : x = x₂ := Buf.ext' (h.1.len.trans h'.1.len.symm) ((h.1.eq_iff h'.1).2 rfl)
    have e2 : y = y₂ := Buf.ext' (h.2.len.trans h'.2.len.symm) ((h.2.eq_iff h'.2).2 rfl)
    rw [e1, e2]

/-- Reduced coordinates satisfying the equation of the curve, the ordinate not being zero, are those of a point. -/
theorem Rep.of_equation {x y : Buf .be} (ho : p.toNat % 2 = 1) (hx : El p x x.toNat) (hy : El p y y.toNat) {A D : ℕ}
    (h : y.toNat ^ 2 ≡ x.toNat ^ 3 + A * x.toNat + D [MOD p.toNat]) (h0 : y.toNat ≠ 0) :
    ∃ P' : (shortCurve (A : ZMod p.toNat) (D : ZMod p.toNat)).Point, Rep (some (x, y)) P' := by
  have e : (y.toNat : ZMod p.toNat) ^ 2 = (x.toNat : ZMod p.toNat) ^ 3 + A * x.toNat + D := by
    have := (ZMod.natCast_eq_natCast_iff _ _ _).2 h
    push_cast at this
    exact this
  have hy0 : (y.toNat : ZMod p.toNat) ≠ 0 := fun h1 => h0 (hy.zero_iff.2 h1)
  have h2 : (2 : ZMod p.toNat) ≠ 0 := by
    intro h2
    have h3 : ((2 : ℕ) : ZMod p.toNat) = 0 := by exact_mod_cast h2
    have h4 := Nat.le_of_dvd (by norm_num) ((ZMod.natCast_eq_zero_iff _ _).1 h3)
    have h5 := hp.out.two_le
    omega
  have hn : (shortCurve (A : ZMod p.toNat) (D : ZMod p.toNat)).Nonsingular x.toNat y.toNat := by
    rw [WeierstrassCurve.Affine.nonsingular_iff, WeierstrassCurve.Affine.equation_iff]
    refine ⟨by linear_combination e, Or.inr ?_⟩
    intro h1
    have h3 : (2 : ZMod p.toNat) * y.toNat = 0 := by linear_combination h1
    exact (mul_ne_zero h2 hy0) h3
  exact ⟨.some _ _ hn, hx, hy⟩

/-- C59: the parties of a key exchange find the same point. -/
theorem C59_ecdh (hm : FieldModulus p) (hA : El p A a) (k l : Buf .be) (P : Pt) (P' : (shortCurve a d).Point)
    (hP : Rep P P') :
    Sat (do let Q ← ecMul p A k P; ecMul p A l Q) (fun S =>
      Sat (do let Q ← ecMul p A l P; ecMul p A k Q) (fun S' => S = S')) := by
  refine Sat.mono (P := fun S => Rep S (l.toNat • k.toNat • P')) ?_ fun S hS => ?_
  · refine (C59_mul hm hA k P P' hP).bind fun Q hQ => ?_
    exact C59_mul hm hA l Q _ hQ
  · refine (C59_mul hm hA l P P' hP).bind fun Q hQ => ?_
    refine (C59_mul hm hA k Q _ hQ).mono fun S' hS' => ?_
    rw [← mul_nsmul', Nat.mul_comm, mul_nsmul'] at hS
    exact hS.unique hS'

end

/-! ## Constant time -/

section
variable [Obs] {p : Buf .be}

theorem fAdd_ct {a b a' b' : Buf .be} (ha : a.len = a'.len) (hb : b.len = b'.len) :
    SameTr (fAdd p a b) (fAdd p a' b') Pub.rel := unwrapE_ct (ct_add_mod_mp_mp_ct ha hb rfl)

theorem fSub_ct {a b a' b' : Buf .be} (ha : a.len = a'.len) (hb : b.len = b'.len) :
    SameTr (fSub p a b) (fSub p a' b') Pub.rel := unwrapE_ct (ct_sub_mod_mp_mp_ct ha hb rfl)

theorem fMul_ct {a b a' b' : Buf .be} (ha : a.len = a'.len) (hb : b.len = b'.len) :
    SameTr (fMul p a b) (fMul p a' b') Pub.rel := mulModTo_ct rfl rfl ha hb rfl rfl

theorem padded_ct {a a' : Buf .be} (ha : a.len = a'.len) : SameTr (padded a) (padded a') Pub.rel := by
  unfold padded
  exact Buf.copy_from_ct (by rw [zeros_len, zeros_len, ha]) ha

theorem fInv_ct {a a' : Buf .be} (ha : a.len = a'.len) : SameTr (fInv p a) (fInv p a') Pub.rel := by
  unfold fInv
  refine (padded_ct rfl).bind fun _ _ h1 => ?_
  refine (padded_ct ha).bind fun _ _ h2 => ?_
  refine (invOdd_ct (by rw [zeros_len, zeros_len, h1]) h2 h1 (by rw [h1]) (by rw [h1])).bind fun _ _ h3 => ?_
  exact Buf.copy_from_ct rfl h3

theorem fEq_ct {a b a' b' : Buf .be} (ha : a.len = a'.len) (hb : b.len = b'.len) :
    SameTr (fEq a b) (fEq a' b') (fun _ _ => True) := by
  unfold fEq
  exact (ct_eq_mp_mp_ct ha hb).bind fun _ _ _ => SameTr.pure trivial

theorem ecChord_ct {l x₁ y₁ x₂ l' x₁' y₁' x₂' : Buf .be} (hl : l.len = l'.len) (hx₁ : x₁.len = x₁'.len)
    (hy₁ : y₁.len = y₁'.len) (hx₂ : x₂.len = x₂'.len) :
    SameTr (ecChord p l x₁ y₁ x₂) (ecChord p l' x₁' y₁' x₂') (fun _ _ => True) := by
  unfold ecChord
  refine (fMul_ct hl hl).bind fun _ _ h1 => ?_
  refine (fSub_ct h1 hx₁).bind fun _ _ h2 => ?_
  refine (fSub_ct h2 hx₂).bind fun _ _ h3 => ?_
  refine (fSub_ct hx₁ h3).bind fun _ _ h4 => ?_
  refine (fMul_ct hl h4).bind fun _ _ h5 => ?_
  exact (fSub_ct h5 hy₁).bind fun _ _ _ => SameTr.pure trivial

/-- Values which are known may be used in both runs. -/
theorem SameTr.bindSat {α β σ τ : Type} {m : M α} {n : M β} {f : α → M σ} {g : β → M τ} {R : α → β → Prop}
    {S : σ → τ → Prop} {P : α → Prop} {Q : β → Prop} (h : SameTr m n R) (hm : Sat m P) (hn : Sat n Q)
    (hf : ∀ a b, R a b → P a → Q b → SameTr (f a) (g b) S) : SameTr (m >>= f) (n >>= g) S := by
  have h' : SameTr m n (fun a b => R a b ∧ P a ∧ Q b) := by
    intro a b ha hb
    obtain ⟨h1, h2⟩ := h a b ha hb
    obtain ⟨a', ha', hp⟩ := hm
    obtain ⟨b', hb', hq⟩ := hn
    rw [ha] at ha'
    rw [hb] at hb'
    cases ha'
    cases hb'
    exact ⟨h1, h2, hp, hq⟩
  exact h'.bind fun a b ⟨h1, h2, h3⟩ => hf a b h1 h2 h3

theorem ecAdd_ct {A x₁ y₁ x₂ y₂ x₁' y₁' x₂' y₂' : Buf .be} {u₁ v₁ u₂ v₂ u₁' v₁' u₂' v₂' : ZMod p.toNat}
    (hx₁ : El p x₁ u₁) (hy₁ : El p y₁ v₁) (hx₂ : El p x₂ u₂) (hy₂ : El p y₂ v₂)
    (hx₁' : El p x₁' u₁') (hy₁' : El p y₁' v₁') (hx₂' : El p x₂' u₂') (hy₂' : El p y₂' v₂')
    (hx : u₁ = u₂ ↔ u₁' = u₂') (hy : v₁ + v₂ = 0 ↔ v₁' + v₂' = 0) :
    SameTr (ecAdd p A (some (x₁, y₁)) (some (x₂, y₂))) (ecAdd p A (some (x₁', y₁')) (some (x₂', y₂')))
      (fun _ _ => True) := by
  have lx₁ := hx₁.len.trans hx₁'.len.symm
  have ly₁ := hy₁.len.trans hy₁'.len.symm
  have lx₂ := hx₂.len.trans hx₂'.len.symm
  have ly₂ := hy₂.len.trans hy₂'.len.symm
  rw [ecAdd, ecAdd]
  refine SameTr.bindSat (fEq_ct lx₁ lx₂) (fEq_sat hx₁ hx₂) (fEq_sat hx₁' hx₂') fun b b' _ hb hb' => ?_
  refine SameTr.cond (by rw [hb, hb', hx]) (fun _ => ?_) (fun _ => ?_)
  · refine SameTr.bindSat (fAdd_ct ly₁ ly₂) (fAdd_sat hy₁ hy₂) (fAdd_sat hy₁' hy₂') fun s s' hs e e' => ?_
    refine SameTr.bindSat (ct_is_zero_mp_ct hs) (C01_is_zero s) (C01_is_zero s') ?_
    rintro _ _ - rfl rfl
    rw [LimbChoice.unwrap_ofBool, LimbChoice.unwrap_ofBool]
    refine SameTr.cond ?_ (fun _ => SameTr.pure trivial) (fun _ => ?_)
    · have : s.toNat = 0 ↔ s'.toNat = 0 := by rw [e.zero_iff, e'.zero_iff, hy]
      by_cases h0 : s.toNat = 0
      · simp [h0, this.1 h0]
      · have h1 : s'.toNat ≠ 0 := fun h1 => h0 (this.2 h1)
        simp [h0, h1]
    · refine SameTr.bind (R := Pub.rel) ?_ fun _ _ hl => ecChord_ct hl lx₁ ly₁ lx₂
      unfold ecTangent
      refine (fMul_ct lx₁ lx₁).bind fun _ _ h1 => ?_
      refine (fAdd_ct h1 h1).bind fun _ _ h2 => ?_
      refine (fAdd_ct h2 h1).bind fun _ _ h3 => ?_
      refine (fAdd_ct h3 rfl).bind fun _ _ h4 => ?_
      refine (fAdd_ct ly₁ ly₁).bind fun _ _ h5 => ?_
      refine (fInv_ct h5).bind fun _ _ h6 => ?_
      exact fMul_ct h4 h6
  · refine SameTr.bind (R := Pub.rel) ?_ fun _ _ hl => ecChord_ct hl lx₁ ly₁ lx₂
    unfold ecSlope
    refine (fSub_ct ly₁ ly₂).bind fun _ _ h1 => ?_
    refine (fSub_ct lx₁ lx₂).bind fun _ _ h2 => ?_
    refine (fInv_ct h2).bind fun _ _ h3 => ?_
    exact fMul_ct h1 h3

end

/-- C59: the events of an addition of finite points depend on two things only, whether their abscissas are the
same, and whether their ordinates add up to zero. -/
theorem C59_add_constant_time {p A : Buf .be} [Fact p.toNat.Prime] {a d : ZMod p.toNat} (hm : FieldModulus p)
    (hA : El p A a) (x₁ y₁ x₂ y₂ x₁' y₁' x₂' y₂' : Buf .be) (u₁ v₁ u₂ v₂ u₁' v₁' u₂' v₂' : ZMod p.toNat)
    (h₁ : (shortCurve a d).Nonsingular u₁ v₁) (h₂ : (shortCurve a d).Nonsingular u₂ v₂)
    (h₁' : (shortCurve a d).Nonsingular u₁' v₁') (h₂' : (shortCurve a d).Nonsingular u₂' v₂')
    (hx₁ : El p x₁ u₁) (hy₁ : El p y₁ v₁) (hx₂ : El p x₂ u₂) (hy₂ : El p y₂ v₂)
    (hx₁' : El p x₁' u₁') (hy₁' : El p y₁' v₁') (hx₂' : El p x₂' u₂') (hy₂' : El p y₂' v₂')
    (hx : u₁ = u₂ ↔ u₁' = u₂') (hy : v₁ + v₂ = 0 ↔ v₁' + v₂' = 0) :
    (ecAdd p A (some (x₁, y₁)) (some (x₂, y₂))).tr = (ecAdd p A (some (x₁', y₁')) (some (x₂', y₂'))).tr :=
  sameEvents (@ecAdd_ct _ Obs.full p A x₁ y₁ x₂ y₂ x₁' y₁' x₂' y₂' _ _ _ _ _ _ _ _ hx₁ hy₁ hx₂ hy₂ hx₁' hy₁' hx₂' hy₂'
      hx hy)
    (C59_add hm hA (some (x₁, y₁)) (some (x₂, y₂)) (.some _ _ h₁) (.some _ _ h₂) ⟨hx₁, hy₁⟩ ⟨hx₂, hy₂⟩).ne_none
    (C59_add hm hA (some (x₁', y₁')) (some (x₂', y₂')) (.some _ _ h₁') (.some _ _ h₂') ⟨hx₁', hy₁'⟩
      ⟨hx₂', hy₂'⟩).ne_none

/-! ## Without a limb to spare -/

/-- Add two points of different abscissas, and check the operands and the result: like `ecAdd`, but the inversion is given
buffers of the length of the prime. -/
def ecRunTight (p A D x₁ y₁ x₂ y₂ : Buf .be) : M (Bool × Bool × Option Bool) := do
  let b₁ ← ecCheck p A D x₁ y₁
  let b₂ ← ecCheck p A D x₂ y₂
  let t ← fSub p y₁ y₂
  let u ← fSub p x₁ x₂
  let u ← invOdd (zeros p.len) u p (scratchLimbs p.len) (scratchLimbs p.len)
  let l ← fMul p t u
  match ← ecChord p l x₁ y₁ x₂ with
  | none => pure (b₁, b₂, none)
  | some (x₃, y₃) => do
    let b₃ ← ecCheck p A D x₃ y₃
    pure (b₁, b₂, some b₃)

/-- Add, and check the operands and the result. -/
def ecRun (p A D x₁ y₁ x₂ y₂ : Buf .be) : M (Bool × Bool × Option Bool) := do
  let b₁ ← ecCheck p A D x₁ y₁
  let b₂ ← ecCheck p A D x₂ y₂
  match ← ecAdd p A (some (x₁, y₁)) (some (x₂, y₂)) with
  | none => pure (b₁, b₂, none)
  | some (x₃, y₃) => do
    let b₃ ← ecCheck p A D x₃ y₃
    pure (b₁, b₂, some b₃)

omit [LimbCfg] in
/-- The limb to spare is needed because of finding I1 (C30): with limbs of 32 bits and the prime `65519` in a buffer of one
limb, the sum of two points of the curve `y² = x³ + 6179 x + 26004` isn't on the curve without it. -/
theorem C59_tight_fails : ∃ (c : LimbCfg) (p A D x₁ y₁ x₂ y₂ : @Buf c .be), (@Buf.toNat c .be p).Prime ∧
    (∀ b ∈ [A, D, x₁, y₁, x₂, y₂], @Buf.len c .be b = @Buf.len c .be p ∧ @Buf.toNat c .be b < @Buf.toNat c .be p) ∧
    ¬ @Buf.toNat c .be p ∣ 4 * @Buf.toNat c .be A ^ 3 + 27 * @Buf.toNat c .be D ^ 2 ∧
    (@ecRunTight c p A D x₁ y₁ x₂ y₂).val = some (true, true, some false) := by
  refine ⟨cfg32, @Buf.ofNat cfg32 .be 4 65519, @Buf.ofNat cfg32 .be 4 6179, @Buf.ofNat cfg32 .be 4 26004,
    @Buf.ofNat cfg32 .be 4 30414, @Buf.ofNat cfg32 .be 4 5, @Buf.ofNat cfg32 .be 4 100, @Buf.ofNat cfg32 .be 4 77,
    ?_, by decide +kernel, by decide +kernel, by decide +kernel⟩
  rw [show @Buf.toNat cfg32 .be (@Buf.ofNat cfg32 .be 4 65519) = 65519 by decide +kernel]
  norm_num

/-! ## Examples -/

-- the same numbers
example : letI := cfg32;
    (ecRun (Buf.ofNat .be 4 65519) (Buf.ofNat .be 4 6179) (Buf.ofNat .be 4 26004) (Buf.ofNat .be 4 30414)
      (Buf.ofNat .be 4 5) (Buf.ofNat .be 4 100) (Buf.ofNat .be 4 77)).val = some (true, true, some true) := by
  decide +kernel
example : letI := cfg32;
    (ecAdd (Buf.ofNat .be 4 65519) (Buf.ofNat .be 4 6179) (some (Buf.ofNat .be 4 30414, Buf.ofNat .be 4 5))
      (some (Buf.ofNat .be 4 100, Buf.ofNat .be 4 77))).val.map (Option.map fun q => (q.1.toNat, q.2.toNat)) =
      some (some (21281, 54517)) := by
  decide +kernel

-- five times a point
example : letI := cfg32;
    (ecMul (Buf.ofNat .be 4 65519) (Buf.ofNat .be 4 6179) (Buf.be [5]) (some (Buf.ofNat .be 4 100, Buf.ofNat .be 4 77))).val.map
      (Option.map fun q => (q.1.toNat, q.2.toNat)) = some (some (772, 64862)) := by
  decide +kernel
-- a point and its negative
example : letI := cfg32;
    (ecAdd (Buf.ofNat .be 4 65519) (Buf.ofNat .be 4 6179) (some (Buf.ofNat .be 4 100, Buf.ofNat .be 4 77))
      (some (Buf.ofNat .be 4 100, Buf.ofNat .be 4 65442))).val.map Option.isNone = some true := by
  decide +kernel
-- the hypotheses
example : letI := cfg32; FieldModulus (Buf.ofNat .be 4 65519) :=
  letI := cfg32
  ⟨by rw [show (Buf.ofNat .be 4 65519).toNat = 65519 by decide +kernel]; norm_num, by decide +kernel⟩
example : letI := cfg32; El (Buf.ofNat .be 4 65519) (Buf.ofNat .be 4 100) (Buf.ofNat .be 4 100).toNat :=
  letI := cfg32
  ⟨by decide +kernel, by decide +kernel, rfl⟩
example : letI := cfg32; ∀ [Fact (Buf.ofNat .be 4 65519).toNat.Prime], ∃ P' : (shortCurve
    ((6179 : ℕ) : ZMod (Buf.ofNat .be 4 65519).toNat) ((26004 : ℕ) : ZMod (Buf.ofNat .be 4 65519).toNat)).Point,
    Rep (some (Buf.ofNat .be 4 100, Buf.ofNat .be 4 77)) P' :=
  letI := cfg32
  Rep.of_equation (by decide +kernel) ⟨by decide +kernel, by decide +kernel, rfl⟩ ⟨by decide +kernel, by decide +kernel, rfl⟩
    (by decide +kernel) (by decide +kernel)

end Props
end Cmpa
