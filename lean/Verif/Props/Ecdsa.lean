import Verif.Props.Elliptic

/-!
# ECDSA signatures (C60)

Signing and verifying on top of the programs for elliptic curves (C59) and for prime fields.
-/

namespace Cmpa
namespace Props

open M
variable [LimbCfg]

/-! ## The programs -/

/-- A user's program: the signature of the hash `m` with the private key `d` and the nonce `k`, for the generator `G` of
order `n`; there is none if a multiple of the generator turns out to be zero. -/
def ecdsaSign (p A : Buf .be) (G : Pt) (n d k m : Buf .be) : M (Option (Buf .be × Buf .be)) := do
  match ← ecMul p A k G with
  | none => pure none
  | some (x, _) => do
    let r ← reduceTo (zeros n.len) x n
    let k' ← fInv n k
    let t ← fMul n d r
    let t ← fAdd n t m
    let s ← fMul n k' t
    pure (some (r, s))

/-- A user's program: whether `(r, s)` is a signature of the hash `m` for the public key `Y`. -/
def ecdsaVerify (p A : Buf .be) (G : Pt) (n : Buf .be) (Y : Pt) (m r s : Buf .be) : M Bool := do
  let r0 ← ct_is_zero_mp r
  let s0 ← ct_is_zero_mp s
  let r1 ← ct_geq_mp_mp r n
  let s1 ← ct_geq_mp_mp s n
  M.cond ((((r0.or s0).or r1).or s1).unwrap ≠ 0) (pure false) do
    let w ← fInv n s
    let u₁ ← fMul n m w
    let u₂ ← fMul n r w
    let P₁ ← ecMul p A u₁ G
    let P₂ ← ecMul p A u₂ Y
    match ← ecAdd p A P₁ P₂ with
    | none => pure false
    | some (x, _) => do
      let v ← reduceTo (zeros n.len) x n
      fEq v r

/-! ## Specification -/

/-- The abscissa of a finite point, as a natural number. -/
def abscissa {q : ℕ} [Fact q.Prime] {W : WeierstrassCurve.Affine (ZMod q)} : W.Point → Option ℕ
  | .zero => none
  | .some x _ _ => some x.val

/-- The pairs which verify for the hash `m`, the generator `G`, its order `n` and the public key `Y`. -/
structure EcdsaValid {q : ℕ} [Fact q.Prime] {W : WeierstrassCurve.Affine (ZMod q)} (n : ℕ) (G Y : W.Point)
    (m r s : ℕ) : Prop where
  r_pos : 0 < r
  r_lt : r < n
  s_pos : 0 < s
  s_lt : s < n
  /-- `w` being the inverse of `s`, the abscissa of `m w G + r w Y` is `r` modulo `n`. -/
  eq : ∀ w, s * w ≡ 1 [MOD n] → ∃ x, abscissa ((m * w) • G + (r * w) • Y) = some x ∧ x % n = r

/-! ## Proofs -/

section
variable {p A n : Buf .be} [hp : Fact p.toNat.Prime] {a e : ZMod p.toNat}

theorem El.toNat_eq {p b : Buf .be} [Fact p.toNat.Prime] {x : ZMod p.toNat} (h : El p b x) : b.toNat = x.val := by
  rw [← h.val, ZMod.val_natCast_of_lt h.lt]

theorem El.self {p b : Buf .be} (hl : b.len = p.len) (h : b.toNat < p.toNat) : El p b b.toNat := ⟨hl, h, rfl⟩

/-- Multiples of a point whose order divides `n`. -/
theorem nsmul_congr {G : Type} [AddCommGroup G] {P : G} {n u v : ℕ} (h : n • P = 0) (huv : u ≡ v [MOD n]) :
    u • P = v • P := by
  have key : ∀ u, u • P = (u % n) • P := fun u => by
    conv_lhs => rw [← Nat.mod_add_div u n]
    rw [add_nsmul, mul_nsmul, h, nsmul_zero, add_zero]
  rw [key u, key v, huv]

/-- C60: what signing returns.

Missing: primes that fill their buffers, for which inverses may be wrong (C30). -/
theorem C60_sign (hm : FieldModulus p) (hA : El p A a) (hn : FieldModulus n) (G : Pt) (G' : (shortCurve a e).Point)
    (hG : Rep G G') (d k m : Buf .be) (hdl : d.len = n.len) (hd : d.toNat < n.toNat) (hkl : k.len = n.len)
    (hk : k.toNat < n.toNat) (hk0 : 0 < k.toNat) (hml : m.len = n.len) (hmn : m.toNat < n.toNat) :
    Sat (ecdsaSign p A G n d k m) (fun o =>
      (abscissa (k.toNat • G') = none → o = none) ∧
      ∀ x, abscissa (k.toNat • G') = some x → ∃ r s, o = some (r, s) ∧ r.len = n.len ∧ s.len = n.len ∧
        r.toNat = x % n.toNat ∧ s.toNat < n.toNat ∧
        k.toNat * s.toNat ≡ m.toNat + d.toNat * r.toNat [MOD n.toNat]) := by
  haveI := hn.inst
  unfold ecdsaSign
  refine (C59_mul hm hA k G G' hG).bind fun R hR => ?_
  rcases hK : k.toNat • G' with _ | ⟨x', y', hns⟩
  · rw [hK] at hR
    rcases R with _ | ⟨x, y⟩
    · exact Sat.pure ⟨fun _ => rfl, fun x hx => by simp [abscissa] at hx⟩
    · exact hR.elim
  · rw [hK] at hR
    rcases R with _ | ⟨x, y⟩
    · exact hR.elim
    obtain ⟨hx, -⟩ := hR
    dsimp only
    refine (reduceTo_sat (zeros n.len) x n hn.prime.pos (by rw [zeros_len])).bind ?_
    rintro r ⟨lr, vr⟩
    rw [zeros_len] at lr
    have hr : El n r r.toNat := El.self lr (vr ▸ Nat.mod_lt _ hn.prime.pos)
    have hkE := El.self hkl hk
    have hk' : (k.toNat : ZMod n.toNat) ≠ 0 := fun h => hk0.ne' (hkE.zero_iff.2 h)
    refine (fInv_sat hn hkE hk').bind ?_
    rintro k' ⟨z, hz, hkz⟩
    refine (fMul_sat (El.self hdl hd) hr).bind fun t ht => ?_
    refine (fAdd_sat ht (El.self hml hmn)).bind fun t' ht' => ?_
    refine (fMul_sat hz ht').bind fun s hs => ?_
    refine Sat.pure ⟨fun h => by simp [abscissa] at h, ?_⟩
    intro x₀ hx₀
    have hxx : x'.val = x₀ := by simpa [abscissa] using hx₀
    refine ⟨r, s, rfl, lr, hs.len, ?_, hs.lt, ?_⟩
    · rw [vr, hx.toNat_eq, hxx]
    · refine (ZMod.natCast_eq_natCast_iff _ _ _).1 ?_
      push_cast
      rw [hs.val]
      linear_combination ((d.toNat : ZMod n.toNat) * r.toNat + m.toNat) * hkz

/-- C60: verification accepts exactly the valid signatures. -/
theorem C60_verify (hm : FieldModulus p) (hA : El p A a) (hn : FieldModulus n) (G Y : Pt)
    (G' Y' : (shortCurve a e).Point) (hG : Rep G G') (hY : Rep Y Y') (hGn : n.toNat • G' = 0) (hYn : n.toNat • Y' = 0)
    (m r s : Buf .be) (hml : m.len = n.len) (hmn : m.toNat < n.toNat) (hrl : r.len = n.len) (hsl : s.len = n.len) :
    Sat (ecdsaVerify p A G n Y m r s) (fun b =>
      b = true ↔ EcdsaValid n.toNat G' Y' m.toNat r.toNat s.toNat) := by
  haveI := hn.inst
  unfold ecdsaVerify
  refine (C01_is_zero r).bind ?_
  rintro _ rfl
  refine (C01_is_zero s).bind ?_
  rintro _ rfl
  refine (C01_geq r n).bind ?_
  rintro _ rfl
  refine (C01_geq s n).bind ?_
  rintro _ rfl
  rw [LimbChoice.or_ofBool, LimbChoice.or_ofBool, LimbChoice.or_ofBool, LimbChoice.unwrap_ofBool]
  refine Sat.cond (fun h => ?_) (fun h => ?_)
  · refine Sat.pure ⟨fun h0 => by simp at h0, fun hv => ?_⟩
    exfalso
    have h1 := hv.r_pos
    have h2 := hv.r_lt
    have h3 := hv.s_pos
    have h4 := hv.s_lt
    simp [h1.ne', h2, h3.ne', h4] at h
  · have h' : ¬ (r.toNat = 0 ∨ s.toNat = 0 ∨ n.toNat ≤ r.toNat ∨ n.toNat ≤ s.toNat) := by
      intro h0
      apply h
      rcases h0 with h0 | h0 | h0 | h0 <;> simp [h0]
    simp only [not_or, not_le] at h'
    obtain ⟨h1, h3, h2, h4⟩ := h'
    have hrE := El.self hrl h2
    have hsE := El.self hsl h4
    have hs0 : (s.toNat : ZMod n.toNat) ≠ 0 := fun h0 => h3 (hsE.zero_iff.2 h0)
    refine (fInv_sat hn hsE hs0).bind ?_
    rintro w ⟨z, hw, hsz⟩
    refine (fMul_sat (El.self hml hmn) hw).bind fun u₁ hu₁ => ?_
    refine (fMul_sat hrE hw).bind fun u₂ hu₂ => ?_
    refine (C59_mul hm hA u₁ G G' hG).bind fun P₁ hP₁ => ?_
    refine (C59_mul hm hA u₂ Y Y' hY).bind fun P₂ hP₂ => ?_
    refine (C59_add hm hA P₁ P₂ _ _ hP₁ hP₂).bind fun R hR => ?_
    -- the point doesn't depend on the representative of the inverse
    have key : ∀ w', s.toNat * w' ≡ 1 [MOD n.toNat] →
        (m.toNat * w') • G' + (r.toNat * w') • Y' = u₁.toNat • G' + u₂.toNat • Y' := by
      intro w' hw'
      have e0 : (s.toNat : ZMod n.toNat) * w' = 1 := by
        have := (ZMod.natCast_eq_natCast_iff _ _ _).2 hw'
        push_cast at this
        exact this
      have e1 : (w' : ZMod n.toNat) = z := by
        apply mul_left_cancel₀ hs0
        rw [e0, hsz]
      congr 1
      · refine nsmul_congr hGn ((ZMod.natCast_eq_natCast_iff _ _ _).1 ?_)
        push_cast
        rw [hu₁.val, e1]
      · refine nsmul_congr hYn ((ZMod.natCast_eq_natCast_iff _ _ _).1 ?_)
        push_cast
        rw [hu₂.val, e1]
    have hz : s.toNat * w.toNat ≡ 1 [MOD n.toNat] := by
      refine (ZMod.natCast_eq_natCast_iff _ _ _).1 ?_
      push_cast
      rw [hw.val, hsz]
    have hspec : EcdsaValid n.toNat G' Y' m.toNat r.toNat s.toNat ↔
        ∃ x, abscissa (u₁.toNat • G' + u₂.toNat • Y') = some x ∧ x % n.toNat = r.toNat := by
      constructor
      · intro hv
        have := hv.eq w.toNat hz
        rwa [key _ hz] at this
      · intro hx
        exact ⟨Nat.pos_of_ne_zero h1, h2, Nat.pos_of_ne_zero h3, h4, fun w' hw' => by rwa [key _ hw']⟩
    rcases hK : u₁.toNat • G' + u₂.toNat • Y' with _ | ⟨x', y', hns⟩
    · rw [hK] at hR
      rcases R with _ | ⟨x, y⟩
      · refine Sat.pure ⟨fun h0 => by simp at h0, fun hv => ?_⟩
        obtain ⟨x, hx, -⟩ := hspec.1 hv
        rw [hK] at hx
        simp [abscissa] at hx
      · exact hR.elim
    · rw [hK] at hR
      rcases R with _ | ⟨x, y⟩
      · exact hR.elim
      obtain ⟨hx, -⟩ := hR
      dsimp only
      refine (reduceTo_sat (zeros n.len) x n hn.prime.pos (by rw [zeros_len])).bind ?_
      rintro v ⟨lv, vv⟩
      rw [zeros_len] at lv
      have hv : El n v v.toNat := El.self lv (vv ▸ Nat.mod_lt _ hn.prime.pos)
      refine (fEq_sat hv hrE).mono fun b hb => ?_
      rw [hb, hspec, hK, ← hv.eq_iff hrE, vv, hx.toNat_eq]
      simp [abscissa]

/-- C60: signatures verify. -/
theorem C60_sign_verify (hm : FieldModulus p) (hA : El p A a) (hn : FieldModulus n) (G Y : Pt)
    (G' : (shortCurve a e).Point) (hG : Rep G G') (d k m : Buf .be) (hY : Rep Y (d.toNat • G')) (hGn : n.toNat • G' = 0)
    (hdl : d.len = n.len) (hd : d.toNat < n.toNat) (hkl : k.len = n.len) (hk : k.toNat < n.toNat) (hk0 : 0 < k.toNat)
    (hml : m.len = n.len) (hmn : m.toNat < n.toNat) :
    Sat (ecdsaSign p A G n d k m) (fun o => ∀ r s, o = some (r, s) → r.toNat ≠ 0 → s.toNat ≠ 0 →
      Sat (ecdsaVerify p A G n Y m r s) (fun b => b = true)) := by
  haveI := hn.inst
  refine (C60_sign hm hA hn G G' hG d k m hdl hd hkl hk hk0 hml hmn).mono ?_
  rintro o ⟨ho, ho'⟩ r s rfl hr0 hs0
  rcases hx : abscissa (k.toNat • G') with _ | x
  · exact absurd (ho hx) (by simp)
  obtain ⟨r₁, s₁, hrs, lr, ls, vr, hs, heq⟩ := ho' x hx
  obtain ⟨rfl, rfl⟩ : r = r₁ ∧ s = s₁ := by simpa using hrs
  have hYn : n.toNat • d.toNat • G' = 0 := by
    rw [← mul_nsmul', mul_nsmul, hGn, nsmul_zero]
  refine (C60_verify hm hA hn G Y G' _ hG hY hGn hYn m r s hml hmn lr ls).mono fun b hb => ?_
  rw [hb]
  refine ⟨Nat.pos_of_ne_zero hr0, vr ▸ Nat.mod_lt _ hn.prime.pos, Nat.pos_of_ne_zero hs0, hs, fun w hw => ?_⟩
  refine ⟨x, ?_, vr.symm⟩
  rw [← hx, ← mul_nsmul', ← add_nsmul]
  congr 1
  refine nsmul_congr hGn ?_
  have e1 := (ZMod.natCast_eq_natCast_iff _ _ _).2 heq
  have e2 := (ZMod.natCast_eq_natCast_iff _ _ _).2 hw
  refine (ZMod.natCast_eq_natCast_iff _ _ _).1 ?_
  push_cast at e1 e2 ⊢
  linear_combination (-(w : ZMod n.toNat)) * e1 + (k.toNat : ZMod n.toNat) * e2

end

/-! ## Examples -/

/-- Sign and verify, for the examples. -/
def ecdsaRun (p A : Buf .be) (G Y : Pt) (n d k m : Buf .be) : M (Option (ℕ × ℕ × Bool)) := do
  match ← ecdsaSign p A G n d k m with
  | none => pure none
  | some (r, s) => do
    let b ← ecdsaVerify p A G n Y m r s
    pure (some (r.toNat, s.toNat, b))

-- the curve `y² = x³ + 2 x + 7` modulo 11 has seven points
example : letI := cfg32;
    (ecdsaRun (Buf.ofNat .be 1 11) (Buf.ofNat .be 1 2) (some (Buf.ofNat .be 1 6, Buf.ofNat .be 1 2))
      (some (Buf.ofNat .be 1 10, Buf.ofNat .be 1 9)) (Buf.ofNat .be 1 7) (Buf.ofNat .be 1 2) (Buf.ofNat .be 1 2)
      (Buf.ofNat .be 1 6)).val = some (some (3, 6, true)) := by decide +kernel
-- another hash
example : letI := cfg32;
    (ecdsaVerify (Buf.ofNat .be 1 11) (Buf.ofNat .be 1 2) (some (Buf.ofNat .be 1 6, Buf.ofNat .be 1 2)) (Buf.ofNat .be 1 7)
      (some (Buf.ofNat .be 1 10, Buf.ofNat .be 1 9)) (Buf.ofNat .be 1 5) (Buf.ofNat .be 1 3) (Buf.ofNat .be 1 6)).val =
      some false := by decide +kernel
-- the hypothesis on the order of the generator is met, by C59
example : letI := cfg32; ∀ [Fact (Buf.ofNat .be 1 11).toNat.Prime],
    ∃ G' : (shortCurve ((2 : ℕ) : ZMod (Buf.ofNat .be 1 11).toNat) ((7 : ℕ) : ZMod (Buf.ofNat .be 1 11).toNat)).Point,
    Rep (some (Buf.ofNat .be 1 6, Buf.ofNat .be 1 2)) G' ∧ (Buf.be [7]).toNat • G' = 0 := by
  intro _
  letI := cfg32
  obtain ⟨G', hG⟩ := Rep.of_equation (p := Buf.ofNat .be 1 11) (x := Buf.ofNat .be 1 6) (y := Buf.ofNat .be 1 2)
    (A := 2) (D := 7) (by decide +kernel) ⟨by decide +kernel, by decide +kernel, rfl⟩
    ⟨by decide +kernel, by decide +kernel, rfl⟩ (by decide +kernel) (by decide +kernel)
  refine ⟨G', hG, ?_⟩
  have hm : FieldModulus (Buf.ofNat .be 1 11) :=
    ⟨by rw [show (Buf.ofNat .be 1 11).toNat = 11 by decide +kernel]; norm_num, by decide +kernel⟩
  have hA : El (Buf.ofNat .be 1 11) (Buf.ofNat .be 1 2) ((2 : ℕ) : ZMod (Buf.ofNat .be 1 11).toNat) :=
    ⟨by decide +kernel, by decide +kernel, by rw [show (Buf.ofNat .be 1 2).toNat = 2 by decide +kernel]⟩
  obtain ⟨R, hR, h⟩ := C59_mul hm hA (Buf.be [7]) _ G' hG
  have hev : (ecMul (Buf.ofNat .be 1 11) (Buf.ofNat .be 1 2) (Buf.be [7])
    (some (Buf.ofNat .be 1 6, Buf.ofNat .be 1 2))).val.map Option.isNone = some true := by decide +kernel
  rw [hR] at hev
  rcases R with _ | R
  · rcases hK : (Buf.be [7]).toNat • G' with _ | ⟨x, y, hn⟩
    · rfl
    · rw [hK] at h
      exact h.elim
  · simp at hev

end Props
end Cmpa
