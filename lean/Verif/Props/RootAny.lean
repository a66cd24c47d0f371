import Mathlib.FieldTheory.Finite.Basic
import Verif.Props.Shamir
import Verif.Props.SquareRoot

/-!
# C62: square roots modulo every odd prime

A user's programs: the search of a number that isn't a square, the algorithm of Tonelli and Shanks in the form without
branches on the number, and points of an elliptic curve from their abscissas.
-/

namespace Cmpa
namespace Props

open M
variable [LimbCfg]

/-! ## The programs -/

/-- A user's program: the first of `n` numbers from `g` on which isn't a square modulo `p`. -/
def nonSquareFrom (p : Buf .be) : ℕ → Buf .be → M (Option (Buf .be))
  | 0, _ => pure none
  | n + 1, g => do
    let b ← squareTest p g
    M.cond (b = true)
      (do
        let (g, _) ← ct_add_mp_l g 1
        nonSquareFrom p n g)
      (pure (some g))

/-- A user's program: the least of the numbers from 1 to `n` which isn't a square modulo `p`. -/
def nonSquare (p : Buf .be) (n : ℕ) : M (Option (Buf .be)) := nonSquareFrom p n (oneBuf p.len)

/-- A user's program: squares `b` `n` times. -/
def squareTimes (p : Buf .be) : ℕ → Buf .be → M (Buf .be)
  | 0, b => pure b
  | n + 1, b => do
    let b ← fMul p b b
    squareTimes p n b

/-- A user's program: the loop of the algorithm. In each step `z` and `t` are multiplied or not, by a conditional
copy. -/
def rootLoop (p : Buf .be) : ℕ → Buf .be → Buf .be → Buf .be → M (Buf .be)
  | 0, z, _, _ => pure z
  | n + 1, z, t, c => do
    let b ← squareTimes p n t
    let o ← ct_is_one_mp b
    let y ← fMul p z c
    let z ← y.copy_from_cond z o
    let c ← fMul p c c
    let u ← fMul p t c
    let t ← u.copy_from_cond t o
    rootLoop p n z t c

/-- A user's program: a number whose square is `a` modulo `p` if `a` is a square; `g` is a number which isn't. -/
def rootOf (p g a : Buf .be) : M (Buf .be) := do
  let (m, _) ← ct_sub_mp_l p 1
  let (_, s) ← ct_find_first_set_bit_mp m
  let (q, _) ← ct_rshift_mp m s
  let c ← fPow p g q
  let (h, _) ← ct_rshift_mp q 1
  let y ← fPow p a h
  let z ← fMul p y a
  let t ← fMul p y z
  rootLoop p (s - 1) z t c

/-- A user's program: a square root of `a` modulo `p`, if there is one. -/
def sqrtAny (p g a : Buf .be) : M (Option (Buf .be)) := do
  let r ← rootOf p g a
  let s ← fMul p r r
  let ok ← fEq s a
  M.cond (ok = true) (pure (some r)) (pure none)

/-- A user's program: a point with abscissa `x` of the curve with coefficients `A` and `D`. -/
def ecLiftAny (p g A D x : Buf .be) : M (Option (Buf .be)) := do
  let s ← fMul p x x
  let s ← fAdd p s A
  let s ← fMul p s x
  let s ← fAdd p s D
  sqrtAny p g s

/-! ## Proofs -/

section
variable {p : Buf .be}

theorem squareTimes_sat (n : ℕ) {b : Buf .be} {x : ZMod p.toNat} (hb : El p b x) :
    Sat (squareTimes p n b) (fun r => El p r (x ^ 2 ^ n)) := by
  induction n generalizing b x with
  | zero => exact Sat.pure (by rw [pow_zero, pow_one]; exact hb)
  | succ n ih =>
    refine (fMul_sat hb hb).bind fun _ h => (ih h).mono fun r hr => ?_
    rw [← sq, ← pow_mul, ← pow_succ'] at hr
    exact hr

/-- The conditional copy of an element. -/
theorem copyIf_sat {a b : Buf .be} {x y : ZMod p.toNat} (ha : El p a x) (hb : El p b y) (c : Bool) :
    Sat (a.copy_from_cond b (.ofBool c)) (fun r => El p r (if c then y else x)) := by
  refine (C17_copy_from_cond_partial a b c (by rw [ha.len, ← hb.len]; exact b.toNat_lt)
    (Or.inr (by rw [ha.len, hb.len]))).mono ?_
  rintro r ⟨h1, h2⟩
  cases c
  · exact ⟨h1.trans ha.len, by simpa [h2] using ha.lt, by simpa [h2] using ha.val⟩
  · exact ⟨h1.trans ha.len, by simpa [h2] using hb.lt, by simpa [h2] using hb.val⟩

theorem rootLoop_sat (hp : p.toNat.Prime) (n : ℕ) {z t c : Buf .be} {x Z T C : ZMod p.toNat} (hz : El p z Z)
    (ht : El p t T) (hc : El p c C) (hzt : Z ^ 2 = x * T) (hC : C ^ 2 ^ n = -1) :
    Sat (rootLoop p n z t c) (fun r => ∃ Y U, El p r Y ∧ Y ^ 2 = x * U ∧ (T ^ 2 ^ n = 1 → U = 1)) := by
  haveI : Fact p.toNat.Prime := ⟨hp⟩
  induction n generalizing z t c Z T C with
  | zero => exact Sat.pure ⟨Z, T, hz, hzt, fun h => by rwa [pow_zero, pow_one] at h⟩
  | succ n ih =>
    unfold rootLoop
    refine (squareTimes_sat n ht).bind fun b hb => ?_
    refine (C01_is_one b).bind ?_
    rintro _ rfl
    refine (fMul_sat hz hc).bind fun y hy => ?_
    refine (copyIf_sat hy hz _).bind fun z' hz' => ?_
    refine (fMul_sat hc hc).bind fun c' hc' => ?_
    refine (fMul_sat ht hc').bind fun u hu => ?_
    refine (copyIf_sat hu ht _).bind fun t' ht' => ?_
    have hC' : (C * C) ^ 2 ^ n = -1 := by rw [← sq, ← pow_mul, ← pow_succ']; exact hC
    have e : ∀ X : ZMod p.toNat, X ^ 2 ^ (n + 1) = X ^ 2 ^ n * X ^ 2 ^ n := fun X => by
      rw [← pow_add, pow_succ, mul_two]
    have h1 := hb.one_iff hp.one_lt
    by_cases hb1 : b.toNat = 1
    · rw [decide_eq_true hb1, if_pos rfl] at hz' ht'
      refine (ih hz' ht' hc' hzt hC').mono ?_
      rintro r ⟨Y, U, h2, h3, h4⟩
      exact ⟨Y, U, h2, h3, fun _ => h4 (h1.1 hb1)⟩
    · rw [decide_eq_false hb1, if_neg (by simp)] at hz' ht'
      refine (ih hz' ht' hc' (by rw [mul_pow, hzt]; ring) hC').mono ?_
      rintro r ⟨Y, U, h2, h3, h4⟩
      refine ⟨Y, U, h2, h3, fun hT => h4 ?_⟩
      rw [e] at hT
      rcases mul_self_eq_one_iff.1 hT with h5 | h5
      · exact absurd (h1.2 h5) hb1
      · rw [mul_pow, h5, hC']
        ring

theorem rootOf_sat (hp : p.toNat.Prime) (hm : p.toNat % 2 = 1) {g a : Buf .be} {G x : ZMod p.toNat} (hg : El p g G)
    (hG : ¬ IsSquare G) (ha : El p a x) :
    Sat (rootOf p g a) (fun r => ∃ Y, El p r Y ∧ (IsSquare x → Y ^ 2 = x)) := by
  haveI : Fact p.toNat.Prime := ⟨hp⟩
  have hlen : 1 < 256 ^ p.len := lt_of_lt_of_le hp.one_lt (le_of_lt p.toNat_lt)
  unfold rootOf
  refine (C03_sub_l p 1 one_lt_B hlen).bind fun m hm' => ?_
  obtain ⟨m, b⟩ := m
  obtain ⟨m1, m2, m3⟩ := hm'
  have h2 := hp.two_le
  have hmv : m.toNat = p.toNat - 1 := by
    have h3 := m.toNat_lt
    rw [m1] at h3
    rcases Nat.le_one_iff_eq_zero_or_eq_one.1 m2 with rfl | rfl <;> omega
  refine (C18_trailing_zeros m).bind fun s hs => ?_
  obtain ⟨_, s⟩ := s
  obtain ⟨-, -, hs⟩ := hs
  obtain ⟨s1, s2⟩ := hs (by omega)
  dsimp only at s1 s2 ⊢
  refine (C08_rshift m s).bind fun q hq => ?_
  obtain ⟨q, _⟩ := q
  obtain ⟨-, -, hq, -⟩ := hq
  have hmq : m.toNat = 2 ^ s * q.toNat := by rw [hq, Nat.mul_div_cancel' s1]
  have hq2 : q.toNat % 2 = 1 := by
    by_contra hne
    refine s2 ?_
    rw [hmq, pow_succ]
    exact Nat.mul_dvd_mul_left _ (by omega)
  have hs0 : s ≠ 0 := by
    rintro rfl
    rw [pow_zero, one_mul] at hmq
    omega
  obtain ⟨k, rfl⟩ := Nat.exists_eq_succ_of_ne_zero hs0
  have hhalf : p.toNat / 2 = q.toNat * 2 ^ k := by
    rw [Nat.succ_eq_add_one, pow_succ] at hmq
    have : p.toNat = 2 * (q.toNat * 2 ^ k) + 1 := by
      have : 2 ^ k * 2 * q.toNat = 2 * (q.toNat * 2 ^ k) := by ring
      omega
    omega
  refine (fPow_sat (e := q) hm hg).bind fun c hc => ?_
  refine (C08_rshift q 1).bind fun h hh => ?_
  obtain ⟨h, _⟩ := h
  obtain ⟨-, -, hh, -⟩ := hh
  refine (fPow_sat (e := h) hm ha).bind fun y hy => ?_
  refine (fMul_sat hy ha).bind fun z hz => ?_
  refine (fMul_sat hy hz).bind fun t ht => ?_
  have hT : x ^ h.toNat * (x ^ h.toNat * x) = x ^ q.toNat := by
    rw [← pow_succ, ← pow_add]
    congr 1
    rw [hh, pow_one]
    omega
  have hG0 : G ≠ 0 := fun h => hG (h ▸ IsSquare.zero)
  have hC : (G ^ q.toNat) ^ 2 ^ k = -1 := by
    rw [← pow_mul, ← hhalf]
    rcases ZMod.pow_div_two_eq_neg_one_or_one p.toNat hG0 with h | h
    · exact absurd ((ZMod.euler_criterion p.toNat hG0).2 h) hG
    · exact h
  refine (rootLoop_sat hp k (x := x) hz ht hc (by ring) hC).mono ?_
  rintro r ⟨Y, U, h1, h2, h3⟩
  refine ⟨Y, h1, fun hsq => ?_⟩
  by_cases h0 : x = 0
  · rw [h2, h0, zero_mul]
  · rw [h2, h3, mul_one]
    rw [hT, ← pow_mul, ← hhalf]
    exact (ZMod.euler_criterion p.toNat h0).1 hsq

theorem sqrtAny_sat (hp : p.toNat.Prime) (hm : p.toNat % 2 = 1) {g a : Buf .be} {G x : ZMod p.toNat} (hg : El p g G)
    (hG : ¬ IsSquare G) (ha : El p a x) :
    Sat (sqrtAny p g a)
      (fun o => (∀ r, o = some r → ∃ y, El p r y ∧ y ^ 2 = x) ∧ (o = none → ¬ IsSquare x)) := by
  unfold sqrtAny
  refine (rootOf_sat hp hm hg hG ha).bind fun r hr => ?_
  obtain ⟨Y, hr, hY⟩ := hr
  refine (fMul_sat hr hr).bind fun s hs => ?_
  refine (fEq_sat hs ha).bind fun ok hok => ?_
  refine Sat.cond (fun h => ?_) (fun h => ?_)
  · refine Sat.pure ⟨?_, fun h => by simp at h⟩
    intro r' h'
    cases h'
    exact ⟨_, hr, by rw [sq]; exact hok.1 h⟩
  · exact Sat.pure ⟨fun r h => by simp at h, fun _ hsq => h (hok.2 (by rw [← sq]; exact hY hsq))⟩

theorem nonSquareFrom_sat (hp : p.toNat.Prime) (hm : p.toNat % 2 = 1) (n : ℕ) {g : Buf .be} (hl : g.len = p.len)
    (hn : g.toNat + n ≤ p.toNat) :
    Sat (nonSquareFrom p n g) (fun o =>
      (∀ r, o = some r → r.len = p.len ∧ g.toNat ≤ r.toNat ∧ r.toNat < g.toNat + n ∧
        (¬ ∃ y : ℕ, y ^ 2 ≡ r.toNat [MOD p.toNat]) ∧
        ∀ v, g.toNat ≤ v → v < r.toNat → ∃ y : ℕ, y ^ 2 ≡ v [MOD p.toNat]) ∧
      (o = none → ∀ v, g.toNat ≤ v → v < g.toNat + n → ∃ y : ℕ, y ^ 2 ≡ v [MOD p.toNat])) := by
  induction n generalizing g with
  | zero => exact Sat.pure ⟨fun r h => by simp at h, fun _ v h1 h2 => by omega⟩
  | succ n ih =>
    unfold nonSquareFrom
    have hlt : g.toNat < p.toNat := by omega
    refine (C62_square_test p g hp hm hl hlt).bind fun b hb => ?_
    refine Sat.cond (fun h => ?_) (fun h => ?_)
    · have hg := hb.1 h
      have hlen : 1 < 256 ^ g.len := by rw [hl]; exact lt_of_lt_of_le hp.one_lt (le_of_lt p.toNat_lt)
      refine (C02_add_l g 1 one_lt_B hlen).bind fun g' hg' => ?_
      obtain ⟨g', c⟩ := g'
      obtain ⟨l1, l2, l3⟩ := hg'
      have hv : g'.toNat = g.toNat + 1 := by
        have h1 := p.toNat_lt
        have h2 := g'.toNat_lt
        rw [l1] at h2
        rw [hl] at l3 h2
        rcases Nat.le_one_iff_eq_zero_or_eq_one.1 l2 with rfl | rfl
        · omega
        · exfalso
          have h0 : g'.toNat = 0 := by omega
          omega
      refine (ih (l1.trans hl) (by omega)).mono fun o ho => ⟨fun r hr => ?_, fun hno v h1 h2 => ?_⟩
      · obtain ⟨a1, a2, a3, a4, a5⟩ := ho.1 r hr
        refine ⟨a1, by omega, by omega, a4, fun v h1 h2 => ?_⟩
        rcases Nat.eq_or_lt_of_le h1 with rfl | h3
        · exact hg
        · exact a5 v (by omega) h2
      · rcases Nat.eq_or_lt_of_le h1 with rfl | h3
        · exact hg
        · exact ho.2 hno v (by omega) (by omega)
    · refine Sat.pure ⟨fun r hr => ?_, fun h => by simp at h⟩
      cases hr
      exact ⟨hl, le_rfl, by omega, fun hy => h (hb.2 hy), fun v h1 h2 => by omega⟩

end

/-- **C62**: the search returns the least number that isn't a square, if there is one below the bound. -/
theorem C62_non_square (p : Buf .be) (n : ℕ) (hp : p.toNat.Prime) (hm : p.toNat % 2 = 1) (hn : n < p.toNat) :
    Sat (nonSquare p n) (fun o =>
      (∀ g, o = some g → g.len = p.len ∧ 0 < g.toNat ∧ g.toNat ≤ n ∧ (¬ ∃ y : ℕ, y ^ 2 ≡ g.toNat [MOD p.toNat]) ∧
        ∀ v, 0 < v → v < g.toNat → ∃ y : ℕ, y ^ 2 ≡ v [MOD p.toNat]) ∧
      (o = none → ∀ v, 0 < v → v ≤ n → ∃ y : ℕ, y ^ 2 ≡ v [MOD p.toNat])) := by
  have hlen := oneBuf_len p.len (len_pos_of_pos hp.pos)
  refine (nonSquareFrom_sat hp hm n hlen (by rw [oneBuf_toNat]; omega)).mono fun o ho => ⟨fun g hg => ?_, fun h v h1 h2 => ?_⟩
  · obtain ⟨a1, a2, a3, a4, a5⟩ := ho.1 g hg
    rw [oneBuf_toNat] at a2 a3 a5
    exact ⟨a1, a2, by omega, a4, a5⟩
  · have := ho.2 h v
    rw [oneBuf_toNat] at this
    exact this h1 (by omega)

/-- **C62**: the search through all numbers is successful. -/
theorem C62_non_square_found (p : Buf .be) (hp : p.toNat.Prime) (hm : p.toNat % 2 = 1) :
    Sat (nonSquare p (p.toNat - 1)) (fun o => ∃ g, o = some g ∧ g.len = p.len ∧ g.toNat < p.toNat ∧
      ¬ ∃ y : ℕ, y ^ 2 ≡ g.toNat [MOD p.toNat]) := by
  haveI : Fact p.toNat.Prime := ⟨hp⟩
  have h2 := hp.two_le
  refine (C62_non_square p _ hp hm (by omega)).mono fun o ho => ?_
  rcases o with _ | g
  · exfalso
    obtain ⟨v, hv⟩ := FiniteField.exists_nonsquare (F := ZMod p.toNat) (by rw [ZMod.ringChar_zmod_n]; omega)
    have hv0 : v ≠ 0 := fun h => hv (h ▸ IsSquare.zero)
    have h3 := ho.2 rfl v.val (Nat.pos_of_ne_zero ((ZMod.val_ne_zero v).2 hv0)) (by have := ZMod.val_lt v; omega)
    rw [← isSquare_iff, ZMod.natCast_val, ZMod.cast_id] at h3
    exact hv h3
  · obtain ⟨a1, a2, a3, a4, -⟩ := ho.1 g rfl
    exact ⟨g, rfl, a1, by omega, a4⟩

/-- **C62**: the square root modulo every odd prime is one, and there is none if none is found. -/
theorem C62_sqrt_any (p g a : Buf .be) (hp : p.toNat.Prime) (hm : p.toNat % 2 = 1)
    (hg : g.len = p.len ∧ g.toNat < p.toNat) (hG : ¬ ∃ y : ℕ, y ^ 2 ≡ g.toNat [MOD p.toNat])
    (hl : a.len = p.len) (ha : a.toNat < p.toNat) :
    Sat (sqrtAny p g a) (fun o =>
      (∀ r, o = some r → r.len = p.len ∧ r.toNat < p.toNat ∧ r.toNat ^ 2 % p.toNat = a.toNat) ∧
      (o = none → ¬ ∃ r : ℕ, r ^ 2 ≡ a.toNat [MOD p.toNat])) := by
  haveI : NeZero p.toNat := ⟨hp.ne_zero⟩
  rw [← isSquare_iff] at hG
  refine (sqrtAny_sat hp hm ⟨hg.1, hg.2, rfl⟩ hG
    (⟨hl, ha, rfl⟩ : El p a (a.toNat : ZMod p.toNat))).mono fun o ho => ⟨?_, ?_⟩
  · intro r hr
    obtain ⟨y, h1, h2⟩ := ho.1 r hr
    refine ⟨h1.len, h1.lt, ?_⟩
    rw [← h1.val, ← Nat.cast_pow, ZMod.natCast_eq_natCast_iff, Nat.ModEq, Nat.mod_eq_of_lt ha] at h2
    exact h2
  · intro hn
    rw [← isSquare_iff]
    exact ho.2 hn

/-- **C62**: a point is found exactly for the abscissas of points, over every prime field but that with two elements. -/
theorem C62_lift_any (p g A D x : Buf .be) (hp : p.toNat.Prime) (hm : p.toNat % 2 = 1)
    (hg : g.len = p.len ∧ g.toNat < p.toNat) (hG : ¬ ∃ y : ℕ, y ^ 2 ≡ g.toNat [MOD p.toNat])
    (hA : A.len = p.len ∧ A.toNat < p.toNat) (hD : D.len = p.len ∧ D.toNat < p.toNat)
    (hx : x.len = p.len ∧ x.toNat < p.toNat) :
    Sat (ecLiftAny p g A D x) (fun o =>
      (∀ y, o = some y → y.len = p.len ∧ y.toNat < p.toNat ∧
        y.toNat ^ 2 ≡ x.toNat ^ 3 + A.toNat * x.toNat + D.toNat [MOD p.toNat]) ∧
      (o = none → ¬ ∃ y : ℕ, y ^ 2 ≡ x.toNat ^ 3 + A.toNat * x.toNat + D.toNat [MOD p.toNat])) := by
  haveI : NeZero p.toNat := ⟨hp.ne_zero⟩
  rw [← isSquare_iff] at hG
  have ex : El p x (x.toNat : ZMod p.toNat) := ⟨hx.1, hx.2, rfl⟩
  unfold ecLiftAny
  refine (fMul_sat ex ex).bind fun _ t1 => ?_
  refine (fAdd_sat t1 ⟨hA.1, hA.2, rfl⟩).bind fun _ t2 => ?_
  refine (fMul_sat t2 ex).bind fun _ t3 => ?_
  refine (fAdd_sat t3 ⟨hD.1, hD.2, rfl⟩).bind fun _ t4 => ?_
  have e : ((x.toNat : ZMod p.toNat) * x.toNat + A.toNat) * x.toNat + D.toNat =
      ((x.toNat ^ 3 + A.toNat * x.toNat + D.toNat : ℕ) : ZMod p.toNat) := by
    push_cast
    ring
  rw [e] at t4
  refine (sqrtAny_sat hp hm ⟨hg.1, hg.2, rfl⟩ hG t4).mono fun o ho => ⟨?_, ?_⟩
  · intro y hy
    obtain ⟨z, h1, h2⟩ := ho.1 y hy
    refine ⟨h1.len, h1.lt, ?_⟩
    rw [← h1.val, ← Nat.cast_pow, ZMod.natCast_eq_natCast_iff] at h2
    exact h2
  · intro hn
    rw [← isSquare_iff]
    exact ho.2 hn

section
variable [Obs] {p : Buf .be}

theorem squareTimes_ct (n : ℕ) {b b' : Buf .be} (h : b.len = b'.len) :
    SameTr (squareTimes p n b) (squareTimes p n b') Pub.rel := by
  induction n generalizing b b' with
  | zero => exact SameTr.pure h
  | succ n ih => exact (fMul_ct h h).bind fun _ _ h1 => ih h1

theorem rootLoop_ct (n : ℕ) {z t c z' t' c' : Buf .be} (hz : z.len = z'.len) (ht : t.len = t'.len)
    (hc : c.len = c'.len) : SameTr (rootLoop p n z t c) (rootLoop p n z' t' c') Pub.rel := by
  induction n generalizing z t c z' t' c' with
  | zero => exact SameTr.pure hz
  | succ n ih =>
    unfold rootLoop
    refine (squareTimes_ct n ht).bind fun _ _ h1 => ?_
    refine (ct_is_one_mp_ct h1).bind fun _ _ _ => ?_
    refine (fMul_ct hz hc).bind fun _ _ h2 => ?_
    refine (Buf.copy_from_cond_ct h2 hz).bind fun _ _ h3 => ?_
    refine (fMul_ct hc hc).bind fun _ _ h4 => ?_
    refine (fMul_ct ht h4).bind fun _ _ h5 => ?_
    exact (Buf.copy_from_cond_ct h5 ht).bind fun _ _ h6 => ih h3 h6 h4

theorem rootOf_ct {g a a' : Buf .be} (ha : a.len = a'.len) : SameTr (rootOf p g a) (rootOf p g a') Pub.rel := by
  unfold rootOf
  refine (SameTr.refl _).bind fun m m' hm => ?_
  subst hm
  refine (SameTr.refl _).bind fun s s' hs => ?_
  subst hs
  refine (SameTr.refl _).bind fun q q' hq => ?_
  subst hq
  refine (SameTr.refl _).bind fun c c' hc => ?_
  subst hc
  refine (SameTr.refl _).bind fun h h' hh => ?_
  subst hh
  refine (fPow_ct ha rfl).bind fun _ _ h1 => ?_
  refine (fMul_ct h1 ha).bind fun _ _ h2 => ?_
  exact (fMul_ct h1 h2).bind fun _ _ h3 => rootLoop_ct _ h2 h3 rfl

end

/-- **C62**: the computation of the root reveals nothing about the number, not even whether it is a square. -/
theorem C62_root_constant_time (p g a a' : Buf .be) (hp : p.toNat.Prime) (hm : p.toNat % 2 = 1)
    (hg : g.len = p.len ∧ g.toNat < p.toNat) (hG : ¬ ∃ y : ℕ, y ^ 2 ≡ g.toNat [MOD p.toNat])
    (hl : a.len = p.len) (ha : a.toNat < p.toNat) (hl' : a'.len = p.len) (ha' : a'.toNat < p.toNat) :
    (rootOf p g a).tr = (rootOf p g a').tr := by
  haveI : NeZero p.toNat := ⟨hp.ne_zero⟩
  rw [← isSquare_iff] at hG
  exact sameEvents (@rootOf_ct _ Obs.full p g a a' (hl.trans hl'.symm))
    (rootOf_sat hp hm ⟨hg.1, hg.2, rfl⟩ hG ⟨hl, ha, rfl⟩).ne_none
    (rootOf_sat hp hm ⟨hg.1, hg.2, rfl⟩ hG ⟨hl', ha', rfl⟩).ne_none

/-! ## Examples -/

-- 3 is the least number that isn't a square modulo 17; 13 is a square, 5 isn't
example : letI := cfg32;
    ((nonSquare (Buf.be [17]) 16).val.map (Option.map Buf.toNat)) = some (some 3) := by decide +kernel

example : letI := cfg32;
    ((sqrtAny (Buf.be [17]) (Buf.be [3]) (Buf.be [13])).val.map (Option.map Buf.toNat)) = some (some 8) := by
  decide +kernel

example : letI := cfg32;
    ((sqrtAny (Buf.be [17]) (Buf.be [3]) (Buf.be [5])).val.map (Option.map Buf.toNat)) = some none := by
  decide +kernel

-- the hypotheses can be met
example : (17 : ℕ).Prime ∧ 17 % 2 = 1 ∧ ¬ ∃ y : ℕ, y ^ 2 ≡ 3 [MOD 17] := by
  refine ⟨by norm_num, rfl, ?_⟩
  rw [← isSquare_iff]
  decide

end Props
end Cmpa
