import Verif.Proofs.StrongPrime
import Mathlib.GroupTheory.Perm.Cycle.Type
import Mathlib.GroupTheory.Index
import Mathlib.Data.ZMod.Units
import Mathlib.Data.Nat.Totient
import Mathlib.RingTheory.ZMod.UnitsCyclic

/-!
Rabin's theorem: at most a quarter of the residues modulo an odd composite number `n` are bases for which `n` is a
strong probable prime.  This is pure number theory, it refers to no definition of the model.
-/

namespace Cmpa
namespace Rabin

/-- Four elements in different cosets of a subgroup. -/
theorem four_le_index {G : Type*} [CommGroup G] [Finite G] (H : Subgroup G) (f : Fin 4 → G)
    (hf : ∀ i j, i < j → (f i)⁻¹ * f j ∉ H) : 4 ≤ H.index := by
  have hinj : Function.Injective (fun i => (QuotientGroup.mk (f i) : G ⧸ H)) := by
    intro i j hij
    by_contra hne
    rcases lt_or_gt_of_ne hne with h | h
    · exact hf i j h (QuotientGroup.eq.1 hij)
    · exact hf j i h (QuotientGroup.eq.1 hij.symm)
  have := Nat.card_le_card_of_injective _ hinj
  rw [Nat.card_fin] at this
  exact this

/-- Three elements which lie in different cosets of a subgroup, and not in the subgroup. -/
theorem four_le_index' {G : Type*} [CommGroup G] [Finite G] (H : Subgroup G) {x y z : G} (hx : x ∉ H) (hy : y ∉ H)
    (hz : z ∉ H) (hxy : x⁻¹ * y ∉ H) (hxz : x⁻¹ * z ∉ H) (hyz : y⁻¹ * z ∉ H) : 4 ≤ H.index := by
  refine four_le_index H ![1, x, y, z] ?_
  intro i j hij
  fin_cases i <;> fin_cases j <;> first | exact absurd hij (by decide) | skip
  · change (1 : G)⁻¹ * x ∉ H
    rwa [inv_one, one_mul]
  · change (1 : G)⁻¹ * y ∉ H
    rwa [inv_one, one_mul]
  · change (1 : G)⁻¹ * z ∉ H
    rwa [inv_one, one_mul]
  · exact hxy
  · exact hxz
  · exact hyz

section Idem
variable {R : Type*} [CommRing R]

/-- The unit which is `a` on the component of the idempotent `e` and one elsewhere. -/
def comp (e : R) (he : e * e = e) (a : Rˣ) : Rˣ where
  val := e * a + (1 - e)
  inv := e * (a⁻¹ : Rˣ) + (1 - e)
  val_inv := by
    have h : (a : R) * (a⁻¹ : Rˣ) = 1 := a.mul_inv
    linear_combination (e * e) * h + (2 - (a : R) - (a⁻¹ : Rˣ)) * he
  inv_val := by
    have h : (a : R) * (a⁻¹ : Rˣ) = 1 := a.mul_inv
    linear_combination (e * e) * h + (2 - (a : R) - (a⁻¹ : Rˣ)) * he

theorem comp_pow (e : R) (he : e * e = e) (a : Rˣ) (m : ℕ) :
    ((comp e he a ^ m : Rˣ) : R) = e * (a : R) ^ m + (1 - e) := by
  induction m with
  | zero => simp
  | succ m ih =>
    rw [pow_succ, Units.val_mul, ih]
    change (e * (a : R) ^ m + (1 - e)) * (e * a + (1 - e)) = _
    linear_combination ((a : R) ^ m * a - (a : R) ^ m - a + 1) * he

end Idem

/-- The units whose `m`-th power is one or minus one. -/
def pmSubgroup (R : Type*) [CommRing R] (m : ℕ) : Subgroup Rˣ where
  carrier := {a | a ^ m = 1 ∨ a ^ m = -1}
  mul_mem' := by
    rintro a b (ha | ha) (hb | hb) <;> simp [mul_pow, ha, hb]
  one_mem' := by simp
  inv_mem' := by
    rintro a (ha | ha) <;> simp [inv_pow, ha]

theorem mem_pm {R : Type*} [CommRing R] {m : ℕ} {a : Rˣ} :
    a ∈ pmSubgroup R m ↔ a ^ m = 1 ∨ a ^ m = -1 := Iff.rfl

section Idem
variable {R : Type*} [CommRing R] {m : ℕ}

/-- An element outside the subgroup, from a nontrivial idempotent. -/
theorem comp_not_mem (h2 : IsUnit (2 : R)) {a : Rˣ} (ha : a ^ m = -1) {e : R} (he : e * e = e)
    (h0 : e ≠ 0) (h1 : e ≠ 1) : comp e he a ∉ pmSubgroup R m := by
  have hp : ((comp e he a ^ m : Rˣ) : R) = 1 - 2 * e := by
    rw [comp_pow, ← Units.val_pow_eq_pow_val, ha]
    push_cast
    ring
  rintro (h | h)
  · rw [h] at hp
    push_cast at hp
    refine h0 (h2.mul_left_cancel ?_)
    linear_combination hp
  · rw [h] at hp
    push_cast at hp
    refine h1 (h2.mul_left_cancel ?_)
    linear_combination hp

theorem comp_mul_comp (e f : R) (he : e * e = e) (hf : f * f = f) (hef : e * f = 0) (a : Rˣ) :
    comp e he a * comp f hf a = comp (e + f) (by linear_combination he + hf + 2 * hef) a := by
  ext
  change (e * (a : R) + (1 - e)) * (f * a + (1 - f)) = (e + f) * a + (1 - (e + f))
  linear_combination ((a : R) * a - 2 * a + 1) * hef

theorem sq_mem {x : Rˣ} (h : (x ^ m) ^ 2 = 1) : x * x ∈ pmSubgroup R m := by
  left
  rw [mul_pow, ← sq, h]

theorem comp_pow_sq (e : R) (he : e * e = e) {a : Rˣ} (ha : a ^ m = -1) :
    (comp e he a ^ m) ^ 2 = 1 := by
  ext
  rw [Units.val_pow_eq_pow_val, comp_pow, ← Units.val_pow_eq_pow_val, ha]
  push_cast
  linear_combination 4 * he

/-- Two orthogonal idempotents which do not add to one: the index is at least four. -/
theorem index_three [Finite Rˣ] (h2 : IsUnit (2 : R)) {a : Rˣ} (ha : a ^ m = -1) {e f : R} (he : e * e = e)
    (hf : f * f = f) (hef : e * f = 0) (he0 : e ≠ 0) (hf0 : f ≠ 0) (hs : e + f ≠ 1) :
    4 ≤ (pmSubgroup R m).index := by
  have he1 : e ≠ 1 := by
    rintro rfl
    exact hf0 (by rwa [one_mul] at hef)
  have hf1 : f ≠ 1 := by
    rintro rfl
    exact he0 (by rwa [mul_one] at hef)
  have hs0 : e + f ≠ 0 := by
    intro h
    refine he0 ?_
    linear_combination e * h - hef - he
  have hx := comp_not_mem h2 ha he he0 he1
  have hy := comp_not_mem h2 ha hf hf0 hf1
  have hxy := comp_not_mem h2 ha (show (e + f) * (e + f) = e + f by
    linear_combination he + hf + 2 * hef) hs0 hs
  rw [← comp_mul_comp e f he hf hef a] at hxy
  have hx2 := sq_mem (comp_pow_sq e he ha)
  have hy2 := sq_mem (comp_pow_sq f hf ha)
  set x := comp e he a
  set y := comp f hf a
  refine four_le_index' _ hx hy hxy ?_ ?_ ?_
  · intro h
    have := (pmSubgroup R m).mul_mem h hx2
    refine hxy ?_
    convert this using 1
    rw [mul_comm x⁻¹ y]
    group
    exact mul_comm _ _
  · rwa [inv_mul_cancel_left]
  · rwa [mul_comm x y, inv_mul_cancel_left]

/-- One nontrivial idempotent and an element violating the Fermat test. -/
theorem index_two [Finite Rˣ] (h2 : IsUnit (2 : R)) {a : Rˣ} (ha : a ^ m = -1) {e : R} (he : e * e = e)
    (he0 : e ≠ 0) (he1 : e ≠ 1) {N : ℕ} (hN : 2 * m ∣ N) {g : Rˣ} (hg : g ^ N ≠ 1) :
    4 ≤ (pmSubgroup R m).index := by
  have hx := comp_not_mem h2 ha he he0 he1
  have hxs := comp_pow_sq e he ha
  set x := comp e he a
  obtain ⟨c, rfl⟩ := hN
  have hpow : ∀ z : Rˣ, (z ^ m) ^ 2 = 1 → z ^ (2 * m * c) = 1 := by
    intro z hz
    rw [mul_comm 2 m, pow_mul, pow_mul, hz, one_pow]
  have hH : ∀ z ∈ pmSubgroup R m, z ^ (2 * m * c) = 1 := by
    rintro z (hz | hz) <;> exact hpow z (by simp [hz])
  have hxN := hpow x hxs
  have hgn : g ∉ pmSubgroup R m := fun h => hg (hH _ h)
  have hgx : x * g ∉ pmSubgroup R m := fun h => hg (by
    have := hH _ h
    rwa [mul_pow, hxN, one_mul] at this)
  have hgx' : x⁻¹ * g ∉ pmSubgroup R m := fun h => hg (by
    have := hH _ h
    rwa [mul_pow, inv_pow, hxN, inv_one, one_mul] at this)
  refine four_le_index' _ hx hgn hgx hgx' ?_ ?_
  · rwa [inv_mul_cancel_left]
  · rwa [mul_comm x g, inv_mul_cancel_left]

end Idem

/-- Idempotents of `ZMod n` from a factorization into coprime numbers. -/
theorem exists_idem {a b n : ℕ} (hn : n = a * b) (hc : a.Coprime b) :
    ∃ k : ℕ, (k : ZMod n) * k = k ∧ k ≡ 1 [MOD a] ∧ k ≡ 0 [MOD b] := by
  obtain ⟨k, h1, h0⟩ := Nat.chineseRemainder hc 1 0
  refine ⟨k, ?_, h1, h0⟩
  rw [← Nat.cast_mul, ZMod.natCast_eq_natCast_iff, hn, ← Nat.modEq_and_modEq_iff_modEq_mul hc]
  refine ⟨?_, ?_⟩
  · have := h1.mul_right k
    rwa [one_mul] at this
  · exact (h0.mul_right k).trans (by rw [zero_mul]; exact h0.symm)

theorem natCast_ne {a n k v : ℕ} (ha : a ∣ n) (h : ¬ k ≡ v [MOD a]) : (k : ZMod n) ≠ v := by
  rw [Ne, ZMod.natCast_eq_natCast_iff]
  exact fun h' => h (h'.of_dvd ha)

theorem not_one_modEq_zero {a : ℕ} (ha : 1 < a) : ¬ 1 ≡ 0 [MOD a] := by
  rw [Nat.modEq_zero_iff_dvd]
  intro h
  have := Nat.le_of_dvd one_pos h
  omega

theorem two_unit {n : ℕ} (hodd : n % 2 = 1) : IsUnit (2 : ZMod n) := by
  have h : Nat.Coprime 2 n := by
    rw [Nat.coprime_two_left, Nat.odd_iff]
    exact hodd
  have := (ZMod.isUnit_iff_coprime 2 n).2 h
  simpa using this

theorem index_of_two {n a b m : ℕ} (hodd : n % 2 = 1) (hn : n = a * b) (hc : a.Coprime b) (ha : 1 < a) (hb : 1 < b)
    {u : (ZMod n)ˣ} (hu : u ^ m = -1) (hN : 2 * m ∣ n - 1) {g : (ZMod n)ˣ} (hg : g ^ (n - 1) ≠ 1) :
    4 ≤ (pmSubgroup (ZMod n) m).index := by
  have : NeZero n := ⟨by omega⟩
  obtain ⟨k, hk, hk1, hk0⟩ := exists_idem hn hc
  refine index_two (two_unit hodd) hu hk ?_ ?_ hN hg
  · have := natCast_ne (a := a) (n := n) (k := k) (v := 0) (hn ▸ Dvd.intro _ rfl)
      (fun h => not_one_modEq_zero ha (hk1.symm.trans h))
    simpa using this
  · have := natCast_ne (a := b) (n := n) (k := k) (v := 1) (hn ▸ Dvd.intro_left _ rfl)
      (fun h => not_one_modEq_zero hb (h.symm.trans hk0))
    simpa using this

theorem index_of_three {n a b c m : ℕ} (hodd : n % 2 = 1) (hn : n = a * b * c) (hab : a.Coprime b) (hac : a.Coprime c)
    (hbc : b.Coprime c) (ha : 1 < a) (hb : 1 < b) (hc : 1 < c)
    {u : (ZMod n)ˣ} (hu : u ^ m = -1) : 4 ≤ (pmSubgroup (ZMod n) m).index := by
  have : NeZero n := ⟨by omega⟩
  obtain ⟨k, hk, hka, hkbc⟩ := exists_idem (n := n) (a := a) (b := b * c) (by rw [hn, mul_assoc]) (hab.mul_right hac)
  obtain ⟨l, hl, hlb, hlac⟩ := exists_idem (n := n) (a := b) (b := a * c) (by rw [hn]; ring)
    (hab.symm.mul_right hbc)
  have hkb := hkbc.of_dvd (Dvd.intro c rfl)
  have hkc := hkbc.of_dvd (Dvd.intro_left b rfl)
  have hla := hlac.of_dvd (Dvd.intro c rfl)
  have hlc := hlac.of_dvd (Dvd.intro_left a rfl)
  refine index_three (two_unit hodd) hu hk hl ?_ ?_ ?_ ?_
  · rw [← Nat.cast_mul, ← Nat.cast_zero, ZMod.natCast_eq_natCast_iff, hn,
      ← Nat.modEq_and_modEq_iff_modEq_mul (hac.mul_left hbc), ← Nat.modEq_and_modEq_iff_modEq_mul hab]
    exact ⟨⟨by simpa using hla.mul_left k, by simpa using hkb.mul_right l⟩, by simpa using hlc.mul_left k⟩
  · have := natCast_ne (a := a) (n := n) (k := k) (v := 0) (hn ▸ (Dvd.intro b rfl).mul_right c)
      (fun h => not_one_modEq_zero ha (hka.symm.trans h))
    simpa using this
  · have := natCast_ne (a := b) (n := n) (k := l) (v := 0) (hn ▸ (Dvd.intro_left a rfl).mul_right c)
      (fun h => not_one_modEq_zero hb (hlb.symm.trans h))
    simpa using this
  · have := natCast_ne (a := c) (n := n) (k := k + l) (v := 1) (hn ▸ Dvd.intro_left _ rfl)
      (fun h => not_one_modEq_zero hc (h.symm.trans (hkc.add hlc)))
    simpa using this

theorem card_units {n : ℕ} [NeZero n] : Nat.card (ZMod n)ˣ = n.totient := by
  rw [Nat.card_eq_fintype_card, ZMod.card_units_eq_totient]

theorem card_of_index {n m : ℕ} [NeZero n] (h : 4 ≤ (pmSubgroup (ZMod n) m).index) :
    4 * Nat.card (pmSubgroup (ZMod n) m) ≤ n.totient := by
  rw [← card_units, ← (pmSubgroup (ZMod n) m).index_mul_card]
  exact Nat.mul_le_mul_right _ h

theorem pow_of_mem {n m N : ℕ} (hN : 2 * m ∣ N) {z : (ZMod n)ˣ} (hz : z ∈ pmSubgroup (ZMod n) m) : z ^ N = 1 := by
  obtain ⟨c, rfl⟩ := hN
  rw [mul_comm 2 m, pow_mul, pow_mul]
  rcases hz with h | h <;> simp [h]

theorem not_dvd_pred {p n : ℕ} (hp : 1 < p) (hn : 0 < n) (h : p ∣ n) : ¬ p ∣ n - 1 := by
  intro h'
  have := (Nat.dvd_sub_iff_right (Nat.sub_le n 1) h).1
  have h1 : p ∣ n - (n - 1) := Nat.dvd_sub h h'
  rw [show n - (n - 1) = 1 by omega] at h1
  have := Nat.le_of_dvd one_pos h1
  omega

theorem card_primePow {p e m : ℕ} (hp : p.Prime) (hodd : p % 2 = 1) (he : 2 ≤ e) (h9 : p ^ e ≠ 9)
    (hN : 2 * m ∣ p ^ e - 1) :
    4 * Nat.card (pmSubgroup (ZMod (p ^ e)) m) ≤ (p ^ e).totient := by
  have hp3 : 3 ≤ p := by have := hp.two_le; omega
  have hpos : 0 < p ^ e := Nat.pow_pos (by omega)
  have : NeZero (p ^ e) := ⟨hpos.ne'⟩
  have : Fact p.Prime := ⟨hp⟩
  have hdvd : Nat.card (pmSubgroup (ZMod (p ^ e)) m) ∣ (p ^ e).totient := by
    rw [← card_units]
    exact Subgroup.card_subgroup_dvd_card _
  have hnp : ¬ p ∣ Nat.card (pmSubgroup (ZMod (p ^ e)) m) := by
    intro h
    obtain ⟨x, hx⟩ := exists_prime_orderOf_dvd_card' p h
    have h1 : x ^ (p ^ e - 1) = 1 := by
      ext1
      exact pow_of_mem hN x.2
    have h2 := orderOf_dvd_of_pow_eq_one h1
    rw [hx] at h2
    exact not_dvd_pred hp.one_lt hpos (dvd_pow_self p (by omega)) h2
  have hco : (Nat.card (pmSubgroup (ZMod (p ^ e)) m)).Coprime (p ^ (e - 1)) :=
    Nat.Coprime.pow_right _ ((Nat.Prime.coprime_iff_not_dvd hp).2 hnp).symm
  rw [Nat.totient_prime_pow hp (by omega)] at hdvd ⊢
  have h1 := Nat.le_of_dvd (by omega) (hco.dvd_of_dvd_mul_left hdvd)
  refine Nat.mul_le_mul ?_ h1
  rcases Nat.lt_or_ge 3 p with h | h
  · calc 4 ≤ p ^ 1 := by rw [pow_one]; omega
      _ ≤ p ^ (e - 1) := Nat.pow_le_pow_right (by omega) (by omega)
  · have : p = 3 := by omega
    subst this
    have : e ≠ 2 := by
      rintro rfl
      exact h9 rfl
    calc 4 ≤ 3 ^ 2 := by norm_num
      _ ≤ 3 ^ (e - 1) := Nat.pow_le_pow_right (by omega) (by omega)

/-- If every unit passes Fermat's test then `n` has no square factor. -/
theorem not_sq_dvd {n p : ℕ} [NeZero n] (hp : p.Prime) (h : p * p ∣ n) (hall : ∀ g : (ZMod n)ˣ, g ^ (n - 1) = 1) :
    False := by
  have : Fact p.Prime := ⟨hp⟩
  have hpt : p ∣ n.totient := by
    have h1 : (p * p).totient ∣ n.totient := Nat.totient_dvd_of_dvd h
    rw [← sq, Nat.totient_prime_pow hp (by norm_num)] at h1
    exact (by simp : p ∣ p ^ (2 - 1) * (p - 1)).trans h1
  rw [← card_units] at hpt
  obtain ⟨x, hx⟩ := exists_prime_orderOf_dvd_card' p hpt
  have h2 := orderOf_dvd_of_pow_eq_one (hall x)
  rw [hx] at h2
  exact not_dvd_pred hp.one_lt (Nat.pos_of_ne_zero (NeZero.ne n)) ((Dvd.intro _ rfl).trans h) h2

/-- If every unit passes Fermat's test then `p - 1` divides `n - 1` for all prime factors `p`. -/
theorem korselt {n p : ℕ} [NeZero n] (hp : p.Prime) (h : p ∣ n) (hall : ∀ g : (ZMod n)ˣ, g ^ (n - 1) = 1) :
    p - 1 ∣ n - 1 := by
  have : Fact p.Prime := ⟨hp⟩
  obtain ⟨g, hg⟩ := IsCyclic.exists_generator (α := (ZMod p)ˣ)
  obtain ⟨x, hx⟩ := ZMod.unitsMap_surjective h g
  have h1 : g ^ (n - 1) = 1 := by rw [← hx, ← map_pow, hall, map_one]
  have h2 := orderOf_dvd_of_pow_eq_one h1
  rw [orderOf_eq_card_of_forall_mem_zpowers hg, Nat.card_eq_fintype_card, ZMod.card_units] at h2
  exact h2

theorem not_two_primes {n p q : ℕ} [NeZero n] (hp : p.Prime) (hq : q.Prime) (hlt : p < q) (hn : n = p * q)
    (hall : ∀ g : (ZMod n)ˣ, g ^ (n - 1) = 1) : False := by
  have h := korselt hq (hn ▸ Dvd.intro_left p rfl) hall
  have hp2 := hp.two_le
  have h1 : n - 1 = p * (q - 1) + (p - 1) := by
    rw [hn, Nat.mul_sub, mul_one]
    have : p ≤ p * q := Nat.le_mul_of_pos_right p (by omega)
    omega
  rw [h1, Nat.dvd_add_right (Dvd.intro_left p rfl)] at h
  have := Nat.le_of_dvd (by omega) h
  omega

/-- A composite number without square factors, as a product of two coprime numbers. -/
theorem split {n : ℕ} (h1 : 1 < n) (hnp : ¬ n.Prime) (hsq : ∀ p, p.Prime → ¬ p * p ∣ n) :
    ∃ a b, n = a * b ∧ a.Coprime b ∧ a.Prime ∧ 1 < b := by
  have hp := Nat.minFac_prime (n := n) (by omega)
  obtain ⟨b, hb⟩ := Nat.minFac_dvd n
  refine ⟨n.minFac, b, hb, ?_, hp, ?_⟩
  · rw [Nat.Prime.coprime_iff_not_dvd hp]
    rintro ⟨c, hc⟩
    refine hsq _ hp ⟨c, ?_⟩
    rw [mul_assoc, ← hc, ← hb]
  · by_contra hcon
    have : b ≠ 0 := by
      rintro rfl
      rw [mul_zero] at hb
      omega
    rw [show b = 1 by omega, mul_one] at hb
    exact hnp (hb ▸ hp)

/-- A composite number is a prime power or a product of two coprime numbers. -/
theorem split_or_pow {n : ℕ} (h1 : 1 < n) (hnp : ¬ n.Prime) :
    (∃ p e, p.Prime ∧ 2 ≤ e ∧ n = p ^ e) ∨ ∃ a b, n = a * b ∧ a.Coprime b ∧ 1 < a ∧ 1 < b := by
  have hp := Nat.minFac_prime (n := n) (by omega)
  obtain ⟨e, b, hb, hn⟩ := Nat.exists_eq_pow_mul_and_not_dvd (n := n) (by omega) n.minFac hp.ne_one
  have he : e ≠ 0 := by
    rintro rfl
    rw [pow_zero, one_mul] at hn
    exact hb (hn ▸ Nat.minFac_dvd n)
  have hb0 : b ≠ 0 := by
    rintro rfl
    rw [mul_zero] at hn
    omega
  rcases Nat.lt_or_ge 1 b with h | h
  · exact Or.inr ⟨_, b, hn, Nat.Coprime.pow_left _ ((Nat.Prime.coprime_iff_not_dvd hp).2 hb),
      Nat.one_lt_pow he hp.one_lt, h⟩
  · rw [show b = 1 by omega, mul_one] at hn
    refine Or.inl ⟨_, e, hp, ?_, hn⟩
    by_contra hcon
    rw [show e = 1 by omega, pow_one] at hn
    exact hnp (hn ▸ hp)

theorem card_le {n m : ℕ} (h1 : 1 < n) (hodd : n % 2 = 1) (hnp : ¬ n.Prime) (h9 : n ≠ 9) (hN : 2 * m ∣ n - 1)
    {u : (ZMod n)ˣ} (hu : u ^ m = -1) : 4 * Nat.card (pmSubgroup (ZMod n) m) ≤ n.totient := by
  have : NeZero n := ⟨by omega⟩
  rcases split_or_pow h1 hnp with ⟨p, e, hp, he, rfl⟩ | ⟨a, b, hn, hc, ha, hb⟩
  · refine card_primePow hp ?_ he h9 hN
    rcases hp.eq_two_or_odd with rfl | h
    · exfalso
      have : 2 ∣ 2 ^ e := dvd_pow_self 2 (by omega)
      omega
    · exact h
  · refine card_of_index ?_
    by_cases hall : ∀ g : (ZMod n)ˣ, g ^ (n - 1) = 1
    · have hsq : ∀ p, p.Prime → ¬ p * p ∣ n := fun p hp h => not_sq_dvd hp h hall
      obtain ⟨p, r, hn, hpr, hp, hr⟩ := split h1 hnp hsq
      have hrp : ¬ r.Prime := by
        intro hrp
        rcases Nat.lt_trichotomy p r with h | h | h
        · exact not_two_primes hp hrp h hn hall
        · subst h
          exact hsq p hp (hn ▸ dvd_rfl)
        · exact not_two_primes hrp hp h (by rw [hn, mul_comm]) hall
      have hrn : r ∣ n := hn ▸ Dvd.intro_left p rfl
      obtain ⟨q, t, hr', hqt, hq, ht⟩ := split hr hrp (fun p hp h => hsq p hp (h.trans hrn))
      subst hr'
      exact index_of_three hodd (a := p) (b := q) (c := t) (by rw [hn, mul_assoc])
        (Nat.Coprime.coprime_mul_right_right hpr) (Nat.Coprime.coprime_mul_left_right hpr) hqt hp.one_lt hq.one_lt ht hu
    · push Not at hall
      obtain ⟨g, hg⟩ := hall
      exact index_of_two hodd hn hc ha hb hu hN hg

theorem spp_iff {n s d : ℕ} (hn : n - 1 = 2 ^ s * d) (hd : d % 2 = 1) (a : ℕ) :
    StrongProbablePrime n a ↔
      ((a : ZMod n) ^ d = 1 ∨ ∃ r, r < s ∧ (a : ZMod n) ^ (2 ^ r * d) = -1) := by
  have h1 : a ^ d ≡ 1 [MOD n] ↔ (a : ZMod n) ^ d = 1 := by
    rw [← ZMod.natCast_eq_natCast_iff]
    push_cast
    rfl
  have h2 : ∀ r, a ^ (2 ^ r * d) + 1 ≡ 0 [MOD n] ↔ (a : ZMod n) ^ (2 ^ r * d) = -1 := by
    intro r
    rw [← ZMod.natCast_eq_natCast_iff]
    push_cast
    rw [eq_neg_iff_add_eq_zero]
  constructor
  · rintro ⟨s', d', hn', hd', h⟩
    have hs : s = s' := @IsTz.unique cfg64 _ _ _ _ (isTz_of_eq hn hd) (isTz_of_eq hn' hd')
    subst hs
    have hdd : d = d' := Nat.eq_of_mul_eq_mul_left (by positivity) (hn.symm.trans hn')
    subst hdd
    simpa only [h1, h2] using h
  · intro h
    refine ⟨s, d, hn, hd, ?_⟩
    simpa only [h1, h2] using h

theorem pow_of_le {n d i j : ℕ} {x : ZMod n} (hij : i ≤ j) (h : x ^ (2 ^ i * d) = -1) :
    x ^ (2 ^ j * d) = 1 ∨ x ^ (2 ^ j * d) = -1 := by
  induction j, hij using Nat.le_induction with
  | base => exact Or.inr h
  | succ j _ ih =>
    left
    rw [pow_succ, mul_right_comm, pow_mul]
    rcases ih with h | h <;> simp [h]

open Classical in
/-- The bases below `n` for which `n` is a strong probable prime. -/
noncomputable def liars (n : ℕ) : Finset ℕ := (Finset.range n).filter (StrongProbablePrime n)

theorem liars_nine : 4 * (liars 9).card ≤ 9 - 1 := by
  classical
  have h : liars 9 ⊆ {1, 8} := by
    intro a ha
    obtain ⟨ha9, h⟩ := Finset.mem_filter.1 ha
    rw [Finset.mem_range] at ha9
    rw [spp_iff (s := 3) (d := 1) (by norm_num) (by norm_num)] at h
    revert h
    interval_cases a <;> decide +kernel
  have := Finset.card_le_card h
  have h2 : ({1, 8} : Finset ℕ).card = 2 := by decide
  omega

/-- Rabin's theorem. -/
theorem liars_le {n : ℕ} (h1 : 1 < n) (hodd : n % 2 = 1) (hnp : ¬ n.Prime) : 4 * (liars n).card ≤ n - 1 := by
  classical
  rcases eq_or_ne n 9 with rfl | h9
  · exact liars_nine
  have : NeZero n := ⟨by omega⟩
  obtain ⟨s, d, hn, hd⟩ := exists_tz (v := n - 1) (by omega)
  have hs : 1 ≤ s := by
    by_contra hc
    rw [show s = 0 by omega, pow_zero, one_mul] at hn
    omega
  let P : ℕ → Prop := fun j => ∃ u : (ZMod n)ˣ, u ^ (2 ^ j * d) = -1
  have hP0 : P 0 := ⟨-1, by
    rw [pow_zero, one_mul]
    exact Odd.neg_one_pow (Nat.odd_iff.2 hd)⟩
  have hPj : P (Nat.findGreatest P (s - 1)) := Nat.findGreatest_spec (Nat.zero_le _) hP0
  have hjs : Nat.findGreatest P (s - 1) ≤ s - 1 := Nat.findGreatest_le _
  have hmax : ∀ i, i < s → P i → i ≤ Nat.findGreatest P (s - 1) := fun i hi h =>
    Nat.le_findGreatest (by omega) h
  generalize Nat.findGreatest P (s - 1) = j at hPj hjs hmax
  obtain ⟨u, hu⟩ := hPj
  have hN : 2 * (2 ^ j * d) ∣ n - 1 := by
    rw [hn, ← mul_assoc, ← pow_succ']
    exact Nat.mul_dvd_mul_right (Nat.pow_dvd_pow 2 (by omega)) d
  have hcard := card_le h1 hodd hnp h9 hN hu
  have htot : n.totient ≤ n - 1 := by
    have := Nat.totient_lt n h1
    omega
  have hinj : (liars n).card ≤ Nat.card (pmSubgroup (ZMod n) (2 ^ j * d)) := by
    have hmem : ∀ a ∈ liars n, ∃ v : pmSubgroup (ZMod n) (2 ^ j * d), ((v : (ZMod n)ˣ) : ZMod n) = a := by
      intro a ha
      have h := (Finset.mem_filter.1 ha).2
      rw [spp_iff hn hd] at h
      have hdpos : d ≠ 0 := by omega
      have hunit : IsUnit (a : ZMod n) := by
        rcases h with h | ⟨r, -, h⟩
        · exact (isUnit_pow_iff hdpos).1 (h ▸ isUnit_one)
        · refine (isUnit_pow_iff (n := 2 ^ r * d) ?_).1 (h ▸ isUnit_one.neg)
          exact mul_ne_zero (by positivity) hdpos
      obtain ⟨v, hv⟩ := hunit
      refine ⟨⟨v, ?_⟩, hv⟩
      have hkey : (a : ZMod n) ^ (2 ^ j * d) = 1 ∨ (a : ZMod n) ^ (2 ^ j * d) = -1 := by
        rcases h with h | ⟨r, hr, h⟩
        · left
          rw [mul_comm, pow_mul, h, one_pow]
        · refine pow_of_le (hmax r hr ⟨v, ?_⟩) h
          ext
          rw [Units.val_pow_eq_pow_val, hv, h]
          simp
      rw [mem_pm, Units.ext_iff, Units.ext_iff, Units.val_pow_eq_pow_val, hv]
      simpa using hkey
    choose f hf using hmem
    have hi : Function.Injective (fun a : liars n => f a.1 a.2) := by
      rintro ⟨a, ha⟩ ⟨b, hb⟩ hab
      have h := congrArg (fun v : pmSubgroup (ZMod n) (2 ^ j * d) => ((v : (ZMod n)ˣ) : ZMod n)) hab
      simp only [hf] at h
      have han := Finset.mem_range.1 (Finset.mem_filter.1 ha).1
      have hbn := Finset.mem_range.1 (Finset.mem_filter.1 hb).1
      rw [ZMod.natCast_eq_natCast_iff, Nat.ModEq, Nat.mod_eq_of_lt han, Nat.mod_eq_of_lt hbn] at h
      exact Subtype.ext h
    have := Nat.card_le_card_of_injective _ hi
    rwa [Nat.card_eq_fintype_card, Fintype.card_coe] at this
  omega

end Rabin
end Cmpa
