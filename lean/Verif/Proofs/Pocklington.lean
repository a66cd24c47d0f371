import Mathlib.FieldTheory.Finite.Basic
import Mathlib.NumberTheory.LucasPrimality

/-!
# Pocklington's criterion

The number theory needed for provable primes (C58); there is no model in this file.
-/

namespace Cmpa
namespace Pocklington

/-- A number `c` with `c - 1 = r * q` is prime if `q` is a prime greater than `r` and some power `a ^ r` has order `q`
modulo each of the divisors of `c`. -/
theorem prime_of {q r a : ℕ} (hq : q.Prime) (hr : r < q) (h1 : a ^ (r * q) % (r * q + 1) = 1)
    (h2 : Nat.gcd (a ^ r % (r * q + 1) - 1) (r * q + 1) = 1) : (r * q + 1).Prime := by
  generalize hc : r * q + 1 = c at h1 h2 ⊢
  have hc1 : c ≠ 1 := by
    rintro rfl
    simp [Nat.mod_one] at h1
  have hc0 : 1 < c := by omega
  by_contra hnp
  have hp := Nat.minFac_prime hc1
  have hsq := Nat.minFac_sq_le_self (by omega : 0 < c) hnp
  have hpd := Nat.minFac_dvd c
  generalize c.minFac = p at hp hsq hpd
  haveI : Fact p.Prime := ⟨hp⟩
  haveI : Fact q.Prime := ⟨hq⟩
  have e1 : (a : ZMod p) ^ (r * q) = 1 := by
    have h : a ^ (r * q) ≡ 1 [MOD p] := by
      refine Nat.ModEq.of_dvd hpd ?_
      rw [Nat.ModEq, h1, Nat.mod_eq_of_lt hc0]
    have := (ZMod.natCast_eq_natCast_iff _ _ _).2 h
    simpa using this
  have e2 : (a : ZMod p) ^ r ≠ 1 := by
    intro h
    have hz : a ^ r ≡ 1 [MOD p] := by
      refine (ZMod.natCast_eq_natCast_iff _ _ _).1 ?_
      simpa using h
    have hy : a ^ r % c ≡ 1 [MOD p] := ((Nat.mod_modEq _ c).of_dvd hpd).trans hz
    have hy0 : 1 ≤ a ^ r % c := by
      by_contra hlt
      have h0 : a ^ r % c = 0 := by omega
      rw [h0] at hy
      have : p ∣ 1 := (Nat.modEq_zero_iff_dvd).1 hy.symm
      exact hp.one_lt.ne' (Nat.dvd_one.1 this)
    have hd : p ∣ a ^ r % c - 1 := (Nat.modEq_iff_dvd' hy0).1 hy.symm
    have : p ∣ 1 := h2 ▸ Nat.dvd_gcd hd hpd
    exact hp.one_lt.ne' (Nat.dvd_one.1 this)
  have e3 : orderOf ((a : ZMod p) ^ r) = q := orderOf_eq_prime (by rw [← pow_mul]; exact e1) e2
  have ha0 : (a : ZMod p) ^ r ≠ 0 := by
    intro h
    rw [pow_mul, h, zero_pow hq.ne_zero] at e1
    exact zero_ne_one e1
  have e4 : q ∣ p - 1 := by
    rw [← e3]
    exact orderOf_dvd_of_pow_eq_one (ZMod.pow_card_sub_one_eq_one ha0)
  have e5 : q ≤ p - 1 := Nat.le_of_dvd (by have := hp.two_le; omega) e4
  have e6 : (q + 1) ^ 2 ≤ c := le_trans (Nat.pow_le_pow_left (by have := hp.two_le; omega) 2) hsq
  have e7 : r * q ≤ q * q := Nat.mul_le_mul_right q hr.le
  nlinarith

/-- Conversely, for a prime `r * q + 1` any `a` which is not divisible by it and whose power `a ^ r` is not one is a
witness. -/
theorem witness {q r a : ℕ} (hc : (r * q + 1).Prime) (ha : ¬ r * q + 1 ∣ a) (h : a ^ r % (r * q + 1) ≠ 1) :
    a ^ (r * q) % (r * q + 1) = 1 ∧ Nat.gcd (a ^ r % (r * q + 1) - 1) (r * q + 1) = 1 := by
  generalize hn : r * q + 1 = c at hc ha h ⊢
  have hcop : Nat.Coprime a c := Nat.Coprime.symm ((Nat.Prime.coprime_iff_not_dvd hc).2 ha)
  have e : r * q = c - 1 := by omega
  constructor
  · rw [e, ← Nat.totient_prime hc]
    have := Nat.ModEq.pow_totient hcop
    rwa [Nat.ModEq, Nat.mod_eq_of_lt hc.one_lt] at this
  · have hlt : a ^ r % c < c := Nat.mod_lt _ hc.pos
    have h0 : a ^ r % c ≠ 0 := by
      intro h0
      exact ha (hc.dvd_of_dvd_pow (Nat.dvd_of_mod_eq_zero h0))
    refine Nat.Coprime.symm ((Nat.Prime.coprime_iff_not_dvd hc).2 (Nat.not_dvd_of_pos_of_lt ?_ ?_)) <;> omega

/-- For every prime `r * q + 1` with `r < r * q` there is a witness. -/
theorem exists_witness {q r : ℕ} (hc : (r * q + 1).Prime) (hq : 1 < q) (hr : 0 < r) :
    ∃ a, a < r * q + 1 ∧ ¬ r * q + 1 ∣ a ∧ a ^ r % (r * q + 1) ≠ 1 := by
  haveI : Fact (r * q + 1).Prime := ⟨hc⟩
  obtain ⟨u, hu⟩ := IsCyclic.exists_generator (α := (ZMod (r * q + 1))ˣ)
  have ho : orderOf u = r * q := by
    rw [orderOf_eq_card_of_forall_mem_zpowers hu, Nat.card_eq_fintype_card, ZMod.card_units_eq_totient,
      Nat.totient_prime hc, Nat.add_sub_cancel]
  refine ⟨(u : ZMod (r * q + 1)).val, ZMod.val_lt _, ?_, ?_⟩
  · intro hd
    have h0 : ((u : ZMod (r * q + 1)).val : ZMod (r * q + 1)) = 0 := (ZMod.natCast_eq_zero_iff _ _).2 hd
    rw [ZMod.natCast_zmod_val] at h0
    exact u.ne_zero h0
  · intro h
    have h1 : (((u : ZMod (r * q + 1)).val ^ r : ℕ) : ZMod (r * q + 1)) = ((1 : ℕ) : ZMod (r * q + 1)) := by
      refine (ZMod.natCast_eq_natCast_iff _ _ _).2 ?_
      rw [Nat.ModEq, h, Nat.mod_eq_of_lt hc.one_lt]
    rw [Nat.cast_pow, ZMod.natCast_zmod_val, Nat.cast_one] at h1
    have h2 : u ^ r = 1 := by
      apply Units.ext
      rw [Units.val_pow_eq_pow_val, h1, Units.val_one]
    have h3 : r * q ∣ r := ho ▸ orderOf_dvd_of_pow_eq_one h2
    have h4 := Nat.le_of_dvd hr h3
    nlinarith

end Pocklington
end Cmpa
