import Mathlib.FieldTheory.Finite.Basic
import Mathlib.Data.Nat.ModEq
import Mathlib.Algebra.GCDMonoid.Nat

/-!
The number theory behind RSA and Diffie–Hellman; it refers to no definition of the model.
-/

namespace Cmpa
namespace Rsa

/-- Raising to a power which is one modulo a multiple of `p - 1`. -/
theorem pow_modEq_prime {p m k l : ℕ} (hp : p.Prime) (hl : p - 1 ∣ l) (hk : k ≡ 1 [MOD l]) (hk0 : k ≠ 0) :
    m ^ k ≡ m [MOD p] := by
  have : Fact p.Prime := ⟨hp⟩
  rw [← ZMod.natCast_eq_natCast_iff]
  push_cast
  by_cases hm : (m : ZMod p) = 0
  · rw [hm, zero_pow hk0]
  · obtain ⟨c, hc⟩ := (Nat.modEq_iff_dvd' (Nat.one_le_iff_ne_zero.2 hk0)).1 (hk.of_dvd hl).symm
    rw [show k = (p - 1) * c + 1 by omega, pow_succ, pow_mul, ZMod.pow_card_sub_one_eq_one hm, one_pow, one_mul]

/-- RSA. -/
theorem rsa {p q m e d : ℕ} (hp : p.Prime) (hq : q.Prime) (hpq : p ≠ q)
    (hed : e * d ≡ 1 [MOD Nat.lcm (p - 1) (q - 1)]) (hed0 : e * d ≠ 0) (hm : m < p * q) :
    (m ^ e % (p * q)) ^ d % (p * q) = m := by
  rw [← Nat.pow_mod, ← pow_mul]
  have h : m ^ (e * d) ≡ m [MOD p * q] :=
    (Nat.modEq_and_modEq_iff_modEq_mul ((Nat.coprime_primes hp hq).2 hpq)).1
      ⟨pow_modEq_prime hp (Nat.dvd_lcm_left _ _) hed hed0, pow_modEq_prime hq (Nat.dvd_lcm_right _ _) hed hed0⟩
  rw [show m ^ (e * d) % (p * q) = m % (p * q) from h, Nat.mod_eq_of_lt hm]

end Rsa
end Cmpa
