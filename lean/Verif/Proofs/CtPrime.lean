import Verif.Proofs.CtEuclid
import Verif.Model.Prime

/-!
# Constant time: primality tests
-/

set_option linter.unusedSectionVars false

namespace Cmpa
open M
variable [LimbCfg] [Obs] {φ ψ χ : Fmt}

theorem select_product_ct {n n' : ℕ} (hn : n = n') : ∀ {l l' : List (ℕ × ℕ)} (_ : l = l'),
    SameTr (select_product n l) (select_product n' l') (fun x y => x = y)
  | [], _, h => by subst h; exact SameTr.panicL
  | x :: l, _, h => by
    subst h hn
    unfold select_product
    refine SameTr.cond Iff.rfl (fun _ => SameTr.pure rfl) fun _ => ?_
    cases l with
    | nil => exact SameTr.pure rfl
    | cons y l => exact select_product_ct rfl rfl

theorem ct_composite_test_small_prime_gcd_mp_ct {p p' : Buf φ} {s s' t t' : Buf .ne} (hp : p.len = p'.len)
    (hs : s.len = s'.len) (ht : t.len = t'.len) :
    CtOk (ct_composite_test_small_prime_gcd_mp p s t) (ct_composite_test_small_prime_gcd_mp p' s' t') := by
  unfold ct_composite_test_small_prime_gcd_mp
  ct
  cases ‹(_, _) = ((_, _) : ℕ × ℕ)›
  ct

theorem mr_compare_ct {p p' : Buf φ} {m m' : Buf ψ} {b b' : Buf .ne} (hp : p.len = p'.len) (hm : m.len = m'.len)
    (hb : b.len = b'.len) : Ct (mr_compare p m b) (mr_compare p' m' b') := by
  unfold mr_compare
  ct

theorem mr_step_ct {a a' : Buf χ} {p p' : Buf φ} {m m' : Buf ψ} {k k' z z' i i' : ℕ} {s s' : Buf .ne × Buf .ne × ℕ}
    (ha : a.len = a'.len) (hp : p.len = p'.len) (hm : m.len = m'.len) (hi : i = i') (hs : s.1.len = s'.1.len)
    (hs2 : s.2.1.len = s'.2.1.len) : Ct (mr_step a p m k z i s) (mr_step a' p' m' k' z' i' s') := by
  subst hi
  obtain ⟨b, q, c⟩ := s
  obtain ⟨b', q', c'⟩ := s'
  dsimp only at hs hs2
  unfold mr_step
  ct

theorem mr_main_ct {a a' : Buf χ} {p p' : Buf φ} {m m' : Buf ψ} {s s' t t' : Buf .ne}
    (ha : a.len = a'.len) (hp : p.len = p'.len) (hm : m.len = m'.len) (hs : s.len = s'.len) (ht : t.len = t'.len) :
    CtOk (mr_main a p m s t) (mr_main a' p' m' s' t') := by
  unfold mr_main
  ct

theorem ct_prime_test_miller_rabin_mp_ct {a a' : Buf χ} {p p' : Buf φ} {m m' : Buf ψ} {s s' t t' : Buf .ne}
    (ha : a.len = a'.len) (hp : p.len = p'.len) (hm : m.len = m'.len) (hs : s.len = s'.len) (ht : t.len = t'.len) :
    CtOk (ct_prime_test_miller_rabin_mp a p m s t) (ct_prime_test_miller_rabin_mp a' p' m' s' t') := by
  unfold ct_prime_test_miller_rabin_mp
  ct

end Cmpa
