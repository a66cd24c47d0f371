import Verif.Proofs.CostInvMod
import Verif.Model.Prime

/-!
# Bounds on the work: primality tests
-/

set_option linter.unusedSectionVars false

namespace Cmpa
open M
variable [LimbCfg] {φ ψ χ : Fmt} {u v w : ℕ}

local instance : Obs := Obs.full

theorem select_product_cost {n : ℕ} : ∀ {l : List (ℕ × ℕ)}, Cost (select_product n l) l.length (none, none)
  | [] => by unfold select_product; exact Cost.panic
  | [x] => by unfold select_product; cost; rw [List.length_singleton]; omega
  | x :: y :: l => by
    have ih := select_product_cost (n := n) (l := y :: l)
    unfold select_product
    refine (Cost.cond (Cost.pure (fits_mk fits_nat fits_nat)) ih).mono ?_
    rw [List.length_cons, List.length_cons, List.length_cons]
    omega

theorem ct_composite_test_small_prime_gcd_mp_cost {p : Buf φ} {s t : Buf .ne} (hs : s.nlimbs ≤ u) (ht : t.nlimbs ≤ u) :
    Cost (ct_composite_test_small_prime_gcd_mp p s t) ((4 * u + 1) * (W + 6 * u + 7) + 20 * u + 60) () := by
  have hsel : ∀ n, Cost (select_product n SMALL_ODD_PRIME_PRODUCTS.reverse) 9 (none, none) := fun n =>
    select_product_cost
  have hgcd := fun (a b : Buf .ne) (ha : a.nlimbs ≤ u) (hb : b.nlimbs ≤ u) => ct_gcd_odd_mp_mp_cost ha hb
  generalize (4 * u + 1) * (W + 6 * u + 7) = D at *
  unfold ct_composite_test_small_prime_gcd_mp; cost!
  clear * -
  omega

theorem mr_compare_cost {p : Buf φ} {r : Buf ψ} {b : Buf .ne} (hp : p.nlimbs ≤ u) :
    Cost (mr_compare p r b) (4 * u) (none, none) := by
  unfold mr_compare; cost; cost_fin

theorem mr_step_cost {g : Buf χ} {p : Buf φ} {r : Buf ψ} {x i j y : ℕ} {b s : Buf .ne} (hg : g.nlimbs ≤ u) (hp : p.nlimbs ≤ u)
    (hb : b.nlimbs ≤ v) (hs : s.nlimbs ≤ u) (huv : u ≤ v) :
    Cost (mr_step g p r x i j (b, s, y)) (32 * v ^ 2 + 70 * v + 100) (v, u, none) := by
  have hmul : ∀ {f g : Fmt} (k : ℕ) (r : Buf .ne) (a : Buf f) (b : Buf g), r.nlimbs ≤ k → k ≤ v → a.nlimbs ≤ v →
      b.nlimbs ≤ v → Cost (ct_montgomery_mul_mod_mp_mp r a b p x) (16 * v ^ 2 + 25 * v + 40) k :=
    fun k r a b hr hk ha hb => (ct_montgomery_mul_mod_mp_mp_cost hr ha hb (hp.trans huv)).mono (by ring_nf; omega)
  have hg : g.nlimbs ≤ v := hg.trans huv
  have hp : p.nlimbs ≤ v := hp.trans huv
  have hvv := le_refl v
  unfold mr_step; cost!; cost_fin

theorem mr_main_cost {g : Buf χ} {p : Buf φ} {r : Buf ψ} {s t : Buf .ne} (hg : g.nlimbs ≤ u) (hp : p.nlimbs ≤ u)
    (hs : s.nlimbs ≤ u) (ht : t.nlimbs ≤ u) :
    Cost (mr_main g p r s t) (8 * p.len * (128 * u ^ 2 + 140 * u + 101) + 30 * u + 50) () := by
  have hstep : ∀ (x i j y : ℕ) (b s : Buf .ne), b.nlimbs ≤ u + u → s.nlimbs ≤ u →
      Cost (mr_step g p r x i j (b, s, y)) (128 * u ^ 2 + 140 * u + 100) (u + u, u, none) :=
    fun x i j y b s hb hs => (mr_step_cost hg hp hb hs (by omega)).mono (le_of_eq (by ring))
  have hcopy : ∀ a b : Buf .ne, a.nlimbs ≤ u → b.nlimbs ≤ u → Cost ((Buf.join a b).copy_from r) (8 * u + 5) (u + u) :=
    fun a b ha hb => (Buf.copy_from_cost (le_trans (Buf.nlimbs_join_le a b) (Nat.add_le_add ha hb))).mono (by omega)
  have hcopy' : ∀ a : Buf .ne, a.nlimbs ≤ u → Cost (a.copy_from p) (4 * u + 5) u := fun a ha => Buf.copy_from_cost ha
  have hA : 128 * u ^ 2 + 140 * u + 101 = 128 * u ^ 2 + 140 * u + 100 + 1 := rfl
  rw [hA]
  generalize 128 * u ^ 2 + 140 * u + 100 = D at *
  unfold mr_main
  refine Cost.mono (n := 4 * u + 5 + (8 * p.len * (D + 1) + 16 * u + 23)) ((hcopy' _ hs).bind fun x hx => ?_) (by omega)
  have hx : x.nlimbs ≤ u := hx
  clear hcopy'
  cost!
  clear * -
  generalize 8 * p.len * (D + 1) = E
  omega

theorem ct_prime_test_miller_rabin_mp_cost {g : Buf χ} {p : Buf φ} {r : Buf ψ} {s t : Buf .ne} (hg : g.nlimbs ≤ u) (hp : p.nlimbs ≤ u)
    (hs : s.nlimbs ≤ u) (ht : t.nlimbs ≤ u) :
    Cost (ct_prime_test_miller_rabin_mp g p r s t) (8 * p.len * (128 * u ^ 2 + 140 * u + 101) + 30 * u + 70) () := by
  have := mr_main_cost (r := r) hg hp hs ht
  generalize 8 * p.len * (128 * u ^ 2 + 140 * u + 101) = D at *
  unfold ct_prime_test_miller_rabin_mp; cost!
  clear * -
  omega

end Cmpa
