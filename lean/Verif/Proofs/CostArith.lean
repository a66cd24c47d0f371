import Verif.Proofs.CostBuf
import Verif.Proofs.CtArith

/-!
# Bounds on the work: comparisons, sums, differences, shifts and products
-/

set_option linter.unusedSectionVars false

namespace Cmpa
open M
variable [LimbCfg] {f g h : Fmt} {a : Buf f} {b : Buf g} {n : Buf h} {c : LimbChoice} {u v w : ℕ}

theorem ct_eq_mp_mp_cost (ha : a.nlimbs ≤ u) (hb : b.nlimbs ≤ v) : Cost (ct_eq_mp_mp a b) (5 * u + 2 * v) () := by
  unfold ct_eq_mp_mp; cost; cost_fin

theorem ct_neq_mp_mp_cost (ha : a.nlimbs ≤ u) (hb : b.nlimbs ≤ v) :
    Cost (ct_neq_mp_mp a b) (5 * u + 2 * v) () := by
  unfold ct_neq_mp_mp; cost; cost_fin

theorem CtLeqMpMpKernel.update_cost {x y z : ℕ} : Cost (CtLeqMpMpKernel.update x y z) 0 none := by
  unfold CtLeqMpMpKernel.update; cost; exact le_refl 0

theorem CtLeqMpMpKernel.finish_cost {x : ℕ} : Cost (CtLeqMpMpKernel.finish x) 0 () := by
  unfold CtLeqMpMpKernel.finish; cost; exact le_refl 0

theorem CtGeqMpMpKernel.update_cost {x y z : ℕ} : Cost (CtGeqMpMpKernel.update x y z) 0 none := by
  unfold CtGeqMpMpKernel.update; cost; exact le_refl 0

theorem CtGeqMpMpKernel.finish_cost {x : ℕ} : Cost (CtGeqMpMpKernel.finish x) 0 () := by
  unfold CtGeqMpMpKernel.finish; cost; exact le_refl 0

theorem ct_leq_mp_mp_cost (ha : a.nlimbs ≤ u) (hb : b.nlimbs ≤ v) :
    Cost (ct_leq_mp_mp a b) (5 * u + 2 * v) () := by
  unfold ct_leq_mp_mp; cost; cost_fin

theorem ct_geq_mp_mp_cost (ha : a.nlimbs ≤ u) (hb : b.nlimbs ≤ v) :
    Cost (ct_geq_mp_mp a b) (2 * u + 5 * v) () := by
  unfold ct_geq_mp_mp; cost; cost_fin

theorem ct_lt_mp_mp_cost (ha : a.nlimbs ≤ u) (hb : b.nlimbs ≤ v) :
    Cost (ct_lt_mp_mp a b) (2 * u + 5 * v) () := by
  unfold ct_lt_mp_mp; cost; cost_fin

theorem ct_gt_mp_mp_cost (ha : a.nlimbs ≤ u) (hb : b.nlimbs ≤ v) :
    Cost (ct_gt_mp_mp a b) (5 * u + 2 * v) () := by
  unfold ct_gt_mp_mp; cost; cost_fin

theorem ct_is_zero_mp_cost (ha : a.nlimbs ≤ u) : Cost (ct_is_zero_mp a) (2 * u) () := by
  unfold ct_is_zero_mp; cost; cost_fin

theorem ct_is_one_mp_cost (ha : a.nlimbs ≤ u) : Cost (ct_is_one_mp a) (2 * u + 2) () := by
  unfold ct_is_one_mp; cost; cost_fin

theorem ct_leq_mp_l_cost {l : ℕ} (ha : a.nlimbs ≤ u) : Cost (ct_leq_mp_l a l) (2 * u + 2) () := by
  unfold ct_leq_mp_l; cost; cost_fin

theorem ct_add_cond_mp_mp_cost (ha : a.nlimbs ≤ u) :
    Cost (ct_add_cond_mp_mp a b c) (8 * u + 2) (u, none) := by
  unfold ct_add_cond_mp_mp; cost; cost_fin

theorem ct_add_mp_mp_cost (ha : a.nlimbs ≤ u) : Cost (ct_add_mp_mp a b) (8 * u + 2) (u, none) := by
  unfold ct_add_mp_mp; cost; cost_fin

theorem ct_sub_cond_mp_mp_cost (ha : a.nlimbs ≤ u) :
    Cost (ct_sub_cond_mp_mp a b c) (8 * u + 2) (u, none) := by
  unfold ct_sub_cond_mp_mp; cost; cost_fin

theorem ct_sub_mp_mp_cost (ha : a.nlimbs ≤ u) : Cost (ct_sub_mp_mp a b) (8 * u + 2) (u, none) := by
  unfold ct_sub_mp_mp; cost; cost_fin

theorem ct_add_mod_mp_mp_cost (ha : a.nlimbs ≤ u) :
    Cost (ct_add_mod_mp_mp a b n) (19 * u + 6) u := by
  unfold ct_add_mod_mp_mp; cost; cost_fin

theorem ct_add_mp_l_cost {l : ℕ} (ha : a.nlimbs ≤ u) : Cost (ct_add_mp_l a l) (3 * u + 3) (u, none) := by
  unfold ct_add_mp_l; cost; cost_fin

theorem ct_sub_mod_mp_mp_cost (ha : a.nlimbs ≤ u) :
    Cost (ct_sub_mod_mp_mp a b n) (17 * u + 6) u := by
  unfold ct_sub_mod_mp_mp; cost; cost_fin

theorem ct_sub_mp_l_cost {l : ℕ} (ha : a.nlimbs ≤ u) : Cost (ct_sub_mp_l a l) (3 * u + 3) (u, none) := by
  unfold ct_sub_mp_l; cost; cost_fin

theorem ct_negate_cond_mp_cost (ha : a.nlimbs ≤ u) : Cost (ct_negate_cond_mp a c) (3 * u + 3) u := by
  unfold ct_negate_cond_mp; cost; cost_fin

theorem ct_negate_mp_cost (ha : a.nlimbs ≤ u) : Cost (ct_negate_mp a) (3 * u + 3) u := by
  unfold ct_negate_mp; cost; cost_fin

theorem ct_negate_mod_mp_cost (ha : a.nlimbs ≤ u) : Cost (ct_negate_mod_mp a b) (13 * u + 9) u := by
  unfold ct_negate_mod_mp; cost; cost_fin

theorem ct_lshift_mp_out_cost {d : ℕ} : Cost (ct_lshift_mp_out a d) 2 none := by
  unfold ct_lshift_mp_out; cost; cost_fin

theorem ct_lshift_mp_cost {d : ℕ} (ha : a.nlimbs ≤ u) : Cost (ct_lshift_mp a d) (7 * u + 4) (u, none) := by
  unfold ct_lshift_mp; cost; cost_fin

theorem ct_rshift_mp_out_cost {d : ℕ} : Cost (ct_rshift_mp_out a d) 2 none := by
  unfold ct_rshift_mp_out; cost; cost_fin

theorem ct_rshift_mp_cost {d : ℕ} (ha : a.nlimbs ≤ u) : Cost (ct_rshift_mp a d) (7 * u + 4) (u, none) := by
  unfold ct_rshift_mp; cost; cost_fin

theorem ct_mul_trunc_cond_mp_mp_cost {l : ℕ} (ha : a.nlimbs ≤ u) (hl : ct_mp_nlimbs l ≤ w) (hb : b.nlimbs ≤ v) :
    Cost (ct_mul_trunc_cond_mp_mp a l b c) (w * (4 * u + 5 * v + 3) + 3 * u + 2) u := by
  unfold ct_mul_trunc_cond_mp_mp; cost
  cost_fin

theorem ct_mul_trunc_mp_mp_cost {l : ℕ} (ha : a.nlimbs ≤ u) (hl : ct_mp_nlimbs l ≤ w) (hb : b.nlimbs ≤ v) :
    Cost (ct_mul_trunc_mp_mp a l b) (w * (4 * u + 5 * v + 3) + 3 * u + 2) u := by
  unfold ct_mul_trunc_mp_mp; cost; cost_fin

theorem ct_square_cross_cost {j r x m k p q : ℕ} (ha : a.nlimbs ≤ u) :
    Cost (ct_square_cross j r x m k (a, p, q)) 4 (u, none, none) := by
  unfold ct_square_cross; cost; cost_fin

theorem ct_square_diag_cost {j r x m p q : ℕ} (ha : a.nlimbs ≤ u) (hr : r ≤ v) :
    Cost (ct_square_diag j r x m (a, p, q)) (4 * v + 3) u := by
  unfold ct_square_diag; cost; cost_fin

theorem ct_square_trunc_mp_cost {l : ℕ} (ha : a.nlimbs ≤ u) (hl : ct_mp_nlimbs l ≤ w) :
    Cost (ct_square_trunc_mp a l) (w * (4 * u + 5 * w + 7) + u + 1) u := by
  unfold ct_square_trunc_mp; cost; cost_fin

theorem ct_mul_trunc_mp_l_cost {l x : ℕ} (ha : a.nlimbs ≤ u) (hl : ct_mp_nlimbs l ≤ w) :
    Cost (ct_mul_trunc_mp_l a l x) (4 * w + u + 5) u := by
  unfold ct_mul_trunc_mp_l; cost; cost_fin

end Cmpa
