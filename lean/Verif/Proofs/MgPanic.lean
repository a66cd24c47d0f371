import Verif.Proofs.Panic
import Verif.Proofs.MgExp

/-!
# Where the Montgomery operations always panic
-/

namespace Cmpa
open M
variable [LimbCfg] {f g h f' : Fmt}

theorem ct_exp_mod_odd_single {e' : Fmt} (result : Buf f) (base : Buf g) {n : Buf f'}
    (e : Buf e') (nbits : ℕ) (scratch : Buf .ne) (h1 : n.nlimbs = 1)
    (he : expErr result base n scratch = none) :
    (ct_exp_mod_odd_mp_mp result base n e nbits scratch).val = none := by
  unfold expErr at he
  split_ifs at he with e1 e2 e3 e4 e5
  have hl : 0 < n.len := nlimbs_pos_iff.1 (show 0 < n.nlimbs by omega)
  unfold ct_exp_mod_odd_mp_mp
  refine (len_is_compatible_with_sat n result.len).post.bind_panic fun c hc => ?_
  rw [cond_val_neg (by simp [hc, e1])]
  refine (len_is_compatible_with_sat base n.len).post.bind_panic fun c hc => ?_
  rw [cond_val_neg (by simp [hc, e2])]
  refine bind_panic' fun _ => ?_
  refine (len_is_compatible_with_sat n base.len).post.bind_panic fun c hc => ?_
  rw [cond_val_neg (by simp [hc, e3])]
  refine bind_panic' fun _ => ?_
  rw [cond_val_neg (by rw [← Buf.nlimbs_eq n]; exact e4)]
  unfold M.bindE
  refine (ct_montgomery_neg_n0_inv_mod_l_mp_sat n).post.bind_panic ?_
  rintro (er | neg) hneg
  · simp [Outcome, hl.ne', e5] at hneg
  refine bind_panic' fun _ => bind_panic' fun s => bind_panic' fun _ => bind_panic' fun _ =>
    bind_panic' fun _ => bind_panic' fun s2 => bind_panic' fun _ => bind_panic' fun _ =>
    bind_panic ?_
  exact unwrapE_panic ((redc_single_post _ h1 neg).mono fun r ⟨e, h, _⟩ => ⟨e, h⟩)

/-- With an empty second factor, there is no result. -/
theorem mg_mul_empty (result : Buf f) {a : Buf g} {b : Buf h} {n : Buf f'} (neg : ℕ)
    (ha : a.nlimbs ≠ 0) (hb : b.nlimbs = 0) (he : mulErr result a b n = none) :
    (ct_montgomery_mul_mod_mp_mp result a b n neg).val = none := by
  unfold mulErr at he
  split_ifs at he with e1 e2 e3
  obtain ⟨e1, e1'⟩ := not_or.1 e1
  obtain ⟨e3, e4⟩ := not_or.1 e3
  rw [not_not] at e3 e4
  unfold ct_montgomery_mul_mod_mp_mp
  rw [cond_val_neg (by rw [Buf.is_empty_iff]; exact e1)]
  refine (Buf.sat_load_l n (Q := fun v => v = n.toNat % B) (nlimbs_pos_iff.2 (by omega))
    (by simp)).post.bind_panic fun n0 hn0 => ?_
  subst hn0
  rw [cond_val_neg (by rw [even_check]; exact e1')]
  refine (len_is_compatible_with_sat n result.len).post.bind_panic fun c hc => ?_
  rw [cond_val_neg (by simp [hc, e2])]
  refine bind_panic' fun _ => ?_
  refine (len_is_compatible_with_sat a n.len).post.bind_panic fun c hc => ?_
  refine Post.bind_panic (P := fun c => c = true) ?_ fun c hc => ?_
  · intro x hx
    rw [cond_val_neg (by simp [hc, e3])] at hx
    have := (len_is_compatible_with_sat b n.len).post x hx
    simpa [e4] using this
  rw [cond_val_neg (by simp [hc])]
  refine bind_panic' fun _ => bind_panic' fun _ => bind_panic' fun _ => bind_panic' fun _ =>
    bind_panic' fun _ => bind_panic' fun _ => bind_panic' fun s => bind_panic' fun _ =>
    bind_panic ?_
  exact forRange_panic (by omega) (mg_mul_step_panic hb _ _ _ _ _ _)

end Cmpa
