import Verif.Proofs.CtBuf
import Verif.Model.Add
import Verif.Model.Mul
import Verif.Model.Shift

/-!
# Constant time: comparison, addition, multiplication and shifts
-/

set_option linter.unusedSectionVars false

namespace Cmpa
open M
variable [LimbCfg] [Obs] {f g h : Fmt} {a a' : Buf f} {b b' : Buf g} {c c' : LimbChoice}

/-! ### cmp_impl.rs -/

theorem ct_eq_mp_mp_ct (ha : a.len = a'.len) (hb : b.len = b'.len) :
    Ct (ct_eq_mp_mp a b) (ct_eq_mp_mp a' b') := by
  unfold ct_eq_mp_mp
  ct

theorem ct_neq_mp_mp_ct (ha : a.len = a'.len) (hb : b.len = b'.len) :
    Ct (ct_neq_mp_mp a b) (ct_neq_mp_mp a' b') := by
  unfold ct_neq_mp_mp
  ct

theorem CtLeqMpMpKernel.update_ct {k v0 v1 k' v0' v1' : ℕ} :
    Ct (CtLeqMpMpKernel.update k v0 v1) (CtLeqMpMpKernel.update k' v0' v1') := by
  unfold CtLeqMpMpKernel.update
  ct

theorem CtLeqMpMpKernel.finish_ct {k k' : ℕ} : Ct (CtLeqMpMpKernel.finish k) (CtLeqMpMpKernel.finish k') := by
  unfold CtLeqMpMpKernel.finish
  ct

theorem CtGeqMpMpKernel.update_ct {k v0 v1 k' v0' v1' : ℕ} :
    Ct (CtGeqMpMpKernel.update k v0 v1) (CtGeqMpMpKernel.update k' v0' v1') := by
  unfold CtGeqMpMpKernel.update
  ct

theorem CtGeqMpMpKernel.finish_ct {k k' : ℕ} : Ct (CtGeqMpMpKernel.finish k) (CtGeqMpMpKernel.finish k') := by
  unfold CtGeqMpMpKernel.finish
  ct

theorem ct_leq_mp_mp_ct (ha : a.len = a'.len) (hb : b.len = b'.len) :
    Ct (ct_leq_mp_mp a b) (ct_leq_mp_mp a' b') := by
  unfold ct_leq_mp_mp
  ct

theorem ct_geq_mp_mp_ct (ha : a.len = a'.len) (hb : b.len = b'.len) :
    Ct (ct_geq_mp_mp a b) (ct_geq_mp_mp a' b') := by
  unfold ct_geq_mp_mp
  ct

theorem ct_lt_mp_mp_ct (ha : a.len = a'.len) (hb : b.len = b'.len) :
    Ct (ct_lt_mp_mp a b) (ct_lt_mp_mp a' b') := by
  unfold ct_lt_mp_mp
  ct

theorem ct_gt_mp_mp_ct (ha : a.len = a'.len) (hb : b.len = b'.len) :
    Ct (ct_gt_mp_mp a b) (ct_gt_mp_mp a' b') := by
  unfold ct_gt_mp_mp
  ct

theorem ct_is_zero_mp_ct (ha : a.len = a'.len) : Ct (ct_is_zero_mp a) (ct_is_zero_mp a') := by
  unfold ct_is_zero_mp
  ct

theorem ct_is_one_mp_ct (ha : a.len = a'.len) : Ct (ct_is_one_mp a) (ct_is_one_mp a') := by
  unfold ct_is_one_mp
  ct

theorem ct_leq_mp_l_ct {l l' : ℕ} (ha : a.len = a'.len) : Ct (ct_leq_mp_l a l) (ct_leq_mp_l a' l') := by
  unfold ct_leq_mp_l
  ct

/-! ### add_impl.rs -/

theorem ct_add_cond_mp_mp_ct (ha : a.len = a'.len) (hb : b.len = b'.len) :
    Ct (ct_add_cond_mp_mp a b c) (ct_add_cond_mp_mp a' b' c') := by
  unfold ct_add_cond_mp_mp
  ct

theorem ct_add_mp_mp_ct (ha : a.len = a'.len) (hb : b.len = b'.len) :
    Ct (ct_add_mp_mp a b) (ct_add_mp_mp a' b') := by
  unfold ct_add_mp_mp
  ct

theorem ct_sub_cond_mp_mp_ct (ha : a.len = a'.len) (hb : b.len = b'.len) :
    Ct (ct_sub_cond_mp_mp a b c) (ct_sub_cond_mp_mp a' b' c') := by
  unfold ct_sub_cond_mp_mp
  ct

theorem ct_sub_mp_mp_ct (ha : a.len = a'.len) (hb : b.len = b'.len) :
    Ct (ct_sub_mp_mp a b) (ct_sub_mp_mp a' b') := by
  unfold ct_sub_mp_mp
  ct

theorem ct_add_mod_mp_mp_ct {n n' : Buf h} (ha : a.len = a'.len) (hb : b.len = b'.len) (hn : n.len = n'.len) :
    CtOk (ct_add_mod_mp_mp a b n) (ct_add_mod_mp_mp a' b' n') := by
  unfold ct_add_mod_mp_mp
  ct

theorem ct_add_mp_l_ct {l l' : ℕ} (ha : a.len = a'.len) : Ct (ct_add_mp_l a l) (ct_add_mp_l a' l') := by
  unfold ct_add_mp_l
  ct

theorem ct_sub_mod_mp_mp_ct {n n' : Buf h} (ha : a.len = a'.len) (hb : b.len = b'.len) (hn : n.len = n'.len) :
    CtOk (ct_sub_mod_mp_mp a b n) (ct_sub_mod_mp_mp a' b' n') := by
  unfold ct_sub_mod_mp_mp
  ct

theorem ct_sub_mp_l_ct {l l' : ℕ} (ha : a.len = a'.len) : Ct (ct_sub_mp_l a l) (ct_sub_mp_l a' l') := by
  unfold ct_sub_mp_l
  ct

theorem ct_negate_cond_mp_ct (ha : a.len = a'.len) : Ct (ct_negate_cond_mp a c) (ct_negate_cond_mp a' c') := by
  unfold ct_negate_cond_mp
  ct

theorem ct_negate_mp_ct (ha : a.len = a'.len) : Ct (ct_negate_mp a) (ct_negate_mp a') := by
  unfold ct_negate_mp
  ct

theorem ct_negate_mod_mp_ct (ha : a.len = a'.len) (hb : b.len = b'.len) :
    CtOk (ct_negate_mod_mp a b) (ct_negate_mod_mp a' b') := by
  unfold ct_negate_mod_mp
  ct

/-! ### mul_impl.rs -/

theorem ct_mul_trunc_cond_mp_mp_ct {k k' : ℕ} (ha : a.len = a'.len) (hk : k = k') (hb : b.len = b'.len) :
    Ct (ct_mul_trunc_cond_mp_mp a k b c) (ct_mul_trunc_cond_mp_mp a' k' b' c') := by
  unfold ct_mul_trunc_cond_mp_mp
  ct

theorem ct_mul_trunc_mp_mp_ct {k k' : ℕ} (ha : a.len = a'.len) (hk : k = k') (hb : b.len = b'.len) :
    Ct (ct_mul_trunc_mp_mp a k b) (ct_mul_trunc_mp_mp a' k' b') := by
  unfold ct_mul_trunc_mp_mp
  ct

theorem ct_square_cross_ct {j rn j' rn' v v' m m' k k' : ℕ} {s s' : Buf f × ℕ × ℕ} (hj : j = j')
    (hr : rn = rn') (hk : k = k') (hs : Pub.rel s s') :
    Ct (ct_square_cross j rn v m k s) (ct_square_cross j' rn' v' m' k' s') := by
  obtain ⟨x, y, z⟩ := s
  obtain ⟨x', y', z'⟩ := s'
  obtain ⟨hs, -⟩ := hs
  rw [low_buf] at hs
  subst hj hr hk
  unfold ct_square_cross
  ct

theorem ct_square_diag_ct {j rn j' rn' v v' m m' : ℕ} {s s' : Buf f × ℕ × ℕ} (hj : j = j')
    (hr : rn = rn') (hs : Pub.rel s s') :
    Ct (ct_square_diag j rn v m s) (ct_square_diag j' rn' v' m' s') := by
  obtain ⟨x, y, z⟩ := s
  obtain ⟨x', y', z'⟩ := s'
  obtain ⟨hs, -⟩ := hs
  rw [low_buf] at hs
  subst hj hr
  unfold ct_square_diag
  ct

theorem ct_square_trunc_mp_ct {k k' : ℕ} (ha : a.len = a'.len) (hk : k = k') :
    Ct (ct_square_trunc_mp a k) (ct_square_trunc_mp a' k') := by
  unfold ct_square_trunc_mp
  ct

theorem ct_mul_trunc_mp_l_ct {k k' l l' : ℕ} (ha : a.len = a'.len) (hk : k = k') :
    Ct (ct_mul_trunc_mp_l a k l) (ct_mul_trunc_mp_l a' k' l') := by
  unfold ct_mul_trunc_mp_l
  ct

/-! ### shift_impl.rs: the distance is not secret here -/

theorem ct_lshift_mp_out_ct {d d' : ℕ} (ha : a.len = a'.len) (hd : Obs.pos = true → d = d') :
    Ct (ct_lshift_mp_out a d) (ct_lshift_mp_out a' d') := by
  cases hp : Obs.pos
  · unfold ct_lshift_mp_out
    ct
  have hd := hd hp
  subst hd
  unfold ct_lshift_mp_out
  ct

theorem ct_lshift_mp_ct {d d' : ℕ} (ha : a.len = a'.len) (hd : Obs.pos = true → d = d') :
    Ct (ct_lshift_mp a d) (ct_lshift_mp a' d') := by
  cases hp : Obs.pos
  · unfold ct_lshift_mp
    ct
  have hd := hd hp
  subst hd
  unfold ct_lshift_mp
  refine SameTr.cond (is_empty_congr ha) (fun _ => SameTr.pure ⟨ha, trivial⟩) fun _ => ?_
  iterate 12 ct_step
  · refine SameTr.bind (R := fun s t => s.1.len = t.1.len)
      (SameTr.mono (SameTr.forDown (fun _ s t => s.1.len = t.1.len ∧ s.2.1 = t.2.1) ⟨ha, rfl⟩ ?_) fun _ _ h => h.1) ?_
    · rintro i ⟨x, y, z⟩ ⟨x', y', z'⟩ _ ⟨h1, h2⟩
      dsimp only at h1 h2
      subst h2
      dsimp only
      refine SameTr.bind (SameTr.subEq rfl rfl) fun k _ hk => ?_
      subst hk
      refine SameTr.bind (Buf.load_l_ct h1 (fun _ => rfl)) fun _ _ _ => ?_
      refine SameTr.bind (SameTr.quiet (quiet_shrC _ _) (quiet_shrC _ _)) fun _ _ _ => ?_
      refine SameTr.bind (SameTr.quiet (quiet_shlC _ _) (quiet_shlC _ _)) fun _ _ _ => ?_
      refine SameTr.bind (R := Pub.rel) ?_ fun _ _ h => SameTr.pure ⟨h, rfl⟩
      ct
    · rintro ⟨x, y, z⟩ ⟨x', y', z'⟩ h1
      dsimp only at h1
      ct

theorem ct_rshift_mp_out_ct {d d' : ℕ} (ha : a.len = a'.len) (hd : Obs.pos = true → d = d') :
    Ct (ct_rshift_mp_out a d) (ct_rshift_mp_out a' d') := by
  cases hp : Obs.pos
  · unfold ct_rshift_mp_out
    ct
  have hd := hd hp
  subst hd
  unfold ct_rshift_mp_out
  ct

theorem ct_rshift_mp_ct {d d' : ℕ} (ha : a.len = a'.len) (hd : Obs.pos = true → d = d') :
    Ct (ct_rshift_mp a d) (ct_rshift_mp a' d') := by
  cases hp : Obs.pos
  · unfold ct_rshift_mp
    ct
  have hd := hd hp
  subst hd
  unfold ct_rshift_mp
  refine SameTr.cond (is_empty_congr ha) (fun _ => SameTr.pure ⟨ha, trivial⟩) fun _ => ?_
  iterate 12 ct_step
  · refine SameTr.bind (R := fun s t => s.1.len = t.1.len)
      (SameTr.mono (SameTr.forRange (fun _ s t => s.1.len = t.1.len ∧ s.2.1 = t.2.1) ⟨ha, rfl⟩ ?_) fun _ _ h => h.1) ?_
    · rintro i ⟨x, y, z⟩ ⟨x', y', z'⟩ _ _ ⟨h1, h2⟩
      dsimp only at h1 h2
      subst h2
      dsimp only
      refine SameTr.bind (SameTr.subEq rfl rfl) fun k _ hk => ?_
      subst hk
      refine SameTr.bind (SameTr.subEq rfl rfl) fun k _ hk => ?_
      subst hk
      refine SameTr.bind (Buf.load_l_ct h1 (fun _ => rfl)) fun _ _ _ => ?_
      refine SameTr.bind (SameTr.quiet (quiet_shrC _ _) (quiet_shrC _ _)) fun _ _ _ => ?_
      refine SameTr.bind (SameTr.quiet (quiet_shlC _ _) (quiet_shlC _ _)) fun _ _ _ => ?_
      refine SameTr.bind (R := Pub.rel) ?_ fun _ _ h => SameTr.pure ⟨h, rfl⟩
      ct
    · rintro ⟨x, y, z⟩ ⟨x', y', z'⟩ h1
      dsimp only at h1
      ct

end Cmpa
