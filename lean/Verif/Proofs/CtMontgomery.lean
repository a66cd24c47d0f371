import Verif.Proofs.CtDivisor
import Verif.Model.Montgomery

/-!
# Constant time: Montgomery arithmetic
-/

set_option linter.unusedSectionVars false

namespace Cmpa
open M
variable [LimbCfg] [Obs] {e f g h f' : Fmt}

theorem ct_montgomery_neg_n0_inv_mod_l_mp_ct {n n' : Buf f} (hn : n.len = n'.len) :
    CtOk (ct_montgomery_neg_n0_inv_mod_l_mp n) (ct_montgomery_neg_n0_inv_mod_l_mp n') := by
  unfold ct_montgomery_neg_n0_inv_mod_l_mp
  ct

instance : Pub RedcKernel := ⟨fun _ _ => True⟩

theorem quiet_redc_rshift_lo (a b c : ℕ) : Quiet (RedcKernel.redc_rshift_lo a b c) := quiet_shrC _ _
theorem quiet_redc_lshift_hi (a b c : ℕ) : Quiet (RedcKernel.redc_lshift_hi a b c) :=
  Quiet.bind Quiet.sub fun _ => quiet_shlC _ _
theorem quiet_start (a b c d : ℕ) : Quiet (RedcKernel.start a b c d) := by
  unfold RedcKernel.start
  refine Quiet.bind Quiet.assert fun _ => ?_
  refine Quiet.bind Quiet.assert fun _ => ?_
  refine Quiet.bind (quiet_ct_mul_add_l_l_l_c _ _ _ _) fun _ => ?_
  refine Quiet.bind Quiet.assert fun _ => ?_
  exact Quiet.bind (quiet_redc_rshift_lo _ _ _) fun _ => Quiet.pure
theorem quiet_update (k : RedcKernel) (a b : ℕ) : Quiet (k.update a b) := by
  unfold RedcKernel.update
  refine Quiet.bind (quiet_ct_mul_add_l_l_l_c _ _ _ _) fun _ => ?_
  refine Quiet.bind (quiet_redc_lshift_hi _ _ _) fun _ => ?_
  exact Quiet.bind (quiet_redc_rshift_lo _ _ _) fun _ => Quiet.pure
theorem quiet_finish (k : RedcKernel) (a : ℕ) : Quiet (k.finish a) := by
  unfold RedcKernel.finish
  refine Quiet.bind Quiet.assert fun _ => ?_
  exact Quiet.bind (quiet_redc_lshift_hi _ _ _) fun _ => Quiet.pure
theorem quiet_finish_in_twos_complement (k : RedcKernel) (a : ℕ) : Quiet (k.finish_in_twos_complement a) := by
  unfold RedcKernel.finish_in_twos_complement
  refine Quiet.bind Quiet.assert fun _ => ?_
  refine Quiet.bind Quiet.assert fun _ => ?_
  refine Quiet.bind Quiet.assert fun _ => ?_
  refine Quiet.bind Quiet.assert fun _ => ?_
  exact Quiet.bind (quiet_redc_lshift_hi _ _ _) fun _ => Quiet.pure

theorem redc_step_ct {n n' : Buf g} {a b a' b' : ℕ} {s s' : Buf f × ℕ × ℕ} (hn : n.len = n'.len)
    (hs : Pub.rel s s') : Ct (redc_step n a b s) (redc_step n' a' b' s') := by
  obtain ⟨t, s0, s1⟩ := s
  obtain ⟨t', s0', s1'⟩ := s'
  obtain ⟨ht, -⟩ := hs
  rw [low_buf] at ht
  dsimp only at ht
  unfold redc_step
  ct

theorem redc_finish_ct {t t' : Buf f} {n n' : Buf g} {a b c d a' b' c' d' : ℕ} (ht : t.len = t'.len)
    (hn : n.len = n'.len) : Ct (redc_finish t n a b c d) (redc_finish t' n' a' b' c' d') := by
  unfold redc_finish
  ct

theorem ct_montgomery_redc_mp_ct {t t' : Buf f} {n n' : Buf g} {a a' : ℕ} (ht : t.len = t'.len)
    (hn : n.len = n'.len) : CtOk (ct_montgomery_redc_mp t n a) (ct_montgomery_redc_mp t' n' a') := by
  unfold ct_montgomery_redc_mp
  ct

theorem load_shadow_ct {r r' : Buf f} {s s' n n' j j' : ℕ} (hr : r.len = r'.len) (hn : n = n') (hj : j = j') :
    Ct (load_shadow r s n j) (load_shadow r' s' n' j') := by
  subst hn hj
  unfold load_shadow
  ct

theorem mg_mul_step_ct {op0 op0' : Buf g} {op1 op1' : Buf h} {n n' : Buf f'} {a b i a' b' j : ℕ}
    {s s' : Buf f × ℕ × ℕ} (h0 : op0.len = op0'.len) (h1 : op1.len = op1'.len) (hn : n.len = n'.len)
    (hi : i = j) (hs : Pub.rel s s') :
    Ct (mg_mul_step op0 op1 n a b i s) (mg_mul_step op0' op1' n' a' b' j s') := by
  obtain ⟨t, s0, s1⟩ := s
  obtain ⟨t', s0', s1'⟩ := s'
  obtain ⟨ht, -⟩ := hs
  rw [low_buf] at ht
  dsimp only at ht
  subst hi
  unfold mg_mul_step
  ct

theorem mg_redc_step_ct {n n' : Buf f'} {a b a' b' : ℕ}
    {s s' : Buf f × ℕ × ℕ} (hn : n.len = n'.len) (hs : Pub.rel s s') :
    Ct (mg_redc_step n a b s) (mg_redc_step n' a' b' s') := by
  obtain ⟨t, s0, s1⟩ := s
  obtain ⟨t', s0', s1'⟩ := s'
  obtain ⟨ht, -⟩ := hs
  rw [low_buf] at ht
  dsimp only at ht
  unfold mg_redc_step
  ct

theorem compat2_ct {α ε : Type} [Pub α] {c c' : Bool} {x y : ε} {m m' : M Bool} {k k' : M (Except ε α)}
    (hm : Ct m m') (hk : CtOk k k') :
    CtOk (M.cond (c = false) (pure false) m >>= fun c => M.cond (c = false) (pure (.error x)) k)
      (M.cond (c' = false) (pure false) m' >>= fun c => M.cond (c = false) (pure (.error y)) k') := by
  cases c
  · intro a b ha
    rw [bind_val, cond_val] at ha
    simp [cond_val] at ha
  · cases c'
    · intro a b _ ha
      rw [bind_val, cond_val] at ha
      simp [cond_val] at ha
    · refine CtOk.bind (SameTr.cond Iff.rfl (fun _ => SameTr.pure trivial) fun _ => hm) ?_
      intro a b _
      exact CtOk.condErr1 hk

theorem ct_montgomery_mul_mod_mp_mp_ct {r r' : Buf f} {op0 op0' : Buf g} {op1 op1' : Buf h} {n n' : Buf f'}
    {a a' : ℕ} (hr : r.len = r'.len) (h0 : op0.len = op0'.len) (h1 : op1.len = op1'.len) (hn : n.len = n'.len) :
    CtOk (ct_montgomery_mul_mod_mp_mp r op0 op1 n a) (ct_montgomery_mul_mod_mp_mp r' op0' op1' n' a') := by
  unfold ct_montgomery_mul_mod_mp_mp
  iterate 7 ct_step
  refine compat2_ct ?_ ?_ <;> ct

theorem ct_to_montgomery_form_direct_mp_ct {t t' : Buf f} {n n' : Buf g} (ht : t.len = t'.len)
    (hn : n.len = n'.len) (hb : byteLen n.toNat = byteLen n'.toNat) :
    CtOk (ct_to_montgomery_form_direct_mp t n) (ct_to_montgomery_form_direct_mp t' n') := by
  unfold ct_to_montgomery_form_direct_mp
  ct

theorem ct_montgomery_radix2_mod_n_mp_ct {t t' : Buf f} {n n' : Buf g} (ht : t.len = t'.len)
    (hn : n.len = n'.len) (hb : byteLen n.toNat = byteLen n'.toNat) :
    CtOk (ct_montgomery_radix2_mod_n_mp t n) (ct_montgomery_radix2_mod_n_mp t' n') := by
  unfold ct_montgomery_radix2_mod_n_mp
  ct

theorem ct_to_montgomery_form_mp_ct {r r' : Buf f} {t t' : Buf g} {n n' : Buf f'} {a a' : ℕ} {x x' : Buf h}
    (hr : r.len = r'.len) (ht : t.len = t'.len) (hn : n.len = n'.len) (hx : x.len = x'.len) :
    CtOk (ct_to_montgomery_form_mp r t n a x) (ct_to_montgomery_form_mp r' t' n' a' x') := by
  unfold ct_to_montgomery_form_mp
  ct

theorem unwrapE_ct {α ε : Type} [Pub α] {m n : M (Except ε α)} (h : CtOk m n) : Ct (unwrapE m) (unwrapE n) := by
  unfold unwrapE
  refine SameTr.bindOk h (fun _ => rfl) (fun _ => rfl) fun a b hab => ?_
  exact SameTr.pure hab

theorem _ct_montogmery_exp_mod_mp_mp_ct {r r' : Buf f} {op0 op0' : Buf g} {n n' : Buf f'}
    {a a' : ℕ} {x x' : Buf e} {k k' : ℕ} {s s' : Buf .ne} (hr : r.len = r'.len) (h0 : op0.len = op0'.len)
    (hn : n.len = n'.len) (hx : x.len = x'.len) (hk : k = k') (hs : s.len = s'.len) :
    Ct (_ct_montogmery_exp_mod_mp_mp r op0 n a x k s) (_ct_montogmery_exp_mod_mp_mp r' op0' n' a' x' k' s') := by
  subst hk
  unfold _ct_montogmery_exp_mod_mp_mp
  ct

theorem ct_montogmery_exp_mod_odd_mp_mp_ct {r r' : Buf f} {op0 op0' : Buf g} {n n' : Buf f'}
    {a a' : ℕ} {y y' : Buf h} {x x' : Buf e} {k k' : ℕ} {s s' : Buf .ne} (hr : r.len = r'.len) (h0 : op0.len = op0'.len)
    (hn : n.len = n'.len) (hy : y.len = y'.len) (hx : x.len = x'.len) (hk : k = k') (hs : s.len = s'.len) :
    CtOk (ct_montogmery_exp_mod_odd_mp_mp r op0 n a y x k s)
      (ct_montogmery_exp_mod_odd_mp_mp r' op0' n' a' y' x' k' s') := by
  unfold ct_montogmery_exp_mod_odd_mp_mp
  ct

theorem ct_exp_mod_odd_mp_mp_ct {r r' : Buf f} {op0 op0' : Buf g} {n n' : Buf f'}
    {x x' : Buf e} {k k' : ℕ} {s s' : Buf .ne} (hr : r.len = r'.len) (h0 : op0.len = op0'.len)
    (hn : n.len = n'.len) (hb : byteLen n.toNat = byteLen n'.toNat) (hx : x.len = x'.len) (hk : k = k')
    (hs : s.len = s'.len) :
    CtOk (ct_exp_mod_odd_mp_mp r op0 n x k s) (ct_exp_mod_odd_mp_mp r' op0' n' x' k' s') := by
  unfold ct_exp_mod_odd_mp_mp
  ct

end Cmpa
