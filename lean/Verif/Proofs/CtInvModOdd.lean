import Verif.Proofs.CtEuclid
import Verif.Model.InvModOdd

/-!
# Constant time: inversion modulo an odd number
-/

set_option linter.unusedSectionVars false

namespace Cmpa
open M
variable [LimbCfg] [Obs] {φ ψ χ : Fmt}

theorem M.loopUpE_ct {σ ε : Type} [Pub σ] {f g : ℕ → σ → M (Except ε σ)} :
    ∀ {n n' lo lo' : ℕ} {s t : σ} (_ : n = n') (_ : lo = lo') (_ : Pub.rel s t)
      (_ : ∀ i s t, Pub.rel s t → CtOk (f i s) (g i t)),
      CtOk (M.loopUpE n lo s f) (M.loopUpE n' lo' t g)
  | 0, _, lo, _, s, t, hh, hl, h0, _ => by subst hh; exact CtOk.pure h0
  | n + 1, _, lo, _, s, t, hh, hl, h0, hs => by
    subst hh hl
    unfold M.loopUpE
    refine CtOk.bind SameTr.emit fun _ _ _ => ?_
    exact CtOk.bindE (hs lo s t h0) fun a b hab => M.loopUpE_ct rfl rfl hab hs

namespace TransitionMatrix

instance : Pub ModRow := ⟨fun _ _ => True⟩
instance : Pub (ModState φ ψ) := ⟨fun s t => s.u_f.len = t.u_f.len ∧ s.u_g.len = t.u_g.len⟩

theorem mod_start_ct {a a' b b' : ℕ × ℕ} {c d e c' d' e' : ℕ} :
    Ct (mod_start a b c d e) (mod_start a' b' c' d' e') := by
  unfold mod_start
  ct

theorem mod_sub_ct {a b a' b' : ℕ} {c d c' d' : ℕ × ℕ} : Ct (mod_sub a b c d) (mod_sub a' b' c' d') := by
  unfold mod_sub
  ct

theorem mod_limb_ct {r r' : ModRow} {a b a' b' : ℕ} {c d e f c' d' e' f' : ℕ × ℕ} :
    Ct (mod_limb r a b c d e f) (mod_limb r' a' b' c' d' e' f') := by
  unfold mod_limb
  ct

theorem mod_step_ct {m m' : TransitionMatrix} {k k' : NegMask} {n n' : Buf χ} {j j' : ℕ} {s s' : ModState φ ψ}
    (hn : n.len = n'.len) (hj : j = j') (hs : Pub.rel s s') :
    Ct (mod_step m k n j s) (mod_step m' k' n' j' s') := by
  obtain ⟨hf, hg⟩ := hs
  subst hj
  unfold mod_step
  ct

theorem mod_head_ct {r r' : ModRow} {c d c' d' : ℕ × ℕ} : Ct (mod_head r c d) (mod_head r' c' d') := by
  unfold mod_head
  ct

theorem mod_finish_ct {u u' : Buf φ} {r r' : ModRow} {j j' a b a' b' : ℕ} (hu : u.len = u'.len) (hj : j = j') :
    Ct (mod_finish u r j a b) (mod_finish u' r' j' a' b') := by
  unfold mod_finish
  ct

theorem u_i_into_range_ct {u u' : Buf φ} {a b a' b' : ℕ} {n n' : Buf χ} (hu : u.len = u'.len)
    (hn : n.len = n'.len) : Ct (u_i_into_range u a b n) (u_i_into_range u' a' b' n') := by
  unfold u_i_into_range
  ct

theorem apply_to_mod_odd_n_ct {m m' : TransitionMatrix} {k k' : NegMask} {u u' : Buf φ} {v v' : Buf ψ}
    {n n' : Buf χ} {a a' : ℕ} (hu : u.len = u'.len) (hv : v.len = v'.len) (hn : n.len = n'.len) :
    Ct (apply_to_mod_odd_n m k u v n a) (apply_to_mod_odd_n m' k' u' v' n' a') := by
  unfold apply_to_mod_odd_n
  ct

end TransitionMatrix

theorem inv_check_step_ct {f f' : Buf .ne} {k k' i i' e e' : ℕ} (hf : f.len = f'.len) (hi : i = i') :
    CtOk (inv_check_step f k i e) (inv_check_step f' k' i' e') := by
  unfold inv_check_step
  ct

theorem inv_negate_ct {r r' : Buf φ} {n n' : Buf χ} {k c k' c' : ℕ} (hr : r.len = r'.len) (hn : n.len = n'.len) :
    Ct (inv_negate r n k c) (inv_negate r' n' k' c') := by
  unfold inv_negate
  ct

theorem ct_inv_mod_odd_mp_mp_impl_ct {r r' : Buf φ} {a a' : Buf ψ} {n n' : Buf χ} {s s' t t' : Buf .ne}
    (hr : r.len = r'.len) (ha : a.len = a'.len) (hn : n.len = n'.len) (hs : s.len = s'.len) (ht : t.len = t'.len) :
    CtOk (ct_inv_mod_odd_mp_mp_impl r a n s t) (ct_inv_mod_odd_mp_mp_impl r' a' n' s' t') := by
  unfold ct_inv_mod_odd_mp_mp_impl
  ct

theorem ct_inv_mod_odd_mp_mp_ct {r r' : Buf φ} {a a' : Buf ψ} {n n' : Buf χ} {s s' t t' : Buf .ne}
    (hr : r.len = r'.len) (ha : a.len = a'.len) (hn : n.len = n'.len) (hs : s.len = s'.len) (ht : t.len = t'.len) :
    CtOk (ct_inv_mod_odd_mp_mp r a n s t) (ct_inv_mod_odd_mp_mp r' a' n' s' t') := by
  unfold ct_inv_mod_odd_mp_mp
  ct

end Cmpa
