import Verif.Proofs.CtInvModOdd
import Verif.Model.InvMod

/-!
# Constant time: inversion modulo powers of two and modulo any number
-/

set_option linter.unusedSectionVars false

namespace Cmpa
open M
variable [LimbCfg] [Obs] {φ ψ χ : Fmt}

theorem inv_pow2_sub_step_ct {t t' : Buf .ne} {j j' : ℕ} {s s' : Buf φ × ℕ × ℕ} (ht : t.len = t'.len) (hj : j = j')
    (hs : s.1.len = s'.1.len) : Ct (inv_pow2_sub_step t j s) (inv_pow2_sub_step t' j' s') := by
  subst hj
  obtain ⟨r, c, b⟩ := s
  obtain ⟨r', c', b'⟩ := s'
  dsimp only at hs
  unfold inv_pow2_sub_step
  ct

theorem inv_pow2_lift_ct {a a' : Buf ψ} {l l' c c' : ℕ} {s s' : Buf φ × Buf .ne} (ha : a.len = a'.len) (hl : l = l')
    (hc : c = c') (hs : Pub.rel s s') : Ct (inv_pow2_lift a l c s) (inv_pow2_lift a' l' c' s') := by
  subst hl hc
  obtain ⟨r, t⟩ := s
  obtain ⟨r', t'⟩ := s'
  obtain ⟨hr, ht⟩ := hs
  dsimp only [low_buf] at hr ht
  unfold inv_pow2_lift
  ct

theorem inv_pow2_loop_ct {a a' : Buf ψ} {m m' l l' : ℕ} (ha : a.len = a'.len) (hm : m = m') (hl : l = l') :
    ∀ {k k' c c' : ℕ} {s s' : Buf φ × Buf .ne} (_ : k = k') (_ : c = c') (_ : Pub.rel s s'),
      Ct (inv_pow2_loop a m l k c s) (inv_pow2_loop a' m' l' k' c' s')
  | 0, _, c, _, s, s', hk, hc, hs => by
    subst hk
    exact SameTr.panicL
  | k + 1, _, c, _, s, s', hk, hc, hs => by
    subst hk hc hm hl
    unfold inv_pow2_loop
    refine SameTr.cond Iff.rfl (fun _ => ?_) fun _ => SameTr.pure hs
    exact SameTr.bind (inv_pow2_lift_ct ha rfl rfl hs) fun x y hxy => inv_pow2_loop_ct ha rfl rfl rfl rfl hxy

theorem ct_inv_mod_pow2_mp_ct {r r' : Buf φ} {a a' : Buf ψ} {e e' m m' : ℕ} {s s' : Buf .ne} (hr : r.len = r'.len)
    (ha : a.len = a'.len) (hm : m = m') (hs : s.len = s'.len) :
    Ct (ct_inv_mod_pow2_mp r a e m s) (ct_inv_mod_pow2_mp r' a' e' m' s') := by
  unfold ct_inv_mod_pow2_mp
  ct

/-- Two runs whose results are as wanted leave the same events. -/
def M.CtIf {α : Type} (P : α → Prop) (R : α → α → Prop) (m n : M α) : Prop :=
  ∀ a b, m.val = some a → n.val = some b → P a → P b → m.seen = n.seen ∧ R a b

section
variable {α σ τ ε : Type} {P : α → Prop} {R : α → α → Prop}

theorem M.CtIf.of {m n : M α} (h : SameTr m n R) : CtIf P R m n := fun a b ha hb _ _ => h a b ha hb

theorem M.CtIf.bind {m : M σ} {n : M τ} {S : σ → τ → Prop} {f : σ → M α} {g : τ → M α} (h : SameTr m n S)
    (hf : ∀ a b, S a b → CtIf P R (f a) (g b)) : CtIf P R (m >>= f) (n >>= g) := by
  intro x y hx hy px py
  rw [bind_val] at hx hy
  cases hm : m.val with
  | none => rw [hm] at hx; cases hx
  | some a =>
    cases hn : n.val with
    | none => rw [hn] at hy; cases hy
    | some b =>
      rw [hm] at hx
      rw [hn] at hy
      obtain ⟨h1, h2⟩ := h a b hm hn
      obtain ⟨h3, h4⟩ := hf a b h2 x y hx hy px py
      refine ⟨?_, h4⟩
      rw [bind_seen_some hm, bind_seen_some hn, h1, h3]

theorem M.CtIf.bindOk [Pub σ] {m n : M (Except ε σ)} {f g : Except ε σ → M α} (h : CtOk m n)
    (he : ∀ e, Post (f (.error e)) (fun a => ¬ P a)) (he' : ∀ e, Post (g (.error e)) (fun a => ¬ P a))
    (hf : ∀ a b, Pub.rel a b → CtIf P R (f (.ok a)) (g (.ok b))) : CtIf P R (m >>= f) (n >>= g) := by
  intro x y hx hy px py
  rw [bind_val] at hx hy
  cases hm : m.val with
  | none => rw [hm] at hx; cases hx
  | some a =>
    cases hn : n.val with
    | none => rw [hn] at hy; cases hy
    | some b =>
      rw [hm] at hx
      rw [hn] at hy
      cases a with
      | error e => exact absurd px (he e x hx)
      | ok a =>
        cases b with
        | error e => exact absurd py (he' e y hy)
        | ok b =>
          obtain ⟨h1, h2⟩ := h a b hm hn
          obtain ⟨h3, h4⟩ := hf a b h2 x y hx hy px py
          refine ⟨?_, h4⟩
          rw [bind_seen_some hm, bind_seen_some hn, h1, h3]

theorem M.CtIf.cond {c d : Prop} [Decidable c] [Decidable d] {t e t' e' : M α}
    (h : c ↔ d) (ht : c → CtIf P R t t') (he : ¬ c → CtIf P R e e') : CtIf P R (M.cond c t e) (M.cond d t' e') := by
  show CtIf P R (M.branch c >>= fun b => if b then t else e) (M.branch d >>= fun b => if b then t' else e')
  refine CtIf.bind (SameTr.branch h) ?_
  rintro a b ⟨rfl, rfl⟩
  by_cases hc : c
  · simpa [hc] using ht hc
  · simpa [hc] using he hc

theorem M.CtIf.condErr {c d : Prop} [Decidable c] [Decidable d] {x y : α} {e e' : M α} (hx : ¬ P x) (hy : ¬ P y)
    (he : CtIf P R e e') : CtIf P R (M.cond c (Pure.pure x) e) (M.cond d (Pure.pure y) e') := by
  by_cases hc : c
  · intro a b ha hb pa; rw [cond_val, if_pos hc] at ha; cases ha; exact absurd pa hx
  · by_cases hd : d
    · intro a b ha hb pa pb; rw [cond_val, if_pos hd] at hb; cases hb; exact absurd pb hy
    · exact CtIf.cond (by simp [hc, hd]) (fun h => absurd h hc) (fun _ => he)

end

/-- An inverse has been returned. -/
def InvOk (r : Buf ψ × Except GcdError (Buf φ)) : Prop := ∃ v, r.2 = .ok v

/-- The lengths of the modulus and of the inverse agree. -/
def InvRel (r s : Buf ψ × Except GcdError (Buf φ)) : Prop :=
  r.1.len = s.1.len ∧ ∀ v w, r.2 = .ok v → s.2 = .ok w → v.len = w.len

theorem not_invOk {n : Buf ψ} {e : GcdError} : ¬ InvOk ((n, .error e) : Buf ψ × Except GcdError (Buf φ)) := by
  rintro ⟨v, hv⟩; cases hv

theorem inv_mod_garner_ct {a a' : Buf φ} {n n' : Buf ψ} {r r' s s' t t' : Buf .ne} {k k' : ℕ} (ha : a.len = a'.len)
    (hn : n.len = n'.len) (hr : r.len = r'.len) (hs : s.len = s'.len) (ht : t.len = t'.len)
    (hk : Obs.pos = true → k = k') :
    CtIf InvOk InvRel (inv_mod_garner a n r s t k) (inv_mod_garner a' n' r' s' t' k') := by
  unfold inv_mod_garner
  rw [← hn]
  refine CtIf.bind (SameTr.subEq rfl rfl) ?_
  rintro m _ rfl
  refine CtIf.bind (Buf.copy_from_ct ha hs) fun a a' ha => ?_
  refine CtIf.bind (ct_sub_mp_mp_ct hr hs) ?_
  rintro ⟨r, _⟩ ⟨r', _⟩ ⟨hr, -⟩
  refine CtIf.bind (ct_inv_mod_pow2_mp_ct hs hn rfl ht) ?_
  rintro ⟨s, _⟩ ⟨s', _⟩ ⟨hs, -⟩
  refine CtIf.bind (ct_mul_trunc_mp_mp_ct hr rfl hs) fun r r' hr => ?_
  refine CtIf.bind (ct_clear_bits_above_mp_ct hr) fun r r' hr => ?_
  refine CtIf.bind (ct_mul_trunc_mp_mp_ct hr rfl hn) fun r r' hr => ?_
  refine CtIf.bind (ct_add_mp_mp_ct ha hr) ?_
  rintro ⟨a, _⟩ ⟨a', _⟩ ⟨ha, -⟩
  refine CtIf.bind SameTr.check fun _ _ _ => ?_
  refine CtIf.bind (ct_lshift_mp_ct hn hk) ?_
  rintro ⟨n, _⟩ ⟨n', _⟩ ⟨hn, -⟩
  refine CtIf.bind (ct_lt_mp_mp_ct ha hn) fun _ _ _ => ?_
  refine CtIf.bind SameTr.check fun _ _ _ => ?_
  refine CtIf.bind (ct_is_zero_mp_ct ha) fun _ _ _ => ?_
  refine CtIf.condErr not_invOk not_invOk (CtIf.of (SameTr.pure ⟨hn, ?_⟩))
  intro v w hv hw
  cases hv
  cases hw
  exact ha

/-- The power of two dividing the modulus is shifted out and in again: the distance is seen if positions are. -/
theorem ct_inv_mod_mp_mp_ct {a a' : Buf φ} {n n' : Buf ψ} {s0 s1 s2 s3 t0 t1 t2 t3 : Buf .ne} (ha : a.len = a'.len)
    (hn : n.len = n'.len) (h0 : s0.len = t0.len) (h1 : s1.len = t1.len) (h2 : s2.len = t2.len) (h3 : s3.len = t3.len)
    (hk : Obs.pos = true → SamePow2 n.toNat n'.toNat) :
    CtIf InvOk InvRel (ct_inv_mod_mp_mp a n s0 s1 s2 s3) (ct_inv_mod_mp_mp a' n' t0 t1 t2 t3) := by
  unfold ct_inv_mod_mp_mp
  dsimp only
  refine CtIf.condErr not_invOk not_invOk ?_
  refine CtIf.bind (Buf.len_is_compatible_with_ct hn ha) fun _ _ _ => ?_
  refine CtIf.condErr not_invOk not_invOk ?_
  refine CtIf.bind (Buf.len_is_compatible_with_ct ha hn) fun _ _ _ => ?_
  refine CtIf.condErr not_invOk not_invOk ?_
  refine CtIf.bind (Buf.load_l_ct ha (fun _ => rfl)) fun _ _ _ => ?_
  refine CtIf.bind (Buf.load_l_ct hn (fun _ => rfl)) fun _ _ _ => ?_
  refine CtIf.condErr not_invOk not_invOk ?_
  refine CtIf.condErr not_invOk not_invOk ?_
  refine CtIf.condErr not_invOk not_invOk ?_
  refine CtIf.condErr not_invOk not_invOk ?_
  refine CtIf.condErr not_invOk not_invOk ?_
  refine CtIf.bind (Buf.clear_bytes_above_ct h0 hn) fun r r' hr => ?_
  refine CtIf.bind (Buf.shrink_to_ct hr hn) ?_
  rintro ⟨r, _⟩ ⟨r', _⟩ ⟨hr, -⟩
  refine CtIf.bind (Buf.clear_bytes_above_ct h1 hn) fun s s' hs => ?_
  refine CtIf.bind (Buf.shrink_to_ct hs hn) ?_
  rintro ⟨s, _⟩ ⟨s', _⟩ ⟨hs, -⟩
  refine CtIf.bind (SameTr.post (ct_find_first_set_bit_mp_ct hn) (ct_find_first_set_bit_mp_sat n).post
    (ct_find_first_set_bit_mp_sat n').post) ?_
  rintro ⟨z, k⟩ ⟨z', k'⟩ ⟨-, ⟨-, htz⟩, -, htz'⟩
  dsimp only at htz htz' ⊢
  have hkk : Obs.pos = true → k = k' := fun hp => (hk hp).tz htz htz'
  refine CtIf.condErr not_invOk not_invOk ?_
  refine CtIf.bind (ct_rshift_mp_ct hn hkk) ?_
  rintro ⟨n, _⟩ ⟨n', _⟩ ⟨hn, -⟩
  dsimp only [low_buf] at hn ⊢
  rw [← hn]
  refine CtIf.bind (SameTr.subEq rfl rfl) ?_
  rintro m _ rfl
  refine CtIf.bind (ct_inv_mod_pow2_mp_ct hr ha rfl h2) ?_
  rintro ⟨r, t⟩ ⟨r', t'⟩ ⟨hr, ht⟩
  refine CtIf.bindOk (ct_inv_mod_odd_mp_mp_impl_ct hs ha hn ht h3) ?_ ?_ ?_
  · exact fun e => Post.bind (P := fun _ => True) Post.trivial fun _ _ =>
      Post.bind (P := fun _ => True) Post.trivial fun _ _ => Post.pure not_invOk
  · exact fun e => Post.bind (P := fun _ => True) Post.trivial fun _ _ =>
      Post.bind (P := fun _ => True) Post.trivial fun _ _ => Post.pure not_invOk
  rintro ⟨s, a, t, _⟩ ⟨s', a', t', _⟩ ⟨hs, ha, ht, -⟩
  exact inv_mod_garner_ct ha hn hr hs ht hkk

end Cmpa
