import Verif.Proofs.CtMontgomery
import Verif.Proofs.Gcd

/-!
# Constant time: greatest common divisors
-/

set_option linter.unusedSectionVars false

namespace Cmpa
open M
variable [LimbCfg] [Obs] {φ ψ : Fmt}

instance : Pub TransitionMatrix := ⟨fun _ _ => True⟩
instance : Pub TransitionMatrix.FgState := ⟨fun _ _ => True⟩
instance : Pub ℤ := ⟨fun _ _ => True⟩

namespace TransitionMatrix

theorem push_entry_ct {a b : LimbChoice} {c d e f g c' d' e' f' g' : ℕ} :
    Ct (push_entry a c d e f g) (push_entry b c' d' e' f' g') := by
  unfold push_entry
  ct

theorem push_transition_ct {m m' : TransitionMatrix} {a b c d : LimbChoice} :
    Ct (m.push_transition a b) (m'.push_transition c d) := by
  unfold push_transition
  ct

theorem compute_limb_ct {s s' : ℕ × ℕ × ℕ} {a b c d a' b' c' d' : ℕ × ℕ} :
    Ct (compute_limb s a b c d) (compute_limb s' a' b' c' d') := by
  unfold compute_limb
  ct

theorem shift_limb_ct {a b c d a' b' c' d' : ℕ} : Ct (shift_limb a b c d) (shift_limb a' b' c' d') := by
  unfold shift_limb
  ct

theorem fg_compute_ct {m m' : TransitionMatrix} {n n' : NegMask} {s s' : FgState} {c c' : ℕ × ℕ} :
    Ct (fg_compute m n s c) (fg_compute m' n' s' c') := by
  unfold fg_compute
  ct

theorem fg_shift_ct {m m' : TransitionMatrix} {a b c a' b' c' : ℕ × ℕ} :
    Ct (fg_shift m a b c) (fg_shift m' a' b' c') := by
  unfold fg_shift
  ct

theorem fg_step_ct {m m' : TransitionMatrix} {n n' : NegMask} {a a' : ℕ × ℕ} {k k' : ℕ}
    {s s' : Buf φ × Buf ψ × FgState} (hk : k = k') (hs : Pub.rel s s') :
    Ct (fg_step m n a k s) (fg_step m' n' a' k' s') := by
  obtain ⟨f, g, s⟩ := s
  obtain ⟨f', g', s'⟩ := s'
  obtain ⟨hf, hg, -⟩ := hs
  rw [low_buf] at hf hg
  dsimp only at hf hg
  subst hk
  unfold fg_step
  ct

theorem fg_head_ct {a b c d : ℕ} : Ct (fg_head a b) (fg_head c d) := by
  unfold fg_head
  ct

theorem apply_to_f_g_ct {m m' : TransitionMatrix} {n n' : NegMask} {a b a' b' : ℕ × ℕ} {f f' : Buf φ} {g g' : Buf ψ}
    (hf : f.len = f'.len) (hg : g.len = g'.len) :
    Ct (apply_to_f_g m n a f b g) (apply_to_f_g m' n' a' f' b' g') := by
  unfold apply_to_f_g
  ct

theorem entry_neg_mask_ct {a b : ℕ} : Ct (entry_neg_mask a) (entry_neg_mask b) := by
  unfold entry_neg_mask
  ct

theorem t_is_neg_mask_ct {m m' : TransitionMatrix} : Ct (t_is_neg_mask m) (t_is_neg_mask m') := by
  unfold t_is_neg_mask
  ct

end TransitionMatrix

theorem batch_step_ct {s s' : ℤ × ℕ × ℕ × TransitionMatrix} : Ct (batch_step s) (batch_step s') := by
  unfold batch_step
  ct

theorem batch_divsteps_ct {a b : ℤ} {c d c' d' : ℕ} : Ct (batch_divsteps a c d) (batch_divsteps b c' d') := by
  unfold batch_divsteps
  ct

variable {σ : Type} [Pub σ]

instance : Pub (GcdState φ ψ σ) := ⟨fun s t => s.f.len = t.f.len ∧ s.g.len = t.g.len ∧ Pub.rel s.ext t.ext⟩

theorem gcd_batch_ct {n n' : ℕ} {upd upd' : TransitionMatrix → NegMask → σ → M σ} {s s' : GcdState φ ψ σ}
    (hn : n = n') (hs : Pub.rel s s') (hu : ∀ m m' k k' e e', Pub.rel e e' → Ct (upd m k e) (upd' m' k' e')) :
    Ct (gcd_batch n upd s) (gcd_batch n' upd' s') := by
  obtain ⟨hf, hg, he⟩ := hs
  subst hn
  unfold gcd_batch
  ct
  exact hu _ _ _ _ _ _ he

theorem ct_gcd_ext_odd_mp_mp_ct {upd upd' : TransitionMatrix → NegMask → σ → M σ} {e e' : σ} {f f' : Buf φ}
    {g g' : Buf ψ} (hf : f.len = f'.len) (hg : g.len = g'.len) (he : Pub.rel e e')
    (hu : ∀ m m' k k' e e', Pub.rel e e' → Ct (upd m k e) (upd' m' k' e')) :
    Ct (ct_gcd_ext_odd_mp_mp upd e f g) (ct_gcd_ext_odd_mp_mp upd' e' f' g') := by
  unfold ct_gcd_ext_odd_mp_mp
  ct
  exact hu _ _ _ _ _ _ (by assumption)

theorem gcd_negate_ct {f f' : Buf φ} {c c' : LimbChoice} (hf : f.len = f'.len) :
    Ct (gcd_negate f c) (gcd_negate f' c') := by
  unfold gcd_negate
  ct

theorem ct_gcd_odd_mp_mp_ct {f f' : Buf φ} {g g' : Buf ψ} (hf : f.len = f'.len) (hg : g.len = g'.len) :
    CtOk (ct_gcd_odd_mp_mp f g) (ct_gcd_odd_mp_mp f' g') := by
  unfold ct_gcd_odd_mp_mp
  ct

/-- The same powers of two divide both numbers. -/
def SamePow2 (x y : ℕ) : Prop := ∀ k, 2 ^ k ∣ x ↔ 2 ^ k ∣ y

theorem not_two_pow_dvd {z : ℕ} (h0 : z ≠ 0) : ¬ 2 ^ z ∣ z := fun hd =>
  absurd (Nat.le_of_dvd (Nat.pos_of_ne_zero h0) hd) (not_le.2 Nat.lt_two_pow_self)

theorem SamePow2.tz {x y s t : ℕ} (h : SamePow2 x y) (hs : IsTz 0 x s) (ht : IsTz 0 y t) : s = t := by
  rcases hs with ⟨rfl, rfl⟩ | ⟨h0, h1, h2⟩ <;> rcases ht with ⟨rfl, rfl⟩ | ⟨h3, h4, h5⟩
  · rfl
  · exact absurd ((h y).1 (dvd_zero _)) (not_two_pow_dvd h3)
  · exact absurd ((h x).2 (dvd_zero _)) (not_two_pow_dvd h0)
  · by_contra hc
    rcases lt_or_gt_of_ne hc with hc | hc
    · exact h2 (dvd_trans (pow_dvd_pow 2 (show s + 1 ≤ t from hc)) ((h t).2 h4))
    · exact h5 (dvd_trans (pow_dvd_pow 2 (show t + 1 ≤ s from hc)) ((h s).1 h1))

/-- The number of trailing zeros of a greatest common divisor. -/
theorem gcd_tz {a b ta tb : ℕ} (ha : IsTz 0 a ta) (hb : IsTz 0 b tb) :
    IsTz 0 (Nat.gcd a b)
      (if (!decide (a ≠ 0) || (decide (b ≠ 0) && decide (tb < ta))) = true then tb else ta) := by
  generalize hfw : (!decide (a ≠ 0) || (decide (b ≠ 0) && decide (tb < ta))) = fewer
  generalize ht : (if fewer = true then tb else ta) = t
  obtain ⟨hd0, hd1, hodd, ht0⟩ := gcd_factor ha hb fewer (by rw [← hfw]; simp) t ht.symm
  by_cases h0 : a = 0 ∧ b = 0
  · left; exact ⟨by rw [h0.1, h0.2]; rfl, ht0 h0⟩
  · right
    refine ⟨fun h => h0 ⟨Nat.eq_zero_of_gcd_eq_zero_left h, Nat.eq_zero_of_gcd_eq_zero_right h⟩,
      Nat.dvd_gcd hd0 hd1, fun h => ?_⟩
    have h1 := hodd h0
    have key : ∀ x, 2 ^ (t + 1) ∣ x → x / 2 ^ t % 2 ≠ 1 := by
      rintro x ⟨y, rfl⟩
      rw [pow_succ, mul_assoc, Nat.mul_div_cancel_left _ (Nat.two_pow_pos t)]
      omega
    split at h1
    · exact key _ (dvd_trans h (Nat.gcd_dvd_right _ _)) h1
    · exact key _ (dvd_trans h (Nat.gcd_dvd_left _ _)) h1

/-- What is shifted out and in again is the power of two dividing both operands: the distance is
seen if positions are. -/
theorem ct_gcd_mp_mp_ct {op0 op0' : Buf φ} {op1 op1' : Buf ψ} (h0 : op0.len = op0'.len)
    (h1 : op1.len = op1'.len)
    (hk : Obs.pos = true → SamePow2 (Nat.gcd op0.toNat op1.toNat) (Nat.gcd op0'.toNat op1'.toNat)) :
    CtOk (ct_gcd_mp_mp op0 op1) (ct_gcd_mp_mp op0' op1') := by
  unfold ct_gcd_mp_mp
  iterate 4 ct_step
  refine CtOk.bind (SameTr.post (ct_find_first_set_bit_mp_ct h0) (ct_find_first_set_bit_mp_sat op0).post
    (ct_find_first_set_bit_mp_sat op0').post) ?_
  rintro ⟨z0, ta⟩ ⟨z0', ta'⟩ ⟨-, ⟨hz0, hta⟩, hz0', hta'⟩
  refine CtOk.bind (SameTr.post (ct_find_first_set_bit_mp_ct h1) (ct_find_first_set_bit_mp_sat op1).post
    (ct_find_first_set_bit_mp_sat op1').post) ?_
  rintro ⟨z1, tb⟩ ⟨z1', tb'⟩ ⟨-, ⟨hz1, htb⟩, hz1', htb'⟩
  dsimp only at hz0 hta hz1 htb hz0' hta' hz1' htb' ⊢
  have hd : Obs.pos = true → (z0.not.or (z1.and (ct_lt_usize_usize tb ta))).select_usize ta tb =
      (z0'.not.or (z1'.and (ct_lt_usize_usize tb' ta'))).select_usize ta' tb' := by
    intro hp
    rw [hz0, hz1, hz0', hz1', ct_lt_usize_usize_eq, ct_lt_usize_usize_eq, LimbChoice.not_ofBool, LimbChoice.not_ofBool,
      LimbChoice.and_ofBool, LimbChoice.or_ofBool, LimbChoice.and_ofBool, LimbChoice.or_ofBool,
      LimbChoice.select_usize_ofBool, LimbChoice.select_usize_ofBool]
    exact (hk hp).tz (gcd_tz hta htb) (gcd_tz hta' htb')
  ct

end Cmpa
