import Verif.Proofs.CostMontgomery
import Verif.Model.Lcm

/-!
# Bounds on the work: greatest common divisors
-/

set_option linter.unusedSectionVars false

namespace Cmpa
open M
variable [LimbCfg] {φ ψ χ : Fmt} {u v w : ℕ}

local instance : Obs := Obs.full

instance : Shape TransitionMatrix Unit := ⟨fun _ _ => True⟩
instance : Shape TransitionMatrix.FgState Unit := ⟨fun _ _ => True⟩
instance : Shape ℤ Unit := ⟨fun _ _ => True⟩
theorem fits_matrix {x : TransitionMatrix} : Shape.fits x () := trivial
theorem fits_fg {x : TransitionMatrix.FgState} : Shape.fits x () := trivial
theorem fits_int {x : ℤ} : Shape.fits x () := trivial
macro_rules
  | `(tactic| fits_ext) => `(tactic| with_reducible first | exact fits_matrix | exact fits_fg | exact fits_int)

namespace TransitionMatrix

theorem push_entry_cost {c : LimbChoice} {a b d x y : ℕ} : Cost (push_entry c a b d x y) 0 none := by
  unfold push_entry; cost; cost_fin

theorem push_transition_cost {m : TransitionMatrix} {c d : LimbChoice} : Cost (m.push_transition c d) 0 () := by
  unfold push_transition; cost; cost_fin

theorem compute_limb_cost {s : ℕ × ℕ × ℕ} {a b c d : ℕ × ℕ} :
    Cost (compute_limb s a b c d) 0 ((none, none, none), none) := by
  unfold compute_limb; cost!; cost_fin

theorem shift_limb_cost {a b c d : ℕ} : Cost (shift_limb a b c d) 0 none := by
  unfold shift_limb; cost; cost_fin

theorem fg_compute_cost {m : TransitionMatrix} {n : NegMask} {s : FgState} {c : ℕ × ℕ} :
    Cost (fg_compute m n s c) 0 () := by
  unfold fg_compute; cost; cost_fin

theorem fg_shift_cost {m : TransitionMatrix} {a b c : ℕ × ℕ} : Cost (fg_shift m a b c) 0 (none, none) := by
  unfold fg_shift; cost; cost_fin

theorem fg_step_cost {m : TransitionMatrix} {n : NegMask} {a : ℕ × ℕ} {k : ℕ} {f : Buf φ} {g : Buf ψ} {s : FgState}
    (hf : f.nlimbs ≤ u) (hg : g.nlimbs ≤ v) : Cost (fg_step m n a k (f, g, s)) 5 (u, v, ()) := by
  unfold fg_step; cost; cost_fin

theorem fg_head_cost {a b : ℕ} : Cost (fg_head a b) 0 none := by
  unfold fg_head; cost!; cost_fin

theorem apply_to_f_g_cost {m : TransitionMatrix} {n : NegMask} {a b : ℕ × ℕ} {f : Buf φ} {g : Buf ψ}
    (hf : f.nlimbs ≤ u) (hg : g.nlimbs ≤ v) :
    Cost (m.apply_to_f_g n a f b g) (6 * u + 3) ((u, none, none), (v, none, none)) := by
  unfold apply_to_f_g; cost; cost_fin

theorem entry_neg_mask_cost {t : ℕ} : Cost (entry_neg_mask t) 0 none := by
  unfold entry_neg_mask; cost; cost_fin

theorem t_is_neg_mask_cost {m : TransitionMatrix} : Cost m.t_is_neg_mask 0 ((none, none), (none, none)) := by
  unfold t_is_neg_mask; cost; cost_fin

end TransitionMatrix

theorem batch_step_cost {s : ℤ × ℕ × ℕ × TransitionMatrix} : Cost (batch_step s) 0 ((), none, none, ()) := by
  obtain ⟨a, b, c, d⟩ := s
  unfold batch_step; cost; cost_fin

theorem batch_divsteps_cost {d : ℤ} {a b : ℕ} : Cost (batch_divsteps d a b) W ((), ()) := by
  unfold batch_divsteps; cost; unfold STEPS_PER_BATCH; cost_fin

theorem nbatches_le_nlimbs {len : ℕ} (h : ct_mp_nlimbs len ≤ u) : nbatches len ≤ 4 * u + 1 := by
  have h1 := nlimbs_le_iff.1 h
  have h2 : W * u = 8 * (u * LB) := by unfold W; ring
  have h3 : W = 32 ∨ W = 64 := by
    unfold W
    rcases LimbCfg.lb_cases with h | h <;> simp [LB, h]
  unfold nbatches STEPS_PER_BATCH
  dsimp only
  rcases h3 with h3 | h3 <;> rw [h3] at h2 ⊢ <;> split <;> omega

section
variable {σ S : Type} [Shape σ S]

instance : Shape (GcdState φ ψ σ) (ℕ × ℕ × S) :=
  ⟨fun x s => x.f.nlimbs ≤ s.1 ∧ x.g.nlimbs ≤ s.2.1 ∧ Shape.fits x.ext s.2.2⟩

theorem fits_gcd {x : GcdState φ ψ σ} {s : S} (h1 : x.f.nlimbs ≤ u) (h2 : x.g.nlimbs ≤ v) (h3 : Shape.fits x.ext s) :
    Shape.fits x (u, v, s) := ⟨h1, h2, h3⟩
macro_rules
  | `(tactic| fits_ext) => `(tactic| (with_reducible refine fits_gcd ?_ ?_ ?_ <;> first | ub | fits))

theorem gcd_batch_cost {n k : ℕ} {upd : TransitionMatrix → NegMask → σ → M σ} {s : GcdState φ ψ σ} {t : S}
    (hs : Shape.fits s (u, v, t)) (hu : ∀ m n x, Shape.fits x t → Cost (upd m n x) k t) :
    Cost (gcd_batch n upd s) (W + 6 * u + 6 + k) (u, v, t) := by
  obtain ⟨h1, h2, h3⟩ := hs
  have h1 : s.f.nlimbs ≤ u := h1
  have h2 : s.g.nlimbs ≤ v := h2
  have h3 : Shape.fits s.ext t := h3
  unfold gcd_batch; cost!; cost_fin

theorem ct_gcd_ext_odd_mp_mp_cost {k : ℕ} {upd : TransitionMatrix → NegMask → σ → M σ} {e : σ} {f : Buf φ} {g : Buf ψ} {t : S}
    (hf : f.nlimbs ≤ u) (hg : g.nlimbs ≤ u) (he : Shape.fits e t) (hu : ∀ m n x, Shape.fits x t → Cost (upd m n x) k t) :
    Cost (ct_gcd_ext_odd_mp_mp upd e f g) ((4 * u + 1) * (W + 6 * u + 7 + k) + u + 6) (u, u, (), t) := by
  have hn : nbatches (max f.len g.len) ≤ 4 * u + 1 := nbatches_le_nlimbs (by
    rcases max_choice f.len g.len with h | h <;> rw [h] <;> assumption)
  unfold ct_gcd_ext_odd_mp_mp
  apply Cost.mono
  · refine Cost.assert.bind fun _ _ => Cost.assert.bind fun _ _ => Cost.assertM.bind fun _ _ =>
      Buf.load_l_cost.bind fun _ _ => Buf.load_l_cost.bind fun _ _ =>
      Cost.bind (k := u + 2) (s := (u, u, t)) (Cost.forRange hn (fits_gcd hf hg he) fun _ y _ hy => gcd_batch_cost hy hu) fun s hs => ?_
    obtain ⟨h1, h2, h3⟩ := hs
    have h1 : s.f.nlimbs ≤ u := h1
    have h2 : s.g.nlimbs ≤ u := h2
    have h3 : Shape.fits s.ext t := h3
    cost!
    cost_fin
  · rw [show W + 6 * u + 7 + k = W + 6 * u + 6 + k + 1 by omega]
    generalize (4 * u + 1) * (W + 6 * u + 6 + k + 1) = A
    omega

end

theorem gcd_negate_cost {f : Buf φ} {c : LimbChoice} (hf : f.nlimbs ≤ u) : Cost (gcd_negate f c) (3 * u + 2) u := by
  unfold gcd_negate; cost; cost_fin

theorem ct_gcd_odd_mp_mp_cost {f : Buf φ} {g : Buf ψ} (hf : f.nlimbs ≤ u) (hg : g.nlimbs ≤ u) :
    Cost (ct_gcd_odd_mp_mp f g) ((4 * u + 1) * (W + 6 * u + 7) + 4 * u + 20) (u, u) := by
  have := ct_gcd_ext_odd_mp_mp_cost (upd := fun _ _ s => pure s) (e := ()) (t := ()) hf hg trivial
    (fun _ _ _ _ => Cost.pure trivial)
  rw [Nat.add_zero] at this
  generalize (4 * u + 1) * (W + 6 * u + 7) = A at *
  unfold ct_gcd_odd_mp_mp; cost!; cost_fin

theorem ct_gcd_mp_mp_cost {f : Buf φ} {g : Buf ψ} (hf : f.nlimbs ≤ u) (hg : g.nlimbs ≤ u) :
    Cost (ct_gcd_mp_mp f g) ((4 * u + 1) * (W + 6 * u + 7) + 40 * u + 50) (u, u) := by
  have := fun (f : Buf φ) (g : Buf ψ) (hf : f.nlimbs ≤ u) (hg : g.nlimbs ≤ u) => ct_gcd_odd_mp_mp_cost hf hg
  generalize (4 * u + 1) * (W + 6 * u + 7) = A at *
  unfold ct_gcd_mp_mp; cost!; cost_fin

end Cmpa
