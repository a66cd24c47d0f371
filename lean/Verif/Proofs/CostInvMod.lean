import Verif.Proofs.CostEuclid
import Verif.Proofs.CtInvModOdd

/-!
# Bounds on the work: modular inverses and least common multiples
-/

set_option linter.unusedSectionVars false

namespace Cmpa
open M
variable [LimbCfg] {φ ψ χ : Fmt} {u v w : ℕ}

local instance : Obs := Obs.full

namespace TransitionMatrix

instance : Shape ModRow Unit := ⟨fun _ _ => True⟩
theorem fits_row {x : ModRow} : Shape.fits x () := trivial
instance : Shape (ModState φ ψ) (ℕ × ℕ) := ⟨fun x s => x.u_f.nlimbs ≤ s.1 ∧ x.u_g.nlimbs ≤ s.2⟩
theorem fits_mod {x : ModState φ ψ} (h1 : x.u_f.nlimbs ≤ u) (h2 : x.u_g.nlimbs ≤ v) : Shape.fits x (u, v) := ⟨h1, h2⟩
macro_rules
  | `(tactic| fits_ext) => `(tactic| first | with_reducible exact fits_row | (with_reducible refine fits_mod ?_ ?_ <;> ub))

theorem mod_start_cost {a b : ℕ × ℕ} {x y z : ℕ} : Cost (mod_start a b x y z) 0 () := by
  unfold mod_start; cost!; cost_fin

theorem mod_sub_cost {a b : ℕ} {x y : ℕ × ℕ} : Cost (mod_sub a b x y) 0 (none, none) := by
  unfold mod_sub; cost!; cost_fin

theorem mod_limb_cost {r : ModRow} {a b : ℕ} {x y z t : ℕ × ℕ} : Cost (mod_limb r a b x y z t) 0 ((), none) := by
  unfold mod_limb; cost!; cost_fin

theorem mod_step_cost {m : TransitionMatrix} {neg : NegMask} {n : Buf χ} {j : ℕ} {s : ModState φ ψ}
    (hs : Shape.fits s (u, v)) : Cost (mod_step m neg n j s) 5 (u, v) := by
  obtain ⟨h1, h2⟩ := hs
  have h1 : s.u_f.nlimbs ≤ u := h1
  have h2 : s.u_g.nlimbs ≤ v := h2
  unfold mod_step; cost!; cost_fin

theorem mod_head_cost {r : ModRow} {a b : ℕ × ℕ} : Cost (mod_head r a b) 0 none := by
  unfold mod_head; cost!; cost_fin

theorem _root_.Cmpa.RedcKernel.finish_in_twos_complement_cost {x : RedcKernel} {a : ℕ} :
    Cost (x.finish_in_twos_complement a) 0 (none, none) := by
  unfold RedcKernel.finish_in_twos_complement; cost!; cost_fin

theorem mod_finish_cost {b : Buf φ} {r : ModRow} {j x y : ℕ} (hb : b.nlimbs ≤ u) :
    Cost (mod_finish b r j x y) 1 (none, none, u) := by
  unfold mod_finish; cost!; cost_fin

theorem u_i_into_range_cost {b : Buf φ} {x y : ℕ} {n : Buf χ} (hb : b.nlimbs ≤ u) (hn : n.nlimbs ≤ w) :
    Cost (u_i_into_range b x y n) (5 * w) u := by
  unfold u_i_into_range; cost!; cost_fin

theorem apply_to_mod_odd_n_cost {m : TransitionMatrix} {neg : NegMask} {a : Buf φ} {b : Buf ψ} {n : Buf χ} {x : ℕ}
    (ha : a.nlimbs ≤ u) (hb : b.nlimbs ≤ v) (hn : n.nlimbs ≤ w) :
    Cost (m.apply_to_mod_odd_n neg a b n x) (16 * w + 5) (u, v) := by
  unfold apply_to_mod_odd_n
  apply Cost.mono
  · refine Cost.assert.bind fun _ _ => Cost.assert.bind fun _ _ => Cost.assertM.bind fun _ _ =>
      Cost.assert.bind fun _ _ => Cost.assertM.bind fun _ _ =>
      Buf.load_l_cost.bind fun _ _ => Buf.load_l_cost.bind fun _ _ => Buf.load_l_cost.bind fun _ _ =>
      mod_start_cost.bind fun _ _ => mod_start_cost.bind fun _ _ =>
      Cost.bind (k := 10 * w + 2) (s := (u, v)) (Cost.forRange (N := w) (by omega) (fits_mod ha hb)
        fun _ y _ hy => mod_step_cost hy) fun s hs => ?_
    obtain ⟨h1, h2⟩ := hs
    have h1 : s.u_f.nlimbs ≤ u := h1
    have h2 : s.u_g.nlimbs ≤ v := h2
    cost!
    cost_fin
  · cost_fin

end TransitionMatrix

theorem inv_check_step_cost {f : Buf .ne} {a b c : ℕ} : Cost (inv_check_step f a b c) 2 none := by
  unfold inv_check_step; cost; cost_fin

theorem inv_negate_cost {r : Buf φ} {n : Buf χ} {a b : ℕ} (hr : r.nlimbs ≤ u) (hn : n.nlimbs ≤ w) :
    Cost (inv_negate r n a b) (5 * w) u := by
  unfold inv_negate; cost; cost_fin

theorem ct_inv_mod_odd_mp_mp_impl_cost {r : Buf φ} {a : Buf ψ} {n : Buf χ} {s t : Buf .ne} (hr : r.nlimbs ≤ u)
    (ha : a.nlimbs ≤ u) (hn : n.nlimbs ≤ u) (hs : s.nlimbs ≤ u) (ht : t.nlimbs ≤ u) :
    Cost (ct_inv_mod_odd_mp_mp_impl r a n s t) ((4 * u + 1) * (W + 22 * u + 12) + 24 * u + 50)
      (u + u, u, u + u, u + u) := by
  have hgcd := fun (x : ℕ) (e : Buf φ × Buf .ne) (f : Buf .ne) (g : Buf ψ) (he : Shape.fits e (u, u)) (hf : f.nlimbs ≤ u)
      (hg : g.nlimbs ≤ u) =>
    ct_gcd_ext_odd_mp_mp_cost (upd := fun t neg s => t.apply_to_mod_odd_n neg s.1 s.2 n x) hf hg he
    (fun _ _ _ h => TransitionMatrix.apply_to_mod_odd_n_cost h.1 h.2 hn)
  have h1 : W + 6 * u + 7 + (16 * u + 5) = W + 22 * u + 12 := by omega
  rw [h1] at hgcd
  generalize (4 * u + 1) * (W + 22 * u + 12) = A at *
  unfold ct_inv_mod_odd_mp_mp_impl; cost!
  clear * -
  omega

theorem ct_inv_mod_odd_mp_mp_cost {r : Buf φ} {a : Buf ψ} {n : Buf χ} {s t : Buf .ne} (hr : r.nlimbs ≤ u)
    (ha : a.nlimbs ≤ u) (hn : n.nlimbs ≤ u) (hs : s.nlimbs ≤ u) (ht : t.nlimbs ≤ u) :
    Cost (ct_inv_mod_odd_mp_mp r a n s t) ((4 * u + 1) * (W + 22 * u + 12) + 28 * u + 60)
      (u + u, u, u + u, u + u) := by
  have := ct_inv_mod_odd_mp_mp_impl_cost hr ha hn hs ht
  generalize (4 * u + 1) * (W + 22 * u + 12) = A at *
  unfold ct_inv_mod_odd_mp_mp; cost!
  cost_fin

theorem inv_pow2_sub_step_cost {t : Buf .ne} {j x y : ℕ} {r : Buf φ} (hr : r.nlimbs ≤ u) :
    Cost (inv_pow2_sub_step t j (r, x, y)) 4 (u, none, none) := by
  unfold inv_pow2_sub_step; cost; cost_fin

theorem nlimbs_le_max {l m : ℕ} : ct_mp_nlimbs (min (2 * l) m) ≤ ct_mp_nlimbs m := nlimbs_mono (min_le_right _ _)

theorem inv_pow2_lift_cost {a : Buf ψ} {l m : ℕ} {r : Buf φ} {t : Buf .ne} (ha : a.nlimbs ≤ v) (hr : r.nlimbs ≤ u)
    (ht : t.nlimbs ≤ u) (hl : ct_mp_nlimbs l ≤ w) (hm : ct_mp_nlimbs ((m + 7) / 8) ≤ w) :
    Cost (inv_pow2_lift a l m (r, t)) (w * (8 * u + 5 * v + 5 * w + 15) + 9 * u + 20) (u, u) := by
  have h1 : ct_mp_nlimbs (min (2 * ((m + 7) / 8)) l) ≤ w := le_trans (nlimbs_mono (min_le_right _ _)) hl
  unfold inv_pow2_lift; cost!
  ring_nf
  omega

theorem inv_pow2_loop_cost {a : Buf ψ} {m l : ℕ} (ha : a.nlimbs ≤ v) (hl : ct_mp_nlimbs l ≤ w) (hm : (m + 7) / 8 ≤ l) :
    ∀ (fuel k c : ℕ) (r : Buf φ) (t : Buf .ne), r.nlimbs ≤ u → t.nlimbs ≤ u → m ≤ c * 2 ^ k →
      Cost (inv_pow2_loop a m l fuel c (r, t)) (k * (w * (8 * u + 5 * v + 5 * w + 15) + 9 * u + 21) + 1) (u, u)
  | 0, k, c, r, t, hr, ht, hk => by
    unfold inv_pow2_loop
    exact Cost.panic.mono (Nat.zero_le _)
  | fuel + 1, 0, c, r, t, hr, ht, hk => by
    unfold inv_pow2_loop
    refine (Cost.cond' (n := 0) (k := 0) (fun h => absurd h (by omega)) fun _ => Cost.pure (fits_mk hr ht)).mono ?_
    omega
  | fuel + 1, k + 1, c, r, t, hr, ht, hk => by
    unfold inv_pow2_loop
    have ih := inv_pow2_loop_cost ha hl hm fuel k (2 * c)
    refine (Cost.cond' (fun h => (inv_pow2_lift_cost ha hr ht hl ?_).bind
        (k := k * (w * (8 * u + 5 * v + 5 * w + 15) + 9 * u + 21) + 1) fun s hs => ?_)
      fun _ => Cost.pure (fits_mk hr ht)).mono ?_
    · exact le_trans (nlimbs_mono (le_trans (Nat.div_le_div_right (by omega)) hm)) hl
    · exact ih _ _ hs.1 hs.2 (le_trans hk (le_of_eq (by ring)))
    · rw [Nat.succ_mul k]
      generalize w * (8 * u + 5 * v + 5 * w + 15) = A
      generalize k * (A + 9 * u + 21) = C
      omega

theorem ct_inv_mod_pow2_mp_cost {r : Buf φ} {a : Buf ψ} {e m k : ℕ} {s : Buf .ne} (hr : r.nlimbs ≤ u)
    (ha : a.nlimbs ≤ v) (hs : s.nlimbs ≤ u) (hm : ct_mp_nlimbs ((m + 7) / 8) ≤ w) (hk : m ≤ 2 ^ k) :
    Cost (ct_inv_mod_pow2_mp r a e m s)
      (k * (w * (8 * u + 5 * v + 5 * w + 15) + 9 * u + 21) + 8 * u + 20) (u + u, u + u) := by
  have hloop := inv_pow2_loop_cost (φ := φ) (u := u) ha hm (le_refl _)
  replace hloop : ∀ (r : Buf φ) (t : Buf .ne), r.nlimbs ≤ u → t.nlimbs ≤ u →
      Cost (inv_pow2_loop a m ((m + 7) / 8) (m + 1) 1 (r, t)) (k * (w * (8 * u + 5 * v + 5 * w + 15) + 9 * u + 21) + 1)
        (u, u) := fun r t hr ht => hloop _ k 1 r t hr ht (by omega)
  generalize k * (w * (8 * u + 5 * v + 5 * w + 15) + 9 * u + 21) = A at *
  unfold ct_inv_mod_pow2_mp; cost!
  clear * -
  omega

instance : Shape GcdError Unit := ⟨fun _ _ => True⟩
theorem fits_gcd_err {x : GcdError} : Shape.fits x () := trivial
macro_rules
  | `(tactic| fits_ext) => `(tactic| with_reducible exact fits_gcd_err)

theorem inv_mod_map_err_cost {e : GcdError} : Cost (inv_mod_map_err e) 0 () := by
  cases e <;> unfold inv_mod_map_err <;> dsimp only <;> cost! <;> exact le_refl 0

theorem inv_mod_garner_cost {a : Buf φ} {n : Buf ψ} {b c s : Buf .ne} {e k : ℕ} (ha : a.nlimbs ≤ v) (hn : n.nlimbs ≤ u)
    (hb : b.nlimbs ≤ v) (hc : c.nlimbs ≤ v) (hs : s.nlimbs ≤ v) (hk : 8 * n.len ≤ 2 ^ k) :
    Cost (inv_mod_garner a n b c s e)
      (k * (u * (8 * v + 10 * u + 15) + 9 * v + 21) + u * (18 * v + 5 * u + 10) + 60 * v + 20 * u + 100) (u, v) := by
  have hp : ∀ (c s : Buf .ne) (m : ℕ), m ≤ 8 * n.len → c.nlimbs ≤ v → s.nlimbs ≤ v →
      Cost (ct_inv_mod_pow2_mp c n e m s) (k * (u * (8 * v + 10 * u + 15) + 9 * v + 21) + 8 * v + 20) (v + v, v + v) :=
    fun c s m hm hc hs => (ct_inv_mod_pow2_mp_cost (w := u) hc hn hs
      (le_trans (nlimbs_mono (by omega)) hn) (hm.trans hk)).mono (le_of_eq (by ring))
  clear hk
  generalize k * (u * (8 * v + 10 * u + 15) + 9 * v + 21) = A at *
  unfold inv_mod_garner; cost!
  simp only [zero_add, add_zero, max_self]
  clear * -
  ring_nf
  omega

theorem bits_le {n : Buf φ} {k : ℕ} (hn : n.nlimbs ≤ u) (hk : W * u ≤ 2 ^ k) : 8 * n.len ≤ 2 ^ k := by
  have := nlimbs_le_iff.1 (show ct_mp_nlimbs n.len ≤ u from hn)
  refine le_trans ?_ hk
  unfold W
  rw [mul_assoc, mul_comm LB]
  omega

theorem ct_inv_mod_mp_mp_cost {a : Buf φ} {n : Buf ψ} {s t p q : Buf .ne} {k : ℕ} (ha : a.nlimbs ≤ u) (hn : n.nlimbs ≤ u)
    (hs : s.nlimbs ≤ u) (ht : t.nlimbs ≤ u) (hp : p.nlimbs ≤ u) (hq : q.nlimbs ≤ u) (hk : W * u ≤ 2 ^ k) :
    Cost (ct_inv_mod_mp_mp a n s t p q)
      ((8 * u + 1) * (W + 44 * u + 12) + k * (60 * u ^ 2 + 75 * u + 42) + 77 * u ^ 2 + 500 * u + 400)
      (u, 4 * u) := by
  have hpow : ∀ (b s : Buf .ne) (e m : ℕ) (n : Buf ψ), m ≤ 8 * n.len → n.nlimbs ≤ u → b.nlimbs ≤ u → s.nlimbs ≤ u →
      Cost (ct_inv_mod_pow2_mp b a e m s) (k * (18 * u ^ 2 + 24 * u + 21) + 8 * u + 20) (2 * u, 2 * u) :=
    fun b s e m n hm hn hb hs => by
      have := (ct_inv_mod_pow2_mp_cost (e := e) hb ha hs
        (le_trans (nlimbs_mono (show (m + 7) / 8 ≤ n.len by omega)) hn) (hm.trans (bits_le hn hk))).mono
        (n' := k * (18 * u ^ 2 + 24 * u + 21) + 8 * u + 20) (le_of_eq (by ring))
      rwa [← two_mul] at this
  have hodd : ∀ (b : Buf .ne) (n : Buf ψ) (s : Buf .ne), b.nlimbs ≤ u → n.nlimbs ≤ u → s.nlimbs ≤ 2 * u →
      Cost (ct_inv_mod_odd_mp_mp_impl b a n s q) ((8 * u + 1) * (W + 44 * u + 12) + 48 * u + 50)
        (4 * u, 2 * u, 4 * u, 4 * u) := fun b n s hb hn hs => by
      have := (ct_inv_mod_odd_mp_mp_impl_cost (u := 2 * u) (r := b) (a := a) (n := n) (t := q) (by omega) (by omega) (by omega) hs
        (by omega)).mono (n' := (8 * u + 1) * (W + 44 * u + 12) + 48 * u + 50) (le_of_eq (by ring))
      rwa [show 2 * u + 2 * u = 4 * u by omega] at this
  have hgar : ∀ (a : Buf φ) (n : Buf ψ) (b c s : Buf .ne) (e : ℕ), a.nlimbs ≤ 2 * u → n.nlimbs ≤ u →
      b.nlimbs ≤ 2 * u → c.nlimbs ≤ 4 * u → s.nlimbs ≤ 4 * u →
      Cost (inv_mod_garner a n b c s e) (k * (42 * u ^ 2 + 51 * u + 21) + 77 * u ^ 2 + 270 * u + 100) (u, 4 * u) :=
    fun a n b c s e ha hn hb hc hs => by
      refine (inv_mod_garner_cost (u := u) (v := 4 * u) (k := k) (by omega) hn (by omega) hc hs
        (bits_le hn hk)).mono (le_of_eq (by ring))
  have hA : k * (60 * u ^ 2 + 75 * u + 42) = k * (18 * u ^ 2 + 24 * u + 21) + k * (42 * u ^ 2 + 51 * u + 21) := by ring
  rw [hA]
  clear hA hk
  generalize k * (18 * u ^ 2 + 24 * u + 21) = A at *
  generalize k * (42 * u ^ 2 + 51 * u + 21) = C at *
  generalize (8 * u + 1) * (W + 44 * u + 12) = D at *
  generalize u ^ 2 = U at *
  unfold ct_inv_mod_mp_mp; cost!
  clear * -
  omega

theorem lcm_copy_step_cost {p h : Buf χ} {a b c d i x : ℕ} (hh : h.nlimbs ≤ u) :
    Cost (lcm_copy_step p a b c d i (h, x)) 3 (u, none) := by
  unfold lcm_copy_step; cost; cost_fin

theorem lcm_copy_high_cost {p h : Buf χ} {l : ℕ} (hh : h.nlimbs ≤ u) (hl : ct_mp_nlimbs l ≤ w) :
    Cost (lcm_copy_high p h l) (4 * w + u + 2) u := by
  unfold lcm_copy_high; cost!; cost_fin

theorem lcm_divide_cost {r : Buf φ} {g : Buf ψ} {a p : Buf χ} {l : ℕ} (hr : r.nlimbs ≤ w) (hg : g.nlimbs ≤ u) (ha : a.nlimbs ≤ u)
    (hp : p.nlimbs ≤ v) (hl : ct_mp_nlimbs l ≤ u) :
    Cost (lcm_divide r g a p l) ((2 * u + 2 * v + 1) * (76 * u + 172) + 70 * u + 10 * v + w + 60) w := by
  have hnew : ∀ b : Buf ψ, b.nlimbs ≤ u → Cost (CtMpDivisor.new b none) (7 * u + 12) u :=
    fun b hb => CtMpDivisor.new_cost hb (by simp)
  have hdiv : ∀ (a b : Buf χ) (d : CtMpDivisor ψ), a.nlimbs ≤ u → b.nlimbs ≤ v → Shape.fits d u →
      Cost (ct_div_mp_mp (some a) b d (some r)) ((2 * u + 2 * v + 1) * (76 * u + 172) + 40 * u + 3 * v + w + 16)
        (2 * (u + v + 2), 2 * (u + v + 2), w) := fun a b d ha hb hd =>
    (ct_div_mp_mp_cost (u := u + v) (fits_some (show a.nlimbs ≤ u + v by omega)) (by omega) hd (fits_some hr)).mono
      (le_of_eq (by ring))
  generalize (2 * u + 2 * v + 1) * (76 * u + 172) = A at *
  unfold lcm_divide; cost!
  clear * -
  omega

theorem ct_lcm_mp_mp_cost {r : Buf φ} {a : Buf ψ} {b s : Buf χ} {l m : ℕ} (hr : r.nlimbs ≤ w) (ha : a.nlimbs ≤ u)
    (hb : b.nlimbs ≤ u) (hs : s.nlimbs ≤ v) :
    Cost (ct_lcm_mp_mp r a l b m s)
      ((2 * u + 2 * v + 1) * (76 * u + 172) + (4 * u + 1) * (W + 6 * u + 7) + u * (4 * v + 5 * u + 3) + 120 * u + 30 * v
        + 2 * w + 200) w := by
  have hl : ct_mp_nlimbs (min l a.len) ≤ u := le_trans (nlimbs_mono (min_le_right _ _)) ha
  have hm : ct_mp_nlimbs (min m b.len) ≤ u := le_trans (nlimbs_mono (min_le_right _ _)) hb
  have hmax : ct_mp_nlimbs (max (min l a.len) (min m b.len)) ≤ u := by
    rcases max_choice (min l a.len) (min m b.len) with h | h <;> rw [h] <;> assumption
  have hgcd := fun (a : Buf ψ) (b : Buf χ) (ha : a.nlimbs ≤ u) (hb : b.nlimbs ≤ u) => ct_gcd_mp_mp_cost ha hb
  have hdiv := fun (g : Buf ψ) (a p : Buf χ) (hg : g.nlimbs ≤ u) (ha : a.nlimbs ≤ u) (hp : p.nlimbs ≤ v) =>
    lcm_divide_cost hr hg ha hp hmax
  generalize (2 * u + 2 * v + 1) * (76 * u + 172) = A at *
  generalize (4 * u + 1) * (W + 6 * u + 7) = D at *
  unfold ct_lcm_mp_mp; cost!
  generalize u * (4 * v + 5 * u + 3) = E
  clear * -
  omega

end Cmpa
