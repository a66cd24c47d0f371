import Verif.Proofs.CostDiv
import Verif.Proofs.CtMontgomery

/-!
# Bounds on the work: Montgomery arithmetic
-/

set_option linter.unusedSectionVars false

namespace Cmpa
open M
variable [LimbCfg] {f g h f' : Fmt} {u v w k : ℕ}

/-! ### Lengths which stay the same -/

namespace M
theorem Post.loopUp {σ : Type} {P : σ → Prop} : ∀ {n lo : ℕ} {x : σ} {F : ℕ → σ → M σ}, P x →
    (∀ i y, P y → Post (F i y) P) → Post (M.loopUp n lo x F) P
  | 0, lo, x, F, h0, _ => by unfold M.loopUp; exact .pure h0
  | n + 1, lo, x, F, h0, h => by
    unfold M.loopUp
    exact Post.bind Post.trivial fun _ _ => Post.bind (h lo x h0) fun y hy => Post.loopUp hy h

theorem Post.forRange {σ : Type} {P : σ → Prop} {lo hi : ℕ} {x : σ} {F : ℕ → σ → M σ} (h0 : P x)
    (h : ∀ i y, P y → Post (F i y) P) : Post (M.forRange lo hi x F) P := Post.loopUp h0 h

theorem Post.cond {α : Type} {P : α → Prop} {c : Prop} [Decidable c] {t e : M α} (ht : Post t P) (he : Post e P) :
    Post (M.cond c t e) P := Post.bind Post.trivial fun _ _ => Post.ite ht he

theorem Post.panic {α : Type} {P : α → Prop} : Post (M.panic : M α) P := fun _ h => by simp [M.panic] at h
end M

theorem Buf.store_l_full_lenIs {b : Buf f} {i x L : ℕ} (hb : b.len = L) :
    Post (b.store_l_full i x) (fun c => c.len = L) := (store_l_full_len b i x).mono fun _ h => h.trans hb

theorem Buf.store_l_lenIs {b : Buf f} {i x L : ℕ} (hb : b.len = L) :
    Post (b.store_l i x) (fun c => c.len = L) := (store_l_len b i x).mono fun _ h => h.trans hb

/-- Go through code which keeps the length `L` of a buffer. -/
macro "keeps " L:term : tactic => `(tactic| repeat' (first
  | exact Buf.store_l_full_lenIs (by assumption)
  | exact Buf.store_l_lenIs (by assumption)
  | exact Post.pure (by assumption)
  | exact Post.panic
  | with_reducible refine Post.cond ?_ ?_
  | with_reducible refine Post.forRange (by assumption) fun _ _ _ => ?_
  | with_reducible refine Post.bind (P := fun s => Buf.len s.1 = $L) ?_ fun _ _ => ?_
  | with_reducible refine Post.bind (P := fun s => Buf.len s = $L) ?_ fun _ _ => ?_
  | with_reducible refine Post.bind Post.trivial fun _ _ => ?_))

theorem ct_sub_cond_mp_mp_len {a : Buf f} {b : Buf g} {c : LimbChoice} {L : ℕ} (ha : a.len = L) :
    Post (ct_sub_cond_mp_mp a b c) (fun r => r.1.len = L) := by
  unfold ct_sub_cond_mp_mp; dsimp only; keeps L

theorem redc_finish_len {t : Buf f} {n : Buf g} {x y z r L : ℕ} (ht : t.len = L) :
    Post (redc_finish t n x y z r) (fun r => r.len = L) := by
  unfold redc_finish; dsimp only; keeps L
  exact ct_sub_cond_mp_mp_len (by assumption)

theorem mg_mul_step_len {a : Buf g} {b : Buf h} {n : Buf f'} {x y i L : ℕ} {s : Buf f × ℕ × ℕ} (hs : s.1.len = L) :
    Post (mg_mul_step a b n x y i s) (fun r => r.1.len = L) := by
  unfold mg_mul_step; dsimp only; keeps L

theorem mg_redc_step_len {n : Buf f'} {x y L : ℕ} {s : Buf f × ℕ × ℕ} (hs : s.1.len = L) :
    Post (mg_redc_step n x y s) (fun r => r.1.len = L) := by
  unfold mg_redc_step; dsimp only; keeps L

theorem shrink_to_len {b : Buf f} {n : ℕ} : Post (b.shrink_to n) (fun r => r.1.len + r.2.len = b.len) := by
  unfold Buf.shrink_to
  refine Post.bind Post.trivial fun _ _ => ?_
  obtain ⟨l, h, e, h1, h2, _⟩ := b.shrink_to_eq' (n := min n b.len) (min_le_right _ _)
  rw [e]
  intro a ha
  cases ha
  have := Buf.limbs_align_len_le b (n := min n b.len) (min_le_right _ _)
  dsimp only
  omega

theorem ct_montgomery_mul_mod_mp_mp_len {r : Buf f} {a : Buf g} {b : Buf h} {n : Buf f'} {x : ℕ} :
    Post (ct_montgomery_mul_mod_mp_mp r a b n x) (fun o => ∀ y, o = .ok y → y.len = r.len) := by
  unfold ct_montgomery_mul_mod_mp_mp
  have he : ∀ e : MgError, Post (pure (.error e) : M (Except MgError (Buf f))) (fun o => ∀ y, o = .ok y → y.len = r.len) :=
    fun e => Post.pure fun y h => by cases h
  refine Post.cond (he _) (Post.bind Post.trivial fun _ _ => Post.cond (he _) <| Post.bind Post.trivial fun _ _ =>
    Post.cond (he _) <| Post.bind Post.trivial fun _ _ => Post.bind Post.trivial fun _ _ =>
    Post.bind Post.trivial fun _ _ => Post.cond (he _) <| Post.bind Post.trivial fun _ _ =>
    Post.bind Post.trivial fun _ _ => Post.bind Post.trivial fun _ _ => Post.bind Post.trivial fun _ _ =>
    Post.bind Post.trivial fun _ _ => Post.bind (P := fun y => y.len = r.len) ?_ fun y hy =>
    Post.bind shrink_to_len fun (l, m) hl => Post.bind Post.trivial fun _ _ =>
    Post.bind (P := fun s => s.1.len = l.len) (Post.forRange rfl fun _ _ h => mg_mul_step_len h) fun s hs =>
    Post.bind (P := fun s => s.1.len = l.len) (Post.forRange hs fun _ _ h => mg_redc_step_len h) fun t ht =>
    Post.bind Post.trivial fun _ _ => Post.bind (redc_finish_len ht) fun z hz => Post.pure ?_)
  · obtain ⟨b', h1, h2, _⟩ := Buf.clear_bytes_above_eq r 0
    rw [h1]
    intro a ha
    cases ha
    exact h2
  · intro a ha
    cases ha
    rw [Buf.len_join]
    dsimp only at hl
    omega

/-! ### The work -/

instance : Shape RedcKernel Unit := ⟨fun _ _ => True⟩
theorem fits_kernel {x : RedcKernel} : Shape.fits x () := trivial
macro_rules
  | `(tactic| fits_ext) => `(tactic| with_reducible exact fits_kernel)

local instance : Obs := Obs.full

theorem fits_join {a b : Buf f} (ha : a.nlimbs ≤ u) (hb : b.nlimbs ≤ v) : Shape.fits (Buf.join a b) (u + v) :=
  le_trans (Buf.nlimbs_join_le a b) (Nat.add_le_add ha hb)
macro_rules
  | `(tactic| fits_ext) => `(tactic| (with_reducible apply fits_join <;> ub))

theorem RedcKernel.start_cost {a b c d : ℕ} : Cost (RedcKernel.start a b c d) 0 () := .quiet (quiet_start ..) fun _ _ => trivial
theorem RedcKernel.update_cost {x : RedcKernel} {a b : ℕ} : Cost (x.update a b) 0 ((), none) :=
  .quiet (quiet_update ..) fun _ _ => fits_mk trivial fits_nat
theorem RedcKernel.finish_cost {x : RedcKernel} {a : ℕ} : Cost (x.finish a) 0 (none, none) :=
  .quiet (quiet_finish ..) fun _ _ => fits_mk fits_nat fits_nat

theorem redc_step_cost {n : Buf g} {x y : ℕ} {s : Buf f × ℕ × ℕ} (hn : n.nlimbs ≤ v) (hs : Shape.fits s (u, none, none)) :
    Cost (redc_step n x y s) (4 * v + 3 * u + 10) (u, none, none) := by
  obtain ⟨a, b, c⟩ := s
  obtain ⟨h1, h2, h3⟩ := hs
  have h1 : a.nlimbs ≤ u := h1
  unfold redc_step; cost
  cost_fin

theorem redc_finish_cost {t : Buf f} {n : Buf g} {x y z r : ℕ} (ht : t.nlimbs ≤ u) (hn : n.nlimbs ≤ v) :
    Cost (redc_finish t n x y z r) (10 * u + 5 * v + 10) u := by
  unfold redc_finish; cost
  cost_fin

theorem ct_montgomery_redc_mp_cost {t : Buf f} {n : Buf g} {x : ℕ} (ht : t.nlimbs ≤ u) (hn : n.nlimbs ≤ v) :
    Cost (ct_montgomery_redc_mp t n x) (v * (4 * v + 3 * u + 11) + 10 * u + 5 * v + 30) u := by
  have hn' : ct_montgomery_radix_shift_mp_nlimbs n.len ≤ v := hn
  unfold ct_montgomery_redc_mp; cost
  cost_fin

theorem load_shadow_cost {r : Buf f} {x y z : ℕ} : Cost (load_shadow r x y z) 2 none := by
  unfold load_shadow; cost; cost_fin

theorem mg_mul_step_cost {a : Buf g} {b : Buf h} {n : Buf f'} {x y i : ℕ} {s : Buf f × ℕ × ℕ} (hb : b.nlimbs ≤ w)
    (hn : n.nlimbs ≤ v) (hs : Shape.fits s (u, none, none)) :
    Cost (mg_mul_step a b n x y i s) (6 * w + 5 * v + 4) (u, none, none) := by
  obtain ⟨a, b, c⟩ := s
  obtain ⟨h1, h2, h3⟩ := hs
  have h1 : a.nlimbs ≤ u := h1
  unfold mg_mul_step; cost
  cost_fin

theorem mg_redc_step_cost {n : Buf f'} {x y : ℕ} {s : Buf f × ℕ × ℕ}
    (hn : n.nlimbs ≤ v) (hs : Shape.fits s (u, none, none)) :
    Cost (mg_redc_step n x y s) (5 * v + 2) (u, none, none) := by
  obtain ⟨a, b, c⟩ := s
  obtain ⟨h1, h2, h3⟩ := hs
  have h1 : a.nlimbs ≤ u := h1
  unfold mg_redc_step; cost
  cost_fin

theorem ct_montgomery_mul_mod_mp_mp_cost {r : Buf f} {a : Buf g} {b : Buf h} {n : Buf f'} {x : ℕ} (hr : r.nlimbs ≤ u)
    (ha : a.nlimbs ≤ w) (hb : b.nlimbs ≤ w) (hn : n.nlimbs ≤ v) :
    Cost (ct_montgomery_mul_mod_mp_mp r a b n x)
      (w * (6 * w + 5 * v + 5) + v * (5 * v + 3) + 12 * u + 5 * v + 40) u := by
  have key : Cost (ct_montgomery_mul_mod_mp_mp r a b n x)
      (w * (6 * w + 5 * v + 5) + v * (5 * v + 3) + 12 * u + 5 * v + 40) (u + u) := by
    have hn' : ct_montgomery_radix_shift_mp_nlimbs n.len ≤ v := hn
    unfold ct_montgomery_mul_mod_mp_mp; cost!
    cost_fin
  refine ⟨key.1, fun o ho y hy => ?_⟩
  have := ct_montgomery_mul_mod_mp_mp_len o ho y hy
  exact fits_buf (by rw [Buf.nlimbs, this]; exact hr)

theorem ct_montgomery_neg_n0_inv_mod_l_mp_cost {n : Buf f} : Cost (ct_montgomery_neg_n0_inv_mod_l_mp n) 3 none := by
  unfold ct_montgomery_neg_n0_inv_mod_l_mp; cost; cost_fin

theorem ct_to_montgomery_form_direct_mp_cost {t : Buf f} {n : Buf g} (ht : t.nlimbs ≤ u) (hn : n.nlimbs ≤ v) :
    Cost (ct_to_montgomery_form_direct_mp t n) ((u + v + 1) * (18 * v + 52) + 10 * u + 10 * v + 50) u := by
  have hk : ct_mp_nlimbs (t.len + ct_montgomery_radix_shift_len n.len) ≤ u + v :=
    nlimbs_add_le ht (by unfold ct_montgomery_radix_shift_len ct_mp_limbs_align_len; rw [nlimbs_mul]; exact hn)
  have hnew := CtMpDivisor.new_cost (b := n) (dec := none) hn (by simp)
  unfold ct_to_montgomery_form_direct_mp; cost!
  generalize (u + v + 1) * (18 * v + 52) = A
  omega

theorem unwrapE_cost {α S ε : Type} [Shape α S] {m : M (Except ε α)} {s : S} (h : Cost m k s) : Cost (unwrapE m) k s := by
  unfold unwrapE
  refine (h.bind (k := 0) fun r hr => ?_)
  cases r with
  | error e => exact .panic
  | ok a => exact .pure (fits_ok_elim hr)

theorem ct_montgomery_radix2_mod_n_mp_cost {r : Buf f} {n : Buf g} (hr : r.nlimbs ≤ u) (hn : n.nlimbs ≤ v) :
    Cost (ct_montgomery_radix2_mod_n_mp r n) ((2 * v + 2) * (8 * v + 21) + 12 * v + 3 * u + 60) (u + u) := by
  have he : 2 * 8 * ct_montgomery_radix_shift_len n.len / W ≤ 2 * v := by
    have : 2 * 8 * ct_montgomery_radix_shift_len n.len = W * (2 * n.nlimbs) := by
      unfold ct_montgomery_radix_shift_len ct_mp_limbs_align_len W Buf.nlimbs
      ring
    rw [this, Nat.mul_div_cancel_left _ W_pos]
    omega
  have hnew := CtMpDivisor.new_cost (b := n) (dec := none) hn (by simp)
  have hmod : ∀ (a : Buf f) (d : CtMpDivisor g), a.nlimbs ≤ u → Shape.fits d v →
      Cost (ct_mod_pow2_mp (2 * 8 * ct_montgomery_radix_shift_len n.len) a d)
        ((2 * v + 2) * (8 * v + 21) + 5 * v + u + 20) u := fun a d ha hd =>
    (ct_mod_pow2_mp_cost hd ha).mono (by
      have : (2 * 8 * ct_montgomery_radix_shift_len n.len / W + 2) * (8 * v + 21) ≤ (2 * v + 2) * (8 * v + 21) :=
        Nat.mul_le_mul_right _ (by omega)
      omega)
  generalize (2 * v + 2) * (8 * v + 21) = A at *
  unfold ct_montgomery_radix2_mod_n_mp; cost!
  omega

theorem ct_to_montgomery_form_mp_cost {r : Buf f} {t : Buf g} {n : Buf f'} {x : ℕ} {b : Buf h} (hr : r.nlimbs ≤ u)
    (ht : t.nlimbs ≤ w) (hb : b.nlimbs ≤ w) (hn : n.nlimbs ≤ v) :
    Cost (ct_to_montgomery_form_mp r t n x b)
      (w * (6 * w + 5 * v + 5) + v * (5 * v + 3) + 12 * u + 5 * v + 50) u := by
  have := ct_montgomery_mul_mod_mp_mp_cost (x := x) hr ht hb hn
  generalize w * (6 * w + 5 * v + 5) + v * (5 * v + 3) = A at *
  unfold ct_to_montgomery_form_mp; cost!
  omega

theorem _ct_montogmery_exp_mod_mp_mp_cost {e : Fmt} {r : Buf f} {a : Buf g} {n : Buf f'} {x m : ℕ} {p : Buf e} {i : ℕ}
    {s : Buf .ne} (hr : r.nlimbs ≤ u) (ha : a.nlimbs ≤ u) (hn : n.nlimbs ≤ u) (hs : s.nlimbs ≤ u)
    (hm : min i (8 * p.len) ≤ m) :
    Cost (_ct_montogmery_exp_mod_mp_mp r a n x p i s) (m * (32 * u ^ 2 + 57 * u + 100) + 2 * u + 2) (u, u + u) := by
  have hmul : ∀ {f g h f' : Fmt} (r : Buf f) (a : Buf g) (b : Buf h) (n : Buf f') (x : ℕ), r.nlimbs ≤ u → a.nlimbs ≤ u →
      b.nlimbs ≤ u → n.nlimbs ≤ u → Cost (ct_montgomery_mul_mod_mp_mp r a b n x) (16 * u ^ 2 + 25 * u + 40) u :=
    fun r a b n x hr ha hb hn => (ct_montgomery_mul_mod_mp_mp_cost hr ha hb hn).mono (by ring_nf; omega)
  unfold _ct_montogmery_exp_mod_mp_mp; cost!
  cost_fin

theorem ct_montogmery_exp_mod_odd_mp_mp_cost {e : Fmt} {r : Buf f} {a : Buf g} {n : Buf f'} {x m : ℕ} {b : Buf h} {p : Buf e}
    {i : ℕ} {s : Buf .ne} (hr : r.nlimbs ≤ u) (ha : a.nlimbs ≤ u) (hn : n.nlimbs ≤ u) (hs : s.nlimbs ≤ u)
    (hm : min i (8 * p.len) ≤ m) :
    Cost (ct_montogmery_exp_mod_odd_mp_mp r a n x b p i s) (m * (32 * u ^ 2 + 57 * u + 100) + 10 * u + 40) (u + u, u + u) := by
  generalize hA : 32 * u ^ 2 + 57 * u + 100 = A
  have := fun (r : Buf f) (hr : r.nlimbs ≤ u) => _ct_montogmery_exp_mod_mp_mp_cost (x := x) hr ha hn hs hm
  rw [hA] at this
  generalize m * A = A at *
  unfold ct_montogmery_exp_mod_odd_mp_mp; cost!
  omega

theorem ct_exp_mod_odd_mp_mp_cost {e : Fmt} {r : Buf f} {a : Buf g} {n : Buf f'} {m : ℕ} {p : Buf e} {i : ℕ} {s : Buf .ne}
    (hr : r.nlimbs ≤ u) (ha : a.nlimbs ≤ u) (hn : n.nlimbs ≤ u) (hs : s.nlimbs ≤ u) (hm : min i (8 * p.len) ≤ m) :
    Cost (ct_exp_mod_odd_mp_mp r a n p i s) (m * (128 * u ^ 2 + 114 * u + 100) + 100 * u ^ 2 + 300 * u + 400)
      (u + (u + u), u, u + u + (u + u)) := by
  have hexp : ∀ (r : Buf f) (a : Buf g) (s : Buf .ne) (x : ℕ), r.nlimbs ≤ u + u → a.nlimbs ≤ u → Shape.fits s (u + u) →
      Cost (_ct_montogmery_exp_mod_mp_mp r a n x p i s) (m * (128 * u ^ 2 + 114 * u + 100) + 4 * u + 2)
        (u + u, u + u + (u + u)) := fun r a s x hr ha hs =>
    (_ct_montogmery_exp_mod_mp_mp_cost (x := x) hr (le_trans ha (Nat.le_add_left _ _))
      (le_trans hn (Nat.le_add_left _ _)) hs hm).mono (le_of_eq (by ring))
  have hto : ∀ (r : Buf .ne) (t : Buf g) (x : ℕ) (b : Buf f), r.nlimbs ≤ u → t.nlimbs ≤ u → b.nlimbs ≤ u + u →
      Cost (ct_to_montgomery_form_mp r t n x b) (39 * u ^ 2 + 30 * u + 50) u := fun r t x b hr ht hb =>
    (ct_to_montgomery_form_mp_cost hr (le_trans ht (Nat.le_add_left _ _)) hb hn).mono (by ring_nf; omega)
  generalize m * (128 * u ^ 2 + 114 * u + 100) = A at *
  unfold ct_exp_mod_odd_mp_mp; cost!
  have h1 : (2 * u + 2) * (8 * u + 21) = 16 * u ^ 2 + 58 * u + 42 := by ring
  have h2 : u * (4 * u + 3 * (u + u) + 11) = 10 * u ^ 2 + 11 * u := by ring
  rw [h1, h2]
  generalize u ^ 2 = U
  simp only [Nat.zero_max, Nat.zero_add]
  clear * -
  omega

end Cmpa
