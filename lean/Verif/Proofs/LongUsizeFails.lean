import Verif.Proofs.LongUsize
import Verif.Proofs.MillerRabin
import Verif.Proofs.MgExp

/-!
# What a bounded `usize` does to operands which are too long
-/

set_option linter.unusedSectionVars false

namespace Cmpa
variable [LimbCfg] {φ ψ χ : Fmt} {f g h f' e : Fmt}

open M

section
variable (u : UsizeCfg)

/-! ### Lengths -/

theorem ct_rshift_mp_rest'_len {a : Buf f} {n d L : ℕ} (ha : a.len = L) :
    Post (ct_rshift_mp_rest' u a n d) (fun r => r.len = L) := by
  unfold ct_rshift_mp_rest'; dsimp only
  refine Post.bind Post.trivial fun _ _ => Post.bind Post.trivial fun _ _ => Post.bind Post.trivial fun _ _ => ?_
  refine Post.bind (P := fun r : Buf f × ℕ × ℕ => r.1.len = L) ?_ fun r hr => Post.bind Post.trivial fun _ _ =>
    ct_clear_bits_above_mp_len hr
  refine Post.forRange ha fun _ s hs => ?_
  refine Post.bind Post.trivial fun _ _ => Post.bind Post.trivial fun _ _ => Post.bind Post.trivial fun _ _ =>
    Post.bind Post.trivial fun _ _ => Post.bind Post.trivial fun _ _ => Post.bind (P := fun r : Buf f => r.len = L) ?_ fun r hr =>
    Post.pure hr
  exact Post.cond (Buf.store_l_full_lenIs hs) (Buf.store_l_lenIs hs)

theorem ct_rshift_mp'_len {a : Buf f} {d L : ℕ} (ha : a.len = L) :
    Post (ct_rshift_mp' u a d) (fun r => r.1.len = L) := by
  unfold ct_rshift_mp'; dsimp only
  refine Post.cond (Post.pure ha) (Post.bind Post.trivial fun _ _ => Post.bind Post.trivial fun _ _ =>
    Post.bind Post.trivial fun _ _ => Post.bind (ct_rshift_mp_rest'_len u ha) fun _ h => Post.pure h)

theorem ct_swap_cond_mp_len {a : Buf f} {b : Buf g} {c : LimbChoice} {L K : ℕ} (ha : a.len = L) (hb : b.len = K) :
    Post (ct_swap_cond_mp a b c) (fun r => r.1.len = L ∧ r.2.len = K) := by
  unfold ct_swap_cond_mp
  refine Post.bind Post.trivial fun _ _ => ?_
  exact Post.forRange (P := fun r : Buf f × Buf g => r.1.len = L ∧ r.2.len = K) ⟨ha, hb⟩ fun _ s hs =>
    Post.bind Post.trivial fun _ _ => Post.bind Post.trivial fun _ _ => Post.bind (Buf.store_l_lenIs hs.1) fun _ h1 =>
    Post.bind (Buf.store_l_lenIs hs.2) fun _ h2 => Post.pure ⟨h1, h2⟩

/-! ### Debug builds -/

theorem unwrapE_never {ε α : Type} {m : M (Except ε α)} (h : Post m (fun r => ∃ e, r = .error e)) :
    (unwrapE m).val = none :=
  Post.bind_panic h fun r hr => by obtain ⟨e, rfl⟩ := hr; rfl

theorem Post.cond' {α : Type} {c : Prop} [Decidable c] {t s : M α} {P : α → Prop} (ht : c → Post t P) (hs : ¬ c → Post s P) :
    Post (M.cond c t s) P := by
  by_cases hc : c
  · intro a ha
    rw [cond_val_pos hc] at ha
    exact ht hc a ha
  · intro a ha
    rw [cond_val_neg hc] at ha
    exact hs hc a ha

theorem Post.of_panic {α : Type} {m : M α} {P : α → Prop} (h : m.val = none) : Post m P := by
  intro a ha; rw [h] at ha; cases ha

/-- Operands with too many bits for the number of steps to be computed are never accepted. -/
theorem ct_gcd_odd_mp_mp'_never (a : Buf φ) (b : Buf ψ) (h : ¬ StepsFit u (max a.len b.len)) :
    Post (ct_gcd_odd_mp_mp' u a b) (fun r => ∃ e, r = .error e) := by
  unfold ct_gcd_odd_mp_mp'
  refine Post.bind Post.trivial fun _ _ => Post.cond (Post.pure ⟨_, rfl⟩) <| Post.bind Post.trivial fun _ _ =>
    Post.bind Post.trivial fun _ _ => Post.cond (Post.pure ⟨_, rfl⟩) ?_
  exact Post.of_panic (bind_panic (ct_gcd_ext_odd_mp_mp'_panic u _ _ _ _ h))

theorem ct_gcd_mp_mp'_never (a : Buf φ) (b : Buf ψ) (h : ¬ StepsFit u (max a.len b.len)) :
    Post (ct_gcd_mp_mp' u a b) (fun r => ∃ e, r = .error e ∧
      (a.len = 0 ∨ ¬ (LenCompat a b.len ∧ LenCompat b a.len))) := by
  unfold ct_gcd_mp_mp'
  refine Post.cond' (fun he => Post.pure ⟨_, rfl, Or.inl ((Buf.is_empty_iff a).1 he)⟩) fun _ => ?_
  refine Post.bind (len_is_compatible_with_sat a b.len).post fun c0 hc0 => ?_
  refine Post.bind (len_is_compatible_with_sat b a.len).post fun c1 hc1 => ?_
  refine Post.cond' (fun hc => Post.pure ⟨_, rfl, Or.inr ?_⟩) fun _ => Post.of_panic ?_
  · rw [hc0, hc1] at hc
    simpa [imp_iff_not_or] using hc
  refine bind_panic' fun (_, _) => bind_panic' fun (_, _) => bind_panic' fun _ => bind_panic' fun _ => ?_
  refine Post.bind_panic (ct_rshift_mp'_len u rfl) fun (a1, _) ha1 => ?_
  refine Post.bind_panic (ct_rshift_mp'_len u rfl) fun (b1, _) hb1 => ?_
  refine Post.bind_panic (ct_swap_cond_mp_len ha1 hb1) fun (a2, b2) hab2 => ?_
  refine bind_panic' fun _ => bind_panic' fun _ => ?_
  refine Post.bind_panic (Buf.store_l_lenIs hab2.1) fun a3 ha3 => ?_
  refine bind_panic (unwrapE_never (ct_gcd_odd_mp_mp'_never u a3 b2 ?_))
  rw [ha3, hab2.2]
  exact h

theorem ct_gcd_mp_mp'_panic (a : Buf φ) (b : Buf ψ) (hne : a.len ≠ 0) (h0 : LenCompat a b.len) (h1 : LenCompat b a.len)
    (h : ¬ StepsFit u (max a.len b.len)) : (ct_gcd_mp_mp' u a b).val = none := by
  have := ct_gcd_mp_mp'_never u a b h
  cases hv : (ct_gcd_mp_mp' u a b).val with
  | none => rfl
  | some r =>
    obtain ⟨e, -, h2 | h2⟩ := this r hv
    · exact absurd h2 hne
    · exact absurd ⟨h0, h1⟩ h2

theorem ct_inv_mod_odd_mp_mp_impl'_never (r : Buf φ) (a : Buf ψ) (n : Buf χ) (s t : Buf .ne) (h : ¬ StepsFit u a.len) :
    Post (ct_inv_mod_odd_mp_mp_impl' u r a n s t) (fun r => ∃ e, r = .error e) := by
  unfold ct_inv_mod_odd_mp_mp_impl'
  refine Post.bind Post.trivial fun _ _ => Post.cond (Post.pure ⟨_, rfl⟩) <| Post.bind Post.trivial fun _ _ =>
    Post.bind Post.trivial fun _ _ => Post.cond (Post.pure ⟨_, rfl⟩) <| Post.bind Post.trivial fun _ _ =>
    Post.cond (Post.pure ⟨_, rfl⟩) <| Post.cond (Post.pure ⟨_, rfl⟩) <| Post.bind Post.trivial fun x _ => ?_
  cases x with
  | error _ => exact Post.pure ⟨_, rfl⟩
  | ok x =>
    refine Post.of_panic (bind_panic' fun _ => bind_panic' fun (_, _) => bind_panic' fun _ => bind_panic' fun (_, _) =>
      bind_panic' fun _ => bind_panic' fun (_, _) => bind_panic' fun _ => bind_panic' fun _ => bind_panic' fun _ =>
      bind_panic (ct_gcd_ext_odd_mp_mp'_panic u _ _ _ _ ?_))
    unfold StepsFit at h ⊢
    have := le_max_right (Buf.len ‹_›) a.len
    omega

theorem ct_inv_mod_odd_mp_mp'_never (r : Buf φ) (a : Buf ψ) (n : Buf χ) (s t : Buf .ne) (h : ¬ StepsFit u a.len) :
    Post (ct_inv_mod_odd_mp_mp' u r a n s t) (fun r => ∃ e, r = .error e) := by
  unfold ct_inv_mod_odd_mp_mp'
  refine Post.bind (ct_inv_mod_odd_mp_mp_impl'_never u r a n s t h) fun r hr => ?_
  obtain ⟨e, rfl⟩ := hr
  exact Post.pure ⟨e, rfl⟩

theorem ct_inv_mod_mp_mp'_never (a : Buf φ) (n : Buf ψ) (s0 s1 s2 s3 : Buf .ne) (h : ¬ StepsFit u a.len) :
    Post (ct_inv_mod_mp_mp' u a n s0 s1 s2 s3) (fun r => ∃ e, r.2 = .error e) := by
  unfold ct_inv_mod_mp_mp'
  refine Post.cond (Post.pure ⟨_, rfl⟩) <| Post.bind Post.trivial fun _ _ => Post.cond (Post.pure ⟨_, rfl⟩) <|
    Post.bind Post.trivial fun _ _ => Post.cond (Post.pure ⟨_, rfl⟩) <| Post.bind Post.trivial fun _ _ =>
    Post.bind Post.trivial fun _ _ => Post.cond (Post.pure ⟨_, rfl⟩) <| Post.bind Post.trivial fun _ _ =>
    Post.cond (Post.pure ⟨_, rfl⟩) <| Post.cond (Post.pure ⟨_, rfl⟩) <| Post.cond (Post.pure ⟨_, rfl⟩) <|
    Post.cond (Post.pure ⟨_, rfl⟩) <| Post.bind Post.trivial fun _ _ => Post.bind Post.trivial fun (_, _) _ =>
    Post.bind Post.trivial fun _ _ => Post.bind Post.trivial fun (_, _) _ => Post.bind Post.trivial fun (_, _) _ =>
    Post.cond (Post.pure ⟨_, rfl⟩) <| Post.bind Post.trivial fun (_, _) _ => Post.bind Post.trivial fun _ _ =>
    Post.bind Post.trivial fun _ _ => Post.bind Post.trivial fun (_, _) _ =>
    Post.bind (ct_inv_mod_odd_mp_mp_impl'_never u _ a _ _ _ h) fun r hr => ?_
  obtain ⟨e, rfl⟩ := hr
  exact Post.bind Post.trivial fun (_, _) _ => Post.bind Post.trivial fun _ _ => Post.pure ⟨_, rfl⟩

theorem ct_lcm_mp_mp'_never (r : Buf φ) (a : Buf ψ) (al : ℕ) (b : Buf χ) (bl : ℕ) (s : Buf χ)
    (hal : 0 < al) (hbl : 0 < bl) (hb : 0 < b.len) (h : ¬ StepsFit u a.len) :
    Post (ct_lcm_mp_mp' u r a al b bl s) (fun r => ∃ e, r = .error e) := by
  have ha : 0 < a.len := by
    by_contra hc
    have := usize_ge u
    apply h
    unfold StepsFit
    omega
  unfold ct_lcm_mp_mp'
  dsimp only
  refine Post.cond' (fun hc => by omega) fun _ => Post.bind Post.trivial fun _ _ => Post.bind Post.trivial fun _ _ =>
    Post.cond (Post.pure ⟨_, rfl⟩) <| Post.bind Post.trivial fun _ _ => Post.bind Post.trivial fun _ _ =>
    Post.cond (Post.pure ⟨_, rfl⟩) <| Post.bind Post.trivial fun _ _ => Post.cond (Post.pure ⟨_, rfl⟩) <|
    Post.of_panic ?_
  refine bind_panic' fun (_, _) => bind_panic' fun _ => bind_panic' fun (_, _) => bind_panic' fun _ =>
    bind_panic (unwrapE_never ((ct_gcd_mp_mp'_never u a b ?_).mono fun r hr => ?_))
  · unfold StepsFit at h ⊢
    have := le_max_left a.len b.len
    omega
  · obtain ⟨e, h1, -⟩ := hr
    exact ⟨e, h1⟩

theorem ct_composite_test_small_prime_gcd_mp'_never (p : Buf φ) (s t : Buf .ne) (h : ¬ StepsFit u (p.nlimbs * LB)) :
    Post (ct_composite_test_small_prime_gcd_mp' u p s t) (fun r => ∃ e, r = .error e) := by
  unfold ct_composite_test_small_prime_gcd_mp'
  refine Post.cond' (fun hc => ?_) fun hne => ?_
  · exfalso
    have := usize_ge u
    have hp : p.nlimbs = 0 := by
      unfold Buf.nlimbs
      rw [(Buf.is_empty_iff p).1 hc]
      exact nlimbs_mul 0 ▸ by simp
    apply h
    unfold StepsFit
    rw [hp, Nat.zero_mul]
    omega
  by_cases h1 : p.len + LB < @B u.cfg
  swap
  · refine Post.of_panic (bind_panic ?_)
    unfold nlimbs_for_len'
    exact bind_panic (ct_mp_nlimbs'_panic u h1)
  rw [nlimbs_for_len'_eq u h1, M.pure_bind]
  refine Post.cond (Post.pure ⟨_, rfl⟩) <| Post.cond' (fun _ => Post.pure ⟨_, rfl⟩) fun ht => Post.of_panic ?_
  by_cases h2 : ct_mp_nlimbs p.len * LB < @B u.cfg
  swap
  · exact bind_panic (mulU_panic u h2)
  rw [mulU_eq u h2, M.pure_bind]
  refine bind_panic' fun _ => bind_panic' fun _ => bind_panic' fun (_, _) => bind_panic' fun _ => ?_
  refine Post.bind_panic (copy_from_len rfl) fun t1 ht1 => ?_
  refine Post.bind_panic (P := fun r => r.1.len = ct_mp_nlimbs p.len * LB) ?_ fun (q, _) hq => ?_
  · unfold Buf.shrink_to
    refine Post.bind Post.trivial fun _ _ => ?_
    have hl : ct_mp_nlimbs p.len * LB ≤ t1.len := by
      rw [ht1, t.aligned rfl]
      exact Nat.mul_le_mul_right _ (Nat.le_of_not_lt ht)
    obtain ⟨l, r, e, e1, _⟩ := t1.shrink_to_eq' (n := min (ct_mp_nlimbs p.len * LB) t1.len) (min_le_right _ _)
    rw [e]
    rw [min_eq_left hl] at e1
    have e2 : Buf._limbs_align_len .ne (ct_mp_nlimbs p.len * LB) = ct_mp_nlimbs p.len * LB := by
      simp [Buf._limbs_align_len, Fmt.unaligned, ct_mp_limbs_align_len, nlimbs_mul]
    intro x hx
    cases hx
    exact e1.trans e2
  · refine bind_panic (unwrapE_never (ct_gcd_odd_mp_mp'_never u _ q ?_))
    dsimp only at hq
    have e : ct_mp_nlimbs p.len = p.nlimbs := rfl
    rw [hq, e]
    unfold StepsFit at h ⊢
    have := le_max_right (Buf.len ‹_›) (p.nlimbs * LB)
    omega

theorem _ct_montogmery_exp_mod_mp_mp'_panic (r : Buf f) (a : Buf g) (n : Buf f') (x : ℕ) (p : Buf e) (m : ℕ) (s : Buf .ne)
    (hp : ¬ 8 * p.len < @B u.cfg) : (_ct_montogmery_exp_mod_mp_mp' u r a n x p m s).val = none := by
  unfold _ct_montogmery_exp_mod_mp_mp'
  exact bind_panic' fun _ => bind_panic' fun _ => bind_panic' fun _ => bind_panic' fun _ => bind_panic' fun (_, _) =>
    bind_panic (mulU_panic u hp)

theorem ct_montogmery_exp_mod_odd_mp_mp'_never (r : Buf f) (a : Buf g) (n : Buf f') (x : ℕ) (b : Buf h) (p : Buf e) (m : ℕ)
    (s : Buf .ne) (hp : ¬ 8 * p.len < @B u.cfg) :
    Post (ct_montogmery_exp_mod_odd_mp_mp' u r a n x b p m s) (fun r => ∃ e, r = .error e) := by
  unfold ct_montogmery_exp_mod_odd_mp_mp'
  refine Post.bind Post.trivial fun _ _ => Post.cond (Post.pure ⟨_, rfl⟩) <| Post.bind Post.trivial fun _ _ =>
    Post.cond (Post.pure ⟨_, rfl⟩) <| Post.bind Post.trivial fun _ _ => Post.cond (Post.pure ⟨_, rfl⟩) <|
    Post.bind Post.trivial fun _ _ => Post.cond (Post.pure ⟨_, rfl⟩) <| Post.bind Post.trivial fun _ _ =>
    Post.bind Post.trivial fun _ _ => Post.cond (Post.pure ⟨_, rfl⟩) ?_
  exact Post.of_panic (bind_panic' fun _ => bind_panic' fun _ => bind_panic' fun (_, _) => bind_panic' fun _ =>
    bind_panic' fun _ => bind_panic (_ct_montogmery_exp_mod_mp_mp'_panic u _ _ _ _ _ _ _ hp))

theorem ct_exp_mod_odd_mp_mp'_never (r : Buf f) (a : Buf g) (n : Buf f') (p : Buf e) (m : ℕ) (s : Buf .ne)
    (hp : ¬ 8 * p.len < @B u.cfg) :
    Post (ct_exp_mod_odd_mp_mp' u r a n p m s) (fun r => ∃ e, r = .error e) := by
  unfold ct_exp_mod_odd_mp_mp'
  refine Post.bind Post.trivial fun _ _ => Post.cond (Post.pure ⟨_, rfl⟩) <| Post.bind Post.trivial fun _ _ =>
    Post.cond (Post.pure ⟨_, rfl⟩) <| Post.bind Post.trivial fun _ _ => Post.bind Post.trivial fun _ _ =>
    Post.cond (Post.pure ⟨_, rfl⟩) <| Post.bind Post.trivial fun _ _ => Post.bind Post.trivial fun _ _ =>
    Post.cond (Post.pure ⟨_, rfl⟩) <| Post.bind Post.trivial fun x _ => ?_
  cases x with
  | error e => exact Post.pure ⟨e, rfl⟩
  | ok x =>
    exact Post.of_panic (bind_panic' fun _ => bind_panic' fun (_, _) => bind_panic' fun _ =>
      bind_panic' fun _ => bind_panic' fun _ => bind_panic' fun (_, _) => bind_panic' fun _ => bind_panic' fun _ =>
      bind_panic' fun _ => bind_panic (_ct_montogmery_exp_mod_mp_mp'_panic u _ _ _ _ _ _ _ hp))

/-- The number of bits of the square of the radix has to be a number there is. -/
theorem ct_montgomery_radix2_mod_n_mp'_never (r : Buf f) (n : Buf g) (hn : ¬ 16 * (n.nlimbs * LB) < @B u.cfg) :
    Post (ct_montgomery_radix2_mod_n_mp' u r n) (fun r => ∃ e, r = .error e) := by
  unfold ct_montgomery_radix2_mod_n_mp'
  refine Post.bind Post.trivial fun _ _ => Post.cond (Post.pure ⟨_, rfl⟩) <| Post.bind Post.trivial fun _ _ =>
    Post.cond (Post.pure ⟨_, rfl⟩) <| Post.bind Post.trivial fun _ _ => Post.bind Post.trivial fun (_, _) _ =>
    Post.bind Post.trivial fun _ _ => ?_
  refine Post.bind (P := fun k => k = n.nlimbs * LB) ?_ fun k hk => Post.bind Post.trivial fun v _ => ?_
  · unfold ct_montgomery_radix_shift_len'
    by_cases h1 : n.len + LB < @B u.cfg
    · rw [ct_mp_nlimbs'_eq u h1, M.pure_bind]
      by_cases h2 : ct_mp_nlimbs n.len * LB < @B u.cfg
      · rw [mulU_eq u h2]
        exact Post.pure rfl
      · exact Post.of_panic (mulU_panic u h2)
    · exact Post.of_panic (bind_panic (ct_mp_nlimbs'_panic u h1))
  · subst hk
    cases v with
    | none => exact Post.of_panic rfl
    | some v => exact Post.of_panic (bind_panic (mulU_panic u (by omega)))

theorem ct_prime_test_miller_rabin_mp'_never (a : Buf χ) (p : Buf φ) (b : Buf ψ) (s t : Buf .ne)
    (hp : ¬ 8 * p.len < @B u.cfg) :
    Post (ct_prime_test_miller_rabin_mp' u a p b s t) (fun r => ∃ e, r = .error e) := by
  unfold ct_prime_test_miller_rabin_mp'
  refine Post.bind Post.trivial fun _ _ => Post.cond (Post.pure ⟨_, rfl⟩) <| Post.bind Post.trivial fun _ _ =>
    Post.cond (Post.pure ⟨_, rfl⟩) <| Post.bind Post.trivial fun _ _ => Post.bind Post.trivial fun _ _ =>
    Post.cond (Post.pure ⟨_, rfl⟩) <| Post.bind Post.trivial fun _ _ => Post.bind Post.trivial fun _ _ =>
    Post.cond (Post.pure ⟨_, rfl⟩) <| Post.cond (Post.pure ⟨_, rfl⟩) ?_
  refine Post.of_panic ?_
  unfold mr_main'
  refine bind_panic' fun _ => bind_panic' fun (_, _) => bind_panic' fun _ => bind_panic' fun _ =>
    bind_panic' fun (_, _) => bind_panic' fun _ => bind_panic' fun _ => bind_panic' fun _ => bind_panic' fun (_, _) =>
    bind_panic' fun _ => bind_panic' fun (_, _) => bind_panic' fun y => ?_
  cases y with
  | error _ => rfl
  | ok x => exact bind_panic (mulU_panic u hp)

/-! ### Release builds -/

theorem bind_rel_same {α β : Type} {m : M α} {F G : α → M β} (h : ∀ a, (F a).rel = (G a).rel) :
    (m >>= F).rel = (m >>= G).rel := by
  rw [bind_rel, bind_rel]
  congr 1
  funext a
  exact h a

theorem bind_rel_left {α β : Type} {m m' : M α} {F : α → M β} (h : m.rel = m'.rel) :
    (m >>= F).rel = (m' >>= F).rel := by
  rw [bind_rel, bind_rel, h]

theorem cond_rel_same {α : Type} {c : Prop} [Decidable c] {t s s' : M α} (h : s.rel = s'.rel) :
    (M.cond c t s).rel = (M.cond c t s').rel := by
  refine bind_rel_same fun b => ?_
  cases b
  · exact h
  · rfl

theorem RSat.of_rel {α : Type} {m m' : M α} {P : α → Prop} (h : m.rel = m'.rel) (hs : RSat m' P) : RSat m P := by
  obtain ⟨a, ha, hp⟩ := hs
  exact ⟨a, h.trans ha, hp⟩

/-- An exponent whose number of bits wraps around to zero is taken for zero. -/
theorem _ct_montogmery_exp_mod_mp_mp'_rel (r : Buf f) (a : Buf g) (n : Buf f') (x : ℕ) (p : Buf e) (m : ℕ) (s : Buf .ne)
    {k : ℕ} (hn : n.nlimbs ≤ k) (hk : k * W + 64 < @B u.cfg) (hp : 8 * p.len % @B u.cfg = 0) :
    (_ct_montogmery_exp_mod_mp_mp' u r a n x p m s).rel = (_ct_montogmery_exp_mod_mp_mp r a n x p 0 s).rel := by
  unfold _ct_montogmery_exp_mod_mp_mp' _ct_montogmery_exp_mod_mp_mp
  refine bind_rel_same fun _ => ?_
  rw [nlimbs_for_buf_eq u hn hk, M.pure_bind]
  refine bind_rel_same fun _ => bind_rel_same fun _ => bind_rel_same fun (_, _) => ?_
  obtain ⟨t, ht, h0⟩ := mulU_rel u 8 p.len
  rw [hp] at h0
  subst h0
  rw [bind_rel, ht]
  dsimp only [Option.bind]
  rw [Nat.min_zero, Nat.zero_min]

theorem ct_montogmery_exp_mod_odd_mp_mp'_rel (r : Buf f) (a : Buf g) (n : Buf f') (x : ℕ) (b : Buf h) (p : Buf e) (m : ℕ)
    (s : Buf .ne) {k : ℕ} (hn : n.nlimbs ≤ k) (hk : k * W + 64 < @B u.cfg) (hp : 8 * p.len % @B u.cfg = 0) :
    (ct_montogmery_exp_mod_odd_mp_mp' u r a n x b p m s).rel = (ct_montogmery_exp_mod_odd_mp_mp r a n x b p 0 s).rel := by
  unfold ct_montogmery_exp_mod_odd_mp_mp' ct_montogmery_exp_mod_odd_mp_mp
  refine bind_rel_same fun _ => cond_rel_same (bind_rel_same fun _ => cond_rel_same ?_)
  rw [nlimbs_for_buf_eq u hn hk, M.pure_bind]
  refine cond_rel_same <| bind_rel_same fun _ => cond_rel_same <|
    bind_rel_same fun _ => bind_rel_same fun _ => cond_rel_same <|
    bind_rel_same fun _ => bind_rel_same fun _ => bind_rel_same fun (_, _) =>
    bind_rel_same fun _ => bind_rel_same fun _ => ?_
  exact bind_rel_left (_ct_montogmery_exp_mod_mp_mp'_rel u _ a n x p m s hn hk hp)

theorem ct_montgomery_radix2_mod_n_mp'_eq (r : Buf f) (n : Buf g) {k : ℕ} (hn : n.nlimbs ≤ k) (hk : RadixFit u k) :
    ct_montgomery_radix2_mod_n_mp' u r n = ct_montgomery_radix2_mod_n_mp r n := by
  have hB := usize_ge u
  have h1 : ct_montgomery_radix_shift_len n.len = n.nlimbs * LB := rfl
  have h2 : 8 * (n.nlimbs * LB) ≤ k * W := nlimbs_self_mul_LB hn
  unfold RadixFit at hk
  unfold ct_montgomery_radix2_mod_n_mp' ct_montgomery_radix2_mod_n_mp
  refine bind_congr fun _ => M.cond_congr (fun _ => rfl) fun _ => bind_congr fun _ => M.cond_congr (fun _ => rfl) fun _ =>
    bind_congr fun _ => bind_congr fun (_, _) => bind_congr fun _ => ?_
  rw [ct_montgomery_radix_shift_len'_eq u hn (by omega), M.pure_bind]
  refine bind_congr fun v => ?_
  cases v with
  | none => rfl
  | some v =>
    dsimp only
    rw [mulU_eq u (by omega), M.pure_bind, ct_mod_pow2_mp'_eq u _ _ _ (by omega)]
    rfl

theorem ct_exp_mod_odd_mp_mp'_rel (r : Buf f) (a : Buf g) (n : Buf f') (p : Buf e) (m : ℕ)
    (s : Buf .ne) {k : ℕ} (hn : n.nlimbs ≤ k) (hk : RadixFit u k) (hp : 8 * p.len % @B u.cfg = 0) :
    (ct_exp_mod_odd_mp_mp' u r a n p m s).rel = (ct_exp_mod_odd_mp_mp r a n p 0 s).rel := by
  have hB := usize_ge u
  have hk' : k * W + 64 < @B u.cfg := by unfold RadixFit at hk; omega
  unfold ct_exp_mod_odd_mp_mp' ct_exp_mod_odd_mp_mp
  refine bind_rel_same fun _ => cond_rel_same <| bind_rel_same fun _ => cond_rel_same <| bind_rel_same fun _ =>
    bind_rel_same fun _ => cond_rel_same <| bind_rel_same fun _ => ?_
  rw [nlimbs_for_buf_eq u hn hk', M.pure_bind]
  refine cond_rel_same <| bind_rel_same fun x => ?_
  cases x with
  | error _ => rfl
  | ok x =>
    refine bind_rel_same fun _ => bind_rel_same fun (_, _) => bind_rel_same fun _ => ?_
    rw [ct_montgomery_radix2_mod_n_mp'_eq u _ n hn hk]
    refine bind_rel_same fun _ => bind_rel_same fun _ => bind_rel_same fun (_, _) => bind_rel_same fun _ =>
      bind_rel_same fun _ => bind_rel_same fun _ => ?_
    exact bind_rel_left (_ct_montogmery_exp_mod_mp_mp'_rel u _ _ n x p m _ hn hk' hp)

/-- A square of the radix whose number of bits wraps around to zero is taken for one. -/
theorem ct_montgomery_radix2_mod_n_mp'_rel (t : Buf f) (n : Buf g) (hodd : n.toNat % 2 ≠ 0) (hc : LenCompat n t.len)
    {k : ℕ} (hn : n.nlimbs ≤ k) (hk : k * W + 64 < @B u.cfg) (hz : 16 * (n.nlimbs * LB) % @B u.cfg = 0) :
    RSat (ct_montgomery_radix2_mod_n_mp' u t n) (fun r => ∃ s, r = .ok s ∧ s.len = t.len ∧ s.toNat = 1 % n.toNat) := by
  have hB := usize_ge u
  unfold ct_montgomery_radix2_mod_n_mp'
  refine RSat.bind (n.test_bit_sat 0).rel ?_
  intro b hb
  rw [hb]
  refine RSat.cond (fun h => ?_) fun h => ?_
  · rw [odd_check] at h
    exact absurd h hodd
  rw [odd_check] at h
  refine RSat.bind (len_is_compatible_with_sat n t.len).rel ?_
  intro c hc'
  refine RSat.cond (fun h3 => ?_) fun h3 => ?_
  · rw [hc', decide_eq_false_iff_not] at h3
    exact absurd hc h3
  rw [← M.bind_assoc']
  refine RSat.bind (shrink_result_sat t n hc).rel ?_
  rintro ⟨out, rest⟩ ⟨h4, h5, h6, h7, h8, h9, -⟩
  dsimp only at *
  rw [M.assert_eq h5, M.pure_bind, ct_montgomery_radix_shift_len'_eq u hn (by omega), M.pure_bind]
  refine RSat.bind (new_odd_sat h).rel ?_
  rintro _ ⟨d, rfl, hd⟩
  dsimp only
  refine RSat.bind (mulU_rel u _ _) fun e he => ?_
  have he0 : e = 0 := he.trans hz
  subst he0
  rw [ct_mod_pow2_mp'_eq u _ _ _ (by omega)]
  refine RSat.bind (ct_mod_pow2_mp_sat hd _ out).rel ?_
  rintro (er | s) hs
  · have := v_len_le_of_lt hd h9
    have h10 := hs.2
    exfalso
    have := min_le_left d.v_len ((0 + 1 + 8 - 1) / 8)
    omega
  · refine RSat.pure ⟨_, rfl, ?_, ?_⟩
    · rw [Buf.len_join, hs.1, h8]
    · rw [Buf.toNat_join, h7, Nat.mul_zero, Nat.add_zero, hs.2]
      rfl

theorem ct_find_first_set_bit_mp'_rel (b : Buf f) : RSat (ct_find_first_set_bit_mp' u b) (fun _ => True) := by
  unfold ct_find_first_set_bit_mp'
  refine RSat.bind (P := fun _ => True) (RSat.forRange (fun _ _ => True) (Nat.zero_le _) trivial fun i s _ hi _ => ?_)
    fun (_, _) _ => RSat.pure trivial
  obtain ⟨c, n⟩ := s
  dsimp only
  refine RSat.bind (b.sat_load_l (i := i) hi (Q := fun v => v < B) (Nat.mod_lt _ B_pos)).rel fun v hv => ?_
  obtain ⟨t, ht, -⟩ := firstSet_l hv
  rw [ht, M.pure_bind]
  refine RSat.bind ((addU_rel u _ _).mono fun _ _ => trivial) fun _ _ => ?_
  rw [ct_is_zero_choice hv, M.pure_bind]
  exact RSat.pure trivial

theorem mr_main'_rel (mg_base : Buf χ) (p : Buf φ) (rad : Buf ψ) (s0 s1 : Buf .ne)
    (hodd : p.toNat % 2 ≠ 0) (hrlt : rad.toNat < p.toNat)
    (h0 : p.nlimbs ≤ s0.nlimbs) (h1 : p.nlimbs ≤ s1.nlimbs) (hz : 8 * p.len % @B u.cfg = 0) :
    RSat (mr_main' u mg_base p rad s0 s1) (fun r => r = .ok (.ofBool false)) := by
  have hn0 := len_pos_of_odd hodd
  have hN : 0 < p.nlimbs := nlimbs_pos_iff.2 hn0
  have hl0 := ne_scratch_len h0
  have hl1 := ne_scratch_len h1
  have hB2 : B % 2 = 0 := by
    rw [B_eq_two_pow]
    obtain ⟨k, hk⟩ := Nat.exists_eq_succ_of_ne_zero W_pos.ne'
    rw [hk, pow_succ]; exact Nat.mul_mod_left _ _
  unfold mr_main'
  refine RSat.bind (Buf.copy_from_sat s0 p (lt_of_lt_of_le p.toNat_lt
    (Nat.pow_le_pow_right (by norm_num) hl0))).rel ?_
  rintro q0 ⟨hq0l, hq0v⟩
  refine RSat.bind (shrink_ne_sat q0 p (by rw [hq0v]; exact p.toNat_lt)
    (by rw [Buf.nlimbs_congr hq0l]; exact h0)).rel ?_
  rintro ⟨q1, rest⟩ ⟨hq1s, hq1v, hrest, hq1l⟩
  dsimp only at hq1s hq1v hrest hq1l ⊢
  rw [hq0v] at hq1v
  have hq1n := hq1s.nlimbs
  refine RSat.bind (q1.sat_load_l (i := 0) (by omega) (Q := fun v => v = p.toNat % B) (by
    rw [hq1v, pow_zero, Nat.div_one])).rel ?_
  rintro _ rfl
  have hlow : (p.toNat % B) % 2 = 1 := by
    rw [Nat.mod_mod_of_dvd _ (Nat.dvd_of_mod_eq_zero hB2)]; omega
  have hlowlt := Nat.mod_lt p.toNat B_pos
  rw [odd_xor_one hlow]
  refine RSat.bind (q1.sat_store_l (i := 0) (v := p.toNat % B - 1) (by omega) (by omega)
    (fun h => by
      rw [hbytes_ne q1 rfl (by omega), ← B_eq_256_pow]; omega)
    (fun b' e1 e2 => And.intro e1 e2)).rel ?_
  rintro q2 ⟨hq2l, hq2v⟩
  refine RSat.bind (ct_find_first_set_bit_mp'_rel u q2) ?_
  rintro ⟨nz, s'⟩ -
  refine RSat.bind (P := fun _ => True) (RSat.assert trivial) fun _ _ => ?_
  refine RSat.bind (P := fun _ => True) (RSat.assert trivial) fun _ _ => ?_
  have hjl : (Buf.join rest q2).len = s0.len := by rw [Buf.len_join, hq2l, hq1l, hq0l]
  have hrp : rad.toNat < 256 ^ p.len := hrlt.trans p.toNat_lt
  refine RSat.bind (Buf.copy_from_sat (Buf.join rest q2) rad (by
    rw [hjl]
    exact lt_of_lt_of_le hrp (Nat.pow_le_pow_right (by norm_num) hl0))).rel ?_
  rintro b0 ⟨hb0l, hb0v⟩
  refine RSat.bind (shrink_ne_sat b0 p (by rw [hb0v]; exact hrp)
    (by rw [Buf.nlimbs_congr (hb0l.trans hjl)]; exact h0)).rel ?_
  rintro ⟨b1, rb⟩ ⟨hb1s, hb1v, -, -⟩
  dsimp only at hb1s hb1v ⊢
  refine RSat.bind (Buf.sat_clear_bytes_above s1 p.len (fun b' e1 e2 => And.intro e1 e2)).rel ?_
  rintro w0 ⟨hw0l, hw0v⟩
  refine RSat.bind (shrink_ne_sat w0 p (by rw [hw0v]; exact Nat.mod_lt _ (by positivity))
    (by rw [Buf.nlimbs_congr hw0l]; exact h1)).rel ?_
  rintro ⟨w1, rw1⟩ ⟨hw1s, -, -, -⟩
  dsimp only at hw1s ⊢
  refine RSat.bind (ct_montgomery_neg_n0_inv_mod_l_mp_sat p).rel ?_
  rintro (er | neg') hneg'
  · exfalso
    simp [Outcome, hn0.ne', hodd] at hneg'
  dsimp only
  refine RSat.bind (mulU_rel u _ _) fun t ht => ?_
  rw [hz] at ht
  subst ht
  refine RSat.bind (P := fun r => r.2.2 = 0) (RSat.pure rfl) fun r hr => ?_
  obtain ⟨r1, r2, r3⟩ := r
  dsimp only at hr ⊢
  subst hr
  rw [LimbChoice.from'_eq (by omega), M.pure_bind]
  exact RSat.pure rfl

/-- A candidate whose number of bits wraps around to zero is taken for a composite number. -/
theorem ct_prime_test_miller_rabin_mp'_rel (mg_base : Buf χ) (p : Buf φ) (rad : Buf ψ) (s0 s1 : Buf .ne)
    (hodd : p.toNat % 2 ≠ 0) (hbl : LenCompat mg_base p.len) (hrl : LenCompat rad p.len) (hrlt : rad.toNat < p.toNat)
    (h0 : p.nlimbs ≤ s0.nlimbs) (h1 : p.nlimbs ≤ s1.nlimbs) (hl : p.len + LB < @B u.cfg) (hz : 8 * p.len % @B u.cfg = 0) :
    RSat (ct_prime_test_miller_rabin_mp' u mg_base p rad s0 s1) (fun r => r = .ok (.ofBool false)) := by
  have e : ct_mp_nlimbs p.len = p.nlimbs := rfl
  unfold ct_prime_test_miller_rabin_mp'
  refine RSat.bind (p.test_bit_sat 0).rel fun b hb => ?_
  rw [hb]
  refine RSat.cond (fun h => ?_) fun _ => ?_
  · rw [odd_check] at h
    exact absurd h hodd
  refine RSat.bind (len_is_compatible_with_sat mg_base p.len).rel fun c hc => ?_
  refine RSat.cond (fun h => ?_) fun _ => ?_
  · rw [hc, decide_eq_false_iff_not] at h
    exact absurd hbl h
  refine RSat.bind (P := fun _ => True) (RSat.assertM trivial) fun _ _ => ?_
  refine RSat.bind (len_is_compatible_with_sat rad p.len).rel fun c hc => ?_
  refine RSat.cond (fun h => ?_) fun _ => ?_
  · rw [hc, decide_eq_false_iff_not] at h
    exact absurd hrl h
  refine RSat.bind (P := fun _ => True) (RSat.assertM trivial) fun _ _ => ?_
  rw [nlimbs_for_len'_eq u hl, M.pure_bind]
  refine RSat.cond (fun h => by omega) fun _ => RSat.cond (fun h => by omega) fun _ => ?_
  exact mr_main'_rel u mg_base p rad s0 s1 hodd hrlt h0 h1 hz

end

end Cmpa
