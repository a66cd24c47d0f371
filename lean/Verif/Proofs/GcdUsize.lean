import Verif.Proofs.Panic
import Verif.Proofs.Sim
import Verif.Proofs.Gcd
import Verif.Model.GcdUsize

/-!
# The gcd computation with a bounded `usize`
-/

set_option linter.unusedSectionVars false

namespace Cmpa
variable [LimbCfg] {φ ψ : Fmt} {σ : Type}

open M

theorem addU_eq (u : UsizeCfg) {a b : ℕ} (h : a + b < @B u.cfg) : M.addU u a b = pure (a + b) :=
  @addL_eq u.cfg a b h
theorem mulU_eq (u : UsizeCfg) {a b : ℕ} (h : a * b < @B u.cfg) : M.mulU u a b = pure (a * b) :=
  @mulL_eq u.cfg a b h
theorem addU_panic (u : UsizeCfg) {a b : ℕ} (h : ¬ a + b < @B u.cfg) : (M.addU u a b).val = none := by
  unfold M.addU M.addL; rw [if_neg h]; rfl
theorem mulU_panic (u : UsizeCfg) {a b : ℕ} (h : ¬ a * b < @B u.cfg) : (M.mulU u a b).val = none := by
  unfold M.mulU M.mulL; rw [if_neg h]; rfl

/-- Lengths for which the number of steps can be computed in a `usize`. -/
def StepsFit (u : UsizeCfg) (len : ℕ) : Prop := 49 * (8 * len + 2) + 57 < @B u.cfg

theorem STEPS_bounds : 30 ≤ STEPS_PER_BATCH ∧ STEPS_PER_BATCH ≤ 62 := by
  rw [steps_eq]; rcases W_cases with h | h <;> omega

theorem nbatches'_eq (u : UsizeCfg) {len : ℕ} (h : StepsFit u len) :
    nbatches' u len = pure (nbatches len) := by
  have hB := @B_ge u.cfg
  have hS := STEPS_bounds
  unfold StepsFit at h
  have ha : ∀ {a b : ℕ}, a + b < @B u.cfg → M.addU u a b = pure (a + b) := addU_eq u
  have hm : ∀ {a b : ℕ}, a * b < @B u.cfg → M.mulU u a b = pure (a * b) := mulU_eq u
  unfold nbatches' nbatches
  generalize @B u.cfg = b at *
  rw [hm (by omega), M.pure_bind, ha (by omega), M.pure_bind, ha (by omega), M.pure_bind]
  dsimp only
  generalize hd : len * 8 + 1 + 1 = d
  have e : nsteps' u d = pure (if d < 46 then (49 * d + 80) / 17 else (49 * d + 57) / 17) := by
    unfold nsteps'
    split
    · rw [hm (by omega), M.pure_bind, ha (by omega), M.pure_bind]
    · rw [hm (by omega), M.pure_bind, ha (by omega), M.pure_bind]
  rw [e, M.pure_bind]
  generalize hn : (if d < 46 then (49 * d + 80) / 17 else (49 * d + 57) / 17) = n
  have hn' : n + 62 < b := by rw [← hn]; split <;> omega
  rw [ha (by omega), M.pure_bind, M.sub_eq (by omega), M.pure_bind]

/-- From the given length on, a debug build panics. -/
theorem nbatches'_panic (u : UsizeCfg) {len : ℕ} (h : ¬ StepsFit u len) :
    (nbatches' u len).val = none := by
  have hB := @B_ge u.cfg
  unfold StepsFit at h
  have ha : ∀ {a b : ℕ}, a + b < @B u.cfg → M.addU u a b = pure (a + b) := addU_eq u
  have hm : ∀ {a b : ℕ}, a * b < @B u.cfg → M.mulU u a b = pure (a * b) := mulU_eq u
  have ha' : ∀ {a b : ℕ}, ¬ a + b < @B u.cfg → (M.addU u a b).val = none := addU_panic u
  have hm' : ∀ {a b : ℕ}, ¬ a * b < @B u.cfg → (M.mulU u a b).val = none := mulU_panic u
  unfold nbatches'
  generalize @B u.cfg = b at *
  by_cases h1 : len * 8 < b
  swap
  · exact bind_panic (hm' h1)
  rw [hm h1, M.pure_bind]
  by_cases h2 : len * 8 + 1 < b
  swap
  · exact bind_panic (ha' h2)
  rw [ha h2, M.pure_bind]
  by_cases h3 : len * 8 + 1 + 1 < b
  swap
  · exact bind_panic (ha' h3)
  rw [ha h3, M.pure_bind]
  refine bind_panic ?_
  unfold nsteps'
  rw [if_neg (by omega)]
  by_cases h4 : 49 * (len * 8 + 1 + 1) < b
  swap
  · exact bind_panic (hm' h4)
  rw [hm h4, M.pure_bind]
  exact bind_panic (ha' (by omega))

/-! ### `delta` -/

/-- `x` is the two's complement representation of `δ`, whose absolute value is at most `k`. -/
def Enc (u : UsizeCfg) (k x : ℕ) (δ : ℤ) : Prop :=
  |δ| ≤ k ∧ (x : ℤ) = if δ < 0 then δ + @B u.cfg else δ

theorem select_usize'_ofBool (u : UsizeCfg) {b : Bool} {x y : ℕ} (hx : x < @B u.cfg)
    (hy : y < @B u.cfg) :
    (LimbChoice.ofBool b).select_usize' u x y = if b then y else x := by
  have h := @LimbChoice.select_ofBool u.cfg b x y hx hy
  have e : @wsub u.cfg 0 (if b then 1 else 0) = (@LimbChoice.ofBool u.cfg b).mask := by
    have := @LimbChoice.new_ite u.cfg (b = true) _
    rw [Bool.decide_eq_true] at this
    exact congrArg LimbChoice.mask this
  unfold LimbChoice.select_usize'
  rw [LimbChoice.unwrap_ofBool, e]
  exact h

theorem Enc.lt {u : UsizeCfg} {k x : ℕ} {δ : ℤ} (h : Enc u k x δ) (hk : k < 2 ^ (@W u.cfg - 1)) :
    x < @B u.cfg := by
  obtain ⟨h1, h2⟩ := h
  have hB := @B_half u.cfg
  generalize @B u.cfg = b at *
  generalize 2 ^ (@W u.cfg - 1) = c at *
  rw [abs_le] at h1
  split at h2 <;> omega

theorem Enc.pos {u : UsizeCfg} {k x : ℕ} {δ : ℤ} (h : Enc u k x δ) (hk : k < 2 ^ (@W u.cfg - 1)) :
    shr (@wneg u.cfg x) (@W u.cfg - 1) = if 0 < δ then 1 else 0 := by
  have hx := h.lt hk
  obtain ⟨h1, h2⟩ := h
  have hB := @B_half u.cfg
  rw [shr_eq]
  unfold wneg
  generalize @B u.cfg = b at *
  generalize 2 ^ (@W u.cfg - 1) = c at *
  rw [abs_le] at h1
  have hc : 0 < c := by omega
  split
  · next hp =>
    rw [if_neg (by omega)] at h2
    rw [Nat.mod_eq_of_lt (by omega)]
    exact Nat.div_eq_of_lt_le (by omega) (by omega)
  · next hp =>
    by_cases h0 : δ = 0
    · rw [if_neg (by omega)] at h2
      have : x = 0 := by omega
      rw [this, Nat.sub_zero, Nat.mod_self, Nat.zero_div]
    · rw [if_pos (by omega)] at h2
      rw [Nat.mod_eq_of_lt (by omega)]
      exact Nat.div_eq_of_lt (by omega)

theorem Enc.add {u : UsizeCfg} {k x : ℕ} {δ : ℤ} (h : Enc u k x δ)
    (hk : k + 1 < 2 ^ (@W u.cfg - 1)) : Enc u (k + 1) (@wadd u.cfg 1 x) (1 + δ) := by
  have hx := h.lt (by omega)
  obtain ⟨h1, h2⟩ := h
  have hB := @B_half u.cfg
  unfold Enc wadd
  generalize @B u.cfg = b at *
  generalize 2 ^ (@W u.cfg - 1) = c at *
  rw [abs_le] at h1
  refine ⟨by rw [abs_le]; push_cast; omega, ?_⟩
  by_cases hn : δ < 0
  · rw [if_pos hn] at h2
    by_cases h3 : 1 + δ < 0
    · rw [if_pos h3, Nat.mod_eq_of_lt (by omega)]; push_cast; omega
    · have : 1 + x = b := by omega
      rw [if_neg h3, this, Nat.mod_self]; push_cast; omega
  · rw [if_neg hn] at h2
    rw [if_neg (by omega), Nat.mod_eq_of_lt (by omega)]; push_cast; omega

theorem Enc.sub {u : UsizeCfg} {k x : ℕ} {δ : ℤ} (h : Enc u k x δ)
    (hk : k + 1 < 2 ^ (@W u.cfg - 1)) : Enc u (k + 1) (@wsub u.cfg 1 x) (1 - δ) := by
  have hx := h.lt (by omega)
  obtain ⟨h1, h2⟩ := h
  have hB := @B_half u.cfg
  unfold Enc wsub
  generalize @B u.cfg = b at *
  generalize 2 ^ (@W u.cfg - 1) = c at *
  rw [abs_le] at h1
  refine ⟨by rw [abs_le]; push_cast; omega, ?_⟩
  by_cases hn : δ < 0
  · rw [if_pos hn] at h2
    rw [if_neg (by omega), Nat.mod_eq_of_lt (by omega)]; push_cast; omega
  · rw [if_neg hn] at h2
    by_cases h3 : 1 - δ < 0
    · rw [if_pos h3, Nat.mod_eq_of_lt (by omega)]; push_cast; omega
    · rw [if_neg h3, Nat.mod_eq_sub_mod (by omega), Nat.mod_eq_of_lt (by omega)]; omega

/-- Related states of a batch. -/
def StepRel (u : UsizeCfg) (k : ℕ) (s : ℕ × ℕ × ℕ × TransitionMatrix)
    (t : ℤ × ℕ × ℕ × TransitionMatrix) : Prop := Enc u k s.1 t.1 ∧ s.2 = t.2

theorem batch_step'_sim {u : UsizeCfg} {k : ℕ} (hk : k + 1 < 2 ^ (@W u.cfg - 1))
    {s : ℕ × ℕ × ℕ × TransitionMatrix} {t : ℤ × ℕ × ℕ × TransitionMatrix}
    (h : StepRel u k s t) : Sim (StepRel u (k + 1)) (batch_step' u s) (batch_step t) := by
  obtain ⟨x, fl, gl, m⟩ := s
  obtain ⟨δ, fl', gl', m'⟩ := t
  obtain ⟨h, he⟩ := h
  dsimp only at h he
  cases he
  have hpos := h.pos (by omega)
  have hE := h.2
  have h1 := abs_le.1 h.1
  have hB := @B_half u.cfg
  unfold batch_step' batch_step
  dsimp only
  rw [hpos, LimbChoice.from'_eq (by split <;> omega), M.pure_bind, LimbChoice.new_ite]
  have e : (decide ((if 0 < δ then 1 else 0) = 1)) = decide (0 < δ) := by
    by_cases hd : 0 < δ <;> simp [hd]
  rw [e, LimbChoice.unwrap_ofBool]
  rw [M.assert_eq, M.pure_bind, M.assert_eq, M.pure_bind]
  · refine Sim.bind (R := fun c d => c = d ∧ ∃ b, c = LimbChoice.ofBool b) ?_ ?_
    · rw [Nat.and_one_is_mod, LimbChoice.from'_eq (by omega)]
      exact Sim.pure ⟨rfl, _, rfl⟩
    rintro _ _ ⟨rfl, b, rfl⟩
    refine Sim.bind_same fun m2 => ?_
    rw [LimbChoice.and_ofBool]
    refine Sim.bind_same fun g2 => ?_
    refine Sim.pure ⟨?_, rfl⟩
    dsimp only
    have ha := h.add hk
    have hs := h.sub hk
    rw [select_usize'_ofBool u (ha.lt hk) (hs.lt hk), LimbChoice.unwrap_ofBool]
    cases (decide (0 < δ) && b)
    · exact ha
    · exact hs
  · generalize @B u.cfg = b at *
    generalize 2 ^ (@W u.cfg - 1) = c at *
    by_cases hd : 0 < δ
    · left; rw [if_neg (by omega)] at hE; omega
    · right; simp [hd]
  · generalize @B u.cfg = b at *
    generalize 2 ^ (@W u.cfg - 1) = c at *
    by_cases hd : 0 < δ
    · right; right; simp [hd]
    · by_cases h0 : δ < 0
      · rw [if_pos h0] at hE; right; left; omega
      · rw [if_neg h0] at hE; left; omega

theorem batch_divsteps'_sim {u : UsizeCfg} {k : ℕ} (hk : k + STEPS_PER_BATCH < 2 ^ (@W u.cfg - 1))
    {x : ℕ} {δ : ℤ} (h : Enc u k x δ) (fl gl : ℕ) :
    Sim (fun s t => Enc u (k + STEPS_PER_BATCH) s.1 t.1 ∧ s.2 = t.2)
      (batch_divsteps' u x fl gl) (batch_divsteps δ fl gl) := by
  unfold batch_divsteps' batch_divsteps
  refine Sim.bind_same fun _ => Sim.bind (Sim.forRange (fun i => StepRel u (k + i)) ⟨h, rfl⟩
    fun i s s' hi hs => batch_step'_sim (u := u) (k := k + i) (by omega) hs) ?_
  rintro s t ⟨h1, h2⟩
  exact Sim.pure ⟨h1, by dsimp only; rw [h2]⟩

/-- Related states of the gcd loop. -/
def GcdRel (u : UsizeCfg) (k : ℕ) (s : GcdState' φ ψ σ) (t : GcdState φ ψ σ) : Prop :=
  Enc u k s.delta t.delta ∧ t = ⟨s.f, s.fsh, s.g, s.gsh, t.delta, s.ext⟩

theorem gcd_batch'_sim {u : UsizeCfg} {k : ℕ} (hk : k + STEPS_PER_BATCH < 2 ^ (@W u.cfg - 1))
    {nl : ℕ} {upd : TransitionMatrix → NegMask → σ → M σ} {s : GcdState' φ ψ σ}
    {t : GcdState φ ψ σ} (h : GcdRel u k s t) :
    Sim (GcdRel u (k + STEPS_PER_BATCH)) (gcd_batch' u nl upd s) (gcd_batch nl upd t) := by
  obtain ⟨h1, h2⟩ := h
  rw [h2]
  unfold gcd_batch' gcd_batch
  dsimp only
  refine Sim.bind_same fun p => ?_
  refine Sim.bind_same fun _ => Sim.bind (batch_divsteps'_sim hk h1 _ _) ?_
  rintro ⟨x, m⟩ ⟨δ, m'⟩ ⟨h3, h4⟩
  dsimp only at h3 h4 ⊢
  subst h4
  refine Sim.bind_same fun neg => Sim.bind_same fun q => ?_
  exact Sim.bind_same fun e => Sim.pure ⟨h3, rfl⟩

theorem nbatches_le (len : ℕ) :
    nbatches len * STEPS_PER_BATCH ≤ (49 * (8 * len + 2) + 80) / 17 + 61 := by
  have hS := STEPS_bounds
  unfold nbatches
  dsimp only
  refine (Nat.div_mul_le_self _ _).trans ?_
  split <;> omega

/-- If the number of steps fits, then the size of `usize` does not matter. -/
theorem ct_gcd_ext_odd_mp_mp'_eq (u : UsizeCfg) (upd : TransitionMatrix → NegMask → σ → M σ)
    (e : σ) (f : Buf φ) (g : Buf ψ) (h : StepsFit u (max f.len g.len)) :
    ct_gcd_ext_odd_mp_mp' u upd e f g = ct_gcd_ext_odd_mp_mp upd e f g := by
  refine Sim.eq ?_
  unfold ct_gcd_ext_odd_mp_mp' ct_gcd_ext_odd_mp_mp
  dsimp only
  rw [nbatches'_eq u h, M.pure_bind]
  refine Sim.bind_same fun _ => Sim.bind_same fun _ => Sim.bind_same fun _ => Sim.bind_same fun fh =>
    Sim.bind_same fun gh => ?_
  have hn := nbatches_le (max f.len g.len)
  unfold StepsFit at h
  have hBh := @B_half u.cfg
  have hBg := @B_ge u.cfg
  refine Sim.bind (Sim.forRange (fun i => GcdRel u (1 + i * STEPS_PER_BATCH)) ⟨?_, rfl⟩ ?_) ?_
  · refine ⟨by simp, ?_⟩; simp
  · intro i s t hi hs
    have : (i + 1) * STEPS_PER_BATCH ≤ nbatches (max f.len g.len) * STEPS_PER_BATCH :=
      Nat.mul_le_mul_right _ hi
    rw [Nat.succ_mul] at this
    have := gcd_batch'_sim (u := u) (k := 1 + i * STEPS_PER_BATCH) (nl := f.nlimbs) (upd := upd) (by
      generalize @B u.cfg = b at *
      generalize 2 ^ (@W u.cfg - 1) = c at *
      omega) hs
    refine this.mono ?_
    intro s t
    rw [Nat.succ_mul, Nat.add_assoc]; exact id
  rintro s t ⟨-, h2⟩
  rw [h2]
  exact Sim.refl (fun _ => rfl) _

theorem ct_gcd_ext_odd_mp_mp'_panic (u : UsizeCfg) (upd : TransitionMatrix → NegMask → σ → M σ)
    (e : σ) (f : Buf φ) (g : Buf ψ) (h : ¬ StepsFit u (max f.len g.len)) :
    (ct_gcd_ext_odd_mp_mp' u upd e f g).val = none := by
  unfold ct_gcd_ext_odd_mp_mp'
  refine bind_panic' fun _ => bind_panic' fun _ => bind_panic' fun _ => ?_
  exact bind_panic (nbatches'_panic u h)

theorem ct_gcd_odd_mp_mp'_eq (u : UsizeCfg) (f : Buf φ) (g : Buf ψ)
    (h : StepsFit u (max f.len g.len)) : ct_gcd_odd_mp_mp' u f g = ct_gcd_odd_mp_mp f g := by
  unfold ct_gcd_odd_mp_mp' ct_gcd_odd_mp_mp
  rw [ct_gcd_ext_odd_mp_mp'_eq u _ _ _ _ h]

/-! ### Too few steps in a release build -/

/-- What a release build computes if it does `n` batches. -/
theorem ct_gcd_ext_odd_mp_mp'_rel (u : UsizeCfg) {f : Buf φ} {g : Buf ψ} (hn : f.nlimbs = g.nlimbs)
    (hodd : f.toNat % 2 = 1) {n : ℕ} (hb : (nbatches' u (max f.len g.len)).rel = some n)
    (hk : 1 + n * STEPS_PER_BATCH < 2 ^ (@W u.cfg - 1)) :
    RSat (ct_gcd_ext_odd_mp_mp' u (fun _ _ s => pure s) () f g) (fun s => s.1.len = f.len ∧
      s.2.1.len = g.len ∧ ∃ F : ℤ,
        F = (divstep^[n * STEPS_PER_BATCH] (1, (f.toNat : ℤ), (g.toNat : ℤ))).2.1 ∧
        (s.1.toNat : ℤ) = F % (256 : ℤ) ^ f.len ∧ s.2.2.1 = .ofBool (decide (F < 0))) := by
  have hn0 : f.nlimbs ≠ 0 := by
    intro h0
    have := f.toNat_lt_B
    rw [h0, pow_zero] at this
    omega
  unfold ct_gcd_ext_odd_mp_mp'
  dsimp only
  refine RSat.bind (P := fun _ => True) (RSat.assert trivial) fun _ _ => ?_
  refine RSat.bind (P := fun _ => True) (RSat.assert trivial) fun _ _ => ?_
  refine RSat.bind (P := fun _ => True) (RSat.assertM trivial) fun _ _ => ?_
  refine RSat.bind (P := fun m => m = n) ⟨n, hb, rfl⟩ ?_
  rintro _ rfl
  refine RSat.bind (f.sat_load_l (Q := fun v => v = f.toNat / B ^ (f.nlimbs - 1) % B)
    (by omega) rfl).rel ?_
  intro fh hfh
  refine RSat.bind (g.sat_load_l (Q := fun v => v = g.toNat / B ^ (f.nlimbs - 1) % B)
    (by omega) rfl).rel ?_
  intro gh hgh
  rename_i n
  refine RSat.bind (P := fun s => ∃ t : GcdState φ ψ Unit, GcdRel u (1 + n * STEPS_PER_BATCH) s t ∧
    GcdInv f g (fun _ _ => True) n t) (Sat.rel (Sat.forRange (P := fun j s =>
      ∃ t : GcdState φ ψ Unit, GcdRel u (1 + j * STEPS_PER_BATCH) s t ∧
        GcdInv f g (fun _ _ => True) j t) (Nat.zero_le _) ?_ ?_)) ?_
  · refine ⟨⟨f, (fh, 0), g, (gh, 0), 1, ()⟩, ⟨⟨by simp, by simp⟩, rfl⟩, f.toNat, g.toNat,
      by unfold batchStart; rw [Nat.zero_mul]; rfl, rfl, rfl, ?_, ?_, trivial⟩
    · dsimp only; rw [hfh]; exact SRep.init f hn0
    · dsimp only; rw [hgh, hn]; exact SRep.init g (by omega)
  · rintro j s _ hj ⟨t, hr, ht⟩
    have hj' : (j + 1) * STEPS_PER_BATCH ≤ n * STEPS_PER_BATCH := Nat.mul_le_mul_right _ hj
    rw [Nat.succ_mul] at hj'
    have hsat := gcd_batch_sat (upd := fun _ _ s => pure s) (P := fun _ _ => True)
      hn hn0 (fun _ _ _ _ _ _ _ _ _ _ _ _ _ _ _ _ _ => Sat.pure trivial) hodd ht
    have hsim := gcd_batch'_sim (u := u) (k := 1 + j * STEPS_PER_BATCH) (nl := f.nlimbs)
      (upd := fun _ _ s => pure s) (by omega) hr
    refine (hsim.sat hsat).mono ?_
    rintro s' ⟨t', h1, h2⟩
    refine ⟨t', ?_, h2⟩
    rw [Nat.succ_mul, ← Nat.add_assoc]; exact h1
  rintro ⟨f', fsh, g', gsh, x, _⟩ ⟨t, ⟨-, ht⟩, F, G, hit, hlf, hlg, hf, hg, -⟩
  rw [ht] at hlf hlg hf hg
  dsimp only at hlf hlg hf hg ⊢
  have hnf : f'.nlimbs = f.nlimbs := Buf.nlimbs_congr hlf
  have hng : g'.nlimbs = f.nlimbs := (Buf.nlimbs_congr hlg).trans hn.symm
  refine RSat.bind (P := fun _ => True) (RSat.assert trivial) fun _ _ => ?_
  refine RSat.bind (P := fun b : Buf ψ => b.len = g'.len) ?_ ?_
  · refine ((Low.self g' (f.nlimbs - 1)).sat_store (by omega) B_pos (fun _ => by positivity) ?_).rel
    intro b' hb'
    exact hb'.len
  intro g2 hl2
  refine RSat.bind (P := fun _ => True) (RSat.assert trivial) fun _ _ => ?_
  refine RSat.bind (P := fun _ => True) (RSat.forRange (P := fun _ _ => True) (Nat.zero_le _)
    trivial ?_) ?_
  · intro k _ _ hk _
    exact RSat.assertM trivial
  intro _ _
  refine RSat.bind (P := fun _ => True) (RSat.assert trivial) fun _ _ => ?_
  have hsgn := hf.sign
  have hshr : shr fsh.2 (W - 1) = if F < 0 then 1 else 0 := by
    rw [hsgn, shr_eq]
    split
    · refine Nat.div_eq_of_lt_le ?_ ?_
      · have := B_half
        have := Nat.two_pow_pos (W - 1)
        unfold lmax; omega
      · have := B_half
        have := Nat.two_pow_pos (W - 1)
        unfold lmax; omega
    · exact Nat.zero_div _
  rw [hshr, LimbChoice.from'_eq (by split <;> omega), M.pure_bind]
  have hst := hf.store (by omega)
  rw [hnf] at hst
  refine RSat.bind hst.rel ?_
  rintro f2 ⟨hlf2, hvf2⟩
  refine RSat.pure ⟨hlf2.trans hlf, hl2.trans hlg, F, by unfold batchStart at hit; rw [hit], ?_, ?_⟩
  · dsimp only; rw [hvf2, hlf]
  · dsimp only
    by_cases hF : F < 0 <;> simp [hF]

/-- The result of `ct_gcd_odd_mp_mp` in a release build which does `n` batches. -/
theorem ct_gcd_odd_mp_mp'_rel (u : UsizeCfg) {f : Buf φ} {g : Buf ψ} (hl : f.len = g.len)
    (hodd : f.toNat % 2 = 1) {n : ℕ} (hb : (nbatches' u f.len).rel = some n)
    (hk : 1 + n * STEPS_PER_BATCH < 2 ^ (@W u.cfg - 1)) :
    RSat (ct_gcd_odd_mp_mp' u f g) (fun r => ∃ f' g', r = .ok (f', g') ∧ f'.len = f.len ∧
      f'.toNat =
        (divstep^[n * STEPS_PER_BATCH] (1, (f.toNat : ℤ), (g.toNat : ℤ))).2.1.natAbs) := by
  unfold ct_gcd_odd_mp_mp'
  refine RSat.bind (f.test_bit_sat 0).rel ?_
  intro c hc
  rw [hc]
  refine RSat.cond (fun h => absurd (odd_check.1 h) (by omega)) fun h => ?_
  refine RSat.bind (len_is_compatible_with_sat f g.len).rel ?_
  intro c0 hc0
  refine RSat.bind (len_is_compatible_with_sat g f.len).rel ?_
  intro c1 hc1
  refine RSat.cond (fun h => ?_) fun h' => ?_
  · rw [hc0, hc1, decide_eq_true_eq, decide_eq_true_eq] at h
    exact (h.elim (fun h => h (.inl hl.le)) fun h => h (.inl hl.ge)).elim
  have hn : f.nlimbs = g.nlimbs := by rw [Buf.nlimbs_eq, Buf.nlimbs_eq, hl]
  refine RSat.bind (ct_gcd_ext_odd_mp_mp'_rel u hn hodd (n := n)
    (by rw [← hl, max_self]; exact hb) hk) ?_
  rintro ⟨f', g', neg, _⟩ ⟨hlf, hlg, F, hF, hfv, hneg⟩
  dsimp only at hlf hlg hF hfv hneg ⊢
  have hpos : 0 < f.toNat := by omega
  have hlen : f'.len ≠ 0 := by
    intro h0
    have := f.toNat_lt
    rw [← hlf, h0, pow_zero] at this
    omega
  rw [hneg]
  refine RSat.bind (gcd_negate_sat f' (decide (F < 0)) (by rw [Buf.is_empty_iff]; exact hlen)).rel ?_
  rintro f2 ⟨hl2, hv2⟩
  refine RSat.pure ⟨_, _, rfl, hl2.trans hlf, ?_⟩
  rw [hv2, hlf, ← hF]
  have hK := (divstep_iter_abs (n * STEPS_PER_BATCH) (1, (f.toNat : ℤ), (g.toNat : ℤ))
    (K := (256 : ℤ) ^ f.len - 1) (by
      dsimp only; rw [abs_of_nonneg (by positivity)]
      have := f.toNat_lt
      have : (f.toNat : ℤ) < (256 : ℤ) ^ f.len := by exact_mod_cast this
      omega) (by
      dsimp only; rw [abs_of_nonneg (by positivity)]
      have := g.toNat_lt
      rw [← hl] at this
      have : (g.toNat : ℤ) < (256 : ℤ) ^ f.len := by exact_mod_cast this
      omega)).1
  have hO := divstep_iter_odd (n * STEPS_PER_BATCH) (1, (f.toNat : ℤ), (g.toNat : ℤ))
    (by dsimp only; omega)
  rw [← hF] at hK hO
  have hK' : (F.natAbs : ℤ) < (256 : ℤ) ^ f.len := by
    rw [Int.natCast_natAbs]; omega
  exact abs_of_neg_mod rfl (by omega) (by exact_mod_cast hK') hfv

end Cmpa
