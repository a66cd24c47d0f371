import Verif.Proofs.EuclidApply
import Verif.Proofs.MgExp
import Verif.Proofs.BufBits
import Verif.Proofs.BufCopy

/-!
# Greatest common divisors
-/

set_option linter.unusedSectionVars false

namespace Cmpa
variable [LimbCfg] {φ ψ : Fmt} {σ : Type}

open M

/-- The number of steps is sufficient for `divstep_bound`. -/
theorem nbatches_bound (len : ℕ) : 49 * (8 * len + 2) ≤ 17 * (nbatches len * STEPS_PER_BATCH) := by
  unfold nbatches
  dsimp only
  have hS : 0 < STEPS_PER_BATCH := by rw [steps_eq]; rcases W_cases with h | h <;> omega
  generalize hn : (if len * 8 + 1 + 1 < 46 then (49 * (len * 8 + 1 + 1) + 80) / 17
    else (49 * (len * 8 + 1 + 1) + 57) / 17) = n
  have h1 : n ≤ (n + STEPS_PER_BATCH - 1) / STEPS_PER_BATCH * STEPS_PER_BATCH := by
    have := Nat.lt_div_mul_add (a := n + STEPS_PER_BATCH - 1) hS
    omega
  have h2 : 49 * (8 * len + 2) ≤ 17 * n := by
    rw [← hn]; split <;> omega
  exact h2.trans (Nat.mul_le_mul_left _ h1)

theorem nbatches_even (len : ℕ) : ∃ m, nbatches len * STEPS_PER_BATCH = 2 * m ∧
    49 * (8 * len + 2) ≤ 34 * m := by
  have h : ∃ k, STEPS_PER_BATCH = 2 * k := by
    rw [steps_eq]; rcases W_cases with h | h
    · exact ⟨15, by omega⟩
    · exact ⟨31, by omega⟩
  obtain ⟨k, hk⟩ := h
  have hb := nbatches_bound len
  refine ⟨nbatches len * k, by rw [hk]; ring, ?_⟩
  rw [hk] at hb
  calc _ ≤ _ := hb
    _ = _ := by ring

/-- The low limb of a value with shadow limbs. -/
theorem SRep.low {F : ℤ} {b : Buf φ} {sh : ℕ × ℕ} (h : SRep F b sh) (hn : b.nlimbs ≠ 0) :
    (1 < b.nlimbs → LimbOf (b.toNat / B ^ 0 % B) F) ∧ (¬ 1 < b.nlimbs → LimbOf sh.1 F) := by
  obtain ⟨X, hX, -, -, hl, hs, -⟩ := h
  have key : LimbOf (X % B) F := by
    refine LimbOf.of_modEq (Nat.mod_lt _ B_pos) ?_
    push_cast
    refine (Int.mod_modEq _ _).trans ?_
    rw [hX]
    exact (Int.mod_modEq _ _).of_dvd (dvd_pow_self _ (by omega))
  constructor
  · intro h1
    rw [dig_of_mod_eq hl (by omega), pow_zero, Nat.div_one]
    exact key
  · intro h1
    rw [hs, show b.nlimbs - 1 = 0 by omega, pow_zero, Nat.div_one]; exact key

/-- The numbers before batch `j`. -/
def batchStart (f g : ℤ) (j : ℕ) : ℤ × ℤ × ℤ := divstep^[j * STEPS_PER_BATCH] (1, f, g)

/-- Batch `j`. -/
def batchRun (f g : ℤ) (j : ℕ) : DivSteps := divsteps (batchStart f g j) STEPS_PER_BATCH

/-- The loop of `ct_gcd_ext_odd_mp_mp`, after `j` batches. -/
def GcdInv (f0 : Buf φ) (g0 : Buf ψ) (P : ℕ → σ → Prop) (j : ℕ) (s : GcdState φ ψ σ) : Prop :=
  ∃ F G : ℤ, batchStart (f0.toNat : ℤ) (g0.toNat : ℤ) j = (s.delta, F, G) ∧
    s.f.len = f0.len ∧ s.g.len = g0.len ∧ SRep F s.f s.fsh ∧ SRep G s.g s.gsh ∧ P j s.ext

/-- What the update of the coefficients has to do in each batch. -/
def UpdSat (f g : ℤ) (upd : TransitionMatrix → NegMask → σ → M σ) (P : ℕ → σ → Prop) : Prop :=
  ∀ j m a b c d δ F G δ' F' G' e, batchStart f g j = (δ, F, G) →
    batchRun f g j = ⟨(δ', F', G'), a, b, c, d, m.s0⟩ →
    IsMat m a b c d F G F' G' STEPS_PER_BATCH → P j e →
    Sat (upd m (signMask a b c d) e) (P (j + 1))

theorem gcd_batch_sat {upd : TransitionMatrix → NegMask → σ → M σ} {P : ℕ → σ → Prop}
    {f0 : Buf φ} {g0 : Buf ψ} (hn : f0.nlimbs = g0.nlimbs) (hn0 : f0.nlimbs ≠ 0)
    (hupd : UpdSat f0.toNat g0.toNat upd P)
    (hodd : f0.toNat % 2 = 1) {j : ℕ} {s : GcdState φ ψ σ} (h : GcdInv f0 g0 P j s) :
    Sat (gcd_batch f0.nlimbs upd s) (GcdInv f0 g0 P (j + 1)) := by
  obtain ⟨F, G, hit, hlf, hlg, hf, hg, hP⟩ := h
  have hnf : s.f.nlimbs = f0.nlimbs := Buf.nlimbs_congr hlf
  have hng : s.g.nlimbs = f0.nlimbs := (Buf.nlimbs_congr hlg).trans hn.symm
  unfold gcd_batch
  obtain ⟨hf1, hf2⟩ := hf.low (by omega)
  obtain ⟨hg1, hg2⟩ := hg.low (by omega)
  rw [hnf] at hf1 hf2
  rw [hng] at hg1 hg2
  refine Sat.bind (P := fun p : ℕ × ℕ => LimbOf p.1 F ∧ LimbOf p.2 G) ?_ ?_
  · refine Sat.cond (fun h1 => ?_) fun h1 => Sat.pure ⟨hf2 h1, hg2 h1⟩
    refine Sat.bind (Buf.sat_load_l_full s.f (Q := fun v => LimbOf v F) ?_ (hf1 h1)) ?_
    · exact full_of_lt_pred (by rw [← Buf.nlimbs_eq]; omega)
    intro fl hfl
    refine Sat.bind (Buf.sat_load_l_full s.g (Q := fun v => LimbOf v G) ?_ (hg1 h1)) ?_
    · exact full_of_lt_pred (by rw [← Buf.nlimbs_eq]; omega)
    intro gl hgl
    exact Sat.pure ⟨hfl, hgl⟩
  rintro ⟨fl, gl⟩ ⟨hfl, hgl⟩
  dsimp only at hfl hgl ⊢
  have hF : F % 2 = 1 := by
    have := divstep_iter_odd (j * STEPS_PER_BATCH) (1, (f0.toNat : ℤ), (g0.toNat : ℤ))
      (by dsimp only; omega)
    change (batchStart _ _ j).2.1 % 2 = 1 at this
    rw [hit] at this; exact this
  have hpar := (LowBits.of_limbOf hfl).parity W_pos
  rw [M.assert_eq (by rw [Nat.and_one_is_mod]; omega), M.pure_bind]
  refine Sat.bind (batch_divsteps_sat (δ := s.delta) hfl hgl hF) ?_
  rintro ⟨δ', m⟩ ⟨F', G', a, b, c, d, e0, hds, hm, he0⟩
  dsimp only at hds hm he0 ⊢
  subst he0
  have hiW : STEPS_PER_BATCH + 2 ≤ W := by rw [steps_eq]; have := one_lt_W; omega
  rw [t_is_neg_mask_eq hm hiW, M.pure_bind]
  have hit' : divstep^[(j + 1) * STEPS_PER_BATCH] (1, (f0.toNat : ℤ), (g0.toNat : ℤ))
      = (δ', F', G') := by
    rw [Nat.succ_mul, Nat.add_comm, Function.iterate_add_apply]
    change divstep^[STEPS_PER_BATCH] (batchStart _ _ j) = _
    rw [hit, ← divsteps_t, hds]
  have hK := divstep_iter_abs ((j + 1) * STEPS_PER_BATCH) (1, (f0.toNat : ℤ), (g0.toNat : ℤ))
    (K := (B : ℤ) ^ f0.nlimbs - 1) (by
      dsimp only; rw [abs_of_nonneg (by positivity)]
      have := f0.toNat_lt_B
      have : (f0.toNat : ℤ) < (B : ℤ) ^ f0.nlimbs := by exact_mod_cast this
      omega) (by
      dsimp only; rw [abs_of_nonneg (by positivity)]
      have := g0.toNat_lt_B
      rw [← hn] at this
      have : (g0.toNat : ℤ) < (B : ℤ) ^ f0.nlimbs := by exact_mod_cast this
      omega)
  rw [hit'] at hK
  dsimp only at hK
  rw [abs_le, abs_le] at hK
  refine Sat.bind (apply_to_f_g_sat hm hiW (by omega) (by omega) hf hg
    (by rw [hnf]; omega) (by rw [hnf]; omega) (by rw [hnf]; omega) (by rw [hnf]; omega)) ?_
  rintro ⟨⟨f', fsh'⟩, ⟨g', gsh'⟩⟩ ⟨hl1, hr1, hl2, hr2⟩
  dsimp only at hl1 hr1 hl2 hr2 ⊢
  refine Sat.bind (hupd j m a b c d _ F G δ' F' G' s.ext hit (by unfold batchRun; rw [hit]; exact hds) hm hP) ?_
  intro e he
  exact Sat.pure ⟨F', G', hit', hl1.trans hlf, hl2.trans hlg, hr1, hr2, he⟩

theorem SRep.init (b : Buf φ) (hn : b.nlimbs ≠ 0) :
    SRep (b.toNat : ℤ) b (b.toNat / B ^ (b.nlimbs - 1) % B, 0) := by
  have h1 := b.toNat_lt_B
  have h2 : b.toNat < B ^ (b.nlimbs + 1) :=
    h1.trans_le (Nat.pow_le_pow_right B_pos (Nat.le_succ _))
  refine ⟨b.toNat, ?_, ?_, by exact_mod_cast h1, rfl, rfl, ?_⟩
  · rw [Int.emod_eq_of_lt (by positivity) (by exact_mod_cast h2)]
  · have : (0 : ℤ) < (B : ℤ) ^ b.nlimbs := by exact_mod_cast B_pow_pos _
    have : (0 : ℤ) ≤ (b.toNat : ℤ) := by positivity
    omega
  · rw [Nat.div_eq_of_lt h1]

theorem SRep.sign {F : ℤ} {b : Buf φ} {sh : ℕ × ℕ} (h : SRep F b sh) :
    sh.2 = if F < 0 then lmax else 0 := by
  obtain ⟨X, hX, h1, h2, -, -, hs⟩ := h
  have hP := B_pow_pos b.nlimbs
  have hB := one_lt_B
  rw [hs]
  rw [pow_succ] at hX
  have eP : (B : ℤ) ^ b.nlimbs = ((B ^ b.nlimbs : ℕ) : ℤ) := by push_cast; rfl
  rw [eP] at hX h1 h2
  generalize B ^ b.nlimbs = P at *
  have hPB : P * 2 ≤ P * B := Nat.mul_le_mul_left _ hB
  have hPBz : (P : ℤ) * 2 ≤ (P : ℤ) * B := by exact_mod_cast hPB
  have hl1 : lmax + 1 = B := by unfold lmax; omega
  have hl2 : lmax * P + P = P * B := by rw [← hl1]; ring
  have hl3 : (lmax + 1) * P = P * B := by rw [← hl1]; ring
  have ePB : (P : ℤ) * (B : ℤ) = ((P * B : ℕ) : ℤ) := by push_cast; rfl
  split
  · next hF =>
    rw [← Int.add_emod_right, Int.emod_eq_of_lt (by omega) (by omega)] at hX
    rw [ePB] at hX
    refine Nat.div_eq_of_lt_le ?_ ?_
    · omega
    · rw [hl3]; omega
  · next hF =>
    rw [Int.emod_eq_of_lt (by omega) (by omega)] at hX
    exact Nat.div_eq_of_lt (by omega)

/-- The value in the buffer, once the shadow limb has been written back. -/
theorem SRep.store {F : ℤ} {b : Buf φ} {sh : ℕ × ℕ} (h : SRep F b sh) (hn : b.nlimbs ≠ 0) :
    Sat (b.store_l (b.nlimbs - 1) (sh.1 &&& b.partial_high_mask)) (fun b' =>
      b'.len = b.len ∧ (b'.toNat : ℤ) = F % (256 : ℤ) ^ b.len) := by
  obtain ⟨X, hX, -, -, hl, hs, -⟩ := h
  refine (Low.self b (b.nlimbs - 1)).sat_store_mask (by omega)
    (by rw [hs]; exact dig_lt _ _) rfl ?_
  intro b' hb'
  refine ⟨hb'.len, ?_⟩
  have e1 := hb'.final (by omega)
  have hlt : sh.1 < B := by rw [hs]; exact dig_lt _ _
  have h1 := topv_mod b (i := b.nlimbs - 1) (q := X % B ^ (b.nlimbs - 1)) (by omega)
    (mod_lt_pow _ _) hlt
  have hle : B ^ (b.nlimbs - 1) ≤ 256 ^ b.len := pow_le_len (by rw [← Buf.nlimbs_eq]; omega)
  rw [Nat.mod_eq_of_lt (lt_of_lt_of_le (mod_lt_pow _ _) hle)] at h1
  rw [hl, h1, hs, ← mod_succ, Nat.sub_add_cancel (by omega)] at e1
  have hd : 256 ^ b.len ∣ B ^ b.nlimbs := by rw [Buf.nlimbs_eq]; exact len_dvd_pow _
  rw [Nat.mod_mod_of_dvd _ hd] at e1
  rw [e1]
  push_cast
  rw [hX, Int.emod_emod_of_dvd]
  have hd2 : 256 ^ b.len ∣ B ^ (b.nlimbs + 1) := hd.trans (pow_dvd_pow _ (Nat.le_succ _))
  exact_mod_cast hd2

theorem SRep.zero_of {b : Buf φ} {sh : ℕ × ℕ} (h : SRep 0 b sh) :
    sh.1 = 0 ∧ sh.2 = 0 ∧ b.toNat % B ^ (b.nlimbs - 1) = 0 := by
  obtain ⟨X, hX, -, -, hl, hs, hs2⟩ := h
  rw [Int.zero_emod] at hX
  have : X = 0 := by exact_mod_cast hX
  subst this
  simp only [Nat.zero_div, Nat.zero_mod] at hs hs2 hl
  exact ⟨hs, hs2, hl⟩

/-- The number of batches makes the second operand zero, and the first one plus or minus the
greatest common divisor. -/
theorem ct_gcd_ext_odd_mp_mp_run {upd : TransitionMatrix → NegMask → σ → M σ}
    {P : ℕ → σ → Prop} {f : Buf φ} {g : Buf ψ} (hupd : UpdSat f.toNat g.toNat upd P)
    (hn : f.nlimbs = g.nlimbs) (hodd : f.toNat % 2 = 1) {e : σ} (he : P 0 e) :
    Sat (ct_gcd_ext_odd_mp_mp upd e f g) (fun s => s.1.len = f.len ∧ s.2.1.len = g.len ∧
      s.2.1.toNat = 0 ∧ ∃ δ F : ℤ, batchStart f.toNat g.toNat (nbatches (max f.len g.len)) = (δ, F, 0) ∧
        F.natAbs = Nat.gcd f.toNat g.toNat ∧
        (s.1.toNat : ℤ) = F % (256 : ℤ) ^ f.len ∧ s.2.2.1 = .ofBool (decide (F < 0)) ∧
        P (nbatches (max f.len g.len)) s.2.2.2) := by
  have hn0 : f.nlimbs ≠ 0 := by
    intro h0
    have := f.toNat_lt_B
    rw [h0, pow_zero] at this
    omega
  unfold ct_gcd_ext_odd_mp_mp
  dsimp only
  rw [M.assert_eq hn, M.pure_bind, M.assert_eq hn0, M.pure_bind, M.assertM_eq, M.pure_bind]
  swap
  · refine Sat.bind (f.sat_load_l (Q := fun v => v = f.toNat / B ^ 0 % B) (by omega) rfl) ?_
    intro v hv
    refine Sat.pure ?_
    have h2 : f.toNat % B % 2 = f.toNat % 2 := Nat.mod_mod_of_dvd _ (by
      rw [B_eq_two_pow]; exact dvd_pow_self 2 W_pos.ne')
    rw [hv, pow_zero, Nat.div_one, Nat.and_one_is_mod, h2, hodd]; rfl
  refine Sat.bind (f.sat_load_l (Q := fun v => v = f.toNat / B ^ (f.nlimbs - 1) % B)
    (by omega) rfl) ?_
  intro fh hfh
  refine Sat.bind (g.sat_load_l (Q := fun v => v = g.toNat / B ^ (f.nlimbs - 1) % B)
    (by omega) rfl) ?_
  intro gh hgh
  refine Sat.bind (P := GcdInv f g P (nbatches (max f.len g.len))) (Sat.forRange (P := fun j s =>
    GcdInv f g P j s) (Nat.zero_le _) ?_ ?_) ?_
  · refine ⟨f.toNat, g.toNat, by unfold batchStart; rw [Nat.zero_mul]; rfl, rfl, rfl, ?_, ?_, he⟩
    · dsimp only; rw [hfh]; exact SRep.init f hn0
    · dsimp only; rw [hgh, hn]; exact SRep.init g (by omega)
  · intro j s _ _ hs
    exact gcd_batch_sat hn hn0 hupd hodd hs
  rintro ⟨f', fsh, g', gsh, δ, e'⟩ ⟨F, G, hit, hlf, hlg, hf, hg, hP⟩
  dsimp only at hit hlf hlg hf hg hP ⊢
  -- termination
  have hbound : ∀ x : ℕ, x < 256 ^ max f.len g.len → |(x : ℤ)| ≤ 2 ^ (8 * max f.len g.len) := by
    intro x hx
    rw [abs_of_nonneg (by positivity)]
    rw [← two_pow_8] at hx
    exact_mod_cast hx.le
  obtain ⟨m, hm1, hm2⟩ := nbatches_even (max f.len g.len)
  have hG : G = 0 := by
    have := divstep_bound (m := m) (d := 8 * max f.len g.len) (f := (f.toNat : ℤ))
      (g := (g.toNat : ℤ)) (by omega)
      (hbound _ (lt_of_lt_of_le f.toNat_lt (Nat.pow_le_pow_right (by norm_num) (le_max_left _ _))))
      (hbound _ (lt_of_lt_of_le g.toNat_lt (Nat.pow_le_pow_right (by norm_num) (le_max_right _ _))))
      hm2
    rw [← hm1] at this
    change (batchStart _ _ _).2.2 = 0 at this
    rw [hit] at this
    exact this
  subst hG
  have hgcd := divstep_iter_gcd (nbatches (max f.len g.len) * STEPS_PER_BATCH)
    (1, (f.toNat : ℤ), (g.toNat : ℤ)) (by dsimp only; omega)
  change Int.gcd (batchStart _ _ _).2.1 (batchStart _ _ _).2.2 = _ at hgcd
  rw [hit] at hgcd
  dsimp only at hgcd
  rw [Int.gcd_zero_right, Int.gcd_natCast_natCast] at hgcd
  have hnf : f'.nlimbs = f.nlimbs := Buf.nlimbs_congr hlf
  have hng : g'.nlimbs = f.nlimbs := (Buf.nlimbs_congr hlg).trans hn.symm
  obtain ⟨hz1, hz2, hz3⟩ := hg.zero_of
  rw [M.assert_eq hz1, M.pure_bind]
  refine Sat.bind (P := fun b : Buf ψ => b.len = g'.len ∧ b.toNat = 0) ?_ ?_
  · refine (Low.self g' (f.nlimbs - 1)).sat_store (by omega) B_pos (fun _ => by positivity) ?_
    intro b' hb'
    refine ⟨hb'.len, ?_⟩
    rw [hb'.final (by omega), ← hng, hz3]; simp
  rintro g2 ⟨hl2, hv2⟩
  have hng2 : g2.nlimbs = f.nlimbs := (Buf.nlimbs_congr hl2).trans hng
  rw [M.assert_eq hz2, M.pure_bind]
  refine Sat.bind (P := fun _ => True) (Sat.forRange (P := fun _ _ => True) (Nat.zero_le _)
    trivial ?_) ?_
  · intro k _ _ hk _
    rw [M.assertM_eq]
    · exact Sat.pure trivial
    · refine Sat.bind (g2.sat_load_l (Q := fun v => v = g2.toNat / B ^ k % B) (by omega) rfl) ?_
      intro v hv
      refine Sat.pure ?_
      rw [hv, hv2]; simp
  intro _ _
  have hsgn := hf.sign
  have hshr : shr fsh.2 (W - 1) = if F < 0 then 1 else 0 := by
    rw [hsgn, shr_eq]
    split
    · refine Nat.div_eq_of_lt_le ?_ ?_
      · have := B_half
        have := Nat.two_pow_pos (W - 1)
        unfold lmax; omega
      · have := B_half
        have := Nat.two_pow_pos (W - 1)
        unfold lmax; omega
    · exact Nat.zero_div _
  rw [M.assert_eq (by rw [hsgn]; split <;> simp), M.pure_bind, hshr,
    LimbChoice.from'_eq (by split <;> omega), M.pure_bind]
  have hst := hf.store (by omega)
  rw [hnf] at hst
  refine Sat.bind hst ?_
  rintro f2 ⟨hlf2, hvf2⟩
  refine Sat.pure ⟨hlf2.trans hlf, hl2.trans hlg, hv2, _, F, hit, hgcd, ?_, ?_, hP⟩
  · dsimp only; rw [hvf2, hlf]
  · dsimp only
    by_cases hF : F < 0 <;> simp [hF]

theorem gcd_negate_sat (a : Buf φ) (c : Bool) (h : ¬ a.is_empty = true) :
    Sat (gcd_negate a (.ofBool c)) (fun a' => a'.len = a.len ∧
      a'.toNat = if c then (256 ^ a.len - a.toNat) % 256 ^ a.len else a.toNat) := by
  unfold gcd_negate
  have hn := nlimbs_pos_of_not_empty h
  have hN : a.nlimbs = ct_mp_nlimbs a.len := Buf.nlimbs_eq a
  have ha := a.toNat_lt
  have hlast : a.nlimbs - 1 + 1 = a.nlimbs := by omega
  have h1B := one_lt_B
  have hfull : ∀ i, i + 1 < a.nlimbs → i * LB + LB ≤ a.len :=
    fun i hi => full_of_lt_pred (by rw [← Buf.nlimbs_eq]; exact hi)
  rw [LimbChoice.select_ofBool B_pos lmax_lt, LimbChoice.select_ofBool B_pos h1B]
  dsimp only
  cases c
  · simp only [Bool.false_eq_true, if_false, Nat.xor_zero]
    have hadd : ∀ i, ct_add_l_l (a.toNat / B ^ i % B) 0 = (0, a.toNat / B ^ i % B) := fun i => by
      rw [ct_add_l_l_eq (dig_lt _ _) B_pos, Nat.add_zero, Nat.div_eq_of_lt (dig_lt _ _),
        Nat.mod_eq_of_lt (dig_lt _ _)]
    refine Sat.bind (Sat.forRange (P := fun i s => s = (a, 0)) (Nat.zero_le _) rfl ?_) ?_
    · intro i s _ hi hs; subst s
      refine Sat.bind (a.sat_load_l_full (hfull i (by omega)) (Q := fun v => v = a.toNat / B ^ i % B) rfl) ?_
      rintro _ rfl
      rw [hadd]
      refine Sat.bind (a.sat_store_l_full (hfull i (by omega)) (dig_lt _ _)
        (Q := fun b' => b' = a) fun b' h1 h2 => Buf.ext' h1 (by rw [h2, upd_self])) ?_
      intro b' hb'; subst b'
      exact Sat.pure rfl
    · intro s hs; subst s
      refine Sat.bind (a.sat_load_l (by omega)
        (Q := fun v => v = a.toNat / B ^ (a.nlimbs - 1) % B) rfl) ?_
      rintro _ rfl
      dsimp only
      rw [hadd]
      dsimp only
      rw [Buf.and_partial_high_mask _ (len_pos_of_lt (i := 0) hn),
        Nat.mod_eq_of_lt (Upto.high_lt ha hlast)]
      exact a.sat_store_l (by omega) (dig_lt _ _) (Upto.high_lt a.toNat_lt)
        fun b' h1 h2 => ⟨h1, by rw [h2, upd_self]⟩
  · simp only [if_true]
    have hadd : ∀ i k, k ≤ 1 → ∃ k' v, ct_add_l_l (a.toNat / B ^ i % B ^^^ lmax) k = (k', v) ∧
        k' ≤ 1 ∧ v < B ∧ B + k = v + k' * B + (a.toNat / B ^ i % B) + 1 := fun i k hk => by
      have hd := dig_lt a.toNat i
      rw [xor_lmax hd, ct_add_l_l_eq (by omega) (by omega)]
      refine ⟨_, _, rfl, add_div_le_one (by omega) (by omega), Nat.mod_lt _ B_pos, ?_⟩
      have := Nat.mod_add_div (B - 1 - a.toNat / B ^ i % B + k) B
      rw [mul_comm] at this
      generalize (B - 1 - a.toNat / B ^ i % B + k) % B = t1 at *
      generalize (B - 1 - a.toNat / B ^ i % B + k) / B * B = t2 at *
      generalize a.toNat / B ^ i % B = t3 at *
      omega
    have hstep : ∀ i k r k' v, r + k * B ^ i + a.toNat % B ^ i = B ^ i →
        B + k = v + k' * B + (a.toNat / B ^ i % B) + 1 →
        r + B ^ i * v + k' * B ^ (i + 1) + a.toNat % B ^ (i + 1) = B ^ (i + 1) := by
      intro i k r k' v h1 h2
      rw [mod_succ, pow_succ]
      linear_combination h1 - B ^ i * h2
    refine Sat.bind (Sat.forRange (P := fun i s => ∃ r, Low a r i s.1 ∧ s.2 ≤ 1 ∧
      r + s.2 * B ^ i + a.toNat % B ^ i = B ^ i) (Nat.zero_le _)
      ⟨0, Low.zero a, le_rfl, by simp [Nat.mod_one]⟩ ?_) ?_
    · rintro i ⟨op0, k⟩ _ hi ⟨r, hL, hk, hr⟩
      dsimp only at *
      refine Sat.bind (hL.sat_load_full (hfull i (by omega)) le_rfl (Q := fun v => v = a.toNat / B ^ i % B) rfl) ?_
      rintro _ rfl
      obtain ⟨k', v, e, hk', hv, he⟩ := hadd i k hk
      rw [e]
      refine Sat.bind (hL.sat_store_full (hfull i (by omega)) hv (fun b' hb' => hb'))
        fun b' hb' => ?_
      exact Sat.pure ⟨_, hb', hk', hstep _ _ _ _ _ hr he⟩
    · rintro ⟨op0, k⟩ ⟨r, hL, hk, hr⟩
      dsimp only at *
      refine Sat.bind (hL.sat_load (by omega) le_rfl
        (Q := fun v => v = a.toNat / B ^ (a.nlimbs - 1) % B) rfl) ?_
      rintro _ rfl
      obtain ⟨k', v, e, hk', hv, he⟩ := hadd (a.nlimbs - 1) k hk
      rw [e]
      dsimp only
      rw [Buf.partial_high_mask_congr hL.len]
      refine hL.sat_store_mask hlast hv rfl fun b' hb' => ⟨hb'.len, ?_⟩
      have hb2 := b'.toNat_lt
      rw [hb'.len] at hb2
      refine eq_neg_mod hb2 ha ?_
      rw [hb'.final (by omega)]
      have h3 := hstep _ _ _ _ _ hr he
      have h4 : r + B ^ (a.nlimbs - 1) * topv a (a.nlimbs - 1) v
          = (r + B ^ (a.nlimbs - 1) * v) % 256 ^ a.len := by
        rw [← topv_mod a (by omega) hL.lt hv, Nat.mod_eq_of_lt]
        exact lt_of_lt_of_le hL.lt (pow_le_len (by omega))
      rw [hlast, a.mod_high le_rfl] at h3
      rw [h4]
      have hd : 256 ^ a.len ∣ B ^ a.nlimbs := by rw [hN]; exact len_dvd_pow _
      rw [Nat.dvd_iff_mod_eq_zero, Nat.mod_add_mod, ← Nat.dvd_iff_mod_eq_zero]
      have h5 : 256 ^ a.len ∣ k' * B ^ a.nlimbs + (r + B ^ (a.nlimbs - 1) * v + a.toNat) := by
        rw [show k' * B ^ a.nlimbs + (r + B ^ (a.nlimbs - 1) * v + a.toNat) = B ^ a.nlimbs by
          linear_combination h3]
        exact hd
      exact (Nat.dvd_add_right (hd.mul_left _)).1 h5


/-! ### `ct_gcd_odd_mp_mp` -/

theorem abs_of_neg_mod {F : ℤ} {N v k : ℕ} (hN : F.natAbs = N) (h0 : 0 < N) (hlt : N < 256 ^ k)
    (hv : (v : ℤ) = F % (256 : ℤ) ^ k) :
    (if decide (F < 0) = true then (256 ^ k - v) % 256 ^ k else v) = N := by
  have eP : (256 : ℤ) ^ k = ((256 ^ k : ℕ) : ℤ) := by push_cast; rfl
  rw [eP] at hv
  generalize 256 ^ k = P at *
  by_cases hF : F < 0
  · rw [if_pos (by simpa using hF)]
    rw [← Int.add_emod_right, Int.emod_eq_of_lt (by omega) (by omega)] at hv
    rw [show P - v = N by omega, Nat.mod_eq_of_lt hlt]
  · rw [if_neg (by simpa using hF)]
    rw [Int.emod_eq_of_lt (by omega) (by omega)] at hv
    omega

/-- The error reported by `ct_gcd_odd_mp_mp`. -/
def gcdOddErr (f : Buf φ) (g : Buf ψ) : Option GcdError :=
  if f.toNat % 2 = 0 then some .InvalidInputOperandValue
  else if ¬ LenCompat f g.len ∨ ¬ LenCompat g f.len then some .InconsistentOperandLengths
  else none

theorem ct_gcd_odd_mp_mp_sat (f : Buf φ) (g : Buf ψ) :
    Sat (ct_gcd_odd_mp_mp f g) (Outcome (gcdOddErr f g) (fun r =>
      r.1.len = f.len ∧ r.2.len = g.len ∧ r.1.toNat = Nat.gcd f.toNat g.toNat ∧
        r.2.toNat = 0)) := by
  unfold ct_gcd_odd_mp_mp gcdOddErr
  refine Sat.bind (f.test_bit_sat 0) ?_
  intro c hc
  rw [hc]
  refine Sat.cond (fun h => Sat.pure ?_) fun h => ?_
  · rw [if_pos (odd_check.1 h)]; rfl
  rw [odd_check] at h
  rw [if_neg h]
  refine Sat.bind (len_is_compatible_with_sat f g.len) ?_
  intro c0 hc0
  refine Sat.bind (len_is_compatible_with_sat g f.len) ?_
  intro c1 hc1
  have hiff : (¬ c0 = true ∨ ¬ c1 = true) ↔ (¬ LenCompat f g.len ∨ ¬ LenCompat g f.len) := by
    rw [hc0, hc1, decide_eq_true_eq, decide_eq_true_eq]
  refine Sat.cond (fun h => Sat.pure ?_) fun h' => ?_
  · rw [if_pos (hiff.1 h)]; rfl
  rw [if_neg (fun h => h' (hiff.2 h))]
  have hC : LenCompat f g.len ∧ LenCompat g f.len := by
    have := fun h => h' (hiff.2 h)
    exact ⟨by_contra fun h => this (Or.inl h), by_contra fun h => this (Or.inr h)⟩
  have hn : f.nlimbs = g.nlimbs := by
    have h1 := hC.1.nlimbs
    have h2 := hC.2.nlimbs
    rw [← Buf.nlimbs_eq] at h1 h2
    omega
  refine Sat.bind (ct_gcd_ext_odd_mp_mp_run (P := fun _ (_ : Unit) => True)
    (fun _ _ _ _ _ _ _ _ _ _ _ _ _ _ _ _ _ => Sat.pure trivial) hn (by omega) trivial) ?_
  rintro ⟨f', g', neg, _⟩ ⟨hlf, hlg, hg0, -, F, -, hF, hfv, hneg, -⟩
  dsimp only at hlf hlg hg0 hF hfv hneg ⊢
  have hpos : 0 < f.toNat := by omega
  have hlen : f'.len ≠ 0 := by
    intro h0
    have := f.toNat_lt
    rw [← hlf, h0, pow_zero] at this
    omega
  rw [hneg]
  refine Sat.bind (gcd_negate_sat f' (decide (F < 0)) (by rw [Buf.is_empty_iff]; exact hlen)) ?_
  rintro f2 ⟨hl2, hv2⟩
  refine Sat.pure ⟨rfl, hl2.trans hlf, hlg, ?_, hg0⟩
  dsimp only
  rw [hv2, hlf]
  exact abs_of_neg_mod hF (Nat.gcd_pos_of_pos_left _ hpos)
    (lt_of_le_of_lt (Nat.gcd_le_left _ hpos) f.toNat_lt) hfv

/-! ### `ct_gcd_mp_mp` -/

theorem LenCompat.congr {n : Buf φ} {m : Buf φ} {len : ℕ} (h : LenCompat n len)
    (hl : m.len = n.len) (hv : m.toNat < 256 ^ len) : LenCompat m len := by
  rcases h with h | h
  · exact Or.inl (by omega)
  · exact Or.inr ⟨h.1, by rw [hl]; exact h.2.1, hv⟩

/-- The error reported by `ct_gcd_mp_mp`. -/
def gcdErr (op0 : Buf φ) (op1 : Buf ψ) : Option GcdError :=
  if op0.len = 0 then some .InsufficientResultSpace
  else if ¬ LenCompat op0 op1.len ∨ ¬ LenCompat op1 op0.len then some .InconsistentOperandLengths
  else none

/-- The value computed for two operands: one if both are zero. -/
def gcdVal (a b : ℕ) : ℕ := if a = 0 ∧ b = 0 then 1 else Nat.gcd a b

/-- The arithmetic behind factoring out the common power of two. -/
theorem gcd_factor {a b ta tb : ℕ} (ha : IsTz 0 a ta) (hb : IsTz 0 b tb) (fewer : Bool)
    (hfw : fewer = (decide (a = 0) || (decide (b ≠ 0) && decide (tb < ta)))) (t : ℕ)
    (ht : t = if fewer then tb else ta) :
    2 ^ t ∣ a ∧ 2 ^ t ∣ b ∧ (¬ (a = 0 ∧ b = 0) → (if fewer then b / 2 ^ t else a / 2 ^ t) % 2 = 1)
      ∧ (a = 0 ∧ b = 0 → t = 0) := by
  have odd_of : ∀ x s, x ≠ 0 → 2 ^ s ∣ x → ¬ 2 ^ (s + 1) ∣ x → x / 2 ^ s % 2 = 1 := by
    intro x s _ h1 h2
    obtain ⟨y, rfl⟩ := h1
    rw [Nat.mul_div_cancel_left _ (Nat.two_pow_pos s)]
    by_contra hy
    exact h2 (by rw [pow_succ]; exact Nat.mul_dvd_mul_left _ (Nat.dvd_of_mod_eq_zero (by omega)))
  rcases ha with ⟨rfl, rfl⟩ | ⟨ha0, ha1, ha2⟩
  · simp only [decide_true, Bool.true_or] at hfw
    subst hfw
    simp only [if_true] at ht ⊢
    subst ht
    rcases hb with ⟨rfl, rfl⟩ | ⟨hb0, hb1, hb2⟩
    · simp
    · exact ⟨dvd_zero _, hb1, fun _ => odd_of _ _ hb0 hb1 hb2, fun h => absurd h.2 hb0⟩
  · rcases hb with ⟨rfl, rfl⟩ | ⟨hb0, hb1, hb2⟩
    · simp only [ha0, decide_false, Bool.false_or, ne_eq, not_true_eq_false, Bool.false_and] at hfw
      subst hfw
      simp only [Bool.false_eq_true, if_false] at ht ⊢
      subst ht
      exact ⟨ha1, dvd_zero _, fun _ => odd_of _ _ ha0 ha1 ha2, fun h => absurd h.1 ha0⟩
    · by_cases hlt : tb < ta
      · simp only [hlt, hb0, ne_eq, not_false_eq_true, decide_true, Bool.true_and,
          Bool.or_true] at hfw
        subst hfw
        simp only [if_true] at ht ⊢
        subst ht
        exact ⟨(pow_dvd_pow 2 hlt.le).trans ha1, hb1, fun _ => odd_of _ _ hb0 hb1 hb2,
          fun h => absurd h.2 hb0⟩
      · simp only [hlt, ha0, decide_false, Bool.and_false, Bool.or_false] at hfw
        subst hfw
        simp only [Bool.false_eq_true, if_false] at ht ⊢
        subst ht
        exact ⟨ha1, (pow_dvd_pow 2 (by omega)).trans hb1, fun _ => odd_of _ _ ha0 ha1 ha2,
          fun h => absurd h.1 ha0⟩

theorem ct_gcd_mp_mp_sat (op0 : Buf φ) (op1 : Buf ψ) :
    Sat (ct_gcd_mp_mp op0 op1) (Outcome (gcdErr op0 op1) (fun r =>
      r.1.len = op0.len ∧ r.2.len = op1.len ∧ r.1.toNat = gcdVal op0.toNat op1.toNat ∧
        r.2.toNat = 0)) := by
  unfold ct_gcd_mp_mp gcdErr
  refine Sat.cond (fun h => Sat.pure ?_) fun h => ?_
  · rw [if_pos (op0.is_empty_iff.1 h)]; rfl
  have hl0 : op0.len ≠ 0 := fun h' => h (op0.is_empty_iff.2 h')
  rw [if_neg hl0]
  refine Sat.bind (len_is_compatible_with_sat op0 op1.len) ?_
  intro c0 hc0
  refine Sat.bind (len_is_compatible_with_sat op1 op0.len) ?_
  intro c1 hc1
  have hiff : (¬ c0 = true ∨ ¬ c1 = true) ↔ (¬ LenCompat op0 op1.len ∨ ¬ LenCompat op1 op0.len) := by
    rw [hc0, hc1, decide_eq_true_eq, decide_eq_true_eq]
  refine Sat.cond (fun h => Sat.pure ?_) fun h' => ?_
  · rw [if_pos (hiff.1 h)]; rfl
  rw [if_neg (fun h => h' (hiff.2 h))]
  have hC : LenCompat op0 op1.len ∧ LenCompat op1 op0.len := by
    have := fun h => h' (hiff.2 h)
    exact ⟨by_contra fun h => this (Or.inl h), by_contra fun h => this (Or.inr h)⟩
  obtain ⟨hC0, hC1⟩ := hC
  have hn : op0.nlimbs = op1.nlimbs := by
    have h1 := hC0.nlimbs
    have h2 := hC1.nlimbs
    rw [← Buf.nlimbs_eq] at h1 h2
    omega
  have hn0 : 0 < op0.nlimbs := nlimbs_pos_of_not_empty h
  refine Sat.bind (ct_find_first_set_bit_mp_sat op0) ?_
  rintro ⟨z0, ta⟩ ⟨hz0, hta⟩
  refine Sat.bind (ct_find_first_set_bit_mp_sat op1) ?_
  rintro ⟨z1, tb⟩ ⟨hz1, htb⟩
  dsimp only at hz0 hta hz1 htb ⊢
  rw [M.assert_eq, M.pure_bind]
  swap
  · rcases hta with ⟨-, h⟩ | ⟨h, -⟩
    · exact Or.inr h
    · left; rw [hz0]; simp [h, LimbChoice.unwrap_ofBool]
  rw [hz0, hz1, ct_lt_usize_usize_eq, LimbChoice.not_ofBool, LimbChoice.not_ofBool,
    LimbChoice.and_ofBool, LimbChoice.or_ofBool, LimbChoice.and_ofBool,
    LimbChoice.select_usize_ofBool]
  generalize hfw : (!decide (op0.toNat ≠ 0) || (decide (op1.toNat ≠ 0) && decide (tb < ta))) = fewer
  generalize hz : (!decide (op0.toNat ≠ 0) && !decide (op1.toNat ≠ 0)) = zz
  generalize ht : (if fewer = true then tb else ta) = t
  have hzz : zz = true ↔ (op0.toNat = 0 ∧ op1.toNat = 0) := by
    rw [← hz]; simp
  obtain ⟨hd0, hd1, hodd, ht0⟩ := gcd_factor hta htb fewer (by rw [← hfw]; simp) t ht.symm
  refine Sat.bind (ct_rshift_mp_sat op0 t) ?_
  rintro ⟨a, _⟩ ⟨hla, hva, -⟩
  refine Sat.bind (ct_rshift_mp_sat op1 t) ?_
  rintro ⟨b, _⟩ ⟨hlb, hvb, -⟩
  dsimp only at hla hva hlb hvb ⊢
  have ha1 : a.toNat < 256 ^ op1.len := by
    rw [hva]; exact lt_of_le_of_lt (Nat.div_le_self _ _) hC0.lt
  have hb1 : b.toNat < 256 ^ op0.len := by
    rw [hvb]; exact lt_of_le_of_lt (Nat.div_le_self _ _) hC1.lt
  refine Sat.bind (ct_swap_cond_mp_sat a b fewer (by
    rw [Buf.nlimbs_congr hla, Buf.nlimbs_congr hlb, hn])
    (Or.inr ⟨by rw [hlb]; exact ha1, by rw [hla]; exact hb1⟩)) ?_
  rintro ⟨a2, b2⟩ ⟨hla2, hlb2, hva2, hvb2⟩
  dsimp only at hla2 hlb2 hva2 hvb2 ⊢
  rw [hla] at hla2
  rw [hlb] at hlb2
  have hna2 : a2.nlimbs = op0.nlimbs := Buf.nlimbs_congr hla2
  rw [hva, hvb] at hva2 hvb2
  rw [← hva2] at hodd
  rw [M.assertM_eq, M.pure_bind]
  swap
  · refine Sat.bind (a2.sat_load_l (Q := fun v => v = a2.toNat / B ^ 0 % B) (by omega) rfl) ?_
    intro v hv
    refine Sat.pure ?_
    have h2 : a2.toNat % B % 2 = a2.toNat % 2 := Nat.mod_mod_of_dvd _ (by
      rw [B_eq_two_pow]; exact dvd_pow_self 2 W_pos.ne')
    rw [hv, pow_zero, Nat.div_one, Nat.and_one_is_mod, h2]
    cases hzv : zz
    · rw [hodd (fun h => by rw [hzz.2 h] at hzv; cases hzv)]; simp
    · simp [LimbChoice.unwrap_ofBool]
  refine Sat.bind (a2.sat_load_l (Q := fun v => v = a2.toNat / B ^ 0 % B) (by omega) rfl) ?_
  intro v hv
  rw [LimbChoice.select_ofBool (by rw [hv]; exact Nat.mod_lt _ B_pos) one_lt_B]
  refine Sat.bind (P := fun a3 : Buf φ => a3.len = a2.len ∧
      a3.toNat = if zz = true then 1 else a2.toNat) ?_ ?_
  · have hsel : (if zz = true then 1 else v) < B := by
      split
      · exact one_lt_B
      · rw [hv]; exact Nat.mod_lt _ B_pos
    refine a2.sat_store_l (by omega) hsel (fun h' => ?_) (fun a3 h1 h2 => ⟨h1, ?_⟩)
    · split
      · exact Nat.one_lt_pow (hbytes_pos (by omega)).ne' (by norm_num)
      · rw [hv]; exact Upto.high_lt a2.toNat_lt h'
    · rw [h2]
      split
      · next hzv =>
        have h0 : a2.toNat = 0 := by
          rw [hva2, (hzz.1 hzv).1, (hzz.1 hzv).2]; simp
        rw [h0]
        simp [upd]
      · rw [hv]; exact upd_self _ _
  rintro a3 ⟨hla3, hva3⟩
  rw [hla2] at hla3
  have hodd3 : a3.toNat % 2 = 1 := by
    rw [hva3]
    split
    · rfl
    · next hzv => exact hodd (fun h => hzv (hzz.2 h))
  have hle3 : a3.toNat ≤ max 1 a2.toNat := by rw [hva3]; split <;> omega
  have hlen1 : op1.len ≠ 0 := by
    intro h0
    have : 0 < op1.nlimbs := by omega
    rw [Buf.nlimbs_eq, nlimbs_pos_iff] at this
    omega
  have h3lt : a3.toNat < 256 ^ op1.len := by
    rw [hva3]
    split
    · exact Nat.one_lt_pow hlen1 (by norm_num)
    · rw [hva2]; split
      · rw [← hvb, ← hlb]; exact b.toNat_lt
      · rw [← hva]; exact ha1
  have hb2lt : b2.toNat < 256 ^ op0.len := by
    rw [hvb2]; split
    · rw [← hva, ← hla]; exact a.toNat_lt
    · rw [← hvb]; exact hb1
  have hgcd : Nat.gcd a3.toNat b2.toNat * 2 ^ t = gcdVal op0.toNat op1.toNat := by
    unfold gcdVal
    rw [hva3]
    by_cases hzv : zz = true
    · rw [if_pos hzv, if_pos (hzz.1 hzv), ht0 (hzz.1 hzv), Nat.gcd_one_left, pow_zero, mul_one]
    · rw [if_neg hzv, if_neg (fun h => hzv (hzz.2 h)), hva2, hvb2, ← Nat.gcd_mul_right]
      cases fewer
      · simp only [Bool.false_eq_true, if_false]
        rw [Nat.div_mul_cancel hd0, Nat.div_mul_cancel hd1]
      · simp only [if_true]
        rw [Nat.div_mul_cancel hd0, Nat.div_mul_cancel hd1, Nat.gcd_comm]
  refine Sat.bind (unwrapE_sat (ct_gcd_odd_mp_mp_sat a3 b2) ?_) ?_
  · unfold gcdOddErr
    rw [if_neg (by omega), if_neg]
    rw [hla3, hlb2]
    intro h
    exact h.elim (fun h => h (hC0.congr hla3 h3lt)) (fun h => h (hC1.congr hlb2 hb2lt))
  rintro ⟨r0, r1⟩ ⟨hl4, hl5, hv4, hv5⟩
  dsimp only at hl4 hl5 hv4 hv5 ⊢
  have hgpos : 0 < Nat.gcd a3.toNat b2.toNat := Nat.gcd_pos_of_pos_left _ (by omega)
  rw [M.assertM_eq, M.pure_bind]
  swap
  · refine Sat.bind (ct_is_zero_mp_sat r0) ?_
    intro z hz
    refine Sat.pure ?_
    rw [hz, hv4]
    simp [hgpos.ne', LimbChoice.unwrap_ofBool]
  rw [M.assertM_eq, M.pure_bind]
  swap
  · refine Sat.bind (ct_is_one_mp_sat r0) ?_
    intro z hz
    refine Sat.pure ?_
    rw [hz, hv4, hva3]
    cases zz <;> simp [LimbChoice.unwrap_ofBool]
  rw [M.assert_eq, M.pure_bind]
  swap
  · cases hzv : zz
    · left; simp [LimbChoice.unwrap_ofBool]
    · right; exact ht0 (hzz.1 hzv)
  refine Sat.bind (ct_lshift_mp_sat r0 t) ?_
  rintro ⟨r2, _⟩ ⟨hl6, hv6, -⟩
  dsimp only at hl6 hv6 ⊢
  have hl7 : r2.len = op0.len := by omega
  refine Sat.pure ⟨rfl, hl7, by dsimp only; omega, ?_, hv5⟩
  dsimp only
  rw [hv6, hv4, hgcd, two_pow_8, hl4, hla3]
  refine Nat.mod_eq_of_lt ?_
  unfold gcdVal
  split
  · exact Nat.one_lt_pow hl0 (by norm_num)
  · next hnz =>
    by_cases ha : op0.toNat = 0
    · rw [ha, Nat.gcd_zero_left]; exact hC1.lt
    · exact lt_of_le_of_lt (Nat.gcd_le_left _ (by omega)) op0.toNat_lt

end Cmpa
