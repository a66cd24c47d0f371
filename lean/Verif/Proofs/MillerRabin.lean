import Verif.Model.Prime
import Verif.Proofs.MgExp
import Mathlib.FieldTheory.Finite.Basic

/-!
# The Miller–Rabin test
-/

set_option linter.unusedSectionVars false

namespace Cmpa
variable [LimbCfg] {φ ψ χ : Fmt}

open M

theorem bool_and_toNat (a b : Bool) : a.toNat &&& b.toNat = (a && b).toNat := by
  cases a <;> cases b <;> rfl

theorem bool_or_toNat (a b : Bool) : a.toNat ||| b.toNat = (a || b).toNat := by
  cases a <;> cases b <;> rfl

theorem ct_is_zero_l_toNat {v : ℕ} (hv : v < B) : ct_is_zero_l v = (decide (v = 0)).toNat := by
  rw [ct_is_zero_l_eq hv]
  by_cases h : v = 0 <;> simp [h]

theorem select_zero_toNat (a b : Bool) :
    (LimbChoice.ofBool a).select 0 b.toNat = (a && b).toNat := by
  have h := one_lt_B
  rw [LimbChoice.select_ofBool (by omega) (by cases b <;> simp <;> omega)]
  cases a <;> cases b <;> rfl

theorem eq_digits {x D v i : ℕ} (hD : D < B ^ i) (hv : v < B) :
    x % B ^ (i + 1) = v * B ^ i + D ↔ x / B ^ i % B = v ∧ x % B ^ i = D := by
  rw [mod_succ]
  constructor
  · intro h
    have h1 : (x % B ^ i + B ^ i * (x / B ^ i % B)) % B ^ i = x % B ^ i := by
      rw [Nat.add_mul_mod_self_left, Nat.mod_mod]
    have h2 : (v * B ^ i + D) % B ^ i = D := by
      rw [Nat.mul_comm, Nat.mul_add_mod, Nat.mod_eq_of_lt hD]
    have h3 : x % B ^ i = D := by rw [← h1, h, h2]
    rw [h3] at h
    have h4 : B ^ i * (x / B ^ i % B) = B ^ i * v := by rw [Nat.mul_comm _ v]; omega
    exact ⟨Nat.eq_of_mul_eq_mul_left (B_pow_pos i) h4, h3⟩
  · rintro ⟨h1, h2⟩
    rw [h1, h2]; ring

theorem Buf.Readable.mono {b : Buf ψ} {i j : ℕ} (h : b.Readable i) (hj : j ≤ i) :
    b.Readable j := by
  rcases Nat.lt_or_ge j i with hlt | hge
  · left
    have h1 := h.le
    have h2 : (j + 1) * LB ≤ i * LB := Nat.mul_le_mul_right _ hlt
    have h3 := LB_pos
    rw [Nat.add_mul, one_mul] at h2
    rw [Buf.nlimbs_eq, lt_nlimbs_iff]; omega
  · rwa [show j = i by omega]

theorem Buf.load_l_exact (b : Buf ψ) (i : ℕ) :
    Exact (b.Readable i) (b.load_l i) (fun v => v = b.toNat / B ^ i % B) :=
  ⟨fun h => h.sat, fun h => Buf.load_l_panic h⟩

/-- The comparison with one and minus one. -/
theorem mr_compare_exact (p : Buf φ) (rad : Buf ψ) (b : Buf .ne) (hN : 0 < p.nlimbs)
    (hb : b.nlimbs = p.nlimbs) (hlt : rad.toNat < p.toNat) :
    Exact (rad.Readable (p.nlimbs - 1)) (mr_compare p rad b)
      (fun s => s.1 = (decide (b.toNat = rad.toNat)).toNat ∧
        s.2 = (decide (b.toNat = p.toNat - rad.toNat)).toNat) := by
  unfold mr_compare
  refine (Exact.bind (S' := True) (Exact.forRange (P := fun i (s : ℕ × ℕ × ℕ) =>
    s.1 = (decide (b.toNat % B ^ i = rad.toNat % B ^ i)).toNat ∧ s.2.2 ≤ 1 ∧
    ∃ D, D < B ^ i ∧ p.toNat % B ^ i + s.2.2 * B ^ i = rad.toNat % B ^ i + D ∧
      s.2.1 = (decide (b.toNat % B ^ i = D)).toNat) (S := fun i => rad.Readable i)
      (Nat.zero_le _) ?_ ?_) ?_).congr ?_
  · simp [Nat.mod_one]
  · rintro i ⟨o, m, k⟩ - hi ⟨h1, h2, D, hD, h3, h4⟩
    dsimp only at h1 h2 h3 h4 ⊢
    refine (Exact.bind (S' := True) (rad.load_l_exact i) ?_).congr (and_true _).to_iff
    rintro _ - rfl
    refine Sat.exact ?_
    refine Sat.bind (b.sat_load_l (by omega) (Q := fun v => v = b.toNat / B ^ i % B) rfl) ?_
    rintro _ rfl
    refine Sat.bind (p.sat_load_l (by omega) (Q := fun v => v = p.toNat / B ^ i % B) rfl) ?_
    rintro _ rfl
    obtain ⟨k', v, e, hk', hv, he⟩ := ct_sub_l_l_b_spec (dig_lt p.toNat i) (dig_lt rad.toNat i) h2
    rw [e, M.pure_bind]
    refine Sat.pure ⟨?_, hk', v * B ^ i + D, ?_, ?_, ?_⟩
    · dsimp only
      rw [h1, ct_is_zero_l_toNat (xor_lt (dig_lt _ _) (dig_lt _ _)), bool_and_toNat, ← Bool.decide_and]
      congr 1
      rw [decide_eq_decide, xor_eq_zero', eq_succ, and_comm]
    · rw [pow_succ]
      have h5 : (v + 1) * B ^ i ≤ B * B ^ i := Nat.mul_le_mul_right _ hv
      rw [Nat.add_mul, one_mul] at h5
      rw [Nat.mul_comm (B ^ i) B]; omega
    · dsimp only
      rw [mod_succ, mod_succ, pow_succ]
      generalize B ^ i = X at *
      linear_combination h3 + X * he
    · dsimp only
      rw [h4, ct_is_zero_l_toNat (xor_lt (dig_lt _ _) hv), bool_and_toNat, ← Bool.decide_and]
      congr 1
      rw [decide_eq_decide, xor_eq_zero', eq_digits hD hv, and_comm]
  · rintro ⟨o, m, k⟩ - ⟨h1, h2, D, hD, h3, h4⟩
    dsimp only at h1 h2 h3 h4 ⊢
    rw [p.mod_high le_rfl, Nat.mod_eq_of_lt (hlt.trans p.toNat_lt_B)] at h3
    rw [b.mod_high hb.le, Nat.mod_eq_of_lt (hlt.trans p.toNat_lt_B)] at h1
    rw [b.mod_high hb.le] at h4
    have hk : k = 0 := by
      by_contra hc
      have : k = 1 := by omega
      subst this; omega
    subst hk
    refine Sat.exact (Sat.pure ⟨h1, ?_⟩)
    have hDe : D = p.toNat - rad.toNat := by omega
    rw [h4, hDe]
  · exact ⟨fun h => h.1 _ (Nat.zero_le _) (by omega), fun h =>
      ⟨fun i _ hi => h.mono (by omega), trivial⟩⟩

/-! ### The course of the test -/

/-- The power calculated from the bits from `t` on of the candidate. -/
def mrPow (p : Buf φ) (neg x r t : ℕ) : ℕ :=
  expRun p.nlimbs p.toNat neg x p.toNat (8 * p.len) r (8 * p.len - t)

/-- The comparisons having an effect at bit `t`, the `s`th bit being the first one set of the
candidate minus one: with one at bit `s`, and with minus one from there on. -/
def MrHit (p : Buf φ) (neg x r s t : ℕ) : Prop :=
  (t = s ∧ mrPow p neg x r t = r) ∨ (t ≤ s ∧ mrPow p neg x r t = p.toNat - r)

instance (p : Buf φ) (neg x r s t : ℕ) : Decidable (MrHit p neg x r s t) := by
  unfold MrHit; infer_instance

/-- The test is passed. -/
def MrPasses (p : Buf φ) (neg x r s : ℕ) : Prop :=
  ∃ t < 8 * p.len, 1 ≤ t ∧ MrHit p neg x r s t

instance (p : Buf φ) (neg x r s : ℕ) : Decidable (MrPasses p neg x r s) := by
  unfold MrPasses; infer_instance

/-- The numbers before the last subtractions fit, at bit `t`. -/
def MrFitsAt (p : Buf φ) (neg x r t : ℕ) : Prop :=
  MgFits .ne p.len p (mgRun p.nlimbs p.toNat neg (mrPow p neg x r (t + 1))
      (mrPow p neg x r (t + 1)) p.nlimbs) ∧
    MgFits .ne p.len p (mgRun p.nlimbs p.toNat neg (mgMul p.nlimbs p.toNat neg
      (mrPow p neg x r (t + 1)) (mrPow p neg x r (t + 1))) x p.nlimbs)

instance (p : Buf φ) (neg x r t : ℕ) : Decidable (MrFitsAt p neg x r t) := by
  unfold MrFitsAt; infer_instance

/-- The numbers before the last subtractions fit, at all bits. -/
def MrFits (p : Buf φ) (neg x r : ℕ) : Prop :=
  ∀ t < 8 * p.len, 1 ≤ t → MrFitsAt p neg x r t

instance (p : Buf φ) (neg x r : ℕ) : Decidable (MrFits p neg x r) := by
  unfold MrFits; infer_instance

/-- The state of the loop before the bit `t - 1` of the exponent. -/
structure MrInv (p : Buf φ) (neg x r s t : ℕ) (l0 l1 : ℕ) (st : Buf .ne × Buf .ne × ℕ) : Prop where
  len0 : st.1.len = l0
  len1 : st.2.1.len = l1
  val : st.1.toNat = mrPow p neg x r t
  flag : ∃ b : Bool, st.2.2 = b.toNat ∧
    (b = true ↔ ∃ t', t ≤ t' ∧ t' < 8 * p.len ∧ MrHit p neg x r s t')

theorem mrPow_lt {p : Buf φ} {neg x r t : ℕ} (hr : r < p.toNat) :
    mrPow p neg x r t < p.toNat := expRun_lt (by omega) hr _

theorem mrPow_step {p : Buf φ} {neg x r t : ℕ} (ht : t < 8 * p.len) :
    mrPow p neg x r t = expStep p.nlimbs p.toNat neg x (p.toNat.testBit t)
      (mrPow p neg x r (t + 1)) := by
  unfold mrPow
  rw [show 8 * p.len - t = 8 * p.len - (t + 1) + 1 by omega, expRun]
  congr 2
  omega

theorem mr_step_exact (mg_base : Buf χ) (p : Buf φ) (rad : Buf ψ) {neg s t l0 l1 : ℕ}
    (st : Buf .ne × Buf .ne × ℕ) (ht : t < 8 * p.len)
    (hodd : p.toNat % 2 ≠ 0) (hneg : wmul (p.toNat % B) neg = lmax)
    (hs0 : Shrunk p st.1) (hs1 : Shrunk p st.2.1)
    (hbl : LenCompat mg_base p.len) (hblt : mg_base.toNat < p.toNat)
    (hrlt : rad.toNat < p.toNat)
    (hi : MrInv p neg mg_base.toNat rad.toNat s (t + 1) l0 l1 st) :
    Exact (mg_base.len ≠ 0 ∧ rad.Readable (p.nlimbs - 1) ∧
        MrFitsAt p neg mg_base.toNat rad.toNat t)
      (mr_step mg_base p rad neg s t st) (MrInv p neg mg_base.toNat rad.toNat s t l0 l1) := by
  obtain ⟨r, sc, fl⟩ := st
  obtain ⟨a1, a2, a4, bf, a5, a6⟩ := hi
  dsimp only at *
  unfold mr_step MrFitsAt
  have hn0 := len_pos_of_odd hodd
  have hppos : 0 < p.toNat := by omega
  have a3 : r.toNat < p.toNat := by rw [a4]; exact mrPow_lt hrlt
  rw [← a4]
  have e1 : mulErr sc r r p = none := by
    have := hs0.compat hn0 a3
    have h2 := hs1.lenCompat
    simp [mulErr, hodd, this, h2]; omega
  have hm1 := unwrapE_exact (ct_montgomery_mul_mod_mp_mp_exact sc r r p neg) e1
  refine (Exact.bind (S' := (mg_base.len ≠ 0 ∧ MgFits .ne p.len p (mgRun p.nlimbs p.toNat neg
    (mgMul p.nlimbs p.toNat neg r.toNat r.toNat) mg_base.toNat p.nlimbs)) ∧
    rad.Readable (p.nlimbs - 1)) (hm1.congr (S' := MgFits .ne p.len p
      (mgRun p.nlimbs p.toNat neg r.toNat r.toNat p.nlimbs)) ?_) ?_).congr ?_
  · rw [mgFits_ne hs1.len le_rfl]
    exact ⟨fun h => h.2.2.2.2, fun h => ⟨a3, a3, hneg, Or.inr (hs0.len_ne hn0), h⟩⟩
  · rintro s2 - ⟨b1, b2⟩
    have hs2 := hs1.congr b1
    have b3 : s2.toNat < p.toNat := by rw [b2]; exact mgMul_lt hppos
    have e2 : mulErr r s2 mg_base p = none := by
      have := hs2.compat hn0 b3
      have h2 := hs0.lenCompat
      simp [mulErr, hodd, this, h2, hbl]; omega
    have hm2 := unwrapE_exact (ct_montgomery_mul_mod_mp_mp_exact r s2 mg_base p neg) e2
    refine Exact.bind (hm2.congr ?_) ?_
    · rw [mgFits_ne hs0.len le_rfl, b2]
      exact ⟨fun h => ⟨h.2.2.2.1.resolve_left (hs2.len_ne hn0), h.2.2.2.2⟩,
        fun h => ⟨b2 ▸ b3, hblt, hneg, Or.inr h.1, h.2⟩⟩
    rintro r2 - ⟨c1, c2⟩
    refine Sat.bindExact (p.test_bit_sat _) ?_
    intro bt hbt
    rw [hbt, LimbChoice.not_ofBool]
    have hs2r : s2.toNat < 256 ^ r2.len := by
      rw [c1]; exact b3.trans hs0.lenCompat.lt
    have hl : r2.len ≤ s2.len := by
      rw [c1]
      refine hs0.len_le.trans (le_of_eq ?_)
      rw [← hs2.nlimbs, ← s2.aligned rfl]
    refine Sat.bindExact (r2.copy_from_cond_sat s2 _ hs2r (Or.inr hl)) ?_
    rintro r3 ⟨d1, d2⟩
    have hr3 : Shrunk p r3 := hs0.congr (d1.trans c1)
    have hval : r3.toNat = mrPow p neg mg_base.toNat rad.toNat t := by
      rw [d2, c2, b2, mrPow_step ht, expStep, ← a4]
      cases p.toNat.testBit t <;> simp
    have hN : 0 < p.nlimbs := nlimbs_pos_iff.2 hn0
    refine (Exact.bind (S' := True) (mr_compare_exact p rad r3 hN hr3.nlimbs hrlt) ?_).congr
      (and_true _).to_iff
    rintro ⟨io, im⟩ - ⟨hio, him⟩
    dsimp only at hio him ⊢
    refine Sat.exact (Sat.pure ⟨by dsimp only; rw [d1, c1, a1], by dsimp only; rw [b1, a2],
      hval, ?_⟩)
    dsimp only
    unfold ct_eq_usize_usize ct_lt_usize_usize
    rw [LimbChoice.new_ite, LimbChoice.new_ite, hio, him, bool_or_toNat, select_zero_toNat,
      select_zero_toNat, a5, bool_or_toNat, bool_or_toNat]
    refine ⟨_, rfl, ?_⟩
    simp only [Bool.or_eq_true, Bool.and_eq_true, decide_eq_true_iff, a6, hval]
    have hsplit : (∃ t', t ≤ t' ∧ t' < 8 * p.len ∧ MrHit p neg mg_base.toNat rad.toNat s t') ↔
        (∃ t', t + 1 ≤ t' ∧ t' < 8 * p.len ∧ MrHit p neg mg_base.toNat rad.toNat s t') ∨
          MrHit p neg mg_base.toNat rad.toNat s t := by
      constructor
      · rintro ⟨t', h1, h2, h3⟩
        rcases Nat.eq_or_lt_of_le h1 with h4 | h4
        · exact Or.inr (h4 ▸ h3)
        · exact Or.inl ⟨t', h4, h2, h3⟩
      · rintro (⟨t', h1, h2, h3⟩ | h)
        · exact ⟨t', by omega, h2, h3⟩
        · exact ⟨t, le_rfl, ht, h⟩
    rw [hsplit, or_assoc]
    refine or_congr_right ?_
    unfold MrHit
    constructor
    · rintro (⟨h1, h2 | h2⟩ | ⟨h1, h2⟩)
      · exact Or.inl ⟨h1, h2⟩
      · exact Or.inr ⟨h1.le, h2⟩
      · exact Or.inr ⟨h1.le, h2⟩
    · rintro (⟨h1, h2⟩ | ⟨h1, h2⟩)
      · exact Or.inl ⟨h1, Or.inl h2⟩
      · rcases Nat.eq_or_lt_of_le h1 with h3 | h3
        · exact Or.inl ⟨h3, Or.inr h2⟩
        · exact Or.inr ⟨h3, h2⟩
  · exact ⟨fun h => ⟨h.2.1.1, h.2.2, h.1, h.2.1.2⟩, fun h => ⟨h.2.2.1, ⟨h.1, h.2.2.2⟩, h.2.1⟩⟩

theorem odd_xor_one {v : ℕ} (h : v % 2 = 1) : v ^^^ 1 = v - 1 := by
  obtain ⟨k, rfl⟩ : ∃ k, v = 2 * k + 1 := ⟨v / 2, by omega⟩
  rw [Nat.add_sub_cancel]
  refine Nat.eq_of_testBit_eq fun i => ?_
  rw [Nat.testBit_xor]
  cases i with
  | zero => simp
  | succ i => simp [Nat.testBit_succ]; congr 1; omega

theorem shrink_ne_sat (b : Buf .ne) (p : Buf φ) (hb : b.toNat < 256 ^ p.len)
    (hl : p.nlimbs ≤ b.nlimbs) :
    Sat (b.shrink_to p.len) (fun s => Shrunk p s.1 ∧ s.1.toNat = b.toNat ∧ s.2.toNat = 0 ∧
      s.1.len + s.2.len = b.len) := by
  have hlen := ne_scratch_len hl
  refine (b.sat_shrink_to hb).mono ?_
  rintro ⟨s1, s2⟩ ⟨h1, h2, h3, h4, h5⟩
  dsimp only at *
  refine ⟨Shrunk.of_shrink (b := b) h1 ?_ hlen, h2, h3, h4⟩
  rw [h5, min_eq_left hlen, ← p.nlimbs_eq]

/-- What the assertions of the test demand, if the arguments have passed the checks. -/
def MrOk (mg_base : Buf χ) (p : Buf φ) (rad : Buf ψ) (neg : ℕ) : Prop :=
  1 < p.toNat ∧ mg_base.len ≠ 0 ∧ rad.Readable (p.nlimbs - 1) ∧
    MrFits p neg mg_base.toNat rad.toNat

theorem mr_main_exact (mg_base : Buf χ) (p : Buf φ) (rad : Buf ψ) (s0 s1 : Buf .ne) {neg s : ℕ}
    (hodd : p.toNat % 2 ≠ 0) (hneg : wmul (p.toNat % B) neg = lmax)
    (hbl : LenCompat mg_base p.len) (hblt : mg_base.toNat < p.toNat)
    (hrlt : rad.toNat < p.toNat)
    (h0 : p.nlimbs ≤ s0.nlimbs) (h1 : p.nlimbs ≤ s1.nlimbs)
    (hs : 1 < p.toNat → IsTz 0 (p.toNat - 1) s) :
    Exact (MrOk mg_base p rad neg) (mr_main mg_base p rad s0 s1)
      (fun r => r = .ok (.ofBool (decide (MrPasses p neg mg_base.toNat rad.toNat s)))) := by
  have hn0 := len_pos_of_odd hodd
  have hN : 0 < p.nlimbs := nlimbs_pos_iff.2 hn0
  have hl0 := ne_scratch_len h0
  have hl1 := ne_scratch_len h1
  have hB2 : B % 2 = 0 := by
    rw [B_eq_two_pow]
    obtain ⟨k, hk⟩ := Nat.exists_eq_succ_of_ne_zero W_pos.ne'
    rw [hk, pow_succ]; exact Nat.mul_mod_left _ _
  unfold mr_main MrOk
  refine Sat.bindExact (Buf.copy_from_sat s0 p (lt_of_lt_of_le p.toNat_lt
    (Nat.pow_le_pow_right (by norm_num) hl0))) ?_
  rintro q0 ⟨hq0l, hq0v⟩
  refine Sat.bindExact (shrink_ne_sat q0 p (by rw [hq0v]; exact p.toNat_lt)
    (by rw [Buf.nlimbs_congr hq0l]; exact h0)) ?_
  rintro ⟨q1, rest⟩ ⟨hq1s, hq1v, hrest, hq1l⟩
  dsimp only at hq1s hq1v hrest hq1l ⊢
  rw [hq0v] at hq1v
  have hq1n := hq1s.nlimbs
  refine Sat.bindExact (q1.sat_load_l (i := 0) (by omega) (Q := fun v => v = p.toNat % B) (by
    rw [hq1v, pow_zero, Nat.div_one])) ?_
  rintro _ rfl
  have hlow : (p.toNat % B) % 2 = 1 := by
    rw [Nat.mod_mod_of_dvd _ (Nat.dvd_of_mod_eq_zero hB2)]; omega
  have hlowlt := Nat.mod_lt p.toNat B_pos
  rw [odd_xor_one hlow]
  refine Sat.bindExact (q1.sat_store_l (i := 0) (v := p.toNat % B - 1) (by omega) (by omega)
    (fun h => by
      rw [hbytes_ne q1 rfl (by omega), ← B_eq_256_pow]; omega)
    (fun b' e1 e2 => And.intro e1 e2)) ?_
  rintro q2 ⟨hq2l, hq2v⟩
  have hq2e : q2.toNat = p.toNat - 1 := by
    rw [hq2v, hq1v, upd, pow_zero, Nat.mod_one, zero_add, one_mul, zero_add, pow_one]
    have := Nat.mod_add_div p.toNat B
    omega
  refine Sat.bindExact (ct_find_first_set_bit_mp_sat q2) ?_
  rintro ⟨nz, s'⟩ ⟨hnz, hs'⟩
  dsimp only at hnz hs' ⊢
  rw [hq2e] at hnz hs'
  refine (Exact.assert (S' := mg_base.len ≠ 0 ∧ rad.Readable (p.nlimbs - 1) ∧
    MrFits p neg mg_base.toNat rad.toNat) fun hnz' => ?_).congr ?_
  swap
  · refine and_congr_left fun _ => ?_
    rw [hnz, LimbChoice.unwrap_ofBool]
    by_cases hp : 1 < p.toNat
    · simp [hp]; omega
    · simp [hp]; omega
  have hp1 : 1 < p.toNat := by
    by_contra hp
    rw [hnz, LimbChoice.unwrap_ofBool] at hnz'
    simp at hnz'; omega
  have hss := IsTz.unique hs' (hs hp1)
  subst hss
  have hP1 : p.toNat - 1 ≠ 0 := by omega
  obtain ⟨-, hdv, hndv⟩ := hs'.resolve_left (fun h => hP1 h.1)
  have hspos : 0 < s' := by
    by_contra hc
    rw [show s' = 0 by omega, zero_add, pow_one] at hndv
    omega
  rw [M.assert_eq hspos, M.pure_bind]
  have hjl : (Buf.join rest q2).len = s0.len := by rw [Buf.len_join, hq2l, hq1l, hq0l]
  have hrp : rad.toNat < 256 ^ p.len := hrlt.trans p.toNat_lt
  refine Sat.bindExact (Buf.copy_from_sat (Buf.join rest q2) rad (by
    rw [hjl]
    exact lt_of_lt_of_le hrp (Nat.pow_le_pow_right (by norm_num) hl0))) ?_
  rintro b0 ⟨hb0l, hb0v⟩
  refine Sat.bindExact (shrink_ne_sat b0 p (by rw [hb0v]; exact hrp)
    (by rw [Buf.nlimbs_congr (hb0l.trans hjl)]; exact h0)) ?_
  rintro ⟨b1, rb⟩ ⟨hb1s, hb1v, -, -⟩
  dsimp only at hb1s hb1v ⊢
  refine Sat.bindExact (Buf.sat_clear_bytes_above s1 p.len (fun b' e1 e2 => And.intro e1 e2)) ?_
  rintro w0 ⟨hw0l, hw0v⟩
  refine Sat.bindExact (shrink_ne_sat w0 p (by rw [hw0v]; exact Nat.mod_lt _ (by positivity))
    (by rw [Buf.nlimbs_congr hw0l]; exact h1)) ?_
  rintro ⟨w1, rw1⟩ ⟨hw1s, -, -, -⟩
  dsimp only at hw1s ⊢
  refine Sat.bindExact (ct_montgomery_neg_n0_inv_mod_l_mp_sat p) ?_
  rintro (er | neg') hneg'
  · exfalso
    simp [Outcome, hn0.ne', hodd] at hneg'
  obtain ⟨-, -, hneg'⟩ := hneg'
  dsimp only
  have hpow : ∀ t, mrPow p neg' mg_base.toNat rad.toNat t = mrPow p neg mg_base.toNat rad.toNat t :=
    fun t => expRun_congr hneg' hneg _
  have hhit : ∀ t, MrHit p neg' mg_base.toNat rad.toNat s' t ↔
      MrHit p neg mg_base.toNat rad.toNat s' t := by
    intro t; unfold MrHit; rw [hpow]
  have hfit : ∀ t, MrFitsAt p neg' mg_base.toNat rad.toNat t ↔
      MrFitsAt p neg mg_base.toNat rad.toNat t := by
    intro t; unfold MrFitsAt
    rw [hpow, mgMul_congr hneg' hneg, mgRun_congr hneg' hneg, mgRun_congr hneg' hneg]
  have hloop := Exact.forDown (hi := 8 * p.len - 1) (s := (b1, w1, 0))
    (f := fun i s => mr_step mg_base p rad neg' s' (i + 1) s)
    (P := fun i => MrInv p neg' mg_base.toNat rad.toNat s' (i + 1) b1.len w1.len)
    (S := fun i => mg_base.len ≠ 0 ∧ rad.Readable (p.nlimbs - 1) ∧
      MrFitsAt p neg' mg_base.toNat rad.toNat (i + 1)) ?_ ?_
  · refine (Exact.bind (S' := True) hloop ?_).congr ?_
    · rintro ⟨bp, ps, fl⟩ - ⟨-, -, -, bf, hf1, hf2⟩
      dsimp only at hf1 hf2 ⊢
      have hcb : bf = decide (MrPasses p neg mg_base.toNat rad.toNat s') := by
        rw [Bool.eq_iff_iff, hf2, decide_eq_true_iff]
        unfold MrPasses
        constructor
        · rintro ⟨t, h1, h2, h3⟩; exact ⟨t, h2, h1, (hhit t).1 h3⟩
        · rintro ⟨t, h2, h1, h3⟩; exact ⟨t, h1, h2, (hhit t).2 h3⟩
      rw [hf1, hcb, from'_toNat]
      exact Sat.exact (Sat.pure rfl)
    · constructor
      · rintro ⟨h, -⟩
        refine ⟨(h 0 (by omega)).1, (h 0 (by omega)).2.1, fun t ht ht1 => ?_⟩
        have := (h (t - 1) (by omega)).2.2
        rw [show t - 1 + 1 = t by omega] at this
        exact (hfit t).1 this
      · rintro ⟨h, h', h''⟩
        exact ⟨fun i hi => ⟨h, h', (hfit _).2 (h'' (i + 1) (by omega) (by omega))⟩, trivial⟩
  · rw [show 8 * p.len - 1 + 1 = 8 * p.len by omega]
    refine ⟨rfl, rfl, ?_, false, rfl, ?_⟩
    · dsimp only; rw [hb1v, hb0v]; unfold mrPow; rw [Nat.sub_self]; rfl
    · simp only [Bool.false_eq_true, false_iff]
      rintro ⟨t, ht1, ht2, -⟩
      omega
  · intro i st hi hst
    exact mr_step_exact mg_base p rad st (by omega) hodd hneg' (hb1s.congr hst.len0)
      (hw1s.congr hst.len1) hbl hblt hrlt hst

/-- The error of the test. -/
def mrErr (mg_base : Buf χ) (p : Buf φ) (rad : Buf ψ) (s0 s1 : Buf .ne) :
    Option MillerRabinError :=
  if p.toNat % 2 = 0 then some .InvalidCandidate
  else if ¬ LenCompat mg_base p.len then some .InconsistentBaseLength
  else if ¬ LenCompat rad p.len then some .InconsistentMgRadixModPLength
  else if s0.nlimbs < p.nlimbs ∨ s1.nlimbs < p.nlimbs then some .InsufficientScratchSpace
  else none

/-- The test: when it panics, and what it calculates, even if a carry is lost. -/
theorem ct_prime_test_miller_rabin_mp_exact (mg_base : Buf χ) (p : Buf φ) (rad : Buf ψ)
    (s0 s1 : Buf .ne) {neg s : ℕ}
    (hneg : p.toNat % 2 ≠ 0 → wmul (p.toNat % B) neg = lmax)
    (hs : 1 < p.toNat → IsTz 0 (p.toNat - 1) s) :
    Exact ((p.toNat % 2 ≠ 0 → LenCompat mg_base p.len → mg_base.toNat < p.toNat ∧
        (LenCompat rad p.len → rad.toNat < p.toNat)) ∧
        (mrErr mg_base p rad s0 s1 = none → MrOk mg_base p rad neg))
      (ct_prime_test_miller_rabin_mp mg_base p rad s0 s1)
      (Outcome (mrErr mg_base p rad s0 s1)
        (fun r => r = .ofBool (decide (MrPasses p neg mg_base.toNat rad.toNat s)))) := by
  unfold ct_prime_test_miller_rabin_mp
  refine Sat.bindExact (p.test_bit_sat 0) ?_
  intro b hb
  rw [hb]
  refine Exact.cond (fun h => ?_) fun h => ?_
  · rw [odd_check] at h
    have he : mrErr mg_base p rad s0 s1 = some .InvalidCandidate := by simp [mrErr, h]
    exact (exact_error he).congr ⟨fun h1 => ⟨fun h2 => absurd h h2, h1⟩, fun h => h.2⟩
  rw [odd_check] at h
  refine Sat.bindExact (len_is_compatible_with_sat mg_base p.len) ?_
  intro c1 hc1
  refine Exact.cond (fun h3 => ?_) fun h3 => ?_
  · rw [hc1, decide_eq_false_iff_not] at h3
    have he : mrErr mg_base p rad s0 s1 = some .InconsistentBaseLength := by simp [mrErr, h, h3]
    exact (exact_error he).congr ⟨fun h1 => ⟨fun _ h2 => absurd h2 h3, h1⟩, fun h => h.2⟩
  rw [hc1, decide_eq_false_iff_not, not_not] at h3
  refine (Exact.assertM (S' := (LenCompat rad p.len → rad.toNat < p.toNat) ∧
    (mrErr mg_base p rad s0 s1 = none → MrOk mg_base p rad neg)) (lt_sat' mg_base p)
    fun hblt => ?_).congr ⟨fun h => ⟨fun _ _ => ⟨h.1, h.2.1⟩, h.2.2⟩,
      fun h' => ⟨(h'.1 h h3).1, (h'.1 h h3).2, h'.2⟩⟩
  refine Sat.bindExact (len_is_compatible_with_sat rad p.len) ?_
  intro c2 hc2
  refine Exact.cond (fun h4 => ?_) fun h4 => ?_
  · rw [hc2, decide_eq_false_iff_not] at h4
    have he : mrErr mg_base p rad s0 s1 = some .InconsistentMgRadixModPLength := by
      simp [mrErr, h, h3, h4]
    exact (exact_error he).congr ⟨fun h1 => ⟨fun h2 => absurd h2 h4, h1⟩, fun h => h.2⟩
  rw [hc2, decide_eq_false_iff_not, not_not] at h4
  refine (Exact.assertM (S' := mrErr mg_base p rad s0 s1 = none → MrOk mg_base p rad neg)
    (lt_sat' rad p) fun hrlt => ?_).congr ⟨fun h => ⟨fun _ => h.1, h.2⟩, fun h => ⟨h.1 h4, h.2⟩⟩
  dsimp only
  rw [← p.nlimbs_eq]
  refine Exact.cond (fun h5 => ?_) fun h5 => ?_
  · exact exact_error (by simp [mrErr, h, h3, h4, h5])
  refine Exact.cond (fun h6 => ?_) fun h6 => ?_
  · exact exact_error (by simp [mrErr, h, h3, h4, h5, h6])
  have he : mrErr mg_base p rad s0 s1 = none := by simp [mrErr, h, h3, h4, h5, h6]
  refine Exact.of_none he ((mr_main_exact mg_base p rad s0 s1 h (hneg h) h3 hblt hrlt (by omega)
    (by omega) hs).mono ?_)
  rintro r rfl
  exact ⟨he, rfl⟩

/-- The condition the test checks at bit `t` of the exponent. -/
def MrCond (P x s t : ℕ) : Prop :=
  (t = s ∧ x ^ (P / 2 ^ t) ≡ 1 [MOD P]) ∨ (t ≤ s ∧ x ^ (P / 2 ^ t) + 1 ≡ 0 [MOD P])

omit [LimbCfg] in
theorem exists_isTz {v : ℕ} (h : v ≠ 0) : ∃ t, IsTz 0 v t := by
  have hp : ∃ t, ¬ 2 ^ (t + 1) ∣ v := ⟨v, fun hd => by
    have h1 := Nat.le_of_dvd (Nat.pos_of_ne_zero h) hd
    have h2 : v + 1 < 2 ^ (v + 1) := Nat.lt_two_pow_self
    omega⟩
  refine ⟨Nat.find hp, Or.inr ⟨h, ?_, Nat.find_spec hp⟩⟩
  rcases hk : Nat.find hp with _ | k
  · simp
  · exact not_not.1 (Nat.find_min hp (m := k) (by omega))

theorem mrErr_none {mg_base : Buf χ} {p : Buf φ} {rad : Buf ψ} {s0 s1 : Buf .ne}
    (he : mrErr mg_base p rad s0 s1 = none) : p.toNat % 2 ≠ 0 ∧ LenCompat mg_base p.len ∧
      LenCompat rad p.len ∧ p.nlimbs ≤ s0.nlimbs ∧ p.nlimbs ≤ s1.nlimbs := by
  unfold mrErr at he
  split_ifs at he with e1 e2 e3 e4
  exact ⟨e1, e2, e3, by omega, by omega⟩

/-- If no carry is lost, the powers are right. -/
theorem mrPow_spec {p : Buf φ} {neg x r y t : ℕ} (hneg : wmul (p.toNat % B) neg = lmax)
    (hodd : p.toNat % 2 ≠ 0) (hr : r < p.toNat) (hr1 : r ≡ B ^ p.nlimbs [MOD p.toNat])
    (hx : x < p.toNat) (hxy : x ≡ y * B ^ p.nlimbs [MOD p.toNat])
    (hk : ExpKeeps p.nlimbs p.toNat neg x p.toNat (8 * p.len) r (8 * p.len - t)) (ht : t ≤ 8 * p.len) :
    mrPow p neg x r t ≡ y ^ (p.toNat / 2 ^ t) * B ^ p.nlimbs [MOD p.toNat] := by
  have h1 := expRun_spec hneg hodd p.toNat_lt_B hr hr1 hx hxy (8 * p.len - t) (by omega) hk
  have hPlt := p.toNat_lt
  rw [show (256 : ℕ) = 2 ^ 8 by norm_num, ← pow_mul] at hPlt
  rwa [Nat.mod_eq_of_lt hPlt, show 8 * p.len - (8 * p.len - t) = t by omega] at h1

theorem mrHit_iff {p : Buf φ} {neg x r y s t : ℕ} (hneg : wmul (p.toNat % B) neg = lmax)
    (hp1 : 1 < p.toNat) (hodd : p.toNat % 2 ≠ 0) (hr : r < p.toNat)
    (hr1 : r ≡ B ^ p.nlimbs [MOD p.toNat])
    (hx : x < p.toNat) (hxy : x ≡ y * B ^ p.nlimbs [MOD p.toNat])
    (hk : ExpKeeps p.nlimbs p.toNat neg x p.toNat (8 * p.len) r (8 * p.len - t)) (ht : t ≤ 8 * p.len) :
    MrHit p neg x r s t ↔ MrCond p.toNat y s t := by
  have hval := mrPow_spec hneg hodd hr hr1 hx hxy hk ht
  have hlt : mrPow p neg x r t < p.toNat := mrPow_lt hr
  have hcop := coprime_radix hodd p.nlimbs
  unfold MrHit MrCond
  generalize mrPow p neg x r t = w at *
  generalize B ^ p.nlimbs = R at *
  have hrpos : 0 < r := by
    by_contra hc
    rw [show r = 0 by omega] at hr1
    have h1 : p.toNat ∣ R := (Nat.modEq_zero_iff_dvd).1 hr1.symm
    have h2 := Nat.dvd_gcd dvd_rfl h1
    rw [hcop] at h2
    have := Nat.le_of_dvd one_pos h2
    omega
  have hone : w = r ↔ y ^ (p.toNat / 2 ^ t) ≡ 1 [MOD p.toNat] := by
    constructor
    · intro h
      rw [h] at hval
      refine Nat.ModEq.cancel_right_of_coprime (c := R) hcop ?_
      rw [one_mul]
      exact hval.symm.trans hr1
    · intro h
      have h1 := hval.trans (h.mul_right R)
      rw [one_mul] at h1
      exact Nat.ModEq.eq_of_lt_of_lt (h1.trans hr1.symm) hlt hr
  have hmin : w = p.toNat - r ↔ y ^ (p.toNat / 2 ^ t) + 1 ≡ 0 [MOD p.toNat] := by
    have h0 : w + r ≡ (y ^ (p.toNat / 2 ^ t) + 1) * R [MOD p.toNat] := by
      rw [Nat.add_mul, one_mul]; exact hval.add hr1
    constructor
    · intro h
      refine Nat.ModEq.cancel_right_of_coprime (c := R) hcop ?_
      refine h0.symm.trans ?_
      rw [show w + r = p.toNat by omega, zero_mul]
      exact (Nat.modEq_zero_iff_dvd).2 dvd_rfl
    · intro h
      have h1 := h0.trans (h.mul_right R)
      rw [zero_mul, Nat.modEq_zero_iff_dvd] at h1
      obtain ⟨k, hk⟩ := h1
      have hk1 : k = 1 := by
        have : k < 2 := by
          by_contra hc
          have := Nat.mul_le_mul_left p.toNat (Nat.not_lt.1 hc)
          omega
        have : k ≠ 0 := by rintro rfl; omega
        omega
      rw [hk1] at hk; omega
  rw [hone, hmin]

/-- If no carry is lost, the conditions checked are the ones of the Miller–Rabin test. -/
theorem mrPasses_iff {p : Buf φ} {neg x r y s : ℕ} (hneg : wmul (p.toNat % B) neg = lmax)
    (hp1 : 1 < p.toNat) (hodd : p.toNat % 2 ≠ 0) (hr : r < p.toNat)
    (hr1 : r ≡ B ^ p.nlimbs [MOD p.toNat])
    (hx : x < p.toNat) (hxy : x ≡ y * B ^ p.nlimbs [MOD p.toNat])
    (hk : ExpKeeps p.nlimbs p.toNat neg x p.toNat (8 * p.len) r (8 * p.len - 1))
    (hs : IsTz 0 (p.toNat - 1) s) :
    MrPasses p neg x r s ↔ ∃ t, 1 ≤ t ∧ MrCond p.toNat y s t := by
  have hP1 : p.toNat - 1 ≠ 0 := by omega
  obtain ⟨-, hdv, -⟩ := hs.resolve_left (fun h => hP1 h.1)
  have hPlt := p.toNat_lt
  rw [show (256 : ℕ) = 2 ^ 8 by norm_num, ← pow_mul] at hPlt
  have hs8 : s < 8 * p.len := by
    have h2 := Nat.le_of_dvd (by omega) hdv
    by_contra hc
    have h3 : 2 ^ (8 * p.len) ≤ 2 ^ s := Nat.pow_le_pow_right (by norm_num) (by omega)
    omega
  unfold MrPasses
  constructor
  · rintro ⟨t, h1, h2, h3⟩
    exact ⟨t, h2, (mrHit_iff hneg hp1 hodd hr hr1 hx hxy
      (fun i hi => hk i (by omega)) h1.le).1 h3⟩
  · rintro ⟨t, h2, h3⟩
    have hts : t ≤ s := by
      rcases h3 with h | h
      · exact h.1.le
      · exact h.1
    exact ⟨t, by omega, h2, (mrHit_iff hneg hp1 hodd hr hr1 hx hxy
      (fun i hi => hk i (by omega)) (by omega)).2 h3⟩

theorem mrFits_of_modulus {p : Buf φ} {neg x r : ℕ} (hneg : wmul (p.toNat % B) neg = lmax)
    (hx : x < p.toNat) (hr : r < p.toNat)
    (hm : MgModulus .ne p.len p) : MrFits p neg x r := fun _ _ _ =>
  ⟨mgFits_of_modulus hm hneg (mrPow_lt hr) (mrPow_lt hr),
    mgFits_of_modulus hm hneg (mgMul_lt (by omega)) hx⟩

theorem ct_prime_test_miller_rabin_mp_sat (mg_base : Buf χ) (p : Buf φ) (rad : Buf ψ)
    (s0 s1 : Buf .ne) {x s : ℕ} (hblt : mg_base.toNat < p.toNat) (hrlt : rad.toNat < p.toNat)
    (c : Bool)
    (H : mrErr mg_base p rad s0 s1 = none → 1 < p.toNat ∧
      (B + 1) * p.toNat ≤ B ^ (p.nlimbs + 1) ∧
      (LB ∣ p.len ∨ 257 * p.toNat ≤ 256 ^ (p.len + 1)) ∧ mg_base.len ≠ 0 ∧
      mg_base.toNat ≡ x * B ^ p.nlimbs [MOD p.toNat] ∧
      p.nlimbs ≤ rad.nlimbs ∧ rad.toNat ≡ B ^ p.nlimbs [MOD p.toNat] ∧
      IsTz 0 (p.toNat - 1) s ∧ (c = true ↔ ∃ t, 1 ≤ t ∧ MrCond p.toNat x s t)) :
    Sat (ct_prime_test_miller_rabin_mp mg_base p rad s0 s1)
      (Outcome (mrErr mg_base p rad s0 s1) (fun r => r = .ofBool c)) := by
  obtain ⟨neg, hneg⟩ : ∃ neg, p.toNat % 2 ≠ 0 → wmul (p.toNat % B) neg = lmax := by
    by_cases h : p.toNat % 2 ≠ 0
    · obtain ⟨neg, hneg⟩ := exists_neg h
      exact ⟨neg, fun _ => hneg⟩
    · exact ⟨0, fun h' => absurd h' h⟩
  obtain ⟨s', hs'⟩ : ∃ s', 1 < p.toNat → IsTz 0 (p.toNat - 1) s' := by
    by_cases he : mrErr mg_base p rad s0 s1 = none
    · exact ⟨s, fun _ => (H he).2.2.2.2.2.2.2.1⟩
    · by_cases h : 1 < p.toNat
      · obtain ⟨k, hk⟩ := exists_isTz (v := p.toNat - 1) (by omega)
        exact ⟨k, fun _ => hk⟩
      · exact ⟨0, fun h' => absurd h' h⟩
  refine ((ct_prime_test_miller_rabin_mp_exact mg_base p rad s0 s1 hneg hs').sat
    ⟨fun _ _ => ⟨hblt, fun _ => hrlt⟩, fun he => ?_⟩).mono fun r hr => hr.mono fun he r hr => ?_
  · obtain ⟨g1, g2, g3, g4, g5, g6, g7, g8, g9⟩ := H he
    have hodd := (mrErr_none he).1
    have hN : 0 < p.nlimbs := nlimbs_pos_iff.2 (len_pos_of_odd hodd)
    exact ⟨g1, g4, Or.inl (by omega), mrFits_of_modulus (hneg hodd) hblt hrlt
      ⟨g2, le_rfl, Or.inr g3⟩⟩
  · obtain ⟨g1, g2, g3, g4, g5, g6, g7, g8, g9⟩ := H he
    have hodd := (mrErr_none he).1
    rw [hr]
    congr 1
    rw [Bool.eq_iff_iff, decide_eq_true_iff, g9, IsTz.unique (hs' g1) g8]
    exact mrPasses_iff (hneg hodd) g1 hodd hrlt g7 hblt g5
      (expKeeps_of_le (hneg hodd) hblt hrlt g2) g8

end Cmpa
