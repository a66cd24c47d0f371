import Verif.Proofs.Montgomery
import Verif.Proofs.DivLshifted
import Verif.Proofs.DivisorNew
import Mathlib.Data.Nat.ModEq
import Mathlib.Data.Nat.Prime.Basic

/-!
# Transformation to Montgomery form and modular exponentiation
-/

set_option linter.unusedSectionVars false

namespace Cmpa
variable [LimbCfg] {f g h f' e' : Fmt}

open M

theorem radix_shift_pow (n : ℕ) : 256 ^ ct_montgomery_radix_shift_len n = B ^ ct_mp_nlimbs n := by
  rw [← pow_256]; rfl

theorem odd_check {n : ℕ} : (LimbChoice.ofBool (n.testBit 0)).unwrap = 0 ↔ n % 2 = 0 := by
  rw [LimbChoice.unwrap_ofBool, Nat.testBit_zero]
  by_cases h : n % 2 = 0
  · simp [h]
  · simp [show n % 2 = 1 by omega]

theorem v_len_le_of_lt {d : CtMpDivisor g} {V k : ℕ} (hd : d.Ok V) (hV : V < 256 ^ k) :
    d.v_len ≤ k := by
  have h1 := lt_of_le_of_lt hd.lo hV
  have h3 := (Nat.pow_lt_pow_iff_right (by norm_num : 1 < 256)).1 h1
  omega

/-- The error returned by the transformations of montgomery_impl.rs. -/
def transErr (t : Buf f) (n : Buf g) : Option MgError :=
  if n.toNat % 2 = 0 then some .InvalidModulus
  else if ¬ LenCompat n t.len then some .InsufficientResultSpace
  else none

theorem new_odd_sat {n : Buf g} (hodd : n.toNat % 2 ≠ 0) :
    Sat (CtMpDivisor.new n none) (fun o => ∃ d, o = some d ∧ d.Ok n.toNat) := by
  have h0 : n.toNat ≠ 0 := by intro h; rw [h] at hodd; simp at hodd
  refine (CtMpDivisor.new_sat n none (by simp) (fun _ _ => h0)).mono ?_
  rintro o ⟨-, h⟩
  obtain ⟨d, h1, h2, -⟩ := h (by simp; omega)
  exact ⟨d, h1, by simpa using h2⟩

theorem ct_to_montgomery_form_direct_mp_sat (t : Buf f) (n : Buf g) :
    Sat (ct_to_montgomery_form_direct_mp t n) (Outcome (transErr t n) fun s =>
      s.len = t.len ∧ s.toNat = t.toNat * B ^ n.nlimbs % n.toNat) := by
  unfold ct_to_montgomery_form_direct_mp
  refine Sat.bind (n.test_bit_sat 0) ?_
  intro b hb
  rw [hb]
  refine Sat.cond (fun h => Sat.pure ?_) fun h => ?_
  · rw [odd_check] at h
    simp [Outcome, transErr, h]
  rw [odd_check] at h
  refine Sat.bind (len_is_compatible_with_sat n t.len) ?_
  intro c hc
  refine Sat.cond (fun h3 => Sat.pure ?_) fun h3 => ?_
  · rw [hc, decide_eq_false_iff_not] at h3
    simp [Outcome, transErr, h, h3]
  rw [hc, decide_eq_false_iff_not, not_not] at h3
  rw [M.assert_eq (by rw [Buf.nlimbs_eq t]; exact h3.nlimbs), M.pure_bind]
  refine Sat.bind (new_odd_sat h) ?_
  rintro _ ⟨d, rfl, hd⟩
  dsimp only
  refine Sat.bind (ct_mod_lshifted_mp_mp_sat hd t le_rfl t.toNat_lt) ?_
  rintro (er | s) hs
  · have := v_len_le_of_lt hd h3.lt
    have h4 := hs.2
    exfalso
    have := min_le_left d.v_len (t.len + ct_montgomery_radix_shift_len n.len)
    omega
  · refine Sat.pure ⟨by simp [transErr, h, h3], hs.1, ?_⟩
    rw [hs.2, radix_shift_pow, Buf.nlimbs_eq]

/-- The result buffer after clearing and shrinking to the modulus' length. -/
theorem shrink_result_sat (b : Buf f) (n : Buf g) (h : LenCompat n b.len) :
    Sat (do let b ← b.clear_bytes_above n.len; b.shrink_to n.len)
      (fun s => s.1.len = Buf._limbs_align_len f (min n.len b.len) ∧ s.1.nlimbs = n.nlimbs ∧
        s.1.toNat = b.toNat % 256 ^ n.len ∧ s.2.toNat = 0 ∧ s.1.len + s.2.len = b.len ∧
        n.toNat < 256 ^ s.1.len ∧ min n.len b.len ≤ s.1.len ∧
        s.1.len ≤ n.nlimbs * LB) := by
  refine Sat.bind (P := fun r : Buf f => r.len = b.len ∧ r.toNat = b.toNat % 256 ^ n.len)
    (b.sat_clear_bytes_above _ fun b' h1 h2 => ⟨h1, h2⟩) ?_
  intro r ⟨h1, h2⟩
  refine (r.sat_shrink_to (m := n.len)
    (by rw [h2]; exact Nat.mod_lt _ (by positivity))).mono ?_
  rintro ⟨l, hh⟩ ⟨h3, h4, h5, h6, h7⟩
  dsimp only at *
  rw [h1] at h3 h6 h7
  have hge : min n.len b.len ≤ l.len := by
    rw [h3]
    cases f
    · exact le_rfl
    · exact le_rfl
    · exact le_nlimbs_mul _
  refine ⟨h3, h7.trans h.nlimbs_min, by rw [h4, h2], h5, h6, ?_, hge, ?_⟩
  · refine lt_of_lt_of_le ?_ (Nat.pow_le_pow_right (by norm_num) hge)
    rcases Nat.le_total n.len b.len with h8 | h8
    · rw [min_eq_left h8]; exact n.toNat_lt
    · rw [min_eq_right h8]; exact h.lt
  · rw [h3, ← h.nlimbs_min]
    cases f
    · exact le_nlimbs_mul _
    · exact le_nlimbs_mul _
    · exact le_rfl

theorem ct_montgomery_radix2_mod_n_mp_sat (t : Buf f) (n : Buf g) :
    Sat (ct_montgomery_radix2_mod_n_mp t n) (Outcome (transErr t n) fun s =>
      s.len = t.len ∧ s.toNat = B ^ n.nlimbs * B ^ n.nlimbs % n.toNat) := by
  unfold ct_montgomery_radix2_mod_n_mp
  refine Sat.bind (n.test_bit_sat 0) ?_
  intro b hb
  rw [hb]
  refine Sat.cond (fun h => Sat.pure ?_) fun h => ?_
  · rw [odd_check] at h
    simp [Outcome, transErr, h]
  rw [odd_check] at h
  refine Sat.bind (len_is_compatible_with_sat n t.len) ?_
  intro c hc
  refine Sat.cond (fun h3 => Sat.pure ?_) fun h3 => ?_
  · rw [hc, decide_eq_false_iff_not] at h3
    simp [Outcome, transErr, h, h3]
  rw [hc, decide_eq_false_iff_not, not_not] at h3
  rw [← M.bind_assoc']
  refine Sat.bind (shrink_result_sat t n h3) ?_
  rintro ⟨out, rest⟩ ⟨h4, h5, h6, h7, h8, h9, -⟩
  dsimp only at *
  rw [M.assert_eq h5, M.pure_bind]
  refine Sat.bind (new_odd_sat h) ?_
  rintro _ ⟨d, rfl, hd⟩
  dsimp only
  refine Sat.bind (ct_mod_pow2_mp_sat hd _ out) ?_
  rintro (er | s) hs
  · have := v_len_le_of_lt hd h9
    have h10 := hs.2
    exfalso
    have := min_le_left d.v_len ((2 * 8 * ct_montgomery_radix_shift_len n.len + 1 + 8 - 1) / 8)
    omega
  · refine Sat.pure ⟨by simp [transErr, h, h3], ?_, ?_⟩
    · rw [Buf.len_join, hs.1, h8]
    · rw [Buf.toNat_join, h7, Nat.mul_zero, Nat.add_zero, hs.2, Buf.nlimbs_eq n,
        ← radix_shift_pow, ← pow_add, ← two_mul, show (256 : ℕ) = 2 ^ 8 by norm_num, ← pow_mul]
      congr 2; ring

/-- The error returned by `ct_to_montgomery_form_mp`. -/
def toMgErr (result : Buf f) (t : Buf g) (n : Buf f') (radix2 : Buf h) : Option MgError :=
  if ¬ LenCompat t n.len then some .InconsistentOperandLengths
  else if ¬ LenCompat radix2 n.len then some .InconsistentRadix2ModNLenth
  else mulErr result t radix2 n

/-- What the assertions of `ct_to_montgomery_form_mp` demand. -/
def ToMgOk (result : Buf f) (t : Buf g) (n : Buf f') (neg : ℕ) (radix2 : Buf h) : Prop :=
  (LenCompat t n.len → LenCompat radix2 n.len → t.toNat < n.toNat ∧ radix2.toNat < n.toNat) ∧
  (toMgErr result t n radix2 = none → wmul (n.toNat % B) neg = lmax ∧
    (t.len = 0 ∨ radix2.len ≠ 0) ∧
    MgFits f result.len n (mgRun n.nlimbs n.toNat neg t.toNat radix2.toNat n.nlimbs))

theorem ct_to_montgomery_form_mp_exact (result : Buf f) (t : Buf g) (n : Buf f') (neg : ℕ)
    (radix2 : Buf h) :
    Exact (ToMgOk result t n neg radix2) (ct_to_montgomery_form_mp result t n neg radix2)
      (Outcome (toMgErr result t n radix2) fun s => s.len = result.len ∧
        s.toNat = mgMul n.nlimbs n.toNat neg t.toNat radix2.toNat) := by
  unfold ct_to_montgomery_form_mp ToMgOk
  refine Sat.bindExact (len_is_compatible_with_sat t n.len) ?_
  intro c hc
  refine Exact.cond (fun h3 => ?_) fun h3 => ?_
  · rw [hc, decide_eq_false_iff_not] at h3
    have he : toMgErr result t n radix2 = some .InconsistentOperandLengths := by simp [toMgErr, h3]
    exact (exact_error he).congr ⟨fun h => ⟨fun h1 => absurd h1 h3, h⟩, fun h => h.2⟩
  rw [hc, decide_eq_false_iff_not, not_not] at h3
  refine Sat.bindExact (len_is_compatible_with_sat radix2 n.len) ?_
  intro c hc
  refine Exact.cond (fun h4 => ?_) fun h4 => ?_
  · rw [hc, decide_eq_false_iff_not] at h4
    have he : toMgErr result t n radix2 = some .InconsistentRadix2ModNLenth := by
      simp [toMgErr, h3, h4]
    exact (exact_error he).congr ⟨fun h => ⟨fun _ h1 => absurd h1 h4, h⟩, fun h => h.2⟩
  rw [hc, decide_eq_false_iff_not, not_not] at h4
  have he : toMgErr result t n radix2 = mulErr result t radix2 n := by simp [toMgErr, h3, h4]
  rw [he]
  refine (Exact.assertM (lt_sat' t n) fun _ => Exact.assertM (lt_sat' radix2 n) fun _ =>
    ct_montgomery_mul_mod_mp_mp_exact result t radix2 n neg).congr ?_
  constructor
  · rintro ⟨h5, h6, h7⟩
    exact ⟨fun _ _ => ⟨h5, h6⟩, fun h => (h7 h).2.2⟩
  · rintro ⟨h5, h6⟩
    obtain ⟨h7, h8⟩ := h5 h3 h4
    exact ⟨h7, h8, fun h => ⟨h7, h8, h6 h⟩⟩

theorem toMgErr_none {result : Buf f} {t : Buf g} {n : Buf f'} {radix2 : Buf h}
    (he : toMgErr result t n radix2 = none) : mulErr result t radix2 n = none := by
  unfold toMgErr at he
  split_ifs at he
  exact he

theorem ct_to_montgomery_form_mp_sat (result : Buf f) (t : Buf g) (n : Buf f') {neg : ℕ}
    (radix2 : Buf h) (ht : t.toNat < n.toNat) (hr : radix2.toNat < n.toNat)
    (H : toMgErr result t n radix2 = none → wmul (n.toNat % B) neg = lmax ∧
      (t.len = 0 ∨ radix2.len ≠ 0) ∧ MgModulus f result.len n) :
    Sat (ct_to_montgomery_form_mp result t n neg radix2)
      (Outcome (toMgErr result t n radix2) fun s => s.len = result.len ∧ s.toNat < n.toNat ∧
        s.toNat * B ^ n.nlimbs ≡ t.toNat * radix2.toNat [MOD n.toNat]) := by
  refine ((ct_to_montgomery_form_mp_exact result t n neg radix2).sat
    ⟨fun _ _ => ⟨ht, hr⟩, fun he => ?_⟩).mono fun r hr' => hr'.mono fun he s hs => ?_
  · obtain ⟨h1, h2, h3⟩ := H he
    exact ⟨h1, h2, mgFits_of_modulus h3 h1 ht hr⟩
  · obtain ⟨h1, h2, h3⟩ := H he
    have hnN : n.toNat < B ^ n.nlimbs := n.toNat_lt_B
    refine ⟨hs.1, ?_, ?_⟩
    · rw [hs.2]; exact mgMul_lt (by omega)
    · rw [hs.2]
      exact (mgMul_modEq_iff h1 (mulErr_none (toMgErr_none he)).2.1 (by omega) hr hnN).2
        (mgKeeps_of_le h1 hr h3.high)

/-! ### Exponentiation -/

theorem unwrapE_sat {α ε : Type} {m : M (Except ε α)} {err : Option ε} {P : α → Prop}
    (h : Sat m (Outcome err P)) (he : err = none) : Sat (unwrapE m) P := by
  unfold unwrapE
  refine Sat.bind h ?_
  rintro (er | a) hr
  · rw [he] at hr; exact absurd hr (by simp [Outcome])
  · exact Sat.pure hr.2

theorem unwrapE_exact {α ε : Type} {m : M (Except ε α)} {err : Option ε} {S : Prop} {P : α → Prop}
    (h : Exact (err = none → S) m (Outcome err P)) (he : err = none) : Exact S (unwrapE m) P := by
  constructor
  · intro hS
    exact unwrapE_sat (h.sat fun _ => hS) he
  · intro hS
    unfold unwrapE
    exact bind_panic (h.panic fun h1 => hS (h1 he))

theorem coprime_radix {n : ℕ} (hodd : n % 2 ≠ 0) (k : ℕ) : Nat.Coprime n (B ^ k) := by
  rw [B_eq_two_pow]
  refine Nat.Coprime.pow_right _ (Nat.Coprime.pow_right _ ?_)
  exact (Nat.coprime_comm.1 ((Nat.Prime.coprime_iff_not_dvd Nat.prime_two).2 (by omega)))

theorem LenCompat.of_lt {n : Buf f} {m : Buf g} (hl : n.len ≤ m.nlimbs * LB)
    (hu : f.unaligned = false ∨ n.len ≤ m.len) (hm : 0 < m.len) (h : n.toNat < m.toNat) :
    LenCompat n m.len := by
  rcases hu with hu | hu
  · by_cases h1 : n.len ≤ m.len
    · exact Or.inl h1
    · refine Or.inr ⟨hu, ?_, h.trans m.toNat_lt⟩
      have h2 := pred_nlimbs_mul_lt hm
      rw [← Buf.nlimbs_eq, Nat.sub_mul, one_mul] at h2
      omega
  · exact Or.inl hu

theorem ne_scratch_len {n : Buf g} {scratch : Buf .ne} (h : n.nlimbs ≤ scratch.nlimbs) :
    n.len ≤ scratch.len := by
  have h1 := Nat.mul_le_mul_right LB h
  rw [← scratch.aligned rfl] at h1
  exact (le_nlimbs_mul n.len).trans h1

/-- The format and length of a buffer obtained by shrinking to the length of `n`. -/
structure Shrunk (n : Buf g) (b : Buf f) : Prop where
  nlimbs : b.nlimbs = n.nlimbs
  len_le : b.len ≤ n.nlimbs * LB
  unaligned : f.unaligned = false ∨ b.len ≤ n.len
  lenCompat : LenCompat n b.len
  fix : Buf._limbs_align_len f (min n.len b.len) = b.len

theorem Shrunk.congr {n : Buf g} {b b' : Buf f} (h : Shrunk n b) (hl : b'.len = b.len) :
    Shrunk n b' :=
  ⟨(Buf.nlimbs_congr hl).trans h.nlimbs, hl ▸ h.len_le, hl ▸ h.unaligned, hl ▸ h.lenCompat,
    hl ▸ h.fix⟩

theorem Shrunk.of_compat {n : Buf g} {b b' : Buf f} (h1 : b'.len = Buf._limbs_align_len f
    (min n.len b.len)) (h2 : b'.nlimbs = n.nlimbs) (h3 : LenCompat n b.len) : Shrunk n b' := by
  have hle : min n.len b.len ≤ n.nlimbs * LB :=
    (min_le_left _ _).trans (le_nlimbs_mul _)
  have hcase : n.len ≤ b.len ∨ b.len ≤ n.len ∧ min n.len b.len = b.len := by
    rcases Nat.le_total n.len b.len with h | h
    · exact Or.inl h
    · exact Or.inr ⟨h, min_eq_right h⟩
  refine ⟨h2, ?_, ?_, ?_, ?_⟩
  · rw [h1]
    cases f
    · exact hle
    · exact hle
    · rw [← h3.nlimbs_min]; exact le_rfl
  · rw [h1]
    cases f
    · exact Or.inr (min_le_left _ _)
    · exact Or.inr (min_le_left _ _)
    · exact Or.inl rfl
  · rcases hcase with h | ⟨h, h'⟩
    · left; rw [h1, min_eq_left h]; exact le_align_len f _
    · rw [h1, h']
      cases f
      · exact h3
      · exact h3
      · have := b.aligned rfl
        show LenCompat n (b.nlimbs * LB)
        rw [← this]; exact h3
  · cases f
    · rw [h1]
      show min n.len (min n.len b.len) = min n.len b.len
      omega
    · rw [h1]
      show min n.len (min n.len b.len) = min n.len b.len
      omega
    · rcases hcase with h | ⟨h, h'⟩
      · rw [h1, min_eq_left h, min_eq_left (le_align_len .ne _)]
      · rw [h'] at h1
        have : b'.len = b.len := by
          rw [h1]; exact (b.aligned rfl).symm
        rw [this, h', ← h1, this]

theorem Shrunk.of_shrink {n : Buf g} {b b' : Buf f} (h1 : b'.len = Buf._limbs_align_len f
    (min n.len b.len)) (h2 : b'.nlimbs = n.nlimbs) (h3 : n.len ≤ b.len) : Shrunk n b' :=
  .of_compat h1 h2 (Or.inl h3)

theorem Shrunk.len {n : Buf g} {b : Buf .ne} (h : Shrunk n b) : n.len ≤ b.len := by
  have h1 := b.aligned rfl
  rw [h.nlimbs] at h1
  rw [h1]; exact le_nlimbs_mul _

theorem Shrunk.compat {n : Buf g} {b : Buf f} (h : Shrunk n b) (hn : 0 < n.len)
    (hb : b.toNat < n.toNat) : LenCompat b n.len :=
  LenCompat.of_lt h.len_le h.unaligned hn hb

theorem Shrunk.len_ne {n : Buf g} {b : Buf f} (h : Shrunk n b) (hn : 0 < n.len) : b.len ≠ 0 := by
  have h1 : 0 < b.nlimbs := by rw [h.nlimbs]; exact nlimbs_pos_iff.2 hn
  exact (nlimbs_pos_iff.1 h1).ne'

/-- The numbers obtained before the last subtractions in an exponentiation fit into the parts of
the most significant limb available. -/
def ExpFits (f : Fmt) (rlen slen : ℕ) (n : Buf g) (neg x e nb r : ℕ) : Prop :=
  ∀ i < nb, MgFits .ne slen n (mgRun n.nlimbs n.toNat neg
      (expRun n.nlimbs n.toNat neg x e nb r i) (expRun n.nlimbs n.toNat neg x e nb r i) n.nlimbs) ∧
    MgFits f rlen n (mgRun n.nlimbs n.toNat neg
      (mgMul n.nlimbs n.toNat neg (expRun n.nlimbs n.toNat neg x e nb r i)
        (expRun n.nlimbs n.toNat neg x e nb r i)) x n.nlimbs)

instance (f : Fmt) (rlen slen : ℕ) (n : Buf g) (neg x e nb r : ℕ) :
    Decidable (ExpFits f rlen slen n neg x e nb r) := by
  unfold ExpFits; infer_instance

theorem mgFits_ne {slen slen' : ℕ} {n : Buf g} {T : ℕ} (h : n.len ≤ slen) (h' : n.len ≤ slen') :
    MgFits .ne slen n T ↔ MgFits .ne slen' n T := by
  unfold MgFits; rw [min_eq_left h, min_eq_left h']

theorem _ct_montogmery_exp_mod_mp_mp_exact (result : Buf f) (op0 : Buf g) (n : Buf f') (neg : ℕ)
    (exponent : Buf e') (nbits : ℕ) (scratch : Buf .ne) (hn0 : 0 < n.len)
    (hodd : n.toNat % 2 ≠ 0)
    (hres : Shrunk n result) (hs : n.nlimbs ≤ scratch.nlimbs)
    (hop0 : LenCompat op0 n.len) (h0 : op0.toNat < n.toNat) (hr : result.toNat < n.toNat) :
    Exact (min nbits (8 * exponent.len) = 0 ∨ wmul (n.toNat % B) neg = lmax ∧ op0.len ≠ 0 ∧
        ExpFits f result.len scratch.len n neg op0.toNat exponent.toNat
          (min nbits (8 * exponent.len)) result.toNat)
      (_ct_montogmery_exp_mod_mp_mp result op0 n neg exponent nbits scratch)
      (fun s => s.1.len = result.len ∧ s.2.len = scratch.len ∧
        s.1.toNat = expRun n.nlimbs n.toNat neg op0.toNat exponent.toNat
          (min nbits (8 * exponent.len)) result.toNat (min nbits (8 * exponent.len))) := by
  unfold _ct_montogmery_exp_mod_mp_mp
  have hN := Buf.nlimbs_eq n
  rw [M.assert_eq hres.nlimbs, M.pure_bind, M.assert_eq (by rw [← hN]; exact hs), M.pure_bind]
  have hsl := ne_scratch_len hs
  have hcs : LenCompat n scratch.len := Or.inl hsl
  rw [← M.bind_assoc']
  refine Sat.bindExact (shrink_result_sat scratch n hcs) ?_
  rintro ⟨sc, rest⟩ ⟨h4, h5, h6, h7, h8, h9, -⟩
  dsimp only at *
  have hsc : Shrunk n sc := Shrunk.of_shrink h4 h5 hsl
  have hnpos : 0 < n.toNat := by omega
  generalize hnb : min nbits (8 * exponent.len) = nb
  have hP := Exact.forRange (lo := 0) (hi := nb) (s := (result, sc))
    (f := fun i (result, scratch) => do
      let scratch ← unwrapE
        (ct_montgomery_mul_mod_mp_mp scratch result result n neg)
      let result ← unwrapE (ct_montgomery_mul_mod_mp_mp result scratch op0 n neg)
      let b ← exponent.test_bit (nb - i - 1)
      let result ← result.copy_from_cond scratch b.not
      pure (result, scratch))
    (P := fun i (s : Buf f × Buf .ne) => s.1.len = result.len ∧ s.2.len = sc.len ∧
      s.1.toNat = expRun n.nlimbs n.toNat neg op0.toNat exponent.toNat nb result.toNat i)
    (S := fun i => (wmul (n.toNat % B) neg = lmax ∧ MgFits .ne sc.len n (mgRun n.nlimbs n.toNat neg
        (expRun n.nlimbs n.toNat neg op0.toNat exponent.toNat nb result.toNat i)
        (expRun n.nlimbs n.toNat neg op0.toNat exponent.toNat nb result.toNat i) n.nlimbs)) ∧
      op0.len ≠ 0 ∧ MgFits f result.len n (mgRun n.nlimbs n.toNat neg
        (mgMul n.nlimbs n.toNat neg
          (expRun n.nlimbs n.toNat neg op0.toNat exponent.toNat nb result.toNat i)
          (expRun n.nlimbs n.toNat neg op0.toNat exponent.toNat nb result.toNat i))
        op0.toNat n.nlimbs)) (Nat.zero_le _) ⟨rfl, rfl, rfl⟩ ?_
  · refine (Exact.bind hP (S' := True) ?_).congr ?_
    · rintro ⟨r, s⟩ - ⟨a1, a2, a3⟩
      refine Sat.exact (Sat.pure ⟨a1, ?_, a3⟩)
      dsimp only at *
      rw [Buf.len_join, a2, h8]
    · have key : ∀ T, MgFits .ne sc.len n T ↔ MgFits .ne scratch.len n T := fun T =>
        mgFits_ne hsc.len hsl
      constructor
      · rintro ⟨h, -⟩
        rcases Nat.eq_zero_or_pos nb with h0 | h0
        · exact Or.inl h0
        · exact Or.inr ⟨(h 0 le_rfl h0).1.1, (h 0 le_rfl h0).2.1, fun i hi =>
            ⟨(key _).1 (h i (Nat.zero_le _) hi).1.2, (h i (Nat.zero_le _) hi).2.2⟩⟩
      · rintro (h | ⟨h, h', h''⟩)
        · exact ⟨fun i _ hi => by omega, trivial⟩
        · exact ⟨fun i _ hi => ⟨⟨h, (key _).2 (h'' i hi).1⟩, h', (h'' i hi).2⟩, trivial⟩
  · rintro i ⟨r, s⟩ - hi ⟨a1, a2, a4⟩
    dsimp only at a1 a2 a4 ⊢
    have a3 : r.toNat < n.toNat := by rw [a4]; exact expRun_lt hnpos hr i
    rw [← a4]
    have hr' := hres.congr a1
    have hs' := hsc.congr a2
    have e1 : mulErr s r r n = none := by
      have := hr'.compat hn0 a3
      have h2 := hs'.lenCompat
      simp [mulErr, hodd, this, h2]; omega
    have hm1 := unwrapE_exact (ct_montgomery_mul_mod_mp_mp_exact s r r n neg) e1
    refine Exact.bind (S' := op0.len ≠ 0 ∧ MgFits f result.len n (mgRun n.nlimbs n.toNat neg
        (mgMul n.nlimbs n.toNat neg r.toNat r.toNat) op0.toNat n.nlimbs)) (hm1.congr ?_) ?_
    · rw [a2]
      exact ⟨fun h => ⟨h.2.2.1, h.2.2.2.2⟩, fun h => ⟨a3, a3, h.1, Or.inr (hr'.len_ne hn0), h.2⟩⟩
    rintro s2 ⟨hneg, -⟩ ⟨b1, b2⟩
    have hs2 := hs'.congr b1
    have b3 : s2.toNat < n.toNat := by rw [b2]; exact mgMul_lt hnpos
    have e2 : mulErr r s2 op0 n = none := by
      have := hs2.compat hn0 b3
      have h2 := hr'.lenCompat
      simp [mulErr, hodd, this, h2, hop0]; omega
    have hm2 := unwrapE_exact (ct_montgomery_mul_mod_mp_mp_exact r s2 op0 n neg) e2
    refine (Exact.bind (S' := True) hm2 ?_).congr ?_
    · rintro r2 - ⟨c1, c2⟩
      refine Sat.exact (Sat.bind (exponent.test_bit_sat _) ?_)
      intro bt hbt
      rw [hbt, LimbChoice.not_ofBool]
      have hs2r : s2.toNat < 256 ^ r2.len := by
        rw [c1]; exact b3.trans hr'.lenCompat.lt
      have hl : r2.len ≤ s2.len := by
        rw [c1]
        refine hr'.len_le.trans (le_of_eq ?_)
        rw [← hs2.nlimbs, ← s2.aligned rfl]
      refine Sat.bind (r2.copy_from_cond_sat s2 _ hs2r (Or.inr hl)) ?_
      rintro r3 ⟨d1, d2⟩
      refine Sat.pure ⟨by dsimp only; rw [d1, c1, a1], by dsimp only; rw [b1, a2], ?_⟩
      dsimp only
      rw [d2, c2, b2, expRun, expStep, ← a4]
      cases exponent.toNat.testBit (nb - i - 1) <;> simp
    · rw [a1, b2]
      exact ⟨fun h => ⟨h.1.2.2.2.1.resolve_left (hs2.len_ne hn0), h.1.2.2.2.2⟩,
        fun h => ⟨⟨b2 ▸ b3, h0, hneg, Or.inr h.1, h.2⟩, trivial⟩⟩

theorem mgFits_shrunk {rlen : ℕ} {n : Buf g} {b : Buf f} {T : ℕ} (hb : Shrunk n b)
    (h : b.len = Buf._limbs_align_len f (min n.len rlen)) :
    MgFits f b.len n T ↔ MgFits f rlen n T := by
  unfold MgFits; rw [hb.fix, ← h]

theorem expFits_shrunk {rlen slen neg x e nb r : ℕ} {n : Buf g} {b : Buf f} (hb : Shrunk n b)
    (h : b.len = Buf._limbs_align_len f (min n.len rlen)) :
    ExpFits f b.len slen n neg x e nb r ↔ ExpFits f rlen slen n neg x e nb r := by
  unfold ExpFits
  simp only [mgFits_shrunk hb h]

theorem expFits_of_modulus {rlen slen neg x e nb r : ℕ} {n : Buf g}
    (hneg : wmul (n.toNat % B) neg = lmax) (hx : x < n.toNat) (hr : r < n.toNat)
    (h1 : MgModulus f rlen n) (h2 : MgModulus .ne slen n) :
    ExpFits f rlen slen n neg x e nb r := fun i _ =>
  ⟨mgFits_of_modulus h2 hneg (expRun_lt (by omega) hr i) (expRun_lt (by omega) hr i),
    mgFits_of_modulus h1 hneg (mgMul_lt (by omega)) hx⟩

/-- The exponent's bits that are used. -/
theorem exponent_bits (exponent : Buf f) (nbits : ℕ) :
    exponent.toNat % 2 ^ min nbits (8 * exponent.len) = exponent.toNat % 2 ^ nbits := by
  rcases Nat.le_total nbits (8 * exponent.len) with hle | hle
  · rw [min_eq_left hle]
  · have hlt := exponent.toNat_lt
    rw [show (256 : ℕ) = 2 ^ 8 by norm_num, ← pow_mul] at hlt
    rw [min_eq_right hle, Nat.mod_eq_of_lt hlt,
      Nat.mod_eq_of_lt (lt_of_lt_of_le hlt (Nat.pow_le_pow_right (by norm_num) hle))]

/-- The error returned by `ct_montogmery_exp_mod_odd_mp_mp`. -/
def mgExpErr (result : Buf f) (op0 : Buf g) (n : Buf f') (radix : Buf h) (scratch : Buf .ne) :
    Option MgError :=
  if n.toNat % 2 = 0 then some .InvalidModulus
  else if ¬ LenCompat n result.len then some .InsufficientResultSpace
  else if scratch.nlimbs < n.nlimbs then some .InsufficientScratchSpace
  else if ¬ LenCompat op0 n.len then some .InconsistentOperandLengths
  else if ¬ LenCompat radix n.len then some .InconsistendRadixModNLengh
  else none

/-- What the assertions of `ct_montogmery_exp_mod_odd_mp_mp` demand. -/
def MgExpOk (result : Buf f) (op0 : Buf g) (n : Buf f') (neg : ℕ) (radix : Buf h)
    (exponent : Buf e') (nbits : ℕ) (scratch : Buf .ne) : Prop :=
  (mgExpErr result op0 n radix scratch = some .InconsistendRadixModNLengh →
    op0.toNat < n.toNat) ∧
  (mgExpErr result op0 n radix scratch = none → op0.toNat < n.toNat ∧ radix.toNat < n.toNat ∧
    (min nbits (8 * exponent.len) = 0 ∨ wmul (n.toNat % B) neg = lmax ∧ op0.len ≠ 0 ∧
      ExpFits f result.len scratch.len n neg op0.toNat exponent.toNat
        (min nbits (8 * exponent.len)) radix.toNat))

theorem len_pos_of_odd {n : Buf f} (h : n.toNat % 2 ≠ 0) : 0 < n.len := by
  by_contra hc
  have h1 := n.toNat_lt
  rw [show n.len = 0 by omega, pow_zero] at h1
  omega

theorem ct_montogmery_exp_mod_odd_mp_mp_exact (result : Buf f) (op0 : Buf g) (n : Buf f')
    (neg : ℕ) (radix : Buf h) (exponent : Buf e') (nbits : ℕ) (scratch : Buf .ne) :
    Exact (MgExpOk result op0 n neg radix exponent nbits scratch)
      (ct_montogmery_exp_mod_odd_mp_mp result op0 n neg radix exponent nbits scratch)
      (Outcome (mgExpErr result op0 n radix scratch)
      (fun s => s.1.len = result.len ∧ s.2.len = scratch.len ∧
        s.1.toNat = expRun n.nlimbs n.toNat neg op0.toNat exponent.toNat
          (min nbits (8 * exponent.len)) radix.toNat (min nbits (8 * exponent.len)))) := by
  unfold ct_montogmery_exp_mod_odd_mp_mp MgExpOk
  have herr : ∀ {er : MgError}, mgExpErr result op0 n radix scratch = some er →
      er ≠ .InconsistendRadixModNLengh → ∀ (S S' : Prop),
      Exact ((mgExpErr result op0 n radix scratch = some .InconsistendRadixModNLengh → S) ∧
        (mgExpErr result op0 n radix scratch = none → S'))
        (pure (.error er) : M (Except MgError (Buf f × Buf .ne)))
        (Outcome (mgExpErr result op0 n radix scratch)
      (fun s => s.1.len = result.len ∧ s.2.len = scratch.len ∧
        s.1.toNat = expRun n.nlimbs n.toNat neg op0.toNat exponent.toNat
          (min nbits (8 * exponent.len)) radix.toNat (min nbits (8 * exponent.len)))) := by
    intro er he hne S S'
    refine (exact_error he).congr (S := mgExpErr result op0 n radix scratch = none → S')
      ⟨fun h => ⟨fun h1 => ?_, h⟩, fun h => h.2⟩
    rw [he] at h1; exact absurd (Option.some.inj h1) hne
  refine Sat.bindExact (n.test_bit_sat 0) ?_
  intro b hb
  rw [hb]
  refine Exact.cond (fun h => ?_) fun h => ?_
  · rw [odd_check] at h
    exact herr (by simp [mgExpErr, h]) (by simp) _ _
  rw [odd_check] at h
  refine Sat.bindExact (len_is_compatible_with_sat n result.len) ?_
  intro c hc
  refine Exact.cond (fun h3 => ?_) fun h3 => ?_
  · rw [hc, decide_eq_false_iff_not] at h3
    exact herr (by simp [mgExpErr, h, h3]) (by simp) _ _
  rw [hc, decide_eq_false_iff_not, not_not] at h3
  rw [← Buf.nlimbs_eq n]
  refine Exact.cond (fun h4 => ?_) fun h4 => ?_
  · exact herr (by simp [mgExpErr, h, h3, h4]) (by simp) _ _
  refine Sat.bindExact (len_is_compatible_with_sat op0 n.len) ?_
  intro c hc
  refine Exact.cond (fun h5 => ?_) fun h5 => ?_
  · rw [hc, decide_eq_false_iff_not] at h5
    exact herr (by simp [mgExpErr, h, h3, h4, h5]) (by simp) _ _
  rw [hc, decide_eq_false_iff_not, not_not] at h5
  have hn0 := len_pos_of_odd h
  by_cases h6 : LenCompat radix n.len
  · have herr : mgExpErr result op0 n radix scratch = none := by
      simp [mgExpErr, h, h3, h4, h5, h6]
    rw [herr]
    refine (Exact.assertM (S' := radix.toNat < n.toNat ∧ (min nbits (8 * exponent.len) = 0 ∨
      wmul (n.toNat % B) neg = lmax ∧ op0.len ≠ 0 ∧
      ExpFits f result.len scratch.len n neg op0.toNat exponent.toNat
        (min nbits (8 * exponent.len)) radix.toNat)) (lt_sat' op0 n) fun h0 => ?_).congr
      ⟨fun h => ⟨fun h1 => by simp at h1, fun _ => h⟩, fun h => h.2 rfl⟩
    refine Sat.bindExact (len_is_compatible_with_sat radix n.len) ?_
    intro c hc
    refine Exact.cond (fun h6' => ?_) fun _ => ?_
    · rw [hc, decide_eq_false_iff_not] at h6'
      exact absurd h6 h6'
    refine Exact.assertM (lt_sat' radix n) fun hrad => ?_
    rw [← M.bind_assoc']
    refine Sat.bindExact (shrink_result_sat result n h3) ?_
    rintro ⟨out, rest⟩ ⟨a4, a5, a6, a7, a8, a9, -⟩
    dsimp only at *
    have hsh : Shrunk n out := Shrunk.of_compat a4 a5 h3
    rw [M.assert_eq a5, M.pure_bind]
    refine Sat.bindExact (out.copy_from_sat radix (hrad.trans a9)) ?_
    rintro r ⟨b1, b2⟩
    have hr := hsh.congr b1
    have hx := _ct_montogmery_exp_mod_mp_mp_exact r op0 n neg exponent nbits scratch hn0 h hr
      (by omega) h5 h0 (by rw [b2]; exact hrad)
    refine (Exact.bind hx (S' := True) ?_).congr ?_
    · rintro ⟨s, sc⟩ - ⟨c1, c2, c3⟩
      dsimp only at *
      refine Sat.exact (Sat.pure ⟨rfl, ?_, c2, ?_⟩)
      · dsimp only; rw [Buf.len_join, c1, b1, a8]
      · dsimp only; rw [Buf.toNat_join, a7, c3, b2]; simp
    · rw [b2, expFits_shrunk hr (b1.trans a4), and_true]
  · have herr : mgExpErr result op0 n radix scratch = some .InconsistendRadixModNLengh := by
      simp [mgExpErr, h, h3, h4, h5, h6]
    rw [herr]
    refine (Exact.assertM (S' := True) (lt_sat' op0 n) fun h0 => ?_).congr
      ⟨fun h => ⟨fun _ => h.1, fun h => by simp at h⟩, fun h => ⟨h.1 rfl, trivial⟩⟩
    refine Sat.bindExact (len_is_compatible_with_sat radix n.len) ?_
    intro c hc
    refine Exact.cond (fun _ => Sat.exact (Sat.pure rfl)) fun h6' => ?_
    rw [hc, decide_eq_false_iff_not, not_not] at h6'
    exact absurd h6' h6

theorem mgExpErr_none {result : Buf f} {op0 : Buf g} {n : Buf f'} {radix : Buf h}
    {scratch : Buf .ne} (he : mgExpErr result op0 n radix scratch = none) :
    n.toNat % 2 ≠ 0 ∧ LenCompat n result.len ∧ n.nlimbs ≤ scratch.nlimbs ∧ LenCompat op0 n.len ∧
      LenCompat radix n.len := by
  unfold mgExpErr at he
  split_ifs at he with e1 e2 e3 e4 e5
  exact ⟨e1, e2, by omega, e4, e5⟩

theorem ct_montogmery_exp_mod_odd_mp_mp_sat (result : Buf f) (op0 : Buf g) (n : Buf f')
    {neg : ℕ} (radix : Buf h) (exponent : Buf e') (nbits : ℕ) (scratch : Buf .ne) {x : ℕ}
    (h0 : op0.toNat < n.toNat) (hrad : radix.toNat < n.toNat)
    (H : mgExpErr result op0 n radix scratch = none →
      wmul (n.toNat % B) neg = lmax ∧ op0.len ≠ 0 ∧
      MgModulus f result.len n ∧ MgModulus .ne scratch.len n ∧
      radix.toNat ≡ B ^ n.nlimbs [MOD n.toNat] ∧
      op0.toNat ≡ x * B ^ n.nlimbs [MOD n.toNat]) :
    Sat (ct_montogmery_exp_mod_odd_mp_mp result op0 n neg radix exponent nbits scratch)
      (Outcome (mgExpErr result op0 n radix scratch)
      (fun s => s.1.len = result.len ∧ s.2.len = scratch.len ∧ s.1.toNat < n.toNat ∧
        s.1.toNat ≡ x ^ (exponent.toNat % 2 ^ nbits) * B ^ n.nlimbs [MOD n.toNat])) := by
  refine ((ct_montogmery_exp_mod_odd_mp_mp_exact result op0 n neg radix exponent nbits scratch).sat
    ⟨fun _ => h0, fun he => ?_⟩).mono fun r hr => hr.mono fun he s hs => ?_
  · obtain ⟨h1, h2, h3, h4, -, -⟩ := H he
    exact ⟨h0, hrad, Or.inr ⟨h1, h2, expFits_of_modulus h1 h0 hrad h3 h4⟩⟩
  · obtain ⟨h1, h2, h3, h4, h5, h6⟩ := H he
    obtain ⟨c1, c2, c3⟩ := hs
    have hnN : n.toNat < B ^ n.nlimbs := n.toNat_lt_B
    refine ⟨c1, c2, ?_, ?_⟩
    · rw [c3]; exact expRun_lt (by omega) hrad _
    · rw [c3]
      have := expRun_spec (e := exponent.toNat) (nb := min nbits (8 * exponent.len)) h1
        (mgExpErr_none he).1 hnN hrad h5 h0 h6
        _ le_rfl (expKeeps_of_le h1 h0 hrad h3.high)
      rwa [Nat.sub_self, pow_zero, Nat.div_one, exponent_bits] at this

/-- The error returned by `ct_exp_mod_odd_mp_mp`. -/
def expErr (result : Buf f) (op0 : Buf g) (n : Buf f') (scratch : Buf .ne) : Option MgError :=
  if ¬ LenCompat n result.len then some .InsufficientResultSpace
  else if ¬ LenCompat op0 n.len then some .InconsistentOperandLengths
  else if ¬ LenCompat n op0.len then some .InconsistentOperandLengths
  else if scratch.nlimbs < n.nlimbs then some .InsufficientScratchSpace
  else if n.toNat % 2 = 0 then some .InvalidModulus
  else none

/-- The base in Montgomery form. -/
def expBase (n : Buf g) (neg x : ℕ) : ℕ :=
  mgMul n.nlimbs n.toNat neg x (B ^ n.nlimbs * B ^ n.nlimbs % n.toNat)

/-- One in Montgomery form. -/
def expOne (n : Buf g) (neg : ℕ) : ℕ :=
  redcRun n.toNat neg (B ^ n.nlimbs * B ^ n.nlimbs % n.toNat) n.nlimbs % n.toNat

/-- The power calculated, of `nb` bits of the exponent `e`. -/
def expValue (n : Buf g) (neg x e nb : ℕ) : ℕ :=
  redcRun n.toNat neg (expRun n.nlimbs n.toNat neg (expBase n neg x) e nb (expOne n neg) nb)
    n.nlimbs % n.toNat

/-- What the assertions of `ct_exp_mod_odd_mp_mp` demand of a modulus of two or more limbs. -/
def ExpOk (f : Fmt) (rlen slen : ℕ) (n : Buf g) (neg x e nb : ℕ) : Prop :=
  MgFits .ne slen n (mgRun n.nlimbs n.toNat neg x
    (B ^ n.nlimbs * B ^ n.nlimbs % n.toNat) n.nlimbs) ∧
  ExpFits f rlen slen n neg (expBase n neg x) e nb (expOne n neg)

instance (f : Fmt) (rlen slen : ℕ) (n : Buf g) (neg x e nb : ℕ) :
    Decidable (ExpOk f rlen slen n neg x e nb) := by
  unfold ExpOk; infer_instance

theorem expOne_spec {n : Buf g} {neg : ℕ} (hneg : wmul (n.toNat % B) neg = lmax)
    (hodd : n.toNat % 2 ≠ 0) : expOne n neg ≡ B ^ n.nlimbs [MOD n.toNat] :=
  Nat.ModEq.cancel_right_of_coprime (coprime_radix hodd n.nlimbs)
    ((redcRun_modEq hneg).trans (Nat.mod_modEq _ _))

theorem expBase_spec {n : Buf g} {neg x : ℕ} (hneg : wmul (n.toNat % B) neg = lmax)
    (hodd : n.toNat % 2 ≠ 0) (hx : x < n.toNat)
    (hk : MgKeeps n.nlimbs n.toNat neg x (B ^ n.nlimbs * B ^ n.nlimbs % n.toNat)) :
    expBase n neg x ≡ x * B ^ n.nlimbs [MOD n.toNat] := by
  have hnN : n.toNat < B ^ n.nlimbs := n.toNat_lt_B
  refine Nat.ModEq.cancel_right_of_coprime (coprime_radix hodd n.nlimbs)
    (((mgMul_modEq_iff hneg hodd (by omega) (Nat.mod_lt _ (by omega)) hnN).2 hk).trans ?_)
  rw [Nat.mul_assoc]
  exact (Nat.mod_modEq _ _).mul_left _

/-- If no carry is lost, the power is right. -/
theorem expValue_spec {n : Buf g} {neg x e nb : ℕ} (hneg : wmul (n.toNat % B) neg = lmax)
    (hodd : n.toNat % 2 ≠ 0) (hx : x < n.toNat)
    (hk : MgKeeps n.nlimbs n.toNat neg x (B ^ n.nlimbs * B ^ n.nlimbs % n.toNat))
    (hk' : ExpKeeps n.nlimbs n.toNat neg (expBase n neg x) e nb (expOne n neg) nb) :
    expValue n neg x e nb = x ^ (e % 2 ^ nb) % n.toNat := by
  have hnN : n.toNat < B ^ n.nlimbs := n.toNat_lt_B
  have h1 := expRun_spec hneg hodd hnN (Nat.mod_lt _ (by omega)) (expOne_spec hneg hodd)
    (mgMul_lt (by omega)) (expBase_spec hneg hodd hx hk) nb le_rfl hk'
  rw [Nat.sub_self, pow_zero, Nat.div_one] at h1
  have h2 : expValue n neg x e nb ≡ x ^ (e % 2 ^ nb) [MOD n.toNat] :=
    Nat.ModEq.cancel_right_of_coprime (coprime_radix hodd n.nlimbs)
      ((redcRun_modEq hneg).trans h1)
  have h3 : expValue n neg x e nb < n.toNat := Nat.mod_lt _ (by omega)
  rw [← Nat.mod_eq_of_lt h3]; exact h2

theorem expErr_none {result : Buf f} {op0 : Buf g} {n : Buf f'} {scratch : Buf .ne}
    (he : expErr result op0 n scratch = none) :
    n.toNat % 2 ≠ 0 ∧ LenCompat n result.len ∧ n.nlimbs ≤ scratch.nlimbs ∧ LenCompat op0 n.len ∧
      LenCompat n op0.len := by
  unfold expErr at he
  split_ifs at he with e1 e2 e3 e4 e5
  exact ⟨e5, e1, by omega, e2, e3⟩

theorem unwrapE_panic {α ε : Type} {m : M (Except ε α)} (h : Post m fun r => ∃ e, r = .error e) :
    (unwrapE m).val = none := by
  unfold unwrapE
  refine h.bind_panic ?_
  rintro _ ⟨e, rfl⟩
  rfl

/-- With a modulus of a single limb, there is no reduction. -/
theorem redc_single_post (t : Buf f) {n : Buf g} (h1 : n.nlimbs = 1) (neg : ℕ) :
    Post (ct_montgomery_redc_mp t n neg) (fun r => ∃ e, r = .error e ∧ redcErr t n = some e) := by
  intro r hr
  by_cases he : redcErr t n = none
  · exfalso
    have := (ct_montgomery_redc_mp_exact t n neg).panic
      (fun h => absurd (h he).2.1 (by omega))
    rw [hr] at this; cases this
  · obtain ⟨e, he'⟩ := Option.ne_none_iff_exists'.1 he
    obtain ⟨a, ha, hb⟩ := ct_montgomery_redc_mp_sat t n (neg := neg) fun h => absurd h he
    rw [hr] at ha; cases ha
    rcases r with er | s
    · exact ⟨er, rfl, hb⟩
    · exact absurd hb.1 he

/-- The exponentiation: when it panics, and what it calculates, even if a carry is lost. -/
theorem ct_exp_mod_odd_mp_mp_exact (result : Buf f) (op0 : Buf g) (n : Buf f')
    (exponent : Buf e') (nbits : ℕ) (scratch : Buf .ne) {neg : ℕ}
    (hneg : n.toNat % 2 ≠ 0 → wmul (n.toNat % B) neg = lmax) :
    Exact ((LenCompat n result.len → LenCompat op0 n.len → op0.toNat < n.toNat) ∧
        (expErr result op0 n scratch = none → 2 ≤ n.nlimbs ∧
          ExpOk f result.len scratch.len n neg op0.toNat exponent.toNat
            (min nbits (8 * exponent.len))))
      (ct_exp_mod_odd_mp_mp result op0 n exponent nbits scratch)
      (Outcome (expErr result op0 n scratch)
      (fun s => s.1.len = result.len ∧ s.2.1.len = op0.len ∧ s.2.2.len = scratch.len ∧
        s.1.toNat = expValue n neg op0.toNat exponent.toNat (min nbits (8 * exponent.len)) ∧
        s.2.1.toNat = expBase n neg op0.toNat)) := by
  unfold ct_exp_mod_odd_mp_mp
  refine Sat.bindExact (len_is_compatible_with_sat n result.len) ?_
  intro c hc
  refine Exact.cond (fun h3 => ?_) fun h3 => ?_
  · rw [hc, decide_eq_false_iff_not] at h3
    have he : expErr result op0 n scratch = some .InsufficientResultSpace := by simp [expErr, h3]
    exact (exact_error he).congr ⟨fun h => ⟨fun h1 => absurd h1 h3, h⟩, fun h => h.2⟩
  rw [hc, decide_eq_false_iff_not, not_not] at h3
  refine Sat.bindExact (len_is_compatible_with_sat op0 n.len) ?_
  intro c hc
  refine Exact.cond (fun h5 => ?_) fun h5 => ?_
  · rw [hc, decide_eq_false_iff_not] at h5
    have he : expErr result op0 n scratch = some .InconsistentOperandLengths := by
      simp [expErr, h3, h5]
    exact (exact_error he).congr ⟨fun h => ⟨fun _ h1 => absurd h1 h5, h⟩, fun h => h.2⟩
  rw [hc, decide_eq_false_iff_not, not_not] at h5
  refine (Exact.assertM (S' := expErr result op0 n scratch = none → 2 ≤ n.nlimbs ∧
      ExpOk f result.len scratch.len n neg op0.toNat exponent.toNat
        (min nbits (8 * exponent.len))) (lt_sat' op0 n) fun h0 => ?_).congr
    ⟨fun h => ⟨fun _ _ => h.1, h.2⟩, fun h => ⟨h.1 h3 h5, h.2⟩⟩
  refine Sat.bindExact (len_is_compatible_with_sat n op0.len) ?_
  intro c hc
  refine Exact.cond (fun h6 => ?_) fun h6 => ?_
  · rw [hc, decide_eq_false_iff_not] at h6
    exact exact_error (by simp [expErr, h3, h5, h6])
  rw [hc, decide_eq_false_iff_not, not_not] at h6
  have hop0n : op0.nlimbs = n.nlimbs := by
    have h7 := h5.nlimbs
    have h8 := h6.nlimbs
    rw [← Buf.nlimbs_eq] at h7 h8
    omega
  rw [M.assert_eq hop0n, M.pure_bind]
  rw [← Buf.nlimbs_eq n]
  refine Exact.cond (fun h4 => ?_) fun h4 => ?_
  · exact exact_error (by simp [expErr, h3, h4, h5, h6])
  have hn0 : 0 < n.len := by
    by_contra hc
    have h1 := n.toNat_lt
    rw [show n.len = 0 by omega, pow_zero] at h1
    omega
  unfold M.bindE
  refine Sat.bindExact (ct_montgomery_neg_n0_inv_mod_l_mp_sat n) ?_
  rintro (er | neg') hneg'
  · by_cases hodd : n.toNat % 2 = 0
    · simp only [Outcome, hodd, or_true, if_true, Option.some.injEq] at hneg'
      exact exact_error (by simp [expErr, h3, h4, h5, h6, hodd, ← hneg'])
    · simp [Outcome, hodd, hn0.ne'] at hneg'
  have hodd : n.toNat % 2 ≠ 0 := by
    intro hodd
    simp [Outcome, hodd] at hneg'
  obtain ⟨-, -, hneg'⟩ := hneg'
  have hneg := hneg hodd
  have herr : expErr result op0 n scratch = none := by
    simp [expErr, h3, h4, h5, h6, hodd]
  refine Exact.of_none herr ?_
  dsimp only
  rw [← M.bind_assoc']
  refine Sat.bindExact (shrink_result_sat result n h3) ?_
  rintro ⟨out, rest⟩ ⟨a4, a5, a6, a7, a8, a9, -⟩
  dsimp only at *
  have hsh : Shrunk n out := Shrunk.of_compat a4 a5 h3
  rw [M.assert_eq a5, M.pure_bind]
  have hnpos : 0 < n.toNat := by omega
  refine Sat.bindExact (unwrapE_sat (ct_montgomery_radix2_mod_n_mp_sat out n)
    (by simp [transErr, hodd]; exact hsh.lenCompat)) ?_
  rintro r1 ⟨b1, b2⟩
  have hr1 := hsh.congr b1
  have hr1n : r1.toNat < n.toNat := by rw [b2]; exact Nat.mod_lt _ hnpos
  have hsl := ne_scratch_len (show n.nlimbs ≤ scratch.nlimbs by omega)
  have hcs : LenCompat n scratch.len := Or.inl hsl
  rw [← M.bind_assoc']
  refine Sat.bindExact (shrink_result_sat scratch n hcs) ?_
  rintro ⟨sc, srest⟩ ⟨c4, c5, c6, c7, c8, c9, -⟩
  dsimp only at *
  have hsc : Shrunk n sc := Shrunk.of_shrink c4 c5 hsl
  have hR2 : B ^ n.nlimbs * B ^ n.nlimbs % n.toNat < n.toNat := Nat.mod_lt _ hnpos
  have hto : Exact (MgFits .ne scratch.len n (mgRun n.nlimbs n.toNat neg op0.toNat
      (B ^ n.nlimbs * B ^ n.nlimbs % n.toNat) n.nlimbs))
      (unwrapE (ct_to_montgomery_form_mp sc op0 n neg' r1))
      (fun s => s.len = sc.len ∧ s.toNat = expBase n neg op0.toNat) := by
    have he : toMgErr sc op0 n r1 = none := by
      have := hr1.compat hn0 hr1n
      have h2 := hsc.lenCompat
      simp [toMgErr, mulErr, hodd, this, h2, h5]; omega
    have h1 := ct_to_montgomery_form_mp_exact sc op0 n neg' r1
    unfold ToMgOk at h1
    refine ((unwrapE_exact (h1.congr (S' := toMgErr sc op0 n r1 = none →
      MgFits .ne scratch.len n (mgRun n.nlimbs n.toNat neg op0.toNat
      (B ^ n.nlimbs * B ^ n.nlimbs % n.toNat) n.nlimbs)) ?_) he)).mono fun s hs => ⟨hs.1, ?_⟩
    · rw [b2, mgRun_congr hneg' hneg, mgFits_ne hsc.len hsl]
      exact ⟨fun h he => (h.2 he).2.2, fun h => ⟨fun _ _ => ⟨h0, hR2⟩, fun he =>
        ⟨hneg', Or.inr (hr1.len_ne hn0), h he⟩⟩⟩
    · rw [hs.2, b2, expBase, mgMul_congr hneg' hneg]
  by_cases hn2 : 2 ≤ n.nlimbs
  swap
  · refine ⟨fun h => absurd h.1 hn2, fun _ => ?_⟩
    have hn1 : n.nlimbs = 1 := by have : 0 < n.nlimbs := nlimbs_pos_iff.2 hn0; omega
    refine bind_panic' fun _ => bind_panic' fun _ => bind_panic ?_
    exact unwrapE_panic ((redc_single_post _ hn1 neg').mono fun r ⟨e, h, _⟩ => ⟨e, h⟩)
  unfold ExpOk
  refine (Exact.bind hto (S' := ExpFits f result.len scratch.len n neg (expBase n neg op0.toNat)
    exponent.toNat (min nbits (8 * exponent.len)) (expOne n neg)) ?_).congr
    ⟨fun h => ⟨hn2, h⟩, fun h => h.2⟩
  rintro m - ⟨d1, d2⟩
  have hbn : expBase n neg op0.toNat < n.toNat := mgMul_lt hnpos
  have hnop : n.toNat < 256 ^ op0.len := h6.lt
  refine Sat.bindExact (op0.copy_from_sat m (by rw [d2]; exact hbn.trans hnop)) ?_
  rintro op1 ⟨e1, e2⟩
  rw [d2] at e2
  have h5' : LenCompat op1 n.len := by
    rcases h5 with h | ⟨u1, u2, -⟩
    · exact Or.inl (by rw [e1]; exact h)
    · exact Or.inr ⟨u1, by rw [e1]; exact u2, by rw [e2]; exact hbn.trans n.toNat_lt⟩
  have hle2 : n.nlimbs * LB ≤ 2 * n.len := by
    have h2 := pred_nlimbs_mul_lt hn0
    rw [← Buf.nlimbs_eq, Nat.sub_mul, one_mul] at h2
    have h7 : 2 * LB ≤ n.nlimbs * LB := Nat.mul_le_mul_right _ hn2
    omega
  have hredc : ∀ r : Buf f, Shrunk n r → redcErr r n = none := by
    intro r hr
    have h7 := hr.lenCompat
    have h8 : LenCompat r (2 * n.len) := Or.inl (hr.len_le.trans hle2)
    simp [redcErr, hodd, h7, h8, hn0.ne']
  have hRpos : 0 < B ^ n.nlimbs := B_pow_pos _
  have hred : ∀ r : Buf f, Shrunk n r → r.toNat < n.toNat →
      Sat (unwrapE (ct_montgomery_redc_mp r n neg'))
        (fun s => s.len = r.len ∧ s.toNat = redcRun n.toNat neg r.toNat n.nlimbs % n.toNat) := by
    intro r hr hrn
    refine unwrapE_sat (((ct_montgomery_redc_mp_exact r n neg').sat fun _ =>
      ⟨hneg', hn2, redcRun_lt_of_lt hneg' (hrn.trans_le (Nat.le_mul_of_pos_right _ hRpos))⟩).mono
      fun s hs => hs.mono fun _ s h => ⟨h.1, ?_⟩) (hredc r hr)
    rw [h.2, redcRun_congr hneg' hneg]
  refine Sat.bindExact (hred r1 hr1 hr1n) ?_
  rintro r2 ⟨f1, f2⟩
  rw [b2] at f2
  have hr2 := hr1.congr f1
  have hr2n : r2.toNat < n.toNat := by rw [f2]; exact Nat.mod_lt _ hnpos
  have hsl' : (Buf.join srest m).len = scratch.len := by rw [Buf.len_join, d1, c8]
  have hx := _ct_montogmery_exp_mod_mp_mp_exact r2 op1 n neg' exponent nbits (Buf.join srest m) hn0
    hodd hr2 (by rw [Buf.nlimbs_congr hsl']; omega) h5' (by rw [e2]; exact hbn) hr2n
  refine (Exact.bind hx (S' := True) ?_).congr ?_
  · rintro ⟨r3, sc3⟩ - ⟨g1, g2, g3⟩
    dsimp only at *
    rw [e2, f2, expRun_congr hneg' hneg] at g3
    have hr3 := hr2.congr g1
    refine Sat.exact (Sat.bind (hred r3 hr3 ?_) ?_)
    · rw [g3]; exact expRun_lt hnpos (Nat.mod_lt _ hnpos) _
    rintro r4 ⟨i1, i2⟩
    refine Sat.pure ⟨herr, ?_, e1, ?_, ?_, e2⟩
    · dsimp only; rw [Buf.len_join, i1, g1, f1, b1, a8]
    · dsimp only; rw [g2, hsl']
    · dsimp only
      rw [Buf.toNat_join, a7, Nat.mul_zero, Nat.add_zero, i2, g3]
      rfl
  · have key : ∀ nb, ExpFits f r2.len (Buf.join srest m).len n neg' op1.toNat exponent.toNat nb
        r2.toNat ↔ ExpFits f result.len scratch.len n neg (expBase n neg op0.toNat)
        exponent.toNat nb (expOne n neg) := by
      intro nb
      rw [hsl', expFits_shrunk hr2 (f1.trans (b1.trans a4)), e2, f2]
      unfold ExpFits expOne
      simp only [expRun_congr hneg' hneg, mgMul_congr hneg' hneg, mgRun_congr hneg' hneg]
    rw [key]
    have hne : op1.len ≠ 0 := by
      have h1 : 0 < op0.nlimbs := by rw [hop0n]; exact nlimbs_pos_iff.2 hn0
      rw [e1]; exact (nlimbs_pos_iff.1 h1).ne'
    constructor
    · rintro ⟨h | h, -⟩
      · intro i hi; omega
      · exact h.2.2
    · exact fun h => ⟨Or.inr ⟨hneg', hne, h⟩, trivial⟩

theorem exists_neg {n : ℕ} (hodd : n % 2 ≠ 0) : ∃ neg, wmul (n % B) neg = lmax := by
  have hodd' : n % B % 2 = 1 := by
    rw [Nat.mod_mod_of_dvd]
    · omega
    · rw [B_eq_two_pow]; exact dvd_pow_self _ W_pos.ne'
  obtain ⟨r, -, hr, hinv⟩ := ct_inv_mod_l_spec hodd'
  have hB := one_lt_B
  refine ⟨(B - 1) * r, ?_⟩
  unfold wmul lmax
  rw [Nat.mul_left_comm, Nat.mul_mod, hinv, mul_one, Nat.mod_mod, Nat.mod_eq_of_lt (by omega)]

theorem ct_exp_mod_odd_mp_mp_sat (result : Buf f) (op0 : Buf g) (n : Buf f')
    (exponent : Buf e') (nbits : ℕ) (scratch : Buf .ne) (h0 : op0.toNat < n.toNat)
    (H : expErr result op0 n scratch = none → 2 ≤ n.nlimbs ∧
      MgModulus f result.len n ∧ MgModulus .ne scratch.len n) :
    Sat (ct_exp_mod_odd_mp_mp result op0 n exponent nbits scratch)
      (Outcome (expErr result op0 n scratch)
      (fun s => s.1.len = result.len ∧ s.2.1.len = op0.len ∧ s.2.2.len = scratch.len ∧
        s.1.toNat = op0.toNat ^ (exponent.toNat % 2 ^ nbits) % n.toNat)) := by
  obtain ⟨neg, hneg⟩ : ∃ neg, n.toNat % 2 ≠ 0 → wmul (n.toNat % B) neg = lmax := by
    by_cases h : n.toNat % 2 ≠ 0
    · obtain ⟨neg, hneg⟩ := exists_neg h
      exact ⟨neg, fun _ => hneg⟩
    · exact ⟨0, fun h' => absurd h' h⟩
  have hR2 : B ^ n.nlimbs * B ^ n.nlimbs % n.toNat < n.toNat := Nat.mod_lt _ (by omega)
  refine ((ct_exp_mod_odd_mp_mp_exact result op0 n exponent nbits scratch hneg).sat
    ⟨fun _ _ => h0, fun he => ?_⟩).mono fun r hr => hr.mono fun he s hs => ?_
  · obtain ⟨h1, h2, h3⟩ := H he
    have hneg := hneg (expErr_none he).1
    exact ⟨h1, mgFits_of_modulus h3 hneg h0 hR2,
      expFits_of_modulus hneg (mgMul_lt (by omega)) (Nat.mod_lt _ (by omega)) h2 h3⟩
  · obtain ⟨h1, h2, h3⟩ := H he
    have hodd := (expErr_none he).1
    have hneg := hneg hodd
    obtain ⟨c1, c2, c3, c4, -⟩ := hs
    refine ⟨c1, c2, c3, ?_⟩
    rw [c4, expValue_spec hneg hodd h0 (mgKeeps_of_le hneg hR2 h2.high)
      (expKeeps_of_le hneg (mgMul_lt (by omega)) (Nat.mod_lt _ (by omega)) h2.high), exponent_bits]

end Cmpa
