import Verif.Proofs.InvPow2
import Verif.Proofs.InvModOddMp

/-!
# Inversion modulo any number
-/

set_option linter.unusedSectionVars false

namespace Cmpa
variable [LimbCfg] {φ ψ χ : Fmt}

open M

/-- Garner's algorithm, modulo the power of two. -/
theorem garner {a m e x0 x1 y z : ℕ} (h0 : a * x0 % 2 ^ e = 1 % 2 ^ e)
    (hy : m * y % 2 ^ e = 1 % 2 ^ e) (hz : (z : ℤ) ≡ (x0 - x1) * y [ZMOD 2 ^ e]) :
    a * (x1 + z * m) % 2 ^ e = 1 % 2 ^ e := by
  have h0' : (a * x0 : ℤ) ≡ 1 [ZMOD 2 ^ e] := by
    have := (Int.natCast_modEq_iff).2 (show a * x0 ≡ 1 [MOD 2 ^ e] from h0)
    exact_mod_cast this
  have hy' : (m * y : ℤ) ≡ 1 [ZMOD 2 ^ e] := by
    have := (Int.natCast_modEq_iff).2 (show m * y ≡ 1 [MOD 2 ^ e] from hy)
    exact_mod_cast this
  have h2 : ((a * (x1 + z * m) : ℕ) : ℤ) ≡ ((1 : ℕ) : ℤ) [ZMOD ((2 ^ e : ℕ) : ℤ)] := by
    push_cast
    calc (a * (x1 + z * m) : ℤ) = a * x1 + a * m * z := by ring
      _ ≡ a * x1 + a * m * ((x0 - x1) * y) [ZMOD 2 ^ e] := (hz.mul_left _).add_left _
      _ = a * x1 + a * (x0 - x1) * (m * y) := by ring
      _ ≡ a * x1 + a * (x0 - x1) * 1 [ZMOD 2 ^ e] := (hy'.mul_left _).add_left _
      _ = a * x0 := by ring
      _ ≡ 1 [ZMOD 2 ^ e] := h0'
  exact (Int.natCast_modEq_iff).1 h2

/-- The inverse modulo both parts is the inverse. -/
theorem inv_of_parts {a m e x : ℕ} (hm : m % 2 = 1) (h0 : a * x % 2 ^ e = 1 % 2 ^ e)
    (h1 : a * (x % m) % m = 1 % m) : a * x % (m * 2 ^ e) = 1 % (m * 2 ^ e) := by
  have hc : Nat.Coprime m (2 ^ e) := Nat.Coprime.pow_right _ (Nat.coprime_comm.1
    ((Nat.Prime.coprime_iff_not_dvd Nat.prime_two).2 (by omega)))
  refine (Nat.modEq_and_modEq_iff_modEq_mul hc).1 ⟨?_, h0⟩
  exact ((Nat.mod_modEq x m).mul_left a).symm.trans h1

theorem exists_odd_part_nat {n : ℕ} (h : n ≠ 0) : ∃ m e, m % 2 = 1 ∧ n = m * 2 ^ e := by
  induction n using Nat.strong_induction_on with
  | _ n ih =>
    by_cases h2 : n % 2 = 1
    · exact ⟨n, 0, h2, by simp⟩
    · obtain ⟨m, e, hm, he⟩ := ih (n / 2) (by omega) (by omega)
      exact ⟨m, e + 1, hm, by rw [pow_succ, ← mul_assoc, ← he]; omega⟩

/-- There is one way to split off a power of two. -/
theorem odd_part_unique {m m' e e' : ℕ} (hm : m % 2 = 1) (hm' : m' % 2 = 1)
    (h : m * 2 ^ e = m' * 2 ^ e') : m = m' ∧ e = e' := by
  have key : ∀ {m m' e e' : ℕ}, m % 2 = 1 → e < e' → m * 2 ^ e = m' * 2 ^ e' → False := by
    intro m m' e e' hm hlt h
    obtain ⟨k, rfl⟩ := Nat.exists_eq_add_of_lt hlt
    have h2 : m = m' * 2 ^ (k + 1) := by
      have hp : 0 < 2 ^ e := by positivity
      refine Nat.eq_of_mul_eq_mul_right hp ?_
      rw [h, show e + k + 1 = (k + 1) + e by ring, pow_add, mul_assoc]
    rw [pow_succ, ← mul_assoc] at h2
    omega
  rcases Nat.lt_trichotomy e e' with hlt | rfl | hlt
  · exact (key hm hlt h).elim
  · exact ⟨Nat.eq_of_mul_eq_mul_right (by positivity) h, rfl⟩
  · exact (key hm' hlt h.symm).elim

/-- What the inversion modulo the odd part, and that modulo the power of two, leave to be done. -/
theorem inv_mod_garner_exact {op0 : Buf φ} {n : Buf ψ} {inv0 inv1 s2 : Buf .ne} {e a : ℕ}
    (hn0 : 0 < n.len) (hodd : n.toNat % 2 = 1) (hn : n.toNat * 2 ^ e < 256 ^ n.len)
    (hno : n.toNat * 2 ^ e < 256 ^ op0.len) (hN : n.nlimbs ≤ op0.nlimbs)
    (hl0 : n.len ≤ inv0.len) (hn0' : inv0.nlimbs = n.nlimbs) (hl1 : inv1.len = inv0.len)
    (hs2 : n.nlimbs ≤ s2.nlimbs) (h0 : a * inv0.toNat % 2 ^ e = 1 % 2 ^ e)
    (hv1 : inv1.toNat < n.toNat) (h1 : inv1.toNat = 0 → n.toNat = 1) :
    Exact (LiftOk n.toNat (8 * n.len - 1)) (inv_mod_garner op0 n inv0 inv1 s2 e) (fun r =>
      r.1.len = n.len ∧ r.1.toNat = n.toNat * 2 ^ e ∧
      Outcome (if n.toNat * 2 ^ e = 1 then some GcdError.OperandsNotCoprime else none) (fun o =>
        o.len = op0.len ∧ o.toNat < n.toNat * 2 ^ e ∧ o.toNat % n.toNat = inv1.toNat ∧
        a * o.toNat % 2 ^ e = 1 % 2 ^ e) r.2) := by
  unfold inv_mod_garner
  have hpe : 0 < 2 ^ e := by positivity
  have hm1 : 1 ≤ n.toNat := by omega
  have he : e < 8 * n.len := by
    have : 2 ^ e < 2 ^ (8 * n.len) := by
      rw [← pow_256_eq]
      exact lt_of_le_of_lt (Nat.le_mul_of_pos_left _ hm1) hn
    exact (Nat.pow_lt_pow_iff_right (by norm_num)).1 this
  have hmm : n.toNat ≤ n.toNat * 2 ^ e := Nat.le_mul_of_pos_right _ hpe
  rw [M.sub_eq (by omega), M.pure_bind]
  refine Sat.bindExact (Buf.copy_from_sat op0 inv1 (by omega)) ?_
  rintro o1 ⟨ho1, hov1⟩
  refine Sat.bindExact (ct_sub_mp_mp_sat inv0 inv1 (by rw [Buf.nlimbs_congr hl1])
    (by rw [← hl1]; exact inv1.toNat_lt)) ?_
  rintro ⟨i0, w⟩ ⟨hi0, -, hvi0⟩
  dsimp only at hi0 hvi0 ⊢
  have hL : (8 * n.len - 1 + 7) / 8 = n.len := by omega
  refine ((ct_inv_mod_pow2_mp_exact inv1 n s2 (e := e) (mx := 8 * n.len - 1) (by omega)
    (Or.inr hodd) (by omega) (by omega) (by omega) (by rw [hL, ← Buf.nlimbs_eq]; exact hs2)).bind
    (S' := True) ?_).congr ⟨fun h => h.1, fun h => ⟨h, trivial⟩⟩
  rintro ⟨i1, s2'⟩ - ⟨-, -, -, hy⟩
  refine Sat.exact ?_
  dsimp only at hy ⊢
  refine Sat.bind (ct_mul_trunc_mp_mp_sat i0 n.len i1 (by omega)) ?_
  rintro i2 ⟨hi2, hvi2⟩
  refine Sat.bind (ct_clear_bits_above_mp_sat i2 e) ?_
  rintro i3 ⟨hi3, hvi3⟩
  refine Sat.bind (ct_mul_trunc_mp_mp_sat i3 n.len n (by omega)) ?_
  rintro i4 ⟨hi4, hvi4⟩
  have hz : i3.toNat < 2 ^ e := by rw [hvi3]; exact Nat.mod_lt _ hpe
  have hzm : i3.toNat * n.toNat + n.toNat ≤ n.toNat * 2 ^ e := by
    have := Nat.mul_le_mul_left n.toNat (Nat.succ_le_of_lt hz)
    rw [Nat.mul_succ] at this
    rw [Nat.mul_comm]; exact this
  have hpl : 256 ^ n.len ≤ 256 ^ i3.len := Nat.pow_le_pow_right (by norm_num) (by omega)
  have hz2 : i3.toNat < 256 ^ n.len := by
    have : 2 ^ e ≤ n.toNat * 2 ^ e := Nat.le_mul_of_pos_left _ hm1
    omega
  rw [Nat.mod_eq_of_lt hz2, Nat.mod_eq_of_lt (by omega)] at hvi4
  refine Sat.bind (ct_add_mp_mp_sat o1 i4 (by
    rw [Buf.nlimbs_congr ho1, Buf.nlimbs_congr (hi4.trans (hi3.trans (hi2.trans hi0))), hn0']
    exact hN) (by rw [ho1]; omega)) ?_
  rintro ⟨o2, c⟩ ⟨ho2, hc1, hov2⟩
  dsimp only at ho2 hc1 hov2 ⊢
  rw [ho1] at hov2
  have hsum : o1.toNat + i4.toNat < n.toNat * 2 ^ e := by omega
  have hc0 : c = 0 := by
    rcases Nat.eq_zero_or_pos c with h | h
    · exact h
    · have : 1 * 256 ^ op0.len ≤ c * 256 ^ op0.len := Nat.mul_le_mul_right _ h
      omega
  rw [hc0, Nat.zero_mul, Nat.add_zero, hov1, hvi4] at hov2
  rw [M.check_eq hc0, M.pure_bind]
  refine Sat.bind (ct_lshift_mp_sat n e) ?_
  rintro ⟨n', q⟩ ⟨hn', hvn', -⟩
  dsimp only at hn' hvn' ⊢
  rw [← pow_256_eq, Nat.mod_eq_of_lt hn] at hvn'
  have hlt : o2.toNat < n'.toNat := by rw [hov2, hvn']; omega
  refine Sat.bind (ct_lt_mp_mp_sat o2 n') ?_
  intro c hc
  rw [M.check_eq (by rw [hc]; simp [hlt, LimbChoice.unwrap_ofBool]), M.pure_bind]
  refine Sat.bind (ct_is_zero_mp_sat o2) ?_
  intro z hz'
  have dvd256 : ∀ l, n.len ≤ l → (2 : ℤ) ^ e ∣ 256 ^ l := fun l hl => by
    rw [show (256 : ℤ) = 2 ^ 8 by norm_num, ← pow_mul]
    exact pow_dvd_pow 2 (by omega)
  have hzc : (i3.toNat : ℤ) ≡ (inv0.toNat - inv1.toNat) * i1.toNat [ZMOD 2 ^ e] := by
    rw [hvi3]; push_cast
    refine (Int.mod_modEq _ _).trans ?_
    rw [hvi2]; push_cast
    refine ((Int.mod_modEq _ _).of_dvd (dvd256 _ (by omega))).trans ?_
    refine Int.ModEq.mul_right _ ?_
    refine ((Int.mod_modEq _ _).of_dvd (dvd256 _ le_rfl)).trans ?_
    obtain ⟨d, hd⟩ := dvd256 inv0.len hl0
    zify at hvi0
    refine (Int.modEq_iff_dvd.2 ⟨-(w * d), ?_⟩)
    linear_combination - hvi0 - (w : ℤ) * hd
  have hfin := garner h0 hy hzc
  rw [← hov2] at hfin
  have hmod : o2.toNat % n.toNat = inv1.toNat := by
    rw [hov2, Nat.add_mul_mod_self_right, Nat.mod_eq_of_lt hv1]
  refine Sat.cond (fun h => Sat.pure ⟨hn', hvn', ?_⟩) fun h => Sat.pure ⟨hn', hvn', ?_⟩
  · rw [hz'] at h
    have h0' : o2.toNat = 0 := by simpa [LimbChoice.unwrap_ofBool] using h
    rw [h0', Nat.zero_mod] at hmod
    rw [h0', Nat.mul_zero, Nat.zero_mod] at hfin
    have h2 : 2 ^ e = 1 := by
      by_contra hne
      rw [Nat.mod_eq_of_lt (by omega)] at hfin
      omega
    dsimp only [Outcome]
    rw [if_pos (by rw [h2, h1 hmod.symm])]
  · rw [hz'] at h
    have h0' : o2.toNat ≠ 0 := by simpa [LimbChoice.unwrap_ofBool] using h
    have hne : n.toNat * 2 ^ e ≠ 1 := by omega
    exact ⟨if_neg hne, ho2.trans ho1, by omega, hmod, hfin⟩

/-- The error returned by `ct_inv_mod_mp_mp` before it starts to compute. -/
def invModEarly (op0 : Buf φ) (n : Buf ψ) (s0 s1 s2 s3 : Buf .ne) : Option GcdError :=
  if n.len = 0 then some .InvalidModulus
  else if ¬ LenCompat n op0.len then some .InsufficientResultSpace
  else if ¬ LenCompat op0 n.len then some .InconsistentOperandLengths
  else if op0.toNat % 2 = 0 ∧ n.toNat % 2 = 0 then some .OperandsNotCoprime
  else if s0.nlimbs < n.nlimbs ∨ s1.nlimbs < n.nlimbs ∨ s2.nlimbs < n.nlimbs ∨ s3.nlimbs < n.nlimbs
    then some .InsufficientScratchSpace
  else if n.toNat = 0 then some .InvalidModulus
  else none

/-- The error returned by `ct_inv_mod_mp_mp`. -/
def invModErr (op0 : Buf φ) (n : Buf ψ) (s0 s1 s2 s3 : Buf .ne) : Option GcdError :=
  (invModEarly op0 n s0 s1 s2 s3).or
    (if Nat.gcd op0.toNat n.toNat ≠ 1 ∨ n.toNat = 1 then some .OperandsNotCoprime else none)

theorem both_even {a b : ℕ} (ha : a < B) (hb : b < B) :
    ct_is_nonzero_l (bnot a &&& bnot b &&& 1) ≠ 0 ↔ a % 2 = 0 ∧ b % 2 = 0 := by
  have h1 : bnot a &&& bnot b &&& 1 < B := lt_of_le_of_lt Nat.and_le_right one_lt_B
  have hB := B_half'
  have h8 := half_ge
  rw [ct_is_nonzero_l_eq h1]
  have ea : bnot a % 2 = 1 - a % 2 := by unfold bnot; omega
  have eb : bnot b % 2 = 1 - b % 2 := by unfold bnot; omega
  have e : bnot a &&& bnot b &&& 1 = (1 - a % 2) &&& (1 - b % 2) := by
    rw [Nat.and_one_is_mod, show (2 : ℕ) = 2 ^ 1 by norm_num, Nat.and_mod_two_pow, pow_one, ea, eb]
  rw [e]
  rcases Nat.mod_two_eq_zero_or_one a with h | h <;> rcases Nat.mod_two_eq_zero_or_one b with h' | h' <;>
    simp [h, h']

theorem gcd_odd_part {a m e : ℕ} (h : e = 0 ∨ a % 2 = 1) :
    Nat.gcd a (m * 2 ^ e) = 1 ↔ Nat.gcd a m = 1 := by
  rcases h with rfl | h
  · simp
  · have hc : Nat.Coprime a (2 ^ e) := Nat.Coprime.pow_right _ (Nat.coprime_comm.1
      ((Nat.Prime.coprime_iff_not_dvd Nat.prime_two).2 (by omega)))
    rw [Nat.Coprime.gcd_mul_right_cancel_right _ hc.symm]

/-- When none of the checks done by `ct_inv_mod_mp_mp` fails: those of the squarings done for both
inverses modulo powers of two, and that of the inverse modulo the odd part. -/
def InvAnyOk (op0 : Buf φ) (n : Buf ψ) (s0 s1 s2 s3 : Buf .ne) : Prop :=
  invModEarly op0 n s0 s1 s2 s3 = none → LiftOk op0.toNat (8 * n.len - 1) ∧
    ∀ m e, m % 2 = 1 → n.toNat = m * 2 ^ e → Nat.gcd op0.toNat n.toNat = 1 →
      (m = 1 ∨ invCoef m op0.toNat n.nlimbs ≠ 0) ∧ LiftOk m (8 * n.len - 1)

theorem ct_inv_mod_mp_mp_exact (op0 : Buf φ) (n : Buf ψ) (s0 s1 s2 s3 : Buf .ne) :
    Exact (InvAnyOk op0 n s0 s1 s2 s3) (ct_inv_mod_mp_mp op0 n s0 s1 s2 s3) (fun r =>
      r.1.len = n.len ∧ r.1.toNat = n.toNat ∧
      Outcome (invModErr op0 n s0 s1 s2 s3) (fun o => o.len = op0.len ∧ o.toNat < n.toNat ∧
        ∀ m e, m % 2 = 1 → n.toNat = m * 2 ^ e → op0.toNat * o.toNat % 2 ^ e = 1 % 2 ^ e ∧
          ((o.toNat % m : ℕ) : ℤ) = invValue m op0.toNat n.nlimbs) r.2) := by
  unfold ct_inv_mod_mp_mp InvAnyOk
  unfold invModErr
  generalize herr : invModEarly op0 n s0 s1 s2 s3 = E
  have sk : ∀ {α : Type} {m : M α} {P : α → Prop} {e : GcdError} {S : Prop}, some e = E → Sat m P →
      Exact (E = none → S) m P := fun he h =>
    h.exact.congr ⟨fun _ h' => (by rw [h'] at he; cases he), fun _ => trivial⟩
  unfold invModEarly at herr
  refine Exact.cond (fun h => ?_) fun h => ?_
  · rw [n.is_empty_iff] at h
    rw [if_pos h] at herr; exact sk herr (Sat.pure ⟨rfl, rfl, by rw [← herr]; rfl⟩)
  rw [n.is_empty_iff] at h
  rw [if_neg h] at herr
  refine Sat.bindExact (len_is_compatible_with_sat n op0.len) ?_
  intro c hc
  refine Exact.cond (fun h => ?_) fun hc0 => ?_
  · rw [hc, decide_eq_false_iff_not] at h
    rw [if_pos h] at herr; exact sk herr (Sat.pure ⟨rfl, rfl, by rw [← herr]; rfl⟩)
  rw [hc, decide_eq_false_iff_not, not_not] at hc0
  rw [if_neg (not_not.2 hc0)] at herr
  refine Sat.bindExact (len_is_compatible_with_sat op0 n.len) ?_
  intro c' hc'
  refine Exact.cond (fun h => ?_) fun hc1 => ?_
  · rw [hc', decide_eq_false_iff_not] at h
    rw [if_pos h] at herr; exact sk herr (Sat.pure ⟨rfl, rfl, by rw [← herr]; rfl⟩)
  rw [hc', decide_eq_false_iff_not, not_not] at hc1
  rw [if_neg (not_not.2 hc1)] at herr
  have hnN : 0 < n.nlimbs := by rw [Buf.nlimbs_eq, nlimbs_pos_iff]; omega
  have hN : n.nlimbs ≤ op0.nlimbs := by rw [Buf.nlimbs_eq op0]; exact hc0.nlimbs
  have hB2 : 2 ∣ B := by rw [B_half']; exact dvd_mul_right _ _
  refine Sat.bindExact (op0.sat_load_l (by omega) (Q := fun v => v = op0.toNat / B ^ 0 % B) rfl) ?_
  intro v0 hv0
  refine Sat.bindExact (n.sat_load_l hnN (Q := fun v => v = n.toNat / B ^ 0 % B) rfl) ?_
  intro v1 hv1
  have hbe := both_even (hv0 ▸ dig_lt op0.toNat 0) (hv1 ▸ dig_lt n.toNat 0)
  rw [hv0, hv1, pow_zero, Nat.div_one, Nat.div_one, Nat.mod_mod_of_dvd _ hB2,
    Nat.mod_mod_of_dvd _ hB2] at hbe
  rw [pow_zero, Nat.div_one] at hv0 hv1
  rw [hv0, hv1]
  refine Exact.cond (fun h => ?_) fun hev => ?_
  · rw [if_pos (hbe.1 h)] at herr; exact sk herr (Sat.pure ⟨rfl, rfl, by rw [← herr]; rfl⟩)
  rw [hbe] at hev
  rw [if_neg hev] at herr
  dsimp only
  rw [← Buf.nlimbs_eq]
  refine Exact.cond (fun hs => ?_) fun hs0 => ?_
  · rw [if_pos (Or.inl hs)] at herr; exact sk herr (Sat.pure ⟨rfl, rfl, by rw [← herr]; rfl⟩)
  refine Exact.cond (fun hs => ?_) fun hs1 => ?_
  · rw [if_pos (Or.inr (Or.inl hs))] at herr; exact sk herr (Sat.pure ⟨rfl, rfl, by rw [← herr]; rfl⟩)
  refine Exact.cond (fun hs => ?_) fun hs2 => ?_
  · rw [if_pos (Or.inr (Or.inr (Or.inl hs)))] at herr; exact sk herr (Sat.pure ⟨rfl, rfl, by rw [← herr]; rfl⟩)
  refine Exact.cond (fun hs => ?_) fun hs3 => ?_
  · rw [if_pos (Or.inr (Or.inr (Or.inr hs)))] at herr; exact sk herr (Sat.pure ⟨rfl, rfl, by rw [← herr]; rfl⟩)
  rw [if_neg (by omega)] at herr
  have hscr : ∀ s : Buf .ne, n.nlimbs ≤ s.nlimbs → n.len ≤ s.len := fun s hs => by
    have h1 := s.aligned (by rfl)
    have h2 := le_nlimbs_mul n.len
    have := Nat.mul_le_mul_right LB hs
    rw [← Buf.nlimbs_eq] at h2
    omega
  have hsc0 := hscr s0 (by omega)
  have hsc1 := hscr s1 (by omega)
  refine Sat.bindExact (Buf.sat_clear_bytes_above s0 n.len
    (Q := fun r => r.len = s0.len ∧ r.toNat < 256 ^ n.len) fun r h1 h2 => ⟨h1, by
      rw [h2]; exact Nat.mod_lt _ (by positivity)⟩) ?_
  rintro a0 ⟨ha0, hav0⟩
  refine Sat.bindExact (Buf.sat_shrink_to a0 hav0) ?_
  rintro ⟨a1, rest0⟩ ⟨ha1, -, -, -, han1⟩
  dsimp only at ha1 han1 ⊢
  rw [min_eq_left (by omega)] at ha1 han1
  refine Sat.bindExact (Buf.sat_clear_bytes_above s1 n.len
    (Q := fun r => r.len = s1.len ∧ r.toNat < 256 ^ n.len) fun r h1 h2 => ⟨h1, by
      rw [h2]; exact Nat.mod_lt _ (by positivity)⟩) ?_
  rintro b0 ⟨hb0, hbv0⟩
  refine Sat.bindExact (Buf.sat_shrink_to b0 hbv0) ?_
  rintro ⟨b1, rest1⟩ ⟨hb1, -, -, -, hbn1⟩
  dsimp only at hb1 hbn1 ⊢
  rw [min_eq_left (by omega)] at hb1 hbn1
  refine Sat.bindExact (ct_find_first_set_bit_mp_sat n) ?_
  rintro ⟨nz, e⟩ ⟨hnz, htz⟩
  dsimp only at hnz htz ⊢
  refine Exact.cond (fun h => ?_) fun hn0 => ?_
  · have h0 : n.toNat = 0 := by rw [hnz] at h; simpa [LimbChoice.unwrap_ofBool] using h
    rw [if_pos h0] at herr; exact sk herr (Sat.pure ⟨rfl, rfl, by rw [← herr]; rfl⟩)
  have hn0 : n.toNat ≠ 0 := by rw [hnz] at hn0; simpa [LimbChoice.unwrap_ofBool] using hn0
  rw [if_neg hn0] at herr
  rcases htz with ⟨h, -⟩ | ⟨-, hd, hnd⟩
  · exact absurd h hn0
  obtain ⟨m, hm⟩ := hd
  have hmodd : m % 2 = 1 := by
    by_contra hc
    obtain ⟨k, hk⟩ := Nat.dvd_of_mod_eq_zero (show m % 2 = 0 by omega)
    exact hnd ⟨k, by rw [hm, hk, pow_succ]; ring⟩
  have hm' : n.toNat = m * 2 ^ e := by rw [hm, Nat.mul_comm]
  refine Sat.bindExact (ct_rshift_mp_sat n e) ?_
  rintro ⟨n1, q⟩ ⟨hn1, hnv1, -⟩
  dsimp only at hn1 hnv1 ⊢
  rw [hm, Nat.mul_div_cancel_left _ (by positivity)] at hnv1
  rw [M.sub_eq (by omega), M.pure_bind]
  have he : e < 8 * n.len := by
    have : 2 ^ e < 2 ^ (8 * n.len) := by
      rw [← pow_256_eq]
      exact lt_of_le_of_lt (by rw [hm']; exact Nat.le_mul_of_pos_left _ (by omega)) n.toNat_lt
    exact (Nat.pow_lt_pow_iff_right (by norm_num)).1 this
  have heven : e = 0 ∨ op0.toNat % 2 = 1 := by
    rcases Nat.eq_zero_or_pos e with h | h
    · exact Or.inl h
    · right
      by_contra hc
      refine hev ⟨by omega, ?_⟩
      rw [hm']
      exact Nat.mod_eq_zero_of_dvd ((dvd_pow_self 2 (by omega)).mul_left _)
  have hL : (8 * n.len - 1 + 7) / 8 = n.len := by omega
  have hal := nlimbs_align .ne n.len
  rw [hn1]
  have hS : (LiftOk op0.toNat (8 * n.len - 1) ∧ (Nat.gcd op0.toNat m = 1 →
      (m = 1 ∨ invCoef m op0.toNat n.nlimbs ≠ 0) ∧ LiftOk m (8 * n.len - 1))) ↔
      (E = none → LiftOk op0.toNat (8 * n.len - 1) ∧ ∀ m e, m % 2 = 1 → n.toNat = m * 2 ^ e →
        Nat.gcd op0.toNat n.toNat = 1 →
          (m = 1 ∨ invCoef m op0.toNat n.nlimbs ≠ 0) ∧ LiftOk m (8 * n.len - 1)) := by
    rw [hm', gcd_odd_part heven]
    refine ⟨fun h1 _ => ⟨h1.1, fun m' e' h2 h3 h4 => ?_⟩, fun h1 =>
      ⟨(h1 herr.symm).1, (h1 herr.symm).2 m e hmodd rfl⟩⟩
    obtain ⟨rfl, rfl⟩ := odd_part_unique hmodd h2 h3
    exact h1.2 h4
  refine Exact.congr ?_ hS
  refine (ct_inv_mod_pow2_mp_exact a1 op0 s2 (e := e) (mx := 8 * n.len - 1) (by
      have := nlimbs_pos_iff (n := op0.len)
      rw [← Buf.nlimbs_eq] at this; omega)
    heven (by omega) (by omega) (by omega) (by rw [hL, ← Buf.nlimbs_eq]; omega)).bind ?_
  rintro ⟨a2, s2'⟩ - ⟨ha2, hs2', hav2, hinv0⟩
  dsimp only at ha2 hs2' hav2 hinv0 ⊢
  have hLn1 : LenCompat n1 op0.len := by
    rcases hc0 with h | ⟨h1, h2, h3⟩
    · left; omega
    · right
      refine ⟨h1, by omega, lt_of_le_of_lt ?_ h3⟩
      rw [hnv1, hm']; exact Nat.le_mul_of_pos_right _ (by positivity)
  have hnn1 : n1.nlimbs = n.nlimbs := Buf.nlimbs_congr hn1
  have hio : invOddErr b1 op0 n1 s2' s3 =
      if Nat.gcd op0.toNat m ≠ 1 then some .OperandsNotCoprime else none := by
    unfold invOddErr
    rw [if_neg (not_not.2 (show LenCompat n1 b1.len from Or.inl (by omega))), if_neg (by rw [hn1]; exact not_or.2 ⟨not_not.2 hc1, not_not.2 hLn1⟩),
      if_neg (by rw [hnn1, Buf.nlimbs_congr hs2']; omega), hnv1, if_neg (by omega)]
  have hOk : (InvOddOk b1 op0 n1 s2' s3 ∧ (Nat.gcd op0.toNat m = 1 → LiftOk m (8 * n.len - 1))) ↔
      (Nat.gcd op0.toNat m = 1 →
        (m = 1 ∨ invCoef m op0.toNat n.nlimbs ≠ 0) ∧ LiftOk m (8 * n.len - 1)) := by
    unfold InvOddOk
    rw [hio, hnv1, hnn1]
    by_cases hg : Nat.gcd op0.toNat m = 1
    · rw [if_neg (not_not.2 hg)]
      exact ⟨fun h1 _ => ⟨h1.1 rfl, h1.2 hg⟩, fun h1 => ⟨fun _ => (h1 hg).1, fun _ => (h1 hg).2⟩⟩
    · rw [if_pos hg]
      exact ⟨fun _ h1 => absurd h1 hg, fun _ => ⟨fun h1 => (by cases h1), fun h1 => absurd h1 hg⟩⟩
  refine Exact.congr ?_ hOk
  refine (ct_inv_mod_odd_mp_mp_impl_exact b1 op0 n1 s2' s3).bind ?_
  intro r hSo hr
  rw [hio] at hr
  match r, hr with
  | .error er, hr =>
    dsimp only [Outcome] at hr ⊢
    by_cases hg : Nat.gcd op0.toNat m ≠ 1
    swap
    · rw [if_neg hg] at hr; cases hr
    rw [if_pos hg] at hr
    cases hr
    refine Exact.congr (Sat.exact ?_) ⟨fun _ h1 => absurd h1 hg, fun _ => trivial⟩
    refine Sat.bind (ct_lshift_mp_sat n1 e) ?_
    rintro ⟨n2, q⟩ ⟨hn2, hnv2, -⟩
    dsimp only [inv_mod_map_err] at hn2 hnv2 ⊢
    rw [M.pure_bind]
    refine Sat.pure ⟨hn2.trans hn1, ?_, ?_⟩
    · dsimp only
      rw [hnv2, ← pow_256_eq, hnv1, ← hm', hn1, Nat.mod_eq_of_lt n.toNat_lt]
    · have : Nat.gcd op0.toNat n.toNat ≠ 1 := by rw [hm', Ne, gcd_odd_part heven]; exact hg
      rw [← herr, if_pos (Or.inl this)]; rfl
  | .ok (b2, op0', s2'', s3'), ⟨hg, hb2, hop, hs2'', _, hlt, _, _, hcl, hval⟩ =>
    dsimp only at hb2 hop hs2'' hlt hcl hval ⊢
    have hg : Nat.gcd op0.toNat m = 1 := by
      by_contra hc
      rw [if_pos hc] at hg; cases hg
    have hgn : ¬ Nat.gcd op0.toNat n.toNat ≠ 1 := by
      rw [not_not, hm', gcd_odd_part heven]; exact hg
    have hz1 : b2.toNat = 0 → n1.toNat = 1 := fun h0 => by
      by_contra h1
      have hne := (hSo (by rw [hio, if_neg (not_not.2 hg)])).resolve_left h1
      rw [h0] at hval
      unfold invValue at hval
      split at hval
      · push_cast at hval; omega
      · exact hne (by exact_mod_cast hval.symm)
    refine Exact.congr ?_ (show LiftOk m (8 * n.len - 1) ↔ _ from ⟨fun h1 _ => h1, fun h1 => h1 hg⟩)
    have hgar := inv_mod_garner_exact (op0 := op0') (n := n1) (inv0 := a2) (inv1 := b2) (s2 := s2'')
      (a := op0.toNat) (e := e) (by omega) (by omega)
      (by rw [hnv1, ← hm', hn1]; exact n.toNat_lt)
      (by rw [hnv1, ← hm', hop]; exact hc0.lt)
      (by rw [hnn1, Buf.nlimbs_congr hop]; exact hN) (by omega)
      (by rw [hnn1, Buf.nlimbs_congr ha2, han1, ← Buf.nlimbs_eq])
      (by rw [hb2, ha2, hb1, ha1])
      (by rw [hnn1, Buf.nlimbs_congr hs2'', Buf.nlimbs_congr hs2']; omega) hinv0 hlt hz1
    rw [hnv1, hn1] at hgar
    refine hgar.mono ?_
    rintro ⟨n2, r⟩ ⟨h1, h2, h3⟩
    dsimp only at h1 h2 h3 ⊢
    rw [← hm'] at h2 h3
    refine ⟨h1, h2, ?_⟩
    have herr' : E.or (if Nat.gcd op0.toNat n.toNat ≠ 1 ∨ n.toNat = 1 then
        some .OperandsNotCoprime else none) =
        if n.toNat = 1 then some GcdError.OperandsNotCoprime else none := by
      rw [← herr]
      by_cases h1 : n.toNat = 1
      · rw [if_pos (Or.inr h1), if_pos h1]; rfl
      · rw [if_neg (not_or.2 ⟨hgn, h1⟩), if_neg h1]; rfl
    rw [herr']
    cases r with
    | error er => exact h3
    | ok o =>
      obtain ⟨k1, k2, k3, k4, k5⟩ := h3
      refine ⟨k1, k2.trans hop, k3, fun m' e' h5 h6 => ?_⟩
      rw [hm'] at h6
      obtain ⟨rfl, rfl⟩ := odd_part_unique hmodd h5 h6
      refine ⟨k5, ?_⟩
      rw [k4, hval, hnv1, hnn1]

theorem ct_inv_mod_mp_mp_sat (op0 : Buf φ) (n : Buf ψ) (s0 s1 s2 s3 : Buf .ne)
    (Hc : invModEarly op0 n s0 s1 s2 s3 = none → LiftOk op0.toNat (8 * n.len - 1) ∧
      ∀ m e, m % 2 = 1 → n.toNat = m * 2 ^ e →
        (Nat.gcd op0.toNat n.toNat = 1 → FitsRun m op0.toNat n.nlimbs ∧ LiftOk m (8 * n.len - 1))) :
    Sat (ct_inv_mod_mp_mp op0 n s0 s1 s2 s3) (fun r => r.1.len = n.len ∧ r.1.toNat = n.toNat ∧
      Outcome (invModErr op0 n s0 s1 s2 s3) (fun o => o.len = op0.len ∧ o.toNat < n.toNat ∧
        op0.toNat * o.toNat % n.toNat = 1) r.2) := by
  have hex := ct_inv_mod_mp_mp_exact op0 n s0 s1 s2 s3
  have hgcd : invModEarly op0 n s0 s1 s2 s3 = none → ∀ m e, m % 2 = 1 → n.toNat = m * 2 ^ e →
      Nat.gcd op0.toNat n.toNat = 1 → (invGcd m op0.toNat n.nlimbs).natAbs = 1 := by
    intro h0 m e hm hme hg
    have hle : m ≤ n.toNat := by rw [hme]; exact Nat.le_mul_of_pos_right _ (by positivity)
    have hlt := n.toNat_lt_B
    unfold invModEarly at h0
    split_ifs at h0 with e1 e2 e3 e4 e5 e6
    have h2 := e3.nlimbs
    rw [← Buf.nlimbs_eq] at h2
    rw [invGcd_natAbs hm (by omega) (lt_of_lt_of_le op0.toNat_lt_B (Nat.pow_le_pow_right B_pos h2)),
      Nat.gcd_comm, ← gcd_odd_part (e := e), ← hme, hg]
    by_contra hc
    push Not at hc
    exact e4 ⟨by omega, by
      rw [hme]; exact Nat.mod_eq_zero_of_dvd ((dvd_pow_self 2 hc.1).mul_left _)⟩
  have hS : InvAnyOk op0 n s0 s1 s2 s3 := by
    intro h0
    obtain ⟨H0, H⟩ := Hc h0
    refine ⟨H0, fun m e hm hme hg => ?_⟩
    obtain ⟨H1, H2⟩ := H m e hm hme hg
    refine ⟨?_, H2⟩
    by_cases h1 : m = 1
    · exact Or.inl h1
    · exact Or.inr (invCoef_ne hm h1 H1 (hgcd h0 m e hm hme hg))
  refine (hex.sat hS).mono ?_
  rintro ⟨n', r⟩ ⟨h1, h2, h3⟩
  refine ⟨h1, h2, ?_⟩
  cases r with
  | error er => exact h3
  | ok o =>
    obtain ⟨k1, k2, k3, k4⟩ := h3
    refine ⟨k1, k2, k3, ?_⟩
    unfold invModErr at k1
    obtain ⟨h0, h5⟩ : invModEarly op0 n s0 s1 s2 s3 = none ∧
        ¬ (Nat.gcd op0.toNat n.toNat ≠ 1 ∨ n.toNat = 1) := by
      cases hE : invModEarly op0 n s0 s1 s2 s3 with
      | some e => rw [hE] at k1; cases k1
      | none =>
        rw [hE, Option.none_or] at k1
        split_ifs at k1 with h6
        exact ⟨rfl, h6⟩
    have h6 : n.toNat ≠ 1 := fun h => h5 (Or.inr h)
    have hg : Nat.gcd op0.toNat n.toNat = 1 := by
      by_contra h; exact h5 (Or.inl h)
    obtain ⟨m, e, hm', hme'⟩ := exists_odd_part_nat (show n.toNat ≠ 0 by omega)
    obtain ⟨p1, p2⟩ := k4 m e hm' hme'
    have p3 := invValue_modEq hm' ((Hc h0).2 m e hm' hme' hg).1 (hgcd h0 m e hm' hme' hg)
    rw [← p2] at p3
    have p4 := inv_of_parts hm' p1 (show op0.toNat * (o.toNat % m) % m = 1 % m from
      (Int.natCast_modEq_iff).1 (by exact_mod_cast p3))
    rw [hme', p4, ← hme', Nat.mod_eq_of_lt (by omega)]

end Cmpa
