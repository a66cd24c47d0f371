import Verif.Model.Prime
import Verif.Proofs.Gcd
import Verif.Proofs.MgExp
import Mathlib.Data.Nat.Prime.Basic
import Mathlib.Data.List.Prime

/-!
# The test for small factors
-/

set_option linter.unusedSectionVars false

namespace Cmpa
variable [LimbCfg] {φ ψ χ : Fmt}

open M

/-! ### The products -/

section
omit [LimbCfg]

/-- Primality of numbers below 1600, by trial division. -/
def smallPrime (p : ℕ) : Bool :=
  decide (2 ≤ p) && (List.range 40).all fun m => decide (m < 2 ∨ p < m * m ∨ p % m ≠ 0)

theorem smallPrime_iff {p : ℕ} (hp : p < 1600) : smallPrime p = true ↔ p.Prime := by
  unfold smallPrime
  rw [Nat.prime_def_le_sqrt, Bool.and_eq_true, decide_eq_true_iff, List.all_eq_true]
  refine and_congr_right fun _ => ⟨fun h m h2 hm hd => ?_, fun h m _ => ?_⟩
  · have hmm := Nat.le_sqrt.1 hm
    have h40 : m < 40 := by
      by_contra hc
      have := Nat.mul_le_mul (Nat.not_lt.1 hc) (Nat.not_lt.1 hc)
      omega
    have := h m (List.mem_range.2 h40)
    rw [decide_eq_true_iff] at this
    rcases this with h' | h' | h'
    · omega
    · omega
    · exact h' (Nat.mod_eq_zero_of_dvd hd)
  · rw [decide_eq_true_iff]
    by_contra hc
    push Not at hc
    exact h m hc.1 (Nat.le_sqrt.2 hc.2.1) (Nat.dvd_of_mod_eq_zero hc.2.2)

/-- The odd primes up to `N`, found by trial division. -/
def oddPrimesUpTo (N : ℕ) : List ℕ :=
  (List.range (N + 1)).filter fun q => decide (q ≠ 2) && smallPrime q

theorem mem_oddPrimesUpTo {N q : ℕ} (hN : N < 1600) :
    q ∈ oddPrimesUpTo N ↔ q.Prime ∧ q ≠ 2 ∧ q ≤ N := by
  unfold oddPrimesUpTo
  rw [List.mem_filter, List.mem_range, Bool.and_eq_true, decide_eq_true_iff]
  constructor
  · rintro ⟨h1, h2, h3⟩
    exact ⟨(smallPrime_iff (by omega)).1 h3, h2, by omega⟩
  · rintro ⟨h1, h2, h3⟩
    exact ⟨by omega, h2, (smallPrime_iff (by omega)).2 h1⟩

theorem prime_dvd_oddPrimes {N q : ℕ} (hN : N < 1600) (hq : q.Prime) :
    q ∣ (oddPrimesUpTo N).prod ↔ q ≠ 2 ∧ q ≤ N := by
  constructor
  · intro h
    obtain ⟨a, ha, hd⟩ := (Prime.dvd_prod_iff hq.prime).1 h
    rw [mem_oddPrimesUpTo hN] at ha
    rw [(Nat.prime_dvd_prime_iff_eq hq ha.1).1 hd]
    exact ha.2
  · intro h
    exact List.dvd_prod ((mem_oddPrimesUpTo hN).2 ⟨hq, h⟩)

/-- The largest prime the product of the given length, or of the next smaller one there is, has for
a factor. -/
def smallPrimeBound (len : ℕ) : ℕ :=
  if 256 ≤ len then 1471 else if 128 ≤ len then 739 else if 64 ≤ len then 379
  else if 32 ≤ len then 193 else if 16 ≤ len then 101 else if 8 ≤ len then 53
  else if 4 ≤ len then 29 else if 2 ≤ len then 13 else 7

set_option maxRecDepth 4000 in
/-- The constants of prime_impl.rs:24-91 are as the comments there say. -/
theorem products_eq : SMALL_ODD_PRIME_PRODUCTS =
    [(1, (oddPrimesUpTo 7).prod), (2, (oddPrimesUpTo 13).prod), (4, (oddPrimesUpTo 29).prod),
      (8, (oddPrimesUpTo 53).prod), (16, (oddPrimesUpTo 101).prod), (32, (oddPrimesUpTo 193).prod),
      (64, (oddPrimesUpTo 379).prod), (128, (oddPrimesUpTo 739).prod),
      (256, (oddPrimesUpTo 1471).prod)] := by decide +kernel

theorem products_lt : ∀ x ∈ SMALL_ODD_PRIME_PRODUCTS, x.2 < 256 ^ x.1 := by decide +kernel

end

theorem select_product_sat {len : ℕ} (h : 1 ≤ len) :
    Sat (select_product len SMALL_ODD_PRIME_PRODUCTS.reverse) (fun x => x.1 ≤ len ∧
      x.2 < 256 ^ x.1 ∧ x.2 = (oddPrimesUpTo (smallPrimeBound len)).prod) := by
  have key : Sat (select_product len SMALL_ODD_PRIME_PRODUCTS.reverse) (fun x => x.1 ≤ len ∧
      x ∈ SMALL_ODD_PRIME_PRODUCTS ∧ x.2 = (oddPrimesUpTo (smallPrimeBound len)).prod) := by
    rw [products_eq]
    simp only [List.reverse_cons, List.reverse_nil, List.nil_append, List.cons_append]
    simp only [select_product]
    unfold smallPrimeBound
    refine Sat.cond (fun h0 => Sat.pure ⟨h0, by simp, by rw [if_pos h0]⟩) fun h0 => ?_
    rw [if_neg h0]
    refine Sat.cond (fun h0 => Sat.pure ⟨h0, by simp, by rw [if_pos h0]⟩) fun h0 => ?_
    rw [if_neg h0]
    refine Sat.cond (fun h0 => Sat.pure ⟨h0, by simp, by rw [if_pos h0]⟩) fun h0 => ?_
    rw [if_neg h0]
    refine Sat.cond (fun h0 => Sat.pure ⟨h0, by simp, by rw [if_pos h0]⟩) fun h0 => ?_
    rw [if_neg h0]
    refine Sat.cond (fun h0 => Sat.pure ⟨h0, by simp, by rw [if_pos h0]⟩) fun h0 => ?_
    rw [if_neg h0]
    refine Sat.cond (fun h0 => Sat.pure ⟨h0, by simp, by rw [if_pos h0]⟩) fun h0 => ?_
    rw [if_neg h0]
    refine Sat.cond (fun h0 => Sat.pure ⟨h0, by simp, by rw [if_pos h0]⟩) fun h0 => ?_
    rw [if_neg h0]
    refine Sat.cond (fun h0 => Sat.pure ⟨h0, by simp, by rw [if_pos h0]⟩) fun h0 => ?_
    rw [if_neg h0]
    refine Sat.cond (fun h0 => Sat.pure ⟨h0, by simp, rfl⟩) fun h0 => ?_
    exact absurd h h0
  exact key.mono fun x hx => ⟨hx.1, products_lt x hx.2.1, hx.2.2⟩

theorem smallPrimeBound_lt (len : ℕ) : smallPrimeBound len < 1600 := by
  unfold smallPrimeBound
  split_ifs <;> omega

/-! ### The test -/

theorem ofDigits_range (v n : ℕ) :
    Nat.ofDigits 256 ((List.range n).map fun k => v / 256 ^ k % 256) = v % 256 ^ n := by
  induction n with
  | zero => simp [Nat.mod_one]
  | succ n ih =>
    rw [List.range_succ, List.map_append, Nat.ofDigits_append, ih]
    simp only [List.length_map, List.length_range, List.map_cons, List.map_nil,
      Nat.ofDigits_singleton]
    exact (Nat.mod_pow_succ).symm

theorem toNat_ofNat_be (len v : ℕ) : (Buf.ofNat .be len v).toNat = v % 256 ^ len := by
  rw [← ofDigits_range]
  show Nat.ofDigits 256 (((List.range len).map fun k => Fin.ofNat 256 (v / 256 ^ k)).reverse.reverse.map
    Fin.val) = _
  rw [List.reverse_reverse, List.map_map]
  rfl

theorem odd_oddPrimes {N : ℕ} (hN : N < 1600) : (oddPrimesUpTo N).prod % 2 = 1 := by
  have h := (prime_dvd_oddPrimes hN Nat.prime_two).not.2 (by simp)
  omega

theorem gcd_oddPrimes {N p : ℕ} (hN : N < 1600) : Nat.gcd (oddPrimesUpTo N).prod p = 1 ∧ p % 2 = 1 ↔
    ¬ ∃ q, q.Prime ∧ (q = 2 ∨ q ≤ N) ∧ q ∣ p := by
  constructor
  · rintro ⟨h1, h2⟩ ⟨q, hq, h3, h4⟩
    by_cases hq2 : q = 2
    · subst hq2; omega
    · have h5 := Nat.dvd_gcd ((prime_dvd_oddPrimes hN hq).2 ⟨hq2, h3.resolve_left hq2⟩) h4
      rw [h1] at h5
      exact hq.one_lt.ne' (Nat.dvd_one.1 h5)
  · intro h
    constructor
    · by_contra hc
      obtain ⟨q, hq, hd⟩ := Nat.exists_prime_and_dvd hc
      have h1 := (prime_dvd_oddPrimes hN hq).1 (hd.trans (Nat.gcd_dvd_left _ _))
      exact h ⟨q, hq, Or.inr h1.2, hd.trans (Nat.gcd_dvd_right _ _)⟩
    · by_contra hc
      exact h ⟨2, Nat.prime_two, Or.inl rfl, by omega⟩

/-- The error of the test. -/
def compositeErr (p : Buf φ) (s0 s1 : Buf .ne) : Option CompositeTestError :=
  if p.len = 0 then none
  else if s0.nlimbs < p.nlimbs ∨ s1.nlimbs < p.nlimbs then some .InsufficientScratchSpace
  else none

theorem ct_composite_test_small_prime_gcd_mp_sat (p : Buf φ) (s0 s1 : Buf .ne) (c : Bool)
    (hc : c = true ↔ ∃ q, q.Prime ∧ (q = 2 ∨ q ≤ smallPrimeBound (p.nlimbs * LB)) ∧ q ∣ p.toNat) :
    Sat (ct_composite_test_small_prime_gcd_mp p s0 s1)
      (Outcome (compositeErr p s0 s1) (fun r => r = .ofBool c)) := by
  unfold ct_composite_test_small_prime_gcd_mp
  dsimp only
  rw [← Buf.nlimbs_eq]
  refine Sat.cond (fun h => ?_) fun h => ?_
  · rw [p.is_empty_iff] at h
    have hp0 := p.toNat_lt
    rw [h, pow_zero, Nat.lt_one_iff] at hp0
    have hc1 : c = true := hc.2 ⟨2, Nat.prime_two, Or.inl rfl, by rw [hp0]; exact dvd_zero _⟩
    rw [hc1, LimbChoice.from'_eq (by omega), M.pure_bind]
    exact Sat.pure ⟨by simp [compositeErr, h], rfl⟩
  have hl : p.len ≠ 0 := fun h' => h (p.is_empty_iff.2 h')
  have hN : 0 < p.nlimbs := nlimbs_pos_iff.2 (by omega)
  refine Sat.cond (fun h0 => Sat.pure ?_) fun h0 => ?_
  · simp [Outcome, compositeErr, hl, h0]
  refine Sat.cond (fun h1 => Sat.pure ?_) fun h1 => ?_
  · simp [Outcome, compositeErr, hl, h0, h1]
  have hLB := LB_pos
  set A := p.nlimbs * LB with hA
  have hA1 : 1 ≤ A := Nat.mul_pos hN hLB
  have hs0 : A ≤ s0.len := by rw [s0.aligned rfl]; exact Nat.mul_le_mul_right _ (by omega)
  have hs1 : A ≤ s1.len := by rw [s1.aligned rfl]; exact Nat.mul_le_mul_right _ (by omega)
  have hAl : Buf._limbs_align_len .ne A = A := by
    show ct_mp_nlimbs A * LB = A
    rw [hA, nlimbs_mul]
  have hpA : p.len ≤ A := by rw [hA, p.nlimbs_eq]; exact le_nlimbs_mul _
  have hpv : p.toNat < 256 ^ A := lt_of_lt_of_le p.toNat_lt (Nat.pow_le_pow_right (by norm_num) hpA)
  refine Sat.bind (select_product_sat hA1) ?_
  rintro ⟨pl, pv⟩ ⟨hpl, hpv2, hpe⟩
  dsimp only at hpl hpv2 hpe ⊢
  refine Sat.bind (Buf.sat_clear_bytes_above s0 A (fun b' e1 e2 => And.intro e1 e2)) ?_
  rintro g0 ⟨hg0l, hg0v⟩
  refine Sat.bind (Buf.sat_shrink_to g0 (m := A) (by
    rw [hg0v]; exact Nat.mod_lt _ (by positivity))) ?_
  rintro ⟨g1, rest⟩ ⟨hg1l, -, -, -, -⟩
  dsimp only at hg1l ⊢
  rw [hg0l, min_eq_left hs0, hAl] at hg1l
  have hprod : (Buf.ofNat .be pl pv).toNat = pv := by
    rw [toNat_ofNat_be, Nat.mod_eq_of_lt hpv2]
  refine Sat.bind (Buf.copy_from_sat g1 (Buf.ofNat .be pl pv) (by
    rw [hprod, hg1l]
    exact lt_of_lt_of_le hpv2 (Nat.pow_le_pow_right (by norm_num) hpl))) ?_
  rintro g2 ⟨hg2l, hg2v⟩
  rw [hprod] at hg2v
  refine Sat.bind (Buf.copy_from_sat s1 p (lt_of_lt_of_le hpv
    (Nat.pow_le_pow_right (by norm_num) hs1))) ?_
  rintro w ⟨hwl, hwv⟩
  refine Sat.bind (Buf.sat_shrink_to w (m := A) (by rw [hwv]; exact hpv)) ?_
  rintro ⟨w1, rest1⟩ ⟨hw1l, hw1v, -, -, -⟩
  dsimp only at hw1l hw1v ⊢
  rw [hwl, min_eq_left hs1, hAl] at hw1l
  have hb := smallPrimeBound_lt A
  have hodd := odd_oddPrimes hb
  refine Sat.bind (unwrapE_sat (ct_gcd_odd_mp_mp_sat g2 w1) ?_) ?_
  · have c0 : LenCompat g2 w1.len := Or.inl (by omega)
    have c1 : LenCompat w1 g2.len := Or.inl (by omega)
    unfold gcdOddErr
    rw [if_neg (by rw [hg2v, hpe]; omega), if_neg (not_or.2 ⟨not_not.2 c0, not_not.2 c1⟩)]
  rintro ⟨g3, w2⟩ ⟨-, -, hg3v, -⟩
  dsimp only at hg3v ⊢
  refine Sat.bind (ct_is_one_mp_sat g3) ?_
  intro c1 hc1
  refine Sat.bind (p.test_bit_sat 0) ?_
  intro c2 hc2
  refine Sat.pure ⟨by simp [compositeErr, hl, h0, h1], ?_⟩
  rw [hc1, hc2, LimbChoice.not_ofBool, LimbChoice.not_ofBool, LimbChoice.or_ofBool]
  congr 1
  rw [Bool.eq_iff_iff, hc, ← not_iff_not, ← gcd_oddPrimes hb, ← hpe, ← hg2v, ← hwv, ← hw1v, ← hg3v,
    hw1v, hwv, Nat.testBit_zero]
  simp

end Cmpa
