import Verif.Props.MgExact
import Verif.Proofs.MgRelease

/-!
# Montgomery arithmetic in release builds (C25, C26, C27, C28)

In debug builds, operands not less than the modulus panic (`C25_redc_exact`, `C26_mul_unreduced`,
`C28_exp_unreduced`).  In release builds the assertions which do so aren't there.  What is calculated then.

`ReducesTo n t U` is the specification from `Verif.Props.MgExact`: `U` is the number before the last
subtraction of a reduction of `t`.
-/

namespace Cmpa.Props
open M
variable [LimbCfg] {f g h f' e' : Fmt}

/-- C25, release builds: the reduction of any number the function doesn't refuse: one subtraction is made if
possible, whether that's enough or not. -/
theorem C25_redc_release (t : Buf f) (n : Buf g) (neg U : ℕ) (hodd : n.toNat % 2 = 1)
    (hneg : NegInv n neg) (hn : LenCompat n t.len) (ht : LenCompat t (2 * n.len)) (h2 : 2 ≤ n.nlimbs)
    (hU : ReducesTo n t.toNat U) :
    RSat (ct_montgomery_redc_mp t n neg) (fun r => ∃ s, r = .ok s ∧ s.len = t.len ∧
      s.toNat = if n.toNat ≤ U then U - n.toNat else U) := by
  have he : redcErr t n = none := by simp [redcErr, odd_len_pos hodd, hodd, hn, ht]
  obtain ⟨K, hK, h1⟩ := redcRun_spec hneg.wmul t.toNat n.nlimbs
  have hV : U = redcRun n.toNat neg t.toNat n.nlimbs := hU.unique hodd ⟨K, hK, h1⟩
  rw [hV]
  exact ct_montgomery_redc_mp_rsat t n neg he hneg.wmul h2

/-- C25, release builds: the result is always congruent to the number times the radix's inverse.  It's less
than the modulus exactly if one subtraction is enough. -/
theorem C25_redc_release_modEq (t : Buf f) (n : Buf g) (neg U : ℕ) (hodd : n.toNat % 2 = 1)
    (hneg : NegInv n neg) (hn : LenCompat n t.len) (ht : LenCompat t (2 * n.len)) (h2 : 2 ≤ n.nlimbs)
    (hU : ReducesTo n t.toNat U) :
    RSat (ct_montgomery_redc_mp t n neg) (fun r => ∃ s, r = .ok s ∧ s.len = t.len ∧
      s.toNat * radix n ≡ t.toNat [MOD n.toNat] ∧ (s.toNat < n.toNat ↔ U < 2 * n.toNat)) := by
  refine (C25_redc_release t n neg U hodd hneg hn ht h2 hU).mono ?_
  rintro r ⟨s, h, hl, hs⟩
  refine ⟨s, h, hl, ?_, ?_⟩
  · obtain ⟨K, -, h1⟩ := hU
    have h3 : s.toNat ≡ U [MOD n.toNat] := by rw [hs]; exact subOnce_modEq _ _
    refine (h3.mul_right _).trans ?_
    rw [Nat.mul_comm, h1]
    show _ % _ = _
    rw [Nat.add_mul_mod_self_right]
  · rw [hs]
    split <;> omega

/-- C26, release builds: it's enough that one of the factors is less than the modulus.  Missing: the cases
excluded from `C26_mul_partial`. -/
theorem C26_mul_release_partial (result : Buf f) (a : Buf g) (b : Buf h) (n : Buf f') (neg : ℕ)
    (hodd : n.toNat % 2 = 1) (hneg : NegInv n neg) (hab : a.toNat < n.toNat ∨ b.toNat < n.toNat)
    (hal : LenCompat a n.len) (hbl : LenCompat b n.len)
    (hhigh : B * b.toNat + n.toNat ≤ B ^ (n.nlimbs + 1)) (hlen : n.len ≤ result.len)
    (halign : f.unaligned = true ∨ LB ∣ n.len ∨ 257 * n.toNat ≤ 256 ^ (n.len + 1))
    (hne : a.len = 0 ∨ b.len ≠ 0) :
    RSat (ct_montgomery_mul_mod_mp_mp result a b n neg) (fun r => ∃ s, r = .ok s ∧
      s.len = result.len ∧ s.toNat < n.toNat ∧
      s.toNat * radix n ≡ a.toNat * b.toNat [MOD n.toNat]) := by
  refine ct_montgomery_mul_mod_mp_mp_rsat_prod result a b n neg ?_ hneg.wmul hne ?_ hhigh hlen halign
  · have : LenCompat n result.len := Or.inl hlen
    simp [mulErr, odd_len_pos hodd, hodd, hal, hbl, this]
  · rcases hab with h | h
    · rw [Nat.mul_comm]; exact Nat.mul_le_mul hbl.lt.le h.le
    · exact Nat.mul_le_mul hal.lt.le h.le

/-- C26, release builds: with two factors not less than the modulus, the product is right but one subtraction
might not be enough.  Missing: moduli in which a carry gets lost, and the result buffers excluded from
`C26_mul_partial`. -/
theorem C26_mul_release_any_partial (result : Buf f) (a : Buf g) (b : Buf h) (n : Buf f') (neg U : ℕ)
    (hodd : n.toNat % 2 = 1) (hneg : NegInv n neg)
    (hal : LenCompat a n.len) (hbl : LenCompat b n.len)
    (hhigh : B * b.toNat + n.toNat ≤ B ^ (n.nlimbs + 1)) (hlen : n.len ≤ result.len)
    (halign : f.unaligned = true ∨ LB ∣ n.len) (hne : a.len = 0 ∨ b.len ≠ 0)
    (hU : ReducesTo n (a.toNat * b.toNat) U) :
    RSat (ct_montgomery_mul_mod_mp_mp result a b n neg) (fun r => ∃ s, r = .ok s ∧
      s.len = result.len ∧ s.toNat = if n.toNat ≤ U then U - n.toNat else U) := by
  have he : mulErr result a b n = none := by
    have : LenCompat n result.len := Or.inl hlen
    simp [mulErr, odd_len_pos hodd, hodd, hal, hbl, this]
  have hn : 0 < n.toNat := by omega
  have ha : a.toNat < B ^ n.nlimbs := a.toNat_lt_B.trans_le
    (Nat.pow_le_pow_right B_pos (by rw [Buf.nlimbs_eq n]; exact hal.nlimbs))
  have hk := mgKeeps_of_add_le (N := n.nlimbs) (a := a.toNat) hneg.wmul hn hhigh
  obtain ⟨K, hK, h1⟩ := mgRun_keeps hneg.wmul ha hk
  rw [hU.unique hodd ⟨K, hK, h1⟩]
  refine ct_montgomery_mul_mod_mp_mp_rsat result a b n neg he hneg.wmul hne (Or.inl ?_)
  rw [min_eq_left hlen]
  unfold Buf._limbs_align_len
  rcases halign with h | ⟨k, hk⟩
  · rw [if_pos h]
  · split
    · rfl
    · unfold ct_mp_limbs_align_len
      rw [hk, Nat.mul_comm LB k, nlimbs_mul]

/-- C27, release builds: the conversion also reduces a number not less than the modulus.  Missing: the cases
excluded from C26. -/
theorem C27_form_release_partial (result : Buf f) (t : Buf g) (n : Buf f') (neg : ℕ) (radix2 : Buf h)
    (hodd : n.toNat % 2 = 1) (hneg : NegInv n neg)
    (hr2 : radix2.toNat = radix n ^ 2 % n.toNat)
    (htl : LenCompat t n.len) (hrl : LenCompat radix2 n.len)
    (hhigh : (B + 1) * n.toNat ≤ B ^ (n.nlimbs + 1)) (hlen : n.len ≤ result.len)
    (halign : f.unaligned = true ∨ LB ∣ n.len ∨ 257 * n.toNat ≤ 256 ^ (n.len + 1))
    (hne : t.len = 0 ∨ radix2.len ≠ 0) :
    RSat (ct_to_montgomery_form_mp result t n neg radix2) (fun r => ∃ s, r = .ok s ∧
      s.len = result.len ∧ s.toNat = t.toNat * radix n % n.toNat) := by
  have hpos : 0 < n.toNat := by omega
  refine (ct_to_montgomery_form_mp_rsat result t n neg radix2 (by
      have : LenCompat n result.len := Or.inl hlen
      simp [toMgErr, mulErr, odd_len_pos hodd, hodd, htl, hrl, this]) hneg.wmul hne
    (by rw [hr2]; exact Nat.mod_lt _ hpos) ⟨hhigh, hlen, halign⟩).mono ?_
  rintro r ⟨s, h1, h2, h3, h4⟩
  refine ⟨s, h1, h2, ?_⟩
  rw [← Nat.mod_eq_of_lt h3]
  refine Nat.ModEq.cancel_right_of_coprime (c := radix n)
    (coprime_radix (by omega) n.nlimbs) (h4.trans ?_)
  rw [hr2, Nat.mul_assoc, ← sq]
  exact (Nat.mod_modEq _ _).mul_left _

/-- C28, release builds: the power is right also for a base not less than the modulus.  Missing: moduli of a
single limb and those excluded from C26. -/
theorem C28_exp_release_partial (result : Buf f) (base : Buf g) (n : Buf f') (e : Buf e') (nbits : ℕ)
    (scratch : Buf .ne) (hodd : n.toNat % 2 = 1)
    (hbl : LenCompat base n.len) (hnb : LenCompat n base.len)
    (hsc : n.nlimbs ≤ scratch.nlimbs) (h2 : 2 ≤ n.nlimbs)
    (hhigh : (B + 1) * n.toNat ≤ B ^ (n.nlimbs + 1)) (hlen : n.len ≤ result.len)
    (halign : LB ∣ n.len ∨ 257 * n.toNat ≤ 256 ^ (n.len + 1)) :
    RSat (ct_exp_mod_odd_mp_mp result base n e nbits scratch) (fun r => ∃ s, r = .ok s ∧
      s.1.len = result.len ∧ s.2.1.len = base.len ∧ s.2.2.len = scratch.len ∧
      s.1.toNat = base.toNat ^ (e.toNat % 2 ^ nbits) % n.toNat) :=
  ct_exp_mod_odd_mp_mp_rsat result base n e nbits scratch (by
      have : LenCompat n result.len := Or.inl hlen
      simp [expErr, hodd, hbl, hnb, this]; omega)
    h2 ⟨hhigh, hlen, Or.inr halign⟩ ⟨hhigh, ne_scratch_len hsc, Or.inr halign⟩

/-! ### Examples -/

example : letI := cfg64;
    let n := Buf.ofNat .le 16 (2 ^ 65 + 13)
    NegInv n 12770822820260458811 ∧ ReducesTo n (2 ^ 256 - 1)
      340282366920938463495683697643709201280 ∧
    (ct_montgomery_redc_mp (Buf.ofNat .be 32 (2 ^ 256 - 1)) n 12770822820260458811).rel.bind mgNum
      = some 340282366920938463458790209496290098035 ∧
    (ct_montgomery_redc_mp (Buf.ofNat .be 32 (2 ^ 256 - 1)) n 12770822820260458811).val.isNone = true ∧
    2 * n.toNat ≤ 340282366920938463495683697643709201280 :=
  ⟨⟨by decide +kernel, by decide +kernel⟩, ⟨297998759197034867411494369300321160901, by decide +kernel, by decide +kernel⟩,
    by decide +kernel, by decide +kernel, by decide +kernel⟩

example : letI := cfg64;
    let n := Buf.ofNat .le 9 (2 ^ 71 - 93)
    let a := Buf.ofNat .be 9 (2 ^ 72 - 1)
    let b := Buf.ofNat .be 9 77
    n.toNat ≤ a.toNat ∧ B * b.toNat + n.toNat ≤ B ^ (n.nlimbs + 1) ∧
    257 * n.toNat ≤ 256 ^ (n.len + 1) ∧
    (ct_montgomery_mul_mod_mp_mp (Buf.ofNat .ne 16 0) a b n 5752210517608354805).rel.bind mgNum
      = some 2300850081953137375780 ∧
    2300850081953137375780 * radix n % n.toNat = a.toNat * b.toNat % n.toNat := by decide +kernel

example : letI := cfg64;
    let n := Buf.ofNat .le 9 (2 ^ 71 - 93)
    let a := Buf.ofNat .be 9 (2 ^ 72 - 1)
    let b := Buf.ofNat .be 9 (2 ^ 71 + 907)
    n.toNat ≤ a.toNat ∧ n.toNat ≤ b.toNat ∧ B * b.toNat + n.toNat ≤ B ^ (n.nlimbs + 1) ∧
    (ct_montgomery_mul_mod_mp_mp (Buf.ofNat .be 11 0) a b n 5752210517608354805).rel.bind mgNum
      = some 1117664954380178839530 ∧
    ReducesTo n (a.toNat * b.toNat) 1117664954380178839530 :=
  ⟨by decide +kernel, by decide +kernel, by decide +kernel, by decide +kernel,
    ⟨161072495106292341934814151685545134841, by decide +kernel, by decide +kernel⟩⟩

example : letI := cfg64;
    let n := Buf.ofNat .le 9 (2 ^ 71 - 93)
    let t := Buf.ofNat .be 9 (2 ^ 72 - 1)
    n.toNat ≤ t.toNat ∧
    (ct_to_montgomery_form_mp (Buf.ofNat .ne 16 0) t n 5752210517608354805
      (Buf.ofNat .le 9 (2 ^ 256 % (2 ^ 71 - 93)))).rel.bind mgNum =
        some ((2 ^ 72 - 1) * 2 ^ 128 % (2 ^ 71 - 93)) ∧
    (ct_exp_mod_odd_mp_mp (Buf.ofNat .be 9 0) t n (Buf.ofNat .be 2 0x1234) 13
      (Buf.ofNat .ne 16 0)).rel.bind expNum = some 440991509098632388790 ∧
    (ct_exp_mod_odd_mp_mp (Buf.ofNat .be 9 0) t n (Buf.ofNat .be 2 0x1234) 13
      (Buf.ofNat .ne 16 0)).val.isNone = true := by decide +kernel

/-- Both factors not less than the modulus: in release builds the product isn't reduced. -/
theorem C26_mul_release_fails : letI := cfg64; ∃ (result a b n : Buf .be) (neg : ℕ),
    n.toNat % 2 = 1 ∧ NegInv n neg ∧ LenCompat a n.len ∧ LenCompat b n.len ∧
    (ct_montgomery_mul_mod_mp_mp result a b n neg).val = none ∧
    ∃ s, (ct_montgomery_mul_mod_mp_mp result a b n neg).rel.bind mgNum = some s ∧ n.toNat ≤ s :=
  letI := cfg64
  ⟨Buf.ofNat .be 8 0, Buf.ofNat .be 8 (2 ^ 64 - 2), Buf.ofNat .be 8 (2 ^ 64 - 2), Buf.ofNat .be 8 3,
    0x5555555555555555, by decide +kernel, ⟨by decide +kernel, by decide +kernel⟩, by decide +kernel,
    by decide +kernel, by decide +kernel, 18446744073709551610, by decide +kernel, by decide +kernel⟩

end Cmpa.Props
