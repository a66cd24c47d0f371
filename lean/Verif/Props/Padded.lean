import Verif.Props.ProvablePrime
import Verif.Props.Shamir
import Verif.Props.PrimeBound

/-!
# C65: a limb to spare

The findings about powers and inverses (M1, M4, I1, I2) concern moduli that fill their buffers.  A user who copies modulus
and operand to buffers with one more limb gets the right results, without panics, for all odd moduli.
-/

namespace Cmpa
namespace Props

open M
variable [LimbCfg]

/-! ## The programs -/

/-- A user's program: a power, with a limb to spare. -/
def fPow (p a e : Buf .be) : M (Buf .be) := do
  let n ← padded p
  let b ← padded a
  let r ← modExp (zeros n.len) b n e (8 * e.len) (scratchLimbs n.len)
  (zeros p.len).copy_from r

/-- A user's program: an inverse if there is one, with a limb to spare. -/
def tryInv (p a : Buf .be) : M (Option (Buf .be)) := do
  let n ← padded p
  let b ← padded a
  match ← ct_inv_mod_odd_mp_mp (zeros n.len) b n (scratchLimbs n.len) (scratchLimbs n.len) with
  | .ok (r, _, _, _) => do
    let r ← (zeros p.len).copy_from r
    pure (some r)
  | .error .OperandsNotCoprime => pure none
  | .error _ => M.ofOption none

/-- A user's program: copies with a limb to spare. -/
def padAll : List (Buf .be) → M (List (Buf .be))
  | [] => pure []
  | a :: l => do
    let b ← padded a
    let l ← padAll l
    pure (b :: l)

/-- A user's program: whether the number passes the test of Miller and Rabin for the bases, with a limb to spare. -/
def probablePrime (p : Buf .be) (bases : List (Buf .be)) : M Bool := do
  let n ← padded p
  let bases ← padAll bases
  let radix ← unwrapE (ct_to_montgomery_form_direct_mp (oneBuf n.len) n)
  passesBases n radix (scratchLimbs n.len) (scratchLimbs n.len) bases

/-- A user's program: search for a prime from `lower` on, with a limb to spare. -/
def searchPadded (lower : Buf .be) (bases : List (Buf .be)) (tries : ℕ) : M (Option (Buf .be)) := do
  let n ← padded lower
  let bases ← padAll bases
  searchPrime n (oneBuf n.len) bases (scratchLimbs n.len) (scratchLimbs n.len) tries

/-! ## Proofs -/

section
variable {p a : Buf .be}

theorem len_pos_of_pos {f : Fmt} {b : Buf f} (h : 0 < b.toNat) : 0 < b.len := by
  rcases Nat.eq_zero_or_pos b.len with h0 | h0
  · have := b.toNat_lt
    rw [h0, pow_zero] at this
    omega
  · exact h0

/-- **C65**: powers are right for all odd moduli. -/
theorem C65_power (p a e : Buf .be) (hodd : p.toNat % 2 = 1) (hl : a.len = p.len) (ha : a.toNat < p.toNat) :
    Sat (fPow p a e) (fun r => r.len = p.len ∧ r.toNat = a.toNat ^ e.toNat % p.toNat) := by
  have hp : 0 < p.toNat := by omega
  unfold fPow
  refine (padded_sat p).bind fun n hn => ?_
  refine (padded_sat a).bind fun b hb => ?_
  refine (modExp_sat (zeros n.len) b n e (8 * e.len) (scratchLimbs n.len)
    (expModulus_of_spare n (by rw [hn.2]; exact hodd) p.len (len_pos_of_pos hp) hn.1 (by rw [hn.2]; exact p.toNat_lt))
    (by rw [zeros_len]) (by rw [hb.1, hn.1, hl]) (by rw [hb.2, hn.2]; exact ha) ?_
    (by rw [scratchLimbs_nlimbs, Buf.nlimbs])).bind ?_
  · rw [pow_mul]
    exact e.toNat_lt
  · rintro r ⟨-, h2⟩
    rw [hb.2, hn.2] at h2
    refine (C17_copy_from (zeros p.len) r ?_).mono fun r' h5 => ⟨h5.1.trans (zeros_len _), by rw [h5.2, h2]⟩
    rw [zeros_len, h2]
    exact (Nat.mod_lt _ hp).trans p.toNat_lt

/-- **C65**: inverses are found for exactly the numbers coprime to the modulus, and are right, for all odd moduli. -/
theorem C65_inverse (p a : Buf .be) (hodd : p.toNat % 2 = 1) (h1 : 1 < p.toNat) (hl : a.len = p.len) :
    Sat (tryInv p a) (fun o => (o = none ↔ Nat.gcd a.toNat p.toNat ≠ 1) ∧
      ∀ r, o = some r → r.len = p.len ∧ r.toNat < p.toNat ∧ a.toNat * r.toNat % p.toNat = 1) := by
  unfold tryInv
  refine (padded_sat p).bind fun n hn => ?_
  refine (padded_sat a).bind fun b hb => ?_
  have hbn : b.len = n.len := by rw [hb.1, hn.1, hl]
  have hroom : InvOddRoom (zeros n.len) b n (scratchLimbs n.len) (scratchLimbs n.len) :=
    ⟨Or.inl (zeros_len _).ge, Or.inl hbn.le, Or.inl hbn.ge, by rw [scratchLimbs_nlimbs, Buf.nlimbs],
      by rw [scratchLimbs_nlimbs, Buf.nlimbs]⟩
  by_cases hcop : Nat.gcd a.toNat p.toNat = 1
  · have h := C30_inv_odd_partial (zeros n.len) b n (scratchLimbs n.len) (scratchLimbs n.len) hroom
      (by rw [hn.2]; exact hodd) (by rw [hn.2]; exact h1) (by rw [hb.2, hn.2]; exact hcop)
      (by rw [hn.2, Buf.nlimbs, hn.1, nlimbs_add_LB, Nat.add_sub_cancel]; exact p.toNat_lt_B)
    refine h.bind ?_
    rintro _ ⟨r, _, _, _, rfl, -, -, -, -, h2, h3⟩
    rw [hn.2] at h2 h3
    rw [hb.2] at h3
    refine (C17_copy_from (zeros p.len) r (by rw [zeros_len]; exact h2.trans p.toNat_lt)).bind fun r' h5 => ?_
    refine Sat.pure ⟨by simp [hcop], ?_⟩
    rintro _ h6
    cases h6
    rw [h5.2]
    exact ⟨h5.1.trans (zeros_len _), h2, h3⟩
  · have h := C30_inv_odd_not_coprime (zeros n.len) b n (scratchLimbs n.len) (scratchLimbs n.len) hroom
      (by rw [hn.2]; exact hodd) (Or.inl (by rw [hb.2, hn.2]; exact hcop))
    refine h.bind ?_
    rintro _ rfl
    exact Sat.pure ⟨by simp [hcop], by simp⟩

theorem fPow_ct [Obs] {e e' a a' : Buf .be} (ha : a.len = a'.len) (he : e.len = e'.len) :
    SameTr (fPow p a e) (fPow p a' e') Pub.rel := by
  unfold fPow
  refine (SameTr.refl (padded p)).bind fun n n' hn => ?_
  subst hn
  refine (padded_ct ha).bind fun _ _ h2 => ?_
  rw [he]
  refine (modExp_ct rfl h2 rfl rfl he rfl).bind fun _ _ h3 => ?_
  exact Buf.copy_from_ct rfl h3

/-- **C65**: neither the base nor the exponent is revealed. -/
theorem C65_power_constant_time (p a e a' e' : Buf .be) (hodd : p.toNat % 2 = 1) (hl : a.len = p.len)
    (ha : a.toNat < p.toNat) (hl' : a'.len = p.len) (ha' : a'.toNat < p.toNat) (he : e.len = e'.len) :
    (fPow p a e).tr = (fPow p a' e').tr :=
  sameEvents (@fPow_ct _ p Obs.full e e' a a' (hl.trans hl'.symm) he) (C65_power p a e hodd hl ha).ne_none
    (C65_power p a' e' hodd hl' ha').ne_none

/-- **C65**: inverting invertible numbers doesn't reveal them. -/
theorem C65_inverse_constant_time (p a a' : Buf .be) (hodd : p.toNat % 2 = 1) (h1 : 1 < p.toNat) (hl : a.len = p.len)
    (ha : a.toNat < p.toNat) (hl' : a'.len = p.len) (ha' : a'.toNat < p.toNat) (hc : Nat.Coprime a.toNat p.toNat)
    (hc' : Nat.Coprime a'.toNat p.toNat) : (fInv p a).tr = (fInv p a').tr :=
  sameEvents (@fInv_ct _ Obs.full p a a' (hl.trans hl'.symm))
    (fInv_coprime_sat hodd h1 (⟨hl, ha, rfl⟩ : El p a (a.toNat : ZMod p.toNat)) hc).ne_none
    (fInv_coprime_sat hodd h1 (⟨hl', ha', rfl⟩ : El p a' (a'.toNat : ZMod p.toNat)) hc').ne_none

/-! ### Primes -/

theorem padAll_sat (l : List (Buf .be)) {n : ℕ} (hl : ∀ a ∈ l, a.len = n) :
    Sat (padAll l) (fun r => (∀ a ∈ r, a.len = n + LB) ∧ r.map Buf.toNat = l.map Buf.toNat) := by
  induction l with
  | nil => exact Sat.pure ⟨by simp, rfl⟩
  | cons a l ih =>
    rw [padAll]
    refine (padded_sat a).bind fun b hb => ?_
    refine (ih fun a h => hl a (List.mem_cons_of_mem _ h)).bind fun r hr => ?_
    refine Sat.pure ⟨?_, by rw [List.map_cons, List.map_cons, hb.2, hr.2]⟩
    intro c hc
    rcases List.mem_cons.1 hc with rfl | hc
    · rw [hb.1, hl a List.mem_cons_self]
    · exact hr.1 c hc

theorem mrDomain_of_spare {n : Buf .be} {k Q : ℕ} (hk : 0 < k) (hl : n.len = k + LB) (hQ : Q < 256 ^ k) (hodd : Q % 2 = 1) :
    MrDomain n.len n.nlimbs Q := by
  obtain ⟨b, hb, hv⟩ := exists_be n.len Q (hQ.trans_le (Nat.pow_le_pow_right (by norm_num) (by omega)))
  have h := expModulus_of_spare b (by rw [hv]; exact hodd) k hk (hb.trans hl) (by rw [hv]; exact hQ)
  have h1 := h.high
  have h2 := h.align
  rw [Buf.nlimbs_congr hb] at h1
  rw [hv] at h1 h2
  rw [hb] at h2
  exact ⟨h1, h2⟩

/-- **C65**: the test of Miller and Rabin is right for all odd numbers and all bases. -/
theorem C65_prime_test (p : Buf .be) (bases : List (Buf .be)) (hodd : p.toNat % 2 = 1) (h1 : 1 < p.toNat)
    (hb : ∀ a ∈ bases, a.len = p.len) :
    Sat (probablePrime p bases) (fun c => c = true ↔ ∀ a ∈ bases, StrongProbablePrime p.toNat a.toNat) := by
  unfold probablePrime
  refine (padded_sat p).bind fun n hn => ?_
  refine (padAll_sat bases hb).bind fun bs hbs => ?_
  have hno : n.toNat % 2 = 1 := by rw [hn.2]; exact hodd
  have hnl : 0 < n.len := len_pos_of_pos (by rw [hn.2]; omega)
  refine (unwrapE_ok (C27_direct (oneBuf n.len) n hno (.inl (oneBuf_len _ hnl).ge))).bind ?_
  rintro r ⟨h3, h4⟩
  rw [oneBuf_toNat, one_mul] at h4
  refine (passesBases_sat (by rw [hn.2]; exact h1) hno h4 (h3.trans (oneBuf_len _ hnl))
    (by rw [scratchLimbs_nlimbs, Buf.nlimbs]) (by rw [scratchLimbs_nlimbs, Buf.nlimbs])
    (mrDomain_of_spare (len_pos_of_pos (by omega)) hn.1 (by rw [hn.2]; exact p.toNat_lt) hno) bs
    (fun a ha => (hbs.1 a ha).trans hn.1.symm)).mono fun c hc => ?_
  rw [hc, hn.2]
  have e1 : (∀ a ∈ bs, StrongProbablePrime p.toNat a.toNat) ↔ ∀ v ∈ bs.map Buf.toNat, StrongProbablePrime p.toNat v := by
    simp
  have e2 : (∀ a ∈ bases, StrongProbablePrime p.toNat a.toNat) ↔
      ∀ v ∈ bases.map Buf.toNat, StrongProbablePrime p.toNat v := by simp
  rw [e1, e2, hbs.2]

/-- **C65**: no odd prime is rejected. -/
theorem C65_prime_accepted (p : Buf .be) (bases : List (Buf .be)) (hodd : p.toNat % 2 = 1) (hp : p.toNat.Prime)
    (hb : ∀ a ∈ bases, a.len = p.len) (ha : ∀ a ∈ bases, ¬ p.toNat ∣ a.toNat) :
    Sat (probablePrime p bases) (fun c => c = true) :=
  (C65_prime_test p bases hodd hp.one_lt hb).mono fun _ hc =>
    hc.2 fun a h => strongProbablePrime_of_prime hp hodd (ha a h)

/-- **C65**: at most a quarter of the bases accept an odd number that isn't prime. -/
theorem C65_composite_rejected (p : Buf .be) (hodd : p.toNat % 2 = 1) (h1 : 1 < p.toNat) (hp : ¬ p.toNat.Prime) :
    ∃ accepted : Finset ℕ, 4 * accepted.card ≤ p.toNat - 1 ∧
      ∀ (bases : List (Buf .be)) (a : Buf .be), (∀ a ∈ bases, a.len = p.len) → a ∈ bases → a.toNat < p.toNat →
        a.toNat ∉ accepted → Sat (probablePrime p bases) (fun c => c = false) := by
  classical
  refine ⟨Rabin.liars p.toNat, Rabin.liars_le h1 hodd hp, fun bases a hb ha hlt hn => ?_⟩
  refine (C65_prime_test p bases hodd h1 hb).mono fun c hc => ?_
  cases c
  · rfl
  · refine absurd ?_ hn
    unfold Rabin.liars
    rw [Finset.mem_filter, Finset.mem_range]
    exact ⟨hlt, hc.1 rfl a ha⟩

/-- **C65**: the search finds the least number, from the lower bound on, that passes the tests, if there is one of the
length of the lower bound. -/
theorem C65_search (lower : Buf .be) (bases : List (Buf .be)) (tries Q : ℕ) (hb : ∀ a ∈ bases, a.len = lower.len)
    (hlQ : lower.toNat ≤ Q) (hQ : Q < 256 ^ lower.len)
    (hpass : Passes (lower.nlimbs + 1) (bases.map Buf.toNat) Q) (ht : Q < lower.toNat + tries) :
    Sat (searchPadded lower bases tries) (fun r => ∃ b, r = some b ∧ b.len = lower.len + LB ∧
      IsLeast {m | lower.toNat ≤ m ∧ Passes (lower.nlimbs + 1) (bases.map Buf.toNat) m} b.toNat) := by
  have h2 : (2 : ℕ) ∈ wheelPrimes := by unfold wheelPrimes; split <;> decide
  have hQodd : Q % 2 = 1 := by
    have := hpass.wheel 2 h2
    omega
  have hlen : 0 < lower.len := by
    rcases Nat.eq_zero_or_pos lower.len with h | h
    · have := hpass.two_le
      rw [h, pow_zero] at hQ
      omega
    · exact h
  unfold searchPadded
  refine (padded_sat lower).bind fun n hn => ?_
  refine (padAll_sat bases hb).bind fun bs hbs => ?_
  have hnl : n.nlimbs = lower.nlimbs + 1 := by rw [Buf.nlimbs, hn.1, nlimbs_add_LB, Buf.nlimbs]
  have hbufs : SearchBufs n.len n.nlimbs (oneBuf n.len) bs (scratchLimbs n.len) (scratchLimbs n.len) :=
    ⟨oneBuf_len _ (by omega), oneBuf_toNat _, fun a ha => (hbs.1 a ha).trans hn.1.symm,
      by rw [scratchLimbs_nlimbs, Buf.nlimbs], by rw [scratchLimbs_nlimbs, Buf.nlimbs]⟩
  have h := C53_search_partial n (oneBuf n.len) bs (scratchLimbs n.len) (scratchLimbs n.len) tries Q hbufs
    (by rw [hn.2]; exact hlQ) (hQ.trans_le (Nat.pow_le_pow_right (by norm_num) (by omega)))
    (by rw [hbs.2, hnl]; exact hpass) (mrDomain_of_spare hlen hn.1 hQ hQodd) (by rw [hn.2]; exact ht)
  refine h.mono ?_
  rintro r ⟨b, rfl, h3, h4⟩
  rw [hn.2, hbs.2, hnl] at h4
  exact ⟨b, rfl, h3.trans hn.1, h4⟩

end

/-! ## Examples -/

-- a modulus of a single limb (M1), 2 ^ 10 mod 35, and the counterexamples of C30
example : letI := cfg32; (fPow (Buf.be [35]) (Buf.be [2]) (Buf.be [10])).val.map Buf.toNat = some 9 := by decide +kernel
example : letI := cfg32;
    (tryInv (Buf.ofNat .be 4 3767961369) (Buf.ofNat .be 4 79855859)).val.map (Option.map Buf.toNat) =
      some (some 1491728282) := by decide +kernel
example : letI := cfg32; (tryInv (Buf.be [35]) (Buf.be [14])).val.map (Option.map Buf.toNat) = some none := by
  decide +kernel

-- the prime which isn't found without a limb to spare (C53)
example : letI := cfg32;
    (probablePrime (Buf.ofNat .be 8 18446744073709551533) [Buf.ofNat .be 8
      (18446744073709551532 * 11779246215742243750 % 18446744073709551533)]).val = some true := by decide +kernel
example : letI := cfg32;
    (searchPadded (Buf.be [11, 80]) [Buf.be [0, 2]] 4).val.map (Option.map Buf.toNat) = some (some 2897) := by
  decide +kernel

end Props
end Cmpa
