import Verif.Props.Prime
import Verif.Proofs.Rabin
import Mathlib.Data.Fintype.Pi
import Mathlib.Data.Fintype.BigOperators

/-!
C44: composite candidates are rejected by the Miller–Rabin test for all but a quarter of the bases.
-/

namespace Cmpa
namespace Props

open M
variable [LimbCfg] {φ ψ χ : Fmt}

/-! ## C44 -/

/-- C44: let the candidate be an odd composite number `p`.  Among the `p` bases below the candidate there
are at most `(p - 1) / 4` for which the answer isn't "composite", whatever the lengths and formats of the buffers holding the
base.  Missing: candidates outside the domain of the Montgomery multiplication, as for `C34_miller_rabin_partial`. -/
theorem C44_composite_partial (p : Buf φ) (mg_radix : Buf ψ)
    (scratch0 scratch1 : Buf .ne) (hp : 1 < p.toNat) (hodd : p.toNat % 2 = 1) (hcomp : ¬ p.toNat.Prime)
    (hrad : mg_radix.toNat = radix p % p.toNat)
    (hrl : LenCompat mg_radix p.len) (hrn : p.nlimbs ≤ mg_radix.nlimbs)
    (hs0 : p.nlimbs ≤ scratch0.nlimbs) (hs1 : p.nlimbs ≤ scratch1.nlimbs)
    (hhigh : (B + 1) * p.toNat ≤ B ^ (p.nlimbs + 1))
    (halign : LB ∣ p.len ∨ 257 * p.toNat ≤ 256 ^ (p.len + 1)) :
    ∃ accepted : Finset ℕ, 4 * accepted.card ≤ p.toNat - 1 ∧
      ∀ {χ : Fmt} (mg_base : Buf χ), LenCompat mg_base p.len → mg_base.len ≠ 0 → mg_base.toNat < p.toNat →
        mg_base.toNat ∉ accepted →
        Sat (ct_prime_test_miller_rabin_mp mg_base p mg_radix scratch0 scratch1)
          (fun r => r = .ok (.ofBool false)) := by
  classical
  refine ⟨(Rabin.liars p.toNat).image (fun a => a * radix p % p.toNat), ?_, ?_⟩
  · have h := Rabin.liars_le hp hodd hcomp
    have h' : ((Rabin.liars p.toNat).image (fun a => a * radix p % p.toNat)).card ≤ _ :=
      Finset.card_image_le
    omega
  · intro χ mg_base hbl hbne hlt hnot
    have hco : Nat.Coprime p.toNat (radix p) := coprime_radix (by omega) _
    obtain ⟨ri, -, hri⟩ := Nat.exists_mul_mod_eq_one_of_coprime hco.symm hp
    have hb : mg_base.toNat = mg_base.toNat * ri % p.toNat * radix p % p.toNat := by
      rw [Nat.mod_mul_mod, mul_assoc, mul_comm ri, Nat.mul_mod, hri, mul_one, Nat.mod_mod, Nat.mod_eq_of_lt hlt]
    refine (C34_miller_rabin_partial mg_base p mg_radix scratch0 scratch1 _ hp hodd hb hbl hbne hrad hrl hrn hs0 hs1
      hhigh halign).mono ?_
    rintro r ⟨c, rfl, hc⟩
    rcases c with _ | _
    · rfl
    · exfalso
      refine hnot ?_
      rw [Finset.mem_image]
      refine ⟨_, ?_, hb.symm⟩
      unfold Rabin.liars
      rw [Finset.mem_filter, Finset.mem_range]
      exact ⟨Nat.mod_lt _ (by omega), hc.1 rfl⟩

/-- C44: repeated tests.  Of the `p ^ k` ways to choose the bases of `k` tests at most `((p - 1) / 4) ^ k` have no test
answer "composite".  Missing: as for `C44_composite_partial`. -/
theorem C44_rounds_partial (p : Buf φ) (mg_radix : Buf ψ)
    (scratch0 scratch1 : Buf .ne) (k : ℕ) (hp : 1 < p.toNat) (hodd : p.toNat % 2 = 1) (hcomp : ¬ p.toNat.Prime)
    (hrad : mg_radix.toNat = radix p % p.toNat)
    (hrl : LenCompat mg_radix p.len) (hrn : p.nlimbs ≤ mg_radix.nlimbs)
    (hs0 : p.nlimbs ≤ scratch0.nlimbs) (hs1 : p.nlimbs ≤ scratch1.nlimbs)
    (hhigh : (B + 1) * p.toNat ≤ B ^ (p.nlimbs + 1))
    (halign : LB ∣ p.len ∨ 257 * p.toNat ≤ 256 ^ (p.len + 1)) :
    ∃ accepted : Finset (Fin k → ℕ), 4 ^ k * accepted.card ≤ (p.toNat - 1) ^ k ∧
      ∀ {χ : Fmt} (mg_base : Fin k → Buf χ), (∀ i, LenCompat (mg_base i) p.len) → (∀ i, (mg_base i).len ≠ 0) →
        (∀ i, (mg_base i).toNat < p.toNat) → (fun i => (mg_base i).toNat) ∉ accepted →
        ∃ i, Sat (ct_prime_test_miller_rabin_mp (mg_base i) p mg_radix scratch0 scratch1)
          (fun r => r = .ok (.ofBool false)) := by
  obtain ⟨acc, hcard, h⟩ :=
    C44_composite_partial p mg_radix scratch0 scratch1 hp hodd hcomp hrad hrl hrn hs0 hs1 hhigh halign
  refine ⟨Fintype.piFinset fun _ => acc, ?_, ?_⟩
  · rw [Fintype.card_piFinset, Finset.prod_const, Finset.card_univ, Fintype.card_fin, ← mul_pow]
    exact Nat.pow_le_pow_left hcard k
  · intro χ mg_base hbl hbne hlt hnot
    rw [Fintype.mem_piFinset] at hnot
    push Not at hnot
    obtain ⟨i, hi⟩ := hnot
    exact ⟨i, h (mg_base i) (hbl i) (hbne i) (hlt i) hi⟩

/-- C44: the test, run for all bases but zero, decides whether the candidate is prime.  Missing: as for
`C44_composite_partial`. -/
theorem C44_exact_partial (p : Buf φ) (mg_radix : Buf ψ)
    (scratch0 scratch1 : Buf .ne) (hp : 1 < p.toNat) (hodd : p.toNat % 2 = 1)
    (hrad : mg_radix.toNat = radix p % p.toNat)
    (hrl : LenCompat mg_radix p.len) (hrn : p.nlimbs ≤ mg_radix.nlimbs)
    (hs0 : p.nlimbs ≤ scratch0.nlimbs) (hs1 : p.nlimbs ≤ scratch1.nlimbs)
    (hhigh : (B + 1) * p.toNat ≤ B ^ (p.nlimbs + 1))
    (halign : LB ∣ p.len ∨ 257 * p.toNat ≤ 256 ^ (p.len + 1)) :
    p.toNat.Prime ↔
      ∀ mg_base : Buf .be, mg_base.len = p.len → 0 < mg_base.toNat → mg_base.toNat < p.toNat →
        Sat (ct_prime_test_miller_rabin_mp mg_base p mg_radix scratch0 scratch1)
          (fun r => r = .ok (.ofBool true)) := by
  classical
  have hlen0 : p.len ≠ 0 := by
    intro h
    have := p.toNat_lt
    rw [h, pow_zero] at this
    omega
  constructor
  · intro hpr mg_base hlen hpos hlt
    have hco : Nat.Coprime p.toNat (radix p) := coprime_radix (by omega) _
    obtain ⟨ri, -, hri⟩ := Nat.exists_mul_mod_eq_one_of_coprime hco.symm hp
    have hb : mg_base.toNat = mg_base.toNat * ri * radix p % p.toNat := by
      rw [mul_assoc, mul_comm ri, Nat.mul_mod, hri, mul_one, Nat.mod_mod, Nat.mod_eq_of_lt hlt]
    refine C34_prime_partial mg_base p mg_radix scratch0 scratch1 _ hpr (by omega) ?_ hb (Or.inl hlen.le) hrad hrl hrn
      hs0 hs1 hhigh halign
    intro h
    rw [Nat.mod_eq_zero_of_dvd (Dvd.dvd.mul_right h _)] at hb
    omega
  · intro h
    by_contra hcomp
    obtain ⟨acc, hcard, hrej⟩ :=
      C44_composite_partial p mg_radix scratch0 scratch1 hp hodd hcomp hrad hrl hrn hs0 hs1 hhigh halign
    have hex : ∃ v ∈ Finset.Ico 1 p.toNat, v ∉ acc := by
      by_contra hc
      push Not at hc
      have := Finset.card_le_card (show Finset.Ico 1 p.toNat ⊆ acc from hc)
      rw [Nat.card_Ico] at this
      omega
    obtain ⟨v, hv, hva⟩ := hex
    rw [Finset.mem_Ico] at hv
    have hval : (Buf.ofNat .be p.len v).toNat = v := by
      rw [toNat_ofNat_be]
      exact Nat.mod_eq_of_lt (hv.2.trans p.toNat_lt)
    have hlen : (Buf.ofNat .be p.len v).len = p.len := by
      simp [Buf.ofNat, Buf.len]
    obtain ⟨r, hr, hr'⟩ := h (Buf.ofNat .be p.len v) hlen (by omega) (by omega)
    obtain ⟨r2, hr2, hr2'⟩ := hrej (Buf.ofNat .be p.len v) (Or.inl hlen.le) (by omega) (by omega) (by rwa [hval])
    rw [hr, Option.some_inj] at hr2
    rw [← hr2, hr'] at hr2'
    have := congrArg LimbChoice.unwrap (Except.ok.inj hr2')
    simp at this


-- The hypotheses can be met: the Carmichael number 561, with both an accepted and a rejected base.
example : letI := cfg64;
    (ct_prime_test_miller_rabin_mp (Buf.ofNat .be 3 (2 * 2 ^ 64 % 561))
      (Buf.ofNat .be 3 561) (Buf.ofNat .be 3 (2 ^ 64 % 561))
      (Buf.ofNat .ne 8 5) (Buf.ofNat .ne 8 7)).val.map
      (fun r => r.toOption.map LimbChoice.unwrap) = some (some 0) ∧
    (ct_prime_test_miller_rabin_mp (Buf.ofNat .be 3 (50 * 2 ^ 64 % 561))
      (Buf.ofNat .be 3 561) (Buf.ofNat .be 3 (2 ^ 64 % 561))
      (Buf.ofNat .ne 8 5) (Buf.ofNat .ne 8 7)).val.map
      (fun r => r.toOption.map LimbChoice.unwrap) = some (some 1) := by
  decide +kernel

end Props
end Cmpa
