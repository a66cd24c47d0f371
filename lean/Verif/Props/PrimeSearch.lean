import Verif.Props.Prime
import Verif.Props.Wheel
import Verif.Props.Montgomery
import Verif.Props.Add
import Verif.Props.Programs
import Mathlib.Order.Bounds.Basic
import Mathlib.Tactic.NormNum.Prime

/-!
# Searching for primes (C53)

A program calling the library the way its users do when generating keys: candidates are drawn from the wheel, tested
for small factors, then by the test of Miller and Rabin with a number of bases.
-/

namespace Cmpa
namespace Props
open M
variable [LimbCfg] {φ χ : Fmt}

/-! ### The program -/

/-- A user's program: the test of Miller and Rabin for a list of bases.  `radix` is the number one in Montgomery form. -/
def passesBases (p : Buf φ) (radix : Buf χ) (s0 s1 : Buf .ne) : List (Buf χ) → M Bool
  | [] => pure true
  | a :: l => do
    let mg_base ← unwrapE (ct_to_montgomery_form_direct_mp a p)
    let c ← unwrapE (ct_prime_test_miller_rabin_mp mg_base p radix s0 s1)
    if ← M.branch (c.unwrap ≠ 0) then passesBases p radix s0 s1 l else pure false

/-- A user's program: the test for small factors, then `passesBases`.  `one` is a buffer with the number one. -/
def testCandidate (p : Buf φ) (one : Buf χ) (bases : List (Buf χ)) (s0 s1 : Buf .ne) : M Bool := do
  let c ← unwrapE (ct_composite_test_small_prime_gcd_mp p s0 s1)
  if ← M.branch (c.unwrap ≠ 0) then pure false
  else do
    let radix ← unwrapE (ct_to_montgomery_form_direct_mp one p)
    passesBases p radix s0 s1 bases

/-- A user's program: test up to `tries` candidates.  There is none if the end of the buffer is reached, or if the
candidates have been used up. -/
def searchFrom (one : Buf χ) (bases : List (Buf χ)) (s0 s1 : Buf .ne) :
    (tries : ℕ) → WheelLvl1 → Buf φ → M (Option (Buf φ))
  | 0, _, _ => pure none
  | tries + 1, wheel, p => do
    let (wheel, delta) ← wheel.produce_next_delta
    let (p, carry) ← ct_add_mp_l p delta
    if ← M.branch (carry ≠ 0) then pure none
    else do
      let c ← testCandidate p one bases s0 s1
      if ← M.branch (c = true) then pure (some p) else searchFrom one bases s0 s1 tries wheel p

/-- A user's program: search from `lower` on. -/
def searchPrime (lower : Buf φ) (one : Buf χ) (bases : List (Buf χ)) (s0 s1 : Buf .ne) (tries : ℕ) :
    M (Option (Buf φ)) := do
  let wheel ← WheelLvl1.start_geq_than lower
  searchFrom one bases s0 s1 tries wheel lower

/-! ### Specification -/

/-- The numbers from two on which pass, for buffers of `nlimbs` limbs. -/
structure Passes (nlimbs : ℕ) (bases : List ℕ) (m : ℕ) : Prop where
  two_le : 2 ≤ m
  wheel : ∀ q ∈ wheelPrimes, ¬ q ∣ m
  small : ∀ q, q.Prime → q ≤ largestTestedPrime (nlimbs * LB) → ¬ q ∣ m
  strong : ∀ a ∈ bases, StrongProbablePrime m a

/-! ### Proofs -/

/-- Candidates of `len` bytes up to here are in the domain of `C34_miller_rabin_partial`. -/
def MrDomain (len nlimbs m : ℕ) : Prop :=
  (B + 1) * m ≤ B ^ (nlimbs + 1) ∧ (LB ∣ len ∨ 257 * m ≤ 256 ^ (len + 1))

theorem MrDomain.mono {len nlimbs m m' : ℕ} (h : MrDomain len nlimbs m) (hm : m' ≤ m) : MrDomain len nlimbs m' :=
  ⟨(Nat.mul_le_mul_left _ hm).trans h.1, h.2.imp id fun h => (Nat.mul_le_mul_left _ hm).trans h⟩

/-- What is required of the buffers. -/
structure SearchBufs (len nlimbs : ℕ) (one : Buf χ) (bases : List (Buf χ)) (s0 s1 : Buf .ne) : Prop where
  one_len : one.len = len
  one_val : one.toNat = 1
  base_len : ∀ a ∈ bases, a.len = len
  scratch0 : nlimbs ≤ s0.nlimbs
  scratch1 : nlimbs ≤ s1.nlimbs

theorem sat_branchIf {α : Type} {c : Prop} [Decidable c] {t e : M α} {Q : α → Prop} (ht : c → Sat t Q)
    (he : ¬ c → Sat e Q) : Sat (M.branch c >>= fun b => if b = true then t else e) Q := Sat.cond ht he

theorem passesBases_sat {p : Buf φ} {radix' : Buf χ} {s0 s1 : Buf .ne} (hp : 1 < p.toNat) (hodd : p.toNat % 2 = 1)
    (hr : radix'.toNat = radix p % p.toNat) (hrl : radix'.len = p.len) (hs0 : p.nlimbs ≤ s0.nlimbs)
    (hs1 : p.nlimbs ≤ s1.nlimbs) (hd : MrDomain p.len p.nlimbs p.toNat) (bases : List (Buf χ))
    (hb : ∀ a ∈ bases, a.len = p.len) :
    Sat (passesBases p radix' s0 s1 bases)
      (fun c => c = true ↔ ∀ a ∈ bases, StrongProbablePrime p.toNat a.toNat) := by
  induction bases with
  | nil => exact Sat.pure (by simp)
  | cons a l ih =>
    have hal := hb a List.mem_cons_self
    unfold passesBases
    refine (unwrapE_ok (C27_direct a p hodd (.inl hal.ge))).bind ?_
    rintro mg ⟨h1, h2⟩
    have hpl := odd_len_pos hodd
    refine (unwrapE_ok ((C34_miller_rabin_partial mg p radix' s0 s1 a.toNat hp hodd h2 (.inl (by omega)) (by omega)
      hr (.inl hrl.le) (Buf.nlimbs_congr hrl).ge hs0 hs1 hd.1 hd.2).mono ?_)).bind
      (P := fun c => ∃ b : Bool, c = .ofBool b ∧ (b = true ↔ StrongProbablePrime p.toNat a.toNat)) ?_
    · rintro r ⟨c, rfl, hc⟩
      exact ⟨_, rfl, c, rfl, hc⟩
    rintro _ ⟨b, rfl, hb'⟩
    rw [LimbChoice.unwrap_ofBool]
    cases b
    · refine sat_branchIf (fun h => absurd rfl h) fun _ => Sat.pure ?_
      simp only [Bool.false_eq_true, false_iff] at hb' ⊢
      exact fun h => hb' (h a List.mem_cons_self)
    · refine sat_branchIf (fun _ => ?_) fun h => absurd Nat.one_ne_zero h
      refine (ih fun x hx => hb x (List.mem_cons_of_mem _ hx)).mono ?_
      intro c hc
      rw [hc, List.forall_mem_cons]
      exact ⟨fun h => ⟨hb'.1 rfl, h⟩, fun h => h.2⟩

theorem testCandidate_sat {p : Buf φ} {one : Buf χ} {bases : List (Buf χ)} {s0 s1 : Buf .ne} (hp : 2 ≤ p.toNat)
    (hw : ∀ q ∈ wheelPrimes, ¬ q ∣ p.toNat) (hbufs : SearchBufs p.len p.nlimbs one bases s0 s1)
    (hd : MrDomain p.len p.nlimbs p.toNat) :
    Sat (testCandidate p one bases s0 s1)
      (fun c => c = true ↔ Passes p.nlimbs (bases.map Buf.toNat) p.toNat) := by
  have h2 : (2 : ℕ) ∈ wheelPrimes := by unfold wheelPrimes; split <;> decide
  have hodd : p.toNat % 2 = 1 := by
    have := hw 2 h2
    omega
  unfold testCandidate
  refine (unwrapE_ok ((C35_small_factor p s0 s1 hbufs.scratch0 hbufs.scratch1).mono ?_)).bind
    (P := fun c => ∃ b : Bool, c = .ofBool b ∧
      (b = true ↔ ∃ q, q.Prime ∧ q ≤ largestTestedPrime (p.nlimbs * LB) ∧ q ∣ p.toNat)) ?_
  · rintro r ⟨c, rfl, hc⟩
    exact ⟨_, rfl, c, rfl, hc⟩
  rintro _ ⟨b, rfl, hb⟩
  rw [LimbChoice.unwrap_ofBool]
  cases b
  · refine sat_branchIf (fun h => absurd rfl h) fun _ => ?_
    simp only [Bool.false_eq_true, false_iff, not_exists, not_and] at hb
    refine (unwrapE_ok (C27_direct one p hodd (.inl hbufs.one_len.ge))).bind ?_
    rintro r ⟨h3, h4⟩
    rw [hbufs.one_val, one_mul] at h4
    refine (passesBases_sat hp hodd h4 (by rw [h3, hbufs.one_len]) hbufs.scratch0 hbufs.scratch1 hd bases
      hbufs.base_len).mono ?_
    intro c hc
    rw [hc]
    constructor
    · intro h
      exact ⟨hp, hw, hb, by simpa using h⟩
    · intro h
      simpa using h.strong
  · refine sat_branchIf (fun _ => Sat.pure ?_) fun h => absurd Nat.one_ne_zero h
    obtain ⟨q, h3, h4, h5⟩ := hb.1 rfl
    simp only [Bool.false_eq_true, false_iff]
    exact fun h => h.small q h3 h4 h5

theorem cop_one (j : ℕ) : Cop (WheelLvl1.PRIMORIAL * j + 1) := by
  intro q hq hd
  have h1 : q ∣ WheelLvl1.PRIMORIAL := by
    unfold WheelLvl1.PRIMORIAL first_primes_primorial
    rw [← List.prod_eq_foldl]
    exact List.dvd_prod hq
  have h2 : q ∣ 1 := (Nat.dvd_add_right (h1.mul_right j)).1 hd
  have h3 : q ∈ FIRST_PRIMES := List.mem_of_mem_take hq
  rw [Nat.dvd_one.1 h2] at h3
  exact absurd h3 (by decide)

theorem searchFrom_sat {one : Buf χ} {bases : List (Buf χ)} {s0 s1 : Buf .ne} {len nlimbs Q : ℕ}
    (hbufs : SearchBufs len nlimbs one bases s0 s1) (hd : MrDomain len nlimbs Q) (hQ : Q < 256 ^ len)
    (hpass : Passes nlimbs (bases.map Buf.toNat) Q) :
    ∀ (tries : ℕ) {wheel : WheelLvl1} {p : Buf φ} {X k : ℕ}, p.len = len → p.nlimbs = nlimbs → WheelAt wheel X k →
      p.toNat + wheel.last_offset_delta = X → 2 ≤ X → X + k ≤ Q → Q < X + k + tries →
      Sat (searchFrom one bases s0 s1 tries wheel p) (fun r => ∃ b, r = some b ∧ b.len = len ∧
        IsLeast {m | X + k ≤ m ∧ Passes nlimbs (bases.map Buf.toNat) m} b.toNat)
  | 0, _, _, X, k, _, _, _, _, _, hle, ht => by omega
  | tries + 1, wheel, p, X, k, hl, hnl, hw, hpX, h2, hle, ht => by
    unfold searchFrom
    refine Sat.bind (produce_next_delta_sat hw) ?_
    rintro ⟨w', delta⟩ ⟨Y, h3, h4, h5, h6, h7, h8⟩
    dsimp only at h4 h7 h8 ⊢
    have hcQ : Cop Q := by
      intro q hq
      rw [wheelPrimes_eq] at hq
      exact hpass.wheel q hq
    have hYQ : Y ≤ Q := by
      by_contra hc
      exact h6 Q hle (by omega) hcQ
    -- the increment is a limb
    obtain ⟨hP, -, hPB, -, -⟩ := lvl1_facts
    have hdB : delta < B := by
      have h9 : Y ≤ WheelLvl1.PRIMORIAL * ((X + k) / WheelLvl1.PRIMORIAL + 1) + 1 := by
        by_contra hc
        refine h6 _ ?_ (by omega) (cop_one ((X + k) / WheelLvl1.PRIMORIAL + 1))
        have := Nat.lt_mul_div_succ (X + k) (by omega : 0 < WheelLvl1.PRIMORIAL)
        omega
      have h10 := Nat.div_add_mod (X + k) WheelLvl1.PRIMORIAL
      have h11 := hw.k_le
      have h12 := hw.lod
      have h13 := hw.lod0
      have h14 := hw.off
      rw [Nat.mul_add, mul_one] at h9
      rcases Nat.eq_zero_or_pos k with hk | hk
      · subst hk
        rw [Nat.add_zero] at h9 h10
        rw [← h14] at h10
        generalize WheelLvl1.PRIMORIAL * (X / WheelLvl1.PRIMORIAL) = u at h9 h10
        omega
      · have := h13 (by omega)
        have h15 := Nat.mod_lt (X + k) (by omega : 0 < WheelLvl1.PRIMORIAL)
        generalize WheelLvl1.PRIMORIAL * ((X + k) / WheelLvl1.PRIMORIAL) = u at h9 h10
        omega
    have hYp : p.toNat + delta = Y := by omega
    refine (C02_add_l p delta hdB (by rw [hl]; omega)).bind ?_
    rintro ⟨p', carry⟩ ⟨g1, g2, g3⟩
    dsimp only at g1 g2 g3 ⊢
    rw [hYp, hl] at g3
    have hc0 : carry = 0 := by
      by_contra hc
      have : carry = 1 := by omega
      rw [this] at g3
      omega
    subst hc0
    have hp' : p'.toNat = Y := by omega
    have hl' : p'.len = len := by rw [g1, hl]
    have hnl' : p'.nlimbs = nlimbs := by rw [Buf.nlimbs_congr g1, hnl]
    refine sat_branchIf (fun h => absurd rfl h) fun _ => ?_
    have hcY : ∀ q ∈ wheelPrimes, ¬ q ∣ p'.toNat := by
      rw [hp', ← wheelPrimes_eq]
      exact h5
    refine (testCandidate_sat (p := p') (by omega) hcY (by rw [hl', hnl']; exact hbufs)
      (by rw [hl', hnl', hp']; exact hd.mono hYQ)).bind ?_
    intro c hc
    rw [hnl', hp'] at hc
    -- nothing in between passes
    have hbetween : ∀ m, X + k ≤ m → Passes nlimbs (bases.map Buf.toNat) m → Y ≤ m := by
      intro m hm hpm
      by_contra hlt
      refine h6 m hm (by omega) ?_
      intro q hq
      rw [wheelPrimes_eq] at hq
      exact hpm.wheel q hq
    cases c with
    | true =>
      refine sat_branchIf (fun _ => Sat.pure ⟨p', rfl, hl', ?_⟩) fun h => absurd rfl h
      rw [hp']
      exact ⟨⟨h3, hc.1 rfl⟩, fun m hm => hbetween m hm.1 hm.2⟩
    | false =>
      refine sat_branchIf (fun h => absurd h Bool.false_ne_true) fun _ => ?_
      have hYn : ¬ Passes nlimbs (bases.map Buf.toNat) Y := fun h => absurd (hc.2 h) Bool.false_ne_true
      have hYQ' : Y ≠ Q := fun h => hYn (h ▸ hpass)
      refine (searchFrom_sat hbufs hd hQ hpass tries (wheel := w') (p := p') (X := Y) (k := 1) hl' hnl' h7
        (by omega) (by omega) (by omega) (by omega)).mono ?_
      rintro r ⟨b, rfl, i1, i2⟩
      refine ⟨b, rfl, i1, ⟨by have := i2.1.1; omega, i2.1.2⟩, fun m hm => i2.2 ⟨?_, hm.2⟩⟩
      have := hbetween m hm.1 hm.2
      have : m ≠ Y := fun h => hYn (h ▸ hm.2)
      omega

/-! ## C53 -/

/-- C53: if there is any number of the length of the buffer, at or above the lower bound, which passes the tests, then the
search finds one, and it finds the least.

Missing: candidates outside the domain of the test of Miller and Rabin (see C34). -/
theorem C53_search_partial (lower : Buf φ) (one : Buf χ) (bases : List (Buf χ)) (s0 s1 : Buf .ne) (tries Q : ℕ)
    (hbufs : SearchBufs lower.len lower.nlimbs one bases s0 s1) (hlQ : lower.toNat ≤ Q) (hQ : Q < 256 ^ lower.len)
    (hpass : Passes lower.nlimbs (bases.map Buf.toNat) Q) (hd : MrDomain lower.len lower.nlimbs Q)
    (ht : Q < lower.toNat + tries) :
    Sat (searchPrime lower one bases s0 s1 tries) (fun r => ∃ b, r = some b ∧ b.len = lower.len ∧
      IsLeast {m | lower.toNat ≤ m ∧ Passes lower.nlimbs (bases.map Buf.toNat) m} b.toNat) := by
  unfold searchPrime
  refine Sat.bind (start_geq_than_sat lower) ?_
  rintro w ⟨h1, h2⟩
  have h3 := hpass.two_le
  refine (searchFrom_sat hbufs hd hQ hpass tries rfl rfl h1 h2 (le_max_left _ _) (by omega) (by omega)).mono ?_
  rintro r ⟨b, rfl, h4, h5⟩
  refine ⟨b, rfl, h4, ⟨by have := h5.1.1; omega, h5.1.2⟩, fun m hm => h5.2 ⟨?_, hm.2⟩⟩
  have := hm.2.two_le
  have := hm.1
  omega

/-- A prime passes, unless it is one of the small ones, or divides a base. -/
theorem Passes.of_prime {nlimbs Q : ℕ} {bases : List ℕ} (hQ : Q.Prime) (hw : Q ∉ wheelPrimes)
    (hs : largestTestedPrime (nlimbs * LB) < Q) (hb : ∀ a ∈ bases, ¬ Q ∣ a) : Passes nlimbs bases Q := by
  have h2 : (2 : ℕ) ∈ wheelPrimes := by unfold wheelPrimes; split <;> decide
  have h1 : (1 : ℕ) ∉ wheelPrimes := by unfold wheelPrimes; split <;> decide
  refine ⟨hQ.two_le, fun q hq hd => ?_, fun q hq hle hd => ?_, fun a ha => ?_⟩
  · rcases (Nat.dvd_prime hQ).1 hd with rfl | rfl
    · exact h1 hq
    · exact hw hq
  · rw [(Nat.prime_dvd_prime_iff_eq hq hQ).1 hd] at hle
    omega
  · exact strongProbablePrime_of_prime hQ
      (hQ.eq_two_or_odd.resolve_left fun h => hw (by rw [h]; exact h2)) (hb a ha)

/-- C53: no prime is skipped: the number found is at most as large as any prime at or above the lower bound.

Missing: as for `C53_search_partial`. -/
theorem C53_no_prime_skipped_partial (lower : Buf φ) (one : Buf χ) (bases : List (Buf χ)) (s0 s1 : Buf .ne)
    (tries Q : ℕ) (hbufs : SearchBufs lower.len lower.nlimbs one bases s0 s1) (hlQ : lower.toNat ≤ Q)
    (hQ : Q < 256 ^ lower.len) (hprime : Q.Prime) (hw : Q ∉ wheelPrimes)
    (hs : largestTestedPrime (lower.nlimbs * LB) < Q) (hb : ∀ a ∈ bases, ¬ Q ∣ a.toNat)
    (hd : MrDomain lower.len lower.nlimbs Q) (ht : Q < lower.toNat + tries) :
    Sat (searchPrime lower one bases s0 s1 tries) (fun r => ∃ b, r = some b ∧ lower.toNat ≤ b.toNat ∧
      b.toNat ≤ Q ∧ (∀ q, q.Prime → q ≤ largestTestedPrime (lower.nlimbs * LB) → ¬ q ∣ b.toNat) ∧
      ∀ a ∈ bases, StrongProbablePrime b.toNat a.toNat) := by
  have hpass : Passes lower.nlimbs (bases.map Buf.toNat) Q := Passes.of_prime hprime hw hs (by simpa using hb)
  refine (C53_search_partial lower one bases s0 s1 tries Q hbufs hlQ hQ hpass hd ht).mono ?_
  rintro r ⟨b, rfl, -, h1⟩
  exact ⟨b, rfl, h1.1.1, h1.2 ⟨hlQ, hpass⟩, h1.1.2.small, by simpa using h1.1.2.strong⟩

omit [LimbCfg] in
/-- From 898 on, the first candidate is 899 = 29 * 31, the second is the prime 907. -/
example : letI := cfg32;
    (searchPrime (Buf.ofNat .be 4 898) (Buf.ofNat .le 4 1) [Buf.ofNat .le 4 2, Buf.ofNat .le 4 3] (Buf.ofNat .ne 4 5)
      (Buf.ofNat .ne 4 7) 2).val.map (Option.map Buf.toNat) = some (some 907) := by decide +kernel

omit [LimbCfg] in
example : letI := cfg32;
    SearchBufs 4 1 (Buf.ofNat .le 4 1) [Buf.ofNat .le 4 2, Buf.ofNat .le 4 3] (Buf.ofNat .ne 4 5) (Buf.ofNat .ne 4 7) ∧
    MrDomain 4 1 907 ∧ Nat.Prime 907 ∧ 907 ∉ wheelPrimes ∧ largestTestedPrime (1 * LB) < 907 ∧ ¬ 907 ∣ 2 ∧ ¬ 907 ∣ 3 :=
  letI := cfg32
  ⟨⟨by decide +kernel, by decide +kernel, by decide +kernel, by decide +kernel, by decide +kernel⟩,
    ⟨by decide +kernel, .inl (by decide +kernel)⟩, by norm_num, by decide +kernel, by decide +kernel, by norm_num,
    by norm_num⟩

omit [LimbCfg] in
/-- C53 doesn't hold for all primes: with 32 bit limbs, a search from the prime `2 ^ 64 - 83` on does not find it, for a
base below it (finding M4). -/
theorem C53_prime_skipped_fails : ∃ (c : LimbCfg) (lower : @Buf c .be) (one a : @Buf c .le) (s0 s1 : @Buf c .ne),
    (@Buf.toNat c .be lower).Prime ∧ @SearchBufs c .le 8 2 one [a] s0 s1 ∧ @Buf.len c .be lower = 8 ∧
    0 < @Buf.toNat c .le a ∧ @Buf.toNat c .le a < @Buf.toNat c .be lower ∧
    (@searchPrime c .be .le lower one [a] s0 s1 1).val.map (fun r => r.isNone) = some true :=
  ⟨cfg32, @Buf.ofNat cfg32 .be 8 18446744073709551533, @Buf.ofNat cfg32 .le 8 1,
    @Buf.ofNat cfg32 .le 8 (18446744073709551532 * 11779246215742243750 % 18446744073709551533),
    @Buf.ofNat cfg32 .ne 8 5, @Buf.ofNat cfg32 .ne 8 7, by
      rw [show @Buf.toNat cfg32 .be (@Buf.ofNat cfg32 .be 8 18446744073709551533)
        = 18446744073709551533 by decide +kernel]
      exact prime_64,
    @SearchBufs.mk cfg32 .le 8 2 _ _ _ _ (by decide +kernel) (by decide +kernel) (by decide +kernel) (by decide +kernel)
      (by decide +kernel),
    by decide +kernel, by decide +kernel, by decide +kernel, by decide +kernel⟩

end Props
end Cmpa
