import Verif.Props.SearchEnds
import Verif.Props.WheelGap
import Verif.Props.Cost

/-!
# The work of a search for primes (C70)

The work of the program of C53, from the bounds for the functions of the crate it calls.
-/

namespace Cmpa.Props
open M
variable [LimbCfg] {φ χ : Fmt}

/-- Steps for a transformation to Montgomery form, for buffers of `u` limbs. -/
def formSteps (u : ℕ) : ℕ := (2 * u + 1) * (18 * u + 52) + 20 * u + 50

/-- Steps for a test of Miller and Rabin, for buffers of `u` limbs. -/
def mrSteps (u : ℕ) : ℕ := W * u * (128 * u ^ 2 + 140 * u + 101) + 30 * u + 70

/-- Steps for a test for small factors, for buffers of `u` limbs. -/
def gcdSteps (u : ℕ) : ℕ := (4 * u + 1) * (W + 6 * u + 7) + 20 * u + 60

/-- Steps for a candidate, for buffers of `u` limbs and `k` bases. -/
def candidateSteps (u k : ℕ) : ℕ := gcdSteps u + 1 + formSteps u + k * (formSteps u + mrSteps u + 1)

theorem unwrapE_steps {α ε : Type} {m : M (Except ε α)} {n : ℕ} (hm : m.steps ≤ n) : (unwrapE m).steps ≤ n := by
  unfold unwrapE
  refine steps_bind (k := 0) hm fun a _ => ?_
  cases a <;> exact Nat.le_refl 0

omit [LimbCfg] in
theorem unwrapE_val {α ε : Type} {m : M (Except ε α)} {a : α} (h : (unwrapE m).val = some a) :
    m.val = some (.ok a) := by
  unfold unwrapE at h
  rw [M.bind_val] at h
  cases hm : m.val with
  | none => rw [hm] at h; cases h
  | some r =>
    rw [hm] at h
    cases r with
    | error e => cases h
    | ok b => cases h; rfl

theorem branch_steps {c : Prop} [Decidable c] : (M.branch c).steps ≤ 1 := by
  unfold M.branch
  exact Nat.le_refl 1

theorem form_steps {t : Buf χ} {p : Buf φ} {u : ℕ} (ht : t.nlimbs ≤ u) (hp : p.nlimbs ≤ u) :
    (unwrapE (ct_to_montgomery_form_direct_mp t p)).steps ≤ formSteps u ∧
      ∀ r, (unwrapE (ct_to_montgomery_form_direct_mp t p)).val = some r → r.nlimbs ≤ u := by
  have h := ct_to_montgomery_form_direct_mp_cost ht hp
  refine ⟨unwrapE_steps (h.1.trans (le_of_eq ?_)), fun r hr => h.2 _ (unwrapE_val hr) r rfl⟩
  unfold formSteps
  ring

theorem passesBases_steps {p : Buf φ} {radix : Buf χ} {s0 s1 : Buf .ne} {u : ℕ} (hp : p.nlimbs ≤ u)
    (h0 : s0.nlimbs ≤ u) (h1 : s1.nlimbs ≤ u) :
    ∀ bases : List (Buf χ), (∀ a ∈ bases, a.nlimbs ≤ u) →
      (passesBases p radix s0 s1 bases).steps ≤ bases.length * (formSteps u + mrSteps u + 1)
  | [], _ => Nat.zero_le _
  | a :: l, hb => by
    unfold passesBases
    rw [List.length_cons, Nat.succ_mul, Nat.add_comm, Nat.add_assoc, Nat.add_assoc]
    obtain ⟨h2, h3⟩ := form_steps (hb a List.mem_cons_self) hp
    refine steps_bind h2 fun mg hmg => ?_
    refine steps_bind (unwrapE_steps ((ct_prime_test_miller_rabin_mp_cost (h3 mg hmg) hp h0 h1).1.trans ?_)) fun c _ => ?_
    · unfold mrSteps
      have h4 : 8 * p.len ≤ W * u := by
        have h5 : p.len ≤ p.nlimbs * LB := by rw [Buf.nlimbs]; exact le_nlimbs_mul _
        have h6 := h5.trans (Nat.mul_le_mul_right LB hp)
        rw [W_eq, Nat.mul_assoc, Nat.mul_comm LB]
        omega
      have h5 := Nat.mul_le_mul_right (128 * u ^ 2 + 140 * u + 101) h4
      omega
    · refine steps_bind branch_steps fun b _ => ?_
      split
      · exact passesBases_steps hp h0 h1 l fun x hx => hb x (List.mem_cons_of_mem _ hx)
      · exact Nat.zero_le _

theorem testCandidate_steps {p : Buf φ} {one : Buf χ} {bases : List (Buf χ)} {s0 s1 : Buf .ne} {u : ℕ}
    (hp : p.nlimbs ≤ u) (h1 : one.nlimbs ≤ u) (hb : ∀ a ∈ bases, a.nlimbs ≤ u) (hs0 : s0.nlimbs ≤ u)
    (hs1 : s1.nlimbs ≤ u) : (testCandidate p one bases s0 s1).steps ≤ candidateSteps u bases.length := by
  unfold testCandidate candidateSteps
  rw [Nat.add_assoc, Nat.add_assoc]
  refine steps_bind (unwrapE_steps (ct_composite_test_small_prime_gcd_mp_cost hs0 hs1).1) fun c _ => ?_
  refine steps_bind branch_steps fun b _ => ?_
  split
  · exact Nat.zero_le _
  · exact steps_bind (form_steps h1 hp).1 fun r _ => passesBases_steps hp hs0 hs1 bases hb

theorem searchFrom_steps {one : Buf χ} {bases : List (Buf χ)} {s0 s1 : Buf .ne} {u : ℕ} (h1 : one.nlimbs ≤ u)
    (hb : ∀ a ∈ bases, a.nlimbs ≤ u) (hs0 : s0.nlimbs ≤ u) (hs1 : s1.nlimbs ≤ u) :
    ∀ (tries : ℕ) {wheel : WheelLvl1} {p : Buf φ} {X k : ℕ}, p.nlimbs ≤ u → WheelAt wheel X k →
      (searchFrom one bases s0 s1 tries wheel p).steps ≤ tries * (candidateSteps u bases.length + 3 * u + 2060)
  | 0, _, _, _, _, _, _ => Nat.zero_le _
  | tries + 1, wheel, p, X, k, hp, hw => by
    unfold searchFrom
    have key : ∀ A T, (2055 + ((3 * u + 3) + (1 + (A + (1 + T))))) ≤ T + (A + 3 * u + 2060) := by
      intro A T; omega
    rw [Nat.succ_mul]
    refine le_trans (steps_bind (produce_next_delta_steps hw) ?_) (key _ _)
    rintro ⟨w', delta⟩ hd
    obtain ⟨Y, -, -, -, -, h7, -⟩ := (produce_next_delta_sat hw).post _ hd
    have hadd := ct_add_mp_l_cost (a := p) (l := delta) hp
    refine steps_bind hadd.1 ?_
    rintro ⟨p', carry⟩ hpc
    have hp' : p'.nlimbs ≤ u := (hadd.2 _ hpc).1
    dsimp only
    refine steps_bind branch_steps fun b _ => ?_
    split
    · exact Nat.zero_le _
    · refine steps_bind (testCandidate_steps hp' h1 hb hs0 hs1) fun c _ => ?_
      refine steps_bind branch_steps fun b _ => ?_
      split
      · exact Nat.zero_le _
      · exact searchFrom_steps h1 hb hs0 hs1 tries hp' h7

/-- C70: a search takes at most a cubic number of steps for each candidate and base, and a quadratic number
for each candidate. -/
theorem C70_search (lower : Buf φ) (one : Buf χ) (bases : List (Buf χ)) (s0 s1 : Buf .ne) (tries u : ℕ)
    (hl : lower.nlimbs ≤ u) (h1 : one.nlimbs ≤ u) (hb : ∀ a ∈ bases, a.nlimbs ≤ u) (hs0 : s0.nlimbs ≤ u)
    (hs1 : s1.nlimbs ≤ u) :
    (searchPrime lower one bases s0 s1 tries).steps ≤
      5 * u + 31 + tries * (candidateSteps u bases.length + 3 * u + 2060) := by
  unfold searchPrime
  refine steps_bind ((WheelLvl1.start_geq_than_steps lower).trans (by omega)) fun w hw => ?_
  obtain ⟨h2, -⟩ := (start_geq_than_sat lower).post w hw
  exact searchFrom_steps h1 hb hs0 hs1 tries hl h2

omit [LimbCfg] in
/-- The conditions are met by buffers of one limb, and steps are counted. -/
example : letI := cfg32;
    (Buf.ofNat .be 4 898).nlimbs ≤ 1 ∧
    0 < (searchPrime (Buf.ofNat .be 4 898) (Buf.ofNat .le 4 1) [Buf.ofNat .le 4 2] (Buf.ofNat .ne 4 5)
      (Buf.ofNat .ne 4 7) 1).steps := by decide +kernel

end Cmpa.Props
