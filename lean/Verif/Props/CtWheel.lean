import Verif.Proofs.CtWheelRun
import Verif.Props.CtTrace
import Verif.Props.Wheel

/-!
# Execution traces of the prime candidate wheel (C37)

The wheel steps through the numbers not divisible by 2, 3 or 5, and branches on whether one is divisible by another of
its primes.  The branches reveal how many numbers are passed over before each candidate, and nothing
else is revealed, other than positions in the table of offsets.
-/

namespace Cmpa
namespace Props
open M
variable [LimbCfg] {f : Fmt}

/-- How many of the numbers from `x` on, and below `z`, are not divisible by 2, 3 or 5. -/
def passedOver (x z : ℕ) : ℕ :=
  ((List.range' x (z - x)).filter fun m => m % 2 ≠ 0 ∧ m % 3 ≠ 0 ∧ m % 5 ≠ 0).length

/-- How many of these numbers come before each of the candidates of a list. -/
def passedOverEach : ℕ → List ℕ → List ℕ
  | _, [] => []
  | x, z :: l => passedOver x z :: passedOverEach (z + 1) l

theorem gap_passedOver (d : ℕ) : ∀ x, Cop (x + d) → (∀ m, x ≤ m → m < x + d → ¬ Cop m) →
    Gap x (passedOver x (x + d)) := by
  induction d with
  | zero =>
    intro x h _
    have : passedOver x (x + 0) = 0 := by simp [passedOver]
    rw [this]; exact .hit h
  | succ d ih =>
    intro x h hs
    have hn := ih (x + 1) (by rwa [show x + 1 + d = x + (d + 1) by omega]) fun m h1 h2 => hs m (by omega) (by omega)
    have hx : ¬ Cop x := hs x le_rfl (by omega)
    have e : passedOver x (x + (d + 1)) =
        (if x % 2 ≠ 0 ∧ x % 3 ≠ 0 ∧ x % 5 ≠ 0 then 1 else 0) + passedOver (x + 1) (x + 1 + d) := by
      unfold passedOver
      rw [Nat.add_sub_cancel_left, Nat.add_sub_cancel_left, List.range'_succ, List.filter_cons]
      split <;> split <;> simp_all <;> omega
    rw [e]
    by_cases h3 : x % 2 ≠ 0 ∧ x % 3 ≠ 0 ∧ x % 5 ≠ 0
    · rw [if_pos h3, Nat.add_comm]; exact .rej h3 hx hn
    · rw [if_neg h3, Nat.zero_add]; exact .skip h3 hn

theorem candidates_gaps : ∀ (n : ℕ) {s : WheelLvl1} {X k c : ℕ} {l : List ℕ}, WheelAt s X k →
    c + s.last_offset_delta = X → (s.candidates c n).val = some l →
    Gaps (X + k) l (passedOverEach (X + k) l) ∧ (passedOverEach (X + k) l).length = n := by
  intro n
  induction n with
  | zero =>
    intro s X k c l _ _ hl
    obtain rfl : [] = l := Option.some.inj hl
    exact ⟨.nil, rfl⟩
  | succ n ih =>
    intro s X k c l h hc hl
    rw [WheelLvl1.candidates, bind_val] at hl
    obtain ⟨⟨t, d⟩, h1, h2⟩ := Option.bind_eq_some_iff.1 hl
    obtain ⟨Y, i1, i2, i3, i4, i5, i6⟩ := (produce_next_delta_sat h).post _ h1
    dsimp only at i2 i5 i6 h2
    rw [bind_val] at h2
    obtain ⟨a, h3, h4⟩ := Option.bind_eq_some_iff.1 h2
    obtain rfl : (c + d) :: a = l := Option.some.inj h4
    have hY : c + d = Y := by omega
    rw [hY] at h3 ⊢
    obtain ⟨g1, g2⟩ := ih i5 (by omega) h3
    refine ⟨.cons ?_ g1, by rw [passedOverEach, List.length_cons, g2]⟩
    have := gap_passedOver (Y - (X + k)) (X + k) (by rwa [Nat.add_sub_cancel' i1])
      fun m h1 h2 => i4 m h1 (by omega)
    rwa [Nat.add_sub_cancel' i1] at this

/-- C37: two histories of the wheel, started with secret lower bounds of equal lengths, have the same shape if
they pass over equal numbers of numbers before each candidate. -/
theorem C37_wheel_partial {a a' : Buf f} (ha : a.len = a'.len) (n : ℕ) {l l' : List ℕ}
    (hl : (wheelRun a n).val = some l) (hl' : (wheelRun a' n).val = some l')
    (hg : passedOverEach (max 2 a.toNat) l = passedOverEach (max 2 a'.toNat) l') :
    (wheelRun a n).tr.map shape = (wheelRun a' n).tr.map shape := by
  letI := Obs.noPos
  rw [← seen_noPos, ← seen_noPos]
  have key : SameTr (wheelRun a n) (wheelRun a' n) (fun _ _ => True) := by
    unfold wheelRun at hl hl' ⊢
    refine SameTr.bind (R := fun s s' => (WheelLvl1.start_geq_than a).val = some s ∧
      (WheelLvl1.start_geq_than a').val = some s') ?_ ?_
    · intro s s' h1 h2
      exact ⟨(WheelLvl1.start_geq_than_ct rfl ha s s' h1 h2).1, h1, h2⟩
    rintro s s' ⟨h1, h2⟩
    rw [bind_val, h1] at hl
    rw [bind_val, h2] at hl'
    simp only [Option.bind_some] at hl hl'
    obtain ⟨i1, i2⟩ := (start_geq_than_sat a).post _ h1
    obtain ⟨i1', i2'⟩ := (start_geq_than_sat a').post _ h2
    obtain ⟨g1, g2⟩ := candidates_gaps n i1 i2 hl
    obtain ⟨g1', g2'⟩ := candidates_gaps n i1' i2' hl'
    rw [Nat.add_zero] at g1 g1' g2 g2'
    rw [← hg] at g1'
    intro u v _ _
    refine ⟨?_, trivial⟩
    rw [← g2] at hl hl' ⊢
    exact candidates_ct rfl _ i1 i1' i2 i2' g1 g1' hl hl'
  exact (key _ _ hl hl').1

omit [LimbCfg] in
/-- C37, contradicting witness: before the first candidate from 114 on, 127, two numbers are passed over (119 and 121), but none before the first candidate from 100 on.  The branches reveal this. -/
theorem C37_wheel_fails : letI := cfg64
    ¬ SameShape (wheelRun (Buf.ofNat .be 11 100) 1) (wheelRun (Buf.ofNat .be 11 114) 1) := by
  intro h
  exact absurd (h (by decide +kernel) (by decide +kernel)) (by decide +kernel)

example : letI := cfg64
    ((wheelRun (Buf.ofNat .be 11 100) 1).val, (wheelRun (Buf.ofNat .be 11 114) 1).val) = (some [101], some [127]) ∧
      (passedOverEach 100 [101], passedOverEach 114 [127]) = ([0], [2]) := by decide +kernel

-- Two bounds a turn of the wheel apart, and two bounds with other gaps between the candidates.
example : letI := cfg32
    ∃ l l', (wheelRun (Buf.ofNat .be 5 100) 4).val = some l ∧ (wheelRun (Buf.ofNat .be 5 223092970) 4).val = some l' ∧
      passedOverEach 100 l = passedOverEach 223092970 l' :=
  ⟨[101, 103, 107, 109], [223092971, 223092973, 223092977, 223092979], by decide +kernel, by decide +kernel, by decide +kernel⟩

end Props
end Cmpa
