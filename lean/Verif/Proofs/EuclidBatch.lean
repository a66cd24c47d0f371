import Verif.Model.Euclid
import Verif.Proofs.Divstep
import Verif.Proofs.Shift
import Verif.Proofs.AddMod

/-!
# Batches of division steps
-/

set_option linter.unusedSectionVars false

namespace Cmpa
variable [LimbCfg]

open M

/-! ### Two's complement limbs -/

/-- The limb `x` is the two's complement representation of `T`, up to multiples of `B`. -/
def LimbOf (x : ℕ) (T : ℤ) : Prop := (x : ℤ) = T % B

namespace LimbOf
variable {x y : ℕ} {S T : ℤ}

theorem lt (h : LimbOf x T) : x < B := by
  have h1 := Int.emod_lt_of_pos T (show (0 : ℤ) < B by exact_mod_cast B_pos)
  unfold LimbOf at h; omega

theorem modEq (h : LimbOf x T) : (x : ℤ) ≡ T [ZMOD B] := by
  unfold LimbOf at h; rw [h]; exact Int.mod_modEq _ _

theorem of_modEq (hx : x < B) (h : (x : ℤ) ≡ T [ZMOD B]) : LimbOf x T := by
  unfold LimbOf
  have h2 : (x : ℤ) % B = T % B := h
  rw [← h2, Int.emod_eq_of_lt (by positivity) (by exact_mod_cast hx)]

theorem add (hx : LimbOf x S) (hy : LimbOf y T) : LimbOf (wadd x y) (S + T) :=
  of_modEq wadd_lt (wadd_modEq.trans (hx.modEq.add hy.modEq))

theorem shl (hx : LimbOf x T) {s : ℕ} : LimbOf (shl x s) (T * 2 ^ s) :=
  of_modEq shl_lt (shl_modEq.trans (hx.modEq.mul_right _))

theorem neg (hx : LimbOf x T) : LimbOf (wadd (x ^^^ lmax) 1) (-T) := by
  refine of_modEq wadd_lt (wadd_modEq.trans ?_)
  rw [xor_lmax hx.lt]
  have hx' := hx.lt
  have e : ((B - 1 - x : ℕ) : ℤ) + (1 : ℕ) = B + -x := by push_cast [show x ≤ B - 1 by omega, show 1 ≤ B by omega]; ring
  rw [e]
  exact (Int.add_modEq_left).trans hx.modEq.neg

theorem zero : LimbOf 0 0 := by simp [LimbOf]

theorem one : LimbOf 1 1 := by
  refine of_modEq one_lt_B ?_
  norm_cast

end LimbOf

/-- A selected combination of a row, as it is computed in `push_transition` and
`batch_divsteps`. -/
theorem select_neg {c d : Bool} {x : ℕ} {T : ℤ} (hx : LimbOf x T) :
    LimbOf (wadd (x ^^^ (LimbChoice.ofBool c).select 0 lmax) (LimbChoice.ofBool c).unwrap &&&
      (LimbChoice.ofBool c).select ((LimbChoice.ofBool d).select 0 lmax) lmax)
      (if c then -T else if d then T else 0) := by
  have hl := lmax_lt
  have h0 := B_pos
  rw [LimbChoice.select_ofBool h0 hl, LimbChoice.select_ofBool h0 hl, LimbChoice.unwrap_ofBool]
  cases c
  · rw [LimbChoice.select_ofBool (by split <;> assumption) hl]
    simp only [Bool.false_eq_true, if_false]
    rw [Nat.xor_zero, show wadd x 0 = x by unfold wadd; rw [Nat.add_zero, Nat.mod_eq_of_lt hx.lt]]
    cases d
    · simp only [Bool.false_eq_true, if_false, Nat.and_zero]; exact LimbOf.zero
    · simp only [if_true]; rw [and_lmax hx.lt]; exact hx
  · rw [LimbChoice.select_ofBool (by split <;> assumption) hl]
    simp only [if_true]
    rw [and_lmax wadd_lt]; exact hx.neg

/-! ### Pushing a step -/

/-- The matrix `m` accumulates `i` division steps from `(f, g)` to `(f', g')`; `a b c d` are
the signed values of its entries. -/
structure IsMat (m : TransitionMatrix) (a b c d f g f' g' : ℤ) (i : ℕ) : Prop where
  ha : LimbOf m.row0.1 a
  hb : LimbOf m.row0.2 b
  hc : LimbOf m.row1.1 c
  hd : LimbOf m.row1.2 d
  s1 : m.s1 = i
  s0 : m.s0 ≤ i
  ef : a * f + b * g = 2 ^ m.s0 * f'
  eg : c * f + d * g = 2 ^ i * g'
  bf : |a| + |b| ≤ 2 ^ m.s0
  bg : |c| + |d| ≤ 2 ^ i

theorem IsMat.identity (f g : ℤ) : IsMat .identity 1 0 0 1 f g f g 0 where
  ha := LimbOf.one
  hb := LimbOf.zero
  hc := LimbOf.zero
  hd := LimbOf.one
  s1 := rfl
  s0 := le_rfl
  ef := by simp [TransitionMatrix.identity]
  eg := by simp
  bf := by simp [TransitionMatrix.identity]
  bg := by simp

theorem push_entry_eq {c d : Bool} {x y k : ℕ} {S T : ℤ} (hx : LimbOf x S) (hy : LimbOf y T)
    (hk : k < W) :
    ∃ z, TransitionMatrix.push_entry (.ofBool c) ((LimbChoice.ofBool c).select 0 lmax)
      ((LimbChoice.ofBool c).select ((LimbChoice.ofBool d).select 0 lmax) lmax) k x y = pure z ∧
      LimbOf z (T + (if c then -S else if d then S else 0) * 2 ^ k) := by
  unfold TransitionMatrix.push_entry
  dsimp only
  rw [shlC_eq hk, M.pure_bind]
  exact ⟨_, rfl, hy.add (select_neg hx).shl⟩

theorem W_lt_B : W < B := Nat.lt_two_pow_self

/-- One more step. -/
theorem push_transition_sat {m : TransitionMatrix} {a b c d f g f' g' : ℤ} {i : ℕ}
    (h : IsMat m a b c d f g f' g' i) (hi : i + 2 < W) {c0 g0 : Bool} {f'' g'' : ℤ}
    (hcase : if c0 then f'' = g' ∧ 2 * g'' = g' - f'
      else f'' = f' ∧ 2 * g'' = g' + (if g0 then f' else 0)) :
    Sat (m.push_transition (.ofBool c0) (.ofBool g0)) (fun m' =>
      m'.s0 = (if c0 then i else m.s0) ∧
      IsMat m' (if c0 then c else a) (if c0 then d else b)
        (c + (if c0 then -a else if g0 then a else 0) * 2 ^ (i - m.s0))
        (d + (if c0 then -b else if g0 then b else 0) * 2 ^ (i - m.s0)) f g f'' g'' (i + 1)) := by
  unfold TransitionMatrix.push_transition
  dsimp only
  have hWB := W_lt_B
  have hs1 := h.s1
  have hs0 := h.s0
  rw [M.sub_eq (by omega), M.pure_bind]
  obtain ⟨x, ex, hx⟩ := push_entry_eq (c := c0) (d := g0) h.ha h.hc (k := m.s1 - m.s0) (by omega)
  obtain ⟨y, ey, hy⟩ := push_entry_eq (c := c0) (d := g0) h.hb h.hd (k := m.s1 - m.s0) (by omega)
  rw [ex, M.pure_bind, ey, M.pure_bind, M.addL_eq (by omega), M.pure_bind]
  have hp : (2 : ℤ) ^ m.s0 * 2 ^ (m.s1 - m.s0) = 2 ^ i := by
    rw [← pow_add, ← hs1]; congr 1; omega
  have hk0 : (0 : ℤ) ≤ 2 ^ (m.s1 - m.s0) := by positivity
  have hbf := mul_le_mul_of_nonneg_right h.bf hk0
  rw [hp] at hbf
  have ef := h.ef
  have eg := h.eg
  have bg := h.bg
  refine Sat.pure ?_
  rw [show i - m.s0 = m.s1 - m.s0 by rw [hs1]]
  generalize hK : (2 : ℤ) ^ (m.s1 - m.s0) = K at *
  have habs : ∀ z : ℤ, |z * K| = |z| * K := fun z => by rw [abs_mul, abs_of_nonneg hk0]
  have e2 : (2 : ℤ) ^ (i + 1) = 2 * 2 ^ i := by ring
  cases c0
  · simp only [Bool.false_eq_true, if_false] at hcase hx hy ⊢
    obtain ⟨rfl, hg⟩ := hcase
    have hsel : ∀ u v : ℕ, u < B → v < B → (LimbChoice.ofBool false).select u v = u := by
      intro u v hu hv; rw [LimbChoice.select_ofBool hu hv]; rfl
    rw [hsel _ _ h.ha.lt h.hc.lt, hsel _ _ h.hb.lt h.hd.lt, hsel _ _ (by omega) (by omega)]
    refine ⟨rfl, h.ha, h.hb, hx, hy, by dsimp only; omega, by dsimp only; omega, ef, ?_,
      h.bf, ?_⟩
    · cases g0
      · simp only [Bool.false_eq_true, if_false] at hg ⊢
        rw [e2]; linear_combination eg - 2 ^ i * hg
      · simp only [if_true] at hg ⊢
        rw [e2]; linear_combination eg - 2 ^ i * hg + K * ef + f'' * hp
    · cases g0
      · simp only [Bool.false_eq_true, if_false, zero_mul, add_zero]
        have : (0 : ℤ) ≤ 2 ^ i := by positivity
        linarith
      · simp only [if_true]
        have h1 := abs_add_le c (a * K)
        have h2 := abs_add_le d (b * K)
        rw [habs] at h1 h2
        linarith
  · simp only [if_true] at hcase hx hy ⊢
    obtain ⟨rfl, hg⟩ := hcase
    have hsel : ∀ u v : ℕ, u < B → v < B → (LimbChoice.ofBool true).select u v = v := by
      intro u v hu hv; rw [LimbChoice.select_ofBool hu hv]; rfl
    rw [hsel _ _ h.ha.lt h.hc.lt, hsel _ _ h.hb.lt h.hd.lt, hsel _ _ (by omega) (by omega)]
    refine ⟨hs1, h.hc, h.hd, hx, hy, by dsimp only; omega, by dsimp only; omega, ?_, ?_,
      ?_, ?_⟩
    · dsimp only; rw [hs1]; exact eg
    · rw [e2]; linear_combination eg - 2 ^ i * hg - K * ef - f' * hp
    · dsimp only; rw [hs1]; exact bg
    · have h1 := abs_add_le c (-a * K)
      have h2 := abs_add_le d (-b * K)
      rw [habs, abs_neg] at h1 h2
      linarith

/-! ### The low limbs -/

/-- The low `W - i` bits of `x` are those of `X`. -/
def LowBits (i : ℕ) (x : ℕ) (X : ℤ) : Prop := x < B ∧ (2 : ℤ) ^ (W - i) ∣ x - X

theorem LowBits.of_limbOf {x : ℕ} {X : ℤ} (h : LimbOf x X) : LowBits 0 x X :=
  ⟨h.lt, by
    have h1 : (B : ℤ) ∣ X - x := h.modEq.dvd
    rw [B_eq_two_pow] at h1; push_cast at h1
    rw [Nat.sub_zero, ← dvd_neg, neg_sub]; exact h1⟩

theorem LowBits.le {i j x : ℕ} {X : ℤ} (h : LowBits i x X) (hij : i ≤ j) : LowBits j x X :=
  ⟨h.1, (pow_dvd_pow _ (by omega)).trans h.2⟩

theorem LowBits.parity {i x : ℕ} {X : ℤ} (h : LowBits i x X) (hi : i < W) :
    ((x % 2 : ℕ) : ℤ) = X % 2 := by
  have h1 : (2 : ℤ) ∣ x - X := (dvd_pow_self 2 (by omega)).trans h.2
  omega

theorem LowBits.of_sub {i x y : ℕ} {X : ℤ} (h : LowBits i y X) (hx : x < B)
    (hxy : (2 : ℤ) ^ (W - i) ∣ x - y) : LowBits i x X :=
  ⟨hx, by have := dvd_add hxy h.2; rwa [show ((x : ℤ) - y + (y - X)) = x - X by ring] at this⟩

theorem pow_dvd_B (i : ℕ) : (2 : ℤ) ^ (W - i) ∣ (B : ℤ) := by
  rw [B_eq_two_pow]; push_cast; exact pow_dvd_pow _ (by omega)

theorem LimbOf.lowBits {x : ℕ} {X Y : ℤ} (i : ℕ) (h : LimbOf x X) (hd : (2 : ℤ) ^ (W - i) ∣ X - Y) :
    LowBits i x Y :=
  ⟨h.lt, by
    have h1 := (pow_dvd_B i).trans h.modEq.dvd
    have h2 := dvd_sub hd h1
    rwa [show X - Y - (X - x) = x - Y by ring] at h2⟩

/-- Halving. -/
theorem LowBits.half {i x : ℕ} {X : ℤ} (h : LowBits i x (2 * X)) (hi : i + 1 < W) :
    Sat (ct_arithmetic_rshift_l x 1) (fun r => LowBits (i + 1) r X) := by
  obtain ⟨r, hr, hrB, hsp⟩ := ct_arithmetic_rshift_l_spec h.1 (s := 1) (by omega)
  rw [hr]
  refine Sat.pure ⟨hrB, ?_⟩
  have hp := h.parity (by omega)
  have hev : x = 2 * (x / 2) := by omega
  have h2 := h.2
  rw [show W - i = W - (i + 1) + 1 by omega, pow_succ'] at h2
  have h3 : (2 : ℤ) * 2 ^ (W - (i + 1)) ∣ 2 * (((x / 2 : ℕ) : ℤ) - X) := by
    rw [show (2 : ℤ) * (((x / 2 : ℕ) : ℤ) - X) = x - 2 * X by rw [hev]; push_cast; omega]
    exact h2
  have h4 := (mul_dvd_mul_iff_left (by norm_num : (2 : ℤ) ≠ 0)).1 h3
  rw [pow_one] at hsp
  split at hsp
  · rw [hsp]; exact h4
  · have hB := B_half
    have e : (r : ℤ) - X = 2 ^ (W - 1) + (((x / 2 : ℕ) : ℤ) - X) := by
      have : r = 2 ^ (W - 1) + x / 2 := by omega
      rw [this]; push_cast; ring
    rw [e]
    exact dvd_add (pow_dvd_pow _ (by omega)) h4

/-! ### A batch -/

/-- State after `i` steps of a batch. -/
def BatchInv (δ f g : ℤ) (i : ℕ) (s : ℤ × ℕ × ℕ × TransitionMatrix) : Prop :=
  ∃ (f' g' a b c d : ℤ) (e : ℕ), divsteps (δ, f, g) i = ⟨(s.1, f', g'), a, b, c, d, e⟩ ∧
    LowBits i s.2.1 f' ∧ LowBits i s.2.2.1 g' ∧ f' % 2 = 1 ∧
    IsMat s.2.2.2 a b c d f g f' g' i ∧ s.2.2.2.s0 = e

theorem batch_step_sat {δ f g : ℤ} {i : ℕ} {s : ℤ × ℕ × ℕ × TransitionMatrix}
    (h : BatchInv δ f g i s) (hi : i + 2 < W) :
    Sat (batch_step s) (BatchInv δ f g (i + 1)) := by
  obtain ⟨δ', fl, gl, m⟩ := s
  obtain ⟨f', g', a, b, c, d, e, hit, hf, hg, hodd, hm, he⟩ := h
  dsimp only at hit hf hg hm he
  unfold batch_step
  dsimp only
  have hgp := hg.parity (by omega)
  rw [Nat.and_one_is_mod, LimbChoice.from'_eq (by omega), M.pure_bind, LimbChoice.new_ite,
    LimbChoice.and_ofBool]
  have hg0 : decide (gl % 2 = 1) = decide (g' % 2 = 1) := by
    rw [decide_eq_decide]; omega
  rw [hg0]
  generalize hc0 : (decide (0 < δ') && decide (g' % 2 = 1)) = c0
  generalize hgb : decide (g' % 2 = 1) = gb at *
  -- the step
  obtain ⟨δ2, f2, g2, hds, hδ2, hcase, hf2, hodd2, hg2⟩ : ∃ δ2 f2 g2,
      DivSteps.next i ⟨(δ', f', g'), a, b, c, d, e⟩ = ⟨(δ2, f2, g2), if c0 then c else a,
        if c0 then d else b, c + (if c0 then -a else if gb then a else 0) * 2 ^ (i - e),
        d + (if c0 then -b else if gb then b else 0) * 2 ^ (i - e), if c0 then i else e⟩ ∧
      δ2 = (if (LimbChoice.ofBool c0).unwrap = 0 then 1 + δ' else 1 - δ') ∧
      (if c0 then f2 = g' ∧ 2 * g2 = g' - f'
        else f2 = f' ∧ 2 * g2 = g' + (if gb then f' else 0)) ∧
      f2 = (if c0 then g' else f') ∧ f2 % 2 = 1 ∧
      2 * g2 = g' + (if c0 then -f' else if gb then f' else 0) := by
    by_cases hc : 0 < δ' ∧ g' % 2 = 1
    · have hc0' : c0 = true := by rw [← hc0, ← hgb]; simp [hc]
      subst hc0'
      refine ⟨_, _, _, DivSteps.next_swap hc.1 hc.2, by simp, ?_, by simp, hc.2, ?_⟩
      · simp only [if_true, true_and]; omega
      · simp only [if_true]; omega
    · have hc0' : c0 = false := by
        rw [← hc0, ← hgb, ← Bool.not_eq_true]
        simpa only [Bool.and_eq_true, decide_eq_true_eq] using hc
      subst hc0'
      refine ⟨_, _, _, by rw [← hgb]; exact DivSteps.next_keep (by omega), by simp, ?_, by simp, hodd, ?_⟩
      · simp only [Bool.false_eq_true, if_false, true_and]
        rcases Int.emod_two_eq_zero_or_one g' with h0 | h0
        · rw [← hgb, h0]; simp; omega
        · rw [← hgb, h0]; simp; omega
      · simp only [Bool.false_eq_true, if_false]
        rcases Int.emod_two_eq_zero_or_one g' with h0 | h0
        · rw [← hgb, h0]; simp; omega
        · rw [← hgb, h0]; simp; omega
  refine Sat.bind (push_transition_sat hm hi hcase) ?_
  rintro m' ⟨he', hm'⟩
  rw [he] at he' hm'
  have hx : LimbOf fl fl := by
    refine LimbOf.of_modEq hf.1 rfl
  have hy : LimbOf gl gl := LimbOf.of_modEq hg.1 rfl
  have hz := hy.add (select_neg (c := c0) (d := gb) hx)
  have hz' : LowBits i _ (2 * g2) := hz.lowBits i (by
    rw [hg2]
    cases c0
    · cases gb
      · simp only [Bool.false_eq_true, if_false, add_zero]; exact hg.2
      · simp only [Bool.false_eq_true, if_false, if_true]
        have := dvd_add hg.2 hf.2
        rwa [show ((gl : ℤ) - g' + (fl - f')) = gl + fl - (g' + f') by ring] at this
    · simp only [if_true]
      have := dvd_sub hg.2 hf.2
      rwa [show ((gl : ℤ) - g' - (fl - f')) = gl + -fl - (g' + -f') by ring] at this)
  refine Sat.bind (hz'.half (by omega)) ?_
  intro gl2 hgl2
  refine Sat.pure ⟨f2, g2, _, _, _, _, _, ?_, ?_, hgl2, hodd2, hm', he'⟩
  · dsimp only
    rw [divsteps, hit, hds, hδ2]
  · dsimp only
    rw [LimbChoice.select_ofBool hf.1 hg.1, hf2]
    cases c0
    · exact hf.le (Nat.le_succ _)
    · exact hg.le (Nat.le_succ _)

theorem steps_eq : STEPS_PER_BATCH = W - 2 := rfl

/-- A batch computes the matrix for `STEPS_PER_BATCH` division steps. -/
theorem batch_divsteps_sat {δ f g : ℤ} {fl gl : ℕ} (hfl : LimbOf fl f) (hgl : LimbOf gl g)
    (hodd : f % 2 = 1) :
    Sat (batch_divsteps δ fl gl) (fun s => ∃ (f' g' a b c d : ℤ) (e : ℕ),
      divsteps (δ, f, g) STEPS_PER_BATCH = ⟨(s.1, f', g'), a, b, c, d, e⟩ ∧
      IsMat s.2 a b c d f g f' g' STEPS_PER_BATCH ∧ s.2.s0 = e) := by
  unfold batch_divsteps
  have hf := LowBits.of_limbOf hfl
  have hp := hf.parity W_pos
  rw [M.assert_eq (by rw [Nat.and_one_is_mod]; omega), M.pure_bind]
  refine Sat.bind (P := BatchInv δ f g STEPS_PER_BATCH) ?_ ?_
  · refine Sat.forRange (P := fun i s => BatchInv δ f g i s) (Nat.zero_le _) ?_ ?_
    · exact ⟨f, g, 1, 0, 0, 1, 0, rfl, hf, LowBits.of_limbOf hgl, hodd, IsMat.identity f g, rfl⟩
    · intro i s _ hi hs
      exact batch_step_sat hs (by rw [steps_eq] at hi; omega)
  · rintro s ⟨f', g', a, b, c, d, e, h1, -, -, -, h2, h3⟩
    exact Sat.pure ⟨f', g', a, b, c, d, e, h1, h2, h3⟩

end Cmpa
