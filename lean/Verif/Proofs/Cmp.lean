import Verif.Model.Cmp
import Verif.Proofs.BufCopy

/-!
# Comparison of multiprecision integers
-/

set_option linter.unusedSectionVars false

namespace Cmpa
variable [LimbCfg] {f g : Fmt}

open M

/-- Limbs beyond the end are zero. -/
theorem Buf.dig_high (b : Buf f) {i : ℕ} (h : b.nlimbs ≤ i) : b.toNat / B ^ i % B = 0 := by
  rw [Nat.div_eq_of_lt, Nat.zero_mod]
  exact lt_of_lt_of_le b.toNat_lt_B (Nat.pow_le_pow_right B_pos h)

theorem Buf.mod_high (b : Buf f) {i : ℕ} (h : b.nlimbs ≤ i) : b.toNat % B ^ i = b.toNat :=
  Nat.mod_eq_of_lt (lt_of_lt_of_le b.toNat_lt_B (Nat.pow_le_pow_right B_pos h))

theorem leq_succ (x y i : ℕ) : x % B ^ (i + 1) ≤ y % B ^ (i + 1) ↔
    x / B ^ i % B < y / B ^ i % B ∨
      (x / B ^ i % B = y / B ^ i % B ∧ x % B ^ i ≤ y % B ^ i) := by
  have hx := mod_lt_pow x i
  have hy := mod_lt_pow y i
  rw [mod_succ, mod_succ]
  generalize x / B ^ i % B = u
  generalize y / B ^ i % B = v
  generalize x % B ^ i = r at *
  generalize y % B ^ i = s at *
  rcases lt_trichotomy u v with h | h | h
  · have := Nat.mul_le_mul_left (B ^ i) (Nat.succ_le_of_lt h)
    rw [Nat.mul_succ] at this
    exact ⟨fun _ => .inl h, fun _ => by omega⟩
  · subst h; simp
  · have := Nat.mul_le_mul_left (B ^ i) (Nat.succ_le_of_lt h)
    rw [Nat.mul_succ] at this
    constructor
    · intro h'; omega
    · rintro (h' | ⟨h', _⟩) <;> omega

theorem leq_kernel_update {P : Prop} [Decidable P] {x y : ℕ} (hx : x < B) (hy : y < B) :
    CtLeqMpMpKernel.update (if P then 1 else 0) x y =
      pure (if x < y ∨ (x = y ∧ P) then 1 else 0) := by
  unfold CtLeqMpMpKernel.update
  rw [ct_lt_or_eq_l_l_eq hx hy, M.pure_bind]
  congr 1
  by_cases h1 : x < y
  · by_cases h3 : P <;> simp [h1, h1.ne, h3]
  · by_cases h2 : x = y <;> by_cases h3 : P <;> simp [h1, h2, h3]

/-- One step of the `leq` kernel on the limbs of `x` and `y`. -/
theorem leq_kernel_step {x y i u v k : ℕ} (hk : k = if x % B ^ i ≤ y % B ^ i then 1 else 0)
    (hu : u = x / B ^ i % B) (hv : v = y / B ^ i % B) :
    CtLeqMpMpKernel.update k u v =
      pure (if x % B ^ (i + 1) ≤ y % B ^ (i + 1) then 1 else 0) := by
  subst hk hu hv
  rw [leq_kernel_update (dig_lt _ _) (dig_lt _ _)]
  simp only [leq_succ]

theorem from'_ite {P : Prop} [Decidable P] :
    LimbChoice.from' (if P then 1 else 0) = pure (.ofBool (decide P)) := by
  rw [show (if P then 1 else 0 : ℕ) = (decide P).toNat by by_cases h : P <;> simp [h], from'_toNat]

theorem ct_leq_mp_mp_sat (a : Buf f) (b : Buf g) :
    Sat (ct_leq_mp_mp a b) (fun c => c = .ofBool (decide (a.toNat ≤ b.toNat))) := by
  unfold ct_leq_mp_mp
  dsimp only
  refine Sat.bind (Sat.forRange (P := fun i k => k = if a.toNat % B ^ i ≤ b.toNat % B ^ i then 1 else 0)
    (Nat.zero_le _) (by simp [Nat.mod_one]) ?_) ?_
  · intro i k _ hi hk
    refine Sat.bind (a.sat_load_l (by omega) (Q := fun v => v = a.toNat / B ^ i % B) rfl) ?_
    rintro _ rfl
    refine Sat.bind (b.sat_load_l (by omega) (Q := fun v => v = b.toNat / B ^ i % B) rfl) ?_
    rintro _ rfl
    rw [leq_kernel_step hk rfl rfl]; exact Sat.pure rfl
  intro k hk
  -- one of the two remaining loops is empty
  rcases Nat.le_total a.nlimbs b.nlimbs with hab | hab
  · rw [Nat.min_eq_left hab] at hk ⊢
    refine Sat.bind (Sat.forRange (P := fun i k => i = a.nlimbs ∧ k = if a.toNat % B ^ i ≤ b.toNat % B ^ i then 1 else 0)
      le_rfl ⟨rfl, hk⟩ (fun i _ h1 h2 _ => absurd h1 (by omega))) ?_
    rintro k ⟨_, hk⟩
    refine Sat.bind (Sat.forRange (P := fun i k => k = if a.toNat % B ^ i ≤ b.toNat % B ^ i then 1 else 0)
      hab hk ?_) ?_
    · intro i k h1 hi hk
      refine Sat.bind (b.sat_load_l (by omega) (Q := fun v => v = b.toNat / B ^ i % B) rfl) ?_
      rintro _ rfl
      rw [leq_kernel_step hk (a.dig_high h1).symm rfl]; exact Sat.pure rfl
    · rintro k rfl
      unfold CtLeqMpMpKernel.finish
      rw [from'_ite, a.mod_high hab, b.mod_high le_rfl]; exact Sat.pure rfl
  · rw [Nat.min_eq_right hab] at hk ⊢
    refine Sat.bind (Sat.forRange (P := fun i k => k = if a.toNat % B ^ i ≤ b.toNat % B ^ i then 1 else 0)
      hab hk ?_) ?_
    · intro i k h1 hi hk
      refine Sat.bind (a.sat_load_l (by omega) (Q := fun v => v = a.toNat / B ^ i % B) rfl) ?_
      rintro _ rfl
      rw [leq_kernel_step hk rfl (b.dig_high h1).symm]; exact Sat.pure rfl
    · intro k hk
      refine Sat.bind (Sat.forRange (P := fun _ k' => k' = k) le_rfl rfl
        (fun i _ h1 h2 _ => absurd h1 (by omega))) ?_
      rintro k' rfl
      rw [hk]
      unfold CtLeqMpMpKernel.finish
      rw [from'_ite, b.mod_high hab, a.mod_high le_rfl]; exact Sat.pure rfl

theorem ct_geq_mp_mp_sat (a : Buf f) (b : Buf g) :
    Sat (ct_geq_mp_mp a b) (fun c => c = .ofBool (decide (b.toNat ≤ a.toNat))) :=
  ct_leq_mp_mp_sat b a

theorem ct_lt_mp_mp_sat (a : Buf f) (b : Buf g) :
    Sat (ct_lt_mp_mp a b) (fun c => c = .ofBool (decide (a.toNat < b.toNat))) := by
  unfold ct_lt_mp_mp
  refine Sat.bind (ct_geq_mp_mp_sat a b) ?_
  rintro _ rfl
  refine Sat.pure ?_
  rw [LimbChoice.not_ofBool]
  congr 1
  by_cases h : a.toNat < b.toNat
  · simp [h]
  · simp [h, Nat.not_lt.1 h]

theorem ct_gt_mp_mp_sat (a : Buf f) (b : Buf g) :
    Sat (ct_gt_mp_mp a b) (fun c => c = .ofBool (decide (b.toNat < a.toNat))) := by
  unfold ct_gt_mp_mp
  refine Sat.bind (ct_leq_mp_mp_sat a b) ?_
  rintro _ rfl
  refine Sat.pure ?_
  rw [LimbChoice.not_ofBool]
  congr 1
  by_cases h : b.toNat < a.toNat
  · simp [h]
  · simp [h, Nat.not_lt.1 h]

theorem eq_succ (x y i : ℕ) : x % B ^ (i + 1) = y % B ^ (i + 1) ↔
    x / B ^ i % B = y / B ^ i % B ∧ x % B ^ i = y % B ^ i := by
  constructor
  · intro h
    have h1 := (leq_succ x y i).1 h.le
    have h2 := (leq_succ y x i).1 h.ge
    omega
  · rintro ⟨h1, h2⟩; rw [mod_succ, mod_succ, h1, h2]

theorem xor_eq_zero' {x y : ℕ} : x ^^^ y = 0 ↔ x = y := Nat.xor_eq_zero_iff

theorem ct_is_zero_from {n : ℕ} (hn : n < B) :
    LimbChoice.from' (ct_is_zero_l n) = pure (.ofBool (decide (n = 0))) := by
  rw [ct_is_zero_l_eq hn, from'_ite]

theorem ct_eq_mp_mp_sat (a : Buf f) (b : Buf g) :
    Sat (ct_eq_mp_mp a b) (fun c => c = .ofBool (decide (a.toNat = b.toNat))) := by
  unfold ct_eq_mp_mp
  dsimp only
  refine Sat.bind (Sat.forRange (P := fun i k => k < B ∧ (k = 0 ↔ a.toNat % B ^ i = b.toNat % B ^ i))
    (Nat.zero_le _) ⟨B_pos, by simp [Nat.mod_one]⟩ ?_) ?_
  · rintro i k _ hi ⟨hkB, hk⟩
    refine Sat.bind (a.sat_load_l (by omega) (Q := fun v => v = a.toNat / B ^ i % B) rfl) ?_
    rintro _ rfl
    refine Sat.bind (b.sat_load_l (by omega) (Q := fun v => v = b.toNat / B ^ i % B) rfl) ?_
    rintro _ rfl
    refine Sat.pure ⟨or_lt hkB (xor_lt (dig_lt _ _) (dig_lt _ _)), ?_⟩
    rw [or_eq_zero, hk, xor_eq_zero', eq_succ, and_comm]
  intro k hk
  rcases Nat.le_total a.nlimbs b.nlimbs with hab | hab
  · rw [Nat.min_eq_left hab] at hk ⊢
    refine Sat.bind (Sat.forRange (P := fun _ k' => k' = k) le_rfl rfl
        (fun i _ h1 h2 _ => absurd h1 (by omega))) ?_
    intro k' hk'; subst k'
    refine Sat.bind (Sat.forRange (P := fun i k => k < B ∧ (k = 0 ↔ a.toNat % B ^ i = b.toNat % B ^ i))
      hab hk ?_) ?_
    · rintro i k h1 hi ⟨hkB, hk⟩
      refine Sat.bind (b.sat_load_l (by omega) (Q := fun v => v = b.toNat / B ^ i % B) rfl) ?_
      rintro _ rfl
      refine Sat.pure ⟨or_lt hkB (dig_lt _ _), ?_⟩
      rw [or_eq_zero, hk, eq_succ, and_comm, a.dig_high h1]
      constructor <;> rintro ⟨h1, h2⟩ <;> exact ⟨h1.symm, h2⟩
    · rintro k ⟨hkB, hk⟩
      rw [ct_is_zero_from hkB]
      refine Sat.pure ?_
      simp only [hk]
      rw [a.mod_high hab, b.mod_high le_rfl]
  · rw [Nat.min_eq_right hab] at hk ⊢
    refine Sat.bind (Sat.forRange (P := fun i k => k < B ∧ (k = 0 ↔ a.toNat % B ^ i = b.toNat % B ^ i))
      hab hk ?_) ?_
    · rintro i k h1 hi ⟨hkB, hk⟩
      refine Sat.bind (a.sat_load_l (by omega) (Q := fun v => v = a.toNat / B ^ i % B) rfl) ?_
      rintro _ rfl
      refine Sat.pure ⟨or_lt hkB (dig_lt _ _), ?_⟩
      rw [or_eq_zero, hk, eq_succ, and_comm, b.dig_high h1]
    · rintro k ⟨hkB, hk⟩
      refine Sat.bind (Sat.forRange (P := fun _ k' => k' = k) le_rfl rfl
        (fun i _ h1 h2 _ => absurd h1 (by omega))) ?_
      intro k' hk'; subst k'
      rw [ct_is_zero_from hkB]
      refine Sat.pure ?_
      simp only [hk]
      rw [b.mod_high hab, a.mod_high le_rfl]

theorem ct_neq_mp_mp_sat (a : Buf f) (b : Buf g) :
    Sat (ct_neq_mp_mp a b) (fun c => c = .ofBool (decide (a.toNat ≠ b.toNat))) := by
  unfold ct_neq_mp_mp
  refine Sat.bind (ct_eq_mp_mp_sat a b) ?_
  rintro _ rfl
  refine Sat.pure ?_
  rw [LimbChoice.not_ofBool]
  congr 1
  by_cases h : a.toNat = b.toNat <;> simp [h]

theorem zero_succ (x i : ℕ) : x % B ^ (i + 1) = 0 ↔ x % B ^ i = 0 ∧ x / B ^ i % B = 0 := by
  have := eq_succ x 0 i
  simpa [and_comm] using this

theorem ct_is_zero_mp_sat (a : Buf f) :
    Sat (ct_is_zero_mp a) (fun c => c = .ofBool (decide (a.toNat = 0))) := by
  unfold ct_is_zero_mp
  refine Sat.bind (Sat.forRange (P := fun i k => k < B ∧ (k = 0 ↔ a.toNat % B ^ i = 0))
    (Nat.zero_le _) ⟨B_pos, by simp [Nat.mod_one]⟩ ?_) ?_
  · rintro i k _ hi ⟨hkB, hk⟩
    refine Sat.bind (a.sat_load_l (by omega) (Q := fun v => v = a.toNat / B ^ i % B) rfl) ?_
    rintro _ rfl
    refine Sat.pure ⟨or_lt hkB (dig_lt _ _), ?_⟩
    rw [or_eq_zero, hk, zero_succ]
  · rintro k ⟨hkB, hk⟩
    rw [ct_is_zero_from hkB]
    refine Sat.pure ?_
    simp only [hk]
    rw [a.mod_high le_rfl]

/-- The common part of `ct_is_one_mp` and `ct_leq_mp_l`: whether there is anything above
the lowest limb. -/
theorem head_is_nz_sat (a : Buf f) (ha : 0 < a.nlimbs) :
    Sat (M.forRange 1 a.nlimbs 0 fun i k => do
      let v ← a.load_l i
      pure (k ||| v)) (fun k => k < B ∧ (k = 0 ↔ a.toNat / B = 0)) := by
  refine (Sat.forRange (P := fun i k => k < B ∧ (k = 0 ↔ a.toNat % B ^ i / B = 0))
    ha ⟨B_pos, by simp [Nat.div_eq_of_lt (Nat.mod_lt _ B_pos)]⟩ ?_).mono ?_
  · rintro i k h1 hi ⟨hkB, hk⟩
    refine Sat.bind (a.sat_load_l (by omega) (Q := fun v => v = a.toNat / B ^ i % B) rfl) ?_
    rintro _ rfl
    refine Sat.pure ⟨or_lt hkB (dig_lt _ _), ?_⟩
    rw [or_eq_zero, hk]
    obtain ⟨j, rfl⟩ : ∃ j, i = j + 1 := ⟨i - 1, by omega⟩
    have e : ∀ m, a.toNat % B ^ (m + 1) / B = a.toNat / B % B ^ m := fun m => by
      rw [pow_succ', Nat.mod_mul_right_div_self]
    rw [e, e, zero_succ, Nat.div_div_eq_div_mul, ← pow_succ']
  · rintro k ⟨hkB, hk⟩
    rw [a.mod_high le_rfl] at hk
    exact ⟨hkB, hk⟩

theorem nlimbs_pos_of_not_empty {a : Buf f} (h : ¬ a.is_empty = true) : 0 < a.nlimbs := by
  rw [Buf.is_empty_iff] at h
  rw [Buf.nlimbs_eq, nlimbs_pos_iff]; omega

theorem toNat_of_empty {a : Buf f} (h : a.is_empty = true) : a.toNat = 0 := by
  rw [Buf.is_empty_iff] at h
  have := a.toNat_lt
  rw [h] at this; simpa using this

theorem ct_is_one_mp_sat (a : Buf f) :
    Sat (ct_is_one_mp a) (fun c => c = .ofBool (decide (a.toNat = 1))) := by
  unfold ct_is_one_mp
  refine Sat.cond (fun h => ?_) fun h => ?_
  · rw [LimbChoice.new_zero]
    refine Sat.pure ?_
    rw [toNat_of_empty h]; simp
  have hn := nlimbs_pos_of_not_empty h
  refine Sat.bind (a.sat_load_l hn (Q := fun v => v = a.toNat % B) (by simp)) ?_
  rintro _ rfl
  dsimp only
  refine Sat.bind (head_is_nz_sat a hn) ?_
  rintro k ⟨hkB, hk⟩
  have h1B : 1 < B := one_lt_B
  rw [ct_is_zero_from (or_lt (xor_lt (Nat.mod_lt _ B_pos) h1B) hkB)]
  refine Sat.pure ?_
  congr 1
  rw [decide_eq_decide, or_eq_zero, hk, xor_eq_zero']
  have := Nat.mod_add_div a.toNat B
  constructor
  · rintro ⟨h1, h2⟩; rw [h1, h2] at this; omega
  · intro h; rw [h]; exact ⟨Nat.mod_eq_of_lt h1B, Nat.div_eq_of_lt h1B⟩

theorem ct_leq_mp_l_sat (a : Buf f) {v : ℕ} (hv : v < B) :
    Sat (ct_leq_mp_l a v) (fun c => c = .ofBool (decide (a.toNat ≤ v))) := by
  unfold ct_leq_mp_l
  refine Sat.cond (fun h => ?_) fun h => ?_
  · rw [LimbChoice.new_one]
    refine Sat.pure ?_
    rw [toNat_of_empty h]; simp
  have hn := nlimbs_pos_of_not_empty h
  refine Sat.bind (a.sat_load_l hn (Q := fun v => v = a.toNat % B) (by simp)) ?_
  rintro _ rfl
  dsimp only
  rw [ct_leq_l_l_eq (Nat.mod_lt _ B_pos) hv]
  refine Sat.bind (head_is_nz_sat a hn) ?_
  rintro k ⟨hkB, hk⟩
  rw [ct_is_zero_from hkB, M.pure_bind]
  refine Sat.pure ?_
  rw [LimbChoice.and_ofBool]
  congr 1
  rw [← Bool.decide_and, decide_eq_decide, hk]
  have := Nat.mod_add_div a.toNat B
  constructor
  · rintro ⟨h1, h2⟩; rw [h2] at this; omega
  · intro h
    have h2 : a.toNat / B = 0 := Nat.div_eq_of_lt (by omega)
    rw [h2] at this
    exact ⟨by omega, h2⟩

end Cmpa
