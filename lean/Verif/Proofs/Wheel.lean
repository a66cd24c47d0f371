import Verif.Model.Wheel
import Verif.Proofs.Cmp
import Verif.Proofs.DivL
import Verif.Proofs.NonCtLDiv

/-!
# The prime candidate wheel
-/

set_option linter.unusedSectionVars false

namespace Cmpa
variable [LimbCfg] {φ : Fmt}

open M

theorem index_u8_sat {v : List ℕ} {j : ℕ} (h : j < v.length) :
    Sat (index_u8 v j) (fun x => x = v.getD j 0) := by
  unfold index_u8
  refine Sat.bind (P := fun _ => True) (Sat.emit trivial) fun _ _ => ?_
  rw [List.getElem?_eq_getElem h, List.getD_eq_getElem?_getD, List.getElem?_eq_getElem h]
  exact Sat.pure rfl

/-! ### Binary search -/

theorem assert_last {v : List ℕ} {val : ℕ} (h : 0 < v.length)
    (hv : val ≤ v.getD (v.length - 1) 0) :
    M.assertM (do
      let l ← M.ofOption v.getLast?
      pure (decide (val ≤ l))) = pure () := by
  have h1 : v.getLast? = some (v.getD (v.length - 1) 0) := by
    rw [List.getLast?_eq_getElem?, List.getD_eq_getElem?_getD,
      List.getElem?_eq_getElem (by omega)]
    rfl
  refine M.assertM_eq ?_
  rw [h1, show M.ofOption (some (v.getD (v.length - 1) 0)) = pure (v.getD (v.length - 1) 0) from rfl,
    M.pure_bind]
  exact Sat.pure (decide_eq_true hv)

theorem and_one_eq (r : ℕ) : r &&& 1 = r % 2 := Nat.and_one_is_mod r

theorem ct_find_first_loop_sat {v : List ℕ} {val : ℕ} (hB : ∀ i, v.getD i 0 < B) (hval : val < B)
    (hs : ∀ i j, i ≤ j → j < v.length → v.getD i 0 ≤ v.getD j 0) :
    ∀ (fuel lb ub : ℕ), lb < ub → ub ≤ v.length → ub ≤ lb + fuel →
      (∀ j, j < lb → v.getD j 0 < val) → val ≤ v.getD (ub - 1) 0 →
      Sat (ct_find_first_loop v val fuel lb ub) (fun i => i < v.length ∧
        (∀ j, j < i → v.getD j 0 < val) ∧ val ≤ v.getD i 0)
  | 0, lb, ub, h1, _, h3, _, _ => by omega
  | fuel + 1, lb, ub, h1, h2, h3, h4, h5 => by
    rw [ct_find_first_loop, M.sub_eq h1.le, M.pure_bind]
    refine Sat.cond (fun hc => ?_) fun hc => ?_
    · dsimp only
      rw [M.sub_eq (by omega), M.pure_bind]
      refine Sat.bind (index_u8_sat (by omega)) ?_
      rintro _ rfl
      rw [and_one_eq]
      have hr : (ub - lb) % 2 = 0 ∨ (ub - lb) % 2 = 1 := by omega
      rw [M.assertM_eq, M.pure_bind]; swap
      · rw [M.sub_eq (by omega), M.pure_bind, M.sub_eq (by omega), M.pure_bind]
        exact Sat.pure (decide_eq_true (by omega))
      rw [M.sub_eq (by omega), M.pure_bind, ct_lt_l_l_eq (hB _) hval,
        LimbChoice.select_usize_ofBool, LimbChoice.select_usize_ofBool]
      by_cases hp : v.getD (lb + (ub - lb + 1) / 2 - 1) 0 < val
      · rw [decide_eq_true hp, if_pos rfl, if_pos rfl]
        refine ct_find_first_loop_sat hB hval hs fuel _ _ (by omega) h2 (by omega) ?_ h5
        intro j hj
        exact lt_of_le_of_lt (hs j _ (by omega) (by omega)) hp
      · rw [decide_eq_false hp, if_neg (by simp), if_neg (by simp)]
        exact ct_find_first_loop_sat hB hval hs fuel _ _ (by omega) (by omega) (by omega) h4
          (Nat.not_lt.1 hp)
    · refine Sat.pure ⟨by omega, h4, ?_⟩
      rwa [show lb = ub - 1 by omega]

/-- The binary search finds the first element which is not less. -/
theorem ct_find_first_ge_than_sat {v : List ℕ} {val : ℕ} (hB : ∀ i, v.getD i 0 < B) (hval : val < B)
    (hs : ∀ i j, i ≤ j → j < v.length → v.getD i 0 ≤ v.getD j 0) (hne : 0 < v.length)
    (hl : val ≤ v.getD (v.length - 1) 0) :
    Sat (ct_find_first_ge_than v val) (fun i => i < v.length ∧
      (∀ j, j < i → v.getD j 0 < val) ∧ val ≤ v.getD i 0) := by
  unfold ct_find_first_ge_than
  rw [assert_last hne hl, M.pure_bind]
  exact ct_find_first_loop_sat hB hval hs _ 0 _ hne le_rfl (by omega)
    (fun j h => absurd h (by omega)) hl

theorem cnst_find_first_loop_sat {v : List ℕ} {val : ℕ}
    (hs : ∀ i j, i ≤ j → j < v.length → v.getD i 0 ≤ v.getD j 0) :
    ∀ (fuel lb ub : ℕ), lb < ub → ub ≤ v.length → ub ≤ lb + fuel →
      (∀ j, j < lb → v.getD j 0 < val) → val ≤ v.getD (ub - 1) 0 →
      Sat (cnst_find_first_loop v val fuel lb ub) (fun i => i < v.length ∧
        (∀ j, j < i → v.getD j 0 < val) ∧ val ≤ v.getD i 0)
  | 0, lb, ub, h1, _, h3, _, _ => by omega
  | fuel + 1, lb, ub, h1, h2, h3, h4, h5 => by
    rw [cnst_find_first_loop, M.sub_eq h1.le, M.pure_bind]
    refine Sat.cond (fun hc => ?_) fun hc => ?_
    · dsimp only
      rw [M.sub_eq (by omega), M.pure_bind]
      refine Sat.bind (index_u8_sat (by omega)) ?_
      rintro _ rfl
      refine Sat.cond (fun hp => ?_) fun hp => ?_
      · have hlt : lb + (ub - lb + 1) / 2 < ub := by
          by_contra hcc
          have he : lb + (ub - lb + 1) / 2 = ub := by omega
          rw [he] at hp; omega
        refine cnst_find_first_loop_sat hs fuel _ _ hlt h2 (by omega) ?_ h5
        intro j hj
        exact lt_of_le_of_lt (hs j _ (by omega) (by omega)) hp
      · exact cnst_find_first_loop_sat hs fuel _ _ (by omega) (by omega) (by omega) h4
          (Nat.not_lt.1 hp)
    · refine Sat.pure ⟨by omega, h4, ?_⟩
      rwa [show lb = ub - 1 by omega]

theorem cnst_find_first_ge_than_sat {v : List ℕ} {val : ℕ}
    (hs : ∀ i j, i ≤ j → j < v.length → v.getD i 0 ≤ v.getD j 0) (hne : 0 < v.length)
    (hl : val ≤ v.getD (v.length - 1) 0) :
    Sat (cnst_find_first_ge_than v val) (fun i => i < v.length ∧
      (∀ j, j < i → v.getD j 0 < val) ∧ val ≤ v.getD i 0) := by
  unfold cnst_find_first_ge_than
  have hne' : v.length ≠ 0 := by omega
  rw [M.assert_eq (by simpa using hne'), M.pure_bind,
    assert_last hne hl, M.pure_bind]
  exact cnst_find_first_loop_sat hs _ 0 _ hne le_rfl (by omega)
    (fun j h => absurd h (by omega)) hl

/-! ### Constants -/

theorem primorial_cases :
    (B = 2 ^ 32 ∧ WheelLvl1.PRIMORIAL_NFACTORS = 9 ∧ WheelLvl1.PRIMORIAL = 223092870) ∨
    (B = 2 ^ 64 ∧ WheelLvl1.PRIMORIAL_NFACTORS = 15 ∧
      WheelLvl1.PRIMORIAL = 614889782588491410) := by
  unfold WheelLvl1.PRIMORIAL
  rcases B_cases with h | h
  · have h1 : WheelLvl1.PRIMORIAL_NFACTORS = 9 := by
      unfold WheelLvl1.PRIMORIAL_NFACTORS lmax
      rw [h]; decide +kernel
    exact Or.inl ⟨h, h1, by rw [h1]; decide +kernel⟩
  · have h1 : WheelLvl1.PRIMORIAL_NFACTORS = 15 := by
      unfold WheelLvl1.PRIMORIAL_NFACTORS lmax
      rw [h]; decide +kernel
    exact Or.inr ⟨h, h1, by rw [h1]; decide +kernel⟩

/-- The number is not divisible by any of the primes of level 0. -/
def Cop3 (m : ℕ) : Prop := m % 2 ≠ 0 ∧ m % 3 ≠ 0 ∧ m % 5 ≠ 0

instance (m : ℕ) : Decidable (Cop3 m) := inferInstanceAs (Decidable (_ ∧ _))

/-- The number is not divisible by any of the primes of level 1. -/
def Cop (m : ℕ) : Prop := ∀ q ∈ FIRST_PRIMES.take WheelLvl1.PRIMORIAL_NFACTORS, ¬ q ∣ m

theorem cop_iff (m : ℕ) : Cop m ↔ Cop3 m ∧ ∀ i, 3 ≤ i → i < WheelLvl1.PRIMORIAL_NFACTORS →
    m % FIRST_PRIMES.getD i 0 ≠ 0 := by
  have hd : ∀ q : ℕ, q ∣ m ↔ m % q = 0 := fun q => Nat.dvd_iff_mod_eq_zero
  unfold Cop Cop3
  simp only [hd]
  rcases primorial_cases with ⟨-, h, -⟩ | ⟨-, h, -⟩
  · rw [h]
    constructor
    · intro H
      refine ⟨⟨H 2 (by decide), H 3 (by decide), H 5 (by decide)⟩, fun i h1 h2 => ?_⟩
      interval_cases i <;> exact H _ (by decide)
    · rintro ⟨⟨h2, h3, h5⟩, H⟩ q hq
      have hq' : q = 2 ∨ q = 3 ∨ q = 5 ∨ q = 7 ∨ q = 11 ∨ q = 13 ∨ q = 17 ∨ q = 19 ∨ q = 23 := by
        simpa [FIRST_PRIMES] using hq
      rcases hq' with rfl | rfl | rfl | rfl | rfl | rfl | rfl | rfl | rfl
      · exact h2
      · exact h3
      · exact h5
      · exact H 3 (by omega) (by omega)
      · exact H 4 (by omega) (by omega)
      · exact H 5 (by omega) (by omega)
      · exact H 6 (by omega) (by omega)
      · exact H 7 (by omega) (by omega)
      · exact H 8 (by omega) (by omega)
  · rw [h]
    constructor
    · intro H
      refine ⟨⟨H 2 (by decide), H 3 (by decide), H 5 (by decide)⟩, fun i h1 h2 => ?_⟩
      interval_cases i <;> exact H _ (by decide)
    · rintro ⟨⟨h2, h3, h5⟩, H⟩ q hq
      have hq' : q = 2 ∨ q = 3 ∨ q = 5 ∨ q = 7 ∨ q = 11 ∨ q = 13 ∨ q = 17 ∨ q = 19 ∨ q = 23 ∨
          q = 29 ∨ q = 31 ∨ q = 37 ∨ q = 41 ∨ q = 43 ∨ q = 47 := by
        simpa [FIRST_PRIMES] using hq
      rcases hq' with rfl | rfl | rfl | rfl | rfl | rfl | rfl | rfl | rfl | rfl | rfl | rfl | rfl |
        rfl | rfl
      · exact h2
      · exact h3
      · exact h5
      · exact H 3 (by omega) (by omega)
      · exact H 4 (by omega) (by omega)
      · exact H 5 (by omega) (by omega)
      · exact H 6 (by omega) (by omega)
      · exact H 7 (by omega) (by omega)
      · exact H 8 (by omega) (by omega)
      · exact H 9 (by omega) (by omega)
      · exact H 10 (by omega) (by omega)
      · exact H 11 (by omega) (by omega)
      · exact H 12 (by omega) (by omega)
      · exact H 13 (by omega) (by omega)
      · exact H 14 (by omega) (by omega)

theorem prime_dvd_primorial {q : ℕ} (h : q ∈ FIRST_PRIMES.take WheelLvl1.PRIMORIAL_NFACTORS) :
    q ∣ WheelLvl1.PRIMORIAL ∧ 2 ≤ q := by
  have h9 : ∀ q ∈ FIRST_PRIMES.take 9, 223092870 % q = 0 ∧ 2 ≤ q := by decide +kernel
  have h15 : ∀ q ∈ FIRST_PRIMES.take 15, 614889782588491410 % q = 0 ∧ 2 ≤ q := by decide +kernel
  rcases primorial_cases with ⟨-, h1, h2⟩ | ⟨-, h1, h2⟩
  · rw [h1] at h; rw [h2]
    exact ⟨Nat.dvd_of_mod_eq_zero (h9 q h).1, (h9 q h).2⟩
  · rw [h1] at h; rw [h2]
    exact ⟨Nat.dvd_of_mod_eq_zero (h15 q h).1, (h15 q h).2⟩

theorem cop_add_mul (m j : ℕ) : Cop (WheelLvl1.PRIMORIAL * j + m) ↔ Cop m := by
  unfold Cop
  refine forall_congr' fun q => forall_congr' fun hq => not_congr ?_
  exact Nat.dvd_add_right ((prime_dvd_primorial hq).1.mul_right j)

theorem cop_one : Cop 1 := by
  intro q hq hd
  have := Nat.le_of_dvd one_pos hd
  have := (prime_dvd_primorial hq).2
  omega

theorem cop_pred : Cop (WheelLvl1.PRIMORIAL - 1) := by
  intro q hq hd
  obtain ⟨h1, h2⟩ := prime_dvd_primorial hq
  have hP : 1 ≤ WheelLvl1.PRIMORIAL := by
    rcases primorial_cases with ⟨-, -, h⟩ | ⟨-, -, h⟩ <;> omega
  have h3 := (Nat.dvd_sub h1 hd)
  rw [show WheelLvl1.PRIMORIAL - (WheelLvl1.PRIMORIAL - 1) = 1 by omega] at h3
  have := Nat.le_of_dvd one_pos h3
  omega

/-! ### Level 0 -/

/-- The next production of the level 0 wheel leads from `y` to the next number from `y + k` on which is not
divisible by 2, 3 or 5. -/
structure Lvl0At (s : WheelLvl0) (y k : ℕ) : Prop where
  idx : s.next_index < 8
  le : s.last_offset ≤ WheelLvl0.OFFSETS.getD s.next_index 0 + s.next_offset_delta
  le30 : WheelLvl0.OFFSETS.getD s.next_index 0 + s.next_offset_delta ≤ 30
  pos : (y + (WheelLvl0.OFFSETS.getD s.next_index 0 + s.next_offset_delta - s.last_offset)) % 30 =
    WheelLvl0.OFFSETS.getD s.next_index 0
  ge : k ≤ WheelLvl0.OFFSETS.getD s.next_index 0 + s.next_offset_delta - s.last_offset
  skip : ∀ j, k ≤ j → j < WheelLvl0.OFFSETS.getD s.next_index 0 + s.next_offset_delta - s.last_offset →
    ¬ Cop3 (y + j)

theorem Lvl0At.congr {s : WheelLvl0} {y z k : ℕ} (h : Lvl0At s y k) (e : y % 30 = z % 30) :
    Lvl0At s z k := by
  refine ⟨h.idx, h.le, h.le30, ?_, h.ge, fun j h1 h2 hc => h.skip j h1 h2 ?_⟩
  · have h1 := h.pos
    generalize WheelLvl0.OFFSETS.getD s.next_index 0 + s.next_offset_delta - s.last_offset = δ at *
    omega
  · unfold Cop3 at *
    omega

theorem lvl0_primorial : WheelLvl0.PRIMORIAL = 30 := by decide +kernel

theorem lvl0_offset (i : ℕ) : WheelLvl0.OFFSETS.getD i 0 < 30 := by
  by_cases h : i < 8
  · interval_cases i <;> decide
  · rw [List.getD_eq_default _ _ (by simpa [WheelLvl0.OFFSETS] using h)]; omega

theorem lvl0_advance {s : WheelLvl0} {z : ℕ} (hi : s.next_index < 8)
    (hz : z % 30 = WheelLvl0.OFFSETS.getD s.next_index 0) :
    Sat s.advance (fun s' => Lvl0At s' z 1) := by
  unfold WheelLvl0.advance
  dsimp only
  refine Sat.bind (index_u8_sat hi) ?_
  rintro _ rfl
  have hB : 30 < B := by rcases B_cases with h | h <;> rw [h] <;> norm_num
  have ho := lvl0_offset s.next_index
  unfold ct_eq_usize_usize
  rw [LimbChoice.new_ite, LimbChoice.select_usize_ofBool, LimbChoice.select_ofBool (by omega) (by omega),
    LimbChoice.select_ofBool (by omega) (by
      rw [show WheelLvl0.offset_delta_at_wrap = 1 by decide +kernel]; omega),
    show WheelLvl0.offset_delta_at_wrap = 1 by decide +kernel,
    show WheelLvl0.NOFFSETS = 8 by decide +kernel]
  generalize s.next_index = i at *
  refine Sat.pure ?_
  have key : i = 0 ∨ i = 1 ∨ i = 2 ∨ i = 3 ∨ i = 4 ∨ i = 5 ∨ i = 6 ∨ i = 7 := by omega
  rcases key with rfl | rfl | rfl | rfl | rfl | rfl | rfl | rfl <;>
  · simp [WheelLvl0.OFFSETS] at hz ⊢
    refine ⟨by decide, by decide, by decide, ?_, by decide, fun j h1 h2 => ?_⟩
    · simp [WheelLvl0.OFFSETS]; omega
    · simp [WheelLvl0.OFFSETS] at h2
      unfold Cop3
      interval_cases j <;> omega

theorem lvl0_produce {s : WheelLvl0} {y k : ℕ} (h : Lvl0At s y k) :
    Sat s.produce_next_delta (fun r => k ≤ r.2 ∧ r.2 ≤ 30 ∧ Cop3 (y + r.2) ∧
      (∀ j, k ≤ j → j < r.2 → ¬ Cop3 (y + j)) ∧ Lvl0At r.1 (y + r.2) 1) := by
  obtain ⟨h1, h2, h3, h4, h5, h6⟩ := h
  unfold WheelLvl0.produce_next_delta add_u8
  refine Sat.bind (index_u8_sat h1) ?_
  rintro _ rfl
  rw [M.assert_eq (by omega), M.pure_bind, M.pure_bind, Nat.mod_eq_of_lt (by omega), M.sub_eq h2, M.pure_bind]
  refine Sat.bind (lvl0_advance h1 h4) ?_
  intro s' hs'
  refine Sat.pure ⟨h5, by dsimp only; omega, ?_, h6, hs'⟩
  dsimp only
  generalize WheelLvl0.OFFSETS.getD s.next_index 0 + s.next_offset_delta - s.last_offset = δ at *
  generalize s.next_index = i at *
  have key : i = 0 ∨ i = 1 ∨ i = 2 ∨ i = 3 ∨ i = 4 ∨ i = 5 ∨ i = 6 ∨ i = 7 := by omega
  unfold Cop3
  rcases key with rfl | rfl | rfl | rfl | rfl | rfl | rfl | rfl <;>
  · simp [WheelLvl0.OFFSETS] at h4
    omega

theorem offsets_search : ∀ (r : Fin 30) (i : Fin 8),
    (∀ j : Fin 8, j < i → WheelLvl0.OFFSETS.getD j 0 < (r : ℕ)) →
    (r : ℕ) ≤ WheelLvl0.OFFSETS.getD i 0 →
    ∀ j : Fin 30, (j : ℕ) < WheelLvl0.OFFSETS.getD i 0 - r → ¬ Cop3 (r + j) := by decide +kernel

theorem lvl0_start (lb : ℕ) : Sat (WheelLvl0.start_geq_than lb) (fun s => Lvl0At s lb 0) := by
  unfold WheelLvl0.start_geq_than
  dsimp only
  rw [M.assert_eq (by decide +kernel), M.pure_bind, lvl0_primorial]
  have hB : 30 < B := by rcases B_cases with h | h <;> rw [h] <;> norm_num
  have hr : lb % 30 < 30 := Nat.mod_lt _ (by norm_num)
  refine Sat.bind (ct_find_first_ge_than_sat (fun i => (lvl0_offset i).trans hB) (hr.trans hB) ?_
    (by decide) ?_) ?_
  · have h1 : ∀ (j : Fin 8) (i : Fin 8), i ≤ j →
      WheelLvl0.OFFSETS.getD i 0 ≤ WheelLvl0.OFFSETS.getD j 0 := by decide +kernel
    intro i j hij hj
    exact h1 ⟨j, hj⟩ ⟨i, by have : j < 8 := hj; omega⟩ hij
  · show lb % 30 ≤ 29
    omega
  · rintro i ⟨hi, h1, h2⟩
    have hi' : i < 8 := hi
    have ho := lvl0_offset i
    refine Sat.pure ⟨hi', by dsimp only; omega, by dsimp only; omega, ?_, by omega, fun j _ hj hc => ?_⟩
    · simp only [Nat.add_zero]
      rw [Nat.add_mod, Nat.mod_eq_of_lt (by omega : _ - lb % 30 < 30),
        Nat.add_sub_cancel' h2, Nat.mod_eq_of_lt ho]
    · simp only [Nat.add_zero] at hj
      have h3 := offsets_search ⟨lb % 30, hr⟩ ⟨i, hi'⟩ (fun j hj => h1 j hj) h2 ⟨j, by omega⟩ hj
      refine h3 ?_
      dsimp only
      unfold Cop3 at *
      omega

/-! ### Level 1 -/

theorem lvl1_facts : 30 < WheelLvl1.PRIMORIAL ∧ WheelLvl1.PRIMORIAL % 30 = 0 ∧
    WheelLvl1.PRIMORIAL + 30 < B ∧ 3 ≤ WheelLvl1.PRIMORIAL_NFACTORS ∧
    WheelLvl1.PRIMORIAL_NFACTORS ≤ 15 := by
  rcases primorial_cases with ⟨h1, h2, h3⟩ | ⟨h1, h2, h3⟩ <;> rw [h1, h2, h3] <;> norm_num

theorem is_not_coprime_sat {x : ℕ} (hx : x < B) : Sat (WheelLvl1.is_not_coprime x) (fun c =>
    ∃ b : Bool, c = .ofBool b ∧ (b = true ↔ ∃ j, 3 ≤ j ∧ j < WheelLvl1.PRIMORIAL_NFACTORS ∧
      x % FIRST_PRIMES.getD j 0 = 0)) := by
  obtain ⟨-, -, -, h3, h15⟩ := lvl1_facts
  unfold WheelLvl1.is_not_coprime
  rw [LimbChoice.from'_eq (Nat.zero_le 1), M.pure_bind]
  refine Sat.forRange (P := fun i (c : LimbChoice) => ∃ b : Bool, c = .ofBool b ∧ (b = true ↔ ∃ j, 3 ≤ j ∧ j < i ∧
    x % FIRST_PRIMES.getD j 0 = 0)) h3 ⟨false, rfl, ?_⟩ ?_
  · constructor
    · intro h; exact absurd h (by simp)
    · rintro ⟨j, h1, h2, -⟩
      exact absurd (show j < 3 from h2) (by omega)
  · rintro i c h1 h2 ⟨b, rfl, hb⟩
    have hl : i < FIRST_PRIMES.length := lt_of_lt_of_le h2 h15
    rw [List.getElem?_eq_getElem hl, show M.ofOption (some FIRST_PRIMES[i]) = pure FIRST_PRIMES[i] from rfl,
      M.pure_bind]
    have hg : FIRST_PRIMES[i] = FIRST_PRIMES.getD i 0 := by
      rw [List.getD_eq_getElem?_getD, List.getElem?_eq_getElem hl]; rfl
    dsimp only
    rw [hg, ct_eq_l_l_eq (lt_of_le_of_lt (Nat.mod_le _ _) hx) B_pos, LimbChoice.or_ofBool]
    refine Sat.pure ⟨_, rfl, ?_⟩
    rw [Bool.or_eq_true, hb, decide_eq_true_iff]
    constructor
    · rintro (⟨j, h4, h5, h6⟩ | h)
      · exact ⟨j, h4, by omega, h6⟩
      · exact ⟨i, h1, by omega, h⟩
    · rintro ⟨j, h4, h5, h6⟩
      by_cases hj : j = i
      · exact Or.inr (hj ▸ h6)
      · exact Or.inl ⟨j, h4, by omega, h6⟩

theorem produce_loop_sat {L : ℕ} (hL : L ≤ WheelLvl1.PRIMORIAL) :
    ∀ (f : ℕ) (s : WheelLvl0) (y k lo : ℕ), k ≤ 1 → y < WheelLvl1.PRIMORIAL → Lvl0At s y k → lo < B →
      WheelLvl1.PRIMORIAL < y + k + f →
      Sat (WheelLvl1.produce_loop L f s y lo) (fun r => ∃ V, y + k ≤ V ∧ Cop V ∧
        (∀ m, y + k ≤ m → m < V → ¬ Cop m) ∧ Lvl0At r.1 V 1 ∧
        ((V < WheelLvl1.PRIMORIAL ∧ r.2 = (V, 0, lo)) ∨
          (V = WheelLvl1.PRIMORIAL + 1 ∧ r.2 = (1, WheelLvl1.PRIMORIAL - L, 0) ∧
            y + 1 = WheelLvl1.PRIMORIAL ∧ k = 1)))
  | 0, s, y, k, lo, hk, hy, _, _, hf => by omega
  | f + 1, s, y, k, lo, hk, hy, hs, hlo, hf => by
    obtain ⟨hP, hP30, hPB, hn3, hn15⟩ := lvl1_facts
    have c3 : ∀ m, Cop m → Cop3 m := fun m h => ((cop_iff m).1 h).1
    rw [WheelLvl1.produce_loop]
    refine Sat.bind (lvl0_produce hs) ?_
    rintro ⟨s', δ⟩ ⟨h1, h2, h3, h4, h5⟩
    dsimp only at h1 h2 h3 h4 h5 ⊢
    rw [M.addL_eq (by omega), M.pure_bind, ct_geq_l_l_eq (by omega) (by omega)]
    have hw : wsub (y + δ) WheelLvl1.PRIMORIAL < B := wsub_lt
    rw [LimbChoice.select_ofBool (by omega) hw, LimbChoice.select_ofBool hlo B_pos, M.sub_eq hL, M.pure_bind,
      LimbChoice.select_ofBool B_pos (by omega)]
    have hskip : ∀ m, y + k ≤ m → m < y + δ → ¬ Cop m := by
      intro m hm1 hm2 hc
      refine h4 (m - y) (by omega) (by omega) ?_
      rw [Nat.add_sub_cancel' (by omega)]
      exact c3 m hc
    by_cases hwr : WheelLvl1.PRIMORIAL ≤ y + δ
    · have hy1 : y + 1 = WheelLvl1.PRIMORIAL ∧ k = 1 := by
        by_contra hcc
        exact hskip (WheelLvl1.PRIMORIAL - 1) (by omega) (by omega) cop_pred
      have hδ : y + δ = WheelLvl1.PRIMORIAL + 1 := by
        by_contra hcc
        by_cases he : y + δ = WheelLvl1.PRIMORIAL
        · rw [he] at h3
          unfold Cop3 at h3; omega
        · refine h4 2 (by omega) (by omega) ?_
          rw [show y + 2 = WheelLvl1.PRIMORIAL + 1 by omega]
          unfold Cop3; omega
      rw [decide_eq_true hwr, if_pos rfl, if_pos rfl, if_pos rfl, hδ, wsub_eq (by omega) (by omega),
        if_pos (by omega), Nat.add_sub_cancel_left]
      refine Sat.bind (is_not_coprime_sat (by omega)) ?_
      rintro _ ⟨b, rfl, hb⟩
      have hb' : b = false := by
        rw [← Bool.not_eq_true, hb]
        rintro ⟨j, hj1, hj2, hj3⟩
        exact ((cop_iff 1).1 cop_one).2 j hj1 hj2 hj3
      subst hb'
      rw [M.sat_branch_bind, LimbChoice.unwrap_ofBool]
      refine Sat.pure ⟨WheelLvl1.PRIMORIAL + 1, by omega, ?_, ?_, ?_, Or.inr ⟨rfl, rfl, hy1⟩⟩
      · have := (cop_add_mul 1 1).2 cop_one
        rwa [mul_one] at this
      · intro m hm1 hm2
        exact hskip m hm1 (by omega)
      · rwa [hδ] at h5
    · rw [decide_eq_false hwr, if_neg (by simp), if_neg (by simp), if_neg (by simp)]
      refine Sat.bind (is_not_coprime_sat (by omega)) ?_
      rintro _ ⟨b, rfl, hb⟩
      rw [M.sat_branch_bind, LimbChoice.unwrap_ofBool]
      cases b with
      | true =>
        have hnc : ¬ Cop (y + δ) := by
          intro hc
          obtain ⟨j, hj1, hj2, hj3⟩ := hb.1 rfl
          exact ((cop_iff _).1 hc).2 j hj1 hj2 hj3
        refine (produce_loop_sat hL f s' (y + δ) 1 lo le_rfl (by omega) h5 hlo (by omega)).mono ?_
        rintro ⟨s'', r⟩ ⟨V, g1, g2, g3, g4, g5⟩
        refine ⟨V, by omega, g2, ?_, g4, ?_⟩
        · intro m hm1 hm2
          rcases Nat.lt_trichotomy m (y + δ) with h | h | h
          · exact hskip m hm1 h
          · rwa [h]
          · exact g3 m h hm2
        · rcases g5 with g5 | ⟨-, -, g6, -⟩
          · exact Or.inl g5
          · exact absurd (show Cop (y + δ) by
              rw [show y + δ = WheelLvl1.PRIMORIAL - 1 by omega]; exact cop_pred) hnc
      | false =>
        refine Sat.pure ⟨y + δ, by omega, ?_, hskip, h5, Or.inl ⟨by omega, rfl⟩⟩
        refine (cop_iff _).2 ⟨h3, fun i hi1 hi2 hi3 => ?_⟩
        exact absurd (hb.2 ⟨i, hi1, hi2, hi3⟩) (by simp)

/-- The next production of the wheel leads from `X` to the first candidate from `X + k` on; the delta
reported is relative to `X - lod`. -/
structure WheelAt (s : WheelLvl1) (X k : ℕ) : Prop where
  k_le : k ≤ 1
  off : s.last_offset = X % WheelLvl1.PRIMORIAL
  lod : s.last_offset_delta ≤ s.last_offset
  lod0 : k = 1 → s.last_offset_delta = 0
  lvl0 : Lvl0At s.lvl0_wheel X k

theorem produce_next_delta_sat {s : WheelLvl1} {X k : ℕ} (h : WheelAt s X k) :
    Sat s.produce_next_delta (fun r => ∃ Y, X + k ≤ Y ∧ r.2 + X = Y + s.last_offset_delta ∧
      Cop Y ∧ (∀ m, X + k ≤ m → m < Y → ¬ Cop m) ∧ WheelAt r.1 Y 1 ∧ r.1.last_offset_delta = 0) := by
  obtain ⟨hk, ho, hd, hd0, hl⟩ := h
  obtain ⟨hP, hP30, hPB, hn3, hn15⟩ := lvl1_facts
  have hy : X % WheelLvl1.PRIMORIAL < WheelLvl1.PRIMORIAL := Nat.mod_lt _ (by omega)
  have hX := Nat.div_add_mod X WheelLvl1.PRIMORIAL
  have hmod : ∀ m, (WheelLvl1.PRIMORIAL * (X / WheelLvl1.PRIMORIAL) + m) % 30 = m % 30 := by
    intro m
    rw [Nat.add_mod, Nat.mul_mod, hP30, zero_mul, Nat.zero_mod, Nat.zero_add, Nat.mod_mod]
  have hl' : Lvl0At s.lvl0_wheel (X % WheelLvl1.PRIMORIAL) k := by
    refine hl.congr ?_
    conv_lhs => rw [← hX]
    exact hmod _
  unfold WheelLvl1.produce_next_delta
  rw [ho] at hd ⊢
  refine Sat.bind (produce_loop_sat hy.le B s.lvl0_wheel _ k _ hk hy hl' (by omega) (by omega)) ?_
  rintro ⟨s', no, nod, lo⟩ ⟨V, g1, g2, g3, g4, g5⟩
  dsimp only at g4 g5 ⊢
  generalize hq : WheelLvl1.PRIMORIAL * (X / WheelLvl1.PRIMORIAL) = Q at *
  have hcop : ∀ m, Cop (Q + m) ↔ Cop m := fun m => by rw [← hq]; exact cop_add_mul _ _
  have hY : ∀ no : ℕ, no = V % WheelLvl1.PRIMORIAL →
      X + k ≤ Q + V ∧ Cop (Q + V) ∧ (∀ m, X + k ≤ m → m < Q + V → ¬ Cop m) ∧
      WheelAt ⟨s', no, 0⟩ (Q + V) 1 := by
    rintro no rfl
    refine ⟨by omega, (hcop V).2 g2, ?_, le_rfl, ?_, Nat.zero_le _, fun _ => rfl, ?_⟩
    · intro m hm1 hm2 hc
      refine g3 (m - Q) (by omega) (by omega) ((hcop _).1 ?_)
      rwa [Nat.add_sub_cancel' (by omega)]
    · dsimp only
      rw [← hq, Nat.mul_add_mod]
    · exact g4.congr (hmod V).symm
  rcases g5 with ⟨hV, he⟩ | ⟨hV, he, hy1, hk1⟩
  · obtain ⟨rfl, rfl, rfl⟩ : no = V ∧ nod = 0 ∧ lo = X % WheelLvl1.PRIMORIAL := by
      simpa [Prod.ext_iff] using he
    rw [M.addL_eq (by omega), M.pure_bind, M.sub_eq hd, M.pure_bind, M.sub_eq (by omega), M.pure_bind]
    obtain ⟨i1, i2, i3, i4⟩ := hY no (Nat.mod_eq_of_lt hV).symm
    exact Sat.pure ⟨Q + no, i1, by dsimp only; omega, i2, i3, i4, rfl⟩
  · obtain ⟨rfl, rfl, rfl⟩ : no = 1 ∧ nod = WheelLvl1.PRIMORIAL - X % WheelLvl1.PRIMORIAL ∧ lo = 0 := by
      simpa [Prod.ext_iff] using he
    have hd1 := hd0 hk1
    rw [M.addL_eq (by omega), M.pure_bind, M.sub_eq (by omega), M.pure_bind, M.sub_eq (by omega),
      M.pure_bind]
    obtain ⟨i1, i2, i3, i4⟩ := hY 1 (by
      rw [hV, Nat.add_mod_left, Nat.mod_eq_of_lt (by omega)])
    exact Sat.pure ⟨Q + V, i1, by dsimp only; omega, i2, i3, i4, rfl⟩

theorem start_geq_than_sat (b : Buf φ) : Sat (WheelLvl1.start_geq_than b) (fun s =>
    WheelAt s (max 2 b.toNat) 0 ∧ b.toNat + s.last_offset_delta = max 2 b.toNat) := by
  obtain ⟨hP, hP30, hPB, hn3, hn15⟩ := lvl1_facts
  unfold WheelLvl1.start_geq_than
  refine Sat.bind (CtLDivisor.nonct_new_spec (by omega) (by omega)) ?_
  rintro _ ⟨d, rfl, hd, hv⟩
  rw [show M.ofOption (some d) = pure d from rfl, M.pure_bind]
  refine Sat.bind (ct_mod_mp_l_sat b hd) ?_
  rintro _ rfl
  rw [hv]
  refine Sat.bind (ct_leq_mp_l_sat b (by omega : 1 < B)) ?_
  rintro _ rfl
  have hr : b.toNat % WheelLvl1.PRIMORIAL < WheelLvl1.PRIMORIAL := Nat.mod_lt _ (by omega)
  dsimp only
  rw [LimbChoice.select_ofBool B_pos (wsub_lt)]
  have hX := Nat.div_add_mod b.toNat WheelLvl1.PRIMORIAL
  by_cases h1 : b.toNat ≤ 1
  · have he : b.toNat % WheelLvl1.PRIMORIAL = b.toNat := Nat.mod_eq_of_lt (by omega)
    rw [he, decide_eq_true h1, if_pos rfl, wsub_eq (by omega) (by omega), if_pos (by omega), M.addL_eq (by omega), M.pure_bind,
      show b.toNat + (2 - b.toNat) = 2 by omega]
    refine Sat.bind (lvl0_start 2) ?_
    intro s hs
    rw [max_eq_left (by omega : b.toNat ≤ 2)]
    refine Sat.pure ⟨⟨by omega, ?_, ?_, by omega, hs⟩, ?_⟩
    · dsimp only; rw [Nat.mod_eq_of_lt (by omega)]
    · dsimp only; rw [Nat.mod_eq_of_lt (by omega)]; omega
    · dsimp only; rw [Nat.mod_eq_of_lt (by omega)]; omega
  · rw [decide_eq_false h1, if_neg (by simp), M.addL_eq (by omega), M.pure_bind, Nat.add_zero]
    refine Sat.bind (lvl0_start _) ?_
    intro s hs
    rw [max_eq_right (by omega : 2 ≤ b.toNat)]
    refine Sat.pure ⟨⟨by omega, rfl, by simp, fun _ => rfl, hs.congr ?_⟩, by simp⟩
    conv_rhs => rw [← hX, Nat.add_mod, Nat.mul_mod, hP30, zero_mul, Nat.zero_mod, Nat.zero_add]
    rw [Nat.mod_mod]

/-- The candidates reached by `n` productions from the candidate or lower bound `c`. -/
def WheelLvl1.candidates (s : WheelLvl1) (c : ℕ) : ℕ → M (List ℕ)
  | 0 => pure []
  | n + 1 => do
    let (s, d) ← s.produce_next_delta
    let l ← s.candidates (c + d) n
    pure ((c + d) :: l)

theorem candidates_sat : ∀ (n : ℕ) {s : WheelLvl1} {X k c : ℕ}, WheelAt s X k →
    c + s.last_offset_delta = X →
    Sat (s.candidates c n) (fun l => l.length = n ∧ l.Pairwise (· < ·) ∧
      ∀ m, m ∈ l ↔ X + k ≤ m ∧ Cop m ∧ ∃ z ∈ l, m ≤ z)
  | 0, s, X, k, c, _, _ => Sat.pure ⟨rfl, List.Pairwise.nil, fun m => by simp⟩
  | n + 1, s, X, k, c, h, hc => by
    rw [WheelLvl1.candidates]
    refine Sat.bind (produce_next_delta_sat h) ?_
    rintro ⟨s', d⟩ ⟨Y, h1, h2, h3, h4, h5, h6⟩
    dsimp only at h2 h5 h6 ⊢
    have hY : c + d = Y := by omega
    rw [hY]
    refine Sat.bind (candidates_sat n h5 (c := Y) (by omega)) ?_
    rintro l ⟨g1, g2, g3⟩
    refine Sat.pure ⟨by rw [List.length_cons, g1], ?_, fun m => ?_⟩
    · exact List.Pairwise.cons (fun m hm => ((g3 m).1 hm).1) g2
    · rw [List.mem_cons, g3]
      constructor
      · rintro (rfl | ⟨i1, i2, z, i3, i4⟩)
        · exact ⟨h1, h3, m, List.mem_cons_self, le_rfl⟩
        · exact ⟨by omega, i2, z, List.mem_cons_of_mem _ i3, i4⟩
      · rintro ⟨i1, i2, z, i3, i4⟩
        rcases Nat.lt_trichotomy m Y with hm | hm | hm
        · exact absurd i2 (h4 m i1 hm)
        · exact Or.inl hm
        · refine Or.inr ⟨hm, i2, z, ?_, i4⟩
          rcases List.mem_cons.1 i3 with rfl | h7
          · omega
          · exact h7

end Cmpa
