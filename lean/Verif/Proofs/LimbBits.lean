import Verif.Proofs.Limb
import Mathlib.Data.Nat.Size
import Mathlib.Data.Int.ModEq
import Mathlib.Algebra.Ring.Divisibility.Basic
import Mathlib.Tactic.Linarith

namespace Cmpa
variable [LimbCfg]
set_option linter.unusedSectionVars false

/-! ### Congruences -/

theorem wsub_modEq {a b : ℕ} (hb : b ≤ B) : (wsub a b : ℤ) ≡ a - b [ZMOD B] := by
  unfold wsub
  push_cast [Nat.cast_sub hb]
  refine (Int.mod_modEq _ _).trans ?_
  rw [show (a : ℤ) + (B - b) = (a - b) + B by ring]
  exact Int.add_modEq_right

theorem wmul_modEq {a b : ℕ} : (wmul a b : ℤ) ≡ a * b [ZMOD B] := by
  unfold wmul; push_cast; exact Int.mod_modEq _ _

theorem wadd_modEq {a b : ℕ} : (wadd a b : ℤ) ≡ a + b [ZMOD B] := by
  unfold wadd; push_cast; exact Int.mod_modEq _ _

theorem shl_modEq {a s : ℕ} : (shl a s : ℤ) ≡ a * 2 ^ s [ZMOD B] := by
  rw [shl_eq]; push_cast; exact Int.mod_modEq _ _

/-! ### `ct_inv_mod_l` -/

theorem inv_step {v r k : ℕ} (hk : 2 ^ (k * 2) ∣ B) (h : (2 ^ k : ℤ) ∣ v * r - 1) :
    (2 ^ (k * 2) : ℤ) ∣ v * (wsub (shl r 1) (wmul (wmul v r) r) : ℕ) - 1 := by
  have h1 : ((wsub (shl r 1) (wmul (wmul v r) r) : ℕ) : ℤ) ≡ 2 * r - v * r * r [ZMOD B] := by
    refine (wsub_modEq wmul_lt.le).trans ?_
    refine Int.ModEq.sub ?_ ?_
    · refine shl_modEq.trans ?_
      rw [show (r : ℤ) * 2 ^ 1 = 2 * r by ring]
    · exact wmul_modEq.trans (wmul_modEq.mul_right _)
  have h2 : ((2 ^ (k * 2) : ℕ) : ℤ) ∣ B := Int.natCast_dvd_natCast.2 hk
  have h3 := ((h1.mul_left v).sub_right 1).of_dvd h2
  have h4 : ((2 ^ (k * 2) : ℕ) : ℤ) ∣ (v : ℤ) * (2 * r - v * r * r) - 1 := by
    obtain ⟨t, ht⟩ := h
    refine ⟨- t ^ 2, ?_⟩
    have : (v : ℤ) * (2 * r - v * r * r) - 1 = - (v * r - 1) ^ 2 := by ring
    rw [this, ht]; push_cast; rw [pow_mul]; ring
  have := (Int.ModEq.dvd_iff h3).2 h4
  exact_mod_cast this

theorem ct_inv_mod_l_loop_spec (v : ℕ) :
    ∀ (j fuel k r : ℕ), j ≤ fuel → k * 2 ^ j = W → (2 ^ k : ℤ) ∣ v * r - 1 → r < B →
      (B : ℤ) ∣ v * (ct_inv_mod_l_loop v fuel k r : ℕ) - 1 ∧ ct_inv_mod_l_loop v fuel k r < B := by
  intro j
  induction j with
  | zero =>
    intro fuel k r _ hk hr hlt
    have hk : k = W := by simpa using hk
    subst hk
    have : ct_inv_mod_l_loop v fuel W r = r := by
      cases fuel <;> simp [ct_inv_mod_l_loop]
    rw [this]
    exact ⟨by rw [B_eq_two_pow]; exact_mod_cast hr, hlt⟩
  | succ j ih =>
    intro fuel k r hf hk hr hlt
    obtain ⟨fuel, rfl⟩ : ∃ f, fuel = f + 1 := ⟨fuel - 1, by omega⟩
    have hk0 : 0 < k := by
      rcases Nat.eq_zero_or_pos k with h | h
      · subst h; have := W_pos; omega
      · exact h
    have hj := Nat.two_pow_pos j
    have hk2 : k * 2 * 2 ^ j = W := by rw [← hk, pow_succ]; ring
    have hkW : k * 2 ≤ W := by rw [← hk2]; exact Nat.le_mul_of_pos_right _ hj
    have : k < W := by omega
    unfold ct_inv_mod_l_loop
    rw [if_pos this]
    refine ih fuel (k * 2) _ (by omega) hk2 (inv_step ?_ hr) wsub_lt
    rw [B_eq_two_pow]; exact pow_dvd_pow _ hkW

theorem ct_inv_mod_l_spec {v : ℕ} (hodd : v % 2 = 1) :
    ∃ r, ct_inv_mod_l v = pure r ∧ r < B ∧ v * r % B = 1 := by
  unfold ct_inv_mod_l
  rw [M.assert_eq (by rw [Nat.and_one_is_mod]; exact hodd), M.pure_bind]
  refine ⟨_, rfl, ?_⟩
  have h2 : (2 ^ 1 : ℤ) ∣ v * (1 : ℕ) - 1 := by push_cast; omega
  have key : (B : ℤ) ∣ v * (ct_inv_mod_l_loop v W 1 1 : ℕ) - 1 ∧ ct_inv_mod_l_loop v W 1 1 < B := by
    rcases W_cases with h | h
    · exact ct_inv_mod_l_loop_spec v 5 W 1 1 (by omega) (by omega) h2 one_lt_B
    · exact ct_inv_mod_l_loop_spec v 6 W 1 1 (by omega) (by omega) h2 one_lt_B
  refine ⟨key.2, ?_⟩
  have h3 : (v * ct_inv_mod_l_loop v W 1 1 : ℤ) ≡ 1 [ZMOD B] :=
    Int.modEq_iff_dvd.2 (by have := key.1; rw [← dvd_neg]; simpa using this)
  have h4 : ((v * ct_inv_mod_l_loop v W 1 1 : ℕ) : ℤ) % B = 1 % B := by exact_mod_cast h3
  have h5 : v * ct_inv_mod_l_loop v W 1 1 % B = 1 % B := by exact_mod_cast h4
  rw [h5, Nat.mod_eq_of_lt one_lt_B]

/-! ### Bit scanning -/

theorem size_eq_of {v n : ℕ} (h1 : v < 2 ^ n) (h2 : n = 0 ∨ 2 ^ (n - 1) ≤ v) : Nat.size v = n := by
  apply le_antisymm
  · exact Nat.size_le.2 h1
  · rcases h2 with h | h
    · omega
    · have := Nat.lt_size.2 h; omega

theorem size_bounds {v : ℕ} (h : v ≠ 0) : 0 < Nat.size v ∧ 2 ^ (Nat.size v - 1) ≤ v ∧ v < 2 ^ Nat.size v := by
  have h0 : 0 < Nat.size v := Nat.size_pos.2 (Nat.pos_of_ne_zero h)
  exact ⟨h0, Nat.lt_size.1 (by omega), Nat.lt_size_self v⟩

/-- bit length of a number with non-zero part above bit `b` -/
theorem size_add_div {v b : ℕ} (h : v / 2 ^ b ≠ 0) : Nat.size v = b + Nat.size (v / 2 ^ b) := by
  obtain ⟨h0, h1, h2⟩ := size_bounds h
  apply size_eq_of
  · rw [pow_add]
    have := Nat.div_add_mod v (2 ^ b)
    have hm := Nat.mod_lt v (Nat.two_pow_pos b)
    calc v < 2 ^ b * (v / 2 ^ b + 1) := by rw [mul_add]; omega
      _ ≤ 2 ^ b * 2 ^ Nat.size (v / 2 ^ b) := Nat.mul_le_mul_left _ h2
  · right
    rw [show b + Nat.size (v / 2 ^ b) - 1 = b + (Nat.size (v / 2 ^ b) - 1) by omega, pow_add]
    calc 2 ^ b * 2 ^ (Nat.size (v / 2 ^ b) - 1) ≤ 2 ^ b * (v / 2 ^ b) := Nat.mul_le_mul_left _ h1
      _ ≤ v := Nat.mul_div_le v _

theorem shr_mask {b : ℕ} : shr (2 ^ (b + b) - 1) b = 2 ^ b - 1 := by
  rw [shr_eq, pow_add]
  have hb := Nat.two_pow_pos b
  have : 2 ^ b * 2 ^ b - 1 = 2 ^ b * (2 ^ b - 1) + (2 ^ b - 1) := by
    obtain ⟨k, hk⟩ : ∃ k, 2 ^ b = k + 1 := ⟨2 ^ b - 1, by omega⟩
    rw [hk]
    have : (k + 1) * (k + 1) = (k + 1) * k + k + 1 := by ring
    rw [this]; simp
  rw [this, Nat.mul_add_div hb, Nat.div_eq_of_lt (by omega)]; omega

theorem fls_loop_spec :
    ∀ (j fuel v count : ℕ), j ≤ fuel → 2 ^ j ≤ W → v < 2 ^ 2 ^ j →
      ∃ v' c', ct_find_last_set_bit_l_loop fuel (2 ^ j) (2 ^ 2 ^ j - 1) v count = (v', c') ∧
        v' ≤ 1 ∧ c' + v' = count + Nat.size v := by
  intro j
  induction j with
  | zero =>
    intro fuel v count _ _ hv
    refine ⟨v, count, ?_, by simpa using Nat.le_of_lt_succ hv, ?_⟩
    · cases fuel <;> simp [ct_find_last_set_bit_l_loop]
    · have : v = 0 ∨ v = 1 := by simp at hv; omega
      rcases this with rfl | rfl <;> simp
  | succ j ih =>
    intro fuel v count hf hj hv
    obtain ⟨fuel, rfl⟩ : ∃ f, fuel = f + 1 := ⟨fuel - 1, by omega⟩
    have hp := Nat.two_pow_pos j
    have e2 : 2 ^ (j + 1) = 2 ^ j + 2 ^ j := by rw [pow_succ]; ring
    have hd : 2 ^ (j + 1) / 2 = 2 ^ j := by omega
    have hvB : v < B := lt_of_lt_of_le hv (Nat.pow_le_pow_right (by norm_num) hj)
    have hmask : v &&& (2 ^ 2 ^ j - 1) = v % 2 ^ 2 ^ j := Nat.and_two_pow_sub_one_eq_mod _ _
    have hvl : v % 2 ^ 2 ^ j < 2 ^ 2 ^ j := Nat.mod_lt _ (Nat.two_pow_pos _)
    have hvh : v / 2 ^ 2 ^ j < 2 ^ 2 ^ j := by
      apply Nat.div_lt_of_lt_mul; rw [← pow_add, ← e2]; exact hv
    have hvhB : v / 2 ^ 2 ^ j < B := lt_of_le_of_lt (Nat.div_le_self _ _) hvB
    have hvlB : v % 2 ^ 2 ^ j < B := lt_of_le_of_lt (Nat.mod_le _ _) hvB
    have hbB : 2 ^ j < B := lt_of_lt_of_le (by omega : 2 ^ j < W + 1)
      (by unfold B; exact Nat.lt_two_pow_self)
    unfold ct_find_last_set_bit_l_loop
    rw [if_pos (by omega), hd]
    dsimp only
    rw [show 2 ^ 2 ^ (j + 1) - 1 = 2 ^ (2 ^ j + 2 ^ j) - 1 by rw [e2], shr_mask, hmask, shr_eq,
      ct_neq_l_l_eq hvhB B_pos, LimbChoice.select_ofBool hvlB hvhB,
      LimbChoice.select_ofBool B_pos hbB]
    by_cases h0 : v / 2 ^ 2 ^ j = 0
    · simp only [h0, ne_eq, not_true_eq_false, decide_false, Bool.false_eq_true, if_false]
      have hlt : v < 2 ^ 2 ^ j := by
        rcases Nat.div_eq_zero_iff.1 h0 with h | h
        · exact absurd h (Nat.two_pow_pos _).ne'
        · exact h
      rw [Nat.mod_eq_of_lt hlt]
      exact ih fuel v _ (by omega) (by omega) hlt
    · simp only [h0, ne_eq, not_false_eq_true, decide_true, if_true]
      obtain ⟨v', c', he, hv', hc'⟩ := ih fuel _ (count + 2 ^ j) (by omega) (by omega) hvh
      refine ⟨v', c', he, hv', ?_⟩
      rw [hc', size_add_div h0]; omega

theorem ct_find_last_set_bit_l_eq {v : ℕ} (hv : v < B) :
    ct_find_last_set_bit_l v = pure (Nat.size v) := by
  unfold ct_find_last_set_bit_l
  have key : ∃ v' c', ct_find_last_set_bit_l_loop W W lmax v 0 = (v', c') ∧
        v' ≤ 1 ∧ c' + v' = 0 + Nat.size v := by
    have hl : lmax = 2 ^ W - 1 := rfl
    unfold B at hv
    rw [hl]
    rcases W_cases with h | h <;> rw [h] at hv ⊢
    · exact fls_loop_spec 5 32 v 0 (by omega) (by omega) hv
    · exact fls_loop_spec 6 64 v 0 (by omega) (by omega) hv
  obtain ⟨v', c', he, h1, h2⟩ := key
  rw [he]; dsimp only
  rw [M.assert_eq h1, M.pure_bind, h2, zero_add]

theorem ct_find_last_set_byte_l_eq {v : ℕ} (hv : v < B) :
    ct_find_last_set_byte_l v = pure ((Nat.size v + 7) / 8) := by
  unfold ct_find_last_set_byte_l
  rw [ct_find_last_set_bit_l_eq hv, M.pure_bind]; rfl

/-- `t` is the number of trailing zero bits of `v`, or `n` for `v = 0` -/
def IsTz (n v t : ℕ) : Prop := (v = 0 ∧ t = n) ∨ (v ≠ 0 ∧ 2 ^ t ∣ v ∧ ¬ 2 ^ (t + 1) ∣ v)

theorem ffs_loop_spec :
    ∀ (j fuel v count : ℕ), j ≤ fuel → 2 ^ j ≤ W → v < 2 ^ 2 ^ j → 2 ^ j ≤ count →
      ∃ v' c' t, ct_find_first_set_bit_l_loop fuel (2 ^ j) (2 ^ 2 ^ j - 1) v count = pure (v', c') ∧
        v' ≤ 1 ∧ v' ≤ c' ∧ IsTz (2 ^ j) v t ∧ c' - v' = count - 2 ^ j + t := by
  intro j
  induction j with
  | zero =>
    intro fuel v count _ _ hv hc
    have hv' : v = 0 ∨ v = 1 := by simp at hv; omega
    refine ⟨v, count, 1 - v, ?_, by omega, by simp at hc; omega, ?_, ?_⟩
    · cases fuel <;> simp [ct_find_first_set_bit_l_loop]
    · rcases hv' with rfl | rfl <;> simp [IsTz]
    · simp at hc; rcases hv' with rfl | rfl <;> simp; omega
  | succ j ih =>
    intro fuel v count hf hj hv hc
    obtain ⟨fuel, rfl⟩ : ∃ f, fuel = f + 1 := ⟨fuel - 1, by omega⟩
    have hp := Nat.two_pow_pos j
    have e2 : 2 ^ (j + 1) = 2 ^ j + 2 ^ j := by rw [pow_succ]; ring
    have hd : 2 ^ (j + 1) / 2 = 2 ^ j := by omega
    have hvB : v < B := lt_of_lt_of_le hv (Nat.pow_le_pow_right (by norm_num) hj)
    have hmask : v &&& (2 ^ 2 ^ j - 1) = v % 2 ^ 2 ^ j := Nat.and_two_pow_sub_one_eq_mod _ _
    have hvl : v % 2 ^ 2 ^ j < 2 ^ 2 ^ j := Nat.mod_lt _ (Nat.two_pow_pos _)
    have hvh : v / 2 ^ 2 ^ j < 2 ^ 2 ^ j := by
      apply Nat.div_lt_of_lt_mul; rw [← pow_add, ← e2]; exact hv
    have hvhB : v / 2 ^ 2 ^ j < B := lt_of_le_of_lt (Nat.div_le_self _ _) hvB
    have hvlB : v % 2 ^ 2 ^ j < B := lt_of_le_of_lt (Nat.mod_le _ _) hvB
    have hbB : 2 ^ j < B := lt_of_lt_of_le (by omega : 2 ^ j < W + 1)
      (by unfold B; exact Nat.lt_two_pow_self)
    unfold ct_find_first_set_bit_l_loop
    rw [if_pos (by omega), hd]
    dsimp only
    rw [show 2 ^ 2 ^ (j + 1) - 1 = 2 ^ (2 ^ j + 2 ^ j) - 1 by rw [e2], shr_mask, hmask, shr_eq,
      ct_neq_l_l_eq hvlB B_pos, LimbChoice.select_ofBool hvhB hvlB,
      LimbChoice.select_ofBool B_pos hbB]
    have edm := Nat.div_add_mod v (2 ^ 2 ^ j)
    by_cases h0 : v % 2 ^ 2 ^ j = 0
    · simp only [h0, ne_eq, not_true_eq_false, decide_false, Bool.false_eq_true, if_false]
      rw [M.sub_eq (Nat.zero_le _), M.pure_bind]
      obtain ⟨v', c', t, he, h1, h2, ht, hres⟩ := ih fuel _ (count - 0) (by omega) (by omega) hvh
        (by omega)
      refine ⟨v', c', 2 ^ j + t, he, h1, h2, ?_, by omega⟩
      rcases ht with ⟨hz, ht⟩ | ⟨hnz, hd1, hd2⟩
      · left; rw [hz, h0] at edm; omega
      · right
        rw [h0, add_zero] at edm
        refine ⟨?_, ?_, ?_⟩
        · rintro rfl; simp at hnz
        · rw [← edm, pow_add]; exact Nat.mul_dvd_mul_left _ hd1
        · rw [← edm, add_assoc, pow_add]
          intro hdv
          exact hd2 (Nat.dvd_of_mul_dvd_mul_left (Nat.two_pow_pos _) hdv)
    · simp only [h0, ne_eq, not_false_eq_true, decide_true, if_true]
      rw [M.sub_eq (by omega), M.pure_bind]
      obtain ⟨v', c', t, he, h1, h2, ht, hres⟩ := ih fuel _ (count - 2 ^ j) (by omega) (by omega) hvl
        (by omega)
      refine ⟨v', c', t, he, h1, h2, ?_, by omega⟩
      rcases ht with ⟨hz, ht⟩ | ⟨hnz, hd1, hd2⟩
      · exact absurd hz h0
      · right
        have htl : t < 2 ^ j := by
          by_contra hcon
          have : 2 ^ 2 ^ j ≤ v % 2 ^ 2 ^ j :=
            le_trans (Nat.pow_le_pow_right (by norm_num) (by omega))
              (Nat.le_of_dvd (Nat.pos_of_ne_zero hnz) hd1)
          omega
        have hdj : 2 ^ t ∣ 2 ^ 2 ^ j := pow_dvd_pow _ (by omega)
        have hdj1 : 2 ^ (t + 1) ∣ 2 ^ 2 ^ j := pow_dvd_pow _ (by omega)
        refine ⟨?_, ?_, ?_⟩
        · rintro rfl; simp at hnz
        · rw [← edm]; exact dvd_add (Dvd.dvd.mul_right hdj _) hd1
        · intro hdv
          rw [← edm] at hdv
          exact hd2 ((Nat.dvd_add_right (Dvd.dvd.mul_right hdj1 _)).1 hdv)

theorem ct_find_first_set_bit_l_spec {v : ℕ} (hv : v < B) :
    ∃ t, ct_find_first_set_bit_l v = pure t ∧ IsTz W v t := by
  unfold ct_find_first_set_bit_l
  have key : ∃ v' c' t, ct_find_first_set_bit_l_loop W W lmax v W = pure (v', c') ∧
        v' ≤ 1 ∧ v' ≤ c' ∧ IsTz W v t ∧ c' - v' = W - W + t := by
    have hl : lmax = 2 ^ W - 1 := rfl
    unfold B at hv
    rw [hl]
    rcases W_cases with h | h <;> rw [h] at hv ⊢
    · exact ffs_loop_spec 5 32 v 32 (by omega) (by omega) hv (by omega)
    · exact ffs_loop_spec 6 64 v 64 (by omega) (by omega) hv (by omega)
  obtain ⟨v', c', t, he, h1, h2, ht, h3⟩ := key
  rw [he, M.pure_bind]; dsimp only
  rw [M.assert_eq h1, M.pure_bind, M.sub_eq h2]
  exact ⟨t, by rw [h3]; simp, ht⟩

theorem IsTz.unique {n v t s : ℕ} (ht : IsTz n v t) (hs : IsTz n v s) : t = s := by
  rcases ht with ⟨h1, h2⟩ | ⟨h1, h2, h3⟩ <;> rcases hs with ⟨g1, g2⟩ | ⟨g1, g2, g3⟩
  · omega
  · exact absurd h1 g1
  · exact absurd g1 h1
  · rcases lt_trichotomy t s with h | h | h
    · exact absurd ((pow_dvd_pow 2 (by omega : t + 1 ≤ s)).trans g2) h3
    · exact h
    · exact absurd ((pow_dvd_pow 2 (by omega : s + 1 ≤ t)).trans h2) g3

/-! ### Shifts -/

theorem or_eq_add_of_lt {a b i : ℕ} (h : b < 2 ^ i) : a * 2 ^ i ||| b = a * 2 ^ i + b := by
  rw [← Nat.shiftLeft_eq, Nat.shiftLeft_add_eq_or_of_lt h]

theorem ct_negate_l_eq {v : ℕ} (hv : v < B) : ct_negate_l v = (B - v) % B := by
  unfold ct_negate_l wadd bnot; congr 1; omega

/-- Arithmetic right shift: `floor` division of the signed value. -/
theorem ct_arithmetic_rshift_l_spec {v s : ℕ} (hv : v < B) (hs : s ≤ W) :
    ∃ r, ct_arithmetic_rshift_l v s = pure r ∧ r < B ∧
      (if v < 2 ^ (W - 1) then r = v / 2 ^ s else r + 2 ^ (W - s) = B + v / 2 ^ s) := by
  unfold ct_arithmetic_rshift_l
  have hWB : W < B := by unfold B; exact Nat.lt_two_pow_self
  have hsB : s < B := lt_of_le_of_lt hs hWB
  rw [ct_is_nonzero_l_eq hsB, LimbChoice.new_ite, LimbChoice.select_ofBool B_pos lmax_lt,
    ct_eq_l_l_eq hsB hWB, LimbChoice.select_ofBool lmax_lt B_pos, shr_top hv, M.sub_eq hs,
    M.pure_bind]
  have hp : 0 < 2 ^ (W - s) := Nat.two_pow_pos _
  have hBs : B = 2 ^ (W - s) * 2 ^ s := by rw [← pow_add, B_eq_two_pow]; congr 1; omega
  have hdiv : v / 2 ^ s < 2 ^ (W - s) := by
    apply Nat.div_lt_of_lt_mul; rw [mul_comm, ← hBs]; exact hv
  have hple : 2 ^ (W - s) ≤ B := by
    rw [B_eq_two_pow]; exact Nat.pow_le_pow_right (by norm_num) (by omega)
  -- the shifted value
  have hval : (shr v (s &&& (if decide (s = W) = true then 0 else lmax)) &&&
      (if decide (s = W) = true then 0 else lmax)) = v / 2 ^ s := by
    by_cases h : s = W
    · subst h; simp; exact (Nat.div_eq_of_lt hv).symm
    · simp only [h, decide_false, Bool.false_eq_true, if_false]
      rw [and_lmax hsB, and_lmax (shr_lt hv), shr_eq]
  dsimp only
  rw [hval]
  refine ⟨_, rfl, ?_⟩
  by_cases h0 : s = 0
  · subst h0
    simp only [ne_eq, not_true_eq_false, decide_false, Bool.false_eq_true, if_false, Nat.and_zero,
      Nat.zero_or, pow_zero, Nat.div_one, Nat.sub_zero]
    refine ⟨hv, ?_⟩
    split
    · trivial
    · rw [← B_eq_two_pow]; omega
  · simp only [ne_eq, h0, not_false_eq_true, decide_true, if_true]
    rw [and_lmax (by omega : W - s < B), and_lmax shl_lt]
    by_cases hn : v < 2 ^ (W - 1)
    · rw [if_neg (by omega : ¬ 2 ^ (W - 1) ≤ v), if_pos hn]
      have : wsub 0 0 = 0 := by simp [wsub]
      rw [this, shl_eq]; simp
      omega
    · rw [if_pos (by omega : 2 ^ (W - 1) ≤ v), if_neg hn]
      have h1 : wsub 0 1 = B - 1 := by rw [wsub_eq B_pos one_lt_B]; simp
      have h2 : shl (B - 1) (W - s) = (2 ^ s - 1) * 2 ^ (W - s) := by
        rw [shl_eq]
        have hs2 : 0 < 2 ^ s := Nat.two_pow_pos s
        have e1 : (2 ^ s - 1) * 2 ^ (W - s) + 2 ^ (W - s) = B := by
          rw [hBs, Nat.sub_mul, one_mul, mul_comm]
          apply Nat.sub_add_cancel
          calc 2 ^ (W - s) = 2 ^ (W - s) * 1 := by ring
            _ ≤ 2 ^ (W - s) * 2 ^ s := Nat.mul_le_mul_left _ hs2
        have e2 : (B - 1) * 2 ^ (W - s) = B * (2 ^ (W - s) - 1) + (2 ^ s - 1) * 2 ^ (W - s) := by
          have hB := B_pos
          obtain ⟨p, hp⟩ : ∃ p, 2 ^ (W - s) = p + 1 := ⟨2 ^ (W - s) - 1, by omega⟩
          obtain ⟨q, hq⟩ : ∃ q, B = q + 1 := ⟨B - 1, by omega⟩
          have e1' : (2 ^ s - 1) * 2 ^ (W - s) = q - p := by omega
          rw [e1', hp, hq]
          simp
          have hpq : p ≤ q := by omega
          have : (q + 1) * p + (q - p) = q * p + q := by
            have : (q + 1) * p = q * p + p := by ring
            omega
          rw [this]; ring
        rw [e2, Nat.mul_add_mod, Nat.mod_eq_of_lt (by omega)]
      rw [h1, h2, or_eq_add_of_lt hdiv]
      have e1 : (2 ^ s - 1) * 2 ^ (W - s) + 2 ^ (W - s) = B := by
        have hs2 : 0 < 2 ^ s := Nat.two_pow_pos s
        rw [hBs, Nat.sub_mul, one_mul, mul_comm]
        apply Nat.sub_add_cancel
        calc 2 ^ (W - s) = 2 ^ (W - s) * 1 := by ring
          _ ≤ 2 ^ (W - s) * 2 ^ s := Nat.mul_le_mul_left _ hs2
      omega

end Cmpa
