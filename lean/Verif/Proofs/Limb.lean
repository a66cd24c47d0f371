import Verif.Model.Limb
import Mathlib.Data.Nat.Bitwise
import Mathlib.Tactic.IntervalCases

namespace Cmpa
variable [LimbCfg]

/-! ### Bit operation basics -/

theorem lmax_lt : lmax < B := by unfold lmax; have := B_pos; omega

theorem lmax_and {x : ℕ} (h : x < B) : lmax &&& x = x := by
  unfold lmax B at *
  rw [Nat.and_comm, Nat.and_two_pow_sub_one_eq_mod, Nat.mod_eq_of_lt h]

theorem and_lmax {x : ℕ} (h : x < B) : x &&& lmax = x := by rw [Nat.and_comm, lmax_and h]

theorem and_lt {x y : ℕ} (h : x < B) : x &&& y < B := lt_of_le_of_lt Nat.and_le_left h
theorem and_lt' {x y : ℕ} (h : y < B) : x &&& y < B := lt_of_le_of_lt Nat.and_le_right h
theorem or_lt {x y : ℕ} (hx : x < B) (hy : y < B) : x ||| y < B := Nat.or_lt_two_pow hx hy
theorem xor_lt {x y : ℕ} (hx : x < B) (hy : y < B) : x ^^^ y < B := Nat.xor_lt_two_pow hx hy
theorem shl_lt {x s : ℕ} : shl x s < B := Nat.mod_lt _ B_pos
theorem shr_lt {x s : ℕ} (h : x < B) : shr x s < B :=
  lt_of_le_of_lt (by unfold shr; rw [Nat.shiftRight_eq_div_pow]; exact Nat.div_le_self _ _) h
theorem bnot_lt {x : ℕ} : bnot x < B := by unfold bnot; have := B_pos; omega
theorem wadd_lt {x y : ℕ} : wadd x y < B := Nat.mod_lt _ B_pos
theorem wsub_lt {x y : ℕ} : wsub x y < B := Nat.mod_lt _ B_pos
theorem wmul_lt {x y : ℕ} : wmul x y < B := Nat.mod_lt _ B_pos
theorem wneg_lt {x : ℕ} : wneg x < B := Nat.mod_lt _ B_pos

theorem shr_eq (x s : ℕ) : shr x s = x / 2 ^ s := Nat.shiftRight_eq_div_pow x s
theorem shl_eq (x s : ℕ) : shl x s = x * 2 ^ s % B := by
  unfold shl; rw [Nat.shiftLeft_eq]

theorem wadd_eq {a b : ℕ} (ha : a < B) (hb : b < B) :
    wadd a b = if a + b < B then a + b else a + b - B := by
  unfold wadd
  split
  · rw [Nat.mod_eq_of_lt (by assumption)]
  · rw [Nat.mod_eq_sub_mod (by omega), Nat.mod_eq_of_lt (by omega)]

theorem wsub_eq {a b : ℕ} (ha : a < B) (hb : b < B) :
    wsub a b = if b ≤ a then a - b else a + B - b := by
  unfold wsub
  split
  · rw [Nat.mod_eq_sub_mod (by omega), Nat.mod_eq_of_lt (by omega)]; omega
  · rw [Nat.mod_eq_of_lt (by omega)]; omega

theorem wneg_eq {a : ℕ} (ha : a < B) : wneg a = if a = 0 then 0 else B - a := by
  unfold wneg
  split
  · subst a; simp
  · rw [Nat.mod_eq_of_lt (by omega)]

/-- the top bit of a limb is 0 or 1 -/
theorem top_cases {x : ℕ} (h : x < B) :
    (x < 2 ^ (W - 1) ∧ x >>> (W - 1) = 0) ∨ (2 ^ (W - 1) ≤ x ∧ x >>> (W - 1) = 1) := by
  rw [Nat.shiftRight_eq_div_pow]
  rw [B_half] at h
  have hp := Nat.two_pow_pos (W - 1)
  rcases lt_or_ge x (2 ^ (W - 1)) with h1 | h1
  · exact Or.inl ⟨h1, Nat.div_eq_of_lt h1⟩
  · refine Or.inr ⟨h1, ?_⟩
    apply Nat.div_eq_of_lt_le <;> omega

theorem shr_top {x : ℕ} (h : x < B) : shr x (W - 1) = if 2 ^ (W - 1) ≤ x then 1 else 0 := by
  unfold shr
  rcases top_cases h with ⟨h1, h2⟩ | ⟨h1, h2⟩ <;> rw [h2]
  · rw [if_neg (by omega)]
  · rw [if_pos h1]

/-! ### `LimbChoice` -/

/-- The choice representing a Boolean. -/
def LimbChoice.ofBool (b : Bool) : LimbChoice := ⟨if b then lmax else 0⟩

theorem LimbChoice.new_ite (p : Prop) [Decidable p] :
    LimbChoice.new (if p then 1 else 0) = LimbChoice.ofBool (decide p) := by
  unfold LimbChoice.new LimbChoice.ofBool wsub lmax
  have := one_lt_B
  by_cases h : p <;> simp [h]

@[simp] theorem LimbChoice.new_zero : LimbChoice.new 0 = LimbChoice.ofBool false :=
  LimbChoice.new_ite False
@[simp] theorem LimbChoice.new_one : LimbChoice.new 1 = LimbChoice.ofBool true :=
  LimbChoice.new_ite True

theorem LimbChoice.from'_eq {c : ℕ} (h : c ≤ 1) :
    LimbChoice.from' c = pure (LimbChoice.ofBool (decide (c = 1))) := by
  unfold LimbChoice.from'
  have hc : c = 0 ∨ c = 1 := by omega
  rw [M.assert_eq hc]
  rcases hc with rfl | rfl <;> simp

@[simp] theorem LimbChoice.unwrap_ofBool (b : Bool) :
    (LimbChoice.ofBool b).unwrap = if b then 1 else 0 := by
  unfold LimbChoice.unwrap LimbChoice.ofBool
  cases b
  · simp
  · simp [lmax_and one_lt_B]

theorem LimbChoice.select_ofBool {b : Bool} {x y : ℕ} (hx : x < B) (hy : y < B) :
    (LimbChoice.ofBool b).select x y = if b then y else x := by
  unfold LimbChoice.select LimbChoice.ofBool
  cases b
  · simp
  · simp [lmax_and (xor_lt hx hy)]

@[simp] theorem LimbChoice.select_usize_ofBool {b : Bool} {x y : ℕ} :
    (LimbChoice.ofBool b).select_usize x y = if b then y else x := by
  unfold LimbChoice.select_usize
  cases b <;> simp

@[simp] theorem LimbChoice.not_ofBool (b : Bool) :
    (LimbChoice.ofBool b).not = LimbChoice.ofBool (!b) := by
  unfold LimbChoice.not LimbChoice.ofBool bnot lmax
  cases b <;> simp

@[simp] theorem LimbChoice.and_ofBool (a b : Bool) :
    (LimbChoice.ofBool a).and (LimbChoice.ofBool b) = LimbChoice.ofBool (a && b) := by
  unfold LimbChoice.and LimbChoice.ofBool
  cases a <;> cases b <;> simp

@[simp] theorem LimbChoice.or_ofBool (a b : Bool) :
    (LimbChoice.ofBool a).or (LimbChoice.ofBool b) = LimbChoice.ofBool (a || b) := by
  unfold LimbChoice.or LimbChoice.ofBool
  cases a <;> cases b <;> simp

/-! ### Comparisons, addition, subtraction -/

theorem ct_is_nonzero_l_eq {v : ℕ} (hv : v < B) :
    ct_is_nonzero_l v = if v ≠ 0 then 1 else 0 := by
  unfold ct_is_nonzero_l shr
  rw [Nat.shiftRight_or_distrib]
  have hB := B_half
  have hp := Nat.two_pow_pos (W - 1)
  have hn := wneg_eq hv
  by_cases h0 : v = 0
  · subst h0; simp [wneg]
  · rw [if_neg h0] at hn
    rcases top_cases hv with ⟨h1, h2⟩ | ⟨h1, h2⟩ <;>
      rcases top_cases (wneg_lt (x := v)) with ⟨h3, h4⟩ | ⟨h3, h4⟩ <;>
      rw [h2, h4] <;> simp [h0] <;> omega

theorem ct_is_zero_l_eq {v : ℕ} (hv : v < B) :
    ct_is_zero_l v = if v = 0 then 1 else 0 := by
  unfold ct_is_zero_l
  rw [ct_is_nonzero_l_eq hv]
  by_cases h : v = 0 <;> simp [h]

theorem ct_eq_l_l_eq {a b : ℕ} (ha : a < B) (hb : b < B) :
    ct_eq_l_l a b = .ofBool (decide (a = b)) := by
  unfold ct_eq_l_l
  rw [ct_is_zero_l_eq (xor_lt ha hb), LimbChoice.new_ite]
  congr 1
  simp [Nat.xor_eq_zero_iff]

theorem ct_neq_l_l_eq {a b : ℕ} (ha : a < B) (hb : b < B) :
    ct_neq_l_l a b = .ofBool (decide (a ≠ b)) := by
  unfold ct_neq_l_l
  rw [ct_eq_l_l_eq ha hb]; simp

theorem ct_add_l_l_eq {a b : ℕ} (ha : a < B) (hb : b < B) :
    ct_add_l_l a b = ((a + b) / B, (a + b) % B) := by
  unfold ct_add_l_l
  refine Prod.ext ?_ rfl
  have hr := wadd_eq ha hb
  show shr _ _ = _
  unfold shr
  rw [Nat.shiftRight_or_distrib, Nat.shiftRight_and_distrib, Nat.shiftRight_or_distrib,
    Nat.shiftRight_and_distrib]
  have hB := B_half
  have hn : bnot (wadd a b) = B - 1 - wadd a b := rfl
  have key : (a + b) / B = if a + b < B then 0 else 1 := by
    split
    · exact Nat.div_eq_of_lt (by assumption)
    · exact Nat.div_eq_of_lt_le (by omega) (by omega)
  rw [key]
  rcases top_cases ha with ⟨h1, h2⟩ | ⟨h1, h2⟩ <;>
    rcases top_cases hb with ⟨h3, h4⟩ | ⟨h3, h4⟩ <;>
    rcases top_cases (bnot_lt (x := wadd a b)) with ⟨h5, h6⟩ | ⟨h5, h6⟩ <;>
    rw [h2, h4, h6] <;> split at hr <;> split <;> simp <;> omega

theorem ct_sub_l_l_eq {a b : ℕ} (ha : a < B) (hb : b < B) :
    ct_sub_l_l a b = (if a < b then 1 else 0, if b ≤ a then a - b else a + B - b) := by
  unfold ct_sub_l_l
  have hr := wsub_eq ha hb
  refine Prod.ext ?_ hr
  show shr _ _ = _
  unfold shr
  rw [Nat.shiftRight_or_distrib, Nat.shiftRight_and_distrib, Nat.shiftRight_or_distrib,
    Nat.shiftRight_and_distrib]
  have hB := B_half
  have hn : bnot a = B - 1 - a := rfl
  show _ = if a < b then 1 else 0
  rcases top_cases (wsub_lt (x := a) (y := b)) with ⟨h1, h2⟩ | ⟨h1, h2⟩ <;>
    rcases top_cases hb with ⟨h3, h4⟩ | ⟨h3, h4⟩ <;>
    rcases top_cases (bnot_lt (x := a)) with ⟨h5, h6⟩ | ⟨h5, h6⟩ <;>
    rw [h2, h4, h6] <;> split at hr <;> split <;> simp <;> omega

/-- Subtraction in terms of an equation. -/
theorem ct_sub_l_l_spec {a b : ℕ} (ha : a < B) (hb : b < B) :
    ∃ w d, ct_sub_l_l a b = (w, d) ∧ w ≤ 1 ∧ d < B ∧ a + w * B = b + d ∧ (w = 1 ↔ a < b) := by
  refine ⟨_, _, ct_sub_l_l_eq ha hb, ?_⟩
  by_cases h : a < b
  · simp [h, show ¬ b ≤ a by omega]; omega
  · simp [h, show b ≤ a by omega]; omega

theorem ct_lt_or_eq_l_l_eq {a b : ℕ} (ha : a < B) (hb : b < B) :
    ct_lt_or_eq_l_l a b = pure (if a < b then 1 else 0, if a = b then 1 else 0) := by
  unfold ct_lt_or_eq_l_l
  rw [ct_sub_l_l_eq ha hb]
  dsimp only
  rw [M.assert_eq]
  · simp only [M.pure_bind]
    rw [ct_is_zero_l_eq]
    · congr 2
      by_cases h : b ≤ a
      · simp [h]; by_cases h' : a = b
        · simp [h']
        · simp [h']; omega
      · simp [h]; split <;> split <;> omega
    · split <;> omega
  · by_cases h : a < b
    · left; rw [if_neg (by omega)]; omega
    · right; simp [h]

theorem ct_lt_l_l_eq {a b : ℕ} (ha : a < B) (hb : b < B) :
    ct_lt_l_l a b = .ofBool (decide (a < b)) := by
  unfold ct_lt_l_l; rw [ct_sub_l_l_eq ha hb, LimbChoice.new_ite]

theorem ct_leq_l_l_eq {a b : ℕ} (ha : a < B) (hb : b < B) :
    ct_leq_l_l a b = .ofBool (decide (a ≤ b)) := by
  unfold ct_leq_l_l; rw [ct_lt_l_l_eq hb ha]; simp
  congr 1; by_cases h : b < a
  · simp [h, show ¬ a ≤ b by omega]
  · simp [h, show a ≤ b by omega]

theorem ct_gt_l_l_eq {a b : ℕ} (ha : a < B) (hb : b < B) :
    ct_gt_l_l a b = .ofBool (decide (a > b)) := ct_lt_l_l_eq hb ha

theorem ct_geq_l_l_eq {a b : ℕ} (ha : a < B) (hb : b < B) :
    ct_geq_l_l a b = .ofBool (decide (a ≥ b)) := ct_leq_l_l_eq hb ha

theorem two_pow_lt_B {n : ℕ} (h : n < W) : 2 ^ n < B :=
  Nat.pow_lt_pow_right (by norm_num) h

theorem ct_lsb_mask_l_eq {n : ℕ} (h : n ≤ W) : ct_lsb_mask_l n = 2 ^ n - 1 := by
  unfold ct_lsb_mask_l
  rcases Nat.lt_or_eq_of_le h with h | h
  · simp only [Nat.mod_eq_of_lt h, Nat.div_eq_of_lt h]
    rw [shl_eq, one_mul, Nat.mod_eq_of_lt (two_pow_lt_B h)]
    simp [wsub]
  · subst h
    have hd : W / W = 1 := Nat.div_self W_pos
    have h1 : wsub 0 1 = B - 1 := by
      rw [wsub_eq B_pos one_lt_B]; simp
    simp only [Nat.mod_self, hd, h1]
    rw [shl_eq]; simp [Nat.mod_eq_of_lt one_lt_B]; rfl

theorem and_mask {x n : ℕ} (h : n ≤ W) : x &&& ct_lsb_mask_l n = x % 2 ^ n := by
  rw [ct_lsb_mask_l_eq h, Nat.and_two_pow_sub_one_eq_mod]

theorem HALF_LIMB_MASK_eq : HALF_LIMB_MASK = 2 ^ HW - 1 :=
  ct_lsb_mask_l_eq (by have := two_HW; omega)

theorem ct_l_to_hls_eq (v : ℕ) : ct_l_to_hls v = (v / 2 ^ HW, v % 2 ^ HW) := by
  unfold ct_l_to_hls
  rw [HALF_LIMB_MASK_eq, Nat.and_two_pow_sub_one_eq_mod, shr_eq]

theorem B_eq_half_sq : B = 2 ^ HW * 2 ^ HW := by
  rw [← pow_add, B_eq_two_pow, ← two_HW]; congr 1; omega

theorem add_div_le_one {a b : ℕ} (ha : a < B) (hb : b < B) : (a + b) / B ≤ 1 := by
  have : (a + b) / B < 2 := Nat.div_lt_of_lt_mul (by omega)
  omega

theorem ct_add_l_l_c_eq {a b c : ℕ} (ha : a < B) (hb : b < B) (hc : c ≤ 1) :
    ct_add_l_l_c a b c = pure ((a + b + c) / B, (a + b + c) % B) := by
  unfold ct_add_l_l_c
  have hB := one_lt_B
  rw [M.assert_eq hc, M.pure_bind, ct_add_l_l_eq ha (by omega)]
  dsimp only
  rw [ct_add_l_l_eq (Nat.mod_lt _ B_pos) hb]
  dsimp only
  have e1 := Nat.div_add_mod (a + c) B
  have e2 := Nat.div_add_mod ((a + c) % B + b) B
  have l1 := Nat.mod_lt (a + c) B_pos
  have l2 := Nat.mod_lt ((a + c) % B + b) B_pos
  have hd : (a + b + c) / B = (a + c) / B + ((a + c) % B + b) / B := by
    have : a + b + c = ((a + c) % B + b) + B * ((a + c) / B) := by omega
    rw [this, Nat.add_mul_div_left _ _ B_pos]; omega
  have hm : (a + b + c) % B = ((a + c) % B + b) % B := by
    have : a + b + c = ((a + c) % B + b) + B * ((a + c) / B) := by omega
    rw [this, Nat.add_mul_mod_self_left]
  have hle : (a + b + c) / B ≤ 1 := by
    have : (a + b + c) / B < 2 := Nat.div_lt_of_lt_mul (by omega)
    omega
  rw [M.addL_eq (by omega), M.pure_bind, M.assert_eq (by omega), M.pure_bind, hd, hm]

/-- Three-term addition with carry as an equation. -/
theorem ct_add_l_l_c_spec {a b c : ℕ} (ha : a < B) (hb : b < B) (hc : c ≤ 1) :
    ∃ k r, ct_add_l_l_c a b c = pure (k, r) ∧ k ≤ 1 ∧ r < B ∧ a + b + c = r + k * B := by
  refine ⟨_, _, ct_add_l_l_c_eq ha hb hc, ?_, Nat.mod_lt _ B_pos, ?_⟩
  · have : (a + b + c) / B < 2 := Nat.div_lt_of_lt_mul (by omega)
    omega
  · have := Nat.div_add_mod (a + b + c) B; rw [mul_comm] at this; omega

theorem ct_sub_l_l_b_spec {a b c : ℕ} (ha : a < B) (hb : b < B) (hc : c ≤ 1) :
    ∃ w d, ct_sub_l_l_b a b c = pure (w, d) ∧ w ≤ 1 ∧ d < B ∧ a + w * B = b + c + d := by
  unfold ct_sub_l_l_b
  have hB := one_lt_B
  obtain ⟨w0, d0, e0, hw0, hd0, he0, _⟩ := ct_sub_l_l_spec ha (b := c) (by omega)
  obtain ⟨w1, d1, e1, hw1, hd1, he1, _⟩ := ct_sub_l_l_spec hd0 hb
  have hw : w0 + w1 ≤ 1 := by
    rcases Nat.lt_or_ge w0 1 with h | h
    · omega
    · rcases Nat.lt_or_ge w1 1 with h' | h'
      · omega
      · have : w0 = 1 := by omega
        have : w1 = 1 := by omega
        subst w0 w1; omega
  rw [M.assert_eq hc, M.pure_bind, e0]
  dsimp only
  rw [e1]
  dsimp only
  rw [M.addL_eq (by omega), M.pure_bind, M.assert_eq hw, M.pure_bind]
  exact ⟨_, _, rfl, hw, hd1, by rw [add_mul]; omega⟩

theorem ct_mul_l_l_eq {a b : ℕ} (ha : a < B) (hb : b < B) :
    ct_mul_l_l a b = pure ⟨a * b / B, a * b % B⟩ := by
  unfold ct_mul_l_l
  simp only [ct_l_to_hls_eq]
  have hBH := B_eq_half_sq
  have hH := Nat.two_pow_pos HW
  generalize hHdef : 2 ^ HW = H at *
  -- split operands
  have ea := Nat.div_add_mod a H
  have eb := Nat.div_add_mod b H
  have la := Nat.mod_lt a hH
  have lb := Nat.mod_lt b hH
  have ha' : a / H < H := Nat.div_lt_of_lt_mul (by omega)
  have hb' : b / H < H := Nat.div_lt_of_lt_mul (by omega)
  generalize a / H = ah at *
  generalize a % H = al at *
  generalize b / H = bh at *
  generalize b % H = bl at *
  have hmul : ∀ {x y : ℕ}, x < H → y < H → x * y ≤ (H - 1) * (H - 1) := fun hx hy =>
    Nat.mul_le_mul (by omega) (by omega)
  have hHsq : (H - 1) * (H - 1) + 2 * (H - 1) + 1 = H * H := by
    obtain ⟨k, rfl⟩ : ∃ k, H = k + 1 := ⟨H - 1, by omega⟩
    simp; ring
  have h1 := hmul la lb
  have h2 := hmul la hb'
  have h3 := hmul ha' lb
  have h4 := hmul ha' hb'
  rw [M.mulL_eq (by omega), M.pure_bind, M.mulL_eq (by omega), M.pure_bind,
    M.mulL_eq (by omega), M.pure_bind, M.mulL_eq (by omega), M.pure_bind]
  have em1 := Nat.div_add_mod (al * bh) H
  have em2 := Nat.div_add_mod (ah * bl) H
  have lm1 := Nat.mod_lt (al * bh) hH
  have lm2 := Nat.mod_lt (ah * bl) hH
  have hm1 : al * bh / H < H := Nat.div_lt_of_lt_mul (by omega)
  have hm2 : ah * bl / H < H := Nat.div_lt_of_lt_mul (by omega)
  generalize hp1 : al * bh / H = p1 at *
  generalize hq1 : al * bh % H = q1 at *
  generalize hp2 : ah * bl / H = p2 at *
  generalize hq2 : ah * bl % H = q2 at *
  have hqH1 : q1 * H < B := by rw [hBH]; exact Nat.mul_lt_mul_of_pos_right lm1 hH
  have hqH2 : q2 * H < B := by rw [hBH]; exact Nat.mul_lt_mul_of_pos_right lm2 hH
  have s1 : shl q1 HW = q1 * H := by rw [shl_eq, hHdef, Nat.mod_eq_of_lt hqH1]
  have s2 : shl q2 HW = q2 * H := by rw [shl_eq, hHdef, Nat.mod_eq_of_lt hqH2]
  have hll : al * bl < B := by omega
  rw [s1, s2, ct_add_l_l_eq hll hqH1]
  dsimp only
  rw [ct_add_l_l_eq (Nat.mod_lt _ B_pos) hqH2]
  dsimp only
  -- name the carries
  have ec1 := Nat.div_add_mod (al * bl + q1 * H) B
  have lc1 := Nat.mod_lt (al * bl + q1 * H) B_pos
  generalize (al * bl + q1 * H) / B = c1 at *
  generalize (al * bl + q1 * H) % B = t1 at *
  have ec2 := Nat.div_add_mod (t1 + q2 * H) B
  have lc2 := Nat.mod_lt (t1 + q2 * H) B_pos
  generalize (t1 + q2 * H) / B = c2 at *
  generalize (t1 + q2 * H) % B = t2 at *
  -- total
  have tot : a * b = B * (ah * bh + c1 + p1 + c2 + p2) + t2 := by
    have e1 : a * b = B * (ah * bh) + H * (al * bh) + H * (ah * bl) + al * bl := by
      rw [← ea, ← eb, hBH]; ring
    rw [e1, ← em1, ← em2]
    have e2 : H * (H * p1 + q1) = B * p1 + q1 * H := by rw [hBH]; ring
    have e3 : H * (H * p2 + q2) = B * p2 + q2 * H := by rw [hBH]; ring
    rw [e2, e3]
    have e4 : B * (ah * bh + c1 + p1 + c2 + p2)
      = B * (ah * bh) + B * c1 + B * p1 + B * c2 + B * p2 := by ring
    rw [e4]; omega
  have hab : a * b < B * B := Nat.mul_lt_mul'' ha hb
  have hsum : ah * bh + c1 + p1 + c2 + p2 < B := by
    by_contra hcon
    have : B * B ≤ B * (ah * bh + c1 + p1 + c2 + p2) := Nat.mul_le_mul_left _ (by omega)
    omega
  rw [M.addL_eq (by omega), M.pure_bind, M.addL_eq (by omega), M.pure_bind,
    M.addL_eq (by omega), M.pure_bind, M.addL_eq (by omega), M.pure_bind]
  have hd : a * b / B = ah * bh + c1 + p1 + c2 + p2 := by
    rw [tot, Nat.mul_add_div B_pos, Nat.div_eq_of_lt lc2]; omega
  have hm : a * b % B = t2 := by rw [tot, Nat.mul_add_mod, Nat.mod_eq_of_lt lc2]
  rw [hd, hm]

theorem mul_le_of_lt_B {a b : ℕ} (ha : a < B) (hb : b < B) : a * b + 2 * B ≤ B * B + 1 := by
  have h1 : a * b ≤ (B - 1) * (B - 1) := Nat.mul_le_mul (by omega) (by omega)
  have hB := one_lt_B
  have h2 : (B - 1) * (B - 1) + 2 * B = B * B + 1 := by
    obtain ⟨k, hk⟩ : ∃ k, B = k + 1 := ⟨B - 1, by omega⟩
    rw [hk, Nat.add_sub_cancel]; ring
  omega

theorem bnot_one : bnot 1 = B - 2 := by unfold bnot; omega

/-- the product's high limb is at most `!1`, and then the low limb is 1 -/
theorem mul_high_bound {a b : ℕ} (ha : a < B) (hb : b < B) :
    a * b / B < bnot 1 ∨ a * b / B = bnot 1 ∧ a * b % B ≤ 1 := by
  rw [bnot_one]
  have hle := mul_le_of_lt_B ha hb
  have e := Nat.div_add_mod (a * b) B
  have hB := B_ge
  have hdv : a * b / B < B - 1 := by
    apply Nat.div_lt_of_lt_mul
    have : B * (B - 1) + B = B * B := by
      obtain ⟨k, hk⟩ : ∃ k, B = k + 1 := ⟨B - 1, by omega⟩
      rw [hk]; simp; ring
    omega
  rcases Nat.lt_or_ge (a * b / B) (B - 2) with h | h
  · exact Or.inl h
  · refine Or.inr ⟨by omega, ?_⟩
    have h2 : a * b / B = B - 2 := by omega
    rw [h2] at e
    have : B * (B - 2) + 2 * B = B * B := by
      obtain ⟨k, hk⟩ : ∃ k, B = k + 2 := ⟨B - 2, by omega⟩
      rw [hk]; simp; ring
    omega

/-- ... and then the low limb is exactly 1, both factors being `!0`. -/
theorem mul_high_bound' {a b : ℕ} (ha : a < B) (hb : b < B) :
    a * b / B < bnot 1 ∨ a * b / B = bnot 1 ∧ a * b % B = 1 := by
  rcases mul_high_bound ha hb with h | ⟨h, h'⟩
  · exact Or.inl h
  · refine Or.inr ⟨h, ?_⟩
    by_contra hne
    have h0 : a * b % B = 0 := by omega
    rw [bnot_one] at h
    have e := Nat.div_add_mod (a * b) B
    rw [h, h0] at e
    have hB := B_ge
    -- a b = B (B-2) with a, b < B is impossible unless a = b = B - 1
    have hab : (B - 1) * (B - 1) = B * (B - 2) + 1 := by
      obtain ⟨k, hk⟩ : ∃ k, B = k + 2 := ⟨B - 2, by omega⟩
      rw [hk]; simp; ring
    rcases Nat.lt_or_ge a (B - 1) with h1 | h1
    · have : a * b ≤ (B - 2) * (B - 1) := Nat.mul_le_mul (by omega) (by omega)
      have h3 : (B - 2) * (B - 1) + (B - 1) = (B - 1) * (B - 1) := by
        obtain ⟨k, hk⟩ : ∃ k, B = k + 2 := ⟨B - 2, by omega⟩
        rw [hk]; simp; ring
      omega
    · have ha1 : a = B - 1 := by omega
      rcases Nat.lt_or_ge b (B - 1) with h2 | h2
      · have : a * b ≤ (B - 1) * (B - 2) := Nat.mul_le_mul (by omega) (by omega)
        have h3 : (B - 1) * (B - 2) + (B - 1) = (B - 1) * (B - 1) := by
          obtain ⟨k, hk⟩ : ∃ k, B = k + 2 := ⟨B - 2, by omega⟩
          rw [hk]; simp; ring
        omega
      · have hb1 : b = B - 1 := by omega
        rw [ha1, hb1] at e; omega

theorem ct_mul_add_l_l_l_c_eq {a b c d : ℕ} (ha : a < B) (hb : b < B) (hc : c < B) (hd : d < B) :
    ct_mul_add_l_l_l_c a b c d = pure ((a + b * c + d) / B, (a + b * c + d) % B) := by
  unfold ct_mul_add_l_l_l_c
  rw [ct_mul_l_l_eq hb hc, M.pure_bind]
  dsimp only
  have hhb := mul_high_bound' hb hc
  rw [M.assert_eq hhb, M.pure_bind, ct_add_l_l_eq ha hd]
  dsimp only
  rw [ct_add_l_l_eq (Nat.mod_lt _ B_pos) (Nat.mod_lt _ B_pos)]
  dsimp only
  have e1 := Nat.div_add_mod (b * c) B
  have l1 := Nat.mod_lt (b * c) B_pos
  have e2 := Nat.div_add_mod (a + d) B
  have l2 := Nat.mod_lt (a + d) B_pos
  have k2 := add_div_le_one ha hd
  have e3 := Nat.div_add_mod ((a + d) % B + b * c % B) B
  have l3 := Nat.mod_lt ((a + d) % B + b * c % B) B_pos
  have k3 := add_div_le_one l2 l1
  have hle := mul_le_of_lt_B hb hc
  generalize b * c / B = ph at *
  generalize b * c % B = pl at *
  generalize (a + d) / B = c0 at *
  generalize (a + d) % B = r0 at *
  generalize (r0 + pl) / B = c1 at *
  generalize (r0 + pl) % B = r1 at *
  have hB := B_ge
  have tot : a + b * c + d = B * (ph + c0 + c1) + r1 := by
    have : B * (ph + c0 + c1) = B * ph + B * c0 + B * c1 := by ring
    omega
  have hlt : ph + c0 + c1 < B := by
    by_contra hcon
    have : B * B ≤ B * (ph + c0 + c1) := Nat.mul_le_mul_left _ (by omega)
    omega
  have hassert : ph < bnot 1 ∨ c0 + c1 ≤ 1 := by
    rw [bnot_one]
    rcases hhb with h | ⟨h, -⟩
    · left; rwa [bnot_one] at h
    · right; rw [bnot_one] at h; omega
  rw [M.assert_eq hassert, M.pure_bind, M.addL_eq (by omega), M.pure_bind, M.addL_eq (by omega),
    M.pure_bind]
  have hd : (a + b * c + d) / B = ph + c0 + c1 := by
    rw [tot, Nat.mul_add_div B_pos, Nat.div_eq_of_lt l3]; omega
  have hm : (a + b * c + d) % B = r1 := by rw [tot, Nat.mul_add_mod, Nat.mod_eq_of_lt l3]
  rw [hd, hm]

theorem ct_mul_add_l_l_l_c_spec {a b c d : ℕ} (ha : a < B) (hb : b < B) (hc : c < B) (hd : d < B) :
    ∃ k r, ct_mul_add_l_l_l_c a b c d = pure (k, r) ∧ k < B ∧ r < B ∧ a + b * c + d = r + k * B := by
  refine ⟨_, _, ct_mul_add_l_l_l_c_eq ha hb hc hd, ?_, Nat.mod_lt _ B_pos, ?_⟩
  · apply Nat.div_lt_of_lt_mul
    have := mul_le_of_lt_B hb hc; omega
  · have := Nat.div_add_mod (a + b * c + d) B; rw [mul_comm] at this; omega

theorem ct_mul_sub_l_l_l_b_spec {a b c d : ℕ} (ha : a < B) (hb : b < B) (hc : c < B) (hd : d < B) :
    ∃ w r, ct_mul_sub_l_l_l_b a b c d = pure (w, r) ∧ w < B ∧ r < B ∧
      a + w * B = b * c + d + r := by
  unfold ct_mul_sub_l_l_l_b
  rw [ct_mul_l_l_eq hb hc, M.pure_bind]
  dsimp only
  have hhb := mul_high_bound' hb hc
  have e1 := Nat.div_add_mod (b * c) B
  have l1 := Nat.mod_lt (b * c) B_pos
  have hle := mul_le_of_lt_B hb hc
  rw [M.assert_eq hhb, M.pure_bind]
  generalize b * c / B = ph at *
  generalize b * c % B = pl at *
  obtain ⟨w0, d0, h0, hw0, hd0, he0, -⟩ := ct_sub_l_l_spec ha hd
  obtain ⟨w1, d1, h1, hw1, hd1, he1, -⟩ := ct_sub_l_l_spec hd0 l1
  rw [h0]; dsimp only; rw [h1]; dsimp only
  have hB := B_ge
  have tot : a + (ph + w0 + w1) * B = b * c + d + d1 := by
    have : (ph + w0 + w1) * B = B * ph + w0 * B + w1 * B := by ring
    omega
  have hlt : ph + w0 + w1 < B := by
    by_contra hcon
    have : B * B ≤ (ph + w0 + w1) * B := Nat.mul_le_mul_right _ (by omega)
    omega
  have hassert : ph < bnot 1 ∨ w0 + w1 ≤ 1 := by
    rcases hhb with h | ⟨h, -⟩
    · exact Or.inl h
    · right; rw [bnot_one] at h; omega
  rw [M.assert_eq hassert, M.pure_bind, M.addL_eq (by omega), M.pure_bind, M.addL_eq (by omega),
    M.pure_bind]
  exact ⟨_, _, rfl, hlt, hd1, tot⟩

end Cmpa
