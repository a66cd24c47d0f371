import Verif.Proofs.Digits

/-!
# Limb accesses of byte and limb lists
-/

set_option linter.unusedSectionVars false

namespace Cmpa
variable [LimbCfg]

theorem M.pure_inj {α : Type} {a b : α} (h : (pure a : M α) = pure b) : a = b := by
  injection (congrArg M.val h)

theorem slice_eq {α : Type} {l : List α} {a b : ℕ} (hab : a ≤ b) (hb : b ≤ l.length) :
    slice l a b = pure ((l.drop a).take (b - a)) := by
  unfold slice; rw [if_pos ⟨hab, hb⟩]; rfl

theorem splice_eq {α : Type} {l new : List α} {a : ℕ} (h : a + new.length ≤ l.length) :
    splice l a new = pure (l.take a ++ new ++ l.drop (a + new.length)) := by
  unfold splice; rw [if_pos h]; rfl

theorem pow_256 (i : ℕ) : 256 ^ (i * LB) = B ^ i := by
  rw [B_eq_256_pow, mul_comm, pow_mul]

theorem pow_256_succ (i : ℕ) : 256 ^ (i * LB + LB) = B ^ (i + 1) := by
  rw [pow_add, pow_256, ← B_eq_256_pow, pow_succ]

theorem two_pow_8 (k : ℕ) : 2 ^ (8 * k) = 256 ^ k := by rw [pow_mul]; norm_num

@[simp] theorem to_le_bytes_length (v : ℕ) : (to_le_bytes v).length = LB := by
  simp [to_le_bytes]

@[simp] theorem to_be_bytes_length (v : ℕ) : (to_be_bytes v).length = LB := by
  simp [to_be_bytes]

theorem lval_to_le_bytes {v : ℕ} (hv : v < B) : lval (to_le_bytes v) = v := by
  unfold to_le_bytes
  rw [lval_range_map (n := 256), ← B_eq_256_pow, Nat.mod_eq_of_lt hv]

theorem rev_slice {α : Type} (l : List α) {a b : ℕ} (hab : a ≤ b) (hb : b ≤ l.length) :
    ((l.drop a).take (b - a)).reverse = (l.reverse.drop (l.length - b)).take (b - a) := by
  rw [List.drop_reverse, List.take_reverse, List.length_take]
  congr 1
  rw [List.drop_take]
  congr 1
  · omega
  · congr 1; omega

theorem rev_splice {α : Type} (l new : List α) {a : ℕ} (h : a + new.length ≤ l.length) :
    (l.take a ++ new ++ l.drop (a + new.length)).reverse =
      l.reverse.take (l.length - a - new.length) ++ new.reverse ++
        l.reverse.drop (l.length - a) := by
  rw [List.drop_reverse, List.take_reverse]
  simp only [List.reverse_append, List.append_assoc]
  congr 2
  · congr 1; omega
  · congr 3; omega

/-! ### Little endian -/

theorem le_mp_load_l_full_eq {l : List (Fin 256)} {i : ℕ} (h : i * LB + LB ≤ l.length) :
    le_mp_load_l_full l i = pure (lval l / B ^ i % B) := by
  unfold le_mp_load_l_full _le_mp_load_l_full
  have := LB_pos
  rw [M.assert_eq (by omega), M.pure_bind, slice_eq (by omega) h, M.pure_bind]
  congr 1
  show lval _ = _
  rw [lval_slice _ (by omega) h, Nat.add_sub_cancel_left, pow_256, B_eq_256_pow]

theorem le_mp_load_l_eq {l : List (Fin 256)} {i : ℕ} (h : i * LB < l.length) :
    le_mp_load_l l i = pure (lval l / B ^ i % B) := by
  by_cases h2 : i * LB + LB ≤ l.length
  · rw [← le_mp_load_l_full_eq h2]
    unfold le_mp_load_l le_mp_load_l_full
    rw [if_pos h2]
  · unfold le_mp_load_l _le_mp_load_l_high_partial
    rw [M.assert_eq h, M.pure_bind, if_neg h2, slice_eq (by omega) le_rfl, M.pure_bind,
      M.check_eq (by simp; omega), M.pure_bind]
    congr 1
    show lval _ = _
    rw [lval_append, lval_replicate_zero, mul_zero, add_zero, lval_slice _ (by omega) le_rfl,
      pow_256, B_eq_256_pow]
    have h3 : lval l / (256 ^ LB) ^ i < 256 ^ (l.length - i * LB) := by
      rw [← B_eq_256_pow, ← pow_256]
      apply Nat.div_lt_of_lt_mul
      rw [← pow_add, show i * LB + (l.length - i * LB) = l.length by omega]
      exact lval_lt l
    rw [Nat.mod_eq_of_lt h3, Nat.mod_eq_of_lt]
    exact lt_of_lt_of_le h3 (Nat.pow_le_pow_right (by norm_num) (by omega))

theorem le_mp_store_l_full_eq {l : List (Fin 256)} {i v : ℕ} (h : i * LB + LB ≤ l.length)
    (hv : v < B) :
    ∃ l', le_mp_store_l_full l i v = pure l' ∧ l'.length = l.length ∧
      lval l' = upd (lval l) i v := by
  unfold le_mp_store_l_full _le_mp_store_l_full
  have := LB_pos
  refine ⟨_, by rw [M.assert_eq (by omega), M.pure_bind, splice_eq (by simpa using h)], ?_, ?_⟩
  · simp; omega
  · rw [lval_splice _ _ (by simpa using h), to_le_bytes_length, lval_to_le_bytes hv, pow_256,
      pow_256_succ]
    unfold upd; rw [B_eq_256_pow]

theorem le_mp_store_l_eq {l : List (Fin 256)} {i v : ℕ} (h : i * LB < l.length)
    (hv : v < B) (hv' : v < 256 ^ (l.length - i * LB)) :
    ∃ l', le_mp_store_l l i v = pure l' ∧ l'.length = l.length ∧
      lval l' = upd (lval l) i v := by
  by_cases h2 : i * LB + LB ≤ l.length
  · obtain ⟨l', h3, h4⟩ := le_mp_store_l_full_eq h2 hv
    refine ⟨l', ?_, h4⟩
    rw [← h3]
    unfold le_mp_store_l le_mp_store_l_full
    rw [if_pos h2]
  · unfold le_mp_store_l _le_mp_store_l_high_partial
    have hsh : shr v (8 * (l.length - i * LB)) = 0 := by
      rw [shr_eq, two_pow_8]; exact Nat.div_eq_of_lt hv'
    refine ⟨_, by rw [M.assert_eq h, M.pure_bind, if_neg h2, M.assert_eq hsh, M.pure_bind,
      M.sub_eq (by omega), M.pure_bind, slice_eq (by omega) (by simp; omega), M.pure_bind,
      splice_eq (by simp; omega)], ?_, ?_⟩
    · simp; omega
    · rw [lval_splice _ _ (by simp; omega)]
      have e1 : (List.take (l.length - i * LB - 0) (List.drop 0 (to_le_bytes v))).length
          = l.length - i * LB := by simp; omega
      rw [e1, show i * LB + (l.length - i * LB) = l.length by omega,
        Nat.div_eq_of_lt (lval_lt l), mul_zero, add_zero,
        lval_slice _ (by omega) (by simp; omega), lval_to_le_bytes hv, pow_zero, Nat.div_one,
        Nat.sub_zero, Nat.mod_eq_of_lt hv', pow_256]
      unfold upd
      rw [Nat.div_eq_of_lt (a := lval l) (b := B ^ (i + 1)), mul_zero, add_zero]
      rw [← pow_256_succ]
      exact lt_of_lt_of_le (lval_lt l) (Nat.pow_le_pow_right (by norm_num) (by omega))

theorem le_mp_clear_bytes_above_eq (l : List (Fin 256)) (k : ℕ) :
    ∃ l', le_mp_clear_bytes_above l k = pure l' ∧ l'.length = l.length ∧
      lval l' = lval l % 256 ^ k := by
  unfold le_mp_clear_bytes_above
  by_cases h : l.length ≤ k
  · rw [if_pos h]
    refine ⟨l, rfl, rfl, (Nat.mod_eq_of_lt ?_).symm⟩
    exact lt_of_lt_of_le (lval_lt l) (Nat.pow_le_pow_right (by norm_num) h)
  · rw [if_neg h]
    refine ⟨_, splice_eq (by simp; omega), ?_, ?_⟩
    · simp; omega
    · rw [lval_splice _ _ (by simp; omega), lval_replicate_zero, List.length_replicate,
        show k + (l.length - k) = l.length by omega, Nat.div_eq_of_lt (lval_lt l)]
      simp

theorem le_mp_clear_bytes_below_eq (l : List (Fin 256)) (k : ℕ) :
    ∃ l', le_mp_clear_bytes_below l k = pure l' ∧ l'.length = l.length ∧
      lval l' = lval l / 256 ^ k * 256 ^ k := by
  unfold le_mp_clear_bytes_below
  refine ⟨_, splice_eq (by simp), ?_, ?_⟩
  · simp
  · rw [lval_splice _ _ (by simp), lval_replicate_zero, List.length_replicate]
    simp only [pow_zero, Nat.mod_one, zero_add, one_mul]
    by_cases h : k ≤ l.length
    · rw [min_eq_left h, mul_comm]
    · rw [min_eq_right (by omega), Nat.div_eq_of_lt (lval_lt l), mul_zero, Nat.div_eq_of_lt, zero_mul]
      exact lt_of_lt_of_le (lval_lt l) (Nat.pow_le_pow_right (by norm_num) (by omega))

/-! ### Big endian, by reversal -/

theorem be_mp_load_l_full_rev {l : List (Fin 256)} {i : ℕ} (h : i * LB + LB ≤ l.length) :
    be_mp_load_l_full l i = le_mp_load_l_full l.reverse i := by
  have := LB_pos
  unfold be_mp_load_l_full le_mp_load_l_full _be_mp_load_l_full _le_mp_load_l_full
  rw [M.assert_eq (by omega), M.assert_eq (by simp; omega), M.pure_bind, M.pure_bind,
    M.sub_eq (by omega), M.pure_bind, M.sub_eq (by omega), M.pure_bind,
    slice_eq (by omega) (by omega), M.pure_bind, slice_eq (by omega) (by simp; omega), M.pure_bind]
  congr 1
  unfold from_be_bytes
  rw [rev_slice _ (by omega) (by omega)]
  congr 2 <;> [skip; congr 1] <;> omega

theorem be_mp_load_l_rev {l : List (Fin 256)} {i : ℕ} (h : i * LB < l.length) :
    be_mp_load_l l i = le_mp_load_l l.reverse i := by
  by_cases h2 : i * LB + LB ≤ l.length
  · have := be_mp_load_l_full_rev h2
    unfold be_mp_load_l_full le_mp_load_l_full at this
    unfold be_mp_load_l le_mp_load_l
    rw [M.assert_eq (by omega), M.assert_eq (by simp; omega), M.pure_bind, M.pure_bind,
      M.sub_eq (by omega), M.pure_bind] at this
    rw [M.assert_eq (by omega), M.assert_eq (by simp; omega), M.pure_bind, M.pure_bind,
      M.sub_eq (by omega), M.pure_bind, if_pos (by omega), if_pos (by simp; omega), this]
  · unfold be_mp_load_l le_mp_load_l _be_mp_load_l_high_partial _le_mp_load_l_high_partial
    rw [M.assert_eq (by omega), M.assert_eq (by simp; omega), M.pure_bind, M.pure_bind,
      M.sub_eq (by omega), M.pure_bind, if_neg (by omega), if_neg (by simp; omega),
      slice_eq (by omega) (by omega), M.pure_bind, M.sub_eq (by omega), M.pure_bind,
      slice_eq (by simp; omega) le_rfl, M.pure_bind, M.check_eq (by simp; omega), M.pure_bind]
    congr 1
    unfold from_be_bytes
    rw [List.reverse_append, List.reverse_replicate, rev_slice _ (by omega) (by omega)]
    congr 2
    · congr 1
      · simp
      · congr 1; omega
    · congr 1; simp

theorem be_mp_store_l_full_eq {l : List (Fin 256)} {i v : ℕ} (h : i * LB + LB ≤ l.length)
    (hv : v < B) :
    ∃ l', be_mp_store_l_full l i v = pure l' ∧ l'.length = l.length ∧
      lval l'.reverse = upd (lval l.reverse) i v := by
  have := LB_pos
  obtain ⟨l', h1, h2, h3⟩ := le_mp_store_l_full_eq (l := l.reverse) (i := i) (by simpa using h) hv
  refine ⟨l'.reverse, ?_, by simpa using h2, by rw [List.reverse_reverse, h3]⟩
  unfold le_mp_store_l_full _le_mp_store_l_full at h1
  rw [M.assert_eq (by simp; omega), M.pure_bind, splice_eq (by simpa using h)] at h1
  have h1 := M.pure_inj h1
  unfold be_mp_store_l_full _be_mp_store_l_full
  rw [M.assert_eq (by omega), M.pure_bind, M.sub_eq (by omega), M.pure_bind,
    M.sub_eq (by omega), M.pure_bind, splice_eq (by simp; omega), ← h1]
  congr 1
  rw [← List.reverse_inj, rev_splice _ _ (by simp; omega)]
  simp only [to_be_bytes_length, to_le_bytes_length, List.reverse_reverse, to_be_bytes]
  congr 2
  · congr 1; simp; omega
  · omega

theorem be_mp_store_l_eq {l : List (Fin 256)} {i v : ℕ} (h : i * LB < l.length)
    (hv : v < B) (hv' : v < 256 ^ (l.length - i * LB)) :
    ∃ l', be_mp_store_l l i v = pure l' ∧ l'.length = l.length ∧
      lval l'.reverse = upd (lval l.reverse) i v := by
  by_cases h2 : i * LB + LB ≤ l.length
  · obtain ⟨l', h3, h4⟩ := be_mp_store_l_full_eq h2 hv
    refine ⟨l', ?_, h4⟩
    rw [← h3]
    unfold be_mp_store_l be_mp_store_l_full
    rw [M.assert_eq (by omega), M.assert_eq (by omega), M.pure_bind, M.pure_bind,
      M.sub_eq (by omega), M.pure_bind, M.pure_bind, if_pos (by omega)]
  · obtain ⟨l', h1, h3, h4⟩ := le_mp_store_l_eq (l := l.reverse) (i := i) (v := v)
      (by simpa using h) hv (by simpa using hv')
    refine ⟨l'.reverse, ?_, by simpa using h3, by rw [List.reverse_reverse, h4]⟩
    unfold le_mp_store_l _le_mp_store_l_high_partial at h1
    rw [M.assert_eq (by simpa using h), M.pure_bind, if_neg (by simpa using h2), M.assert_eq,
        M.pure_bind, M.sub_eq (by simp; omega),
        M.pure_bind, slice_eq (by omega) (by simp; omega), M.pure_bind,
        splice_eq (by simp; omega)] at h1
    swap
    · rw [shr_eq, two_pow_8, List.length_reverse]; exact Nat.div_eq_of_lt hv'
    have h1 := M.pure_inj h1
    unfold be_mp_store_l _be_mp_store_l_high_partial
    rw [M.assert_eq (by omega), M.pure_bind, M.sub_eq (by omega), M.pure_bind, if_neg (by omega),
      M.assert_eq, M.pure_bind, M.sub_eq (by omega), M.pure_bind,
      slice_eq (by omega) (by simp), M.pure_bind, splice_eq (by simp; omega), ← h1]
    swap
    · rw [shr_eq, two_pow_8]; exact Nat.div_eq_of_lt hv'
    congr 1
    rw [← List.reverse_inj, rev_splice _ _ (by simp; omega), rev_slice _ (by omega) (by simp)]
    simp only [to_be_bytes_length, to_le_bytes_length, List.reverse_reverse, to_be_bytes,
      List.length_reverse, Nat.sub_self, List.drop_zero, List.length_take, List.length_drop]
    congr 2
    · congr 1; omega
    · congr 1; omega
    · omega

theorem be_mp_clear_bytes_above_eq (l : List (Fin 256)) (k : ℕ) :
    ∃ l', be_mp_clear_bytes_above l k = pure l' ∧ l'.length = l.length ∧
      lval l'.reverse = lval l.reverse % 256 ^ k := by
  unfold be_mp_clear_bytes_above
  by_cases h : l.length ≤ k
  · rw [if_pos h]
    refine ⟨l, rfl, rfl, (Nat.mod_eq_of_lt ?_).symm⟩
    exact lt_of_lt_of_le (lval_lt _) (Nat.pow_le_pow_right (by norm_num) (by simpa using h))
  · rw [if_neg h]
    refine ⟨_, splice_eq (by simp), ?_, ?_⟩
    · simp
    · rw [rev_splice _ _ (by simp)]
      simp only [List.length_replicate, List.reverse_replicate]
      rw [show l.length - 0 - (l.length - k) = k by omega, Nat.sub_zero, List.drop_of_length_le (by simp),
        List.append_nil, lval_append, lval_replicate_zero,
        (lval_take_drop _ _ (by simp; omega)).1]
      simp

theorem be_mp_clear_bytes_below_eq (l : List (Fin 256)) (k : ℕ) :
    ∃ l', be_mp_clear_bytes_below l k = pure l' ∧ l'.length = l.length ∧
      lval l'.reverse = lval l.reverse / 256 ^ k * 256 ^ k := by
  unfold be_mp_clear_bytes_below
  dsimp only
  have hm : min k l.length ≤ l.length := min_le_right _ _
  refine ⟨_, by rw [M.sub_eq hm, M.pure_bind, splice_eq (by simp)], ?_, ?_⟩
  · simp
  · rw [rev_splice _ _ (by simp)]
    simp only [List.length_replicate, List.reverse_replicate]
    rw [show l.length - (l.length - min k l.length) - min k l.length = 0 by omega,
      List.take_zero, List.nil_append, lval_append, lval_replicate_zero,
      (lval_take_drop _ _ (by simp)).2, List.length_replicate,
      show l.length - (l.length - min k l.length) = min k l.length by omega]
    by_cases h : k ≤ l.length
    · rw [min_eq_left h, mul_comm, zero_add]
    · have h3 : lval l.reverse < 256 ^ l.length := by simpa using lval_lt l.reverse
      rw [min_eq_right (by omega), Nat.div_eq_of_lt h3, mul_zero, add_zero,
        Nat.div_eq_of_lt, zero_mul]
      exact lt_of_lt_of_le h3 (Nat.pow_le_pow_right (by norm_num) (by omega))

/-! ### Native endian -/

theorem ne_mp_load_l_eq {l : List (Fin B)} {i : ℕ} (h : i < l.length) :
    ne_mp_load_l l i = pure (lval l / B ^ i % B) := by
  unfold ne_mp_load_l
  rw [List.getElem?_eq_getElem h]
  show (pure (l[i] : ℕ) : M ℕ) = _
  congr 1
  have := lval_slice l (a := i) (b := i + 1) (by omega) h
  rw [Nat.add_sub_cancel_left, pow_one] at this
  rw [← this, List.drop_eq_getElem_cons h, List.take_succ_cons]
  simp

theorem ne_mp_store_l_eq {l : List (Fin B)} {i v : ℕ} (h : i < l.length) (hv : v < B) :
    ∃ l', ne_mp_store_l l i v = pure l' ∧ l'.length = l.length ∧
      lval l' = upd (lval l) i v := by
  unfold ne_mp_store_l
  refine ⟨_, splice_eq (by simp; omega), ?_, ?_⟩
  · simp; omega
  · rw [lval_splice _ _ (by simp; omega)]
    unfold upd
    simp [Fin.ofNat, Nat.mod_eq_of_lt hv]

theorem ne_clear_tail (l : List (Fin B)) {k : ℕ} (h : k ≤ l.length) :
    ∃ l', splice l k (List.replicate (l.length - k) 0) = pure l' ∧ l'.length = l.length ∧
      lval l' = lval l % B ^ k := by
  refine ⟨_, splice_eq (by simp; omega), ?_, ?_⟩
  · simp; omega
  · rw [lval_splice _ _ (by simp; omega), lval_replicate_zero, List.length_replicate,
        show k + (l.length - k) = l.length by omega, Nat.div_eq_of_lt (lval_lt l)]
    simp

theorem ne_clear_head (l : List (Fin B)) {k : ℕ} (h : k ≤ l.length) :
    ∃ l', splice l 0 (List.replicate k 0) = pure l' ∧ l'.length = l.length ∧
      lval l' = lval l / B ^ k * B ^ k := by
  refine ⟨_, splice_eq (by simp; omega), ?_, ?_⟩
  · simp; omega
  · rw [lval_splice _ _ (by simp; omega), lval_replicate_zero, List.length_replicate]
    simp [Nat.mod_one, mul_comm]

theorem ne_mp_clear_bytes_above_eq (l : List (Fin B)) (k : ℕ) :
    ∃ l', ne_mp_clear_bytes_above l k = pure l' ∧ l'.length = l.length ∧
      lval l' = lval l % 256 ^ k := by
  have hLB := LB_pos
  have hk := Nat.mod_add_div k LB
  have hkp : 256 ^ k = B ^ (k / LB) * 256 ^ (k % LB) := by
    conv_lhs => rw [← hk]
    rw [pow_add, mul_comm, mul_comm LB, pow_256]
  unfold ne_mp_clear_bytes_above
  dsimp only
  by_cases h : l.length ≤ k / LB
  · rw [if_pos h]
    refine ⟨l, rfl, rfl, (Nat.mod_eq_of_lt ?_).symm⟩
    rw [hkp]
    refine lt_of_lt_of_le (lval_lt l) ?_
    exact le_trans (Nat.pow_le_pow_right B_pos h) (Nat.le_mul_of_pos_right _ (by positivity))
  · rw [if_neg h]
    by_cases h0 : k % LB = 0
    · rw [if_neg (by simpa using h0)]
      rw [hkp, h0, pow_zero, mul_one]
      exact ne_clear_tail l (by omega)
    · rw [if_pos (by simpa using h0), ne_mp_load_l_eq (by omega), M.pure_bind]
      have hm := Nat.mod_lt k hLB
      rw [and_mask (by rw [W_eq]; omega), two_pow_8]
      set d := lval l / B ^ (k / LB) % B with hd
      have hdl : d % 256 ^ (k % LB) < B := lt_of_le_of_lt (Nat.mod_le _ _) (dig_lt _ _)
      obtain ⟨l1, e1, e2, e3⟩ := ne_mp_store_l_eq (l := l) (i := k / LB) (by omega) hdl
      rw [e1, M.pure_bind]
      obtain ⟨l2, e4, e5, e6⟩ := ne_clear_tail l1 (k := k / LB + 1) (by omega)
      refine ⟨l2, e4, by omega, ?_⟩
      rw [e6, e3, upd_mod_succ hdl, hkp, Nat.mod_mul]
      congr 2
      rw [hd]
      exact Nat.mod_mod_of_dvd _ (by rw [B_eq_256_pow]; exact pow_dvd_pow _ hm.le)

theorem ne_mp_clear_bytes_below_eq (l : List (Fin B)) {k : ℕ} (h : k ≤ l.length * LB) :
    ∃ l', ne_mp_clear_bytes_below l k = pure l' ∧ l'.length = l.length ∧
      lval l' = lval l / 256 ^ k * 256 ^ k := by
  have hLB := LB_pos
  have hk := Nat.mod_add_div k LB
  have hkp : 256 ^ k = B ^ (k / LB) * 256 ^ (k % LB) := by
    conv_lhs => rw [← hk]
    rw [pow_add, mul_comm, mul_comm LB, pow_256]
  have hkl : k / LB ≤ l.length := by
    have := Nat.div_le_div_right (c := LB) h
    rwa [Nat.mul_div_cancel _ hLB] at this
  unfold ne_mp_clear_bytes_below ct_mp_nlimbs
  dsimp only
  by_cases h0 : k % LB = 0
  · rw [if_neg (by simpa using h0)]
    have : (k + LB - 1) / LB = k / LB := by
      have e : k = k / LB * LB := by rw [mul_comm]; omega
      generalize k / LB = q at e
      subst e
      rw [show q * LB + LB - 1 = LB - 1 + q * LB by omega, Nat.add_mul_div_right _ _ hLB,
        Nat.div_eq_of_lt (by omega), zero_add]
    rw [this, min_eq_left hkl, hkp, h0, pow_zero, mul_one]
    exact ne_clear_head l hkl
  · rw [if_pos (by simpa using h0)]
    have hm := Nat.mod_lt k hLB
    have : (k + LB - 1) / LB = k / LB + 1 := by
      have e : k = k % LB + k / LB * LB := by rw [mul_comm]; omega
      generalize k / LB = q at e
      generalize k % LB = r at *
      subst e
      rw [show r + q * LB + LB - 1 = (r - 1) + (q + 1) * LB by rw [add_mul]; omega,
        Nat.add_mul_div_right _ _ hLB, Nat.div_eq_of_lt (by omega), zero_add]
    have hlt : k / LB < l.length := by
      rcases Nat.lt_or_ge (k / LB) l.length with h' | h'
      · exact h'
      · have := Nat.mul_le_mul_left LB h'
        rw [mul_comm LB l.length] at this
        omega
    rw [this, min_eq_left (by omega), M.sub_eq (Nat.le_add_left _ _), M.pure_bind,
      Nat.add_sub_cancel, ne_mp_load_l_eq hlt, M.pure_bind]
    set d := lval l / B ^ (k / LB) % B with hd
    have hB : B = 256 ^ (k % LB) * 256 ^ (LB - k % LB) := by
      rw [← pow_add, B_eq_256_pow]; congr 1; omega
    have hval : shl (shr d (8 * (k % LB))) (8 * (k % LB)) = d / 256 ^ (k % LB) * 256 ^ (k % LB) := by
      rw [shl_eq, shr_eq, two_pow_8]
      apply Nat.mod_eq_of_lt
      exact lt_of_le_of_lt (Nat.div_mul_le_self _ _) (dig_lt _ _)
    rw [hval]
    have hdl : d / 256 ^ (k % LB) * 256 ^ (k % LB) < B :=
      lt_of_le_of_lt (Nat.div_mul_le_self _ _) (dig_lt _ _)
    obtain ⟨l1, e1, e2, e3⟩ := ne_mp_store_l_eq (l := l) (i := k / LB) hlt hdl
    rw [e1, M.pure_bind]
    obtain ⟨l2, e4, e5, e6⟩ := ne_clear_head l1 (k := k / LB) (by omega)
    refine ⟨l2, e4, by omega, ?_⟩
    rw [e6, e3, upd_div_le, hkp]
    have hx := div_succ (lval l) (k / LB)
    rw [← Nat.div_div_eq_div_mul, hx, ← hd]
    generalize lval l / B ^ (k / LB + 1) = y
    rw [Nat.mul_comm B y]
    have : (d + y * B) / 256 ^ (k % LB) = d / 256 ^ (k % LB) + y * 256 ^ (LB - k % LB) := by
      rw [hB, mul_comm (256 ^ (k % LB)), ← mul_assoc, Nat.add_mul_div_right _ _ (by positivity)]
    rw [this]
    rw [show y * B = y * (256 ^ (k % LB) * 256 ^ (LB - k % LB)) by rw [← hB]]
    ring

theorem ne_mp_clear_bytes_below_eq' (l : List (Fin B)) {k : ℕ} (h : k ≤ l.length * LB ∨ LB ∣ k) :
    ∃ l', ne_mp_clear_bytes_below l k = pure l' ∧ l'.length = l.length ∧
      lval l' = lval l / 256 ^ k * 256 ^ k := by
  by_cases hk : k ≤ l.length * LB
  · exact ne_mp_clear_bytes_below_eq l hk
  · have hd := h.resolve_left hk
    have hLB := LB_pos
    unfold ne_mp_clear_bytes_below ct_mp_nlimbs
    dsimp only
    rw [if_neg (by simpa using Nat.mod_eq_zero_of_dvd hd), min_eq_right ?_]
    · obtain ⟨l', h1, h2, h3⟩ := ne_clear_head l (k := l.length) le_rfl
      refine ⟨l', h1, h2, ?_⟩
      have hlt := lval_lt l
      rw [h3, Nat.div_eq_of_lt hlt, Nat.div_eq_of_lt (lt_of_lt_of_le hlt ?_)]
      · simp
      · rw [← pow_256]; exact Nat.pow_le_pow_right (by norm_num) (by omega)
    · rw [Nat.le_div_iff_mul_le hLB]; omega

end Cmpa
