import Verif.Model.Usize
import Verif.Proofs.Limb

namespace Cmpa
variable [LimbCfg]

theorem ct_eq_usize_usize_eq (a b : ℕ) :
    ct_eq_usize_usize a b = .ofBool (decide (a = b)) := LimbChoice.new_ite _
theorem ct_lt_usize_usize_eq (a b : ℕ) :
    ct_lt_usize_usize a b = .ofBool (decide (a < b)) := LimbChoice.new_ite _
theorem ct_leq_usize_usize_eq (a b : ℕ) :
    ct_leq_usize_usize a b = .ofBool (decide (a ≤ b)) := by
  unfold ct_leq_usize_usize; rw [ct_lt_usize_usize_eq, LimbChoice.not_ofBool]
  congr 1; by_cases h : b < a
  · simp [h, show ¬ a ≤ b by omega]
  · simp [h, show a ≤ b by omega]
theorem ct_gt_usize_usize_eq (a b : ℕ) :
    ct_gt_usize_usize a b = .ofBool (decide (a > b)) := ct_lt_usize_usize_eq b a
theorem ct_geq_usize_usize_eq (a b : ℕ) :
    ct_geq_usize_usize a b = .ofBool (decide (a ≥ b)) := ct_leq_usize_usize_eq b a

section
variable (u : UsizeCfg) {a b : ℕ}

theorem ct_eq_usize_usize_agrees (ha : a < @B u.cfg) (hb : b < @B u.cfg) :
    ct_eq_usize_usize' u a b = pure (ct_eq_usize_usize a b) := by
  have h : ct_is_zero_usize u (a ^^^ b) = if a = b then 1 else 0 := by
    show @ct_is_zero_l u.cfg (a ^^^ b) = _
    rw [@ct_is_zero_l_eq u.cfg _ (@xor_lt u.cfg _ _ ha hb)]
    simp only [Nat.xor_eq_zero_iff]
  unfold ct_eq_usize_usize'
  rw [h, LimbChoice.from'_eq (by split <;> omega), ct_eq_usize_usize_eq]
  by_cases h : a = b <;> simp [h]

theorem ct_lt_usize_usize_agrees (ha : a < @B u.cfg) (hb : b < @B u.cfg) :
    ct_lt_usize_usize' u a b = pure (ct_lt_usize_usize a b) := by
  have h : (ct_sub_usize_usize u a b).1 = if a < b then 1 else 0 := by
    show (@ct_sub_l_l u.cfg a b).1 = _
    rw [@ct_sub_l_l_eq u.cfg _ _ ha hb]
  unfold ct_lt_usize_usize'
  rw [h, LimbChoice.from'_eq (by split <;> omega), ct_lt_usize_usize_eq]
  by_cases h : a < b <;> simp [h]

theorem ct_leq_usize_usize_agrees (ha : a < @B u.cfg) (hb : b < @B u.cfg) :
    ct_leq_usize_usize' u a b = pure (ct_leq_usize_usize a b) := by
  unfold ct_leq_usize_usize' ct_leq_usize_usize
  rw [ct_lt_usize_usize_agrees u hb ha, M.pure_bind]

end

end Cmpa
