import Verif.Base.CtTactic
import Verif.Model.Buf

/-!
# Constant time: buffers
-/

set_option linter.unusedSectionVars false

namespace Cmpa
open M
variable [LimbCfg] [Obs] {f g h : Fmt}

namespace Buf

theorem clear_bytes_above_ct {a b : Buf f} {k l : ℕ} (h : a.len = b.len) (hk : k = l) :
    Ct (a.clear_bytes_above k) (b.clear_bytes_above l) := by
  subst hk
  obtain ⟨a', h1, h2, _⟩ := clear_bytes_above_eq a k
  obtain ⟨b', h3, h4, _⟩ := clear_bytes_above_eq b k
  intro x y hx hy
  rw [h1] at hx ⊢
  rw [h3] at hy ⊢
  cases hx
  cases hy
  exact ⟨by simp only [seen, h], h2.trans (h.trans h4.symm)⟩

theorem clear_bytes_below_ct {a b : Buf f} {k l : ℕ} (h : a.len = b.len) (hk : k = l) :
    Ct (a.clear_bytes_below k) (b.clear_bytes_below l) := by
  subst hk
  exact fun x y hx hy => ⟨by rw [seen, seen, clear_bytes_below_tr, clear_bytes_below_tr, h], by
    rw [low_buf, clear_bytes_below_len a k x hx, clear_bytes_below_len b k y hy, h]⟩

theorem split_at_ct {α : Type} {l l' : List α} {n : ℕ} (h : l.length = l'.length) :
    SameTr (split_at l n) (split_at l' n) (fun a b => a.1.length = b.1.length ∧ a.2.length = b.2.length) := by
  unfold split_at
  refine SameTr.bind SameTr.check fun _ _ _ => SameTr.pure ⟨?_, ?_⟩
  · simp [h]
  · simp [h]

theorem take_ct {a b : Buf f} {k l : ℕ} (h : a.len = b.len) (hk : k = l) : Ct (a.take k) (b.take l) := by
  subst hk
  match f, a, b, h with
  | _, .be a, .be b, h =>
    have h' : a.length = b.length := h
    unfold take; dsimp only
    rw [h]
    refine SameTr.bind SameTr.emit fun _ _ _ => SameTr.bind (SameTr.subEq h' rfl) fun p _ hp => ?_
    subst hp
    exact SameTr.bind (split_at_ct h') fun (_, _) (_, _) hab => SameTr.pure ⟨hab.1, hab.2⟩
  | _, .le a, .le b, h =>
    have h' : a.length = b.length := h
    unfold take; dsimp only
    rw [h]
    refine SameTr.bind SameTr.emit fun _ _ _ => ?_
    exact SameTr.bind (split_at_ct h') fun (_, _) (_, _) hab => SameTr.pure ⟨hab.2, hab.1⟩
  | _, .ne a, .ne b, h =>
    have h' : a.length = b.length := Nat.eq_of_mul_eq_mul_right LB_pos h
    unfold take; dsimp only
    rw [h]
    refine SameTr.bind SameTr.emit fun _ _ _ => SameTr.bind SameTr.assert fun _ _ _ => ?_
    exact SameTr.bind (split_at_ct h') fun (_, _) (_, _) hab => SameTr.pure
      ⟨by show _ * _ = _ * _; rw [hab.2], by show _ * _ = _ * _; rw [hab.1]⟩

theorem _shrink_to_ct {a b : Buf f} {k l : ℕ} (h : a.len = b.len) (hk : k = l) :
    Ct (a._shrink_to k) (b._shrink_to l) := by
  subst hk
  match f, a, b, h with
  | _, .be a, .be b, h =>
    have h' : a.length = b.length := h
    unfold _shrink_to; dsimp only
    rw [h]
    refine SameTr.bind SameTr.emit fun _ _ _ => SameTr.bind (SameTr.subEq h' rfl) fun p _ hp => ?_
    subst hp
    exact SameTr.bind (split_at_ct h') fun (_, _) (_, _) hab => SameTr.pure ⟨hab.2, hab.1⟩
  | _, .le a, .le b, h =>
    have h' : a.length = b.length := h
    unfold _shrink_to; dsimp only
    rw [h]
    refine SameTr.bind SameTr.emit fun _ _ _ => ?_
    exact SameTr.bind (split_at_ct h') fun (_, _) (_, _) hab => SameTr.pure ⟨hab.1, hab.2⟩
  | _, .ne a, .ne b, h =>
    have h' : a.length = b.length := Nat.eq_of_mul_eq_mul_right LB_pos h
    unfold _shrink_to; dsimp only
    rw [h]
    refine SameTr.bind SameTr.emit fun _ _ _ => ?_
    exact SameTr.bind (split_at_ct h') fun (_, _) (_, _) hab => SameTr.pure
      ⟨by show _ * _ = _ * _; rw [hab.1], by show _ * _ = _ * _; rw [hab.2]⟩

theorem test_bit_ct {a b : Buf f} {k l : ℕ} (h : a.len = b.len) (hk : k = l) :
    Ct (a.test_bit k) (b.test_bit l) := by
  unfold test_bit
  ct

theorem shrink_to_ct {a b : Buf f} {k l : ℕ} (h : a.len = b.len) (hk : k = l) :
    Ct (a.shrink_to k) (b.shrink_to l) := by
  unfold shrink_to
  ct

/-- The answer is not related: it is up to the caller what to make public. -/
theorem len_is_compatible_with_ct {a b : Buf f} {k l : ℕ} (h : a.len = b.len) (hk : k = l) :
    Ct (a.len_is_compatible_with k) (b.len_is_compatible_with l) := by
  unfold len_is_compatible_with
  ct

theorem clear_bytes_above_cond_ct {a b : Buf f} {k l : ℕ} {c d : LimbChoice} (h : a.len = b.len) (hk : k = l) :
    Ct (a.clear_bytes_above_cond k c) (b.clear_bytes_above_cond l d) := by
  unfold clear_bytes_above_cond
  ct

theorem copy_from_ct {a b : Buf f} {s t : Buf g} (h : a.len = b.len) (hs : s.len = t.len) :
    Ct (a.copy_from s) (b.copy_from t) := by
  unfold copy_from
  ct

theorem copy_from_cond_ct {a b : Buf f} {s t : Buf g} {c d : LimbChoice} (h : a.len = b.len) (hs : s.len = t.len) :
    Ct (a.copy_from_cond s c) (b.copy_from_cond t d) := by
  unfold copy_from_cond
  ct

theorem set_bit_to_ct {a b : Buf f} {k l : ℕ} {v w : Bool} (h : a.len = b.len) (hk : k = l) :
    Ct (a.set_bit_to k v) (b.set_bit_to l w) := by
  unfold set_bit_to
  ct

theorem set_to_native_ct {a b : Buf f} {k l v w : ℕ} (h : a.len = b.len) (hk : k = l) :
    Ct (set_to_native k a v) (set_to_native l b w) := by
  subst hk
  unfold set_to_native
  ct

end Buf

theorem ct_find_first_set_bit_mp_ct {a b : Buf f} (h : a.len = b.len) :
    Ct (ct_find_first_set_bit_mp a) (ct_find_first_set_bit_mp b) := by
  unfold ct_find_first_set_bit_mp
  ct

theorem ct_find_last_set_bit_mp_ct {a b : Buf f} (h : a.len = b.len) :
    Ct (ct_find_last_set_bit_mp a) (ct_find_last_set_bit_mp b) := by
  unfold ct_find_last_set_bit_mp
  ct

/-- The position is secret. -/
theorem ct_clear_bits_above_mp_ct {a b : Buf f} {k l : ℕ} (h : a.len = b.len) :
    Ct (ct_clear_bits_above_mp a k) (ct_clear_bits_above_mp b l) := by
  unfold ct_clear_bits_above_mp
  ct

theorem clear_bits_above_mp_ct {a b : Buf f} {k l : ℕ} (h : a.len = b.len) (hk : k = l) :
    Ct (clear_bits_above_mp a k) (clear_bits_above_mp b l) := by
  unfold clear_bits_above_mp
  ct

/-- The position is secret. -/
theorem ct_clear_bits_below_mp_ct {a b : Buf f} {k l : ℕ} (h : a.len = b.len) :
    Ct (ct_clear_bits_below_mp a k) (ct_clear_bits_below_mp b l) := by
  unfold ct_clear_bits_below_mp
  ct

theorem clear_bits_below_mp_ct {a b : Buf f} {k l : ℕ} (h : a.len = b.len) (hk : k = l) :
    Ct (clear_bits_below_mp a k) (clear_bits_below_mp b l) := by
  unfold clear_bits_below_mp
  ct

theorem ct_swap_cond_mp_ct {a a' : Buf f} {b b' : Buf g} {c c' : LimbChoice} (ha : a.len = a'.len)
    (hb : b.len = b'.len) : Ct (ct_swap_cond_mp a b c) (ct_swap_cond_mp a' b' c') := by
  unfold ct_swap_cond_mp
  ct

end Cmpa
