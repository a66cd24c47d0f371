import Verif.Base.Cost
import Verif.Model.Buf

/-!
# Bounds on the work: buffers
-/

set_option linter.unusedSectionVars false

namespace Cmpa
open M
variable [LimbCfg] {f g h : Fmt}

namespace Buf

theorem load_l_cost {b : Buf f} {i : ℕ} : Cost (b.load_l i) 1 none :=
  ⟨by rw [steps, load_l_tr]; exact le_refl 1, fun _ _ => fits_nat⟩

theorem load_l_full_cost {b : Buf f} {i : ℕ} : Cost (b.load_l_full i) 1 none :=
  ⟨by rw [steps, load_l_full_tr]; exact le_refl 1, fun _ _ => fits_nat⟩

theorem store_l_cost {b : Buf f} {i v u : ℕ} (h : b.nlimbs ≤ u) : Cost (b.store_l i v) 1 u :=
  ⟨by rw [steps, store_l_tr]; exact le_refl 1, fun x hx => fits_buf (by rw [nlimbs, store_l_len b i v x hx]; exact h)⟩

theorem store_l_full_cost {b : Buf f} {i v u : ℕ} (h : b.nlimbs ≤ u) : Cost (b.store_l_full i v) 1 u :=
  ⟨by rw [steps, store_l_full_tr]; exact le_refl 1,
    fun x hx => fits_buf (by rw [nlimbs, store_l_full_len b i v x hx]; exact h)⟩

theorem range_steps {b : Buf f} {k u : ℕ} (h : b.nlimbs ≤ u) : (Ev.range b.len k).steps ≤ u + 1 :=
  Nat.add_le_add_right h 1

theorem clear_bytes_above_cost {b : Buf f} {k u : ℕ} (h : b.nlimbs ≤ u) :
    Cost (b.clear_bytes_above k) (u + 1) u := by
  obtain ⟨b', h1, h2, _⟩ := clear_bytes_above_eq b k
  rw [h1]
  exact ⟨by simpa [steps, M.ok] using range_steps h, fun x hx => by
    cases hx
    exact fits_buf (by rw [nlimbs, h2]; exact h)⟩

theorem clear_bytes_below_cost {b : Buf f} {k u : ℕ} (h : b.nlimbs ≤ u) :
    Cost (b.clear_bytes_below k) (u + 1) u :=
  ⟨by rw [steps, clear_bytes_below_tr]; simpa using range_steps h,
    fun x hx => fits_buf (by rw [nlimbs, clear_bytes_below_len b k x hx]; exact h)⟩

theorem split_at_post {α : Type} {l : List α} {n : ℕ} :
    Post (split_at l n) (fun a => a.1.length ≤ l.length ∧ a.2.length ≤ l.length) := by
  unfold split_at
  refine Post.bind Post.trivial fun _ _ => Post.pure ⟨?_, ?_⟩
  · simp
  · simp

theorem quiet_split_at {α : Type} {l : List α} {n : ℕ} : Quiet (split_at l n) := by
  unfold split_at; quiet

theorem nlimbs_le_of_len {a : Buf f} {b : Buf g} {u : ℕ} (h : a.len ≤ b.len) (hb : b.nlimbs ≤ u) : a.nlimbs ≤ u :=
  le_trans (nlimbs_mono h) hb

theorem take_cost {b : Buf f} {k u : ℕ} (h : b.nlimbs ≤ u) : Cost (b.take k) (u + 1) (u, u) := by
  constructor
  · have : (b.take k).tr = [.range b.len k] := by
      rcases b with b | b | b <;> refine Quiet.emit_bind ?_
      · exact .bind .sub fun _ => .bind quiet_split_at fun _ => .pure
      · exact .bind quiet_split_at fun _ => .pure
      · exact .bind .assert fun _ => .bind quiet_split_at fun _ => .pure
    rw [steps, this]
    simpa using range_steps h
  · rcases b with b | b | b <;> refine Post.bind Post.trivial fun _ _ => ?_
    · exact Post.bind Post.trivial fun _ _ => Post.bind split_at_post fun (_, _) ha =>
        Post.pure (fits_mk (nlimbs_le_of_len (b := .be b) ha.1 h) (nlimbs_le_of_len (b := .be b) ha.2 h))
    · exact Post.bind split_at_post fun (_, _) ha =>
        Post.pure (fits_mk (nlimbs_le_of_len (b := .le b) ha.2 h) (nlimbs_le_of_len (b := .le b) ha.1 h))
    · exact Post.bind Post.trivial fun _ _ => Post.bind split_at_post fun (_, _) ha =>
        Post.pure (fits_mk (nlimbs_le_of_len (b := .ne b) (Nat.mul_le_mul_right _ ha.2) h)
          (nlimbs_le_of_len (b := .ne b) (Nat.mul_le_mul_right _ ha.1) h))

theorem _shrink_to_cost {b : Buf f} {k u : ℕ} (h : b.nlimbs ≤ u) : Cost (b._shrink_to k) (u + 1) (u, u) := by
  constructor
  · have : (b._shrink_to k).tr = [.range b.len k] := by
      rcases b with b | b | b <;> refine Quiet.emit_bind ?_
      · exact .bind .sub fun _ => .bind quiet_split_at fun _ => .pure
      · exact .bind quiet_split_at fun _ => .pure
      · exact .bind quiet_split_at fun _ => .pure
    rw [steps, this]
    simpa using range_steps h
  · rcases b with b | b | b <;> refine Post.bind Post.trivial fun _ _ => ?_
    · exact Post.bind Post.trivial fun _ _ => Post.bind split_at_post fun (_, _) ha =>
        Post.pure (fits_mk (nlimbs_le_of_len (b := .be b) ha.2 h) (nlimbs_le_of_len (b := .be b) ha.1 h))
    · exact Post.bind split_at_post fun (_, _) ha =>
        Post.pure (fits_mk (nlimbs_le_of_len (b := .le b) ha.1 h) (nlimbs_le_of_len (b := .le b) ha.2 h))
    · exact Post.bind split_at_post fun (_, _) ha =>
        Post.pure (fits_mk (nlimbs_le_of_len (b := .ne b) (Nat.mul_le_mul_right _ ha.1) h)
          (nlimbs_le_of_len (b := .ne b) (Nat.mul_le_mul_right _ ha.2) h))

theorem test_bit_cost {b : Buf f} {k : ℕ} : Cost (b.test_bit k) 2 () := by
  unfold test_bit; cost; simp

theorem shrink_to_cost {b : Buf f} {k u : ℕ} (h : b.nlimbs ≤ u) : Cost (b.shrink_to k) (u + 1) (u, u) := by
  unfold shrink_to; cost; omega

theorem len_is_compatible_with_cost {b : Buf f} {k : ℕ} : Cost (b.len_is_compatible_with k) 3 () := by
  unfold len_is_compatible_with; cost; simp

theorem clear_bytes_above_cond_cost {b : Buf f} {k u : ℕ} {c : LimbChoice} (h : b.nlimbs ≤ u) :
    Cost (b.clear_bytes_above_cond k c) (3 * u + 3) u := by
  unfold clear_bytes_above_cond; cost; omega

theorem copy_from_cost {b : Buf f} {s : Buf g} {u : ℕ} (h : b.nlimbs ≤ u) :
    Cost (b.copy_from s) (4 * u + 5) u := by
  unfold copy_from; cost; omega

theorem copy_from_cond_cost {b : Buf f} {s : Buf g} {c : LimbChoice} {u : ℕ} (h : b.nlimbs ≤ u) :
    Cost (b.copy_from_cond s c) (7 * u + 8) u := by
  unfold copy_from_cond; cost; omega

theorem set_bit_to_cost {b : Buf f} {k u : ℕ} {v : Bool} (h : b.nlimbs ≤ u) :
    Cost (b.set_bit_to k v) 2 u := by
  unfold set_bit_to; cost; omega

theorem set_to_native_cost {b : Buf f} {k v u : ℕ} (h : b.nlimbs ≤ u) :
    Cost (b.set_to_native k v) (3 * u + 1 + 2 * ct_mp_nlimbs k) u := by
  unfold set_to_native; cost; omega

theorem try_into_native_cost {b : Buf f} {k u : ℕ} (h : b.nlimbs ≤ u) :
    Cost (b.try_into_native k) (2 * u + 2 + 2 * ct_mp_nlimbs k) none := by
  unfold try_into_native; cost; omega

end Buf

theorem find_last_set_limb_go_cost {b : Buf f} : ∀ {n : ℕ}, Cost (find_last_set_limb.go b n) (3 * n) none
  | 0 => by unfold find_last_set_limb.go; cost; omega
  | n + 1 => by
    have ih := find_last_set_limb_go_cost (b := b) (n := n)
    unfold find_last_set_limb.go; cost
    simp only [Ev.steps]; omega

theorem find_last_set_limb_cost {b : Buf f} {u : ℕ} (h : b.nlimbs ≤ u) :
    Cost (find_last_set_limb b) (3 * u + 3) none := by
  unfold find_last_set_limb; cost
  · exact find_last_set_limb_go_cost
  · omega

theorem find_last_set_byte_mp_cost {b : Buf f} {u : ℕ} (h : b.nlimbs ≤ u) :
    Cost (find_last_set_byte_mp b) (3 * u + 5) none := by
  unfold find_last_set_byte_mp; cost; omega

theorem ct_find_first_set_bit_mp_cost {b : Buf f} {u : ℕ} (h : b.nlimbs ≤ u) :
    Cost (ct_find_first_set_bit_mp b) (2 * u) ((), none) := by
  unfold ct_find_first_set_bit_mp; cost; omega

theorem ct_find_last_set_bit_mp_cost {b : Buf f} {u : ℕ} (h : b.nlimbs ≤ u) :
    Cost (ct_find_last_set_bit_mp b) (2 * u) ((), none) := by
  unfold ct_find_last_set_bit_mp; cost; omega

theorem ct_clear_bits_above_mp_cost {b : Buf f} {k u : ℕ} (h : b.nlimbs ≤ u) :
    Cost (ct_clear_bits_above_mp b k) (3 * u) u := by
  unfold ct_clear_bits_above_mp; cost; omega

theorem clear_bits_above_mp_cost {b : Buf f} {k u : ℕ} (h : b.nlimbs ≤ u) :
    Cost (clear_bits_above_mp b k) (u + 4) u := by
  unfold clear_bits_above_mp; cost; omega

theorem ct_clear_bits_below_mp_cost {b : Buf f} {k u : ℕ} (h : b.nlimbs ≤ u) :
    Cost (ct_clear_bits_below_mp b k) (3 * u) u := by
  unfold ct_clear_bits_below_mp; cost; omega

theorem clear_bits_below_mp_cost {b : Buf f} {k u : ℕ} (h : b.nlimbs ≤ u) :
    Cost (clear_bits_below_mp b k) (u + 4) u := by
  unfold clear_bits_below_mp; cost; omega

theorem ct_swap_cond_mp_cost {a : Buf f} {b : Buf g} {c : LimbChoice} {u v : ℕ} (h : a.nlimbs ≤ u)
    (h' : b.nlimbs ≤ v) : Cost (ct_swap_cond_mp a b c) (5 * u) (u, v) := by
  unfold ct_swap_cond_mp; cost; omega

end Cmpa
