import Verif.Model.View
import Verif.Proofs.BufList

/-!
# C43: limbs seen as bytes
-/

namespace Cmpa.Props
open Cmpa
variable [LimbCfg]

theorem to_bytes_length (e : ByteOrder) (v : ℕ) : (e.to_bytes v).length = LB := by
  cases e <;> simp [ByteOrder.to_bytes]

theorem from_to_bytes (e : ByteOrder) {v : ℕ} (hv : v < B) : e.from_bytes (e.to_bytes v) = v := by
  cases e
  · exact lval_to_le_bytes hv
  · simp only [ByteOrder.from_bytes, ByteOrder.to_bytes, from_be_bytes, to_be_bytes, List.reverse_reverse]
    exact lval_to_le_bytes hv

theorem from_le_bytes_lt (l : List (Fin 256)) (h : l.length = LB) : from_le_bytes l < B := by
  have := lval_lt l
  rwa [h, ← B_eq_256_pow] at this

theorem from_bytes_lt (e : ByteOrder) (l : List (Fin 256)) (h : l.length = LB) : e.from_bytes l < B := by
  cases e
  · exact from_le_bytes_lt l h
  · exact from_le_bytes_lt _ (by simpa using h)

theorem to_from_le_bytes (l : List (Fin 256)) (h : l.length = LB) : to_le_bytes (from_le_bytes l) = l :=
  lval_inj (by simp [h]) (lval_to_le_bytes (from_le_bytes_lt l h))

theorem to_from_bytes (e : ByteOrder) (l : List (Fin 256)) (h : l.length = LB) :
    e.to_bytes (e.from_bytes l) = l := by
  cases e
  · exact to_from_le_bytes l h
  · simp only [ByteOrder.from_bytes, ByteOrder.to_bytes, from_be_bytes, to_be_bytes]
    rw [to_from_le_bytes _ (by simpa using h), List.reverse_reverse]

/-- The view covers the limbs' memory, all of it: `LIMB_BYTES` bytes for each limb. -/
theorem C43_view_len (e : ByteOrder) (limbs : List (Fin B)) :
    (limb_slice_as_bytes e limbs).length = (Buf.ne limbs).len := by
  simp only [Buf.len]
  induction limbs with
  | nil => simp [limb_slice_as_bytes]
  | cons a l ih =>
    have : (limb_slice_as_bytes e l).length = l.length * LB := ih
    simp only [limb_slice_as_bytes] at this ⊢
    rw [List.flatMap_cons, List.length_append, this, to_bytes_length, List.length_cons]
    ring

/-- On little endian machines the view of a limb buffer is the little endian byte buffer of the same number. -/
theorem C43_view_little (limbs : List (Fin B)) :
    (Buf.le (limb_slice_as_bytes .little limbs)).toNat = (Buf.ne limbs).toNat := by
  simp only [Buf.toNat]
  induction limbs with
  | nil => simp [limb_slice_as_bytes]
  | cons a l ih =>
    simp only [limb_slice_as_bytes] at ih ⊢
    rw [List.flatMap_cons, List.map_append, Nat.ofDigits_append, ih, List.map_cons, Nat.ofDigits_cons,
      List.length_map, to_bytes_length, ← B_eq_256_pow]
    congr 1
    exact lval_to_le_bytes a.isLt

/-- On big endian machines it is not the big endian byte buffer, but the one of the limbs in reverse order. -/
theorem C43_view_big (limbs : List (Fin B)) :
    (Buf.be (limb_slice_as_bytes .big limbs)).toNat = (Buf.ne limbs.reverse).toNat := by
  rw [← C43_view_little]
  simp only [Buf.toNat]
  congr 2
  induction limbs with
  | nil => simp [limb_slice_as_bytes]
  | cons a l ih =>
    simp only [limb_slice_as_bytes] at ih ⊢
    rw [List.flatMap_cons, List.reverse_append, ih, List.reverse_cons, List.flatMap_append, List.flatMap_cons,
      List.flatMap_nil, List.append_nil]
    simp [ByteOrder.to_bytes, to_be_bytes]

/-- What has been written through the mutable view is what the view shows afterwards, for either byte order and any
bytes. -/
theorem C43_write_read (e : ByteOrder) (n : ℕ) (bytes : List (Fin 256)) (h : bytes.length = n * LB) :
    limb_slice_as_bytes e (limbs_after_write e n bytes) = bytes ∧ (limbs_after_write e n bytes).length = n := by
  induction n generalizing bytes with
  | zero => simp [limb_slice_as_bytes, limbs_after_write, List.eq_nil_of_length_eq_zero (by simpa using h)]
  | succ n ih =>
    have h1 : (bytes.take LB).length = LB := by
      rw [List.length_take, h, Nat.succ_mul]; omega
    obtain ⟨h2, h3⟩ := ih (bytes.drop LB) (by rw [List.length_drop, h, Nat.succ_mul]; omega)
    refine ⟨?_, by simp [limbs_after_write, h3]⟩
    simp only [limb_slice_as_bytes, limbs_after_write] at h2 ⊢
    rw [List.flatMap_cons, h2]
    simp only [Fin.ofNat]
    rw [Nat.mod_eq_of_lt (from_bytes_lt e _ h1), to_from_bytes e _ h1, List.take_append_drop]

/-- Nothing changes if the bytes shown are written back. -/
theorem C43_read_write (e : ByteOrder) (limbs : List (Fin B)) :
    limbs_after_write e limbs.length (limb_slice_as_bytes e limbs) = limbs := by
  induction limbs with
  | nil => rfl
  | cons a l ih =>
    simp only [limb_slice_as_bytes, List.length_cons] at ih ⊢
    rw [List.flatMap_cons, limbs_after_write, List.drop_left' (to_bytes_length e _),
      List.take_left' (to_bytes_length e _), ih]
    congr 1
    apply Fin.ext
    simp only [Fin.ofNat]
    rw [from_to_bytes e a.isLt, Nat.mod_eq_of_lt a.isLt]

/-- Random or received bytes, little endian, can be written directly to the limbs on a little endian machine. -/
theorem C43_write_little (n : ℕ) (bytes : List (Fin 256)) (h : bytes.length = n * LB) :
    (Buf.ne (limbs_after_write .little n bytes)).toNat = (Buf.le bytes).toNat ∧
      (Buf.ne (limbs_after_write .little n bytes)).len = bytes.length := by
  obtain ⟨h1, h2⟩ := C43_write_read .little n bytes h
  exact ⟨by rw [← C43_view_little, h1], by rw [← C43_view_len .little, h1]⟩

/-- As many limbs as `nlimbs_for_len` says have room for the given number of bytes, and one less would not. -/
theorem C43_nlimbs_for_len (len : ℕ) (limbs : List (Fin B)) (h : limbs.length = nlimbs_for_len len) :
    len ≤ (Buf.ne limbs).len ∧ (Buf.ne limbs).len < len + LB := by
  have hp := LB_pos
  have e : nlimbs_for_len len = ct_mp_nlimbs len := by
    simp only [nlimbs_for_len, Buf.n_backing_elements_for_len, Buf._limbs_align_len, Fmt.unaligned, Fmt.usz,
      ct_mp_limbs_align_len, Bool.false_eq_true, if_false, Nat.mul_mod_left, Nat.mul_div_cancel _ hp]
    simp
  rw [e] at h
  simp only [Buf.len, h, ct_mp_nlimbs]
  have h1 := Nat.div_add_mod (len + LB - 1) LB
  have h2 := Nat.mod_lt (len + LB - 1) hp
  rw [mul_comm] at h1
  omega

-- Two limbs on both kinds of machines.
example : letI := cfg32; (limb_slice_as_bytes .little [0x01020304, 5]).map Fin.val = [4, 3, 2, 1, 5, 0, 0, 0] := by
  decide +kernel
example : letI := cfg32; (limb_slice_as_bytes .big [0x01020304, 5]).map Fin.val = [1, 2, 3, 4, 0, 0, 0, 5] := by
  decide +kernel
-- on a big endian machine the view of two limbs is neither of the two byte formats
example : letI := cfg32;
    (Buf.be (limb_slice_as_bytes .big [0x01020304, 5])).toNat ≠ (Buf.ne [0x01020304, 5]).toNat ∧
    (Buf.le (limb_slice_as_bytes .big [0x01020304, 5])).toNat ≠ (Buf.ne [0x01020304, 5]).toNat := by
  decide +kernel
example : letI := cfg64; (limbs_after_write .little 1 [1, 2, 0, 0, 0, 0, 0, 0]).map Fin.val = [0x0201] := by
  decide +kernel
example : letI := cfg64; nlimbs_for_len 9 = 2 := by decide +kernel

end Cmpa.Props
