import Verif.Model.Value

/-!
# Model of `limb_slice_as_bytes` and `limb_slice_as_bytes_mut`, limbs_buffer.rs:2966-2976

Both reinterpret the memory of a slice of limbs as bytes; which byte of a limb comes first in memory depends on the
machine.
-/

namespace Cmpa
variable [LimbCfg]

/-- The order of a limb's bytes in the memory of a machine, on which limbs_buffer.rs:2966-2976 depend. -/
inductive ByteOrder where
  | little
  | big
  deriving DecidableEq

/-- A limb in memory (`LimbType::to_ne_bytes`), as seen through the slice made at limbs_buffer.rs:2975. -/
def ByteOrder.to_bytes : ByteOrder → ℕ → List (Fin 256)
  | little, v => to_le_bytes v
  | big, v => to_be_bytes v

/-- A limb read from memory (`LimbType::from_ne_bytes`), after writes to the slice made at limbs_buffer.rs:2969. -/
def ByteOrder.from_bytes : ByteOrder → List (Fin 256) → ℕ
  | little, l => from_le_bytes l
  | big, l => from_be_bytes l

/-- `limb_slice_as_bytes`, limbs_buffer.rs:2972-2976, and what `limb_slice_as_bytes_mut`, limbs_buffer.rs:2966-2970, shows:
the memory of the limbs, in the order of their addresses. -/
def limb_slice_as_bytes (e : ByteOrder) (limbs : List (Fin B)) : List (Fin 256) :=
  limbs.flatMap fun v => e.to_bytes v.val

/-- The limbs after the bytes shown by `limb_slice_as_bytes_mut`, limbs_buffer.rs:2966-2970, have been overwritten with
`bytes`. -/
def limbs_after_write (e : ByteOrder) : (nlimbs : ℕ) → (bytes : List (Fin 256)) → List (Fin B)
  | 0, _ => []
  | n + 1, bytes => Fin.ofNat B (e.from_bytes (bytes.take LB)) :: limbs_after_write e n (bytes.drop LB)

/-- `nlimbs_for_len`, limbs_buffer.rs:1581-1583 and 1682-1684. -/
def nlimbs_for_len (nbytes : ℕ) : ℕ := Buf.n_backing_elements_for_len .ne nbytes

end Cmpa
