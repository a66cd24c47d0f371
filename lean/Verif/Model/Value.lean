import Verif.Model.Buf

/-!
# Specification: the number a buffer holds

This is part of the specification, not of the model of the code.
-/

namespace Cmpa
variable [LimbCfg]

/-- The non-negative integer represented by a buffer: its digits, to base 256 for
byte buffers and to base `2^LIMB_BITS` for limb buffers, least significant first
except for the big endian format. -/
def Buf.toNat {f : Fmt} : Buf f → ℕ
  | be bytes => Nat.ofDigits 256 (bytes.reverse.map Fin.val)
  | le bytes => Nat.ofDigits 256 (bytes.map Fin.val)
  | ne limbs => Nat.ofDigits B (limbs.map Fin.val)

/-- A buffer of format `f` and (for `ne`: rounded up) length `len` holding `v`
(truncated); used to write down examples. -/
def Buf.ofNat (f : Fmt) (len v : ℕ) : Buf f :=
  match f with
  | .be => be ((List.range len).map fun k => Fin.ofNat 256 (v / 256 ^ k)).reverse
  | .le => le ((List.range len).map fun k => Fin.ofNat 256 (v / 256 ^ k))
  | .ne => ne ((List.range (ct_mp_nlimbs len)).map fun k => Fin.ofNat B (v / B ^ k))

end Cmpa
