import Verif.Model.Limb
import Verif.Model.Usize
import Mathlib.Data.Nat.Digits.Defs

/-!
# Model of the multiprecision integer buffers of `/repo/src/limbs_buffer.rs`

There are three storage formats.  A buffer of format `f` is the list of its backing
elements in memory order: bytes for the big and little endian formats, limbs for the
native endian one.  The mutable and the immutable slice types of a format
(`MpBigEndianUIntByteSlice`, `MpMutBigEndianUIntByteSlice`, ...) have the same
methods and are the same model type; a method taking `&mut self` returns the updated
buffer.

A limb access emits one event with the buffer's length and the limb index.  The
implementations' own branches (is this the partial high limb?) depend on these two
numbers only, so they are not recorded separately.
-/

namespace Cmpa
variable [LimbCfg]

/-- `ct_mp_nlimbs`, limbs_buffer.rs:29-31. -/
def ct_mp_nlimbs (len : ℕ) : ℕ := (len + LB - 1) / LB

/-- `ct_mp_limbs_align_len`, limbs_buffer.rs:33-35. -/
def ct_mp_limbs_align_len (len : ℕ) : ℕ := ct_mp_nlimbs len * LB

/-! ### Slices -/

/-- `&l[a..b]`, e.g. limbs_buffer.rs:95. -/
def slice {α : Type} (l : List α) (a b : ℕ) : M (List α) :=
  if a ≤ b ∧ b ≤ l.length then M.ok ((l.drop a).take (b - a)) [] else M.panic

/-- `l[a..a + new.len()].copy_from_slice(new)`, e.g. limbs_buffer.rs:95. -/
def splice {α : Type} (l : List α) (a : ℕ) (new : List α) : M (List α) :=
  if a + new.length ≤ l.length then
    M.ok (l.take a ++ new ++ l.drop (a + new.length)) []
  else M.panic

/-- `LimbType::from_le_bytes`, as called in limbs_buffer.rs:441. -/
def from_le_bytes (l : List (Fin 256)) : ℕ := Nat.ofDigits 256 (l.map Fin.val)
/-- `LimbType::from_be_bytes`, as called in limbs_buffer.rs:70. -/
def from_be_bytes (l : List (Fin 256)) : ℕ := from_le_bytes l.reverse
/-- `LimbType::to_le_bytes`, as called in limbs_buffer.rs:590. -/
def to_le_bytes (v : ℕ) : List (Fin 256) :=
  (List.range LB).map fun k => Fin.ofNat 256 (v / 256 ^ k)
/-- `LimbType::to_be_bytes`, as called in limbs_buffer.rs:221. -/
def to_be_bytes (v : ℕ) : List (Fin 256) := (to_le_bytes v).reverse

/-! ### Big endian bytes -/

/-- `_be_mp_load_l_full`, limbs_buffer.rs:66-71. -/
def _be_mp_load_l_full (limbs : List (Fin 256)) (src_end : ℕ) : M ℕ := do
  let src_begin ← M.sub src_end LB
  let src ← slice limbs src_begin src_end
  pure (from_be_bytes src)

/-- `_be_mp_load_l_high_partial`, limbs_buffer.rs:93-97. -/
def _be_mp_load_l_high_partial (limbs : List (Fin 256)) (src_end : ℕ) : M ℕ := do
  let src ← slice limbs 0 src_end
  let pos ← M.sub LB src_end
  pure (from_be_bytes (List.replicate pos 0 ++ src))

/-- `be_mp_load_l_full`, limbs_buffer.rs:121-125. -/
def be_mp_load_l_full (limbs : List (Fin 256)) (i : ℕ) : M ℕ := do
  M.assert (i * LB < limbs.length)
  let src_end ← M.sub limbs.length (i * LB)
  _be_mp_load_l_full limbs src_end

/-- `be_mp_load_l`, limbs_buffer.rs:148-156. -/
def be_mp_load_l (limbs : List (Fin 256)) (i : ℕ) : M ℕ := do
  M.assert (i * LB ≤ limbs.length)
  let src_end ← M.sub limbs.length (i * LB)
  if LB ≤ src_end then
    _be_mp_load_l_full limbs src_end
  else
    _be_mp_load_l_high_partial limbs src_end

/-- `_be_mp_store_l_full`, limbs_buffer.rs:217-222. -/
def _be_mp_store_l_full (limbs : List (Fin 256)) (dst_end value : ℕ) : M (List (Fin 256)) := do
  let dst_begin ← M.sub dst_end LB
  splice limbs dst_begin (to_be_bytes value)

/-- `_be_mp_store_l_high_partial`, limbs_buffer.rs:245-249. -/
def _be_mp_store_l_high_partial (limbs : List (Fin 256)) (dst_end value : ℕ) :
    M (List (Fin 256)) := do
  let a ← M.sub LB dst_end
  let src ← slice (to_be_bytes value) a LB
  splice limbs 0 src

/-- `be_mp_store_l_full`, limbs_buffer.rs:272-276. -/
def be_mp_store_l_full (limbs : List (Fin 256)) (i value : ℕ) : M (List (Fin 256)) := do
  M.assert (i * LB < limbs.length)
  let dst_end ← M.sub limbs.length (i * LB)
  _be_mp_store_l_full limbs dst_end value

/-- `be_mp_store_l`, limbs_buffer.rs:301-310. -/
def be_mp_store_l (limbs : List (Fin 256)) (i value : ℕ) : M (List (Fin 256)) := do
  M.assert (i * LB ≤ limbs.length)
  let dst_end ← M.sub limbs.length (i * LB)
  if LB ≤ dst_end then
    _be_mp_store_l_full limbs dst_end value
  else do
    M.assert (shr value (8 * dst_end) = 0)
    _be_mp_store_l_high_partial limbs dst_end value

/-- `be_mp_clear_bytes_above`, limbs_buffer.rs:357-363. -/
def be_mp_clear_bytes_above (limbs : List (Fin 256)) (begin : ℕ) : M (List (Fin 256)) :=
  if limbs.length ≤ begin then pure limbs
  else splice limbs 0 (List.replicate (limbs.length - begin) 0)

/-- `be_mp_clear_bytes_below`, limbs_buffer.rs:389-393. -/
def be_mp_clear_bytes_below (limbs : List (Fin 256)) (end_ : ℕ) : M (List (Fin 256)) := do
  let end_ := min end_ limbs.length
  let a ← M.sub limbs.length end_
  splice limbs a (List.replicate end_ 0)

/-! ### Little endian bytes -/

/-- `_le_mp_load_l_full`, limbs_buffer.rs:437-442. -/
def _le_mp_load_l_full (limbs : List (Fin 256)) (src_begin : ℕ) : M ℕ := do
  let src ← slice limbs src_begin (src_begin + LB)
  pure (from_le_bytes src)

/-- `_le_mp_load_l_high_partial`, limbs_buffer.rs:463-467. -/
def _le_mp_load_l_high_partial (limbs : List (Fin 256)) (src_begin : ℕ) : M ℕ := do
  let src ← slice limbs src_begin limbs.length
  M.check (src.length ≤ LB)
  pure (from_le_bytes (src ++ List.replicate (LB - src.length) 0))

/-- `le_mp_load_l_full`, limbs_buffer.rs:491-495. -/
def le_mp_load_l_full (limbs : List (Fin 256)) (i : ℕ) : M ℕ := do
  M.assert (i * LB < limbs.length)
  _le_mp_load_l_full limbs (i * LB)

/-- `le_mp_load_l`, limbs_buffer.rs:518-526. -/
def le_mp_load_l (limbs : List (Fin 256)) (i : ℕ) : M ℕ := do
  M.assert (i * LB < limbs.length)
  if i * LB + LB ≤ limbs.length then
    _le_mp_load_l_full limbs (i * LB)
  else
    _le_mp_load_l_high_partial limbs (i * LB)

/-- `_le_mp_store_l_full`, limbs_buffer.rs:586-591. -/
def _le_mp_store_l_full (limbs : List (Fin 256)) (dst_begin value : ℕ) :
    M (List (Fin 256)) :=
  splice limbs dst_begin (to_le_bytes value)

/-- `_le_mp_store_l_high_partial`, limbs_buffer.rs:613-618. -/
def _le_mp_store_l_high_partial (limbs : List (Fin 256)) (dst_begin value : ℕ) :
    M (List (Fin 256)) := do
  let n ← M.sub limbs.length dst_begin
  let src ← slice (to_le_bytes value) 0 n
  splice limbs dst_begin src

/-- `le_mp_store_l_full`, limbs_buffer.rs:641-645. -/
def le_mp_store_l_full (limbs : List (Fin 256)) (i value : ℕ) : M (List (Fin 256)) := do
  M.assert (i * LB < limbs.length)
  _le_mp_store_l_full limbs (i * LB) value

/-- `le_mp_store_l`, limbs_buffer.rs:670-679. -/
def le_mp_store_l (limbs : List (Fin 256)) (i value : ℕ) : M (List (Fin 256)) := do
  M.assert (i * LB < limbs.length)
  if i * LB + LB ≤ limbs.length then
    _le_mp_store_l_full limbs (i * LB) value
  else do
    M.assert (shr value (8 * (limbs.length - i * LB)) = 0)
    _le_mp_store_l_high_partial limbs (i * LB) value

/-- `le_mp_clear_bytes_above`, limbs_buffer.rs:726-731. -/
def le_mp_clear_bytes_above (limbs : List (Fin 256)) (begin : ℕ) : M (List (Fin 256)) :=
  if limbs.length ≤ begin then pure limbs
  else splice limbs begin (List.replicate (limbs.length - begin) 0)

/-- `le_mp_clear_bytes_below`, limbs_buffer.rs:757-760. -/
def le_mp_clear_bytes_below (limbs : List (Fin 256)) (end_ : ℕ) : M (List (Fin 256)) :=
  splice limbs 0 (List.replicate (min end_ limbs.length) 0)

/-! ### Native endian limbs -/

/-- `load_l`, `load_l_full` of the native endian types, limbs_buffer.rs:1600-1607 and
1701-1708. -/
def ne_mp_load_l (limbs : List (Fin B)) (i : ℕ) : M ℕ :=
  M.ofOption (limbs[i]?.map Fin.val)

/-- `store_l`, `store_l_full` of the native endian types, limbs_buffer.rs:1713-1720. -/
def ne_mp_store_l (limbs : List (Fin B)) (i value : ℕ) : M (List (Fin B)) :=
  splice limbs i [Fin.ofNat B value]

/-- `clear_bytes_above` of the native endian types, limbs_buffer.rs:1722-1733. -/
def ne_mp_clear_bytes_above (limbs : List (Fin B)) (begin : ℕ) : M (List (Fin B)) := do
  let begin_limb := begin / LB
  if limbs.length ≤ begin_limb then pure limbs
  else
    let begin_in_limb := begin % LB
    if begin_in_limb ≠ 0 then do
      let l ← ne_mp_load_l limbs begin_limb
      let limbs ← ne_mp_store_l limbs begin_limb (l &&& ct_lsb_mask_l (8 * begin_in_limb))
      splice limbs (begin_limb + 1) (List.replicate (limbs.length - (begin_limb + 1)) 0)
    else
      splice limbs begin_limb (List.replicate (limbs.length - begin_limb) 0)

/-- `clear_bytes_below` of the native endian types, limbs_buffer.rs:1735-1746. -/
def ne_mp_clear_bytes_below (limbs : List (Fin B)) (end_ : ℕ) : M (List (Fin B)) := do
  let end_limb := min (ct_mp_nlimbs end_) limbs.length
  let end_in_limb := end_ % LB
  if end_in_limb ≠ 0 then do
    let end_limb ← M.sub end_limb 1
    let l ← ne_mp_load_l limbs end_limb
    let l := shr l (8 * end_in_limb)
    let l := shl l (8 * end_in_limb)
    let limbs ← ne_mp_store_l limbs end_limb l
    splice limbs 0 (List.replicate end_limb 0)
  else
    splice limbs 0 (List.replicate end_limb 0)

/-! ### The buffer types -/

/-- The three storage formats: of the types at limbs_buffer.rs:1122 and 1223 (`be`), limbs_buffer.rs:1348
and 1449 (`le`), and limbs_buffer.rs:1572 and 1673 (`ne`). -/
inductive Fmt where
  /-- big endian bytes -/
  | be
  /-- little endian bytes -/
  | le
  /-- limbs, least significant first -/
  | ne
  deriving DecidableEq, Repr

/-- `BACKING_ELEMENT_SIZE`, limbs_buffer.rs:1047. -/
def Fmt.usz : Fmt → ℕ
  | .be => 1
  | .le => 1
  | .ne => LB

/-- `SUPPORTS_UNALIGNED_BUFFER_LENGTHS`, limbs_buffer.rs:787, 1137, 1363, 1587. -/
def Fmt.unaligned : Fmt → Bool
  | .be => true
  | .le => true
  | .ne => false

/-- A multiprecision integer buffer, `MpBigEndianUIntByteSlice` and
`MpMutBigEndianUIntByteSlice` (limbs_buffer.rs:1121-1345),
`MpLittleEndianUIntByteSlice` and `MpMutLittleEndianUIntByteSlice` (1347-1570),
`MpNativeEndianUIntLimbsSlice` and `MpMutNativeEndianUIntLimbsSlice` (1572-1804). -/
inductive Buf : Fmt → Type where
  | be (bytes : List (Fin 256)) : Buf .be
  | le (bytes : List (Fin 256)) : Buf .le
  | ne (limbs : List (Fin B)) : Buf .ne

instance Buf.decEq [LimbCfg] : {f : Fmt} → DecidableEq (Buf f)
  | _, .be a, .be b => decidable_of_iff (a = b) (by simp)
  | _, .le a, .le b => decidable_of_iff (a = b) (by simp)
  | _, .ne a, .ne b => decidable_of_iff (a = b) (by simp)

namespace Buf
variable {f : Fmt}

/-- `_len`/`len`, in bytes, limbs_buffer.rs:1139-1141, 1365-1367, 1589-1591. -/
def len : Buf f → ℕ
  | be l => l.length
  | le l => l.length
  | ne l => l.length * LB

/-- `nlimbs`, limbs_buffer.rs:856-858. -/
def nlimbs (b : Buf f) : ℕ := ct_mp_nlimbs b.len

/-- `is_empty`, limbs_buffer.rs:1144-1146, 1370-1372, 1595-1597. -/
def is_empty : Buf f → Bool
  | be l => l.isEmpty
  | le l => l.isEmpty
  | ne l => l.isEmpty

/-- `load_l_full`, limbs_buffer.rs:1149-1151, 1375-1377, 1600-1602. -/
def load_l_full : Buf f → ℕ → M ℕ
  | be l, i => do
    M.emit (.load (be l).len i)
    be_mp_load_l_full l i
  | le l, i => do
    M.emit (.load (le l).len i)
    le_mp_load_l_full l i
  | ne l, i => do
    M.emit (.load (ne l).len i)
    ne_mp_load_l l i

/-- `load_l`, limbs_buffer.rs:1153-1155, 1379-1381, 1605-1607. -/
def load_l : Buf f → ℕ → M ℕ
  | be l, i => do
    M.emit (.load (be l).len i)
    be_mp_load_l l i
  | le l, i => do
    M.emit (.load (le l).len i)
    le_mp_load_l l i
  | ne l, i => do
    M.emit (.load (ne l).len i)
    ne_mp_load_l l i

/-- `store_l_full`, limbs_buffer.rs:1264-1266, 1490-1492, 1713-1715. -/
def store_l_full : Buf f → ℕ → ℕ → M (Buf f)
  | be l, i, v => do
    M.emit (.store (be l).len i)
    return be (← be_mp_store_l_full l i v)
  | le l, i, v => do
    M.emit (.store (le l).len i)
    return le (← le_mp_store_l_full l i v)
  | ne l, i, v => do
    M.emit (.store (ne l).len i)
    return ne (← ne_mp_store_l l i v)

/-- `store_l`, limbs_buffer.rs:1268-1270, 1494-1496, 1718-1720. -/
def store_l : Buf f → ℕ → ℕ → M (Buf f)
  | be l, i, v => do
    M.emit (.store (be l).len i)
    return be (← be_mp_store_l l i v)
  | le l, i, v => do
    M.emit (.store (le l).len i)
    return le (← le_mp_store_l l i v)
  | ne l, i, v => do
    M.emit (.store (ne l).len i)
    return ne (← ne_mp_store_l l i v)

/-- `clear_bytes_above`, limbs_buffer.rs:1272-1274, 1498-1500, 1722-1733. -/
def clear_bytes_above : Buf f → ℕ → M (Buf f)
  | be l, k => do
    M.emit (.range (be l).len k)
    return be (← be_mp_clear_bytes_above l k)
  | le l, k => do
    M.emit (.range (le l).len k)
    return le (← le_mp_clear_bytes_above l k)
  | ne l, k => do
    M.emit (.range (ne l).len k)
    return ne (← ne_mp_clear_bytes_above l k)

/-- `clear_bytes_below`, limbs_buffer.rs:1276-1278, 1502-1504, 1735-1746. -/
def clear_bytes_below : Buf f → ℕ → M (Buf f)
  | be l, k => do
    M.emit (.range (be l).len k)
    return be (← be_mp_clear_bytes_below l k)
  | le l, k => do
    M.emit (.range (le l).len k)
    return le (← le_mp_clear_bytes_below l k)
  | ne l, k => do
    M.emit (.range (ne l).len k)
    return ne (← ne_mp_clear_bytes_below l k)

/-- `_limbs_align_len`, limbs_buffer.rs:1049-1055. -/
def _limbs_align_len (f : Fmt) (nbytes : ℕ) : ℕ :=
  if f.unaligned then nbytes else ct_mp_limbs_align_len nbytes

/-- `n_backing_elements_for_len`, limbs_buffer.rs:1057-1060. -/
def n_backing_elements_for_len (f : Fmt) (nbytes : ℕ) : ℕ :=
  let nbytes := _limbs_align_len f nbytes
  nbytes / f.usz + (if nbytes % f.usz ≠ 0 then 1 else 0)

/-- `l.split_at(n)`, e.g. limbs_buffer.rs:1168. -/
def split_at {α : Type} (l : List α) (n : ℕ) : M (List α × List α) := do
  M.check (n ≤ l.length)
  pure (l.take n, l.drop n)

/-- `take`, limbs_buffer.rs:1167-1170, 1393-1396, 1619-1625: (high part, low
`nbytes` bytes). -/
def take : Buf f → ℕ → M (Buf f × Buf f)
  | be bytes, n => do
    M.emit (.range (be bytes).len n)
    let p ← M.sub bytes.length n
    let (h, l) ← split_at bytes p
    pure (be h, be l)
  | le bytes, n => do
    M.emit (.range (le bytes).len n)
    let (l, h) ← split_at bytes n
    pure (le h, le l)
  | ne limbs, n => do
    M.emit (.range (ne limbs).len n)
    M.assert (n % LB = 0)
    let (l, h) ← split_at limbs (n_backing_elements_for_len .ne n)
    pure (ne h, ne l)

/-- The buffer as seen through the two slices obtained from it by `take`: what the
original buffer contains after these have been written to, i.e. at the end of the borrow of
`MpUIntSliceCommonPriv::take`, e.g. limbs_buffer.rs:1288-1291. -/
def join : (high low : Buf f) → Buf f
  | be h, be l => be (h ++ l)
  | le h, le l => le (l ++ h)
  | ne h, ne l => ne (l ++ h)

/-- `_shrink_to`, limbs_buffer.rs:1192-1196, 1418-1422, 1647-1652: the low part, and
the rest, which the Rust slice returned does not cover. -/
def _shrink_to : Buf f → ℕ → M (Buf f × Buf f)
  | be bytes, n => do
    M.emit (.range (be bytes).len n)
    let p ← M.sub bytes.length n
    let (h, l) ← split_at bytes p
    pure (be l, be h)
  | le bytes, n => do
    M.emit (.range (le bytes).len n)
    let (l, h) ← split_at bytes n
    pure (le l, le h)
  | ne limbs, n => do
    M.emit (.range (ne limbs).len n)
    let (l, h) ← split_at limbs (n_backing_elements_for_len .ne n)
    pure (ne l, ne h)

/-- `partial_high_mask`, limbs_buffer.rs:791-802. -/
def partial_high_mask (b : Buf f) : ℕ :=
  if f.unaligned then
    let high_npartial := if b.len ≠ 0 then (b.len - 1) % LB + 1 else 0
    ct_lsb_mask_l (8 * high_npartial)
  else lmax

/-- `partial_high_shift`, limbs_buffer.rs:804-815. -/
def partial_high_shift (b : Buf f) : ℕ :=
  if f.unaligned then
    let high_npartial := b.len % LB
    if high_npartial = 0 then 0 else 8 * high_npartial
  else 0

/-- `test_bit`, limbs_buffer.rs:865-873. -/
def test_bit (b : Buf f) (pos : ℕ) : M LimbChoice := do
  let limb_index := pos / W
  M.cond (limb_index ≥ b.nlimbs) (pure (.new 0)) do
    let pos_in_limb := pos % W
    let l ← b.load_l limb_index
    LimbChoice.from' (shr l pos_in_limb &&& 1)

end Buf

/-- `find_last_set_limb`, limbs_buffer.rs:1806-1823; the loop is
`while nlimbs > 0 { if op0.load_l_full(nlimbs - 1) != 0 {break;} nlimbs -= 1; }`. -/
def find_last_set_limb {f : Fmt} (op0 : Buf f) : M ℕ := do
  let nlimbs := op0.nlimbs
  M.cond (nlimbs = 0) (pure 0) do
    let l ← op0.load_l (nlimbs - 1)
    M.cond (l = 0) (go (nlimbs - 1)) (pure nlimbs)
where
  go : ℕ → M ℕ
  | 0 => pure 0
  | n + 1 => do
    M.emit .iter
    let l ← op0.load_l_full n
    M.cond (l ≠ 0) (pure (n + 1)) (go n)

/-- `find_last_set_byte_mp`, limbs_buffer.rs:1875-1882. -/
def find_last_set_byte_mp {f : Fmt} (op0 : Buf f) : M ℕ := do
  let nlimbs ← find_last_set_limb op0
  M.cond (nlimbs = 0) (pure 0) do
    let nlimbs := nlimbs - 1
    let l ← op0.load_l nlimbs
    let n ← ct_find_last_set_byte_l l
    pure (nlimbs * LB + n)

namespace Buf
variable {f g : Fmt}

/-- `shrink_to`, limbs_buffer.rs:1088-1092, 1114-1118: the low part, and the rest. -/
def shrink_to (b : Buf f) (nbytes : ℕ) : M (Buf f × Buf f) := do
  let nbytes := min nbytes b.len
  M.assertM (do let n ← find_last_set_byte_mp b; pure (decide (n ≤ nbytes)))
  b._shrink_to nbytes

/-- `len_is_compatible_with`, limbs_buffer.rs:920-929. -/
def len_is_compatible_with (b : Buf f) (len : ℕ) : M Bool :=
  M.cond (b.len ≤ len) (pure true) <|
    M.cond (f.unaligned = false ∧ b.len - len < LB) (do
      let l ← b.load_l (b.nlimbs - 1)
      pure (decide (shr l (8 * (LB - (b.len - len))) = 0)))
    (pure false)

/-- `clear_bytes_above_cond`, limbs_buffer.rs:962-978. -/
def clear_bytes_above_cond (b : Buf f) (begin : ℕ) (cond : LimbChoice) : M (Buf f) :=
  M.cond (begin ≥ b.len) (pure b) do
    let mask := cond.select lmax 0
    let begin_limb := begin / LB
    let begin_in_limb := begin % LB
    let val ← b.load_l begin_limb
    let first_mask := bnot (ct_lsb_mask_l (8 * begin_in_limb)) ||| mask
    let val := val &&& first_mask
    let b ← b.store_l begin_limb val
    M.forRange (begin_limb + 1) b.nlimbs b fun i b => do
      let l ← b.load_l i
      b.store_l i (l &&& mask)

/-- `copy_from`, limbs_buffer.rs:980-999. -/
def copy_from (b : Buf f) (src : Buf g) : M (Buf f) := do
  let src_nlimbs := src.nlimbs
  let dst_nlimbs := b.nlimbs
  M.assertM (do let n ← find_last_set_byte_mp src; pure (decide (n ≤ b.len)))
  M.cond (src_nlimbs = 0) (b.clear_bytes_above 0) <|
    M.cond (dst_nlimbs = 0) (pure b) do
      let common_nlimbs := min src_nlimbs dst_nlimbs
      let b ← M.forRange 0 (common_nlimbs - 1) b fun i b => do
        let v ← src.load_l_full i
        b.store_l_full i v
      let high_limb ← src.load_l (common_nlimbs - 1)
      M.assert (src_nlimbs < dst_nlimbs ∨ (high_limb &&& bnot b.partial_high_mask) = 0)
      let b ← b.store_l (common_nlimbs - 1) high_limb
      b.clear_bytes_above src.len

/-- `copy_from_cond`, limbs_buffer.rs:1001-1024. -/
def copy_from_cond (b : Buf f) (src : Buf g) (cond : LimbChoice) : M (Buf f) := do
  let src_nlimbs := src.nlimbs
  let dst_nlimbs := b.nlimbs
  M.assertM (do let n ← find_last_set_byte_mp src; pure (decide (n ≤ b.len)))
  M.cond (src_nlimbs = 0) (b.clear_bytes_above_cond 0 cond) <|
    M.cond (dst_nlimbs = 0) (pure b) do
      let common_nlimbs := min src_nlimbs dst_nlimbs
      let b ← M.forRange 0 (common_nlimbs - 1) b fun i b => do
        let v0 ← b.load_l_full i
        let v1 ← src.load_l_full i
        b.store_l_full i (cond.select v0 v1)
      let v0 ← b.load_l (common_nlimbs - 1)
      let v1 ← src.load_l (common_nlimbs - 1)
      let high_limb := cond.select v0 v1
      M.assert (src_nlimbs < dst_nlimbs ∨ (high_limb &&& bnot b.partial_high_mask) = 0)
      let b ← b.store_l (common_nlimbs - 1) high_limb
      b.clear_bytes_above_cond src.len cond

/-- `set_bit_to`, limbs_buffer.rs:1026-1036. -/
def set_bit_to (b : Buf f) (pos : ℕ) (val : Bool) : M (Buf f) := do
  let limb_index := pos / W
  M.assert (limb_index < b.nlimbs)
  let pos_in_limb := pos % W
  let l ← b.load_l limb_index
  let bit_pos_mask := shl 1 pos_in_limb
  let c ← LimbChoice.from' (if val then 1 else 0)
  let val_mask := c.select 0 bit_pos_mask
  let l := l &&& bnot bit_pos_mask
  let l := l ||| val_mask
  b.store_l limb_index l

/-- `set_to_u8`, `set_to_u16`, `set_to_u32`, `set_to_u64`, limbs_buffer.rs:939-954;
`sz` is the native type's size in bytes. -/
def set_to_native (sz : ℕ) (b : Buf f) (value : ℕ) : M (Buf f) := do
  M.assert (b.len ≥ sz)
  let b ← b.clear_bytes_above sz
  let (b, _) ← M.forRange 0 (ct_mp_nlimbs sz) (b, value) fun i (b, value) => do
    -- `value & (!(0 as LimbType) as $nt)`
    let b ← b.store_l i (value &&& (lmax % 2 ^ (8 * sz)))
    pure (b, value >>> (min W (8 * sz - 1)))
  pure b

/-- `try_into_u8`, `try_into_u16`, `try_into_u32`, `try_into_u64`,
limbs_buffer.rs:821-849; `sz` is the native type's size in bytes, `none` the error
`MpUIntCommonTryIntoNativeError`. -/
def try_into_native (sz : ℕ) (b : Buf f) : M (Option ℕ) := do
  let native_type_nlimbs := ct_mp_nlimbs sz
  let nbytes_from_last := (sz - 1) % LB + 1
  let head_is_nonzero ← M.forRange native_type_nlimbs b.nlimbs 0 fun i h => do
    let l ← b.load_l i
    pure (h ||| l)
  let last_val ← b.load_l (native_type_nlimbs - 1)
  let last_mask := ct_lsb_mask_l (8 * nbytes_from_last)
  let head_is_nonzero := head_is_nonzero ||| (last_val &&& bnot last_mask)
  M.cond (ct_is_nonzero_l head_is_nonzero ≠ 0) (pure none) do
    let result := last_val &&& last_mask
    let result ← M.forDown (native_type_nlimbs - 1) result fun i result => do
      let result := (result <<< (min W (8 * sz - 1))) % 2 ^ (8 * sz)
      let l ← b.load_l_full i
      pure (result ||| l % 2 ^ (8 * sz))
    pure (some result)

end Buf

/-- `ct_find_first_set_bit_mp`, limbs_buffer.rs:1932-1945. -/
def ct_find_first_set_bit_mp {f : Fmt} (op0 : Buf f) : M (LimbChoice × ℕ) := do
  let (tail_is_zero, ntrailing_zeroes) ←
    M.forRange 0 op0.nlimbs (LimbChoice.new 1, 0) fun i (tail_is_zero, ntrailing_zeroes) => do
      let op0_val ← op0.load_l i
      let n ← ct_find_first_set_bit_l op0_val
      let ntrailing_zeroes := ntrailing_zeroes + tail_is_zero.select 0 n
      let c ← LimbChoice.from' (ct_is_zero_l op0_val)
      pure (tail_is_zero.and c, ntrailing_zeroes)
  pure (tail_is_zero.not, tail_is_zero.select_usize ntrailing_zeroes 0)

/-- `ct_find_last_set_bit_mp`, limbs_buffer.rs:1991-2008. -/
def ct_find_last_set_bit_mp {f : Fmt} (op0 : Buf f) : M (LimbChoice × ℕ) := do
  let (head_is_zero, nleading_zeroes) ←
    M.forDown op0.nlimbs (LimbChoice.new 1, 0) fun i (head_is_zero, nleading_zeroes) => do
      let op0_val ← op0.load_l i
      let n ← ct_find_last_set_bit_l op0_val
      let d ← M.sub W n
      let nleading_zeroes := nleading_zeroes + head_is_zero.select 0 d
      let c ← LimbChoice.from' (ct_is_zero_l op0_val)
      pure (head_is_zero.and c, nleading_zeroes)
  let n ← M.sub (op0.nlimbs * W) nleading_zeroes
  pure (head_is_zero.not, n)

/-- `ct_clear_bits_above_mp`, limbs_buffer.rs:2054-2066. -/
def ct_clear_bits_above_mp {f : Fmt} (op0 : Buf f) (begin : ℕ) : M (Buf f) := do
  let first_limb_index := begin / W
  let first_limb_retain_nbits := begin % W
  let first_limb_mask := ct_lsb_mask_l first_limb_retain_nbits
  let (op0, _) ← M.forRange 0 op0.nlimbs (op0, lmax) fun i (op0, next_mask) => do
    let is_first_limb := ct_eq_usize_usize i first_limb_index
    let mask := is_first_limb.select next_mask first_limb_mask
    let next_mask := is_first_limb.select next_mask 0
    let val ← op0.load_l i
    let op0 ← op0.store_l i (val &&& mask)
    pure (op0, next_mask)
  pure op0

/-- `clear_bits_above_mp`, limbs_buffer.rs:2168-2181. -/
def clear_bits_above_mp {f : Fmt} (op0 : Buf f) (begin : ℕ) : M (Buf f) := do
  let first_limb_index := begin / W
  M.cond (op0.nlimbs ≤ first_limb_index) (pure op0) do
    let first_limb_retain_nbits := begin % W
    let first_limb_mask := ct_lsb_mask_l first_limb_retain_nbits
    let l ← op0.load_l first_limb_index
    let op0 ← op0.store_l first_limb_index (l &&& first_limb_mask)
    op0.clear_bytes_above ((begin + W - 1) / W * LB)

/-- `ct_clear_bits_below_mp`, limbs_buffer.rs:2283-2295. -/
def ct_clear_bits_below_mp {f : Fmt} (op0 : Buf f) (end_ : ℕ) : M (Buf f) := do
  let last_limb_index := end_ / W
  let last_limb_clear_nbits := end_ % W
  let last_limb_mask := bnot (ct_lsb_mask_l last_limb_clear_nbits)
  let (op0, _) ← M.forRange 0 op0.nlimbs (op0, 0) fun i (op0, next_mask) => do
    let is_last_limb := ct_eq_usize_usize i last_limb_index
    let mask := is_last_limb.select next_mask last_limb_mask
    let next_mask := is_last_limb.select next_mask lmax
    let val ← op0.load_l i
    let op0 ← op0.store_l i (val &&& mask)
    pure (op0, next_mask)
  pure op0

/-- `clear_bits_below_mp`, limbs_buffer.rs:2398-2410. -/
def clear_bits_below_mp {f : Fmt} (op0 : Buf f) (end_ : ℕ) : M (Buf f) := do
  let last_limb_index := end_ / W
  let op0 ← op0.clear_bytes_below (last_limb_index * LB)
  M.cond (last_limb_index ≥ op0.nlimbs) (pure op0) do
    let last_limb_clear_nbits := end_ % W
    let last_limb_mask := bnot (ct_lsb_mask_l last_limb_clear_nbits)
    let l ← op0.load_l last_limb_index
    op0.store_l last_limb_index (l &&& last_limb_mask)

/-- `ct_swap_cond_mp`, limbs_buffer.rs:2513-2526. -/
def ct_swap_cond_mp {f g : Fmt} (op0 : Buf f) (op1 : Buf g) (cond : LimbChoice) :
    M (Buf f × Buf g) := do
  M.assert (op0.nlimbs = op1.nlimbs)
  let nlimbs := op0.nlimbs
  let cond_mask := cond.select 0 lmax
  M.forRange 0 nlimbs (op0, op1) fun i (op0, op1) => do
    let op0_val ← op0.load_l i
    let op1_val ← op1.load_l i
    let op0_val := op0_val ^^^ op1_val
    let op1_val := op1_val ^^^ (op0_val &&& cond_mask)
    let op0_val := op0_val ^^^ op1_val
    let op0 ← op0.store_l i op0_val
    let op1 ← op1.store_l i op1_val
    pure (op0, op1)

end Cmpa
