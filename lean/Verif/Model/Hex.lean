import Verif.Model.Buf
import Verif.Base.LoopE

/-!
# Model of hexstr.rs and of the formatting of numbers as hexadecimal strings

A string is the list of its bytes, `Fin 256`.  Rust strings are UTF-8 encoded; the functions here look at
the bytes only, so nothing depends on the encoding.
-/

namespace Cmpa

/-- `BytesFromHexStrError`, hexstr.rs:9-13. -/
inductive HexErr
  | InvalidHexStrLen
  | InvalidHexChar
  deriving DecidableEq

/-- The `match` of `byte_from_hex`, hexstr.rs:22-29: the value of a hexadecimal digit. -/
def nibble_from_hex (hex_char : Fin 256) : M (Except HexErr ℕ) :=
  if 48 ≤ hex_char.val ∧ hex_char.val ≤ 57 then do
    let n ← M.sub hex_char.val 48
    pure (.ok n)
  else if 97 ≤ hex_char.val ∧ hex_char.val ≤ 102 then do
    let n ← M.sub hex_char.val (97 - 0xa)
    pure (.ok n)
  else if 65 ≤ hex_char.val ∧ hex_char.val ≤ 70 then do
    let n ← M.sub hex_char.val (65 - 0xa)
    pure (.ok n)
  else pure (.error .InvalidHexChar)

/-- `byte_from_hex`, hexstr.rs:18-34, its loop unrolled.  `<<` on `u8` drops the bits shifted out. -/
def byte_from_hex (c0 c1 : Fin 256) : M (Except HexErr (Fin 256)) :=
  M.bindE (nibble_from_hex c0) fun nibble => do
    let result := (0 <<< 4) % 256 ||| nibble
    M.bindE (nibble_from_hex c1) fun nibble => do
      let result := (result <<< 4) % 256 ||| nibble
      pure (.ok (Fin.ofNat 256 result))

/-- Indexing of a slice of bytes, hexstr.rs:22 and hexstr.rs:46. -/
def getByte (l : List (Fin 256)) (i : ℕ) : M (Fin 256) := M.ofOption l[i]?

/-- Assignment to an element of an array of bytes, hexstr.rs:47. -/
def setByte (l : List (Fin 256)) (i : ℕ) (b : Fin 256) : M (List (Fin 256)) :=
  if i < l.length then pure (l.set i b) else M.panic

/-- The loop of `be_bytes_from_hexstr`, hexstr.rs:43-51: the rest of the counter, and the result. -/
def be_bytes_from_hexstr_loop (hexstr : List (Fin 256)) (result_offset : ℕ) :
    (i : ℕ) → List (Fin 256) → M (Except HexErr (ℕ × List (Fin 256)))
  | 0, result => pure (.ok (0, result))
  | 1, result => pure (.ok (1, result))
  | i + 2, result => do
    M.emit .iter
    let c0 ← getByte hexstr i
    let c1 ← getByte hexstr (i + 1)
    M.bindE (byte_from_hex c0 c1) fun b => do
      let result ← setByte result (result_offset + (i + 1) / 2) b
      be_bytes_from_hexstr_loop hexstr result_offset i result

/-- `be_bytes_from_hexstr`, hexstr.rs:15-60.  `n` is the const generic `N`. -/
def be_bytes_from_hexstr (n : ℕ) (hexstr : List (Fin 256)) : M (Except HexErr (List (Fin 256))) :=
  M.cond (2 * n < hexstr.length) (pure (.error .InvalidHexStrLen)) do
    let result := List.replicate n 0
    let result_offset ← M.sub n ((hexstr.length + 1) / 2)
    M.bindE (be_bytes_from_hexstr_loop hexstr result_offset hexstr.length result) fun (i, result) =>
      M.cond (i = 1) (do
        let c1 ← getByte hexstr 0
        M.bindE (byte_from_hex 48 c1) fun b => do
          let result ← setByte result result_offset b
          pure (.ok result)) (pure (.ok result))

/-- `bytes_from_hexstr`, hexstr.rs:62-69. -/
def bytes_from_hexstr (n : ℕ) (hexstr : List (Fin 256)) : M (Except HexErr (List (Fin 256))) :=
  M.cond (hexstr.length ≠ 2 * n) (pure (.error .InvalidHexStrLen)) (be_bytes_from_hexstr n hexstr)

/-- `bytes_from_hexstr_cnst`, hexstr.rs:71-78. -/
def bytes_from_hexstr_cnst (n : ℕ) (hexstr : List (Fin 256)) : M (List (Fin 256)) := do
  match ← bytes_from_hexstr n hexstr with
  | .ok result => pure result
  | .error _ => M.panic

/-- `nibble_to_hexchar`, hexstr.rs:133-140 and limbs_buffer.rs:876-883.  Sums of `u8`s are less than 256
here. -/
def nibble_to_hexchar (nibble : ℕ) : M (Fin 256) :=
  if nibble ≤ 9 then pure (Fin.ofNat 256 (48 + nibble))
  else if 0xa ≤ nibble ∧ nibble ≤ 0xf then do
    let d ← M.sub nibble 0xa
    pure (Fin.ofNat 256 (97 + d))
  else M.panic

/-- The loop of `bytes_to_hexstr`, hexstr.rs:144-147. -/
def bytes_to_hexstr_loop : List (Fin 256) → List (Fin 256) → M (List (Fin 256))
  | [], result => pure result
  | b :: bytes, result => do
    M.emit .iter
    let c ← nibble_to_hexchar (b.val >>> 4)
    let result := result ++ [c]
    let c ← nibble_to_hexchar (b.val &&& 0xf)
    let result := result ++ [c]
    bytes_to_hexstr_loop bytes result

/-- `bytes_to_hexstr`, hexstr.rs:132-149.  Simplified: the allocation is taken to succeed; see Model/HexWriter.lean for the other case. -/
def bytes_to_hexstr (bytes : List (Fin 256)) : M (List (Fin 256)) := bytes_to_hexstr_loop bytes []

variable [LimbCfg] {φ : Fmt}

/-- `fmt_byte`, limbs_buffer.rs:885-889: appends to what was written before.  Simplified: writing to the formatter
is taken to succeed; see Model/HexWriter.lean for the other case. -/
def fmt_byte (f : List (Fin 256)) (v : ℕ) : M (List (Fin 256)) := do
  let c ← nibble_to_hexchar (v >>> 4)
  let f := f ++ [c]
  let c ← nibble_to_hexchar (v &&& 0xf)
  pure (f ++ [c])

/-- `fmt_l`, limbs_buffer.rs:891-896. -/
def fmt_l (f : List (Fin 256)) (v len : ℕ) : M (List (Fin 256)) :=
  M.forRange 0 len f fun i f => do
    let d ← M.sub len i
    let d ← M.sub d 1
    let b ← shrC v (8 * d)
    fmt_byte f (b % 256)

/-- `fmt_lower_hex`, limbs_buffer.rs:875-918; `alternate` is the flag `#` of the format. -/
def Buf.fmt_lower_hex (self : Buf φ) (alternate : Bool) : M (List (Fin 256)) := do
  let f : List (Fin 256) := if alternate then [48, 120] else []
  M.cond (self.is_empty = true) (pure (f ++ [40, 101, 109, 112, 116, 121, 41])) do
    let n ← M.sub self.nlimbs 1
    let v ← self.load_l n
    let l ← M.sub self.len 1
    let f ← fmt_l f v (l % LB + 1)
    M.forRange 0 (self.nlimbs - 1) f fun i f => do
      let f := f ++ [95]
      let j ← M.sub self.nlimbs 2
      let j ← M.sub j i
      let v ← self.load_l j
      fmt_l f v LB

end Cmpa
