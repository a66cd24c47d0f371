import Verif.Model.Hex

/-!
# Formatting to writers which may fail (limbs_buffer.rs:875-918), failing allocations (hexstr.rs:132-149)

`Model/Hex.lean` takes writing and allocating to succeed.  Here is the same code, with both possibly failing.
-/

namespace Cmpa

/-- What is behind a `fmt::Formatter`: an implementation of `fmt::Write`, i.e. an arbitrary state, and what becomes of it
as a string is written, and whether this is reported as a success. -/
structure Sink (σ : Type) where
  write : σ → List (Fin 256) → σ × Bool

section
variable {σ : Type}

/-- `f.write_str(s)`, and `write_char(c)` for a string of one ASCII character.  The state of the sink is returned also
in case of an error, as the caller of the library has it. -/
def Sink.write_str (w : Sink σ) (s : σ) (str : List (Fin 256)) : M (Except σ σ) :=
  pure (if (w.write s str).2 then .ok (w.write s str).1 else .error (w.write s str).1)

/-- The operator `?`. -/
def tryE (m : M (Except σ σ)) (k : σ → M (Except σ σ)) : M (Except σ σ) := do
  match ← m with
  | .error s => pure (.error s)
  | .ok s => k s

/-- A loop with a body of which the errors are returned by `?`; the counter is `lo` in the beginning, and there are `n`
iterations. -/
def tryLoop : (n lo : ℕ) → σ → (ℕ → σ → M (Except σ σ)) → M (Except σ σ)
  | 0, _, s, _ => pure (.ok s)
  | n + 1, lo, s, f => do
    M.emit .iter
    tryE (f lo s) fun s => tryLoop n (lo + 1) s f

/-- `fmt_byte`, limbs_buffer.rs:885-889. -/
def fmt_byte_to (w : Sink σ) (s : σ) (v : ℕ) : M (Except σ σ) := do
  let c ← nibble_to_hexchar (v >>> 4)
  tryE (w.write_str s [c]) fun s => do
    let c ← nibble_to_hexchar (v &&& 0xf)
    tryE (w.write_str s [c]) fun s => pure (.ok s)

variable [LimbCfg] {φ : Fmt}

/-- `fmt_l`, limbs_buffer.rs:891-896. -/
def fmt_l_to (w : Sink σ) (s : σ) (v len : ℕ) : M (Except σ σ) :=
  tryLoop len 0 s fun i s => do
    let d ← M.sub len i
    let d ← M.sub d 1
    let b ← shrC v (8 * d)
    fmt_byte_to w s (b % 256)

/-- `fmt_lower_hex`, limbs_buffer.rs:875-918; `alternate` is the flag `#` of the format. -/
def Buf.fmt_lower_hex_to (self : Buf φ) (w : Sink σ) (s : σ) (alternate : Bool) : M (Except σ σ) :=
  tryE (if alternate then w.write_str s [48, 120] else pure (.ok s)) fun s =>
    M.cond (self.is_empty = true)
      (tryE (w.write_str s [40, 101, 109, 112, 116, 121, 41]) fun s => pure (.ok s)) do
        let n ← M.sub self.nlimbs 1
        let v ← self.load_l n
        let l ← M.sub self.len 1
        tryE (fmt_l_to w s v (l % LB + 1)) fun s =>
          tryLoop (self.nlimbs - 1) 0 s fun i s =>
            tryE (w.write_str s [95]) fun s => do
              let j ← M.sub self.nlimbs 2
              let j ← M.sub j i
              let v ← self.load_l j
              fmt_l_to w s v LB

end

/-- `String::push` of an ASCII character to a string with memory for `cap` bytes.  Simplified: if there is no memory
left, it isn't enlarged, but the program is aborted, as it is if there is no more. -/
def pushWithin (cap : ℕ) (result : List (Fin 256)) (c : Fin 256) : M (List (Fin 256)) := do
  M.check (result.length < cap)
  pure (result ++ [c])

/-- The loop of `bytes_to_hexstr`, hexstr.rs:144-147. -/
def bytes_to_hexstr_push (cap : ℕ) : List (Fin 256) → List (Fin 256) → M (List (Fin 256))
  | [], result => pure result
  | b :: bytes, result => do
    M.emit .iter
    let c ← nibble_to_hexchar (b.val >>> 4)
    let result ← pushWithin cap result c
    let c ← nibble_to_hexchar (b.val &&& 0xf)
    let result ← pushWithin cap result c
    bytes_to_hexstr_push cap bytes result

/-- `bytes_to_hexstr`, hexstr.rs:132-149; `reserve n` is `true` if `n` bytes of memory can be had. -/
def bytes_to_hexstr_alloc (reserve : ℕ → Bool) (bytes : List (Fin 256)) : M (Except Unit (List (Fin 256))) :=
  if reserve (2 * bytes.length) then do
    let r ← bytes_to_hexstr_push (2 * bytes.length) bytes []
    pure (.ok r)
  else pure (.error ())

end Cmpa
