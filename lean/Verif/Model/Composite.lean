import Verif.Model.Value

/-!
# Model of `CompositeLimbsBuffer`, limbs_buffer.rs:2571-2778
-/

namespace Cmpa
variable [LimbCfg] {f : Fmt}

/-- `CompositeLimbsBufferSegment`, limbs_buffer.rs:2571-2595; `stop` is the field `end`. -/
structure Seg (f : Fmt) where
  stop : ℕ
  segment : Buf f
  high_next_partial : Buf f

/-- `CompositeLimbsBuffer`, limbs_buffer.rs:2619-2623; the array of `N_SEGMENTS` segments is a
list. -/
abbrev Composite (f : Fmt) := List (Seg f)

namespace Composite

/-- The calls of the closure `create_segment`, limbs_buffer.rs:2639-2666, for the segment
`segment` and all following ones.  `next_segment.take(..)` shortens the next segment, which is
passed on to the next call. -/
def create_segments (n_bytes_total : ℕ) (segment : Buf f) : List (Buf f) → M (Composite f)
  | [] => do
    let n_bytes_total := n_bytes_total + segment.len
    let (high_next_partial, segment) ← segment.take segment.len
    let n_bytes_total := n_bytes_total + high_next_partial.len
    pure [⟨ct_mp_nlimbs n_bytes_total, segment, high_next_partial⟩]
  | next_segment :: rest => do
    let n_bytes_total := n_bytes_total + segment.len
    let n_high_partial := n_bytes_total % LB
    M.cond (n_high_partial ≠ 0)
      (do
        let n_from_next := min (LB - n_high_partial) next_segment.len
        let (next_segment, high_next_partial) ← next_segment.take n_from_next
        let n_bytes_total := n_bytes_total + high_next_partial.len
        let l ← create_segments n_bytes_total next_segment rest
        pure (⟨ct_mp_nlimbs n_bytes_total, segment, high_next_partial⟩ :: l))
      (do
        let (high_next_partial, segment) ← segment.take segment.len
        let n_bytes_total := n_bytes_total + high_next_partial.len
        let l ← create_segments n_bytes_total next_segment rest
        pure (⟨ct_mp_nlimbs n_bytes_total, segment, high_next_partial⟩ :: l))

/-- `CompositeLimbsBuffer::new`, limbs_buffer.rs:2635-2671. -/
def new : List (Buf f) → M (Composite f)
  | [] => pure []
  | segment :: rest => create_segments 0 segment rest

/-- The loop of `CompositeLimbsBuffer::load` over the segments continuing a limb,
limbs_buffer.rs:2724-2731. -/
def load_partials (npartial value : ℕ) : Composite f → M ℕ
  | [] => pure value
  | s :: rest =>
    M.cond (npartial ≠ LB)
      (M.cond (s.high_next_partial.is_empty = false)
        (do
          let l ← s.high_next_partial.load_l 0
          let l ← shlC l (8 * npartial)
          load_partials (npartial + s.high_next_partial.len) (value ||| l) rest)
        (load_partials npartial value rest))
      (pure value)

/-- `CompositeLimbsBuffer::load` once the segment has been found, limbs_buffer.rs:2712-2733;
`rest` are the segments after `s`. -/
def load_at (i segment_offset : ℕ) (s : Seg f) (rest : Composite f) : M ℕ := do
  let k ← M.sub i segment_offset
  M.cond (i ≠ s.stop - 1 ∨ f.unaligned = false)
    (s.segment.load_l_full k)
    (M.cond (rest.isEmpty = true ∨ s.segment.len % LB = 0)
      (s.segment.load_l k)
      (do
        let npartial := s.segment.len % LB
        let value ← s.segment.load_l k
        load_partials npartial value (s :: rest)))

/-- `CompositeLimbsBuffer::load`, limbs_buffer.rs:2710-2734, with the search of
`limb_index_to_segment`, 2688-2699. -/
def load_from (i segment_offset : ℕ) : Composite f → M ℕ
  | [] => M.panic
  | s :: rest => M.cond (i < s.stop) (load_at i segment_offset s rest) (load_from i s.stop rest)

/-- `CompositeLimbsBuffer::load`, limbs_buffer.rs:2710-2734. -/
def load (c : Composite f) (i : ℕ) : M ℕ := load_from i 0 c

/-- The loop of `CompositeLimbsBuffer::store` over the segments continuing a limb,
limbs_buffer.rs:2766-2774: the updated segments and what is left of the value. -/
def store_partials (npartial value : ℕ) : Composite f → M (Composite f × ℕ)
  | [] => pure ([], value)
  | s :: rest =>
    M.cond (npartial ≠ LB)
      (M.cond (s.high_next_partial.is_empty = false)
        (do
          let value_mask := ct_lsb_mask_l (8 * s.high_next_partial.len)
          let p ← s.high_next_partial.store_l 0 (value &&& value_mask)
          let value ← shrC value (8 * p.len)
          let (rest, value) ← store_partials (npartial + p.len) value rest
          pure (⟨s.stop, s.segment, p⟩ :: rest, value))
        (do
          let (rest, value) ← store_partials npartial value rest
          pure (s :: rest, value)))
      (pure (s :: rest, value))

/-- `CompositeLimbsBuffer::store` once the segment has been found, limbs_buffer.rs:2750-2776. -/
def store_at (i value segment_offset : ℕ) (s : Seg f) (rest : Composite f) : M (Composite f) := do
  let k ← M.sub i segment_offset
  M.cond (i ≠ s.stop - 1 ∨ f.unaligned = false)
    (do
      let b ← s.segment.store_l_full k value
      pure (⟨s.stop, b, s.high_next_partial⟩ :: rest))
    (M.cond (rest.isEmpty = true ∨ s.segment.len % LB = 0)
      (do
        let b ← s.segment.store_l k value
        pure (⟨s.stop, b, s.high_next_partial⟩ :: rest))
      (do
        let npartial := s.segment.len % LB
        let value_mask := ct_lsb_mask_l (8 * npartial)
        let b ← s.segment.store_l k (value &&& value_mask)
        let value ← shrC value (8 * npartial)
        let (c, value) ← store_partials npartial value (⟨s.stop, b, s.high_next_partial⟩ :: rest)
        M.assert (value = 0)
        pure c))

/-- `CompositeLimbsBuffer::store`, limbs_buffer.rs:2748-2777, with the search of
`limb_index_to_segment`, 2688-2699. -/
def store_from (i value segment_offset : ℕ) : Composite f → M (Composite f)
  | [] => M.panic
  | s :: rest =>
    M.cond (i < s.stop) (store_at i value segment_offset s rest)
      (do
        let rest ← store_from i value s.stop rest
        pure (s :: rest))

/-- `CompositeLimbsBuffer::store`, limbs_buffer.rs:2748-2777. -/
def store (c : Composite f) (i value : ℕ) : M (Composite f) := store_from i value 0 c

/-- The buffers a composite buffer has been made from, after writes to it; `prev` is the part of
the first one which belongs to the preceding segment.  The inverse of the construction at
limbs_buffer.rs:2635-2671. -/
def parts_from (prev : Buf f) : Composite f → List (Buf f)
  | [] => []
  | s :: rest => s.segment.join prev :: parts_from s.high_next_partial rest

/-- The buffers a composite buffer has been made from, after writes to it.  The inverse of the
construction at limbs_buffer.rs:2635-2671. -/
def parts : Composite f → List (Buf f)
  | [] => []
  | s :: rest => s.segment :: parts_from s.high_next_partial rest

end Composite

/-- Specification: the number made up by several buffers, the first one being the least
significant. -/
def catNat : List (Buf f) → ℕ
  | [] => 0
  | b :: l => b.toNat + 256 ^ b.len * catNat l

/-- Specification: the total length of several buffers. -/
def catLen (l : List (Buf f)) : ℕ := (l.map Buf.len).sum

end Cmpa
