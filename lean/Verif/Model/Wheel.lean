import Verif.Model.Usize
import Verif.Model.Cmp
import Verif.Model.Div

/-!
# Model of prime_impl.rs: the prime candidate wheel

`u8` values are natural numbers; sums and differences of them are checked as in a debug build.
Constants computed at compile time (`const fn`) are ordinary definitions here: an overflow in one of
them would be a compile time error.
-/

namespace Cmpa
variable [LimbCfg] {φ : Fmt}

/-- `FIRST_PRIMES`, prime_impl.rs:505. -/
def FIRST_PRIMES : List ℕ := [2, 3, 5, 7, 11, 13, 17, 19, 23, 29, 31, 37, 41, 43, 47]

/-- Indexing of a slice of bytes, e.g. prime_impl.rs:676. -/
def index_u8 (v : List ℕ) (i : ℕ) : M ℕ := do
  M.emit (.load v.length i)
  M.ofOption v[i]?

/-- Addition of bytes, as in prime_impl.rs:677; overflow panics in a debug build. -/
def add_u8 (a b : ℕ) : M ℕ := do
  M.assert (a + b < 256)
  pure ((a + b) % 256)

/-- The loop of `ct_find_first_ge_than`, prime_impl.rs:515-529.  The number of elements left is about
halved in each iteration, so the length of `v` bounds the number of iterations. -/
def ct_find_first_loop (v : List ℕ) (val : ℕ) : (fuel lb ub : ℕ) → M ℕ
  | 0, _, _ => M.panic
  | fuel + 1, lb, ub => do
    let r ← M.sub ub lb
    M.cond (1 < r) (do
      let m := lb + (r + 1) / 2
      let j ← M.sub m 1
      let pivot ← index_u8 v j
      let pivot_is_lt := ct_lt_l_l pivot val
      let r_odd := r &&& 1
      M.assertM (do
        let d ← M.sub ub m
        let e ← M.sub m lb
        pure (decide (d + r_odd = e)))
      let k ← M.sub m r_odd
      ct_find_first_loop v val fuel (pivot_is_lt.select_usize lb k)
        (pivot_is_lt.select_usize m ub)) (pure lb)

/-- `ct_find_first_ge_than`, prime_impl.rs:507-532. -/
def ct_find_first_ge_than (v : List ℕ) (val : ℕ) : M ℕ := do
  M.assertM (do
    let l ← M.ofOption v.getLast?
    pure (decide (val ≤ l)))
  ct_find_first_loop v val (v.length + 1) 0 v.length

/-- The loop of `cnst_find_first_ge_than`, prime_impl.rs:557-568. -/
def cnst_find_first_loop (v : List ℕ) (val : ℕ) : (fuel lb ub : ℕ) → M ℕ
  | 0, _, _ => M.panic
  | fuel + 1, lb, ub => do
    let r ← M.sub ub lb
    M.cond (1 < r) (do
      let m := lb + (r + 1) / 2
      let j ← M.sub m 1
      let pivot ← index_u8 v j
      M.cond (pivot < val) (cnst_find_first_loop v val fuel m ub)
        (cnst_find_first_loop v val fuel lb m)) (pure lb)

/-- `cnst_find_first_ge_than`, prime_impl.rs:550-571. -/
def cnst_find_first_ge_than (v : List ℕ) (val : ℕ) : M ℕ := do
  M.assert (v ≠ [])
  M.assertM (do
    let l ← M.ofOption v.getLast?
    pure (decide (val ≤ l)))
  cnst_find_first_loop v val (v.length + 1) 0 v.length

/-- The loop of `first_primes_primorial_nfactors_for_max`, prime_impl.rs:590-598, over the primes left. -/
def primorial_nfactors_loop (max prod : ℕ) : List ℕ → ℕ
  | [] => 0
  | next_p :: l => if max / next_p < prod then 0 else primorial_nfactors_loop max (prod * next_p) l + 1

/-- `first_primes_primorial_nfactors_for_max`, prime_impl.rs:588-601. -/
def first_primes_primorial_nfactors_for_max (max : ℕ) : ℕ := primorial_nfactors_loop max 1 FIRST_PRIMES

/-- `first_primes_primorial`, prime_impl.rs:603-612. -/
def first_primes_primorial (n : ℕ) : ℕ := (FIRST_PRIMES.take n).foldl (· * ·) 1

/-! ### Level 0 -/

/-- `PrimeWheelSieveLvl0`, prime_impl.rs:614-618. -/
structure WheelLvl0 where
  next_index : ℕ
  last_offset : ℕ
  next_offset_delta : ℕ
  deriving DecidableEq

namespace WheelLvl0

/-- `PRIMORIAL_NFACTORS`, prime_impl.rs:624. -/
def PRIMORIAL_NFACTORS : ℕ := 3
/-- `PRIMORIAL`, prime_impl.rs:625. -/
def PRIMORIAL : ℕ := first_primes_primorial PRIMORIAL_NFACTORS
/-- `OFFSETS`, prime_impl.rs:649. -/
def OFFSETS : List ℕ := [1, 7, 11, 13, 17, 19, 23, 29]
/-- `NOFFSETS`, prime_impl.rs:644-647; here the length of the array `OFFSETS`, which is declared as
`[u8; Self::NOFFSETS]`.  The expression given there is `noffsets`. -/
def NOFFSETS : ℕ := OFFSETS.length
/-- The expression for `NOFFSETS`, prime_impl.rs:646. -/
def noffsets : M ℕ := do
  let i ← cnst_find_first_ge_than FIRST_PRIMES PRIMORIAL
  let i ← M.sub i PRIMORIAL_NFACTORS
  pure (i + 1)
/-- `MAX_OFFSET`, prime_impl.rs:650. -/
def MAX_OFFSET : ℕ := OFFSETS.getD (NOFFSETS - 1) 0
/-- `offset_delta_at_wrap`, prime_impl.rs:652-654. -/
def offset_delta_at_wrap : ℕ := PRIMORIAL - MAX_OFFSET

/-- `start_geq_than`, prime_impl.rs:656-673. -/
def start_geq_than (lower_bound : ℕ) : M WheelLvl0 := do
  let offset_lower_bound := lower_bound % PRIMORIAL
  M.assert (MAX_OFFSET = PRIMORIAL - 1)
  let offset_index ← ct_find_first_ge_than OFFSETS offset_lower_bound
  pure ⟨offset_index, offset_lower_bound, 0⟩

/-- `advance`, prime_impl.rs:683-690. -/
def advance (s : WheelLvl0) : M WheelLvl0 := do
  let last_index := s.next_index
  let next_index := s.next_index + 1
  let wrapped := ct_eq_usize_usize next_index NOFFSETS
  let next_index := wrapped.select_usize next_index 0
  let o ← index_u8 OFFSETS last_index
  let last_offset := wrapped.select o 0
  let next_offset_delta := wrapped.select 0 offset_delta_at_wrap
  pure ⟨next_index, last_offset, next_offset_delta⟩

/-- `produce_next_delta`, prime_impl.rs:676-681: the new state and the delta. -/
def produce_next_delta (s : WheelLvl0) : M (WheelLvl0 × ℕ) := do
  let next_offset ← index_u8 OFFSETS s.next_index
  let d ← add_u8 next_offset s.next_offset_delta
  let delta ← M.sub d s.last_offset
  let s ← s.advance
  pure (s, delta)

end WheelLvl0

/-! ### Level 1 -/

/-- `PrimeWheelSieveLvl1`, prime_impl.rs:768-772; also `PrimeWheelSieve`, prime_impl.rs:906. -/
structure WheelLvl1 where
  lvl0_wheel : WheelLvl0
  last_offset : ℕ
  last_offset_delta : ℕ
  deriving DecidableEq

namespace WheelLvl1

/-- `PRIMORIAL_NFACTORS`, prime_impl.rs:775. -/
def PRIMORIAL_NFACTORS : ℕ := first_primes_primorial_nfactors_for_max lmax
/-- `PRIMORIAL`, prime_impl.rs:776. -/
def PRIMORIAL : ℕ := first_primes_primorial PRIMORIAL_NFACTORS

/-- `start_geq_than`, prime_impl.rs:778-798. -/
def start_geq_than (lower_bound : Buf φ) : M WheelLvl1 := do
  let d ← CtLDivisor.nonct_new PRIMORIAL
  let d ← M.ofOption d
  let offset_lower_bound ← ct_mod_mp_l lower_bound d
  let lower_bound_leq_one ← ct_leq_mp_l lower_bound 1
  let last_offset_delta := lower_bound_leq_one.select 0 (wsub 2 offset_lower_bound)
  let offset_lower_bound ← M.addL offset_lower_bound last_offset_delta
  let lvl0_wheel ← WheelLvl0.start_geq_than offset_lower_bound
  pure ⟨lvl0_wheel, offset_lower_bound, last_offset_delta % 256⟩

/-- The check for factors, prime_impl.rs:818-826. -/
def is_not_coprime (next_offset : ℕ) : M LimbChoice := do
  let c ← LimbChoice.from' 0
  M.forRange WheelLvl0.PRIMORIAL_NFACTORS PRIMORIAL_NFACTORS c fun i c => do
    let factor ← M.ofOption FIRST_PRIMES[i]?
    let rem := next_offset % factor
    pure (c.or (ct_eq_l_l rem 0))

/-- The loop of `produce_next_delta`, prime_impl.rs:805-831: the level 0 wheel, `next_offset`,
`next_offset_delta` and `last_offset`.  `self_last_offset` is `self.last_offset`. -/
def produce_loop (self_last_offset : ℕ) :
    (fuel : ℕ) → WheelLvl0 → (next_offset last_offset : ℕ) → M (WheelLvl0 × ℕ × ℕ × ℕ)
  | 0, _, _, _ => M.panic
  | fuel + 1, lvl0_wheel, next_offset, last_offset => do
    let (lvl0_wheel, lvl0_delta) ← lvl0_wheel.produce_next_delta
    let next_offset ← M.addL next_offset lvl0_delta
    let wrapped := ct_geq_l_l next_offset PRIMORIAL
    let next_offset := wrapped.select next_offset (wsub next_offset PRIMORIAL)
    let last_offset := wrapped.select last_offset 0
    let d ← M.sub PRIMORIAL self_last_offset
    let next_offset_delta := wrapped.select 0 d
    let c ← is_not_coprime next_offset
    if ← M.branch (c.unwrap ≠ 0) then
      produce_loop self_last_offset fuel lvl0_wheel next_offset last_offset
    else
      pure (lvl0_wheel, next_offset, next_offset_delta, last_offset)

/-- `produce_next_delta`, prime_impl.rs:801-836: the new state and the delta.  The loop has no bound in the
code; here a bound of the limb radix is put on the number of its iterations, and exceeding it is a
panic, which is proved not to happen. -/
def produce_next_delta (s : WheelLvl1) : M (WheelLvl1 × ℕ) := do
  let (lvl0_wheel, next_offset, next_offset_delta, last_offset) ←
    produce_loop s.last_offset B s.lvl0_wheel s.last_offset s.last_offset
  let sum ← M.addL next_offset next_offset_delta
  let lo ← M.sub last_offset s.last_offset_delta
  let delta ← M.sub sum lo
  pure (⟨lvl0_wheel, next_offset, 0⟩, delta)

end WheelLvl1

end Cmpa
