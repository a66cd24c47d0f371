import Verif.Model.Montgomery
import Verif.Model.Euclid

/-!
# Model of prime_impl.rs: primality tests and the prime candidate wheel
-/

namespace Cmpa
variable [LimbCfg] {φ ψ χ : Fmt}

/-! ### Small factors

The built-in products are byte arrays in the code, obtained from hexadecimal strings at compile time;
here they are pairs of the number of bytes and the number denoted by the string. -/

omit [LimbCfg]

/-- `SMALL_ODD_PRIME_PRODUCT_8`, prime_impl.rs:24-24. -/
def SMALL_ODD_PRIME_PRODUCT_8 : ℕ × ℕ :=
  (1, 0x69)

/-- `SMALL_ODD_PRIME_PRODUCT_16`, prime_impl.rs:28-28. -/
def SMALL_ODD_PRIME_PRODUCT_16 : ℕ × ℕ :=
  (2, 0x3aa7)

/-- `SMALL_ODD_PRIME_PRODUCT_32`, prime_impl.rs:32-32. -/
def SMALL_ODD_PRIME_PRODUCT_32 : ℕ × ℕ :=
  (4, 0xc0cfd797)

/-- `SMALL_ODD_PRIME_PRODUCT_64`, prime_impl.rs:36-36. -/
def SMALL_ODD_PRIME_PRODUCT_64 : ℕ × ℕ :=
  (8, 0xe221f97c30e94e1d)

/-- `SMALL_ODD_PRIME_PRODUCT_128`, prime_impl.rs:40-41. -/
def SMALL_ODD_PRIME_PRODUCT_128 : ℕ × ℕ :=
  (16, 0x5797d47c51681549d734e4fc4c3eaf7f)

/-- `SMALL_ODD_PRIME_PRODUCT_256`, prime_impl.rs:45-48. -/
def SMALL_ODD_PRIME_PRODUCT_256 : ℕ × ℕ :=
  (32, 0xdbf05b6f5654b3c0f5243551439586889f155887819aed2ac05b93352be98677)

/-- `SMALL_ODD_PRIME_PRODUCT_512`, prime_impl.rs:52-57. -/
def SMALL_ODD_PRIME_PRODUCT_512 : ℕ × ℕ :=
  (64, 0x106aa9fb7646fa6eb0813c28c5d5f09f077ec3ba238bfb99c1b631a203e81187233db117cbc384056ef04659a4a11de49f7ecb29bada8f980decece92e30c48f)

/-- `SMALL_ODD_PRIME_PRODUCT_1024`, prime_impl.rs:61-70. -/
def SMALL_ODD_PRIME_PRODUCT_1024 : ℕ × ℕ :=
  (128, 0x02c85ff870f24be80f62b1ba6c20bd72b837efdf121206d87db56b7d69fa4c021c107c3ca206fe8fa7080ef576effc82f9b10f5750656b7794b16afd70996e91aef6e0ad15e91b071ac9b24d98b233ad86ee055518e58e56638ef18bac5c74cb35bbb6e5dae2783dd1c0ce7dec4fc70e5186d411df36368f061aa36011f30179)

/-- `SMALL_ODD_PRIME_PRODUCT_2048`, prime_impl.rs:74-91. -/
def SMALL_ODD_PRIME_PRODUCT_2048 : ℕ × ℕ :=
  (256, 0x2465a7bd85011e1c9e0527929fff268c82ef7efa416863baa5acdb0971dba0ccac3ee4999345029f2cf810b99e406aac5fce5dd69d1c717daea5d18ab913f456505679bc91c57d46d9888857862b36e2ede2e473c1f0ab359da25271affe15ff240e299d0b04f4cd0e4d7c0e47b1a7ba007de89aae848fd5bdcd7f9815564eb060ae14f19cb50c291f0bbd8ed1c4c7f8fc5fba51662001939b532d92dac844a8431d400c832d039f5f900b278a75219c2986140c79045d7759540854c31504dc56f1df5eebe7bee447658b917bf696d6927f2e2428fbeb340e515cb9835d63871be8bbe09cf13445799f2e67788151571a93b4c1eee55d1b9072e0b2f5c4607f)

/-- `SMALL_ODD_PRIME_PRODUCTS`, prime_impl.rs:93-103. -/
def SMALL_ODD_PRIME_PRODUCTS : List (ℕ × ℕ) :=
  [SMALL_ODD_PRIME_PRODUCT_8, SMALL_ODD_PRIME_PRODUCT_16, SMALL_ODD_PRIME_PRODUCT_32,
    SMALL_ODD_PRIME_PRODUCT_64, SMALL_ODD_PRIME_PRODUCT_128, SMALL_ODD_PRIME_PRODUCT_256,
    SMALL_ODD_PRIME_PRODUCT_512, SMALL_ODD_PRIME_PRODUCT_1024, SMALL_ODD_PRIME_PRODUCT_2048]

/-- The loop selecting the longest product of at most the given length, prime_impl.rs:128-135, with
the list of products in reverse order: the first product is taken if none is short enough. -/
def select_product (len : ℕ) : List (ℕ × ℕ) → M (ℕ × ℕ)
  | [] => M.panic
  | x :: l => M.cond (x.1 ≤ len) (pure x)
    (match l with
    | [] => pure x
    | _ :: _ => select_product len l)

/-- `CtCompositeTestSmallPrimeGcdMpError`, prime_impl.rs:105-108. -/
inductive CompositeTestError where
  | InsufficientScratchSpace
  deriving DecidableEq, Repr


/-- `ct_composite_test_small_prime_gcd_mp`, prime_impl.rs:110-155. -/
def ct_composite_test_small_prime_gcd_mp (p : Buf φ) (scratch0 scratch1 : Buf .ne) :
    M (Except CompositeTestError LimbChoice) :=
  M.cond (p.is_empty = true) (do
    let c ← LimbChoice.from' 1
    pure (.ok c)) do
  let p_nlimbs := ct_mp_nlimbs p.len
  M.cond (scratch0.nlimbs < p_nlimbs) (pure (.error .InsufficientScratchSpace)) do
  M.cond (scratch1.nlimbs < p_nlimbs) (pure (.error .InsufficientScratchSpace)) do
  let p_len_aligned := p_nlimbs * LB
  let small_prime_product ← select_product p_len_aligned SMALL_ODD_PRIME_PRODUCTS.reverse
  let gcd ← scratch0.clear_bytes_above p_len_aligned
  let (gcd, _) ← gcd.shrink_to p_len_aligned
  let gcd ← gcd.copy_from (Buf.ofNat .be small_prime_product.1 small_prime_product.2)
  let p_work_scratch ← scratch1.copy_from p
  let (p_work_scratch, _) ← p_work_scratch.shrink_to p_len_aligned
  let (gcd, _) ← unwrapE (ct_gcd_odd_mp_mp gcd p_work_scratch)
  let gcd_is_one ← ct_is_one_mp gcd
  let p_is_odd ← p.test_bit 0
  pure (.ok (gcd_is_one.not.or p_is_odd.not))

/-! ### Miller–Rabin -/

/-- `CtPrimeTestMillerRabinMpError`, prime_impl.rs:245-251. -/
inductive MillerRabinError where
  | InvalidCandidate
  | InsufficientScratchSpace
  | InconsistentBaseLength
  | InconsistentMgRadixModPLength
  deriving DecidableEq, Repr

/-- Comparing with one and minus one in Montgomery form, prime_impl.rs:317-329: whether the
power is one, whether it is minus one. -/
def mr_compare (p : Buf φ) (mg_radix_mod_p : Buf ψ) (base_pow : Buf .ne) : M (ℕ × ℕ) := do
  let (is_one, is_minus_one, _) ← M.forRange 0 p.nlimbs (1, 1, 0) fun i s => do
    let (is_one, is_minus_one, neg_one_borrow) := s
    let one_val ← mg_radix_mod_p.load_l i
    let base_pow_val ← base_pow.load_l i
    let is_one := is_one &&& ct_is_zero_l (base_pow_val ^^^ one_val)
    let p_val ← p.load_l i
    let (neg_one_borrow, minus_one_val) ← ct_sub_l_l_b p_val one_val neg_one_borrow
    let is_minus_one := is_minus_one &&& ct_is_zero_l (base_pow_val ^^^ minus_one_val)
    pure (is_one, is_minus_one, neg_one_borrow)
  pure (is_one, is_minus_one)

/-- The body of the loop over the exponent's bits, prime_impl.rs:305-353: the updated
`base_pow`, `pow_scratch` and `is_probable_prime`. -/
def mr_step (mg_base : Buf χ) (p : Buf φ) (mg_radix_mod_p : Buf ψ) (neg_p0_inv_mod_l : ℕ)
    (p_minus_one_first_set_bit_pos exp_bit_pos : ℕ) (s : Buf .ne × Buf .ne × ℕ) :
    M (Buf .ne × Buf .ne × ℕ) := do
  let (base_pow, pow_scratch, is_probable_prime) := s
  let pow_scratch ← unwrapE
    (ct_montgomery_mul_mod_mp_mp pow_scratch base_pow base_pow p neg_p0_inv_mod_l)
  let base_pow ← unwrapE
    (ct_montgomery_mul_mod_mp_mp base_pow pow_scratch mg_base p neg_p0_inv_mod_l)
  let b ← p.test_bit exp_bit_pos
  let base_pow ← base_pow.copy_from_cond pow_scratch b.not
  let (is_one, is_minus_one) ← mr_compare p mg_radix_mod_p base_pow
  let bit_pos_eq_first_set := ct_eq_usize_usize exp_bit_pos p_minus_one_first_set_bit_pos
  let is_probable_prime :=
    is_probable_prime ||| bit_pos_eq_first_set.select 0 (is_one ||| is_minus_one)
  let bit_pos_below_first_set := ct_lt_usize_usize exp_bit_pos p_minus_one_first_set_bit_pos
  let is_probable_prime := is_probable_prime ||| bit_pos_below_first_set.select 0 is_minus_one
  pure (base_pow, pow_scratch, is_probable_prime)

/-- The part of the test after the checks of the arguments, prime_impl.rs:277-355.  The two scratch
slices are taken apart from the rest of their buffers, which is not accessed. -/
def mr_main (mg_base : Buf χ) (p : Buf φ) (mg_radix_mod_p : Buf ψ) (scratch0 scratch1 : Buf .ne) :
    M (Except MillerRabinError LimbChoice) := do
  let p_minus_one ← scratch0.copy_from p
  let (p_minus_one, rest) ← p_minus_one.shrink_to p.len
  let l ← p_minus_one.load_l 0
  let p_minus_one ← p_minus_one.store_l 0 (l ^^^ 1)
  let (p_minus_one_is_nonzero, p_minus_one_first_set_bit_pos) ← ct_find_first_set_bit_mp p_minus_one
  M.assert (p_minus_one_is_nonzero.unwrap ≠ 0)
  M.assert (0 < p_minus_one_first_set_bit_pos)
  let base_pow ← (Buf.join rest p_minus_one).copy_from mg_radix_mod_p
  let (base_pow, _) ← base_pow.shrink_to p.len
  let pow_scratch ← scratch1.clear_bytes_above p.len
  let (pow_scratch, _) ← pow_scratch.shrink_to p.len
  let neg ← ct_montgomery_neg_n0_inv_mod_l_mp p
  match neg with
  | .error _ => M.debugPanic (.error .InvalidCandidate)
  | .ok neg_p0_inv_mod_l =>
    -- `exp_bit_pos` runs from `8 * p.len() - 1` down to one
    let (_, _, is_probable_prime) ← M.forDown (8 * p.len - 1) (base_pow, pow_scratch, 0) fun i s =>
      mr_step mg_base p mg_radix_mod_p neg_p0_inv_mod_l p_minus_one_first_set_bit_pos (i + 1) s
    let c ← LimbChoice.from' is_probable_prime
    pure (.ok c)

/-- `ct_prime_test_miller_rabin_mp`, prime_impl.rs:253-356. -/
def ct_prime_test_miller_rabin_mp (mg_base : Buf χ) (p : Buf φ) (mg_radix_mod_p : Buf ψ)
    (scratch0 scratch1 : Buf .ne) : M (Except MillerRabinError LimbChoice) := do
  let b ← p.test_bit 0
  M.cond (b.unwrap = 0) (pure (.error .InvalidCandidate)) do
  let c ← mg_base.len_is_compatible_with p.len
  M.cond (c = false) (pure (.error .InconsistentBaseLength)) do
  M.assertM (do let c ← ct_lt_mp_mp mg_base p; pure (decide (c.unwrap ≠ 0)))
  let c ← mg_radix_mod_p.len_is_compatible_with p.len
  M.cond (c = false) (pure (.error .InconsistentMgRadixModPLength)) do
  M.assertM (do let c ← ct_lt_mp_mp mg_radix_mod_p p; pure (decide (c.unwrap ≠ 0)))
  let p_nlimbs := ct_mp_nlimbs p.len
  M.cond (scratch0.nlimbs < p_nlimbs) (pure (.error .InsufficientScratchSpace)) do
  M.cond (scratch1.nlimbs < p_nlimbs) (pure (.error .InsufficientScratchSpace)) do
  mr_main mg_base p mg_radix_mod_p scratch0 scratch1

end Cmpa
