{
 "claims": [
  {
   "property": "C01",
   "status": "proved",
   "theorems": [
    "Cmpa.Props.C01_eq",
    "Cmpa.Props.C01_neq",
    "Cmpa.Props.C01_leq",
    "Cmpa.Props.C01_lt",
    "Cmpa.Props.C01_geq",
    "Cmpa.Props.C01_gt",
    "Cmpa.Props.C01_is_zero",
    "Cmpa.Props.C01_is_one",
    "Cmpa.Props.C01_leq_l",
    "Cmpa.Props.C01_ofBool_inj"
   ],
   "note": ""
  },
  {
   "property": "C02",
   "status": "proved",
   "theorems": [
    "Cmpa.Props.C02_add",
    "Cmpa.Props.C02_add_len",
    "Cmpa.Props.C02_add_l"
   ],
   "note": ""
  },
  {
   "property": "C03",
   "status": "proved",
   "theorems": [
    "Cmpa.Props.C03_sub",
    "Cmpa.Props.C03_sub_len",
    "Cmpa.Props.C03_sub_l"
   ],
   "note": ""
  },
  {
   "property": "C04",
   "status": "proved",
   "theorems": [
    "Cmpa.Props.C04_add_cond",
    "Cmpa.Props.C04_sub_cond",
    "Cmpa.Props.C04_negate_cond",
    "Cmpa.Props.C04_swap_cond",
    "Cmpa.Props.C04_mul_cond",
    "Cmpa.Props.C04_mul_cond_empty"
   ],
   "note": ""
  },
  {
   "property": "C05",
   "status": "proved",
   "theorems": [
    "Cmpa.Props.C05_negate",
    "Cmpa.Props.C05_involutive"
   ],
   "note": ""
  },
  {
   "property": "C06",
   "status": "partial",
   "theorems": [
    "Cmpa.Props.C06_add_mod_partial",
    "Cmpa.Props.C06_add_mod_fails",
    "Cmpa.Props.C06_add_mod_iff",
    "Cmpa.Props.C06_sub_mod_partial",
    "Cmpa.Props.C06_sub_mod_fails",
    "Cmpa.Props.C06_sub_mod_iff",
    "Cmpa.Props.C06_negate_mod",
    "Cmpa.Props.C06_lengths"
   ],
   "note": "Negation proved in full; addition and subtraction are wrong if the first operand has more limbs than the modulus (findings B3, B4, witnesses proved), proved otherwise."
  },
  {
   "property": "C07",
   "status": "proved",
   "theorems": [
    "Cmpa.Props.C07_lshift",
    "Cmpa.Props.C07_lshift_lossless",
    "Cmpa.Props.C07_lshift_empty"
   ],
   "note": ""
  },
  {
   "property": "C08",
   "status": "proved",
   "theorems": [
    "Cmpa.Props.C08_rshift",
    "Cmpa.Props.C08_rshift_lossless",
    "Cmpa.Props.C08_lshift_rshift"
   ],
   "note": ""
  },
  {
   "property": "C09",
   "status": "proved",
   "theorems": [
    "Cmpa.Props.C09_mul",
    "Cmpa.Props.C09_mul_exact",
    "Cmpa.Props.C09_mul_l",
    "Cmpa.Props.C09_in_len"
   ],
   "note": ""
  },
  {
   "property": "C10",
   "status": "partial",
   "theorems": [
    "Cmpa.Props.C10_square_partial",
    "Cmpa.Props.C10_square_panics_fails",
    "Cmpa.Props.C10_square_products_partial",
    "Cmpa.Props.C10_square_two_limbs_partial",
    "Cmpa.Props.C10_square_small_limbs_partial",
    "Cmpa.Props.C10_square_single_limb_partial",
    "Cmpa.Props.C10_square_fails",
    "Cmpa.Props.C10_square_32_fails",
    "Cmpa.Props.C10_square_release_fails",
    "Cmpa.Props.C10_square_release_exact",
    "Cmpa.Props.C10_square_release_partial",
    "Cmpa.Props.C10_square_release_iff",
    "Cmpa.Props.C10_square_release_two_limbs_partial",
    "Cmpa.Props.C10_square_release_three_limbs_partial",
    "Cmpa.Props.C10_square_release_low_partial",
    "Cmpa.Props.C10_square_release_low_three_limbs"
   ],
   "note": "Finding S1: squaring panics in debug builds exactly for the operands not meeting the predicate Squarable (a product of two limbs with an upper half of 2^(W-1)-1, or of 2^(W-1)-2 together with a carry of B-1 or more), C10_square_panics_fails. Proved correct for all other operands, in particular in buffers of up to two limbs. Release builds return the square less a power of the limb base for each carry lost (C10_square_release_exact), hence the square exactly if SquareKept holds (C10_square_release_iff), in particular for all operands of up to two limbs; the three low limbs are right in any case."
  },
  {
   "property": "C11",
   "status": "proved",
   "theorems": [
    "Cmpa.Props.C11_add",
    "Cmpa.Props.C11_add_carry",
    "Cmpa.Props.C11_sub",
    "Cmpa.Props.C11_sub_borrow",
    "Cmpa.Props.C11_mul",
    "Cmpa.Props.C11_mul_add",
    "Cmpa.Props.C11_mul_sub"
   ],
   "note": ""
  },
  {
   "property": "C12",
   "status": "proved",
   "theorems": [
    "Cmpa.Props.C12_assign",
    "Cmpa.Props.C12_zeroize",
    "Cmpa.Props.C12_cmp",
    "Cmpa.Props.C12_zero",
    "Cmpa.Props.C12_select",
    "Cmpa.Props.C12_usize"
   ],
   "note": ""
  },
  {
   "property": "C13",
   "status": "proved",
   "theorems": [
    "Cmpa.Props.C13_ct_div",
    "Cmpa.Props.C13_nonct_new_div",
    "Cmpa.Props.C13_nonct_div",
    "Cmpa.Props.C13_zero"
   ],
   "note": ""
  },
  {
   "property": "C14",
   "status": "proved",
   "theorems": [
    "Cmpa.Props.C14_inv",
    "Cmpa.Props.C14_last_set",
    "Cmpa.Props.C14_first_set",
    "Cmpa.Props.C14_lsb_mask",
    "Cmpa.Props.C14_arithmetic_rshift",
    "Cmpa.Props.C14_negate"
   ],
   "note": ""
  },
  {
   "property": "C15",
   "status": "proved",
   "theorems": [
    "Cmpa.Props.C15_range",
    "Cmpa.Props.C15_ext",
    "Cmpa.Props.C15_load",
    "Cmpa.Props.C15_load_full",
    "Cmpa.Props.C15_store",
    "Cmpa.Props.C15_store_full",
    "Cmpa.Props.C15_take",
    "Cmpa.Props.C15_shrink_to"
   ],
   "note": ""
  },
  {
   "property": "C16",
   "status": "partial",
   "theorems": [
    "Cmpa.Props.C16_clear_bytes_above",
    "Cmpa.Props.C16_clear_bytes_below_partial",
    "Cmpa.Props.C16_clear_bytes_below_fails",
    "Cmpa.Props.C16_clear_bytes_below_empty_fails",
    "Cmpa.Props.C16_clear_bytes_below_beyond_fails",
    "Cmpa.Props.C16_ct_clear_bits_above",
    "Cmpa.Props.C16_clear_bits_above",
    "Cmpa.Props.C16_ct_clear_bits_below",
    "Cmpa.Props.C16_clear_bits_below",
    "Cmpa.Props.C16_clear_bytes_above_cond_partial",
    "Cmpa.Props.C16_clear_bytes_above_cond_fails",
    "Cmpa.Props.C16_clear_bytes_above_cond_exact_fails"
   ],
   "note": "Two findings: clear_bytes_above_cond with a true condition is wrong (B1), clear_bytes_below of native-endian buffers is wrong beyond the end (B2); both shown by witnesses, everything else proved."
  },
  {
   "property": "C17",
   "status": "partial",
   "theorems": [
    "Cmpa.Props.C17_copy_from",
    "Cmpa.Props.C17_copy_from_cond_partial",
    "Cmpa.Props.C17_copy_from_cond_fails",
    "Cmpa.Props.C17_copy_from_cond_exact_fails"
   ],
   "note": "copy_from proved in full; copy_from_cond to a longer destination is wrong (finding B1, witness proved), proved otherwise."
  },
  {
   "property": "C18",
   "status": "proved",
   "theorems": [
    "Cmpa.Props.C18_test_bit",
    "Cmpa.Props.C18_set_bit_to",
    "Cmpa.Props.C18_byte_length",
    "Cmpa.Props.C18_bit_length",
    "Cmpa.Props.C18_trailing_zeros"
   ],
   "note": ""
  },
  {
   "property": "C19",
   "status": "proved",
   "theorems": [
    "Cmpa.Props.C19_load",
    "Cmpa.Props.C19_store",
    "Cmpa.Props.C19_history",
    "Cmpa.Props.C19_load_panics",
    "Cmpa.Props.C19_store_debug",
    "Cmpa.Props.C19_store_release"
   ],
   "note": ""
  },
  {
   "property": "C20",
   "status": "proved",
   "theorems": [
    "Cmpa.Props.C20_parse",
    "Cmpa.Props.C20_parse_exact",
    "Cmpa.Props.C20_parse_const",
    "Cmpa.Props.C20_format",
    "Cmpa.Props.C20_roundtrip",
    "Cmpa.Props.C20_roundtrip_string"
   ],
   "note": "No restriction: every string of bytes (UTF-8 or not) and every result length. The allocation in bytes_to_hexstr is taken to succeed."
  },
  {
   "property": "C21",
   "status": "proved",
   "theorems": [
    "Cmpa.Props.C21_div",
    "Cmpa.Props.C21_quotient_len",
    "Cmpa.Props.C21_mod"
   ],
   "note": ""
  },
  {
   "property": "C22",
   "status": "partial",
   "theorems": [
    "Cmpa.Props.C22_divisor_partial",
    "Cmpa.Props.C22_divisor_l",
    "Cmpa.Props.C22_div_partial",
    "Cmpa.Props.C22_div_pow2_partial",
    "Cmpa.Props.C22_div_lshifted_partial",
    "Cmpa.Props.C22_divisor_panics_fails",
    "Cmpa.Props.C22_divisor_fails",
    "Cmpa.Props.C22_div_panics_fails",
    "Cmpa.Props.C22_div_pow2_panics_fails",
    "Cmpa.Props.C22_div_lshifted_panics_fails",
    "Cmpa.Props.C22_quotient_fails",
    "Cmpa.Props.C22_div_l_partial",
    "Cmpa.Props.C22_div_release",
    "Cmpa.Props.C22_div_pow2_release",
    "Cmpa.Props.C22_div_lshifted_release"
   ],
   "note": "Three findings: CtMpDivisor::new panics exactly for non-empty buffers of zeros without a decrement (D1, C22_divisor_panics_fails), a quotient buffer that has the limbs but not the bytes for the quotient panics (D4, exactly when: C22_div_panics_fails and its companions), division by a limb panics for a quotient buffer with fewer limbs than the dividend (D9). No panics and the right errors proved for all other arguments. In release builds D1 and D9 end the run, too (by an underflow or a panic), but all other divisions by divisors that can be made return the remainder and the low bytes of the quotient (C22_div_release and its companions)."
  },
  {
   "property": "C23",
   "status": "proved",
   "theorems": [
    "Cmpa.Props.C23_div_pow2",
    "Cmpa.Props.C23_mod_pow2",
    "Cmpa.Props.C23_div_lshifted",
    "Cmpa.Props.C23_mod_lshifted"
   ],
   "note": ""
  },
  {
   "property": "C24",
   "status": "partial",
   "theorems": [
    "Cmpa.Props.C24_div_l_partial",
    "Cmpa.Props.C24_mod_l",
    "Cmpa.Props.C24_quotient_panics_fails",
    "Cmpa.Props.C24_quotient_fails",
    "Cmpa.Props.C24_empty_unchanged_fails",
    "Cmpa.Props.C24_empty_fails"
   ],
   "note": "ct_mod_mp_l proved in full. ct_div_mp_l: two findings: it panics exactly for quotient buffers with fewer limbs than the dividend (C24_quotient_panics_fails; one limb less is tolerated in a big-endian buffer of whole limbs), and every empty dividend leaves the quotient buffer as it is (C24_empty_unchanged_fails), D9. Proved otherwise."
  },
  {
   "property": "C25",
   "status": "partial",
   "theorems": [
    "Cmpa.Props.C25_redc_exact",
    "Cmpa.Props.C25_redc_constant",
    "Cmpa.Props.C25_redc_release",
    "Cmpa.Props.C25_redc_release_modEq",
    "Cmpa.Props.C25_neg_inv",
    "Cmpa.Props.C25_neg_inv_error",
    "Cmpa.Props.C25_redc_partial",
    "Cmpa.Props.C25_redc_error",
    "Cmpa.Props.C25_single_limb_fails",
    "Cmpa.Props.C25_redc_panics_fails"
   ],
   "note": "Proved for moduli of two or more limbs, with all errors. Finding M1: every single-limb modulus panics (witness proved). What is returned for every operand and two or more limbs, reduced or not, is stated by C25_redc_exact. C25_redc_release states what release builds return for numbers of n R or more."
  },
  {
   "property": "C26",
   "status": "partial",
   "theorems": [
    "Cmpa.Props.C26_mul_exact",
    "Cmpa.Props.C26_mul_unreduced",
    "Cmpa.Props.C26_mul_right_iff",
    "Cmpa.Props.C26_lossy_fails",
    "Cmpa.Props.C26_mul_release_partial",
    "Cmpa.Props.C26_mul_release_any_partial",
    "Cmpa.Props.C26_mul_release_fails",
    "Cmpa.Props.C26_mul_partial",
    "Cmpa.Props.C26_high_limb",
    "Cmpa.Props.C26_mul_error",
    "Cmpa.Props.C26_carry_fails",
    "Cmpa.Props.C26_empty_fails",
    "Cmpa.Props.C26_empty_panics_fails",
    "Cmpa.Props.C26_short_fails",
    "Cmpa.Props.C26_align_fails"
   ],
   "note": "Findings, shown by witnesses: a carry is lost for moduli with a top limb of all ones (M4, wrong results), an empty second factor panics (M2), a byte result shorter than the native modulus (M3) and a native result with a byte modulus of unaligned length and a top byte of all ones (M5) panic. Proved otherwise, with all errors. For all arguments, C26_mul_exact states the returned number and which arguments panic, C26_mul_right_iff when the product is right, and C26_lossy_fails that every modulus of three or more limbs with a top limb of ones and a next limb of at least five (P-384, secp256k1, RFC 3526) has operands with a wrong product. In release builds, one factor need not be less than the modulus (C26_mul_release_partial); with two such factors the product may be left unreduced (C26_mul_release_any_partial, C26_mul_release_fails)."
  },
  {
   "property": "C27",
   "status": "partial",
   "theorems": [
    "Cmpa.Props.C27_form_exact",
    "Cmpa.Props.C27_form_release_partial",
    "Cmpa.Props.C27_radix2",
    "Cmpa.Props.C27_direct",
    "Cmpa.Props.C27_error",
    "Cmpa.Props.C27_form_partial",
    "Cmpa.Props.C27_back_partial"
   ],
   "note": "R^2 mod n and the direct conversion proved in full; the conversion by multiplication except for the cases excluded from C26, the way back except for single-limb moduli (C25). C27_form_exact states result and panics for all arguments. C27_form_release_partial: in release builds, also for numbers not less than the modulus."
  },
  {
   "property": "C28",
   "status": "partial",
   "theorems": [
    "Cmpa.Props.C28_exp_exact",
    "Cmpa.Props.C28_exp_unreduced",
    "Cmpa.Props.C28_mg_exp_exact",
    "Cmpa.Props.C28_exp_release_partial",
    "Cmpa.Props.C28_exp_partial",
    "Cmpa.Props.C28_error",
    "Cmpa.Props.C28_mg_exp_partial",
    "Cmpa.Props.C28_single_limb_fails",
    "Cmpa.Props.C28_single_limb_panics_fails",
    "Cmpa.Props.C28_carry_fails"
   ],
   "note": "Proved for moduli of two or more limbs not excluded from C26, and all errors. Findings M1 (single-limb moduli panic) and M4 (wrong result for moduli with a top limb of all ones) shown by witnesses. C28_exp_exact and C28_mg_exp_exact state the result and the panics for all arguments. C28_exp_release_partial: in release builds, also for bases not less than the modulus."
  },
  {
   "property": "C29",
   "status": "proved",
   "theorems": [
    "Cmpa.Props.C29_gcd_odd",
    "Cmpa.Props.C29_gcd_odd_same_len",
    "Cmpa.Props.C29_gcd_odd_error",
    "Cmpa.Props.C29_gcd",
    "Cmpa.Props.C29_gcd_zero_zero",
    "Cmpa.Props.C29_gcd_with_zero",
    "Cmpa.Props.C29_gcd_error"
   ],
   "note": ""
  },
  {
   "property": "C30",
   "status": "partial",
   "theorems": [
    "Cmpa.Props.C30_inv_odd_partial",
    "Cmpa.Props.C30_inv_odd_run_partial",
    "Cmpa.Props.C30_inv_odd_panics_fails",
    "Cmpa.Props.C30_inv_odd_value",
    "Cmpa.Props.C30_inv_odd_not_coprime",
    "Cmpa.Props.C30_inv_odd_error",
    "Cmpa.Props.C30_inv_odd_fails",
    "Cmpa.Props.C30_inv_odd_top_bit_fails"
   ],
   "note": "Findings I1 and I2: wrong inverses if the most significant limb of the modulus' buffer is in use (witnesses proved). Proved for moduli leaving that limb zero, and for all others as long as the coefficients of the run fit (FitsRun). The value returned, right or wrong, and the arguments which panic are given exactly (C30_inv_odd_value, C30_inv_odd_panics_fails); refusal of operands that are not coprime and all other errors proved for every odd modulus."
  },
  {
   "property": "C31",
   "status": "partial",
   "theorems": [
    "Cmpa.Props.C31_inv_pow2_partial",
    "Cmpa.Props.C31_inv_pow2_two_limbs_partial",
    "Cmpa.Props.C31_inv_pow2_panics_fails",
    "Cmpa.Props.C31_inv_pow2_fails",
    "Cmpa.Props.C31_inv_pow2_release_partial",
    "Cmpa.Props.C31_inv_pow2_release_four_limbs_partial",
    "Cmpa.Props.C31_inv_pow2_release_three_limbs_partial",
    "Cmpa.Props.C31_inv_pow2_release_fails"
   ],
   "note": "Finding S1 carries over: the function panics exactly if the squaring of an intermediate inverse does (C31_inv_pow2_panics_fails; witness beside). Proved for all other operands, in particular for all operands up to exponents of two limbs. In release builds the inverse is right if SquareKept holds of the intermediate ones, in particular up to maximum exponents of four limbs, or exponents of three limbs with any maximum; otherwise it may be wrong (C31_inv_pow2_release_fails)."
  },
  {
   "property": "C32",
   "status": "partial",
   "theorems": [
    "Cmpa.Props.C32_inv_run_partial",
    "Cmpa.Props.C32_inv_panics_fails",
    "Cmpa.Props.C32_inv_partial",
    "Cmpa.Props.C32_inv_two_limbs_partial",
    "Cmpa.Props.C32_inv_not_coprime_partial",
    "Cmpa.Props.C32_inv_error",
    "Cmpa.Props.C32_inv_fails",
    "Cmpa.Props.C32_inv_panic_fails",
    "Cmpa.Props.C32_inv_release_run_partial",
    "Cmpa.Props.C32_inv_release_partial",
    "Cmpa.Props.C32_inv_release_odd_partial",
    "Cmpa.Props.C32_inv_release_not_coprime_partial",
    "Cmpa.Props.C32_inv_release_fails"
   ],
   "note": "Findings I1 (wrong inverse) and S1 (panic) carry over, both shown by witnesses. The arguments which panic are given exactly (C32_inv_panics_fails). Proved for moduli whose odd part leaves the top limb zero, or for which the coefficients fit, and operands not meeting S1, the latter always being the case in buffers of up to two limbs. All errors of the argument checks are proved without conditions; the modulus is proved unchanged in all cases. In release builds S1 does no harm unless a power of two of more than three limbs divides the modulus (C32_inv_release_run_partial; beyond that a wrong inverse, C32_inv_release_fails)."
  },
  {
   "property": "C33",
   "status": "partial",
   "theorems": [
    "Cmpa.Props.C33_lcm_bytes_partial",
    "Cmpa.Props.C33_lcm_limbs_partial",
    "Cmpa.Props.C33_lcm_aligned_partial",
    "Cmpa.Props.C33_lcm_empty",
    "Cmpa.Props.C33_lcm_error",
    "Cmpa.Props.C33_lcm_lengths_error",
    "Cmpa.Props.C33_lcm_panics_fails",
    "Cmpa.Props.C33_lcm_unaligned_fails",
    "Cmpa.Props.C33_lcm_tight_fails",
    "Cmpa.Props.C33_lcm_mixed_len_fails",
    "Cmpa.Props.C33_lcm_release_bytes",
    "Cmpa.Props.C33_lcm_release_limbs_partial",
    "Cmpa.Props.C33_lcm_release_fails"
   ],
   "note": "Proved for all operands of equal buffer length if the second one is stored as bytes, and for limb buffers if the declared lengths add up to a multiple of the limb size and the result has room for rounding up. The exact arguments which panic (findings L1 and L2) are given by C33_lcm_panics_fails; for all others result or error are proved. Release builds: right for all compatible lengths if the second operand is stored as bytes (C33_lcm_release_bytes), and for limbs given room and a first operand no shorter than the second one is declared; a wrong multiple otherwise (C33_lcm_release_fails)."
  },
  {
   "property": "C34",
   "status": "partial",
   "theorems": [
    "Cmpa.Props.C34_exact",
    "Cmpa.Props.C34_one_panics_fails",
    "Cmpa.Props.C34_unreduced",
    "Cmpa.Props.C34_miller_rabin_partial",
    "Cmpa.Props.C34_prime_partial",
    "Cmpa.Props.C34_error",
    "Cmpa.Props.C34_prime_rejected_fails",
    "Cmpa.Props.C34_align_fails",
    "Cmpa.Props.C34_short_radix_fails",
    "Cmpa.Props.C34_one_fails"
   ],
   "note": "Finding P1: because of M4 a prime can be reported composite (witness: 2^64-83 with 32 bit limbs, primality proved); because of M5, and for a short radix buffer or the candidate one, the test panics (witnesses). Proved for all odd candidates above one in the domain of the Montgomery multiplication and all bases: the answer is exactly the strong probable prime criterion, and no prime is rejected. All error returns proved. C34_exact states the answer and the panics for all arguments; C34_one_panics_fails: the candidate one always panics in a debug build."
  },
  {
   "property": "C35",
   "status": "proved",
   "theorems": [
    "Cmpa.Props.C35_small_factor",
    "Cmpa.Props.C35_prime",
    "Cmpa.Props.C35_error",
    "Cmpa.Props.C35_products"
   ],
   "note": "No restriction: every length and value, including zero and empty numbers; the 9 built-in constants are proved equal to the products of the odd primes up to 7, 13, 29, 53, 101, 193, 379, 739, 1471."
  },
  {
   "property": "C36",
   "status": "proved",
   "theorems": [
    "Cmpa.Props.C36_enumerate",
    "Cmpa.Props.C36_no_prime_skipped",
    "Cmpa.Props.C36_prime_reached",
    "Cmpa.Props.C36_offsets",
    "Cmpa.Props.C36_increments",
    "Cmpa.Props.C36_reach",
    "Cmpa.Props.C36_density"
   ],
   "note": "No restriction: every lower bound, every number of increments. The wheel's own primes (up to 23 or 47) are by design not among the candidates, neither is one."
  },
  {
   "property": "C37",
   "status": "partial",
   "theorems": [
    "Cmpa.Props.C37_compare",
    "Cmpa.Props.C37_compare_const",
    "Cmpa.Props.C37_copy",
    "Cmpa.Props.C37_bits",
    "Cmpa.Props.C37_bit",
    "Cmpa.Props.C37_add_sub",
    "Cmpa.Props.C37_add_sub_l",
    "Cmpa.Props.C37_modular",
    "Cmpa.Props.C37_mul",
    "Cmpa.Props.C37_shift",
    "Cmpa.Props.C37_shift_secret_partial",
    "Cmpa.Props.C37_shift_secret_fails",
    "Cmpa.Props.C37_div",
    "Cmpa.Props.C37_div_pow2",
    "Cmpa.Props.C37_div_lshifted",
    "Cmpa.Props.C37_div_l",
    "Cmpa.Props.C37_mod_l",
    "Cmpa.Props.C37_montgomery_inv",
    "Cmpa.Props.C37_montgomery_redc",
    "Cmpa.Props.C37_montgomery_mul",
    "Cmpa.Props.C37_montgomery_form",
    "Cmpa.Props.C37_montgomery_form_direct",
    "Cmpa.Props.C37_montgomery_exp",
    "Cmpa.Props.C37_exp",
    "Cmpa.Props.C37_gcd_odd",
    "Cmpa.Props.C37_gcd_partial",
    "Cmpa.Props.C37_gcd_pow2_partial",
    "Cmpa.Props.C37_gcd_fails",
    "Cmpa.Props.C37_lcm_partial",
    "Cmpa.Props.C37_lcm_gcd_partial",
    "Cmpa.Props.C37_lcm_fails",
    "Cmpa.Props.C37_inv_odd",
    "Cmpa.Props.C37_inv_odd_error_fails",
    "Cmpa.Props.C37_inv_pow2",
    "Cmpa.Props.C37_inv_partial",
    "Cmpa.Props.C37_inv_pow2_part_partial",
    "Cmpa.Props.C37_inv_fails",
    "Cmpa.Props.C37_small_factors",
    "Cmpa.Props.C37_miller_rabin",
    "Cmpa.Props.C37_wheel_start_partial",
    "Cmpa.Props.C37_wheel_start_fails",
    "Cmpa.Props.C37_wheel_partial",
    "Cmpa.Props.C37_wheel_fails"
   ],
   "note": "Equal events proved for all modelled ct_ functions, for runs which do not panic or return errors. Shifts by secret distances, gcd, lcm, general inverses and the start of the wheel: equal up to the numbers of the limbs read, and equal in full if the power of two in question is the same; witnesses show that more does not hold (findings T1, T2). The deltas produced by the wheel: equal shape if equal numbers of numbers are passed over before each candidate (C37_wheel_partial), which the branches reveal (C37_wheel_fails). Not covered: hexadecimal conversions."
  },
  {
   "property": "C38",
   "status": "partial",
   "theorems": [
    "Cmpa.Props.C38_compare",
    "Cmpa.Props.C38_negate_shift",
    "Cmpa.Props.C38_bits",
    "Cmpa.Props.C38_gcd",
    "Cmpa.Props.C38_small_factor",
    "Cmpa.Props.C38_wheel",
    "Cmpa.Props.C38_hex",
    "Cmpa.Props.C38_montgomery_transform",
    "Cmpa.Props.C38_access",
    "Cmpa.Props.C38_composite",
    "Cmpa.Props.C38_copy",
    "Cmpa.Props.C38_set",
    "Cmpa.Props.C38_split",
    "Cmpa.Props.C38_clear_bytes_below_partial",
    "Cmpa.Props.C38_try_into_partial",
    "Cmpa.Props.C38_add_sub",
    "Cmpa.Props.C38_add_sub_mod",
    "Cmpa.Props.C38_mul",
    "Cmpa.Props.C38_square_partial",
    "Cmpa.Props.C38_square_fails",
    "Cmpa.Props.C38_div_partial",
    "Cmpa.Props.C38_div_pow2_partial",
    "Cmpa.Props.C38_div_lshifted_partial",
    "Cmpa.Props.C38_mod",
    "Cmpa.Props.C38_mod_l",
    "Cmpa.Props.C38_div_l_partial",
    "Cmpa.Props.C38_redc_partial",
    "Cmpa.Props.C38_mg_mul_partial",
    "Cmpa.Props.C38_exp_partial",
    "Cmpa.Props.C38_to_form_partial",
    "Cmpa.Props.C38_mg_exp_partial",
    "Cmpa.Props.C38_inv_odd_partial",
    "Cmpa.Props.C38_inv_odd_fails",
    "Cmpa.Props.C38_inv_pow2_partial",
    "Cmpa.Props.C38_inv_partial",
    "Cmpa.Props.C38_lcm_partial",
    "Cmpa.Props.C38_lcm_bytes",
    "Cmpa.Props.C38_miller_rabin_partial"
   ],
   "note": "Absence of panics (debug builds) proved for every operation, over all arguments where there are no documented conditions; comparisons, shifts, bit operations, copies, sums, products, greatest common divisors, the small factor test, the wheel and hexadecimal conversion in full. Functions with known panics (squaring S1, division D1 D4 D9, Montgomery M1-M3 M5, inverses I2, least common multiples L1 L2, Miller-Rabin P1, try_into B5, clear_bytes_below B2) except for those, each of which has a witness."
  },
  {
   "property": "C39",
   "status": "partial",
   "theorems": [
    "Cmpa.Props.C39_set_to",
    "Cmpa.Props.C39_try_into_partial",
    "Cmpa.Props.C39_try_into_panics_fails",
    "Cmpa.Props.C39_try_into_fails",
    "Cmpa.Props.C39_roundtrip"
   ],
   "note": "set_to_* and the round trip proved; try_into_* panics on buffers with fewer limbs than the native type (finding B5, witness proved), proved otherwise."
  },
  {
   "property": "C40",
   "status": "proved",
   "theorems": [
    "Cmpa.Props.C40_store",
    "Cmpa.Props.C40_set_bit",
    "Cmpa.Props.C40_low_part",
    "Cmpa.Props.C40_high_part",
    "Cmpa.Props.C40_lshift_low_part",
    "Cmpa.Props.C40_shrink_to",
    "Cmpa.Props.C40_composite",
    "Cmpa.Props.C40_len_arith",
    "Cmpa.Props.C40_inv_modulus"
   ],
   "note": "Bytes outside the limb, bit, part or segment worked on keep their contents, for any operation on a part of a buffer; lengths kept by all arithmetic (the theorems of the other properties state lengths along with the values). The modulus of ct_inv_mod_mp_mp is restored whenever the function returns (C40_inv_modulus)."
  },
  {
   "property": "C41",
   "status": "proved",
   "theorems": [
    "Cmpa.Props.C41_format",
    "Cmpa.Props.C41_value",
    "Cmpa.Props.C41_injective"
   ],
   "note": "No restriction. Writing to the formatter is taken to succeed."
  },
  {
   "property": "C42",
   "status": "proved",
   "theorems": [
    "Cmpa.Props.C42_zero",
    "Cmpa.Props.C42_add",
    "Cmpa.Props.C42_sub",
    "Cmpa.Props.C42_mul",
    "Cmpa.Props.C42_div",
    "Cmpa.Props.C42_reciprocal",
    "Cmpa.Props.C42_div_overflow"
   ],
   "note": "Against a semantics of the nine instructions used; the assembler and rustc's handling of the operand constraints are trusted."
  },
  {
   "property": "C43",
   "status": "proved",
   "theorems": [
    "Cmpa.Props.C43_view_len",
    "Cmpa.Props.C43_view_little",
    "Cmpa.Props.C43_view_big",
    "Cmpa.Props.C43_write_read",
    "Cmpa.Props.C43_read_write",
    "Cmpa.Props.C43_write_little",
    "Cmpa.Props.C43_nlimbs_for_len"
   ],
   "note": "On big-endian machines the view is neither byte format for more than one limb (C43_view_big gives the exact relation)."
  },
  {
   "property": "C44",
   "status": "partial",
   "theorems": [
    "Cmpa.Props.C44_composite_partial",
    "Cmpa.Props.C44_rounds_partial",
    "Cmpa.Props.C44_exact_partial"
   ],
   "note": "Rabin's theorem is proved in Proofs/Rabin.lean. Missing, as for C34: candidates outside the domain of the Montgomery multiplication."
  },
  {
   "property": "C45",
   "status": "partial",
   "theorems": [
    "Cmpa.Props.C45_rsa_partial",
    "Cmpa.Props.C45_dh_partial",
    "Cmpa.Props.C45_private_exponent_partial",
    "Cmpa.Props.C45_rsa_keygen_partial",
    "Cmpa.Props.C45_fermat_inverse_partial"
   ],
   "note": "Missing, inherited from C28, C30, C32: moduli of a single limb or with a top limb of ones, operands meeting the defect of the squaring, inverses modulo numbers using the top limb of their buffer."
  },
  {
   "property": "C46",
   "status": "partial",
   "theorems": [
    "Cmpa.Props.C46_add_sub",
    "Cmpa.Props.C46_sub_add",
    "Cmpa.Props.C46_sub_is_add_neg",
    "Cmpa.Props.C46_add_sub_mod_partial",
    "Cmpa.Props.C46_div_mul_add",
    "Cmpa.Props.C46_mul_div",
    "Cmpa.Props.C46_gcd_lcm_partial",
    "Cmpa.Props.C46_montgomery_partial",
    "Cmpa.Props.C46_mul_mod_partial",
    "Cmpa.Props.C46_inv_inv_partial"
   ],
   "note": "Addition, subtraction, negation, multiplication and division in full; the others within the domains of C06, C25, C26, C32, C33."
  },
  {
   "property": "C47",
   "status": "partial",
   "theorems": [
    "Cmpa.Props.C47_compare",
    "Cmpa.Props.C47_add",
    "Cmpa.Props.C47_sub",
    "Cmpa.Props.C47_negate",
    "Cmpa.Props.C47_mul",
    "Cmpa.Props.C47_shift",
    "Cmpa.Props.C47_copy",
    "Cmpa.Props.C47_bits",
    "Cmpa.Props.C47_div",
    "Cmpa.Props.C47_mod",
    "Cmpa.Props.C47_gcd",
    "Cmpa.Props.C47_add_sub_mod_partial",
    "Cmpa.Props.C47_exp_partial",
    "Cmpa.Props.C47_inv_odd_partial",
    "Cmpa.Props.C47_lcm_partial",
    "Cmpa.Props.C47_format",
    "Cmpa.Props.C47_small_factor_partial",
    "Cmpa.Props.C47_shift_fails",
    "Cmpa.Props.C47_exp_fails",
    "Cmpa.Props.C47_format_fails",
    "Cmpa.Props.C47_small_factor_fails"
   ],
   "note": "Two runs of one operation, with limb sizes c and c' and any formats, agree in lengths and values. Where the platform shows is stated by the _fails theorems: the limb shifted out (C47_shift_fails), single limb moduli (C47_exp_fails), underscores in formatted numbers (C47_format_fails), the range of the small factor test (C47_small_factor_fails). Partial theorems carry the restrictions of C06, C28, C30, C33."
  },
  {
   "property": "C48",
   "status": "partial",
   "theorems": [
    "Cmpa.Props.C48_copy",
    "Cmpa.Props.C48_set_to",
    "Cmpa.Props.C48_mul",
    "Cmpa.Props.C48_div",
    "Cmpa.Props.C48_div_parts",
    "Cmpa.Props.C48_div_pow2",
    "Cmpa.Props.C48_div_lshifted",
    "Cmpa.Props.C48_div_limb_partial",
    "Cmpa.Props.C48_div_limb_fails",
    "Cmpa.Props.C48_radix2",
    "Cmpa.Props.C48_mg_mul",
    "Cmpa.Props.C48_mg_form",
    "Cmpa.Props.C48_mg_exp",
    "Cmpa.Props.C48_exp",
    "Cmpa.Props.C48_inv_odd",
    "Cmpa.Props.C48_inv",
    "Cmpa.Props.C48_inv_pow2",
    "Cmpa.Props.C48_lcm",
    "Cmpa.Props.C48_small_factor",
    "Cmpa.Props.C48_miller_rabin"
   ],
   "note": "Equal results, equal errors or a panic in both runs, for any two contents of result and scratch buffers; wrong results (M4, I2) and panics included. One finding, D9: dividing an empty dividend by a limb leaves the former contents of the quotient buffer (C48_div_limb_fails); C48_div_limb_partial excludes it."
  },
  {
   "property": "C49",
   "status": "partial",
   "theorems": [
    "Cmpa.Props.C49_agree",
    "Cmpa.Props.C49_constant_time",
    "Cmpa.Props.C49_compare",
    "Cmpa.Props.C49_add",
    "Cmpa.Props.C49_sub",
    "Cmpa.Props.C49_shift",
    "Cmpa.Props.C49_mul",
    "Cmpa.Props.C49_div",
    "Cmpa.Props.C49_mod",
    "Cmpa.Props.C49_gcd",
    "Cmpa.Props.C49_lcm_partial",
    "Cmpa.Props.C49_redc_partial",
    "Cmpa.Props.C49_mg_mul_partial",
    "Cmpa.Props.C49_exp_partial",
    "Cmpa.Props.C49_inv_odd_run_partial",
    "Cmpa.Props.C49_inv_odd_partial",
    "Cmpa.Props.C49_miller_rabin_partial",
    "Cmpa.Props.C49_empty_fails",
    "Cmpa.Props.C49_lcm_mixed_len_fails",
    "Cmpa.Props.C49_inv_pow2_fails",
    "Cmpa.Props.C49_one_fails",
    "Cmpa.Props.C49_inv_odd_fails",
    "Cmpa.Props.C49_inv_odd_refused_fails",
    "Cmpa.Props.C49_try_into_fails",
    "Cmpa.Props.C49_square_fails",
    "Cmpa.Props.C49_short_fails",
    "Cmpa.Props.C49_align_fails",
    "Cmpa.Props.C49_quotient_fails"
   ],
   "note": "The builds agree wherever the debug build does not panic (C49_agree, C49_constant_time, and the theorems per operation). Missing: the arguments for which the debug build panics (C38); the _fails theorems show that the builds differ there, with the release build right in some and wrong in other cases."
  },
  {
   "property": "C50",
   "status": "partial",
   "theorems": [
    "Cmpa.Props.C50_gcd_odd_partial",
    "Cmpa.Props.C50_gcd_odd_32_partial",
    "Cmpa.Props.C50_gcd_odd_64",
    "Cmpa.Props.C50_same_partial",
    "Cmpa.Props.C50_nbatches_iff",
    "Cmpa.Props.C50_gcd_odd_too_long_fails",
    "Cmpa.Props.C50_gcd_odd_release_fails"
   ],
   "note": "For all lengths of which the number of division steps fits in a usize (exactly, C50_nbatches_iff: 49 * (8 * len + 2) + 57 < 2^usize::BITS) the program with bounded usize is the same as the one with unbounded counters (C50_same_partial), so that all other theorems apply to it; complete for 64 bits. Missing: longer operands with 32 bits, where the property is false (finding U1, _fails). Public function spelled out: ct_gcd_odd_mp_mp; the other users of the common part are covered by C50_same_partial."
  },
  {
   "property": "C51",
   "status": "proved",
   "theorems": [
    "Cmpa.Props.C51_program",
    "Cmpa.Props.C51_constant_time",
    "Cmpa.Props.C51_portable"
   ],
   "note": ""
  },
  {
   "property": "C52",
   "status": "partial",
   "theorems": [
    "Cmpa.Props.C52_program_partial",
    "Cmpa.Props.C52_constant_time_partial",
    "Cmpa.Props.C52_power_partial",
    "Cmpa.Props.C52_carry_fails"
   ],
   "note": "Proved for all programs and all moduli in the domain of C26 and C28 (ExpModulus: odd, at least two limbs, the highest limb not all ones, alignment). Missing: the other odd moduli, for which the property is false (findings M1, M4, M5; C52_carry_fails)."
  },
  {
   "property": "C53",
   "status": "partial",
   "theorems": [
    "Cmpa.Props.C53_search_partial",
    "Cmpa.Props.C53_no_prime_skipped_partial",
    "Cmpa.Props.C53_prime_skipped_fails",
    "Cmpa.Props.C53_succeeds_partial"
   ],
   "note": "Proved for searches whose result is in the domain of C34. Missing: candidates outside of it, where the property is false (finding M4; C53_prime_skipped_fails)."
  },
  {
   "property": "C54",
   "status": "partial",
   "theorems": [
    "Cmpa.Props.C54_crt_partial",
    "Cmpa.Props.C54_decrypt_partial",
    "Cmpa.Props.C54_same_partial",
    "Cmpa.Props.C54_constant_time_partial",
    "Cmpa.Props.C54_decrypt_fails"
   ],
   "note": "Proved for primes in the domain of C28 (ExpModulus). Missing: primes of a single limb or with a top limb of all ones, for which the property is false (findings M1, M4; C54_decrypt_fails: with 32 bit limbs and p = 2^64-83 the message p-1 is decrypted to another number)."
  },
  {
   "property": "C55",
   "status": "proved",
   "theorems": [
    "Cmpa.Props.C55_writer",
    "Cmpa.Props.C55_complete",
    "Cmpa.Props.C55_bounded",
    "Cmpa.Props.C55_length",
    "Cmpa.Props.C55_alloc"
   ],
   "note": ""
  },
  {
   "property": "C56",
   "status": "partial",
   "theorems": [
    "Cmpa.Props.C56_digits_partial",
    "Cmpa.Props.C56_numeral_partial",
    "Cmpa.Props.C56_read",
    "Cmpa.Props.C56_round_trip_partial",
    "Cmpa.Props.C56_portable_partial",
    "Cmpa.Props.C56_constant_time_partial",
    "Cmpa.Props.C56_read_constant_time",
    "Cmpa.Props.C56_empty_fails"
   ],
   "note": "Proved for numbers in buffers which are not empty, and for reading in full. Missing: writing the number zero held by an empty buffer, for which the property is false (finding D9; C56_empty_fails)."
  },
  {
   "property": "C57",
   "status": "partial",
   "theorems": [
    "Cmpa.Props.C57_sign_partial",
    "Cmpa.Props.C57_verify_partial",
    "Cmpa.Props.C57_sign_verify_partial",
    "Cmpa.Props.C57_sign_constant_time_partial",
    "Cmpa.Props.C57_sign_verify_fails"
   ],
   "note": "Proved for p in the domain of C28 (ExpModulus) and q leaving the top limb of its buffer zero (C30). Missing: q filling its buffer, for which the property is false (findings I1, I2; C57_sign_verify_fails: with 32 bit limbs and q = 65519 in one limb a signature is made that doesn't verify), and p outside of ExpModulus (M1, M4)."
  },
  {
   "property": "C58",
   "status": "proved",
   "theorems": [
    "Cmpa.Props.C58_extend",
    "Cmpa.Props.C58_prime",
    "Cmpa.Props.C58_not_rejected",
    "Cmpa.Props.C58_composite_rejected",
    "Cmpa.Props.C58_base_exists",
    "Cmpa.Props.C58_chain",
    "Cmpa.Props.C58_constant_time"
   ],
   "note": "For all inputs: the buffers are allocated with a limb to spare, so that the moduli are in the domain of the exponentiation (C28)."
  },
  {
   "property": "C59",
   "status": "proved",
   "theorems": [
    "Cmpa.Props.C59_add",
    "Cmpa.Props.C59_mul",
    "Cmpa.Props.C59_check",
    "Cmpa.Props.C59_ecdh",
    "Cmpa.Props.C59_add_constant_time",
    "Cmpa.Props.C59_tight_fails"
   ],
   "note": "No restriction: the programs copy operand and modulus of an inversion to buffers with a limb to spare (C65). C59_tight_fails shows that this is needed (finding I1): with 32 bit limbs and p = 65519 in one limb, the sum of two points isn't on the curve without it."
  },
  {
   "property": "C60",
   "status": "proved",
   "theorems": [
    "Cmpa.Props.C60_sign",
    "Cmpa.Props.C60_verify",
    "Cmpa.Props.C60_sign_verify"
   ],
   "note": "No restriction, for the programs built on those of C59."
  },
  {
   "property": "C61",
   "status": "proved",
   "theorems": [
    "Cmpa.Props.C61_share",
    "Cmpa.Props.C61_reconstruct",
    "Cmpa.Props.C61_share_reconstruct",
    "Cmpa.Props.C61_secrecy",
    "Cmpa.Props.C61_secrecy_unique",
    "Cmpa.Props.C61_share_constant_time",
    "Cmpa.Props.C61_reconstruct_constant_time"
   ],
   "note": "No restriction beyond the stated ones: sharing for all moduli, secrecy for all primes, reconstruction for all odd primes (inverses with a limb to spare, C65)."
  },
  {
   "property": "C62",
   "status": "proved",
   "theorems": [
    "Cmpa.Props.C62_non_square",
    "Cmpa.Props.C62_non_square_found",
    "Cmpa.Props.C62_sqrt_any",
    "Cmpa.Props.C62_lift_any",
    "Cmpa.Props.C62_root_constant_time",
    "Cmpa.Props.C62_square_test",
    "Cmpa.Props.C62_sqrt",
    "Cmpa.Props.C62_lift",
    "Cmpa.Props.C62_constant_time"
   ],
   "note": "For all odd primes (powers with a limb to spare, C65)."
  },
  {
   "property": "C63",
   "status": "proved",
   "theorems": [
    "Cmpa.Props.C63_batch_inverse",
    "Cmpa.Props.C63_constant_time"
   ],
   "note": "For all odd primes (inverses with a limb to spare, C65)."
  },
  {
   "property": "C64",
   "status": "proved",
   "theorems": [
    "Cmpa.Props.C64_crt",
    "Cmpa.Props.C64_residues",
    "Cmpa.Props.C64_constant_time"
   ],
   "note": "For all odd moduli (inverses with a limb to spare, C65)."
  },
  {
   "property": "C65",
   "status": "proved",
   "theorems": [
    "Cmpa.Props.C65_power",
    "Cmpa.Props.C65_inverse",
    "Cmpa.Props.C65_power_constant_time",
    "Cmpa.Props.C65_inverse_constant_time",
    "Cmpa.Props.C65_prime_test",
    "Cmpa.Props.C65_prime_accepted",
    "Cmpa.Props.C65_composite_rejected",
    "Cmpa.Props.C65_search",
    "Cmpa.Props.C65_search_succeeds",
    "Cmpa.Props.C65_next_prime"
   ],
   "note": "No restriction: all odd moduli. The inversion modulo even numbers and the squaring are not among the operations (finding S1 is not avoided by a longer buffer)."
  },
  {
   "property": "C66",
   "status": "proved",
   "theorems": [
    "Cmpa.Props.C66_exponent",
    "Cmpa.Props.C66_key",
    "Cmpa.Props.C66_round_trip",
    "Cmpa.Props.C66_signature",
    "Cmpa.Props.C66_key_constant_time"
   ],
   "note": "No restriction. Compare C45, where the obvious program (least common multiple, inverse modulo an even number, no limb to spare) is proved only outside of findings."
  },
  {
   "property": "C67",
   "status": "proved",
   "theorems": [
    "Cmpa.Props.C67_dh",
    "Cmpa.Props.C67_elgamal",
    "Cmpa.Props.C67_sign",
    "Cmpa.Props.C67_verify",
    "Cmpa.Props.C67_sign_verify",
    "Cmpa.Props.C67_schnorr_verify",
    "Cmpa.Props.C67_schnorr_complete",
    "Cmpa.Props.C67_schnorr_extract",
    "Cmpa.Props.C67_sign_constant_time",
    "Cmpa.Props.C67_decrypt_constant_time",
    "Cmpa.Props.C67_answer_constant_time"
   ],
   "note": "No restriction. Compare C45 and C57, the same protocols without a limb to spare."
  },
  {
   "property": "C68",
   "status": "proved",
   "theorems": [
    "Cmpa.Props.C68_add",
    "Cmpa.Props.C68_sub",
    "Cmpa.Props.C68_mul",
    "Cmpa.Props.C68_div_mod",
    "Cmpa.Props.C68_gcd",
    "Cmpa.Props.C68_lcm",
    "Cmpa.Props.C68_pow",
    "Cmpa.Props.C68_inv",
    "Cmpa.Props.C68_expression",
    "Cmpa.Props.C68_expression_release",
    "Cmpa.Props.C68_expression_portable",
    "Cmpa.Props.C68_calculator"
   ],
   "note": "No restriction: the theorems have no hypotheses about the operands."
  },
  {
   "property": "C69",
   "status": "partial",
   "theorems": [
    "Cmpa.Props.C69_lshift_partial",
    "Cmpa.Props.C69_rshift_partial",
    "Cmpa.Props.C69_shift_lengths",
    "Cmpa.Props.C69_clear_bits",
    "Cmpa.Props.C69_lshift_panics_fails",
    "Cmpa.Props.C69_rshift_panics_fails",
    "Cmpa.Props.C69_lshift_unshifted_fails",
    "Cmpa.Props.C69_lshift_release_fails",
    "Cmpa.Props.C69_div_pow2_partial",
    "Cmpa.Props.C69_mod_pow2_partial",
    "Cmpa.Props.C69_div_pow2_panics_fails",
    "Cmpa.Props.C69_div_lshifted_partial",
    "Cmpa.Props.C69_mod_lshifted_partial",
    "Cmpa.Props.C69_same_partial",
    "Cmpa.Props.C69_div_lshifted_panics_fails",
    "Cmpa.Props.C69_div_lshifted_last_panics_fails",
    "Cmpa.Props.C69_div_lshifted_release_fails",
    "Cmpa.Props.C69_nlimbs_partial",
    "Cmpa.Props.C69_nlimbs_fails"
   ],
   "note": "Fails where arithmetic on lengths overflows (U2): the last nine exponents, shifts whose sum with the length of the dividend overflows or nearly does, buffers whose bits can't be counted in a usize. Proved right for everything else, with the exact bounds."
  },
  {
   "property": "C70",
   "status": "proved",
   "theorems": [
    "Cmpa.Props.C70_release",
    "Cmpa.Props.C70_compare",
    "Cmpa.Props.C70_add_sub",
    "Cmpa.Props.C70_shift",
    "Cmpa.Props.C70_mul",
    "Cmpa.Props.C70_divisor",
    "Cmpa.Props.C70_div",
    "Cmpa.Props.C70_mod",
    "Cmpa.Props.C70_div_pow2",
    "Cmpa.Props.C70_div_lshifted",
    "Cmpa.Props.C70_div_limb",
    "Cmpa.Props.C70_montgomery",
    "Cmpa.Props.C70_exp",
    "Cmpa.Props.C70_gcd",
    "Cmpa.Props.C70_inv_odd",
    "Cmpa.Props.C70_inv_pow2",
    "Cmpa.Props.C70_inv_mod",
    "Cmpa.Props.C70_lcm",
    "Cmpa.Props.C70_prime",
    "Cmpa.Props.C70_hexstr",
    "Cmpa.Props.C70_format_len",
    "Cmpa.Props.C70_search",
    "Cmpa.Props.C70_wheel",
    "Cmpa.Props.C70_format"
   ],
   "note": "The work inside functions on single limbs is not counted (their loops run over a fixed number of bits), nor is that of debug_assert!s which call functions of the crate."
  },
  {
   "property": "C71",
   "status": "partial",
   "theorems": [
    "Cmpa.Props.C71_gcd_partial",
    "Cmpa.Props.C71_gcd_64_partial",
    "Cmpa.Props.C71_gcd_32_partial",
    "Cmpa.Props.C71_gcd_panics_fails",
    "Cmpa.Props.C71_inv_odd_partial",
    "Cmpa.Props.C71_inv_partial",
    "Cmpa.Props.C71_inv_pow2_partial",
    "Cmpa.Props.C71_inv_panics_fails",
    "Cmpa.Props.C71_lcm_bytes_partial",
    "Cmpa.Props.C71_lcm_aligned_partial",
    "Cmpa.Props.C71_lcm_panics_fails",
    "Cmpa.Props.C71_radix2_partial",
    "Cmpa.Props.C71_direct_partial",
    "Cmpa.Props.C71_exp_partial",
    "Cmpa.Props.C71_mg_exp_partial",
    "Cmpa.Props.C71_exp_panics_fails",
    "Cmpa.Props.C71_exp_release_fails",
    "Cmpa.Props.C71_radix2_panics_fails",
    "Cmpa.Props.C71_radix2_release_fails",
    "Cmpa.Props.C71_radix2_wrong_fails",
    "Cmpa.Props.C71_small_factor_partial",
    "Cmpa.Props.C71_miller_rabin_partial",
    "Cmpa.Props.C71_prime_panics_fails",
    "Cmpa.Props.C71_miller_rabin_release_fails",
    "Cmpa.Props.C71_same_partial",
    "Cmpa.Props.C71_same_powers_partial"
   ],
   "note": "Fails where a number of bits or steps overflows (U3). Proved right below that, with explicit bounds on the lengths: for greatest common divisors less than 2^55 - 8 bytes with a usize of 64 bits and up to 10956544 bytes with 32 bits; for inverses, multiples and the test for small factors the same number of steps must fit; for powers and the Miller-Rabin test 16 times the rounded length of the modulus and 8 times that of the exponent must fit. The hypotheses of the theorems for unbounded lengths (C27..C35) are kept. In release builds, the behaviour beyond the bounds is described for powers, the square of the radix and the Miller-Rabin test only."
  },
  {
   "property": "C72",
   "status": "proved",
   "theorems": [
    "Cmpa.Props.C72_debug",
    "Cmpa.Props.C72_add_release",
    "Cmpa.Props.C72_add_modEq",
    "Cmpa.Props.C72_sub_release",
    "Cmpa.Props.C72_sub_modEq",
    "Cmpa.Props.C72_negate_release",
    "Cmpa.Props.C72_negate_modulus",
    "Cmpa.Props.C72_bounds_sharp"
   ],
   "note": ""
  },
  {
   "property": "C73",
   "status": "proved",
   "theorems": [
    "Cmpa.Props.C73_add_cond",
    "Cmpa.Props.C73_add_exact",
    "Cmpa.Props.C73_add_carry",
    "Cmpa.Props.C73_sub_debug",
    "Cmpa.Props.C73_sub_release",
    "Cmpa.Props.C73_sub",
    "Cmpa.Props.C73_limb_debug",
    "Cmpa.Props.C73_add_l_release",
    "Cmpa.Props.C73_sub_l_release"
   ],
   "note": "The property describes what happens, including the carry being too small (C73_add_carry, in older lines of seeded/LOG.jsonl C73_add_fails), and is proved in full as stated."
  },
  {
   "property": "C74",
   "status": "proved",
   "theorems": [
    "Cmpa.Props.C74_copy_debug",
    "Cmpa.Props.C74_copy_cond_debug",
    "Cmpa.Props.C74_copy_release",
    "Cmpa.Props.C74_copy_cond_release",
    "Cmpa.Props.C74_shrink_debug",
    "Cmpa.Props.C74_shrink_release",
    "Cmpa.Props.C74_set_bit_debug",
    "Cmpa.Props.C74_set_bit_release",
    "Cmpa.Props.C74_set_native_debug",
    "Cmpa.Props.C74_set_native_release",
    "Cmpa.Props.C74_swap_debug",
    "Cmpa.Props.C74_swap_release",
    "Cmpa.Props.C74_swap_limbs_release"
   ],
   "note": "Proved as stated. A release build with a bit or number for which whole limbs are missing, or of an exchange with a second operand of fewer limbs, is not described."
  },
  {
   "property": "C75",
   "status": "proved",
   "theorems": [
    "Cmpa.Props.C75_mul_debug",
    "Cmpa.Props.C75_mul_l_debug",
    "Cmpa.Props.C75_square_debug",
    "Cmpa.Props.C75_mul_release",
    "Cmpa.Props.C75_mul_cond_release",
    "Cmpa.Props.C75_mul_l_release",
    "Cmpa.Props.C75_square_release"
   ],
   "note": "Proved as stated. A release build with a declared length of more limbs than the buffer has is not described."
  },
  {
   "property": "C76",
   "status": "proved",
   "theorems": [
    "Cmpa.Props.C76_result",
    "Cmpa.Props.C76_decrypts",
    "Cmpa.Props.C76_signature",
    "Cmpa.Props.C76_hides",
    "Cmpa.Props.C76_constant_time"
   ],
   "note": "No restriction. The random number is an argument; how it is drawn is not modelled."
  },
  {
   "property": "C77",
   "status": "proved",
   "theorems": [
    "Cmpa.Props.C77_key",
    "Cmpa.Props.C77_encrypt",
    "Cmpa.Props.C77_decrypt",
    "Cmpa.Props.C77_round_trip",
    "Cmpa.Props.C77_sum",
    "Cmpa.Props.C77_scale",
    "Cmpa.Props.C77_encrypt_constant_time",
    "Cmpa.Props.C77_decrypt_constant_time"
   ],
   "note": "No restriction. The random number is an argument; how it is drawn is not modelled."
  }
 ]
}