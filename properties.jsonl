{"id": "C01", "title": "Comparison of multiprecision integers", "statement": "ct_eq/neq/leq/lt/geq/gt_mp_mp return true exactly when the integers represented by the two operands are in that relation, whatever the two storage formats and lengths (operands of different length, with leading zero bytes, or empty included); ct_is_zero_mp, ct_is_one_mp and ct_leq_mp_l likewise.", "quantifier": "all pairs of operand values, all lengths, both limb sizes, every combination of big-endian, little-endian and native storage", "why_tests_cant": "the pairs of values and lengths are unbounded; unequal lengths and partial high limbs interact with the borrow chain", "anchors": ["src/cmp_impl.rs: ct_eq_mp_mp, ct_neq_mp_mp, ct_leq_mp_mp, ct_lt_mp_mp, ct_geq_mp_mp, ct_gt_mp_mp, ct_is_zero_mp, ct_is_one_mp, ct_leq_mp_l"]}
{"id": "C02", "title": "Addition with carry out", "statement": "After ct_add_mp_mp(op0, op1) the old value of op0 plus op1 equals the new value of op0 plus carry * 256^len(op0), carry being 0 or 1; op0 keeps its length. ct_add_mp_l has the same contract for a single limb.", "quantifier": "all values, all lengths with the second operand having no more limbs than the first and fitting its length, all formats, both limb sizes", "why_tests_cant": "carry chains are arbitrarily long and the partial high limb makes the carry position depend on the byte length", "anchors": ["src/add_impl.rs: ct_add_mp_mp, ct_add_cond_mp_mp, ct_add_mp_l"]}
{"id": "C03", "title": "Subtraction with borrow out", "statement": "After ct_sub_mp_mp(op0, op1) the old value of op0 plus borrow * 256^len(op0) equals the new value of op0 plus op1, borrow being 0 or 1. ct_sub_mp_l has the same contract for a single limb.", "quantifier": "all values, all lengths with the second operand having no more limbs than the first and fitting its length, all formats, both limb sizes", "why_tests_cant": "borrow chains are arbitrarily long and the partial high limb makes the borrow position depend on the byte length", "anchors": ["src/add_impl.rs: ct_sub_mp_mp, ct_sub_cond_mp_mp, ct_sub_mp_l"]}
{"id": "C04", "title": "Conditional operations are all-or-nothing", "statement": "ct_add_cond_mp_mp, ct_sub_cond_mp_mp, ct_negate_cond_mp and ct_mul_trunc_cond_mp_mp perform exactly the unconditional operation when the condition is true and leave the destination value unchanged (with zero carry; for the multiplication: the low op0_in_len bytes of it, everything above cleared) when it is false; ct_swap_cond_mp exchanges the two values or leaves both.", "quantifier": "all operand values, lengths, formats and both condition values", "why_tests_cant": "a masking error shows up only for particular bit patterns of operand and condition", "anchors": ["src/add_impl.rs: ct_add_cond_mp_mp, ct_sub_cond_mp_mp, ct_negate_cond_mp", "src/mul_impl.rs: ct_mul_trunc_cond_mp_mp", "src/limbs_buffer.rs: ct_swap_cond_mp"]}
{"id": "C05", "title": "Negation is two's complement", "statement": "After ct_negate_mp(op0) the new value is (256^len - old) mod 256^len, and negating twice restores the original value.", "quantifier": "all values, lengths and formats", "why_tests_cant": "the carry ripples through any number of limbs", "anchors": ["src/add_impl.rs: ct_negate_mp, ct_negate_cond_mp"]}
{"id": "C06", "title": "Modular addition, subtraction and negation stay reduced", "statement": "For operands below the modulus n, ct_add_mod_mp_mp, ct_sub_mod_mp_mp and ct_negate_mod_mp leave op0 holding the representative in [0, n) of the sum, difference or negation modulo n.", "quantifier": "all moduli, all operands below the modulus, all lengths accepted by the functions' own checks", "why_tests_cant": "needs a joint argument on overflow beyond the high limb and on the comparison with n; the interesting sums lie in a narrow band around n and 256^len", "anchors": ["src/add_impl.rs: ct_add_mod_mp_mp, ct_sub_mod_mp_mp, ct_negate_mod_mp"]}
{"id": "C07", "title": "Left shift", "statement": "After ct_lshift_mp(op0, d) the value is (old * 2^d) mod 2^(8 len), and the returned limb holds the low LIMB_BITS bits of what was shifted out above the top, i.e. (old * 2^d / 2^(8 len)) mod 2^LIMB_BITS.", "quantifier": "all values, all distances (including zero, multiples of the limb width and distances beyond the length), all lengths and formats", "why_tests_cant": "the shift is done by a rotating constant-time loop whose index arithmetic depends on distance, limb count and partial limb jointly", "anchors": ["src/shift_impl.rs: ct_lshift_mp"]}
{"id": "C08", "title": "Right shift", "statement": "After ct_rshift_mp(op0, d) the value is floor(old / 2^d), and the returned limb holds the last LIMB_BITS bits shifted out.", "quantifier": "all values, all distances, all lengths and formats", "why_tests_cant": "same joint dependence on distance, limb count and partial limb", "anchors": ["src/shift_impl.rs: ct_rshift_mp"]}
{"id": "C09", "title": "Multiplication", "statement": "ct_mul_trunc_mp_mp(op0, op0_in_len, op1) replaces op0 by (low op0_in_len bytes of op0) * op1 modulo 256^len(op0); in particular the exact product when the buffer is long enough. ct_mul_trunc_mp_l likewise for a single-limb factor.", "quantifier": "all values, lengths, input lengths op0_in_len and formats", "why_tests_cant": "schoolbook multiplication in place: aliasing of input and output limbs and partial high limbs must never corrupt a value still to be read", "anchors": ["src/mul_impl.rs: ct_mul_trunc_mp_mp, ct_mul_trunc_cond_mp_mp, ct_mul_trunc_mp_l"]}
{"id": "C10", "title": "Squaring equals multiplying by itself", "statement": "ct_square_trunc_mp(op0, op0_in_len) replaces op0 by the square of its low op0_in_len bytes modulo 256^len(op0).", "quantifier": "all values, lengths, input lengths and formats", "why_tests_cant": "the doubled off-diagonal products create two-limb carries which are hit only by extreme operands", "anchors": ["src/mul_impl.rs: ct_square_trunc_mp"]}
{"id": "C11", "title": "Limb arithmetic with carries is exact", "statement": "The single-limb helpers for addition, subtraction, multiplication, fused multiply-add and fused multiply-subtract return high/low (or carry/borrow) parts which represent the exact integer result.", "quantifier": "all limb values of both limb sizes, all incoming carries and borrows", "why_tests_cant": "2^128 and more input combinations per helper", "anchors": ["src/limb/mod.rs: ct_add_l_l, ct_add_l_l_c, ct_sub_l_l, ct_sub_l_l_b, ct_mul_l_l, ct_mul_add_l_l_l_c, ct_mul_sub_l_l_l_b"]}
{"id": "C12", "title": "Limb comparisons and choices", "statement": "ct_eq/neq/lt/leq/gt/geq_l_l, ct_is_zero/nonzero_l, LimbChoice::select and the usize comparison helpers return the mathematically expected Boolean or selected value.", "quantifier": "all limb values / all usize values", "why_tests_cant": "branch-free bit tricks which can fail on isolated values such as the minimum or maximum limb", "anchors": ["src/limb/mod.rs: LimbChoice, ct_is_nonzero_l, ct_eq_l_l, ct_lt_l_l, ct_lt_or_eq_l_l", "src/usize_ct_cmp.rs: ct_eq_usize_usize, ct_lt_usize_usize"]}
{"id": "C13", "title": "Double-limb division by a limb", "statement": "Dividing a double limb by a non-zero limb with CtLDivisor yields the exact quotient (two limbs) and remainder, and so does the variable-time divisor.", "quantifier": "all double-limb dividends and all non-zero limb divisors, both limb sizes", "why_tests_cant": "2^192 inputs; the multiply-by-reciprocal method is off by one exactly at quotient boundaries", "anchors": ["src/limb/mod.rs: CtLDivisor, CtLDivisor::do_div, GenericNonCtLDivisor"]}
{"id": "C14", "title": "Limb inverse and bit scanning", "statement": "ct_inv_mod_l(v) is the inverse of odd v modulo 2^LIMB_BITS; ct_find_last_set_bit_l / ct_find_first_set_bit_l / ct_find_last_set_byte_l return the position claimed; ct_lsb_mask_l(k) is 2^k-1; ct_arithmetic_rshift_l divides the signed value rounding down.", "quantifier": "all limb values, all bit counts 0..LIMB_BITS", "why_tests_cant": "2^64 inputs and fixed-round loops", "anchors": ["src/limb/mod.rs: ct_inv_mod_l, ct_find_last_set_bit_l, ct_find_first_set_bit_l, ct_find_last_set_byte_l, ct_lsb_mask_l, ct_arithmetic_rshift_l, ct_negate_l"]}
{"id": "C15", "title": "Storage formats all denote the same integers", "statement": "For big-endian bytes, little-endian bytes and native limbs: reading limb i yields digit i, base 2^LIMB_BITS, of the integer the buffer denotes; writing limb i changes that digit only; shrinking and splitting a buffer at a length keeps the low digits in the low part.", "quantifier": "all buffer contents and lengths (including lengths which are no multiple of the limb size), all limb indices", "why_tests_cant": "quantifies over every buffer length and content; the partial high limb is a special case in each format", "anchors": ["src/limbs_buffer.rs: MpUIntCommon::load_l, MpMutUInt::store_l, load_l_full, store_l_full, take, shrink_to, partial_high_mask"]}
{"id": "C16", "title": "Clearing bytes and bits", "statement": "clear_bytes_above(k) reduces the value modulo 256^k, clear_bytes_below(k) clears the low k bytes, ct_clear_bits_above_mp / clear_bits_above_mp reduce modulo 2^k and ct_clear_bits_below_mp / clear_bits_below_mp clear the low k bits; clear_bytes_above_cond(k, c) clears exactly when c is true.", "quantifier": "all buffer contents, lengths, positions (also beyond the end) and formats", "why_tests_cant": "position, partial limb and length interact", "anchors": ["src/limbs_buffer.rs: clear_bytes_above, clear_bytes_below, clear_bytes_above_cond, ct_clear_bits_above_mp, clear_bits_above_mp, ct_clear_bits_below_mp, clear_bits_below_mp"]}
{"id": "C17", "title": "Copying between buffers preserves the integer", "statement": "dst.copy_from(src) makes dst denote src's integer whenever it fits, across formats and lengths; dst.copy_from_cond(src, c) does so when c is true and leaves dst alone otherwise.", "quantifier": "all source and destination lengths, contents and format combinations", "why_tests_cant": "every combination of longer/shorter/partial source and destination is a different path", "anchors": ["src/limbs_buffer.rs: copy_from, copy_from_cond"]}
{"id": "C18", "title": "Bit access and bit/byte length", "statement": "test_bit(i) is bit i of the integer, set_bit_to(i, b) changes that bit only; ct_find_last_set_bit_mp, ct_find_first_set_bit_mp and find_last_set_byte_mp return the bit length, the number of trailing zero bits, and the byte length.", "quantifier": "all buffer contents, lengths, positions, formats", "why_tests_cant": "depends on every limb of an unbounded buffer", "anchors": ["src/limbs_buffer.rs: test_bit, set_bit_to, ct_find_last_set_bit_mp, ct_find_first_set_bit_mp, find_last_set_byte_mp"]}
{"id": "C19", "title": "Multi-segment buffer behaves as the concatenation", "statement": "A composite of several buffers used as one long integer reads and writes limbs exactly as a contiguous buffer holding the concatenated value, also when segment lengths are not multiples of the limb size. An index beyond the last limb panics. A value that does not fit into the bytes of the last limb panics in a debug build, wherever these bytes are; a release build stores its least significant bytes and changes nothing else.", "quantifier": "all segment lengths, contents, limb indices and values, debug and release builds", "why_tests_cant": "limbs straddling one or more segment boundaries", "anchors": ["src/limbs_buffer.rs: CompositeLimbsBuffer"]}
{"id": "C20", "title": "Hexadecimal conversion round-trips", "statement": "bytes_to_hexstr followed by bytes_from_hexstr gives the bytes back; parsing accepts exactly strings of hex digits of allowed length and yields the big-endian bytes of the denoted number, rejecting everything else.", "quantifier": "all byte strings, all input strings", "why_tests_cant": "unbounded strings, arbitrary characters", "anchors": ["src/hexstr.rs: bytes_from_hexstr, bytes_to_hexstr, be_bytes_from_hexstr"]}
{"id": "C21", "title": "Long division is Euclidean division", "statement": "ct_div_mp_mp(u, v, q) with v non-zero leaves q = floor(u / v) and u = u mod v, for any dividend split into a low and an optional high part; ct_mod_mp_mp gives the same remainder.", "quantifier": "all dividends and non-zero divisors, all lengths and formats, the quotient buffer being large enough", "why_tests_cant": "Knuth's algorithm D quotient estimation needs its rare correction steps only with probability about 2^-64", "anchors": ["src/div_impl.rs: ct_div_mp_mp, ct_mod_mp_mp, CtMpDivisor"]}
{"id": "C22", "title": "Division reports unusable arguments instead of panicking", "statement": "Division and reduction functions return DivisorIsZero for a divisor denoting zero and an insufficient-space error when the quotient does not fit, and never panic.", "quantifier": "all dividends, divisors (any length, also all-zero), and quotient buffer lengths", "why_tests_cant": "every combination of lengths must be handled; tests choose sensible sizes", "anchors": ["src/div_impl.rs: CtMpDivisor::new, ct_div_mp_mp, ct_div_mp_l"]}
{"id": "C23", "title": "Reduction of powers of two and of shifted values", "statement": "ct_div_pow2_mp / ct_mod_pow2_mp compute quotient and remainder of 2^k by v, and ct_div_lshifted_mp_mp / ct_mod_lshifted_mp_mp those of u * 256^s by v, using only a window the size of v.", "quantifier": "all exponents k, shift lengths s, dividends, non-zero divisors", "why_tests_cant": "the number of window slides is unbounded, and each depends on quotient estimation", "anchors": ["src/div_impl.rs: ct_div_pow2_mp, ct_mod_pow2_mp, ct_div_lshifted_mp_mp, ct_mod_lshifted_mp_mp"]}
{"id": "C24", "title": "Division by a single limb", "statement": "ct_div_mp_l(u, v, q) returns u mod v and leaves floor(u / v) in q; ct_mod_mp_l returns u mod v.", "quantifier": "all dividends of any length and all non-zero limbs", "why_tests_cant": "unbounded dividend; every intermediate step divides a double limb", "anchors": ["src/div_impl.rs: ct_div_mp_l, ct_mod_mp_l"]}
{"id": "C25", "title": "Montgomery reduction", "statement": "With n odd, R = 2^(LIMB_BITS * limbs(n)) and t < n R, ct_montgomery_redc_mp leaves t * R^-1 mod n, fully reduced.", "quantifier": "all odd moduli, all t below n R, all lengths and formats", "why_tests_cant": "carries out of the top limb occur with probability about 2^-64", "anchors": ["src/montgomery_impl.rs: ct_montgomery_redc_mp, CtMontgomeryRedcKernel"]}
{"id": "C26", "title": "Montgomery multiplication", "statement": "With n odd and a, b < n, ct_montgomery_mul_mod_mp_mp leaves a * b * R^-1 mod n, fully reduced.", "quantifier": "all odd moduli, all operands below n, all lengths and formats", "why_tests_cant": "the double carry out of the top limb occurs for a vanishing fraction of operands", "anchors": ["src/montgomery_impl.rs: ct_montgomery_mul_mod_mp_mp"]}
{"id": "C27", "title": "Conversion to Montgomery form", "statement": "ct_montgomery_radix2_mod_n_mp gives R^2 mod n; ct_to_montgomery_form_mp and ct_to_montgomery_form_direct_mp both give a * R mod n; reduction brings back a.", "quantifier": "all odd moduli and operands below n", "why_tests_cant": "as for multiplication and division", "anchors": ["src/montgomery_impl.rs: ct_to_montgomery_form_mp, ct_to_montgomery_form_direct_mp, ct_montgomery_radix2_mod_n_mp"]}
{"id": "C28", "title": "Modular exponentiation", "statement": "ct_exp_mod_odd_mp_mp(result, base, n, e) leaves base^e mod n in result, for every odd n and base < n.", "quantifier": "all odd moduli, bases, exponents and exponent bit limits, all lengths and formats", "why_tests_cant": "unbounded exponent; composition of thousands of multiplications", "anchors": ["src/montgomery_impl.rs: ct_exp_mod_odd_mp_mp, ct_montogmery_exp_mod_odd_mp_mp"]}
{"id": "C29", "title": "Greatest common divisor", "statement": "ct_gcd_mp_mp and ct_gcd_odd_mp_mp leave the greatest common divisor of the operands in op0 (with gcd(a, 0) = gcd(0, a) = a for a != 0, and the documented result 1 for two zero operands) and zero in op1; unusable operands are reported as errors.", "quantifier": "all operand pairs of any (compatible) length", "why_tests_cant": "the number of division steps is fixed from the length alone, so correctness depends on a convergence bound for all inputs", "anchors": ["src/euclid_impl.rs: ct_gcd_mp_mp, ct_gcd_odd_mp_mp, batch_divsteps, nbatches"]}
{"id": "C30", "title": "Inverse modulo an odd number", "statement": "ct_inv_mod_odd_mp_mp leaves the inverse of op0 modulo n, reduced, when gcd(op0, n) = 1 and reports that the operands are not coprime otherwise.", "quantifier": "all odd n and all op0", "why_tests_cant": "as for the gcd, plus sign and range handling of the cofactors", "anchors": ["src/euclid_impl.rs: ct_inv_mod_odd_mp_mp, TransitionMatrix"]}
{"id": "C31", "title": "Inverse modulo a power of two", "statement": "ct_inv_mod_pow2_mp(result, op0, e) leaves x with x * op0 = 1 mod 2^e and x < 2^e, for op0 odd.", "quantifier": "all odd op0, all exponents e within the buffer", "why_tests_cant": "number of lifting rounds depends on e", "anchors": ["src/invmod_impl.rs: ct_inv_mod_pow2_mp"]}
{"id": "C32", "title": "Inverse modulo any number", "statement": "ct_inv_mod_mp_mp leaves the inverse of op0 modulo n for every n > 1 coprime to op0 and reports an error otherwise; n is unchanged afterwards.", "quantifier": "all moduli (odd, even, powers of two) and operands", "why_tests_cant": "the even and odd parts are inverted separately and recombined", "anchors": ["src/invmod_impl.rs: ct_inv_mod_mp_mp"]}
{"id": "C33", "title": "Least common multiple", "statement": "ct_lcm_mp_mp leaves the least common multiple of the operands in the result.", "quantifier": "all operand pairs and declared operand lengths, all formats", "why_tests_cant": "composition of product, gcd, constant-time scaling and division", "anchors": ["src/lcm_impl.rs: ct_lcm_mp_mp"]}
{"id": "C34", "title": "Miller-Rabin never rejects a prime", "statement": "ct_prime_test_miller_rabin_mp with p an odd prime and any base not divisible by p answers 'probably prime'; in general it answers exactly according to the strong probable prime criterion.", "quantifier": "all odd p > 1 and all bases below p", "why_tests_cant": "unbounded p; a false reject for one prime would go unnoticed", "anchors": ["src/prime_impl.rs: ct_prime_test_miller_rabin_mp"]}
{"id": "C35", "title": "Small-factor test", "statement": "ct_composite_test_small_prime_gcd_mp answers 'composite' exactly for numbers which are even or share a factor with the product of small odd primes fitting the length; the built-in products are the products of consecutive odd primes.", "quantifier": "all p of all lengths", "why_tests_cant": "depends on gcd for every p and on 256-byte constants", "anchors": ["src/prime_impl.rs: ct_composite_test_small_prime_gcd_mp, SMALL_ODD_PRIME_PRODUCT_8..2048"]}
{"id": "C36", "title": "Prime wheel enumerates every candidate exactly once", "statement": "Starting at a lower bound, the increments produced by PrimeWheelSieve lead, in ascending order, through exactly the integers from the bound (and from two) on which are not divisible by any wheel prime, so no prime other than the wheel's own is ever skipped, and every such prime is reached. No increment is larger than 510.", "quantifier": "all lower bounds (any length) and every number of steps", "why_tests_cant": "the wheel period has about 10^17 elements; every history of calls counts", "anchors": ["src/prime_impl.rs: PrimeWheelSieve, PrimeWheelSieveLvl0, PrimeWheelSieveLvl1, ct_find_first_ge_than"]}
{"id": "C37", "title": "Execution trace does not depend on secret values", "statement": "The sequence of branches taken and limb positions accessed by the ct_ functions depends on the operand lengths (and declared public arguments) only, never on operand values, conditions or shift distances.", "quantifier": "all pairs of runs with equal lengths and arbitrary values", "why_tests_cant": "a relation between all pairs of executions; sampling timings cannot establish it", "anchors": ["src/cmp_impl.rs", "src/add_impl.rs", "src/mul_impl.rs", "src/shift_impl.rs", "src/limbs_buffer.rs"]}
{"id": "C38", "title": "No panics inside the documented domain", "statement": "For arguments meeting the documented conditions no function indexes out of bounds, overflows or underflows an arithmetic operation, or hits an assertion (debug assertions included).", "quantifier": "all values and lengths within the documented conditions", "why_tests_cant": "a panic may need one particular length and carry pattern", "anchors": ["src/*.rs"]}
{"id": "C39", "title": "Integer conversions of buffers", "statement": "set_to_u8/u16/u32/u64/usize/l followed by try_into_* returns the same number; try_into_* returns the denoted integer if it fits the native type and an error otherwise.", "quantifier": "all buffer contents and lengths, all native values", "why_tests_cant": "all lengths below, at and above the native size in each format", "anchors": ["src/limbs_buffer.rs: set_to_native, try_into_native macros"]}
{"id": "C40", "title": "Operations never touch anything but the declared output", "statement": "Buffer lengths never change, and bytes of a longer buffer outside the sub-range an operation works on keep their contents.", "quantifier": "all lengths, contents and operations", "why_tests_cant": "frame conditions for every position of unbounded buffers", "anchors": ["src/limbs_buffer.rs: shrink_to, take", "src/invmod_impl.rs: ct_inv_mod_mp_mp"]}
{"id": "C41", "title": "Formatting shows the number", "statement": "Formatting a multiprecision integer with {:x} prints two lower case hex digits for each byte of its buffer, most significant first, with an underscore before every limb but the most significant one (and 0x in front for {:#x}; (empty) for empty buffers); different numbers in buffers of the same length print differently.", "quantifier": "all buffers of every format, length and value", "why_tests_cant": "unbounded lengths and values, three storage formats, two limb widths", "anchors": ["src/limbs_buffer.rs: MpUIntCommon::fmt_lower_hex, impl fmt::LowerHex"]}
{"id": "C42", "title": "Assembly and portable limb primitives agree", "statement": "With the enable_arch_math_asm feature on x86_64, the inline assembly versions of the limb zero tests, addition with carry, subtraction with borrow, multiplication and division return the same values as the portable versions, whatever the registers held before and whichever registers the compiler picks; the division performed never faults.", "quantifier": "all limb values, all initial register and flag contents, all register allocations allowed by the operand constraints", "why_tests_cant": "2^128 operand pairs; register allocation and prior register contents vary with the surrounding code", "anchors": ["src/limb/x86_64_math.rs: ct_is_nonzero_l, ct_is_zero_l, ct_add_l_l, ct_sub_l_l, ct_mul_l_l, NonCtLDivisor", "src/limb/mod.rs: CtLDivisor::nonct_compute_m"]}
{"id": "C43", "title": "Byte views of limb storage", "statement": "limb_slice_as_bytes(_mut) show the whole memory of the limbs and nothing else; bytes written through the mutable view are read back unchanged; on little-endian machines the view is the little-endian byte representation of the number held by the limbs. nlimbs_for_len gives the least number of limbs with room for the bytes.", "quantifier": "all limb slices, all byte contents, both machine byte orders", "why_tests_cant": "all slice lengths and contents; tests run on one byte order only", "anchors": ["src/limbs_buffer.rs: limb_slice_as_bytes, limb_slice_as_bytes_mut, nlimbs_for_len"]}
{"id": "C44", "title": "Miller-Rabin rejects composites for most bases", "statement": "For an odd composite candidate p, ct_prime_test_miller_rabin_mp answers 'composite' for all but at most (p - 1)/4 of the bases below p; k independent choices of the base all miss with at most ((p - 1)/4)^k of the p^k choices. An odd candidate is prime exactly if the test accepts it for every nonzero base below it.", "quantifier": "all odd composite candidates including Carmichael numbers and prime powers, all bases, any number of rounds, all buffer formats and lengths", "why_tests_cant": "the worst case composites and bases are not known in advance; the bound is over all of them", "anchors": ["src/prime_impl.rs: ct_prime_test_miller_rabin_mp"]}
{"id": "C45", "title": "Public-key schemes built on the library work", "statement": "RSA: with n = p*q for different primes and exponents e, d inverse modulo lcm(p-1, q-1), exponentiating any message below n by e and then by d gives the message back, also for messages not coprime to n; the private exponent computed with the library's subtraction, lcm and inverse functions is such a d. Diffie-Hellman: exponentiating by a then b gives the same number as by b then a. Modulo a prime, the inverse by extended Euclid and by Fermat exponentiation agree.", "quantifier": "all primes, exponents, messages, buffer formats and lengths, prior contents of result and scratch buffers", "why_tests_cant": "key and message spaces are astronomically large; correctness depends on the composition of several operations whose preconditions have to fit", "anchors": ["src/montgomery_impl.rs: ct_exp_mod_odd_mp_mp", "src/lcm_impl.rs: ct_lcm_mp_mp", "src/invmod_impl.rs: ct_inv_mod_mp_mp", "src/euclid_impl.rs: ct_inv_mod_odd_mp_mp"]}
{"id": "C46", "title": "Operations undo and confirm each other", "statement": "Subtracting what was added (and vice versa, also modularly) restores the buffer byte for byte with equal carry and borrow; subtraction equals addition of the two's complement; quotient times divisor plus remainder is the dividend, and dividing a product by one factor gives the other with remainder zero; gcd times lcm is the product of the operands; Montgomery form converts back; modular multiplication through Montgomery forms equals multiplication followed by division; inverting twice restores the operand.", "quantifier": "all operand values, lengths and formats within the documented domains", "why_tests_cant": "all value combinations, across different operations", "anchors": ["src/add_impl.rs", "src/mul_impl.rs", "src/div_impl.rs", "src/montgomery_impl.rs", "src/lcm_impl.rs", "src/euclid_impl.rs", "src/invmod_impl.rs"]}
{"id": "C47", "title": "Results do not depend on the limb size or on the storage formats", "statement": "Whether the library is built with 32 or 64 bit limbs, and whatever the formats of the buffers, operands of equal lengths and values give results of equal lengths and values: comparisons, addition, subtraction, negation, multiplication, shifts, copying, bit queries, division, gcd, lcm, modular addition, subtraction, exponentiation and inversion, hexadecimal digits.", "quantifier": "all pairs of platforms, all combinations of formats, all operand lengths and values in the domains of the operations", "why_tests_cant": "a test run covers a single platform, and finitely many lengths and values", "anchors": ["src/limb/mod.rs: LimbType, LIMB_BITS", "src/limbs_buffer.rs: MpUInt, MpMutUInt", "src/add_impl.rs", "src/mul_impl.rs", "src/div_impl.rs", "src/montgomery_impl.rs", "src/euclid_impl.rs", "src/lcm_impl.rs", "src/shift_impl.rs", "src/prime_impl.rs"]}
{"id": "C48", "title": "Former contents of result and scratch buffers do not matter", "statement": "Two calls with the same operands, and with result and scratch buffers of the same lengths but of any contents, give byte for byte the same results, or report the same error.", "quantifier": "all operands in the domains of the operations, all pairs of contents of result and scratch buffers", "why_tests_cant": "tests use a few contents, mostly zeros; dependence on stale data shows for particular contents only", "anchors": ["src/limbs_buffer.rs: copy_from, set_to_u8, set_to_u64", "src/mul_impl.rs: ct_mul_trunc_mp_mp", "src/div_impl.rs: ct_div_mp_mp", "src/montgomery_impl.rs: ct_exp_mod_odd_mp_mp, ct_montgomery_mul_mod_mp_mp", "src/invmod_impl.rs: ct_inv_mod_odd_mp_mp, ct_inv_mod_mp_mp, ct_inv_mod_pow2_mp", "src/lcm_impl.rs: ct_lcm_mp_mp", "src/prime_impl.rs: ct_composite_test_small_prime_gcd_mp, ct_prime_test_miller_rabin_mp"]}
{"id": "C49", "title": "Debug and release builds agree", "statement": "Built without debug assertions and without overflow checks, an operation returns the same result as a debug build, after the same branches and the same accesses of limbs; so what is right in a debug build is right in a release build: comparison, addition, subtraction, shifts, multiplication, squaring, division, gcd, lcm, Montgomery arithmetic, exponentiation, inversion, primality tests.", "quantifier": "all operand lengths, values and formats", "why_tests_cant": "tests run in one kind of build, on finitely many operands; wrapped arithmetic shows for particular operands only", "anchors": ["src/mul_impl.rs: ct_square_trunc_mp", "src/montgomery_impl.rs: ct_montgomery_mul_mod_mp_mp", "src/div_impl.rs: ct_div_mp_mp", "src/lcm_impl.rs: ct_lcm_mp_mp", "src/prime_impl.rs: ct_prime_test_miller_rabin_mp", "src/limbs_buffer.rs: try_into_u64"]}
{"id": "C50", "title": "Greatest common divisors of long operands: step counts fit in usize", "statement": "The result of a greatest common divisor does not depend on the size of usize: the number of division steps computed from the operand lengths, and the counter which the steps keep, do not overflow, so that the result is right for operands of any length that can exist in memory.", "quantifier": "all operand lengths and values, usize of 32 and of 64 bits, debug and release builds", "why_tests_cant": "overflow shows for operands of many megabytes only, on platforms the tests do not run on", "anchors": ["src/euclid_impl.rs: nbatches, batch_divsteps, ct_gcd_ext_odd_mp_mp, ct_gcd_odd_mp_mp", "src/limb/mod.rs: LimbChoice::select_usize"]}
{"id": "C51", "title": "Programs in fixed width arithmetic compute what they say", "statement": "A program composed of additions, subtractions, multiplications, negations, shifts, copies, comparisons, bit tests and their conditional variants, on any number of buffers of one length and in any mixture of formats, with loops and with branches on comparison results, never panics and computes exactly the same program in arithmetic modulo a power of 256; unless it branches on a comparison result, its branches and memory accesses depend on the length of the buffers only; its results depend neither on the limb size nor on the formats.", "quantifier": "all programs, of any length and nesting, all numbers of buffers, all lengths, formats and values", "why_tests_cant": "there are infinitely many programs; a test shows single calls or fixed sequences of them, not that the postcondition of each call always establishes the precondition of the next", "anchors": ["src/add_impl.rs: ct_add_mp_mp, ct_add_cond_mp_mp, ct_add_mp_l", "src/add_impl.rs: ct_sub_mp_mp, ct_sub_cond_mp_mp", "src/mul_impl.rs: ct_mul_trunc_mp_mp", "src/shift_impl.rs: ct_lshift_mp, ct_rshift_mp", "src/cmp_impl.rs: ct_lt_mp_mp, ct_is_zero_mp", "src/limbs_buffer.rs: copy_from, copy_from_cond, ct_swap_cond_mp, test_bit"]}
{"id": "C52", "title": "Programs in modular arithmetic compute what they say", "statement": "A program composed of modular additions, subtractions and negations, Montgomery multiplications, conditional copies and swaps, comparisons and tests of the bits of a secret scalar, between conversion of its inputs to Montgomery form and back, computes exactly the same program in the ring of integers modulo n, whatever the buffers held before; unless it branches on a comparison result, its branches and memory accesses depend on neither the inputs, nor the scalar, nor the value of the modulus.", "quantifier": "all programs, all odd moduli, all inputs below the modulus, all scalars, formats and former buffer contents", "why_tests_cant": "there are infinitely many programs; the representation invariant (reduced, in Montgomery form, of the right length) must be preserved by every operation for all values", "anchors": ["src/montgomery_impl.rs: ct_to_montgomery_form_mp, ct_montgomery_mul_mod_mp_mp, ct_montgomery_redc_mp, ct_montgomery_radix2_mod_n_mp, ct_montgomery_neg_n0_inv_mod_l_mp", "src/add_impl.rs: ct_add_mod_mp_mp", "src/add_impl.rs: ct_sub_mod_mp_mp", "src/limbs_buffer.rs: copy_from_cond, ct_swap_cond_mp, test_bit"]}
{"id": "C53", "title": "A search for primes finds the least number which passes", "statement": "A search which draws candidates from the wheel, adds the increments to a lower bound, and tests each candidate for small factors and then with a list of Miller-Rabin bases returns the least number, at or above the lower bound, without a factor among the small primes and which is a strong probable prime to all bases; so that no prime is skipped. It succeeds, with a number at most twice the lower bound, if twice the lower bound fits into the buffer and the bases don't exceed the lower bound.", "quantifier": "all lower bounds, lengths and formats, all lists of bases, all numbers of tries", "why_tests_cant": "a skipped prime shows only if one knows all primes in the range; that the three functions fit together must hold for every lower bound", "anchors": ["src/prime_impl.rs: PrimeWheelSieve::start_geq_than, produce_next_delta, ct_composite_test_small_prime_gcd_mp, ct_prime_test_miller_rabin_mp", "src/add_impl.rs: ct_add_mp_l", "src/montgomery_impl.rs: ct_to_montgomery_form_direct_mp"]}
{"id": "C54", "title": "RSA decryption by the Chinese remainder theorem is right", "statement": "The RSA private operation put together from library calls the usual way (reduction of the ciphertext modulo either prime, one modular exponentiation per prime, a modular subtraction, a product reduced modulo the prime, a product and a sum: Garner's formula) yields the number below p*q which is c^dp modulo p and c^dq modulo q. For primes p and q it undoes encryption with the public exponent for every message, coprime to the modulus or not, and finds the same number as a single exponentiation modulo the product. It leaves the same trace of branches and accesses for all keys and messages of the same lengths.", "quantifier": "all primes (two distinct odd numbers for the first statement), exponents, messages, buffer formats, limb sizes, and former contents of all result and scratch buffers", "why_tests_cant": "The operation chains a dozen library calls; an intermediate value violating the preconditions of the next call, or one wrong carry for rare primes, shows for a vanishing fraction of keys and messages only.", "anchors": ["src/montgomery_impl.rs: ct_exp_mod_odd_mp_mp", "src/div_impl.rs: CtMpDivisor::new, ct_mod_mp_mp", "src/add_impl.rs: ct_sub_mod_mp_mp, ct_add_mp_mp", "src/mul_impl.rs: ct_mul_trunc_mp_mp", "src/limbs_buffer.rs: copy_from"]}
{"id": "C55", "title": "Formatting copes with failing writers and allocations", "statement": "Formatting a number as hexadecimal text passes to the writer, in order, consecutive non-empty pieces of one text determined by the number alone, stops at the first piece for which the writer reports an error, and returns an error exactly then; it never panics. With a buffer of bounded size as the writer it succeeds if and only if the text (two characters per byte, one between limbs, two for the prefix) fits, and leaves an initial part of the text otherwise. Formatting bytes as a string asks for memory once, for exactly the length of the result, never enlarges the string afterwards, and returns an error if and only if there is no memory.", "quantifier": "all buffers, formats, limb sizes, both format flags, all writers (arbitrary states and arbitrary patterns of failures), all outcomes of the allocation", "why_tests_cant": "The writer may fail at any of the calls, and behave arbitrarily; tests cover a few points of failure for a few numbers.", "anchors": ["src/limbs_buffer.rs: fmt_lower_hex", "src/hexstr.rs: bytes_to_hexstr"]}
{"id": "C56", "title": "Numerals of any base can be written and read with the limb operations", "statement": "The program which divides a number by a base again and again, copying the quotient back, yields the digits of the number to that base, each below the base, from which the number is obtained again; the program which multiplies by the base and adds digits yields the number with these digits, modulo 256 to the length of the buffer. Reading what was written gives the same number. The digits don't depend on limb size or format, and the events of both programs depend on lengths and the number of digits only.", "quantifier": "all buffers, formats, limb sizes, all bases from 1 up to the largest limb, all numbers of digits, all former contents of the buffer for quotients", "why_tests_cant": "Every step reuses the buffers of the one before, for unboundedly many steps; an error in any quotient spoils all further digits, and there are too many numbers, bases and lengths to try.", "anchors": ["src/div_impl.rs: ct_div_mp_l, CtLDivisor::new", "src/mul_impl.rs: ct_mul_trunc_mp_l", "src/add_impl.rs: ct_add_mp_l", "src/limbs_buffer.rs: copy_from, clear_bytes_above"]}
{"id": "C57", "title": "DSA signatures made with the crate's operations verify, and only valid ones do", "statement": "The program which signs a hash, with an exponentiation modulo p, an inverse modulo q, products, divisions and a modular addition, yields the pair (r, s) with r = (g^k mod p) mod q and k s = m + x r modulo q. The program which verifies returns true for exactly those pairs (r, s) which are in range and satisfy the verification equation. Signatures made with a private key verify with its public key, unless r or s is zero. The events of signing don't depend on the private key, the nonce or the hash.", "quantifier": "all moduli p and primes q, generators, keys, nonces and hashes, all candidate signatures, all lengths, formats and limb sizes, all former contents of the working buffers", "why_tests_cant": "A wrong inverse for one nonce in millions gives a signature that doesn't verify, or leaks the key; the numbers of keys, nonces and forged signatures are beyond any sampling, and rejection of all invalid signatures is a statement about all of them.", "anchors": ["src/montgomery_impl.rs: ct_exp_mod_odd_mp_mp", "src/euclid_impl.rs: ct_inv_mod_odd_mp_mp", "src/div_impl.rs: ct_mod_mp_mp", "src/mul_impl.rs: ct_mul_trunc_mp_mp", "src/add_impl.rs: ct_add_mod_mp_mp", "src/cmp_impl.rs: ct_eq_mp_mp, ct_geq_mp_mp, ct_is_zero_mp"]}
{"id": "C58", "title": "Numbers proved prime with the crate's operations are prime", "statement": "The program which forms r q + 1 for a prime q and an even r less than q, and checks Pocklington's criterion for a base a with two modular exponentiations, a division, a greatest common divisor and comparisons, returns r q + 1 if and only if the criterion is met. So it never returns a composite number, nor does a chain of any number of such steps, and a prime is returned for every base except those which are divisible by it or whose power a^r is one; there is a suitable base for every prime of this form. No input makes it panic, and the events of successful runs depend on the lengths of the buffers and on the number of bytes of the prime only.", "quantifier": "all numbers q, r and bases a, all chains, all lengths and limb sizes", "why_tests_cant": "A proof of primality is worth something only if it cannot be wrong for any number; composite numbers accepted because of one wrong power or greatest common divisor are not found by sampling.", "anchors": ["src/montgomery_impl.rs: ct_exp_mod_odd_mp_mp", "src/euclid_impl.rs: ct_gcd_odd_mp_mp", "src/div_impl.rs: ct_mod_mp_mp", "src/mul_impl.rs: ct_mul_trunc_mp_mp", "src/add_impl.rs: ct_add_mp_l, ct_sub_mp_l", "src/cmp_impl.rs: ct_lt_mp_mp, ct_is_one_mp"]}
{"id": "C59", "title": "Elliptic curve points added and multiplied with the crate's operations are those of the group", "statement": "The programs which add two points of y\u00b2 = x\u00b3 + A x + D modulo a prime, in affine coordinates, and which multiply a point by a number bit by bit, with modular additions and subtractions, products, divisions, inverses and comparisons, return the coordinates of the sum and of the multiple in the group of points of the curve, for all points: equal, opposite, and at infinity. The two parties of a key exchange find the same point. Whether coordinates are on the curve is decided correctly. The events of an addition depend on the case it is in only. Inverses are computed with a limb to spare (C65).", "quantifier": "all odd primes, all curves, all pairs of points, all multipliers, all lengths and limb sizes", "why_tests_cant": "The group law has exceptional cases which random points never reach and attackers do; a wrong coordinate for one pair of points in 2^64 can reveal a private key.", "anchors": ["src/add_impl.rs: ct_add_mod_mp_mp, ct_sub_mod_mp_mp", "src/mul_impl.rs: ct_mul_trunc_mp_mp", "src/div_impl.rs: ct_mod_mp_mp", "src/euclid_impl.rs: ct_inv_mod_odd_mp_mp", "src/cmp_impl.rs: ct_eq_mp_mp, ct_is_zero_mp", "src/limbs_buffer.rs: test_bit"]}
{"id": "C60", "title": "ECDSA signatures made with the crate's operations verify, and only valid ones do", "statement": "The program which signs a hash returns the pair (r, s) with r the abscissa of k G modulo n and k s = m + d r modulo n. The program which verifies returns true for exactly those pairs which are in range and for which the abscissa of m/s G + r/s Y is r modulo n. Signatures made with a private key verify with its public key, unless r or s is zero. Inverses are computed with a limb to spare (C65).", "quantifier": "all odd primes p and n, all curves, generators of an order dividing n, keys, nonces and hashes, all candidate signatures, all lengths and limb sizes", "why_tests_cant": "Rejection of all invalid signatures and acceptance of all valid ones are statements about numbers of keys, nonces and hashes beyond any sampling.", "anchors": ["src/add_impl.rs: ct_add_mod_mp_mp, ct_sub_mod_mp_mp", "src/mul_impl.rs: ct_mul_trunc_mp_mp", "src/div_impl.rs: ct_mod_mp_mp", "src/euclid_impl.rs: ct_inv_mod_odd_mp_mp", "src/cmp_impl.rs: ct_eq_mp_mp, ct_geq_mp_mp, ct_is_zero_mp", "src/limbs_buffer.rs: test_bit"]}
{"id": "C61", "title": "Secrets shared with the crate's modular arithmetic are recovered by enough shares and hidden from fewer", "statement": "A share computed with the modular operations is the value of the polynomial with the given coefficients modulo the prime. The program that interpolates returns the secret, the constant coefficient, for any shares with distinct abscissas that are more than the degree of the polynomial. For fewer shares than coefficients, with abscissas other than zero, every secret is compatible with them, and for one less in exactly one way. Neither program reveals the secret, the coefficients or the shares by its control flow and memory accesses. Inverses are computed with a limb to spare (C65).", "quantifier": "all odd primes p, all lists of coefficients and of abscissas of any length, all secrets, all lengths and limb sizes", "why_tests_cant": "The number of shares and coefficients is unbounded, and secrecy is a statement about all secrets.", "anchors": ["src/add_impl.rs: ct_add_mod_mp_mp, ct_sub_mod_mp_mp", "src/mul_impl.rs: ct_mul_trunc_mp_mp", "src/div_impl.rs: ct_mod_mp_mp", "src/euclid_impl.rs: ct_inv_mod_odd_mp_mp", "src/cmp_impl.rs: ct_eq_mp_mp"]}
{"id": "C62", "title": "Quadratic residues and square roots computed with the modular exponentiation are right", "statement": "The program that raises a number to the power (p-1)/2 tells squares from other numbers modulo the prime p. For primes that leave the remainder 3 when divided by 4 the program that raises a number to the power (p+1)/4 and checks the result returns a square root if there is one and nothing otherwise; for all odd primes the program of Tonelli and Shanks does, given a number that isn't a square, and the search finds the least such number. The programs built on them find a point of an elliptic curve for exactly the abscissas of points. The test and the computation of the root by the second program don't reveal by their control flow and memory accesses anything about the number, not even whether it is a square. Powers are computed with a limb to spare (C65).", "quantifier": "all odd primes, all numbers less than the prime, all curves and abscissas, all lengths and limb sizes", "why_tests_cant": "That no root is found only if there is none is a statement about all numbers less than the prime.", "anchors": ["src/shift_impl.rs: ct_rshift_mp", "src/add_impl.rs: ct_add_mp_l", "src/montgomery_impl.rs: ct_exp_mod_odd_mp_mp", "src/mul_impl.rs: ct_mul_trunc_mp_mp", "src/div_impl.rs: ct_mod_mp_mp", "src/cmp_impl.rs: ct_eq_mp_mp, ct_is_zero_mp, ct_is_one_mp", "src/limbs_buffer.rs: copy_from_cond, ct_find_first_set_bit_mp", "src/add_impl.rs: ct_sub_mp_l"]}
{"id": "C63", "title": "Many inverses from a single inversion", "statement": "The program that multiplies the elements of a list, inverts the product and works backwards returns the inverse of every element, and reveals by its control flow and memory accesses only the number of elements. Inverses are computed with a limb to spare (C65).", "quantifier": "all odd primes, all lists of nonzero elements of any length, all lengths and limb sizes", "why_tests_cant": "The number of elements is unbounded.", "anchors": ["src/mul_impl.rs: ct_mul_trunc_mp_mp", "src/div_impl.rs: ct_mod_mp_mp", "src/euclid_impl.rs: ct_inv_mod_odd_mp_mp"]}
{"id": "C64", "title": "Numbers are recovered from their residues modulo any number of moduli", "statement": "The program that combines residues one after the other (Garner's method) returns the only number that is less than the product of the moduli and has the given residues. It doesn't reveal the residues by its control flow and memory accesses. Inverses are computed with a limb to spare (C65).", "quantifier": "all lists of any length of odd pairwise coprime moduli greater than one, all residues, all lengths and limb sizes", "why_tests_cant": "The number of moduli and the size of the numbers, which grow in the loop, are unbounded.", "anchors": ["src/add_impl.rs: ct_add_mod_mp_mp, ct_sub_mod_mp_mp", "src/mul_impl.rs: ct_mul_trunc_mp_mp", "src/div_impl.rs: ct_mod_mp_mp", "src/euclid_impl.rs: ct_inv_mod_odd_mp_mp", "src/add_impl.rs: ct_add_mp_mp"]}
{"id": "C65", "title": "With a limb to spare, powers, inverses and primality tests are right for all odd moduli", "statement": "A user who copies modulus and operands to buffers longer by one limb before calling the crate gets the right power for every base less than the modulus and every exponent, the right inverse for exactly the numbers coprime to the modulus, and no panic. The test of Miller and Rabin then accepts exactly the strong probable primes: no odd prime is rejected, and at most a quarter of the bases accept a composite number. The search for primes finds the least number that passes, and always finds one if twice the lower bound fits; with enough bases it finds the next prime. Powers and inverses reveal neither base nor exponent by control flow and memory accesses.", "quantifier": "all odd moduli (inverses: greater than one) of any length, all operands, exponents, bases and lower bounds, all limb sizes", "why_tests_cant": "The crate is wrong for rare moduli that fill their buffers; that the additional limb removes every one of these cases is a statement about all moduli.", "anchors": ["src/montgomery_impl.rs: ct_exp_mod_odd_mp_mp, ct_to_montgomery_form_direct_mp", "src/euclid_impl.rs: ct_inv_mod_odd_mp_mp", "src/prime_impl.rs: ct_prime_test_miller_rabin_mp, ct_composite_test_small_prime_gcd_mp", "src/limbs_buffer.rs: copy_from"]}
{"id": "C66", "title": "RSA is right for all keys, from the primes to the decrypted message", "statement": "A user's program that multiplies the primes, finds the private exponent from the inverse of (p-1)(q-1) modulo the public exponent (a subtraction, a product, an increment and a division), encrypts and decrypts, all with library calls and a limb to spare for inverses and powers, finds a key if and only if the public exponent is coprime to (p-1)(q-1); the modulus is the product of the primes and the private exponent the inverse of the public one; decryption yields every message again, coprime to the modulus or not; exactly one number below the modulus is accepted as signature of a message. Making the key reveals nothing about the primes by control flow and memory accesses but the lengths of the buffers.", "quantifier": "all pairs of distinct primes (odd ones for encryption), all odd public exponents greater than one, all messages and signatures below the modulus, all lengths and limb sizes", "why_tests_cant": "The findings of this verification are rare operands of the least common multiple, the inverse modulo an even number, and powers for which the obvious program goes wrong. That this program meets none of them is a statement about all primes.", "anchors": ["src/mul_impl.rs: ct_mul_trunc_mp_mp", "src/div_impl.rs: ct_div_mp_mp, ct_mod_mp_mp, CtMpDivisor", "src/euclid_impl.rs: ct_inv_mod_odd_mp_mp", "src/montgomery_impl.rs: ct_exp_mod_odd_mp_mp", "src/add_impl.rs: ct_sub_mp_l, ct_sub_mp_mp, ct_add_mp_l", "src/cmp_impl.rs: ct_eq_mp_mp"]}
{"id": "C67", "title": "Diffie-Hellman, ElGamal, DSA and Schnorr are right for all groups", "statement": "Programs made of the library's powers, inverses (both with a limb to spare), modular products, sums and differences, and comparisons are right: both parties of a Diffie-Hellman exchange find the same number; ElGamal decryption yields the message; DSA signing returns the specified numbers, verification accepts exactly the valid signatures, and made signatures are accepted; Schnorr's verification accepts exactly the answers that meet its equation, the holder of the key can answer all challenges, and the key is found from the answers to any two challenges for the same commitment. Signing, decrypting and answering reveal neither keys nor nonces by control flow and memory accesses.", "quantifier": "all odd moduli p (odd primes for ElGamal, primes for the extraction), all odd primes q, all generators, keys, nonces, messages, signatures and challenges, all lengths and limb sizes", "why_tests_cant": "Rare operands and moduli go wrong without the additional limb; validity, soundness and secrecy quantify over all signatures, transcripts and keys.", "anchors": ["src/montgomery_impl.rs: ct_exp_mod_odd_mp_mp", "src/euclid_impl.rs: ct_inv_mod_odd_mp_mp", "src/add_impl.rs: ct_add_mod_mp_mp, ct_sub_mod_mp_mp", "src/mul_impl.rs: ct_mul_trunc_mp_mp", "src/div_impl.rs: ct_mod_mp_mp", "src/cmp_impl.rs: ct_eq_mp_mp, ct_geq_mp_mp, ct_is_zero_mp"]}
{"id": "C68", "title": "Arithmetic of natural numbers without exceptions can be built from the operations", "statement": "Short programs that look at the operands, provide enough space and then call the library compute sums, differences, products, quotients, remainders, greatest common divisors, least common multiples, modular powers and modular inverses (for even and odd moduli) right for all operands, zero and empty buffers included, without a panic: the result is absent exactly for negative differences, division by zero and missing inverses. So every expression made of these operations is evaluated to its mathematical value, in debug and release builds, with the same value for every limb size and all buffer lengths. With the hexadecimal conversions around it, a calculator from text to text refuses exactly the inputs that aren't hexadecimal and otherwise writes the right value.", "quantifier": "all operands in byte buffers of all lengths (no other condition), all expressions of all sizes, all limb sizes, both kinds of builds", "why_tests_cant": "Every finding of this verification is about rare operands; that none is left for these programs is a statement about all operands and all expressions.", "anchors": ["src/add_impl.rs: ct_add_mp_mp, ct_sub_mp_mp", "src/mul_impl.rs: ct_mul_trunc_mp_mp", "src/div_impl.rs: ct_div_mp_mp, ct_mod_mp_mp, CtMpDivisor", "src/euclid_impl.rs: ct_gcd_mp_mp, ct_inv_mod_odd_mp_mp", "src/montgomery_impl.rs: ct_exp_mod_odd_mp_mp", "src/limbs_buffer.rs: copy_from, test_bit", "src/cmp_impl.rs: ct_lt_mp_mp, ct_is_zero_mp, ct_is_one_mp", "src/hexstr.rs: be_bytes_from_hexstr, bytes_to_hexstr"]}
{"id": "C69", "title": "Every shift distance, exponent and length that a usize can hold is handled", "statement": "The functions which take a distance, an exponent or a length as a number - left and right shifts, clearing bits above or below a position, the quotient and remainder of a power of two or of a dividend shifted by whole bytes, the number of limbs for a number of bytes - return the mathematically right result for every value of that number up to the end of the range of usize, without a panic.", "quantifier": "all distances, exponents and lengths in the range of a usize of 32 or 64 bits, all buffers, all limb sizes, debug and release builds", "why_tests_cant": "The values at which the arithmetic on lengths wraps around are at the end of a range of 2^64 numbers, or need buffers of half a gigabyte on 32-bit platforms.", "anchors": ["src/shift_impl.rs: ct_lshift_mp, ct_rshift_mp", "src/limbs_buffer.rs: ct_clear_bits_above_mp, ct_clear_bits_below_mp, ct_mp_nlimbs, nlimbs_for_len", "src/div_impl.rs: ct_div_pow2_mp, ct_mod_pow2_mp, ct_div_lshifted_mp_mp, ct_mod_lshifted_mp_mp", "src/usize_ct_cmp.rs"]}
{"id": "C70", "title": "The work is bounded by a polynomial in the lengths of the operands", "statement": "No operand makes a function run long: the number of branches, loop iterations and limbs read or written is at most linear in the number of limbs for comparisons, sums, differences, negatives, shifts, the search for bits and the preparation of a divisor, quadratic for products, squares, quotients, remainders, Montgomery products, greatest common divisors, least common multiples and inverses modulo odd numbers, quadratic per bit of the exponent for modular powers and per bit of the candidate for the Miller-Rabin test, and a logarithmic number of quadratic steps for inverses modulo powers of two and modulo general numbers. Starting the prime candidate wheel, formatting, and the conversions of strings of hexadecimal digits from and to bytes are linear, and the next candidate is found in a bounded number of steps; so a search for primes takes a number of steps cubic in the length for each candidate and base.", "quantifier": "all operands, divisors, moduli, exponents, shift distances and scratch buffers in buffers of all lengths and formats, valid or not, all limb sizes; runs that panic up to the panic", "why_tests_cant": "A slow operand may be one among astronomically many, and a measured time says nothing about longer operands; the bound holds for all lengths.", "anchors": ["src/cmp_impl.rs", "src/add_impl.rs", "src/shift_impl.rs", "src/mul_impl.rs: ct_mul_trunc_mp_mp, ct_square_trunc_mp", "src/div_impl.rs: ct_div_mp_mp, ct_div_pow2_mp, ct_div_lshifted_mp_mp, ct_div_mp_l, CtMpDivisor::new", "src/montgomery_impl.rs: ct_montgomery_mul_mod_mp_mp, ct_exp_mod_odd_mp_mp", "src/euclid_impl.rs: ct_gcd_mp_mp, ct_inv_mod_odd_mp_mp", "src/invmod_impl.rs: ct_inv_mod_pow2_mp, ct_inv_mod_mp_mp", "src/lcm_impl.rs: ct_lcm_mp_mp", "src/prime_impl.rs: ct_composite_test_small_prime_gcd_mp, ct_prime_test_miller_rabin_mp, PrimeWheelSieve", "src/limbs_buffer.rs: fmt_lower_hex", "src/hexstr.rs: be_bytes_from_hexstr, bytes_to_hexstr"]}
{"id": "C71", "title": "Operands of every length that fits into memory are handled by gcds, inverses, multiples, powers and primality tests", "statement": "Greatest common divisors, inverses modulo odd numbers, powers of two and general numbers, least common multiples, the square of the Montgomery radix and the direct conversion to Montgomery form, modular powers, the test for small factors and the Miller-Rabin test return the mathematically right result for operands of every length that a usize can hold: the lengths, numbers of bits and numbers of steps they compute from the lengths of their operands never leave the range of usize.", "quantifier": "all operands, moduli, exponents and candidates in buffers of all lengths and formats, all limb sizes, a usize of 32 or 64 bits, debug and release builds", "why_tests_cant": "The first lengths for which a number of bits or steps overflows are far beyond those of any test: ten megabytes to half a gigabyte on 32-bit platforms, where the operations take days.", "anchors": ["src/euclid_impl.rs: ct_gcd_mp_mp, ct_inv_mod_odd_mp_mp", "src/invmod_impl.rs: ct_inv_mod_pow2_mp, ct_inv_mod_mp_mp", "src/lcm_impl.rs: ct_lcm_mp_mp", "src/montgomery_impl.rs: ct_montgomery_radix_shift_len, ct_montgomery_radix2_mod_n_mp, ct_to_montgomery_form_direct_mp, ct_montogmery_exp_mod_odd_mp_mp, ct_exp_mod_odd_mp_mp", "src/prime_impl.rs: ct_composite_test_small_prime_gcd_mp, ct_prime_test_miller_rabin_mp", "src/limbs_buffer.rs: ct_find_first_set_bit_mp, ct_find_last_set_bit_mp"]}
{"id": "C72", "title": "Modular addition, subtraction and negation of operands that are not reduced", "statement": "If an operand of ct_add_mod_mp_mp, ct_sub_mod_mp_mp or ct_negate_mod_mp isn't less than the modulus, a debug build panics and a release build does not. The release build adds or subtracts the modulus at most once, so its result is congruent to the sum, difference or negation modulo n if the sum exceeds n by less than the buffer of the first operand holds, if the subtrahend exceeds the minuend by at most n, or if the operand of the negation is at most n; and it is reduced if one addition or subtraction of n is enough.", "quantifier": "all operands, reduced or not, all moduli of as many limbs as the first operand (of any compatible length for negation), all formats, release and debug builds", "why_tests_cant": "the tests run with debug assertions enabled only, and the operands in question are the ones on which they panic; the bounds are sharp and lie near 256^len", "anchors": ["src/add_impl.rs: ct_add_mod_mp_mp, ct_sub_mod_mp_mp, ct_negate_mod_mp"]}
{"id": "C73", "title": "Addition and subtraction of an operand that does not fit", "statement": "ct_add_mp_mp and ct_sub_mp_mp accept a second operand that is longer than the first one as long as it has no more limbs. The sum is then left truncated to the length of the first operand, without a panic; the returned carry is everything that was truncated (not just 0 or 1) if the sum fits into the limbs of the first operand, and is 1, too small to account for the rest, if it does not. The difference is left modulo 256^length and the borrow says whether the second operand is greater; a debug build panics exactly if the length is not a multiple of the limb size and the second operand exceeds the first one by more than half of what the limbs hold, a release build never. ct_add_mp_l and ct_sub_mp_l panic in debug builds exactly if the limb does not fit into the first operand, and behave likewise in release builds.", "quantifier": "all values of both operands, all lengths with the second operand having no more limbs than the first, all formats, both limb sizes, debug and release builds", "why_tests_cant": "the cases differ by where the sum or difference lies relative to two bounds, one of the bytes and one of the limbs, for every length", "anchors": ["src/add_impl.rs: ct_add_cond_mp_mp, ct_sub_cond_mp_mp, ct_add_mp_mp, ct_sub_mp_mp, ct_add_mp_l, ct_sub_mp_l"]}
{"id": "C74", "title": "Copies, bits and numbers that do not fit", "statement": "copy_from, copy_from_cond and shrink_to panic in a debug build exactly if the value to be kept does not fit into the destination's bytes, a conditional copy even if its condition is false. A release build never panics: copy_from leaves the value modulo 256^length in the destination, copy_from_cond does so or leaves the destination unchanged, and shrink_to drops the most significant bytes. set_bit_to panics in a debug build exactly if the buffer has no limb for the bit, or if a one is to be stored in the last limb above the last byte; a release build ignores the latter. set_to_u8, set_to_u16, set_to_u32 and set_to_u64 panic in a debug build exactly if the buffer is shorter than the type, whatever the value; a release build stores the value modulo 256^length if the buffer has as many limbs as the type. ct_swap_cond_mp panics in a debug build exactly if the numbers of limbs differ, or if the condition holds and one of the values does not fit into the other one's buffer; in the latter case a release build exchanges what there is room for. If the second operand has more limbs, a release build leaves those above the first operand's number of limbs.", "quantifier": "all source and destination lengths, values and formats, both limb sizes, debug and release builds", "why_tests_cant": "where the copy is cut depends on both lengths and on the formats", "anchors": ["src/limbs_buffer.rs: MpMutUInt::copy_from, MpMutUInt::copy_from_cond, shrink_to, set_bit_to, set_to_u8, set_to_u64, ct_swap_cond_mp"]}
{"id": "C75", "title": "Products with a declared length beyond the first operand's buffer", "statement": "The multiplication functions panic in a debug build if the declared length of the first operand exceeds its buffer, and the ones other than squaring for no other arguments. In a release build, a declared length which exceeds the buffer, but does not need more limbs than it has, is as good as the buffer's length: the product with another number, a limb or itself is left truncated to the buffer.", "quantifier": "all values, lengths and formats of both operands, all declared lengths (in release builds those with no more limbs than the buffer), both limb sizes; for squares the operands for which squaring is right (C10)", "why_tests_cant": "the declared length is a separate argument, whose rounding to limbs depends on the format and the limb size", "anchors": ["src/mul_impl.rs: ct_mul_trunc_cond_mp_mp, ct_mul_trunc_mp_mp, ct_square_trunc_mp, ct_mul_trunc_mp_l"]}
{"id": "C76", "title": "RSA with blinding", "statement": "A user's program that multiplies the number to be decrypted or signed with the power of a random number with the public exponent, takes the power with the private exponent and multiplies with the inverse of the random number, all with library calls and a limb to spare for inverses and powers, returns no result exactly if the random number isn't coprime to the modulus, and otherwise what one gets without blinding; so ciphertexts decrypt to the message, and signatures are accepted. Blinding hides the number: from each number coprime to the modulus, each blinded number is reached by exactly one random number. Neither the private exponent nor the random number nor the number to be decrypted is revealed by control flow and memory accesses.", "quantifier": "all products of two distinct odd primes, all pairs of exponents inverse to each other modulo (p-1)(q-1), all random numbers and all numbers below the modulus, all lengths and limb sizes", "why_tests_cant": "That the blinding cancels depends on rare operands of the inverse and the power; hiding and secrecy are statements about all random numbers.", "anchors": ["src/montgomery_impl.rs: ct_exp_mod_odd_mp_mp", "src/euclid_impl.rs: ct_inv_mod_odd_mp_mp", "src/mul_impl.rs: ct_mul_trunc_mp_mp", "src/div_impl.rs: ct_mod_mp_mp, CtMpDivisor"]}
{"id": "C77", "title": "Paillier's encryption", "statement": "A user's program for Paillier's encryption, made of the library's products, powers and inverses (with a limb to spare), division, increment and decrement, finds a key if and only if the product n of the primes is coprime to (p-1)(q-1); encryption of m with the random number r yields (1 + n m) r^n modulo n^2; decryption yields the message again. The product of two ciphertexts modulo n^2 decrypts to the sum of the messages modulo n, a power to the product of message and exponent. Encryption reveals neither message nor random number, decryption neither ciphertext nor message, by control flow and memory accesses.", "quantifier": "all pairs of distinct odd primes, all messages below n, all random numbers below n and coprime to it, all exponents, all products and powers of ciphertexts, all lengths and limb sizes", "why_tests_cant": "The exact division in the decryption and the homomorphic laws hold for all messages and random numbers or not at all; rare operands of powers and inverses go wrong without the additional limb.", "anchors": ["src/montgomery_impl.rs: ct_exp_mod_odd_mp_mp", "src/euclid_impl.rs: ct_inv_mod_odd_mp_mp", "src/mul_impl.rs: ct_mul_trunc_mp_mp", "src/div_impl.rs: ct_mod_mp_mp, CtMpDivisor", "src/div_impl.rs: ct_div_mp_mp", "src/add_impl.rs: ct_add_mp_l, ct_sub_mp_l", "src/limbs_buffer.rs: MpMutUInt::copy_from"]}
