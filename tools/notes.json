{
 "C16": {
  "note": "Two findings: clear_bytes_above_cond with a true condition is wrong (B1), clear_bytes_below of native-endian buffers is wrong beyond the end (B2); both shown by witnesses, everything else proved."
 },
 "C17": {
  "note": "copy_from proved in full; copy_from_cond to a longer destination is wrong (finding B1, witness proved), proved otherwise."
 },
 "C39": {
  "note": "set_to_* and the round trip proved; try_into_* panics on buffers with fewer limbs than the native type (finding B5, witness proved), proved otherwise."
 },
 "C06": {
  "note": "Negation proved in full; addition and subtraction are wrong if the first operand has more limbs than the modulus (findings B3, B4, witnesses proved), proved otherwise."
 },
 "C10": {
  "note": "Finding S1: squaring panics in debug builds exactly for the operands not meeting the predicate Squarable (a product of two limbs with an upper half of 2^(W-1)-1, or of 2^(W-1)-2 together with a carry of B-1 or more), C10_square_panics_fails. Proved correct for all other operands, in particular in buffers of up to two limbs. Release builds return the square less a power of the limb base for each carry lost (C10_square_release_exact), hence the square exactly if SquareKept holds (C10_square_release_iff), in particular for all operands of up to two limbs; the three low limbs are right in any case."
 },
 "C22": {
  "note": "Three findings: CtMpDivisor::new panics exactly for non-empty buffers of zeros without a decrement (D1, C22_divisor_panics_fails), a quotient buffer that has the limbs but not the bytes for the quotient panics (D4, exactly when: C22_div_panics_fails and its companions), division by a limb panics for a quotient buffer with fewer limbs than the dividend (D9). No panics and the right errors proved for all other arguments. In release builds D1 and D9 end the run, too (by an underflow or a panic), but all other divisions by divisors that can be made return the remainder and the low bytes of the quotient (C22_div_release and its companions)."
 },
 "C24": {
  "note": "ct_mod_mp_l proved in full. ct_div_mp_l: two findings: it panics exactly for quotient buffers with fewer limbs than the dividend (C24_quotient_panics_fails; one limb less is tolerated in a big-endian buffer of whole limbs), and every empty dividend leaves the quotient buffer as it is (C24_empty_unchanged_fails), D9. Proved otherwise."
 },
 "C25": {
  "note": "Proved for moduli of two or more limbs, with all errors. Finding M1: every single-limb modulus panics (witness proved). What is returned for every operand and two or more limbs, reduced or not, is stated by C25_redc_exact. C25_redc_release states what release builds return for numbers of n R or more."
 },
 "C26": {
  "note": "Findings, shown by witnesses: a carry is lost for moduli with a top limb of all ones (M4, wrong results), an empty second factor panics (M2), a byte result shorter than the native modulus (M3) and a native result with a byte modulus of unaligned length and a top byte of all ones (M5) panic. Proved otherwise, with all errors. For all arguments, C26_mul_exact states the returned number and which arguments panic, C26_mul_right_iff when the product is right, and C26_lossy_fails that every modulus of three or more limbs with a top limb of ones and a next limb of at least five (P-384, secp256k1, RFC 3526) has operands with a wrong product. In release builds, one factor need not be less than the modulus (C26_mul_release_partial); with two such factors the product may be left unreduced (C26_mul_release_any_partial, C26_mul_release_fails)."
 },
 "C27": {
  "note": "R^2 mod n and the direct conversion proved in full; the conversion by multiplication except for the cases excluded from C26, the way back except for single-limb moduli (C25). C27_form_exact states result and panics for all arguments. C27_form_release_partial: in release builds, also for numbers not less than the modulus."
 },
 "C28": {
  "note": "Proved for moduli of two or more limbs not excluded from C26, and all errors. Findings M1 (single-limb moduli panic) and M4 (wrong result for moduli with a top limb of all ones) shown by witnesses. C28_exp_exact and C28_mg_exp_exact state the result and the panics for all arguments. C28_exp_release_partial: in release builds, also for bases not less than the modulus."
 },
 "C30": {
  "note": "Findings I1 and I2: wrong inverses if the most significant limb of the modulus' buffer is in use (witnesses proved). Proved for moduli leaving that limb zero, and for all others as long as the coefficients of the run fit (FitsRun). The value returned, right or wrong, and the arguments which panic are given exactly (C30_inv_odd_value, C30_inv_odd_panics_fails); refusal of operands that are not coprime and all other errors proved for every odd modulus."
 },
 "C31": {
  "note": "Finding S1 carries over: the function panics exactly if the squaring of an intermediate inverse does (C31_inv_pow2_panics_fails; witness beside). Proved for all other operands, in particular for all operands up to exponents of two limbs. In release builds the inverse is right if SquareKept holds of the intermediate ones, in particular up to maximum exponents of four limbs, or exponents of three limbs with any maximum; otherwise it may be wrong (C31_inv_pow2_release_fails)."
 },
 "C32": {
  "note": "Findings I1 (wrong inverse) and S1 (panic) carry over, both shown by witnesses. The arguments which panic are given exactly (C32_inv_panics_fails). Proved for moduli whose odd part leaves the top limb zero, or for which the coefficients fit, and operands not meeting S1, the latter always being the case in buffers of up to two limbs. All errors of the argument checks are proved without conditions; the modulus is proved unchanged in all cases. In release builds S1 does no harm unless a power of two of more than three limbs divides the modulus (C32_inv_release_run_partial; beyond that a wrong inverse, C32_inv_release_fails)."
 },
 "C33": {
  "note": "Proved for all operands of equal buffer length if the second one is stored as bytes, and for limb buffers if the declared lengths add up to a multiple of the limb size and the result has room for rounding up. The exact arguments which panic (findings L1 and L2) are given by C33_lcm_panics_fails; for all others result or error are proved. Release builds: right for all compatible lengths if the second operand is stored as bytes (C33_lcm_release_bytes), and for limbs given room and a first operand no shorter than the second one is declared; a wrong multiple otherwise (C33_lcm_release_fails)."
 },
 "C34": {
  "note": "Finding P1: because of M4 a prime can be reported composite (witness: 2^64-83 with 32 bit limbs, primality proved); because of M5, and for a short radix buffer or the candidate one, the test panics (witnesses). Proved for all odd candidates above one in the domain of the Montgomery multiplication and all bases: the answer is exactly the strong probable prime criterion, and no prime is rejected. All error returns proved. C34_exact states the answer and the panics for all arguments; C34_one_panics_fails: the candidate one always panics in a debug build."
 },
 "C35": {
  "note": "No restriction: every length and value, including zero and empty numbers; the 9 built-in constants are proved equal to the products of the odd primes up to 7, 13, 29, 53, 101, 193, 379, 739, 1471."
 },
 "C36": {
  "note": "No restriction: every lower bound, every number of increments. The wheel's own primes (up to 23 or 47) are by design not among the candidates, neither is one."
 },
 "C20": {
  "note": "No restriction: every string of bytes (UTF-8 or not) and every result length. The allocation in bytes_to_hexstr is taken to succeed."
 },
 "C41": {
  "note": "No restriction. Writing to the formatter is taken to succeed."
 },
 "C37": {
  "note": "Equal events proved for all modelled ct_ functions, for runs which do not panic or return errors. Shifts by secret distances, gcd, lcm, general inverses and the start of the wheel: equal up to the numbers of the limbs read, and equal in full if the power of two in question is the same; witnesses show that more does not hold (findings T1, T2). The deltas produced by the wheel: equal shape if equal numbers of numbers are passed over before each candidate (C37_wheel_partial), which the branches reveal (C37_wheel_fails). Not covered: hexadecimal conversions."
 },
 "C38": {
  "note": "Absence of panics (debug builds) proved for every operation, over all arguments where there are no documented conditions; comparisons, shifts, bit operations, copies, sums, products, greatest common divisors, the small factor test, the wheel and hexadecimal conversion in full. Functions with known panics (squaring S1, division D1 D4 D9, Montgomery M1-M3 M5, inverses I2, least common multiples L1 L2, Miller-Rabin P1, try_into B5, clear_bytes_below B2) except for those, each of which has a witness."
 },
 "C40": {
  "note": "Bytes outside the limb, bit, part or segment worked on keep their contents, for any operation on a part of a buffer; lengths kept by all arithmetic (the theorems of the other properties state lengths along with the values). The modulus of ct_inv_mod_mp_mp is restored whenever the function returns (C40_inv_modulus)."
 },
 "C42": {
  "note": "Against a semantics of the nine instructions used; the assembler and rustc's handling of the operand constraints are trusted."
 },
 "C43": {
  "note": "On big-endian machines the view is neither byte format for more than one limb (C43_view_big gives the exact relation)."
 },
 "C44": {
  "note": "Rabin's theorem is proved in Proofs/Rabin.lean. Missing, as for C34: candidates outside the domain of the Montgomery multiplication."
 },
 "C45": {
  "note": "Missing, inherited from C28, C30, C32: moduli of a single limb or with a top limb of ones, operands meeting the defect of the squaring, inverses modulo numbers using the top limb of their buffer."
 },
 "C46": {
  "note": "Addition, subtraction, negation, multiplication and division in full; the others within the domains of C06, C25, C26, C32, C33."
 },
 "C47": {
  "status": "partial",
  "note": "Two runs of one operation, with limb sizes c and c' and any formats, agree in lengths and values. Where the platform shows is stated by the _fails theorems: the limb shifted out (C47_shift_fails), single limb moduli (C47_exp_fails), underscores in formatted numbers (C47_format_fails), the range of the small factor test (C47_small_factor_fails). Partial theorems carry the restrictions of C06, C28, C30, C33."
 },
 "C48": {
  "note": "Equal results, equal errors or a panic in both runs, for any two contents of result and scratch buffers; wrong results (M4, I2) and panics included. One finding, D9: dividing an empty dividend by a limb leaves the former contents of the quotient buffer (C48_div_limb_fails); C48_div_limb_partial excludes it."
 },
 "C49": {
  "status": "partial",
  "note": "The builds agree wherever the debug build does not panic (C49_agree, C49_constant_time, and the theorems per operation). Missing: the arguments for which the debug build panics (C38); the _fails theorems show that the builds differ there, with the release build right in some and wrong in other cases."
 },
 "C50": {
  "note": "For all lengths of which the number of division steps fits in a usize (exactly, C50_nbatches_iff: 49 * (8 * len + 2) + 57 < 2^usize::BITS) the program with bounded usize is the same as the one with unbounded counters (C50_same_partial), so that all other theorems apply to it; complete for 64 bits. Missing: longer operands with 32 bits, where the property is false (finding U1, _fails). Public function spelled out: ct_gcd_odd_mp_mp; the other users of the common part are covered by C50_same_partial."
 },
 "C52": {
  "note": "Proved for all programs and all moduli in the domain of C26 and C28 (ExpModulus: odd, at least two limbs, the highest limb not all ones, alignment). Missing: the other odd moduli, for which the property is false (findings M1, M4, M5; C52_carry_fails)."
 },
 "C53": {
  "note": "Proved for searches whose result is in the domain of C34. Missing: candidates outside of it, where the property is false (finding M4; C53_prime_skipped_fails)."
 },
 "C54": {
  "note": "Proved for primes in the domain of C28 (ExpModulus). Missing: primes of a single limb or with a top limb of all ones, for which the property is false (findings M1, M4; C54_decrypt_fails: with 32 bit limbs and p = 2^64-83 the message p-1 is decrypted to another number)."
 },
 "C56": {
  "note": "Proved for numbers in buffers which are not empty, and for reading in full. Missing: writing the number zero held by an empty buffer, for which the property is false (finding D9; C56_empty_fails)."
 },
 "C57": {
  "note": "Proved for p in the domain of C28 (ExpModulus) and q leaving the top limb of its buffer zero (C30). Missing: q filling its buffer, for which the property is false (findings I1, I2; C57_sign_verify_fails: with 32 bit limbs and q = 65519 in one limb a signature is made that doesn't verify), and p outside of ExpModulus (M1, M4)."
 },
 "C58": {
  "note": "For all inputs: the buffers are allocated with a limb to spare, so that the moduli are in the domain of the exponentiation (C28)."
 },
 "C59": {
  "status": "proved",
  "note": "No restriction: the programs copy operand and modulus of an inversion to buffers with a limb to spare (C65). C59_tight_fails shows that this is needed (finding I1): with 32 bit limbs and p = 65519 in one limb, the sum of two points isn't on the curve without it."
 },
 "C60": {
  "note": "No restriction, for the programs built on those of C59."
 },
 "C61": {
  "note": "No restriction beyond the stated ones: sharing for all moduli, secrecy for all primes, reconstruction for all odd primes (inverses with a limb to spare, C65)."
 },
 "C62": {
  "note": "For all odd primes (powers with a limb to spare, C65)."
 },
 "C63": {
  "note": "For all odd primes (inverses with a limb to spare, C65)."
 },
 "C64": {
  "note": "For all odd moduli (inverses with a limb to spare, C65)."
 },
 "C65": {
  "note": "No restriction: all odd moduli. The inversion modulo even numbers and the squaring are not among the operations (finding S1 is not avoided by a longer buffer)."
 },
 "C66": {
  "note": "No restriction. Compare C45, where the obvious program (least common multiple, inverse modulo an even number, no limb to spare) is proved only outside of findings."
 },
 "C67": {
  "note": "No restriction. Compare C45 and C57, the same protocols without a limb to spare."
 },
 "C68": {
  "note": "No restriction: the theorems have no hypotheses about the operands."
 },
 "C69": {
  "note": "Fails where arithmetic on lengths overflows (U2): the last nine exponents, shifts whose sum with the length of the dividend overflows or nearly does, buffers whose bits can't be counted in a usize. Proved right for everything else, with the exact bounds."
 },
 "C70": {
  "note": "The work inside functions on single limbs is not counted (their loops run over a fixed number of bits), nor is that of debug_assert!s which call functions of the crate."
 },
 "C71": {
  "note": "Fails where a number of bits or steps overflows (U3). Proved right below that, with explicit bounds on the lengths: for greatest common divisors less than 2^55 - 8 bytes with a usize of 64 bits and up to 10956544 bytes with 32 bits; for inverses, multiples and the test for small factors the same number of steps must fit; for powers and the Miller-Rabin test 16 times the rounded length of the modulus and 8 times that of the exponent must fit. The hypotheses of the theorems for unbounded lengths (C27..C35) are kept. In release builds, the behaviour beyond the bounds is described for powers, the square of the radix and the Miller-Rabin test only."
 },
 "C73": {
  "note": "The property describes what happens, including the carry being too small (C73_add_carry, in older lines of seeded/LOG.jsonl C73_add_fails), and is proved in full as stated."
 },
 "C74": {
  "note": "Proved as stated. A release build with a bit or number for which whole limbs are missing, or of an exchange with a second operand of fewer limbs, is not described."
 },
 "C75": {
  "note": "Proved as stated. A release build with a declared length of more limbs than the buffer has is not described."
 },
 "C76": {
  "note": "No restriction. The random number is an argument; how it is drawn is not modelled."
 },
 "C77": {
  "note": "No restriction. The random number is an argument; how it is drawn is not modelled."
 }
}