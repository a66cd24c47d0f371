# Formal model of cmpa-rs: design

`/repo` is the Rust crate `cmpa` (constant-time multiprecision arithmetic).  The
model and the proofs are in `lean/Verif`.  `properties.jsonl` lists the
properties C01..; `MANIFEST.json` maps each to its theorems.

## 1. How the code is modelled

* **Limbs.**  `LimbType` is `u64` on x86_64 and `u32` elsewhere.  A class
  `LimbCfg` carries `LIMB_BYTES`, which is 4 or 8; everything is proved for both.
  A limb is a `Nat` below `B = 2^LIMB_BITS`; wrapping operations reduce modulo
  `B`, bit operations are `Nat`'s.  Bit tricks are modelled as written.
* **Panics, assertions, leakage.**  Model code lives in a monad `M`.
  A computation carries an optional result (`none` = panic) and the list of
  observable events (branches taken, limb positions loaded or stored), once for a
  *debug* build (`val`, `tr`: out-of-bounds accesses, `assert!`s, `debug_assert!`s
  and arithmetic overflow/underflow panic) and once for a *release* build (`rel`,
  `rtr`: no `debug_assert!`s, limb additions, multiplications and shift distances wrap).
  It carries a proof (`coh`) that both agree if the debug build does not panic, given once per
  combinator.  `M.assert` is `debug_assert!`, `M.check` is `assert!` and everything else that panics
  in both builds.  Simplification: an underflowing subtraction ends the release run, too (`rel = none`);
  so nothing is ever concluded from `rel = none`.
* **`usize`** is an unbounded `Nat` (so `8 * len` never wraps); subtractions are
  checked.  `delta` in the division steps is modelled as an integer.
* **Loops** are `forRange`/`forDown` over explicit state, or structural recursion.
* **`&mut`** arguments become returned values.  A reborrowed sub-slice
  (`shrink_to`, `take`) becomes a pair (rest, part) which is put together again.
* **Buffers.**  `Buf f` for a format `f`: `be` (big-endian bytes), `le`
  (little-endian bytes), `ne` (native limbs).  The trait methods (`load_l`,
  `store_l`, `len`, `clear_bytes_above`, ...) are modelled for each format byte by
  byte / limb by limb as in `limbs_buffer.rs`; the generic algorithms are modelled
  once, over arbitrary formats, like the Rust code is generic over the traits.
* **Specification.**  The integer a buffer denotes: `Nat.ofDigits 256` of the
  bytes (reversed for `BE`), `Nat.ofDigits B` of the limbs for `NE`.

Proof method: total-correctness rules for `M` (`Sat m P`: no panic and `P` of
the result), loop invariants over `toNat buf % B^i` and `toNat buf / B^i`, and a
relational rule for traces.

## 2. Trusted base

* Lean 4.33.0 kernel; axioms `propext`, `Classical.choice`, `Quot.sound`.
* That the model reads the Rust source correctly (each definition cites it).
* The semantics of the nine x86_64 instructions in `Model/X86.lean`; the algorithms are modelled with the
  portable limb primitives, which C42 proves equal to the inline assembly.
* Not modelled:
  `fmt::Debug`, lifetimes, trait plumbing (`From`, `coerce_lifetime`), the machine
  code generated by rustc (so "constant time" is about source-level branches and
  accesses), `usize` overflow, except in the
  greatest common divisor, where it happens first (C50: from 10956549 bytes on if `usize` has 32 bits, never in practice if it
  has 64), and in the functions which take a distance, an exponent or a length from the user (C69: shifts, clearing bits,
  powers of two and shifted dividends, numbers of limbs), and in the functions which compute numbers of bits or steps from
  lengths (C71: inverses, multiples, powers, Montgomery transformations, primality tests).  Elsewhere the `usize` values
  are lengths and numbers of limbs of existing buffers and their sums.

Details of the modelling:

* Shifts by a variable distance are `shlC`/`shrC`, which panic for distances of a limb or more.
* `wrapping_sub` on `usize` is truncated subtraction where the code discards the result in case of
  an underflow.
* A `CompositeLimbsBuffer` is a list of segments; its construction is modelled, not assumed.
* Divisors hold the divisor buffer itself, where the code holds a reference.
* In the Montgomery and divison functions the bodies of the loops are functions of their own.  A
  `while` loop with a counter is a `forRange`, with the counter's final value given explicitly.
* A slice shrunk with `shrink_to` is returned with the rest of the buffer, and joined with it at
  the end of its lifetime.

## 3. Plan per property

| id | model | proof |
|----|-------|-------|
| C01 | all of cmp_impl.rs | borrow-chain invariant |
| C02, C03, C05 | add_impl.rs | carry-chain invariant |
| C04 | conditional variants, swap | same invariants with mask lemma |
| C06 | ct_*_mod_mp* | from C01..C03; negation witnesses B3, B4 |
| C07, C08 | shift_impl.rs | rotation invariant; bit clearing |
| C09, C10 | mul_impl.rs | partial-product invariant; for release builds (`Props/SquareRelease.lean`) the same with the set of the carries lost so far |
| C11, C12, C14 | limb/mod.rs (with `Model/Zeroize.lean`), usize_ct_cmp.rs | top-bit case analysis, Hensel induction |
| C13 | CtLDivisor, GenericNonCtLDivisor | reciprocal error bound |
| C15..C18 | limbs_buffer.rs | digit lemmas per format; negations B1, B2 |
| C19 | CompositeLimbsBuffer | digit splitting at segment ends; for values that don't fit, what the loop over the segments leaves of the value |
| C20 | hexstr.rs | induction over the string |
| C21..C24 | div_impl.rs | Knuth D quotient-estimate lemma, window invariant; negations D1, D9 |
| C25..C28 | montgomery_impl.rs | `S_i < 2n` invariant; negations M1, M4; `Proofs/MgRun.lean`: what the code computes with the lost carry, for every odd modulus (`Props/MgExact.lean`) |
| C29 | euclid_impl.rs | gcd invariant of divsteps; the bound on their number by a norm whose unit ball is a decagon (Proofs/Divstep.lean), decreasing with every second step; delta is an unbounded integer in the model |
| C30 | euclid_impl.rs | coefficient invariant f = u_f a, g = u_g a mod n; right for n with a zero top limb or if no coefficient is truncated; value and panics exact for all odd n (`coefs`); negations I1, I2 |
| C31, C32 | invmod_impl.rs | Hensel lifting (`liftSeq`), Garner recombination; conditions inherited from C10 (S1) and C30 (I1), negations by witnesses |
| C33 | lcm_impl.rs | from C09, C21, C29, and an invariant of the loop copying the high part of the product; negations L1, L2 |
| C34 | prime_impl.rs | loop invariant as for C28, Fermat and square roots of one in `ZMod p`; negations P1, with a proof of primality by Lucas' criterion |
| C35 | prime_impl.rs | from C29; the constants compared with products of primes, found by trial division, by kernel evaluation |
| C36 | PrimeWheelSieve | invariant of the position on the wheel, modulo 30 and modulo the primorial; induction on the history. Increments (`Proofs/WheelGap.lean`): of 17 numbers 30 apart, the primes from 7 to 47 divide at most 16 |
| C37 | all modelled `ct_` functions (`Props/CtTrace.lean`) | two runs on arguments of equal lengths: relational rule for each combinator, tactic `ct` (`Base/CtTactic.lean`) |
| C38 | all | `Props/NoPanic.lean`: for every operation, from the `Sat` theorems, without assuming what a function checks itself; witnesses for the panics found |
| C39 | set_to_*/try_into_* | digit lemmas; finding B5 |
| C41 | limbs_buffer.rs: fmt_lower_hex | loop invariant over the groups of digits |
| C40 | store, set_bit_to, take/join, shrink_to, composite buffers, n restored by inv_mod (`Props/Frame.lean`) | from the buffer laws and digit lemmas |

| C42 | limb/x86_64_math.rs (`Model/X86.lean`) | register machine semantics, any register allocation; equality with the portable functions |
| C43 | limb_slice_as_bytes, nlimbs_for_len (`Model/View.lean`) | induction over the limbs |
| C44 | the Miller–Rabin test (`Model/Prime.lean`) | C34 gives the exact criterion; Rabin's bound on its false bases (`Proofs/Rabin.lean`): subgroup of index ≥ 4 from idempotents of `ZMod n`, Cauchy's theorem for prime powers, primitive roots for two primes |
| C45 | users' programs (`Props/Protocol.lean`) on top of the modelled functions | composition of C03, C28, C30, C32, C33; Fermat's theorem and CRT (`Proofs/Rsa.lean`) |
| C46 | users' programs (`Props/RoundTrip.lean`) | composition of the theorems of the single operations |
| C47 | pairs of runs, on two platforms and with two sets of formats (`Props/Portable.lean`) | from the theorems of the single operations, which determine the results; witnesses where the limb size shows |
| C49 | the `rel` component of all operations (`Props/Release.lean`) | field `coh` of the monad, and the theorems of the single operations; witnesses where the builds differ |
| C50 | `Model/GcdUsize.lean`: number of steps and `delta` in a `usize` of 32 or 64 bits | simulation (`Proofs/Sim.lean`) of the bounded by the unbounded model; negation U1 |
| C48 | pairs of runs with different contents of result and scratch buffers (`Props/Contents.lean`) | as for C47 |
| C51 | a language of programs over the modelled functions (`Props/Programs.lean`), and its meaning in arithmetic modulo 256^len | induction over programs, from C01–C09, C17, C18 and the event theorems of C37 |
| C52 | the same for modular arithmetic (`Props/ModPrograms.lean`), meaning in Mathlib's `ZMod n` | induction over programs; invariant: each buffer holds `x * R` reduced; from C06, C25–C27 |
| C53 | a user's program (`Props/PrimeSearch.lean`) | induction over the candidates, from C02, C27, C34, C35 and the wheel invariant of C36; success by Bertrand's postulate (Mathlib) |
| C54 | a user's program (`Props/Crt.lean`) | composition of C02, C06, C09, C17, C21, C28, Garner's formula in `ZMod p`; negation witness from M4; `SameTr` of the calls |
| C55 | `Model/HexWriter.lean`: fmt_lower_hex and bytes_to_hexstr with an arbitrary writer and a failing allocation | simulation by the model which appends to a list: both perform the same pieces |
| C56 | a user's programs (`Props/Numeral.lean`) | induction over the digits with C24, C17, C09, C02; `Nat.ofDigits` is the specification; negation witness from D9; `SameTr` of the calls |
| C57 | a user's programs (`Props/Dsa.lean`) | composition of C01, C06, C09, C17, C21, C28, C30; exponents modulo the order of the generator; `DsaValid` is the specification; negation witness from I1; `SameTr` of the calls |
| C58 | a user's programs (`Props/ProvablePrime.lean`) | composition of C01–C03, C09, C17, C18, C21, C28, C29; Pocklington's criterion and its converse (`Proofs/Pocklington.lean`); `Certificate` is the specification; induction over the chain; `CtIf` of the calls |
| C59 | a user's programs (`Props/Field.lean`, `Props/Elliptic.lean`) | composition of C01, C06, C09, C17, C18, C21, C30; the specification is Mathlib's group of nonsingular points of a Weierstrass curve over `ZMod p` (`Rep` relates coordinates to points); induction over the bits of the multiplier; negation witness from I1; `SameTr` of the calls, case by case |
| C60 | a user's programs (`Props/Ecdsa.lean`) | composition of C59 and of the field operations; `EcdsaValid` is the specification; multipliers modulo the order of the generator |
| C61 | a user's programs (`Props/Shamir.lean`) | induction on the lists of coefficients and shares; the specification is `Polynomial.eval` of Mathlib, the interpolation theorem is Mathlib's; secrecy by a polynomial that is zero at the abscissas and one at zero |
| C62 | a user's programs (`Props/SquareRoot.lean`, `Props/RootAny.lean`) | composition of C08, C28 and the field operations; Euler's criterion from Mathlib; the loop of Tonelli and Shanks by the invariant `z² = x·t`, `c^(2^n) = -1` and `t^(2^n) = 1` if `x` is a square |
| C63 | a user's program (`Props/BatchInverse.lean`) | induction on the list |
| C64 | a user's program (`Props/Garner.lean`) | induction on the list of moduli, with the number modulo their product as invariant |
| C65 | a user's programs (`Props/Padded.lean`, `fInv` in `Props/Field.lean`) | copying to a longer buffer establishes the domains of C28, C30, C34 and C53 for every odd modulus; success of the search by Bertrand's postulate, the next prime by Rabin's bound on the liars |
| C66 | a user's program (`Props/RsaKey.lean`) | C65 for powers and the inverse modulo the public exponent; the exponent formula in ℕ; Fermat's theorem and the Chinese remainder theorem as for C45 |
| C67 | a user's programs (`Props/Group.lean`) | the field operations of C59 with powers of C65; the specification of DSA of C57; exponents modulo the order of the generator |
| C68 | a user's programs and an interpreter of expressions (`Props/Total.lean`) | each operation from C01..C03, C09, C18, C21, C29, C65, C66, without hypotheses; induction over expressions |
| C69 | `Model/ShiftUsize.lean`: distances, exponents and lengths in a `usize` of 32 or 64 bits | equality of the bounded with the unbounded model where nothing overflows, and panics where something does; negation U2 |
| C70 | `Base/Cost.lean`: the number of steps of a computation is a weighted count of the events of its debug trace (one for a branch, iteration, load or store; the number of limbs and one for filling, splitting or copying a buffer) | a logic of bounds on steps and sizes of results (`M.Cost`), whose rules follow the code; the tactic `cost` applies them. Loops are bounded by the lengths, the lifting loop of inverses modulo powers of two by its doubling, the search for the next candidate of the wheel by the bound on its increments. Not counted: functions on single limbs, and `debug_assert!`s that call the crate. If a debug build doesn't panic, a release build takes the same steps (`C70_release`) |
| C71 | `Model/LongUsize.lean`: lengths of operands in a `usize` of 32 or 64 bits | `SameRun`: debug builds of the bounded and the unbounded model have the same outcome and events, from bounds on the lengths and bit positions in every run (`Post`, `M.Cost`); the theorems C27..C35 carry over. Panics beyond the bounds; release runs by equality with the unbounded model for other arguments; negation U3 |
| C72 | release builds of `ct_add_mod_mp_mp`, `ct_sub_mod_mp_mp`, `ct_negate_mod_mp` (`RSat`) | the loop invariants of C06 without bounds on the operands; the last conditional addition or subtraction modulo 256^len; debug builds by the panics of the assertions |
| C73 | `ct_add_cond_mp_mp`, `ct_sub_cond_mp_mp`, `ct_add_mp_l`, `ct_sub_mp_l` without the bound on the second operand, debug and release builds | the carry chains of C02 and C03 modulo B^nlimbs; a rule for a loop whose last iteration may fail an assertion (`DbgExact`) |
| C74 | debug and release builds of `copy_from`, `copy_from_cond`, `shrink_to`, `set_bit_to`, `set_to_u8` to `set_to_u64`, `ct_swap_cond_mp` | the loop invariant of C17 for the truncated value; a release build's partial store drops the bytes without room (`Buf.store_l_trunc`). Not described: a release build with a bit or number for which limbs are missing |
| C75 | the multiplications, with any declared length | in a release build nothing is cleared and the number of limbs is the same, so that the program is the one with the buffer's length; then C09, C10 |
| C76 | a user's program (`Props/Blind.lean`) | C65 for powers and inverses, C66's theorem on exponents in ℤ/n; hiding from the bijection `r ↦ r^e` |
| C77 | a user's programs (`Props/Paillier.lean`) | C65, C66; Euler's theorem modulo n² and the binomial `(1 + n m)^k = 1 + k n m` in ℤ/n² |

## 4. Findings in the code, with the theorems that witness them

* **M4** `ct_montgomery_mul_mod_mp_mp` (montgomery_impl.rs:457-463): the carry of
  `ct_add_l_l(result_carry, op0_op1_add_carry)` is overwritten by the following
  `redc_kernel.finish()`.  For moduli whose top limb is all ones the carry can be
  one, and the result is wrong.  Example (64 bit): n = 2^128-1,
  a = b = n-1 gives 0 instead of 1; (n-2)^2 mod n by `ct_exp_mod_odd_mp_mp` gives 3 instead
  of 4.  The moduli affected are among those with (B+1) n > B^(limbs+1).  `C26_lossy_fails`: every odd
  modulus of three or more limbs with a top limb of all ones and a next limb of at least five has reduced operands
  the product of which is wrong; among them are the primes of P-384, secp256k1 and the RFC 3526 groups.
  `C26_mul_exact` gives the result and the panics for all operands, `C26_mul_right_iff` when it is right;
  likewise `C25_redc_exact`, `C27_form_exact`, `C28_exp_exact`, `C28_mg_exp_exact` and, for Miller–Rabin, `C34_exact`.
  What users' programs suffer: `C52_carry_fails`, `C53_prime_skipped_fails` (a search misses a prime),
  `C54_decrypt_fails` (RSA decrypts to another message).
* **M1** `ct_montgomery_redc_mp` panics for every single-limb modulus.
* **M3** `ct_montgomery_mul_mod_mp_mp` uses the modulus' `partial_high_mask()` for the result:
  with a native modulus and a shorter byte result (accepted by the length check), `store_l()`
  panics.
* **M5** the reverse: a native result with a byte modulus of unaligned length: the carry out of
  the modulus' length is subtracted at the wrong place, and the final assertion fails.
* **M2** `ct_montgomery_mul_mod_mp_mp` panics for empty op1 and non-empty op0.
* **B1** `clear_bytes_above_cond` (limbs_buffer.rs:971) uses an inverted mask for
  the first limb.
* **B2** native `clear_bytes_below(end)`: `end` beyond the buffer and unaligned
  clears the top limb partially only; panics on an empty buffer.
* **B3, B4** `ct_add_mod_mp_mp`, `ct_sub_mod_mp_mp` with op0 having more limbs than
  n: the limbs above are left wrong.
* **B5** `try_into_u*` on buffers with fewer limbs than the native type panics.
* **D1** `CtMpDivisor::new` on a non-empty all-zero divisor panics instead of
  returning `DivisorIsZero`, and on no other one (`C22_divisor_panics_fails`).
* **D4** `ct_div_mp_mp` and others panic, instead of returning `InsufficientQuotientSpace`, if the
  quotient fits into the limbs of its buffer, but not into its bytes.  Exactly when: `C22_div_panics_fails`,
  `C22_div_pow2_panics_fails`, `C22_div_lshifted_panics_fails`.  Release builds then return the right remainder, and
  the quotient modulo `256 ^ len`: `C22_div_release`, `C22_div_pow2_release`, `C22_div_lshifted_release`, for all quotient buffers.
* **D9** `ct_div_mp_l` writes past the end of a quotient buffer which passed the
  length check; leaves q_out uncleared when u is empty.  Exactly when: `C24_quotient_panics_fails`,
  `C24_empty_unchanged_fails`, `C48_div_limb_fails`.
  Consequence: `C56_empty_fails` (writing an empty buffer as a numeral panics).
* **L1** `ct_lcm_mp_mp` panics for native buffers and operand lengths the sum of which is no
  multiple of the limb size (`take` of an unaligned length), `C33_lcm_unaligned_fails`, and
  also for aligned sums of unaligned lengths, if the result is no longer than that sum (the
  division refuses it and the error is unwrapped), `C33_lcm_tight_fails`.
* **L2** `ct_lcm_mp_mp` accepts operands of compatible, but different lengths (a limb buffer
  and a byte buffer shorter by less than a limb), and then panics on
  `debug_assert_eq!(op0.len(), op1.len())`, `C33_lcm_mixed_len_fails`.  L1 and L2 are all the panics there are:
  `C33_lcm_panics_fails`.  Release builds are right for L2 with the second operand in bytes (`C33_lcm_release_bytes`), and for
  L1 if the result has room for rounding up to limbs (`C33_lcm_release_limbs_partial`), but return a wrong multiple for
  L2 with the first operand in bytes and the second one in limbs (`C33_lcm_release_fails`).
* **P1** `ct_prime_test_miller_rabin_mp` inherits M4 and M5.  By M4 a prime may be reported composite: with
  32 bit limbs `p = 2^64-83` and the base with Montgomery form `p-1` (`C34_prime_rejected_fails`);
  the P-384 prime with 64 bit limbs behaves alike (evaluated, not proved).  By M5 a candidate in bytes panics
  (`C34_align_fails`, `p = 2^24-3`, base four).  A limb buffer for the radix modulo p with fewer limbs than p passes the
  checks and is then read out of bounds (`C34_short_radix_fails`).  `p = 1` hits a debug assertion
  (`C34_one_fails`), and for any buffers (`C34_one_panics_fails`).  `C34_exact` states the answer for all
  arguments.
* **S1** `ct_square_trunc_mp` (mul_impl.rs:283-380): the comment claims that the doubled upper half
  of a product is at most `!3`.  This is wrong for an upper half of `2^(W-1)-1`, which doubles to
  `!1`.  Debug builds panic (64 bit: 16 byte operand with limbs `2^63`, `2^64-1`), and if the carry
  to be added is two or more, then release builds lose a carry and return a wrong square (limbs
  `2^64-1`, `2^63`, `2^64-1`).  Since `ct_inv_mod_pow2_mp` squares, it is affected, too.  Exactly which operands panic:
  `C10_square_panics_fails` and `C31_inv_pow2_panics_fails`.  What release builds return: `C10_square_release_exact`,
  `C10_square_release_iff`; its three low limbs are always right (`C10_square_release_low_three_limbs`).  Hence release
  builds invert rightly modulo powers of two of up to three limbs (`C31_inv_pow2_release_three_limbs_partial`), and modulo
  any number not divisible by a larger power of two, if I1 and I2 don't interfere (`C32_inv_release_run_partial`);
  wrong inverses beyond: `C31_inv_pow2_release_fails`, `C32_inv_release_fails`.
* **I1** `RedcKernel::finish_in_twos_complement` (montgomery_impl.rs:165-185) ORs the sign extension
  `(0 - sign) & !redc_pow2_mask` into the most significant limb returned.  That limb is already complete: its
  upper bits come from the low bits of the head, and the extension belongs into the limb above.
  If the reduced coefficient is negative and less than `-2^e B^(N-1)`, then the limb gets wrong, and
  `ct_inv_mod_odd_mp_mp` returns, without any error, a number which isn't the inverse
  (`C30_inv_odd_fails`: 64 bit, n = 666634813049, a = 407238868042).  Consequences: `C57_sign_verify_fails` (a DSA signature that does not verify), `C59_tight_fails` (a sum of two points that is not on the curve).
* **I2** `apply_to_mod_odd_n` (euclid_impl.rs:252-477): the reduced value is less than `2 n` only, and for an
  `n` with its top bit set its uppermost bit is lost; the comparison with `n` sees the truncated value.  The result is
  a number which isn't the inverse (`C30_inv_odd_top_bit_fails`: 32 bit, n = 3767961369, a = 79855859) or, if the
  truncated value is zero, a failing debug assertion (`C38_inv_odd_fails`: n = 3443927703, a = 1445968151); in the
  latter case release builds return `n` for the inverse (`C49_inv_odd_fails`) or refuse the coprime operands
  (`C49_inv_odd_refused_fails`: n = 4201618669, a = 3244103491).
  What is calculated in all cases is given by `coefs`, `invValue` (Proofs/InvRun.lean), a description of the batches by
  integers with the truncation of I1 and I2 (`fit`): `C30_inv_odd_value` is what is returned, right or wrong,
  `C30_inv_odd_panics_fails` and `C32_inv_panics_fails` are exactly when the functions panic, and if no coefficient is
  truncated (`FitsRun`, decidable for given numbers) then the result is the inverse (`C30_inv_odd_run_partial`,
  `C32_inv_run_partial`).  Not proved, by a simulation in Python of random coprime operands with moduli filling their top
  limb: the result is wrong for about 2 % (one 64 bit limb, top bit set), 1 % (128 bit), 0.1 % to 0.5 % (256 bit).
* **Release builds** (C49).  Of the arguments found to panic in debug builds, in release builds: wrong results are
  returned for S1 (`C49_square_fails`), L2 with the second operand in limbs (`C33_lcm_release_fails`), I2 (`C49_inv_odd_fails`), M3 (`C49_short_fails`), M5 (`C49_align_fails`) and D4 (`C49_quotient_fails`, the quotient is
  truncated; in general: `C22_div_release`); right results are returned for M2, L2 with the second operand in bytes, L1 given room, B5, `p = 1` of P1, and the witness of C31 and C32
  (`C49_empty_fails`, `C49_lcm_mixed_len_fails`, `C49_try_into_fails`, `C49_one_fails`, `C49_inv_pow2_fails`);
  the others panic or underflow.  Montgomery operands not less than the modulus, which panic in debug builds
  (`C25_redc_exact`, `C26_mul_unreduced`, `C28_exp_unreduced`), give right results in release builds if one of two factors is less than the
  modulus (`C26_mul_release_partial`), for conversions (`C27_form_release_partial`) and for the base of a power
  (`C28_exp_release_partial`); with two such factors, or reducing a number of `n R` or more, the result is congruent to the right one, but
  not reduced (`C25_redc_release`, `C26_mul_release_any_partial`, `C26_mul_release_fails`).
* `ct_gcd_mp_mp` returns one for two zero operands (documented in the code; `C29_gcd_zero_zero`).
* **T1** (C37) shifts by a secret distance read limbs whose numbers depend on the distance (`C37_shift_secret_fails`;
  the comment at shift_impl.rs:80ff acknowledges this).  It is inherited by `ct_gcd_mp_mp`, `ct_lcm_mp_mp` and
  `ct_inv_mod_mp_mp`, from whose events the power of two dividing the greatest common divisor or the modulus can be seen
  (`C37_gcd_fails`, `C37_lcm_fails`, `C37_inv_fails`).  The start of the prime wheel looks up a table
  at a secret index (`C37_wheel_start_fails`).
* **U1** (C50) The number of division steps for operands of `len` bytes is computed as `(49 * (8 * len + 2) + 57) / 17`.  If `usize`
  has 32 bits, this overflows from 10956549 bytes on: debug builds panic for all such operands
  (`C50_gcd_odd_too_long_fails`); in release builds the number of steps wraps around, and the greatest common divisor of 3 and
  2^60 in buffers of 10956549 bytes is returned as 3 (`C50_gcd_odd_release_fails`).
* **U2** (C69) Lengths and distances at the end of the range of `usize` overflow.  `ct_div_lshifted_mp_mp` (div_impl.rs:1157) adds
  the length of the dividend and of its shift: a debug build panics if this overflows (`C69_div_lshifted_panics_fails`) or is so
  close to overflowing that the limbs of the quotient can't be counted (`C69_div_lshifted_last_panics_fails`), and a
  release build may take the dividend for a short one and return without an error and with a wrong remainder
  (`C69_div_lshifted_release_fails`: 256^(2^64-1) modulo three).  `ct_div_pow2_mp` (div_impl.rs:714) panics for the last nine
  exponents (`C69_div_pow2_panics_fails`).  If `usize` has 32 bits, shifts of buffers of half a gigabyte panic in debug builds
  (`C69_lshift_panics_fails`, `C69_rshift_panics_fails`), and in release builds a left shift of 2^29 bytes leaves the buffer
  unshifted, whatever the distance (`C69_lshift_unshifted_fails`).  `nlimbs_for_len` of the last lengths returns zero in
  release builds (`C69_nlimbs_fails`).
* **U3** (C71) Numbers of bits computed from lengths overflow if `usize` has 32 bits.  `8 * exponent.len()`
  (montgomery_impl.rs:921) wraps around to zero for exponents in buffers of half a gigabyte: a debug build panics
  (`C71_exp_panics_fails`), a release build returns one, whatever the exponent (`C71_exp_release_fails`).
  `2 * 8 * radix_shift_len` (montgomery_impl.rs:740) wraps around to zero for moduli in buffers of a quarter of a gigabyte
  (`C71_radix2_panics_fails`, and `C71_radix2_wrong_fails` for the modulus seven, where a release build returns one for two).
  `8 * p.len()` (prime_impl.rs:306) wraps around to zero for candidates in buffers of half a gigabyte: a release build calls
  all of them composite (`C71_miller_rabin_release_fails`).  Together with U1, greatest common divisors, inverses, least
  common multiples and the test for small factors panic in a debug build from 10956549 bytes on (`C71_gcd_panics_fails`,
  `C71_inv_panics_fails`, `C71_lcm_panics_fails`, `C71_prime_panics_fails`).
* **T2** (C37) the check for coprimality in `ct_inv_mod_odd_mp_mp` returns as soon as it fails: two runs that both return
  `OperandsNotCoprime` may differ in their events (`C37_inv_odd_error_fails`).
* The wheel branches on divisibility by its primes above 5: the events reveal how many numbers are passed over before
  each candidate (`C37_wheel_fails`), and up to positions in the table of offsets nothing else (`C37_wheel_partial`).
