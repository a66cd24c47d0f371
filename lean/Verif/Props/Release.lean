import Verif.Props.Add
import Verif.Props.Buf
import Verif.Props.Shift
import Verif.Props.Mul
import Verif.Props.Div
import Verif.Props.Euclid
import Verif.Props.InvMod
import Verif.Props.InvAny
import Verif.Props.Lcm
import Verif.Props.Prime

/-!
# Release builds (C49)

In a release build there are no `debug_assert!`s, and arithmetic on limbs wraps around silently.
`m.rel` is the result of `m` in such a build, and `m.rtr` are its observable events; see
`Verif/Base/M.lean`.  `RSat m P` reads: in a release build `m` returns a result, of which `P` holds.

Wherever a debug build returns a result, a release build does so as well, the result is the same, and so are
the branches taken and the limbs accessed.  So all of what has been proved to be right in a debug build is right in
a release build.  The converse fails both ways: there are arguments for which the debug build panics and the
release build is right, and there are arguments for which the debug build panics and the release build returns
a wrong result.
-/

namespace Cmpa
namespace Props
open M
variable [LimbCfg] {α : Type} {f g h f' e' φ ψ χ : Fmt}

omit [LimbCfg] in
/-- C49: a release build agrees with a debug build which doesn't panic, in the result and in the
events. -/
theorem C49_agree {m : M α} {P : α → Prop} (hm : Sat m P) :
    RSat m P ∧ m.rel = m.val ∧ m.rtr = m.tr := by
  obtain ⟨a, ha, hp⟩ := hm
  obtain ⟨h1, h2⟩ := m.coh a ha
  exact ⟨⟨a, h1, hp⟩, h1.trans ha.symm, h2⟩

omit [LimbCfg] in
/-- C49: if two executions cannot be told apart by their events in a debug build, then not in a
release build either. -/
theorem C49_constant_time {m m' : M α} (h : m.val ≠ none) (h' : m'.val ≠ none) (ht : m.tr = m'.tr) :
    m.rtr = m'.rtr := by
  obtain ⟨a, ha⟩ := Option.ne_none_iff_exists'.1 h
  obtain ⟨a', ha'⟩ := Option.ne_none_iff_exists'.1 h'
  rw [(m.coh a ha).2, (m'.coh a' ha').2, ht]

/-- C49: comparison. -/
theorem C49_compare (a : Buf f) (b : Buf g) :
    RSat (ct_lt_mp_mp a b) (fun c => c = .ofBool (decide (a.toNat < b.toNat))) ∧
    RSat (ct_eq_mp_mp a b) (fun c => c = .ofBool (decide (a.toNat = b.toNat))) :=
  ⟨(C01_lt a b).rel, (C01_eq a b).rel⟩

/-- C49: addition. -/
theorem C49_add (a : Buf f) (b : Buf g) (hl : b.nlimbs ≤ a.nlimbs) (hb : b.toNat < 256 ^ a.len) :
    RSat (ct_add_mp_mp a b) (fun (a', carry) => a'.len = a.len ∧ carry ≤ 1 ∧
      a'.toNat + carry * 256 ^ a.len = a.toNat + b.toNat) := (C02_add a b hl hb).rel

/-- C49: subtraction. -/
theorem C49_sub (a : Buf f) (b : Buf g) (hl : b.nlimbs ≤ a.nlimbs) (hb : b.toNat < 256 ^ a.len) :
    RSat (ct_sub_mp_mp a b) (fun (a', borrow) => a'.len = a.len ∧ borrow ≤ 1 ∧
      a'.toNat + b.toNat = a.toNat + borrow * 256 ^ a.len) := (C03_sub a b hl hb).rel

/-- C49: shifts. -/
theorem C49_shift (a : Buf f) (d : ℕ) (ha : 0 < a.len) :
    RSat (ct_lshift_mp a d) (fun (a', _) => a'.len = a.len ∧
      a'.toNat = a.toNat * 2 ^ d % 2 ^ (8 * a.len)) ∧
    RSat (ct_rshift_mp a d) (fun (a', _) => a'.len = a.len ∧ a'.toNat = a.toNat / 2 ^ d) :=
  ⟨(C07_lshift a d ha).rel.mono fun _ h => ⟨h.1, h.2.2.1⟩,
    (C08_rshift a d).rel.mono fun _ h => ⟨h.1, h.2.2.1⟩⟩

/-- C49: multiplication. -/
theorem C49_mul (a : Buf f) (n : ℕ) (b : Buf g) (hn : n ≤ a.len) :
    RSat (ct_mul_trunc_mp_mp a n b) (fun a' => a'.len = a.len ∧
      a'.toNat = (a.toNat % 256 ^ n) * b.toNat % 256 ^ a.len) := (C09_mul a n b hn).rel

/-- C49: division. -/
theorem C49_div (u_h : Option (Buf f)) (u_l : Buf f) (v : Buf g) (dec : Option ℕ)
    (q : Option (Buf h)) (hdec : ∀ x ∈ dec, x < B) (hv : dec.getD 0 < v.toNat)
    (hq : QuotientFits q (dividendLen u_h u_l) (v.toNat - dec.getD 0)
      (dividend u_h u_l / (v.toNat - dec.getD 0))) :
    RSat (divideBy v dec fun d => ct_div_mp_mp u_h u_l d q) (fun r => ∃ u_h' u_l' q',
      r = .ok (u_h', u_l', q') ∧
      u_h'.map Buf.len = u_h.map Buf.len ∧ u_l'.len = u_l.len ∧
      dividend u_h' u_l' = dividend u_h u_l % (v.toNat - dec.getD 0) ∧
      q'.map Buf.len = q.map Buf.len ∧
      ∀ b ∈ q', b.toNat = dividend u_h u_l / (v.toNat - dec.getD 0)) :=
  (C21_div u_h u_l v dec q hdec hv hq).rel

/-- C49: remainders. -/
theorem C49_mod (u_h : Option (Buf f)) (u_l : Buf f) (v : Buf g) (dec : Option ℕ)
    (hdec : ∀ x ∈ dec, x < B) (hv : dec.getD 0 < v.toNat) :
    RSat (divideBy v dec fun d => do let r ← ct_mod_mp_mp u_h u_l d; pure (.ok r))
      (fun r => ∃ u_h' u_l', r = .ok (u_h', u_l') ∧
      u_h'.map Buf.len = u_h.map Buf.len ∧ u_l'.len = u_l.len ∧
      dividend u_h' u_l' = dividend u_h u_l % (v.toNat - dec.getD 0)) :=
  (C21_mod u_h u_l v dec hdec hv).rel

/-- C49: the greatest common divisor. -/
theorem C49_gcd (op0 : Buf φ) (op1 : Buf ψ) (hne : op0.len ≠ 0)
    (h0 : LenCompat op0 op1.len) (h1 : LenCompat op1 op0.len)
    (hnz : ¬ (op0.toNat = 0 ∧ op1.toNat = 0)) :
    RSat (ct_gcd_mp_mp op0 op1) (fun r => ∃ r0 r1, r = .ok (r0, r1) ∧
      r0.len = op0.len ∧ r1.len = op1.len ∧
      r0.toNat = Nat.gcd op0.toNat op1.toNat ∧ r1.toNat = 0) :=
  (C29_gcd op0 op1 hne h0 h1 hnz).rel

/-- C49: the least common multiple. -/
theorem C49_lcm_partial (result : Buf φ) (op0 : Buf ψ) (m0 : ℕ) (op1 : Buf χ) (m1 : ℕ)
    (scratch : Buf χ) (hbytes : χ = .be ∨ χ = .le) (hlen : op0.len = op1.len)
    (h0 : op0.toNat < 256 ^ m0) (h1 : op1.toNat < 256 ^ m1)
    (hres : min m0 op0.len + min m1 op1.len ≤ result.len)
    (hscr : min m0 op0.len + min m1 op1.len ≤ scratch.len) :
    RSat (ct_lcm_mp_mp result op0 m0 op1 m1 scratch) (fun r => ∃ res, r = .ok res ∧
      res.len = result.len ∧ res.toNat = Nat.lcm op0.toNat op1.toNat) :=
  (C33_lcm_bytes_partial result op0 m0 op1 m1 scratch hbytes hlen h0 h1 hres hscr).rel

/-- C49: Montgomery reduction. -/
theorem C49_redc_partial (t : Buf f) (n : Buf g) (neg : ℕ) (hodd : n.toNat % 2 = 1)
    (hneg : NegInv n neg) (hn : LenCompat n t.len) (ht : LenCompat t (2 * n.len))
    (hlt : t.toNat < n.toNat * radix n) (h2 : 2 ≤ n.nlimbs) :
    RSat (ct_montgomery_redc_mp t n neg) (fun r => ∃ s, r = .ok s ∧ s.len = t.len ∧
      s.toNat < n.toNat ∧ s.toNat * radix n ≡ t.toNat [MOD n.toNat]) :=
  (C25_redc_partial t n neg hodd hneg hn ht hlt h2).rel

/-- C49: Montgomery multiplication. -/
theorem C49_mg_mul_partial (result : Buf f) (a : Buf g) (b : Buf h) (n : Buf f') (neg : ℕ)
    (hodd : n.toNat % 2 = 1) (hneg : NegInv n neg) (ha : a.toNat < n.toNat)
    (hb : b.toNat < n.toNat) (hal : LenCompat a n.len) (hbl : LenCompat b n.len)
    (hhigh : (B + 1) * n.toNat ≤ B ^ (n.nlimbs + 1)) (hlen : n.len ≤ result.len)
    (halign : f.unaligned = true ∨ LB ∣ n.len ∨ 257 * n.toNat ≤ 256 ^ (n.len + 1))
    (hne : a.len = 0 ∨ b.len ≠ 0) :
    RSat (ct_montgomery_mul_mod_mp_mp result a b n neg) (fun r => ∃ s, r = .ok s ∧
      s.len = result.len ∧ s.toNat < n.toNat ∧
      s.toNat * radix n ≡ a.toNat * b.toNat [MOD n.toNat]) :=
  (C26_mul_partial result a b n neg hodd hneg ha hb hal hbl hhigh hlen halign hne).rel

/-- C49: modular exponentiation. -/
theorem C49_exp_partial (result : Buf f) (base : Buf g) (n : Buf f') (e : Buf e') (nbits : ℕ)
    (scratch : Buf .ne) (hodd : n.toNat % 2 = 1) (hb : base.toNat < n.toNat)
    (hbl : LenCompat base n.len) (hnb : LenCompat n base.len)
    (hsc : n.nlimbs ≤ scratch.nlimbs) (h2 : 2 ≤ n.nlimbs)
    (hhigh : (B + 1) * n.toNat ≤ B ^ (n.nlimbs + 1)) (hlen : n.len ≤ result.len)
    (halign : LB ∣ n.len ∨ 257 * n.toNat ≤ 256 ^ (n.len + 1)) :
    RSat (ct_exp_mod_odd_mp_mp result base n e nbits scratch) (fun r => ∃ s, r = .ok s ∧
      s.1.len = result.len ∧ s.2.1.len = base.len ∧ s.2.2.len = scratch.len ∧
      s.1.toNat = base.toNat ^ (e.toNat % 2 ^ nbits) % n.toNat) :=
  (C28_exp_partial result base n e nbits scratch hodd hb hbl hnb hsc h2 hhigh hlen halign).rel

/-- C49: inverses modulo an odd number, as long as the coefficients fit. -/
theorem C49_inv_odd_run_partial (result : Buf φ) (op0 : Buf ψ) (n : Buf χ) (scratch0 scratch1 : Buf .ne)
    (hr : InvOddRoom result op0 n scratch0 scratch1) (hodd : n.toNat % 2 = 1) (h1 : 1 < n.toNat)
    (hcop : Nat.gcd op0.toNat n.toNat = 1) (hfit : FitsRun n.toNat op0.toNat n.nlimbs) :
    RSat (ct_inv_mod_odd_mp_mp result op0 n scratch0 scratch1)
      (fun r => ∃ r' op0' s0 s1, r = .ok (r', op0', s0, s1) ∧ r'.len = result.len ∧
        op0'.len = op0.len ∧ s0.len = scratch0.len ∧ s1.len = scratch1.len ∧
        r'.toNat < n.toNat ∧ op0.toNat * r'.toNat % n.toNat = 1) :=
  (C30_inv_odd_run_partial result op0 n scratch0 scratch1 hr hodd h1 hcop hfit).rel

/-- C49: inverses modulo an odd number. -/
theorem C49_inv_odd_partial (result : Buf φ) (op0 : Buf ψ) (n : Buf χ) (scratch0 scratch1 : Buf .ne)
    (hr : InvOddRoom result op0 n scratch0 scratch1) (hodd : n.toNat % 2 = 1) (h1 : 1 < n.toNat)
    (hcop : Nat.gcd op0.toNat n.toNat = 1) (hn : n.toNat < B ^ (n.nlimbs - 1)) :
    RSat (ct_inv_mod_odd_mp_mp result op0 n scratch0 scratch1)
      (fun r => ∃ r' op0' s0 s1, r = .ok (r', op0', s0, s1) ∧ r'.len = result.len ∧
        op0'.len = op0.len ∧ s0.len = scratch0.len ∧ s1.len = scratch1.len ∧
        r'.toNat < n.toNat ∧ op0.toNat * r'.toNat % n.toNat = 1) :=
  (C30_inv_odd_partial result op0 n scratch0 scratch1 hr hodd h1 hcop hn).rel

/-- C49: the Miller-Rabin test. -/
theorem C49_miller_rabin_partial (mg_base : Buf χ) (p : Buf φ) (mg_radix : Buf ψ)
    (scratch0 scratch1 : Buf .ne) (a : ℕ) (hp : 1 < p.toNat) (hodd : p.toNat % 2 = 1)
    (hbase : mg_base.toNat = a * radix p % p.toNat) (hbl : LenCompat mg_base p.len)
    (hbne : mg_base.len ≠ 0) (hrad : mg_radix.toNat = radix p % p.toNat)
    (hrl : LenCompat mg_radix p.len) (hrn : p.nlimbs ≤ mg_radix.nlimbs)
    (hs0 : p.nlimbs ≤ scratch0.nlimbs) (hs1 : p.nlimbs ≤ scratch1.nlimbs)
    (hhigh : (B + 1) * p.toNat ≤ B ^ (p.nlimbs + 1))
    (halign : LB ∣ p.len ∨ 257 * p.toNat ≤ 256 ^ (p.len + 1)) :
    RSat (ct_prime_test_miller_rabin_mp mg_base p mg_radix scratch0 scratch1)
      (fun r => ∃ c : Bool, r = .ok (.ofBool c) ∧
        (c = true ↔ StrongProbablePrime p.toNat a)) :=
  (C34_miller_rabin_partial mg_base p mg_radix scratch0 scratch1 a hp hodd hbase hbl hbne hrad hrl
    hrn hs0 hs1 hhigh halign).rel

-- Release builds do return something.
example : letI := cfg64;
    (ct_mul_trunc_mp_mp (Buf.ofNat .be 20 (2 ^ 79 - 1)) 10 (Buf.ofNat .le 10 (2 ^ 80 - 3))).rel.map
      Buf.toNat = some ((2 ^ 79 - 1) * (2 ^ 80 - 3)) ∧
    (ct_exp_mod_odd_mp_mp (Buf.ofNat .be 10 0) (Buf.ofNat .le 9 (2 ^ 70 + 9))
      (Buf.ofNat .be 9 (2 ^ 71 - 93)) (Buf.ofNat .le 2 1234) 9 (Buf.ofNat .ne 16 0)).rel.bind expNum
      = some ((2 ^ 70 + 9) ^ (1234 % 2 ^ 9) % (2 ^ 71 - 93)) := by decide +kernel

/-! ## A debug build panics, and a release build is right -/

omit [LimbCfg] in
/-- C49: a Montgomery product with an empty factor (finding M2). -/
theorem C49_empty_fails : ∃ (c : LimbCfg) (result a b n : @Buf c .be) (neg : ℕ),
    @Buf.toNat c .be n % 2 = 1 ∧ @NegInv c .be n neg ∧
    @Buf.toNat c .be a < @Buf.toNat c .be n ∧ @Buf.toNat c .be b = 0 ∧
    (@ct_montgomery_mul_mod_mp_mp c .be .be .be .be result a b n neg).val.isNone = true ∧
    (@ct_montgomery_mul_mod_mp_mp c .be .be .be .be result a b n neg).rel.bind mgNum = some 0 :=
  ⟨cfg64, @Buf.ofNat cfg64 .be 16 0, @Buf.ofNat cfg64 .be 16 5, @Buf.ofNat cfg64 .be 0 0,
    @Buf.ofNat cfg64 .be 16 (2 ^ 72 - 1), 1, by decide +kernel,
    ⟨by decide +kernel, by decide +kernel⟩, by decide +kernel, by decide +kernel,
    by decide +kernel, by decide +kernel⟩

omit [LimbCfg] in
/-- C49: the least common multiple of operands of a limb and of seven bytes (finding L2). -/
theorem C49_lcm_mixed_len_fails : ∃ (c : LimbCfg) (result : @Buf c .be) (op0 : @Buf c .ne)
    (op1 scratch : @Buf c .be), @Buf.toNat c .ne op0 = 6 ∧ @Buf.toNat c .be op1 = 10 ∧
    (@ct_lcm_mp_mp c .be .ne .be result op0 8 op1 7 scratch).val.isNone = true ∧
    (@ct_lcm_mp_mp c .be .ne .be result op0 8 op1 7 scratch).rel.map
      (fun r => r.toOption.map (@Buf.toNat c .be)) = some (some 30) :=
  ⟨cfg64, @Buf.ofNat cfg64 .be 16 0, @Buf.ofNat cfg64 .ne 8 6, @Buf.ofNat cfg64 .be 7 10,
    @Buf.ofNat cfg64 .be 16 0, by decide +kernel, by decide +kernel, by decide +kernel,
    by decide +kernel⟩

omit [LimbCfg] in
/-- C49: an inverse modulo a power of two (finding I1), where squaring trips over an assertion. -/
theorem C49_inv_pow2_fails : ∃ (c : LimbCfg) (result op0 scratch : @Buf c .ne) (x : ℕ),
    (@ct_inv_mod_pow2_mp c .ne .ne result op0 129 129 scratch).val.isNone = true ∧
    (@ct_inv_mod_pow2_mp c .ne .ne result op0 129 129 scratch).rel.map
      (fun s => @Buf.toNat c .ne s.1) = some x ∧
    x * @Buf.toNat c .ne op0 % 2 ^ 129 = 1 :=
  ⟨cfg64, @Buf.ofNat cfg64 .ne 32 0, @Buf.ofNat cfg64 .ne 16 170141183460469231713240559642174554111,
    @Buf.ofNat cfg64 .ne 32 0, 170141183460469231750134047789593657343,
    by decide +kernel, by decide +kernel, by decide +kernel⟩

omit [LimbCfg] in
/-- C49: the candidate one of the Miller-Rabin test (finding P1): "not a prime". -/
theorem C49_one_fails : ∃ (c : LimbCfg) (mg_base p mg_radix : @Buf c .be)
    (scratch0 scratch1 : @Buf c .ne), @Buf.toNat c .be p = 1 ∧
    (@ct_prime_test_miller_rabin_mp c .be .be .be mg_base p mg_radix scratch0 scratch1).val.isNone
      = true ∧
    (@ct_prime_test_miller_rabin_mp c .be .be .be mg_base p mg_radix scratch0 scratch1).rel.map
      (fun r => r.toOption.map (fun x => @LimbChoice.unwrap x)) = some (some 0) :=
  ⟨cfg64, @Buf.ofNat cfg64 .be 8 0, @Buf.ofNat cfg64 .be 8 1, @Buf.ofNat cfg64 .be 8 0,
    @Buf.ofNat cfg64 .ne 8 0, @Buf.ofNat cfg64 .ne 8 0,
    by decide +kernel, by decide +kernel, by decide +kernel⟩

omit [LimbCfg] in
/-- C49: inverses modulo an odd number with the most significant bit of its buffer set (finding I2).  The debug build
panics; the release build returns the modulus for the inverse. -/
theorem C49_inv_odd_fails : ∃ (c : LimbCfg) (result op0 n : @Buf c .be) (s0 s1 : @Buf c .ne),
    @Buf.toNat c .be n = 3443927703 ∧ @Buf.toNat c .be op0 = 1445968151 ∧
    Nat.gcd 1445968151 3443927703 = 1 ∧
    (@ct_inv_mod_odd_mp_mp c .be .be .be result op0 n s0 s1).val.isNone = true ∧
    (@ct_inv_mod_odd_mp_mp c .be .be .be result op0 n s0 s1).rel.bind (@invNum c .be _)
      = some 3443927703 :=
  ⟨cfg32, @Buf.ofNat cfg32 .be 4 0, @Buf.ofNat cfg32 .be 4 1445968151,
    @Buf.ofNat cfg32 .be 4 3443927703, @Buf.ofNat cfg32 .ne 4 0, @Buf.ofNat cfg32 .ne 4 0,
    by decide +kernel, by decide +kernel, by decide +kernel, by decide +kernel, by decide +kernel⟩

omit [LimbCfg] in
/-- C49: the same; here the release build refuses coprime operands. -/
theorem C49_inv_odd_refused_fails : ∃ (c : LimbCfg) (result op0 n : @Buf c .be) (s0 s1 : @Buf c .ne),
    @Buf.toNat c .be n = 4201618669 ∧ @Buf.toNat c .be op0 = 3244103491 ∧
    Nat.gcd 3244103491 4201618669 = 1 ∧
    (@ct_inv_mod_odd_mp_mp c .be .be .be result op0 n s0 s1).val.isNone = true ∧
    (@ct_inv_mod_odd_mp_mp c .be .be .be result op0 n s0 s1).rel.map
      (fun r => match r with | .ok _ => none | .error e => some e) = some (some .OperandsNotCoprime) :=
  ⟨cfg32, @Buf.ofNat cfg32 .be 4 0, @Buf.ofNat cfg32 .be 4 3244103491,
    @Buf.ofNat cfg32 .be 4 4201618669, @Buf.ofNat cfg32 .ne 4 0, @Buf.ofNat cfg32 .ne 4 0,
    by decide +kernel, by decide +kernel, by decide +kernel, by decide +kernel, by decide +kernel⟩

omit [LimbCfg] in
/-- C49: conversion of a short little endian buffer (finding B5). -/
theorem C49_try_into_fails : ∃ (c : LimbCfg) (b : @Buf c .le),
    (@Buf.try_into_native c .le 8 b).val = none ∧
    (@Buf.try_into_native c .le 8 b).rel = some (some (@Buf.toNat c .le b)) :=
  ⟨cfg32, @Buf.le cfg32 [1, 2, 3, 4], by decide +kernel, by decide +kernel⟩

/-! ## A debug build panics, and a release build returns a wrong result -/

omit [LimbCfg] in
/-- C49: a wrong square (finding S1). -/
theorem C49_square_fails : ∃ (c : LimbCfg) (a : @Buf c .ne) (x : ℕ), @Buf.len c .ne a = 48 ∧
    (@ct_square_trunc_mp c .ne a 24).val.isNone = true ∧
    (@ct_square_trunc_mp c .ne a 24).rel.map (@Buf.toNat c .ne) = some x ∧
    x ≠ (@Buf.toNat c .ne a % 256 ^ 24) ^ 2 % 256 ^ 48 :=
  ⟨cfg64, @Buf.ne cfg64 [2 ^ 64 - 1, 2 ^ 63, 2 ^ 64 - 1, 0, 0, 0],
    39402006196394479208007066028301793640550228058910303878427087770595803981982158057731736950090996894171832371904513,
    by decide +kernel, by decide +kernel, by decide +kernel, by decide +kernel⟩

omit [LimbCfg] in
/-- C49: a Montgomery product into a buffer of bytes, shorter than the modulus' limbs (finding M3):
modulo `2 ^ 72 - 1`, the result is zero instead of one. -/
theorem C49_short_fails : ∃ (c : LimbCfg) (result a : @Buf c .be) (n : @Buf c .ne) (neg : ℕ),
    @Buf.toNat c .ne n = 2 ^ 72 - 1 ∧ @NegInv c .ne n neg ∧ @radix c .ne n = 2 ^ 128 ∧
    @Buf.toNat c .be a < @Buf.toNat c .ne n ∧
    @LenCompat c .ne n (@Buf.len c .be result) ∧ @LenCompat c .be a (@Buf.len c .ne n) ∧
    (@ct_montgomery_mul_mod_mp_mp c .be .be .be .ne result a a n neg).val.isNone = true ∧
    (@ct_montgomery_mul_mod_mp_mp c .be .be .be .ne result a a n neg).rel.bind mgNum = some 0 ∧
    1 * 2 ^ 128 % (2 ^ 72 - 1) = @Buf.toNat c .be a * @Buf.toNat c .be a % (2 ^ 72 - 1) :=
  ⟨cfg64, @Buf.ofNat cfg64 .be 9 0, @Buf.ofNat cfg64 .be 9 (2 ^ 72 - 1 - 2 ^ 28),
    @Buf.ofNat cfg64 .ne 16 (2 ^ 72 - 1), 1, by decide +kernel,
    ⟨by decide +kernel, by decide +kernel⟩, by decide +kernel, by decide +kernel,
    by decide +kernel, by decide +kernel, by decide +kernel, by decide +kernel, by decide +kernel⟩

omit [LimbCfg] in
/-- C49: a Montgomery product into a buffer of limbs, for a modulus of nine bytes (finding M5): the result
isn't even less than the modulus. -/
theorem C49_align_fails : ∃ (c : LimbCfg) (result : @Buf c .ne) (a n : @Buf c .be) (neg x : ℕ),
    @Buf.toNat c .be n % 2 = 1 ∧ @NegInv c .be n neg ∧
    @Buf.toNat c .be a < @Buf.toNat c .be n ∧
    @Buf.len c .be n ≤ @Buf.len c .ne result ∧ @Buf.len c .be a = @Buf.len c .be n ∧
    (@ct_montgomery_mul_mod_mp_mp c .ne .be .be .be result a a n neg).val.isNone = true ∧
    (@ct_montgomery_mul_mod_mp_mp c .ne .be .be .be result a a n neg).rel.bind mgNum = some x ∧
    @Buf.toNat c .be n < x ∧
    ¬ x * @radix c .be n ≡ @Buf.toNat c .be a * @Buf.toNat c .be a [MOD @Buf.toNat c .be n] :=
  ⟨cfg64, @Buf.ofNat cfg64 .ne 16 0, @Buf.ofNat cfg64 .be 9 (2 ^ 72 - 1 - 2 ^ 28),
    @Buf.ofNat cfg64 .be 9 (2 ^ 72 - 1), 1, 340282366920938458741008124562122997761,
    by decide +kernel, ⟨by decide +kernel, by decide +kernel⟩, by decide +kernel, by decide +kernel,
    by decide +kernel, by decide +kernel, by decide +kernel, by decide +kernel, by decide +kernel⟩

omit [LimbCfg] in
/-- C49: a quotient which doesn't fit its buffer (finding D4) is truncated: the quotient of `0x234` and `1`
is `0x34`. -/
theorem C49_quotient_fails : ∃ (c : LimbCfg) (u v : @Buf c .be) (q : @Buf c .le),
    @Buf.toNat c .be u = 0x234 ∧ @Buf.toNat c .be v = 1 ∧
    (@divideBy c .be _ v none fun d => @ct_div_mp_mp c .be .be .le none u d (some q)).val.isNone
      = true ∧
    (@divideBy c .be _ v none fun d => @ct_div_mp_mp c .be .be .le none u d (some q)).rel.bind
      (@DivResult.nums c .be .le) = some (0, 0x34) :=
  ⟨cfg64, @Buf.ofNat cfg64 .be 2 0x234, @Buf.ofNat cfg64 .be 1 1, @Buf.ofNat cfg64 .le 1 0,
    by decide +kernel, by decide +kernel, by decide +kernel, by decide +kernel⟩

end Props
end Cmpa
