import Verif.Proofs.LongUsizeFails
import Verif.Props.Euclid
import Verif.Props.InvAny
import Verif.Props.Lcm
import Verif.Props.Montgomery
import Verif.Props.Prime
import Verif.Props.Shamir

/-!
# Operands of any length in memories of 32 and 64 bits (C71)

`u` is the size of `usize`, `@B u.cfg` the number of its values.  The functions with a prime compute lengths, numbers of
bits and numbers of steps in a `usize` as the code does: what leaves the range panics in a debug build and wraps around in
a release build.  `k` is a number of limbs, `k * LB` the number of their bytes.
-/

namespace Cmpa
namespace Props
open M
variable [LimbCfg] {φ ψ χ : Fmt} {f g h f' e : Fmt}

/-! ## Greatest common divisors -/

/-- C71: greatest common divisors, if the number of steps for operands of `k` limbs can be computed. -/
theorem C71_gcd_partial (u : UsizeCfg) (a : Buf φ) (b : Buf ψ) (k : ℕ) (ha : a.nlimbs ≤ k) (hb : b.nlimbs ≤ k)
    (hk : 49 * (8 * (k * LB) + 2) + 57 < @B u.cfg) (hne : a.len ≠ 0)
    (h0 : LenCompat a b.len) (h1 : LenCompat b a.len) (hnz : ¬ (a.toNat = 0 ∧ b.toNat = 0)) :
    Sat (ct_gcd_mp_mp' u a b) (fun r => ∃ r0 r1, r = .ok (r0, r1) ∧ r0.len = a.len ∧ r1.len = b.len ∧
      r0.toNat = Nat.gcd a.toNat b.toNat ∧ r1.toNat = 0) :=
  (ct_gcd_mp_mp'_run u a b hk ha hb).sat (C29_gcd a b hne h0 h1 hnz)

/-- C71: with a `usize` of 64 bits, this is so for all operands of less than 32 petabytes. -/
theorem C71_gcd_64_partial (a : Buf φ) (b : Buf ψ) (hne : a.len ≠ 0) (hl : a.len = b.len) (ha : a.len < 2 ^ 55 - 8)
    (hnz : ¬ (a.toNat = 0 ∧ b.toNat = 0)) :
    Sat (ct_gcd_mp_mp' ⟨cfg64⟩ a b) (fun r => ∃ r0 r1, r = .ok (r0, r1) ∧ r0.len = a.len ∧ r1.len = b.len ∧
      r0.toNat = Nat.gcd a.toNat b.toNat ∧ r1.toNat = 0) := by
  have hB : @B cfg64 = 2 ^ 64 := rfl
  have h1 : ct_mp_nlimbs a.len * LB ≤ a.len + LB - 1 := Nat.div_mul_le_self _ _
  have h2 := LB_le
  refine C71_gcd_partial ⟨cfg64⟩ a b a.nlimbs (le_refl _) (Buf.nlimbs_congr hl.symm).le ?_ hne (.inl hl.le) (.inl hl.ge) hnz
  show 49 * (8 * (ct_mp_nlimbs a.len * LB) + 2) + 57 < @B cfg64
  rw [hB]
  omega

/-- C71: with a `usize` of 32 bits, this is so for all operands of up to 10956544 bytes. -/
theorem C71_gcd_32_partial (a : Buf φ) (b : Buf ψ) (hne : a.len ≠ 0) (hl : a.len = b.len) (ha : a.len ≤ 10956544)
    (hnz : ¬ (a.toNat = 0 ∧ b.toNat = 0)) :
    Sat (ct_gcd_mp_mp' ⟨cfg32⟩ a b) (fun r => ∃ r0 r1, r = .ok (r0, r1) ∧ r0.len = a.len ∧ r1.len = b.len ∧
      r0.toNat = Nat.gcd a.toNat b.toNat ∧ r1.toNat = 0) := by
  have hB : @B cfg32 = 2 ^ 32 := rfl
  refine C71_gcd_partial ⟨cfg32⟩ a b a.nlimbs (le_refl _) (Buf.nlimbs_congr hl.symm).le ?_ hne (.inl hl.le) (.inl hl.ge) hnz
  show 49 * (8 * (ct_mp_nlimbs a.len * LB) + 2) + 57 < @B cfg32
  have h1 : ct_mp_nlimbs a.len ≤ 10956544 / LB := by
    refine (nlimbs_mono ha).trans ?_
    unfold ct_mp_nlimbs
    have : W = 8 * LB := rfl
    rcases W_cases with h | h
    · rw [show LB = 4 by omega]
    · rw [show LB = 8 by omega]
  have h2 := Nat.mul_le_mul_right LB h1
  have h3 := Nat.div_mul_le_self 10956544 LB
  rw [hB]
  omega

/-- C71 doesn't hold for longer operands: a debug build panics for all of them.  On a system of 32 bits these are
operands from 10956549 bytes on. -/
theorem C71_gcd_panics_fails (u : UsizeCfg) (a : Buf φ) (b : Buf ψ) (hne : a.len ≠ 0) (h0 : LenCompat a b.len)
    (h1 : LenCompat b a.len) (h : @B u.cfg ≤ 49 * (8 * max a.len b.len + 2) + 57) :
    (ct_gcd_mp_mp' u a b).val = none :=
  ct_gcd_mp_mp'_panic u a b hne h0 h1 (Nat.not_lt.2 h)

example : letI := cfg32; ((ct_gcd_mp_mp' ⟨cfg32⟩ (Buf.ofNat .le 5 (3 * 2 ^ 33)) (Buf.ofNat .be 5 (9 * 2 ^ 32))).val.bind
    fun r => match r with | .ok (a, b) => some (a.toNat, b.toNat) | _ => none) = some (3 * 2 ^ 32, 0) := by decide +kernel
example : letI := cfg64; ∃ a b : Buf .be, a.len = 10956549 ∧ b.len = 10956549 ∧
    (ct_gcd_mp_mp' ⟨cfg32⟩ a b).val = none := by
  let _ := cfg64
  have key : ∀ n, n = 10956549 → ∃ a b : Buf .be, a.len = 10956549 ∧ b.len = 10956549 ∧
      (ct_gcd_mp_mp' ⟨cfg32⟩ a b).val = none := by
    intro n hn
    obtain ⟨a, ha, -⟩ := exists_be n 0 (Nat.pow_pos (by norm_num))
    refine ⟨a, a, ha.trans hn, ha.trans hn, C71_gcd_panics_fails _ a a (by omega) (.inl le_rfl) (.inl le_rfl) ?_⟩
    have hB : @B cfg32 = 2 ^ 32 := rfl
    show @B cfg32 ≤ _
    rw [hB, max_self, ha, hn]
    norm_num
  exact key _ rfl

/-! ## Inverses -/

/-- C71: inverses modulo odd numbers, as in C30, if the number of steps can be computed. -/
theorem C71_inv_odd_partial (u : UsizeCfg) (r : Buf φ) (a : Buf ψ) (n : Buf χ) (s t : Buf .ne) (k : ℕ)
    (ha : a.nlimbs ≤ k) (hn : n.nlimbs ≤ k) (hk : 49 * (8 * (k * LB) + 2) + 57 < @B u.cfg)
    (hr : InvOddRoom r a n s t) (hodd : n.toNat % 2 = 1) (h1 : 1 < n.toNat)
    (hcop : Nat.gcd a.toNat n.toNat = 1) (hfit : FitsRun n.toNat a.toNat n.nlimbs) :
    Sat (ct_inv_mod_odd_mp_mp' u r a n s t) (fun x => ∃ r' a' s' t', x = .ok (r', a', s', t') ∧ r'.len = r.len ∧
      a'.len = a.len ∧ s'.len = s.len ∧ t'.len = t.len ∧ r'.toNat < n.toNat ∧ a.toNat * r'.toNat % n.toNat = 1) :=
  (ct_inv_mod_odd_mp_mp'_run u r a n s t hk ha hn).sat (C30_inv_odd_run_partial r a n s t hr hodd h1 hcop hfit)

/-- C71: inverses modulo any number, as in C32, if the number of steps can be computed. -/
theorem C71_inv_partial (u : UsizeCfg) (a : Buf φ) (n : Buf ψ) (s0 s1 s2 s3 : Buf .ne) (k : ℕ)
    (ha : a.nlimbs ≤ k) (hn : n.nlimbs ≤ k) (hk : 49 * (8 * (k * LB) + 2) + 57 < @B u.cfg)
    (hr : InvRoom a n s0 s1 s2 s3) (h1 : 1 < n.toNat) (hcop : Nat.gcd a.toNat n.toNat = 1)
    (hfit : ∀ m e, m % 2 = 1 → n.toNat = m * 2 ^ e → FitsRun m a.toNat n.nlimbs)
    (hok : LiftOk a.toNat (8 * n.len - 1))
    (hok' : ∀ m e, m % 2 = 1 → n.toNat = m * 2 ^ e → LiftOk m (8 * n.len - 1)) :
    Sat (ct_inv_mod_mp_mp' u a n s0 s1 s2 s3) (fun r => r.1.len = n.len ∧ r.1.toNat = n.toNat ∧
      ∃ o, r.2 = .ok o ∧ o.len = a.len ∧ o.toNat < n.toNat ∧ a.toNat * o.toNat % n.toNat = 1) :=
  (ct_inv_mod_mp_mp'_run u a n s0 s1 s2 s3 hk ha hn).sat (C32_inv_run_partial a n s0 s1 s2 s3 hr h1 hcop hfit hok hok')

/-- C71: inverses modulo powers of two, as in C31, for all exponents whose double, and some more, is a number there is. -/
theorem C71_inv_pow2_partial (u : UsizeCfg) (r : Buf φ) (a : Buf ψ) (e m : ℕ) (s : Buf .ne) (hm : 2 * m + 24 < @B u.cfg)
    (h0 : a.len ≠ 0) (hodd : e = 0 ∨ a.toNat % 2 = 1) (hmx : m ≠ 0) (he : e ≤ m)
    (hr : (m + 7) / 8 ≤ r.len) (hs : ct_mp_nlimbs ((m + 7) / 8) ≤ s.nlimbs) (hok : LiftOk a.toNat m) :
    Sat (ct_inv_mod_pow2_mp' u r a e m s) (fun x => x.1.len = r.len ∧
      x.2.len = s.len ∧ x.1.toNat < 2 ^ e ∧ a.toNat * x.1.toNat % 2 ^ e = 1 % 2 ^ e) :=
  (ct_inv_mod_pow2_mp'_run u r a s hm).sat (C31_inv_pow2_partial r a e m s h0 hodd hmx he hr hs hok)

/-- C71 doesn't hold for longer operands: no debug build returns an inverse of any of them. -/
theorem C71_inv_panics_fails (u : UsizeCfg) (r : Buf φ) (a : Buf ψ) (n : Buf χ) (s0 s1 s2 s3 : Buf .ne)
    (h : @B u.cfg ≤ 49 * (8 * a.len + 2) + 57) :
    (∀ x, (ct_inv_mod_odd_mp_mp' u r a n s0 s1).val ≠ some (.ok x)) ∧
    ∀ n' x, (ct_inv_mod_mp_mp' u a n s0 s1 s2 s3).val ≠ some (n', .ok x) := by
  constructor
  · intro x hx
    obtain ⟨e, he⟩ := ct_inv_mod_odd_mp_mp'_never u r a n s0 s1 (Nat.not_lt.2 h) _ hx
    cases he
  · intro n' x hx
    obtain ⟨e, he⟩ := ct_inv_mod_mp_mp'_never u a n s0 s1 s2 s3 (Nat.not_lt.2 h) _ hx
    cases he

example : letI := cfg32; ((ct_inv_mod_odd_mp_mp' ⟨cfg32⟩ (Buf.ofNat .le 5 0) (Buf.ofNat .be 5 3) (Buf.ofNat .be 5 1000003)
    (Buf.ofNat .ne 8 5) (Buf.ofNat .ne 8 7)).val.bind
    fun r => match r with | .ok (a, _) => some (3 * a.toNat % 1000003) | _ => none) = some 1 := by decide +kernel
example : letI := cfg32; ((ct_inv_mod_mp_mp' ⟨cfg32⟩ (Buf.ofNat .le 5 3) (Buf.ofNat .be 5 1000000) (Buf.ofNat .ne 8 5)
    (Buf.ofNat .ne 8 7) (Buf.ofNat .ne 8 5) (Buf.ofNat .ne 8 7)).val.bind
    fun r => match r.2 with | .ok a => some (3 * a.toNat % 1000000) | _ => none) = some 1 := by decide +kernel

/-! ## Least common multiples -/

/-- C71: least common multiples of operands in buffers of bytes, if the number of steps can be computed. -/
theorem C71_lcm_bytes_partial (u : UsizeCfg) (r : Buf φ) (a : Buf ψ) (m0 : ℕ) (b : Buf χ) (m1 : ℕ) (s : Buf χ) (k : ℕ)
    (ha : a.nlimbs ≤ k) (hb : b.nlimbs ≤ k) (hk : 49 * (8 * (k * LB) + 2) + 57 < @B u.cfg)
    (hbytes : χ = .be ∨ χ = .le) (hlen : a.len = b.len) (h0 : a.toNat < 256 ^ m0) (h1 : b.toNat < 256 ^ m1)
    (hres : min m0 a.len + min m1 b.len ≤ r.len) (hscr : min m0 a.len + min m1 b.len ≤ s.len) :
    Sat (ct_lcm_mp_mp' u r a m0 b m1 s) (fun x => ∃ r', x = .ok r' ∧
      r'.len = r.len ∧ r'.toNat = Nat.lcm a.toNat b.toNat) :=
  (ct_lcm_mp_mp'_run u r a m0 b m1 s hk ha hb).sat (C33_lcm_bytes_partial r a m0 b m1 s hbytes hlen h0 h1 hres hscr)

/-- C71: least common multiples of operands in buffers of limbs, if the number of steps can be computed. -/
theorem C71_lcm_aligned_partial (u : UsizeCfg) (r a b s : Buf .ne) (k0 k1 k : ℕ)
    (ha : a.nlimbs ≤ k) (hb : b.nlimbs ≤ k) (hk : 49 * (8 * (k * LB) + 2) + 57 < @B u.cfg)
    (hlen : a.nlimbs = b.nlimbs) (hk0 : k0 ≤ a.nlimbs) (hk1 : k1 ≤ b.nlimbs)
    (h0 : a.toNat < B ^ k0) (h1 : b.toNat < B ^ k1) (hres : k0 + k1 ≤ r.nlimbs) (hscr : k0 + k1 ≤ s.nlimbs) :
    Sat (ct_lcm_mp_mp' u r a (k0 * LB) b (k1 * LB) s) (fun x => ∃ r', x = .ok r' ∧
      r'.len = r.len ∧ r'.toNat = Nat.lcm a.toNat b.toNat) :=
  (ct_lcm_mp_mp'_run u r a _ b _ s hk ha hb).sat (C33_lcm_aligned_partial r a b s k0 k1 hlen hk0 hk1 h0 h1 hres hscr)

/-- C71 doesn't hold for longer operands: no debug build returns a least common multiple of any of them. -/
theorem C71_lcm_panics_fails (u : UsizeCfg) (r : Buf φ) (a : Buf ψ) (m0 : ℕ) (b : Buf χ) (m1 : ℕ) (s : Buf χ)
    (h0 : 0 < m0) (h1 : 0 < m1) (hb : 0 < b.len) (h : @B u.cfg ≤ 49 * (8 * a.len + 2) + 57) :
    ∀ x, (ct_lcm_mp_mp' u r a m0 b m1 s).val ≠ some (.ok x) := by
  intro x hx
  obtain ⟨e, he⟩ := ct_lcm_mp_mp'_never u r a m0 b m1 s h0 h1 hb (Nat.not_lt.2 h) _ hx
  cases he

example : letI := cfg32; ((ct_lcm_mp_mp' ⟨cfg32⟩ (Buf.ofNat .le 4 9) (Buf.ofNat .be 2 12) 2 (Buf.ofNat .le 2 18) 2
    (Buf.ofNat .le 4 7)).val.bind fun r => match r with | .ok a => some a.toNat | _ => none) = some 36 := by
  decide +kernel

/-! ## Montgomery arithmetic and powers -/

/-- C71: the square of the radix, if its number of bits, and nine more, is a number there is. -/
theorem C71_radix2_partial (u : UsizeCfg) (out : Buf f) (n : Buf g) (hk : 16 * (n.nlimbs * LB) + 9 < @B u.cfg)
    (hodd : n.toNat % 2 = 1) (hn : LenCompat n out.len) :
    Sat (ct_montgomery_radix2_mod_n_mp' u out n) (fun r => ∃ s, r = .ok s ∧ s.len = out.len ∧
      s.toNat = radix n ^ 2 % n.toNat) := by
  refine (ct_montgomery_radix2_mod_n_mp'_run u out n (le_refl _) ?_).sat (C27_radix2 out n hodd hn)
  unfold RadixFit
  rw [mul_W]
  omega

/-- C71: the direct conversion. -/
theorem C71_direct_partial (u : UsizeCfg) (t : Buf f) (n : Buf g) (hk : 8 * (n.nlimbs * LB) + 8 * t.len + 144 < @B u.cfg)
    (hodd : n.toNat % 2 = 1) (hn : LenCompat n t.len) :
    Sat (ct_to_montgomery_form_direct_mp' u t n) (fun r => ∃ s, r = .ok s ∧ s.len = t.len ∧
      s.toNat = t.toNat * radix n % n.toNat) := by
  refine (ct_to_montgomery_form_direct_mp'_run u t n (le_refl _) ?_).sat (C27_direct t n hodd hn)
  rw [mul_W]
  exact hk

/-- C71: powers, as in C28, if the numbers of bits of the exponent and of the square of the radix are numbers there are. -/
theorem C71_exp_partial (u : UsizeCfg) (r : Buf f) (a : Buf g) (n : Buf f') (p : Buf e) (nbits : ℕ) (s : Buf .ne)
    (hk : 16 * (n.nlimbs * LB) + 9 < @B u.cfg) (hp : 8 * p.len < @B u.cfg)
    (hodd : n.toNat % 2 = 1) (hb : a.toNat < n.toNat) (hbl : LenCompat a n.len) (hnb : LenCompat n a.len)
    (hsc : n.nlimbs ≤ s.nlimbs) (h2 : 2 ≤ n.nlimbs) (hhigh : (B + 1) * n.toNat ≤ B ^ (n.nlimbs + 1)) (hlen : n.len ≤ r.len)
    (halign : LB ∣ n.len ∨ 257 * n.toNat ≤ 256 ^ (n.len + 1)) :
    Sat (ct_exp_mod_odd_mp_mp' u r a n p nbits s) (fun x => ∃ y, x = .ok y ∧
      y.1.len = r.len ∧ y.2.1.len = a.len ∧ y.2.2.len = s.len ∧
      y.1.toNat = a.toNat ^ (p.toNat % 2 ^ nbits) % n.toNat) := by
  refine (ct_exp_mod_odd_mp_mp'_run u r a n p nbits s (le_refl _) ?_ hp).sat
    (C28_exp_partial r a n p nbits s hodd hb hbl hnb hsc h2 hhigh hlen halign)
  unfold RadixFit
  rw [mul_W]
  omega

/-- C71: powers of numbers in Montgomery form. -/
theorem C71_mg_exp_partial (u : UsizeCfg) (r : Buf f) (a : Buf g) (n : Buf f') (neg x : ℕ) (rad : Buf h) (p : Buf e)
    (nbits : ℕ) (s : Buf .ne) (hk : 8 * (n.nlimbs * LB) + 64 < @B u.cfg) (hp : 8 * p.len < @B u.cfg)
    (hodd : n.toNat % 2 = 1) (hneg : NegInv n neg) (hb : a.toNat = x * radix n % n.toNat)
    (hr : rad.toNat = radix n % n.toNat) (hbl : LenCompat a n.len) (hrl : LenCompat rad n.len) (hb0 : a.len ≠ 0)
    (hsc : n.nlimbs ≤ s.nlimbs) (hhigh : (B + 1) * n.toNat ≤ B ^ (n.nlimbs + 1)) (hlen : n.len ≤ r.len)
    (halign : LB ∣ n.len ∨ 257 * n.toNat ≤ 256 ^ (n.len + 1)) :
    Sat (ct_montogmery_exp_mod_odd_mp_mp' u r a n neg rad p nbits s) (fun y => ∃ z, y = .ok z ∧ z.1.len = r.len ∧
      z.2.len = s.len ∧ z.1.toNat = x ^ (p.toNat % 2 ^ nbits) * radix n % n.toNat) := by
  refine (ct_montogmery_exp_mod_odd_mp_mp'_run u r a n neg rad p nbits s (le_refl _) ?_ hp).sat
    (C28_mg_exp_partial r a n neg x rad p nbits s hodd hneg hb hr hbl hrl hb0 hsc hhigh hlen halign)
  rw [mul_W]
  exact hk

/-- C71 doesn't hold for longer exponents: no debug build returns a power with any of them. -/
theorem C71_exp_panics_fails (u : UsizeCfg) (r : Buf f) (a : Buf g) (n : Buf f') (neg : ℕ) (rad : Buf h) (p : Buf e)
    (nbits : ℕ) (s : Buf .ne) (hp : @B u.cfg ≤ 8 * p.len) :
    (∀ x, (ct_exp_mod_odd_mp_mp' u r a n p nbits s).val ≠ some (.ok x)) ∧
    ∀ x, (ct_montogmery_exp_mod_odd_mp_mp' u r a n neg rad p nbits s).val ≠ some (.ok x) := by
  constructor
  · intro x hx
    obtain ⟨e, he⟩ := ct_exp_mod_odd_mp_mp'_never u r a n p nbits s (Nat.not_lt.2 hp) _ hx
    cases he
  · intro x hx
    obtain ⟨e, he⟩ := ct_montogmery_exp_mod_odd_mp_mp'_never u r a n neg rad p nbits s (Nat.not_lt.2 hp) _ hx
    cases he

/-- C71 doesn't hold in a release build either: if `usize` has 32 bits, the power with an exponent in a buffer of half a
gigabyte is one, whatever the exponent. -/
theorem C71_exp_release_fails (r : Buf f) (a : Buf g) (n : Buf f') (p : Buf e) (nbits : ℕ) (s : Buf .ne)
    (hk : 16 * (n.nlimbs * LB) + 9 < 2 ^ 32) (hp : p.len = 2 ^ 29)
    (hodd : n.toNat % 2 = 1) (hb : a.toNat < n.toNat) (hbl : LenCompat a n.len) (hnb : LenCompat n a.len)
    (hsc : n.nlimbs ≤ s.nlimbs) (h2 : 2 ≤ n.nlimbs) (hhigh : (B + 1) * n.toNat ≤ B ^ (n.nlimbs + 1)) (hlen : n.len ≤ r.len)
    (halign : LB ∣ n.len ∨ 257 * n.toNat ≤ 256 ^ (n.len + 1)) :
    RSat (ct_exp_mod_odd_mp_mp' ⟨cfg32⟩ r a n p nbits s) (fun x => ∃ y, x = .ok y ∧
      y.1.len = r.len ∧ y.1.toNat = 1 % n.toNat) := by
  refine RSat.of_rel (ct_exp_mod_odd_mp_mp'_rel ⟨cfg32⟩ r a n p nbits s (le_refl _) ?_ ?_)
    ((C28_exp_partial r a n p 0 s hodd hb hbl hnb hsc h2 hhigh hlen halign).rel.mono ?_)
  · show 2 * (n.nlimbs * W) + 9 < 2 ^ 32
    rw [mul_W]
    omega
  · rw [hp]
    rfl
  · rintro _ ⟨y, rfl, h1, -, -, h3⟩
    refine ⟨y, rfl, h1, ?_⟩
    rw [h3, pow_zero, Nat.mod_one, pow_zero]

/-- C71 doesn't hold for longer moduli: no debug build returns the square of the radix, which is also needed for powers. -/
theorem C71_radix2_panics_fails (u : UsizeCfg) (out : Buf f) (n : Buf g) (hn : @B u.cfg ≤ 16 * (n.nlimbs * LB)) :
    ∀ x, (ct_montgomery_radix2_mod_n_mp' u out n).val ≠ some (.ok x) := by
  intro x hx
  obtain ⟨e, he⟩ := ct_montgomery_radix2_mod_n_mp'_never u out n (Nat.not_lt.2 hn) _ hx
  cases he

private theorem nlimbs_quarter (n : Buf g) (hl : n.len = 2 ^ 28) : n.nlimbs * LB = 2 ^ 28 := by
  show ct_mp_nlimbs n.len * LB = 2 ^ 28
  have : W = 8 * LB := rfl
  rw [hl]
  unfold ct_mp_nlimbs
  rcases W_cases with h | h
  · rw [show LB = 4 by omega]; norm_num
  · rw [show LB = 8 by omega]; norm_num

/-- C71 doesn't hold in a release build either: if `usize` has 32 bits and the modulus is in a buffer of a quarter of a
gigabyte, what should be the square of the radix is one. -/
theorem C71_radix2_release_fails (out : Buf f) (n : Buf g) (hl : n.len = 2 ^ 28) (hodd : n.toNat % 2 = 1)
    (hn : LenCompat n out.len) :
    RSat (ct_montgomery_radix2_mod_n_mp' ⟨cfg32⟩ out n) (fun r => ∃ s, r = .ok s ∧ s.len = out.len ∧
      s.toNat = 1 % n.toNat) := by
  have e := nlimbs_quarter n hl
  refine ct_montgomery_radix2_mod_n_mp'_rel ⟨cfg32⟩ out n (by omega) hn (le_refl _) ?_ ?_
  · rw [mul_W, e]
    exact (by norm_num : 8 * 2 ^ 28 + 64 < 2 ^ 32)
  · rw [e]
    rfl

/-- C71 fails: the modulus seven, in such a buffer, for which the square of the radix is two. -/
theorem C71_radix2_wrong_fails : ∃ n : Buf .be, n.len = 2 ^ 28 ∧ n.toNat = 7 ∧ radix n ^ 2 % n.toNat = 2 ∧
    RSat (ct_montgomery_radix2_mod_n_mp' ⟨cfg32⟩ n n) (fun r => ∃ s, r = .ok s ∧ s.toNat = 1) := by
  have key : ∀ m, m = 2 ^ 28 → ∃ n : Buf .be, n.len = 2 ^ 28 ∧ n.toNat = 7 ∧ radix n ^ 2 % n.toNat = 2 ∧
      RSat (ct_montgomery_radix2_mod_n_mp' ⟨cfg32⟩ n n) (fun r => ∃ s, r = .ok s ∧ s.toNat = 1) := by
    intro m hm
    obtain ⟨n, hn, hv⟩ := exists_be m 7 (lt_of_lt_of_le (by norm_num : 7 < 256 ^ 1)
      (Nat.pow_le_pow_right (by norm_num) (by omega)))
    have hn' := hn.trans hm
    refine ⟨n, hn', hv, ?_, (C71_radix2_release_fails n n hn' (by rw [hv]) (.inl le_rfl)).mono ?_⟩
    · obtain ⟨j, hj⟩ : ∃ j, W * n.nlimbs = 3 * j + 2 := by
        have h1 := mul_W n.nlimbs
        rw [nlimbs_quarter n hn'] at h1
        exact ⟨715827882, by rw [Nat.mul_comm, h1]; norm_num⟩
      rw [hv, radix, B_eq_two_pow, ← pow_mul, ← pow_mul, ← Nat.mul_assoc, hj, show (3 * j + 2) * 2 = 3 * (2 * j + 1) + 1 by omega, pow_add,
        pow_mul, Nat.mul_mod, Nat.pow_mod]
      norm_num
    · rintro _ ⟨s, rfl, -, h3⟩
      exact ⟨s, rfl, by rw [h3, hv]⟩
  exact key _ rfl

example : letI := cfg32; ((ct_exp_mod_odd_mp_mp' ⟨cfg32⟩ (Buf.ofNat .be 8 5) (Buf.ofNat .le 8 3) (Buf.ofNat .be 8 1000003)
    (Buf.ofNat .be 1 10) 8 (Buf.ofNat .ne 8 7)).val.bind fun r => match r with | .ok (a, _) => some a.toNat | _ => none) =
    some (3 ^ 10 % 1000003) := by decide +kernel
example : letI := cfg32; ((ct_to_montgomery_form_direct_mp' ⟨cfg32⟩ (Buf.ofNat .be 8 5) (Buf.ofNat .le 8 1000003)).val.bind
    fun r => match r with | .ok a => some a.toNat | _ => none) = some (5 * 2 ^ 64 % 1000003) := by decide +kernel

/-! ## Tests for primality -/

/-- C71: the test for small prime factors, as in C35, if the number of steps can be computed. -/
theorem C71_small_factor_partial (u : UsizeCfg) (p : Buf φ) (s t : Buf .ne)
    (hk : 49 * (8 * (p.nlimbs * LB) + 2) + 57 < @B u.cfg) (hs : p.nlimbs ≤ s.nlimbs) (ht : p.nlimbs ≤ t.nlimbs) :
    Sat (ct_composite_test_small_prime_gcd_mp' u p s t) (fun r => ∃ c : Bool, r = .ok (.ofBool c) ∧
      (c = true ↔ ∃ q, q.Prime ∧ q ≤ largestTestedPrime (p.nlimbs * LB) ∧ q ∣ p.toNat)) :=
  (ct_composite_test_small_prime_gcd_mp'_run u p s t hk (le_refl _)).sat (C35_small_factor p s t hs ht)

/-- C71: the Miller–Rabin test, as in C34, if the bits of the candidate's limbs, and a limb more, can be counted. -/
theorem C71_miller_rabin_partial (u : UsizeCfg) (b : Buf χ) (p : Buf φ) (rad : Buf ψ) (s t : Buf .ne) (a : ℕ)
    (hk : 8 * (p.nlimbs * LB) + 64 < @B u.cfg) (hp : 1 < p.toNat) (hodd : p.toNat % 2 = 1)
    (hbase : b.toNat = a * radix p % p.toNat) (hbl : LenCompat b p.len) (hbne : b.len ≠ 0)
    (hrad : rad.toNat = radix p % p.toNat) (hrl : LenCompat rad p.len) (hrn : p.nlimbs ≤ rad.nlimbs)
    (hs : p.nlimbs ≤ s.nlimbs) (ht : p.nlimbs ≤ t.nlimbs) (hhigh : (B + 1) * p.toNat ≤ B ^ (p.nlimbs + 1))
    (halign : LB ∣ p.len ∨ 257 * p.toNat ≤ 256 ^ (p.len + 1)) :
    Sat (ct_prime_test_miller_rabin_mp' u b p rad s t) (fun r => ∃ c : Bool, r = .ok (.ofBool c) ∧
      (c = true ↔ StrongProbablePrime p.toNat a)) := by
  refine (ct_prime_test_miller_rabin_mp'_run u b p rad s t (le_refl _) ?_).sat
    (C34_miller_rabin_partial b p rad s t a hp hodd hbase hbl hbne hrad hrl hrn hs ht hhigh halign)
  rw [mul_W]
  exact hk

/-- C71 doesn't hold for longer candidates: a debug build returns the outcome of neither test for any of them. -/
theorem C71_prime_panics_fails (u : UsizeCfg) (b : Buf χ) (p : Buf φ) (rad : Buf ψ) (s t : Buf .ne) :
    (@B u.cfg ≤ 49 * (8 * (p.nlimbs * LB) + 2) + 57 →
      ∀ c, (ct_composite_test_small_prime_gcd_mp' u p s t).val ≠ some (.ok c)) ∧
    (@B u.cfg ≤ 8 * p.len → ∀ c, (ct_prime_test_miller_rabin_mp' u b p rad s t).val ≠ some (.ok c)) := by
  constructor
  · intro h x hx
    obtain ⟨e, he⟩ := ct_composite_test_small_prime_gcd_mp'_never u p s t (Nat.not_lt.2 h) _ hx
    cases he
  · intro h x hx
    obtain ⟨e, he⟩ := ct_prime_test_miller_rabin_mp'_never u b p rad s t (Nat.not_lt.2 h) _ hx
    cases he

/-- C71 doesn't hold in a release build either: if `usize` has 32 bits, the Miller–Rabin test says that a candidate in a
buffer of half a gigabyte is composite, whatever the candidate. -/
theorem C71_miller_rabin_release_fails (b : Buf χ) (p : Buf φ) (rad : Buf ψ) (s t : Buf .ne) (hl : p.len = 2 ^ 29)
    (hodd : p.toNat % 2 = 1) (hbl : LenCompat b p.len) (hrl : LenCompat rad p.len) (hrlt : rad.toNat < p.toNat)
    (hs : p.nlimbs ≤ s.nlimbs) (ht : p.nlimbs ≤ t.nlimbs) :
    RSat (ct_prime_test_miller_rabin_mp' ⟨cfg32⟩ b p rad s t) (fun r => r = .ok (.ofBool false)) := by
  have h1 := LB_le
  refine ct_prime_test_miller_rabin_mp'_rel ⟨cfg32⟩ b p rad s t (by omega) hbl hrl hrlt hs ht ?_ ?_
  · have hB : @B cfg32 = 2 ^ 32 := rfl
    show p.len + LB < @B cfg32
    rw [hl, hB]
    omega
  · rw [hl]
    rfl

example : letI := cfg32; ((ct_composite_test_small_prime_gcd_mp' ⟨cfg32⟩ (Buf.ofNat .be 3 (5 * 65537)) (Buf.ofNat .ne 4 3)
    (Buf.ofNat .ne 4 3)).val.bind fun r => match r with | .ok c => some c.unwrap | _ => none) = some 1 := by
  decide +kernel
example : letI := cfg32; ((ct_prime_test_miller_rabin_mp' ⟨cfg32⟩ (Buf.ofNat .be 1 (2 * 2 ^ 32 % 13)) (Buf.ofNat .be 1 13)
    (Buf.ofNat .be 1 (2 ^ 32 % 13)) (Buf.ofNat .ne 4 3) (Buf.ofNat .ne 4 3)).val.bind
    fun r => match r with | .ok c => some c.unwrap | _ => none) = some 1 := by decide +kernel

/-! ## Errors, events and release builds -/

/-- C71: for operands as above, the outcome of a debug build, including all errors and panics, and its events are those of
the model in which lengths are unbounded. -/
theorem C71_same_partial (u : UsizeCfg) (r : Buf φ) (a : Buf ψ) (b s : Buf χ) (m0 m1 : ℕ) (n : Buf χ)
    (s0 s1 s2 s3 : Buf .ne) (k : ℕ) (ha : a.nlimbs ≤ k) (hb : b.nlimbs ≤ k) (hn : n.nlimbs ≤ k)
    (hk : 49 * (8 * (k * LB) + 2) + 57 < @B u.cfg) :
    SameRun (ct_gcd_mp_mp' u a b) (ct_gcd_mp_mp a b) ∧
    SameRun (ct_inv_mod_odd_mp_mp' u r a n s0 s1) (ct_inv_mod_odd_mp_mp r a n s0 s1) ∧
    SameRun (ct_inv_mod_mp_mp' u a n s0 s1 s2 s3) (ct_inv_mod_mp_mp a n s0 s1 s2 s3) ∧
    SameRun (ct_lcm_mp_mp' u r a m0 b m1 s) (ct_lcm_mp_mp r a m0 b m1 s) ∧
    SameRun (ct_composite_test_small_prime_gcd_mp' u a s0 s1) (ct_composite_test_small_prime_gcd_mp a s0 s1) :=
  ⟨ct_gcd_mp_mp'_run u a b hk ha hb, ct_inv_mod_odd_mp_mp'_run u r a n s0 s1 hk ha hn,
    ct_inv_mod_mp_mp'_run u a n s0 s1 s2 s3 hk ha hn, ct_lcm_mp_mp'_run u r a m0 b m1 s hk ha hb,
    ct_composite_test_small_prime_gcd_mp'_run u a s0 s1 hk ha⟩

/-- C71: likewise for Montgomery arithmetic, powers and the Miller–Rabin test. -/
theorem C71_same_powers_partial (u : UsizeCfg) (r : Buf f) (a : Buf g) (n : Buf f') (neg nbits : ℕ) (rad : Buf h) (p : Buf e)
    (s t : Buf .ne) (hk : 16 * (n.nlimbs * LB) + 64 < @B u.cfg) (hp : 8 * p.len < @B u.cfg) :
    SameRun (ct_montgomery_radix2_mod_n_mp' u r n) (ct_montgomery_radix2_mod_n_mp r n) ∧
    SameRun (ct_exp_mod_odd_mp_mp' u r a n p nbits s) (ct_exp_mod_odd_mp_mp r a n p nbits s) ∧
    SameRun (ct_montogmery_exp_mod_odd_mp_mp' u r a n neg rad p nbits s)
      (ct_montogmery_exp_mod_odd_mp_mp r a n neg rad p nbits s) ∧
    SameRun (ct_prime_test_miller_rabin_mp' u a n rad s t) (ct_prime_test_miller_rabin_mp a n rad s t) := by
  have h1 : RadixFit u n.nlimbs := by unfold RadixFit; rw [mul_W]; omega
  have h2 : n.nlimbs * W + 64 < @B u.cfg := by rw [mul_W]; omega
  exact ⟨ct_montgomery_radix2_mod_n_mp'_run u r n (le_refl _) h1, ct_exp_mod_odd_mp_mp'_run u r a n p nbits s (le_refl _) h1 hp,
    ct_montogmery_exp_mod_odd_mp_mp'_run u r a n neg rad p nbits s (le_refl _) h2 hp,
    ct_prime_test_miller_rabin_mp'_run u a n rad s t (le_refl _) h2⟩

omit [LimbCfg] in
/-- What the same run means: the same outcome and the same events. -/
theorem sameRun_iff {α : Type} (m m' : M α) : SameRun m m' ↔ m.val = m'.val ∧ m.tr = m'.tr :=
  ⟨fun h => ⟨h.val, h.tr⟩, fun h => ⟨h.1, h.2⟩⟩

omit [LimbCfg] in
/-- If a debug build doesn't panic, release builds do the same, too. -/
theorem sameRun_release {α : Type} {m m' : M α} (h : SameRun m m') {a : α} (ha : m'.val = some a) :
    m.rel = some a ∧ m'.rel = some a ∧ m.rtr = m'.rtr := by
  have h1 := m.coh a (h.val.trans ha)
  have h2 := m'.coh a ha
  exact ⟨h1.1, h2.1, h1.2.trans (h.tr.trans h2.2.symm)⟩

end Props
end Cmpa
