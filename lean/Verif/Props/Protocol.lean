import Verif.Props.Montgomery
import Verif.Props.Add
import Verif.Props.Lcm
import Verif.Props.InvAny
import Verif.Props.InvMod
import Verif.Proofs.Rsa

/-!
# Public key schemes (C45)

Programs calling the library the way its users do, and what they compute.
-/

namespace Cmpa
namespace Props

open M
variable [LimbCfg] {f g h f' e' d' : Fmt}

/-! ## C45 -/

/-- A user's program: modular exponentiation, errors being unexpected. -/
def modExp (out : Buf f) (base : Buf g) (n : Buf f') (e : Buf e') (nbits : ℕ) (scratch : Buf .ne) : M (Buf f) := do
  let (out, _, _) ← unwrapE (ct_exp_mod_odd_mp_mp out base n e nbits scratch)
  pure out

/-- A user's program: one exponentiation after the other. -/
def modExpTwice (out : Buf f) (mid : Buf h) (base : Buf g) (n : Buf f') (e : Buf e') (ebits : ℕ) (d : Buf d')
    (dbits : ℕ) (scratch : Buf .ne) : M (Buf f) := do
  let mid ← modExp mid base n e ebits scratch
  modExp out mid n d dbits scratch

/-- A user's program: the RSA private exponent `d`, returned in place of the public exponent `e`, for the
primes `p` and `q`. -/
def rsaPrivateExponent (p q e lambda scratch : Buf .be) (s0 s1 s2 s3 : Buf .ne) : M (Buf .be) := do
  let (p1, _) ← ct_sub_mp_l p 1
  let (q1, _) ← ct_sub_mp_l q 1
  let lambda ← unwrapE (ct_lcm_mp_mp lambda p1 p1.len q1 q1.len scratch)
  let (_, d) ← ct_inv_mod_mp_mp e lambda s0 s1 s2 s3
  unwrapE (pure d)

/-- The moduli for which C28 holds. -/
structure ExpModulus (n : Buf f') : Prop where
  odd : n.toNat % 2 = 1
  two_limbs : 2 ≤ n.nlimbs
  high : (B + 1) * n.toNat ≤ B ^ (n.nlimbs + 1)
  align : LB ∣ n.len ∨ 257 * n.toNat ≤ 256 ^ (n.len + 1)

theorem modExp_sat (out : Buf f) (base : Buf g) (n : Buf f') (e : Buf e') (nbits : ℕ) (scratch : Buf .ne)
    (hn : ExpModulus n) (hlen : n.len ≤ out.len) (hbl : base.len = n.len) (hb : base.toNat < n.toNat)
    (he : e.toNat < 2 ^ nbits) (hsc : n.nlimbs ≤ scratch.nlimbs) :
    Sat (modExp out base n e nbits scratch) (fun r => r.len = out.len ∧
      r.toNat = base.toNat ^ e.toNat % n.toNat) := by
  have h := C28_exp_partial out base n e nbits scratch hn.odd hb (Or.inl hbl.le) (Or.inl hbl.ge) hsc hn.two_limbs
    hn.high hlen hn.align
  unfold modExp
  refine Sat.bind (P := fun s => s.1.len = out.len ∧ s.1.toNat = base.toNat ^ e.toNat % n.toNat) ?_ ?_
  · refine h.bind ?_
    rintro r ⟨s, rfl, h1, -, -, h2⟩
    refine Sat.pure ⟨h1, ?_⟩
    rw [h2, Nat.mod_eq_of_lt he]
  · rintro ⟨r, _, _⟩ hr
    exact Sat.pure hr

/-- C45: exponents multiply. -/
theorem modExpTwice_sat (out : Buf f) (mid : Buf h) (base : Buf g) (n : Buf f') (e : Buf e') (ebits : ℕ) (d : Buf d')
    (dbits : ℕ) (scratch : Buf .ne)
    (hn : ExpModulus n) (hlen : n.len ≤ out.len) (hml : mid.len = n.len) (hbl : base.len = n.len)
    (hb : base.toNat < n.toNat) (he : e.toNat < 2 ^ ebits) (hd : d.toNat < 2 ^ dbits)
    (hsc : n.nlimbs ≤ scratch.nlimbs) :
    Sat (modExpTwice out mid base n e ebits d dbits scratch) (fun r => r.len = out.len ∧
      r.toNat = (base.toNat ^ e.toNat % n.toNat) ^ d.toNat % n.toNat) := by
  unfold modExpTwice
  refine (modExp_sat mid base n e ebits scratch hn hml.ge hbl hb he hsc).bind ?_
  rintro c ⟨h1, h2⟩
  refine (modExp_sat out c n d dbits scratch hn hlen (h1.trans hml) ?_ hd hsc).mono ?_
  · rw [h2]
    exact Nat.mod_lt _ (by omega)
  · rintro r ⟨h3, h4⟩
    exact ⟨h3, by rw [h4, h2]⟩

/-- C45, RSA: decryption is the inverse of encryption, for all messages below the modulus, whether coprime
to it or not, for exponents which are inverse to each other modulo the least common multiple of `p - 1` and `q - 1`.
Missing: the moduli excluded from C28. -/
theorem C45_rsa_partial (out : Buf f) (cipher : Buf h) (msg : Buf g) (n : Buf f') (e : Buf e') (ebits : ℕ) (d : Buf d')
    (dbits : ℕ) (scratch : Buf .ne) (p q : ℕ) (hp : p.Prime) (hq : q.Prime) (hpq : p ≠ q) (hnpq : n.toNat = p * q)
    (hed : e.toNat * d.toNat ≡ 1 [MOD Nat.lcm (p - 1) (q - 1)]) (hed0 : e.toNat * d.toNat ≠ 0)
    (hn : ExpModulus n) (hlen : n.len ≤ out.len) (hcl : cipher.len = n.len) (hml : msg.len = n.len)
    (hm : msg.toNat < n.toNat) (he : e.toNat < 2 ^ ebits) (hd : d.toNat < 2 ^ dbits)
    (hsc : n.nlimbs ≤ scratch.nlimbs) :
    Sat (modExpTwice out cipher msg n e ebits d dbits scratch) (fun r => r.toNat = msg.toNat) := by
  refine (modExpTwice_sat out cipher msg n e ebits d dbits scratch hn hlen hcl hml hm he hd hsc).mono ?_
  rintro r ⟨-, h2⟩
  rw [hnpq] at h2 hm
  rw [h2, Rsa.rsa hp hq hpq hed hed0 hm]

/-- C45, Diffie–Hellman: both parties find the same number.  Missing: the moduli excluded from C28. -/
theorem C45_dh_partial (out out' : Buf f) (mid : Buf h) (mid' : Buf d') (base : Buf g) (n : Buf f') (a : Buf e')
    (abits : ℕ) (b : Buf d') (bbits : ℕ) (scratch scratch' : Buf .ne)
    (hn : ExpModulus n) (hlen : n.len ≤ out.len) (hlen' : n.len ≤ out'.len) (hml : mid.len = n.len)
    (hml' : mid'.len = n.len) (hbl : base.len = n.len)
    (hb : base.toNat < n.toNat) (ha : a.toNat < 2 ^ abits) (hb' : b.toNat < 2 ^ bbits)
    (hsc : n.nlimbs ≤ scratch.nlimbs) (hsc' : n.nlimbs ≤ scratch'.nlimbs) :
    Sat (modExpTwice out mid base n a abits b bbits scratch) (fun r =>
      Sat (modExpTwice out' mid' base n b bbits a abits scratch') (fun r' => r.toNat = r'.toNat)) := by
  refine (modExpTwice_sat out mid base n a abits b bbits scratch hn hlen hml hbl hb ha hb' hsc).mono ?_
  rintro r ⟨-, h2⟩
  refine (modExpTwice_sat out' mid' base n b bbits a abits scratch' hn hlen' hml' hbl hb hb' ha hsc').mono ?_
  rintro r' ⟨-, h2'⟩
  rw [h2, h2', ← Nat.pow_mod, ← Nat.pow_mod, ← pow_mul, ← pow_mul, mul_comm]

/-- C45: the private exponent.  Missing: public exponents and least common multiples meeting the defect of the
squaring (`hok`, `hok'`). -/
theorem C45_private_exponent_partial (p q e lambda scratch : Buf .be) (s0 s1 s2 s3 : Buf .ne)
    (hp : 2 < p.toNat) (hq : 2 < q.toNat) (hlen : p.len = q.len)
    (hll : p.len + q.len + LB ≤ lambda.len) (hsl : p.len + q.len ≤ scratch.len) (hel : e.len = lambda.len)
    (h0 : lambda.nlimbs ≤ s0.nlimbs) (h1 : lambda.nlimbs ≤ s1.nlimbs) (h2 : lambda.nlimbs ≤ s2.nlimbs)
    (h3 : lambda.nlimbs ≤ s3.nlimbs)
    (hcop : Nat.Coprime e.toNat (Nat.lcm (p.toNat - 1) (q.toNat - 1)))
    (hok : LiftOk e.toNat (8 * lambda.len - 1))
    (hok' : ∀ m k, m % 2 = 1 → Nat.lcm (p.toNat - 1) (q.toNat - 1) = m * 2 ^ k → LiftOk m (8 * lambda.len - 1)) :
    Sat (rsaPrivateExponent p q e lambda scratch s0 s1 s2 s3) (fun d => d.len = e.len ∧
      e.toNat * d.toNat % Nat.lcm (p.toNat - 1) (q.toNat - 1) = 1) := by
  have hone : ∀ b : Buf .be, 2 < b.toNat → 1 < 256 ^ b.len := fun b hb => by
    have := b.toNat_lt
    omega
  unfold rsaPrivateExponent
  refine (C03_sub_l p 1 one_lt_B (hone p hp)).bind ?_
  rintro ⟨p1, bp⟩ ⟨lp, bp1, hp1⟩
  refine (C03_sub_l q 1 one_lt_B (hone q hq)).bind ?_
  rintro ⟨q1, bq⟩ ⟨lq, bq1, hq1⟩
  have hb : ∀ (x y : Buf .be) (b : ℕ), 2 < x.toNat → y.len = x.len → b ≤ 1 →
      y.toNat + 1 = x.toNat + b * 256 ^ x.len → y.toNat = x.toNat - 1 := by
    intro x y b hx hl hb h
    have := y.toNat_lt
    rw [hl] at this
    rcases Nat.le_one_iff_eq_zero_or_eq_one.1 hb with rfl | rfl <;> omega
  have hp1' := hb p p1 bp hp lp bp1 hp1
  have hq1' := hb q q1 bq hq lq bq1 hq1
  dsimp only at lp lq ⊢
  refine Sat.bind (P := fun l : Buf .be => l.len = lambda.len ∧
    l.toNat = Nat.lcm (p.toNat - 1) (q.toNat - 1)) ?_ ?_
  · refine (C33_lcm_bytes_partial lambda p1 p1.len q1 q1.len scratch (Or.inl rfl) (by omega) p1.toNat_lt q1.toNat_lt
      (by omega) (by omega)).bind ?_
    rintro r ⟨s, rfl, h1, h2⟩
    exact Sat.pure ⟨h1, by rw [h2, hp1', hq1']⟩
  · rintro l ⟨ll, hl⟩
    have hLB := LB_pos
    have hll0 : l.len ≠ 0 := by omega
    have hnl : l.nlimbs = lambda.nlimbs := Buf.nlimbs_congr ll
    have hpos : 0 < Nat.lcm (p.toNat - 1) (q.toNat - 1) := Nat.lcm_pos (by omega) (by omega)
    have hgt : 1 < l.toNat := by
      rw [hl]
      have := Nat.le_of_dvd hpos (Nat.dvd_lcm_left (p.toNat - 1) (q.toNat - 1))
      omega
    refine (C32_inv_partial e l s0 s1 s2 s3 ⟨hll0, Or.inl (by omega), Or.inl (by omega), by omega, by omega, by omega,
      by omega⟩ hgt (by rw [hl]; exact hcop) ?_ (by rw [ll]; exact hok) ?_).bind ?_
    · intro m k hm hmk
      left
      have hml : m ≤ l.toNat := by
        rw [hmk]
        exact Nat.le_mul_of_pos_right m (by positivity)
      refine hml.trans_lt ?_
      rw [hl]
      have h5 : Nat.lcm (p.toNat - 1) (q.toNat - 1) ≤ (p.toNat - 1) * (q.toNat - 1) :=
        Nat.le_of_dvd (Nat.mul_pos (by omega) (by omega)) (Nat.lcm_dvd_mul _ _)
      refine h5.trans_lt ?_
      rw [B_eq_256_pow, ← pow_mul]
      calc (p.toNat - 1) * (q.toNat - 1) < 256 ^ p.len * 256 ^ q.len :=
            Nat.mul_lt_mul_of_lt_of_lt (by have := p.toNat_lt; omega) (by have := q.toNat_lt; omega)
        _ = 256 ^ (p.len + q.len) := by rw [pow_add]
        _ ≤ 256 ^ (LB * (l.nlimbs - 1)) := by
            refine Nat.pow_le_pow_right (by norm_num) ?_
            have h6 : l.len ≤ l.nlimbs * LB := by
              rw [Buf.nlimbs_eq]
              exact le_nlimbs_mul _
            rw [Nat.mul_comm, Nat.sub_mul, one_mul]
            omega
    · intro m k hm hmk
      rw [ll]
      exact hok' m k hm (by rw [← hl]; exact hmk)
    · rintro ⟨n', r⟩ ⟨-, -, o, h7, h8, -, h9⟩
      dsimp only at h7
      subst h7
      refine Sat.pure ⟨h8, ?_⟩
      rw [← hl]
      exact h9

/-- A user's program: the private exponent, then encryption and decryption. -/
def rsaRoundTrip (p q e lambda scratch : Buf .be) (s0 s1 s2 s3 : Buf .ne) (out : Buf f) (cipher : Buf h) (msg : Buf g)
    (n : Buf f') (scratch' : Buf .ne) : M (Buf f) := do
  let d ← rsaPrivateExponent p q e lambda scratch s0 s1 s2 s3
  modExpTwice out cipher msg n e (8 * e.len) d (8 * d.len) scratch'

/-- C45, RSA with the private exponent computed from the primes: all messages are found again.  Missing: as for
`C45_private_exponent_partial` and `C45_rsa_partial`. -/
theorem C45_rsa_keygen_partial (p q e lambda scratch : Buf .be) (s0 s1 s2 s3 : Buf .ne) (out : Buf f) (cipher : Buf h)
    (msg : Buf g) (n : Buf f') (scratch' : Buf .ne)
    (hp : p.toNat.Prime) (hq : q.toNat.Prime) (hpq : p.toNat ≠ q.toNat) (hp2 : p.toNat ≠ 2) (hq2 : q.toNat ≠ 2)
    (hnpq : n.toNat = p.toNat * q.toNat) (hlen : p.len = q.len)
    (hll : p.len + q.len + LB ≤ lambda.len) (hsl : p.len + q.len ≤ scratch.len) (hel : e.len = lambda.len)
    (h0 : lambda.nlimbs ≤ s0.nlimbs) (h1 : lambda.nlimbs ≤ s1.nlimbs) (h2 : lambda.nlimbs ≤ s2.nlimbs)
    (h3 : lambda.nlimbs ≤ s3.nlimbs)
    (hcop : Nat.Coprime e.toNat (Nat.lcm (p.toNat - 1) (q.toNat - 1)))
    (hok : LiftOk e.toNat (8 * lambda.len - 1))
    (hok' : ∀ m k, m % 2 = 1 → Nat.lcm (p.toNat - 1) (q.toNat - 1) = m * 2 ^ k → LiftOk m (8 * lambda.len - 1))
    (hn : ExpModulus n) (hol : n.len ≤ out.len) (hcl : cipher.len = n.len) (hml : msg.len = n.len)
    (hm : msg.toNat < n.toNat) (hsc : n.nlimbs ≤ scratch'.nlimbs) :
    Sat (rsaRoundTrip p q e lambda scratch s0 s1 s2 s3 out cipher msg n scratch')
      (fun r => r.toNat = msg.toNat) := by
  have hp3 : 2 < p.toNat := by have := hp.two_le; omega
  have hq3 : 2 < q.toNat := by have := hq.two_le; omega
  unfold rsaRoundTrip
  refine (C45_private_exponent_partial p q e lambda scratch s0 s1 s2 s3 hp3 hq3 hlen hll hsl hel h0 h1 h2 h3 hcop hok
    hok').bind ?_
  rintro d ⟨-, hd⟩
  have hbits : ∀ b : Buf .be, b.toNat < 2 ^ (8 * b.len) := fun b => by
    rw [pow_mul]
    exact b.toNat_lt
  have hpos : 0 < Nat.lcm (p.toNat - 1) (q.toNat - 1) := Nat.lcm_pos (by omega) (by omega)
  have hgt : 1 < Nat.lcm (p.toNat - 1) (q.toNat - 1) := by
    have := Nat.le_of_dvd hpos (Nat.dvd_lcm_left (p.toNat - 1) (q.toNat - 1))
    omega
  refine C45_rsa_partial out cipher msg n e _ d _ scratch' p.toNat q.toNat hp hq hpq hnpq ?_ ?_ hn hol hcl hml hm
    (hbits e) (hbits d) hsc
  · rw [Nat.ModEq, hd, Nat.mod_eq_of_lt hgt]
  · intro hz
    rw [hz, Nat.zero_mod] at hd
    omega

/-- C45: modulo a prime the inverse found by the extended Euclidean algorithm is the one found by exponentiation, with
Fermat's little theorem.  Missing: the moduli excluded from C28 and C30. -/
theorem C45_fermat_inverse_partial (out : Buf f) (base : Buf g) (n : Buf f') (e : Buf e') (nbits : ℕ) (scratch : Buf .ne)
    (result : Buf h) (s0 s1 : Buf .ne) (hp : n.toNat.Prime) (he : e.toNat = n.toNat - 2) (hen : e.toNat < 2 ^ nbits)
    (hn : ExpModulus n) (hlen : n.len ≤ out.len) (hbl : base.len = n.len) (hb : base.toNat < n.toNat)
    (hb0 : base.toNat ≠ 0) (hsc : n.nlimbs ≤ scratch.nlimbs)
    (hr : InvOddRoom result base n s0 s1) (hzero : n.toNat < B ^ (n.nlimbs - 1)) :
    Sat (modExp out base n e nbits scratch) (fun r =>
      Sat (ct_inv_mod_odd_mp_mp result base n s0 s1) (fun r' =>
        ∃ r'' x y z, r' = .ok (r'', x, y, z) ∧ r''.toNat = r.toNat)) := by
  have hcop : Nat.Coprime base.toNat n.toNat :=
    (Nat.coprime_of_lt_prime (by omega) hb hp).symm
  refine (modExp_sat out base n e nbits scratch hn hlen hbl hb hen hsc).mono ?_
  rintro r ⟨-, h2⟩
  refine (C30_inv_odd_partial result base n s0 s1 hr hn.odd hp.one_lt hcop hzero).mono ?_
  rintro r' ⟨r'', x, y, z, h3, -, -, -, -, h4, h5⟩
  refine ⟨r'', x, y, z, h3, ?_⟩
  have h6 : base.toNat * r.toNat ≡ 1 [MOD n.toNat] := by
    rw [h2, he]
    refine ((Nat.mod_modEq _ _).mul_left _).trans ?_
    have := hn.odd
    have := hp.two_le
    rw [← pow_succ', show n.toNat - 2 + 1 = n.toNat - 1 by omega, ← Nat.totient_prime hp]
    exact Nat.ModEq.pow_totient hcop
  have h7 : base.toNat * r''.toNat ≡ 1 [MOD n.toNat] := by
    rw [Nat.ModEq, h5, Nat.mod_eq_of_lt hp.one_lt]
  have h8 : r''.toNat ≡ r.toNat [MOD n.toNat] :=
    Nat.ModEq.cancel_left_of_coprime hcop.symm (h7.trans h6.symm)
  have h9 : r.toNat < n.toNat := by
    rw [h2]
    exact Nat.mod_lt _ hp.pos
  rw [Nat.ModEq, Nat.mod_eq_of_lt h4, Nat.mod_eq_of_lt h9] at h8
  exact h8

-- The hypotheses can be met: a textbook key.
example : letI := cfg64;
    ((rsaPrivateExponent (Buf.ofNat .be 1 61) (Buf.ofNat .be 1 53) (Buf.ofNat .be 10 17) (Buf.ofNat .be 10 0)
      (Buf.ofNat .be 2 0) (Buf.ofNat .ne 16 0) (Buf.ofNat .ne 16 0) (Buf.ofNat .ne 16 0)
      (Buf.ofNat .ne 16 0)).val.map Buf.toNat) = some 413 ∧
    ((modExp (Buf.ofNat .le 9 5) (Buf.ofNat .be 9 65) (Buf.ofNat .be 9 3233) (Buf.ofNat .ne 8 17) 5
      (Buf.ofNat .ne 16 0)).val.map Buf.toNat) = some 2790 ∧
    ((modExpTwice (Buf.ofNat .ne 16 5) (Buf.ofNat .le 9 5) (Buf.ofNat .be 9 65) (Buf.ofNat .be 9 3233)
      (Buf.ofNat .ne 8 17) 5 (Buf.ofNat .be 2 413) 16 (Buf.ofNat .ne 16 0)).val.map Buf.toNat) = some 65 := by
  decide +kernel
-- A message which is not coprime to the modulus.
example : letI := cfg32;
    ((rsaRoundTrip (Buf.ofNat .be 1 61) (Buf.ofNat .be 1 53) (Buf.ofNat .be 6 17) (Buf.ofNat .be 6 0)
      (Buf.ofNat .be 2 0) (Buf.ofNat .ne 8 0) (Buf.ofNat .ne 8 0) (Buf.ofNat .ne 8 0)
      (Buf.ofNat .ne 8 0) (Buf.ofNat .ne 8 0) (Buf.ofNat .le 5 0) (Buf.ofNat .be 5 (2 * 61)) (Buf.ofNat .be 5 3233)
      (Buf.ofNat .ne 8 0)).val.map Buf.toNat) = some 122 := by
  decide +kernel
example : letI := cfg32; ExpModulus (Buf.ofNat .be 5 3233) :=
  letI := cfg32; ⟨by decide +kernel, by decide +kernel, by decide +kernel, by decide +kernel⟩
example : letI := cfg32;
    LiftOk 17 (8 * 6 - 1) ∧ ∀ m k, m % 2 = 1 → Nat.lcm (61 - 1) (53 - 1) = m * 2 ^ k → LiftOk m (8 * 6 - 1) :=
  letI := cfg32; ⟨liftOk_small (by decide +kernel), fun _ _ _ _ => liftOk_small (by decide +kernel)⟩
example : letI := cfg32;
    ((modExp (Buf.ofNat .le 9 5) (Buf.ofNat .be 9 12345) (Buf.ofNat .be 9 65537) (Buf.ofNat .ne 4 65535) 16
      (Buf.ofNat .ne 12 0)).val.map Buf.toNat) = some 31651 ∧ 12345 * 31651 % 65537 = 1 := by
  decide +kernel

end Props
end Cmpa
