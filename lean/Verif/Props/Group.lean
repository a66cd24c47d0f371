import Verif.Props.SquareRoot
import Verif.Props.Garner

/-!
# C67: Diffie–Hellman, ElGamal, DSA and Schnorr for all groups

With a limb to spare for powers and inverses, the protocols of discrete logarithms are right for all parameters.
-/

namespace Cmpa
namespace Props

open M
variable [LimbCfg]

/-! ## The programs -/

/-- A user's program: an ElGamal encryption of `m` for the public key `y` with the nonce `k`. -/
def elgamalEncrypt (p g y m k : Buf .be) : M (Buf .be × Buf .be) := do
  let c ← fPow p g k
  let s ← fPow p y k
  let e ← fMul p m s
  pure (c, e)

/-- A user's program: an ElGamal decryption with the private key `x`. -/
def elgamalDecrypt (p x c e : Buf .be) : M (Buf .be) := do
  let s ← fPow p c x
  let s ← fInv p s
  fMul p e s

/-- A user's program: DSA signing, as `dsaSign`, but with a limb to spare. -/
def groupSign (p q g x k m : Buf .be) : M (Buf .be × Buf .be) := do
  let a ← fPow p g k
  let r ← reduceTo (zeros q.len) a q
  let k' ← fInv q k
  let t ← fMul q x r
  let t ← fAdd q t m
  let s ← fMul q k' t
  pure (r, s)

/-- A user's program: DSA verification, as `dsaVerify`, but with a limb to spare. -/
def groupVerify (p q g y m r s : Buf .be) : M Bool := do
  let r0 ← ct_is_zero_mp r
  let s0 ← ct_is_zero_mp s
  let r1 ← ct_geq_mp_mp r q
  let s1 ← ct_geq_mp_mp s q
  M.cond ((((r0.or s0).or r1).or s1).unwrap ≠ 0) (pure false) do
    let v ← fInv q s
    let u1 ← fMul q m v
    let u2 ← fMul q r v
    let a ← fPow p g u1
    let b ← fPow p y u2
    let c ← fMul p a b
    let v ← reduceTo (zeros q.len) c q
    fEq v r

/-- A user's program: the answer of Schnorr's identification, for the private key `x`, the nonce `k` and the challenge
`c`. -/
def schnorrAnswer (q x k c : Buf .be) : M (Buf .be) := do
  let t ← fMul q c x
  fAdd q k t

/-- A user's program: Schnorr's verification of the answer `s` to the challenge `c` for the commitment `r`. -/
def schnorrVerify (p g y r c s : Buf .be) : M Bool := do
  let a ← fPow p g s
  let b ← fPow p y c
  let b ← fMul p r b
  fEq a b

/-- A user's program: the private key from answers to two challenges for the same commitment. -/
def schnorrExtract (q c s c' s' : Buf .be) : M (Buf .be) := do
  let t ← fSub q s s'
  let u ← fSub q c c'
  let u ← fInv q u
  fMul q t u

/-! ## Proofs -/

section
variable {p q a b : Buf .be}

theorem El.toNat_mod {n : ℕ} (h : El p a (n : ZMod p.toNat)) : a.toNat = n % p.toNat := by
  have h1 := (ZMod.natCast_eq_natCast_iff' a.toNat n p.toNat).1 h.val
  rwa [Nat.mod_eq_of_lt h.lt] at h1

theorem El.of (hl : a.len = p.len) (h : a.toNat < p.toNat) : El p a (a.toNat : ZMod p.toNat) := ⟨hl, h, rfl⟩

/-- C67, Diffie–Hellman: both parties find the same number, for all odd moduli. -/
theorem C67_dh (p g a b : Buf .be) (hodd : p.toNat % 2 = 1) (hl : g.len = p.len) (hg : g.toNat < p.toNat) :
    Sat (do let y ← fPow p g a; fPow p y b) (fun r =>
      Sat (do let y ← fPow p g b; fPow p y a) (fun r' => r.toNat = r'.toNat ∧
        r.toNat = g.toNat ^ (a.toNat * b.toNat) % p.toNat)) := by
  have key : ∀ a b : Buf .be, Sat (do let y ← fPow p g a; fPow p y b) (fun r =>
      r.toNat = g.toNat ^ (a.toNat * b.toNat) % p.toNat) := by
    intro a b
    refine (C65_power p g a hodd hl hg).bind fun y hy => ?_
    refine (C65_power p y b hodd hy.1 (by rw [hy.2]; exact Nat.mod_lt _ (by omega))).mono fun r hr => ?_
    rw [hr.2, hy.2, ← Nat.pow_mod, ← pow_mul]
  refine (key a b).mono fun r hr => (key b a).mono fun r' hr' => ⟨?_, hr⟩
  rw [hr, hr', mul_comm]

/-- C67, ElGamal: decryption yields the message, for all odd primes, all generators, keys, nonces and messages. -/
theorem C67_elgamal (p g y m k x : Buf .be) (hp : FieldModulus p) (hgl : g.len = p.len) (hg : g.toNat < p.toNat)
    (hg0 : g.toNat ≠ 0) (hyl : y.len = p.len) (hy : y.toNat = g.toNat ^ x.toNat % p.toNat) (hml : m.len = p.len)
    (hm : m.toNat < p.toNat) :
    Sat (do let (c, e) ← elgamalEncrypt p g y m k
            elgamalDecrypt p x c e) (fun r => r.len = p.len ∧ r.toNat = m.toNat) := by
  have hpos := hp.prime.pos
  have hylt : y.toNat < p.toNat := hy ▸ Nat.mod_lt _ hpos
  haveI := hp.inst
  unfold elgamalEncrypt elgamalDecrypt
  refine Sat.bind (P := fun r => El p r.1 ((g.toNat : ZMod p.toNat) ^ k.toNat) ∧
    El p r.2 (m.toNat * (y.toNat : ZMod p.toNat) ^ k.toNat)) ?_ ?_
  · refine (fPow_sat hp.odd (El.of hgl hg)).bind fun c hc => ?_
    refine (fPow_sat hp.odd (El.of hyl hylt)).bind fun s hs => ?_
    refine (fMul_sat (El.of hml hm) hs).bind fun e he => ?_
    exact Sat.pure ⟨hc, he⟩
  rintro ⟨c, e⟩ ⟨hc, he⟩
  have hg0' : (g.toNat : ZMod p.toNat) ≠ 0 := fun h => hg0 ((El.of hgl hg).zero_iff.2 h)
  refine (fPow_sat hp.odd hc).bind fun s hs => ?_
  refine (fInv_sat hp hs (pow_ne_zero _ (pow_ne_zero _ hg0'))).bind fun s' hs' => ?_
  obtain ⟨z, hz, hz1⟩ := hs'
  refine (fMul_sat he hz).mono fun r hr => ⟨hr.len, ?_⟩
  refine (hr.eq_iff (El.of hml hm)).2 ?_
  have hy' : (y.toNat : ZMod p.toNat) = (g.toNat : ZMod p.toNat) ^ x.toNat := by
    rw [hy, ZMod.natCast_mod, Nat.cast_pow]
  rw [hy', mul_assoc, ← pow_mul, mul_comm x.toNat, pow_mul, hz1, mul_one]

/-- C67, DSA: what signing returns, for all odd `p` and all odd primes `q`. -/
theorem C67_sign (p q g x k m : Buf .be) (hp : p.toNat % 2 = 1) (hq : FieldModulus q) (hgl : g.len = p.len)
    (hg : g.toNat < p.toNat) (hxl : x.len = q.len) (hx : x.toNat < q.toNat) (hkl : k.len = q.len) (hk0 : 0 < k.toNat)
    (hk : k.toNat < q.toNat) (hml : m.len = q.len) (hm : m.toNat < q.toNat) :
    Sat (groupSign p q g x k m) (fun rs => rs.1.len = q.len ∧ rs.2.len = q.len ∧
      rs.1.toNat = g.toNat ^ k.toNat % p.toNat % q.toNat ∧ rs.2.toNat < q.toNat ∧
      k.toNat * rs.2.toNat ≡ m.toNat + x.toNat * rs.1.toNat [MOD q.toNat]) := by
  haveI := hq.inst
  unfold groupSign
  refine (C65_power p g k hp hgl hg).bind fun a ha => ?_
  refine (reduceTo_el hq.prime.pos).bind fun r hr => ?_
  have hk0' : (k.toNat : ZMod q.toNat) ≠ 0 := fun h => hk0.ne' ((El.of hkl hk).zero_iff.2 h)
  refine (fInv_sat hq (El.of hkl hk) hk0').bind fun k' hk' => ?_
  obtain ⟨z, hz, hz1⟩ := hk'
  refine (fMul_sat (El.of hxl hx) hr.1).bind fun t ht => ?_
  refine (fAdd_sat ht (El.of hml hm)).bind fun t' ht' => ?_
  refine (fMul_sat hz ht').bind fun s hs => ?_
  refine Sat.pure ⟨hr.1.len, hs.len, by rw [hr.2, ha.2], hs.lt, ?_⟩
  rw [← ZMod.natCast_eq_natCast_iff]
  push_cast
  rw [hs.val, hr.1.val, ← mul_assoc, hz1, one_mul, add_comm]

/-- C67, DSA: verifying tells whether a signature is valid, whatever the signature, for all odd `p` and all odd
primes `q`. -/
theorem C67_verify (p q g y m r s : Buf .be) (hp : p.toNat % 2 = 1) (hq : FieldModulus q) (hgl : g.len = p.len)
    (hg : g.toNat < p.toNat) (hyl : y.len = p.len) (hy : y.toNat < p.toNat) (hml : m.len = q.len) (hm : m.toNat < q.toNat)
    (hrl : r.len = q.len) (hsl : s.len = q.len) :
    Sat (groupVerify p q g y m r s) (fun b =>
      b = true ↔ DsaValid p.toNat q.toNat g.toNat y.toNat m.toNat r.toNat s.toNat) := by
  have hq0 : 0 < q.toNat := hq.prime.pos
  have hp0 : 0 < p.toNat := by omega
  haveI := hq.inst
  unfold groupVerify
  refine (C01_is_zero r).bind fun r0 hr0 => ?_
  refine (C01_is_zero s).bind fun s0 hs0 => ?_
  refine (C01_geq r q).bind fun r1 hr1 => ?_
  refine (C01_geq s q).bind fun s1 hs1 => ?_
  subst hr0 hs0 hr1 hs1
  simp only [LimbChoice.or_ofBool, LimbChoice.unwrap_ofBool]
  refine Sat.cond (fun hc => Sat.pure ?_) fun hc => ?_
  · refine ⟨fun h => absurd h (by simp), fun ⟨c1, c2, c3, c4, _⟩ => ?_⟩
    exact absurd hc (by simp [c1.ne', c3.ne', c2, c4])
  have hc' : 0 < r.toNat ∧ r.toNat < q.toNat ∧ 0 < s.toNat ∧ s.toNat < q.toNat := by
    simp at hc
    omega
  obtain ⟨c1, c2, c3, c4⟩ := hc'
  have hcop : Nat.Coprime s.toNat q.toNat :=
    Nat.Coprime.symm ((Nat.Prime.coprime_iff_not_dvd hq.prime).2 (Nat.not_dvd_of_pos_of_lt c3 c4))
  refine (fInv_coprime_sat hq.odd hq.prime.one_lt (El.of hsl c4) hcop).bind fun v hv => ?_
  obtain ⟨z, hz, hz1⟩ := hv
  have hv1 : s.toNat * v.toNat % q.toNat = 1 := by
    rw [← hz.val, ← Nat.cast_mul, ← Nat.cast_one, ZMod.natCast_eq_natCast_iff', Nat.mod_eq_of_lt hq.prime.one_lt] at hz1
    exact hz1
  rw [← hz.val] at hz
  refine (fMul_sat (El.of hml hm) hz).bind fun u1 hu1 => ?_
  refine (fMul_sat (El.of hrl c2) hz).bind fun u2 hu2 => ?_
  rw [← Nat.cast_mul] at hu1 hu2
  refine (C65_power p g u1 hp hgl hg).bind fun a ha => ?_
  refine (C65_power p y u2 hp hyl hy).bind fun b hb => ?_
  have hmod : ∀ n, n % p.toNat < p.toNat := fun n => Nat.mod_lt _ hp0
  refine (fMul_sat (El.of ha.1 (ha.2 ▸ hmod _)) (El.of hb.1 (hb.2 ▸ hmod _))).bind fun c hc => ?_
  rw [← Nat.cast_mul] at hc
  refine (reduceTo_el hq0).bind fun v' hv' => ?_
  refine (fEq_sat (El.of hv'.1.len hv'.1.lt) (El.of hrl c2)).mono fun res hres => ?_
  rw [hres, ← (El.of hv'.1.len hv'.1.lt).eq_iff (El.of hrl c2)]
  have key : v'.toNat = g.toNat ^ (m.toNat * v.toNat % q.toNat) * y.toNat ^ (r.toNat * v.toNat % q.toNat) % p.toNat
      % q.toNat := by
    rw [hv'.2, hc.toNat_mod, ha.2, hb.2, hu1.toNat_mod, hu2.toNat_mod, ← Nat.mul_mod]
  rw [key]
  refine ⟨fun h => ⟨c1, c2, c3, c4, v.toNat, hz.lt, hv1, h⟩, ?_⟩
  rintro ⟨-, -, -, -, v'', w1, w2, w3⟩
  have h1 : s.toNat * v'' ≡ s.toNat * v.toNat [MOD q.toNat] := w2.trans hv1.symm
  have h2 : v'' = v.toNat := by
    have := Nat.ModEq.cancel_left_of_coprime (Nat.gcd_comm _ _ ▸ hcop) h1
    rwa [Nat.ModEq, Nat.mod_eq_of_lt w1, Nat.mod_eq_of_lt hz.lt] at this
  rw [h2] at w3
  exact w3

/-- C67, DSA: the signatures made with a private key verify with the public key, unless `r` or `s` is zero. -/
theorem C67_sign_verify (p q g y x k m : Buf .be) (hp : p.toNat % 2 = 1) (hq : FieldModulus q) (hgl : g.len = p.len)
    (hg : g.toNat < p.toNat) (hord : g.toNat ^ q.toNat ≡ 1 [MOD p.toNat]) (hyl : y.len = p.len)
    (hy : y.toNat = g.toNat ^ x.toNat % p.toNat) (hxl : x.len = q.len) (hx : x.toNat < q.toNat) (hkl : k.len = q.len)
    (hk0 : 0 < k.toNat) (hk : k.toNat < q.toNat) (hml : m.len = q.len) (hm : m.toNat < q.toNat) :
    Sat (do let (r, s) ← groupSign p q g x k m
            let b ← groupVerify p q g y m r s
            pure (r, s, b))
      (fun rsb => rsb.1.toNat ≠ 0 → rsb.2.1.toNat ≠ 0 → rsb.2.2 = true) := by
  refine (C67_sign p q g x k m hp hq hgl hg hxl hx hkl hk0 hk hml hm).bind ?_
  rintro ⟨r, s⟩ ⟨lr, ls, vr, vs, hs⟩
  refine (C67_verify p q g y m r s hp hq hgl hg hyl (by rw [hy]; exact Nat.mod_lt _ (by omega)) hml hm lr ls).bind
    fun b hb => Sat.pure fun h1 h2 => ?_
  exact hb.2 (dsaValid_of_signed hq.prime hord (by rw [hy]; exact Nat.mod_modEq _ _) vr vs hs (Nat.pos_of_ne_zero h1)
    (Nat.pos_of_ne_zero h2))

/-- C67, Schnorr: what the verification accepts, for all odd moduli. -/
theorem C67_schnorr_verify (p g y r c s : Buf .be) (hp : p.toNat % 2 = 1) (hgl : g.len = p.len) (hg : g.toNat < p.toNat)
    (hyl : y.len = p.len) (hy : y.toNat < p.toNat) (hrl : r.len = p.len) (hr : r.toNat < p.toNat) :
    Sat (schnorrVerify p g y r c s) (fun b =>
      b = true ↔ g.toNat ^ s.toNat ≡ r.toNat * y.toNat ^ c.toNat [MOD p.toNat]) := by
  have hmod : ∀ n, n % p.toNat < p.toNat := fun n => Nat.mod_lt _ (by omega)
  unfold schnorrVerify
  refine (C65_power p g s hp hgl hg).bind fun a ha => ?_
  refine (C65_power p y c hp hyl hy).bind fun b hb => ?_
  refine (fMul_sat (El.of hrl hr) (El.of hb.1 (hb.2 ▸ hmod _))).bind fun d hd => ?_
  refine (fEq_sat (El.of ha.1 (ha.2 ▸ hmod _)) hd).mono fun res hres => ?_
  rw [hres, ← Nat.cast_mul, ZMod.natCast_eq_natCast_iff, ha.2, hb.2]
  exact ⟨fun h => (Nat.mod_modEq _ _).symm.trans (h.trans ((Nat.mod_modEq _ _).mul_left _)),
    fun h => (Nat.mod_modEq _ _).trans (h.trans ((Nat.mod_modEq _ _).mul_left _).symm)⟩

/-- C67, Schnorr: the answers of the holder of the private key are accepted, for all odd primes `q`, all odd `p`, and all
challenges. -/
theorem C67_schnorr_complete (p q g y x k c : Buf .be) (hp : p.toNat % 2 = 1) (hq : FieldModulus q) (hgl : g.len = p.len)
    (hg : g.toNat < p.toNat) (hord : g.toNat ^ q.toNat ≡ 1 [MOD p.toNat]) (hyl : y.len = p.len)
    (hy : y.toNat = g.toNat ^ x.toNat % p.toNat) (hxl : x.len = q.len) (hx : x.toNat < q.toNat) (hkl : k.len = q.len)
    (hk : k.toNat < q.toNat) (hcl : c.len = q.len) (hc : c.toNat < q.toNat) :
    Sat (do let r ← fPow p g k
            let s ← schnorrAnswer q x k c
            schnorrVerify p g y r c s) (fun b => b = true) := by
  have hp0 : 0 < p.toNat := by omega
  refine (C65_power p g k hp hgl hg).bind fun r hr => ?_
  refine Sat.bind (P := fun s => s.toNat ≡ k.toNat + c.toNat * x.toNat [MOD q.toNat]) ?_ fun s hs => ?_
  · unfold schnorrAnswer
    refine (fMul_sat (El.of hcl hc) (El.of hxl hx)).bind fun t ht => ?_
    refine (fAdd_sat (El.of hkl hk) ht).mono fun s hs => ?_
    rw [← ZMod.natCast_eq_natCast_iff, hs.val]
    push_cast
    rfl
  refine (C67_schnorr_verify p g y r c s hp hgl hg hyl (by rw [hy]; exact Nat.mod_lt _ hp0) hr.1
    (by rw [hr.2]; exact Nat.mod_lt _ hp0)).mono fun b hb => hb.2 ?_
  calc g.toNat ^ s.toNat ≡ g.toNat ^ (k.toNat + c.toNat * x.toNat) [MOD p.toNat] := pow_modEq_of_order hord hs
    _ = g.toNat ^ k.toNat * (g.toNat ^ x.toNat) ^ c.toNat := by rw [pow_add, mul_comm c.toNat, pow_mul]
    _ ≡ r.toNat * y.toNat ^ c.toNat [MOD p.toNat] := by
      rw [hr.2, hy]
      exact (Nat.mod_modEq _ _).symm.mul ((Nat.mod_modEq _ _).symm.pow _)

/-- C67, Schnorr: whoever can answer two challenges knows the private key, as the program finds it from the answers. -/
theorem C67_schnorr_extract (p q g y r c s c' s' : Buf .be) (hp : p.toNat.Prime) (hq : FieldModulus q)
    (hr0 : ¬ p.toNat ∣ r.toNat)
    (hord : g.toNat ^ q.toNat ≡ 1 [MOD p.toNat]) (hyord : y.toNat ^ q.toNat ≡ 1 [MOD p.toNat])
    (hcl : c.len = q.len) (hc : c.toNat < q.toNat) (hcl' : c'.len = q.len) (hc' : c'.toNat < q.toNat)
    (hsl : s.len = q.len) (hs : s.toNat < q.toNat) (hsl' : s'.len = q.len) (hs' : s'.toNat < q.toNat)
    (hne : c.toNat ≠ c'.toNat)
    (h : g.toNat ^ s.toNat ≡ r.toNat * y.toNat ^ c.toNat [MOD p.toNat])
    (h' : g.toNat ^ s'.toNat ≡ r.toNat * y.toNat ^ c'.toNat [MOD p.toNat]) :
    Sat (schnorrExtract q c s c' s') (fun x => x.toNat < q.toNat ∧ y.toNat ≡ g.toNat ^ x.toNat [MOD p.toNat]) := by
  haveI := hq.inst
  haveI : Fact p.toNat.Prime := ⟨hp⟩
  unfold schnorrExtract
  refine (fSub_sat (El.of hsl hs) (El.of hsl' hs')).bind fun t ht => ?_
  refine (fSub_sat (El.of hcl hc) (El.of hcl' hc')).bind fun u hu => ?_
  have hu0 : (c.toNat : ZMod q.toNat) - c'.toNat ≠ 0 := by
    rw [sub_ne_zero]
    exact fun h => hne (((El.of hcl hc).eq_iff (El.of hcl' hc')).2 h)
  refine (fInv_sat hq hu hu0).bind fun u' hu' => ?_
  obtain ⟨z, hz, hz1⟩ := hu'
  refine (fMul_sat ht hz).mono fun x hx => ⟨hx.lt, ?_⟩
  -- the exponents, modulo `q`
  have e1 : t.toNat + s'.toNat ≡ s.toNat [MOD q.toNat] := by
    rw [← ZMod.natCast_eq_natCast_iff]; push_cast; rw [ht.val]; ring
  have e2 : u.toNat + c'.toNat ≡ c.toNat [MOD q.toNat] := by
    rw [← ZMod.natCast_eq_natCast_iff]; push_cast; rw [hu.val]; ring
  have e3 : u.toNat * u'.toNat ≡ 1 [MOD q.toNat] := by
    rw [← ZMod.natCast_eq_natCast_iff]; push_cast; rw [hu.val, hz.val]; exact hz1
  have e4 : x.toNat ≡ t.toNat * u'.toNat [MOD q.toNat] := by
    rw [← ZMod.natCast_eq_natCast_iff]; push_cast; rw [hx.val, ht.val, hz.val]
  -- the equations, modulo `p`
  have hy0 : (y.toNat : ZMod p.toNat) ≠ 0 := by
    intro h0
    have := (ZMod.natCast_eq_natCast_iff _ _ _).2 hyord
    push_cast at this
    rw [h0, zero_pow hq.prime.ne_zero] at this
    exact zero_ne_one this
  have hr0' : (r.toNat : ZMod p.toNat) ≠ 0 := fun h0 => hr0 ((ZMod.natCast_eq_zero_iff _ _).1 h0)
  have hgt : (g.toNat : ZMod p.toNat) ^ t.toNat = (y.toNat : ZMod p.toNat) ^ u.toNat := by
    have f1 := (ZMod.natCast_eq_natCast_iff _ _ _).2 h
    have f2 := (ZMod.natCast_eq_natCast_iff _ _ _).2 h'
    have f3 := (ZMod.natCast_eq_natCast_iff _ _ _).2 (pow_modEq_of_order hord e1)
    have f4 := (ZMod.natCast_eq_natCast_iff _ _ _).2 (pow_modEq_of_order hyord e2)
    push_cast at f1 f2 f3 f4
    rw [pow_add, f2, f1, ← f4, pow_add] at f3
    have hne : (r.toNat : ZMod p.toNat) * (y.toNat : ZMod p.toNat) ^ c'.toNat ≠ 0 := mul_ne_zero hr0' (pow_ne_zero _ hy0)
    refine mul_right_cancel₀ hne ?_
    rw [f3]
    ring
  rw [← ZMod.natCast_eq_natCast_iff]
  have f5 := (ZMod.natCast_eq_natCast_iff _ _ _).2 (pow_modEq_of_order hord e4)
  have f6 := (ZMod.natCast_eq_natCast_iff _ _ _).2 (pow_modEq_of_order hyord e3)
  push_cast at f5 f6 ⊢
  rw [f5, pow_mul, hgt, ← pow_mul, f6, pow_one]

end

/-! ### Constant time -/

section
variable [Obs] {p q g : Buf .be}

theorem elgamalDecrypt_ct {x x' c c' e e' : Buf .be} (hx : x.len = x'.len) (hc : c.len = c'.len) (he : e.len = e'.len) :
    SameTr (elgamalDecrypt p x c e) (elgamalDecrypt p x' c' e') Pub.rel := by
  unfold elgamalDecrypt
  refine (fPow_ct hc hx).bind fun _ _ h1 => ?_
  refine (fInv_ct h1).bind fun _ _ h2 => ?_
  exact fMul_ct he h2

theorem groupSign_ct {x x' k k' m m' : Buf .be} (hx : x.len = x'.len) (hk : k.len = k'.len) (hm : m.len = m'.len) :
    SameTr (groupSign p q g x k m) (groupSign p q g x' k' m') Pub.rel := by
  unfold groupSign
  refine (fPow_ct rfl hk).bind fun _ _ h1 => ?_
  refine (reduceTo_ct rfl h1 rfl rfl).bind fun _ _ h2 => ?_
  refine (fInv_ct hk).bind fun _ _ h3 => ?_
  refine (fMul_ct hx h2).bind fun _ _ h4 => ?_
  refine (fAdd_ct h4 hm).bind fun _ _ h5 => ?_
  refine (fMul_ct h3 h5).bind fun _ _ h6 => ?_
  exact SameTr.pure ⟨h2, h6⟩

theorem schnorrAnswer_ct {x x' k k' c c' : Buf .be} (hx : x.len = x'.len) (hk : k.len = k'.len) (hc : c.len = c'.len) :
    SameTr (schnorrAnswer q x k c) (schnorrAnswer q x' k' c') Pub.rel := by
  unfold schnorrAnswer
  refine (fMul_ct hc hx).bind fun _ _ h1 => ?_
  exact fAdd_ct hk h1

end

/-- **C67**: signing reveals neither the private key nor the nonce nor the hash. -/
theorem C67_sign_constant_time (p q g x k m x' k' m' : Buf .be) (hp : p.toNat % 2 = 1) (hq : FieldModulus q)
    (hgl : g.len = p.len) (hg : g.toNat < p.toNat) (hxl : x.len = q.len) (hx : x.toNat < q.toNat) (hkl : k.len = q.len)
    (hk0 : 0 < k.toNat) (hk : k.toNat < q.toNat) (hml : m.len = q.len) (hm : m.toNat < q.toNat) (hxl' : x'.len = q.len)
    (hx' : x'.toNat < q.toNat) (hkl' : k'.len = q.len) (hk0' : 0 < k'.toNat) (hk' : k'.toNat < q.toNat)
    (hml' : m'.len = q.len) (hm' : m'.toNat < q.toNat) :
    (groupSign p q g x k m).tr = (groupSign p q g x' k' m').tr :=
  sameEvents (@groupSign_ct _ Obs.full p q g x x' k k' m m' (hxl.trans hxl'.symm) (hkl.trans hkl'.symm)
      (hml.trans hml'.symm))
    (C67_sign p q g x k m hp hq hgl hg hxl hx hkl hk0 hk hml hm).ne_none
    (C67_sign p q g x' k' m' hp hq hgl hg hxl' hx' hkl' hk0' hk' hml' hm').ne_none

/-- **C67**: decrypting reveals neither the private key nor the ciphertext. -/
theorem C67_decrypt_constant_time (p x c e x' c' e' : Buf .be) (hp : FieldModulus p) (hx : x.len = x'.len)
    (hcl : c.len = p.len) (hc : c.toNat < p.toNat) (hc0 : c.toNat ≠ 0) (hel : e.len = p.len) (he : e.toNat < p.toNat)
    (hcl' : c'.len = p.len) (hc' : c'.toNat < p.toNat) (hc0' : c'.toNat ≠ 0) (hel' : e'.len = p.len)
    (he' : e'.toNat < p.toNat) : (elgamalDecrypt p x c e).tr = (elgamalDecrypt p x' c' e').tr := by
  haveI := hp.inst
  have key : ∀ x c e : Buf .be, c.len = p.len → c.toNat < p.toNat → c.toNat ≠ 0 → e.len = p.len → e.toNat < p.toNat →
      (elgamalDecrypt p x c e).val ≠ none := by
    intro x c e hcl hc hc0 hel he
    have hc0' : (c.toNat : ZMod p.toNat) ≠ 0 := fun h => hc0 ((El.of hcl hc).zero_iff.2 h)
    unfold elgamalDecrypt
    refine Sat.ne_none (P := fun _ => True) ((fPow_sat hp.odd (El.of hcl hc)).bind fun s hs => ?_)
    refine (fInv_sat hp hs (pow_ne_zero _ hc0')).bind fun s' hs' => ?_
    obtain ⟨z, hz, -⟩ := hs'
    exact (fMul_sat (El.of hel he) hz).mono fun _ _ => trivial
  exact sameEvents (@elgamalDecrypt_ct _ Obs.full p x x' c c' e e' hx (hcl.trans hcl'.symm) (hel.trans hel'.symm))
    (key x c e hcl hc hc0 hel he) (key x' c' e' hcl' hc' hc0' hel' he')

/-- **C67**: answering a challenge reveals neither the private key nor the nonce. -/
theorem C67_answer_constant_time (q x k c x' k' c' : Buf .be) (hxl : x.len = q.len) (hx : x.toNat < q.toNat)
    (hkl : k.len = q.len) (hk : k.toNat < q.toNat) (hcl : c.len = q.len) (hc : c.toNat < q.toNat) (hxl' : x'.len = q.len)
    (hx' : x'.toNat < q.toNat) (hkl' : k'.len = q.len) (hk' : k'.toNat < q.toNat) (hcl' : c'.len = q.len)
    (hc' : c'.toNat < q.toNat) : (schnorrAnswer q x k c).tr = (schnorrAnswer q x' k' c').tr := by
  have key : ∀ x k c : Buf .be, x.len = q.len → x.toNat < q.toNat → k.len = q.len → k.toNat < q.toNat → c.len = q.len →
      c.toNat < q.toNat → (schnorrAnswer q x k c).val ≠ none := by
    intro x k c hxl hx hkl hk hcl hc
    unfold schnorrAnswer
    refine Sat.ne_none (P := fun _ => True) ((fMul_sat (El.of hcl hc) (El.of hxl hx)).bind fun t ht => ?_)
    exact (fAdd_sat (El.of hkl hk) ht).mono fun _ _ => trivial
  exact sameEvents (@schnorrAnswer_ct _ Obs.full q x x' k k' c c' (hxl.trans hxl'.symm) (hkl.trans hkl'.symm)
    (hcl.trans hcl'.symm)) (key x k c hxl hx hkl hk hcl hc) (key x' k' c' hxl' hx' hkl' hk' hcl' hc')

/-! ## Examples -/

-- 2 has order 11 modulo 23, the private key is 3, the public one is 8
example : letI := cfg32;
    (do let (c, e) ← elgamalEncrypt (Buf.be [23]) (Buf.be [2]) (Buf.be [8]) (Buf.be [20]) (Buf.be [7])
        elgamalDecrypt (Buf.be [23]) (Buf.be [3]) c e : M _).val.map Buf.toNat = some 20 := by decide +kernel
example : letI := cfg32;
    (do let (r, s) ← groupSign (Buf.be [23]) (Buf.be [11]) (Buf.be [2]) (Buf.be [3]) (Buf.be [7]) (Buf.be [5])
        let b ← groupVerify (Buf.be [23]) (Buf.be [11]) (Buf.be [2]) (Buf.be [8]) (Buf.be [5]) r s
        pure (r.toNat, s.toNat, b) : M _).val = some (2, 0, false) := by decide +kernel
example : letI := cfg32;
    (do let (r, s) ← groupSign (Buf.be [23]) (Buf.be [11]) (Buf.be [2]) (Buf.be [3]) (Buf.be [7]) (Buf.be [4])
        let b ← groupVerify (Buf.be [23]) (Buf.be [11]) (Buf.be [2]) (Buf.be [8]) (Buf.be [4]) r s
        pure (r.toNat, s.toNat, b) : M _).val = some (2, 3, true) := by decide +kernel
example : letI := cfg32;
    (do let r ← fPow (Buf.be [23]) (Buf.be [2]) (Buf.be [7])
        let s ← schnorrAnswer (Buf.be [11]) (Buf.be [3]) (Buf.be [7]) (Buf.be [5])
        let b ← schnorrVerify (Buf.be [23]) (Buf.be [2]) (Buf.be [8]) r (Buf.be [5]) s
        pure (r.toNat, s.toNat, b) : M _).val = some (13, 0, true) := by decide +kernel
example : letI := cfg32;
    (schnorrExtract (Buf.be [11]) (Buf.be [5]) (Buf.be [0]) (Buf.be [6]) (Buf.be [3])).val.map Buf.toNat = some 3 := by
  decide +kernel

end Props
end Cmpa
