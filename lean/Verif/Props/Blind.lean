import Verif.Props.Group
import Verif.Props.RsaKey

/-!
# C76: RSA with blinding

The number to be raised to the private exponent is multiplied with the power of a random number with the public exponent,
and the random number is divided out afterwards.
-/

namespace Cmpa
namespace Props

open M
variable [LimbCfg]

/-! ## The programs -/

/-- A user's program: the number `c` blinded with `r`. -/
def rsaBlind (n e r c : Buf .be) : M (Buf .be) := do
  let t ← fPow n r e
  fMul n c t

/-- A user's program: the power of `c` with the private exponent, found by way of the blinded number.  No result if `r` has
no inverse. -/
def rsaBlinded (n e d r c : Buf .be) : M (Option (Buf .be)) := do
  match ← tryInv n r with
  | none => pure none
  | some i => do
    let b ← rsaBlind n e r c
    let s ← fPow n b d
    let m ← fMul n s i
    pure (some m)

/-! ## Proofs -/

/-- A key of RSA: the product of two distinct odd primes, and two exponents which are inverse modulo the order. -/
structure RsaPair (n e d : ℕ) (p q : ℕ) : Prop where
  p_prime : p.Prime
  q_prime : q.Prime
  ne : p ≠ q
  p_odd : p ≠ 2
  q_odd : q ≠ 2
  prod : n = p * q
  inv : e * d % ((p - 1) * (q - 1)) = 1

omit [LimbCfg] in
theorem RsaPair.odd {n e d p q : ℕ} (h : RsaPair n e d p q) : n % 2 = 1 := by
  rw [h.prod]
  exact Nat.odd_iff.1 ((h.p_prime.odd_of_ne_two h.p_odd).mul (h.q_prime.odd_of_ne_two h.q_odd))

omit [LimbCfg] in
theorem RsaPair.one_lt {n e d p q : ℕ} (h : RsaPair n e d p q) : 1 < n := by
  rw [h.prod]
  exact Nat.one_lt_mul_iff.2 ⟨h.p_prime.pos, h.q_prime.pos, Or.inl h.p_prime.one_lt⟩

omit [LimbCfg] in
theorem RsaPair.pow {n e d p q : ℕ} (h : RsaPair n e d p q) (y : ZMod n) : (y ^ e) ^ d = y := by
  have : NeZero n := ⟨by have := h.one_lt; omega⟩
  have h1 := rsa_phi h.p_prime h.q_prime h.ne h.inv ((ZMod.val_lt y).trans_le h.prod.le)
  rw [← h.prod] at h1
  have h2 := congrArg (Nat.cast (R := ZMod n)) h1
  rwa [ZMod.natCast_mod, Nat.cast_pow, ZMod.natCast_mod, Nat.cast_pow, ZMod.natCast_zmod_val] at h2

omit [LimbCfg] in
theorem RsaPair.symm {n e d p q : ℕ} (h : RsaPair n e d p q) : RsaPair n d e p q :=
  ⟨h.p_prime, h.q_prime, h.ne, h.p_odd, h.q_odd, h.prod, by rw [mul_comm]; exact h.inv⟩

section
variable {n e r c : Buf .be}

theorem rsaBlind_sat {x y : ZMod n.toNat} (hodd : n.toNat % 2 = 1) (hr : El n r x) (hc : El n c y) :
    Sat (rsaBlind n e r c) (fun b => El n b (y * x ^ e.toNat)) :=
  (fPow_sat hodd hr).bind fun _ ht => fMul_sat hc ht

end

/-- **C76**: there is a result if and only if the random number is coprime to the modulus, and it is what one would get
without blinding. -/
theorem C76_result (n e d r c : Buf .be) (p q : ℕ) (hk : RsaPair n.toNat e.toNat d.toNat p q) (hrl : r.len = n.len)
    (hr : r.toNat < n.toNat) (hcl : c.len = n.len) (hc : c.toNat < n.toNat) :
    Sat (rsaBlinded n e d r c) (fun o => (o = none ↔ Nat.gcd r.toNat n.toNat ≠ 1) ∧
      ∀ m, o = some m → m.len = n.len ∧ m.toNat = c.toNat ^ d.toNat % n.toNat) := by
  unfold rsaBlinded
  refine (C65_inverse n r hk.odd hk.one_lt hrl).bind ?_
  rintro o ⟨h1, h2⟩
  cases o with
  | none => exact Sat.pure ⟨h1, by simp⟩
  | some i =>
    obtain ⟨il, ilt, iv⟩ := h2 i rfl
    have hi : (r.toNat : ZMod n.toNat) * (i.toNat : ZMod n.toNat) = 1 := by
      rw [← Nat.cast_mul, ← ZMod.natCast_mod, iv, Nat.cast_one]
    refine (rsaBlind_sat hk.odd (El.of hrl hr) (El.of hcl hc)).bind fun b hb => ?_
    refine (fPow_sat hk.odd hb).bind fun s hs => ?_
    refine (fMul_sat hs (El.of il ilt)).bind fun m hm => ?_
    refine Sat.pure ⟨by rw [← h1]; simp, ?_⟩
    rintro _ h
    cases h
    refine ⟨hm.len, ?_⟩
    rw [mul_pow, hk.pow, mul_assoc, hi, mul_one, ← Nat.cast_pow] at hm
    exact hm.toNat_mod

/-- **C76**: a blinded ciphertext decrypts to the message. -/
theorem C76_decrypts (n e d r c : Buf .be) (p q m : ℕ) (hk : RsaPair n.toNat e.toNat d.toNat p q) (hrl : r.len = n.len)
    (hr : r.toNat < n.toNat) (hco : Nat.Coprime r.toNat n.toNat) (hcl : c.len = n.len) (hm : m < n.toNat)
    (hc : c.toNat = m ^ e.toNat % n.toNat) :
    Sat (rsaBlinded n e d r c) (fun o => ∃ b, o = some b ∧ b.len = n.len ∧ b.toNat = m) := by
  have hlt : c.toNat < n.toNat := hc ▸ Nat.mod_lt _ (by omega)
  refine (C76_result n e d r c p q hk hrl hr hcl hlt).mono ?_
  rintro o ⟨h1, h2⟩
  cases o with
  | none => exact absurd hco (h1.1 rfl)
  | some b =>
    obtain ⟨h3, h4⟩ := h2 b rfl
    refine ⟨b, rfl, h3, ?_⟩
    rw [h4, hc, hk.prod]
    exact rsa_phi hk.p_prime hk.q_prime hk.ne hk.inv (hk.prod ▸ hm)

/-- **C76**: the signature made with blinding is accepted. -/
theorem C76_signature (n e d r m : Buf .be) (p q : ℕ) (hk : RsaPair n.toNat e.toNat d.toNat p q) (hrl : r.len = n.len)
    (hr : r.toNat < n.toNat) (hco : Nat.Coprime r.toNat n.toNat) (hml : m.len = n.len) (hm : m.toNat < n.toNat) :
    Sat (do let o ← rsaBlinded n e d r m
            match o with
            | some s => rsaVerify n e m s
            | none => pure false) (fun c => c = true) := by
  refine (C76_result n e d r m p q hk hrl hr hml hm).bind ?_
  rintro o ⟨h1, h2⟩
  cases o with
  | none => exact absurd hco (h1.1 rfl)
  | some s =>
    obtain ⟨h3, h4⟩ := h2 s rfl
    exact (C66_signature n e m s p q d.toNat hk.p_prime hk.q_prime hk.ne hk.p_odd hk.q_odd hk.prod hk.inv hml hm h3
      (h4 ▸ Nat.mod_lt _ (by omega))).mono fun c hc => hc.2 h4

/-- **C76**: blinding hides the number.  Whatever the number (coprime to the modulus) and whatever the blinded number, there
is exactly one random number by which the one is blinded to the other. -/
theorem C76_hides (n e c : Buf .be) (p q d b : ℕ) (hk : RsaPair n.toNat e.toNat d p q) (hcl : c.len = n.len)
    (hc : c.toNat < n.toNat) (hco : Nat.Coprime c.toNat n.toNat) (hb : b < n.toNat) :
    ∃ x, x < n.toNat ∧ ∀ r : Buf .be, r.len = n.len → r.toNat < n.toNat →
      Sat (rsaBlind n e r c) (fun t => t.toNat = b ↔ r.toNat = x) := by
  have : NeZero n.toNat := ⟨by omega⟩
  obtain ⟨u, hu⟩ := (ZMod.isUnit_iff_coprime c.toNat n.toNat).2 hco
  refine ⟨(((↑u⁻¹ : ZMod n.toNat) * (b : ZMod n.toNat)) ^ d).val, ZMod.val_lt _, fun r hrl hr => ?_⟩
  refine (rsaBlind_sat hk.odd (El.of hrl hr) (El.of hcl hc)).mono fun t ht => ?_
  have h1 : t.toNat = b ↔ (t.toNat : ZMod n.toNat) = (b : ZMod n.toNat) := by
    rw [ZMod.natCast_eq_natCast_iff', Nat.mod_eq_of_lt ht.lt, Nat.mod_eq_of_lt hb]
  have h2 : r.toNat = (((↑u⁻¹ : ZMod n.toNat) * (b : ZMod n.toNat)) ^ d).val ↔
      (r.toNat : ZMod n.toNat) = ((↑u⁻¹ : ZMod n.toNat) * (b : ZMod n.toNat)) ^ d := by
    constructor
    · intro h
      rw [h, ZMod.natCast_zmod_val]
    · intro h
      rw [← h, ZMod.val_natCast, Nat.mod_eq_of_lt hr]
  rw [h1, h2, ht.val, ← hu]
  constructor
  · intro h
    rw [← h, Units.inv_mul_cancel_left, hk.pow]
  · intro h
    rw [h, hk.symm.pow, Units.mul_inv_cancel_left]

/-! ### Constant time -/

section
variable [Obs] {n e : Buf .be}

theorem rsaBlind_ct {r r' c c' : Buf .be} (hr : r.len = r'.len) (hc : c.len = c'.len) :
    SameTr (rsaBlind n e r c) (rsaBlind n e r' c') Pub.rel := by
  unfold rsaBlind
  refine (fPow_ct hr rfl).bind fun _ _ h1 => ?_
  exact fMul_ct hc h1

theorem rsaBlinded_ct {d d' r r' c c' : Buf .be} (hd : d.len = d'.len) (hr : r.len = r'.len) (hc : c.len = c'.len) :
    CtSome (rsaBlinded n e d r c) (rsaBlinded n e d' r' c') := by
  unfold rsaBlinded
  refine CtSome.bindSome (tryInv_ct hr) (fun x h => by cases h) (fun x h => by cases h) fun i i' hi => ?_
  refine CtSome.bind (rsaBlind_ct hr hc) fun b b' hb => ?_
  refine CtSome.bind (fPow_ct hb hd) fun s s' hs => ?_
  refine CtSome.bind (fMul_ct hs hi) fun m m' hm => ?_
  exact ctSome_pure hm

end

/-- **C76**: neither the private exponent nor the random number nor the ciphertext is revealed. -/
theorem C76_constant_time (n e d d' r r' c c' : Buf .be) (p q : ℕ) (hk : RsaPair n.toNat e.toNat d.toNat p q)
    (hk' : RsaPair n.toNat e.toNat d'.toNat p q) (hd : d.len = d'.len) (hrl : r.len = n.len) (hr : r.toNat < n.toNat)
    (hco : Nat.Coprime r.toNat n.toNat) (hcl : c.len = n.len) (hc : c.toNat < n.toNat) (hrl' : r'.len = n.len)
    (hr' : r'.toNat < n.toNat) (hco' : Nat.Coprime r'.toNat n.toNat) (hcl' : c'.len = n.len) (hc' : c'.toNat < n.toNat) :
    (rsaBlinded n e d r c).tr = (rsaBlinded n e d' r' c').tr := by
  obtain ⟨o, h1, h2, -⟩ := C76_result n e d r c p q hk hrl hr hcl hc
  obtain ⟨o', h1', h2', -⟩ := C76_result n e d' r' c' p q hk' hrl' hr' hcl' hc'
  cases o with
  | none => exact absurd hco (h2.1 rfl)
  | some x =>
    cases o' with
    | none => exact absurd hco' (h2'.1 rfl)
    | some y =>
      have := (@rsaBlinded_ct _ Obs.full n e d d' r r' c c' hd (hrl.trans hrl'.symm) (hcl.trans hcl'.symm) x y h1 h1').1
      rwa [M.seen_full, M.seen_full] at this

/-! ## Examples -/

-- the modulus 55 with the exponents 3 and 27
example : RsaPair 55 3 27 5 11 := ⟨by norm_num, by norm_num, by decide, by decide, by decide, by decide, by decide⟩
example : letI := cfg32;
    (rsaBlinded (Buf.be [55]) (Buf.be [3]) (Buf.be [27]) (Buf.be [7]) (Buf.be [2])).val.map (Option.map Buf.toNat) =
      some (some 18) ∧ 2 ^ 27 % 55 = 18 := by decide +kernel
-- no inverse
example : letI := cfg32;
    (rsaBlinded (Buf.be [55]) (Buf.be [3]) (Buf.be [27]) (Buf.be [10]) (Buf.be [2])).val.map (Option.map Buf.toNat) =
      some none := by decide +kernel
-- blinded with 7, 2 becomes 26
example : letI := cfg32;
    (rsaBlind (Buf.be [55]) (Buf.be [3]) (Buf.be [7]) (Buf.be [2])).val.map Buf.toNat = some 26 := by decide +kernel

end Props
end Cmpa
