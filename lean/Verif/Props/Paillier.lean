import Mathlib.FieldTheory.Finite.Basic
import Verif.Props.Group
import Verif.Props.RsaKey

/-!
# C77: Paillier's encryption

The modulus is the square of the product of two primes, and the private operation has an exact division in it.  Ciphertexts
can be added and multiplied with numbers.
-/

namespace Cmpa
namespace Props

open M
variable [LimbCfg]

/-! ## The programs -/

/-- The public modulus, its square, the order and its inverse modulo the public modulus. -/
structure PaillierKey where
  n : Buf .be
  sq : Buf .be
  lam : Buf .be
  mu : Buf .be

/-- A user's program: the key for two primes, if there is one. -/
def paillierKey (p q : Buf .be) : M (Option PaillierKey) := do
  let n ← wideMul p q
  let sq ← wideMul n n
  let (p1, _) ← ct_sub_mp_l p 1
  let (q1, _) ← ct_sub_mp_l q 1
  let lam ← wideMul p1 q1
  match ← tryInv n lam with
  | none => pure none
  | some mu => pure (some ⟨n, sq, lam, mu⟩)

/-- A user's program: encryption of `m` with the random number `r`. -/
def paillierEncrypt (n sq m r : Buf .be) : M (Buf .be) := do
  let t ← wideMul n m
  let (t, _) ← ct_add_mp_l t 1
  let r ← (zeros sq.len).copy_from r
  let s ← fPow sq r n
  fMul sq t s

/-- A user's program: decryption. -/
def paillierDecrypt (k : PaillierKey) (c : Buf .be) : M (Buf .be) := do
  let x ← fPow k.sq c k.lam
  let (x, _) ← ct_sub_mp_l x 1
  let l ← quotTo k.n.len x k.n
  fMul k.n l k.mu

/-! ## Specification -/

/-- The key belongs to the primes `p` and `q`. -/
structure PaillierKey.For (k : PaillierKey) (p q : ℕ) : Prop where
  n_val : k.n.toNat = p * q
  sq_len : k.sq.len = k.n.len + k.n.len
  sq_val : k.sq.toNat = k.n.toNat * k.n.toNat
  lam_len : k.lam.len = k.n.len
  lam_val : k.lam.toNat = (p - 1) * (q - 1)
  mu_len : k.mu.len = k.n.len
  mu_lt : k.mu.toNat < k.n.toNat
  mu_val : k.lam.toNat * k.mu.toNat % k.n.toNat = 1

/-- The number is an encryption of `m`. -/
def Encrypts (n m c : ℕ) : Prop := ∃ r, Nat.Coprime r n ∧ c = (1 + n * m) * r ^ n % (n * n)

/-! ## Proofs -/

omit [LimbCfg] in
theorem totient_sq {p q : ℕ} (hp : p.Prime) (hq : q.Prime) (hpq : p ≠ q) :
    Nat.totient (p * q * (p * q)) = p * q * ((p - 1) * (q - 1)) := by
  have h1 : Nat.totient (p * q) = (p - 1) * (q - 1) := by
    rw [Nat.totient_mul ((Nat.coprime_primes hp hq).2 hpq), Nat.totient_prime hp, Nat.totient_prime hq]
  have h2 := Nat.totient_gcd_mul_totient_mul (p * q) (p * q)
  rw [Nat.gcd_self, h1, mul_assoc ((p - 1) * (q - 1)) ((p - 1) * (q - 1)) (p * q)] at h2
  have h3 : 0 < (p - 1) * (q - 1) := by
    have := hp.one_lt
    have := hq.one_lt
    exact Nat.mul_pos (by omega) (by omega)
  have h4 := Nat.eq_of_mul_eq_mul_left h3 h2
  rw [h4, mul_comm]

omit [LimbCfg] in
theorem one_add_mul_pow {R : Type} [CommRing R] {n : R} (h : n * n = 0) (m : R) (k : ℕ) :
    (1 + n * m) ^ k = 1 + n * (k * m) := by
  induction k with
  | zero => simp
  | succ k ih =>
    rw [pow_succ, ih, Nat.cast_succ]
    linear_combination (k * m * m) * h

omit [LimbCfg] in
theorem sq_zero (n : ℕ) : ((n : ZMod (n * n)) * (n : ZMod (n * n))) = 0 := by
  rw [← Nat.cast_mul, ZMod.natCast_self]

omit [LimbCfg] in
theorem Encrypts.cast {n m c : ℕ} (h : Encrypts n m c) :
    ∃ r, Nat.Coprime r n ∧ (c : ZMod (n * n)) = (1 + (n : ZMod (n * n)) * m) * (r : ZMod (n * n)) ^ n := by
  obtain ⟨r, hr, rfl⟩ := h
  exact ⟨r, hr, by rw [ZMod.natCast_mod]; push_cast; rfl⟩

omit [LimbCfg] in
theorem Encrypts.of_cast {n m c r : ℕ} (hc : c < n * n) (hr : Nat.Coprime r n)
    (h : (c : ZMod (n * n)) = (1 + (n : ZMod (n * n)) * m) * (r : ZMod (n * n)) ^ n) : Encrypts n m c := by
  refine ⟨r, hr, ?_⟩
  have h1 : (c : ZMod (n * n)) = (((1 + n * m) * r ^ n : ℕ) : ZMod (n * n)) := by rw [h]; push_cast; rfl
  have h2 := (ZMod.natCast_eq_natCast_iff' _ _ _).1 h1
  rwa [Nat.mod_eq_of_lt hc] at h2

omit [LimbCfg] in
/-- The private operation. -/
theorem Encrypts.pow {n m c p q : ℕ} (hp : p.Prime) (hq : q.Prime) (hpq : p ≠ q) (hn : n = p * q) (h : Encrypts n m c) :
    c ^ ((p - 1) * (q - 1)) % (n * n) = n * ((p - 1) * (q - 1) * m % n) + 1 := by
  obtain ⟨r, hr, hc⟩ := h.cast
  have hn1 : 1 < n := by
    rw [hn]
    exact Nat.one_lt_mul_iff.2 ⟨hp.pos, hq.pos, Or.inl hp.one_lt⟩
  generalize hl : (p - 1) * (q - 1) = l
  have h1 : (r : ZMod (n * n)) ^ (n * l) = 1 := by
    have h2 := Nat.ModEq.pow_totient (Nat.Coprime.mul_right hr hr)
    rw [hn, totient_sq hp hq hpq, ← hn, hl] at h2
    have h3 := (ZMod.natCast_eq_natCast_iff _ _ _).2 h2
    rwa [Nat.cast_pow, Nat.cast_one] at h3
  have h4 : ((c ^ l : ℕ) : ZMod (n * n)) = ((n * (l * m) + 1 : ℕ) : ZMod (n * n)) := by
    rw [Nat.cast_pow, hc, mul_pow, ← pow_mul, h1, mul_one, one_add_mul_pow (sq_zero n)]
    push_cast
    ring
  have h5 := (ZMod.natCast_eq_natCast_iff' _ _ _).1 h4
  rw [h5, Nat.add_mod, Nat.mul_mod_mul_left]
  have h6 : l * m % n < n := Nat.mod_lt _ (by omega)
  have h7 : n * (l * m % n) + n ≤ n * n := by
    rw [← Nat.mul_succ]
    exact Nat.mul_le_mul_left _ h6
  rw [Nat.mod_eq_of_lt (a := 1) (by omega), Nat.mod_eq_of_lt (by omega)]

/-- **C77**: there is a key if and only if the product of the primes is coprime to `(p - 1) * (q - 1)`, and it is right. -/
theorem C77_key (p q : Buf .be) (hp : p.toNat.Prime) (hq : q.toNat.Prime) (hp2 : p.toNat ≠ 2) (hq2 : q.toNat ≠ 2) :
    Sat (paillierKey p q) (fun o =>
      (o = none ↔ ¬ Nat.Coprime ((p.toNat - 1) * (q.toNat - 1)) (p.toNat * q.toNat)) ∧
      ∀ k, o = some k → k.n.len = p.len + q.len ∧ k.For p.toNat q.toNat) := by
  unfold paillierKey
  refine (wideMul_sat p q).bind ?_
  rintro n ⟨nl, nv⟩
  refine (wideMul_sat n n).bind ?_
  rintro sq ⟨sl, sv⟩
  refine (sub_one_sat p hp.pos).bind ?_
  rintro ⟨p1, _⟩ ⟨pl, pv⟩
  refine (sub_one_sat q hq.pos).bind ?_
  rintro ⟨q1, _⟩ ⟨ql, qv⟩
  refine (wideMul_sat p1 q1).bind ?_
  rintro lam ⟨ll, lv⟩
  dsimp only at pl pv ql qv
  rw [pv, qv] at lv
  have hll : lam.len = n.len := by rw [ll, pl, ql, nl]
  have hno : n.toNat % 2 = 1 := by
    rw [nv]
    exact Nat.odd_iff.1 ((hp.odd_of_ne_two hp2).mul (hq.odd_of_ne_two hq2))
  have hn1 : 1 < n.toNat := by
    rw [nv]
    exact Nat.one_lt_mul_iff.2 ⟨hp.pos, hq.pos, Or.inl hp.one_lt⟩
  refine (C65_inverse n lam hno hn1 hll).bind ?_
  rintro o ⟨h1, h2⟩
  rw [lv, nv] at h1
  cases o with
  | none => exact Sat.pure ⟨iff_of_true rfl (h1.1 rfl), by simp⟩
  | some mu =>
    obtain ⟨ml, mlt, mv⟩ := h2 mu rfl
    refine Sat.pure ⟨iff_of_false (by simp) (fun h => by simpa using h1.2 h), ?_⟩
    rintro _ h
    cases h
    exact ⟨nl, nv, sl, sv, hll, lv, ml, mlt, mv⟩

/-- **C77**: encryption. -/
theorem C77_encrypt (n sq m r : Buf .be) (hodd : n.toNat % 2 = 1) (h1 : 1 < n.toNat) (sl : sq.len = n.len + n.len)
    (sv : sq.toNat = n.toNat * n.toNat) (hml : m.len = n.len) (hm : m.toNat < n.toNat) (hr : r.toNat < n.toNat)
    (hco : Nat.Coprime r.toNat n.toNat) :
    Sat (paillierEncrypt n sq m r) (fun c => c.len = sq.len ∧ c.toNat < sq.toNat ∧ Encrypts n.toNat m.toNat c.toNat) := by
  have hso : sq.toNat % 2 = 1 := by rw [sv, Nat.mul_mod, hodd]
  have hsq : n.toNat < sq.toNat := by rw [sv]; exact lt_mul_of_one_lt_left (by omega) h1
  unfold paillierEncrypt
  refine (wideMul_sat n m).bind ?_
  rintro t ⟨tl, tv⟩
  have hlt : t.toNat + 1 < sq.toNat := by
    have h2 : n.toNat * m.toNat + n.toNat ≤ n.toNat * n.toNat := by
      rw [← Nat.mul_succ]
      exact Nat.mul_le_mul_left _ hm
    omega
  have htl : t.len = sq.len := by omega
  have hsl := sq.toNat_lt
  refine (C02_add_l t 1 one_lt_B (by rw [htl]; omega)).bind ?_
  rintro ⟨t', c⟩ ⟨tl', hc, tv'⟩
  have tv2 : t'.toNat = t.toNat + 1 := by
    rw [htl] at tv'
    have hc' : c = 0 := by
      by_contra hne
      have : c = 1 := by omega
      subst this
      omega
    subst hc'
    omega
  refine (C17_copy_from (zeros sq.len) r (by rw [zeros_len]; omega)).bind ?_
  rintro r' ⟨rl, rv⟩
  rw [zeros_len] at rl
  refine (fPow_sat hso (El.of rl (by omega))).bind fun s hs => ?_
  refine (fMul_sat (El.of (tl'.trans htl) (by omega)) hs).mono fun c hc => ⟨hc.len, hc.lt, ?_⟩
  have key := hc.val
  rw [tv2, tv, rv] at key
  have hclt := hc.lt
  clear hc hs
  rw [sv] at key hclt
  refine Encrypts.of_cast hclt hco ?_
  rw [key]
  push_cast
  ring

/-- **C77**: decryption yields the number that was encrypted. -/
theorem C77_decrypt (k : PaillierKey) (c : Buf .be) (p q m : ℕ) (hp : p.Prime) (hq : q.Prime) (hpq : p ≠ q) (hp2 : p ≠ 2)
    (hq2 : q ≠ 2) (hk : k.For p q) (hcl : c.len = k.sq.len) (hc : c.toNat < k.sq.toNat)
    (he : Encrypts k.n.toNat m c.toNat) :
    Sat (paillierDecrypt k c) (fun r => r.len = k.n.len ∧ r.toNat = m % k.n.toNat) := by
  have hodd : k.n.toNat % 2 = 1 := by
    rw [hk.n_val]
    exact Nat.odd_iff.1 ((hp.odd_of_ne_two hp2).mul (hq.odd_of_ne_two hq2))
  have hpos : 0 < k.n.toNat := by omega
  have hso : k.sq.toNat % 2 = 1 := by rw [hk.sq_val, Nat.mul_mod, hodd]
  unfold paillierDecrypt
  refine (C65_power k.sq c k.lam hso hcl hc).bind ?_
  rintro x ⟨xl, xv⟩
  rw [hk.sq_val, hk.lam_val, he.pow hp hq hpq hk.n_val, ← hk.lam_val] at xv
  refine (sub_one_sat x (by omega)).bind ?_
  rintro ⟨y, _⟩ ⟨yl, yv⟩
  dsimp only at yl yv ⊢
  rw [xv, Nat.add_sub_cancel] at yv
  have hlt : k.lam.toNat * m % k.n.toNat < k.n.toNat := Nat.mod_lt _ hpos
  have hdiv : y.toNat / k.n.toNat = k.lam.toNat * m % k.n.toNat := by
    rw [yv, Nat.mul_div_cancel_left _ hpos]
  refine (quotTo_sat k.n.len y k.n hpos (by rw [hdiv]; exact hlt.trans k.n.toNat_lt)).bind ?_
  rintro l ⟨ll, lv⟩
  rw [hdiv] at lv
  refine (fMul_sat (El.of ll (lv ▸ hlt)) (El.of hk.mu_len hk.mu_lt)).mono fun r hr => ⟨hr.len, ?_⟩
  rw [← Nat.cast_mul] at hr
  rw [hr.toNat_mod, lv, Nat.mod_mul_mod, mul_right_comm, ← Nat.mod_mul_mod, hk.mu_val, one_mul]

/-- **C77**: encryption and decryption. -/
theorem C77_round_trip (k : PaillierKey) (m r : Buf .be) (p q : ℕ) (hp : p.Prime) (hq : q.Prime) (hpq : p ≠ q) (hp2 : p ≠ 2)
    (hq2 : q ≠ 2) (hk : k.For p q) (hml : m.len = k.n.len) (hm : m.toNat < k.n.toNat) (hr : r.toNat < k.n.toNat)
    (hco : Nat.Coprime r.toNat k.n.toNat) :
    Sat (do let c ← paillierEncrypt k.n k.sq m r
            paillierDecrypt k c) (fun x => x.len = m.len ∧ x.toNat = m.toNat) := by
  have hodd : k.n.toNat % 2 = 1 := by
    rw [hk.n_val]
    exact Nat.odd_iff.1 ((hp.odd_of_ne_two hp2).mul (hq.odd_of_ne_two hq2))
  have hn1 : 1 < k.n.toNat := by
    rw [hk.n_val]
    exact Nat.one_lt_mul_iff.2 ⟨hp.pos, hq.pos, Or.inl hp.one_lt⟩
  refine (C77_encrypt k.n k.sq m r hodd hn1 hk.sq_len hk.sq_val hml hm hr hco).bind ?_
  rintro c ⟨h1, h2, h3⟩
  refine (C77_decrypt k c p q m.toNat hp hq hpq hp2 hq2 hk h1 h2 h3).mono fun x hx => ⟨hx.1.trans hml.symm, ?_⟩
  rw [hx.2, Nat.mod_eq_of_lt hm]

/-- **C77**: the product of two ciphertexts is an encryption of the sum. -/
theorem C77_sum (n sq c c' : Buf .be) (m m' : ℕ) (sv : sq.toNat = n.toNat * n.toNat) (hcl : c.len = sq.len)
    (hc : c.toNat < sq.toNat) (hcl' : c'.len = sq.len) (hc' : c'.toNat < sq.toNat) (he : Encrypts n.toNat m c.toNat)
    (he' : Encrypts n.toNat m' c'.toNat) :
    Sat (fMul sq c c') (fun x => x.len = sq.len ∧ x.toNat < sq.toNat ∧ Encrypts n.toNat (m + m') x.toNat) := by
  refine (fMul_sat (El.of hcl hc) (El.of hcl' hc')).mono fun x hx => ⟨hx.len, hx.lt, ?_⟩
  have key := hx.val
  have hlt := hx.lt
  clear hx
  rw [sv] at key hlt
  obtain ⟨r, hr, h1⟩ := he.cast
  obtain ⟨r', hr', h2⟩ := he'.cast
  refine Encrypts.of_cast hlt (Nat.Coprime.mul_left hr hr') ?_
  rw [key, h1, h2]
  push_cast
  have h0 := sq_zero n.toNat
  rw [mul_pow]
  linear_combination ((m : ZMod (n.toNat * n.toNat)) * m' * (r : ZMod (n.toNat * n.toNat)) ^ n.toNat *
    (r' : ZMod (n.toNat * n.toNat)) ^ n.toNat) * h0

/-- **C77**: the power of a ciphertext is an encryption of the product with the exponent. -/
theorem C77_scale (n sq c e : Buf .be) (m : ℕ) (hodd : n.toNat % 2 = 1) (sv : sq.toNat = n.toNat * n.toNat)
    (hcl : c.len = sq.len) (hc : c.toNat < sq.toNat) (he : Encrypts n.toNat m c.toNat) :
    Sat (fPow sq c e) (fun x => x.len = sq.len ∧ x.toNat < sq.toNat ∧ Encrypts n.toNat (e.toNat * m) x.toNat) := by
  have hso : sq.toNat % 2 = 1 := by rw [sv, Nat.mul_mod, hodd]
  refine (fPow_sat hso (El.of hcl hc)).mono fun x hx => ⟨hx.len, hx.lt, ?_⟩
  have key := hx.val
  have hlt := hx.lt
  clear hx
  rw [sv] at key hlt
  obtain ⟨r, hr, h1⟩ := he.cast
  refine Encrypts.of_cast hlt (Nat.Coprime.pow_left e.toNat hr) ?_
  rw [key, h1, mul_pow, one_add_mul_pow (sq_zero n.toNat)]
  push_cast
  rw [← pow_mul, ← pow_mul, mul_comm n.toNat e.toNat]

/-! ### Constant time -/

section
variable [Obs]

theorem paillierEncrypt_ct {n sq m m' r r' : Buf .be} (hm : m.len = m'.len) (hr : r.len = r'.len) :
    SameTr (paillierEncrypt n sq m r) (paillierEncrypt n sq m' r') Pub.rel := by
  unfold paillierEncrypt
  refine (wideMul_ct rfl hm).bind fun _ _ h1 => ?_
  refine (ct_add_mp_l_ct h1).bind ?_
  rintro ⟨t, _⟩ ⟨t', _⟩ h2
  refine (Buf.copy_from_ct (f := .be) rfl hr).bind fun _ _ h3 => ?_
  refine (fPow_ct h3 rfl).bind fun _ _ h4 => ?_
  exact fMul_ct h2.1 h4

theorem paillierDecrypt_ct {n sq lam lam' mu mu' c c' : Buf .be} (hl : lam.len = lam'.len) (hm : mu.len = mu'.len)
    (hc : c.len = c'.len) :
    SameTr (paillierDecrypt ⟨n, sq, lam, mu⟩ c) (paillierDecrypt ⟨n, sq, lam', mu'⟩ c') Pub.rel := by
  unfold paillierDecrypt
  refine (fPow_ct hc hl).bind fun _ _ h1 => ?_
  refine (ct_sub_mp_l_ct h1).bind ?_
  rintro ⟨t, _⟩ ⟨t', _⟩ h2
  refine (quotTo_ct h2.1).bind fun _ _ h3 => ?_
  exact fMul_ct h3 hm

end

/-- **C77**: encryption reveals neither the message nor the random number. -/
theorem C77_encrypt_constant_time (n sq m m' r r' : Buf .be) (hodd : n.toNat % 2 = 1) (h1 : 1 < n.toNat)
    (sl : sq.len = n.len + n.len) (sv : sq.toNat = n.toNat * n.toNat) (hml : m.len = n.len) (hm : m.toNat < n.toNat)
    (hml' : m'.len = n.len) (hm' : m'.toNat < n.toNat) (hrl : r.len = r'.len) (hr : r.toNat < n.toNat)
    (hco : Nat.Coprime r.toNat n.toNat) (hr' : r'.toNat < n.toNat) (hco' : Nat.Coprime r'.toNat n.toNat) :
    (paillierEncrypt n sq m r).tr = (paillierEncrypt n sq m' r').tr :=
  sameEvents (@paillierEncrypt_ct _ Obs.full n sq m m' r r' (hml.trans hml'.symm) hrl)
    (C77_encrypt n sq m r hodd h1 sl sv hml hm hr hco).ne_none
    (C77_encrypt n sq m' r' hodd h1 sl sv hml' hm' hr' hco').ne_none

/-- **C77**: decryption reveals neither the ciphertext nor the message. -/
theorem C77_decrypt_constant_time (k : PaillierKey) (c c' : Buf .be) (p q m m' : ℕ) (hp : p.Prime) (hq : q.Prime)
    (hpq : p ≠ q) (hp2 : p ≠ 2) (hq2 : q ≠ 2) (hk : k.For p q) (hcl : c.len = k.sq.len) (hc : c.toNat < k.sq.toNat)
    (he : Encrypts k.n.toNat m c.toNat) (hcl' : c'.len = k.sq.len) (hc' : c'.toNat < k.sq.toNat)
    (he' : Encrypts k.n.toNat m' c'.toNat) : (paillierDecrypt k c).tr = (paillierDecrypt k c').tr :=
  sameEvents (@paillierDecrypt_ct _ Obs.full k.n k.sq k.lam k.lam k.mu k.mu c c' rfl rfl (hcl.trans hcl'.symm))
    (C77_decrypt k c p q m hp hq hpq hp2 hq2 hk hcl hc he).ne_none
    (C77_decrypt k c' p q m' hp hq hpq hp2 hq2 hk hcl' hc' he').ne_none

/-! ## Examples -/

-- the primes 3 and 5: n = 15, the order 8 is coprime to 15, its inverse is 2; for 3 and 7 there is no key
example : letI := cfg32;
    (paillierKey (Buf.be [3]) (Buf.be [5])).val.map (Option.map fun k => (k.n.toNat, k.sq.toNat, k.lam.toNat, k.mu.toNat)) =
      some (some (15, 225, 8, 2)) := by decide +kernel
example : letI := cfg32;
    (paillierKey (Buf.be [3]) (Buf.be [7])).val.map (Option.map fun k => k.n.toNat) = some none := by decide +kernel
example : letI := cfg32; (⟨Buf.be [15], Buf.be [0, 225], Buf.be [8], Buf.be [2]⟩ : PaillierKey).For 3 5 :=
  letI := cfg32; ⟨by decide +kernel, by decide +kernel, by decide +kernel, by decide +kernel, by decide +kernel, by decide +kernel,
    by decide +kernel, by decide +kernel⟩
-- 7 encrypted with 2 is 83
example : letI := cfg32;
    (paillierEncrypt (Buf.be [15]) (Buf.be [0, 225]) (Buf.be [7]) (Buf.be [2])).val.map Buf.toNat = some 83 ∧
      (1 + 15 * 7) * 2 ^ 15 % 225 = 83 := by decide +kernel
example : letI := cfg32;
    (paillierDecrypt ⟨Buf.be [15], Buf.be [0, 225], Buf.be [8], Buf.be [2]⟩ (Buf.be [0, 83])).val.map Buf.toNat =
      some 7 := by decide +kernel

end Props
end Cmpa
