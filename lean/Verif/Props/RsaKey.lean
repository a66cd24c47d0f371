import Verif.Props.Padded
import Verif.Props.Garner

/-!
# C66: RSA, from the primes to the decrypted message, for all keys

The private exponent is found from the inverse of `(p - 1) * (q - 1)` modulo the odd public exponent, which needs neither the
least common multiple nor an inverse modulo an even number, and all inverses and powers are taken with a limb to spare.
So the findings about these (L1, L2, S1, I1, I2, M1, M4) are of no concern, and everything holds for all pairs of primes.
-/

namespace Cmpa
namespace Props

open M
variable [LimbCfg]

/-! ## The programs -/

/-- A user's program: the quotient of `a` by `v`, in a buffer of `len` bytes. -/
def quotTo (len : ℕ) (a v : Buf .be) : M (Buf .be) := do
  match ← divideBy v none fun d => ct_div_mp_mp none a d (some (zeros a.len)) with
  | .ok (_, _, some q) => (zeros len).copy_from q
  | _ => M.ofOption none

/-- A user's program: the private exponent for the odd public exponent `e` and the order `phi`, if there is one.
With `i` the inverse of `phi` modulo `e`, it is `(phi * (e - i) + 1) / e`. -/
def rsaExponent (phi e : Buf .be) : M (Option (Buf .be)) := do
  let t ← reduceTo (zeros e.len) phi e
  match ← tryInv e t with
  | none => pure none
  | some i => do
    let (j, _) ← ct_sub_mp_mp e i
    let w ← wideMul phi j
    let (w, _) ← ct_add_mp_l w 1
    let d ← quotTo phi.len w e
    pure (some d)

/-- A user's program: the modulus and the private exponent, if there is one. -/
def rsaKey (p q e : Buf .be) : M (Option (Buf .be × Buf .be)) := do
  let n ← wideMul p q
  let (p1, _) ← ct_sub_mp_l p 1
  let (q1, _) ← ct_sub_mp_l q 1
  let phi ← wideMul p1 q1
  match ← rsaExponent phi e with
  | none => pure none
  | some d => pure (some (n, d))

/-- A user's program: make a key, encrypt a message and decrypt the result. -/
def rsaRun (p q e msg : Buf .be) : M (Option (Buf .be)) := do
  match ← rsaKey p q e with
  | none => pure none
  | some (n, d) => do
    let c ← fPow n msg e
    let m ← fPow n c d
    pure (some m)

/-- A user's program: whether `s` is the signature of `m`. -/
def rsaVerify (n e m s : Buf .be) : M Bool := do
  let r ← fPow n s e
  fEq r m

/-! ## Proofs -/

theorem quotTo_sat (len : ℕ) (a v : Buf .be) (hv : 0 < v.toNat) (h : a.toNat / v.toNat < 256 ^ len) :
    Sat (quotTo len a v) (fun r => r.len = len ∧ r.toNat = a.toNat / v.toNat) := by
  unfold quotTo
  refine (C21_div none a v none (some (zeros a.len)) (by simp) (by simpa using hv) ?_).bind ?_
  · have h1 : dividend none a < 256 ^ dividendLen none a := by simpa [dividend, dividendLen] using a.toNat_lt
    refine C21_quotient_len _ _ _ _ h1 (by simpa using hv) ?_
    intro b hb
    obtain rfl : zeros a.len = b := by simpa using hb
    have := byteLen_pos (x := v.toNat) hv.ne'
    simp [dividendLen, zeros_len]
    omega
  · rintro _ ⟨_, _, q, rfl, -, -, -, hl, hq⟩
    cases q with
    | none => simp at hl
    | some q =>
      have h2 : q.toNat = a.toNat / v.toNat := by simpa [dividend] using hq q rfl
      refine (C17_copy_from (zeros len) q (by rw [zeros_len, h2]; exact h)).mono fun r hr => ?_
      exact ⟨hr.1.trans (zeros_len _), hr.2.trans h2⟩

omit [LimbCfg] in
/-- The formula for the private exponent. -/
theorem rsa_exponent {phi e i : ℕ} (hphi : 1 < phi) (he : 1 < e) (hi : i < e) (h : phi * i % e = 1) :
    e * ((phi * (e - i) + 1) / e) = phi * (e - i) + 1 ∧ (phi * (e - i) + 1) / e < phi := by
  have hi0 : 0 < i := by
    rcases Nat.eq_zero_or_pos i with rfl | hi0
    · simp at h
    · exact hi0
  have h1 : e ∣ phi * (e - i) + 1 := by
    have h2 : phi * (e - i) + phi * i = phi * e := by rw [← mul_add]; congr 1; omega
    have h3 := Nat.div_add_mod (phi * i) e
    rw [h] at h3
    have h4 : phi * (e - i) + 1 + e * (phi * i / e) = e * phi := by rw [mul_comm e phi, ← h2]; omega
    exact (Nat.dvd_add_left (Dvd.intro _ rfl)).1 (h4 ▸ Dvd.intro _ rfl)
  refine ⟨Nat.mul_div_cancel' h1, ?_⟩
  rw [Nat.div_lt_iff_lt_mul (by omega)]
  have h5 : phi * (e - i) ≤ phi * (e - 1) := Nat.mul_le_mul_left _ (by omega)
  have h6 : phi * (e - 1) + phi = phi * e := by
    rw [← Nat.mul_succ]; congr 1; omega
  omega

/-- **C66**: a private exponent is found if and only if the public one is coprime to the order, and it is right. -/
theorem C66_exponent (phi e : Buf .be) (hphi : 1 < phi.toNat) (hodd : e.toNat % 2 = 1) (he : 1 < e.toNat) :
    Sat (rsaExponent phi e) (fun o => (o = none ↔ Nat.gcd e.toNat phi.toNat ≠ 1) ∧
      ∀ d, o = some d → d.len = phi.len ∧ d.toNat < phi.toNat ∧ e.toNat * d.toNat % phi.toNat = 1) := by
  unfold rsaExponent
  refine (reduceTo_sat (zeros e.len) phi e (by omega) (zeros_len _).ge).bind ?_
  rintro t ⟨tl, tv⟩
  rw [zeros_len] at tl
  refine (C65_inverse e t hodd he tl).bind ?_
  rintro o ⟨h1, h2⟩
  rw [tv, ← Nat.gcd_rec] at h1
  cases o with
  | none => exact Sat.pure ⟨h1, by simp⟩
  | some i =>
    obtain ⟨il, ilt, iv⟩ := h2 i rfl
    rw [tv, Nat.mod_mul_mod] at iv
    obtain ⟨g1, g2⟩ := rsa_exponent hphi he ilt iv
    refine (C03_sub_len e i il.le).bind ?_
    rintro ⟨j, b⟩ ⟨jl, hb, jv⟩
    have jv' : j.toNat = e.toNat - i.toNat := by
      have := j.toNat_lt
      rw [jl] at this
      have hb' : b = 0 := by
        by_contra hne
        have : b = 1 := by omega
        subst this
        have := e.toNat_lt
        omega
      subst hb'
      omega
    refine (wideMul_sat phi j).bind ?_
    rintro w ⟨wl, wv⟩
    have hlt : w.toNat + 1 < 256 ^ w.len := by
      have h3 : w.toNat + 1 < phi.toNat * e.toNat := by
        rw [wv, jv', ← g1, mul_comm]
        exact Nat.mul_lt_mul_of_pos_right g2 (by omega)
      refine h3.trans_le ?_
      rw [wl, jl, pow_add]
      exact Nat.mul_le_mul phi.toNat_lt.le e.toNat_lt.le
    refine (C02_add_l w 1 one_lt_B (by omega)).bind ?_
    rintro ⟨w', c⟩ ⟨wl', hc, wv'⟩
    have wv2 : w'.toNat = phi.toNat * (e.toNat - i.toNat) + 1 := by
      have hc' : c = 0 := by
        by_contra hne
        have : c = 1 := by omega
        subst this
        omega
      subst hc'
      rw [← jv', ← wv]
      omega
    refine (quotTo_sat phi.len w' e (by omega) ?_).bind ?_
    · rw [wv2]
      exact g2.trans phi.toNat_lt
    rintro d ⟨dl, dv⟩
    refine Sat.pure ⟨by rw [← h1]; simp, ?_⟩
    rintro _ h
    cases h
    rw [wv2] at dv
    refine ⟨dl, dv ▸ g2, ?_⟩
    rw [dv, g1, Nat.mul_add_mod, Nat.mod_eq_of_lt hphi]

theorem sub_one_sat (p : Buf .be) (hp : 0 < p.toNat) :
    Sat (ct_sub_mp_l p 1) (fun r => r.1.len = p.len ∧ r.1.toNat = p.toNat - 1) := by
  have h := p.toNat_lt
  have hl := len_pos_of_pos hp
  have h1 : 1 < 256 ^ p.len := Nat.one_lt_pow hl.ne' (by norm_num)
  refine (C03_sub_l p 1 one_lt_B h1).mono ?_
  rintro ⟨r, b⟩ ⟨rl, hb, rv⟩
  refine ⟨rl, ?_⟩
  have h2 := r.toNat_lt
  rw [rl] at h2
  have hb' : b = 0 := by
    by_contra hne
    have : b = 1 := by omega
    subst this
    omega
  subst hb'
  dsimp only
  omega

omit [LimbCfg] in
theorem one_lt_order {p q : ℕ} (hp : p.Prime) (hq : q.Prime) (hpq : p ≠ q) : 1 < (p - 1) * (q - 1) := by
  have h1 := hp.two_le
  have h2 := hq.two_le
  rcases Nat.lt_or_ge p 3 with h | h
  · have h3 : 1 < q - 1 := by omega
    exact h3.trans_le (Nat.le_mul_of_pos_left _ (by omega))
  · have h3 : 1 < p - 1 := by omega
    exact h3.trans_le (Nat.le_mul_of_pos_right _ (by omega))

/-- **C66**: for all pairs of distinct primes, a key is found if and only if the public exponent is coprime to
`(p - 1) * (q - 1)`, and then the modulus is the product of the primes and the private exponent is the inverse of the public
one. -/
theorem C66_key (p q e : Buf .be) (hp : p.toNat.Prime) (hq : q.toNat.Prime) (hpq : p.toNat ≠ q.toNat)
    (hodd : e.toNat % 2 = 1) (he : 1 < e.toNat) :
    Sat (rsaKey p q e) (fun o => (o = none ↔ Nat.gcd e.toNat ((p.toNat - 1) * (q.toNat - 1)) ≠ 1) ∧
      ∀ n d, o = some (n, d) → n.len = p.len + q.len ∧ n.toNat = p.toNat * q.toNat ∧
        d.len = p.len + q.len ∧ d.toNat < (p.toNat - 1) * (q.toNat - 1) ∧
        e.toNat * d.toNat % ((p.toNat - 1) * (q.toNat - 1)) = 1) := by
  unfold rsaKey
  refine (wideMul_sat p q).bind ?_
  rintro n ⟨nl, nv⟩
  refine (sub_one_sat p hp.pos).bind ?_
  rintro ⟨p1, _⟩ ⟨p1l, p1v⟩
  refine (sub_one_sat q hq.pos).bind ?_
  rintro ⟨q1, _⟩ ⟨q1l, q1v⟩
  refine (wideMul_sat p1 q1).bind ?_
  rintro phi ⟨pl, pv⟩
  dsimp only at p1l p1v q1l q1v
  rw [p1v, q1v] at pv
  rw [p1l, q1l] at pl
  refine (C66_exponent phi e (by rw [pv]; exact one_lt_order hp hq hpq) hodd he).bind ?_
  rintro o ⟨h1, h2⟩
  rw [pv] at h1
  cases o with
  | none => exact Sat.pure ⟨by rw [← h1]; simp, by simp⟩
  | some d =>
    obtain ⟨h3, h4, h5⟩ := h2 d rfl
    rw [pv] at h4 h5
    refine Sat.pure ⟨by rw [← h1]; simp, ?_⟩
    rintro _ _ h
    cases h
    exact ⟨nl, nv, h3.trans pl, h4, h5⟩

omit [LimbCfg] in
theorem rsa_phi {p q m e d : ℕ} (hp : p.Prime) (hq : q.Prime) (hpq : p ≠ q) (hed : e * d % ((p - 1) * (q - 1)) = 1)
    (hm : m < p * q) : (m ^ e % (p * q)) ^ d % (p * q) = m := by
  have h1 := one_lt_order hp hq hpq
  have h2 : e * d ≡ 1 [MOD (p - 1) * (q - 1)] := by rw [Nat.ModEq, hed, Nat.mod_eq_of_lt h1]
  refine Rsa.rsa hp hq hpq (h2.of_dvd (Nat.lcm_dvd (Dvd.intro _ rfl) (Dvd.intro_left _ rfl))) ?_ hm
  intro h0
  rw [h0] at hed
  simp at hed

/-- **C66**: decrypting what was encrypted yields the message, for all pairs of distinct odd primes, all odd public exponents
coprime to `(p - 1) * (q - 1)`, and all messages below the modulus. -/
theorem C66_round_trip (p q e msg : Buf .be) (hp : p.toNat.Prime) (hq : q.toNat.Prime) (hpq : p.toNat ≠ q.toNat)
    (hp2 : p.toNat ≠ 2) (hq2 : q.toNat ≠ 2) (hodd : e.toNat % 2 = 1) (he : 1 < e.toNat)
    (hco : Nat.Coprime e.toNat ((p.toNat - 1) * (q.toNat - 1))) (hml : msg.len = p.len + q.len)
    (hm : msg.toNat < p.toNat * q.toNat) :
    Sat (rsaRun p q e msg) (fun o => ∃ m, o = some m ∧ m.len = msg.len ∧ m.toNat = msg.toNat) := by
  unfold rsaRun
  refine (C66_key p q e hp hq hpq hodd he).bind ?_
  rintro o ⟨h1, h2⟩
  cases o with
  | none => exact absurd hco (h1.1 rfl)
  | some nd =>
    obtain ⟨n, d⟩ := nd
    obtain ⟨nl, nv, -, -, hed⟩ := h2 n d rfl
    have hno : n.toNat % 2 = 1 := by
      rw [nv]
      exact Nat.odd_iff.1 ((hp.odd_of_ne_two hp2).mul (hq.odd_of_ne_two hq2))
    have hpos : 0 < p.toNat * q.toNat := Nat.mul_pos hp.pos hq.pos
    refine (C65_power n msg e hno (hml.trans nl.symm) (nv ▸ hm)).bind ?_
    rintro c ⟨cl, cv⟩
    refine (C65_power n c d hno cl (by rw [cv, nv]; exact Nat.mod_lt _ hpos)).bind ?_
    rintro m ⟨ml, mv⟩
    refine Sat.pure ⟨m, rfl, ml.trans (nl.trans hml.symm), ?_⟩
    rw [mv, cv, nv]
    exact rsa_phi hp hq hpq hed hm

/-- **C66**: of all numbers below the modulus, exactly one is accepted as signature of a given message: the power of the
message with the private exponent. -/
theorem C66_signature (n e m s : Buf .be) (p q d : ℕ) (hp : p.Prime) (hq : q.Prime) (hpq : p ≠ q)
    (hp2 : p ≠ 2) (hq2 : q ≠ 2) (hn : n.toNat = p * q) (hed : e.toNat * d % ((p - 1) * (q - 1)) = 1)
    (hml : m.len = n.len) (hm : m.toNat < n.toNat) (hsl : s.len = n.len) (hs : s.toNat < n.toNat) :
    Sat (rsaVerify n e m s) (fun c => c = true ↔ s.toNat = m.toNat ^ d % n.toNat) := by
  have hno : n.toNat % 2 = 1 := by
    rw [hn]
    exact Nat.odd_iff.1 ((hp.odd_of_ne_two hp2).mul (hq.odd_of_ne_two hq2))
  unfold rsaVerify
  refine (C65_power n s e hno hsl hs).bind ?_
  rintro r ⟨rl, rv⟩
  have hr : r.toNat < n.toNat := rv ▸ Nat.mod_lt _ (by omega)
  refine (fEq_sat (⟨rl, hr, rfl⟩ : El n r r.toNat) (⟨hml, hm, rfl⟩ : El n m m.toNat)).mono ?_
  intro c hc
  have key : c = true ↔ r.toNat = m.toNat :=
    hc.trans ((⟨rl, hr, rfl⟩ : El n r r.toNat).eq_iff (⟨hml, hm, rfl⟩ : El n m m.toNat)).symm
  rw [key, rv, hn]
  rw [hn] at hm hs
  constructor
  · intro h
    rw [← h]
    exact (rsa_phi hp hq hpq hed hs).symm
  · intro h
    rw [h]
    exact rsa_phi hp hq hpq (by rw [mul_comm]; exact hed) hm

/-! ### Constant time -/

section
variable [Obs]

theorem quotTo_ct {len : ℕ} {a a' v : Buf .be} (ha : a.len = a'.len) :
    SameTr (quotTo len a v) (quotTo len a' v) Pub.rel := by
  have key := divideBy_ct (α := Option (Buf .be) × Buf .be × Option (Buf .be)) (v := v) (v' := v) (dec := none)
    (dec' := none) ⟨rfl, rfl, by simp, by simp, rfl⟩ (fun d d' h1 h2 => ct_div_mp_mp_ct
      (u_h := (none : Option (Buf .be))) (w := none) (q := some (zeros a.len)) (q' := some (zeros a'.len)) (pub_opt rfl) ha h1 h2
      (pub_opt (by rw [ha])))
  unfold quotTo
  intro x y hx hy
  rw [bind_val] at hx hy
  cases hm : (divideBy v none fun d => ct_div_mp_mp none a d (some (zeros a.len)) : M _).val with
  | none => rw [hm] at hx; cases hx
  | some r =>
    cases hn : (divideBy v none fun d => ct_div_mp_mp none a' d (some (zeros a'.len)) : M _).val with
    | none => rw [hn] at hy; cases hy
    | some r' =>
      rw [hm] at hx
      rw [hn] at hy
      rcases r with _ | _ | ⟨_, _, _ | r⟩
      · cases hx
      · cases hx
      · cases hx
      rcases r' with _ | _ | ⟨_, _, _ | r'⟩
      · cases hy
      · cases hy
      · cases hy
      obtain ⟨h1, h2⟩ := key _ _ hm hn trivial trivial
      have h3 : SameTr ((zeros len).copy_from r) ((zeros len).copy_from r') Pub.rel :=
        Buf.copy_from_ct rfl (h2 _ _ rfl rfl).2.2
      obtain ⟨h4, h5⟩ := h3 x y hx hy
      refine ⟨?_, h5⟩
      rw [bind_seen_some hm, bind_seen_some hn, h1, h4]

theorem ctSome_bindOk {σ α ε : Type} [Pub σ] [Pub α] {m n : M (Except ε σ)} {f g : Except ε σ → M (Option α)}
    (h : CtOk m n) (he : ∀ e x, (f (.error e)).val ≠ some (some x)) (he' : ∀ e x, (g (.error e)).val ≠ some (some x))
    (hf : ∀ a b, Pub.rel a b → CtSome (f (.ok a)) (g (.ok b))) : CtSome (m >>= f) (n >>= g) := by
  intro x y hx hy
  rw [bind_val] at hx hy
  cases hm : m.val with
  | none => rw [hm] at hx; cases hx
  | some a =>
    cases hn : n.val with
    | none => rw [hn] at hy; cases hy
    | some b =>
      rw [hm] at hx
      rw [hn] at hy
      cases a with
      | error e => exact absurd hx (he e x)
      | ok a =>
        cases b with
        | error e => exact absurd hy (he' e y)
        | ok b =>
          obtain ⟨h1, h2⟩ := h a b hm hn
          obtain ⟨h3, h4⟩ := hf a b h2 x y hx hy
          refine ⟨?_, h4⟩
          rw [bind_seen_some hm, bind_seen_some hn, h1, h3]

theorem ctSome_pure {α : Type} [Pub α] {a b : α} (h : Pub.rel a b) : CtSome (pure (some a)) (pure (some b)) := by
  intro x y hx hy
  cases hx
  cases hy
  exact ⟨rfl, h⟩

theorem tryInv_ct {p a a' : Buf .be} (ha : a.len = a'.len) : CtSome (tryInv p a) (tryInv p a') := by
  unfold tryInv
  refine CtSome.bind (SameTr.refl (padded p)) fun n n' hn => ?_
  subst hn
  refine CtSome.bind (padded_ct ha) fun b b' hb => ?_
  refine ctSome_bindOk (ct_inv_mod_odd_mp_mp_ct rfl hb rfl rfl rfl) ?_ ?_ ?_
  · intro e x
    cases e <;> exact fun h => by cases h
  · intro e x
    cases e <;> exact fun h => by cases h
  · rintro ⟨r, _, _, _⟩ ⟨r', _, _, _⟩ h
    refine CtSome.bind (Buf.copy_from_ct (f := .be) rfl h.1) fun _ _ h => ?_
    exact ctSome_pure h

theorem rsaExponent_ct {phi phi' e : Buf .be} (h : phi.len = phi'.len) :
    CtSome (rsaExponent phi e) (rsaExponent phi' e) := by
  unfold rsaExponent
  refine CtSome.bind (reduceTo_ct rfl h rfl rfl) fun t t' ht => ?_
  refine CtSome.bindSome (tryInv_ct ht) (fun x h => by cases h) (fun x h => by cases h) fun i i' hi => ?_
  refine CtSome.bind (ct_sub_mp_mp_ct rfl hi) ?_
  rintro ⟨j, _⟩ ⟨j', _⟩ hj
  refine CtSome.bind (wideMul_ct h hj.1) fun w w' hw => ?_
  refine CtSome.bind (ct_add_mp_l_ct hw) ?_
  rintro ⟨w, _⟩ ⟨w', _⟩ hw
  dsimp only
  rw [h]
  refine CtSome.bind (quotTo_ct hw.1) fun d d' hd => ?_
  exact ctSome_pure hd

theorem rsaKey_ct {p p' q q' e : Buf .be} (hp : p.len = p'.len) (hq : q.len = q'.len) :
    CtSome (rsaKey p q e) (rsaKey p' q' e) := by
  unfold rsaKey
  refine CtSome.bind (wideMul_ct hp hq) fun n n' hn => ?_
  refine CtSome.bind (ct_sub_mp_l_ct hp) ?_
  rintro ⟨p1, _⟩ ⟨p1', _⟩ h1
  refine CtSome.bind (ct_sub_mp_l_ct hq) ?_
  rintro ⟨q1, _⟩ ⟨q1', _⟩ h2
  refine CtSome.bind (wideMul_ct h1.1 h2.1) fun phi phi' hphi => ?_
  refine CtSome.bindSome (rsaExponent_ct hphi) (fun x h => by cases h) (fun x h => by cases h) fun d d' hd => ?_
  exact ctSome_pure ⟨hn, hd⟩

end

/-- **C66**: making a key reveals nothing about the primes but the lengths of their buffers. -/
theorem C66_key_constant_time (p q p' q' e : Buf .be) (hp : p.toNat.Prime) (hq : q.toNat.Prime) (hpq : p.toNat ≠ q.toNat)
    (hp' : p'.toNat.Prime) (hq' : q'.toNat.Prime) (hpq' : p'.toNat ≠ q'.toNat) (hodd : e.toNat % 2 = 1) (he : 1 < e.toNat)
    (hco : Nat.Coprime e.toNat ((p.toNat - 1) * (q.toNat - 1)))
    (hco' : Nat.Coprime e.toNat ((p'.toNat - 1) * (q'.toNat - 1))) (hl : p.len = p'.len) (hl' : q.len = q'.len) :
    (rsaKey p q e).tr = (rsaKey p' q' e).tr := by
  obtain ⟨o, h1, h2, -⟩ := C66_key p q e hp hq hpq hodd he
  obtain ⟨o', h1', h2', -⟩ := C66_key p' q' e hp' hq' hpq' hodd he
  cases o with
  | none => exact absurd hco (h2.1 rfl)
  | some x =>
    cases o' with
    | none => exact absurd hco' (h2'.1 rfl)
    | some y =>
      have := (@rsaKey_ct _ Obs.full p p' q q' e hl hl' x y h1 h1').1
      rwa [M.seen_full, M.seen_full] at this

/-! ## Examples -/

-- the primes 5 and 11 with the public exponent 3: n = 55, d = 27; with 5, there is no private exponent
example : letI := cfg32;
    (rsaKey (Buf.be [5]) (Buf.be [11]) (Buf.be [3])).val.map (Option.map fun r => (r.1.toNat, r.2.toNat)) =
      some (some (55, 27)) := by decide +kernel
example : letI := cfg32;
    (rsaKey (Buf.be [5]) (Buf.be [11]) (Buf.be [5])).val.map (Option.map fun r => (r.1.toNat, r.2.toNat)) = some none := by
  decide +kernel
-- 22 isn't coprime to the modulus
example : letI := cfg32;
    (rsaRun (Buf.be [5]) (Buf.be [11]) (Buf.be [3]) (Buf.be [0, 22])).val.map (Option.map Buf.toNat) =
      some (some 22) := by decide +kernel
example : letI := cfg32;
    (rsaVerify (Buf.be [0, 55]) (Buf.be [3]) (Buf.be [0, 2]) (Buf.be [0, 18])).val = some true ∧ 2 ^ 27 % 55 = 18 := by
  decide +kernel

end Props
end Cmpa
