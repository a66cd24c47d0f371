import Verif.Props.Crt
import Verif.Props.InvMod

/-!
# DSA signatures (C57)

Signing and verifying as in FIPS 186, on top of the crate's operations: exponentiations modulo `p`, inverses
modulo `q`, products, divisions, a modular addition and comparisons.
-/

namespace Cmpa
namespace Props

open M
variable [LimbCfg] {f g h i w e' g' : Fmt}

/-! ## The programs -/

/-- A user's program: `a * b` modulo `v`, stored in `dst`; `wide` is for the product. -/
def mulModTo (dst : Buf h) (wide : Buf w) (a : Buf f) (b : Buf g) (v : Buf g') : M (Buf h) := do
  let wide ← wide.copy_from a
  let wide ← ct_mul_trunc_mp_mp wide a.len b
  reduceTo dst wide v

/-- A user's program: the inverse of `a` modulo the odd `n`, stored in `dst`. -/
def invOdd (dst : Buf h) (a : Buf f) (n : Buf g) (s0 s1 : Buf .ne) : M (Buf h) := do
  let (r, _, _, _) ← unwrapE (ct_inv_mod_odd_mp_mp dst a n s0 s1)
  pure r

/-- Buffers for intermediate results: some of the length of `p`, some of the length of `q`, two for products, and scratch
space for inverses and exponentiations. -/
structure DsaWork (h i w : Fmt) where
  (a b c : Buf h)
  (r s t u : Buf i)
  (wp wq : Buf w)
  (s0 s1 sc : Buf .ne)

/-- A user's program: the signature `(r, s)` of the hash `m` with the private key `x` and the nonce `k`, a number of at
most `nbits` bits. -/
def dsaSign (p : Buf f) (q : Buf g) (gen : Buf g') (x k m : Buf e') (nbits : ℕ) (wk : DsaWork h i w) :
    M (Buf i × Buf i) := do
  let a ← modExp wk.a gen p k nbits wk.sc
  let r ← reduceTo wk.r a q
  let k' ← invOdd wk.s k q wk.s0 wk.s1
  let t ← mulModTo wk.t wk.wq x r q
  let t ← unwrapE (ct_add_mod_mp_mp t m q)
  let s ← mulModTo wk.u wk.wq k' t q
  pure (r, s)

/-- A user's program: whether `(r, s)` is a signature of the hash `m` for the public key `y`. -/
def dsaVerify (p : Buf f) (q : Buf g) (gen y : Buf g') (m : Buf e') (r s : Buf i) (nbits : ℕ) (wk : DsaWork h i w) :
    M Bool := do
  let r0 ← ct_is_zero_mp r
  let s0 ← ct_is_zero_mp s
  let r1 ← ct_geq_mp_mp r q
  let s1 ← ct_geq_mp_mp s q
  M.cond ((((r0.or s0).or r1).or s1).unwrap ≠ 0) (pure false) do
    let v ← invOdd wk.r s q wk.s0 wk.s1
    let u1 ← mulModTo wk.s wk.wq m v q
    let u2 ← mulModTo wk.t wk.wq r v q
    let a ← modExp wk.a gen p u1 nbits wk.sc
    let b ← modExp wk.b y p u2 nbits wk.sc
    let c ← mulModTo wk.c wk.wp a b p
    let v ← reduceTo wk.u c q
    let eq ← ct_eq_mp_mp v r
    pure (decide (eq.unwrap ≠ 0))

/-! ## Their pieces -/

theorem mulModTo_sat (dst : Buf h) (wide : Buf w) (a : Buf f) (b : Buf g) (v : Buf g') (hw : a.len + b.len ≤ wide.len)
    (hv : 0 < v.toNat) (hl : v.len ≤ dst.len) :
    Sat (mulModTo dst wide a b v) (fun r => r.len = dst.len ∧ r.toNat = a.toNat * b.toNat % v.toNat) := by
  unfold mulModTo
  refine (C17_copy_from wide a (a.toNat_lt.trans_le (Nat.pow_le_pow_right (by norm_num) (by omega)))).bind ?_
  rintro w1 ⟨l1, v1⟩
  refine (C09_mul_exact w1 a.len b (l1 ▸ hw)).bind ?_
  rintro w2 ⟨l2, v2⟩
  rw [v1, Nat.mod_eq_of_lt a.toNat_lt] at v2
  rw [← v2]
  exact reduceTo_sat dst w2 v hv hl

theorem invOdd_sat (dst : Buf h) (a : Buf f) (n : Buf g) (s0 s1 : Buf .ne) (hd : dst.len = n.len) (ha : a.len = n.len)
    (h0 : n.nlimbs ≤ s0.nlimbs) (h1 : n.nlimbs ≤ s1.nlimbs) (hodd : n.toNat % 2 = 1) (h2 : 1 < n.toNat)
    (hcop : Nat.gcd a.toNat n.toNat = 1) (hn : n.toNat < B ^ (n.nlimbs - 1)) :
    Sat (invOdd dst a n s0 s1) (fun r => r.len = dst.len ∧ r.toNat < n.toNat ∧ a.toNat * r.toNat % n.toNat = 1) := by
  unfold invOdd
  have h := C30_inv_odd_partial dst a n s0 s1 ⟨Or.inl hd.ge, Or.inl ha.le, Or.inl ha.ge, h0, h1⟩ hodd h2 hcop hn
  refine Sat.bind (P := fun s => s.1.len = dst.len ∧ s.1.toNat < n.toNat ∧ a.toNat * s.1.toNat % n.toNat = 1) ?_ ?_
  · refine h.bind ?_
    rintro r ⟨b, _, _, _, rfl, h3, -, -, -, h4, h5⟩
    exact Sat.pure ⟨h3, h4, h5⟩
  · rintro ⟨b, _, _, _⟩ hb
    exact Sat.pure hb

/-! ## Correctness -/

/-- The lengths of the buffers. -/
structure DsaWork.Fits (wk : DsaWork h i w) (p : Buf f) (q : Buf g) : Prop where
  a : wk.a.len = p.len
  b : wk.b.len = p.len
  c : wk.c.len = p.len
  r : wk.r.len = q.len
  s : wk.s.len = q.len
  t : wk.t.len = q.len
  u : wk.u.len = q.len
  wp : p.len + p.len ≤ wk.wp.len
  wq : q.len + q.len ≤ wk.wq.len
  s0 : q.nlimbs ≤ wk.s0.nlimbs
  s1 : q.nlimbs ≤ wk.s1.nlimbs
  sc : p.nlimbs ≤ wk.sc.nlimbs

/-- The moduli: `p` is in the domain of the exponentiation, and `q` is an odd prime that leaves the most significant
limb of its buffer zero, so that it is in the domain of the inversion. -/
structure DsaModuli (p : Buf f) (q : Buf g) : Prop where
  p : ExpModulus p
  prime : q.toNat.Prime
  odd : q.toNat % 2 = 1
  spare : q.toNat < B ^ (q.nlimbs - 1)

/-- C57, partial: what signing returns.

Missing: moduli outside of the domain of the exponentiation (C28) or of the inversion (C30). -/
theorem C57_sign_partial (p : Buf f) (q : Buf g) (gen : Buf g') (x k m : Buf e') (nbits : ℕ) (wk : DsaWork h i w)
    (hd : DsaModuli p q) (hw : wk.Fits p q) (hgl : gen.len = p.len) (hg : gen.toNat < p.toNat) (hxl : x.len = q.len)
    (hkl : k.len = q.len) (hk0 : 0 < k.toNat) (hkq : k.toNat < q.toNat) (hkb : k.toNat < 2 ^ nbits)
    (hm : m.toNat < q.toNat) :
    Sat (dsaSign p q gen x k m nbits wk) (fun rs => rs.1.len = q.len ∧ rs.2.len = q.len ∧
      rs.1.toNat = gen.toNat ^ k.toNat % p.toNat % q.toNat ∧ rs.2.toNat < q.toNat ∧
      k.toNat * rs.2.toNat ≡ m.toNat + x.toNat * rs.1.toNat [MOD q.toNat]) := by
  have hq0 : 0 < q.toNat := hd.prime.pos
  unfold dsaSign
  refine (modExp_sat wk.a gen p k nbits wk.sc hd.p hw.a.ge hgl hg hkb hw.sc).bind ?_
  rintro a ⟨-, va⟩
  refine (reduceTo_sat wk.r a q hq0 hw.r.ge).bind ?_
  rintro r ⟨lr, vr⟩
  have hcop : Nat.gcd k.toNat q.toNat = 1 :=
    Nat.Coprime.symm ((Nat.Prime.coprime_iff_not_dvd hd.prime).2 (Nat.not_dvd_of_pos_of_lt hk0 hkq))
  refine (invOdd_sat wk.s k q wk.s0 wk.s1 hw.s hkl hw.s0 hw.s1 hd.odd hd.prime.one_lt hcop hd.spare).bind ?_
  rintro k' ⟨lk', -, vk'⟩
  refine (mulModTo_sat wk.t wk.wq x r q (by rw [hxl, lr, hw.r]; exact hw.wq) hq0 hw.t.ge).bind ?_
  rintro t ⟨lt, vt⟩
  refine Sat.bind (P := fun t' => t'.len = q.len ∧ t'.toNat = (t.toNat + m.toNat) % q.toNat) ?_ ?_
  · refine unwrapE_ok ?_
    have hlen : t.len = q.len := lt.trans hw.t
    refine (C06_add_mod_partial t m q (Or.inl hlen.ge) (by rw [vt]; exact Nat.mod_lt _ hq0) hm
      (Or.inl (Buf.nlimbs_congr hlen))).mono ?_
    rintro _ ⟨t', rfl, l, v⟩
    exact ⟨t', rfl, l.trans hlen, v⟩
  rintro t' ⟨lt', vt'⟩
  refine (mulModTo_sat wk.u wk.wq k' t' q (by rw [lk', hw.s, lt']; exact hw.wq) hq0 hw.u.ge).bind ?_
  rintro s ⟨ls, vs⟩
  refine Sat.pure ⟨lr.trans hw.r, ls.trans hw.u, by rw [vr, va], by rw [vs]; exact Nat.mod_lt _ hq0, ?_⟩
  have h1 : s.toNat ≡ k'.toNat * t'.toNat [MOD q.toNat] := by rw [vs]; exact Nat.mod_modEq _ _
  have h2 : t'.toNat ≡ x.toNat * r.toNat + m.toNat [MOD q.toNat] := by
    rw [vt']
    refine (Nat.mod_modEq _ _).trans (Nat.ModEq.add_right _ ?_)
    rw [vt]; exact Nat.mod_modEq _ _
  have h3 : k.toNat * k'.toNat ≡ 1 [MOD q.toNat] := by
    rw [Nat.ModEq, vk', Nat.mod_eq_of_lt hd.prime.one_lt]
  calc k.toNat * s.toNat ≡ k.toNat * (k'.toNat * t'.toNat) [MOD q.toNat] := h1.mul_left _
    _ = k.toNat * k'.toNat * t'.toNat := by ring
    _ ≡ 1 * (x.toNat * r.toNat + m.toNat) [MOD q.toNat] := h3.mul h2
    _ = m.toNat + x.toNat * r.toNat := by ring

/-- The specification of a valid signature `(r, s)` of the hash `m`: the numbers are in range, and, `v` being the inverse of `s`
modulo `q`, the residue of `g ^ (m * v) * y ^ (r * v)` modulo `p` is `r` modulo `q`. -/
def DsaValid (p q g y m r s : ℕ) : Prop :=
  0 < r ∧ r < q ∧ 0 < s ∧ s < q ∧
    ∃ v < q, s * v % q = 1 ∧ g ^ (m * v % q) * y ^ (r * v % q) % p % q = r

/-- C57, partial: verifying tells whether a signature is valid, whatever the signature.

Missing: moduli outside of the domain of the exponentiation (C28) or of the inversion (C30). -/
theorem C57_verify_partial (p : Buf f) (q : Buf g) (gen y : Buf g') (m : Buf e') (r s : Buf i) (nbits : ℕ)
    (wk : DsaWork h i w) (hd : DsaModuli p q) (hw : wk.Fits p q) (hgl : gen.len = p.len) (hg : gen.toNat < p.toNat)
    (hyl : y.len = p.len) (hy : y.toNat < p.toNat) (hml : m.len = q.len) (hrl : r.len = q.len) (hsl : s.len = q.len)
    (hnb : q.toNat ≤ 2 ^ nbits) :
    Sat (dsaVerify p q gen y m r s nbits wk) (fun b =>
      b = true ↔ DsaValid p.toNat q.toNat gen.toNat y.toNat m.toNat r.toNat s.toNat) := by
  have hq0 : 0 < q.toNat := hd.prime.pos
  have hp0 : 0 < p.toNat := by omega
  unfold dsaVerify
  refine (C01_is_zero r).bind fun r0 hr0 => ?_
  refine (C01_is_zero s).bind fun s0 hs0 => ?_
  refine (C01_geq r q).bind fun r1 hr1 => ?_
  refine (C01_geq s q).bind fun s1 hs1 => ?_
  subst hr0 hs0 hr1 hs1
  simp only [LimbChoice.or_ofBool, LimbChoice.unwrap_ofBool]
  refine Sat.cond (fun hc => Sat.pure ?_) fun hc => ?_
  · refine ⟨fun h => absurd h (by simp), fun ⟨c1, c2, c3, c4, _⟩ => ?_⟩
    exact absurd hc (by simp [c1.ne', c3.ne', c2, c4])
  · have hc' : 0 < r.toNat ∧ r.toNat < q.toNat ∧ 0 < s.toNat ∧ s.toNat < q.toNat := by
      simp at hc
      omega
    obtain ⟨c1, c2, c3, c4⟩ := hc'
    have hcop : Nat.gcd s.toNat q.toNat = 1 :=
      Nat.Coprime.symm ((Nat.Prime.coprime_iff_not_dvd hd.prime).2 (Nat.not_dvd_of_pos_of_lt c3 c4))
    refine (invOdd_sat wk.r s q wk.s0 wk.s1 hw.r hsl hw.s0 hw.s1 hd.odd hd.prime.one_lt hcop hd.spare).bind ?_
    rintro v ⟨lv, v1, v2⟩
    have lv' := lv.trans hw.r
    refine (mulModTo_sat wk.s wk.wq m v q (by rw [hml, lv']; exact hw.wq) hq0 hw.s.ge).bind ?_
    rintro u1 ⟨lu1, vu1⟩
    refine (mulModTo_sat wk.t wk.wq r v q (by rw [hrl, lv']; exact hw.wq) hq0 hw.t.ge).bind ?_
    rintro u2 ⟨lu2, vu2⟩
    have b1 : u1.toNat < 2 ^ nbits := by rw [vu1]; exact (Nat.mod_lt _ hq0).trans_le hnb
    have b2 : u2.toNat < 2 ^ nbits := by rw [vu2]; exact (Nat.mod_lt _ hq0).trans_le hnb
    refine (modExp_sat wk.a gen p u1 nbits wk.sc hd.p hw.a.ge hgl hg b1 hw.sc).bind ?_
    rintro a ⟨la, va⟩
    refine (modExp_sat wk.b y p u2 nbits wk.sc hd.p hw.b.ge hyl hy b2 hw.sc).bind ?_
    rintro b ⟨lb, vb⟩
    refine (mulModTo_sat wk.c wk.wp a b p (by rw [la, lb, hw.a, hw.b]; exact hw.wp) hp0 hw.c.ge).bind ?_
    rintro c ⟨-, vc⟩
    refine (reduceTo_sat wk.u c q hq0 hw.u.ge).bind ?_
    rintro v' ⟨-, vv'⟩
    refine (C01_eq v' r).bind fun eq heq => Sat.pure ?_
    subst heq
    have key : v'.toNat = gen.toNat ^ (m.toNat * v.toNat % q.toNat) * y.toNat ^ (r.toNat * v.toNat % q.toNat) % p.toNat
        % q.toNat := by
      rw [vv', vc, va, vb, vu1, vu2, ← Nat.mul_mod]
    rw [LimbChoice.unwrap_ofBool]
    have hdec : decide ((if decide (v'.toNat = r.toNat) then 1 else 0) ≠ 0) = true ↔ v'.toNat = r.toNat := by
      by_cases h : v'.toNat = r.toNat <;> simp [h]
    rw [hdec, key]
    refine ⟨fun h => ⟨c1, c2, c3, c4, v.toNat, v1, v2, h⟩, ?_⟩
    rintro ⟨-, -, -, -, v'', w1, w2, w3⟩
    have h1 : s.toNat * v'' ≡ s.toNat * v.toNat [MOD q.toNat] := w2.trans v2.symm
    have h2 : v'' = v.toNat := by
      have := Nat.ModEq.cancel_left_of_coprime (Nat.gcd_comm _ _ ▸ hcop) h1
      rwa [Nat.ModEq, Nat.mod_eq_of_lt w1, Nat.mod_eq_of_lt v1] at this
    rw [h2] at w3
    exact w3

omit [LimbCfg] in
/-- Exponents count modulo the order. -/
theorem pow_modEq_of_order {p q g a b : ℕ} (hg : g ^ q ≡ 1 [MOD p]) (h : a ≡ b [MOD q]) : g ^ a ≡ g ^ b [MOD p] := by
  have key : ∀ n, g ^ n ≡ g ^ (n % q) [MOD p] := fun n => by
    conv_lhs => rw [← Nat.div_add_mod n q, pow_add, pow_mul]
    simpa using (hg.pow (n / q)).mul_right (g ^ (n % q))
  exact (key a).trans (h ▸ (key b).symm)

omit [LimbCfg] in
/-- Signatures made as specified are valid. -/
theorem dsaValid_of_signed {p q g y x k m r s : ℕ} (hq : q.Prime) (hg : g ^ q ≡ 1 [MOD p]) (hy : y ≡ g ^ x [MOD p])
    (hr : r = g ^ k % p % q) (hsq : s < q) (hs : k * s ≡ m + x * r [MOD q]) (hr0 : 0 < r) (hs0 : 0 < s) :
    DsaValid p q g y m r s := by
  have hcop : Nat.Coprime s q :=
    Nat.Coprime.symm ((Nat.Prime.coprime_iff_not_dvd hq).2 (Nat.not_dvd_of_pos_of_lt hs0 hsq))
  obtain ⟨v, hv⟩ := Nat.exists_mul_mod_eq_one_of_coprime hcop hq.one_lt
  obtain ⟨hv1, hv2⟩ := hv
  refine ⟨hr0, by rw [hr]; exact Nat.mod_lt _ hq.pos, hs0, hsq, v, hv1, hv2, ?_⟩
  have h1 : g ^ (m * v % q) * y ^ (r * v % q) ≡ g ^ k [MOD p] := by
    calc g ^ (m * v % q) * y ^ (r * v % q) ≡ g ^ (m * v % q) * (g ^ x) ^ (r * v % q) [MOD p] := (hy.pow _).mul_left _
      _ = g ^ (m * v % q + x * (r * v % q)) := by rw [pow_add, pow_mul]
      _ ≡ g ^ k [MOD p] := pow_modEq_of_order hg ?_
    calc m * v % q + x * (r * v % q) ≡ m * v + x * (r * v) [MOD q] :=
          (Nat.mod_modEq _ _).add ((Nat.mod_modEq _ _).mul_left _)
      _ = v * (m + x * r) := by ring
      _ ≡ v * (k * s) [MOD q] := (hs.symm).mul_left _
      _ = k * (s * v) := by ring
      _ ≡ k * 1 [MOD q] := Nat.ModEq.mul_left _ (by rw [Nat.ModEq, hv2, Nat.mod_eq_of_lt hq.one_lt])
      _ = k := by ring
  rw [h1, hr]

/-- C57, partial: the signatures made with a private key verify with the public key, unless `r` or `s` is zero, in
which case another nonce has to be taken.

Missing: moduli outside of the domain of the exponentiation (C28) or of the inversion (C30). -/
theorem C57_sign_verify_partial (p : Buf f) (q : Buf g) (gen y : Buf g') (x k m : Buf e') (nbits : ℕ)
    (wk wk' : DsaWork h i w) (hd : DsaModuli p q) (hw : wk.Fits p q) (hw' : wk'.Fits p q) (hgl : gen.len = p.len)
    (hg : gen.toNat < p.toNat) (hord : gen.toNat ^ q.toNat ≡ 1 [MOD p.toNat]) (hyl : y.len = p.len)
    (hy : y.toNat = gen.toNat ^ x.toNat % p.toNat) (hxl : x.len = q.len) (hkl : k.len = q.len) (hk0 : 0 < k.toNat)
    (hkq : k.toNat < q.toNat) (hml : m.len = q.len) (hm : m.toNat < q.toNat) (hnb : q.toNat ≤ 2 ^ nbits) :
    Sat (do let (r, s) ← dsaSign p q gen x k m nbits wk
            let b ← dsaVerify p q gen y m r s nbits wk'
            pure (r, s, b))
      (fun rsb => rsb.1.toNat ≠ 0 → rsb.2.1.toNat ≠ 0 → rsb.2.2 = true) := by
  refine (C57_sign_partial p q gen x k m nbits wk hd hw hgl hg hxl hkl hk0 hkq (hkq.trans_le hnb) hm).bind ?_
  rintro ⟨r, s⟩ ⟨lr, ls, vr, vs, hs⟩
  refine (C57_verify_partial p q gen y m r s nbits wk' hd hw' hgl hg hyl (by rw [hy]; exact Nat.mod_lt _ (by omega)) hml lr ls
    hnb).bind fun b hb => Sat.pure fun h1 h2 => ?_
  exact hb.2 (dsaValid_of_signed hd.prime hord (by rw [hy]; exact Nat.mod_modEq _ _) vr vs hs (Nat.pos_of_ne_zero h1)
    (Nat.pos_of_ne_zero h2))

/-! ## Constant time -/

section
variable [Obs]

theorem mulModTo_ct {dst dst' : Buf h} {wide wide' : Buf w} {a a' : Buf f} {b b' : Buf g} {v v' : Buf g'}
    (hd : dst.len = dst'.len) (hw : wide.len = wide'.len) (ha : a.len = a'.len) (hb : b.len = b'.len)
    (hv : v.len = v'.len) (hvb : byteLen v.toNat = byteLen v'.toNat) :
    SameTr (mulModTo dst wide a b v) (mulModTo dst' wide' a' b' v') Pub.rel := by
  unfold mulModTo
  refine (Buf.copy_from_ct hw ha).bind fun _ _ e1 => ?_
  refine (ct_mul_trunc_mp_mp_ct e1 ha hb).bind fun _ _ e2 => ?_
  exact reduceTo_ct hd e2 hv hvb

theorem invOdd_ct {dst dst' : Buf h} {a a' : Buf f} {n n' : Buf g} {s0 s1 s0' s1' : Buf .ne} (hd : dst.len = dst'.len)
    (ha : a.len = a'.len) (hn : n.len = n'.len) (h0 : s0.len = s0'.len) (h1 : s1.len = s1'.len) :
    SameTr (invOdd dst a n s0 s1) (invOdd dst' a' n' s0' s1') Pub.rel := by
  unfold invOdd
  refine (unwrapE_ct (ct_inv_mod_odd_mp_mp_ct hd ha hn h0 h1)).bind ?_
  rintro ⟨_, _, _, _⟩ ⟨_, _, _, _⟩ hp
  exact SameTr.pure hp.1

theorem dsaSign_ct {p : Buf f} {q : Buf g} {gen : Buf g'} {x x' k k' m m' : Buf e'} {nbits : ℕ} {wk : DsaWork h i w}
    (hx : x.len = x'.len) (hk : k.len = k'.len) (hm : m.len = m'.len) :
    SameTr (dsaSign p q gen x k m nbits wk) (dsaSign p q gen x' k' m' nbits wk) Pub.rel := by
  unfold dsaSign
  refine (modExp_ct rfl rfl rfl rfl hk rfl).bind fun _ _ e1 => ?_
  refine (reduceTo_ct rfl e1 rfl rfl).bind fun _ _ e2 => ?_
  refine (invOdd_ct rfl hk rfl rfl rfl).bind fun _ _ e3 => ?_
  refine (mulModTo_ct rfl rfl hx e2 rfl rfl).bind fun _ _ e4 => ?_
  refine (unwrapE_ct (ct_add_mod_mp_mp_ct e4 hm rfl)).bind fun _ _ e5 => ?_
  refine (mulModTo_ct rfl rfl e3 e5 rfl rfl).bind fun _ _ e6 => ?_
  exact SameTr.pure ⟨e2, e6⟩

end

/-- C57, partial: signing leaves the same events whatever the private key, the nonce and the hash, all of them of the
length of `q`. -/
theorem C57_sign_constant_time_partial (p : Buf f) (q : Buf g) (gen : Buf g') (x x' k k' m m' : Buf e') (nbits : ℕ)
    (wk : DsaWork h i w) (hd : DsaModuli p q) (hw : wk.Fits p q) (hgl : gen.len = p.len) (hg : gen.toNat < p.toNat)
    (hxl : x.len = q.len) (hkl : k.len = q.len) (hk0 : 0 < k.toNat) (hkq : k.toNat < q.toNat) (hkb : k.toNat < 2 ^ nbits)
    (hml : m.len = q.len) (hm : m.toNat < q.toNat)
    (hxl' : x'.len = q.len) (hkl' : k'.len = q.len) (hk0' : 0 < k'.toNat) (hkq' : k'.toNat < q.toNat)
    (hkb' : k'.toNat < 2 ^ nbits) (hml' : m'.len = q.len) (hm' : m'.toNat < q.toNat) :
    (dsaSign p q gen x k m nbits wk).tr = (dsaSign p q gen x' k' m' nbits wk).tr :=
  sameEvents (@dsaSign_ct _ f g h i w e' g' Obs.full p q gen x x' k k' m m' nbits wk (hxl.trans hxl'.symm)
      (hkl.trans hkl'.symm) (hml.trans hml'.symm))
    (C57_sign_partial p q gen x k m nbits wk hd hw hgl hg hxl hkl hk0 hkq hkb hm).ne_none
    (C57_sign_partial p q gen x' k' m' nbits wk hd hw hgl hg hxl' hkl' hk0' hkq' hkb' hm').ne_none

/-! ## Moduli that fill their buffers -/

/-- Buffers for a `p` of `l` bytes and a `q` of `n` bytes. -/
def dsaBufs (l n : ℕ) : DsaWork .be .be .be where
  a := Buf.ofNat .be l 1
  b := Buf.ofNat .be l 2
  c := Buf.ofNat .be l 3
  r := Buf.ofNat .be n 4
  s := Buf.ofNat .be n 5
  t := Buf.ofNat .be n 6
  u := Buf.ofNat .be n 7
  wp := Buf.ofNat .be (l + l) 8
  wq := Buf.ofNat .be (n + n) 9
  s0 := Buf.ofNat .ne n 10
  s1 := Buf.ofNat .ne n 11
  sc := Buf.ofNat .ne l 12

/-- Sign and verify, for the examples. -/
def dsaRun (p q gen y x k m : Buf .be) (nbits : ℕ) (wk : DsaWork .be .be .be) : M (ℕ × ℕ × Bool) := do
  let (r, s) ← dsaSign p q gen x k m nbits wk
  let b ← dsaVerify p q gen y m r s nbits wk
  pure (r.toNat, s.toNat, b)

omit [LimbCfg] in
/-- C57 doesn't hold as stated, because of the inverses (C30): with limbs of 32 bits, the prime `65519` in a buffer of one
limb and the nonce `30314`, a signature is made that doesn't verify, although neither of its numbers is zero. -/
theorem C57_sign_verify_fails : ∃ (c : LimbCfg) (p q gen y x k m : @Buf c .be) (wk : @DsaWork c .be .be .be) (r s : ℕ),
    (@Buf.toNat c .be p).Prime ∧ (@Buf.toNat c .be q).Prime ∧
    @ExpModulus c .be p ∧ @DsaWork.Fits c .be .be .be .be .be wk p q ∧
    @Buf.len c .be gen = @Buf.len c .be p ∧ @Buf.toNat c .be gen < @Buf.toNat c .be p ∧
    @Buf.toNat c .be gen ^ @Buf.toNat c .be q ≡ 1 [MOD @Buf.toNat c .be p] ∧
    @Buf.len c .be y = @Buf.len c .be p ∧
    @Buf.toNat c .be y = @Buf.toNat c .be gen ^ @Buf.toNat c .be x % @Buf.toNat c .be p ∧
    @Buf.len c .be x = @Buf.len c .be q ∧ @Buf.len c .be k = @Buf.len c .be q ∧ @Buf.len c .be m = @Buf.len c .be q ∧
    0 < @Buf.toNat c .be k ∧ @Buf.toNat c .be k < @Buf.toNat c .be q ∧ @Buf.toNat c .be m < @Buf.toNat c .be q ∧
    @Buf.toNat c .be q ≤ 2 ^ 16 ∧ r ≠ 0 ∧ s ≠ 0 ∧
    (@dsaRun c p q gen y x k m 16 wk).val = some (r, s, false) := by
  have hp : @Buf.toNat cfg32 .be (@Buf.ofNat cfg32 .be 12 1310381) = 1310381 := by decide +kernel
  have hq : @Buf.toNat cfg32 .be (@Buf.ofNat cfg32 .be 4 65519) = 65519 := by decide +kernel
  have hg : @Buf.toNat cfg32 .be (@Buf.ofNat cfg32 .be 12 1048576) = 1048576 := by decide +kernel
  have hx : @Buf.toNat cfg32 .be (@Buf.ofNat cfg32 .be 4 12345) = 12345 := by decide +kernel
  have hy : @Buf.toNat cfg32 .be (@Buf.ofNat cfg32 .be 12 641601) = 641601 := by decide +kernel
  refine ⟨cfg32, @Buf.ofNat cfg32 .be 12 1310381, @Buf.ofNat cfg32 .be 4 65519, @Buf.ofNat cfg32 .be 12 1048576,
    @Buf.ofNat cfg32 .be 12 641601, @Buf.ofNat cfg32 .be 4 12345, @Buf.ofNat cfg32 .be 4 30314, @Buf.ofNat cfg32 .be 4 777,
    @dsaBufs cfg32 12 4, 50256, 60922, ?_, ?_, ?_, ?_, by decide +kernel, by decide +kernel, ?_, by decide +kernel, ?_,
    by decide +kernel, by decide +kernel, by decide +kernel, by decide +kernel, by decide +kernel, by decide +kernel,
    by decide +kernel, by decide, by decide, by decide +kernel⟩
  · rw [hp]; norm_num
  · rw [hq]; norm_num
  · exact @ExpModulus.mk cfg32 _ _ (by decide +kernel) (by decide +kernel) (by decide +kernel) (by decide +kernel)
  · exact @DsaWork.Fits.mk cfg32 _ _ _ _ _ _ _ _ (by decide +kernel) (by decide +kernel) (by decide +kernel)
      (by decide +kernel) (by decide +kernel) (by decide +kernel) (by decide +kernel) (by decide +kernel)
      (by decide +kernel) (by decide +kernel) (by decide +kernel) (by decide +kernel)
  · rw [hp, hq, hg, Nat.ModEq, ← powMod_eq 1310381 16 _ _ (by norm_num)]
    decide +kernel
  · rw [hp, hx, hy, hg, ← powMod_eq 1310381 16 _ _ (by norm_num)]
    decide +kernel

/-! ### Examples -/

-- the same numbers, `q` having another limb: the signature is what it should be, and verifies
example : letI := cfg32;
    (dsaRun (Buf.ofNat .be 12 1310381) (Buf.ofNat .be 8 65519) (Buf.ofNat .be 12 1048576) (Buf.ofNat .be 12 641601)
      (Buf.ofNat .be 8 12345) (Buf.ofNat .be 8 30314) (Buf.ofNat .be 8 777) 16 (dsaBufs 12 8)).val =
    some (50256, 41174, true) := by decide +kernel
-- another hash: the signature doesn't verify
example : letI := cfg32;
    (dsaVerify (Buf.ofNat .be 12 1310381) (Buf.ofNat .be 8 65519) (Buf.ofNat .be 12 1048576) (Buf.ofNat .be 12 641601)
      (Buf.ofNat .be 8 778) (Buf.ofNat .be 8 50256) (Buf.ofNat .be 8 41174) 16 (dsaBufs 12 8)).val = some false := by
  decide +kernel
-- numbers out of range
example : letI := cfg32;
    (dsaVerify (Buf.ofNat .be 12 1310381) (Buf.ofNat .be 8 65519) (Buf.ofNat .be 12 1048576) (Buf.ofNat .be 12 641601)
      (Buf.ofNat .be 8 777) (Buf.ofNat .be 8 50256) (Buf.ofNat .be 8 (41174 + 65519)) 16 (dsaBufs 12 8)).val = some false := by
  decide +kernel
-- the hypotheses
example : letI := cfg32; DsaModuli (Buf.ofNat .be 12 1310381) (Buf.ofNat .be 8 65519) :=
  letI := cfg32
  ⟨⟨by decide +kernel, by decide +kernel, by decide +kernel, by decide +kernel⟩, by
    rw [show (Buf.ofNat .be 8 65519).toNat = 65519 by decide +kernel]; norm_num, by decide +kernel, by decide +kernel⟩
example : letI := cfg32; (dsaBufs 12 8).Fits (Buf.ofNat .be 12 1310381) (Buf.ofNat .be 8 65519) :=
  letI := cfg32
  ⟨by decide +kernel, by decide +kernel, by decide +kernel, by decide +kernel, by decide +kernel, by decide +kernel,
    by decide +kernel, by decide +kernel, by decide +kernel, by decide +kernel, by decide +kernel, by decide +kernel⟩

end Props
end Cmpa
