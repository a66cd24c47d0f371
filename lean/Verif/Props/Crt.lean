import Verif.Props.Protocol
import Verif.Props.Programs
import Verif.Props.Div
import Verif.Props.Mul
import Verif.Props.Buf
import Verif.Props.CtTrace
import Verif.Proofs.StrongPrime
import Mathlib.Data.ZMod.Basic
import Mathlib.Tactic.LinearCombination
import Mathlib.Tactic.NormNum.Prime

/-!
# RSA with the Chinese remainder theorem (C54)

The private operation of RSA the way implementations do it: one exponentiation per prime, the results being
combined with Garner's formula.  It takes divisions, exponentiations, a modular subtraction, products, copies and an
addition.
-/

namespace Cmpa
namespace Props

open M
variable [LimbCfg] {f g h g' h' e' d' i w : Fmt}

/-- A user's program: the remainder of `a` modulo `v`, stored in `dst`. -/
def reduceTo (dst : Buf h) (a : Buf f) (v : Buf g) : M (Buf h) := do
  match ← divideBy v none fun d => do let r ← ct_mod_mp_mp none a d; pure (.ok r) with
  | .ok (_, r) => dst.copy_from r
  | _ => M.ofOption none

/-- A user's program: the RSA private operation for the primes `p` and `q`, `dp` and `dq` being the private
exponent modulo `p - 1` and `q - 1`, `qinv` the inverse of `q` modulo `p`.  The buffers `m1`, `x1`, `m2`, `x2`
and `wide` are for intermediate results. -/
def rsaCrt (out : Buf f) (c : Buf g) (p : Buf g') (q : Buf h') (dp : Buf e') (pbits : ℕ) (dq : Buf d') (qbits : ℕ)
    (qinv : Buf i) (m1 x1 m2 x2 : Buf h) (wide : Buf w) (scratch : Buf .ne) : M (Buf f) := do
  let x1 ← reduceTo x1 c p
  let m1 ← modExp m1 x1 p dp pbits scratch
  let x2 ← reduceTo x2 c q
  let m2 ← modExp m2 x2 q dq qbits scratch
  let x1 ← reduceTo x1 m2 p
  let m1 ← unwrapE (ct_sub_mod_mp_mp m1 x1 p)
  let wide ← wide.copy_from m1
  let wide ← ct_mul_trunc_mp_mp wide p.len qinv
  let m1 ← reduceTo m1 wide p
  let out ← out.copy_from m1
  let out ← ct_mul_trunc_mp_mp out p.len q
  let (out, _) ← ct_add_mp_mp out m2
  pure out

theorem reduceTo_sat (dst : Buf h) (a : Buf f) (v : Buf g) (hv : 0 < v.toNat) (hl : v.len ≤ dst.len) :
    Sat (reduceTo dst a v) (fun r => r.len = dst.len ∧ r.toNat = a.toNat % v.toNat) := by
  unfold reduceTo
  refine (C21_mod none a v none (by simp) (by simpa using hv)).bind ?_
  rintro _ ⟨u, r, rfl, h1, h2, h3⟩
  have h4 : u = none := by simpa using h1
  subst h4
  have h5 : r.toNat = a.toNat % v.toNat := by simpa [dividend] using h3
  have h6 : r.toNat < 256 ^ dst.len := by
    rw [h5]
    exact (Nat.mod_lt _ hv).trans (v.toNat_lt.trans_le (Nat.pow_le_pow_right (by norm_num) hl))
  exact (C17_copy_from dst r h6).mono fun b hb => ⟨hb.1, hb.2.trans h5⟩

omit [LimbCfg] in
/-- Garner's formula. -/
theorem garner {p q qinv m1 m2 : ℕ} (hp : 1 < p) (hq : q * qinv ≡ 1 [MOD p]) (h2 : m2 < q) :
    let t := (((m1 : ℤ) - (m2 % p : ℕ)) % p).toNat
    let x := t * qinv % p * q + m2
    x < p * q ∧ x ≡ m1 [MOD p] ∧ x % q = m2 := by
  intro t x
  have ht : (t : ℤ) = ((m1 : ℤ) - (m2 % p : ℕ)) % p := Int.toNat_of_nonneg (Int.emod_nonneg _ (by omega))
  refine ⟨?_, ?_, ?_⟩
  · have h3 : t * qinv % p < p := Nat.mod_lt _ (by omega)
    calc t * qinv % p * q + m2 < t * qinv % p * q + q := by omega
      _ = (t * qinv % p + 1) * q := by ring
      _ ≤ p * q := Nat.mul_le_mul_right _ h3
  · rw [← ZMod.natCast_eq_natCast_iff] at hq ⊢
    have h4 : (t : ZMod p) = (m1 : ZMod p) - m2 := by
      have := congrArg (Int.cast (R := ZMod p)) ht
      push_cast [ZMod.intCast_mod] at this
      exact this
    have h5 : ((t * qinv % p : ℕ) : ZMod p) = t * qinv := by rw [ZMod.natCast_mod]; push_cast; ring
    simp only [x]
    push_cast
    push_cast at hq h5
    rw [h5, h4]
    linear_combination ((m1 : ZMod p) - m2) * hq
  · simp only [x]
    rw [Nat.add_mod, Nat.mul_mod_left, Nat.zero_add, Nat.mod_mod, Nat.mod_eq_of_lt h2]

/-- The lengths of the buffers of `rsaCrt`. -/
structure CrtBufs (out : Buf f) (p : Buf g') (q : Buf h') (qinv : Buf i) (m1 x1 m2 x2 : Buf h) (wide : Buf w)
    (scratch : Buf .ne) : Prop where
  m1 : m1.len = p.len
  x1 : x1.len = p.len
  m2 : m2.len = q.len
  x2 : x2.len = q.len
  wide : p.len + qinv.len ≤ wide.len
  out : p.len + q.len ≤ out.len
  scratch_p : p.nlimbs ≤ scratch.nlimbs
  scratch_q : q.nlimbs ≤ scratch.nlimbs

/-- C54: the private operation computes the number below `p * q` which is `c ^ dp` modulo `p` and `c ^ dq`
modulo `q`, for all moduli `p` and `q` in the domain of the exponentiation. -/
theorem C54_crt_partial (out : Buf f) (c : Buf g) (p : Buf g') (q : Buf h') (dp : Buf e') (pbits : ℕ) (dq : Buf d')
    (qbits : ℕ) (qinv : Buf i) (m1 x1 m2 x2 : Buf h) (wide : Buf w) (scratch : Buf .ne)
    (hb : CrtBufs out p q qinv m1 x1 m2 x2 wide scratch) (hp : ExpModulus p) (hq : ExpModulus q)
    (hp1 : 1 < p.toNat) (hdp : dp.toNat < 2 ^ pbits) (hdq : dq.toNat < 2 ^ qbits)
    (hqi : q.toNat * qinv.toNat ≡ 1 [MOD p.toNat]) :
    Sat (rsaCrt out c p q dp pbits dq qbits qinv m1 x1 m2 x2 wide scratch) (fun r => r.len = out.len ∧
      r.toNat < p.toNat * q.toNat ∧ r.toNat ≡ c.toNat ^ dp.toNat [MOD p.toNat] ∧
      r.toNat ≡ c.toNat ^ dq.toNat [MOD q.toNat]) := by
  have hp0 : 0 < p.toNat := by omega
  have hq0 : 0 < q.toNat := by have := hq.odd; omega
  unfold rsaCrt
  refine (reduceTo_sat x1 c p hp0 hb.x1.ge).bind ?_
  rintro c1 ⟨lc1, vc1⟩
  refine (modExp_sat m1 c1 p dp pbits scratch hp hb.m1.ge (lc1.trans hb.x1)
    (by rw [vc1]; exact Nat.mod_lt _ hp0) hdp hb.scratch_p).bind ?_
  rintro r1 ⟨lr1, vr1⟩
  refine (reduceTo_sat x2 c q hq0 hb.x2.ge).bind ?_
  rintro c2 ⟨lc2, vc2⟩
  refine (modExp_sat m2 c2 q dq qbits scratch hq hb.m2.ge (lc2.trans hb.x2)
    (by rw [vc2]; exact Nat.mod_lt _ hq0) hdq hb.scratch_q).bind ?_
  rintro r2 ⟨lr2, vr2⟩
  refine (reduceTo_sat c1 r2 p hp0 (lc1.trans hb.x1).ge).bind ?_
  rintro s ⟨ls, vs⟩
  have hr1 : r1.toNat < p.toNat := by rw [vr1]; exact Nat.mod_lt _ hp0
  have hr2 : r2.toNat < q.toNat := by rw [vr2]; exact Nat.mod_lt _ hq0
  have hs : s.toNat < p.toNat := by rw [vs]; exact Nat.mod_lt _ hp0
  have hlen : r1.len = p.len := lr1.trans hb.m1
  refine Sat.bind (P := fun t => t.len = p.len ∧
    (t.toNat : ℤ) = ((r1.toNat : ℤ) - (r2.toNat % p.toNat : ℕ)) % p.toNat) ?_ ?_
  · refine unwrapE_ok ?_
    refine (C06_sub_mod_partial r1 s p (Or.inl hlen.ge) hr1 hs (Or.inl (Buf.nlimbs_congr hlen))).mono ?_
    rintro _ ⟨t, rfl, lt, vt⟩
    exact ⟨t, rfl, lt.trans hlen, by rw [vt, vs]⟩
  rintro t ⟨lt, vt⟩
  have ht : t.toNat = (((r1.toNat : ℤ) - (r2.toNat % p.toNat : ℕ)) % p.toNat).toNat := by rw [← vt]; simp
  have htp : t.toNat < 256 ^ p.len := lt ▸ t.toNat_lt
  refine (C17_copy_from wide t (htp.trans_le (Nat.pow_le_pow_right (by norm_num) (by have := hb.wide; omega)))).bind ?_
  rintro w1 ⟨lw1, vw1⟩
  refine (C09_mul_exact w1 p.len qinv (lw1 ▸ hb.wide)).bind ?_
  rintro w2 ⟨lw2, vw2⟩
  rw [vw1, Nat.mod_eq_of_lt htp] at vw2
  refine (reduceTo_sat t w2 p hp0 lt.ge).bind ?_
  rintro k ⟨lk, vk⟩
  rw [vw2] at vk
  have hkp : k.toNat < 256 ^ p.len := (lk.trans lt) ▸ k.toNat_lt
  refine (C17_copy_from out k (hkp.trans_le (Nat.pow_le_pow_right (by norm_num) (by have := hb.out; omega)))).bind ?_
  rintro o1 ⟨lo1, vo1⟩
  refine (C09_mul_exact o1 p.len q (lo1 ▸ hb.out)).bind ?_
  rintro o2 ⟨lo2, vo2⟩
  rw [vo1, Nat.mod_eq_of_lt hkp] at vo2
  refine (C02_add_len o2 r2 (by have := hb.out; have := hb.m2; omega)).bind ?_
  rintro ⟨o3, carry⟩ ⟨lo3, hc1, vo3⟩
  refine Sat.pure ?_
  obtain ⟨g1, g2, g3⟩ := garner (m1 := r1.toNat) hp1 hqi hr2
  rw [← ht, ← vk, ← vo2] at g1 g2 g3
  have hbig : o2.toNat + r2.toNat < 256 ^ o2.len := by
    refine g1.trans ?_
    calc p.toNat * q.toNat < 256 ^ p.len * 256 ^ q.len := Nat.mul_lt_mul_of_lt_of_lt p.toNat_lt q.toNat_lt
      _ ≤ 256 ^ o2.len := by
        rw [← pow_add]; exact Nat.pow_le_pow_right (by norm_num) (by have := hb.out; omega)
  have hv : o3.toNat = o2.toNat + r2.toNat := by
    rcases Nat.eq_zero_or_pos carry with h0 | h0
    · subst h0; omega
    · have : 1 * 256 ^ o2.len ≤ carry * 256 ^ o2.len := Nat.mul_le_mul_right _ h0
      omega
  refine ⟨by omega, hv ▸ g1, ?_, ?_⟩
  · rw [hv]
    refine g2.trans ?_
    rw [vr1, vc1]
    exact (Nat.mod_modEq _ _).trans ((Nat.mod_modEq _ _).pow _)
  · rw [hv]
    refine (show _ ≡ r2.toNat [MOD q.toNat] by rw [Nat.ModEq, g3, Nat.mod_eq_of_lt hr2]).trans ?_
    rw [vr2, vc2]
    exact (Nat.mod_modEq _ _).trans ((Nat.mod_modEq _ _).pow _)

omit [LimbCfg] in
/-- Exponents which agree modulo `p - 1`. -/
theorem pow_congr_exponent {p x a b : ℕ} (hp : p.Prime) (h : a ≡ b [MOD p - 1]) (ha : a ≠ 0) (hb : b ≠ 0) :
    x ^ a ≡ x ^ b [MOD p] := by
  have : Fact p.Prime := ⟨hp⟩
  rw [← ZMod.natCast_eq_natCast_iff]
  push_cast
  by_cases hx : (x : ZMod p) = 0
  · rw [hx, zero_pow ha, zero_pow hb]
  · have hu : (x : ZMod p) ^ (p - 1) = 1 := ZMod.pow_card_sub_one_eq_one hx
    have h1 : ∀ k : ℕ, (x : ZMod p) ^ k = (x : ZMod p) ^ (k % (p - 1)) := fun k => by
      conv_lhs => rw [← Nat.div_add_mod k (p - 1), pow_add, pow_mul, hu, one_pow, one_mul]
    rw [h1 a, h1 b, h]

/-- C54: decryption with the Chinese remainder theorem is the inverse of encryption, for all messages below
the modulus, coprime to it or not.  Missing: the primes excluded from C28. -/
theorem C54_decrypt_partial (out : Buf f) (c : Buf g) (p : Buf g') (q : Buf h') (dp : Buf e') (pbits : ℕ)
    (dq : Buf d') (qbits : ℕ) (qinv : Buf i) (m1 x1 m2 x2 : Buf h) (wide : Buf w) (scratch : Buf .ne) (msg e : ℕ)
    (hpp : p.toNat.Prime) (hqp : q.toNat.Prime) (hpq : p.toNat ≠ q.toNat)
    (hep : e * dp.toNat ≡ 1 [MOD p.toNat - 1]) (heq : e * dq.toNat ≡ 1 [MOD q.toNat - 1])
    (hqi : q.toNat * qinv.toNat ≡ 1 [MOD p.toNat])
    (hm : msg < p.toNat * q.toNat) (hc : c.toNat = msg ^ e % (p.toNat * q.toNat))
    (hb : CrtBufs out p q qinv m1 x1 m2 x2 wide scratch) (hp : ExpModulus p) (hq : ExpModulus q)
    (hdp : dp.toNat < 2 ^ pbits) (hdq : dq.toNat < 2 ^ qbits) :
    Sat (rsaCrt out c p q dp pbits dq qbits qinv m1 x1 m2 x2 wide scratch) (fun r => r.toNat = msg) := by
  refine (C54_crt_partial out c p q dp pbits dq qbits qinv m1 x1 m2 x2 wide scratch hb hp hq hpp.one_lt hdp hdq
    hqi).mono ?_
  rintro r ⟨-, h1, h2, h3⟩
  have key : ∀ {s k : ℕ}, s.Prime → s % 2 = 1 → s ∣ p.toNat * q.toNat → e * k ≡ 1 [MOD s - 1] →
      c.toNat ^ k ≡ msg [MOD s] := by
    intro s k hs hs2 hd hk
    have hs3 : s - 1 ≠ 1 := by have := hs.two_le; omega
    have hk0 : e * k ≠ 0 := by
      intro h0
      rw [h0] at hk
      exact hs3 (Nat.dvd_one.1 ((Nat.modEq_iff_dvd' (Nat.zero_le 1)).1 hk))
    have h4 : c.toNat ≡ msg ^ e [MOD s] := by rw [hc]; exact (Nat.mod_modEq _ _).of_dvd hd
    refine (h4.pow k).trans ?_
    rw [← pow_mul]
    exact Rsa.pow_modEq_prime hs dvd_rfl hk hk0
  have h4 := h2.trans (key hpp hp.odd (Nat.dvd_mul_right _ _) hep)
  have h5 := h3.trans (key hqp hq.odd (Nat.dvd_mul_left _ _) heq)
  have h6 := (Nat.modEq_and_modEq_iff_modEq_mul ((Nat.coprime_primes hpp hqp).2 hpq)).1 ⟨h4, h5⟩
  exact h6.eq_of_lt_of_lt h1 hm

/-- C54: the same number as found by a single exponentiation modulo the product. -/
theorem C54_same_partial (out : Buf f) (out' : Buf w) (c : Buf g) (n : Buf i) (p : Buf g') (q : Buf h') (d : Buf e')
    (nbits : ℕ) (dp : Buf e') (pbits : ℕ)
    (dq : Buf d') (qbits : ℕ) (qinv : Buf i) (m1 x1 m2 x2 : Buf h) (wide : Buf w) (scratch : Buf .ne)
    (hpp : p.toNat.Prime) (hqp : q.toNat.Prime) (hpq : p.toNat ≠ q.toNat) (hn : n.toNat = p.toNat * q.toNat)
    (hd : d.toNat ≠ 0 ∧ dp.toNat ≠ 0 ∧ dq.toNat ≠ 0)
    (hep : d.toNat ≡ dp.toNat [MOD p.toNat - 1]) (heq : d.toNat ≡ dq.toNat [MOD q.toNat - 1])
    (hqi : q.toNat * qinv.toNat ≡ 1 [MOD p.toNat]) (hcn : c.toNat < n.toNat) (hcl : c.len = n.len)
    (hb : CrtBufs out p q qinv m1 x1 m2 x2 wide scratch) (hp : ExpModulus p) (hq : ExpModulus q) (hmn : ExpModulus n)
    (hol : n.len ≤ out'.len) (hns : n.nlimbs ≤ scratch.nlimbs)
    (hdn : d.toNat < 2 ^ nbits) (hdp : dp.toNat < 2 ^ pbits) (hdq : dq.toNat < 2 ^ qbits) :
    Sat (rsaCrt out c p q dp pbits dq qbits qinv m1 x1 m2 x2 wide scratch) (fun r =>
      Sat (modExp out' c n d nbits scratch) (fun r' => r.toNat = r'.toNat)) := by
  refine (C54_crt_partial out c p q dp pbits dq qbits qinv m1 x1 m2 x2 wide scratch hb hp hq hpp.one_lt hdp hdq
    hqi).mono ?_
  rintro r ⟨-, h1, h2, h3⟩
  refine (modExp_sat out' c n d nbits scratch hmn hol hcl hcn hdn hns).mono ?_
  rintro r' ⟨-, h4⟩
  have h5 : r.toNat ≡ c.toNat ^ d.toNat [MOD p.toNat * q.toNat] :=
    (Nat.modEq_and_modEq_iff_modEq_mul ((Nat.coprime_primes hpp hqp).2 hpq)).1
      ⟨h2.trans (pow_congr_exponent hpp hep hd.1 hd.2.1).symm, h3.trans (pow_congr_exponent hqp heq hd.1 hd.2.2).symm⟩
  rw [h4, hn, ← h5, Nat.mod_eq_of_lt h1]

/-! ### Constant time -/

section
variable [Obs]

theorem reduceTo_ct {dst dst' : Buf h} {a a' : Buf f} {v v' : Buf g} (hd : dst.len = dst'.len) (ha : a.len = a'.len)
    (hv : v.len = v'.len) (hb : byteLen v.toNat = byteLen v'.toNat) :
    SameTr (reduceTo dst a v) (reduceTo dst' a' v') Pub.rel := by
  have key := divideBy_ct (α := Option (Buf f) × Buf f) (v := v) (v' := v') (dec := none) (dec' := none)
    ⟨hv, rfl, by simp, by simp, by simpa using hb⟩ (fun d d' h1 h2 => ctOk_map (ct_mod_mp_mp_ct
      (u_h := (none : Option (Buf f))) (u_h' := none) (pub_opt rfl) ha h1 h2))
  unfold reduceTo
  intro x y hx hy
  rw [bind_val] at hx hy
  cases hm : (divideBy v none fun d => do let r ← ct_mod_mp_mp none a d; pure (.ok r) : M _).val with
  | none => rw [hm] at hx; cases hx
  | some r =>
    cases hn : (divideBy v' none fun d => do let r ← ct_mod_mp_mp none a' d; pure (.ok r) : M _).val with
    | none => rw [hn] at hy; cases hy
    | some r' =>
      rw [hm] at hx
      rw [hn] at hy
      rcases r with _ | _ | ⟨_, r⟩
      · cases hx
      · cases hx
      rcases r' with _ | _ | ⟨_, r'⟩
      · cases hy
      · cases hy
      obtain ⟨h1, h2⟩ := key _ _ hm hn trivial trivial
      have h3 : SameTr (dst.copy_from r) (dst'.copy_from r') Pub.rel := Buf.copy_from_ct hd (h2 _ _ rfl rfl).2
      obtain ⟨h4, h5⟩ := h3 x y hx hy
      refine ⟨?_, h5⟩
      rw [bind_seen_some hm, bind_seen_some hn, h1, h4]

theorem modExp_ct {r r' : Buf f} {a a' : Buf g} {n n' : Buf h} {x x' : Buf e'} {s s' : Buf .ne} {nbits : ℕ}
    (hr : r.len = r'.len) (ha : a.len = a'.len) (hn : n.len = n'.len) (hl : byteLen n.toNat = byteLen n'.toNat)
    (hx : x.len = x'.len) (hs : s.len = s'.len) :
    SameTr (modExp r a n x nbits s) (modExp r' a' n' x' nbits s') Pub.rel := by
  unfold modExp
  refine (unwrapE_ct (ct_exp_mod_odd_mp_mp_ct hr ha hn hl hx rfl hs)).bind ?_
  rintro ⟨_, _, _⟩ ⟨_, _, _⟩ hp
  exact SameTr.pure hp.1

theorem rsaCrt_ct {out out' : Buf f} {c x : Buf g} {p p' : Buf g'} {q q' : Buf h'} {dp dp' : Buf e'} {pbits : ℕ}
    {dq dq' : Buf d'} {qbits : ℕ} {qinv qinv' : Buf i} {m1 x1 m2 x2 m1' x1' m2' x2' : Buf h} {wide wide' : Buf w}
    {scratch scratch' : Buf .ne} (ho : out.len = out'.len) (hc : c.len = x.len) (hp : p.len = p'.len)
    (hpb : byteLen p.toNat = byteLen p'.toNat) (hq : q.len = q'.len) (hqb : byteLen q.toNat = byteLen q'.toNat)
    (hdp : dp.len = dp'.len) (hdq : dq.len = dq'.len) (hqi : qinv.len = qinv'.len) (h1 : m1.len = m1'.len)
    (h2 : x1.len = x1'.len) (h3 : m2.len = m2'.len) (h4 : x2.len = x2'.len) (hw : wide.len = wide'.len)
    (hs : scratch.len = scratch'.len) :
    SameTr (rsaCrt out c p q dp pbits dq qbits qinv m1 x1 m2 x2 wide scratch)
      (rsaCrt out' x p' q' dp' pbits dq' qbits qinv' m1' x1' m2' x2' wide' scratch') Pub.rel := by
  unfold rsaCrt
  refine (reduceTo_ct h2 hc hp hpb).bind fun _ _ e1 => ?_
  refine (modExp_ct h1 e1 hp hpb hdp hs).bind fun _ _ e2 => ?_
  refine (reduceTo_ct h4 hc hq hqb).bind fun _ _ e3 => ?_
  refine (modExp_ct h3 e3 hq hqb hdq hs).bind fun _ _ e4 => ?_
  refine (reduceTo_ct e1 e4 hp hpb).bind fun _ _ e5 => ?_
  refine (unwrapE_ct (ct_sub_mod_mp_mp_ct e2 e5 hp)).bind fun _ _ e6 => ?_
  refine (Buf.copy_from_ct hw e6).bind fun _ _ e7 => ?_
  refine (ct_mul_trunc_mp_mp_ct e7 hp hqi).bind fun _ _ e8 => ?_
  refine (reduceTo_ct e6 e8 hp hpb).bind fun _ _ e9 => ?_
  refine (Buf.copy_from_ct ho e9).bind fun _ _ e10 => ?_
  refine (ct_mul_trunc_mp_mp_ct e10 hp hq).bind fun _ _ e11 => ?_
  refine (ct_add_mp_mp_ct e11 e4).bind ?_
  rintro ⟨_, _⟩ ⟨_, _⟩ e12
  exact SameTr.pure e12.1

end

/-- C54: the private operation leaves the same events for all keys and messages of the same lengths, the number
of significant bytes of the primes being public: neither branches nor accesses depend on the message, the primes, the private
exponents. -/
theorem C54_constant_time_partial {out out' : Buf f} {c x : Buf g} {p p' : Buf g'} {q q' : Buf h'} {dp dp' : Buf e'}
    {pbits : ℕ} {dq dq' : Buf d'} {qbits : ℕ} {qinv qinv' : Buf i} {m1 x1 m2 x2 m1' x1' m2' x2' : Buf h}
    {wide wide' : Buf w} {scratch scratch' : Buf .ne} (ho : out.len = out'.len) (hc : c.len = x.len)
    (hp : p.len = p'.len) (hpb : byteLen p.toNat = byteLen p'.toNat) (hq : q.len = q'.len)
    (hqb : byteLen q.toNat = byteLen q'.toNat) (hdp : dp.len = dp'.len) (hdq : dq.len = dq'.len)
    (hqi : qinv.len = qinv'.len) (hw : wide.len = wide'.len) (hs : scratch.len = scratch'.len)
    (hb : CrtBufs out p q qinv m1 x1 m2 x2 wide scratch) (hep : ExpModulus p) (heq : ExpModulus q)
    (hp1 : 1 < p.toNat) (hdpb : dp.toNat < 2 ^ pbits) (hdqb : dq.toNat < 2 ^ qbits)
    (hi : q.toNat * qinv.toNat ≡ 1 [MOD p.toNat])
    (hb' : CrtBufs out' p' q' qinv' m1' x1' m2' x2' wide' scratch') (hep' : ExpModulus p') (heq' : ExpModulus q')
    (hp1' : 1 < p'.toNat) (hdpb' : dp'.toNat < 2 ^ pbits) (hdqb' : dq'.toNat < 2 ^ qbits)
    (hi' : q'.toNat * qinv'.toNat ≡ 1 [MOD p'.toNat]) :
    (rsaCrt out c p q dp pbits dq qbits qinv m1 x1 m2 x2 wide scratch).tr =
      (rsaCrt out' x p' q' dp' pbits dq' qbits qinv' m1' x1' m2' x2' wide' scratch').tr :=
  sameEvents (@rsaCrt_ct _ f g h g' h' e' d' i w Obs.full out out' c x p p' q q' dp dp' pbits dq dq' qbits qinv qinv'
    m1 x1 m2 x2 m1' x1' m2' x2' wide wide' scratch scratch' ho hc hp hpb hq hqb hdp hdq hqi
    (by rw [hb.m1, hb'.m1, hp]) (by rw [hb.x1, hb'.x1, hp]) (by rw [hb.m2, hb'.m2, hq]) (by rw [hb.x2, hb'.x2, hq]) hw hs)
    (C54_crt_partial out c p q dp pbits dq qbits qinv m1 x1 m2 x2 wide scratch hb hep heq hp1 hdpb hdqb hi).ne_none
    (C54_crt_partial out' x p' q' dp' pbits dq' qbits qinv' m1' x1' m2' x2' wide' scratch' hb' hep' heq' hp1' hdpb' hdqb'
      hi').ne_none

omit [LimbCfg] in
/-- C54 doesn't hold as stated, because of the carry lost by the Montgomery multiplication (C26): with 32 bit limbs,
the prime `p = 2 ^ 64 - 83` and the public exponent `3` the message `p - 1` is decrypted to another number. -/
theorem C54_decrypt_fails : ∃ (c : LimbCfg) (out y p q dp dq qinv m1 x1 m2 x2 wide : @Buf c .be) (scratch : @Buf c .ne)
    (msg : ℕ), (@Buf.toNat c .be p).Prime ∧ (@Buf.toNat c .be q).Prime ∧ @Buf.toNat c .be p ≠ @Buf.toNat c .be q ∧
    3 * @Buf.toNat c .be dp ≡ 1 [MOD @Buf.toNat c .be p - 1] ∧ 3 * @Buf.toNat c .be dq ≡ 1 [MOD @Buf.toNat c .be q - 1] ∧
    @Buf.toNat c .be q * @Buf.toNat c .be qinv ≡ 1 [MOD @Buf.toNat c .be p] ∧
    msg < @Buf.toNat c .be p * @Buf.toNat c .be q ∧
    @Buf.toNat c .be y = msg ^ 3 % (@Buf.toNat c .be p * @Buf.toNat c .be q) ∧
    @CrtBufs c .be .be .be .be .be .be out p q qinv m1 x1 m2 x2 wide scratch ∧
    @Buf.toNat c .be dp < 2 ^ 64 ∧ @Buf.toNat c .be dq < 2 ^ 6 ∧
    ∃ v, (@rsaCrt c .be .be .be .be .be .be .be .be .be out y p q dp 64 dq 6 qinv m1 x1 m2 x2 wide scratch).val.map
      (@Buf.toNat c .be) = some v ∧ v ≠ msg := by
  have hp : @Buf.toNat cfg32 .be (@Buf.ofNat cfg32 .be 8 18446744073709551533) = 18446744073709551533 := by
    decide +kernel
  have hq : @Buf.toNat cfg32 .be (@Buf.ofNat cfg32 .be 8 53) = 53 := by decide +kernel
  refine ⟨cfg32, @Buf.ofNat cfg32 .be 16 0, @Buf.ofNat cfg32 .be 9 147573952589676412263,
    @Buf.ofNat cfg32 .be 8 18446744073709551533, @Buf.ofNat cfg32 .be 8 53, @Buf.ofNat cfg32 .be 8 12297829382473034355,
    @Buf.ofNat cfg32 .be 1 35, @Buf.ofNat cfg32 .be 8 16010381648879988123, @Buf.ofNat cfg32 .be 8 0,
    @Buf.ofNat cfg32 .be 8 0, @Buf.ofNat cfg32 .be 8 0, @Buf.ofNat cfg32 .be 8 0, @Buf.ofNat cfg32 .be 16 0,
    @Buf.ofNat cfg32 .ne 8 0, 18446744073709551532, ?_, ?_, ?_, ?_, ?_, ?_, ?_, ?_, ?_, ?_, ?_, ?_⟩
  · rw [hp]; exact prime_64
  · rw [hq]; norm_num
  · decide +kernel
  · decide +kernel
  · decide +kernel
  · decide +kernel
  · decide +kernel
  · decide +kernel
  · exact @CrtBufs.mk cfg32 _ _ _ _ _ _ _ _ _ _ _ _ _ _ _ _ (by decide +kernel) (by decide +kernel)
      (by decide +kernel) (by decide +kernel) (by decide +kernel) (by decide +kernel) (by decide +kernel)
      (by decide +kernel)
  · decide +kernel
  · decide +kernel
  · exact ⟨866996971464348922051, by decide +kernel, by decide +kernel⟩

/-! ### Examples -/

-- 2790 is the ciphertext of 65 for the primes 61 and 53 and the exponent 17
example : letI := cfg64;
    ((rsaCrt (Buf.ofNat .be 18 7) (Buf.ofNat .le 2 2790) (Buf.ofNat .be 9 61) (Buf.ofNat .le 9 53) (Buf.ofNat .be 1 53) 6
      (Buf.ofNat .le 1 49) 6 (Buf.ofNat .ne 8 38) (Buf.ofNat .be 9 1) (Buf.ofNat .be 9 2) (Buf.ofNat .be 9 3)
      (Buf.ofNat .be 9 4) (Buf.ofNat .ne 24 5) (Buf.ofNat .ne 16 6)).val.map Buf.toNat) = some 65 := by
  decide +kernel
example : letI := cfg64;
    CrtBufs (Buf.ofNat .be 18 7) (Buf.ofNat .be 9 61) (Buf.ofNat .le 9 53) (Buf.ofNat .ne 8 38) (Buf.ofNat .be 9 1)
      (Buf.ofNat .be 9 2) (Buf.ofNat .be 9 3) (Buf.ofNat .be 9 4) (Buf.ofNat .ne 24 5) (Buf.ofNat .ne 16 6) :=
  letI := cfg64
  ⟨by decide +kernel, by decide +kernel, by decide +kernel, by decide +kernel, by decide +kernel, by decide +kernel,
    by decide +kernel, by decide +kernel⟩
example : letI := cfg64; ExpModulus (Buf.ofNat .be 9 61) ∧ ExpModulus (Buf.ofNat .le 9 53) :=
  letI := cfg64
  ⟨⟨by decide +kernel, by decide +kernel, by decide +kernel, by decide +kernel⟩,
    ⟨by decide +kernel, by decide +kernel, by decide +kernel, by decide +kernel⟩⟩
example : 17 * 53 ≡ 1 [MOD 61 - 1] ∧ 17 * 49 ≡ 1 [MOD 53 - 1] ∧ 53 * 38 ≡ 1 [MOD 61] ∧ 65 ^ 17 % (61 * 53) = 2790 ∧
    Nat.Prime 61 ∧ Nat.Prime 53 := by
  refine ⟨by decide, by decide, by decide, by norm_num, by norm_num, by norm_num⟩

end Props
end Cmpa
