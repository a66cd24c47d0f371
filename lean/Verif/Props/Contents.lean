import Verif.Props.Portable
import Verif.Props.MgExact

/-!
# What result and scratch buffers held before does not matter (C48)

The same call is made twice, with the same operands, but with other contents of the buffers which are for
results or scratch space only.
-/

namespace Cmpa
namespace Props

open M
variable [LimbCfg] {f g h f' e' φ ψ χ : Fmt}

/-- Specification: both runs end without a panic, and either report the same error, or succeed with results
`p` takes the same part of. -/
def SameOutcome {ε α β : Type} (p : α → β) (m m' : M (Except ε α)) : Prop :=
  (∃ e, m.val = some (.error e) ∧ m'.val = some (.error e)) ∨
  ∃ a a', m.val = some (.ok a) ∧ m'.val = some (.ok a') ∧ p a = p a'

omit [LimbCfg] in
theorem SameOutcome.of {ε α β : Type} {p : α → β} {m m' : M (Except ε α)} {err err' : Option ε}
    {P P' : α → Prop} (h : Sat m (Outcome err P)) (h' : Sat m' (Outcome err' P')) (he : err = err')
    (hP : ∀ a a', P a → P' a' → p a = p a') : SameOutcome p m m' := by
  obtain ⟨r, h1, h2⟩ := h
  obtain ⟨r', h3, h4⟩ := h'
  subst he
  cases r with
  | error e =>
    cases r' with
    | error e' =>
      have h2 : err = some e := h2
      have h4 : err = some e' := h4
      rw [h2, Option.some_inj] at h4
      exact Or.inl ⟨e, h1, h4 ▸ h3⟩
    | ok a' =>
      have h2 : err = some e := h2
      have h4 : err = none := h4.1
      rw [h2] at h4; cases h4
  | ok a =>
    cases r' with
    | error e' =>
      have h2 : err = none := h2.1
      have h4 : err = some e' := h4
      rw [h2] at h4; cases h4
    | ok a' => exact Or.inr ⟨a, a', h1, h3, hP a a' h2.2 h4.2⟩

/-- Specification: both runs panic, or have the same outcome. -/
def SameRun {ε α β : Type} (p : α → β) (m m' : M (Except ε α)) : Prop :=
  (m.val = none ∧ m'.val = none) ∨ SameOutcome p m m'

omit [LimbCfg] in
theorem SameRun.of {ε α β : Type} {p : α → β} {m m' : M (Except ε α)} {err err' : Option ε}
    {S S' : Prop} {P P' : α → Prop} (h : Exact S m (Outcome err P)) (h' : Exact S' m' (Outcome err' P'))
    (hS : S ↔ S') (he : err = err') (hP : ∀ a a', P a → P' a' → p a = p a') : SameRun p m m' := by
  by_cases hs : S
  · exact Or.inr (.of (h.sat hs) (h'.sat (hS.1 hs)) he hP)
  · exact Or.inl ⟨h.panic hs, h'.panic fun hs' => hs (hS.2 hs')⟩

/-! ## C48 -/

/-- C48: copying. -/
theorem C48_copy (b b' : Buf f) (src : Buf g) (hl : b.len = b'.len) (h : src.toNat < 256 ^ b.len) :
    Agree (b.copy_from src) (b'.copy_from src) (· = ·) := by
  refine .of (C17_copy_from b src h) (C17_copy_from b' src (hl ▸ h)) ?_
  rintro x y ⟨h1, h2⟩ ⟨h3, h4⟩
  exact Buf.ext' (by rw [h1, h3, hl]) (by rw [h2, h4])

/-- C48: storing a native integer. -/
theorem C48_set_to (b b' : Buf f) (sz v : ℕ) (hb : b.len = b'.len) (hl : sz ≤ b.len) (hv : v < 256 ^ sz) :
    Agree (b.set_to_native sz v) (b'.set_to_native sz v) (· = ·) := by
  refine .of (C39_set_to b sz v hl hv) (C39_set_to b' sz v (hb ▸ hl) hv) ?_
  rintro x y ⟨h1, h2⟩ ⟨h3, h4⟩
  exact Buf.ext' (by rw [h1, h3, hb]) (by rw [h2, h4])

/-- C48: multiplication, for the bytes of the buffer above those of the operand. -/
theorem C48_mul (a a' : Buf f) (n : ℕ) (b : Buf g) (ha : a.len = a'.len)
    (haa : a.toNat % 256 ^ n = a'.toNat % 256 ^ n) (hn : n ≤ a.len) :
    Agree (ct_mul_trunc_mp_mp a n b) (ct_mul_trunc_mp_mp a' n b) (· = ·) := by
  refine .of (C09_mul a n b hn) (C09_mul a' n b (ha ▸ hn)) ?_
  rintro x y ⟨h1, h2⟩ ⟨h3, h4⟩
  exact Buf.ext' (by rw [h1, h3, ha]) (by rw [h2, h4, ha, haa])

/-- C48: division, for the quotient. -/
theorem C48_div (u : Buf f) (v : Buf g) (q q' : Buf h) (hq : q.len = q'.len) (hv : v.toNat ≠ 0)
    (hl : u.len ≤ q.len) : Agree (quotRem u v q) (quotRem u v q') (· = ·) := by
  refine .of (quotRem_sat u v q hv hl) (quotRem_sat u v q' hv (hq ▸ hl)) ?_
  rintro ⟨x, y⟩ ⟨x', y'⟩ ⟨h1, h2, h3, h4⟩ ⟨h5, h6, h7, h8⟩
  exact Prod.ext (Buf.ext' (by rw [h1, h5]) (by rw [h2, h6]))
    (Buf.ext' (by rw [h3, h7, hq]) (by rw [h4, h8]))

/-- What two results tell about a buffer given optionally determines it. -/
theorem optBuf_ext {x y q q' : Option (Buf f)} {Q : ℕ} (hx : x.map Buf.len = q.map Buf.len)
    (hy : y.map Buf.len = q'.map Buf.len) (hq : q.map Buf.len = q'.map Buf.len)
    (hX : ∀ b ∈ x, b.toNat = Q) (hY : ∀ b ∈ y, b.toNat = Q) : x = y := by
  rw [hq, ← hy] at hx
  cases x with
  | none => cases y with
    | none => rfl
    | some b => cases hx
  | some a => cases y with
    | none => cases hx
    | some b =>
      rw [Option.map_some, Option.map_some, Option.some_inj] at hx
      rw [Buf.ext' hx ((hX a rfl).trans (hY b rfl).symm)]

theorem QuotientFits.congr {q q' : Option (Buf f)} {l V Q : ℕ} (hq : q.map Buf.len = q'.map Buf.len)
    (h : QuotientFits q l V Q) : QuotientFits q' l V Q := by
  intro b hb
  cases hb
  cases q with
  | none => cases hq
  | some a =>
    rw [Option.map_some, Option.map_some, Option.some_inj] at hq
    rw [← hq]
    exact h a rfl

/-- C48: division, for the quotient, with a dividend in one or two parts and a decremented divisor. -/
theorem C48_div_parts (u_h : Option (Buf f)) (u_l : Buf f) (v : Buf g) (dec : Option ℕ)
    (q q' : Option (Buf h)) (hql : q.map Buf.len = q'.map Buf.len) (hdec : ∀ x ∈ dec, x < B)
    (hv : dec.getD 0 < v.toNat)
    (hq : QuotientFits q (dividendLen u_h u_l) (v.toNat - dec.getD 0)
      (dividend u_h u_l / (v.toNat - dec.getD 0))) :
    Agree (divideBy v dec fun d => ct_div_mp_mp u_h u_l d q)
      (divideBy v dec fun d => ct_div_mp_mp u_h u_l d q') (· = ·) := by
  refine .of (C21_div u_h u_l v dec q hdec hv hq) (C21_div u_h u_l v dec q' hdec hv (hq.congr hql)) ?_
  rintro _ _ ⟨a, b, c, rfl, h1, h2, h3, h4, h5⟩ ⟨a', b', c', rfl, h6, h7, h8, h9, h10⟩
  have hc := optBuf_ext h4 h9 hql h5 h10
  have hd : dividend a b = dividend a' b' := h3.trans h8.symm
  unfold dividend at hd
  have hl : b.len = b'.len := h2.trans h7.symm
  rw [hl] at hd
  have hb : b = b' := by
    refine Buf.ext' hl ?_
    have := congrArg (· % 256 ^ b'.len) hd
    have h11 := b.toNat_lt
    rw [hl] at h11
    simpa [Nat.add_mul_mod_self_left, Nat.mod_eq_of_lt h11, Nat.mod_eq_of_lt b'.toNat_lt] using this
  subst hb
  have ha : (a.map Buf.toNat).getD 0 = (a'.map Buf.toNat).getD 0 := by
    have := Nat.add_left_cancel hd
    exact Nat.eq_of_mul_eq_mul_left (by positivity) this
  have : a = a' := by
    refine optBuf_ext (Q := (a.map Buf.toNat).getD 0) h1 h6 rfl ?_ ?_
    · intro x hx; cases hx; rfl
    · intro x hx; cases hx; exact ha.symm
  rw [this, hc]

/-- C48: division of a power of two, for the quotient and the remainder. -/
theorem C48_div_pow2 (e : ℕ) (r r' : Buf f) (v : Buf g) (dec : Option ℕ) (q q' : Option (Buf h))
    (hrl : r.len = r'.len) (hql : q.map Buf.len = q'.map Buf.len)
    (hdec : ∀ x ∈ dec, x < B) (hv : dec.getD 0 < v.toNat)
    (hr : min (byteLen (v.toNat - dec.getD 0)) (pow2Len e) ≤ r.len)
    (hq : QuotientFits q (pow2Len e) (v.toNat - dec.getD 0) (2 ^ e / (v.toNat - dec.getD 0))) :
    Agree (divideBy v dec fun d => ct_div_pow2_mp e r d q)
      (divideBy v dec fun d => ct_div_pow2_mp e r' d q') (· = ·) := by
  refine .of (C23_div_pow2 e r v dec q hdec hv hr hq)
    (C23_div_pow2 e r' v dec q' hdec hv (hrl ▸ hr) (hq.congr hql)) ?_
  rintro _ _ ⟨a, c, rfl, h1, h2, h4, h5⟩ ⟨a', c', rfl, h6, h7, h9, h10⟩
  rw [optBuf_ext h4 h9 hql h5 h10, Buf.ext' (by rw [h1, h6, hrl]) (h2.trans h7.symm)]

/-- C48: division of a shifted number, for the quotient. -/
theorem C48_div_lshifted (u : Buf f) (n s : ℕ) (v : Buf g) (dec : Option ℕ) (q q' : Option (Buf h))
    (hql : q.map Buf.len = q'.map Buf.len) (hdec : ∀ x ∈ dec, x < B) (hv : dec.getD 0 < v.toNat)
    (hn : n ≤ u.len) (hu : u.toNat < 256 ^ n)
    (hr : min (byteLen (v.toNat - dec.getD 0)) (n + s) ≤ u.len)
    (hq : QuotientFits q (n + s) (v.toNat - dec.getD 0)
      (u.toNat * 256 ^ s / (v.toNat - dec.getD 0))) :
    Agree (divideBy v dec fun d => ct_div_lshifted_mp_mp u n s d q)
      (divideBy v dec fun d => ct_div_lshifted_mp_mp u n s d q') (· = ·) := by
  refine .of (C23_div_lshifted u n s v dec q hdec hv hn hu hr hq)
    (C23_div_lshifted u n s v dec q' hdec hv hn hu hr (hq.congr hql)) ?_
  rintro _ _ ⟨a, c, rfl, h1, h2, h4, h5⟩ ⟨a', c', rfl, h6, h7, h9, h10⟩
  rw [optBuf_ext h4 h9 hql h5 h10, Buf.ext' (by rw [h1, h6]) (h2.trans h7.symm)]

/-- C48: division by a limb, for the quotient.  Missing: empty dividends, for which it is false
(`C48_div_limb_fails`). -/
theorem C48_div_limb_partial (u : Buf f) (v : ℕ) (q q' : Buf h) (hql : q.len = q'.len)
    (hv : v < B) (h0 : v ≠ 0) (hu : u.len ≠ 0) (hq : QuotientLimbs u q)
    (hl : u.len + 1 ≤ q.len + byteLen v) :
    Agree (divideByL v fun d => ct_div_mp_l u d (some q))
      (divideByL v fun d => ct_div_mp_l u d (some q')) (· = ·) := by
  have hq' : QuotientLimbs u q' := by
    unfold QuotientLimbs at hq ⊢
    rwa [← hql, ← Buf.nlimbs_congr hql]
  refine .of (C24_div_l_partial u v (some q) hv h0 (fun _ => hu) (by intro b hb; cases hb; exact hq)
    (by intro b hb; cases hb; exact hl)) (C24_div_l_partial u v (some q') hv h0 (fun _ => hu)
    (by intro b hb; cases hb; exact hq') (by intro b hb; cases hb; rw [← hql]; exact hl)) ?_
  rintro _ _ ⟨c, rfl, h4, h5⟩ ⟨c', rfl, h9, h10⟩
  rw [optBuf_ext h4 h9 (by rw [Option.map_some, Option.map_some, hql]) h5 h10]

/-- C48 is violated by the division of an empty dividend by a limb: whatever has been in the quotient buffer
stays there (finding D9). -/
theorem C48_div_limb_fails (u : Buf f) (v : ℕ) (q q' : Buf h) (hv : v < B) (h0 : v ≠ 0)
    (hu : u.len = 0) (hne : q ≠ q') :
    ¬ Agree (divideByL v fun d => ct_div_mp_l u d (some q))
      (divideByL v fun d => ct_div_mp_l u d (some q')) (· = ·) := by
  rintro ⟨a, a', h1, h2, h3⟩
  obtain ⟨r, h4, h5⟩ := C24_empty_unchanged_fails u v (some q) hv h0 hu
  obtain ⟨r', h6, h7⟩ := C24_empty_unchanged_fails u v (some q') hv h0 hu
  rw [h1] at h4; rw [h2] at h6
  cases h4; cases h6
  have h3 : a = a' := h3
  rw [h5, h7] at h3
  injection h3 with h3
  injection h3 with _ h3
  injection h3 with h3
  exact hne h3

/-- C48: the radix squared. -/
theorem C48_radix2 (out out' : Buf f) (n : Buf g) (hl : out.len = out'.len) :
    SameOutcome id (ct_montgomery_radix2_mod_n_mp out n) (ct_montgomery_radix2_mod_n_mp out' n) := by
  refine .of (ct_montgomery_radix2_mod_n_mp_sat out n) (ct_montgomery_radix2_mod_n_mp_sat out' n) ?_ ?_
  · unfold transErr; rw [hl]
  · rintro x y ⟨h1, h2⟩ ⟨h3, h4⟩
    exact Buf.ext' (by rw [id, id, h1, h3, hl]) (by rw [id, id, h2, h4])

/-- C48: Montgomery multiplication, for any operands: even a wrong result (see C26) or a panic does not
depend on the contents. -/
theorem C48_mg_mul (result result' : Buf f) (a : Buf g) (b : Buf h) (n : Buf f') (neg : ℕ)
    (hl : result.len = result'.len) :
    SameRun id (ct_montgomery_mul_mod_mp_mp result a b n neg)
      (ct_montgomery_mul_mod_mp_mp result' a b n neg) := by
  have he : mulErr result a b n = mulErr result' a b n := by unfold mulErr; rw [hl]
  refine .of (ct_montgomery_mul_mod_mp_mp_exact result a b n neg)
    (ct_montgomery_mul_mod_mp_mp_exact result' a b n neg) (by rw [he, hl]) he ?_
  rintro x y ⟨h1, h2⟩ ⟨h3, h4⟩
  exact Buf.ext' (by rw [id, id, h1, h3, hl]) (by rw [id, id, h2, h4])

/-- C48: conversion to Montgomery form, for any operands. -/
theorem C48_mg_form (result result' : Buf f) (t : Buf g) (n : Buf f') (neg : ℕ) (radix2 : Buf h)
    (hl : result.len = result'.len) :
    SameRun id (ct_to_montgomery_form_mp result t n neg radix2)
      (ct_to_montgomery_form_mp result' t n neg radix2) := by
  have he : toMgErr result t n radix2 = toMgErr result' t n radix2 := by
    unfold toMgErr mulErr; rw [hl]
  refine .of (ct_to_montgomery_form_mp_exact result t n neg radix2)
    (ct_to_montgomery_form_mp_exact result' t n neg radix2) (by unfold ToMgOk; rw [he, hl]) he ?_
  rintro x y ⟨h1, h2⟩ ⟨h3, h4⟩
  exact Buf.ext' (by rw [id, id, h1, h3, hl]) (by rw [id, id, h2, h4])

/-- C48: exponentiation of a base in Montgomery form, for the result and the scratch buffers, and any
operands. -/
theorem C48_mg_exp (result result' : Buf f) (base : Buf g) (n : Buf f') (neg : ℕ) (radix_mod_n : Buf h)
    (e : Buf e') (nbits : ℕ) (scratch scratch' : Buf .ne) (hr : result.len = result'.len)
    (hs : scratch.len = scratch'.len) :
    SameRun (fun s => s.1) (ct_montogmery_exp_mod_odd_mp_mp result base n neg radix_mod_n e nbits scratch)
      (ct_montogmery_exp_mod_odd_mp_mp result' base n neg radix_mod_n e nbits scratch') := by
  have he : mgExpErr result base n radix_mod_n scratch = mgExpErr result' base n radix_mod_n scratch' := by
    unfold mgExpErr; rw [hr, Buf.nlimbs_congr hs]
  refine .of (ct_montogmery_exp_mod_odd_mp_mp_exact result base n neg radix_mod_n e nbits scratch)
    (ct_montogmery_exp_mod_odd_mp_mp_exact result' base n neg radix_mod_n e nbits scratch')
    (by unfold MgExpOk; rw [he, hr, hs]) he ?_
  rintro x y ⟨h1, -, h2⟩ ⟨h3, -, h4⟩
  exact Buf.ext' (by rw [h1, h3, hr]) (by rw [h2, h4])

/-- C48: exponentiation, for the result and the scratch buffers, and any operands: even a wrong result (see
C28) or a panic does not depend on the contents.  The base left in its buffer is the same, too. -/
theorem C48_exp (result result' : Buf f) (base : Buf g) (n : Buf f') (e : Buf e') (nbits : ℕ)
    (scratch scratch' : Buf .ne) (hr : result.len = result'.len) (hs : scratch.len = scratch'.len) :
    SameRun (fun s => (s.1, s.2.1)) (ct_exp_mod_odd_mp_mp result base n e nbits scratch)
      (ct_exp_mod_odd_mp_mp result' base n e nbits scratch') := by
  obtain ⟨neg, hneg⟩ : ∃ neg, n.toNat % 2 ≠ 0 → wmul (n.toNat % B) neg = lmax := by
    by_cases h : n.toNat % 2 ≠ 0
    · obtain ⟨neg, hneg⟩ := exists_neg h
      exact ⟨neg, fun _ => hneg⟩
    · exact ⟨0, fun h' => absurd h' h⟩
  have he : expErr result base n scratch = expErr result' base n scratch' := by
    unfold expErr; rw [hr, Buf.nlimbs_congr hs]
  refine .of (ct_exp_mod_odd_mp_mp_exact result base n e nbits scratch hneg)
    (ct_exp_mod_odd_mp_mp_exact result' base n e nbits scratch' hneg) (by rw [he, hr, hs]) he ?_
  rintro x y ⟨h1, h2, -, h3, h4⟩ ⟨h5, h6, -, h7, h8⟩
  exact Prod.ext (Buf.ext' (by rw [h1, h5, hr]) (by rw [h3, h7]))
    (Buf.ext' (by rw [h2, h6]) (by rw [h4, h8]))

/-- C48: the inverse modulo an odd number, for the result and the scratch buffers, for any modulus: even a wrong result
(see C30) does not depend on them, nor does a panic. -/
theorem C48_inv_odd (result result' : Buf φ) (op0 : Buf ψ) (n : Buf χ)
    (s0 s1 s0' s1' : Buf .ne) (hr : result.len = result'.len) (h0 : s0.len = s0'.len)
    (h1 : s1.len = s1'.len) :
    ((ct_inv_mod_odd_mp_mp result op0 n s0 s1).val = none ∧
      (ct_inv_mod_odd_mp_mp result' op0 n s0' s1').val = none) ∨
    SameOutcome (fun s => s.1) (ct_inv_mod_odd_mp_mp result op0 n s0 s1)
      (ct_inv_mod_odd_mp_mp result' op0 n s0' s1') := by
  have e1 := ct_inv_mod_odd_mp_mp_exact result op0 n s0 s1
  have e2 := ct_inv_mod_odd_mp_mp_exact result' op0 n s0' s1'
  have he : invOddErr result op0 n s0 s1 = invOddErr result' op0 n s0' s1' := by
    unfold invOddErr; rw [hr, Buf.nlimbs_congr h0, Buf.nlimbs_congr h1]
  have hS : InvOddOk result op0 n s0 s1 ↔ InvOddOk result' op0 n s0' s1' := by
    unfold InvOddOk; rw [he]
  by_cases h : InvOddOk result op0 n s0 s1
  · refine Or.inr (.of (e1.sat h) (e2.sat (hS.1 h)) (by unfold invOddErr'; rw [he]) ?_)
    rintro x y ⟨h2, -, -, -, -, -, h3⟩ ⟨h4, -, -, -, -, -, h5⟩
    exact Buf.ext' (by rw [h2, h4, hr]) (by rw [← h5] at h3; exact_mod_cast h3)
  · exact Or.inl ⟨e1.panic h, e2.panic fun h' => h (hS.2 h')⟩

/-- C48: the inverse modulo any number, for the scratch buffers: even a wrong result (see C32) does not depend on them,
nor does a panic. -/
theorem C48_inv (op0 : Buf φ) (n : Buf ψ) (s0 s1 s2 s3 s0' s1' s2' s3' : Buf .ne)
    (h0 : s0.len = s0'.len) (h1 : s1.len = s1'.len) (h2 : s2.len = s2'.len) (h3 : s3.len = s3'.len) :
    (ct_inv_mod_mp_mp op0 n s0 s1 s2 s3).val = (ct_inv_mod_mp_mp op0 n s0' s1' s2' s3').val := by
  have e1 := ct_inv_mod_mp_mp_exact op0 n s0 s1 s2 s3
  have e2 := ct_inv_mod_mp_mp_exact op0 n s0' s1' s2' s3'
  have he : invModEarly op0 n s0 s1 s2 s3 = invModEarly op0 n s0' s1' s2' s3' := by
    unfold invModEarly
    rw [Buf.nlimbs_congr h0, Buf.nlimbs_congr h1, Buf.nlimbs_congr h2, Buf.nlimbs_congr h3]
  have he' : invModErr op0 n s0 s1 s2 s3 = invModErr op0 n s0' s1' s2' s3' := by
    unfold invModErr; rw [he]
  have hS : InvAnyOk op0 n s0 s1 s2 s3 ↔ InvAnyOk op0 n s0' s1' s2' s3' := by
    unfold InvAnyOk; rw [he]
  by_cases h : InvAnyOk op0 n s0 s1 s2 s3
  swap
  · rw [e1.panic h, e2.panic fun h' => h (hS.2 h')]
  obtain ⟨⟨a, r⟩, ha, a1, a2, a3⟩ := e1.sat h
  obtain ⟨⟨b, r'⟩, hb, b1, b2, b3⟩ := e2.sat (hS.1 h)
  dsimp only at a1 a2 a3 b1 b2 b3
  rw [ha, hb, Buf.ext' (a1.trans b1.symm) (a2.trans b2.symm)]
  rw [← he'] at b3
  congr 2
  cases r with
  | error e =>
    cases r' with
    | error e' =>
      rw [show invModErr op0 n s0 s1 s2 s3 = some e from a3] at b3
      exact congrArg _ (Option.some_inj.1 b3)
    | ok o' => rw [show invModErr op0 n s0 s1 s2 s3 = some e from a3] at b3; cases b3.1
  | ok o =>
    cases r' with
    | error e' => rw [a3.1] at b3; cases b3
    | ok o' =>
      obtain ⟨-, a4, a5, a6⟩ := a3
      obtain ⟨-, b4, b5, b6⟩ := b3
      refine congrArg _ (Buf.ext' (a4.trans b4.symm) ?_)
      obtain ⟨m, e, hm, hme⟩ := exists_odd_part_nat (show n.toNat ≠ 0 by omega)
      obtain ⟨a7, a8⟩ := a6 m e hm hme
      obtain ⟨b7, b8⟩ := b6 m e hm hme
      have hc : Nat.Coprime m (2 ^ e) := Nat.Coprime.pow_right _ (Nat.coprime_comm.1
        ((Nat.Prime.coprime_iff_not_dvd Nat.prime_two).2 (by omega)))
      have h4 : o.toNat ≡ o'.toNat [MOD m] := by
        rw [← b8] at a8; exact_mod_cast a8
      have h5 : o.toNat ≡ o'.toNat [MOD 2 ^ e] := by
        have h6 : op0.toNat * o.toNat ≡ op0.toNat * o'.toNat [MOD 2 ^ e] := a7.trans b7.symm
        rcases Nat.eq_zero_or_pos e with rfl | he0
        · rw [pow_zero]; exact Nat.modEq_one
        refine Nat.ModEq.cancel_left_of_coprime (c := op0.toNat) ?_ h6
        refine Nat.Coprime.pow_left e ?_
        rw [Nat.coprime_two_left, Nat.odd_iff]
        by_contra h7
        have h8 : op0.toNat * o.toNat % 2 = 1 := by
          have := Nat.ModEq.of_dvd (dvd_pow_self 2 he0.ne') (show _ ≡ 1 [MOD 2 ^ e] from a7)
          exact this
        rw [Nat.mul_mod, show op0.toNat % 2 = 0 by omega, Nat.zero_mul, Nat.zero_mod] at h8
        cases h8
      have h6 := (Nat.modEq_and_modEq_iff_modEq_mul hc).1 ⟨h4, h5⟩
      rw [← hme] at h6
      rwa [Nat.ModEq, Nat.mod_eq_of_lt a5, Nat.mod_eq_of_lt b5] at h6

/-- C48: the inverse modulo a power of two, for the result and the scratch buffer. -/
theorem C48_inv_pow2 (result result' : Buf φ) (op0 : Buf ψ) (e max_exp : ℕ)
    (scratch scratch' : Buf .ne) (hrl : result.len = result'.len)
    (h0 : op0.len ≠ 0) (hodd : op0.toNat % 2 = 1) (hmx : max_exp ≠ 0) (he : e ≤ max_exp)
    (hr : (max_exp + 7) / 8 ≤ result.len)
    (hs : ct_mp_nlimbs ((max_exp + 7) / 8) ≤ scratch.nlimbs)
    (hs' : ct_mp_nlimbs ((max_exp + 7) / 8) ≤ scratch'.nlimbs) :
    ((ct_inv_mod_pow2_mp result op0 e max_exp scratch).val = none ∧
      (ct_inv_mod_pow2_mp result' op0 e max_exp scratch').val = none) ∨
    Agree (ct_inv_mod_pow2_mp result op0 e max_exp scratch)
      (ct_inv_mod_pow2_mp result' op0 e max_exp scratch') (fun s s' => s.1 = s'.1) := by
  have e1 := ct_inv_mod_pow2_mp_exact result op0 scratch h0 (Or.inr hodd) hmx he hr hs
  have e2 := ct_inv_mod_pow2_mp_exact result' op0 scratch' h0 (Or.inr hodd) hmx he (hrl ▸ hr) hs'
  by_cases hok : LiftOk op0.toNat max_exp
  swap
  · exact Or.inl ⟨e1.panic hok, e2.panic hok⟩
  refine Or.inr (.of (e1.sat hok) (e2.sat hok) ?_)
  rintro x y ⟨h2, -, h3, h4⟩ ⟨h5, -, h6, h7⟩
  refine Buf.ext' (by rw [h2, h5, hrl]) ?_
  have h8 : op0.toNat * x.1.toNat ≡ op0.toNat * y.1.toNat [MOD 2 ^ e] := h4.trans h7.symm
  have h9 : Nat.gcd (2 ^ e) op0.toNat = 1 := by
    refine Nat.Coprime.pow_left e ?_
    rw [Nat.coprime_two_left, Nat.odd_iff]
    exact hodd
  have h10 := Nat.ModEq.cancel_left_of_coprime h9 h8
  rwa [Nat.ModEq, Nat.mod_eq_of_lt h3, Nat.mod_eq_of_lt h6] at h10

/-- C48: the least common multiple, for the result and the scratch buffer. -/
theorem C48_lcm (result result' : Buf φ) (op0 : Buf ψ) (m0 : ℕ) (op1 : Buf χ) (m1 : ℕ)
    (scratch scratch' : Buf χ) (h0 : op0.toNat < 256 ^ m0) (h1 : op1.toNat < 256 ^ m1)
    (hr : result.len = result'.len) (hs : scratch.len = scratch'.len) :
    SameRun id (ct_lcm_mp_mp result op0 m0 op1 m1 scratch)
      (ct_lcm_mp_mp result' op0 m0 op1 m1 scratch') := by
  have hb : scratch.backing_len = scratch'.backing_len := by
    unfold Buf.backing_len; rw [hs]
  refine .of (ct_lcm_mp_mp_exact result op0 m0 op1 m1 scratch rfl rfl h0 h1)
    (ct_lcm_mp_mp_exact result' op0 m0 op1 m1 scratch' rfl rfl h0 h1)
    (by unfold LcmOk; rw [hr, hb]) (by unfold lcmErr; rw [hr, hb]) ?_
  rintro x y ⟨h2, h3⟩ ⟨h4, h5⟩
  exact Buf.ext' (by rw [id, id, h2, h4, hr]) (by rw [id, id, h3, h5])

/-- C48: the small factor test, for the scratch buffers. -/
theorem C48_small_factor (p : Buf φ) (s0 s1 s0' s1' : Buf .ne) (h0 : s0.len = s0'.len)
    (h1 : s1.len = s1'.len) :
    SameOutcome id (ct_composite_test_small_prime_gcd_mp p s0 s1)
      (ct_composite_test_small_prime_gcd_mp p s0' s1') := by
  classical
  refine .of (ct_composite_test_small_prime_gcd_mp_sat p s0 s1 (decide _) decide_eq_true_iff)
    (ct_composite_test_small_prime_gcd_mp_sat p s0' s1' (decide _) decide_eq_true_iff) ?_ ?_
  · unfold compositeErr; rw [Buf.nlimbs_congr h0, Buf.nlimbs_congr h1]
  · rintro x y h2 h3
    rw [id, id, h2, h3]

/-- C48: the Miller–Rabin test, for the scratch buffers and any operands: even a wrong answer (see C34) or a panic
does not depend on the contents. -/
theorem C48_miller_rabin (mg_base : Buf χ) (p : Buf φ) (mg_radix : Buf ψ)
    (s0 s1 s0' s1' : Buf .ne) (h0 : s0.len = s0'.len) (h1 : s1.len = s1'.len) :
    SameRun id (ct_prime_test_miller_rabin_mp mg_base p mg_radix s0 s1)
      (ct_prime_test_miller_rabin_mp mg_base p mg_radix s0' s1') := by
  obtain ⟨neg, hneg⟩ : ∃ neg, p.toNat % 2 ≠ 0 → wmul (p.toNat % B) neg = lmax := by
    by_cases h : p.toNat % 2 ≠ 0
    · obtain ⟨neg, hneg⟩ := exists_neg h
      exact ⟨neg, fun _ => hneg⟩
    · exact ⟨0, fun h' => absurd h' h⟩
  obtain ⟨s, hs⟩ : ∃ s, 1 < p.toNat → IsTz 0 (p.toNat - 1) s := by
    by_cases h : 1 < p.toNat
    · obtain ⟨k, hk⟩ := exists_isTz (v := p.toNat - 1) (by omega)
      exact ⟨k, fun _ => hk⟩
    · exact ⟨0, fun h' => absurd h' h⟩
  have he : mrErr mg_base p mg_radix s0 s1 = mrErr mg_base p mg_radix s0' s1' := by
    unfold mrErr; rw [Buf.nlimbs_congr h0, Buf.nlimbs_congr h1]
  refine .of (ct_prime_test_miller_rabin_mp_exact mg_base p mg_radix s0 s1 hneg hs)
    (ct_prime_test_miller_rabin_mp_exact mg_base p mg_radix s0' s1' hneg hs) (by rw [he]) he ?_
  rintro x y rfl rfl
  rfl

/-! ### Instances -/

example : letI := cfg64;
    let run := fun (r q : ℕ) => (divideBy (Buf.ofNat .le 9 (2 ^ 65 + 5)) (some 4) fun d =>
      ct_div_pow2_mp 131 (Buf.ofNat .be 9 r) d (some (Buf.ofNat .be 9 q))).val.bind fun s =>
        match s with
        | .ok (r, q) => some (r.toNat, q.map Buf.toNat)
        | _ => none
    run 1 7 = some (2 ^ 131 % (2 ^ 65 + 1), some (2 ^ 131 / (2 ^ 65 + 1))) ∧
      run (2 ^ 70) (2 ^ 72 - 1) = run 1 7 := by
  decide +kernel

example : letI := cfg64; (∃ q q' : Buf .be, q.len = 8 ∧ q'.len = 8 ∧ q ≠ q') :=
  letI := cfg64; ⟨Buf.ofNat .be 8 5, Buf.ofNat .be 8 6, by decide +kernel, by decide +kernel, fun h => by
    have := congrArg Buf.toNat h
    revert this
    decide +kernel⟩

-- Even where the power is wrong, it is the same.
example : letI := cfg64;
    let run := fun (r s : ℕ) => (ct_exp_mod_odd_mp_mp (Buf.ofNat .be 16 r)
      (Buf.ofNat .be 16 (2 ^ 128 - 3)) (Buf.ofNat .be 16 (2 ^ 128 - 1)) (Buf.ofNat .be 1 2) 8
      (Buf.ofNat .ne 16 s)).val.bind expNum
    run 1 7 = some 3 ∧ run (2 ^ 127) (2 ^ 128 - 1) = some 3 := by
  decide +kernel

example : letI := cfg64;
    SameRun (fun s => (s.1, s.2.1))
      (ct_exp_mod_odd_mp_mp (Buf.ofNat .be 9 1) (Buf.ofNat .be 9 (2 ^ 60)) (Buf.ofNat .be 9 (2 ^ 71 - 5))
        (Buf.ofNat .be 1 200) 8 (Buf.ofNat .ne 16 7))
      (ct_exp_mod_odd_mp_mp (Buf.ofNat .be 9 (2 ^ 72 - 1)) (Buf.ofNat .be 9 (2 ^ 60))
        (Buf.ofNat .be 9 (2 ^ 71 - 5)) (Buf.ofNat .be 1 200) 8 (Buf.ofNat .ne 16 (2 ^ 128 - 1))) :=
  letI := cfg64; C48_exp _ _ _ _ _ _ _ _ (by decide +kernel) (by decide +kernel)

example : letI := cfg32;
    (ct_inv_mod_mp_mp (Buf.ofNat .be 12 3) (Buf.ofNat .be 12 1009000) (Buf.ofNat .ne 12 1)
      (Buf.ofNat .ne 12 2) (Buf.ofNat .ne 12 3) (Buf.ofNat .ne 12 4)).val =
    (ct_inv_mod_mp_mp (Buf.ofNat .be 12 3) (Buf.ofNat .be 12 1009000) (Buf.ofNat .ne 12 0)
      (Buf.ofNat .ne 12 (2 ^ 95)) (Buf.ofNat .ne 12 8) (Buf.ofNat .ne 12 9)).val :=
  letI := cfg32; C48_inv _ _ _ _ _ _ _ _ _ _ (by decide +kernel) (by decide +kernel)
    (by decide +kernel) (by decide +kernel)

example : letI := cfg32;
    SameOutcome id (ct_composite_test_small_prime_gcd_mp (Buf.ofNat .le 11 (10 ^ 20 + 39))
        (Buf.ofNat .ne 12 1) (Buf.ofNat .ne 12 2))
      (ct_composite_test_small_prime_gcd_mp (Buf.ofNat .le 11 (10 ^ 20 + 39))
        (Buf.ofNat .ne 12 (2 ^ 96 - 1)) (Buf.ofNat .ne 12 0)) :=
  letI := cfg32; C48_small_factor _ _ _ _ _ (by decide +kernel) (by decide +kernel)

end Props
end Cmpa
