import Verif.Proofs.DivMp
import Verif.Proofs.DivL
import Verif.Proofs.DivPanic

/-!
# Division (C21, C22, C23, C24)

A division is the construction of a divisor from the buffer `v`, optionally decremented by the limb
`dec`, followed by the division proper.  The number divided by is `V = v.toNat - dec.getD 0`.
`byteLen V` is the minimal number of bytes `V` can be written with.  The quotient `q` is optional.
-/

namespace Cmpa
namespace Props
open M
variable [LimbCfg] {f g h : Fmt}

/-- Specification: how a division can end. -/
inductive DivResult (α : Type) where
  /-- The divisor has been refused. -/
  | divisorIsZero
  /-- The division has been refused. -/
  | error (e : DivError)
  | ok (a : α)

/-- Making a divisor of `v` less `dec`, and dividing by it. -/
def divideBy {α : Type} (v : Buf g) (dec : Option ℕ)
    (k : CtMpDivisor g → M (Except DivError α)) : M (DivResult α) := do
  match ← CtMpDivisor.new v dec with
  | none => pure .divisorIsZero
  | some d =>
    match ← k d with
    | .error e => pure (.error e)
    | .ok a => pure (.ok a)

/-- Making a divisor of the limb `v`, and dividing by it. -/
def divideByL {α : Type} (v : ℕ) (k : CtLDivisor → M (Except DivError α)) :
    M (DivResult α) := do
  match ← CtLDivisor.new v with
  | none => pure .divisorIsZero
  | some d =>
    match ← k d with
    | .error e => pure (.error e)
    | .ok a => pure (.ok a)

/-- The postcondition of a division. -/
def DivPost {α : Type} (zero : Prop) (E : DivError → Prop) (P : α → Prop) : DivResult α → Prop
  | .divisorIsZero => zero
  | .error e => E e
  | .ok a => P a

theorem v_len_eq {d : CtMpDivisor g} {V : ℕ} (hd : d.Ok V) : d.v_len = byteLen V := by
  have h0 : V ≠ 0 := hd.pos.ne'
  have h1 := lt_of_le_of_lt hd.lo (lt_byteLen V)
  have h2 := lt_of_le_of_lt (byteLen_le h0) hd.hi
  have h3 := (Nat.pow_lt_pow_iff_right (by norm_num : 1 < 256)).1 h1
  have h4 := (Nat.pow_lt_pow_iff_right (by norm_num : 1 < 256)).1 h2
  have := hd.len_pos
  have := byteLen_pos h0
  omega

/-- The arguments divisors can be made of: the decrement is a limb, and a buffer to be used as it
is (with no decrement) doesn't consist of zeros only. -/
def DivisorArgs (v : Buf g) (dec : Option ℕ) : Prop :=
  (∀ x ∈ dec, x < B) ∧ (dec = none → v.len ≠ 0 → v.toNat ≠ 0)

theorem divideBy_sat {α : Type} {v : Buf g} {dec : Option ℕ} (hv : DivisorArgs v dec)
    {k : CtMpDivisor g → M (Except DivError α)} {E : DivError → Prop} {P : α → Prop}
    (hk : dec.getD 0 < v.toNat → ∀ d : CtMpDivisor g, d.Ok (v.toNat - dec.getD 0) →
      Sat (k d) (OkErr P E)) :
    Sat (divideBy v dec k) (DivPost (v.toNat ≤ dec.getD 0)
      (fun e => dec.getD 0 < v.toNat ∧ E e) (fun a => dec.getD 0 < v.toNat ∧ P a)) := by
  unfold divideBy
  refine Sat.bind (CtMpDivisor.new_sat v dec hv.1 fun h1 h2 => hv.2 h1 fun h3 => ?_) ?_
  · rw [(Buf.is_empty_iff v).2 h3] at h2; cases h2
  rintro o ⟨h1, h2⟩
  rcases Nat.lt_or_ge (dec.getD 0) v.toNat with hlt | hge
  · obtain ⟨d, rfl, hd, -⟩ := h2 hlt
    refine Sat.bind (hk hlt d hd) ?_
    rintro (e | a) hr
    · exact Sat.pure ⟨hlt, hr⟩
    · exact Sat.pure ⟨hlt, hr⟩
  · rw [h1 hge]
    exact Sat.pure hge

theorem divideByL_sat {α : Type} {v : ℕ} (hv : v < B)
    {k : CtLDivisor → M (Except DivError α)} {E : DivError → Prop} {P : α → Prop}
    (hk : v ≠ 0 → ∀ d : CtLDivisor, d.Valid → d.v = v → Sat (k d) (OkErr P E)) :
    Sat (divideByL v k) (DivPost (v = 0) (fun e => v ≠ 0 ∧ E e) (fun a => v ≠ 0 ∧ P a)) := by
  unfold divideByL
  by_cases h0 : v = 0
  · subst h0
    refine Sat.bind CtLDivisor.new_zero ?_
    rintro _ rfl
    exact Sat.pure rfl
  · refine Sat.bind (CtLDivisor.new_spec hv h0) ?_
    rintro _ ⟨d, rfl, hd, hdv⟩
    refine Sat.bind (hk h0 d hd hdv) ?_
    rintro (e | a) hr
    · exact Sat.pure ⟨h0, hr⟩
    · exact Sat.pure ⟨h0, hr⟩

theorem DivPost.ok_of {α : Type} {zero : Prop} {E : DivError → Prop} {P : α → Prop}
    {m : M (DivResult α)} (h : Sat m (DivPost zero E P)) (hz : ¬zero) (hE : ∀ e, ¬E e) :
    Sat m (fun r => ∃ a, r = .ok a ∧ P a) := by
  refine h.mono ?_
  rintro (_ | e | a) hr
  · exact absurd hr hz
  · exact absurd hr (hE e)
  · exact ⟨a, rfl, hr⟩

/-! ## C21 -/

/-- Specification: the number held by a dividend in two parts. -/
def dividend (u_h : Option (Buf f)) (u_l : Buf f) : ℕ :=
  u_l.toNat + 256 ^ u_l.len * (u_h.map Buf.toNat).getD 0

/-- Specification: the length of a dividend in two parts. -/
def dividendLen (u_h : Option (Buf f)) (u_l : Buf f) : ℕ := u_l.len + (u_h.map Buf.len).getD 0

/-- Specification: the quotient buffer is long enough.  It has to be at least as long as the length
of the dividend less that of the divisor, and to have the space for the quotient. -/
def QuotientFits (q : Option (Buf h)) (ulen V Q : ℕ) : Prop :=
  ∀ b ∈ q, ulen ≤ b.len + byteLen V ∧ Q < 256 ^ b.len

theorem QuotientFits.no_err {q : Option (Buf h)} {ulen V Q : ℕ} (hq : QuotientFits q ulen V Q)
    (e : DivError) : ¬DivErr q Q (ulen - byteLen V) e := by
  rintro ⟨-, b, hb, h1 | h1⟩
  · have := (hq b hb).1; omega
  · have h2 := (hq b hb).2
    have h3 := pow_len_le b.len
    rw [← Buf.nlimbs_eq] at h3
    omega

/-- C21: the quotient and the remainder. -/
theorem C21_div (u_h : Option (Buf f)) (u_l : Buf f) (v : Buf g) (dec : Option ℕ)
    (q : Option (Buf h)) (hdec : ∀ x ∈ dec, x < B) (hv : dec.getD 0 < v.toNat)
    (hq : QuotientFits q (dividendLen u_h u_l) (v.toNat - dec.getD 0)
      (dividend u_h u_l / (v.toNat - dec.getD 0))) :
    Sat (divideBy v dec fun d => ct_div_mp_mp u_h u_l d q) (fun r => ∃ u_h' u_l' q',
      r = .ok (u_h', u_l', q') ∧
      u_h'.map Buf.len = u_h.map Buf.len ∧ u_l'.len = u_l.len ∧
      dividend u_h' u_l' = dividend u_h u_l % (v.toNat - dec.getD 0) ∧
      q'.map Buf.len = q.map Buf.len ∧
      ∀ b ∈ q', b.toNat = dividend u_h u_l / (v.toNat - dec.getD 0)) := by
  refine (DivPost.ok_of (divideBy_sat ⟨hdec, fun _ _ => by omega⟩ fun _ d hd => by
    have := ct_div_mp_mp_sat hd u_h u_l q (U := dividend u_h u_l) (ulen := dividendLen u_h u_l)
      rfl rfl fun b hb => Or.inl (hq b hb).2
    rw [v_len_eq hd] at this
    exact this) (by omega) fun e he => hq.no_err e he.2).mono ?_
  rintro _ ⟨⟨a, b, c⟩, rfl, -, h1, h2, h3, h4, h5⟩
  refine ⟨a, b, c, rfl, h1, h2, ?_, h4, h5⟩
  unfold dividend at h3 ⊢
  rw [h2]; exact h3

/-- C21: a quotient buffer one byte longer than the dividend less the divisor always suffices. -/
theorem C21_quotient_len (q : Option (Buf h)) (U V ulen : ℕ) (hU : U < 256 ^ ulen)
    (hV : 0 < V) (hl : ∀ b ∈ q, ulen + 1 ≤ b.len + byteLen V) : QuotientFits q ulen V (U / V) := by
  refine fun b hb => ⟨by have := hl b hb; omega, ?_⟩
  rw [Nat.div_lt_iff_lt_mul hV]
  have h1 := byteLen_le hV.ne'
  have h2 := byteLen_pos hV.ne'
  calc U < 256 ^ ulen := hU
    _ ≤ 256 ^ (b.len + (byteLen V - 1)) := Nat.pow_le_pow_right (by norm_num) (by
      have := hl b hb; omega)
    _ ≤ 256 ^ b.len * V := by rw [pow_add]; exact Nat.mul_le_mul_left _ h1

/-- C21: the remainder only. -/
theorem C21_mod (u_h : Option (Buf f)) (u_l : Buf f) (v : Buf g) (dec : Option ℕ)
    (hdec : ∀ x ∈ dec, x < B) (hv : dec.getD 0 < v.toNat) :
    Sat (divideBy v dec fun d => do let r ← ct_mod_mp_mp u_h u_l d; pure (.ok r))
      (fun r => ∃ u_h' u_l', r = .ok (u_h', u_l') ∧
      u_h'.map Buf.len = u_h.map Buf.len ∧ u_l'.len = u_l.len ∧
      dividend u_h' u_l' = dividend u_h u_l % (v.toNat - dec.getD 0)) := by
  have hs := divideBy_sat (v := v) (dec := dec) (E := fun _ => False)
    (k := fun d => do let r ← ct_mod_mp_mp u_h u_l d; pure (.ok r))
    (P := fun r => r.1.map Buf.len = u_h.map Buf.len ∧ r.2.len = u_l.len ∧
      r.2.toNat + 256 ^ u_l.len * (r.1.map Buf.toNat).getD 0 =
        dividend u_h u_l % (v.toNat - dec.getD 0)) ⟨hdec, fun _ _ => by omega⟩
    fun _ d hd => (ct_mod_mp_mp_sat hd u_h u_l).bind fun r hr => Sat.pure hr
  refine (DivPost.ok_of hs (by omega) fun e he => he.2).mono ?_
  rintro _ ⟨⟨a, b⟩, rfl, -, h1, h2, h3⟩
  refine ⟨a, b, rfl, h1, h2, ?_⟩
  unfold dividend
  dsimp only at h1 h2 h3
  rw [h2]; exact h3

/-- The numbers of a result, for the examples: remainder and quotient. -/
def DivResult.nums {f h : Fmt} :
    DivResult (Option (Buf f) × Buf f × Option (Buf h)) → Option (ℕ × ℕ)
  | .ok (u_h, u_l, q) => some (dividend u_h u_l, (q.map Buf.toNat).getD 0)
  | _ => none

/-- The numbers of a result, for the examples: remainder and quotient. -/
def DivResult.nums2 {f h : Fmt} : DivResult (Buf f × Option (Buf h)) → Option (ℕ × ℕ)
  | .ok (r, q) => some (r.toNat, (q.map Buf.toNat).getD 0)
  | _ => none

/-- The numbers of a result, for the examples: remainder and quotient. -/
def DivResult.numsL {h : Fmt} : DivResult (ℕ × Option (Buf h)) → Option (ℕ × ℕ)
  | .ok (r, q) => some (r, (q.map Buf.toNat).getD 0)
  | _ => none

example : letI := cfg64;
    ((divideBy (Buf.ofNat .le 17 (2 ^ 129 + 12345)) none fun d =>
      ct_div_mp_mp (some (Buf.ofNat .be 5 (2 ^ 40 - 3))) (Buf.ofNat .be 20 (2 ^ 150 - 7)) d
        (some (Buf.ofNat .ne 16 77))).val.bind DivResult.nums) =
      some ((2 ^ 150 - 7 + 2 ^ 160 * (2 ^ 40 - 3)) % (2 ^ 129 + 12345),
        (2 ^ 150 - 7 + 2 ^ 160 * (2 ^ 40 - 3)) / (2 ^ 129 + 12345)) := by decide +kernel
example : letI := cfg32;
    ((divideBy (Buf.ofNat .ne 20 (2 ^ 129 + 12345)) (some 1) fun d =>
      ct_div_mp_mp none (Buf.ofNat .be 21 (2 ^ 166 - 7)) d
        (some (Buf.ofNat .le 5 77))).val.bind DivResult.nums) =
      some ((2 ^ 166 - 7) % (2 ^ 129 + 12344), (2 ^ 166 - 7) / (2 ^ 129 + 12344)) := by
  decide +kernel

/-! ## C22 -/

/-- Arguments the known panics don't apply to: a quotient that doesn't fit into its buffer doesn't
fit into the buffer's limbs either, or the buffer's length is too short already. -/
def QuotientSane (q : Option (Buf h)) (ulen V Q : ℕ) : Prop :=
  ∀ b ∈ q, Q < 256 ^ b.len ∨ B ^ b.nlimbs ≤ Q ∨ b.len + byteLen V < ulen

/-- Specification: the only error of a division is that of insufficient quotient space, and the
space is insufficient. -/
def QuotientError (q : Option (Buf h)) (ulen V Q : ℕ) (e : DivError) : Prop :=
  e = .InsufficientQuotientSpace ∧ ∃ b ∈ q, b.len + byteLen V < ulen ∨ 256 ^ b.len ≤ Q

theorem QuotientError.of {q : Option (Buf h)} {ulen V Q : ℕ} {e : DivError}
    (he : DivErr q Q (ulen - byteLen V) e) : QuotientError q ulen V Q e := by
  obtain ⟨h1, b, hb, h2 | h2⟩ := he
  · exact ⟨h1, b, hb, Or.inl (by omega)⟩
  · refine ⟨h1, b, hb, Or.inr (le_trans ?_ h2)⟩
    have h3 := pow_len_le b.len
    rwa [← Buf.nlimbs_eq] at h3

/-- C22: a divisor of zero is refused (also for a buffer of zeros, if decremented by zero). -/
theorem C22_divisor_partial (v : Buf g) (dec : Option ℕ) (hv : DivisorArgs v dec) :
    Sat (CtMpDivisor.new v dec) (fun o => o = none ↔ v.toNat ≤ dec.getD 0) := by
  refine (CtMpDivisor.new_sat v dec hv.1 fun h1 h2 => hv.2 h1 fun h3 => ?_).mono ?_
  · rw [(Buf.is_empty_iff v).2 h3] at h2; cases h2
  · rintro o ⟨h1, h2⟩
    refine ⟨fun ho => ?_, h1⟩
    by_contra hlt
    obtain ⟨d, hd, -⟩ := h2 (by omega)
    rw [ho] at hd; cases hd

/-- C22: a limb of zero is refused. -/
theorem C22_divisor_l (v : ℕ) (hv : v < B) :
    Sat (CtLDivisor.new v) (fun o => o = none ↔ v = 0) := by
  by_cases h0 : v = 0
  · subst h0; exact CtLDivisor.new_zero.mono fun o ho => by simp [ho]
  · refine (CtLDivisor.new_spec hv h0).mono ?_
    rintro _ ⟨d, rfl, -⟩
    simp [h0]

/-- C22: a division never panics, but reports a zero divisor or insufficient quotient space. -/
theorem C22_div_partial (u_h : Option (Buf f)) (u_l : Buf f) (v : Buf g) (dec : Option ℕ)
    (q : Option (Buf h)) (hv : DivisorArgs v dec)
    (hq : QuotientSane q (dividendLen u_h u_l) (v.toNat - dec.getD 0)
      (dividend u_h u_l / (v.toNat - dec.getD 0))) :
    Sat (divideBy v dec fun d => ct_div_mp_mp u_h u_l d q) (DivPost (v.toNat ≤ dec.getD 0)
      (QuotientError q (dividendLen u_h u_l) (v.toNat - dec.getD 0)
        (dividend u_h u_l / (v.toNat - dec.getD 0)))
      (fun _ => dec.getD 0 < v.toNat)) := by
  refine (divideBy_sat hv fun _ d hd => by
    have := ct_div_mp_mp_sat hd u_h u_l q (U := dividend u_h u_l) (ulen := dividendLen u_h u_l)
      rfl rfl (by rw [v_len_eq hd]; exact hq)
    rw [v_len_eq hd] at this
    exact this).mono ?_
  rintro (_ | e | a) hr
  · exact hr
  · exact QuotientError.of hr.2
  · exact hr.1

/-- C22: what the space for a reduction of a power of two or a shifted value has to be. -/
def SpaceError (q : Option (Buf h)) (ulen V Q rlen : ℕ) (e : DivError) : Prop :=
  QuotientError q ulen V Q e ∨ e = .InsufficientRemainderSpace ∧ rlen < min (byteLen V) ulen

/-- Specification: the number of bytes of `2 ^ e`. -/
def pow2Len (e : ℕ) : ℕ := e / 8 + 1

theorem pow2Len_eq (e : ℕ) : pow2Len e = (e + 1 + 8 - 1) / 8 := by unfold pow2Len; omega

theorem divideBy_pow2_sat (e : ℕ) (r : Buf f) (v : Buf g) (dec : Option ℕ)
    (q : Option (Buf h)) (hv : DivisorArgs v dec)
    (hq : QuotientSane q (pow2Len e) (v.toNat - dec.getD 0) (2 ^ e / (v.toNat - dec.getD 0))) :
    Sat (divideBy v dec fun d => ct_div_pow2_mp e r d q) (DivPost (v.toNat ≤ dec.getD 0)
      (fun er => dec.getD 0 < v.toNat ∧ DivErr2 q (2 ^ e / (v.toNat - dec.getD 0))
        (pow2Len e - byteLen (v.toNat - dec.getD 0)) r.len
        (min (byteLen (v.toNat - dec.getD 0)) (pow2Len e)) er)
      (fun s => dec.getD 0 < v.toNat ∧ s.1.len = r.len ∧
        s.1.toNat = 2 ^ e % (v.toNat - dec.getD 0) ∧
        s.2.map Buf.len = q.map Buf.len ∧ ∀ b ∈ s.2, b.toNat = 2 ^ e / (v.toNat - dec.getD 0))) :=
  divideBy_sat hv fun _ d hd => by
    have := ct_div_pow2_mp_sat hd e r q (pow2Len_eq e) (by rw [v_len_eq hd]; exact hq)
    rw [v_len_eq hd] at this
    exact this

/-- C22: division of a power of two. -/
theorem C22_div_pow2_partial (e : ℕ) (r : Buf f) (v : Buf g) (dec : Option ℕ)
    (q : Option (Buf h)) (hv : DivisorArgs v dec)
    (hq : QuotientSane q (pow2Len e) (v.toNat - dec.getD 0) (2 ^ e / (v.toNat - dec.getD 0))) :
    Sat (divideBy v dec fun d => ct_div_pow2_mp e r d q) (DivPost (v.toNat ≤ dec.getD 0)
      (SpaceError q (pow2Len e) (v.toNat - dec.getD 0) (2 ^ e / (v.toNat - dec.getD 0)) r.len)
      (fun _ => dec.getD 0 < v.toNat)) := by
  refine (divideBy_pow2_sat e r v dec q hv hq).mono ?_
  rintro (_ | er | a) hr
  · exact hr
  · rcases hr.2 with h1 | h1
    · exact Or.inl (QuotientError.of h1)
    · exact Or.inr h1
  · exact hr.1

theorem divideBy_lshifted_sat (u : Buf f) (n s : ℕ) (v : Buf g) (dec : Option ℕ)
    (q : Option (Buf h)) (hn : n ≤ u.len) (hu : u.toNat < 256 ^ n) (hv : DivisorArgs v dec)
    (hq : QuotientSane q (n + s) (v.toNat - dec.getD 0)
      (u.toNat * 256 ^ s / (v.toNat - dec.getD 0))) :
    Sat (divideBy v dec fun d => ct_div_lshifted_mp_mp u n s d q) (DivPost (v.toNat ≤ dec.getD 0)
      (fun er => dec.getD 0 < v.toNat ∧ DivErr2 q (u.toNat * 256 ^ s / (v.toNat - dec.getD 0))
        (n + s - byteLen (v.toNat - dec.getD 0)) u.len
        (min (byteLen (v.toNat - dec.getD 0)) (n + s)) er)
      (fun r => dec.getD 0 < v.toNat ∧ r.1.len = u.len ∧
        r.1.toNat = u.toNat * 256 ^ s % (v.toNat - dec.getD 0) ∧
        r.2.map Buf.len = q.map Buf.len ∧
        ∀ b ∈ r.2, b.toNat = u.toNat * 256 ^ s / (v.toNat - dec.getD 0))) :=
  divideBy_sat hv fun _ d hd => by
    have := ct_div_lshifted_mp_mp_sat hd u q hn hu rfl (by rw [v_len_eq hd]; exact hq)
    rw [v_len_eq hd] at this
    exact this

/-- C22: division of a shifted value. -/
theorem C22_div_lshifted_partial (u : Buf f) (n s : ℕ) (v : Buf g) (dec : Option ℕ)
    (q : Option (Buf h)) (hn : n ≤ u.len) (hu : u.toNat < 256 ^ n) (hv : DivisorArgs v dec)
    (hq : QuotientSane q (n + s) (v.toNat - dec.getD 0)
      (u.toNat * 256 ^ s / (v.toNat - dec.getD 0))) :
    Sat (divideBy v dec fun d => ct_div_lshifted_mp_mp u n s d q) (DivPost (v.toNat ≤ dec.getD 0)
      (SpaceError q (n + s) (v.toNat - dec.getD 0)
        (u.toNat * 256 ^ s / (v.toNat - dec.getD 0)) u.len)
      (fun _ => dec.getD 0 < v.toNat)) := by
  refine (divideBy_lshifted_sat u n s v dec q hn hu hv hq).mono ?_
  rintro (_ | er | a) hr
  · exact hr
  · rcases hr.2 with h1 | h1
    · exact Or.inl (QuotientError.of h1)
    · exact Or.inr h1
  · exact hr.1

/-- C22: without a decrement, making a divisor panics exactly for non-empty buffers of zeros. -/
theorem C22_divisor_panics_fails (v : Buf f) :
    (CtMpDivisor.new v none).val = none ↔ v.len ≠ 0 ∧ v.toNat = 0 := by
  constructor
  · intro h
    by_contra hc
    obtain ⟨r, hr, -⟩ := CtMpDivisor.new_sat v none (by simp) fun _ h2 h3 => hc
      ⟨fun h4 => by simp [(Buf.is_empty_iff v).2 h4] at h2, h3⟩
    rw [h] at hr; cases hr
  · rintro ⟨h1, h2⟩
    unfold CtMpDivisor.new
    rw [M.cond_val_neg (by rw [Buf.is_empty_iff]; exact h1)]
    refine M.bind_panic ?_
    unfold CtMpDivisor.find_head
    refine (find_last_set_byte_mp_sat v).post.bind_panic ?_
    rintro _ rfl
    refine M.bind_panic (M.sub_panic ?_)
    rw [h2]; simp

example : letI := cfg32; (Buf.ofNat .le 5 0).len ≠ 0 ∧ (Buf.ofNat .le 5 0).toNat = 0 := by
  decide +kernel

omit [LimbCfg] in
/-- C22 doesn't hold as stated: a divisor buffer of zeros, not decremented, panics. -/
theorem C22_divisor_fails : ∃ (c : LimbCfg) (v : @Buf c .be), @Buf.toNat c .be v = 0 ∧
    (@CtMpDivisor.new c .be v none).val.isNone = true :=
  ⟨cfg64, @Buf.ofNat cfg64 .be 9 0, by decide +kernel, by decide +kernel⟩

theorem divideBy_panic {α : Type} {v : Buf g} {dec : Option ℕ}
    {k : CtMpDivisor g → M (Except DivError α)} (hv : ¬ DivisorArgs v dec)
    (hdec : ∀ x ∈ dec, x < B) : (divideBy v dec k).val = none := by
  unfold DivisorArgs at hv
  push Not at hv
  obtain ⟨rfl, h1, h2⟩ := hv hdec
  exact M.bind_panic ((C22_divisor_panics_fails v).2 ⟨h1, h2⟩)

theorem divideBy_panic' {α : Type} {v : Buf g} {dec : Option ℕ} (hv : DivisorArgs v dec)
    {k : CtMpDivisor g → M (Except DivError α)} (hlt : dec.getD 0 < v.toNat)
    (hk : ∀ d : CtMpDivisor g, d.Ok (v.toNat - dec.getD 0) → (k d).val = none) :
    (divideBy v dec k).val = none := by
  unfold divideBy
  refine (CtMpDivisor.new_sat v dec hv.1 fun h1 h2 => hv.2 h1 fun h3 => ?_).post.bind_panic ?_
  · rw [(Buf.is_empty_iff v).2 h3] at h2; cases h2
  rintro o ⟨h1, h2⟩
  obtain ⟨d, rfl, hd, -⟩ := h2 hlt
  exact M.bind_panic (hk d hd)

theorem not_sane {q : Option (Buf h)} {ulen v dec Q : ℕ} {U : ℕ} (hQ : Q = U / (v - dec))
    (hs : ¬ QuotientSane q ulen (v - dec) Q) : dec < v ∧ ∃ b, q = some b ∧
      256 ^ b.len ≤ Q ∧ Q < B ^ b.nlimbs ∧ ulen ≤ b.len + byteLen (v - dec) := by
  unfold QuotientSane at hs
  push Not at hs
  obtain ⟨b, hb, h1, h2, h3⟩ := hs
  refine ⟨?_, b, hb, h1, h2, h3⟩
  by_contra hc
  rw [Nat.sub_eq_zero_of_le (by omega), Nat.div_zero] at hQ
  have : 0 < 256 ^ b.len := by positivity
  omega

/-- C22 (findings D1 and D4): a division panics exactly if no divisor can be made, or if the quotient
fits into the limbs of its buffer, but not into its bytes, and the lengths don't tell. -/
theorem C22_div_panics_fails (u_h : Option (Buf f)) (u_l : Buf f) (v : Buf g) (dec : Option ℕ)
    (q : Option (Buf h)) (hdec : ∀ x ∈ dec, x < B) :
    (divideBy v dec fun d => ct_div_mp_mp u_h u_l d q).val = none ↔
      ¬ DivisorArgs v dec ∨ ¬ QuotientSane q (dividendLen u_h u_l) (v.toNat - dec.getD 0)
        (dividend u_h u_l / (v.toNat - dec.getD 0)) := by
  constructor
  · intro hn
    by_contra hc
    push Not at hc
    obtain ⟨r, hr, -⟩ := C22_div_partial u_h u_l v dec q hc.1 hc.2
    rw [hn] at hr; cases hr
  · intro hc
    by_cases hv : DivisorArgs v dec
    swap
    · exact divideBy_panic hv hdec
    obtain ⟨hlt, b, rfl, h1, h2, h3⟩ := not_sane rfl (hc.resolve_left (not_not.2 hv))
    refine divideBy_panic' hv hlt fun d hd => ?_
    exact ct_div_mp_mp_panic hd u_h u_l b rfl rfl h1 h2 (by rw [v_len_eq hd]; exact h3)

/-- C22 (findings D1 and D4): so does the division of a power of two, unless the room for the remainder is
insufficient. -/
theorem C22_div_pow2_panics_fails (e : ℕ) (r : Buf f) (v : Buf g) (dec : Option ℕ)
    (q : Option (Buf h)) (hdec : ∀ x ∈ dec, x < B) :
    (divideBy v dec fun d => ct_div_pow2_mp e r d q).val = none ↔
      ¬ DivisorArgs v dec ∨ (¬ QuotientSane q (pow2Len e) (v.toNat - dec.getD 0)
        (2 ^ e / (v.toNat - dec.getD 0)) ∧
        min (byteLen (v.toNat - dec.getD 0)) (pow2Len e) ≤ r.len) := by
  constructor
  · intro hn
    by_contra hc
    push Not at hc
    obtain ⟨hv, hs⟩ := hc
    by_cases hq : QuotientSane q (pow2Len e) (v.toNat - dec.getD 0) (2 ^ e / (v.toNat - dec.getD 0))
    · obtain ⟨r, hr, -⟩ := C22_div_pow2_partial e r v dec q hv hq
      rw [hn] at hr; cases hr
    · obtain ⟨hlt, b, rfl, h1, h2, h3⟩ := not_sane rfl hq
      have hs := hs hq
      obtain ⟨r, hr, -⟩ := divideBy_sat (P := fun _ => False) (E := fun _ => True)
          (k := fun d => ct_div_pow2_mp e r d (some b)) hv fun _ d hd => by
        unfold ct_div_pow2_mp
        refine Sat.cond (fun _ => Sat.pure trivial) fun _ => ?_
        refine Sat.cond (fun _ => Sat.pure trivial) fun h => absurd ?_ h
        rw [v_len_eq hd, ← pow2Len_eq]; exact hs
      rw [hn] at hr; cases hr
  · intro hc
    by_cases hv : DivisorArgs v dec
    swap
    · exact divideBy_panic hv hdec
    obtain ⟨hq, hs⟩ := hc.resolve_left (not_not.2 hv)
    obtain ⟨hlt, b, rfl, h1, h2, h3⟩ := not_sane rfl hq
    refine divideBy_panic' hv hlt fun d hd => ?_
    exact ct_div_pow2_mp_panic hd e r b (pow2Len_eq e) (by rw [v_len_eq hd]; exact hs) h1 h2
      (by rw [v_len_eq hd]; exact h3)

/-- C22 (findings D1 and D4): and that of a shifted value. -/
theorem C22_div_lshifted_panics_fails (u : Buf f) (n s : ℕ) (v : Buf g) (dec : Option ℕ)
    (q : Option (Buf h)) (hn : n ≤ u.len) (hu : u.toNat < 256 ^ n) (hdec : ∀ x ∈ dec, x < B) :
    (divideBy v dec fun d => ct_div_lshifted_mp_mp u n s d q).val = none ↔
      ¬ DivisorArgs v dec ∨ (¬ QuotientSane q (n + s) (v.toNat - dec.getD 0)
        (u.toNat * 256 ^ s / (v.toNat - dec.getD 0)) ∧
        min (byteLen (v.toNat - dec.getD 0)) (n + s) ≤ u.len) := by
  constructor
  · intro hnone
    by_contra hc
    push Not at hc
    obtain ⟨hv, hs⟩ := hc
    by_cases hq : QuotientSane q (n + s) (v.toNat - dec.getD 0)
        (u.toNat * 256 ^ s / (v.toNat - dec.getD 0))
    · obtain ⟨r, hr, -⟩ := C22_div_lshifted_partial u n s v dec q hn hu hv hq
      rw [hnone] at hr; cases hr
    · obtain ⟨hlt, b, rfl, h1, h2, h3⟩ := not_sane rfl hq
      have hs := hs hq
      obtain ⟨r, hr, -⟩ := divideBy_sat (P := fun _ => False) (E := fun _ => True)
          (k := fun d => ct_div_lshifted_mp_mp u n s d (some b)) hv fun _ d hd => by
        unfold ct_div_lshifted_mp_mp
        rw [M.assert_eq hn, M.pure_bind]
        refine Sat.cond (fun _ => Sat.pure trivial) fun _ => ?_
        refine Sat.cond (fun _ => Sat.pure trivial) fun h => absurd ?_ h
        rw [v_len_eq hd]; exact hs
      rw [hnone] at hr; cases hr
  · intro hc
    by_cases hv : DivisorArgs v dec
    swap
    · exact divideBy_panic hv hdec
    obtain ⟨hq, hs⟩ := hc.resolve_left (not_not.2 hv)
    obtain ⟨hlt, b, rfl, h1, h2, h3⟩ := not_sane rfl hq
    refine divideBy_panic' hv hlt fun d hd => ?_
    exact ct_div_lshifted_mp_mp_panic hd u b hn hu rfl (by rw [v_len_eq hd]; exact hs) h1 h2
      (by rw [v_len_eq hd]; exact h3)

-- A quotient of two bytes, in a buffer of one byte, for a dividend of two and a divisor of one byte.
example : letI := cfg64; ¬ QuotientSane (some (Buf.ofNat .be 1 0)) 2 1 0x200 := by
  let _ := cfg64
  intro h
  have h1 := h _ rfl
  revert h1
  decide +kernel

omit [LimbCfg] in
/-- C22 doesn't hold as stated: a quotient buffer that is one byte short panics. -/
theorem C22_quotient_fails : ∃ (c : LimbCfg) (u v q : @Buf c .be),
    @Buf.toNat c .be v ≠ 0 ∧
    (@divideBy c .be _ v none fun d => @ct_div_mp_mp c .be .be .be none u d (some q)).val.isNone
      = true :=
  ⟨cfg64, @Buf.ofNat cfg64 .be 2 0x200, @Buf.ofNat cfg64 .be 1 1, @Buf.ofNat cfg64 .be 1 0,
    by decide +kernel, by decide +kernel⟩

example : letI := cfg64; (CtMpDivisor.new (Buf.ofNat .be 9 0) (some 0)).val.isSome = true := by
  decide +kernel
example : letI := cfg64; DivisorArgs (Buf.ofNat .be 9 5) (some 5) := by
  refine ⟨?_, ?_⟩ <;> simp [B, W, LB, LimbCfg.lb]

/-! ## C23 -/

/-- C23: quotient and remainder of a power of two. -/
theorem C23_div_pow2 (e : ℕ) (r : Buf f) (v : Buf g) (dec : Option ℕ) (q : Option (Buf h))
    (hdec : ∀ x ∈ dec, x < B) (hv : dec.getD 0 < v.toNat)
    (hr : min (byteLen (v.toNat - dec.getD 0)) (pow2Len e) ≤ r.len)
    (hq : QuotientFits q (pow2Len e) (v.toNat - dec.getD 0) (2 ^ e / (v.toNat - dec.getD 0))) :
    Sat (divideBy v dec fun d => ct_div_pow2_mp e r d q) (fun s => ∃ r' q', s = .ok (r', q') ∧
      r'.len = r.len ∧ r'.toNat = 2 ^ e % (v.toNat - dec.getD 0) ∧
      q'.map Buf.len = q.map Buf.len ∧
      ∀ b ∈ q', b.toNat = 2 ^ e / (v.toNat - dec.getD 0)) := by
  refine (DivPost.ok_of (divideBy_pow2_sat e r v dec q ⟨hdec, fun _ _ => by omega⟩
    fun b hb => Or.inl (hq b hb).2) (by omega) ?_).mono ?_
  · rintro er ⟨-, h1 | h1⟩
    · exact hq.no_err er h1
    · omega
  · rintro _ ⟨⟨a, b⟩, rfl, -, h1⟩
    exact ⟨a, b, rfl, h1⟩

/-- C23: the remainder of a power of two. -/
theorem C23_mod_pow2 (e : ℕ) (r : Buf f) (v : Buf g) (dec : Option ℕ)
    (hdec : ∀ x ∈ dec, x < B) (hv : dec.getD 0 < v.toNat)
    (hr : min (byteLen (v.toNat - dec.getD 0)) (pow2Len e) ≤ r.len) :
    Sat (divideBy v dec fun d => ct_mod_pow2_mp e r d) (fun s => ∃ r', s = .ok r' ∧
      r'.len = r.len ∧ r'.toNat = 2 ^ e % (v.toNat - dec.getD 0)) := by
  refine (DivPost.ok_of (divideBy_sat (E := fun er => er = .InsufficientRemainderSpace ∧
    r.len < min (byteLen (v.toNat - dec.getD 0)) (pow2Len e)) ⟨hdec, fun _ _ => by omega⟩
    fun _ d hd => by
      have := ct_mod_pow2_mp_sat hd e r
      rw [v_len_eq hd, ← pow2Len_eq] at this
      exact this) (by omega) fun er h1 => by omega).mono ?_
  rintro _ ⟨a, rfl, -, h1⟩
  exact ⟨a, rfl, h1⟩

/-- C23: quotient and remainder of a value (of `n` bytes) times `256 ^ s`. -/
theorem C23_div_lshifted (u : Buf f) (n s : ℕ) (v : Buf g) (dec : Option ℕ) (q : Option (Buf h))
    (hdec : ∀ x ∈ dec, x < B) (hv : dec.getD 0 < v.toNat)
    (hn : n ≤ u.len) (hu : u.toNat < 256 ^ n)
    (hr : min (byteLen (v.toNat - dec.getD 0)) (n + s) ≤ u.len)
    (hq : QuotientFits q (n + s) (v.toNat - dec.getD 0)
      (u.toNat * 256 ^ s / (v.toNat - dec.getD 0))) :
    Sat (divideBy v dec fun d => ct_div_lshifted_mp_mp u n s d q)
      (fun r => ∃ u' q', r = .ok (u', q') ∧
      u'.len = u.len ∧ u'.toNat = u.toNat * 256 ^ s % (v.toNat - dec.getD 0) ∧
      q'.map Buf.len = q.map Buf.len ∧
      ∀ b ∈ q', b.toNat = u.toNat * 256 ^ s / (v.toNat - dec.getD 0)) := by
  refine (DivPost.ok_of (divideBy_lshifted_sat u n s v dec q hn hu ⟨hdec, fun _ _ => by omega⟩
    fun b hb => Or.inl (hq b hb).2) (by omega) ?_).mono ?_
  · rintro er ⟨-, h1 | h1⟩
    · exact hq.no_err er h1
    · omega
  · rintro _ ⟨⟨a, b⟩, rfl, -, h1⟩
    exact ⟨a, b, rfl, h1⟩

/-- C23: the remainder of a value (of `n` bytes) times `256 ^ s`. -/
theorem C23_mod_lshifted (u : Buf f) (n s : ℕ) (v : Buf g) (dec : Option ℕ)
    (hdec : ∀ x ∈ dec, x < B) (hv : dec.getD 0 < v.toNat)
    (hn : n ≤ u.len) (hu : u.toNat < 256 ^ n)
    (hr : min (byteLen (v.toNat - dec.getD 0)) (n + s) ≤ u.len) :
    Sat (divideBy v dec fun d => ct_mod_lshifted_mp_mp u n s d) (fun r => ∃ u', r = .ok u' ∧
      u'.len = u.len ∧ u'.toNat = u.toNat * 256 ^ s % (v.toNat - dec.getD 0)) := by
  refine (DivPost.ok_of (divideBy_sat (E := fun er => er = .InsufficientRemainderSpace ∧
    u.len < min (byteLen (v.toNat - dec.getD 0)) (n + s)) ⟨hdec, fun _ _ => by omega⟩
    fun _ d hd => by
      have := ct_mod_lshifted_mp_mp_sat hd u (shl := s) hn hu
      rw [v_len_eq hd] at this
      exact this) (by omega) fun er h1 => by omega).mono ?_
  rintro _ ⟨a, rfl, -, h1⟩
  exact ⟨a, rfl, h1⟩

example : letI := cfg64;
    ((divideBy (Buf.ofNat .le 10 (2 ^ 70 + 12345)) none fun d =>
      ct_div_pow2_mp 200 (Buf.ofNat .be 9 99) d (some (Buf.ofNat .ne 24 7))).val.bind
        DivResult.nums2) =
      some (2 ^ 200 % (2 ^ 70 + 12345), 2 ^ 200 / (2 ^ 70 + 12345)) := by decide +kernel
example : letI := cfg32;
    ((divideBy (Buf.ofNat .le 10 (2 ^ 70 + 12345)) none fun d =>
      ct_div_lshifted_mp_mp (Buf.ofNat .be 10 (2 ^ 72 - 99)) 9 23 d
        (some (Buf.ofNat .ne 24 7))).val.bind DivResult.nums2) =
      some ((2 ^ 72 - 99) * 256 ^ 23 % (2 ^ 70 + 12345),
        (2 ^ 72 - 99) * 256 ^ 23 / (2 ^ 70 + 12345)) := by decide +kernel

/-! ## C24 -/

/-- Specification: the quotient buffer `b` has as many limbs as the dividend `u` or, if it stores big
endian bytes, is shorter by a single limb, with all the others complete. -/
def QuotientLimbs (u : Buf f) (b : Buf h) : Prop :=
  u.nlimbs ≤ b.nlimbs ∨ h = .be ∧ (u.nlimbs - 1) * LB = b.len

theorem QuotientLimbs.iff {u : Buf f} {b : Buf h} (hu : u.len ≠ 0) :
    QuotientLimbs u b ↔ b.Readable (u.nlimbs - 1) := by
  have : u.nlimbs ≠ 0 := fun h => hu (nlimbs_zero_iff.1 h)
  unfold QuotientLimbs Buf.Readable
  rw [show u.nlimbs ≤ b.nlimbs ↔ u.nlimbs - 1 < b.nlimbs by omega]

/-- C24: quotient and remainder of the division by a limb, for a non-empty dividend and a quotient
buffer with as many limbs as the dividend.  All others panic, see `C24_quotient_panics_fails`. -/
theorem C24_div_l_partial (u : Buf f) (v : ℕ) (q : Option (Buf h)) (hv : v < B) (h0 : v ≠ 0)
    (hu : q.isSome → u.len ≠ 0) (hq : ∀ b ∈ q, QuotientLimbs u b)
    (hql : ∀ b ∈ q, u.len + 1 ≤ b.len + byteLen v) :
    Sat (divideByL v fun d => ct_div_mp_l u d q) (fun r => ∃ q', r = .ok (u.toNat % v, q') ∧
      q'.map Buf.len = q.map Buf.len ∧ ∀ b ∈ q', b.toNat = u.toNat / v) := by
  refine (DivPost.ok_of (divideByL_sat hv fun _ d hd hdv => by
    have := ct_div_mp_l_sat u hd q (fun b hb => Or.inl
      ((QuotientLimbs.iff (hu (by rw [hb]; rfl))).1 (hq b hb))) hu
    rw [hdv] at this
    exact this) h0 ?_).mono ?_
  · rintro er ⟨-, -, b, hb, h1⟩
    have := hql b hb; omega
  · rintro _ ⟨⟨a, b⟩, rfl, -, rfl, h2⟩
    exact ⟨b, rfl, h2⟩

/-- C24: the remainder of the division by a limb. -/
theorem C24_mod_l (u : Buf f) (v : ℕ) (hv : v < B) (h0 : v ≠ 0) :
    Sat (divideByL v fun d => do let r ← ct_mod_mp_l u d; pure (.ok r))
      (fun r => r = .ok (u.toNat % v)) := by
  have hs := divideByL_sat (v := v) (E := fun _ => False) (P := fun r => r = u.toNat % v) hv
    (k := fun d => do let r ← ct_mod_mp_l u d; pure (.ok r))
    fun _ d hd hdv => (ct_mod_mp_l_sat u hd).bind fun r hr => Sat.pure (hdv ▸ hr : r = u.toNat % v)
  refine (DivPost.ok_of hs h0 fun er h1 => h1.2).mono ?_
  rintro _ ⟨a, rfl, -, rfl⟩
  rfl

/-- C22: too short a quotient buffer is reported. -/
theorem C22_div_l_partial (u : Buf f) (v : ℕ) (q : Option (Buf h)) (hv : v < B)
    (hu : q.isSome → u.len ≠ 0)
    (hq : ∀ b ∈ q, QuotientLimbs u b ∨ b.len + byteLen v < u.len + 1 ∨ u.len < byteLen v) :
    Sat (divideByL v fun d => ct_div_mp_l u d q) (DivPost (v = 0)
      (fun e => e = .InsufficientQuotientSpace ∧ ∃ b ∈ q, b.len + byteLen v < u.len + 1)
      (fun _ => v ≠ 0)) := by
  refine (divideByL_sat hv fun _ d hd hdv => by
    have := ct_div_mp_l_sat u hd q (fun b hb => by
      rw [hdv, ← QuotientLimbs.iff (hu (by rw [hb]; rfl))]; exact hq b hb) hu
    rw [hdv] at this
    exact this).mono ?_
  rintro (_ | e | a) hr
  · exact hr
  · exact hr.2
  · exact hr.1

/-- C24: with a quotient buffer of the required length, and a dividend not shorter than the divisor,
division by a limb panics exactly if the quotient has fewer limbs than the dividend. -/
theorem C24_quotient_panics_fails (u : Buf f) (v : ℕ) (b : Buf h) (hv : v < B) (h0 : v ≠ 0)
    (hu : byteLen v ≤ u.len) (hl : u.len + 1 ≤ b.len + byteLen v) :
    (divideByL v fun d => ct_div_mp_l u d (some b)).val = none ↔ ¬ QuotientLimbs u b := by
  have hp := byteLen_pos h0
  have hu0 : u.len ≠ 0 := by omega
  constructor
  · intro h hq
    obtain ⟨r, hr, -⟩ := C24_div_l_partial u v (some b) hv h0 (fun _ => hu0)
      (by intro b' hb'; cases hb'; exact hq) (by intro b' hb'; cases hb'; exact hl)
    rw [h] at hr; cases hr
  · intro hq
    unfold divideByL
    refine (CtLDivisor.new_spec hv h0).post.bind_panic ?_
    rintro _ ⟨d, rfl, hd, rfl⟩
    exact M.bind_panic (ct_div_mp_l_panic u hd hu0 hl hu (mt (QuotientLimbs.iff hu0).2 hq))

example : letI := cfg64; QuotientLimbs (Buf.ofNat .ne 16 0x200) (Buf.ofNat .be 8 0) ∧
    ¬ QuotientLimbs (Buf.ofNat .ne 16 0x200) (Buf.ofNat .le 8 0) ∧
    ((divideByL (2 ^ 63) fun d => ct_div_mp_l (Buf.ofNat .be 9 (2 ^ 70 + 5)) d
      (some (Buf.ofNat .be 8 0))).val.bind DivResult.numsL) = some (5, 128) :=
  ⟨Or.inr (by decide +kernel), by unfold QuotientLimbs; decide +kernel, by decide +kernel⟩

omit [LimbCfg] in
/-- C24 doesn't hold as stated: a quotient buffer of the required length, with fewer limbs than
the dividend, panics. -/
theorem C24_quotient_fails : ∃ (c : LimbCfg) (u : @Buf c .be) (q : @Buf c .ne) (v : ℕ),
    v ≠ 0 ∧ u.len + 1 ≤ q.len + byteLen v ∧
    (@divideByL c _ v fun d => @ct_div_mp_l c .be .ne u d (some q)).val.isNone = true :=
  ⟨cfg64, @Buf.ofNat cfg64 .be 9 0x200, @Buf.ofNat cfg64 .ne 8 0, 0x100, by decide +kernel,
    by decide +kernel, by decide +kernel⟩

/-- C24: for an empty dividend, the quotient buffer is always left as it is, whatever its length. -/
theorem C24_empty_unchanged_fails (u : Buf f) (v : ℕ) (q : Option (Buf h)) (hv : v < B)
    (h0 : v ≠ 0) (hu : u.len = 0) :
    Sat (divideByL v fun d => ct_div_mp_l u d q) (fun r => r = .ok (0, q)) := by
  unfold divideByL
  refine Sat.bind (CtLDivisor.new_spec hv h0) ?_
  rintro _ ⟨d, rfl, hd, rfl⟩
  refine Sat.bind (P := fun r => r = .ok (0, q)) ?_ (by rintro _ rfl; exact Sat.pure rfl)
  unfold ct_div_mp_l
  exact Sat.cond (fun _ => Sat.pure rfl) fun h => absurd (nlimbs_zero_iff.2 hu) h

omit [LimbCfg] in
/-- C24 doesn't hold as stated: for an empty dividend, the quotient isn't set. -/
theorem C24_empty_fails : ∃ (c : LimbCfg) (u q : @Buf c .be) (v : ℕ),
    v ≠ 0 ∧ u.toNat = 0 ∧
    ((@divideByL c _ v fun d => @ct_div_mp_l c .be .be u d (some q)).val.bind DivResult.numsL)
      = some (0, 5) :=
  ⟨cfg64, @Buf.ofNat cfg64 .be 0 0, @Buf.ofNat cfg64 .be 8 5, 0x100, by decide +kernel,
    by decide +kernel, by decide +kernel⟩

example : letI := cfg64;
    ((divideByL 0xfedcba987654321 fun d => ct_div_mp_l (Buf.ofNat .be 20 (2 ^ 155 + 3)) d
      (some (Buf.ofNat .le 17 7))).val.bind DivResult.numsL) =
      some ((2 ^ 155 + 3) % 0xfedcba987654321, (2 ^ 155 + 3) / 0xfedcba987654321) := by
  decide +kernel

end Props
end Cmpa
