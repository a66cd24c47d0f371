import Verif.Props.Programs
import Verif.Props.Portable
import Verif.Props.CtTrace
import Mathlib.Data.Nat.Digits.Defs

/-!
# Programs converting numbers to and from numerals (C56)

The library reads and writes hexadecimal numbers only.  A user who wants decimal numerals, or numerals of any other
base fitting in a limb, divides by the base again and again, and multiplies by the base and adds digits.  What the
digits of a number are is given by Mathlib's `Nat.ofDigits`.
-/

namespace Cmpa
namespace Props
open M

variable [LimbCfg] {f g h : Fmt}

/-! ### The programs -/

/-- `k` digits of the number in `u`, the least significant one first: divide by the base, copy the quotient back. -/
def digitsLoop (d : CtLDivisor) : ℕ → Buf f → Buf h → M (List ℕ)
  | 0, _, _ => pure []
  | k + 1, u, q => do
    let r ← unwrapE (ct_div_mp_l u d (some q))
    let q ← M.ofOption r.2
    let u ← u.copy_from q
    let l ← digitsLoop d k u q
    pure (r.1 :: l)

/-- A user's program: `k` digits of the number in `u` to the base `v`, `q` being a buffer for quotients. -/
def toDigits (v k : ℕ) (u : Buf f) (q : Buf h) : M (List ℕ) := do
  let d ← M.ofOption (← CtLDivisor.new v)
  digitsLoop d k u q

/-- A user's program: the number with these digits to the base `v`, the least significant one first. -/
def fromDigits (v : ℕ) (out : Buf f) : List ℕ → M (Buf f)
  | [] => out.clear_bytes_above 0
  | d :: l => do
    let b ← fromDigits v out l
    let b ← ct_mul_trunc_mp_l b b.len v
    let r ← ct_add_mp_l b d
    pure r.1

/-! ### C56 -/

theorem digitsLoop_sat {d : CtLDivisor} (hd : d.Valid) (k : ℕ) (u : Buf f) (q : Buf h) (hu : u.len ≠ 0)
    (hl : u.len ≤ q.len) :
    Sat (digitsLoop d k u q) (fun l => l = (List.range k).map fun i => u.toNat / d.v ^ i % d.v) := by
  induction k generalizing u q with
  | zero => exact Sat.pure rfl
  | succ k ih =>
    have hp : 0 < byteLen d.v := byteLen_pos hd.1.ne'
    rw [digitsLoop]
    refine Sat.bind (unwrapE_ok (P := fun r => r.1 = u.toNat % d.v ∧ r.2.map Buf.len = some q.len ∧
      ∀ b ∈ r.2, b.toNat = u.toNat / d.v) ?_) ?_
    · refine (ct_div_mp_l_sat u hd (some q) ?_ fun _ => hu).mono ?_
      · intro b hb
        cases hb
        exact Or.inl ((QuotientLimbs.iff hu).1 (Or.inl (nlimbs_mono hl)))
      · rintro (e | r) hr
        · obtain ⟨-, b, hb, h1⟩ := hr
          cases hb
          omega
        · exact ⟨r, rfl, hr⟩
    rintro ⟨r, _ | q'⟩ ⟨h1, h2, h3⟩
    · cases h2
    have h4 : q'.len = q.len := Option.some.inj h2
    have h5 : q'.toNat = u.toNat / d.v := h3 q' rfl
    refine Sat.bind (P := fun b => b = q') (Sat.pure rfl) ?_
    intro b hb
    subst hb
    refine Sat.bind (C17_copy_from u b ?_) ?_
    · rw [h5]; exact lt_of_le_of_lt (Nat.div_le_self _ _) u.toNat_lt
    rintro u' ⟨h6, h7⟩
    refine Sat.bind (ih u' b (by omega) (by omega)) ?_
    intro l hl'
    refine Sat.pure ?_
    rw [hl', List.range_succ_eq_map, List.map_cons, List.map_map, h7, h5]
    congr 1
    · rw [pow_zero, Nat.div_one]; exact h1
    · refine List.map_congr_left fun i _ => ?_
      rw [Function.comp_apply, Nat.succ_eq_add_one, pow_succ', Nat.div_div_eq_div_mul]

/-- C56: the digits of a number in a buffer which is not empty. -/
theorem C56_digits_partial (v k : ℕ) (u : Buf f) (q : Buf h) (hv : v < B) (h0 : v ≠ 0) (hu : u.len ≠ 0)
    (hl : u.len ≤ q.len) :
    Sat (toDigits v k u q) (fun l => l = (List.range k).map fun i => u.toNat / v ^ i % v) := by
  unfold toDigits
  refine Sat.bind (CtLDivisor.new_spec hv h0) ?_
  rintro _ ⟨d, rfl, hd, rfl⟩
  refine Sat.bind (P := fun b => b = d) (Sat.pure rfl) ?_
  rintro _ rfl
  exact digitsLoop_sat hd k u q hu hl

omit [LimbCfg] in
theorem ofDigits_range {v : ℕ} : ∀ (k n : ℕ),
    Nat.ofDigits v ((List.range k).map fun i => n / v ^ i % v) = n % v ^ k
  | 0, n => by simp [Nat.mod_one]
  | k + 1, n => by
    have h := ofDigits_range (v := v) k (n / v)
    rw [List.range_succ_eq_map, List.map_cons, List.map_map, Nat.ofDigits_cons, pow_zero, Nat.div_one, pow_succ',
      Nat.mod_mul]
    have h2 : ((fun i => n / v ^ i % v) ∘ Nat.succ) = fun i => n / v / v ^ i % v := by
      funext i
      rw [Function.comp_apply, Nat.succ_eq_add_one, pow_succ', Nat.div_div_eq_div_mul]
    rw [h2, h]

/-- C56: the digits are below the base, there are `k` of them, and they make up the number, if it has no more
digits than that. -/
theorem C56_numeral_partial (v k : ℕ) (u : Buf f) (q : Buf h) (hv : v < B) (h0 : v ≠ 0) (hu : u.len ≠ 0)
    (hl : u.len ≤ q.len) (hk : u.toNat < v ^ k) :
    Sat (toDigits v k u q) (fun l => l.length = k ∧ (∀ x ∈ l, x < v) ∧ Nat.ofDigits v l = u.toNat) := by
  refine (C56_digits_partial v k u q hv h0 hu hl).mono ?_
  rintro _ rfl
  refine ⟨by simp, ?_, by rw [ofDigits_range, Nat.mod_eq_of_lt hk]⟩
  intro x hx
  obtain ⟨i, -, rfl⟩ := List.mem_map.1 hx
  exact Nat.mod_lt _ (Nat.pos_of_ne_zero h0)

/-- C56: a numeral is read as its number, modulo what the buffer can hold. -/
theorem C56_read (v : ℕ) (out : Buf f) (hv : v < B) : ∀ l : List ℕ, (∀ x ∈ l, x < B ∧ x < 256 ^ out.len) →
    Sat (fromDigits v out l) (fun b => b.len = out.len ∧ b.toNat = Nat.ofDigits v l % 256 ^ out.len)
  | [], _ => by
    refine (C16_clear_bytes_above out 0).mono ?_
    rintro b ⟨h1, h2⟩
    refine ⟨h1, ?_⟩
    rw [h2, pow_zero, Nat.mod_one, Nat.ofDigits_nil, Nat.zero_mod]
  | d :: l, hd => by
    unfold fromDigits
    refine Sat.bind (C56_read v out hv l fun x hx => hd x (List.mem_cons_of_mem _ hx)) ?_
    rintro b ⟨h1, h2⟩
    refine Sat.bind (C09_mul_l b b.len v hv le_rfl) ?_
    rintro b' ⟨h3, h4⟩
    obtain ⟨h5, h6⟩ := hd d List.mem_cons_self
    refine Sat.bind (C02_add_l b' d h5 (by rw [h3, h1]; exact h6)) ?_
    rintro ⟨b'', c⟩ hr
    refine Sat.pure ?_
    obtain ⟨h7, -, h8⟩ := hr
    refine ⟨by rw [h7, h3, h1], ?_⟩
    have h9 : b''.toNat < 256 ^ out.len := by have := b''.toNat_lt; rwa [h7, h3, h1] at this
    rw [h4, h2, h3, h1, Nat.mod_mod] at h8
    rw [← Nat.mod_eq_of_lt h9, ← Nat.add_mul_mod_self_right b''.toNat c, h8, Nat.ofDigits_cons, Nat.mod_add_mod,
      Nat.add_comm, Nat.add_mod, Nat.mod_mul_mod, Nat.mul_comm, ← Nat.add_mod]

/-- C56: writing a number as a numeral and reading that again, to a buffer of any format with room for it, is the
identity. -/
theorem C56_round_trip_partial (v k : ℕ) (u : Buf f) (q : Buf h) (out : Buf g) (hv : v < B) (h0 : v ≠ 0)
    (hu : u.len ≠ 0) (hl : u.len ≤ q.len) (hk : u.toNat < v ^ k) (ho : u.len ≤ out.len) (hb : v ≤ 256 ^ out.len) :
    Sat (do let l ← toDigits v k u q; fromDigits v out l) (fun b => b.len = out.len ∧ b.toNat = u.toNat) := by
  refine Sat.bind (C56_numeral_partial v k u q hv h0 hu hl hk) ?_
  rintro l ⟨-, h1, h2⟩
  refine (C56_read v out hv l fun x hx => ⟨(h1 x hx).trans hv, (h1 x hx).trans_le hb⟩).mono ?_
  rintro b ⟨h3, h4⟩
  refine ⟨h3, ?_⟩
  rw [h4, h2]
  exact Nat.mod_eq_of_lt (u.toNat_lt.trans_le (Nat.pow_le_pow_right (by norm_num) ho))

/-- C56: the digits are the same on all platforms and for all formats. -/
theorem C56_portable_partial {c c' : LimbCfg} {f f' h h' : Fmt} (v k : ℕ) (u : @Buf c f) (q : @Buf c h)
    (u' : @Buf c' f') (q' : @Buf c' h') (hs : SameNum u u') (hv : v < @B c) (hv' : v < @B c') (h0 : v ≠ 0)
    (hu : @Buf.len c f u ≠ 0) (hl : @Buf.len c f u ≤ @Buf.len c h q)
    (hl' : @Buf.len c' f' u' ≤ @Buf.len c' h' q') :
    Agree (@toDigits c f h v k u q) (@toDigits c' f' h' v k u' q') (· = ·) :=
  Agree.of (@C56_digits_partial c f h v k u q hv h0 hu hl)
    (@C56_digits_partial c' f' h' v k u' q' hv' h0 (hs.1 ▸ hu) hl')
    fun _ _ h1 h2 => by rw [h1, h2, hs.2]

/-! ### Constant time -/

section
variable [Obs]

theorem digitsLoop_ct {d : CtLDivisor} (k : ℕ) {u u' : Buf f} {q q' : Buf h} (hu : u.len = u'.len)
    (hq : q.len = q'.len) : Ct (digitsLoop d k u q) (digitsLoop d k u' q') := by
  induction k generalizing u u' q q' with
  | zero => exact SameTr.pure trivial
  | succ k ih =>
    rw [digitsLoop, digitsLoop]
    refine (unwrapE_ct (ct_div_mp_l_ct hu (pub_opt (by simpa using hq)) ?_)).bind ?_
    · intro n n' h1 h2
      rw [h1] at h2
      exact Option.some.inj h2
    rintro ⟨r, q1⟩ ⟨r', q1'⟩ ⟨-, h1⟩
    refine SameTr.bind (R := Pub.rel) (SameTr.ofOption ?_) fun a b hab => ?_
    · intro a b ha hb
      dsimp only at ha hb
      subst ha hb
      exact h1
    refine (Buf.copy_from_ct hu hab).bind fun _ _ h2 => ?_
    refine (ih h2 hab).bind fun _ _ _ => ?_
    exact SameTr.pure trivial

theorem toDigits_ct {v k : ℕ} {u u' : Buf f} {q q' : Buf h} (hu : u.len = u'.len)
    (hq : q.len = q'.len) : Ct (toDigits v k u q) (toDigits v k u' q') := by
  unfold toDigits
  have h1 : SameTr (CtLDivisor.new v) (CtLDivisor.new v) (fun a b => a = b) := fun a b ha hb =>
    ⟨rfl, by rw [ha] at hb; exact Option.some.inj hb⟩
  refine h1.bind ?_
  rintro o _ rfl
  refine SameTr.bind (R := fun a b => a = b) (SameTr.ofOption ?_) ?_
  · intro a b ha hb
    rw [ha] at hb
    exact Option.some.inj hb
  rintro d _ rfl
  exact digitsLoop_ct k hu hq

theorem fromDigits_ct {v : ℕ} {out out' : Buf f} (ho : out.len = out'.len) :
    ∀ {l l' : List ℕ}, l.length = l'.length → Ct (fromDigits v out l) (fromDigits v out' l')
  | [], [], _ => Buf.clear_bytes_above_ct ho rfl
  | _ :: l, _ :: l', hl => by
    rw [fromDigits, fromDigits]
    refine (fromDigits_ct ho (Nat.succ.inj hl)).bind fun _ _ h1 => ?_
    refine (ct_mul_trunc_mp_l_ct h1 h1).bind fun _ _ h2 => ?_
    refine (ct_add_mp_l_ct h2).bind fun _ _ h3 => ?_
    exact SameTr.pure h3.1

end

/-- C56: two numbers of the same length leave the same events when they are written as numerals. -/
theorem C56_constant_time_partial (v k : ℕ) (u u' : Buf f) (q q' : Buf h) (hv : v < B) (h0 : v ≠ 0) (hu : u.len ≠ 0)
    (hl : u.len ≤ q.len) (he : u.len = u'.len) (hq : q.len = q'.len) :
    (toDigits v k u q).tr = (toDigits v k u' q').tr :=
  sameEvents (@toDigits_ct _ f h Obs.full v k u u' q q' he hq) (C56_digits_partial v k u q hv h0 hu hl).ne_none
    (C56_digits_partial v k u' q' hv h0 (by omega) (by omega)).ne_none

/-- C56: two numerals of the same number of digits leave the same events when they are read. -/
theorem C56_read_constant_time (v : ℕ) (out out' : Buf f) (l l' : List ℕ) (hv : v < B)
    (hl : ∀ x ∈ l, x < B ∧ x < 256 ^ out.len) (hl' : ∀ x ∈ l', x < B ∧ x < 256 ^ out'.len)
    (he : out.len = out'.len) (hn : l.length = l'.length) :
    (fromDigits v out l).tr = (fromDigits v out' l').tr :=
  sameEvents (@fromDigits_ct _ f Obs.full v out out' he l l' hn) (C56_read v out hv l hl).ne_none
    (C56_read v out' hv l' hl').ne_none

/-! ### Examples -/

example : letI := cfg64;
    (toDigits 10 31 (Buf.ofNat .be 13 (10 ^ 30 + 987)) (Buf.ofNat .ne 16 5)).val =
      some ([7, 8, 9] ++ List.replicate 27 0 ++ [1]) := by decide +kernel
example : letI := cfg32;
    (toDigits (10 ^ 9) 4 (Buf.ofNat .ne 12 (10 ^ 28 + 987)) (Buf.ofNat .le 13 5)).val =
      some [987, 0, 0, 10] := by decide +kernel
example : letI := cfg32;
    ((fromDigits 10 (Buf.ofNat .le 5 77) [7, 8, 9, 0, 0, 0, 0, 0, 0, 0, 0, 1]).val.map Buf.toNat) =
      some (10 ^ 11 + 987) := by decide +kernel

omit [LimbCfg] in
/-- C56 doesn't hold as stated for the empty buffer, which holds the number zero: the quotient isn't set (finding D9),
and copying the former contents of its buffer to the empty one panics. -/
theorem C56_empty_fails : ∃ (c : LimbCfg) (u q : @Buf c .be), @Buf.toNat c .be u = 0 ∧
    @Buf.len c .be u ≤ @Buf.len c .be q ∧ (@toDigits c .be .be 10 2 u q).val = none :=
  ⟨cfg64, @Buf.ofNat cfg64 .be 0 0, @Buf.ofNat cfg64 .be 8 5, by decide +kernel, by decide +kernel, by decide +kernel⟩

end Props
end Cmpa
