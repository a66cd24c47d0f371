import Verif.Proofs.ShiftUsize
import Verif.Props.Div
import Verif.Props.Shift
import Verif.Props.Shamir

/-!
# Shift distances, exponents and lengths up to the end of the range of `usize` (C69)

`u` is the size of `usize`, `@B u.cfg` the number of its values.  The functions with a prime compute with `usize` as the code
does: what leaves the range panics in a debug build and wraps around in a release build.
-/

namespace Cmpa
namespace Props
open M
variable [LimbCfg] {f g h : Fmt}

/-! ## Shifts -/

/-- C69: a left shift by any distance there is, of every buffer whose bits, and a limb more, can be counted. -/
theorem C69_lshift_partial (u : UsizeCfg) (a : Buf f) (d : ℕ) (ha : 0 < a.len) (hb : 8 * a.len + W < @B u.cfg)
    (hd : d < @B u.cfg) :
    Sat (ct_lshift_mp' u a d) (fun (a', out) => a'.len = a.len ∧
      a'.toNat = a.toNat * 2 ^ d % 2 ^ (8 * a.len) ∧ out = a.toNat * 2 ^ d / 2 ^ (8 * a.len) % B) := by
  rw [ct_lshift_mp'_eq u a d hb hd]
  exact (C07_lshift a d ha).mono fun p hp => ⟨hp.1, hp.2.2⟩

/-- C69: a right shift by any distance there is, of every buffer whose limbs' bits can be counted. -/
theorem C69_rshift_partial (u : UsizeCfg) (a : Buf f) (d : ℕ) (hb : a.nlimbs * W < @B u.cfg) (hd : d < @B u.cfg) :
    Sat (ct_rshift_mp' u a d) (fun (a', out) => a'.len = a.len ∧
      a'.toNat = a.toNat / 2 ^ d ∧ out = a.toNat * B / 2 ^ d % B) := by
  rw [ct_rshift_mp'_eq u a d hb hd]
  exact (C08_rshift a d).mono fun p hp => ⟨hp.1, hp.2.2⟩

/-- C69: the condition is met by all buffers of less than half a gigabyte, less 16 bytes. -/
theorem C69_shift_lengths (u : UsizeCfg) (a : Buf f) (ha : a.len < 2 ^ 29 - 16) :
    8 * a.len + W < @B u.cfg ∧ a.nlimbs * W < @B u.cfg := by
  have hB := usize_ge u
  have hb : 8 * a.len + W < @B u.cfg := by rcases W_cases with h | h <;> omega
  exact ⟨hb, BitsFit.nlimbs (u := u) hb⟩

/-- C69: clearing bits above or below any position there is. -/
theorem C69_clear_bits (u : UsizeCfg) (a : Buf f) (d : ℕ) (ha : a.len < @B u.cfg) (hd : d < @B u.cfg) :
    ct_clear_bits_above_mp' u a d = ct_clear_bits_above_mp a d ∧
    ct_clear_bits_below_mp' u a d = ct_clear_bits_below_mp a d := by
  have h : a.nlimbs ≤ @B u.cfg := by
    have h1 : a.nlimbs * LB ≤ a.len + LB - 1 := Nat.div_mul_le_self _ _
    have h2 := LB_pos
    have h3 := Nat.le_mul_of_pos_right a.nlimbs h2
    by_contra hc
    have h4 : a.nlimbs * 1 + (LB - 1) ≤ a.nlimbs * LB := by
      obtain ⟨k, hk⟩ : ∃ k, LB = k + 1 := ⟨LB - 1, by omega⟩
      rw [hk, Nat.mul_add, Nat.add_sub_cancel]
      have := Nat.le_mul_of_pos_left k (show 0 < a.nlimbs by omega)
      omega
    omega
  exact ⟨ct_clear_bits_above_mp'_eq u a d h hd, ct_clear_bits_below_mp'_eq u a d h hd⟩

/-- C69 doesn't hold for longer buffers: a debug build panics for every shift of every one of them. -/
theorem C69_lshift_panics_fails (u : UsizeCfg) (a : Buf f) (d : ℕ) (ha : 0 < a.len) (hb : @B u.cfg ≤ 8 * a.len + W)
    (hd : d < @B u.cfg) : (ct_lshift_mp' u a d).val = none :=
  ct_lshift_mp'_panic u a d ha (Nat.not_lt.2 hb) hd

/-- C69 doesn't hold for longer buffers: a debug build panics for every right shift of every one of them. -/
theorem C69_rshift_panics_fails (u : UsizeCfg) (a : Buf f) (d : ℕ) (ha : 0 < a.len) (hb : @B u.cfg ≤ a.nlimbs * W) :
    (ct_rshift_mp' u a d).val = none :=
  ct_rshift_mp'_panic u a d ha (Nat.not_lt.2 hb)

/-- C69 doesn't hold in a release build either: if `usize` has 32 bits, a left shift of a buffer of half a gigabyte
leaves it as it is, whatever the distance. -/
theorem C69_lshift_unshifted_fails (a : Buf f) (d : ℕ) (ha : a.len = 2 ^ 29) (hd : d < 2 ^ 32) :
    RSat (ct_lshift_mp' ⟨cfg32⟩ a d) (fun (a', _) => a'.len = a.len ∧ a'.toNat = a.toNat) := by
  refine ct_lshift_mp'_rel ⟨cfg32⟩ ⟨cfg64⟩ a d ?_ ?_ hd
  · rw [ha]; rfl
  · show 8 * a.len + W < 2 ^ 64
    rw [ha]
    rcases W_cases with h | h <;> rw [h] <;> norm_num

/-- C69 fails: there is such a buffer, and what it holds isn't the shifted number. -/
theorem C69_lshift_release_fails : ∃ a : Buf .be, a.len = 2 ^ 29 ∧
    RSat (ct_lshift_mp' ⟨cfg32⟩ a 1) (fun (a', _) => a'.toNat ≠ a.toNat * 2 ^ 1 % 2 ^ (8 * a.len)) := by
  have key : ∀ n, n = 2 ^ 29 → ∃ a : Buf .be, a.len = 2 ^ 29 ∧
      RSat (ct_lshift_mp' ⟨cfg32⟩ a 1) (fun (a', _) => a'.toNat ≠ a.toNat * 2 ^ 1 % 2 ^ (8 * a.len)) := by
    intro n hn
    obtain ⟨a, ha, hv⟩ := exists_be n 1 (Nat.one_lt_pow (by omega) (by norm_num))
    refine ⟨a, ha.trans hn, (C69_lshift_unshifted_fails a 1 (ha.trans hn) (by norm_num)).mono fun p hp => ?_⟩
    show p.1.toNat ≠ _
    rw [hp.2, hv, ha, Nat.mod_eq_of_lt]
    · norm_num
    · exact lt_of_lt_of_le (by norm_num : 1 * 2 ^ 1 < 2 ^ 8) (Nat.pow_le_pow_right (by norm_num) (by omega))
  exact key _ rfl

example : letI := cfg64; ((ct_lshift_mp' ⟨cfg32⟩ (Buf.be [1, 2, 3, 4, 5, 6, 7, 8, 9]) 13).val.map
    fun (a, c) => (a.toNat, c)) =
    some (0x010203040506070809 * 2 ^ 13 % 2 ^ 72, 0x010203040506070809 * 2 ^ 13 / 2 ^ 72) := by decide +kernel
example : letI := cfg32; ((ct_lshift_mp' ⟨cfg32⟩ (Buf.le [1, 2, 3, 4, 5]) (2 ^ 32 - 1)).val.map
    fun (a, c) => (a.toNat, c)) = some (0, 0) := by decide +kernel
example : letI := cfg32; ((ct_rshift_mp' ⟨cfg64⟩ (Buf.be [1, 2, 3, 4, 5, 6, 7, 8, 9]) 13).val.map
    fun (a, c) => (a.toNat, c)) = some (0x010203040506070809 / 2 ^ 13, 0x08090000 * 2 ^ 3 % 2 ^ 32) := by decide +kernel
example : letI := cfg64; ((ct_rshift_mp' ⟨cfg64⟩ (Buf.be [1, 2, 3, 4, 5]) (2 ^ 64 - 1)).val.map
    fun (a, c) => (a.toNat, c)) = some (0, 0) := by decide +kernel

/-! ## Powers of two -/

/-- C69: the quotient and the remainder of `2 ^ e`, for all exponents but the last nine. -/
theorem C69_div_pow2_partial (u : UsizeCfg) (e : ℕ) (r : Buf f) (v : Buf g) (dec : Option ℕ) (q : Option (Buf h))
    (he : e + 9 < @B u.cfg) (hdec : ∀ x ∈ dec, x < B) (hv : dec.getD 0 < v.toNat)
    (hr : min (byteLen (v.toNat - dec.getD 0)) (pow2Len e) ≤ r.len)
    (hq : QuotientFits q (pow2Len e) (v.toNat - dec.getD 0) (2 ^ e / (v.toNat - dec.getD 0))) :
    Sat (divideBy v dec fun d => ct_div_pow2_mp' u e r d q) (fun s => ∃ r' q', s = .ok (r', q') ∧
      r'.len = r.len ∧ r'.toNat = 2 ^ e % (v.toNat - dec.getD 0) ∧
      q'.map Buf.len = q.map Buf.len ∧
      ∀ b ∈ q', b.toNat = 2 ^ e / (v.toNat - dec.getD 0)) := by
  simp only [ct_div_pow2_mp'_eq u e r _ q he]
  exact C23_div_pow2 e r v dec q hdec hv hr hq

/-- C69: the remainder of `2 ^ e`, for all exponents but the last nine. -/
theorem C69_mod_pow2_partial (u : UsizeCfg) (e : ℕ) (r : Buf f) (v : Buf g) (dec : Option ℕ)
    (he : e + 9 < @B u.cfg) (hdec : ∀ x ∈ dec, x < B) (hv : dec.getD 0 < v.toNat)
    (hr : min (byteLen (v.toNat - dec.getD 0)) (pow2Len e) ≤ r.len) :
    Sat (divideBy v dec fun d => ct_mod_pow2_mp' u e r d) (fun s => ∃ r', s = .ok r' ∧
      r'.len = r.len ∧ r'.toNat = 2 ^ e % (v.toNat - dec.getD 0)) := by
  simp only [ct_mod_pow2_mp'_eq u e r _ he]
  exact C23_mod_pow2 e r v dec hdec hv hr

/-- C69 doesn't hold for the last nine exponents: a debug build panics for each of them, whatever the divisor. -/
theorem C69_div_pow2_panics_fails (u : UsizeCfg) (e : ℕ) (r : Buf f) (v : Buf g) (dec : Option ℕ) (q : Option (Buf h))
    (he : @B u.cfg ≤ e + 9) (hdec : ∀ x ∈ dec, x < B) (hv : dec.getD 0 < v.toNat) :
    (divideBy v dec fun d => ct_div_pow2_mp' u e r d q).val = none ∧
    (divideBy v dec fun d => ct_mod_pow2_mp' u e r d).val = none :=
  ⟨divideBy_panic' ⟨hdec, fun _ _ => by omega⟩ hv fun d _ => ct_div_pow2_mp'_panic u e r d q (Nat.not_lt.2 he),
    divideBy_panic' ⟨hdec, fun _ _ => by omega⟩ hv fun d _ => ct_mod_pow2_mp'_panic u e r d (Nat.not_lt.2 he)⟩

example : letI := cfg32; ((divideBy (Buf.ofNat .le 6 (2 ^ 40 + 12345)) none fun d =>
    ct_div_pow2_mp' ⟨cfg32⟩ 100 (Buf.ofNat .be 6 99) d (some (Buf.ofNat .ne 8 7))).val.bind
      DivResult.nums2) = some (2 ^ 100 % (2 ^ 40 + 12345), 2 ^ 100 / (2 ^ 40 + 12345)) := by decide +kernel

/-! ## Shifted dividends -/

/-- C69: the quotient and the remainder of `u * 256 ^ s`, for all lengths `s` for which the length of the dividend is
a number there is, except for at most the last nine of them. -/
theorem C69_div_lshifted_partial (us : UsizeCfg) (u : Buf f) (n s : ℕ) (v : Buf g) (dec : Option ℕ) (q : Option (Buf h))
    (hs : n + s + 1 < @B us.cfg) (hs' : n + s + 1 - byteLen (v.toNat - dec.getD 0) + LB < @B us.cfg) (hb : 8 * u.len + W < @B us.cfg)
    (hdec : ∀ x ∈ dec, x < B) (hv : dec.getD 0 < v.toNat)
    (hn : n ≤ u.len) (hu : u.toNat < 256 ^ n)
    (hr : byteLen (v.toNat - dec.getD 0) ≤ u.len)
    (hq : QuotientFits q (n + s) (v.toNat - dec.getD 0) (u.toNat * 256 ^ s / (v.toNat - dec.getD 0))) :
    Sat (divideBy v dec fun d => ct_div_lshifted_mp_mp' us u n s d q)
      (fun r => ∃ u' q', r = .ok (u', q') ∧
      u'.len = u.len ∧ u'.toNat = u.toNat * 256 ^ s % (v.toNat - dec.getD 0) ∧
      q'.map Buf.len = q.map Buf.len ∧
      ∀ b ∈ q', b.toNat = u.toNat * 256 ^ s / (v.toNat - dec.getD 0)) := by
  refine (DivPost.ok_of (divideBy_sat (E := fun er => DivErr2 q (u.toNat * 256 ^ s / (v.toNat - dec.getD 0))
        (n + s - byteLen (v.toNat - dec.getD 0)) u.len (min (byteLen (v.toNat - dec.getD 0)) (n + s)) er)
      (P := fun r => r.1.len = u.len ∧ r.1.toNat = u.toNat * 256 ^ s % (v.toNat - dec.getD 0) ∧
        r.2.map Buf.len = q.map Buf.len ∧
        ∀ b ∈ r.2, b.toNat = u.toNat * 256 ^ s / (v.toNat - dec.getD 0))
      ⟨hdec, fun _ _ => by omega⟩ fun _ d hd => ?_) (by omega) ?_).mono ?_
  · rw [ct_div_lshifted_mp_mp'_eq us u n s d q hn ⟨hs, by rw [v_len_eq hd]; exact hs'⟩ hb (Or.inl (by rw [v_len_eq hd]; exact hr))]
    have := ct_div_lshifted_mp_mp_sat hd u q hn hu rfl
      (by rw [v_len_eq hd]; exact fun b hb => Or.inl (hq b hb).2)
    rw [v_len_eq hd] at this
    exact this
  · rintro er ⟨-, h1 | h1⟩
    · exact hq.no_err er h1
    · omega
  · rintro _ ⟨⟨a, b⟩, rfl, -, h1⟩
    exact ⟨a, b, rfl, h1⟩

/-- C69: the remainder of `u * 256 ^ s`. -/
theorem C69_mod_lshifted_partial (us : UsizeCfg) (u : Buf f) (n s : ℕ) (v : Buf g) (dec : Option ℕ)
    (hs : n + s + 1 < @B us.cfg) (hs' : n + s + 1 - byteLen (v.toNat - dec.getD 0) + LB < @B us.cfg)
    (hb : 8 * u.len + W < @B us.cfg)
    (hdec : ∀ x ∈ dec, x < B) (hv : dec.getD 0 < v.toNat)
    (hn : n ≤ u.len) (hu : u.toNat < 256 ^ n)
    (hr : byteLen (v.toNat - dec.getD 0) ≤ u.len) :
    Sat (divideBy v dec fun d => ct_mod_lshifted_mp_mp' us u n s d) (fun r => ∃ u', r = .ok u' ∧
      u'.len = u.len ∧ u'.toNat = u.toNat * 256 ^ s % (v.toNat - dec.getD 0)) := by
  refine (DivPost.ok_of (divideBy_sat (E := fun er => er = .InsufficientRemainderSpace ∧
    u.len < min (byteLen (v.toNat - dec.getD 0)) (n + s)) ⟨hdec, fun _ _ => by omega⟩
    fun _ d hd => by
      rw [ct_mod_lshifted_mp_mp'_eq us u n s d hn ⟨hs, by rw [v_len_eq hd]; exact hs'⟩ hb (Or.inl (by rw [v_len_eq hd]; exact hr))]
      have := ct_mod_lshifted_mp_mp_sat hd u (shl := s) hn hu
      rw [v_len_eq hd] at this
      exact this) (by omega) fun er h1 => by omega).mono ?_
  rintro _ ⟨a, rfl, -, h1⟩
  exact ⟨a, rfl, h1⟩

/-- C69: where nothing overflows, errors, events and release builds are as in the model with unbounded `usize`, too. -/
theorem C69_same_partial (us : UsizeCfg) (u : Buf f) (n s e : ℕ) (v : CtMpDivisor g) (q : Option (Buf h))
    (he : e + 9 < @B us.cfg) (hn : n ≤ u.len) (hs : n + s + 1 < @B us.cfg) (hs' : n + s + 1 - v.v_len + LB < @B us.cfg)
    (hb : 8 * u.len + W < @B us.cfg)
    (hr : v.v_len ≤ u.len ∨ ¬ n + s < v.v_len) :
    ct_div_pow2_mp' us e u v q = ct_div_pow2_mp e u v q ∧ ct_mod_pow2_mp' us e u v = ct_mod_pow2_mp e u v ∧
    ct_div_lshifted_mp_mp' us u n s v q = ct_div_lshifted_mp_mp u n s v q ∧
    ct_mod_lshifted_mp_mp' us u n s v = ct_mod_lshifted_mp_mp u n s v :=
  ⟨ct_div_pow2_mp'_eq us e u v q he, ct_mod_pow2_mp'_eq us e u v he, 
    ct_div_lshifted_mp_mp'_eq us u n s v q hn ⟨hs, hs'⟩ hb hr, ct_mod_lshifted_mp_mp'_eq us u n s v hn ⟨hs, hs'⟩ hb hr⟩

/-- C69 doesn't hold for longer shifts: a debug build panics for all of them. -/
theorem C69_div_lshifted_panics_fails (us : UsizeCfg) (u : Buf f) (n s : ℕ) (v : Buf g) (dec : Option ℕ)
    (q : Option (Buf h)) (hs : @B us.cfg ≤ n + s) (hdec : ∀ x ∈ dec, x < B) (hv : dec.getD 0 < v.toNat) :
    (divideBy v dec fun d => ct_div_lshifted_mp_mp' us u n s d q).val = none :=
  divideBy_panic' ⟨hdec, fun _ _ => by omega⟩ hv fun d _ => ct_div_lshifted_mp_mp'_panic us u n s d q (Nat.not_lt.2 hs)

/-- C69 doesn't hold for the last lengths either: a debug build panics for all those `C69_div_lshifted_partial` excludes,
although there is the space for the remainder and the quotient. -/
theorem C69_div_lshifted_last_panics_fails (us : UsizeCfg) (u : Buf f) (n s : ℕ) (v : Buf g) (dec : Option ℕ)
    (q : Option (Buf h))
    (hs : ¬ (n + s + 1 < @B us.cfg ∧ n + s + 1 - byteLen (v.toNat - dec.getD 0) + LB < @B us.cfg))
    (hdec : ∀ x ∈ dec, x < B) (hv : dec.getD 0 < v.toNat)
    (hr : byteLen (v.toNat - dec.getD 0) ≤ u.len) (hl : byteLen (v.toNat - dec.getD 0) ≤ n + s)
    (hq : ∀ b ∈ q, n + s ≤ b.len + byteLen (v.toNat - dec.getD 0)) :
    (divideBy v dec fun d => ct_div_lshifted_mp_mp' us u n s d q).val = none :=
  divideBy_panic' ⟨hdec, fun _ _ => by omega⟩ hv fun d hd => ct_div_lshifted_mp_mp'_panic2 us u n s d q
    (by rw [v_len_eq hd]; exact hs) (by rw [v_len_eq hd]; exact hr) (by rw [v_len_eq hd]; exact hl)
    (by rw [v_len_eq hd]; exact hq)

/-- Two to the power of 2 ^ 35 - 40 can't be divided by three on a 32 bit system, although its length is a number there is. -/
example : letI := cfg32; (divideBy (Buf.ofNat .be 1 3) none fun d =>
    ct_div_lshifted_mp_mp' ⟨cfg32⟩ (Buf.ofNat .be 1 1) 1 (2 ^ 32 - 5) d (none : Option (Buf .ne))).val = none :=
  @C69_div_lshifted_last_panics_fails cfg32 _ _ _ ⟨cfg32⟩ _ _ _ _ none none (by decide +kernel) (by simp)
    (by decide +kernel) (by decide +kernel) (by decide +kernel) (by simp)

omit [LimbCfg] in
/-- C69 doesn't hold in a release build either: the remainder of `256 ^ (2 ^ 64 - 1)` by three is one, and the function
returns without an error and with zero.  The length of the dividend has wrapped around to zero, and so the dividend is
taken for one which is shorter than the divisor. -/
theorem C69_div_lshifted_release_fails (s : ℕ) (hs : s = 2 ^ 64 - 1) : letI := cfg64;
    1 * 256 ^ s % 3 = 1 ∧
    ((divideBy (Buf.ofNat .be 1 3) none fun d => ct_mod_lshifted_mp_mp' ⟨cfg64⟩ (Buf.ofNat .be 1 1) 1 s d).rel.map
      fun r => match r with | .ok r => some r.toNat | _ => none) = some (some 0) := by
  refine ⟨?_, by subst hs; decide +kernel⟩
  rw [Nat.one_mul, Nat.pow_mod, show 256 % 3 = 1 by norm_num, Nat.one_pow]

example : letI := cfg32; ((divideBy (Buf.ofNat .le 6 (2 ^ 40 + 12345)) none fun d =>
    ct_div_lshifted_mp_mp' ⟨cfg32⟩ (Buf.ofNat .be 6 (2 ^ 40 - 99)) 5 4 d
      (some (Buf.ofNat .ne 4 7))).val.bind DivResult.nums2) =
    some ((2 ^ 40 - 99) * 256 ^ 4 % (2 ^ 40 + 12345), (2 ^ 40 - 99) * 256 ^ 4 / (2 ^ 40 + 12345)) := by decide +kernel

/-! ## Numbers of limbs -/

/-- C69: the number of limbs for a number of bytes is the least one whose limbs have the space. -/
theorem C69_nlimbs_partial (u : UsizeCfg) (len : ℕ) (hl : len + LB < @B u.cfg) :
    Sat (nlimbs_for_len' u len) (fun n => len ≤ n * LB ∧ ∀ m, len ≤ m * LB → n ≤ m) := by
  rw [nlimbs_for_len'_eq u hl]
  have h2 := Nat.div_add_mod (len + LB - 1) LB
  have h4 := Nat.mod_lt (len + LB - 1) LB_pos
  rw [Nat.mul_comm] at h2
  refine Sat.pure ⟨?_, fun m hm => ?_⟩
  · unfold ct_mp_nlimbs
    omega
  · unfold ct_mp_nlimbs
    rw [← Nat.lt_succ_iff, Nat.div_lt_iff_lt_mul LB_pos, Nat.succ_mul]
    have := LB_pos
    omega

/-- C69 doesn't hold for the last lengths: a debug build panics, and a release build returns that no limbs are needed. -/
theorem C69_nlimbs_fails (u : UsizeCfg) (len : ℕ) (h0 : len < @B u.cfg) (h : @B u.cfg < len + LB) :
    (nlimbs_for_len' u len).val = none ∧ (nlimbs_for_len' u len).rel = some 0 := by
  refine ⟨bind_panic (ct_mp_nlimbs'_panic u (by omega)), ?_⟩
  obtain ⟨a, ha, rfl⟩ := nlimbs_for_len'_rel u h0 h
  exact ha

example : letI := cfg64; (nlimbs_for_len' ⟨cfg32⟩ 17).val = some 3 := by decide +kernel
example : letI := cfg64; (nlimbs_for_len' ⟨cfg32⟩ (2 ^ 32 - 1)).rel = some 0 := by decide +kernel

end Props
end Cmpa
