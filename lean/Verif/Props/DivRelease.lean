import Verif.Proofs.DivRelease
import Verif.Props.Div

/-!
# Divisions in a release build (C22)

Where a debug build panics because the quotient fits into the limbs of its buffer, but not into its bytes (finding D4),
a release build returns the right remainder, and as many low bytes of the quotient as there is room for.  There is no
condition on the quotient buffer here.
-/

namespace Cmpa
namespace Props
open M
variable [LimbCfg] {f g h : Fmt}

theorem divideBy_rsat {α : Type} {v : Buf g} {dec : Option ℕ} (hv : DivisorArgs v dec)
    {k : CtMpDivisor g → M (Except DivError α)} {E : DivError → Prop} {P : α → Prop}
    (hk : dec.getD 0 < v.toNat → ∀ d : CtMpDivisor g, d.Ok (v.toNat - dec.getD 0) →
      RSat (k d) (OkErr P E)) :
    RSat (divideBy v dec k) (DivPost (v.toNat ≤ dec.getD 0)
      (fun e => dec.getD 0 < v.toNat ∧ E e) (fun a => dec.getD 0 < v.toNat ∧ P a)) := by
  unfold divideBy
  refine RSat.bind (CtMpDivisor.new_sat v dec hv.1 fun h1 h2 => hv.2 h1 fun h3 => ?_).rel ?_
  · rw [(Buf.is_empty_iff v).2 h3] at h2; cases h2
  rintro o ⟨h1, h2⟩
  rcases Nat.lt_or_ge (dec.getD 0) v.toNat with hlt | hge
  · obtain ⟨d, rfl, hd, -⟩ := h2 hlt
    refine RSat.bind (hk hlt d hd) ?_
    rintro (e | a) hr
    · exact RSat.pure ⟨hlt, hr⟩
    · exact RSat.pure ⟨hlt, hr⟩
  · rw [h1 hge]
    exact RSat.pure hge

/-- C22: any division with a divisor that can be made returns in a release build: it refuses a zero divisor, reports
insufficient quotient space, or returns the remainder and the low bytes of the quotient. -/
theorem C22_div_release (u_h : Option (Buf f)) (u_l : Buf f) (v : Buf g) (dec : Option ℕ)
    (q : Option (Buf h)) (hv : DivisorArgs v dec) :
    RSat (divideBy v dec fun d => ct_div_mp_mp u_h u_l d q) (DivPost (v.toNat ≤ dec.getD 0)
      (fun e => QuotientError q (dividendLen u_h u_l) (v.toNat - dec.getD 0)
        (dividend u_h u_l / (v.toNat - dec.getD 0)) e)
      (fun r => dec.getD 0 < v.toNat ∧ r.1.map Buf.len = u_h.map Buf.len ∧ r.2.1.len = u_l.len ∧
        dividend r.1 r.2.1 = dividend u_h u_l % (v.toNat - dec.getD 0) ∧ r.2.2.map Buf.len = q.map Buf.len ∧
        ∀ b ∈ r.2.2, b.toNat = dividend u_h u_l / (v.toNat - dec.getD 0) % 256 ^ b.len)) := by
  refine (divideBy_rsat hv fun _ d hd => by
    have := ct_div_mp_mp_rel hd u_h u_l q (U := dividend u_h u_l) (ulen := dividendLen u_h u_l) rfl rfl
    rw [v_len_eq hd] at this
    exact this).mono ?_
  rintro (_ | e | ⟨a, b, c⟩) hr
  · exact hr
  · exact QuotientError.of hr.2
  · obtain ⟨h0, h1, h2, h3, h4, h5⟩ := hr
    refine ⟨h0, h1, h2, ?_, h4, h5⟩
    unfold dividend at h3 ⊢
    dsimp only at h2 h3 ⊢
    rw [h2]; exact h3

/-- C22: the same for the division of a power of two. -/
theorem C22_div_pow2_release (e : ℕ) (r : Buf f) (v : Buf g) (dec : Option ℕ)
    (q : Option (Buf h)) (hv : DivisorArgs v dec) :
    RSat (divideBy v dec fun d => ct_div_pow2_mp e r d q) (DivPost (v.toNat ≤ dec.getD 0)
      (SpaceError q (pow2Len e) (v.toNat - dec.getD 0) (2 ^ e / (v.toNat - dec.getD 0)) r.len)
      (fun s => dec.getD 0 < v.toNat ∧ s.1.len = r.len ∧ s.1.toNat = 2 ^ e % (v.toNat - dec.getD 0) ∧
        s.2.map Buf.len = q.map Buf.len ∧
        ∀ b ∈ s.2, b.toNat = 2 ^ e / (v.toNat - dec.getD 0) % 256 ^ b.len)) := by
  refine (divideBy_rsat hv fun _ d hd => by
    have := ct_div_pow2_mp_rel hd e r q (pow2Len_eq e)
    rw [v_len_eq hd] at this
    exact this).mono ?_
  rintro (_ | er | a) hr
  · exact hr
  · rcases hr.2 with h1 | h1
    · exact Or.inl (QuotientError.of h1)
    · exact Or.inr h1
  · exact hr

/-- C22: the same for the division of a shifted value. -/
theorem C22_div_lshifted_release (u : Buf f) (n s : ℕ) (v : Buf g) (dec : Option ℕ)
    (q : Option (Buf h)) (hn : n ≤ u.len) (hu : u.toNat < 256 ^ n) (hv : DivisorArgs v dec) :
    RSat (divideBy v dec fun d => ct_div_lshifted_mp_mp u n s d q) (DivPost (v.toNat ≤ dec.getD 0)
      (SpaceError q (n + s) (v.toNat - dec.getD 0) (u.toNat * 256 ^ s / (v.toNat - dec.getD 0)) u.len)
      (fun r => dec.getD 0 < v.toNat ∧ r.1.len = u.len ∧
        r.1.toNat = u.toNat * 256 ^ s % (v.toNat - dec.getD 0) ∧ r.2.map Buf.len = q.map Buf.len ∧
        ∀ b ∈ r.2, b.toNat = u.toNat * 256 ^ s / (v.toNat - dec.getD 0) % 256 ^ b.len)) := by
  refine (divideBy_rsat hv fun _ d hd => by
    have := ct_div_lshifted_mp_mp_rel hd u q hn hu (shl := s) rfl
    rw [v_len_eq hd] at this
    exact this).mono ?_
  rintro (_ | er | a) hr
  · exact hr
  · rcases hr.2 with h1 | h1
    · exact Or.inl (QuotientError.of h1)
    · exact Or.inr h1
  · exact hr

-- A quotient of 13 bytes, and a buffer of 12, which a debug build panics for.
example : letI := cfg64;
    let run := divideBy (Buf.ofNat .le 4 (2 ^ 24 + 1)) none fun d =>
      ct_div_mp_mp none (Buf.ofNat .be 16 (2 ^ 125 + 12345)) d (some (Buf.ofNat .le 12 77))
    (run.val.isNone, run.rel.bind DivResult.nums) =
      (true, some ((2 ^ 125 + 12345) % (2 ^ 24 + 1), (2 ^ 125 + 12345) / (2 ^ 24 + 1) % 2 ^ 96)) := by
  decide +kernel
example : letI := cfg32;
    let run := divideBy (Buf.ofNat .le 4 (2 ^ 24 + 1)) none fun d =>
      ct_div_pow2_mp 127 (Buf.ofNat .be 16 99) d (some (Buf.ofNat .be 13 77))
    (run.val.isNone, run.rel.bind DivResult.nums2) = (false, some (2 ^ 127 % (2 ^ 24 + 1), 2 ^ 127 / (2 ^ 24 + 1))) := by
  decide +kernel
example : letI := cfg64;
    let run := divideBy (Buf.ofNat .le 4 (2 ^ 24 + 1)) none fun d =>
      ct_div_lshifted_mp_mp (Buf.ofNat .be 10 (2 ^ 63 + 5)) 8 8 d (some (Buf.ofNat .be 12 77))
    (run.val.isNone, run.rel.bind DivResult.nums2) =
      (true, some ((2 ^ 63 + 5) * 2 ^ 64 % (2 ^ 24 + 1), (2 ^ 63 + 5) * 2 ^ 64 / (2 ^ 24 + 1) % 2 ^ 96)) := by
  decide +kernel

end Props
end Cmpa
