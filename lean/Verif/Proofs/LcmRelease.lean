import Verif.Proofs.Lcm

/-!
# The least common multiple in release builds

The assertion on the lengths of the operands is not there.
-/

namespace Cmpa
open M
variable [LimbCfg] {φ ψ χ : Fmt}

/-- In release builds the space taken is rounded up to whole limbs. -/
theorem Buf.take_rel (b : Buf χ) {n : ℕ} (hn : ¬ b.backing_len < Buf.n_backing_elements_for_len χ n) :
    RSat (b.take n) (fun s => s.2.len = Buf._limbs_align_len χ n) := by
  have hle := le_of_backing hn
  by_cases h : χ.unaligned = true ∨ LB ∣ n
  · refine (((Buf.take_exact b hle).sat h).rel).mono fun s hs => hs.trans ?_
    unfold Buf._limbs_align_len ct_mp_limbs_align_len
    split
    · rfl
    · rename_i hu
      obtain ⟨k, rfl⟩ := h.resolve_left hu
      rw [Nat.mul_comm, nlimbs_mul]
  · obtain ⟨h1, -⟩ := not_or.1 h
    rcases b with l | l | l
    · exact absurd rfl h1
    · exact absurd rfl h1
    · have hlen : Buf.n_backing_elements_for_len .ne n ≤ l.length := by
        have : (Buf.ne l).backing_len = l.length := by
          unfold Buf.backing_len
          rw [show (Buf.ne l).len = l.length * LB from rfl, show Fmt.ne.usz = LB from rfl,
            Nat.mul_div_cancel _ LB_pos]
        omega
      unfold Buf.take
      refine RSat.bind (P := fun _ => True) ⟨(), rfl, trivial⟩ fun _ _ => ?_
      refine RSat.bind (P := fun _ => True) (RSat.assert trivial) fun _ _ => ?_
      unfold Buf.split_at
      rw [M.check_eq hlen, M.pure_bind, M.pure_bind]
      refine RSat.pure ?_
      show (List.take _ l).length * LB = _
      rw [List.length_take, min_eq_left hlen]
      unfold Buf.n_backing_elements_for_len Buf._limbs_align_len ct_mp_limbs_align_len
      dsimp only
      rw [show Fmt.ne.usz = LB from rfl, if_neg (by simp [Fmt.unaligned]), Nat.mul_mod_left,
        if_neg (by simp), Nat.mul_div_cancel _ LB_pos, Nat.add_zero]

/-- What the function needs in a release build for a right result. -/
def LcmReleaseOk (op0 : Buf ψ) (n0 : ℕ) (op1 : Buf χ) (n1 result_len : ℕ) : Prop :=
  n1 ≤ op0.len ∧ Buf._limbs_align_len χ (n0 + n1) +
    min (Buf._limbs_align_len χ (max n0 n1)) op1.len ≤ result_len + max n0 n1

theorem ct_lcm_mp_mp_rel (result : Buf φ) (op0 : Buf ψ) (m0 : ℕ) (op1 : Buf χ) (m1 : ℕ)
    (scratch : Buf χ) {n0 n1 : ℕ} (hn0 : n0 = min m0 op0.len) (hn1 : n1 = min m1 op1.len)
    (h0 : op0.toNat < 256 ^ n0) (h1 : op1.toNat < 256 ^ n1)
    (hok : lcmErr result op0 n0 op1 n1 scratch = none → n0 ≠ 0 → n1 ≠ 0 →
      LcmReleaseOk op0 n0 op1 n1 result.len) :
    RSat (ct_lcm_mp_mp result op0 m0 op1 m1 scratch)
      (Outcome (lcmErr result op0 n0 op1 n1 scratch) (fun r => r.len = result.len ∧
        r.toNat = Nat.lcm op0.toNat op1.toNat)) := by
  unfold ct_lcm_mp_mp
  dsimp only
  rw [← hn0, ← hn1]
  refine RSat.cond (fun hz => ?_) fun hz => ?_
  · refine RSat.bind (Buf.sat_clear_bytes_above result 0 (fun b' e1 e2 => And.intro e1 e2)).rel ?_
    rintro r ⟨e1, e2⟩
    refine RSat.pure ⟨by unfold lcmErr; rw [if_pos hz], e1, ?_⟩
    rw [e2, pow_zero, Nat.mod_one]
    rcases hz with hz | hz
    · rw [hz, pow_zero, Nat.lt_one_iff] at h0
      rw [h0, Nat.lcm_zero_left]
    · rw [hz, pow_zero, Nat.lt_one_iff] at h1
      rw [h1, Nat.lcm_zero_right]
  obtain ⟨hz0, hz1⟩ := not_or.1 hz
  unfold lcmErr at hok ⊢
  rw [if_neg hz] at hok ⊢
  refine RSat.bind (len_is_compatible_with_sat op0 op1.len).rel ?_
  rintro c0 hc0
  refine RSat.bind (P := fun c1 => c1 = decide (LenCompat op0 op1.len ∧ LenCompat op1 op0.len)) ?_ ?_
  · refine RSat.cond (fun h => ?_) fun h => RSat.pure ?_
    · have : LenCompat op0 op1.len := by simpa [hc0] using h
      refine (len_is_compatible_with_sat op1 op0.len).rel.mono ?_
      rintro c hc
      simp [hc, this]
    · have : ¬ LenCompat op0 op1.len := by simpa [hc0] using h
      simp [this]
  rintro c1 hc1
  refine RSat.cond (fun h => ?_) fun h => ?_
  · have h' : ¬ (LenCompat op0 op1.len ∧ LenCompat op1 op0.len) := by simpa [hc1] using h
    refine RSat.pure ?_
    rw [if_pos (by by_contra hc; push Not at hc; exact h' hc)]
    rfl
  have hcc : LenCompat op0 op1.len ∧ LenCompat op1 op0.len := by simpa [hc1] using h
  rw [if_neg (not_or.2 ⟨not_not.2 hcc.1, not_not.2 hcc.2⟩)] at hok ⊢
  refine RSat.bind (P := fun _ => True) (RSat.assert trivial) fun _ _ => ?_
  refine RSat.cond (fun h => ?_) fun hres => ?_
  · rw [if_pos h]
    exact RSat.pure rfl
  rw [if_neg hres] at hok ⊢
  refine RSat.cond (fun h => ?_) fun hscr => ?_
  · rw [if_pos h]
    exact RSat.pure rfl
  rw [if_neg hscr] at hok ⊢
  obtain ⟨hg0, hroom⟩ := hok rfl hz0 hz1
  refine RSat.bind (Buf.take_rel scratch hscr) ?_
  rintro ⟨ph, p0⟩ hp0
  dsimp only at hp0 ⊢
  have hal : ∀ n, n ≤ Buf._limbs_align_len χ n := fun n => by
    unfold Buf._limbs_align_len; split
    · exact le_refl _
    · exact le_nlimbs_mul _
  have ha1 := hal (n0 + n1)
  have ha2 := hal (max n0 n1)
  have hN : ct_mp_nlimbs (max n0 n1) ≤ op1.nlimbs := by
    rw [op1.nlimbs_eq]
    refine (nlimbs_mono (show max n0 n1 ≤ max op0.len op1.len by omega)).trans ?_
    rcases Nat.le_total op0.len op1.len with h | h
    · rw [max_eq_right h]
    · rw [max_eq_left h, ← op0.nlimbs_eq]; exact hcc.1.nlimbs
  have hP : op0.toNat * op1.toNat / 256 ^ (p0.len - max n0 n1) < 256 ^ op1.len := by
    rw [Nat.div_lt_iff_lt_mul (by positivity), ← pow_add]
    have e1 := hcc.1.lt
    rcases Nat.le_total n0 op1.len with h | h
    · refine lt_of_lt_of_le (Nat.mul_lt_mul'' h0 h1) ?_
      rw [← pow_add]
      exact Nat.pow_le_pow_right (by norm_num) (by omega)
    · refine lt_of_lt_of_le (Nat.mul_lt_mul'' e1 h1) ?_
      rw [← pow_add]
      exact Nat.pow_le_pow_right (by norm_num) (by omega)
  have hg : max n0 n1 ≤ op1.len ∨ op1.len < max n0 n1 := by omega
  refine ((lcm_prod_exact result op0 op1 p0 h0 h1 hz0 hz1 hcc (by omega) (by omega) hN hP (by omega)
    ?_).sat (by omega)).rel.mono ?_
  · rcases hg with hg | hg
    · rw [min_eq_left (align_le op1 hg)] at hroom
      omega
    · have hu : χ.unaligned = true := by
        by_contra hu
        have h2 := op1.aligned (by simpa using hu)
        have h3 := Nat.mul_le_mul_right LB hN
        have h4 := le_nlimbs_mul (max n0 n1)
        omega
      rw [hp0]
      unfold Buf._limbs_align_len
      rw [if_pos hu]
      omega
  · rintro r ⟨b, rfl, h⟩
    exact ⟨rfl, h⟩

end Cmpa
