import Verif.Proofs.Digits

/-!
# The quotient estimate of long division

Knuth, The Art of Computer Programming, volume 2, algorithm D.
-/

set_option linter.unusedSectionVars false

namespace Cmpa
variable [LimbCfg]

/-- `v1`, `v2` are the two most significant limbs of the divisor `(v1 B + v2) P + vl`, and
`u0`, `u1`, `u2` the three most significant ones of the dividend `((u0 B + u1) B + u2) P + ul`,
`Q` the quotient and `q0` the estimate from the most significant limbs. -/
structure Knuth (v1 v2 u0 u1 u2 P vl ul Q q0 r0 : ℕ) : Prop where
  v2_lt : v2 < B
  norm : B ≤ 2 * v1
  u1_lt : u1 < B
  u2_lt : u2 < B
  vl_lt : vl < P
  ul_lt : ul < P
  Q_le : Q * ((v1 * B + v2) * P + vl) ≤ ((u0 * B + u1) * B + u2) * P + ul
  lt_Q : ((u0 * B + u1) * B + u2) * P + ul < (Q + 1) * ((v1 * B + v2) * P + vl)
  Q_lt : Q < B
  q0_lt : q0 < B
  q0_eq : q0 * v1 + r0 = u0 * B + u1
  q0_ge : Q ≤ q0

namespace Knuth
variable {v1 v2 u0 u1 u2 P vl ul Q q0 r0 : ℕ}

theorem lt_of_mul_le_mul {a b P x y : ℕ} (hP : 0 < P) (h : a * P + x ≤ b * P + y) (hy : y < P) :
    a ≤ b := by
  by_contra hc
  have : (b + 1) * P ≤ a * P := Nat.mul_le_mul_right P (by omega)
  rw [Nat.add_mul] at this
  omega

theorem over (h : Knuth v1 v2 u0 u1 u2 P vl ul Q q0 r0) (ht : r0 * B + u2 < q0 * v2) : Q < q0 := by
  have hP : 0 < P := by have := h.vl_lt; omega
  by_contra hc
  have hq : Q = q0 := le_antisymm h.q0_ge (not_lt.1 hc)
  have h1 := h.Q_le
  rw [hq, Nat.mul_add, ← Nat.mul_assoc] at h1
  have h2 := lt_of_mul_le_mul hP h1 h.ul_lt
  have h3 : (u0 * B + u1) * B + u2 = q0 * v1 * B + r0 * B + u2 := by rw [← h.q0_eq]; ring
  have h4 : q0 * (v1 * B + v2) = q0 * v1 * B + q0 * v2 := by ring
  omega

theorem le_two (h : Knuth v1 v2 u0 u1 u2 P vl ul Q q0 r0) : q0 ≤ Q + 2 := by
  have hP : 0 < P := by have := h.vl_lt; omega
  by_contra hc
  -- `q0 v1 B P ≤ U < (Q + 1) V ≤ (Q + 1) (v1 + 1) B P`
  have h1 : q0 * v1 * (B * P) ≤ ((u0 * B + u1) * B + u2) * P + ul := by
    have : q0 * v1 * (B * P) ≤ (u0 * B + u1) * (B * P) :=
      Nat.mul_le_mul_right _ (by have := h.q0_eq; omega)
    have e : ((u0 * B + u1) * B + u2) * P + ul = (u0 * B + u1) * (B * P) + (u2 * P + ul) := by ring
    omega
  have h2 : (v1 * B + v2) * P + vl ≤ (v1 + 1) * (B * P) := by
    have h3 : (v2 + 1) * P ≤ B * P := Nat.mul_le_mul_right _ h.v2_lt
    have h4 := h.vl_lt
    have e : (v1 * B + v2) * P + vl = v1 * (B * P) + (v2 * P + vl) := by ring
    rw [e]
    have e2 : (v1 + 1) * (B * P) = v1 * (B * P) + B * P := by ring
    rw [e2]
    rw [Nat.add_mul] at h3
    omega
  have h3 : q0 * v1 * (B * P) < (Q + 1) * (v1 + 1) * (B * P) := by
    refine lt_of_le_of_lt h1 (lt_of_lt_of_le h.lt_Q ?_)
    rw [Nat.mul_assoc]
    exact Nat.mul_le_mul_left _ h2
  have h4 : q0 * v1 < (Q + 1) * (v1 + 1) := lt_of_mul_lt_mul_right h3 (Nat.zero_le _)
  have h5 : (Q + 3) * v1 ≤ q0 * v1 := Nat.mul_le_mul_right _ (by omega)
  have e1 : (Q + 3) * v1 = Q * v1 + 3 * v1 := by ring
  have e2 : (Q + 1) * (v1 + 1) = Q * v1 + v1 + Q + 1 := by ring
  have := h.norm
  have := h.Q_lt
  omega

theorem le_one (h : Knuth v1 v2 u0 u1 u2 P vl ul Q q0 r0) (ht : q0 * v2 ≤ r0 * B + u2) :
    q0 ≤ Q + 1 := by
  have hP : 0 < P := by have := h.vl_lt; omega
  by_contra hc
  have h3 : (u0 * B + u1) * B + u2 = q0 * v1 * B + r0 * B + u2 := by rw [← h.q0_eq]; ring
  have h4 : q0 * (v1 * B + v2) = q0 * v1 * B + q0 * v2 := by ring
  have h5 : q0 * (v1 * B + v2) ≤ (u0 * B + u1) * B + u2 := by omega
  have h6 : (v1 * B + v2) * P + vl ≤ (v1 * B + v2 + 1) * P := by
    have := h.vl_lt
    have e : (v1 * B + v2 + 1) * P = (v1 * B + v2) * P + P := by ring
    omega
  have h7 : q0 * (v1 * B + v2) * P < (Q + 1) * (v1 * B + v2 + 1) * P := by
    refine lt_of_le_of_lt (le_trans (Nat.mul_le_mul_right P h5) (Nat.le_add_right _ _))
      (lt_of_lt_of_le h.lt_Q ?_)
    rw [Nat.mul_assoc (Q + 1)]
    exact Nat.mul_le_mul_left _ h6
  have h8 : q0 * (v1 * B + v2) < (Q + 1) * (v1 * B + v2 + 1) :=
    lt_of_mul_lt_mul_right h7 (Nat.zero_le _)
  have h9 : (Q + 2) * (v1 * B + v2) ≤ q0 * (v1 * B + v2) := Nat.mul_le_mul_right _ (by omega)
  have e1 : (Q + 2) * (v1 * B + v2) = Q * (v1 * B + v2) + 2 * (v1 * B + v2) := by ring
  have e2 : (Q + 1) * (v1 * B + v2 + 1) = Q * (v1 * B + v2) + (v1 * B + v2) + Q + 1 := by ring
  have h10 : 1 * B ≤ v1 * B := Nat.mul_le_mul_right _ (by
    have := h.norm; have := B_pos; omega)
  have := h.Q_lt
  omega

end Knuth

/-- Division of the most significant limbs yields an upper bound. -/
theorem knuth_ge {v1 v2 u0 u1 u2 P vl ul Q q0 r0 : ℕ} (h2 : u2 < B)
    (hul : ul < P) (hQ : Q * ((v1 * B + v2) * P + vl) ≤ ((u0 * B + u1) * B + u2) * P + ul)
    (hq : q0 * v1 + r0 = u0 * B + u1) (hr : r0 < v1) : Q ≤ q0 := by
  by_contra hc
  have hP : 0 < P := by omega
  have h3 : (q0 + 1) * v1 ≤ Q * v1 := Nat.mul_le_mul_right _ (by omega)
  have h4 : (u0 * B + u1 + 1) ≤ Q * v1 := by rw [Nat.add_mul] at h3; omega
  have h5 : (u0 * B + u1 + 1) * (B * P) ≤ Q * v1 * (B * P) := Nat.mul_le_mul_right _ h4
  have e1 : Q * ((v1 * B + v2) * P + vl) = Q * v1 * (B * P) + Q * (v2 * P + vl) := by ring
  have e2 : ((u0 * B + u1) * B + u2) * P + ul = (u0 * B + u1) * (B * P) + (u2 * P + ul) := by ring
  have h6 : (u2 + 1) * P ≤ B * P := Nat.mul_le_mul_right _ h2
  rw [Nat.add_mul] at h5 h6
  omega

/-- The quotient is less than `B` only if `u0 ≤ v1`. -/
theorem knuth_u0 {v1 v2 u0 u1 u2 P vl ul : ℕ} (hv2 : v2 < B) (hvl : vl < P)
    (h : ((u0 * B + u1) * B + u2) * P + ul < ((v1 * B + v2) * P + vl) * B) : u0 ≤ v1 := by
  by_contra hc
  have h1 : (v1 + 1) * (B * B * P) ≤ u0 * (B * B * P) := Nat.mul_le_mul_right _ (by omega)
  have h3 : (v2 + 1) * P ≤ B * P := Nat.mul_le_mul_right _ hv2
  have h4 : (v1 * B + v2) * P + vl ≤ (v1 + 1) * (B * P) := by
    have e : (v1 * B + v2) * P + vl = v1 * (B * P) + (v2 * P + vl) := by ring
    have e2 : (v1 + 1) * (B * P) = v1 * (B * P) + B * P := by ring
    rw [e, e2]
    rw [Nat.add_mul] at h3
    omega
  have h5 := Nat.mul_le_mul_right B h4
  have e1 : (v1 + 1) * (B * P) * B = (v1 + 1) * (B * B * P) := by ring
  have e2 : ((u0 * B + u1) * B + u2) * P + ul
      = u0 * (B * B * P) + ((u1 * B + u2) * P + ul) := by ring
  omega

/-- The estimate after at most one correction. -/
theorem knuth {v1 v2 u0 u1 u2 P vl ul : ℕ} (hv1 : v1 < B) (hv2 : v2 < B) (norm : B ≤ 2 * v1)
    (hu1 : u1 < B) (hu2 : u2 < B) (hvl : vl < P) (hul : ul < P)
    (h : ((u0 * B + u1) * B + u2) * P + ul < ((v1 * B + v2) * P + vl) * B) {q0 r0 : ℕ}
    (hq : (u0 < v1 ∧ q0 = (u0 * B + u1) / v1 ∧ r0 = (u0 * B + u1) % v1) ∨
      (u0 = v1 ∧ q0 = B - 1 ∧ r0 = u1 + v1))
    {q : ℕ} (hqe : q = if r0 < B ∧ r0 * B + u2 < q0 * v2 then q0 - 1 else q0) :
    q0 < B ∧ (r0 < B ∧ r0 * B + u2 < q0 * v2 → 0 < q0) ∧
    (((u0 * B + u1) * B + u2) * P + ul) / ((v1 * B + v2) * P + vl) ≤ q ∧
      q ≤ (((u0 * B + u1) * B + u2) * P + ul) / ((v1 * B + v2) * P + vl) + 1 := by
  have hB := B_pos
  have hP : 0 < P := by omega
  have hv1p : 0 < v1 := by omega
  have hVp : 0 < (v1 * B + v2) * P + vl := by positivity
  generalize hQe : (((u0 * B + u1) * B + u2) * P + ul) / ((v1 * B + v2) * P + vl) = Q
  have hQl : Q * ((v1 * B + v2) * P + vl) ≤ ((u0 * B + u1) * B + u2) * P + ul := by
    rw [← hQe]; exact Nat.div_mul_le_self _ _
  have hQu : ((u0 * B + u1) * B + u2) * P + ul < (Q + 1) * ((v1 * B + v2) * P + vl) := by
    rw [Nat.mul_comm (Q + 1), ← hQe]
    exact Nat.lt_mul_div_succ (((u0 * B + u1) * B + u2) * P + ul) hVp
  have hQB : Q < B := by
    rw [← hQe]; exact Nat.div_lt_of_lt_mul h
  have key : Knuth v1 v2 u0 u1 u2 P vl ul Q q0 r0 := by
    rcases hq with ⟨h0, rfl, rfl⟩ | ⟨h0, rfl, rfl⟩
    · have e : (u0 * B + u1) / v1 * v1 + (u0 * B + u1) % v1 = u0 * B + u1 := Nat.div_add_mod' _ _
      refine ⟨hv2, norm, hu1, hu2, hvl, hul, hQl, hQu, hQB, ?_, e,
        knuth_ge hu2 hul hQl e (Nat.mod_lt _ hv1p)⟩
      rw [Nat.div_lt_iff_lt_mul hv1p]
      have : (u0 + 1) * B ≤ v1 * B := Nat.mul_le_mul_right _ h0
      rw [Nat.add_mul] at this
      rw [Nat.mul_comm B v1]
      omega
    · refine ⟨hv2, norm, hu1, hu2, hvl, hul, hQl, hQu, hQB, by omega, ?_, by omega⟩
      obtain ⟨b, hb⟩ : ∃ b, B = b + 1 := ⟨B - 1, by omega⟩
      rw [h0, hb, Nat.add_sub_cancel]; ring
  refine ⟨key.q0_lt, fun ht => ?_, ?_⟩
  · have := key.over ht.2; omega
  · by_cases ht : r0 < B ∧ r0 * B + u2 < q0 * v2
    · rw [if_pos ht] at hqe
      have := key.over ht.2
      have := key.le_two
      omega
    · rw [if_neg ht] at hqe
      subst hqe
      refine ⟨key.q0_ge, key.le_one ?_⟩
      by_cases hr : r0 < B
      · by_contra hc; exact ht ⟨hr, by omega⟩
      · have h1 : q * v2 ≤ B * B := Nat.mul_le_mul (by have := key.q0_lt; omega) (by omega)
        have h2 : B * B ≤ r0 * B := Nat.mul_le_mul_right _ (by omega)
        omega

end Cmpa
