import Verif.Proofs.Divisor

/-!
# Long division: numbers
-/

set_option linter.unusedSectionVars false

namespace Cmpa
variable [LimbCfg] {f g h : Fmt}

open M

/-- `x` is `x0` with its `i` least significant limbs replaced by those of `r`. -/
def LowN (x0 r i x : ℕ) : Prop := x % B ^ i = r ∧ x / B ^ i = x0 / B ^ i

namespace LowN
variable {x0 r i x : ℕ}

theorem self (x i : ℕ) : LowN x (x % B ^ i) i x := ⟨rfl, rfl⟩

theorem dig (h : LowN x0 r i x) : x / B ^ i % B = x0 / B ^ i % B := by rw [h.2]

theorem upd (h : LowN x0 r i x) {v : ℕ} (hv : v < B) :
    LowN x0 (r + B ^ i * v) (i + 1) (Cmpa.upd x i v) := by
  refine ⟨?_, ?_⟩
  · rw [upd_mod_succ hv, h.1]
  · rw [upd_div hv (Nat.lt_succ_self _), pow_succ, ← Nat.div_div_eq_div_mul,
      ← Nat.div_div_eq_div_mul, h.2]

theorem final (h : LowN x0 r i x) (h0 : x0 < B ^ i) : x = r := by
  have h2 := h.2
  rw [Nat.div_eq_of_lt h0] at h2
  have := low_high x i
  rw [h.1, h2] at this
  simpa using this

theorem eq (h : LowN x0 r i x) : x = r + B ^ i * (x0 / B ^ i) := by
  rw [← h.1, ← h.2]; exact low_high x i

end LowN

theorem mod_pow_add (x j i : ℕ) : x % B ^ (j + i) = x % B ^ j + B ^ j * (x / B ^ j % B ^ i) := by
  rw [pow_add]; exact Nat.mod_mul

theorem div_pow_add (x j i : ℕ) : x / B ^ (j + i) = x / B ^ j / B ^ i := by
  rw [pow_add, Nat.div_div_eq_div_mul]

/-- The result of subtracting the estimated multiple of the divisor. -/
theorem div_sub_final {Z V' q y b t w n : ℕ} (hV : 0 < V')
    (hy : y + q * V' = Z % B ^ n + b * B ^ n) (hlt : y < B ^ n)
    (e : Z / B ^ n + w * B = b + t) (ht : t < B) (hw : w ≤ 1) (h1 : Z / V' ≤ q)
    (h2 : q ≤ Z / V' + 1) :
    w ≤ q ∧ q - w = Z / V' ∧ y + B ^ n * t + q * V' = Z + w * B ^ (n + 1) ∧
      y + B ^ n * t < B ^ (n + 1) := by
  have hlt2 : y + B ^ n * t < B ^ (n + 1) := by
    have h6 : B ^ n * (t + 1) ≤ B ^ n * B := Nat.mul_le_mul_left _ ht
    rw [Nat.mul_add, mul_one] at h6
    rw [pow_succ]
    omega
  have heq : y + B ^ n * t + q * V' = Z + w * B ^ (n + 1) := by
    have hz := low_high Z n
    rw [pow_succ]
    generalize Z % B ^ n = z0 at *
    generalize Z / B ^ n = z1 at *
    rw [hz]
    linear_combination hy - B ^ n * e
  refine ⟨?_, ?_, heq, hlt2⟩ <;> clear hy
  all_goals
    have hZ := Nat.lt_mul_div_succ Z hV
    have hZ2 := Nat.mul_div_le Z V'
    generalize Z / V' = Q at *
    have hw' : w = 0 ∨ w = 1 := by omega
    have hq' : q = Q ∨ q = Q + 1 := by omega
    rcases hw' with rfl | rfl <;> rcases hq' with rfl | rfl
  all_goals first
    | omega
    | (rw [Nat.mul_comm V'] at hZ hZ2; omega)

/-- The result of adding the divisor back. -/
theorem div_add_final {Z V' q y2 k t w n Z1 : ℕ} (hV : 0 < V') (hVB : V' < B ^ n)
    (hwq : w ≤ q) (hq : q - w = Z / V') (hw : w ≤ 1)
    (heq : Z1 + q * V' = Z + w * B ^ (n + 1)) (ht : t = Z1 / B ^ n)
    (hy2 : y2 + k * B ^ n = Z1 % B ^ n + if w = 1 then V' else 0) (hlt : y2 < B ^ n) :
    y2 + B ^ n * ((t + k) % B) = Z % V' := by
  -- both sides are less than `B^(n+1)` and congruent
  have e1 : (y2 + B ^ n * (t + k)) + (q - w) * V' = Z + w * B ^ (n + 1) := by
    have hZ1 := low_high Z1 n
    rw [← ht] at hZ1
    have hw' : w = 0 ∨ w = 1 := by omega
    rcases hw' with rfl | rfl
    · simp only [Nat.zero_ne_one, if_false] at hy2
      rw [Nat.sub_zero, ← heq]
      linear_combination hy2 - hZ1
    · simp only [if_true] at hy2
      obtain ⟨q', rfl⟩ : ∃ q', q = q' + 1 := ⟨q - 1, by omega⟩
      rw [Nat.add_sub_cancel, ← heq]
      linear_combination hy2 - hZ1
  rw [hq] at e1
  have hZm := Nat.div_add_mod Z V'
  have hlt2 : Z % V' < B ^ (n + 1) := by
    refine lt_trans (lt_trans (Nat.mod_lt _ hV) hVB) ?_
    exact Nat.pow_lt_pow_right one_lt_B (Nat.lt_succ_self _)
  have e2 : y2 + B ^ n * (t + k) = Z % V' + w * B ^ (n + 1) := by
    rw [Nat.mul_comm] at hZm
    omega
  have e3 : (y2 + B ^ n * (t + k)) % B ^ (n + 1) = Z % V' := by
    rw [e2, Nat.add_mul_mod_self_right, Nat.mod_eq_of_lt hlt2]
  rw [← e3, mod_succ, Nat.add_mul_mod_self_left, Nat.mod_eq_of_lt hlt,
    Nat.add_mul_div_left _ _ (B_pow_pos n), Nat.div_eq_of_lt hlt, Nat.zero_add]

/-! ### Quotient digits -/

/-- The window of the dividend in step `j`. -/
theorem window_lt {U V' j : ℕ} (hV : 0 < V') : U % (B ^ (j + 1) * V') / B ^ j < V' * B := by
  rw [Nat.div_lt_iff_lt_mul (B_pow_pos _)]
  have : B ^ (j + 1) * V' = V' * B * B ^ j := by rw [pow_succ]; ring
  rw [this]
  exact Nat.mod_lt _ (by have := B_pos; positivity)

theorem window_div (U V' j : ℕ) : U % (B ^ (j + 1) * V') / B ^ j / V' = U / V' / B ^ j % B := by
  rw [show B ^ (j + 1) * V' = B ^ j * V' * B by rw [pow_succ]; ring, Nat.div_div_eq_div_mul,
    Nat.mod_mul_right_div_self, Nat.mul_comm (B ^ j) V', ← Nat.div_div_eq_div_mul]

theorem window_mod (U V' j : ℕ) : U % (B ^ j * V')
    = U % (B ^ (j + 1) * V') % B ^ j + B ^ j * (U % (B ^ (j + 1) * V') / B ^ j % V') := by
  rw [← Nat.mod_mul, Nat.mod_mod_of_dvd]
  exact ⟨B, by rw [pow_succ]; ring⟩

/-! ### Storing the quotient -/

/-- The limbs from position `j` on of the quotient `Q` have been stored. -/
def QInv (q0 : Option (Buf h)) (Q j : ℕ) (q : Option (Buf h)) : Prop :=
  match q0, q with
  | none, none => True
  | some b0, some b => b.len = b0.len ∧ b.toNat / B ^ j = Q / B ^ j
  | _, _ => False

/-- The quotient does not fit. -/
def QErr (q0 : Option (Buf h)) (Q : ℕ) (e : DivError) : Prop :=
  e = .InsufficientQuotientSpace ∧ ∃ b ∈ q0, B ^ b.nlimbs ≤ Q

/-- The quotient fits, or lacks at least one limb. -/
def QFits (q0 : Option (Buf h)) (Q : ℕ) : Prop :=
  ∀ b ∈ q0, Q < 256 ^ b.len ∨ B ^ b.nlimbs ≤ Q

theorem store_q_sat {q0 q : Option (Buf h)} {Q j qe w : ℕ} (hQ : QFits q0 Q)
    (hj : ∀ b ∈ q0, j ≤ b.nlimbs) (hi : QInv q0 Q (j + 1) q) (hw : w ≤ 1) (hwq : w ≤ qe)
    (he : qe - w = Q / B ^ j % B) :
    Sat (store_q q j qe (.ofBool (decide (w = 1)))) (OkErr (QInv q0 Q j) (QErr q0 Q)) := by
  cases q0 with
  | none =>
    cases q with
    | none => exact Sat.pure trivial
    | some b => exact hi.elim
  | some b0 =>
    cases q with
    | none => exact hi.elim
    | some b =>
      obtain ⟨h1, h2⟩ := hi
      have hsel : (LimbChoice.ofBool (decide (w = 1))).select 0 1 = w := by
        rw [LimbChoice.select_ofBool B_pos one_lt_B]
        have hw' : w = 0 ∨ w = 1 := by omega
        rcases hw' with rfl | rfl <;> simp
      unfold store_q
      dsimp only
      rw [hsel, M.sub_eq hwq, M.pure_bind, he]
      have hjn := hj b0 rfl
      have hn : b.nlimbs = b0.nlimbs := Buf.nlimbs_congr h1
      refine Sat.cond (fun hc => ?_) fun hc => ?_
      · have hlt : j < b.nlimbs := by omega
        rw [M.assert_eq hlt, M.pure_bind]
        refine Sat.bind (P := fun b' => b'.len = b0.len ∧ b'.toNat / B ^ j = Q / B ^ j) ?_ ?_
        · refine Buf.sat_store_l b hlt (dig_lt _ _) ?_ ?_
          · intro hlast
            rcases hQ b0 rfl with hf | hf
            · rw [h1]
              exact dig_high_lt hf (by rw [hlast, hn, Buf.nlimbs_eq])
            · exfalso
              have h3 : b.toNat / B ^ (j + 1) = 0 := by
                refine Nat.div_eq_of_lt ?_
                rw [hlast]; exact b.toNat_lt_B
              rw [h3] at h2
              have := Nat.div_pos hf (B_pow_pos _)
              rw [← hn, ← hlast] at this
              omega
          · intro b' h3 h4
            refine ⟨h3.trans h1, ?_⟩
            rw [h4, upd_div_le, h2]; exact (div_succ Q j).symm
        · rintro b' hb'
          exact Sat.pure hb'
      · have hje : j = b.nlimbs := by omega
        have h3 : b.toNat / B ^ (j + 1) = 0 := by
          refine Nat.div_eq_of_lt (lt_of_lt_of_le b.toNat_lt_B ?_)
          exact Nat.pow_le_pow_right B_pos (by omega)
        rw [h3] at h2
        have h4 := div_succ Q j
        rw [← h2, Nat.mul_zero, Nat.add_zero] at h4
        refine Sat.cond (fun hz => ?_) fun hz => ?_
        · refine Sat.pure ⟨rfl, b0, rfl, ?_⟩
          by_contra hlt
          rw [Nat.div_eq_of_lt (by rw [hje, hn]; omega)] at hz
          simp at hz
        · refine Sat.pure ⟨h1, ?_⟩
          rw [h4, not_not.1 hz]
          exact Nat.div_eq_of_lt (by rw [hje]; exact b.toNat_lt_B)

theorem clear_q_sat {q0 : Option (Buf h)} {Q n : ℕ} (hQ : Q < 256 ^ n) :
    Sat (clear_q q0 n) (QInv q0 Q (ct_mp_nlimbs n)) := by
  cases q0 with
  | none => exact Sat.pure trivial
  | some b =>
    unfold clear_q
    refine Sat.bind (P := fun b' => b'.len = b.len ∧ b'.toNat = b.toNat % 256 ^ n)
      (Buf.sat_clear_bytes_above b n fun b' h1 h2 => ⟨h1, h2⟩) ?_
    rintro b' ⟨h1, h2⟩
    refine Sat.pure ⟨h1, ?_⟩
    have hp := pow_len_le n
    have : b.toNat % 256 ^ n < 256 ^ n := Nat.mod_lt _ (by positivity)
    rw [Nat.div_eq_of_lt (by omega), Nat.div_eq_of_lt (by omega)]

theorem QInv.final {q0 q : Option (Buf h)} {Q : ℕ} (hi : QInv q0 Q 0 q) :
    q.map Buf.len = q0.map Buf.len ∧ ∀ b ∈ q, b.toNat = Q := by
  cases q0 with
  | none =>
    cases q with
    | none => exact ⟨rfl, fun b hb => by simp at hb⟩
    | some b => exact hi.elim
  | some b0 =>
    cases q with
    | none => exact hi.elim
    | some b =>
      obtain ⟨h1, h2⟩ := hi
      refine ⟨by simp [h1], fun b' hb => ?_⟩
      simp only [Option.mem_def, Option.some.injEq] at hb
      subst hb
      simpa using h2

/-! ### Undoing the scaling -/

/-- A limb of the unscaled remainder. -/
theorem unscale_dig (x j : ℕ) {s : ℕ} (hs : s < W) :
    (x / B ^ (j + 1) % B * B + x / B ^ j % B) / 2 ^ s % B = x / 2 ^ s / B ^ j % B := by
  have hp : 0 < 2 ^ s := Nat.two_pow_pos s
  have hB : B = 2 ^ s * 2 ^ (W - s) := by rw [← pow_add, B_eq_two_pow]; congr 1; omega
  rw [Nat.div_div_eq_div_mul x, Nat.mul_comm (2 ^ s) (B ^ j), ← Nat.div_div_eq_div_mul]
  have e : x / B ^ (j + 1) % B * B + x / B ^ j % B = x / B ^ j % (B * B) := by
    rw [Nat.mod_mul, Nat.div_div_eq_div_mul, ← pow_succ, Nat.mul_comm, Nat.add_comm]
  rw [e]
  generalize x / B ^ j = y
  have e2 : B * B = 2 ^ s * (2 ^ (W - s) * B) := by
    calc B * B = B * B := rfl
      _ = (2 ^ s * 2 ^ (W - s)) * B := congrArg (· * B) hB
      _ = _ := by ring
  rw [e2, Nat.mod_mul_right_div_self, Nat.mod_mod_of_dvd]
  exact ⟨_, Nat.mul_comm _ _⟩

/-- The remainder of the scaled division. -/
theorem scaled_mod (U V s : ℕ) : U * 2 ^ s % (V * 2 ^ s) / 2 ^ s = U % V := by
  rw [Nat.mul_mod_mul_right, Nat.mul_div_cancel _ (Nat.two_pow_pos s)]

theorem scaled_div (U V s : ℕ) : U * 2 ^ s / (V * 2 ^ s) = U / V :=
  Nat.mul_div_mul_right _ _ (Nat.two_pow_pos s)

end Cmpa
