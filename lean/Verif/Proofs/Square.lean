import Verif.Proofs.Mul
import Verif.Proofs.AddMod
import Verif.Proofs.Panic

/-!
# Squaring

The code doubles the upper halves of the cross products before adding a carry of up to four to
them.  This works out unless such an upper half is one of the two values right below `2 ^ (W - 1)`.
-/

set_option linter.unusedSectionVars false

namespace Cmpa
variable [LimbCfg] {f g : Fmt}

open M

/-- The carry out of the limb at `j + k - 1` after the products of the `j`-th limb with the low `k` ones
have been added, two times each, to the products of all the limbs above. -/
def sqCarry (x j k : ℕ) : ℕ :=
  ((x ^ 2 - (x % B ^ (j + 1)) ^ 2) / B ^ j % B ^ k + 2 * (x / B ^ j % B) * (x % B ^ k)) / B ^ k

/-- The upper half of the product of the `i`-th and the `j`-th limb can be handled. -/
def SquarePair (x i j : ℕ) : Prop :=
  (x / B ^ i % B) * (x / B ^ j % B) / B ≠ 2 ^ (W - 1) - 1 ∧
  ((x / B ^ i % B) * (x / B ^ j % B) / B = 2 ^ (W - 1) - 2 → sqCarry x j (i + 1) + 2 ≤ B)

/-- So can all those needed for the low `N` limbs of the square of `x`. -/
def SquareOk (N x : ℕ) : Prop := ∀ i j, i < j → i + j + 1 < N → SquarePair x i j

/-- A simpler, sufficient condition. -/
theorem SquareOk.of_ne {N x : ℕ} (h : ∀ i j, i < j → i + j + 1 < N →
    (x / B ^ i % B) * (x / B ^ j % B) / B ≠ 2 ^ (W - 1) - 1 ∧
    (x / B ^ i % B) * (x / B ^ j % B) / B ≠ 2 ^ (W - 1) - 2) : SquareOk N x :=
  fun i j h1 h2 => ⟨(h i j h1 h2).1, fun h3 => absurd h3 (h i j h1 h2).2⟩

theorem sqCarry_zero (x j : ℕ) : sqCarry x j 0 = 0 := by
  unfold sqCarry; simp [Nat.mod_one]

theorem sqCarry_succ (x j k : ℕ) : sqCarry x j (k + 1) =
    (sqCarry x j k + (x ^ 2 - (x % B ^ (j + 1)) ^ 2) / B ^ (j + k) % B
      + 2 * ((x / B ^ j % B) * (x / B ^ k % B))) / B := by
  unfold sqCarry
  rw [pow_add B j k, ← Nat.div_div_eq_div_mul (x ^ 2 - (x % B ^ (j + 1)) ^ 2)]
  generalize (x ^ 2 - (x % B ^ (j + 1)) ^ 2) / B ^ j = E
  generalize x / B ^ j % B = v
  rw [mod_succ E, mod_succ x, pow_succ B k, ← Nat.div_div_eq_div_mul,
    ← Nat.add_mul_div_left _ _ (B_pow_pos k), ← Nat.add_mul_div_left _ _ (B_pow_pos k)]
  congr 2; ring

/-- The state carried from one cross product to the next. -/
def SqInv (q c : ℕ) : Prop := q + 2 ≤ B ∧ (c ≤ 2 ∨ (c ≤ 4 ∧ q + 3 ≤ B))

/-- The state can be handled by the next step. -/
def SqSafe (q c : ℕ) : Prop := q ≠ 2 ^ (W - 1) - 1 ∧ (q = 2 ^ (W - 1) - 2 → c ≤ 2)

/-- The state after `k` of the products with the `j`-th limb. -/
def SqState (N x j k q c : ℕ) : Prop :=
  SqInv q c ∧ (∀ i, i + 1 = k → q = (x / B ^ j % B) * (x / B ^ i % B) / B) ∧ (k = 0 → q = 0) ∧
  (j + k < N → 2 * q + c = sqCarry x j k)

theorem mod_congr {x y i j : ℕ} (h : x % B ^ j = y % B ^ j) (hij : i ≤ j) :
    x % B ^ i = y % B ^ i := by
  have := congrArg (· % B ^ i) h
  simpa [Nat.mod_mod_of_dvd _ (pow_dvd_pow B hij)] using this

theorem dig_congr {x y i j : ℕ} (h : x % B ^ j = y % B ^ j) (hij : i < j) :
    x / B ^ i % B = y / B ^ i % B := by
  have h1 := mod_congr h (Nat.succ_le_of_lt hij)
  rw [mod_succ, mod_succ, mod_congr h hij.le] at h1
  exact Nat.eq_of_mul_eq_mul_left (B_pow_pos i) (Nat.add_left_cancel h1)

theorem half_ge : 8 ≤ 2 ^ (W - 1) := by rcases W_cases with h | h <;> rw [h] <;> norm_num

/-- Doubling a limb. -/
theorem dbl_spec {q : ℕ} (hq : q < B) :
    shr q (W - 1) ≤ 1 ∧ 2 * q = wmul q 2 + shr q (W - 1) * B ∧ wmul q 2 < B ∧
      (shr q (W - 1) = 0 ↔ q < 2 ^ (W - 1)) := by
  have hB := B_half'
  have hp : 0 < 2 ^ (W - 1) := by positivity
  rw [shr_eq]; unfold wmul
  rw [hB] at hq ⊢
  generalize 2 ^ (W - 1) = H at *
  have h1 : q / H ≤ 1 := Nat.lt_succ_iff.1 (Nat.div_lt_of_lt_mul (by omega))
  have h2 : q * 2 % (2 * H) = 2 * (q % H) := by rw [Nat.mul_comm q 2, Nat.mul_mod_mul_left]
  have h3 := Nat.mod_add_div q H
  have h4 := Nat.mod_lt q hp
  refine ⟨h1, ?_, ?_, ?_⟩
  · rw [h2]; nlinarith
  · omega
  · rw [Nat.div_eq_zero_iff]; omega

/-- Doubling the carried upper half. -/
theorem SqInv.dbl {q c : ℕ} (h : SqInv q c) (hs : SqSafe q c) :
    wmul q 2 + 4 ≤ B ∧ (c ≤ 2 ∨ wmul q 2 + 6 ≤ B) ∧ wmul q 2 + c + 2 ≤ B := by
  obtain ⟨h1, h4⟩ := h
  obtain ⟨h2, h3⟩ := hs
  obtain ⟨d1, d2, d3, d4⟩ := dbl_spec (q := q) (by omega)
  have hB := B_half'
  have := half_ge
  generalize 2 ^ (W - 1) = H at *
  generalize shr q (W - 1) = s at *
  generalize wmul q 2 = w at *
  have hs : s = 0 ∨ s = 1 := by omega
  rcases hs with rfl | rfl <;> omega

theorem SqInv.safe {q c : ℕ} (h : SqInv q c) (h1 : wmul q 2 + 4 ≤ B)
    (h2 : c ≤ 2 ∨ wmul q 2 + 6 ≤ B) : SqSafe q c := by
  obtain ⟨h3, h4⟩ := h
  obtain ⟨d1, d2, d3, d4⟩ := dbl_spec (q := q) (by omega)
  have hB := B_half'
  have := half_ge
  unfold SqSafe
  generalize 2 ^ (W - 1) = H at *
  generalize shr q (W - 1) = s at *
  generalize wmul q 2 = w at *
  have hs : s = 0 ∨ s = 1 := by omega
  rcases hs with rfl | rfl <;> omega

/-- Whether the next step can handle the state depends on the limbs only. -/
theorem SqState.safe_iff {N x j k q c : ℕ} (h : SqState N x j k q c) (hN : j + k < N) :
    SqSafe q c ↔ ∀ i, i + 1 = k → SquarePair x i j := by
  obtain ⟨h1, h2, h3, h4⟩ := h
  have hH := half_ge
  have hB := B_half'
  have h4 := h4 hN
  constructor
  · rintro ⟨s1, s2⟩ i rfl
    have h2 := h2 i rfl
    unfold SquarePair
    rw [Nat.mul_comm (x / B ^ i % B), ← h2, ← h4]
    generalize 2 ^ (W - 1) = H at *
    exact ⟨s1, fun h => by have := s2 h; omega⟩
  · intro h
    rcases Nat.eq_zero_or_pos k with rfl | hk
    · have h3 := h3 rfl
      subst h3
      unfold SqSafe; omega
    · obtain ⟨i, rfl⟩ := Nat.exists_eq_add_of_lt hk
      rw [Nat.zero_add] at *
      obtain ⟨s1, s2⟩ := h i rfl
      have h2 := h2 i rfl
      rw [Nat.mul_comm (x / B ^ i % B), ← h2, ← h4] at s2
      rw [Nat.mul_comm (x / B ^ i % B), ← h2] at s1
      unfold SqSafe
      generalize 2 ^ (W - 1) = H at *
      exact ⟨s1, fun h => by have := s2 h; omega⟩

theorem bnot_le_iff {x n : ℕ} (h : n + 1 ≤ B) : x ≤ bnot n ↔ x + n + 1 ≤ B := by
  unfold bnot; omega

/-- Conditions on the new state. -/
theorem sq_step {q c R r1 r2 c1 c2 c3 qh ql ql2 c0 q2 : ℕ} (h : SqInv q c) (hs : SqSafe q c)
    (hd : wmul q 2 = q2) (h0 : shr q (W - 1) = c0)
    (e1 : r1 + B * c1 = R + (q2 + c)) (hR : R < B) (hr1 : r1 < B)
    (e2 : r2 + B * c3 = r1 + ql2) (hr2 : r2 < B) (e3 : 2 * ql = ql2 + c2 * B) (hql : ql < B)
    (hql2 : ql2 < B)
    (hc1 : c1 ≤ 1) (hc3 : c3 ≤ 1) (hc2 : c2 ≤ 1) (hc0 : c0 ≤ 1)
    (hp : qh + 2 < B ∨ qh + 2 = B ∧ ql = 1) :
    c0 + c1 + c2 + c3 ≤ 2 ∨ (c0 + c1 + c2 + c3 ≤ 4 ∧ qh + 3 ≤ B) := by
  obtain ⟨d1, d2, d3⟩ := h.dbl hs
  rcases hp with hp | ⟨hp, rfl⟩
  · right; omega
  · left
    have hB : 8 ≤ B := by have := half_ge; have := B_half'; omega
    rw [hd] at *
    have : c2 = 0 := by
      rcases Nat.eq_zero_or_pos c2 with h | h
      · exact h
      · have : c2 = 1 := by omega
        subst this; omega
    subst this
    rcases Nat.eq_zero_or_pos c1 with h | h
    · omega
    · have : c1 = 1 := by omega
      subst this
      have : c3 = 0 := by
        rcases Nat.eq_zero_or_pos c3 with h | h
        · exact h
        · have : c3 = 1 := by omega
          subst this; omega
      omega

theorem mul_high_le {u v : ℕ} (hu : u < B) (hv : v < B) :
    u * v / B + 2 < B ∨ u * v / B + 2 = B ∧ u * v % B = 1 := by
  have := mul_high_bound' hu hv
  have h2 := half_ge
  have hB := B_half'
  unfold bnot at this; omega

/-- Both checks of the doubled upper half together. -/
theorem sq_check {α : Type} {q c : ℕ} {S : Prop} {m : Unit → Unit → M α} {P : α → Prop} (hI : SqInv q c)
    (hS : SqSafe q c ↔ S) (h : SqSafe q c → Sat (m () ()) P) :
    Exact S (M.assert (wmul q 2 ≤ bnot 3) >>= fun x =>
      M.assert (c ≤ 2 ∨ wmul q 2 ≤ bnot 5) >>= fun y => m x y) P := by
  have h8 : 8 ≤ B := by have := half_ge; have := B_half'; omega
  refine (Exact.assert (S' := (c ≤ 2 ∨ wmul q 2 ≤ bnot 5) ∧ True) fun h1 =>
    Exact.assert fun h2 => ?_).congr (Iff.trans ?_ hS)
  · refine (h (hI.safe ?_ ?_)).exact
    · rw [bnot_le_iff (by omega)] at h1; omega
    · rw [bnot_le_iff (by omega)] at h2; omega
  · rw [bnot_le_iff (by omega), bnot_le_iff (by omega)]
    constructor
    · rintro ⟨h1, h2, -⟩; exact hI.safe (by omega) (by omega)
    · intro h; obtain ⟨d1, d2, d3⟩ := hI.dbl h; exact ⟨by omega, by omega, trivial⟩

theorem ct_square_cross_exact {a t : Buf f} {j k n v q c m : ℕ} {X : ℕ} (htl : t.len = a.len)
    (htm : t.toNat % B ^ j = X % B ^ j) (hn : n = a.nlimbs - j) (hkj : k < j) (hkn : k < n)
    (hv : v = X / B ^ j % B) (hm : m = a.partial_high_mask)
    (hI : SqState a.nlimbs X j k q c)
    (hR : j + k + 1 < a.nlimbs →
      t.toNat / B ^ (j + k) % B = (X ^ 2 - (X % B ^ (j + 1)) ^ 2) / B ^ (j + k) % B) :
    Exact (∀ i, i + 1 = k → SquarePair X i j) (ct_square_cross j n v m k (t, q, c)) (fun st =>
      st.1.len = a.len ∧ st.1.toNat % B ^ j = X % B ^ j ∧
      SqState a.nlimbs X j (k + 1) st.2.1 st.2.2 ∧
      st.1.toNat / B ^ (j + k + 1) = t.toNat / B ^ (j + k + 1) ∧
      (st.1.toNat : RingOf a.len) + (B : RingOf a.len) ^ (j + (k + 1)) * (2 * st.2.1 + st.2.2)
        = t.toNat + (B : RingOf a.len) ^ (j + k) * (2 * q + c)
          + 2 * (B : RingOf a.len) ^ (j + k) * v * (X / B ^ k % B : ℕ)) := by
  unfold ct_square_cross
  dsimp only
  have htn : t.nlimbs = a.nlimbs := Buf.nlimbs_congr htl
  have hqB : q < B := by have := hI.1.1; omega
  have hvB : v < B := by rw [hv]; exact dig_lt _ _
  have h8 : 8 ≤ B := by have := half_ge; have := B_half'; omega
  have htd : t.toNat / B ^ k % B = X / B ^ k % B := dig_congr htm hkj
  refine Sat.bindExact (t.sat_load_l (by omega) (Q := fun l => l = X / B ^ k % B) htd) ?_
  intro u hu
  have huB : u < B := by rw [hu]; exact dig_lt _ _
  rw [ct_mul_l_l_eq hvB huB, M.pure_bind]
  refine Sat.bindExact (t.sat_load_l (by omega) (Q := fun l => l = t.toNat / B ^ (j + k) % B) rfl) ?_
  intro R hR0
  rw [← hR0] at hR
  have hRB : R < B := by rw [hR0]; exact dig_lt _ _
  refine sq_check hI.1 (hI.safe_iff (by omega)) fun hsafe => ?_
  obtain ⟨d1, d2, d3⟩ := hI.1.dbl hsafe
  obtain ⟨f1, f2, f3, f4⟩ := dbl_spec hqB
  rw [M.addL_eq (by omega), M.pure_bind, ct_add_l_l_eq hRB (by omega)]
  dsimp only
  obtain ⟨g1, g2, g3, g4⟩ := dbl_spec (Nat.mod_lt (v * u) B_pos)
  rw [ct_add_l_l_eq (Nat.mod_lt _ B_pos) g3]
  dsimp only
  have hph := mul_high_le hvB huB
  have hpe := Nat.mod_add_div (v * u) B
  have hpl := Nat.mod_lt (v * u) B_pos
  have hqh : ∀ i, i + 1 = k + 1 → v * u / B = (X / B ^ j % B) * (X / B ^ i % B) / B := by
    intro i hi
    obtain rfl : i = k := by omega
    rw [hv, hu]
  have hK := sqCarry_succ X j k
  rw [← hu, ← hv] at hK
  have hK0 := hI.2.2.2 (by omega)
  rw [← hK0] at hK
  generalize v * u / B = qh at *
  generalize v * u % B = ql at *
  have e1 := Nat.mod_add_div (R + (wmul q 2 + c)) B
  have k1 := add_div_le_one hRB (show wmul q 2 + c < B by omega)
  have l1 := Nat.mod_lt (R + (wmul q 2 + c)) B_pos
  generalize (R + (wmul q 2 + c)) % B = r1 at *
  generalize (R + (wmul q 2 + c)) / B = c1 at *
  have e2 := Nat.mod_add_div (r1 + wmul ql 2) B
  have k3 := add_div_le_one l1 g3
  have l2 := Nat.mod_lt (r1 + wmul ql 2) B_pos
  generalize (r1 + wmul ql 2) % B = r2 at *
  generalize (r1 + wmul ql 2) / B = c3 at *
  have hst := sq_step hI.1 hsafe rfl rfl e1 hRB l1 e2 l2 g2 hpl g3 k1 k3 g1 f1 hph
  have hI' : SqState a.nlimbs X j (k + 1) qh (shr q (W - 1) + c1 + shr ql (W - 1) + c3) := by
    refine ⟨⟨by omega, hst⟩, hqh, by omega, fun hlt => ?_⟩
    rw [hK, ← hR (by omega)]
    have : 2 * q + c + R + 2 * (v * u)
        = r2 + B * (2 * qh + (shr q (W - 1) + c1 + shr ql (W - 1) + c3)) := by
      rw [← hpe]
      rw [Nat.mul_comm _ B] at f2 g2
      simp only [Nat.mul_add, Nat.mul_left_comm B 2 qh]
      omega
    rw [this, Nat.add_mul_div_left _ _ B_pos, Nat.div_eq_of_lt l2, Nat.zero_add]
  rw [M.addL_eq (by omega), M.pure_bind, M.addL_eq (by omega), M.pure_bind, M.addL_eq (by omega),
    M.pure_bind, M.assert_eq ((bnot_le_iff (by omega)).2 (by omega)), M.pure_bind,
    M.assert_eq (hst.imp_right fun h => (bnot_le_iff (by omega)).2 (by omega)), M.pure_bind]
  obtain ⟨hc1, hc2⟩ := store_full_cond (b0 := a) hn rfl hkn
  refine Sat.bind (sat_store_ring htl (by omega) l2 hc1 hc2 hm) ?_
  rintro t' ⟨ht1, ht2, ht3, ht4⟩
  refine Sat.pure ⟨ht1, (ht3 j (by omega)).trans htm, hI', ht4, ?_⟩
  dsimp only
  rw [ht2, ← hR0, ← hu]
  have E1 := congrArg (Nat.cast : ℕ → RingOf a.len) e1
  have E2 := congrArg (Nat.cast : ℕ → RingOf a.len) e2
  have E3 := congrArg (Nat.cast : ℕ → RingOf a.len) g2
  have E4 := congrArg (Nat.cast : ℕ → RingOf a.len) f2
  have E5 := congrArg (Nat.cast : ℕ → RingOf a.len) hpe
  push_cast at E1 E2 E3 E4 E5 ⊢
  linear_combination (B : RingOf a.len) ^ (j + k) * (E1 + E2 - E3 - E4 + 2 * E5)

theorem ct_square_diag_exact {a t : Buf f} {j n v q c m : ℕ} {X : ℕ} (htl : t.len = a.len)
    (htm : t.toNat % B ^ j = X % B ^ j) (hn : n = a.nlimbs - j) (hjn : j < n)
    (hv : v < B) (hm : m = a.partial_high_mask) (hI : SqState a.nlimbs X j j q c) :
    Exact (∀ i, i + 1 = j → SquarePair X i j) (ct_square_diag j n v m (t, q, c)) (fun t' =>
      t'.len = a.len ∧ t'.toNat % B ^ j = X % B ^ j ∧
      (t'.toNat : RingOf a.len)
        = t.toNat + (B : RingOf a.len) ^ (2 * j) * (2 * q + c + v * v)) := by
  unfold ct_square_diag
  dsimp only
  have htn : t.nlimbs = a.nlimbs := Buf.nlimbs_congr htl
  have hqB : q < B := by have := hI.1.1; omega
  have h8 : 8 ≤ B := by have := half_ge; have := B_half'; omega
  rw [ct_mul_l_l_eq hv hv, M.pure_bind]
  refine Sat.bindExact (t.sat_load_l (by omega) (Q := fun l => l = t.toNat / B ^ (2 * j) % B) rfl) ?_
  intro R hR
  have hRB : R < B := by rw [hR]; exact dig_lt _ _
  refine sq_check hI.1 (hI.safe_iff (by omega)) fun hsafe => ?_
  obtain ⟨d1, d2, d3⟩ := hI.1.dbl hsafe
  obtain ⟨f1, f2, f3, f4⟩ := dbl_spec hqB
  rw [M.addL_eq (by omega), M.pure_bind, ct_add_l_l_eq hRB (by omega)]
  dsimp only
  have hpl := Nat.mod_lt (v * v) B_pos
  rw [ct_add_l_l_eq (Nat.mod_lt _ B_pos) hpl]
  dsimp only
  have hph := mul_high_le hv hv
  have hpe := Nat.mod_add_div (v * v) B
  generalize v * v / B = qh at *
  generalize v * v % B = ql at *
  have e1 := Nat.mod_add_div (R + (wmul q 2 + c)) B
  have k1 := add_div_le_one hRB (show wmul q 2 + c < B by omega)
  have l1 := Nat.mod_lt (R + (wmul q 2 + c)) B_pos
  generalize (R + (wmul q 2 + c)) % B = r1 at *
  generalize (R + (wmul q 2 + c)) / B = c1 at *
  have e2 := Nat.mod_add_div (r1 + ql) B
  have k3 := add_div_le_one l1 hpl
  have l2 := Nat.mod_lt (r1 + ql) B_pos
  generalize (r1 + ql) % B = r2 at *
  generalize (r1 + ql) / B = c2 at *
  rw [M.addL_eq (by omega), M.pure_bind, M.addL_eq (by omega), M.pure_bind]
  refine Sat.bind (sat_store_ring htl (by omega) l2 (fun h => ?_) (fun h => by omega) hm) ?_
  · exact full_of_lt_pred (by rw [← Buf.nlimbs_eq]; omega)
  rintro t' ⟨ht1, ht2, ht3, -⟩
  refine Sat.bind (Sat.forRange (P := fun k (st : Buf f × ℕ × ℕ) =>
    st.1.len = a.len ∧ st.1.toNat % B ^ j = X % B ^ j ∧ st.2.1 < B ∧ st.2.2 ≤ 3 ∧
    (st.1.toNat : RingOf a.len) + (B : RingOf a.len) ^ (j + k) * (st.2.1 + st.2.2)
      = t.toNat + (B : RingOf a.len) ^ (2 * j) * (2 * q + c + v * v)) (by omega) ?_ ?_) ?_
  · refine ⟨ht1, (ht3 j (by omega)).trans htm, by dsimp only; omega, by dsimp only; omega, ?_⟩
    dsimp only
    rw [ht2, ← hR]
    have E1 := congrArg (Nat.cast : ℕ → RingOf a.len) e1
    have E2 := congrArg (Nat.cast : ℕ → RingOf a.len) e2
    have E4 := congrArg (Nat.cast : ℕ → RingOf a.len) f2
    have E5 := congrArg (Nat.cast : ℕ → RingOf a.len) hpe
    push_cast at E1 E2 E4 E5 ⊢
    linear_combination (B : RingOf a.len) ^ (2 * j) * (E1 + E2 - E4 + E5)
  · clear e1 e2 k1 k3 ht1 ht2 ht3 hph hpe d1 d2 d3 f1 f2 f3 f4 hR l1 l2
    rintro k ⟨s, p, c⟩ - hk ⟨hsl, hsm, hp, hc, hsr⟩
    dsimp only at *
    have hsn : s.nlimbs = a.nlimbs := Buf.nlimbs_congr hsl
    refine Sat.bind (s.sat_load_l (by omega) (Q := fun l => l = s.toNat / B ^ (j + k) % B) rfl) ?_
    intro R hR
    have hRB : R < B := by rw [hR]; exact dig_lt _ _
    rw [ct_add_l_l_eq hRB hp]
    dsimp only
    rw [ct_add_l_l_eq (Nat.mod_lt _ B_pos) (by omega)]
    dsimp only
    have e1 := Nat.mod_add_div (R + p) B
    have k1 := add_div_le_one hRB hp
    have l1 := Nat.mod_lt (R + p) B_pos
    generalize (R + p) % B = r1 at *
    generalize (R + p) / B = c1 at *
    have e2 := Nat.mod_add_div (r1 + c) B
    have k3 := add_div_le_one l1 (show c < B by omega)
    have l2 := Nat.mod_lt (r1 + c) B_pos
    generalize (r1 + c) % B = r2 at *
    generalize (r1 + c) / B = c2 at *
    rw [M.addL_eq (by omega), M.pure_bind]
    obtain ⟨hc1, hc2⟩ := store_full_cond (b0 := a) hn rfl hk
    refine Sat.bind (sat_store_ring hsl (by omega) l2 hc1 hc2 hm) ?_
    rintro s' ⟨hs1, hs2, hs3, -⟩
    refine Sat.pure ⟨hs1, (hs3 j (by omega)).trans hsm, B_pos, by dsimp only; omega, ?_⟩
    dsimp only
    rw [hs2, ← hR]
    have E1 := congrArg (Nat.cast : ℕ → RingOf a.len) e1
    have E2 := congrArg (Nat.cast : ℕ → RingOf a.len) e2
    push_cast at E1 E2 hsr ⊢
    linear_combination hsr + (B : RingOf a.len) ^ (j + k) * (E1 + E2)
  · rintro ⟨s, p, c⟩ ⟨hsl, hsm, hp, hc, hsr⟩
    refine Sat.pure ⟨hsl, hsm, ?_⟩
    dsimp only at *
    rw [ring_pow_zero (by rw [← Buf.nlimbs_eq]; omega)] at hsr
    linear_combination hsr

/-- The limbs of the intermediate value at the start of the outer loop's body. -/
theorem sq_dig {N s X j i len : ℕ} (hN : N = ct_mp_nlimbs len) (hs : s < 256 ^ len)
    (hr : (s : RingOf len) = (X % B ^ (j + 1) : ℕ) + X ^ 2 - (X % B ^ (j + 1) : ℕ) ^ 2)
    (hj : j < i) (hi : i + 1 < N) :
    s / B ^ i % B = (X ^ 2 - (X % B ^ (j + 1)) ^ 2) / B ^ i % B := by
  have hle : (X % B ^ (j + 1)) ^ 2 ≤ X ^ 2 := Nat.pow_le_pow_left (Nat.mod_le _ _) 2
  have h1 : s = (X % B ^ (j + 1) + (X ^ 2 - (X % B ^ (j + 1)) ^ 2)) % 256 ^ len := by
    refine ring_eq hs ?_
    rw [hr]; push_cast [hle]; ring
  have h2 : B ^ (i + 1) ∣ 256 ^ len := pow_dvd_len (by omega)
  have h3 : s % B ^ (i + 1) = (X % B ^ (j + 1) + (X ^ 2 - (X % B ^ (j + 1)) ^ 2)) % B ^ (i + 1) := by
    rw [h1, Nat.mod_mod_of_dvd _ h2]
  rw [dig_congr h3 (Nat.lt_succ_self _)]
  have h4 : B ^ (j + 1) ∣ X ^ 2 - (X % B ^ (j + 1)) ^ 2 := by
    rw [Nat.sq_sub_sq]
    exact Dvd.dvd.mul_left (Nat.dvd_sub_mod X) _
  obtain ⟨E, hE⟩ := h4
  rw [hE]
  obtain ⟨k, rfl⟩ := Nat.exists_eq_add_of_lt hj
  rw [show j + k + 1 = j + 1 + k by omega, pow_add B (j + 1) k, ← Nat.div_div_eq_div_mul,
    ← Nat.div_div_eq_div_mul, Nat.add_mul_div_left _ _ (B_pow_pos _),
    Nat.div_eq_of_lt (Nat.mod_lt _ (B_pow_pos _)), Nat.zero_add, Nat.mul_div_cancel_left _ (B_pow_pos _)]

theorem ct_square_trunc_mp_exact (a : Buf f) (n : ℕ) (hn : n ≤ a.len) :
    Exact (SquareOk a.nlimbs (a.toNat % 256 ^ n)) (ct_square_trunc_mp a n) (fun a' => a'.len = a.len ∧
      a'.toNat = (a.toNat % 256 ^ n) ^ 2 % 256 ^ a.len) := by
  unfold ct_square_trunc_mp
  rw [M.assert_eq hn, M.pure_bind]
  dsimp only
  refine Sat.bindExact (Buf.sat_clear_bytes_above a n
    (Q := fun a1 => a1.len = a.len ∧ a1.toNat = a.toNat % 256 ^ n) fun a1 h1 h2 => ⟨h1, h2⟩) ?_
  rintro a1 ⟨ha1, hX⟩
  generalize hXd : a.toNat % 256 ^ n = X at *
  have hXn : X < B ^ ct_mp_nlimbs n := by
    rw [← hXd]; exact lt_of_lt_of_le (Nat.mod_lt _ (by positivity)) (pow_len_le n)
  have hnN : ct_mp_nlimbs n ≤ a.nlimbs := by rw [Buf.nlimbs_eq]; exact nlimbs_mono hn
  have hz : ∀ i, a.nlimbs ≤ i → (B : RingOf a.len) ^ i = 0 := fun i h =>
    ring_pow_zero (by rw [← Buf.nlimbs_eq]; exact h)
  refine ((Exact.forDown (S := fun j => (∀ k, 0 ≤ k → k < min j (a.nlimbs - j) →
    ∀ i, i + 1 = k → SquarePair X i j) ∧ (¬ a.nlimbs - j ≤ j → ∀ i, i + 1 = j → SquarePair X i j))
    (P := fun j (st : Buf f) => st.len = a.len ∧ st.toNat % B ^ j = X % B ^ j ∧
    (st.toNat : RingOf a.len) = (X % B ^ j : ℕ) + X ^ 2 - (X % B ^ j : ℕ) ^ 2) ?_ ?_).congr ?_).mono ?_
  · refine ⟨ha1, by rw [hX], ?_⟩
    rw [hX, Nat.mod_eq_of_lt hXn]; ring
  · rintro j s hj ⟨hsl, hsm, hsr⟩
    have hsn : s.nlimbs = a.nlimbs := Buf.nlimbs_congr hsl
    obtain ⟨v, hv⟩ : ∃ v, v = X / B ^ j % B := ⟨_, rfl⟩
    have hvB : v < B := by rw [hv]; exact dig_lt _ _
    have hsd : s.toNat / B ^ j % B = v := by rw [hv]; exact dig_congr hsm (Nat.lt_succ_self _)
    have hsm' : s.toNat % B ^ j = X % B ^ j := mod_congr hsm (Nat.le_succ _)
    refine Sat.bindExact (s.sat_load_l (by omega) (Q := fun l => l = v) hsd) ?_
    intro l hl; subst l
    refine Sat.bindExact (s.sat_store_l (by omega) B_pos (fun _ => by positivity)
      (Q := fun s' => s'.len = a.len ∧ s'.toNat = upd s.toNat j 0) ?_) ?_
    · intro b' h1 h2; exact ⟨h1.trans hsl, h2⟩
    rintro s1 ⟨hs1l, hs1⟩
    rw [M.sub_eq (by omega), M.pure_bind]
    have hs1r : (s1.toNat : RingOf a.len) = s.toNat - (B : RingOf a.len) ^ j * v := by
      rw [hs1, cast_upd, hsd]; simp only [Nat.cast_zero, mul_zero, add_zero]
    have hs1m : s1.toNat % B ^ j = X % B ^ j := by rw [hs1, upd_mod _ _ _ le_rfl, hsm']
    have hs1d : ∀ k, j < k → s1.toNat / B ^ k = s.toNat / B ^ k := fun k hk => by
      rw [hs1, upd_div B_pos hk]
    have hs10 : s1.toNat / B ^ j % B = 0 := by rw [hs1, upd_dig B_pos]
    clear hs1 hsd hsm
    have h8 := half_ge
    have hB8 := B_half'
    refine Exact.bind (Exact.forRange (S := fun k => ∀ i, i + 1 = k → SquarePair X i j)
      (P := fun k (st : Buf f × ℕ × ℕ) =>
      st.1.len = a.len ∧ st.1.toNat % B ^ j = X % B ^ j ∧
      SqState a.nlimbs X j k st.2.1 st.2.2 ∧ st.1.toNat / B ^ (j + k) = s1.toNat / B ^ (j + k) ∧
      (st.1.toNat : RingOf a.len) + (B : RingOf a.len) ^ (j + k) * (2 * st.2.1 + st.2.2)
        = s1.toNat + 2 * (B : RingOf a.len) ^ j * v * (X % B ^ k : ℕ)) (Nat.zero_le _) ?_ ?_) ?_
    · refine ⟨hs1l, hs1m, ⟨⟨by dsimp only; omega, Or.inl (by dsimp only; omega)⟩,
        fun i hi => by omega, fun _ => rfl, fun _ => by simp [sqCarry_zero]⟩, rfl, ?_⟩
      simp [Nat.mod_one]
    · rintro k ⟨t, q, c⟩ - hk ⟨htl, htm, hI, htd, htr⟩
      have hk1 : k < j := lt_of_lt_of_le hk (min_le_left _ _)
      have hk2 : k < a.nlimbs - j := lt_of_lt_of_le hk (min_le_right _ _)
      refine (ct_square_cross_exact htl htm rfl hk1 hk2 hv rfl hI fun hlt => ?_).mono ?_
      · dsimp only at htd
        rw [htd]
        rcases Nat.eq_zero_or_pos k with rfl | hk0
        · rw [Nat.add_zero, hs10]
          obtain ⟨E, hE⟩ : B ^ (j + 1) ∣ X ^ 2 - (X % B ^ (j + 1)) ^ 2 := by
            rw [Nat.sq_sub_sq]
            exact Dvd.dvd.mul_left (Nat.dvd_sub_mod X) _
          rw [hE, pow_succ, Nat.mul_assoc, Nat.mul_div_cancel_left _ (B_pow_pos _),
            Nat.mul_mod_right]
        · rw [hs1d _ (by omega)]
          exact sq_dig (by rw [Buf.nlimbs_eq]) (hsl ▸ s.toNat_lt) hsr (by omega) hlt
      rintro ⟨t', q', c'⟩ ⟨h1, h2, h3, h5, h4⟩
      refine ⟨h1, h2, h3, ?_, ?_⟩
      · dsimp only at htd h5 ⊢
        rw [← Nat.add_assoc, h5, pow_succ, ← Nat.div_div_eq_div_mul, ← Nat.div_div_eq_div_mul, htd]
      dsimp only at *
      rw [h4, cast_mod_succ]
      linear_combination htr
    · rintro ⟨t, q, c⟩ - ⟨htl, htm, hI, -, htr⟩
      dsimp only at *
      refine Exact.cond (fun hle => ?_) fun hle => ?_
      · refine (Sat.pure ?_).exact.congr ⟨fun _ h => absurd hle h, fun _ => trivial⟩
        refine ⟨htl, htm, ?_⟩
        rw [min_eq_right hle] at htr
        have h0 := hz (j + (a.nlimbs - j)) (by omega)
        have e3 := cast_low_high (R := RingOf a.len) (X % B ^ j) (a.nlimbs - j)
        rw [Nat.mod_mod_of_dvd _ (pow_dvd_pow B hle)] at e3
        have h1 := hz (2 * j) (by omega)
        rw [hs1r, hsr, cast_mod_succ, ← hv] at htr
        rw [pow_add] at htr h0
        generalize (B : RingOf a.len) ^ (a.nlimbs - j) = b at *
        have h2 : (B : RingOf a.len) ^ j * (B : RingOf a.len) ^ j = 0 := by
          rw [← pow_add, ← two_mul]; exact h1
        generalize (B : RingOf a.len) ^ j = bj at *
        linear_combination htr - (2 * (q : RingOf a.len) + c) * h0 - 2 * bj * v * e3
          - 2 * v * ((X % B ^ j / B ^ (a.nlimbs - j) : ℕ) : RingOf a.len) * h0
          - (v : RingOf a.len) ^ 2 * h2
      · rw [min_eq_left (by omega)] at htr hI
        refine ((ct_square_diag_exact htl htm rfl (by omega) hvB rfl hI).congr
          ⟨fun h _ => h, fun h => h hle⟩).mono ?_
        rintro t' ⟨h1, h2, h3⟩
        refine ⟨h1, h2, ?_⟩
        rw [hs1r, hsr, cast_mod_succ, ← hv] at htr
        rw [h3]
        linear_combination htr
  · constructor
    · intro h i j hij hN
      by_cases hjn : j < ct_mp_nlimbs n
      · obtain ⟨h1, h2⟩ := h j hjn
        by_cases hc : i + 1 = j
        · exact h2 (by omega) i hc
        · exact h1 (i + 1) (Nat.zero_le _) (by omega) i rfl
      · have h0 : X / B ^ j = 0 :=
          Nat.div_eq_of_lt (lt_of_lt_of_le hXn (Nat.pow_le_pow_right B_pos (by omega)))
        have := half_ge
        unfold SquarePair
        rw [h0, Nat.zero_mod, Nat.mul_zero, Nat.zero_div]
        omega
    · intro h j hj
      exact ⟨fun k _ hk i hi => h i j (by omega) (by omega),
        fun hc i hi => h i j (by omega) (by omega)⟩
  · rintro s ⟨h1, -, h3⟩
    refine ⟨h1, ring_eq (by rw [← h1]; exact s.toNat_lt) ?_⟩
    rw [h3]; simp [Nat.mod_one]

theorem ct_square_trunc_mp_sat (a : Buf f) (n : ℕ) (hn : n ≤ a.len)
    (hok : SquareOk a.nlimbs (a.toNat % 256 ^ n)) :
    Sat (ct_square_trunc_mp a n) (fun a' => a'.len = a.len ∧
      a'.toNat = (a.toNat % 256 ^ n) ^ 2 % 256 ^ a.len) := (ct_square_trunc_mp_exact a n hn).sat hok

end Cmpa
