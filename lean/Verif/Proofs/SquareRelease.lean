import Verif.Proofs.Square
import Mathlib.Algebra.BigOperators.Group.Finset.Basic
import Mathlib.Algebra.BigOperators.Ring.Finset
import Mathlib.Data.Finset.Max

/-!
# Squaring in a release build

Without the debug assertions, the addition of a carry to a doubled upper half wraps around, and one is lost at the
limb above.  The value returned is the square less everything which got lost.
-/

namespace Cmpa
open M
variable [LimbCfg] {f : Fmt}

/-- Nothing gets lost after the product of the limbs `i` and `j`: the carry has as much in its upper limb as the
doubled upper half. -/
def SquareKeeps (x i j : ℕ) : Prop :=
  sqCarry x j (i + 1) / B = 2 * ((x / B ^ i % B) * (x / B ^ j % B) / B) / B

theorem addL_rel {a b : ℕ} : RSat (M.addL a b) (fun s => s = (a + b) % B) := by
  unfold M.addL
  split
  · next h => exact ⟨_, rfl, (Nat.mod_eq_of_lt h).symm⟩
  · exact ⟨_, rfl, rfl⟩

/-- What was lost in the steps `S`, given by row and column. -/
def lossSum (R : Type) [CommRing R] (S : Finset (ℕ × ℕ)) : R := ∑ p ∈ S, (B : R) ^ (p.1 + p.2 + 1)

/-- `S` are the steps with a loss below the limb `N`, among the first `k` ones of the row `j`, and those of the rows
above. -/
structure SqLost (N X j k : ℕ) (S : Finset (ℕ × ℕ)) : Prop where
  mem : ∀ p ∈ S, p.2 ≤ p.1 ∧ p.1 + p.2 + 1 < N ∧ (j < p.1 ∨ p.1 = j ∧ p.2 < k)
  iff : S = ∅ ↔ ∀ i j', i < j' → i + j' + 2 < N → (j < j' ∨ j' = j ∧ i + 1 < k) → SquareKeeps X i j'

/-- The same for all the rows from `j` on. -/
structure SqLostRows (N X j : ℕ) (S : Finset (ℕ × ℕ)) : Prop where
  mem : ∀ p ∈ S, p.2 ≤ p.1 ∧ p.1 + p.2 + 1 < N ∧ j ≤ p.1
  iff : S = ∅ ↔ ∀ i j', i < j' → i + j' + 2 < N → j ≤ j' → SquareKeeps X i j'

theorem SqLostRows.start {N X j : ℕ} {S} (h : SqLostRows N X (j + 1) S) : SqLost N X j 0 S := by
  refine ⟨fun p hp => ?_, h.iff.trans ⟨fun h1 i j' h2 h3 h4 => h1 i j' h2 h3 (by omega),
    fun h1 i j' h2 h3 h4 => h1 i j' h2 h3 (by omega)⟩⟩
  have := h.mem p hp
  omega

theorem SqLost.rows {N X j k : ℕ} {S} (h : SqLost N X j k S) (hk : ∀ i, i < j → i + j + 2 < N → i + 1 < k) :
    SqLostRows N X j S := by
  refine ⟨fun p hp => ?_, h.iff.trans ⟨fun h1 i j' h2 h3 h4 => h1 i j' h2 h3 ?_,
    fun h1 i j' h2 h3 h4 => h1 i j' h2 h3 (by omega)⟩⟩
  · have := h.mem p hp
    omega
  · rcases Nat.lt_or_ge j j' with h5 | h5
    · exact Or.inl h5
    · obtain rfl : j' = j := by omega
      exact Or.inr ⟨rfl, hk i h2 h3⟩

theorem SqLost.step {N X j k l len : ℕ} {S : Finset (ℕ × ℕ)} (hN : N = ct_mp_nlimbs len) (h : SqLost N X j k S)
    (hkj : k ≤ j) (hl : l ≤ 1) (h0 : k = 0 → l = 0)
    (hk : S = ∅ → j + k + 1 < N → ∀ i, i + 1 = k → (SquareKeeps X i j ↔ l = 0)) :
    ∃ S', SqLost N X j (k + 1) S' ∧ (S' = ∅ → S = ∅) ∧
      lossSum (RingOf len) S' = lossSum (RingOf len) S + (B : RingOf len) ^ (j + k + 1) * l := by
  classical
  by_cases hc : l = 1 ∧ j + k + 1 < N
  · obtain ⟨rfl, hc⟩ := hc
    have hnm : (j, k) ∉ S := fun hm => by have := h.mem _ hm; dsimp only at this; omega
    refine ⟨insert (j, k) S, ⟨?_, ?_⟩, fun he => absurd he (Finset.insert_ne_empty _ _), ?_⟩
    · intro p hp
      rcases Finset.mem_insert.1 hp with rfl | hp
      · exact ⟨hkj, hc, Or.inr ⟨rfl, Nat.lt_succ_self _⟩⟩
      · have := h.mem p hp
        omega
    · refine iff_of_false (Finset.insert_ne_empty _ _) fun hall => ?_
      have hS : S = ∅ := h.iff.2 fun i j' h1 h2 h3 => hall i j' h1 h2 (by omega)
      rcases Nat.eq_zero_or_pos k with hk0 | hk0
      · have := h0 hk0
        omega
      · have h1 := (hk hS hc (k - 1) (by omega)).1 (hall (k - 1) j (by omega) (by omega) (by omega))
        omega
    · unfold lossSum
      rw [Finset.sum_insert hnm, Nat.cast_one, mul_one, add_comm]
  · refine ⟨S, ⟨fun p hp => ?_, ?_⟩, id, ?_⟩
    · have := h.mem p hp
      omega
    · constructor
      · intro hS i j' h1 h2 h3
        by_cases h4 : j' = j ∧ i + 1 = k
        · obtain ⟨rfl, rfl⟩ := h4
          exact (hk hS (by omega) i rfl).2 (by omega)
        · exact h.iff.1 hS i j' h1 h2 (by omega)
      · intro hall
        exact h.iff.2 fun i j' h1 h2 h3 => hall i j' h1 h2 (by omega)
    · rcases Nat.eq_zero_or_pos l with rfl | hl0
      · rw [Nat.cast_zero, mul_zero, add_zero]
      · rw [ring_pow_zero (by omega), zero_mul, add_zero]

/-- The state after `k` of the products with the `j`-th limb; the carry is the right one if nothing was lost. -/
def SqRState (N x j k q c : ℕ) (S : Finset (ℕ × ℕ)) : Prop :=
  q < B ∧ c ≤ 4 ∧ (∀ i, i + 1 = k → q = (x / B ^ j % B) * (x / B ^ i % B) / B) ∧ (k = 0 → q = 0 ∧ c = 0) ∧
  (S = ∅ → j + k < N → 2 * q + c = sqCarry x j k)

/-- What gets lost by the next step. -/
theorem SqRState.loss {N x j k q c : ℕ} {S} (h : SqRState N x j k q c S) :
    (wmul q 2 + c) / B ≤ 1 ∧ (k = 0 → (wmul q 2 + c) / B = 0) ∧
    (S = ∅ → j + k + 1 < N → ∀ i, i + 1 = k → (SquareKeeps x i j ↔ (wmul q 2 + c) / B = 0)) := by
  obtain ⟨h1, h2, h3, h4, h5⟩ := h
  obtain ⟨d1, d2, d3, d4⟩ := dbl_spec h1
  have h8 : 8 ≤ B := by have := half_ge; have := B_half'; omega
  refine ⟨Nat.lt_succ_iff.1 (Nat.div_lt_of_lt_mul (by omega)), fun hk => ?_, fun hS hN i hi => ?_⟩
  · obtain ⟨rfl, rfl⟩ := h4 hk
    unfold wmul
    simp
  · have h6 := h5 hS (by omega)
    have h7 := h3 i hi
    unfold SquareKeeps
    rw [hi, ← h6, Nat.mul_comm (x / B ^ i % B), ← h7, d2]
    rw [show wmul q 2 + shr q (W - 1) * B + c = wmul q 2 + c + shr q (W - 1) * B by omega,
      Nat.add_mul_div_right _ _ B_pos, Nat.add_mul_div_right _ _ B_pos, Nat.div_eq_of_lt d3]
    omega

/-- Stores, seen modulo fewer bytes. -/
theorem ring_down {L len x y i w v : ℕ} (hL : L ≤ len)
    (h : (x : RingOf len) = y - (B : RingOf len) ^ i * (w : ℕ) + (B : RingOf len) ^ i * v) :
    (x : RingOf L) = y - (B : RingOf L) ^ i * (w : ℕ) + (B : RingOf L) ^ i * v := by
  have := congrArg (ZMod.castHom (pow_dvd_pow 256 hL) (RingOf L)) h
  simpa only [map_add, map_sub, map_mul, map_pow, map_natCast] using this

theorem sq_dig_low {N s X j i L : ℕ} (hN : N = ct_mp_nlimbs L)
    (hr : (s : RingOf L) = (X % B ^ (j + 1) : ℕ) + X ^ 2 - (X % B ^ (j + 1) : ℕ) ^ 2)
    (hj : j < i) (hi : i + 1 < N) :
    s / B ^ i % B = (X ^ 2 - (X % B ^ (j + 1)) ^ 2) / B ^ i % B := by
  rw [← sq_dig (s := s % 256 ^ L) hN (Nat.mod_lt _ (by positivity)) (by rw [ZMod.natCast_mod]; exact hr) hj hi]
  refine dig_congr (j := i + 1) ?_ (Nat.lt_succ_self _)
  rw [Nat.mod_mod_of_dvd _ (pow_dvd_len (by omega))]

theorem ct_square_cross_rel {a t : Buf f} {j k n v q c m : ℕ} {X : ℕ} {S : Finset (ℕ × ℕ)} {L : ℕ} (hL : L ≤ a.len) (htl : t.len = a.len)
    (htm : t.toNat % B ^ j = X % B ^ j) (hn : n = a.nlimbs - j) (hkj : k < j) (hkn : k < n)
    (hv : v = X / B ^ j % B) (hm : m = a.partial_high_mask)
    (hI : SqRState (ct_mp_nlimbs L) X j k q c S) (hS : SqLost (ct_mp_nlimbs L) X j k S)
    (hR : S = ∅ → j + k + 1 < ct_mp_nlimbs L →
      t.toNat / B ^ (j + k) % B = (X ^ 2 - (X % B ^ (j + 1)) ^ 2) / B ^ (j + k) % B) :
    RSat (ct_square_cross j n v m k (t, q, c)) (fun st =>
      st.1.len = a.len ∧ st.1.toNat % B ^ j = X % B ^ j ∧
      st.1.toNat / B ^ (j + k + 1) = t.toNat / B ^ (j + k + 1) ∧
      ∃ S', SqRState (ct_mp_nlimbs L) X j (k + 1) st.2.1 st.2.2 S' ∧ SqLost (ct_mp_nlimbs L) X j (k + 1) S' ∧ (S' = ∅ → S = ∅) ∧
      (st.1.toNat : RingOf L) + (B : RingOf L) ^ (j + (k + 1)) * (2 * st.2.1 + st.2.2)
          + lossSum (RingOf L) S'
        = t.toNat + (B : RingOf L) ^ (j + k) * (2 * q + c)
          + 2 * (B : RingOf L) ^ (j + k) * v * (X / B ^ k % B : ℕ) + lossSum (RingOf L) S) := by
  unfold ct_square_cross
  dsimp only
  have htn : t.nlimbs = a.nlimbs := Buf.nlimbs_congr htl
  have hqB : q < B := hI.1
  have hvB : v < B := by rw [hv]; exact dig_lt _ _
  have h8 : 8 ≤ B := by have := half_ge; have := B_half'; omega
  have htd : t.toNat / B ^ k % B = X / B ^ k % B := dig_congr htm hkj
  refine RSat.bind (t.sat_load_l (by omega) (Q := fun l => l = X / B ^ k % B) htd).rel ?_
  intro u hu
  have huB : u < B := by rw [hu]; exact dig_lt _ _
  rw [ct_mul_l_l_eq hvB huB, M.pure_bind]
  refine RSat.bind (t.sat_load_l (by omega) (Q := fun l => l = t.toNat / B ^ (j + k) % B) rfl).rel ?_
  intro R hR0
  rw [← hR0] at hR
  have hRB : R < B := by rw [hR0]; exact dig_lt _ _
  refine RSat.bind (P := fun _ => True) (RSat.assert trivial) fun _ _ => ?_
  refine RSat.bind (P := fun _ => True) (RSat.assert trivial) fun _ _ => ?_
  obtain ⟨f1, f2, f3, f4⟩ := dbl_spec hqB
  refine RSat.bind addL_rel ?_
  intro y hy
  have hyB : y < B := by rw [hy]; exact Nat.mod_lt _ B_pos
  obtain ⟨o1, o2, o3⟩ := hI.loss
  obtain ⟨S', hS1, hS2, hS3⟩ := hS.step rfl hkj.le o1 o2 o3
  have hye := Nat.mod_add_div (wmul q 2 + c) B
  rw [← hy] at hye
  have hl0 : S' = ∅ → j + k + 1 < ct_mp_nlimbs L → (wmul q 2 + c) / B = 0 := by
    intro he hlt
    rcases Nat.eq_zero_or_pos k with hk0 | hk0
    · exact o2 hk0
    · refine (o3 (hS2 he) hlt (k - 1) (by omega)).1 (hS1.iff.1 he (k - 1) j (by omega) (by omega) (by omega))
  generalize (wmul q 2 + c) / B = l at *
  rw [ct_add_l_l_eq hRB hyB]
  dsimp only
  obtain ⟨g1, g2, g3, g4⟩ := dbl_spec (Nat.mod_lt (v * u) B_pos)
  rw [ct_add_l_l_eq (Nat.mod_lt _ B_pos) g3]
  dsimp only
  have hph := mul_high_le hvB huB
  have hpe := Nat.mod_add_div (v * u) B
  have hpl := Nat.mod_lt (v * u) B_pos
  have hqh : ∀ i, i + 1 = k + 1 → v * u / B = (X / B ^ j % B) * (X / B ^ i % B) / B := by
    intro i hi
    obtain rfl : i = k := by omega
    rw [hv, hu]
  have hK := sqCarry_succ X j k
  rw [← hu, ← hv] at hK
  generalize v * u / B = qh at *
  generalize v * u % B = ql at *
  have e1 := Nat.mod_add_div (R + y) B
  have k1 := add_div_le_one hRB hyB
  have l1 := Nat.mod_lt (R + y) B_pos
  generalize (R + y) % B = r1 at *
  generalize (R + y) / B = c1 at *
  have e2 := Nat.mod_add_div (r1 + wmul ql 2) B
  have k3 := add_div_le_one l1 g3
  have l2 := Nat.mod_lt (r1 + wmul ql 2) B_pos
  generalize (r1 + wmul ql 2) % B = r2 at *
  generalize (r1 + wmul ql 2) / B = c3 at *
  have hI' : SqRState (ct_mp_nlimbs L) X j (k + 1) qh (shr q (W - 1) + c1 + shr ql (W - 1) + c3) S' := by
    refine ⟨by omega, by omega, hqh, by omega, fun he hlt => ?_⟩
    have hz := hl0 he (by omega)
    subst hz
    rw [hK, ← hR (hS2 he) (by omega), ← hI.2.2.2.2 (hS2 he) (by omega)]
    have : 2 * q + c + R + 2 * (v * u)
        = r2 + B * (2 * qh + (shr q (W - 1) + c1 + shr ql (W - 1) + c3)) := by
      rw [← hpe]
      rw [Nat.mul_comm _ B] at f2 g2
      simp only [Nat.mul_add, Nat.mul_left_comm B 2 qh]
      omega
    rw [this, Nat.add_mul_div_left _ _ B_pos, Nat.div_eq_of_lt l2, Nat.zero_add]
  rw [M.addL_eq (by omega), M.pure_bind, M.addL_eq (by omega), M.pure_bind, M.addL_eq (by omega),
    M.pure_bind]
  refine RSat.bind (P := fun _ => True) (RSat.assert trivial) fun _ _ => ?_
  refine RSat.bind (P := fun _ => True) (RSat.assert trivial) fun _ _ => ?_
  obtain ⟨hc1, hc2⟩ := store_full_cond (b0 := a) hn rfl hkn
  refine RSat.bind (sat_store_ring htl (by omega) l2 hc1 hc2 hm).rel ?_
  rintro t' ⟨ht1, ht2, ht3, ht4⟩
  refine RSat.pure ⟨ht1, (ht3 j (by omega)).trans htm, ht4, S', hI', hS1, hS2, ?_⟩
  dsimp only
  rw [ring_down hL ht2, ← hR0, ← hu, hS3]
  have E1 := congrArg (Nat.cast : ℕ → RingOf L) e1
  have E2 := congrArg (Nat.cast : ℕ → RingOf L) e2
  have E3 := congrArg (Nat.cast : ℕ → RingOf L) g2
  have E4 := congrArg (Nat.cast : ℕ → RingOf L) f2
  have E5 := congrArg (Nat.cast : ℕ → RingOf L) hpe
  have E6 := congrArg (Nat.cast : ℕ → RingOf L) hye
  push_cast at E1 E2 E3 E4 E5 E6 ⊢
  linear_combination (B : RingOf L) ^ (j + k) * (E1 + E2 - E3 - E4 + 2 * E5 + E6)

theorem ct_square_diag_rel {a t : Buf f} {j n v q c m : ℕ} {X : ℕ} {S : Finset (ℕ × ℕ)} {L : ℕ} (hL : L ≤ a.len) (htl : t.len = a.len)
    (htm : t.toNat % B ^ j = X % B ^ j) (hn : n = a.nlimbs - j) (hjn : j < n)
    (hv : v < B) (hm : m = a.partial_high_mask) (hI : SqRState (ct_mp_nlimbs L) X j j q c S)
    (hS : SqLost (ct_mp_nlimbs L) X j j S) :
    RSat (ct_square_diag j n v m (t, q, c)) (fun t' =>
      t'.len = a.len ∧ t'.toNat % B ^ j = X % B ^ j ∧ ∃ S', SqLost (ct_mp_nlimbs L) X j (j + 1) S' ∧
      (t'.toNat : RingOf L) + lossSum (RingOf L) S'
        = t.toNat + (B : RingOf L) ^ (2 * j) * (2 * q + c + v * v) + lossSum (RingOf L) S) := by
  unfold ct_square_diag
  dsimp only
  have htn : t.nlimbs = a.nlimbs := Buf.nlimbs_congr htl
  have hqB : q < B := hI.1
  have h8 : 8 ≤ B := by have := half_ge; have := B_half'; omega
  rw [ct_mul_l_l_eq hv hv, M.pure_bind]
  refine RSat.bind (t.sat_load_l (by omega) (Q := fun l => l = t.toNat / B ^ (2 * j) % B) rfl).rel ?_
  intro R hR
  have hRB : R < B := by rw [hR]; exact dig_lt _ _
  refine RSat.bind (P := fun _ => True) (RSat.assert trivial) fun _ _ => ?_
  refine RSat.bind (P := fun _ => True) (RSat.assert trivial) fun _ _ => ?_
  obtain ⟨f1, f2, f3, f4⟩ := dbl_spec hqB
  refine RSat.bind addL_rel ?_
  intro y hy
  have hyB : y < B := by rw [hy]; exact Nat.mod_lt _ B_pos
  obtain ⟨o1, o2, o3⟩ := hI.loss
  obtain ⟨S', hS1, hS2, hS3⟩ := hS.step rfl le_rfl o1 o2 o3
  have hye := Nat.mod_add_div (wmul q 2 + c) B
  rw [← hy] at hye
  generalize (wmul q 2 + c) / B = l at *
  rw [ct_add_l_l_eq hRB hyB]
  dsimp only
  have hpl := Nat.mod_lt (v * v) B_pos
  rw [ct_add_l_l_eq (Nat.mod_lt _ B_pos) hpl]
  dsimp only
  have hph := mul_high_le hv hv
  have hpe := Nat.mod_add_div (v * v) B
  generalize v * v / B = qh at *
  generalize v * v % B = ql at *
  have e1 := Nat.mod_add_div (R + y) B
  have k1 := add_div_le_one hRB hyB
  have l1 := Nat.mod_lt (R + y) B_pos
  generalize (R + y) % B = r1 at *
  generalize (R + y) / B = c1 at *
  have e2 := Nat.mod_add_div (r1 + ql) B
  have k3 := add_div_le_one l1 hpl
  have l2 := Nat.mod_lt (r1 + ql) B_pos
  generalize (r1 + ql) % B = r2 at *
  generalize (r1 + ql) / B = c2 at *
  rw [M.addL_eq (by omega), M.pure_bind, M.addL_eq (by omega), M.pure_bind]
  refine RSat.bind (sat_store_ring htl (by omega) l2 (fun h => ?_) (fun h => by omega) hm).rel ?_
  · exact full_of_lt_pred (by rw [← Buf.nlimbs_eq]; omega)
  rintro t' ⟨ht1, ht2, ht3, -⟩
  refine RSat.bind (Sat.forRange (P := fun k (st : Buf f × ℕ × ℕ) =>
    st.1.len = a.len ∧ st.1.toNat % B ^ j = X % B ^ j ∧ st.2.1 < B ∧ st.2.2 ≤ 3 ∧
    (st.1.toNat : RingOf L) + (B : RingOf L) ^ (j + k) * (st.2.1 + st.2.2)
        + (B : RingOf L) ^ (2 * j + 1) * l
      = t.toNat + (B : RingOf L) ^ (2 * j) * (2 * q + c + v * v)) (by omega) ?_ ?_).rel ?_
  · refine ⟨ht1, (ht3 j (by omega)).trans htm, by dsimp only; omega, by dsimp only; omega, ?_⟩
    dsimp only
    rw [ring_down hL ht2, ← hR]
    have E1 := congrArg (Nat.cast : ℕ → RingOf L) e1
    have E2 := congrArg (Nat.cast : ℕ → RingOf L) e2
    have E4 := congrArg (Nat.cast : ℕ → RingOf L) f2
    have E5 := congrArg (Nat.cast : ℕ → RingOf L) hpe
    have E6 := congrArg (Nat.cast : ℕ → RingOf L) hye
    push_cast at E1 E2 E4 E5 E6 ⊢
    linear_combination (B : RingOf L) ^ (2 * j) * (E1 + E2 - E4 + E5 + E6)
  · clear e1 e2 k1 k3 ht1 ht2 ht3 hph hpe f1 f2 f3 f4 hR l1 l2 hI hS o1 o2 o3 hS1 hS2 hS3 hy hye
    rintro k ⟨s, p, c⟩ - hk ⟨hsl, hsm, hp, hc, hsr⟩
    dsimp only at *
    have hsn : s.nlimbs = a.nlimbs := Buf.nlimbs_congr hsl
    refine Sat.bind (s.sat_load_l (by omega) (Q := fun l => l = s.toNat / B ^ (j + k) % B) rfl) ?_
    intro R hR
    have hRB : R < B := by rw [hR]; exact dig_lt _ _
    rw [ct_add_l_l_eq hRB hp]
    dsimp only
    rw [ct_add_l_l_eq (Nat.mod_lt _ B_pos) (by omega)]
    dsimp only
    have e1 := Nat.mod_add_div (R + p) B
    have k1 := add_div_le_one hRB hp
    have l1 := Nat.mod_lt (R + p) B_pos
    generalize (R + p) % B = r1 at *
    generalize (R + p) / B = c1 at *
    have e2 := Nat.mod_add_div (r1 + c) B
    have k3 := add_div_le_one l1 (show c < B by omega)
    have l2 := Nat.mod_lt (r1 + c) B_pos
    generalize (r1 + c) % B = r2 at *
    generalize (r1 + c) / B = c2 at *
    rw [M.addL_eq (by omega), M.pure_bind]
    obtain ⟨hc1, hc2⟩ := store_full_cond (b0 := a) hn rfl hk
    refine Sat.bind (sat_store_ring hsl (by omega) l2 hc1 hc2 hm) ?_
    rintro s' ⟨hs1, hs2, hs3, -⟩
    refine Sat.pure ⟨hs1, (hs3 j (by omega)).trans hsm, B_pos, by dsimp only; omega, ?_⟩
    dsimp only
    rw [ring_down hL hs2, ← hR]
    have E1 := congrArg (Nat.cast : ℕ → RingOf L) e1
    have E2 := congrArg (Nat.cast : ℕ → RingOf L) e2
    push_cast at E1 E2 hsr ⊢
    linear_combination hsr + (B : RingOf L) ^ (j + k) * (E1 + E2)
  · rintro ⟨s, p, c⟩ ⟨hsl, hsm, hp, hc, hsr⟩
    refine RSat.pure ⟨hsl, hsm, S', hS1, ?_⟩
    dsimp only at *
    rw [ring_pow_zero (by have := nlimbs_mono hL; rw [← Buf.nlimbs_eq] at this; omega)] at hsr
    rw [hS3, ← two_mul]
    linear_combination hsr

/-- The result of squaring in a release build, for all operands. -/
theorem ct_square_trunc_mp_rel (a : Buf f) (n : ℕ) (hn : n ≤ a.len) {L : ℕ} (hL : L ≤ a.len) :
    RSat (ct_square_trunc_mp a n) (fun a' => a'.len = a.len ∧ ∃ S, SqLostRows (ct_mp_nlimbs L) (a.toNat % 256 ^ n) 0 S ∧
      (a'.toNat : RingOf L) + lossSum (RingOf L) S = ((a.toNat % 256 ^ n : ℕ) : RingOf L) ^ 2) := by
  unfold ct_square_trunc_mp
  rw [M.assert_eq hn, M.pure_bind]
  dsimp only
  refine RSat.bind (Buf.sat_clear_bytes_above a n
    (Q := fun a1 => a1.len = a.len ∧ a1.toNat = a.toNat % 256 ^ n) fun a1 h1 h2 => ⟨h1, h2⟩).rel ?_
  rintro a1 ⟨ha1, hX⟩
  generalize hXd : a.toNat % 256 ^ n = X at *
  have hXn : X < B ^ ct_mp_nlimbs n := by
    rw [← hXd]; exact lt_of_lt_of_le (Nat.mod_lt _ (by positivity)) (pow_len_le n)
  have hnN : ct_mp_nlimbs n ≤ a.nlimbs := by rw [Buf.nlimbs_eq]; exact nlimbs_mono hn
  have hLN : ct_mp_nlimbs L ≤ a.nlimbs := by rw [Buf.nlimbs_eq]; exact nlimbs_mono hL
  have hz : ∀ i, a.nlimbs ≤ i → (B : RingOf L) ^ i = 0 := fun i h =>
    ring_pow_zero (hLN.trans h)
  refine (RSat.forDown (fun j (st : Buf f) => st.len = a.len ∧ st.toNat % B ^ j = X % B ^ j ∧
    ∃ S, SqLostRows (ct_mp_nlimbs L) X j S ∧
    (st.toNat : RingOf L) + lossSum (RingOf L) S = (X % B ^ j : ℕ) + X ^ 2 - (X % B ^ j : ℕ) ^ 2)
    ?_ ?_).mono ?_
  · refine ⟨ha1, by rw [hX], ∅, ⟨fun p hp => absurd hp (Finset.notMem_empty p), iff_of_true rfl ?_⟩, ?_⟩
    · intro i j' h1 h2 h3
      have h0 : ∀ m, j' ≤ m → X / B ^ m = 0 := fun m hm =>
        Nat.div_eq_of_lt (lt_of_lt_of_le hXn (Nat.pow_le_pow_right B_pos (by omega)))
      have h4 : X % B ^ (j' + 1) = X :=
        Nat.mod_eq_of_lt (lt_of_lt_of_le hXn (Nat.pow_le_pow_right B_pos (by omega)))
      unfold SquareKeeps sqCarry
      simp [h0 j' le_rfl, h4]
    · rw [hX, Nat.mod_eq_of_lt hXn]; simp [lossSum]
  · rintro j s hj ⟨hsl, hsm, S0, hS0, hsr⟩
    have hsn : s.nlimbs = a.nlimbs := Buf.nlimbs_congr hsl
    obtain ⟨v, hv⟩ : ∃ v, v = X / B ^ j % B := ⟨_, rfl⟩
    have hvB : v < B := by rw [hv]; exact dig_lt _ _
    have hsd : s.toNat / B ^ j % B = v := by rw [hv]; exact dig_congr hsm (Nat.lt_succ_self _)
    have hsm' : s.toNat % B ^ j = X % B ^ j := mod_congr hsm (Nat.le_succ _)
    refine RSat.bind (s.sat_load_l (by omega) (Q := fun l => l = v) hsd).rel ?_
    intro l hl; subst l
    refine RSat.bind (s.sat_store_l (by omega) B_pos (fun _ => by positivity)
      (Q := fun s' => s'.len = a.len ∧ s'.toNat = upd s.toNat j 0) ?_).rel ?_
    · intro b' h1 h2; exact ⟨h1.trans hsl, h2⟩
    rintro s1 ⟨hs1l, hs1⟩
    rw [M.sub_eq (by omega), M.pure_bind]
    have hs1r : (s1.toNat : RingOf L) = s.toNat - (B : RingOf L) ^ j * v := by
      rw [hs1, cast_upd, hsd]; simp only [Nat.cast_zero, mul_zero, add_zero]
    have hs1m : s1.toNat % B ^ j = X % B ^ j := by rw [hs1, upd_mod _ _ _ le_rfl, hsm']
    have hs1d : ∀ k, j < k → s1.toNat / B ^ k = s.toNat / B ^ k := fun k hk => by
      rw [hs1, upd_div B_pos hk]
    have hs10 : s1.toNat / B ^ j % B = 0 := by rw [hs1, upd_dig B_pos]
    clear hs1 hsd hsm
    have h8 := half_ge
    have hB8 := B_half'
    refine RSat.bind (RSat.forRange (fun k (st : Buf f × ℕ × ℕ) =>
      st.1.len = a.len ∧ st.1.toNat % B ^ j = X % B ^ j ∧ st.1.toNat / B ^ (j + k) = s1.toNat / B ^ (j + k) ∧
      ∃ S, SqRState (ct_mp_nlimbs L) X j k st.2.1 st.2.2 S ∧ SqLost (ct_mp_nlimbs L) X j k S ∧ (S = ∅ → S0 = ∅) ∧
      (st.1.toNat : RingOf L) + (B : RingOf L) ^ (j + k) * (2 * st.2.1 + st.2.2) + lossSum (RingOf L) S
        = s1.toNat + 2 * (B : RingOf L) ^ j * v * (X % B ^ k : ℕ) + lossSum (RingOf L) S0)
      (Nat.zero_le _) ?_ ?_) ?_
    · refine ⟨hs1l, hs1m, rfl, S0, ⟨B_pos, by dsimp only; omega,
        fun i hi => by omega, fun _ => ⟨rfl, rfl⟩, fun _ _ => by simp [sqCarry_zero]⟩, hS0.start, id, ?_⟩
      simp [Nat.mod_one]
    · rintro k ⟨t, q, c⟩ - hk ⟨htl, htm, htd, S, hI, hS, hSS, htr⟩
      have hk1 : k < j := lt_of_lt_of_le hk (min_le_left _ _)
      have hk2 : k < a.nlimbs - j := lt_of_lt_of_le hk (min_le_right _ _)
      refine (ct_square_cross_rel hL htl htm rfl hk1 hk2 hv rfl hI hS fun hS' hlt => ?_).mono ?_
      · dsimp only at htd
        rw [htd]
        rcases Nat.eq_zero_or_pos k with rfl | hk0
        · rw [Nat.add_zero, hs10]
          obtain ⟨E, hE⟩ : B ^ (j + 1) ∣ X ^ 2 - (X % B ^ (j + 1)) ^ 2 := by
            rw [Nat.sq_sub_sq]
            exact Dvd.dvd.mul_left (Nat.dvd_sub_mod X) _
          rw [hE, pow_succ, Nat.mul_assoc, Nat.mul_div_cancel_left _ (B_pow_pos _),
            Nat.mul_mod_right]
        · rw [hs1d _ (by omega)]
          refine sq_dig_low rfl ?_ (by omega) hlt
          rw [hSS hS'] at hsr
          simpa [lossSum] using hsr
      rintro ⟨t', q', c'⟩ ⟨h1, h2, h5, S', h3, h6, h7, h4⟩
      refine ⟨h1, h2, ?_, S', h3, h6, fun h => hSS (h7 h), ?_⟩
      · dsimp only at htd h5 ⊢
        rw [← Nat.add_assoc, h5, pow_succ, ← Nat.div_div_eq_div_mul, ← Nat.div_div_eq_div_mul, htd]
      dsimp only at *
      rw [h4, cast_mod_succ]
      linear_combination htr
    · rintro ⟨t, q, c⟩ ⟨htl, htm, -, S, hI, hS, -, htr⟩
      dsimp only at *
      refine RSat.cond (fun hle => ?_) fun hle => ?_
      · refine RSat.pure ?_
        rw [min_eq_right hle] at htr hS
        refine ⟨htl, htm, S, hS.rows fun i h1 h2 => by omega, ?_⟩
        have h0 := hz (j + (a.nlimbs - j)) (by omega)
        have e3 := cast_low_high (R := RingOf L) (X % B ^ j) (a.nlimbs - j)
        rw [Nat.mod_mod_of_dvd _ (pow_dvd_pow B hle)] at e3
        have h1 := hz (2 * j) (by omega)
        rw [cast_mod_succ, ← hv] at hsr
        rw [hs1r] at htr
        rw [pow_add] at htr h0
        generalize (B : RingOf L) ^ (a.nlimbs - j) = b at *
        have h2 : (B : RingOf L) ^ j * (B : RingOf L) ^ j = 0 := by
          rw [← pow_add, ← two_mul]; exact h1
        generalize (B : RingOf L) ^ j = bj at *
        linear_combination htr + hsr - (2 * (q : RingOf L) + c) * h0 - 2 * bj * v * e3
          - 2 * v * ((X % B ^ j / B ^ (a.nlimbs - j) : ℕ) : RingOf L) * h0
          - (v : RingOf L) ^ 2 * h2
      · rw [min_eq_left (by omega)] at htr hI hS
        refine (ct_square_diag_rel hL htl htm rfl (by omega) hvB rfl hI hS).mono ?_
        rintro t' ⟨h1, h2, S', h4, h3⟩
        refine ⟨h1, h2, S', h4.rows fun i h5 h6 => by omega, ?_⟩
        rw [cast_mod_succ, ← hv] at hsr
        rw [hs1r] at htr
        rw [h3]
        linear_combination htr + hsr
  · rintro s ⟨h1, -, S, h2, h3⟩
    refine ⟨h1, S, h2, ?_⟩
    rw [h3]; simp [Nat.mod_one]

/-- Losses don't cancel out, if the highest limb has more values than there are limbs. -/
theorem lossSum_ne {N X len : ℕ} {S : Finset (ℕ × ℕ)} (hN : N = ct_mp_nlimbs len) (h : SqLostRows N X 0 S)
    (hS : S.Nonempty) (hc : N < 256 ^ (len - (N - 1) * LB)) : lossSum (RingOf len) S ≠ 0 := by
  classical
  obtain ⟨p0, hp0, hmin⟩ := Finset.exists_min_image S (fun p => p.1 + p.2 + 1) hS
  have hp1 := (h.mem p0 hp0).2.1
  obtain ⟨e, he⟩ : ∃ e, e = p0.1 + p0.2 + 1 := ⟨_, rfl⟩
  rw [← he] at hmin hp1
  intro h0
  have h1 : lossSum (RingOf len) S = ((∑ p ∈ S, B ^ (p.1 + p.2 + 1) : ℕ) : RingOf len) := by
    unfold lossSum; push_cast; rfl
  rw [h1, ZMod.natCast_eq_zero_iff] at h0
  rw [← Finset.sum_filter_add_sum_filter_not S (fun p => p.1 + p.2 + 1 = e)] at h0
  rw [Finset.sum_congr rfl (g := fun _ => B ^ e) (fun p hp => by rw [(Finset.mem_filter.1 hp).2]), Finset.sum_const,
    smul_eq_mul] at h0
  obtain ⟨m, hm⟩ : B ^ (e + 1) ∣ ∑ p ∈ S with ¬ p.1 + p.2 + 1 = e, B ^ (p.1 + p.2 + 1) :=
    Finset.dvd_sum fun p hp => by
      obtain ⟨h2, h3⟩ := Finset.mem_filter.1 hp
      have := hmin p h2
      exact pow_dvd_pow _ (by omega)
  rw [hm] at h0
  have hlt : (N - 1) * LB < len := lt_nlimbs_iff.1 (by omega)
  have hle : len ≤ N * LB := by rw [hN]; exact le_nlimbs_mul len
  have hNs : N * LB = (N - 1) * LB + LB := by
    obtain ⟨k, rfl⟩ : ∃ k, N = k + 1 := ⟨N - 1, by omega⟩
    rw [Nat.add_sub_cancel, Nat.add_mul, one_mul]
  generalize hr : len - (N - 1) * LB = r at *
  have h2 : B ^ e * 256 ^ r ∣ 256 ^ len := by
    rw [show len = (N - 1) * LB + r by omega, pow_add, pow_256]
    exact Nat.mul_dvd_mul (pow_dvd_pow _ (by omega)) dvd_rfl
  have h3 : 256 ^ r ∣ B := by
    have : B = 256 ^ LB := by have := pow_256 1; rw [one_mul, pow_one] at this; exact this.symm
    rw [this]
    exact pow_dvd_pow _ (by omega)
  have h4 := h2.trans h0
  rw [Nat.mul_comm _ (B ^ e), pow_succ, Nat.mul_assoc, ← Nat.mul_add] at h4
  have h5 := Nat.dvd_of_mul_dvd_mul_left (B_pow_pos e) h4
  have h6 := (Nat.dvd_add_left (h3.mul_right m)).1 h5
  have h7 : 0 < (S.filter fun p => p.1 + p.2 + 1 = e).card :=
    Finset.card_pos.2 ⟨p0, Finset.mem_filter.2 ⟨hp0, he.symm⟩⟩
  have h8 : (S.filter fun p => p.1 + p.2 + 1 = e).card ≤ N := by
    calc _ ≤ (Finset.range N).card := by
          refine Finset.card_le_card_of_injOn Prod.fst (fun p hp => ?_) ?_
          · have hp' := Finset.mem_filter.1 (Finset.mem_coe.1 hp)
            rw [Finset.coe_range, Set.mem_Iio]
            omega
          · intro p hp q hq hpq
            have hp' := (Finset.mem_filter.1 (Finset.mem_coe.1 hp)).2
            have hq' := (Finset.mem_filter.1 (Finset.mem_coe.1 hq)).2
            exact Prod.ext hpq (by omega)
      _ = N := Finset.card_range N
  have := Nat.le_of_dvd h7 h6
  omega

/-- Nothing gets lost on the way to the low `N` limbs of the square. -/
def SqKept (N x : ℕ) : Prop := ∀ i j, i < j → i + j + 2 < N → SquareKeeps x i j

theorem ct_square_trunc_mp_kept (a : Buf f) (n : ℕ) (hn : n ≤ a.len) (hk : SqKept a.nlimbs (a.toNat % 256 ^ n)) :
    RSat (ct_square_trunc_mp a n) (fun a' => a'.len = a.len ∧
      a'.toNat = (a.toNat % 256 ^ n) ^ 2 % 256 ^ a.len) := by
  refine (ct_square_trunc_mp_rel a n hn le_rfl).mono ?_
  rw [← Buf.nlimbs_eq]
  rintro a' ⟨h1, S, h2, h3⟩
  refine ⟨h1, ring_eq (by rw [← h1]; exact a'.toNat_lt) ?_⟩
  rw [h2.iff.2 fun i j h4 h5 _ => hk i j h4 h5] at h3
  push_cast
  simpa [lossSum] using h3

/-- The low bytes of the square, if nothing gets lost below. -/
theorem ct_square_trunc_mp_low (a : Buf f) (n : ℕ) (hn : n ≤ a.len) {L : ℕ} (hL : L ≤ a.len)
    (hk : SqKept (ct_mp_nlimbs L) (a.toNat % 256 ^ n)) :
    RSat (ct_square_trunc_mp a n) (fun a' => a'.len = a.len ∧
      a'.toNat % 256 ^ L = (a.toNat % 256 ^ n) ^ 2 % 256 ^ L) := by
  refine (ct_square_trunc_mp_rel a n hn hL).mono ?_
  rintro a' ⟨h1, S, h2, h3⟩
  refine ⟨h1, ?_⟩
  rw [h2.iff.2 fun i j h4 h5 _ => hk i j h4 h5] at h3
  rw [← Nat.ModEq, ← ZMod.natCast_eq_natCast_iff]
  push_cast
  simpa [lossSum] using h3

end Cmpa
