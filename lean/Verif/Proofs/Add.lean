import Verif.Model.Add
import Verif.Proofs.Low

/-!
# Addition, subtraction and negation of multiprecision integers
-/

set_option linter.unusedSectionVars false

namespace Cmpa
variable [LimbCfg] {f g h : Fmt}

open M

theorem select_zero_dig (c : Bool) (x i : ℕ) :
    (LimbChoice.ofBool c).select 0 (x / B ^ i % B) = (if c then x else 0) / B ^ i % B := by
  rw [LimbChoice.select_ofBool B_pos (dig_lt _ _)]
  cases c <;> simp

/-- The step of an addition with carry. -/
theorem add_step {r k x y i v k' : ℕ} (h : r + k * B ^ i = x % B ^ i + y % B ^ i)
    (h' : x / B ^ i % B + y / B ^ i % B + k = v + k' * B) :
    r + B ^ i * v + k' * B ^ (i + 1) = x % B ^ (i + 1) + y % B ^ (i + 1) := by
  rw [mod_succ, mod_succ, pow_succ]
  linear_combination h - B ^ i * h'

theorem sub_step {r w x y i v w' : ℕ} (h : r + y % B ^ i = x % B ^ i + w * B ^ i)
    (h' : x / B ^ i % B + w' * B = y / B ^ i % B + w + v) :
    r + B ^ i * v + y % B ^ (i + 1) = x % B ^ (i + 1) + w' * B ^ (i + 1) := by
  rw [mod_succ, mod_succ, pow_succ]
  linear_combination h - B ^ i * h'

/-- The last step of an addition with carry. -/
theorem add_step_high {r k x y i v k' n : ℕ} (hi : i + 1 = ct_mp_nlimbs n) (hx : x < 256 ^ n)
    (hy : y < 256 ^ n) (h : r + k * B ^ i = x % B ^ i + y % B ^ i)
    (h' : x / B ^ i % B + y / B ^ i % B + k = v + k' * 256 ^ hbytes n) :
    r + B ^ i * v + k' * 256 ^ n = x + y := by
  rw [← mod_of_fits hx, ← mod_of_fits hy, ← hi, mod_succ, mod_succ, pow_len' hi]
  linear_combination h - B ^ i * h'

theorem sub_step_high {r w x y i v w' n : ℕ} (hi : i + 1 = ct_mp_nlimbs n) (hx : x < 256 ^ n)
    (hy : y < 256 ^ n) (h : r + y % B ^ i = x % B ^ i + w * B ^ i)
    (h' : x / B ^ i % B + w' * 256 ^ hbytes n = y / B ^ i % B + w + v) :
    r + B ^ i * v + y = x + w' * 256 ^ n := by
  rw [← mod_of_fits hx, ← mod_of_fits hy, ← hi, mod_succ, mod_succ, pow_len' hi]
  linear_combination h - B ^ i * h'

theorem ct_add_cond_mp_mp_sat (a : Buf f) (b : Buf g) (c : Bool) (hl : b.nlimbs ≤ a.nlimbs)
    (hb : c = true → b.toNat < 256 ^ a.len) :
    Sat (ct_add_cond_mp_mp a b (.ofBool c)) (fun p => p.1.len = a.len ∧ p.2 ≤ 1 ∧
      p.1.toNat + p.2 * 256 ^ a.len = a.toNat + if c then b.toNat else 0) := by
  unfold ct_add_cond_mp_mp
  dsimp only
  rw [M.assert_eq hl, M.pure_bind]
  refine Sat.cond (fun hz => ?_) fun hz => ?_
  · refine Sat.pure ⟨rfl, Nat.zero_le _, ?_⟩
    have := b.toNat_lt_B
    rw [hz] at this
    have h0 : b.toNat = 0 := by simpa using this
    simp [h0]
  have hsel : ∀ i, (LimbChoice.ofBool c).select 0 (b.toNat / B ^ i % B)
    = (if c then b.toNat else 0) / B ^ i % B := select_zero_dig c _
  have hyhigh : ∀ i, b.nlimbs ≤ i → (if c then b.toNat else 0) / B ^ i % B = 0 := by
    intro i hi
    cases c
    · simp
    · simpa using b.dig_high hi
  have hylt : (if c then b.toNat else 0) < 256 ^ a.len := by
    cases c
    · simp
    · simpa using hb rfl
  generalize (if c then b.toNat else 0) = y at *
  have hN : a.nlimbs = ct_mp_nlimbs a.len := Buf.nlimbs_eq a
  have ha := a.toNat_lt
  refine Sat.bind (Sat.forRange (P := fun i s => ∃ r, Low a r i s.1 ∧ s.2 ≤ 1 ∧
    r + s.2 * B ^ i = a.toNat % B ^ i + y % B ^ i) (Nat.zero_le _)
    ⟨0, Low.zero a, by simp [Nat.mod_one]⟩ ?_) ?_
  · rintro i ⟨op0, k⟩ _ hi ⟨r, hL, hk, hr⟩
    dsimp only at *
    have hfa : i * LB + LB ≤ a.len := full_of_lt_pred (by omega)
    have hfb : i * LB + LB ≤ b.len := full_of_lt_pred (by rw [← Buf.nlimbs_eq]; omega)
    refine Sat.bind (hL.sat_load_full hfa le_rfl (Q := fun v => v = a.toNat / B ^ i % B) rfl) ?_
    rintro _ rfl
    refine Sat.bind (b.sat_load_l_full hfb (Q := fun v => v = b.toNat / B ^ i % B) rfl) ?_
    rintro _ rfl
    rw [hsel]
    obtain ⟨k', v, e, hk', hv, he⟩ := ct_add_l_l_c_spec (dig_lt a.toNat i) (dig_lt y i) hk
    rw [e, M.pure_bind]
    refine Sat.bind (hL.sat_store_full hfa hv (fun b' hb' => hb')) fun b' hb' => ?_
    exact Sat.pure ⟨_, hb', hk', add_step hr he⟩
  rintro ⟨op0, k⟩ ⟨r, hL, hk, hr⟩
  dsimp only at *
  refine Sat.bind (b.sat_load_l (by omega) (Q := fun v => v = b.toNat / B ^ (b.nlimbs - 1) % B) rfl) ?_
  rintro _ rfl
  rw [hsel]
  refine Sat.bind (Sat.forRange (P := fun i s => ∃ r, Low a r i s.1 ∧ s.2.1 ≤ 1 ∧
    (s.2.2 = y / B ^ i % B) ∧ (i < a.nlimbs → r + s.2.1 * B ^ i = a.toNat % B ^ i + y % B ^ i) ∧
    (i = a.nlimbs → r + s.2.1 * 256 ^ a.len = a.toNat + y)) (by omega)
    ⟨r, hL, hk, rfl, fun _ => hr, by omega⟩ ?_) ?_
  · rintro i ⟨op0, k, u⟩ hi1 hi ⟨r, hL, hk, hu, hr, -⟩
    dsimp only at *
    subst hu
    refine Sat.bind (hL.sat_load hi le_rfl (Q := fun v => v = a.toNat / B ^ i % B) rfl) ?_
    rintro _ rfl
    obtain ⟨k', v, e, hk', hv, he⟩ := ct_add_l_l_c_spec (dig_lt a.toNat i) (dig_lt y i) hk
    rw [e, M.pure_bind]
    have hu' : 0 = y / B ^ (i + 1) % B := (hyhigh _ (by omega)).symm
    by_cases hlast : i + 1 = a.nlimbs
    · have hai := dig_high_lt ha (hlast.trans hN)
      have hyi := dig_high_lt hylt (hlast.trans hN)
      have hc := high_carry a (len_pos_of_lt hi) hv (c := k') (by omega)
      refine Sat.cond (fun hcnd => ?_) fun hcnd => ?_
      · have hun : f.unaligned = false := hcnd.resolve_left (by omega)
        refine Sat.bind (hL.sat_store_full (full_ne a hun hi) hv (fun b' hb' => hb')) fun b' hb' => ?_
        refine Sat.pure ⟨_, hb', hk', hu', fun _ => by omega, fun _ => ?_⟩
        refine add_step_high (hlast.trans hN) ha hylt (hr hi) ?_
        rw [hbytes_ne a hun (by omega), ← B_eq_256_pow]; exact he
      · rw [Buf.partial_high_mask_congr hL.len]
        refine Sat.bind (hL.sat_store_mask hlast hv rfl (fun b' hb' => hb')) fun b' hb' => ?_
        have hsh : op0.partial_high_shift = a.partial_high_shift := by
          unfold Buf.partial_high_shift; rw [hL.len]
        rw [hsh, M.assert_eq hc.1, M.pure_bind]
        refine Sat.pure ⟨_, hb', hc.2.1, hu', fun _ => by omega, fun _ => ?_⟩
        refine add_step_high (hlast.trans hN) ha hylt (hr hi) ?_
        unfold topv
        rw [if_pos hlast, he, hc.2.2]
    · refine Sat.cond (fun hcnd => ?_) fun hcnd => absurd (Or.inl (by omega)) hcnd
      refine Sat.bind (hL.sat_store_full (full_of_lt_pred (by omega)) hv (fun b' hb' => hb'))
        fun b' hb' => ?_
      exact Sat.pure ⟨_, hb', hk', hu', fun _ => add_step (hr hi) he, fun h => by omega⟩
  · rintro ⟨op0, k, u⟩ ⟨r, hL, hk, -, -, hr⟩
    refine Sat.pure ⟨hL.len, hk, ?_⟩
    rw [hL.final le_rfl]; exact hr rfl

theorem ct_add_mp_mp_sat (a : Buf f) (b : Buf g) (hl : b.nlimbs ≤ a.nlimbs)
    (hb : b.toNat < 256 ^ a.len) :
    Sat (ct_add_mp_mp a b) (fun p => p.1.len = a.len ∧ p.2 ≤ 1 ∧
      p.1.toNat + p.2 * 256 ^ a.len = a.toNat + b.toNat) := by
  unfold ct_add_mp_mp
  rw [LimbChoice.new_one]
  exact ct_add_cond_mp_mp_sat a b true hl fun _ => hb

theorem ct_sub_cond_mp_mp_sat (a : Buf f) (b : Buf g) (c : Bool) (hl : b.nlimbs ≤ a.nlimbs)
    (hb : c = true → b.toNat < 256 ^ a.len) :
    Sat (ct_sub_cond_mp_mp a b (.ofBool c)) (fun p => p.1.len = a.len ∧ p.2 ≤ 1 ∧
      p.1.toNat + (if c then b.toNat else 0) = a.toNat + p.2 * 256 ^ a.len) := by
  unfold ct_sub_cond_mp_mp
  dsimp only
  rw [M.assert_eq hl, M.pure_bind]
  refine Sat.cond (fun hz => ?_) fun hz => ?_
  · refine Sat.pure ⟨rfl, Nat.zero_le _, ?_⟩
    have := b.toNat_lt_B
    rw [hz] at this
    have h0 : b.toNat = 0 := by simpa using this
    simp [h0]
  have hsel : ∀ i, (LimbChoice.ofBool c).select 0 (b.toNat / B ^ i % B)
    = (if c then b.toNat else 0) / B ^ i % B := select_zero_dig c _
  have hyhigh : ∀ i, b.nlimbs ≤ i → (if c then b.toNat else 0) / B ^ i % B = 0 := by
    intro i hi
    cases c
    · simp
    · simpa using b.dig_high hi
  have hylt : (if c then b.toNat else 0) < 256 ^ a.len := by
    cases c
    · simp
    · simpa using hb rfl
  generalize (if c then b.toNat else 0) = y at *
  have hN : a.nlimbs = ct_mp_nlimbs a.len := Buf.nlimbs_eq a
  have ha := a.toNat_lt
  refine Sat.bind (Sat.forRange (P := fun i s => ∃ r, Low a r i s.1 ∧ s.2 ≤ 1 ∧
    r + y % B ^ i = a.toNat % B ^ i + s.2 * B ^ i) (Nat.zero_le _)
    ⟨0, Low.zero a, by simp [Nat.mod_one]⟩ ?_) ?_
  · rintro i ⟨op0, k⟩ _ hi ⟨r, hL, hk, hr⟩
    dsimp only at *
    have hfa : i * LB + LB ≤ a.len := full_of_lt_pred (by omega)
    have hfb : i * LB + LB ≤ b.len := full_of_lt_pred (by rw [← Buf.nlimbs_eq]; omega)
    refine Sat.bind (hL.sat_load_full hfa le_rfl (Q := fun v => v = a.toNat / B ^ i % B) rfl) ?_
    rintro _ rfl
    refine Sat.bind (b.sat_load_l_full hfb (Q := fun v => v = b.toNat / B ^ i % B) rfl) ?_
    rintro _ rfl
    rw [hsel]
    obtain ⟨k', v, e, hk', hv, he⟩ := ct_sub_l_l_b_spec (dig_lt a.toNat i) (dig_lt y i) hk
    rw [e, M.pure_bind]
    refine Sat.bind (hL.sat_store_full hfa hv (fun b' hb' => hb')) fun b' hb' => ?_
    exact Sat.pure ⟨_, hb', hk', sub_step hr he⟩
  rintro ⟨op0, k⟩ ⟨r, hL, hk, hr⟩
  dsimp only at *
  refine Sat.bind (b.sat_load_l (by omega) (Q := fun v => v = b.toNat / B ^ (b.nlimbs - 1) % B) rfl) ?_
  rintro _ rfl
  rw [hsel]
  refine Sat.bind (Sat.forRange (P := fun i s => ∃ r, Low a r i s.1 ∧ s.2.1 ≤ 1 ∧
    (s.2.2 = y / B ^ i % B) ∧ (i < a.nlimbs → r + y % B ^ i = a.toNat % B ^ i + s.2.1 * B ^ i) ∧
    (i = a.nlimbs → r + y = a.toNat + s.2.1 * 256 ^ a.len)) (by omega)
    ⟨r, hL, hk, rfl, fun _ => hr, by omega⟩ ?_) ?_
  · rintro i ⟨op0, k, u⟩ hi1 hi ⟨r, hL, hk, hu, hr, -⟩
    dsimp only at *
    subst hu
    refine Sat.bind (hL.sat_load hi le_rfl (Q := fun v => v = a.toNat / B ^ i % B) rfl) ?_
    rintro _ rfl
    obtain ⟨k', v, e, hk', hv, he⟩ := ct_sub_l_l_b_spec (dig_lt a.toNat i) (dig_lt y i) hk
    rw [e, M.pure_bind]
    have hu' : 0 = y / B ^ (i + 1) % B := (hyhigh _ (by omega)).symm
    by_cases hlast : i + 1 = a.nlimbs
    · have hai := dig_high_lt ha (hlast.trans hN)
      have hyi := dig_high_lt hylt (hlast.trans hN)
      have hc := high_borrow a (len_pos_of_lt hi) hv hk hk' hai hyi he
      refine Sat.cond (fun hcnd => ?_) fun hcnd => ?_
      · have hun : f.unaligned = false := hcnd.resolve_left (by omega)
        refine Sat.bind (hL.sat_store_full (full_ne a hun hi) hv (fun b' hb' => hb')) fun b' hb' => ?_
        refine Sat.pure ⟨_, hb', hk', hu', fun _ => by omega, fun _ => ?_⟩
        refine sub_step_high (hlast.trans hN) ha hylt (hr hi) ?_
        rw [hbytes_ne a hun (by omega), ← B_eq_256_pow]; exact he
      · rw [Buf.partial_high_mask_congr hL.len]
        refine Sat.bind (hL.sat_store_mask hlast hv rfl (fun b' hb' => hb')) fun b' hb' => ?_
        have hsh : b'.partial_high_shift = a.partial_high_shift := by
          unfold Buf.partial_high_shift; rw [hb'.len]
        rw [hsh, M.assert_eq hc.1, M.pure_bind]
        refine Sat.pure ⟨_, hb', hk', hu', fun _ => by omega, fun _ => ?_⟩
        refine sub_step_high (hlast.trans hN) ha hylt (hr hi) ?_
        unfold topv
        rw [if_pos hlast]; exact hc.2
    · refine Sat.cond (fun hcnd => ?_) fun hcnd => absurd (Or.inl (by omega)) hcnd
      refine Sat.bind (hL.sat_store_full (full_of_lt_pred (by omega)) hv (fun b' hb' => hb'))
        fun b' hb' => ?_
      exact Sat.pure ⟨_, hb', hk', hu', fun _ => sub_step (hr hi) he, fun h => by omega⟩
  · rintro ⟨op0, k, u⟩ ⟨r, hL, hk, -, -, hr⟩
    refine Sat.pure ⟨hL.len, hk, ?_⟩
    rw [hL.final le_rfl]; exact hr rfl

theorem ct_sub_mp_mp_sat (a : Buf f) (b : Buf g) (hl : b.nlimbs ≤ a.nlimbs)
    (hb : b.toNat < 256 ^ a.len) :
    Sat (ct_sub_mp_mp a b) (fun p => p.1.len = a.len ∧ p.2 ≤ 1 ∧
      p.1.toNat + b.toNat = a.toNat + p.2 * 256 ^ a.len) := by
  unfold ct_sub_mp_mp
  rw [LimbChoice.new_one]
  exact ct_sub_cond_mp_mp_sat a b true hl fun _ => hb

/-! ### Adding or subtracting a limb -/

theorem assert_limb_fits {v n : ℕ} (hv : v < B) (h : v < 256 ^ n) :
    M.assertM (do let k ← ct_find_last_set_byte_l v; pure (decide (k ≤ n))) = pure () := by
  rw [ct_find_last_set_byte_l_eq hv, M.pure_bind]
  refine M.assertM_eq (Sat.pure ?_)
  simpa using (isByteLen_size _).le.2 h

theorem ct_add_mp_l_sat (a : Buf f) {z : ℕ} (hz : z < B) (hz' : z < 256 ^ a.len) :
    Sat (ct_add_mp_l a z) (fun p => p.1.len = a.len ∧ p.2 ≤ 1 ∧
      p.1.toNat + p.2 * 256 ^ a.len = a.toNat + z) := by
  unfold ct_add_mp_l
  dsimp only
  rw [assert_limb_fits hz hz', M.pure_bind]
  have hN : a.nlimbs = ct_mp_nlimbs a.len := Buf.nlimbs_eq a
  have ha := a.toNat_lt
  refine Sat.cond (fun h0 => ?_) fun h0 => ?_
  · have : a.len = 0 := nlimbs_zero_iff.1 (by omega)
    rw [this] at hz'
    exact Sat.pure ⟨rfl, Nat.zero_le _, by simp at hz'; simp [hz']⟩
  have hadd : ∀ i k r : ℕ, k < B → r + k * B ^ i = a.toNat % B ^ i + z →
      r + B ^ i * ((a.toNat / B ^ i % B + k) % B) + (a.toNat / B ^ i % B + k) / B * B ^ (i + 1)
        = a.toNat % B ^ (i + 1) + z := by
    intro i k r _ h
    have := Nat.mod_add_div (a.toNat / B ^ i % B + k) B
    rw [mod_succ, pow_succ]
    linear_combination h + B ^ i * this
  refine Sat.bind (Sat.forRange (P := fun i s => ∃ r, Low a r i s.1 ∧ s.2 < B ∧
    (0 < i → s.2 ≤ 1) ∧ r + s.2 * B ^ i = a.toNat % B ^ i + z) (Nat.zero_le _)
    ⟨0, Low.zero a, hz, fun h => absurd h (lt_irrefl _), by simp [Nat.mod_one]⟩ ?_) ?_
  · rintro i ⟨op0, k⟩ _ hi ⟨r, hL, hk, -, hr⟩
    dsimp only at *
    have hfa : i * LB + LB ≤ a.len := full_of_lt_pred (by omega)
    refine Sat.bind (hL.sat_load_full hfa le_rfl (Q := fun v => v = a.toNat / B ^ i % B) rfl) ?_
    rintro _ rfl
    rw [ct_add_l_l_eq (dig_lt _ _) hk]
    dsimp only
    refine Sat.bind (hL.sat_store_full hfa (Nat.mod_lt _ B_pos) (fun b' hb' => hb'))
      fun b' hb' => ?_
    have hle := add_div_le_one (dig_lt a.toNat i) hk
    exact Sat.pure ⟨_, hb', lt_of_le_of_lt hle one_lt_B, fun _ => hle, hadd _ _ _ hk hr⟩
  rintro ⟨op0, k⟩ ⟨r, hL, hk, hk1, hr⟩
  dsimp only at *
  refine Sat.bind (hL.sat_load (by omega) le_rfl
    (Q := fun v => v = a.toNat / B ^ (a.nlimbs - 1) % B) rfl) ?_
  rintro _ rfl
  rw [ct_add_l_l_eq (dig_lt _ _) hk]
  dsimp only
  have hlast : a.nlimbs - 1 + 1 = a.nlimbs := by omega
  rw [Buf.partial_high_mask_congr hL.len,
    show op0.partial_high_shift = a.partial_high_shift by
      unfold Buf.partial_high_shift; rw [hL.len]]
  refine Sat.bind (hL.sat_store_mask hlast (Nat.mod_lt _ B_pos) rfl (fun b' hb' => hb'))
    fun b' hb' => ?_
  generalize hj : a.nlimbs - 1 = j at *
  have hai := dig_high_lt ha (hlast.trans hN)
  have hkH : k < 256 ^ hbytes a.len := by
    rcases Nat.eq_zero_or_pos j with rfl | hj0
    · have h1 := pow_len' (hlast.trans hN)
      rw [pow_zero, one_mul] at h1
      rw [pow_zero, Nat.mod_one, mul_one] at hr
      have := hL.lt; rw [pow_zero] at this
      omega
    · have h1 := hk1 hj0
      have h2 := hbytes_pos (len_pos_of_lt (b0 := a) (i := j) (by omega))
      have : 256 ^ 1 ≤ 256 ^ hbytes a.len := Nat.pow_le_pow_right (by norm_num) h2
      omega
  have hdm := Nat.mod_add_div (a.toNat / B ^ j % B + k) B
  have hc := high_carry a (len_pos_of_lt (i := j) (by omega)) (Nat.mod_lt _ B_pos)
    (c := (a.toNat / B ^ j % B + k) / B) (v := (a.toNat / B ^ j % B + k) % B)
    (by rw [mul_comm]; omega)
  rw [M.assert_eq hc.1, M.pure_bind]
  refine Sat.pure ⟨hb'.len, hc.2.1, ?_⟩
  rw [hb'.final (by omega)]
  unfold topv
  rw [if_pos hlast, pow_len' (hlast.trans hN)]
  have h3 := hc.2.2
  have h4 := mod_of_fits ha
  rw [← hN, ← hlast, mod_succ] at h4
  dsimp only at *
  linear_combination hr + B ^ j * h3 + h4 + B ^ j * hdm

theorem ct_sub_mp_l_sat (a : Buf f) {z : ℕ} (hz : z < B) (hz' : z < 256 ^ a.len) :
    Sat (ct_sub_mp_l a z) (fun p => p.1.len = a.len ∧ p.2 ≤ 1 ∧
      p.1.toNat + z = a.toNat + p.2 * 256 ^ a.len) := by
  unfold ct_sub_mp_l
  dsimp only
  rw [assert_limb_fits hz hz', M.pure_bind]
  have hN : a.nlimbs = ct_mp_nlimbs a.len := Buf.nlimbs_eq a
  have ha := a.toNat_lt
  refine Sat.cond (fun h0 => ?_) fun h0 => ?_
  · have : a.len = 0 := nlimbs_zero_iff.1 (by omega)
    rw [this] at hz'
    exact Sat.pure ⟨rfl, Nat.zero_le _, by simp at hz'; simp [hz']⟩
  refine Sat.bind (Sat.forRange (P := fun i s => ∃ r, Low a r i s.1 ∧ s.2 < B ∧
    (0 < i → s.2 ≤ 1) ∧ r + z = a.toNat % B ^ i + s.2 * B ^ i) (Nat.zero_le _)
    ⟨0, Low.zero a, hz, fun h => absurd h (lt_irrefl _), by simp [Nat.mod_one]⟩ ?_) ?_
  · rintro i ⟨op0, k⟩ _ hi ⟨r, hL, hk, -, hr⟩
    dsimp only at *
    have hfa : i * LB + LB ≤ a.len := full_of_lt_pred (by omega)
    refine Sat.bind (hL.sat_load_full hfa le_rfl (Q := fun v => v = a.toNat / B ^ i % B) rfl) ?_
    rintro _ rfl
    obtain ⟨w, d, e, hw, hd, he, -⟩ := ct_sub_l_l_spec (dig_lt a.toNat i) hk
    rw [e]
    dsimp only
    refine Sat.bind (hL.sat_store_full hfa hd (fun b' hb' => hb'))
      fun b' hb' => ?_
    refine Sat.pure ⟨_, hb', lt_of_le_of_lt hw one_lt_B, fun _ => hw, ?_⟩
    rw [mod_succ, pow_succ]
    linear_combination hr - B ^ i * he
  rintro ⟨op0, k⟩ ⟨r, hL, hk, hk1, hr⟩
  dsimp only at *
  refine Sat.bind (hL.sat_load (by omega) le_rfl
    (Q := fun v => v = a.toNat / B ^ (a.nlimbs - 1) % B) rfl) ?_
  rintro _ rfl
  obtain ⟨w, d, e, hw, hd, he, -⟩ := ct_sub_l_l_spec (dig_lt a.toNat (a.nlimbs - 1)) hk
  rw [e]
  dsimp only
  have hlast : a.nlimbs - 1 + 1 = a.nlimbs := by omega
  rw [Buf.partial_high_mask_congr hL.len]
  refine Sat.bind (hL.sat_store_mask hlast hd rfl (fun b' hb' => hb'))
    fun b' hb' => ?_
  rw [show b'.partial_high_shift = a.partial_high_shift by
      unfold Buf.partial_high_shift; rw [hb'.len]]
  generalize hj : a.nlimbs - 1 = j at *
  have hai := dig_high_lt ha (hlast.trans hN)
  have hkH : k < 256 ^ hbytes a.len := by
    rcases Nat.eq_zero_or_pos j with rfl | hj0
    · have h1 := pow_len' (hlast.trans hN)
      rw [pow_zero, one_mul] at h1
      rw [pow_zero, Nat.mod_one, mul_one] at hr
      have := hL.lt; rw [pow_zero] at this
      omega
    · have h1 := hk1 hj0
      have h2 := hbytes_pos (len_pos_of_lt (b0 := a) (i := j) (by omega))
      have : 256 ^ 1 ≤ 256 ^ hbytes a.len := Nat.pow_le_pow_right (by norm_num) h2
      omega
  have hc := high_borrow a (len_pos_of_lt (i := j) (by omega)) hd (c := 0) (Nat.zero_le _) hw hai hkH
    (by omega)
  rw [M.assert_eq hc.1, M.pure_bind]
  refine Sat.pure ⟨hb'.len, hw, ?_⟩
  rw [hb'.final (by omega)]
  unfold topv
  rw [if_pos hlast, pow_len' (hlast.trans hN)]
  have h3 := hc.2
  have h4 := mod_of_fits ha
  rw [← hN, ← hlast, mod_succ] at h4
  dsimp only at *
  linear_combination hr - B ^ j * h3 + h4

end Cmpa
