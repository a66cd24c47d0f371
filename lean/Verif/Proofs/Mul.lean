import Verif.Model.Mul
import Verif.Proofs.Low
import Mathlib.Data.ZMod.Basic

/-!
# Multiplication and squaring

The truncated operations are carried out in the ring `ZMod (256 ^ len)`.
-/

set_option linter.unusedSectionVars false

namespace Cmpa
variable [LimbCfg] {f g : Fmt}

open M

/-- `b0`'s value range as a ring. -/
abbrev RingOf (n : ℕ) := ZMod (256 ^ n)

theorem ring_pow_zero {n i : ℕ} (h : ct_mp_nlimbs n ≤ i) : ((B : ℕ) : RingOf n) ^ i = 0 := by
  rw [← Nat.cast_pow, ZMod.natCast_eq_zero_iff]
  have : 256 ^ n ∣ B ^ ct_mp_nlimbs n := by
    rw [← pow_256]; exact pow_dvd_pow _ (le_nlimbs_mul n)
  exact this.trans (pow_dvd_pow _ h)

theorem ring_eq {n x y : ℕ} (hx : x < 256 ^ n) (h : (x : RingOf n) = y) : x = y % 256 ^ n := by
  rw [ZMod.natCast_eq_natCast_iff'] at h
  rwa [Nat.mod_eq_of_lt hx] at h

theorem cast_mod_succ {R : Type} [CommRing R] (x i : ℕ) :
    ((x % B ^ (i + 1) : ℕ) : R) = (x % B ^ i : ℕ) + (B : R) ^ i * (x / B ^ i % B : ℕ) := by
  rw [mod_succ]; push_cast; ring

theorem cast_low_high {R : Type} [CommRing R] (x i : ℕ) :
    ((x : ℕ) : R) = (x % B ^ i : ℕ) + (B : R) ^ i * (x / B ^ i : ℕ) := by
  conv_lhs => rw [low_high x i]
  push_cast; ring

theorem cast_upd {R : Type} [CommRing R] (x i v : ℕ) :
    ((upd x i v : ℕ) : R) = x - (B : R) ^ i * (x / B ^ i % B : ℕ) + (B : R) ^ i * v := by
  have h1 : x = upd x i (x / B ^ i % B) := (upd_self x i).symm
  generalize hd : x / B ^ i % B = d at *
  have h2 := congrArg (Nat.cast : ℕ → R) h1
  unfold upd at h2 ⊢
  push_cast at h2 ⊢
  linear_combination -h2

/-- Storing a limb of a truncated result. -/
theorem sat_store_ring {b0 b : Buf f} (hl : b.len = b0.len) {i v m : ℕ} {c : Prop} [Decidable c]
    (hi : i < b0.nlimbs) (hv : v < B) (hc : c → i * LB + LB ≤ b0.len) (hnc : ¬ c → i + 1 = b0.nlimbs)
    (hm : m = b0.partial_high_mask) :
    Sat (M.cond c (b.store_l_full i v) (b.store_l i (v &&& m))) (fun b' =>
      b'.len = b0.len ∧
      (b'.toNat : RingOf b0.len) =
        b.toNat - (B : RingOf b0.len) ^ i * (b.toNat / B ^ i % B : ℕ) + (B : RingOf b0.len) ^ i * v ∧
      (∀ j ≤ i, b'.toNat % B ^ j = b.toNat % B ^ j) ∧
      b'.toNat / B ^ (i + 1) = b.toNat / B ^ (i + 1)) := by
  refine Sat.cond (fun h => ?_) fun h => ?_
  · refine Buf.sat_store_l_full b (by rw [hl]; exact hc h) hv ?_
    intro b' h1 h2
    refine ⟨h1.trans hl, ?_, fun j hj => ?_, ?_⟩
    · rw [h2, cast_upd]
    · rw [h2, upd_mod _ _ _ hj]
    · rw [h2, upd_div hv (Nat.lt_succ_self _)]
  · have hl0 := len_pos_of_lt hi
    rw [hm, Buf.and_partial_high_mask _ hl0]
    have hp : 0 < 256 ^ hbytes b0.len := by positivity
    have hlt : v % 256 ^ hbytes b0.len < B := lt_of_le_of_lt (Nat.mod_le _ _) hv
    refine Buf.sat_store_l b (by rw [Buf.nlimbs_congr hl]; exact hi) hlt
      (fun _ => by rw [hl]; exact Nat.mod_lt _ hp) ?_
    intro b' h1 h2
    refine ⟨h1.trans hl, ?_, fun j hj => ?_, ?_⟩
    · rw [h2, cast_upd]
      have e : (B : RingOf b0.len) ^ i * (256 ^ hbytes b0.len : ℕ) = 0 := by
        rw [← Nat.cast_pow, ← Nat.cast_mul, ← pow_len' (by rw [← Buf.nlimbs_eq]; exact hnc h)]
        exact ZMod.natCast_self _
      have e2 := congrArg (Nat.cast : ℕ → RingOf b0.len) (Nat.mod_add_div v (256 ^ hbytes b0.len))
      rw [Nat.cast_add, Nat.cast_mul] at e2
      linear_combination (B : RingOf b0.len) ^ i * e2 - ((v / 256 ^ hbytes b0.len : ℕ) : RingOf b0.len) * e
    · rw [h2, upd_mod _ _ _ hj]
    · rw [h2, upd_div hlt (Nat.lt_succ_self _)]

theorem store_full_cond {b0 : Buf f} {i j k n : ℕ} (hn : n = b0.nlimbs - j) (hi : i = j + k)
    (hk : k < n) :
    ((k ≠ n - 1 ∨ f.unaligned = false) → i * LB + LB ≤ b0.len) ∧
    (¬ (k ≠ n - 1 ∨ f.unaligned = false) → i + 1 = b0.nlimbs) := by
  constructor
  · rintro (h | h)
    · exact full_of_lt_pred (by rw [← Buf.nlimbs_eq]; omega)
    · exact full_ne b0 h (by omega)
  · intro h
    push Not at h
    omega

theorem forRange_empty {σ : Type} {lo hi : ℕ} (h : hi ≤ lo) (s : σ) (f : ℕ → σ → M σ) :
    M.forRange lo hi s f = pure s := by
  unfold M.forRange
  rw [Nat.sub_eq_zero_of_le h]; rfl

/-- The value the second operand is taken for. -/
theorem op1_val_eq {c : Bool} {l k u : ℕ} (y : ℕ) (hl : l = y / B ^ k % B)
    (hu : u = if c then 0 else if k = 0 then 1 else 0) :
    (LimbChoice.ofBool c).select 0 l ||| u = (if c then y else 1) / B ^ k % B := by
  have hlB : l < B := by rw [hl]; exact dig_lt _ _
  rw [LimbChoice.select_ofBool B_pos hlB, hu]
  cases c
  · simp only [Bool.false_eq_true, if_false, Nat.zero_or]
    by_cases hk : k = 0
    · subst hk
      rw [if_pos rfl, pow_zero, Nat.div_one, Nat.mod_eq_of_lt one_lt_B]
    · rw [if_neg hk, Nat.div_eq_of_lt (Nat.one_lt_pow hk one_lt_B), Nat.zero_mod]
  · simp [hl]

theorem ct_mul_trunc_cond_mp_mp_sat (a : Buf f) (n : ℕ) (b : Buf g) (c : Bool) (hn : n ≤ a.len) :
    Sat (ct_mul_trunc_cond_mp_mp a n b (.ofBool c)) (fun a' => a'.len = a.len ∧
      a'.toNat = if b.len = 0 then (if c then 0 else a.toNat)
        else (a.toNat % 256 ^ n) * (if c then b.toNat else 1) % 256 ^ a.len) := by
  unfold ct_mul_trunc_cond_mp_mp
  rw [M.assert_eq hn, M.pure_bind]
  refine Sat.cond (fun he => ?_) fun he => ?_
  · -- empty second operand
    rw [b.is_empty_iff] at he
    rw [if_pos he]
    dsimp only
    refine (Sat.forRange (P := fun i (b' : Buf f) => Low a (if c then 0 else a.toNat % B ^ i) i b')
      (Nat.zero_le _) ?_ ?_).mono ?_
    · have := Low.zero a
      cases c <;> simpa [Nat.mod_one] using this
    · rintro i b' - hi hL
      refine Sat.bind (hL.sat_load hi le_rfl (Q := fun v => v = a.toNat / B ^ i % B) rfl) ?_
      rintro _ rfl
      have hd := dig_lt a.toNat i
      rw [LimbChoice.select_ofBool B_pos lmax_lt]
      refine hL.sat_store hi (and_lt hd) ?_ ?_
      · intro h
        refine lt_of_le_of_lt Nat.and_le_left (dig_high_lt a.toNat_lt ?_)
        rw [h, Buf.nlimbs_eq]
      · intro b'' h
        cases c
        · simp only [Bool.false_eq_true, if_false] at h ⊢
          have : bnot 0 = lmax := rfl
          rw [this, and_lmax hd, ← mod_succ] at h
          exact h
        · simp only [if_true] at h ⊢
          have : bnot lmax = 0 := by unfold bnot lmax; omega
          rw [this, Nat.and_zero, Nat.mul_zero] at h
          exact h
    · intro b' h
      refine ⟨h.len, ?_⟩
      rw [h.final le_rfl]
      rw [a.mod_high le_rfl]
  · -- the schoolbook multiplication
    have hb0 : b.len ≠ 0 := fun h => he (b.is_empty_iff.2 h)
    have hbn : 0 < b.nlimbs := by rw [Buf.nlimbs_eq, nlimbs_pos_iff]; omega
    rw [if_neg hb0]
    dsimp only
    obtain ⟨Y, hY⟩ : ∃ Y, Y = if c then b.toNat else 1 := ⟨_, rfl⟩
    have hYB : Y < B ^ b.nlimbs := by
      rw [hY]; split
      · exact b.toNat_lt_B
      · exact Nat.one_lt_pow (by omega) one_lt_B
    rw [← hY]
    refine Sat.bind (Buf.sat_clear_bytes_above a n
      (Q := fun a1 => a1.len = a.len ∧ a1.toNat = a.toNat % 256 ^ n) fun a1 h1 h2 => ⟨h1, h2⟩) ?_
    rintro a1 ⟨ha1, hX⟩
    generalize hXd : a.toNat % 256 ^ n = X at *
    have hXn : X < B ^ ct_mp_nlimbs n := by
      rw [← hXd]; exact lt_of_lt_of_le (Nat.mod_lt _ (by positivity)) (pow_len_le n)
    have hnN : ct_mp_nlimbs n ≤ a.nlimbs := by rw [Buf.nlimbs_eq]; exact nlimbs_mono hn
    obtain ⟨N, hN⟩ : ∃ N, N = a.nlimbs := ⟨_, rfl⟩
    rw [← hN] at hnN ⊢
    have hz : ∀ i, N ≤ i → (B : RingOf a.len) ^ i = 0 := fun i h =>
      ring_pow_zero (by rw [← Buf.nlimbs_eq, ← hN]; exact h)
    refine (Sat.forDown (P := fun j (st : Buf f) => st.len = a.len ∧ st.toNat % B ^ j = X % B ^ j ∧
      (st.toNat : RingOf a.len) = (X % B ^ j : ℕ) + (X - (X % B ^ j : ℕ)) * Y) ?_ ?_).mono ?_
    · refine ⟨ha1, by rw [hX], ?_⟩
      rw [hX, Nat.mod_eq_of_lt hXn]; ring
    · rintro j s hj ⟨hsl, hsm, hsr⟩
      have hsn : s.nlimbs = N := by rw [hN]; exact Buf.nlimbs_congr hsl
      obtain ⟨v, hv⟩ : ∃ v, v = X / B ^ j % B := ⟨_, rfl⟩
      have hvB : v < B := by rw [hv]; exact dig_lt _ _
      have hsd : s.toNat / B ^ j % B = v := by
        rw [mod_succ, mod_succ] at hsm
        have hm : s.toNat % B ^ j = X % B ^ j := by
          have := congrArg (· % B ^ j) hsm
          simpa [Nat.add_mul_mod_self_left] using this
        rw [hm] at hsm
        rw [hv]
        exact Nat.eq_of_mul_eq_mul_left (B_pow_pos j) (Nat.add_left_cancel hsm)
      have hsm' : s.toNat % B ^ j = X % B ^ j := by
        have := congrArg (· % B ^ j) hsm
        simpa [mod_succ, Nat.add_mul_mod_self_left] using this
      refine Sat.bind (s.sat_load_l (by omega) (Q := fun l => l = v) hsd) ?_
      intro l hl; subst l
      refine Sat.bind (s.sat_store_l (by omega) B_pos (fun _ => by positivity)
        (Q := fun s' => s'.len = a.len ∧ s'.toNat = upd s.toNat j 0) ?_) ?_
      · intro b' h1 h2; exact ⟨h1.trans hsl, h2⟩
      rintro s1 ⟨hs1l, hs1⟩
      rw [M.sub_eq (by omega), M.pure_bind]
      have hs1r : (s1.toNat : RingOf a.len) = s.toNat - (B : RingOf a.len) ^ j * v := by
        rw [hs1, cast_upd, hsd]; simp only [Nat.cast_zero, mul_zero, add_zero]
      have hs1m : s1.toNat % B ^ j = X % B ^ j := by rw [hs1, upd_mod _ _ _ le_rfl, hsm']
      clear hs1 hsd hsm
      refine Sat.bind (Sat.forRange (P := fun k (st : Buf f × ℕ × ℕ) =>
        st.1.len = a.len ∧ st.1.toNat % B ^ j = X % B ^ j ∧ st.2.1 < B ∧
        st.2.2 = (if c then 0 else if k = 0 then 1 else 0) ∧
        (st.1.toNat : RingOf a.len) + (B : RingOf a.len) ^ (j + k) * st.2.1
          = s1.toNat + (B : RingOf a.len) ^ j * v * (Y % B ^ k : ℕ)) (Nat.zero_le _) ?_ ?_) ?_
      · refine ⟨hs1l, hs1m, B_pos, ?_, ?_⟩
        · rw [LimbChoice.select_ofBool one_lt_B B_pos]; simp
        · simp [Nat.mod_one]
      · rintro k ⟨t, carry, cu⟩ - hk ⟨htl, htm, hcB, hcu, htr⟩
        dsimp only at *
        have hk1 : k < b.nlimbs := lt_of_lt_of_le hk (min_le_left _ _)
        have hk2 : k < N - j := lt_of_lt_of_le hk (min_le_right _ _)
        have htn : t.nlimbs = N := by rw [hN]; exact Buf.nlimbs_congr htl
        refine Sat.bind (b.sat_load_l hk1 (Q := fun l => l = b.toNat / B ^ k % B) rfl) ?_
        intro l hl
        rw [op1_val_eq b.toNat hl hcu, ← hY]
        refine Sat.bind (t.sat_load_l (by omega) (Q := fun l => l = t.toNat / B ^ (j + k) % B) rfl) ?_
        rintro _ rfl
        obtain ⟨k', r, e1, hk', hr, e2⟩ := ct_mul_add_l_l_l_c_spec (dig_lt t.toNat (j + k)) hvB
          (dig_lt Y k) hcB
        rw [e1, M.pure_bind]
        dsimp only
        obtain ⟨hc1, hc2⟩ := store_full_cond (b0 := a) (by rw [← hN]) rfl hk2
        refine Sat.bind (sat_store_ring htl (by omega) hr hc1 hc2 rfl) ?_
        rintro t' ⟨ht1, ht2, ht3, -⟩
        refine Sat.pure ⟨ht1, (ht3 j (by omega)).trans htm, hk', ?_, ?_⟩
        · simp
        · dsimp only
          have e3 := congrArg (Nat.cast : ℕ → RingOf a.len) e2
          push_cast at e3
          rw [ht2, cast_mod_succ]
          linear_combination htr - (B : RingOf a.len) ^ j * (B : RingOf a.len) ^ k * e3
      · rintro ⟨t, carry, cu⟩ ⟨htl, htm, hcB, -, htr⟩
        dsimp only at *
        clear cu
        refine Sat.bind (P := fun st : Buf f × ℕ => st.1.len = a.len ∧
          st.1.toNat % B ^ j = X % B ^ j ∧
          (st.1.toNat : RingOf a.len) = s1.toNat + (B : RingOf a.len) ^ j * v * Y) ?_ ?_
        · rcases Nat.le_total (N - j) b.nlimbs with hle | hle
          · rw [forRange_empty hle]
            refine Sat.pure ⟨htl, htm, ?_⟩
            rw [min_eq_right hle] at htr
            have h0 := hz (j + (N - j)) (by omega)
            have e3 := cast_low_high (R := RingOf a.len) Y (N - j)
            rw [pow_add] at htr h0
            dsimp only
            linear_combination htr - (carry : RingOf a.len) * h0
              - (B : RingOf a.len) ^ j * v * e3 - v * ((Y / B ^ (N - j) : ℕ) : RingOf a.len) * h0
          · rw [min_eq_left hle, Nat.mod_eq_of_lt hYB] at htr
            refine (Sat.forRange (P := fun k (st : Buf f × ℕ) =>
              st.1.len = a.len ∧ st.1.toNat % B ^ j = X % B ^ j ∧ st.2 < B ∧
              (st.1.toNat : RingOf a.len) + (B : RingOf a.len) ^ (j + k) * st.2
                = s1.toNat + (B : RingOf a.len) ^ j * v * Y) hle ⟨htl, htm, hcB, htr⟩ ?_).mono ?_
            · rintro k ⟨t, carry⟩ - hk ⟨htl, htm, hcB, htr⟩
              dsimp only at *
              have htn : t.nlimbs = N := by rw [hN]; exact Buf.nlimbs_congr htl
              refine Sat.bind (t.sat_load_l (by omega)
                (Q := fun l => l = t.toNat / B ^ (j + k) % B) rfl) ?_
              rintro _ rfl
              rw [ct_add_l_l_eq (dig_lt _ _) hcB]
              dsimp only
              have hr := Nat.mod_lt (t.toNat / B ^ (j + k) % B + carry) B_pos
              have hk' := add_div_le_one (dig_lt t.toNat (j + k)) hcB
              have e2 := Nat.mod_add_div (t.toNat / B ^ (j + k) % B + carry) B
              generalize (t.toNat / B ^ (j + k) % B + carry) % B = r at *
              generalize (t.toNat / B ^ (j + k) % B + carry) / B = k' at *
              obtain ⟨hc1, hc2⟩ := store_full_cond (b0 := a) (by rw [← hN]) rfl hk
              refine Sat.bind (sat_store_ring htl (by omega) hr hc1 hc2 rfl) ?_
              rintro t' ⟨ht1, ht2, ht3, -⟩
              refine Sat.pure ⟨ht1, (ht3 j (by omega)).trans htm, ?_, ?_⟩
              · have := one_lt_B; dsimp only; omega
              · dsimp only
                have e3 := congrArg (Nat.cast : ℕ → RingOf a.len) e2
                push_cast at e3
                rw [ht2]
                linear_combination htr + (B : RingOf a.len) ^ j * (B : RingOf a.len) ^ k * e3
            · rintro ⟨t, carry⟩ ⟨htl, htm, hcB, htr⟩
              refine ⟨htl, htm, ?_⟩
              rw [hz (j + (N - j)) (by omega)] at htr
              rw [← htr]; ring
        · rintro ⟨t, carry'⟩ ⟨htl, htm, htr⟩
          dsimp only at *
          refine Sat.pure ⟨htl, htm, ?_⟩
          rw [htr, hs1r, hsr, cast_mod_succ, ← hv]
          ring
    · rintro s ⟨h1, -, h3⟩
      refine ⟨h1, ring_eq (by rw [← h1]; exact s.toNat_lt) ?_⟩
      rw [h3]; simp [Nat.mod_one]

theorem ct_mul_trunc_mp_mp_sat (a : Buf f) (n : ℕ) (b : Buf g) (hn : n ≤ a.len) :
    Sat (ct_mul_trunc_mp_mp a n b) (fun a' => a'.len = a.len ∧
      a'.toNat = (a.toNat % 256 ^ n) * b.toNat % 256 ^ a.len) := by
  unfold ct_mul_trunc_mp_mp
  rw [LimbChoice.new_one]
  refine (ct_mul_trunc_cond_mp_mp_sat a n b true hn).mono ?_
  rintro a' ⟨h1, h2⟩
  refine ⟨h1, ?_⟩
  rw [h2]
  split
  · rename_i h
    have : b.toNat = 0 := toNat_of_empty (b.is_empty_iff.2 h)
    simp [this]
  · simp

theorem ct_mul_trunc_mp_l_sat (a : Buf f) (n : ℕ) {v : ℕ} (hv : v < B) (hn : n ≤ a.len) :
    Sat (ct_mul_trunc_mp_l a n v) (fun a' => a'.len = a.len ∧
      a'.toNat = (a.toNat % 256 ^ n) * v % 256 ^ a.len) := by
  unfold ct_mul_trunc_mp_l
  rw [M.assert_eq hn, M.pure_bind]
  dsimp only
  refine Sat.bind (Buf.sat_clear_bytes_above a n
    (Q := fun a1 => a1.len = a.len ∧ a1.toNat = a.toNat % 256 ^ n) fun a1 h1 h2 => ⟨h1, h2⟩) ?_
  rintro a1 ⟨ha1, hX⟩
  generalize hXd : a.toNat % 256 ^ n = X at *
  have hXn : X < B ^ ct_mp_nlimbs n := by
    rw [← hXd]; exact lt_of_lt_of_le (Nat.mod_lt _ (by positivity)) (pow_len_le n)
  have hnN : ct_mp_nlimbs n ≤ a.nlimbs := by rw [Buf.nlimbs_eq]; exact nlimbs_mono hn
  refine Sat.cond (fun h0 => ?_) fun h0 => ?_
  · refine Sat.pure ⟨ha1, ?_⟩
    subst h0
    rw [← hXd, pow_zero, Nat.mod_one] at hX
    rw [← hXd, hX]; simp [Nat.mod_one]
  obtain ⟨N, hN⟩ : ∃ N, N = a.nlimbs := ⟨_, rfl⟩
  rw [← hN] at hnN ⊢
  have hz : ∀ i, N ≤ i → (B : RingOf a.len) ^ i = 0 := fun i h =>
    ring_pow_zero (by rw [← Buf.nlimbs_eq, ← hN]; exact h)
  refine Sat.bind (Sat.forRange (P := fun k (st : Buf f × ℕ) =>
    st.1.len = a.len ∧ st.1.toNat / B ^ k = X / B ^ k ∧ st.2 < B ∧
    (st.1.toNat : RingOf a.len) + (B : RingOf a.len) ^ k * st.2
      = X - (X % B ^ k : ℕ) + (X % B ^ k : ℕ) * v) (Nat.zero_le _) ?_ ?_) ?_
  · refine ⟨ha1, by rw [hX], B_pos, ?_⟩
    simp [hX, Nat.mod_one]
  · rintro k ⟨t, carry⟩ - hk ⟨htl, htd, hcB, htr⟩
    dsimp only at *
    have htn : t.nlimbs = N := by rw [hN]; exact Buf.nlimbs_congr htl
    refine Sat.bind (t.sat_load_l (by omega)
      (Q := fun l => l = X / B ^ k % B) (by rw [htd])) ?_
    rintro _ rfl
    obtain ⟨k', r, e1, hk', hr, e2⟩ := ct_mul_add_l_l_l_c_spec B_pos (dig_lt X k) hv hcB
    rw [e1, M.pure_bind]
    dsimp only
    obtain ⟨hc1, hc2⟩ := store_full_cond (b0 := a) (j := 0) (k := k) (n := N)
      (by rw [Nat.sub_zero]; exact hN) (by rw [Nat.zero_add]) (by omega)
    refine Sat.bind (sat_store_ring htl (by omega) hr hc1 hc2 rfl) ?_
    rintro t' ⟨ht1, ht2, -, ht3⟩
    refine Sat.pure ⟨ht1, ?_, hk', ?_⟩
    · dsimp only
      rw [ht3, pow_succ, ← Nat.div_div_eq_div_mul, ← Nat.div_div_eq_div_mul, htd]
    · dsimp only
      have e3 := congrArg (Nat.cast : ℕ → RingOf a.len) e2
      push_cast at e3
      rw [ht2, cast_mod_succ, htd, pow_succ]
      linear_combination htr - (B : RingOf a.len) ^ k * e3
  · rintro ⟨t, carry⟩ ⟨htl, htd, hcB, htr⟩
    dsimp only at *
    rw [Nat.mod_eq_of_lt hXn] at htr
    have fin : ∀ t' : Buf f, t'.len = a.len → (t'.toNat : RingOf a.len) = X * v →
        t'.len = a.len ∧ t'.toNat = X * v % 256 ^ a.len := by
      intro t' h1 h2
      refine ⟨h1, ring_eq (by rw [← h1]; exact t'.toNat_lt) ?_⟩
      rw [h2]; push_cast; ring
    refine Sat.cond (fun hne => ?_) fun hne => ?_
    · obtain ⟨hc1, hc2⟩ := store_full_cond (b0 := a) (j := 0) (k := ct_mp_nlimbs n) (n := N)
        (by rw [Nat.sub_zero]; exact hN) (by rw [Nat.zero_add]) (by omega)
      refine (sat_store_ring htl (by omega) hcB hc1 hc2 rfl).mono ?_
      rintro t' ⟨ht1, ht2, -, ht3⟩
      refine fin t' ht1 ?_
      rw [ht2, htd, Nat.div_eq_of_lt hXn, Nat.zero_mod, Nat.cast_zero]
      linear_combination htr
    · refine Sat.pure (fin t htl ?_)
      have : ct_mp_nlimbs n = N := by omega
      rw [this, hz N le_rfl] at htr
      linear_combination htr

end Cmpa
