import Verif.Proofs.Cmp

/-!
# Buffers being overwritten from the least significant limb upwards

`Low b0 r i b`: `b` is `b0` with its `i` least significant limbs replaced by those of
the number `r < B^i`.
-/

set_option linter.unusedSectionVars false

namespace Cmpa
variable [LimbCfg] {f g : Fmt}

open M

def Low (b0 : Buf f) (r i : ℕ) (b : Buf f) : Prop :=
  b.len = b0.len ∧ b.toNat % B ^ i = r ∧ b.toNat / B ^ i = b0.toNat / B ^ i

/-- What is left of a limb stored at position `i`. -/
def topv (b0 : Buf f) (i v : ℕ) : ℕ := if i + 1 = b0.nlimbs then v % 256 ^ hbytes b0.len else v

theorem topv_lt {b0 : Buf f} {i v : ℕ} (h : v < B) : topv b0 i v < B := by
  unfold topv; split
  · exact lt_of_le_of_lt (Nat.mod_le _ _) h
  · exact h

theorem hbytes_ne (b0 : Buf f) (h : f.unaligned = false) (h0 : 0 < b0.nlimbs) :
    hbytes b0.len = LB := by rw [b0.aligned h, hbytes_mul h0]

theorem full_ne (b0 : Buf f) (h : f.unaligned = false) {i : ℕ} (hi : i < b0.nlimbs) :
    i * LB + LB ≤ b0.len := by
  rw [b0.aligned h]
  have := Nat.mul_le_mul_right LB (Nat.succ_le_of_lt hi)
  rwa [Nat.succ_mul] at this

theorem len_pos_of_lt {b0 : Buf f} {i : ℕ} (hi : i < b0.nlimbs) : 0 < b0.len :=
  nlimbs_pos_iff.1 (by rw [← Buf.nlimbs_eq]; omega)

namespace Low
variable {b0 b : Buf f} {r i : ℕ}

theorem zero (b : Buf f) : Low b 0 0 b := ⟨rfl, by simp [Nat.mod_one], rfl⟩
theorem self (b : Buf f) (i : ℕ) : Low b (b.toNat % B ^ i) i b := ⟨rfl, rfl, rfl⟩
theorem len (h : Low b0 r i b) : b.len = b0.len := h.1
theorem nlimbs (h : Low b0 r i b) : b.nlimbs = b0.nlimbs := Buf.nlimbs_congr h.1
theorem lt (h : Low b0 r i b) : r < B ^ i := by rw [← h.2.1]; exact mod_lt_pow _ _

theorem div (h : Low b0 r i b) {j : ℕ} (hj : i ≤ j) : b.toNat / B ^ j = b0.toNat / B ^ j := by
  obtain ⟨k, rfl⟩ := Nat.exists_eq_add_of_le hj
  rw [pow_add, ← Nat.div_div_eq_div_mul, ← Nat.div_div_eq_div_mul, h.2.2]

theorem dig (h : Low b0 r i b) {j : ℕ} (hj : i ≤ j) :
    b.toNat / B ^ j % B = b0.toNat / B ^ j % B := by rw [h.div hj]

theorem upd (h : Low b0 r i b) {b' : Buf f} {v : ℕ} (hv : v < B) (hl : b'.len = b.len)
    (hb : b'.toNat = Cmpa.upd b.toNat i v) : Low b0 (r + B ^ i * v) (i + 1) b' := by
  refine ⟨hl.trans h.1, ?_, ?_⟩
  · rw [hb, upd_mod_succ hv, h.2.1]
  · rw [hb, upd_div hv (Nat.lt_succ_self _), h.div (Nat.le_succ _)]

theorem sat_store (h : Low b0 r i b) (hi : i < b0.nlimbs) {v : ℕ} (hv : v < B)
    (hv' : i + 1 = b0.nlimbs → v < 256 ^ hbytes b0.len) {Q : Buf f → Prop}
    (hQ : ∀ b', Low b0 (r + B ^ i * v) (i + 1) b' → Q b') : Sat (b.store_l i v) Q := by
  refine Buf.sat_store_l b (by rw [h.nlimbs]; exact hi) hv ?_ ?_
  · rw [h.nlimbs, h.len]; exact hv'
  · intro b' h1 h2; exact hQ b' (h.upd hv h1 h2)

theorem sat_store_full (h : Low b0 r i b) (hi : i * LB + LB ≤ b0.len) {v : ℕ} (hv : v < B)
    {Q : Buf f → Prop} (hQ : ∀ b', Low b0 (r + B ^ i * v) (i + 1) b' → Q b') :
    Sat (b.store_l_full i v) Q := by
  refine Buf.sat_store_l_full b (by rw [h.len]; exact hi) hv ?_
  intro b' h1 h2; exact hQ b' (h.upd hv h1 h2)

theorem sat_store_mask (h : Low b0 r i b) (hi : i + 1 = b0.nlimbs) {v m : ℕ} (hv : v < B)
    (hm : m = b0.partial_high_mask)
    {Q : Buf f → Prop} (hQ : ∀ b', Low b0 (r + B ^ i * topv b0 i v) (i + 1) b' → Q b') :
    Sat (b.store_l i (v &&& m)) Q := by
  have hl : 0 < b0.len := len_pos_of_lt (i := i) (by omega)
  subst hm
  rw [Buf.and_partial_high_mask _ hl]
  have ht : topv b0 i v = v % 256 ^ hbytes b0.len := by unfold topv; rw [if_pos hi]
  rw [← ht]
  refine h.sat_store (by omega) (topv_lt hv) (fun _ => ?_) hQ
  rw [ht]; exact Nat.mod_lt _ (by positivity)

/-- The two forms of storing a limb, whose excess bits are to be discarded if it is the
most significant one. -/
theorem sat_store_trunc (h : Low b0 r i b) (hi : i < b0.nlimbs) {v n : ℕ} (hv : v < B)
    (hn : n = b0.nlimbs)
    {Q : Buf f → Prop} (hQ : ∀ b', Low b0 (r + B ^ i * topv b0 i v) (i + 1) b' → Q b') :
    Sat (M.cond (f.unaligned = false ∨ i ≠ n - 1)
      (b.store_l_full i v) (b.store_l i (v &&& b.partial_high_mask))) Q := by
  subst hn
  refine Sat.cond (fun hc => ?_) fun hc => ?_
  · refine h.sat_store_full ?_ hv ?_
    · by_cases hlast : i + 1 = b0.nlimbs
      · exact full_ne b0 (hc.resolve_right (by omega)) hi
      · exact full_of_lt_pred (by rw [← Buf.nlimbs_eq]; omega)
    · intro b' hb'
      refine hQ b' ?_
      unfold topv
      by_cases hlast : i + 1 = b0.nlimbs
      · have hu : f.unaligned = false := hc.resolve_right (by omega)
        rw [if_pos hlast, hbytes_ne b0 hu (by omega), ← B_eq_256_pow, Nat.mod_eq_of_lt hv]
        exact hb'
      · rw [if_neg hlast]; exact hb'
  · push Not at hc
    exact h.sat_store_mask (by omega) hv (Buf.partial_high_mask_congr h.len) hQ

theorem sat_load (h : Low b0 r i b) {j : ℕ} (hi : j < b0.nlimbs) (hj : i ≤ j) {Q : ℕ → Prop}
    (hQ : Q (b0.toNat / B ^ j % B)) : Sat (b.load_l j) Q := by
  refine Buf.sat_load_l b (by rw [h.nlimbs]; exact hi) ?_
  rwa [h.dig hj]

theorem sat_load_full (h : Low b0 r i b) {j : ℕ} (hi : j * LB + LB ≤ b0.len) (hj : i ≤ j)
    {Q : ℕ → Prop} (hQ : Q (b0.toNat / B ^ j % B)) : Sat (b.load_l_full j) Q := by
  refine Buf.sat_load_l_full b (by rw [h.len]; exact hi) ?_
  rwa [h.dig hj]

/-- All limbs overwritten. -/
theorem final (h : Low b0 r i b) (hi : b0.nlimbs ≤ i) : b.toNat = r := by
  rw [← h.2.1, b.mod_high (by rw [h.nlimbs]; exact hi)]

theorem toNat (h : Low b0 r i b) : b.toNat = r + B ^ i * (b0.toNat / B ^ i) := by
  rw [← h.2.1, ← h.2.2]; exact (Nat.mod_add_div _ _).symm

/-- Writing into an already overwritten part. -/
theorem mono_base {b1 : Buf f} (h : Low b0 r i b) (hl : b1.len = b0.len)
    (hd : b1.toNat / B ^ i = b0.toNat / B ^ i) : Low b1 r i b :=
  ⟨h.1.trans hl.symm, h.2.1, h.2.2.trans hd.symm⟩

end Low

/-! ### The most significant limb -/

theorem Buf.partial_high_shift_cases (b : Buf f) (h : 0 < b.len) :
    (hbytes b.len = LB ∧ b.partial_high_shift = 0) ∨
      (hbytes b.len < LB ∧ b.partial_high_shift = 8 * hbytes b.len ∧ f.unaligned = true) := by
  unfold Buf.partial_high_shift
  have hLB := LB_pos
  by_cases hu : f.unaligned = true
  · rw [if_pos hu]
    dsimp only
    rw [hbytes_eq h]
    by_cases h0 : b.len % LB = 0
    · left
      rw [if_pos h0]
      refine ⟨?_, rfl⟩
      obtain ⟨k, hk⟩ := Nat.dvd_of_mod_eq_zero h0
      have hk0 : 0 < k := by
        rcases Nat.eq_zero_or_pos k with rfl | hk'
        · simp at hk; omega
        · exact hk'
      obtain ⟨m, rfl⟩ : ∃ m, k = m + 1 := ⟨k - 1, by omega⟩
      rw [hk, Nat.mul_succ, show LB * m + LB - 1 = LB - 1 + LB * m by omega,
        Nat.add_mul_mod_self_left, Nat.mod_eq_of_lt (by omega)]
      omega
    · right
      rw [if_neg h0]
      have h1 : (b.len - 1) % LB + 1 = b.len % LB := by
        have h2 := Nat.mod_add_div b.len LB
        have h3 := Nat.mod_lt b.len hLB
        have : b.len - 1 = (b.len % LB - 1) + LB * (b.len / LB) := by omega
        rw [this, Nat.add_mul_mod_self_left, Nat.mod_eq_of_lt (by omega)]; omega
      rw [h1]
      exact ⟨Nat.mod_lt _ hLB, rfl, hu⟩
  · left
    have hu : f.unaligned = false := by simpa using hu
    rw [if_neg (by simp [hu])]
    exact ⟨hbytes_ne b hu (nlimbs_pos_iff.2 h), rfl⟩

theorem pow_hbytes_lt {n : ℕ} (h : hbytes n < LB) : 2 * 256 ^ hbytes n ≤ 2 ^ (W - 1) := by
  rw [pow_256_eq, ← pow_succ', W_eq]
  exact Nat.pow_le_pow_right (by norm_num) (by omega)

theorem B_half' : B = 2 * 2 ^ (W - 1) := by have := B_half; omega

theorem pow_hbytes_dvd (n : ℕ) : 256 ^ hbytes n ∣ B := by
  rw [B_eq_256_pow]; exact pow_dvd_pow _ (hbytes_le n)

/-- Splitting off what exceeds the most significant limb in an addition. -/
theorem high_carry (b : Buf f) (hb : 0 < b.len) {c v : ℕ} (hv : v < B)
    (hcv : v + c * B < 2 * 256 ^ hbytes b.len) :
    (c = 0 ∨ shr (v &&& bnot b.partial_high_mask) b.partial_high_shift = 0) ∧
    (c ||| shr (v &&& bnot b.partial_high_mask) b.partial_high_shift) ≤ 1 ∧
    v % 256 ^ hbytes b.len +
      (c ||| shr (v &&& bnot b.partial_high_mask) b.partial_high_shift) * 256 ^ hbytes b.len
      = v + c * B := by
  have hle := hbytes_le b.len
  have hm : v &&& bnot b.partial_high_mask
      = v / 256 ^ hbytes b.len * 256 ^ hbytes b.len := by
    rw [b.partial_high_mask_eq hb, pow_256_eq, ← ct_lsb_mask_l_eq (by rw [W_eq]; omega),
      and_bnot_mask hv (by rw [W_eq]; omega)]
  rw [hm]
  rcases b.partial_high_shift_cases hb with ⟨h1, h2⟩ | ⟨h1, h2, -⟩
  · rw [h1, ← B_eq_256_pow] at hcv ⊢
    rw [h2, Nat.div_eq_of_lt hv, Nat.zero_mul, Nat.mod_eq_of_lt hv]
    simp only [shr, Nat.zero_shiftRight, Nat.or_zero, or_true, true_and]
    refine ⟨?_, trivial⟩
    by_contra hc
    have : 2 * B ≤ c * B := Nat.mul_le_mul_right _ (by omega)
    omega
  · have hp := pow_hbytes_lt h1
    have hB := B_half'
    have hc : c = 0 := by
      by_contra hc
      have : 1 * B ≤ c * B := Nat.mul_le_mul_right _ (by omega)
      omega
    subst hc
    have hs : shr (v / 256 ^ hbytes b.len * 256 ^ hbytes b.len) b.partial_high_shift
        = v / 256 ^ hbytes b.len := by
      rw [h2]; unfold shr
      rw [Nat.shiftRight_eq_div_pow, ← pow_256_eq, Nat.mul_div_cancel _ (by positivity)]
    rw [hs]
    simp only [Nat.zero_or, true_or, true_and, Nat.zero_mul, Nat.add_zero] at *
    refine ⟨?_, ?_⟩
    · have : v / 256 ^ hbytes b.len < 2 := Nat.div_lt_of_lt_mul (by rw [mul_comm]; exact hcv)
      omega
    · rw [mul_comm]; exact Nat.mod_add_div _ _

/-- Reducing the most significant limb in a subtraction. -/
theorem high_borrow (b : Buf f) (hb : 0 < b.len) {a y c w v : ℕ} (hv : v < B) (hc : c ≤ 1)
    (hw : w ≤ 1) (ha : a < 256 ^ hbytes b.len) (hy : y < 256 ^ hbytes b.len)
    (h : a + w * B = y + c + v) :
    (b.partial_high_shift = 0 ∨ w = shr v (W - 1)) ∧
    a + w * 256 ^ hbytes b.len = y + c + v % 256 ^ hbytes b.len := by
  rcases b.partial_high_shift_cases hb with ⟨h1, h2⟩ | ⟨h1, h2, -⟩
  · rw [h1, ← B_eq_256_pow] at *
    exact ⟨.inl h2, by rw [Nat.mod_eq_of_lt hv]; exact h⟩
  · have hp := pow_hbytes_lt h1
    have hB := B_half'
    rw [shr_top hv]
    obtain ⟨k, hk⟩ := pow_hbytes_dvd b.len
    have hkp : 0 < k := by
      rcases Nat.eq_zero_or_pos k with rfl | h0
      · have := B_pos; rw [hk] at this; simp at this
      · exact h0
    generalize 256 ^ hbytes b.len = H at *
    rcases Nat.le_one_iff_eq_zero_or_eq_one.1 hw with rfl | rfl
    · rw [Nat.mod_eq_of_lt (by omega), if_neg (by omega)]
      exact ⟨.inr rfl, by omega⟩
    · rw [if_pos (by omega)]
      refine ⟨.inr rfl, ?_⟩
      obtain ⟨m, rfl⟩ : ∃ m, k = m + 1 := ⟨k - 1, by omega⟩
      have : v = (v - H * m) + H * m := by rw [Nat.mul_succ] at hk; omega
      rw [this, Nat.add_mul_mod_self_left, Nat.mod_eq_of_lt (by rw [Nat.mul_succ] at hk; omega)]
      rw [Nat.mul_succ] at hk; omega

/-- The most significant limb of a number fitting into `n` bytes. -/
theorem dig_high_lt {x n i : ℕ} (hx : x < 256 ^ n) (hi : i + 1 = ct_mp_nlimbs n) :
    x / B ^ i % B < 256 ^ hbytes n := by
  have hl : 0 < n := nlimbs_pos_iff.1 (by omega)
  rw [pow_len hl, ← hi, Nat.add_sub_cancel] at hx
  exact lt_of_le_of_lt (Nat.mod_le _ _) (Nat.div_lt_of_lt_mul hx)

theorem mod_of_fits {x n : ℕ} (hx : x < 256 ^ n) : x % B ^ ct_mp_nlimbs n = x :=
  Nat.mod_eq_of_lt (lt_of_lt_of_le hx (pow_len_le n))

/-- All the length is made up of limbs `0 .. i` -/
theorem pow_len' {n i : ℕ} (hi : i + 1 = ct_mp_nlimbs n) : 256 ^ n = B ^ i * 256 ^ hbytes n := by
  rw [pow_len (nlimbs_pos_iff.1 (by omega)), ← hi, Nat.add_sub_cancel]

end Cmpa
