import Verif.Proofs.BufCondLen

/-!
# What the defective buffer operations compute
-/

set_option linter.unusedSectionVars false

namespace Cmpa
open M
variable [LimbCfg] {f g : Fmt}

/-- The number left by `clear_bytes_above_cond`: the limb at position `k` loses the bytes below `k`
instead of those from `k` on. -/
def clearedAbove (x k : ℕ) : ℕ :=
  x % B ^ (k / LB) + B ^ (k / LB) * (x / B ^ (k / LB) % B / 256 ^ (k % LB) * 256 ^ (k % LB))

theorem clearedAbove_le (x k : ℕ) : clearedAbove x k ≤ x := by
  unfold clearedAbove
  have h1 : x / B ^ (k / LB) % B / 256 ^ (k % LB) * 256 ^ (k % LB) ≤ x / B ^ (k / LB) :=
    (Nat.div_mul_le_self _ _).trans (Nat.mod_le _ _)
  have h2 := Nat.mul_le_mul_left (B ^ (k / LB)) h1
  have h3 := Nat.mod_add_div x (B ^ (k / LB))
  omega

theorem clearedAbove_lt (x k : ℕ) : clearedAbove x k < B ^ (k / LB + 1) := by
  unfold clearedAbove
  have h1 : x / B ^ (k / LB) % B / 256 ^ (k % LB) * 256 ^ (k % LB) < B :=
    lt_of_le_of_lt (Nat.div_mul_le_self _ _) (dig_lt _ _)
  have h2 := Nat.mul_le_mul_left (B ^ (k / LB)) (Nat.succ_le_of_lt h1)
  have h3 := Nat.mod_lt x (B_pow_pos (k / LB))
  rw [Nat.mul_succ] at h2
  rw [pow_succ]; omega

/-- It's the right number iff the limb in question is zero. -/
theorem clearedAbove_iff (x k : ℕ) :
    clearedAbove x k = x % 256 ^ k ↔ x / B ^ (k / LB) % B = 0 := by
  have hk : 256 ^ k = B ^ (k / LB) * 256 ^ (k % LB) := by
    rw [← pow_256, ← pow_add, mul_comm (k / LB), Nat.div_add_mod]
  have hr : 256 ^ (k % LB) ∣ B := by
    rw [B_eq_256_pow]; exact pow_dvd_pow _ (Nat.mod_lt _ LB_pos).le
  have hP : 0 < 256 ^ (k % LB) := by positivity
  rw [hk, Nat.mod_mul, clearedAbove, Nat.add_left_cancel_iff,
    Nat.mul_right_inj (B_pow_pos _).ne', ← Nat.mod_mod_of_dvd (x / B ^ (k / LB)) hr]
  generalize x / B ^ (k / LB) % B = d
  generalize 256 ^ (k % LB) = P at *
  constructor
  · intro h
    have h1 := Nat.mod_lt d hP
    have h2 := Nat.div_add_mod d P
    have h3 : d / P = 0 := by
      by_contra h0
      have := Nat.le_mul_of_pos_left P (Nat.pos_of_ne_zero h0)
      omega
    rw [h3] at h h2; omega
  · rintro rfl; simp

theorem Buf.clear_bytes_above_cond_true (b : Buf f) {k : ℕ} (hk : k < b.len) :
    Sat (b.clear_bytes_above_cond k (.ofBool true))
      (fun b' => b'.len = b.len ∧ b'.toNat = clearedAbove b.toNat k) := by
  unfold Buf.clear_bytes_above_cond
  refine Sat.cond (fun h => by omega) fun _ => ?_
  dsimp only
  have hi : k / LB < b.nlimbs := by
    rw [Buf.nlimbs_eq, lt_nlimbs_iff]
    exact lt_of_le_of_lt (Nat.div_mul_le_self _ _) hk
  rw [LimbChoice.select_ofBool lmax_lt B_pos, if_pos rfl, Nat.or_zero]
  refine Sat.bind (b.sat_load_l hi (Q := fun v => v = b.toNat / B ^ (k / LB) % B) rfl) ?_
  rintro _ rfl
  have hr : 8 * (k % LB) ≤ W := by rw [W_eq]; have := Nat.mod_lt k LB_pos; omega
  rw [and_bnot_mask (dig_lt _ _) hr, ← pow_256_eq]
  have hlt : clearedAbove b.toNat k < 256 ^ b.len := lt_of_le_of_lt (clearedAbove_le _ _) b.toNat_lt
  have hdB : b.toNat / B ^ (k / LB) % B / 256 ^ (k % LB) * 256 ^ (k % LB) < B :=
    lt_of_le_of_lt (Nat.div_mul_le_self _ _) (dig_lt _ _)
  have hU : Upto b (clearedAbove b.toNat k) (k / LB) b := by
    refine ⟨rfl, ?_, rfl⟩
    unfold clearedAbove
    rw [Nat.add_mul_mod_self_left, Nat.mod_mod]
  refine Sat.bind (hU.sat_store hi hlt (Q := Upto b (clearedAbove b.toNat k) (k / LB + 1)) ?_
    fun _ h => h) ?_
  · unfold clearedAbove
    rw [Nat.add_mul_div_left _ _ (B_pow_pos _), Nat.div_eq_of_lt (Nat.mod_lt _ (B_pow_pos _)),
      Nat.zero_add, Nat.mod_eq_of_lt hdB]
  intro b1 hb1
  refine (Sat.forRange (P := fun i b' => Upto b (clearedAbove b.toNat k) i b')
    (by rw [hb1.nlimbs]; omega) hb1 ?_).mono ?_
  · intro i b' hi1 hi2 hb'
    rw [hb1.nlimbs] at hi2
    refine Sat.bind (hb'.sat_load hi2 le_rfl (Q := fun _ => True) trivial) fun _ _ => ?_
    refine hb'.sat_store hi2 hlt ?_ fun _ h => h
    rw [Nat.and_zero, Nat.div_eq_of_lt (lt_of_lt_of_le (clearedAbove_lt _ _)
      (Nat.pow_le_pow_right B_pos hi1)), Nat.zero_mod]
  · intro b' hb'
    rw [hb1.nlimbs] at hb'
    exact ⟨hb'.len, hb'.final le_rfl (lt_of_lt_of_le hlt (Upto.pow_len_le b))⟩

/-- The number left by `copy_from_cond` in a longer destination. -/
def copiedCond (x y k : ℕ) : ℕ :=
  y % B ^ (k / LB) + if k % LB = 0 then B ^ (k / LB) * (x / B ^ (k / LB) % B) else 0

theorem Buf.copy_from_cond_true (b : Buf f) (src : Buf g) (h : src.toNat < 256 ^ b.len)
    (hl : src.len < b.len) :
    Sat (b.copy_from_cond src (.ofBool true))
      (fun b' => b'.len = b.len ∧ b'.toNat = copiedCond b.toNat src.toNat src.len) := by
  unfold Buf.copy_from_cond
  dsimp only
  rw [assert_fits src h, M.pure_bind]
  refine Sat.cond (fun hs => ?_) fun hs => ?_
  · have h0 : src.len = 0 := nlimbs_zero_iff.1 hs
    rw [h0]
    refine (b.clear_bytes_above_cond_true (by omega)).mono ?_
    rintro b' ⟨h1, h2⟩
    refine ⟨h1, h2.trans ?_⟩
    simp [clearedAbove, copiedCond, Nat.mod_one]
  refine Sat.cond (fun hd => ?_) fun hd => ?_
  · have h0 : b.len = 0 := nlimbs_zero_iff.1 hd
    omega
  have hs0 : 0 < src.len := nlimbs_pos_iff.1 (Nat.pos_of_ne_zero hs)
  have hnl : src.nlimbs ≤ b.nlimbs := by
    rw [Buf.nlimbs_eq, Buf.nlimbs_eq]; exact nlimbs_mono hl.le
  rw [min_eq_left hnl]
  have hm0 : 0 < src.nlimbs := Nat.pos_of_ne_zero hs
  have hsel : ∀ i, (LimbChoice.ofBool true).select (b.toNat / B ^ i % B) (src.toNat / B ^ i % B)
      = src.toNat / B ^ i % B := fun i => by
    rw [LimbChoice.select_ofBool (dig_lt _ _) (dig_lt _ _), if_pos rfl]
  refine Sat.bind (P := Upto b src.toNat (src.nlimbs - 1)) ?_ ?_
  · refine Sat.forRange (P := fun i b' => Upto b src.toNat i b') (Nat.zero_le _) (Upto.zero _ _) ?_
    rintro i b' - hi hU
    have hfull := full_of_lt_pred (i := i) (n := b.len) (by rw [← Buf.nlimbs_eq]; omega)
    refine Sat.bind (hU.sat_load_full hfull le_rfl (Q := fun v => v = b.toNat / B ^ i % B) rfl) ?_
    rintro _ rfl
    refine Sat.bind (src.sat_load_l_full (full_of_lt_pred (by rw [← Buf.nlimbs_eq]; omega))
      (Q := fun v => v = src.toNat / B ^ i % B) rfl) ?_
    rintro _ rfl
    exact hU.sat_store_full hfull (hsel i) fun _ h => h
  · intro b' hU
    refine Sat.bind (hU.sat_load (j := src.nlimbs - 1) (by omega) le_rfl
      (Q := fun v => v = b.toNat / B ^ (src.nlimbs - 1) % B) rfl) ?_
    rintro _ rfl
    refine Sat.bind (src.sat_load_l (i := src.nlimbs - 1) (by omega)
      (Q := fun v => v = src.toNat / B ^ (src.nlimbs - 1) % B) rfl) ?_
    rintro _ rfl
    rw [hsel, M.assert_eq, M.pure_bind]
    · refine Sat.bind (hU.sat_store (by omega) h rfl (Q := Upto b src.toNat (src.nlimbs - 1 + 1))
        fun _ h => h) ?_
      rw [Nat.sub_add_cancel hm0]
      intro b'' hU
      refine (b''.clear_bytes_above_cond_true (by rw [hU.len]; exact hl)).mono ?_
      rintro b3 ⟨h1, h2⟩
      refine ⟨h1.trans hU.len, h2.trans ?_⟩
      unfold clearedAbove copiedCond
      have hLB := LB_pos
      have hdm := Nat.div_add_mod src.len LB
      have hrlt := Nat.mod_lt src.len hLB
      have hN := Buf.nlimbs_eq src
      split
      · rename_i h0
        have e : src.nlimbs = src.len / LB := by
          rw [hN]; unfold ct_mp_nlimbs
          rw [show src.len + LB - 1 = LB * (src.len / LB) + (LB - 1) by omega,
            Nat.mul_add_div hLB, Nat.div_eq_of_lt (by omega : LB - 1 < LB), Nat.add_zero]
        rw [h0, pow_zero, Nat.div_one, Nat.mul_one, ← e, hU.2.1, hU.2.2]
      · rename_i h0
        have e : src.nlimbs = src.len / LB + 1 := by
          rw [hN]; unfold ct_mp_nlimbs
          rw [show src.len + LB - 1 = LB * (src.len / LB) + (src.len % LB - 1 + LB) by omega,
            Nat.mul_add_div hLB, Nat.add_div_right _ hLB,
            Nat.div_eq_of_lt (by omega : src.len % LB - 1 < LB)]
        rw [hU.dig_lt (by omega)]
        have h3 : src.toNat / B ^ (src.len / LB) < 256 ^ (src.len % LB) := by
          refine Nat.div_lt_of_lt_mul ?_
          rw [← pow_256, ← pow_add, mul_comm (src.len / LB), hdm]; exact src.toNat_lt
        have h4 : b''.toNat % B ^ (src.len / LB) = src.toNat % B ^ (src.len / LB) := by
          have := congrArg (· % B ^ (src.len / LB)) hU.2.1
          simp only [e] at this
          rwa [Nat.mod_mod_of_dvd _ (pow_dvd_pow _ (Nat.le_succ _)),
            Nat.mod_mod_of_dvd _ (pow_dvd_pow _ (Nat.le_succ _))] at this
        rw [h4, Nat.div_eq_of_lt (lt_of_le_of_lt (Nat.mod_le _ _) h3)]
        simp
    · by_cases hc : b.nlimbs ≤ src.nlimbs
      · right
        refine and_bnot_high_mask b' (by rw [hU.len]; omega) ?_
        rw [hU.len]
        exact Upto.high_lt h (by omega)
      · left; omega

/-- It's the right number iff, depending on the source's length, either the destination's limb after
the end of the source or the source's incomplete limb is zero. -/
theorem copiedCond_iff {x y k : ℕ} (hy : y < 256 ^ k) : copiedCond x y k = y ↔
    (if k % LB = 0 then x else y) / B ^ (k / LB) % B = 0 := by
  have hLB := LB_pos
  have hdm := Nat.div_add_mod k LB
  have hpos := B_pow_pos (k / LB)
  have hmd := Nat.mod_add_div y (B ^ (k / LB))
  unfold copiedCond
  split
  · rename_i h0
    have : y < B ^ (k / LB) := by
      rw [← pow_256, mul_comm]; rw [h0, Nat.add_zero] at hdm; rwa [hdm]
    rw [Nat.mod_eq_of_lt this]
    rw [Nat.add_eq_left, Nat.mul_eq_zero, or_iff_right hpos.ne']
  · have h3 : y / B ^ (k / LB) < B := by
      refine Nat.div_lt_of_lt_mul (lt_of_lt_of_le hy ?_)
      rw [← pow_succ, ← pow_256]
      refine Nat.pow_le_pow_right (by norm_num) ?_
      have := Nat.mod_lt k hLB
      rw [Nat.succ_mul, mul_comm]; omega
    rw [Nat.mod_eq_of_lt h3, Nat.add_zero]
    constructor
    · intro h
      rw [h] at hmd
      have : B ^ (k / LB) * (y / B ^ (k / LB)) = 0 := by omega
      exact (Nat.mul_eq_zero.1 this).resolve_left hpos.ne'
    · intro h; rw [h] at hmd; omega

/-! ### `clear_bytes_below` beyond the end of native limbs -/

theorem ne_clear_below_eq {l : List (Fin B)} (hl : l ≠ []) {k : ℕ} (hk : l.length * LB < k)
    (hd : ¬ LB ∣ k) : ne_mp_clear_bytes_below l k
      = ne_mp_clear_bytes_below l ((l.length - 1) * LB + k % LB) := by
  have hLB := LB_pos
  have h0 : 0 < l.length := List.length_pos_iff.2 hl
  have hr : k % LB ≠ 0 := fun h => hd (Nat.dvd_of_mod_eq_zero h)
  have hrlt := Nat.mod_lt k hLB
  have e1 : min (ct_mp_nlimbs k) l.length = l.length := by
    refine min_eq_right ?_
    by_contra hc
    have := (lt_nlimbs_iff (n := k) (i := l.length)).2 hk
    omega
  have e2 : ct_mp_nlimbs ((l.length - 1) * LB + k % LB) = l.length := by
    unfold ct_mp_nlimbs
    rw [show (l.length - 1) * LB + k % LB + LB - 1 = LB * (l.length - 1) + (k % LB - 1 + LB) by
      rw [mul_comm]; omega, Nat.mul_add_div hLB, Nat.add_div_right _ hLB,
      Nat.div_eq_of_lt (by omega : k % LB - 1 < LB)]
    omega
  have e3 : ((l.length - 1) * LB + k % LB) % LB = k % LB := by
    rw [mul_comm, Nat.mul_add_mod, Nat.mod_mod]
  unfold ne_mp_clear_bytes_below
  rw [e1, e2, e3, min_self]

theorem Buf.clear_bytes_below_beyond (b : Buf .ne) {k : ℕ} (h0 : 0 < b.len) (hk : b.len < k)
    (hd : ¬ LB ∣ k) : Sat (b.clear_bytes_below k) (fun b' => b'.len = b.len ∧
      b'.toNat = b.toNat / 256 ^ (b.len - LB + k % LB) * 256 ^ (b.len - LB + k % LB)) := by
  have hLB := LB_pos
  have hrlt := Nat.mod_lt k hLB
  cases b with | ne l => ?_
  rw [Buf.len_ne] at hk h0
  have hl : l ≠ [] := by rintro rfl; simp at h0
  have hl1 : 1 ≤ l.length := List.length_pos_iff.2 hl
  have e : (Buf.ne l).len - LB + k % LB = (l.length - 1) * LB + k % LB := by
    rw [Buf.len_ne, Nat.sub_mul, Nat.one_mul]
  have hle : (Buf.ne l).len - LB + k % LB ≤ (Buf.ne l).len := by
    have := Nat.mul_le_mul_right LB hl1
    rw [Buf.len_ne]; omega
  have h1 := (Buf.ne l).sat_clear_bytes_below (k := (Buf.ne l).len - LB + k % LB)
    (Or.inr (Or.inl hle)) (Q := fun b' => b'.len = (Buf.ne l).len ∧
      b'.toNat = (Buf.ne l).toNat / 256 ^ ((Buf.ne l).len - LB + k % LB) *
        256 ^ ((Buf.ne l).len - LB + k % LB)) fun _ h1 h2 => ⟨h1, h2⟩
  have h2 : ∀ j, ((Buf.ne l).clear_bytes_below j).val
      = (ne_mp_clear_bytes_below l j >>= fun x => pure (Buf.ne x)).val := fun j => by
    simp only [Buf.clear_bytes_below]
    rfl
  obtain ⟨b', h3, h4⟩ := h1
  refine ⟨b', ?_, h4⟩
  rw [← h3, h2, h2, ne_clear_below_eq hl hk hd, e]

theorem Buf.clear_bytes_below_empty (b : Buf .ne) {k : ℕ} (h0 : b.len = 0) (hd : ¬ LB ∣ k) :
    (b.clear_bytes_below k).val = none := by
  have hr : k % LB ≠ 0 := fun h => hd (Nat.dvd_of_mod_eq_zero h)
  cases b with | ne l => ?_
  have hl : l = [] := by
    rw [Buf.len_ne] at h0
    exact List.eq_nil_of_length_eq_zero ((Nat.mul_eq_zero.1 h0).resolve_right LB_pos.ne')
  subst hl
  simp only [Buf.clear_bytes_below]
  refine M.bind_panic' fun _ => M.bind_panic ?_
  unfold ne_mp_clear_bytes_below
  simp only [hr, ne_eq, not_false_eq_true, if_true, List.length_nil, Nat.min_zero]
  exact M.bind_panic (M.sub_panic (by omega))

end Cmpa
