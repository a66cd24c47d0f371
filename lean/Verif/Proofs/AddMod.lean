import Verif.Proofs.Add

/-!
# Negation and modular addition, subtraction, negation
-/

set_option linter.unusedSectionVars false

namespace Cmpa
variable [LimbCfg] {f g h : Fmt}

open M

/-! ### Reduction modulo the length -/

theorem pow_dvd_len {n i : ℕ} (hi : i < ct_mp_nlimbs n) : B ^ i ∣ 256 ^ n := by
  rw [← pow_256]; exact pow_dvd_pow _ (lt_nlimbs_iff.1 hi).le

theorem pow_le_len {n i : ℕ} (hi : i < ct_mp_nlimbs n) : B ^ i ≤ 256 ^ n :=
  Nat.le_of_dvd (by positivity) (pow_dvd_len hi)

theorem len_dvd_pow (n : ℕ) : 256 ^ n ∣ B ^ ct_mp_nlimbs n := by
  rw [← pow_256]; exact pow_dvd_pow _ (le_nlimbs_mul n)

theorem add_mul_mod_mul {q m v H : ℕ} (hq : q < m) : (q + m * v) % (m * H) = q + m * (v % H) := by
  rw [Nat.mod_mul, Nat.add_mul_mod_self_left, Nat.mod_eq_of_lt hq, Nat.add_mul_div_left _ _ (by omega),
    Nat.div_eq_of_lt hq, Nat.zero_add]

theorem topv_mod (a : Buf f) {q i v : ℕ} (hi : i < a.nlimbs) (hq : q < B ^ i) (hv : v < B) :
    q % 256 ^ a.len + B ^ i * topv a i v = (q + B ^ i * v) % 256 ^ a.len := by
  have hN : a.nlimbs = ct_mp_nlimbs a.len := Buf.nlimbs_eq a
  rw [hN] at hi
  rw [Nat.mod_eq_of_lt (lt_of_lt_of_le hq (pow_le_len hi))]
  unfold topv
  by_cases hl : i + 1 = a.nlimbs
  · rw [if_pos hl, pow_len' (hl.trans hN), add_mul_mod_mul hq]
  · rw [if_neg hl, Nat.mod_eq_of_lt]
    refine lt_of_lt_of_le ?_ (pow_le_len (show i + 1 < ct_mp_nlimbs a.len by omega))
    have := Nat.mul_le_mul_left (B ^ i) (Nat.succ_le_of_lt hv)
    rw [Nat.mul_succ, ← pow_succ] at this
    omega

/-- The digits of a sum. -/
theorem add_dig {x y i q k : ℕ} (hq : q < B ^ i) (h : q + k * B ^ i = x % B ^ i + y % B ^ i) :
    (x + y) / B ^ i % B = (x / B ^ i % B + y / B ^ i % B + k) % B := by
  have h1 := Nat.mod_add_div x (B ^ i)
  have h2 := Nat.mod_add_div y (B ^ i)
  have : x + y = q + B ^ i * (k + x / B ^ i + y / B ^ i) := by
    have h3 : B ^ i * (k + x / B ^ i + y / B ^ i)
      = k * B ^ i + B ^ i * (x / B ^ i) + B ^ i * (y / B ^ i) := by ring
    rw [h3]; omega
  rw [this, Nat.add_mul_div_left _ _ (by omega), Nat.div_eq_of_lt hq]
  conv_rhs => rw [Nat.add_mod, Nat.add_mod (x / B ^ i % B), Nat.mod_mod, Nat.mod_mod]
  conv_lhs => rw [Nat.zero_add, Nat.add_assoc, Nat.add_comm, Nat.add_mod, Nat.add_mod (x / B ^ i)]

/-! ### Negation -/

theorem xor_lmax {x : ℕ} (h : x < B) : x ^^^ lmax = B - 1 - x := by
  unfold lmax B at *
  apply Nat.eq_of_testBit_eq; intro j
  rw [show 2 ^ W - 1 - x = 2 ^ W - (x + 1) by omega, Nat.testBit_two_pow_sub_succ h,
    Nat.testBit_xor, Nat.testBit_two_pow_sub_one]
  by_cases hj : j < W
  · simp [hj]
  · rw [Nat.testBit_lt_two_pow (lt_of_lt_of_le h (Nat.pow_le_pow_right (by norm_num) (by omega)))]
    simp [hj]

theorem eq_neg_mod {r x m : ℕ} (hr : r < m) (hx : x < m) (h : m ∣ r + x) : r = (m - x) % m := by
  obtain ⟨k, hk⟩ := h
  rcases Nat.eq_zero_or_pos x with rfl | hx0
  · rw [Nat.sub_zero, Nat.mod_self]
    rcases Nat.eq_zero_or_pos k with rfl | h0
    · omega
    · have := Nat.le_mul_of_pos_right m h0; omega
  · rw [Nat.mod_eq_of_lt (by omega)]
    rcases Nat.lt_or_ge k 2 with h1 | h1
    · rcases Nat.eq_zero_or_pos k with rfl | h0
      · omega
      · obtain rfl : k = 1 := by omega
        omega
    · have := Nat.mul_le_mul_left m h1; omega

theorem ct_negate_cond_mp_sat (a : Buf f) (c : Bool) :
    Sat (ct_negate_cond_mp a (.ofBool c)) (fun a' => a'.len = a.len ∧
      a'.toNat = if c then (256 ^ a.len - a.toNat) % 256 ^ a.len else a.toNat) := by
  unfold ct_negate_cond_mp
  refine Sat.cond (fun h => ?_) fun h => ?_
  · refine Sat.pure ⟨rfl, ?_⟩
    rw [toNat_of_empty h, (Buf.is_empty_iff a).1 h]
    simp
  have hn := nlimbs_pos_of_not_empty h
  have hN : a.nlimbs = ct_mp_nlimbs a.len := Buf.nlimbs_eq a
  have ha := a.toNat_lt
  have hlast : a.nlimbs - 1 + 1 = a.nlimbs := by omega
  rw [LimbChoice.select_ofBool B_pos lmax_lt]
  have h1B := one_lt_B
  cases c
  · simp only [Bool.false_eq_true, if_false, Nat.zero_and, Nat.xor_zero]
    have hadd : ∀ i, ct_add_l_l (a.toNat / B ^ i % B) 0 = (0, a.toNat / B ^ i % B) := fun i => by
      rw [ct_add_l_l_eq (dig_lt _ _) B_pos, Nat.add_zero, Nat.div_eq_of_lt (dig_lt _ _),
        Nat.mod_eq_of_lt (dig_lt _ _)]
    refine Sat.bind (Sat.forRange (P := fun i s => s = (a, 0)) (Nat.zero_le _) rfl ?_) ?_
    · intro i s _ hi hs; subst s
      refine Sat.bind (a.sat_load_l (by omega) (Q := fun v => v = a.toNat / B ^ i % B) rfl) ?_
      rintro _ rfl
      rw [hadd]
      refine Sat.bind (a.sat_store_l (by omega) (dig_lt _ _) (Upto.high_lt a.toNat_lt)
        (Q := fun b' => b' = a) fun b' h1 h2 => Buf.ext' h1 (by rw [h2, upd_self])) ?_
      intro b' hb'; subst b'
      exact Sat.pure rfl
    · intro s hs; subst s
      refine Sat.bind (a.sat_load_l (by omega)
        (Q := fun v => v = a.toNat / B ^ (a.nlimbs - 1) % B) rfl) ?_
      rintro _ rfl
      dsimp only
      rw [hadd]
      dsimp only
      rw [Buf.and_partial_high_mask _ (len_pos_of_lt (i := 0) hn),
        Nat.mod_eq_of_lt (Upto.high_lt ha hlast)]
      exact a.sat_store_l (by omega) (dig_lt _ _) (Upto.high_lt a.toNat_lt)
        fun b' h1 h2 => ⟨h1, by rw [h2, upd_self]⟩
  · simp only [if_true]
    rw [lmax_and h1B]
    have hadd : ∀ i k, k ≤ 1 → ∃ k' v, ct_add_l_l (a.toNat / B ^ i % B ^^^ lmax) k = (k', v) ∧
        k' ≤ 1 ∧ v < B ∧ B + k = v + k' * B + (a.toNat / B ^ i % B) + 1 := fun i k hk => by
      have hd := dig_lt a.toNat i
      rw [xor_lmax hd, ct_add_l_l_eq (by omega) (by omega)]
      refine ⟨_, _, rfl, add_div_le_one (by omega) (by omega), Nat.mod_lt _ B_pos, ?_⟩
      have := Nat.mod_add_div (B - 1 - a.toNat / B ^ i % B + k) B
      rw [mul_comm] at this
      generalize (B - 1 - a.toNat / B ^ i % B + k) % B = t1 at *
      generalize (B - 1 - a.toNat / B ^ i % B + k) / B * B = t2 at *
      generalize a.toNat / B ^ i % B = t3 at *
      omega
    have hstep : ∀ i k r k' v, r + k * B ^ i + a.toNat % B ^ i = B ^ i →
        B + k = v + k' * B + (a.toNat / B ^ i % B) + 1 →
        r + B ^ i * v + k' * B ^ (i + 1) + a.toNat % B ^ (i + 1) = B ^ (i + 1) := by
      intro i k r k' v h1 h2
      rw [mod_succ, pow_succ]
      linear_combination h1 - B ^ i * h2
    refine Sat.bind (Sat.forRange (P := fun i s => ∃ r, Low a r i s.1 ∧ s.2 ≤ 1 ∧
      r + s.2 * B ^ i + a.toNat % B ^ i = B ^ i) (Nat.zero_le _)
      ⟨0, Low.zero a, le_rfl, by simp [Nat.mod_one]⟩ ?_) ?_
    · rintro i ⟨op0, k⟩ _ hi ⟨r, hL, hk, hr⟩
      dsimp only at *
      refine Sat.bind (hL.sat_load (by omega) le_rfl (Q := fun v => v = a.toNat / B ^ i % B) rfl) ?_
      rintro _ rfl
      obtain ⟨k', v, e, hk', hv, he⟩ := hadd i k hk
      rw [e]
      refine Sat.bind (hL.sat_store (by omega) hv (fun _ => by omega) (fun b' hb' => hb'))
        fun b' hb' => ?_
      exact Sat.pure ⟨_, hb', hk', hstep _ _ _ _ _ hr he⟩
    · rintro ⟨op0, k⟩ ⟨r, hL, hk, hr⟩
      dsimp only at *
      refine Sat.bind (hL.sat_load (by omega) le_rfl
        (Q := fun v => v = a.toNat / B ^ (a.nlimbs - 1) % B) rfl) ?_
      rintro _ rfl
      obtain ⟨k', v, e, hk', hv, he⟩ := hadd (a.nlimbs - 1) k hk
      rw [e]
      dsimp only
      rw [Buf.partial_high_mask_congr hL.len]
      refine hL.sat_store_mask hlast hv rfl fun b' hb' => ⟨hb'.len, ?_⟩
      have hb2 := b'.toNat_lt
      rw [hb'.len] at hb2
      refine eq_neg_mod hb2 ha ?_
      rw [hb'.final (by omega)]
      have h3 := hstep _ _ _ _ _ hr he
      have h4 : r + B ^ (a.nlimbs - 1) * topv a (a.nlimbs - 1) v
          = (r + B ^ (a.nlimbs - 1) * v) % 256 ^ a.len := by
        rw [← topv_mod a (by omega) hL.lt hv, Nat.mod_eq_of_lt]
        exact lt_of_lt_of_le hL.lt (pow_le_len (by omega))
      rw [hlast, a.mod_high le_rfl] at h3
      rw [h4]
      have hd : 256 ^ a.len ∣ B ^ a.nlimbs := by rw [hN]; exact len_dvd_pow _
      rw [Nat.dvd_iff_mod_eq_zero, Nat.mod_add_mod, ← Nat.dvd_iff_mod_eq_zero]
      have h5 : 256 ^ a.len ∣ k' * B ^ a.nlimbs + (r + B ^ (a.nlimbs - 1) * v + a.toNat) := by
        rw [show k' * B ^ a.nlimbs + (r + B ^ (a.nlimbs - 1) * v + a.toNat) = B ^ a.nlimbs by
          linear_combination h3]
        exact hd
      exact (Nat.dvd_add_right (hd.mul_left _)).1 h5

theorem ct_negate_mp_sat (a : Buf f) :
    Sat (ct_negate_mp a) (fun a' => a'.len = a.len ∧
      a'.toNat = (256 ^ a.len - a.toNat) % 256 ^ a.len) := by
  unfold ct_negate_mp
  rw [LimbChoice.new_one]
  exact ct_negate_cond_mp_sat a true

/-! ### Compatible lengths -/

/-- What `len_is_compatible_with` decides. -/
def LenCompat (n : Buf f) (len : ℕ) : Prop :=
  n.len ≤ len ∨ (f.unaligned = false ∧ n.len - len < LB ∧ n.toNat < 256 ^ len)

instance (n : Buf f) (len : ℕ) : Decidable (LenCompat n len) := by
  unfold LenCompat; infer_instance

theorem LenCompat.lt {n : Buf f} {len : ℕ} (h : LenCompat n len) : n.toNat < 256 ^ len := by
  rcases h with h | h
  · exact lt_of_lt_of_le n.toNat_lt (Nat.pow_le_pow_right (by norm_num) h)
  · exact h.2.2

theorem LenCompat.nlimbs {n : Buf f} {len : ℕ} (h : LenCompat n len) :
    n.nlimbs ≤ ct_mp_nlimbs len := by
  rcases h with h | ⟨h1, h2, -⟩
  · rw [Buf.nlimbs_eq]; exact nlimbs_mono h
  · have := n.aligned h1
    rcases Nat.eq_zero_or_pos n.nlimbs with h0 | h0
    · omega
    have : n.nlimbs - 1 < ct_mp_nlimbs len := by
      rw [lt_nlimbs_iff, Nat.sub_mul, Nat.one_mul]
      have := Nat.mul_le_mul_right LB h0
      omega
    omega

theorem len_is_compatible_with_sat (n : Buf f) (len : ℕ) :
    Sat (n.len_is_compatible_with len) (fun r => r = decide (LenCompat n len)) := by
  unfold Buf.len_is_compatible_with
  refine Sat.cond (fun h => Sat.pure ?_) fun h => ?_
  · simp [LenCompat, h]
  have hLB := LB_pos
  refine Sat.cond (fun h' => ?_) fun h' => Sat.pure ?_
  · obtain ⟨hu, hd⟩ := h'
    have hal := n.aligned hu
    have hpos : 0 < n.nlimbs := by
      rcases Nat.eq_zero_or_pos n.nlimbs with h0 | h0
      · rw [h0] at hal; omega
      · exact h0
    refine Sat.bind (n.sat_load_l (by omega)
      (Q := fun v => v = n.toNat / B ^ (n.nlimbs - 1) % B) rfl) ?_
    rintro _ rfl
    refine Sat.pure ?_
    rw [decide_eq_decide]
    unfold LenCompat shr
    rw [Nat.shiftRight_eq_div_pow, ← pow_256_eq, Nat.div_eq_zero_iff, or_iff_right (by positivity)]
    have hlt := n.toNat_lt_B
    have hlast : n.nlimbs - 1 + 1 = n.nlimbs := by omega
    have hdig : n.toNat / B ^ (n.nlimbs - 1) % B = n.toNat / B ^ (n.nlimbs - 1) := by
      refine Nat.mod_eq_of_lt (Nat.div_lt_of_lt_mul ?_)
      rw [← pow_succ, hlast]; exact hlt
    rw [hdig, Nat.div_lt_iff_lt_mul (pow_pos B_pos _), ← pow_256, ← pow_add]
    have hm := Nat.mul_le_mul_right LB hpos
    have : LB - (n.len - len) + (n.nlimbs - 1) * LB = len := by
      rw [Nat.sub_mul, Nat.one_mul]; omega
    rw [this]
    simp [h, hu, hd]
  · rw [eq_comm, decide_eq_false_iff_not]
    rintro (h1 | ⟨h1, h2, -⟩)
    · exact h h1
    · exact h' ⟨h1, h2⟩

theorem lt_sat' (a : Buf f) (n : Buf g) :
    Sat (do let c ← ct_lt_mp_mp a n; pure (decide (c.unwrap ≠ 0)))
      (fun b => b = decide (a.toNat < n.toNat)) := by
  refine Sat.bind (ct_lt_mp_mp_sat a n) ?_
  rintro _ rfl
  refine Sat.pure ?_
  rw [LimbChoice.unwrap_ofBool]
  by_cases h : a.toNat < n.toNat <;> simp [h]

theorem assert_lt {a : Buf f} {n : Buf g} (h : a.toNat < n.toNat) :
    M.assertM (do let c ← ct_lt_mp_mp a n; pure (decide (c.unwrap ≠ 0))) = pure () := by
  refine M.assertM_eq (Sat.bind (ct_lt_mp_mp_sat a n) ?_)
  rintro _ rfl
  refine Sat.pure ?_
  rw [LimbChoice.unwrap_ofBool]
  simp [h]

/-! ### Modular addition -/

theorem from'_le_one {c : ℕ} (h : c ≤ 1) : LimbChoice.from' c = pure (.ofBool (decide (c = 1))) := by
  rcases Nat.le_one_iff_eq_zero_or_eq_one.1 h with rfl | rfl
  · exact from'_toNat false
  · exact from'_toNat true

theorem not_empty_of_pos {n : Buf f} (h : 0 < n.toNat) : n.is_empty = false := by
  by_contra hc
  have := toNat_of_empty (a := n) (by simpa using hc)
  omega

theorem add_mod_final {a b n L t w : ℕ} (ha : a < n) (hb : b < n) (hn : n < L) (ht : t < L)
    (hw : w ≤ 1) (h3 : t + (if decide (n ≤ a + b) = true then n else 0) = (a + b) % L + w * L) :
    t = (a + b) % n := by
  have hmd := Nat.mod_add_div (a + b) L
  by_cases hov' : n ≤ a + b
  · rw [decide_eq_true hov', if_pos rfl] at h3
    rw [Nat.mod_eq_sub_mod hov', Nat.mod_eq_of_lt (by omega)]
    have : (a + b) / L < 2 := Nat.div_lt_of_lt_mul (by omega)
    generalize hqq : (a + b) / L = d at hmd this
    generalize (a + b) % L = m at h3 hmd
    rcases Nat.le_one_iff_eq_zero_or_eq_one.1 hw with rfl | rfl <;>
      rcases (show d = 0 ∨ d = 1 by omega) with rfl | rfl <;> omega
  · rw [decide_eq_false hov', if_neg (by simp)] at h3
    rw [Nat.mod_eq_of_lt (by omega : _ < n)]
    have hs : (a + b) % L = a + b := Nat.mod_eq_of_lt (by omega)
    rw [hs] at h3
    rcases Nat.le_one_iff_eq_zero_or_eq_one.1 hw with rfl | rfl <;> omega

theorem ct_add_mod_mp_mp_sat' (a : Buf f) (b : Buf g) (n : Buf h) (hn : LenCompat n a.len)
    (hab : a.toNat < n.toNat) (hbn : b.toNat < n.toNat) :
    Sat (ct_add_mod_mp_mp a b n) (fun r => ∃ a' : Buf f, r = .ok a' ∧ a'.len = a.len ∧
      (a.nlimbs = n.nlimbs ∨ a.toNat + b.toNat < B ^ n.nlimbs →
        a'.toNat = (a.toNat + b.toNat) % n.toNat) ∧
      (n.nlimbs < a.nlimbs → B ^ n.nlimbs ≤ a.toNat + b.toNat →
        a'.toNat + B ^ n.nlimbs + n.toNat = 256 ^ a.len + (a.toNat + b.toNat))) := by
  unfold ct_add_mod_mp_mp
  have hN : a.nlimbs = ct_mp_nlimbs a.len := Buf.nlimbs_eq a
  have hnN : n.nlimbs ≤ a.nlimbs := by rw [hN]; exact hn.nlimbs
  have ha := a.toNat_lt
  have hnlt := hn.lt
  refine Sat.bind (len_is_compatible_with_sat n a.len) ?_
  rintro _ rfl
  refine Sat.cond (fun hc => absurd hn (by simpa using hc)) fun _ => ?_
  rw [M.assert_eq hnN, M.pure_bind, assert_lt hab, M.pure_bind, assert_lt hbn, M.pure_bind,
    M.assert_eq (not_empty_of_pos (by omega)), M.pure_bind]
  dsimp only
  let P : ℕ → Buf f × ℕ × ℕ → Prop := fun i s => ∃ q, Low a (q % 256 ^ a.len) i s.1 ∧
    s.2.1 ≤ 1 ∧ q < B ^ i ∧ q + s.2.1 * B ^ i = a.toNat % B ^ i + b.toNat % B ^ i ∧
    s.2.2 = if n.toNat % B ^ i ≤ (a.toNat + b.toNat) % B ^ i then 1 else 0
  have hstep : ∀ {i q k k' v x op0' kk}, i < a.nlimbs →
      q < B ^ i → q + k * B ^ i = a.toNat % B ^ i + b.toNat % B ^ i → v < B → k' ≤ 1 →
      a.toNat / B ^ i % B + b.toNat / B ^ i % B + k = v + k' * B →
      x = q % 256 ^ a.len + B ^ i * topv a i v →
      Low a x (i + 1) op0' →
      kk = (if n.toNat % B ^ (i+1) ≤ (a.toNat + b.toNat) % B ^ (i+1) then 1 else 0) →
      P (i + 1) (op0', k', kk) := by
    intro i q k k' v x op0' kk hi hq hqe hv hk' he hx hL hkk
    refine ⟨q + B ^ i * v, ?_, hk', ?_, add_step hqe he, hkk⟩
    · rw [← topv_mod a hi hq hv, ← hx]; exact hL
    · have := Nat.mul_le_mul_left (B ^ i) (Nat.succ_le_of_lt hv)
      rw [Nat.mul_succ, ← pow_succ] at this
      omega
  have hdig : ∀ {i q k k' v}, q < B ^ i → q + k * B ^ i = a.toNat % B ^ i + b.toNat % B ^ i →
      v < B → a.toNat / B ^ i % B + b.toNat / B ^ i % B + k = v + k' * B →
      v = (a.toNat + b.toNat) / B ^ i % B := by
    intro i q k k' v hq hqe hv he
    rw [add_dig hq hqe, he, Nat.add_mul_mod_self_right, Nat.mod_eq_of_lt hv]
  have hbm : b.toNat < B ^ n.nlimbs := lt_trans hbn n.toNat_lt_B
  refine Sat.bind (Sat.forRange (P := P) (Nat.zero_le _)
    ⟨0, Low.zero a, by simp [Nat.mod_one]⟩ ?_) ?_
  · rintro i ⟨op0, k, kk⟩ _ hi ⟨q, hL, hk, hq, hqe, hkk⟩
    dsimp only at hL hk hqe hkk ⊢
    have hia : i < a.nlimbs := by omega
    refine Sat.bind (hL.sat_load hia le_rfl (Q := fun v => v = a.toNat / B ^ i % B) rfl) ?_
    rintro _ rfl
    refine Sat.bind (b.sat_load_l (by omega) (Q := fun v => v = b.toNat / B ^ i % B) rfl) ?_
    rintro _ rfl
    obtain ⟨k', v, e, hk', hv, he⟩ := ct_add_l_l_c_spec (dig_lt a.toNat i) (dig_lt b.toNat i) hk
    rw [e, M.pure_bind]
    refine Sat.bind (n.sat_load_l (by omega) (Q := fun v => v = n.toNat / B ^ i % B) rfl) ?_
    rintro _ rfl
    unfold CtGeqMpMpKernel.update
    rw [leq_kernel_step hkk rfl (hdig hq hqe hv he), M.pure_bind]
    refine Sat.bind (hL.sat_store_trunc hia hv hL.nlimbs (fun b' hb' => hb')) fun b' hb' => ?_
    exact Sat.pure (hstep hia hq hqe hv hk' he rfl hb' rfl)
  rintro ⟨op0, k, kk⟩ hP
  refine Sat.bind (Sat.forRange (P := P) (Nat.min_le_right _ _) hP ?_) ?_
  · rintro i ⟨op0, k, kk⟩ h1 hi ⟨q, hL, hk, hq, hqe, hkk⟩
    dsimp only at hL hk hqe hkk ⊢
    have hia : i < a.nlimbs := by omega
    refine Sat.bind (hL.sat_load hia le_rfl (Q := fun v => v = a.toNat / B ^ i % B) rfl) ?_
    rintro _ rfl
    have hbi : b.toNat / B ^ i % B = 0 := b.dig_high (by omega)
    have hkB : k < B := lt_of_le_of_lt hk one_lt_B
    rw [ct_add_l_l_eq (dig_lt _ _) hkB]
    dsimp only
    have hv : (a.toNat / B ^ i % B + k) % B < B := Nat.mod_lt _ B_pos
    have he : a.toNat / B ^ i % B + b.toNat / B ^ i % B + k
        = (a.toNat / B ^ i % B + k) % B + (a.toNat / B ^ i % B + k) / B * B := by
      rw [hbi, Nat.add_zero, mul_comm]; exact (Nat.mod_add_div _ _).symm
    have hk' := add_div_le_one (dig_lt a.toNat i) hkB
    refine Sat.bind (n.sat_load_l (by omega) (Q := fun v => v = n.toNat / B ^ i % B) rfl) ?_
    rintro _ rfl
    unfold CtGeqMpMpKernel.update
    rw [leq_kernel_step hkk rfl (hdig hq hqe hv he), M.pure_bind]
    refine Sat.bind (hL.sat_store_trunc hia hv hL.nlimbs (fun b' hb' => hb')) fun b' hb' => ?_
    exact Sat.pure (hstep hia hq hqe hv hk' he rfl hb' rfl)
  · rintro ⟨op0, k, kk⟩ ⟨q, hL, hk, hq, hqe, hkk⟩
    dsimp only at *
    have ham : a.toNat % B ^ n.nlimbs = a.toNat := Nat.mod_eq_of_lt (lt_trans hab n.toNat_lt_B)
    rw [ham, Nat.mod_eq_of_lt hbm] at hqe
    rw [n.mod_high le_rfl] at hkk
    unfold CtGeqMpMpKernel.finish CtLeqMpMpKernel.finish
    rw [hkk, from'_ite, M.pure_bind, from'_le_one hk, M.pure_bind, LimbChoice.or_ofBool,
      ← Bool.decide_or]
    have hov : (n.toNat ≤ (a.toNat + b.toNat) % B ^ n.nlimbs ∨ k = 1) ↔
        n.toNat ≤ a.toNat + b.toNat := by
      have hnB := n.toNat_lt_B
      rcases Nat.le_one_iff_eq_zero_or_eq_one.1 hk with rfl | rfl
      · rw [← hqe, Nat.zero_mul, Nat.add_zero, Nat.mod_eq_of_lt hq]; simp
      · rw [← hqe]; simp; omega
    rw [decide_eq_decide.2 hov]
    -- the sum truncated to the buffer
    have hval : a.nlimbs = n.nlimbs ∨ a.toNat + b.toNat < B ^ n.nlimbs →
        op0.toNat = (a.toNat + b.toNat) % 256 ^ a.len := by
      intro hcase
      rcases Nat.lt_or_eq_of_le hnN with hlt | heq
      · have hs := hcase.resolve_left (by omega)
        have hk0 : k = 0 := by
          rcases Nat.le_one_iff_eq_zero_or_eq_one.1 hk with rfl | rfl
          · rfl
          · omega
        subst hk0
        rw [hL.toNat, ← hqe, Nat.div_eq_of_lt (lt_trans hab n.toNat_lt_B)]; simp
      · rw [hL.final heq.ge, ← hqe]
        have hd : 256 ^ a.len ∣ B ^ n.nlimbs := by rw [heq, hN]; exact len_dvd_pow _
        rw [Nat.add_mod, Nat.mod_eq_zero_of_dvd (hd.mul_left k), Nat.add_zero, Nat.mod_mod]
    have hlen := hL.len
    refine Sat.bind (ct_sub_cond_mp_mp_sat op0 n _ (by rw [hL.nlimbs]; exact hnN)
      (fun _ => by rw [hlen]; exact hnlt)) ?_
    rintro ⟨a', w⟩ ⟨h1, h2, h3⟩
    dsimp only at *
    have ha' := a'.toNat_lt
    rw [h1, hlen] at ha'
    refine Sat.pure ⟨a', rfl, h1.trans hlen, fun hcase => ?_, fun hlt hge => ?_⟩
    · rw [hlen, hval hcase] at h3
      exact add_mod_final hab hbn hnlt ha' h2 h3
    · have hnB := n.toNat_lt_B
      have hLB' := pow_le_len (hN ▸ hlt)
      have hop : op0.toNat = q := by
        rw [hL.toNat, Nat.div_eq_of_lt (lt_trans hab hnB), Nat.mul_zero, Nat.add_zero,
          Nat.mod_eq_of_lt (by omega)]
      have hk1 : k = 1 := by
        rcases Nat.le_one_iff_eq_zero_or_eq_one.1 hk with rfl | rfl
        · omega
        · rfl
      subst hk1
      rw [hlen, hop, decide_eq_true (show n.toNat ≤ a.toNat + b.toNat by omega), if_pos rfl] at h3
      rcases Nat.le_one_iff_eq_zero_or_eq_one.1 h2 with rfl | rfl <;> omega

theorem ct_add_mod_mp_mp_sat (a : Buf f) (b : Buf g) (n : Buf h) (hn : LenCompat n a.len)
    (hab : a.toNat < n.toNat) (hbn : b.toNat < n.toNat)
    (hcase : a.nlimbs = n.nlimbs ∨ a.toNat + b.toNat < B ^ n.nlimbs) :
    Sat (ct_add_mod_mp_mp a b n) (fun r => ∃ a' : Buf f, r = .ok a' ∧ a'.len = a.len ∧
      a'.toNat = (a.toNat + b.toNat) % n.toNat) :=
  (ct_add_mod_mp_mp_sat' a b n hn hab hbn).mono
    fun _ ⟨a', h1, h2, h3, _⟩ => ⟨a', h1, h2, h3 hcase⟩

/-! ### Modular subtraction -/

theorem ct_sub_mod_mp_mp_sat' (a : Buf f) (b : Buf g) (n : Buf h) (hn : LenCompat n a.len)
    (hab : a.toNat < n.toNat) (hbn : b.toNat < n.toNat) :
    Sat (ct_sub_mod_mp_mp a b n) (fun r => ∃ a' : Buf f, r = .ok a' ∧ a'.len = a.len ∧
      (a.nlimbs = n.nlimbs ∨ b.toNat ≤ a.toNat →
        a'.toNat = (a.toNat + (n.toNat - b.toNat)) % n.toNat) ∧
      (n.nlimbs < a.nlimbs → a.toNat < b.toNat →
        a'.toNat = a.toNat + (n.toNat - b.toNat) + B ^ n.nlimbs)) := by
  unfold ct_sub_mod_mp_mp
  have hN : a.nlimbs = ct_mp_nlimbs a.len := Buf.nlimbs_eq a
  have hnN : n.nlimbs ≤ a.nlimbs := by rw [hN]; exact hn.nlimbs
  have ha := a.toNat_lt
  have hnlt := hn.lt
  refine Sat.bind (len_is_compatible_with_sat n a.len) ?_
  rintro _ rfl
  refine Sat.cond (fun hc => absurd hn (by simpa using hc)) fun _ => ?_
  rw [M.assert_eq hnN, M.pure_bind, assert_lt hab, M.pure_bind, assert_lt hbn, M.pure_bind,
    M.assert_eq (not_empty_of_pos (by omega)), M.pure_bind]
  dsimp only
  let P : ℕ → Buf f × ℕ → Prop := fun i s => ∃ q, Low a (q % 256 ^ a.len) i s.1 ∧
    s.2 ≤ 1 ∧ q < B ^ i ∧ q + b.toNat % B ^ i = a.toNat % B ^ i + s.2 * B ^ i
  have hstep : ∀ {i q k k' v x op0'}, i < a.nlimbs →
      q < B ^ i → q + b.toNat % B ^ i = a.toNat % B ^ i + k * B ^ i → v < B → k' ≤ 1 →
      a.toNat / B ^ i % B + k' * B = b.toNat / B ^ i % B + k + v →
      x = q % 256 ^ a.len + B ^ i * topv a i v →
      Low a x (i + 1) op0' → P (i + 1) (op0', k') := by
    intro i q k k' v x op0' hi hq hqe hv hk' he hx hL
    refine ⟨q + B ^ i * v, ?_, hk', ?_, sub_step hqe he⟩
    · rw [← topv_mod a hi hq hv, ← hx]; exact hL
    · have := Nat.mul_le_mul_left (B ^ i) (Nat.succ_le_of_lt hv)
      rw [Nat.mul_succ, ← pow_succ] at this
      omega
  have hbm : b.toNat < B ^ n.nlimbs := lt_trans hbn n.toNat_lt_B
  refine Sat.bind (Sat.forRange (P := P) (Nat.zero_le _)
    ⟨0, Low.zero a, by simp [Nat.mod_one]⟩ ?_) ?_
  · rintro i ⟨op0, k⟩ _ hi ⟨q, hL, hk, hq, hqe⟩
    dsimp only at hL hk hqe ⊢
    have hia : i < a.nlimbs := by omega
    refine Sat.bind (hL.sat_load hia le_rfl (Q := fun v => v = a.toNat / B ^ i % B) rfl) ?_
    rintro _ rfl
    refine Sat.bind (b.sat_load_l (by omega) (Q := fun v => v = b.toNat / B ^ i % B) rfl) ?_
    rintro _ rfl
    obtain ⟨k', v, e, hk', hv, he⟩ := ct_sub_l_l_b_spec (dig_lt a.toNat i) (dig_lt b.toNat i) hk
    rw [e, M.pure_bind]
    refine Sat.bind (hL.sat_store_trunc hia hv hL.nlimbs (fun b' hb' => hb')) fun b' hb' => ?_
    exact Sat.pure (hstep hia hq hqe hv hk' he rfl hb')
  rintro ⟨op0, k⟩ hP
  refine Sat.bind (Sat.forRange (P := P) (Nat.min_le_right _ _) hP ?_) ?_
  · rintro i ⟨op0, k⟩ h1 hi ⟨q, hL, hk, hq, hqe⟩
    dsimp only at hL hk hqe ⊢
    have hia : i < a.nlimbs := by omega
    refine Sat.bind (hL.sat_load hia le_rfl (Q := fun v => v = a.toNat / B ^ i % B) rfl) ?_
    rintro _ rfl
    have hbi : b.toNat / B ^ i % B = 0 := b.dig_high (by omega)
    have hkB : k < B := lt_of_le_of_lt hk one_lt_B
    obtain ⟨k', v, e, hk', hv, he, -⟩ := ct_sub_l_l_spec (dig_lt a.toNat i) hkB
    rw [e]
    dsimp only
    refine Sat.bind (hL.sat_store_trunc hia hv hL.nlimbs (fun b' hb' => hb')) fun b' hb' => ?_
    exact Sat.pure (hstep hia hq hqe hv hk' (by rw [hbi, Nat.zero_add]; exact he) rfl hb')
  · rintro ⟨op0, k⟩ ⟨q, hL, hk, hq, hqe⟩
    dsimp only at *
    have ham : a.toNat % B ^ n.nlimbs = a.toNat := Nat.mod_eq_of_lt (lt_trans hab n.toNat_lt_B)
    rw [ham, Nat.mod_eq_of_lt hbm] at hqe
    rw [from'_le_one hk, M.pure_bind]
    have hlen := hL.len
    refine Sat.bind (ct_add_cond_mp_mp_sat op0 n _ (by rw [hL.nlimbs]; exact hnN)
      (fun _ => by rw [hlen]; exact hnlt)) ?_
    rintro ⟨a', w⟩ ⟨h1, h2, h3⟩
    dsimp only at *
    rw [hlen] at h3
    have ha' := a'.toNat_lt
    rw [h1, hlen] at ha'
    refine Sat.pure ⟨a', rfl, h1.trans hlen, fun hcase => ?_, fun hlt hge => ?_⟩
    rotate_left
    · have hnB := n.toNat_lt_B
      have hLB' : 2 * B ^ n.nlimbs ≤ 256 ^ a.len := by
        have h4 := lt_nlimbs_iff.1 (hN ▸ hlt)
        have h5 := Nat.pow_le_pow_right (n := 256) (by norm_num) (Nat.succ_le_of_lt h4)
        rw [pow_succ, pow_256] at h5
        omega
      have hk1 : k = 1 := by
        rcases Nat.le_one_iff_eq_zero_or_eq_one.1 hk with rfl | rfl
        · omega
        · rfl
      subst hk1
      have hop : op0.toNat = q := by
        rw [hL.toNat, Nat.div_eq_of_lt (lt_trans hab hnB), Nat.mul_zero, Nat.add_zero,
          Nat.mod_eq_of_lt (by omega)]
      rw [hop] at h3
      simp only [decide_true, if_true] at h3
      rcases Nat.le_one_iff_eq_zero_or_eq_one.1 h2 with rfl | rfl <;> omega
    rcases Nat.le_one_iff_eq_zero_or_eq_one.1 hk with rfl | rfl
    · -- no borrow
      have hop : op0.toNat = q := by
        rw [hL.toNat, Nat.div_eq_of_lt (lt_trans hab n.toNat_lt_B), Nat.mul_zero, Nat.add_zero,
          Nat.mod_eq_of_lt (by omega)]
      rw [hop] at h3
      simp only [Nat.zero_ne_one, decide_false, Bool.false_eq_true, if_false, Nat.add_zero] at h3
      rw [show a.toNat + (n.toNat - b.toNat) = (a.toNat - b.toNat) + n.toNat by omega,
        Nat.add_mod_right, Nat.mod_eq_of_lt (by omega)]
      rcases Nat.le_one_iff_eq_zero_or_eq_one.1 h2 with rfl | rfl <;> omega
    · have hablt : a.toNat < b.toNat := by omega
      have heq : a.nlimbs = n.nlimbs := hcase.resolve_right (by omega)
      have hd : 256 ^ a.len ∣ B ^ n.nlimbs := by rw [← heq, hN]; exact len_dvd_pow _
      have hop : op0.toNat = q % 256 ^ a.len := hL.final heq.le
      have hq2 : op0.toNat = 256 ^ a.len - (b.toNat - a.toNat) := by
        rw [hop]
        obtain ⟨m, hm⟩ := hd
        have hLp : 0 < 256 ^ a.len := by positivity
        have hm0 : 0 < m := by
          rcases Nat.eq_zero_or_pos m with rfl | h0
          · rw [Nat.mul_zero] at hm; omega
          · exact h0
        obtain ⟨m, rfl⟩ : ∃ m', m = m' + 1 := ⟨m - 1, by omega⟩
        rw [Nat.mul_succ] at hm
        have : q = (256 ^ a.len - (b.toNat - a.toNat)) + 256 ^ a.len * m := by omega
        rw [this, Nat.add_mul_mod_self_left, Nat.mod_eq_of_lt (by omega)]
      rw [hq2] at h3
      simp only [decide_true, if_true] at h3
      rw [Nat.mod_eq_of_lt (by omega)]
      rcases Nat.le_one_iff_eq_zero_or_eq_one.1 h2 with rfl | rfl <;> omega

theorem ct_sub_mod_mp_mp_sat (a : Buf f) (b : Buf g) (n : Buf h) (hn : LenCompat n a.len)
    (hab : a.toNat < n.toNat) (hbn : b.toNat < n.toNat)
    (hcase : a.nlimbs = n.nlimbs ∨ b.toNat ≤ a.toNat) :
    Sat (ct_sub_mod_mp_mp a b n) (fun r => ∃ a' : Buf f, r = .ok a' ∧ a'.len = a.len ∧
      a'.toNat = (a.toNat + (n.toNat - b.toNat)) % n.toNat) :=
  (ct_sub_mod_mp_mp_sat' a b n hn hab hbn).mono
    fun _ ⟨a', h1, h2, h3, _⟩ => ⟨a', h1, h2, h3 hcase⟩

/-! ### Modular negation -/

theorem ct_negate_mod_mp_sat (a : Buf f) (n : Buf g) (hn : LenCompat n a.len)
    (hab : a.toNat < n.toNat) :
    Sat (ct_negate_mod_mp a n) (fun r => ∃ a' : Buf f, r = .ok a' ∧ a'.len = a.len ∧
      a'.toNat = (n.toNat - a.toNat) % n.toNat) := by
  unfold ct_negate_mod_mp
  have hN : a.nlimbs = ct_mp_nlimbs a.len := Buf.nlimbs_eq a
  have hnN : n.nlimbs ≤ a.nlimbs := by rw [hN]; exact hn.nlimbs
  have ha := a.toNat_lt
  have hnlt := hn.lt
  refine Sat.bind (len_is_compatible_with_sat n a.len) ?_
  rintro _ rfl
  refine Sat.cond (fun hc => absurd hn (by simpa using hc)) fun _ => ?_
  rw [assert_lt hab, M.pure_bind]
  refine Sat.bind (ct_is_zero_mp_sat a) ?_
  rintro _ rfl
  rw [LimbChoice.not_ofBool]
  dsimp only
  refine Sat.bind (ct_negate_cond_mp_sat a _) ?_
  rintro op0 ⟨hlen, hval⟩
  refine Sat.bind (ct_add_cond_mp_mp_sat op0 n _ (by rw [Buf.nlimbs_congr hlen]; exact hnN)
      (fun _ => by rw [hlen]; exact hnlt)) ?_
  rintro ⟨a', w⟩ ⟨h1, h2, h3⟩
  refine Sat.pure ⟨a', rfl, h1.trans hlen, ?_⟩
  dsimp only at *
  have ha' := a'.toNat_lt
  rw [h1, hlen] at ha'
  rw [hlen, hval] at h3
  by_cases h0 : a.toNat = 0
  · simp [h0] at h3
    rw [h0, Nat.sub_zero, Nat.mod_self]; exact h3.1
  · simp [h0] at h3
    rw [Nat.mod_eq_of_lt (by omega)] at h3
    rw [Nat.mod_eq_of_lt (by omega)]
    rcases Nat.le_one_iff_eq_zero_or_eq_one.1 h2 with rfl | rfl <;> omega

/-- Incompatible lengths are reported as an error. -/
theorem mod_len_error {α : Type} (a : Buf f) (n : Buf g) (hn : ¬ LenCompat n a.len)
    (m : M (Except CtAddModMpMpError α)) :
    Sat (do
      let c ← n.len_is_compatible_with a.len
      M.cond (c = false) (pure (.error .InconsistentOperandLengths)) m)
      (fun r => r = .error .InconsistentOperandLengths) := by
  refine Sat.bind (len_is_compatible_with_sat n a.len) ?_
  rintro _ rfl
  exact Sat.cond (fun _ => Sat.pure rfl) fun h => absurd (by simpa using hn) h

end Cmpa
