import Verif.Proofs.Divisor

/-!
# Construction of a divisor
-/

set_option linter.unusedSectionVars false

namespace Cmpa
variable [LimbCfg] {f g h : Fmt}

open M

/-- The number of bytes of an integer. -/
abbrev byteLen (x : ℕ) : ℕ := (Nat.size x + 7) / 8

theorem byteLen_zero : byteLen 0 = 0 := by simp [byteLen, Nat.size_zero]

theorem byteLen_pos {x : ℕ} (h : x ≠ 0) : 0 < byteLen x := by
  have := Nat.size_pos.2 (Nat.pos_of_ne_zero h)
  unfold byteLen; omega

theorem lt_byteLen (x : ℕ) : x < 256 ^ byteLen x := (isByteLen_size x).1

theorem byteLen_le {x : ℕ} (h : x ≠ 0) : 256 ^ (byteLen x - 1) ≤ x := by
  by_contra hc
  have := (isByteLen_size x).2 _ (not_le.1 hc)
  have := byteLen_pos h
  unfold byteLen at *
  omega

theorem byteLen_limb_le {x : ℕ} (h : x < B) : byteLen x ≤ LB := by
  rw [(isByteLen_size x).le, ← B_eq_256_pow]; exact h

theorem lt_pow_byteLen (x : ℕ) : x < B ^ ct_mp_nlimbs (byteLen x) :=
  lt_of_lt_of_le (lt_byteLen x) (pow_len_le _)

theorem pow_le_of_nlimbs {x : ℕ} (h : x ≠ 0) : B ^ (ct_mp_nlimbs (byteLen x) - 1) ≤ x := by
  refine le_trans ?_ (byteLen_le h)
  rw [← pow_256]
  refine Nat.pow_le_pow_right (by norm_num) ?_
  have := pred_nlimbs_mul_lt (byteLen_pos h)
  omega

theorem byteLen_limb {y i v : ℕ} (hy : y < B ^ i) (hv : v < B) (h0 : v ≠ 0) :
    byteLen (y + B ^ i * v) = i * LB + byteLen v := by
  have h1 : (y + B ^ i * v) / B ^ i = v := by
    rw [Nat.add_mul_div_left _ _ (B_pow_pos i), Nat.div_eq_of_lt hy, Nat.zero_add]
  have h2 := size_add_div (v := y + B ^ i * v) (b := i * W) (by rw [← B_pow_eq, h1]; exact h0)
  rw [← B_pow_eq, h1] at h2
  unfold byteLen
  rw [h2, W_eq, show i * (8 * LB) = 8 * (i * LB) by ring]
  omega

namespace CtMpDivisor

theorem find_head_some_sat (v : Buf f) {dec : ℕ} (hdec : dec < B) :
    Sat (find_head v (some dec)) (fun o => (v.toNat < dec → o = none) ∧ (dec ≤ v.toNat →
      o = some (byteLen (v.toNat - dec),
        (v.toNat - dec) / B ^ (ct_mp_nlimbs (byteLen (v.toNat - dec)) - 1)))) := by
  unfold find_head
  have hN := v.toNat_lt_B
  refine Sat.bind (P := fun s : ℕ × ℕ × ℕ => ∃ y, s.1 < B ∧ y < B ^ v.nlimbs ∧
    v.toNat % B ^ v.nlimbs + s.1 * B ^ v.nlimbs = dec + y ∧ s.2.1 = byteLen y ∧
    s.2.2 = y / B ^ (ct_mp_nlimbs (byteLen y) - 1)) ?_ ?_
  · refine Sat.forRange (P := fun i (s : ℕ × ℕ × ℕ) => ∃ y, s.1 < B ∧ y < B ^ i ∧
      v.toNat % B ^ i + s.1 * B ^ i = dec + y ∧ s.2.1 = byteLen y ∧
      s.2.2 = y / B ^ (ct_mp_nlimbs (byteLen y) - 1)) (Nat.zero_le _) ?_ ?_
    · exact ⟨0, hdec, by simp, by simp [Nat.mod_one], by simp [byteLen_zero], by simp⟩
    · rintro i ⟨x, len, hd⟩ - hi ⟨y, h1, h2, h3, h4, h5⟩
      dsimp only at h1 h3 h4 h5 ⊢
      refine Sat.bind (P := fun l => l = v.toNat / B ^ i % B) (Buf.sat_load_l v hi rfl) fun l hl => ?_
      subst l
      obtain ⟨w, z, e1, e2, e3, e4, -⟩ := ct_sub_l_l_spec (dig_lt v.toNat i) h1
      rw [e1]
      dsimp only
      have hdB : hd < B := by
        by_cases hy : y = 0
        · rw [h5, hy, Nat.zero_div]; exact B_pos
        · rw [h5, Nat.div_lt_iff_lt_mul (B_pow_pos _), ← pow_succ']
          have := nlimbs_pos_iff.2 (byteLen_pos hy)
          rw [show ct_mp_nlimbs (byteLen y) - 1 + 1 = ct_mp_nlimbs (byteLen y) by omega]
          exact lt_pow_byteLen y
      rw [ct_find_last_set_byte_l_eq e3, M.pure_bind, ct_eq_l_l_eq e3 B_pos,
        LimbChoice.select_usize_ofBool, LimbChoice.select_ofBool e3 hdB]
      refine Sat.pure ⟨y + B ^ i * z, lt_of_le_of_lt e2 one_lt_B, ?_, ?_, ?_⟩
      · have h6 : B ^ i * (z + 1) ≤ B ^ i * B := Nat.mul_le_mul_left _ e3
        rw [Nat.mul_add, mul_one] at h6
        rw [pow_succ]
        omega
      · dsimp only
        rw [mod_succ, pow_succ]
        linear_combination h3 + B ^ i * e4
      · by_cases hz : z = 0
        · subst hz
          simp only [decide_true, if_true, Nat.mul_zero, Nat.add_zero]
          exact ⟨h4, h5⟩
        · have hb := byteLen_limb h2 e3 hz
          simp only [hz, decide_false, Bool.false_eq_true, if_false]
          refine ⟨hb.symm, ?_⟩
          rw [hb, Composite.nlimbs_add_mul, Composite.nlimbs_one (byteLen_pos hz) (byteLen_limb_le e3),
            Nat.add_sub_cancel, Nat.add_mul_div_left _ _ (B_pow_pos i), Nat.div_eq_of_lt h2,
            Nat.zero_add]
  · rintro ⟨x, len, hd⟩ ⟨y, h1, h2, h3, h4, h5⟩
    dsimp only at h1 h3 h4 h5 ⊢
    rw [Nat.mod_eq_of_lt hN] at h3
    refine Sat.cond (fun hx => ?_) fun hx => ?_
    · refine Sat.pure ⟨fun _ => rfl, fun hle => ?_⟩
      have : 1 * B ^ v.nlimbs ≤ x * B ^ v.nlimbs := Nat.mul_le_mul_right _ (by omega)
      omega
    · have hx0 : x = 0 := by omega
      subst hx0
      refine Sat.pure ⟨fun hlt => by omega, fun hle => ?_⟩
      rw [show v.toNat - dec = y by omega, h4, h5]

theorem find_head_none_sat (v : Buf f) (h0 : v.toNat ≠ 0) :
    Sat (find_head v none) (fun o =>
      o = some (byteLen v.toNat, v.toNat / B ^ (ct_mp_nlimbs (byteLen v.toNat) - 1))) := by
  unfold find_head
  refine Sat.bind (find_last_set_byte_mp_sat v) fun n hn => ?_
  subst hn
  have hp := nlimbs_pos_iff.2 (byteLen_pos h0)
  rw [M.sub_eq hp, M.pure_bind]
  have hle : byteLen v.toNat ≤ v.len := by
    rw [(isByteLen_size v.toNat).le]; exact v.toNat_lt
  have hle2 := nlimbs_mono hle
  rw [← Buf.nlimbs_eq] at hle2
  refine Sat.bind (P := fun l => l = v.toNat / B ^ (ct_mp_nlimbs (byteLen v.toNat) - 1) % B)
    (Buf.sat_load_l v (by omega) rfl) fun l hl => ?_
  subst l
  refine Sat.pure ?_
  rw [Nat.mod_eq_of_lt]
  rw [Nat.div_lt_iff_lt_mul (B_pow_pos _), ← pow_succ']
  rw [show ct_mp_nlimbs (byteLen v.toNat) - 1 + 1 = ct_mp_nlimbs (byteLen v.toNat) by omega]
  exact lt_pow_byteLen _

theorem head_borrow_sat (v : Buf f) {V n : ℕ} (hn : n ≤ v.nlimbs) {dec : Option ℕ}
    (hdec : dec.getD 0 < B) (hv : v.toNat = V + dec.getD 0) :
    Sat (head_borrow v n dec) (Vdb v.toNat V (dec.getD 0) (n - min 3 n)) := by
  cases dec with
  | none =>
    unfold head_borrow
    refine Sat.pure ⟨B_pos, ?_⟩
    rw [hv]; simp
  | some dec =>
    unfold head_borrow
    dsimp only [Option.getD_some] at hdec hv ⊢
    refine Sat.forRange (P := fun i x => Vdb v.toNat V dec i x) (Nat.zero_le _) (Vdb.zero hdec) ?_
    rintro i x - hi hx
    refine Sat.bind (P := fun l => l = v.toNat / B ^ i % B)
      (Buf.sat_load_l_full v (full_of_lt_pred (by rw [← Buf.nlimbs_eq]; omega)) rfl) fun l hl => ?_
    subst l
    obtain ⟨x', h1, -, h3⟩ := hx.step hv
    rw [h1]
    exact Sat.pure h3

/-- Limbs below the third most significant one have no influence on the two most significant ones
of the scaled value. -/
theorem scaled_high (V k : ℕ) {s : ℕ} (hs : s < W) :
    V * 2 ^ s / B ^ (k + 1) = V / B ^ k * 2 ^ s / B := by
  have hp : 0 < 2 ^ s := Nat.two_pow_pos s
  have hB : B = 2 ^ s * 2 ^ (W - s) := by rw [← pow_add, B_eq_two_pow]; congr 1; omega
  have e : B ^ (k + 1) = 2 ^ s * (B ^ k * 2 ^ (W - s)) := by
    calc B ^ (k + 1) = B ^ k * B := pow_succ _ _
      _ = B ^ k * (2 ^ s * 2 ^ (W - s)) := congrArg (B ^ k * ·) hB
      _ = _ := by ring
  have e2 := Nat.mul_div_mul_left (V / B ^ k) (2 ^ (W - s)) hp
  rw [← hB] at e2
  rw [e, Nat.mul_comm V, Nat.mul_div_mul_left _ _ hp, ← Nat.div_div_eq_div_mul,
    Nat.mul_comm (V / B ^ k), e2]

theorem new_scaled_sat (v : Buf f) {V : ℕ} {dec : Option ℕ} (hdec : dec.getD 0 < B)
    (hv : v.toNat = V + dec.getD 0) (h0 : V ≠ 0) :
    Sat (new_scaled v dec (byteLen V) (V / B ^ (ct_mp_nlimbs (byteLen V) - 1)))
      (fun d => d.Ok V ∧ d.v = v ∧ d.v_decrement = dec) := by
  unfold new_scaled
  dsimp only
  have hnp := nlimbs_pos_iff.2 (byteLen_pos h0)
  have hlt := lt_pow_byteLen V
  have hle := pow_le_of_nlimbs h0
  have hnN : ct_mp_nlimbs (byteLen V) ≤ v.nlimbs := by
    rw [Buf.nlimbs_eq]
    refine nlimbs_mono ?_
    rw [(isByteLen_size V).le]
    exact lt_of_le_of_lt (by omega) v.toNat_lt
  generalize hn : ct_mp_nlimbs (byteLen V) = n at *
  have hBn : B ^ n = B * B ^ (n - 1) := by
    rw [← pow_succ']; congr 1; omega
  have hheadB : V / B ^ (n - 1) < B := by
    rw [Nat.div_lt_iff_lt_mul (B_pow_pos _), ← hBn]; exact hlt
  have hhead0 : V / B ^ (n - 1) ≠ 0 := (Nat.div_pos hle (B_pow_pos _)).ne'
  obtain ⟨w0, w1, w2⟩ := size_bounds hhead0
  have hwW := size_le_W hheadB
  have hhd := Nat.div_add_mod' V (B ^ (n - 1))
  have hhm := mod_lt_pow V (n - 1)
  rw [ct_find_last_set_bit_l_eq hheadB, M.pure_bind, M.assert_eq w0.ne', M.pure_bind,
    M.sub_eq hwW, M.pure_bind]
  generalize hw : Nat.size (V / B ^ (n - 1)) = w at *
  generalize V / B ^ (n - 1) = hd at *
  generalize V % B ^ (n - 1) = hl at *
  -- scaling
  have hsW : W - w < W := by omega
  have hslt : V * 2 ^ (W - w) < B ^ n := by
    have h1 : V < 2 ^ w * B ^ (n - 1) := by
      have := Nat.mul_le_mul_right (B ^ (n - 1)) (Nat.succ_le_of_lt w2)
      rw [Nat.succ_mul] at this
      omega
    have h2 := Nat.mul_lt_mul_of_pos_right h1 (Nat.two_pow_pos (W - w))
    have e : 2 ^ w * B ^ (n - 1) * 2 ^ (W - w) = B ^ n := by
      rw [hBn, show B = 2 ^ w * 2 ^ (W - w) by rw [← pow_add, B_eq_two_pow]; congr 1; omega]; ring
    rwa [e] at h2
  have hnorm : B ^ n ≤ 2 * (V * 2 ^ (W - w)) := by
    have h1 : 2 ^ (w - 1) * B ^ (n - 1) ≤ V := by
      have := Nat.mul_le_mul_right (B ^ (n - 1)) w1
      omega
    have h2 := Nat.mul_le_mul_right (2 ^ (W - w)) h1
    have e : 2 * (2 ^ (w - 1) * B ^ (n - 1) * 2 ^ (W - w)) = B ^ n := by
      have e1 : 2 * 2 ^ (w - 1) = 2 ^ w := by rw [← pow_succ']; congr 1; omega
      have e2 : B = 2 ^ w * 2 ^ (W - w) := by rw [← pow_add, B_eq_two_pow]; congr 1; omega
      rw [hBn]
      calc _ = 2 * 2 ^ (w - 1) * 2 ^ (W - w) * B ^ (n - 1) := by ring
        _ = _ := by rw [e1, ← e2]
    omega
  generalize hs : W - w = s at *
  refine Sat.bind (head_borrow_sat v hnN hdec hv) fun x0 hx0 => ?_
  -- the three most significant limbs
  generalize hk : n - min 3 n = k at *
  have hkn : k < n := by omega
  refine Sat.bind (P := fun st : ℕ × ℕ × ℕ × ℕ => Svc (V / B ^ k) s (n - k) st.2.1 ∧
    st.2.2.1 = (if n = 1 then 0 else V * 2 ^ s / B ^ (n - 2) % B) ∧
    st.2.2.2 = V * 2 ^ s / B ^ (n - 1)) ?_ ?_
  · refine Sat.mono (P := fun st : ℕ × ℕ × ℕ × ℕ => Vdb v.toNat V (dec.getD 0) n st.1 ∧
      Svc (V / B ^ k) s (n - k) st.2.1 ∧
      st.2.2.1 = (if n < k + 2 then 0 else V / B ^ k * 2 ^ s / B ^ (n - k - 2) % B) ∧
      st.2.2.2 = (if n < k + 1 then 0 else V / B ^ k * 2 ^ s / B ^ (n - k - 1) % B)) ?_ ?_
    · refine Sat.forRange (P := fun i (st : ℕ × ℕ × ℕ × ℕ) => Vdb v.toNat V (dec.getD 0) i st.1 ∧
        Svc (V / B ^ k) s (i - k) st.2.1 ∧
        st.2.2.1 = (if i < k + 2 then 0 else V / B ^ k * 2 ^ s / B ^ (i - k - 2) % B) ∧
        st.2.2.2 = (if i < k + 1 then 0 else V / B ^ k * 2 ^ s / B ^ (i - k - 1) % B)) hkn.le ?_ ?_
      · refine ⟨hx0, ?_, ?_, ?_⟩
        · rw [Nat.sub_self]; exact Svc.zero
        · rw [if_pos (by omega)]
        · rw [if_pos (by omega)]
      · rintro i ⟨x, c, th, h⟩ hki hi ⟨h1, h2, h3, h4⟩
        dsimp only at h1 h2 h3 h4 ⊢
        refine Sat.bind (P := fun l => l = v.toNat / B ^ i % B)
          (Buf.sat_load_l v (by omega) rfl) fun l hl => ?_
        subst l
        obtain ⟨x', e1, -, e2⟩ := h1.step hv
        rw [e1]
        dsimp only
        rw [_scale_val_eq hsW (dig_lt _ _) h2.le, M.pure_bind]
        have hdig : V / B ^ i % B = V / B ^ k / B ^ (i - k) % B := by
          rw [Nat.div_div_eq_div_mul, ← pow_add]; congr 3; omega
        obtain ⟨e3, e4⟩ := h2.step
        rw [← hdig] at e3 e4
        refine Sat.pure ⟨e2, ?_, ?_, ?_⟩
        · rw [show i + 1 - k = i - k + 1 by omega]; exact e3
        · dsimp only
          rw [h4]
          by_cases hc : i < k + 1
          · rw [if_pos hc, if_pos (by omega)]
          · rw [if_neg hc, if_neg (by omega)]; congr 3; omega
        · dsimp only
          rw [e4, if_neg (by omega)]; congr 3; omega
    · rintro ⟨x, c, th, h⟩ ⟨-, h2, h3, h4⟩
      dsimp only at h2 h3 h4 ⊢
      refine ⟨h2, ?_, ?_⟩
      · rw [h3]
        by_cases h1 : n = 1
        · rw [if_pos h1, if_pos (by omega)]
        · rw [if_neg h1, if_neg (by omega)]
          by_cases hk0 : k = 0
          · subst hk0; simp
          · have hn3 : n = k + 3 := by omega
            have := scaled_high V k hsW
            subst hn3
            rw [show k + 3 - k - 2 = 1 by omega, show k + 3 - 2 = k + 1 by omega, pow_one, this]
      · rw [h4, if_neg (by omega)]
        have hlt' : V * 2 ^ s / B ^ (n - 1) < B := by
          rw [Nat.div_lt_iff_lt_mul (B_pow_pos _), ← hBn]; exact hslt
        by_cases hk0 : k = 0
        · subst hk0; simp only [pow_zero, Nat.div_one, Nat.sub_zero]; rw [Nat.mod_eq_of_lt hlt']
        · have hn3 : n = k + 3 := by omega
          have := scaled_high V k hsW
          subst hn3
          rw [show k + 3 - 1 = k + 1 + 1 by omega, pow_succ, ← Nat.div_div_eq_div_mul, this] at hlt' ⊢
          rw [show k + 3 - k - 1 = 1 + 1 by omega, pow_succ, pow_one, ← Nat.div_div_eq_div_mul,
            Nat.mod_eq_of_lt hlt']
  · rintro ⟨x, c, th, h⟩ ⟨h2, h3, h4⟩
    dsimp only at h2 h3 h4 ⊢
    have hTlt : V / B ^ k * 2 ^ s < B ^ (n - k) := by
      refine lt_of_mul_lt_mul_right (a := B ^ k) ?_ (Nat.zero_le _)
      rw [← pow_add, show n - k + k = n by omega]
      refine lt_of_le_of_lt ?_ hslt
      rw [Nat.mul_right_comm]
      exact Nat.mul_le_mul_right _ (Nat.div_mul_le_self _ _)
    have hc : c = 0 := by
      rw [h2]
      refine Nat.div_eq_of_lt (lt_of_le_of_lt ?_ hTlt)
      exact Nat.mul_le_mul_right _ (Nat.mod_le _ _)
    rw [M.assert_eq hc, M.pure_bind]
    have hhB : h < B := by
      rw [h4, Nat.div_lt_iff_lt_mul (B_pow_pos _), ← hBn]; exact hslt
    have hh0 : h ≠ 0 := by
      rw [h4]
      refine (Nat.div_pos ?_ (B_pow_pos _)).ne'
      exact le_trans hle (Nat.le_mul_of_pos_right _ (Nat.two_pow_pos _))
    refine Sat.bind (CtLDivisor.new_spec hhB hh0) ?_
    rintro o ⟨d, rfl, hd1, hd2⟩
    refine Sat.bind (P := fun d' => d' = d) ⟨d, rfl, rfl⟩ fun d' hd' => ?_
    subst hd'
    refine Sat.pure ⟨⟨hv, hdec, byteLen_pos h0, byteLen_le h0, lt_byteLen V, hsW, rfl, rfl, ?_, ?_,
      ?_, ?_, hd1, hd2⟩, rfl, rfl⟩
    · dsimp only; rw [hn]; exact hnorm
    · dsimp only; rw [hn]; exact hslt
    · dsimp only; rw [hn]; exact h4
    · dsimp only; rw [hn]; exact h3

theorem new_sat (v : Buf f) (dec : Option ℕ) (hdec : ∀ x ∈ dec, x < B)
    (hz : dec = none → v.is_empty = false → v.toNat ≠ 0) :
    Sat (CtMpDivisor.new v dec) (fun o =>
      (v.toNat ≤ dec.getD 0 → o = none) ∧
      (dec.getD 0 < v.toNat → ∃ d, o = some d ∧ d.Ok (v.toNat - dec.getD 0) ∧ d.v = v ∧
        d.v_decrement = dec)) := by
  have hd : dec.getD 0 < B := by
    cases dec with
    | none => exact B_pos
    | some x => exact hdec x rfl
  unfold CtMpDivisor.new
  refine Sat.cond (fun he => ?_) fun he => ?_
  · refine Sat.pure ⟨fun _ => rfl, fun h => ?_⟩
    rw [toNat_of_empty he] at h; omega
  · have main : ∀ n, n ≠ 0 → v.toNat = n + dec.getD 0 →
        Sat (M.cond (byteLen n = 0) (pure none) (do
          let d ← new_scaled v dec (byteLen n) (n / B ^ (ct_mp_nlimbs (byteLen n) - 1))
          pure (some d))) (fun o => ∃ d, o = some d ∧ d.Ok n ∧ d.v = v ∧ d.v_decrement = dec) := by
      intro n hn hv
      refine Sat.cond (fun h0 => absurd h0 (byteLen_pos hn).ne') fun _ => ?_
      refine Sat.bind (new_scaled_sat v hd hv hn) fun d hd => ?_
      exact Sat.pure ⟨d, rfl, hd⟩
    cases dec with
    | none =>
      have hv0 := hz rfl (by simpa using he)
      refine Sat.bind (find_head_none_sat v hv0) fun o ho => ?_
      subst ho
      dsimp only
      refine Sat.mono (main v.toNat hv0 rfl) fun o ho => ⟨fun h => ?_, fun _ => ?_⟩
      · simp only [Option.getD_none] at h; omega
      · simpa using ho
    | some x =>
      refine Sat.bind (find_head_some_sat v (hdec x rfl)) ?_
      rintro o ⟨h1, h2⟩
      simp only [Option.getD_some] at main ⊢
      by_cases hlt : v.toNat < x
      · rw [h1 hlt]
        exact Sat.pure ⟨fun _ => rfl, fun h => by omega⟩
      · rw [h2 (by omega)]
        dsimp only
        by_cases h0 : v.toNat - x = 0
        · rw [h0, byteLen_zero]
          refine Sat.cond (fun _ => ?_) fun h => absurd rfl h
          exact Sat.pure ⟨fun _ => rfl, fun h => by omega⟩
        · refine Sat.mono (main _ h0 (by omega)) fun o ho => ⟨fun h => by omega, fun _ => ho⟩

end CtMpDivisor
end Cmpa
