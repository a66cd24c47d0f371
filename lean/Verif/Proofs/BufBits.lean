import Verif.Proofs.BufOps

/-!
# Bit access, bit and byte length
-/

set_option linter.unusedSectionVars false

namespace Cmpa
variable [LimbCfg] {f g : Fmt}

open M

theorem testBit_dig (x i j : ℕ) : (x / B ^ i % B).testBit j = (decide (j < W) && x.testBit (j + i * W)) := by
  rw [B_pow_eq]; unfold B
  rw [Nat.testBit_mod_two_pow, Nat.testBit_div_two_pow]

theorem shr_and_one (x j : ℕ) : shr x j &&& 1 = (x.testBit j).toNat := by
  rw [shr_eq, Nat.and_one_is_mod]
  have := Nat.testBit_eq_decide_div_mod_eq (x := x) (i := j)
  rw [this]
  rcases Nat.mod_two_eq_zero_or_one (x / 2 ^ j) with h | h <;> simp [h]

theorem from'_toNat (b : Bool) : LimbChoice.from' b.toNat = pure (.ofBool b) := by
  cases b
  · rw [LimbChoice.from'_eq (by decide)]; simp
  · rw [LimbChoice.from'_eq (by decide)]; simp

theorem Buf.test_bit_sat (b : Buf f) (p : ℕ) :
    Sat (b.test_bit p) (fun c => c = .ofBool (b.toNat.testBit p)) := by
  unfold Buf.test_bit
  dsimp only
  have hW := W_pos
  have hdm := div_W_mul p
  have hpW := Nat.mod_lt p hW
  refine Sat.cond (fun h => ?_) (fun h => ?_)
  · refine Sat.pure ?_
    rw [LimbChoice.new_zero, Nat.testBit_lt_two_pow (lt_of_lt_of_le b.toNat_lt_B ?_)]
    rw [B_pow_eq]
    refine Nat.pow_le_pow_right (by norm_num) ?_
    have := Nat.mul_le_mul_right W h
    omega
  · refine Sat.bind (b.sat_load_l (by omega) (Q := fun v => v = b.toNat / B ^ (p / W) % B) rfl) ?_
    rintro _ rfl
    rw [shr_and_one, testBit_dig, from'_toNat, show p % W + p / W * W = p by omega]
    simp [hpW]

/-- Value with bit `p` replaced. -/
theorem testBit_upd (x i v j : ℕ) (hv : v < B) :
    (upd x i v).testBit j = if j / W = i then v.testBit (j % W) else x.testBit j := by
  have hW := W_pos
  have hdm := div_W_mul j
  have hjW := Nat.mod_lt j hW
  have key : ∀ y : ℕ, y.testBit j = (y / B ^ (j / W) % B).testBit (j % W) := fun y => by
    rw [testBit_dig]; simp [hjW, show j % W + j / W * W = j by omega]
  rw [key, key x]
  rcases Nat.lt_trichotomy (j / W) i with h | h | h
  · rw [upd_dig_lt h, if_neg h.ne]
  · rw [h, upd_dig hv, if_pos rfl]
  · rw [upd_dig_gt hv h, if_neg h.ne']

theorem testBit_bnot {x j : ℕ} (hx : x < B) : (bnot x).testBit j = (decide (j < W) && !x.testBit j) := by
  unfold bnot B
  rw [show 2 ^ W - 1 - x = 2 ^ W - (x + 1) by omega, Nat.testBit_two_pow_sub_succ hx]

theorem Buf.set_bit_to_sat (b : Buf f) {p : ℕ} (v : Bool) (hp : p < 8 * b.len) :
    Sat (b.set_bit_to p v) (fun b' => b'.len = b.len ∧
      ∀ j, b'.toNat.testBit j = if j = p then v else b.toNat.testBit j) := by
  unfold Buf.set_bit_to
  dsimp only
  have hW := W_pos
  have hdm := div_W_mul p
  have hpW := Nat.mod_lt p hW
  have hi : p / W < b.nlimbs := by
    rw [Buf.nlimbs_eq, lt_nlimbs_iff]
    have : p / W * W = 8 * (p / W * LB) := by rw [W_eq]; ring
    omega
  rw [M.assert_eq hi, M.pure_bind]
  refine Sat.bind (b.sat_load_l hi (Q := fun v => v = b.toNat / B ^ (p / W) % B) rfl) ?_
  rintro _ rfl
  rw [show (if v = true then 1 else 0) = v.toNat by cases v <;> rfl, from'_toNat, M.pure_bind,
    LimbChoice.select_ofBool B_pos shl_lt]
  have hsh : shl 1 (p % W) = 2 ^ (p % W) := by
    rw [shl_eq, one_mul, Nat.mod_eq_of_lt (two_pow_lt_B hpW)]
  rw [hsh]
  set nv := b.toNat / B ^ (p / W) % B &&& bnot (2 ^ (p % W)) ||| (if v = true then 2 ^ (p % W) else 0) with hnv
  have hlt : nv < B := by
    refine or_lt (and_lt (dig_lt _ _)) ?_
    split
    · exact two_pow_lt_B hpW
    · exact B_pos
  have hbits : ∀ j, nv.testBit j = if j = p % W then v else (b.toNat / B ^ (p / W) % B).testBit j := by
    intro j
    rw [hnv, Nat.testBit_or, Nat.testBit_and, testBit_bnot (two_pow_lt_B hpW), Nat.testBit_two_pow]
    by_cases hj : j = p % W
    · subst hj; cases v <;> simp
    · have : (p % W = j) ↔ False := by simp [Ne.symm hj]
      have h0 : (if v = true then 2 ^ (p % W) else 0).testBit j = false := by
        split
        · simp [this]
        · simp
      rw [h0, if_neg hj]
      by_cases hjW : j < W
      · simp [hjW, this]
      · have : (b.toNat / B ^ (p / W) % B).testBit j = false := by
          rw [testBit_dig]; simp [hjW]
        simp [this]
  refine b.sat_store_l hi hlt ?_ fun b' h1 h2 => ⟨h1, fun j => ?_⟩
  · intro h'
    have hh := Upto.high_lt b.toNat_lt h'
    rw [pow_256_eq] at hh ⊢
    refine Nat.lt_pow_two_of_testBit _ fun j hj => ?_
    have h3 : (b.toNat / B ^ (p / W) % B).testBit j = false :=
      Nat.testBit_lt_two_pow (lt_of_lt_of_le hh (Nat.pow_le_pow_right (by norm_num) hj))
    have : j ≠ p % W := by
      unfold hbytes at hj
      rw [← Buf.nlimbs_eq, ← h', Nat.add_sub_cancel] at hj
      have : p / W * W = 8 * (p / W * LB) := by rw [W_eq]; ring
      omega
    rw [hbits, if_neg this, h3]
  · rw [h2, testBit_upd _ _ _ _ hlt, hbits]
    by_cases hj : j = p
    · subst hj; simp
    · rw [if_neg hj]
      by_cases hq : j / W = p / W
      · have hdj := div_W_mul j
        have hne : j % W ≠ p % W := by
          intro h; apply hj; rw [← hdj, ← hdm, hq, h]
        rw [if_pos hq, if_neg hne, testBit_dig, ← hq, show j % W + j / W * W = j by omega]
        simp [Nat.mod_lt j hW]
      · rw [if_neg hq]

/-! ### Lengths -/

theorem B_pow_le_of_dig_ne {x i : ℕ} (h : x / B ^ i % B ≠ 0) : B ^ i ≤ x := by
  by_contra hc
  apply h
  rw [Nat.div_eq_of_lt (by omega), Nat.zero_mod]

theorem lt_pow_of_dig_zero {x i : ℕ} (h : x < B ^ (i + 1)) (h0 : x / B ^ i % B = 0) : x < B ^ i := by
  have : x / B ^ i < B := Nat.div_lt_of_lt_mul (by rwa [← pow_succ])
  rw [Nat.mod_eq_of_lt this] at h0
  exact (Nat.div_eq_zero_iff.1 h0).resolve_left (B_pow_pos i).ne'

theorem find_last_set_limb_go_sat (b : Buf f) :
    ∀ n, n ≤ b.nlimbs - 1 → b.toNat < B ^ n →
      Sat (find_last_set_limb.go b n) (fun r => r ≤ n ∧ b.toNat < B ^ r ∧ (0 < r → B ^ (r - 1) ≤ b.toNat))
  | 0, _, h => by unfold find_last_set_limb.go; exact Sat.pure ⟨le_rfl, h, by simp⟩
  | n + 1, hn, h => by
    unfold find_last_set_limb.go
    refine Sat.bind (P := fun _ => True) (Sat.emit trivial) fun _ _ => ?_
    refine Sat.bind (b.sat_load_l_full (i := n) (full_of_lt_pred (by rw [← Buf.nlimbs_eq]; omega))
      (Q := fun v => v = b.toNat / B ^ n % B) rfl) ?_
    rintro _ rfl
    refine Sat.cond (fun h0 => ?_) (fun h0 => ?_)
    · exact Sat.pure ⟨le_rfl, h, fun _ => by simpa using B_pow_le_of_dig_ne h0⟩
    · refine (find_last_set_limb_go_sat b n (by omega) (lt_pow_of_dig_zero h (by simpa using h0))).mono ?_
      rintro r ⟨h1, h2⟩
      exact ⟨by omega, h2⟩

theorem find_last_set_limb_sat (b : Buf f) :
    Sat (find_last_set_limb b) (fun r => r ≤ b.nlimbs ∧ b.toNat < B ^ r ∧
      (0 < r → B ^ (r - 1) ≤ b.toNat)) := by
  unfold find_last_set_limb
  dsimp only
  have hlt := b.toNat_lt_B
  refine Sat.cond (fun h => ?_) (fun h => ?_)
  · rw [h] at hlt
    exact Sat.pure ⟨by omega, hlt, by simp⟩
  · refine Sat.bind (b.sat_load_l (i := b.nlimbs - 1) (by omega)
      (Q := fun v => v = b.toNat / B ^ (b.nlimbs - 1) % B) rfl) ?_
    rintro _ rfl
    refine Sat.cond (fun h0 => ?_) (fun h0 => ?_)
    · refine (find_last_set_limb_go_sat b _ le_rfl (lt_pow_of_dig_zero ?_ h0)).mono ?_
      · rwa [Nat.sub_add_cancel (by omega)]
      · rintro r ⟨h1, h2⟩; exact ⟨by omega, h2⟩
    · exact Sat.pure ⟨le_rfl, hlt, fun _ => B_pow_le_of_dig_ne h0⟩

/-- Number of bytes of `x`: the least `n` with `x < 256^n`. -/
def IsByteLen (x n : ℕ) : Prop := x < 256 ^ n ∧ ∀ m, x < 256 ^ m → n ≤ m

theorem IsByteLen.le {x n : ℕ} (h : IsByteLen x n) {m : ℕ} : n ≤ m ↔ x < 256 ^ m :=
  ⟨fun hm => lt_of_lt_of_le h.1 (Nat.pow_le_pow_right (by norm_num) hm), h.2 m⟩

theorem isByteLen_size (x : ℕ) : IsByteLen x ((Nat.size x + 7) / 8) := by
  constructor
  · rw [pow_256_eq]
    exact lt_of_lt_of_le (Nat.lt_size_self x) (Nat.pow_le_pow_right (by norm_num) (by omega))
  · intro m hm
    rw [pow_256_eq, ← Nat.size_le] at hm
    omega

theorem size_dig {x r : ℕ} (h1 : x < B ^ (r + 1)) (h2 : B ^ r ≤ x) :
    Nat.size x = r * W + Nat.size (x / B ^ r % B) := by
  have h3 : x / B ^ r < B := Nat.div_lt_of_lt_mul (by rwa [← pow_succ])
  rw [Nat.mod_eq_of_lt h3, B_pow_eq]
  exact size_add_div (by rw [← B_pow_eq]; exact (Nat.div_pos h2 (B_pow_pos r)).ne')

theorem find_last_set_byte_mp_sat (b : Buf f) :
    Sat (find_last_set_byte_mp b) (fun r => r = (Nat.size b.toNat + 7) / 8) := by
  unfold find_last_set_byte_mp
  refine Sat.bind (find_last_set_limb_sat b) ?_
  rintro n ⟨h1, h2, h3⟩
  refine Sat.cond (fun h => ?_) (fun h => ?_)
  · refine Sat.pure ?_
    subst h
    have : b.toNat = 0 := by simpa using h2
    simp [this]
  · dsimp only
    refine Sat.bind (b.sat_load_l (i := n - 1) (by omega)
      (Q := fun v => v = b.toNat / B ^ (n - 1) % B) rfl) ?_
    rintro _ rfl
    rw [ct_find_last_set_byte_l_eq (dig_lt _ _), M.pure_bind]
    refine Sat.pure ?_
    have h4 := size_dig (x := b.toNat) (r := n - 1) (by rwa [Nat.sub_add_cancel (by omega)]) (h3 (by omega))
    rw [h4, W_eq, show (n - 1) * (8 * LB) = 8 * ((n - 1) * LB) by ring]
    omega

theorem ct_find_last_set_bit_mp_sat (b : Buf f) :
    Sat (ct_find_last_set_bit_mp b)
      (fun r => r = (.ofBool (decide (b.toNat ≠ 0)), Nat.size b.toNat)) := by
  unfold ct_find_last_set_bit_mp
  dsimp only
  refine Sat.bind (P := fun s => s.1 = .ofBool (decide (b.toNat = 0)) ∧
    s.2 + Nat.size b.toNat = b.nlimbs * W) ?_ ?_
  · refine (Sat.forDown (P := fun i s => s.1 = .ofBool (decide (b.toNat / B ^ i = 0)) ∧
      (s.2 + (Nat.size (b.toNat / B ^ i) + (if b.toNat / B ^ i = 0 then 0 else i * W)) =
        b.nlimbs * W - (if b.toNat / B ^ i = 0 then i * W else 0))) ?_ ?_).mono ?_
    · rw [b.toNat_div]; simp
    · rintro i ⟨c, n⟩ hi ⟨h1, h2⟩
      dsimp only at h1 h2 ⊢
      subst h1
      refine Sat.bind (b.sat_load_l hi (Q := fun v => v = b.toNat / B ^ i % B) rfl) ?_
      rintro _ rfl
      have hd := dig_lt b.toNat i
      rw [ct_find_last_set_bit_l_eq hd, M.pure_bind]
      have hs : Nat.size (b.toNat / B ^ i % B) ≤ W := Nat.size_le.2 hd
      rw [M.sub_eq hs, M.pure_bind, ct_is_zero_l_eq hd,
        show (if b.toNat / B ^ i % B = 0 then 1 else 0) = (decide (b.toNat / B ^ i % B = 0)).toNat by
          split <;> simp_all, from'_toNat, M.pure_bind]
      refine Sat.pure ⟨?_, ?_⟩
      · dsimp only
        rw [LimbChoice.and_ofBool]
        congr 1
        rw [div_succ b.toNat i]
        simp [B_ne_zero, Bool.and_comm]
      · dsimp only
        have hWB : W < B := Nat.lt_two_pow_self
        rw [LimbChoice.select_ofBool B_pos (by omega)]
        have hiW : i * W + W ≤ b.nlimbs * W := by
          have := Nat.mul_le_mul_right W (Nat.succ_le_of_lt hi)
          rwa [Nat.succ_mul] at this
        by_cases h0 : b.toNat / B ^ (i + 1) = 0
        · simp only [h0, if_true, decide_true, Nat.size_zero, Nat.zero_add, Nat.add_zero] at h2 ⊢
          have e : b.toNat / B ^ i % B = b.toNat / B ^ i := by
            conv_rhs => rw [div_succ, h0]
            simp
          rw [e] at hs ⊢
          rw [Nat.add_mul] at h2
          by_cases hz : b.toNat / B ^ i = 0
          · simp only [hz, if_true, Nat.size_zero]; omega
          · simp only [hz, if_false]; omega
        · have hne : b.toNat / B ^ i ≠ 0 := by
            rw [div_succ]
            have := Nat.mul_pos B_pos (Nat.pos_of_ne_zero h0)
            omega
          have hsz : Nat.size (b.toNat / B ^ i) = W + Nat.size (b.toNat / B ^ (i + 1)) := by
            rw [pow_succ, ← Nat.div_div_eq_div_mul]
            exact size_add_div (by rw [pow_succ, ← Nat.div_div_eq_div_mul] at h0; exact h0)
          simp only [h0, hne, if_false, decide_false, hsz, Bool.false_eq_true] at h2 ⊢
          rw [Nat.add_mul] at h2
          omega
    · rintro ⟨c, n⟩ ⟨h1, h2⟩
      simp only [pow_zero, Nat.div_one, Nat.zero_mul, ite_self, Nat.add_zero, Nat.sub_zero] at h1 h2
      exact ⟨h1, h2⟩
  · rintro ⟨c, n⟩ ⟨h1, h2⟩
    dsimp only at h1 h2 ⊢
    rw [M.sub_eq (by omega), M.pure_bind]
    refine Sat.pure ?_
    rw [h1, LimbChoice.not_ofBool]
    simp only [Prod.mk.injEq]
    refine ⟨by congr 1; simp, by omega⟩

theorem IsTz.dig {x i t : ℕ} (hlow : x % B ^ i = 0) (h : x / B ^ i % B ≠ 0)
    (ht : IsTz W (x / B ^ i % B) t) : 2 ^ (i * W + t) ∣ x ∧ ¬ 2 ^ (i * W + t + 1) ∣ x := by
  rcases ht with ⟨h0, _⟩ | ⟨_, h1, h2⟩
  · exact absurd h0 h
  have htW : t < W := by
    by_contra hc
    have h3 : B ∣ x / B ^ i % B := (pow_dvd_pow 2 (by omega)).trans h1
    exact h (Nat.eq_zero_of_dvd_of_lt h3 (dig_lt _ _))
  have e : x = 2 ^ (i * W) * (x / B ^ i) := by
    conv_lhs => rw [low_high x i, hlow, zero_add]
    rw [B_pow_eq]
  have key : ∀ s, s ≤ W → (2 ^ (i * W + s) ∣ x ↔ 2 ^ s ∣ x / B ^ i % B) := fun s hs => by
    have h4 : 2 ^ s ∣ B := pow_dvd_pow 2 hs
    rw [e, pow_add, ← B_pow_eq, Nat.mul_div_cancel_left _ (B_pow_pos i)]
    rw [Nat.mul_dvd_mul_iff_left (B_pow_pos i)]
    exact (Nat.dvd_mod_iff h4).symm
  exact ⟨(key t htW.le).2 h1, fun hc => h2 ((key (t + 1) (by omega)).1 hc)⟩

theorem ct_find_first_set_bit_mp_sat (b : Buf f) :
    Sat (ct_find_first_set_bit_mp b)
      (fun r => r.1 = .ofBool (decide (b.toNat ≠ 0)) ∧ IsTz 0 b.toNat r.2) := by
  unfold ct_find_first_set_bit_mp
  dsimp only
  refine Sat.bind (P := fun s => s.1 = .ofBool (decide (b.toNat = 0)) ∧
    (b.toNat ≠ 0 → 2 ^ s.2 ∣ b.toNat ∧ ¬ 2 ^ (s.2 + 1) ∣ b.toNat)) ?_ ?_
  · refine (Sat.forRange (P := fun i s => s.1 = .ofBool (decide (b.toNat % B ^ i = 0)) ∧
      (if b.toNat % B ^ i = 0 then s.2 = i * W else
        2 ^ s.2 ∣ b.toNat ∧ ¬ 2 ^ (s.2 + 1) ∣ b.toNat)) (Nat.zero_le _) ?_ ?_).mono ?_
    · simp [Nat.mod_one]
    · rintro i ⟨c, n⟩ - hi ⟨h1, h2⟩
      dsimp only at h1 h2 ⊢
      subst h1
      refine Sat.bind (b.sat_load_l hi (Q := fun v => v = b.toNat / B ^ i % B) rfl) ?_
      rintro _ rfl
      have hd := dig_lt b.toNat i
      obtain ⟨t, h3, ht⟩ := ct_find_first_set_bit_l_spec hd
      rw [h3, M.pure_bind, ct_is_zero_l_eq hd,
        show (if b.toNat / B ^ i % B = 0 then 1 else 0) = (decide (b.toNat / B ^ i % B = 0)).toNat by
          split <;> simp_all, from'_toNat, M.pure_bind]
      have htW : t ≤ W := by
        rcases ht with ⟨_, h⟩ | ⟨h0, h4, _⟩
        · exact h.le
        · by_contra hc
          exact h0 (Nat.eq_zero_of_dvd_of_lt ((pow_dvd_pow 2 (by omega : W ≤ t)).trans h4) hd)
      have hWB : W < B := Nat.lt_two_pow_self
      have hz : b.toNat % B ^ (i + 1) = 0 ↔ b.toNat % B ^ i = 0 ∧ b.toNat / B ^ i % B = 0 := by
        rw [mod_succ]; simp [B_ne_zero]
      refine Sat.pure ⟨?_, ?_⟩
      · dsimp only
        rw [LimbChoice.and_ofBool]
        congr 1
        rw [← Bool.decide_and]
        exact decide_eq_decide.2 hz.symm
      · dsimp only
        rw [LimbChoice.select_ofBool B_pos (by omega)]
        by_cases h0 : b.toNat % B ^ i = 0
        · simp only [h0, decide_true, if_true] at h2 ⊢
          subst h2
          by_cases h5 : b.toNat / B ^ i % B = 0
          · rw [if_pos (hz.2 ⟨h0, h5⟩)]
            have : t = W := by
              rcases ht with ⟨_, h⟩ | ⟨h0, _⟩
              · exact h
              · exact absurd h5 h0
            rw [this, Nat.add_mul, one_mul]
          · rw [if_neg (fun h => h5 (hz.1 h).2)]
            exact IsTz.dig h0 h5 ht
        · rw [if_neg h0] at h2
          rw [if_neg (fun h => h0 (hz.1 h).1)]
          simpa [h0] using h2
    · rintro ⟨c, n⟩ ⟨h1, h2⟩
      rw [b.toNat_mod] at h1 h2
      exact ⟨h1, fun h => by simpa [h] using h2⟩
  · rintro ⟨c, n⟩ ⟨h1, h2⟩
    dsimp only at h1 h2 ⊢
    refine Sat.pure ⟨?_, ?_⟩
    · dsimp only
      rw [h1, LimbChoice.not_ofBool]; congr 1; simp
    · dsimp only
      rw [h1, LimbChoice.select_usize_ofBool]
      by_cases h : b.toNat = 0
      · left; simp [h]
      · right; simpa [h] using h2 h

end Cmpa
