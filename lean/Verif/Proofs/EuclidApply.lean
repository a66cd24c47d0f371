import Verif.Proofs.EuclidBatch
import Verif.Proofs.Low

/-!
# Applying a batch of division steps to the operands
-/

set_option linter.unusedSectionVars false

namespace Cmpa
variable [LimbCfg] {φ ψ : Fmt}

open M TransitionMatrix

/-- The mask for a boolean. -/
def bmask (b : Bool) : ℕ := if b then lmax else 0

theorem bmask_lt (b : Bool) : bmask b < B := by
  unfold bmask; split
  · exact lmax_lt
  · exact B_pos

theorem and_bmask {x : ℕ} (hx : x < B) (b : Bool) : x &&& bmask b = if b then x else 0 := by
  unfold bmask; cases b
  · simp
  · simp only [if_true]; exact and_lmax hx

theorem select_bmask (b : Bool) : (LimbChoice.ofBool b).select 0 lmax = bmask b :=
  LimbChoice.select_ofBool B_pos lmax_lt

/-! ### One limb -/

theorem compute_limb_sat {c0 c1 bo x y lx ly ta tb : ℕ} (na nb : Bool) (hc0 : c0 < B)
    (hc1 : c1 ≤ 1) (hbo : bo ≤ 2) (hx : x < B) (hy : y < B) (hlx : lx < B) (hly : ly < B)
    (hta : ta < B) (htb : tb < B) :
    Sat (compute_limb (c0, c1, bo) (x, y) (lx, ly) (ta, tb) (bmask na, bmask nb)) (fun s =>
      s.2 < B ∧ s.1.1 < B ∧ s.1.2.1 ≤ 1 ∧ s.1.2.2 ≤ 2 ∧
      (s.2 : ℤ) + B * (s.1.1 + B * s.1.2.1 - s.1.2.2) =
        (c0 + B * c1 - bo) + ta * x + tb * y - (if na then (lx : ℤ) else 0)
          - (if nb then (ly : ℤ) else 0)) := by
  unfold compute_limb
  dsimp only
  rw [ct_mul_l_l_eq hta hx, M.pure_bind]
  dsimp only
  have hm := Nat.div_add_mod (ta * x) B
  have hh : ta * x / B < B := Nat.div_lt_of_lt_mul (Nat.mul_lt_mul'' hta hx)
  have hl : ta * x % B < B := Nat.mod_lt _ B_pos
  generalize ta * x / B = hi at *
  generalize ta * x % B = lo at *
  obtain ⟨gk, r0, e1, hgk, hr0, h1⟩ := ct_mul_add_l_l_l_c_spec hl htb hy hc0
  rw [e1, M.pure_bind]
  dsimp only
  obtain ⟨k1, k0, e2, hk1, hk0, h2⟩ := ct_add_l_l_c_spec hh hgk hc1
  rw [e2, M.pure_bind]
  dsimp only
  rw [and_bmask hlx, and_bmask hly]
  have hlx' : (if na then lx else 0) < B := by split <;> omega
  have hly' : (if nb then ly else 0) < B := by split <;> omega
  have ex : ((if na then lx else 0 : ℕ) : ℤ) = if na then (lx : ℤ) else 0 := by split <;> rfl
  have ey : ((if nb then ly else 0 : ℕ) : ℤ) = if nb then (ly : ℤ) else 0 := by split <;> rfl
  rw [← ex, ← ey]
  generalize (if na then lx else 0 : ℕ) = lx' at *
  generalize (if nb then ly else 0 : ℕ) = ly' at *
  have hB := B_ge
  obtain ⟨fb, r1, e3, hfb, hr1, h3, -⟩ := ct_sub_l_l_spec hr0 hlx'
  obtain ⟨gb, r2, e4, hgb, hr2, h4, -⟩ := ct_sub_l_l_spec hr1 hly'
  obtain ⟨b0, r3, e5, hb0, hr3, h5, h5'⟩ := ct_sub_l_l_spec hr2 (b := bo) (by omega)
  rw [e3]; dsimp only
  have hfb' : fb = 0 ∨ fb = 1 := by omega
  have hgb' : gb = 0 ∨ gb = 1 := by omega
  have a1 : fb = 0 ∨ 1 ≤ r1 := by rcases hfb' with h | h <;> subst h <;> omega
  have a2 : gb = 0 ∨ 1 ≤ r2 := by rcases hgb' with h | h <;> subst h <;> omega
  have a3 : fb + gb < 2 ∨ 2 ≤ r2 := by
    rcases hfb' with h | h <;> rcases hgb' with h' | h' <;> subst h <;> subst h' <;> omega
  have a4 : b0 + fb + gb ≤ 2 := by
    rcases hfb' with h | h <;> rcases hgb' with h' | h' <;> subst h <;> subst h' <;> omega
  rw [M.assert_eq a1, M.pure_bind, e4]; dsimp only
  rw [M.assert_eq a2, M.pure_bind, M.addL_eq (by omega), M.pure_bind, M.assert_eq a3, M.pure_bind,
    M.assert_eq hbo, M.pure_bind, e5]
  dsimp only
  rw [M.addL_eq (by omega), M.pure_bind, M.addL_eq (by omega), M.pure_bind,
    M.assert_eq a4, M.pure_bind]
  refine Sat.pure ⟨hr3, hk0, hk1, a4, ?_⟩
  dsimp only
  zify at hm h1 h2 h3 h4 h5
  push_cast
  linear_combination hm - h1 - (B : ℤ) * h2 - h3 - h4 - h5

/-- Two consecutive limbs shifted right. -/
theorem shift_limb_eq {l r s : ℕ} (hl : l < B) (hr : r < B) (hs : s < W) :
    shift_limb s (bmask (decide (s ≠ 0))) l r = pure ((l + B * r) / 2 ^ s % B) := by
  unfold shift_limb
  rw [shrC_eq hs, M.pure_bind, M.sub_eq hs.le, M.pure_bind]
  by_cases h0 : s = 0
  · subst h0
    have hm : bmask (decide ((0 : ℕ) ≠ 0)) = 0 := rfl
    rw [hm, Nat.and_zero, shlC_eq W_pos, M.pure_bind, Nat.and_zero, Nat.or_zero, shr_eq, pow_zero,
      Nat.div_one, Nat.div_one, Nat.add_mul_mod_self_left, Nat.mod_eq_of_lt hl]
  · have hWB := W_lt_B
    rw [and_bmask (by omega)]
    simp only [ne_eq, h0, not_false_eq_true, decide_true, if_true]
    rw [shlC_eq (by omega), M.pure_bind]
    have hm : bmask true = lmax := rfl
    rw [hm, and_lmax shl_lt, shr_eq, shl_eq]
    have hB : B = 2 ^ s * 2 ^ (W - s) := by rw [← pow_add, B_eq_two_pow]; congr 1; omega
    have e1 : (l + B * r) / 2 ^ s = l / 2 ^ s + 2 ^ (W - s) * r := by
      conv_lhs => rw [hB, Nat.mul_assoc]
      rw [Nat.add_mul_div_left _ _ (Nat.two_pow_pos s)]
    have hlt : l / 2 ^ s < 2 ^ (W - s) := Nat.div_lt_of_lt_mul (by rw [← hB]; exact hl)
    have e2 : r * 2 ^ (W - s) % B = r % 2 ^ s * 2 ^ (W - s) := by
      rw [hB]; exact Nat.mul_mod_mul_right _ _ _
    have e3 : (l / 2 ^ s + 2 ^ (W - s) * r) % B = l / 2 ^ s + r % 2 ^ s * 2 ^ (W - s) := by
      conv_lhs => rw [hB, Nat.mul_comm (2 ^ s), Nat.mod_mul, Nat.add_mul_mod_self_left,
        Nat.add_mul_div_left _ _ (Nat.two_pow_pos _), Nat.mod_eq_of_lt hlt,
        Nat.div_eq_of_lt hlt, Nat.zero_add]
      ring
    rw [e2, e1, e3, Nat.or_comm, or_eq_add_of_lt hlt, Nat.add_comm]

/-! ### Rows -/

/-- `k` limbs of a row of the product have been computed; they make up `R`. -/
structure RowInv (ta tb : ℕ) (na nb : Bool) (X Y k : ℕ) (st : ℕ × ℕ × ℕ) (R : ℕ) : Prop where
  c0 : st.1 < B
  c1 : st.2.1 ≤ 1
  bo : st.2.2 ≤ 2
  lt : R < B ^ k
  eq : (R : ℤ) + B ^ k * (st.1 + B * st.2.1 - st.2.2) =
    ta * (X % B ^ k : ℕ) + tb * (Y % B ^ k : ℕ) - (if na then ((B * X % B ^ k : ℕ) : ℤ) else 0)
      - (if nb then ((B * Y % B ^ k : ℕ) : ℤ) else 0)

theorem RowInv.zero (ta tb : ℕ) (na nb : Bool) (X Y : ℕ) :
    RowInv ta tb na nb X Y 0 (0, 0, 0) 0 := by
  refine ⟨B_pos, by simp, by simp, by simp, ?_⟩
  simp [Nat.mod_one]

theorem RowInv.step {ta tb : ℕ} {na nb : Bool} {X Y k : ℕ} {st : ℕ × ℕ × ℕ} {R : ℕ}
    (h : RowInv ta tb na nb X Y k st R) (hta : ta < B) (htb : tb < B) :
    Sat (compute_limb st (X / B ^ k % B, Y / B ^ k % B) (B * X / B ^ k % B, B * Y / B ^ k % B)
      (ta, tb) (bmask na, bmask nb)) (fun s =>
        s.2 < B ∧ RowInv ta tb na nb X Y (k + 1) s.1 (R + B ^ k * s.2)) := by
  obtain ⟨c0, c1, bo⟩ := st
  refine (compute_limb_sat na nb h.c0 h.c1 h.bo (dig_lt _ _) (dig_lt _ _) (dig_lt _ _)
    (dig_lt _ _) hta htb).mono ?_
  rintro ⟨⟨k0, k1, bo'⟩, r⟩ ⟨hr, hk0, hk1, hbo', he⟩
  dsimp only at hr hk0 hk1 hbo' he ⊢
  refine ⟨hr, hk0, hk1, hbo', ?_, ?_⟩
  · have h1 := h.lt
    have h2 : B ^ k * (r + 1) ≤ B ^ k * B := Nat.mul_le_mul_left _ hr
    rw [pow_succ]; linarith
  · have h1 := h.eq
    dsimp only at h1 ⊢
    rw [mod_succ X, mod_succ Y, mod_succ (B * X), mod_succ (B * Y), pow_succ]
    push_cast at h1 he ⊢
    cases na <;> cases nb <;> simp only [if_true, if_false, Bool.false_eq_true] at h1 he ⊢ <;>
      linear_combination h1 + (B : ℤ) ^ k * he

/-- The matrix `m` with the masks `neg`, and the digits of `(X, Y)`. -/
structure FgInv (m : TransitionMatrix) (n0 n1 n2 n3 : Bool) (X Y k : ℕ) (s : FgState)
    (R0 R1 : ℕ) : Prop where
  r0 : RowInv m.row0.1 m.row0.2 n0 n1 X Y k s.st0 R0
  r1 : RowInv m.row1.1 m.row1.2 n2 n3 X Y k s.st1 R1
  orig : s.last_orig_val = (B * X / B ^ k % B, B * Y / B ^ k % B)
  new : s.last_new_val = (R0 / B ^ (k - 1), R1 / B ^ (k - 1))

/-- The mask argument made up of four signs. -/
def negMask (n0 n1 n2 n3 : Bool) : NegMask := ((bmask n0, bmask n1), (bmask n2, bmask n3))

structure TransitionMatrix.Ok (m : TransitionMatrix) : Prop where
  a : m.row0.1 < B
  b : m.row0.2 < B
  c : m.row1.1 < B
  d : m.row1.2 < B
  s0 : m.s0 + 2 ≤ W
  s1 : m.s1 + 2 ≤ W

theorem FgInv.zero (m : TransitionMatrix) (n0 n1 n2 n3 : Bool) (X Y : ℕ) :
    FgInv m n0 n1 n2 n3 X Y 0 ⟨(0, 0, 0), (0, 0, 0), (0, 0), (0, 0)⟩ 0 0 where
  r0 := RowInv.zero _ _ _ _ _ _
  r1 := RowInv.zero _ _ _ _ _ _
  orig := by simp
  new := by simp

theorem mul_B_dig (X k : ℕ) : B * X / B ^ (k + 1) = X / B ^ k := by
  rw [pow_succ', Nat.mul_div_mul_left _ _ B_pos]

theorem FgInv.step {m : TransitionMatrix} (hm : m.Ok) {n0 n1 n2 n3 : Bool} {X Y k : ℕ}
    {s : FgState} {R0 R1 : ℕ} (h : FgInv m n0 n1 n2 n3 X Y k s R0 R1) {x y : ℕ}
    (hx : x = X / B ^ k % B) (hy : y = Y / B ^ k % B) :
    Sat (fg_compute m (negMask n0 n1 n2 n3) s (x, y)) (fun s' => ∃ v0 v1, v0 < B ∧ v1 < B ∧
      s'.last_new_val = (v0, v1) ∧
      FgInv m n0 n1 n2 n3 X Y (k + 1) s' (R0 + B ^ k * v0) (R1 + B ^ k * v1)) := by
  unfold fg_compute
  subst hx hy
  rw [h.orig]
  refine Sat.bind (h.r0.step hm.a hm.b) ?_
  rintro ⟨st0, v0⟩ ⟨hv0, hr0⟩
  refine Sat.bind (h.r1.step hm.c hm.d) ?_
  rintro ⟨st1, v1⟩ ⟨hv1, hr1⟩
  dsimp only at hv0 hr0 hv1 hr1 ⊢
  refine Sat.pure ⟨v0, v1, hv0, hv1, rfl, hr0, hr1, ?_, ?_⟩
  · dsimp only; rw [mul_B_dig, mul_B_dig]
  · dsimp only
    rw [Nat.add_sub_cancel, Nat.add_mul_div_left _ _ (B_pow_pos k),
      Nat.add_mul_div_left _ _ (B_pow_pos k), Nat.div_eq_of_lt h.r0.lt, Nat.div_eq_of_lt h.r1.lt,
      Nat.zero_add, Nat.zero_add]

/-- The masks for the shifts. -/
def shiftMask (m : TransitionMatrix) : ℕ × ℕ :=
  (bmask (decide (m.s0 ≠ 0)), bmask (decide (m.s1 ≠ 0)))

theorem fg_shift_eq {m : TransitionMatrix} (hm : m.Ok) {l0 l1 v0 v1 : ℕ} (hl0 : l0 < B)
    (hl1 : l1 < B) (hv0 : v0 < B) (hv1 : v1 < B) :
    fg_shift m (shiftMask m) (l0, l1) (v0, v1) =
      pure ((l0 + B * v0) / 2 ^ m.s0 % B, (l1 + B * v1) / 2 ^ m.s1 % B) := by
  unfold fg_shift shiftMask
  have h0 := hm.s0
  have h1 := hm.s1
  dsimp only
  rw [shift_limb_eq hl0 hv0 (by omega), M.pure_bind, shift_limb_eq hl1 hv1 (by omega), M.pure_bind]

/-- The shifted value, with one more limb. -/
theorem shift_out {R v k s : ℕ} (hR : R < B ^ (k + 1)) (hs : s < W) :
    (R + B ^ (k + 1) * v) / 2 ^ s % B ^ (k + 1)
      = R / 2 ^ s % B ^ k + B ^ k * ((R / B ^ k + B * v) / 2 ^ s % B) := by
  have hB : B = 2 ^ s * 2 ^ (W - s) := by rw [← pow_add, B_eq_two_pow]; congr 1; omega
  have e1 : (R + B ^ (k + 1) * v) / 2 ^ s / B ^ k = (R / B ^ k + B * v) / 2 ^ s := by
    rw [Nat.div_div_eq_div_mul, Nat.mul_comm (2 ^ s), ← Nat.div_div_eq_div_mul, pow_succ, Nat.mul_assoc,
      Nat.add_mul_div_left _ _ (B_pow_pos k)]
  have e2 : (R + B ^ (k + 1) * v) / 2 ^ s % B ^ k = R / 2 ^ s % B ^ k := by
    rw [pow_succ]
    have : B ^ k * B * v = 2 ^ s * (B ^ k * (2 ^ (W - s) * v)) := by
      conv_lhs => rw [show B ^ k * B = B ^ k * (2 ^ s * 2 ^ (W - s)) from by rw [← hB]]
      ring
    rw [this, Nat.add_mul_div_left _ _ (Nat.two_pow_pos s), Nat.add_mul_mod_self_left]
  rw [mod_succ, e2, e1]

/-! ### Two's complement values with shadow limbs -/

/-- The buffer `b`, its most significant limb replaced by `sh.1` and extended by `sh.2`, holds
`F` in two's complement. -/
def SRep (F : ℤ) (b : Buf φ) (sh : ℕ × ℕ) : Prop :=
  ∃ X : ℕ, (X : ℤ) = F % (B : ℤ) ^ (b.nlimbs + 1) ∧ -(B : ℤ) ^ b.nlimbs ≤ F ∧
    F < (B : ℤ) ^ b.nlimbs ∧ b.toNat % B ^ (b.nlimbs - 1) = X % B ^ (b.nlimbs - 1) ∧
    sh.1 = X / B ^ (b.nlimbs - 1) % B ∧ sh.2 = X / B ^ b.nlimbs

theorem Nat.div_pow_swap (R s n : ℕ) : R / B ^ n / 2 ^ s = R / 2 ^ s / B ^ n := by
  rw [Nat.div_div_eq_div_mul, Nat.mul_comm, ← Nat.div_div_eq_div_mul]

/-- The shifted row of the product is the new value. -/
theorem row_final {n s R X' : ℕ} {F' : ℤ} (hs : s + 2 ≤ W)
    (hR : (R : ℤ) = 2 ^ s * F' % (B : ℤ) ^ (n + 1)) (h1 : -(B : ℤ) ^ n ≤ F') (h2 : F' < (B : ℤ) ^ n)
    (hX : (X' : ℤ) = F' % (B : ℤ) ^ (n + 1)) :
    R / 2 ^ s % B ^ n = X' % B ^ n ∧ fg_head s (R / B ^ n) = pure (X' / B ^ n) := by
  have hB : B = 2 ^ s * 2 ^ (W - s) := by rw [← pow_add, B_eq_two_pow]; congr 1; omega
  have hS4 : 2 ^ s * 4 ≤ B := by
    rw [hB]
    refine Nat.mul_le_mul_left _ ?_
    calc 4 = 2 ^ 2 := by norm_num
      _ ≤ _ := Nat.pow_le_pow_right (by norm_num) (by omega)
  have hP := B_pow_pos n
  have hhalf := B_half
  have hS := Nat.two_pow_pos s
  have hsp := fun (v : ℕ) (hv : v < B) => ct_arithmetic_rshift_l_spec hv (s := s) (by omega)
  have hswap := Nat.div_pow_swap R s n
  have hlm : lmax = B - 1 := rfl
  unfold fg_head
  rw [pow_succ] at hR hX
  generalize hPP : B ^ n = P at *
  generalize hSS : 2 ^ s = S at *
  generalize hQQ : 2 ^ (W - s) = Q at *
  have hQ : 0 < Q := by rw [← hQQ]; exact Nat.two_pow_pos _
  have ePP : ((B : ℤ) ^ n) = (P : ℤ) := by rw [← hPP]; push_cast; rfl
  have eSS : ((2 : ℤ) ^ s) = (S : ℤ) := by rw [← hSS]; push_cast; rfl
  rw [ePP] at h1 h2 hR hX
  rw [eSS] at hR
  rcases le_or_gt 0 F' with hF | hF
  · obtain ⟨N, rfl⟩ := Int.eq_ofNat_of_zero_le hF
    have hNP : N < P := by exact_mod_cast h2
    have hSN : S * N < P * B := by
      calc S * N ≤ S * P := Nat.mul_le_mul_left _ hNP.le
        _ = P * S := Nat.mul_comm _ _
        _ < P * B := Nat.mul_lt_mul_of_pos_left (by omega) hP
    have eR : R = S * N := by
      have : (R : ℤ) = ((S * N % (P * B) : ℕ) : ℤ) := by rw [hR]; push_cast; rfl
      rw [Nat.mod_eq_of_lt hSN] at this; exact_mod_cast this
    have hNB : N < P * B := lt_of_lt_of_le hNP (Nat.le_mul_of_pos_right _ (by omega))
    have eX : X' = N := by
      have : (X' : ℤ) = ((N % (P * B) : ℕ) : ℤ) := by rw [hX]; push_cast; rfl
      rw [Nat.mod_eq_of_lt hNB] at this; exact_mod_cast this
    have eRS : R / S = N := by rw [eR, Nat.mul_div_cancel_left _ hS]
    refine ⟨by rw [eRS, eX], ?_⟩
    have hRP : R / P < S := by
      refine Nat.div_lt_of_lt_mul ?_
      rw [eR, Nat.mul_comm]; exact Nat.mul_lt_mul_of_pos_right hNP hS
    obtain ⟨r, er, hr, hr'⟩ := hsp (R / P) (by omega)
    rw [er, M.pure_bind]
    rw [if_pos (by omega), hswap, eRS] at hr'
    rw [Nat.div_eq_of_lt hNP] at hr'
    rw [M.assert_eq (Or.inl hr'), M.pure_bind, hr', eX, Nat.div_eq_of_lt hNP]
  · obtain ⟨N, hN⟩ := Int.eq_ofNat_of_zero_le (show 0 ≤ -F' by omega)
    have eF : F' = -(N : ℤ) := by omega
    subst eF
    have hN0 : 0 < N := by omega
    have hNP : N ≤ P := by
      have : (N : ℤ) ≤ P := by omega
      exact_mod_cast this
    have hSNP : S * N ≤ P * S := by rw [Nat.mul_comm P]; exact Nat.mul_le_mul_left _ hNP
    have hPS4 : P * S * 4 ≤ P * B := by rw [Nat.mul_assoc]; exact Nat.mul_le_mul_left _ hS4
    have hPS : 0 < P * S := Nat.mul_pos hP hS
    have hSN0 : 0 < S * N := Nat.mul_pos hS hN0
    have eR : R = P * B - S * N := by
      have h3 : (S : ℤ) * -(N : ℤ) = ((P * B - S * N : ℕ) : ℤ) + (P * B) * (-1) := by
        push_cast [show S * N ≤ P * B by omega]; ring
      rw [h3, Int.add_mul_emod_self_left, Int.emod_eq_of_lt (by positivity)
        (by exact_mod_cast (show P * B - S * N < P * B by omega))] at hR
      exact_mod_cast hR
    have hPB : P ≤ P * B := Nat.le_mul_of_pos_right _ (by omega)
    have eX : X' = P * B - N := by
      have h3 : -(N : ℤ) = ((P * B - N : ℕ) : ℤ) + (P * B) * (-1) := by
        push_cast [show N ≤ P * B by omega]; ring
      rw [h3, Int.add_mul_emod_self_left, Int.emod_eq_of_lt (by positivity)
        (by exact_mod_cast (show P * B - N < P * B by omega))] at hX
      exact_mod_cast hX
    have hPQ : P ≤ P * Q := Nat.le_mul_of_pos_right _ hQ
    have eRS : R / S = P * Q - N := by
      rw [eR, hB, show P * (S * Q) - S * N = S * (P * Q - N) by
        rw [Nat.mul_sub, Nat.mul_left_comm], Nat.mul_div_cancel_left _ hS]
    have hsub : ∀ k, 0 < k → (P * k - N) % P = (P - N) % P ∧ (P * k - N) / P = k - 1 := by
      intro k hk
      obtain ⟨j, rfl⟩ := Nat.exists_eq_add_of_lt hk
      have e : P * (0 + j + 1) - N = (P - N) + P * j := by
        rw [show P * (0 + j + 1) = P * j + P by ring]; omega
      rw [e, Nat.add_mul_mod_self_left, Nat.add_mul_div_left _ _ hP,
        Nat.div_eq_of_lt (show P - N < P by omega)]
      omega
    refine ⟨by rw [eRS, eX, (hsub Q hQ).1, (hsub B B_pos).1], ?_⟩
    have hRlt : R < P * B := by omega
    have hRB : R / P < B := Nat.div_lt_of_lt_mul hRlt
    have hge : 2 ^ (W - 1) ≤ R / P := by
      rw [Nat.le_div_iff_mul_le hP]
      have : 2 ^ (W - 1) * P * 2 = P * B := by rw [hhalf]; ring
      omega
    obtain ⟨r, er, hr, hr'⟩ := hsp (R / P) hRB
    rw [er, M.pure_bind]
    rw [if_neg (by omega), hswap, eRS, (hsub Q hQ).2] at hr'
    have er' : r = B - 1 := by omega
    rw [M.assert_eq (Or.inr (by rw [hlm]; exact er')), M.pure_bind, er', eX, (hsub B B_pos).2]

/-! ### The loop -/

/-- The loop over the low limbs: `k` limbs have been consumed, `k - 1` written. -/
def FgLoop (m : TransitionMatrix) (n0 n1 n2 n3 : Bool) (X Y : ℕ) (f0 : Buf φ) (g0 : Buf ψ) (k : ℕ)
    (s : Buf φ × Buf ψ × FgState) : Prop :=
  ∃ R0 R1, FgInv m n0 n1 n2 n3 X Y k s.2.2 R0 R1 ∧
    Low f0 (R0 / 2 ^ m.s0 % B ^ (k - 1)) (k - 1) s.1 ∧
    Low g0 (R1 / 2 ^ m.s1 % B ^ (k - 1)) (k - 1) s.2.1

theorem FgInv.new_lt {m : TransitionMatrix} {n0 n1 n2 n3 : Bool} {X Y k : ℕ}
    {s : FgState} {R0 R1 : ℕ} (h : FgInv m n0 n1 n2 n3 X Y k s R0 R1) :
    R0 / B ^ (k - 1) < B ∧ R1 / B ^ (k - 1) < B := by
  have h0 := h.r0.lt
  have h1 := h.r1.lt
  rcases k with _ | k
  · rw [pow_zero] at h0 h1
    have e0 : R0 = 0 := by omega
    have e1 : R1 = 0 := by omega
    rw [e0, e1, Nat.zero_div]; exact ⟨B_pos, B_pos⟩
  · rw [Nat.add_sub_cancel]
    rw [pow_succ] at h0 h1
    exact ⟨Nat.div_lt_of_lt_mul h0, Nat.div_lt_of_lt_mul h1⟩

theorem fg_step_sat {m : TransitionMatrix} (hm : m.Ok) {n0 n1 n2 n3 : Bool} {X Y : ℕ} {f0 : Buf φ}
    {g0 : Buf ψ} {k : ℕ} {s : Buf φ × Buf ψ × FgState}
    (h : FgLoop m n0 n1 n2 n3 X Y f0 g0 k s) (hf : k * LB + LB ≤ f0.len) (hg : k * LB + LB ≤ g0.len)
    (hX : f0.toNat / B ^ k % B = X / B ^ k % B) (hY : g0.toNat / B ^ k % B = Y / B ^ k % B) :
    Sat (fg_step m (negMask n0 n1 n2 n3) (shiftMask m) k s)
      (FgLoop m n0 n1 n2 n3 X Y f0 g0 (k + 1)) := by
  obtain ⟨f, g, s⟩ := s
  obtain ⟨R0, R1, hinv, hlf, hlg⟩ := h
  dsimp only at hinv hlf hlg
  unfold fg_step
  dsimp only
  refine Sat.bind (hlf.sat_load_full (Q := fun v => v = X / B ^ k % B) hf (by omega) hX) ?_
  intro x hx
  refine Sat.bind (hlg.sat_load_full (Q := fun v => v = Y / B ^ k % B) hg (by omega) hY) ?_
  intro y hy
  refine Sat.bind (hinv.step hm hx hy) ?_
  rintro s' ⟨v0, v1, hv0, hv1, hnew, hinv'⟩
  refine Sat.bind (P := fun p : Buf φ × Buf ψ =>
    Low f0 ((R0 + B ^ k * v0) / 2 ^ m.s0 % B ^ k) k p.1 ∧
    Low g0 ((R1 + B ^ k * v1) / 2 ^ m.s1 % B ^ k) k p.2) ?_ ?_
  · refine Sat.cond (fun hk => ?_) fun hk => Sat.pure ?_
    · obtain ⟨j, rfl⟩ : ∃ j, k = j + 1 := ⟨k - 1, by omega⟩
      obtain ⟨hb0, hb1⟩ := hinv.new_lt
      rw [hinv.new, hnew, fg_shift_eq hm hb0 hb1 hv0 hv1, M.pure_bind]
      have hs0 := hm.s0
      have hs1 := hm.s1
      rw [Nat.add_sub_cancel] at hlf hlg ⊢
      have hj : j * LB + LB ≤ (j + 1) * LB := by rw [Nat.succ_mul]
      refine Sat.bind (P := Low f0 ((R0 + B ^ (j + 1) * v0) / 2 ^ m.s0 % B ^ (j + 1)) (j + 1)) ?_ ?_
      · refine hlf.sat_store_full (by omega) (Nat.mod_lt _ B_pos) ?_
        intro b' hb'
        rw [shift_out hinv.r0.lt (by omega)]; exact hb'
      intro f' hf'
      refine Sat.bind (P := Low g0 ((R1 + B ^ (j + 1) * v1) / 2 ^ m.s1 % B ^ (j + 1)) (j + 1)) ?_ ?_
      · refine hlg.sat_store_full (by omega) (Nat.mod_lt _ B_pos) ?_
        intro b' hb'
        rw [shift_out hinv.r1.lt (by omega)]; exact hb'
      intro g' hg'
      exact Sat.pure ⟨hf', hg'⟩
    · have hk0 : k = 0 := by omega
      subst hk0
      rw [Nat.zero_sub, pow_zero, Nat.mod_one] at hlf hlg
      rw [pow_zero, Nat.mod_one, Nat.mod_one]
      exact ⟨hlf, hlg⟩
  rintro ⟨f', g'⟩ ⟨hf', hg'⟩
  exact Sat.pure ⟨_, _, hinv', hf', hg'⟩

/-- The complete row. -/
theorem RowInv.final {ta tb : ℕ} {na nb : Bool} {X Y n : ℕ} {st : ℕ × ℕ × ℕ} {R : ℕ}
    (h : RowInv ta tb na nb X Y n st R) {a b F G V : ℤ}
    (ha : (ta : ℤ) = a + (if na then (B : ℤ) else 0))
    (hb : (tb : ℤ) = b + (if nb then (B : ℤ) else 0)) (hX : (X : ℤ) = F % (B : ℤ) ^ n)
    (hY : (Y : ℤ) = G % (B : ℤ) ^ n) (hV : a * F + b * G = V) :
    (R : ℤ) = V % (B : ℤ) ^ n := by
  have hXn : ((X % B ^ n : ℕ) : ℤ) ≡ F [ZMOD (B : ℤ) ^ n] := by
    push_cast; exact (Int.mod_modEq _ _).trans (by rw [hX]; exact Int.mod_modEq _ _)
  have hYn : ((Y % B ^ n : ℕ) : ℤ) ≡ G [ZMOD (B : ℤ) ^ n] := by
    push_cast; exact (Int.mod_modEq _ _).trans (by rw [hY]; exact Int.mod_modEq _ _)
  have hBX : ((B * X % B ^ n : ℕ) : ℤ) ≡ B * F [ZMOD (B : ℤ) ^ n] := by
    push_cast
    exact (Int.mod_modEq _ _).trans (Int.ModEq.mul_left _ (by rw [hX]; exact Int.mod_modEq _ _))
  have hBY : ((B * Y % B ^ n : ℕ) : ℤ) ≡ B * G [ZMOD (B : ℤ) ^ n] := by
    push_cast
    exact (Int.mod_modEq _ _).trans (Int.ModEq.mul_left _ (by rw [hY]; exact Int.mod_modEq _ _))
  have key : (R : ℤ) ≡ V [ZMOD (B : ℤ) ^ n] := by
    have e1 : (R : ℤ) ≡ R + B ^ n * (st.1 + B * st.2.1 - st.2.2) [ZMOD (B : ℤ) ^ n] :=
      (Int.modEq_iff_dvd.2 ⟨st.1 + B * st.2.1 - st.2.2, by ring⟩)
    refine e1.trans ?_
    rw [h.eq]
    have hifX : (if na then ((B * X % B ^ n : ℕ) : ℤ) else 0) ≡ (if na then (B : ℤ) else 0) * F
        [ZMOD (B : ℤ) ^ n] := by
      cases na
      · simp
      · simp only [if_true]; exact hBX
    have hifY : (if nb then ((B * Y % B ^ n : ℕ) : ℤ) else 0) ≡ (if nb then (B : ℤ) else 0) * G
        [ZMOD (B : ℤ) ^ n] := by
      cases nb
      · simp
      · simp only [if_true]; exact hBY
    refine ((((hXn.mul_left _).add (hYn.mul_left _)).sub hifX).sub hifY).trans ?_
    rw [← hV, ha, hb]
    ring_nf
    rfl
  have hlt : (R : ℤ) % (B : ℤ) ^ n = R :=
    Int.emod_eq_of_lt (by positivity) (by exact_mod_cast h.lt)
  rw [← hlt]; exact key

/-- Entries of absolute value less than half the limb range. -/
theorem LimbOf.signed {x : ℕ} {a : ℤ} (h : LimbOf x a) (ha : |a| ≤ 2 ^ (W - 2)) :
    (x : ℤ) = a + (if decide (a < 0) then (B : ℤ) else 0) ∧
      entry_neg_mask x = pure (bmask (decide (a < 0))) := by
  have hB := B_half
  have hW := one_lt_W
  have h2 : 2 ^ (W - 1) = 2 * 2 ^ (W - 2) := by rw [← pow_succ']; congr 1; omega
  have h0 : (0 : ℕ) < 2 ^ (W - 2) := Nat.two_pow_pos _
  have e : ((2 : ℤ) ^ (W - 2)) = ((2 ^ (W - 2) : ℕ) : ℤ) := by push_cast; rfl
  rw [e] at ha
  unfold LimbOf at h
  unfold entry_neg_mask
  rw [shr_eq]
  generalize 2 ^ (W - 2) = Q at *
  generalize 2 ^ (W - 1) = H at *
  rw [abs_le] at ha
  rcases le_or_gt 0 a with h1 | h1
  · have hx : (x : ℤ) = a := by rw [h]; exact Int.emod_eq_of_lt h1 (by omega)
    have hd : decide (a < 0) = false := by simpa using h1
    rw [hd]
    refine ⟨by simpa using hx, ?_⟩
    rw [Nat.div_eq_of_lt (show x < H by omega), LimbChoice.from'_eq (by omega), M.pure_bind,
      select_bmask]
    rfl
  · have hx : (x : ℤ) = a + B := by
      rw [h, ← Int.add_emod_right]; exact Int.emod_eq_of_lt (by omega) (by omega)
    have hd : decide (a < 0) = true := by simpa using h1
    rw [hd]
    refine ⟨by simpa using hx, ?_⟩
    rw [show x / H = 1 from Nat.div_eq_of_lt_le (by omega) (by omega),
      LimbChoice.from'_eq le_rfl, M.pure_bind, select_bmask]
    rfl

theorem IsMat.entry_bounds {m : TransitionMatrix} {a b c d f g f' g' : ℤ} {i : ℕ}
    (h : IsMat m a b c d f g f' g' i) (hi : i + 2 ≤ W) :
    |a| ≤ 2 ^ (W - 2) ∧ |b| ≤ 2 ^ (W - 2) ∧ |c| ≤ 2 ^ (W - 2) ∧ |d| ≤ 2 ^ (W - 2) := by
  have h0 : (2 : ℤ) ^ m.s0 ≤ 2 ^ (W - 2) :=
    pow_le_pow_right₀ (by norm_num) (by have := h.s0; omega)
  have h1 : (2 : ℤ) ^ i ≤ 2 ^ (W - 2) := pow_le_pow_right₀ (by norm_num) (by omega)
  have := h.bf
  have := h.bg
  have := abs_nonneg a
  have := abs_nonneg b
  have := abs_nonneg c
  have := abs_nonneg d
  refine ⟨?_, ?_, ?_, ?_⟩ <;> linarith

theorem IsMat.ok {m : TransitionMatrix} {a b c d f g f' g' : ℤ} {i : ℕ}
    (h : IsMat m a b c d f g f' g' i) (hi : i + 2 ≤ W) : m.Ok :=
  ⟨h.ha.lt, h.hb.lt, h.hc.lt, h.hd.lt, by have := h.s0; omega, by have := h.s1; omega⟩

/-- The masks for the signed entries. -/
def signMask (a b c d : ℤ) : NegMask :=
  negMask (decide (a < 0)) (decide (b < 0)) (decide (c < 0)) (decide (d < 0))

theorem t_is_neg_mask_eq {m : TransitionMatrix} {a b c d f g f' g' : ℤ} {i : ℕ}
    (h : IsMat m a b c d f g f' g' i) (hi : i + 2 ≤ W) :
    m.t_is_neg_mask = pure (signMask a b c d) := by
  obtain ⟨h1, h2, h3, h4⟩ := h.entry_bounds hi
  unfold t_is_neg_mask
  rw [(h.ha.signed h1).2, M.pure_bind, (h.hb.signed h2).2, M.pure_bind, (h.hc.signed h3).2,
    M.pure_bind, (h.hd.signed h4).2, M.pure_bind]
  rfl

theorem dig_of_mod_eq {x y n i : ℕ} (h : x % B ^ n = y % B ^ n) (hi : i < n) :
    x / B ^ i % B = y / B ^ i % B := by
  have e : ∀ z, z / B ^ i % B = z % B ^ n / B ^ i % B := by
    intro z
    obtain ⟨k, rfl⟩ := Nat.exists_eq_add_of_lt hi
    conv_lhs => rw [low_high z (i + k + 1)]
    rw [show i + k + 1 = i + (k + 1) by ring, pow_add, Nat.mul_assoc,
      Nat.add_mul_div_left _ _ (B_pow_pos i), pow_succ', Nat.mul_assoc, Nat.add_mul_mod_self_left]
  rw [e x, e y, h]

/-- Applying the accumulated steps to the operands. -/
theorem apply_to_f_g_sat {m : TransitionMatrix} {a b c d F G F' G' : ℤ} {i : ℕ}
    (hm : IsMat m a b c d F G F' G' i) (hi : i + 2 ≤ W) {f : Buf φ} {g : Buf ψ} {fsh gsh : ℕ × ℕ}
    (hn : f.nlimbs = g.nlimbs) (hn0 : f.nlimbs ≠ 0) (hf : SRep F f fsh) (hg : SRep G g gsh)
    (hF1 : -(B : ℤ) ^ f.nlimbs ≤ F') (hF2 : F' < (B : ℤ) ^ f.nlimbs)
    (hG1 : -(B : ℤ) ^ f.nlimbs ≤ G') (hG2 : G' < (B : ℤ) ^ f.nlimbs) :
    Sat (m.apply_to_f_g (signMask a b c d) fsh f gsh g) (fun s =>
      s.1.1.len = f.len ∧ SRep F' s.1.1 s.1.2 ∧ s.2.1.len = g.len ∧ SRep G' s.2.1 s.2.2) := by
  obtain ⟨X, hX, -, -, hXl, hfs1, hfs2⟩ := hf
  obtain ⟨Y, hY, -, -, hYl, hgs1, hgs2⟩ := hg
  have hok := hm.ok hi
  obtain ⟨ba, bb, bc, bd⟩ := hm.entry_bounds hi
  have hffull : ∀ j, j + 1 < f.nlimbs → j * LB + LB ≤ f.len :=
    fun j hj => full_of_lt_pred (by rw [← Buf.nlimbs_eq]; exact hj)
  have hgfull : ∀ j, j + 1 < f.nlimbs → j * LB + LB ≤ g.len :=
    fun j hj => full_of_lt_pred (by rw [← Buf.nlimbs_eq, ← hn]; exact hj)
  rw [← hn] at hY hYl hgs1 hgs2
  have hs0 := hok.s0
  have hs1 := hok.s1
  have hWB := W_lt_B
  unfold apply_to_f_g signMask
  dsimp only
  rw [M.check_eq hn, M.pure_bind, M.check_eq hn0, M.pure_bind, ct_is_nonzero_l_eq (by omega),
    LimbChoice.from'_eq (by split <;> omega), M.pure_bind, ct_is_nonzero_l_eq (by omega),
    LimbChoice.from'_eq (by split <;> omega), M.pure_bind]
  have e1 : ∀ s : ℕ, (LimbChoice.ofBool (decide ((if s ≠ 0 then 1 else 0 : ℕ) = 1))).select 0 lmax
      = bmask (decide (s ≠ 0)) := by
    intro s; rw [select_bmask]
    by_cases h : s = 0 <;> simp [h]
  rw [e1, e1]
  have esm : (bmask (decide (m.s0 ≠ 0)), bmask (decide (m.s1 ≠ 0))) = shiftMask m := rfl
  rw [esm]
  refine Sat.bind (P := FgLoop m _ _ _ _ X Y f g (f.nlimbs - 1)) (Sat.forRange (P := fun k s =>
    FgLoop m (decide (a < 0)) (decide (b < 0)) (decide (c < 0)) (decide (d < 0)) X Y f g k s)
    (Nat.zero_le _) ?_ ?_) ?_
  · refine ⟨0, 0, FgInv.zero _ _ _ _ _ _ _, ?_, ?_⟩
    · simpa using Low.zero f
    · simpa using Low.zero g
  · intro k s _ hk hs
    exact fg_step_sat hok hs (hffull k (by omega)) (hgfull k (by omega))
      (dig_of_mod_eq hXl hk) (dig_of_mod_eq hYl hk)
  rintro ⟨f1, g1, s1⟩ ⟨R0, R1, hinv, hlf, hlg⟩
  dsimp only at hinv hlf hlg ⊢
  refine Sat.bind (hinv.step hok hfs1 hgs1) ?_
  rintro s2 ⟨v0, v1, hv0, hv1, hnew2, hinv2⟩
  obtain ⟨hb0, hb1⟩ := hinv.new_lt
  rw [hinv.new, hnew2, fg_shift_eq hok hb0 hb1 hv0 hv1, M.pure_bind]
  have eN : f.nlimbs - 1 + 1 = f.nlimbs := by omega
  generalize hN1 : f.nlimbs - 1 = N1 at *
  refine Sat.bind (P := fun p : Buf φ × Buf ψ =>
    Low f ((R0 + B ^ N1 * v0) / 2 ^ m.s0 % B ^ N1) N1 p.1 ∧
    Low g ((R1 + B ^ N1 * v1) / 2 ^ m.s1 % B ^ N1) N1 p.2) ?_ ?_
  · refine Sat.cond (fun hk => ?_) fun hk => Sat.pure ?_
    · obtain ⟨j, rfl⟩ : ∃ j, N1 = j + 1 := ⟨N1 - 1, by omega⟩
      have ej : f.nlimbs - 2 = j := by omega
      rw [ej]
      rw [Nat.add_sub_cancel] at hlf hlg ⊢
      refine Sat.bind (P := Low f ((R0 + B ^ (j + 1) * v0) / 2 ^ m.s0 % B ^ (j + 1)) (j + 1)) ?_ ?_
      · refine hlf.sat_store_full (hffull j (by omega)) (Nat.mod_lt _ B_pos) ?_
        intro b' hb'
        rw [shift_out hinv.r0.lt (by omega)]; exact hb'
      intro f' hf'
      refine Sat.bind (P := Low g ((R1 + B ^ (j + 1) * v1) / 2 ^ m.s1 % B ^ (j + 1)) (j + 1)) ?_ ?_
      · refine hlg.sat_store_full (hgfull j (by omega)) (Nat.mod_lt _ B_pos) ?_
        intro b' hb'
        rw [shift_out hinv.r1.lt (by omega)]; exact hb'
      intro g' hg'
      exact Sat.pure ⟨hf', hg'⟩
    · have hk0 : N1 = 0 := by omega
      subst hk0
      rw [Nat.zero_sub, pow_zero, Nat.mod_one] at hlf hlg
      rw [pow_zero, Nat.mod_one, Nat.mod_one]
      exact ⟨hlf, hlg⟩
  rintro ⟨f2, g2⟩ ⟨hlf2, hlg2⟩
  dsimp only at hlf2 hlg2 ⊢
  have hXlt : X < B ^ (f.nlimbs + 1) := by
    have := Int.emod_lt_of_pos F (show (0 : ℤ) < (B : ℤ) ^ (f.nlimbs + 1) by
      exact_mod_cast B_pow_pos _)
    rw [← hX] at this; exact_mod_cast this
  have hYlt : Y < B ^ (f.nlimbs + 1) := by
    have := Int.emod_lt_of_pos G (show (0 : ℤ) < (B : ℤ) ^ (f.nlimbs + 1) by
      exact_mod_cast B_pow_pos _)
    rw [← hY] at this; exact_mod_cast this
  have hfs2' : fsh.2 = X / B ^ (N1 + 1) % B := by
    rw [eN, hfs2, Nat.mod_eq_of_lt]
    exact Nat.div_lt_of_lt_mul (by rw [← pow_succ]; exact hXlt)
  have hgs2' : gsh.2 = Y / B ^ (N1 + 1) % B := by
    rw [eN, hgs2, Nat.mod_eq_of_lt]
    exact Nat.div_lt_of_lt_mul (by rw [← pow_succ]; exact hYlt)
  refine Sat.bind (hinv2.step hok hfs2' hgs2') ?_
  rintro s3 ⟨w0, w1, hw0, hw1, hnew3, hinv3⟩
  obtain ⟨hc0, hc1⟩ := hinv2.new_lt
  have e2 := hinv2.new.symm.trans hnew2
  have e3 := hinv3.new.symm.trans hnew3
  rw [Nat.add_sub_cancel, Prod.mk.injEq] at e2 e3
  rw [hnew3, fg_shift_eq hok hv0 hv1 hw0 hw1, M.pure_bind]
  have hfin0 := hinv3.r0.final (V := 2 ^ m.s0 * F') (hm.ha.signed ba).1 (hm.hb.signed bb).1
    (by rw [eN]; exact hX) (by rw [eN]; exact hY) hm.ef
  have hfin1 := hinv3.r1.final (V := 2 ^ m.s1 * G') (hm.hc.signed bc).1 (hm.hd.signed bd).1
    (by rw [eN]; exact hX) (by rw [eN]; exact hY) (by rw [hm.s1]; exact hm.eg)
  have hso0 := shift_out (v := w0) hinv2.r0.lt (show m.s0 < W by omega)
  have hso1 := shift_out (v := w1) hinv2.r1.lt (show m.s1 < W by omega)
  rw [e2.1] at hso0
  rw [e2.2] at hso1
  rw [eN] at hfin0 hfin1 hso0 hso1 e3
  generalize R0 + B ^ N1 * v0 = S0 at *
  generalize R1 + B ^ N1 * v1 = S1 at *
  generalize S0 + B ^ f.nlimbs * w0 = T0 at *
  generalize S1 + B ^ f.nlimbs * w1 = T1 at *
  obtain ⟨X', hX'⟩ : ∃ X' : ℕ, (X' : ℤ) = F' % (B : ℤ) ^ (f.nlimbs + 1) :=
    ⟨_, Int.toNat_of_nonneg (Int.emod_nonneg _ (by exact_mod_cast (B_pow_pos _).ne'))⟩
  obtain ⟨Y', hY'⟩ : ∃ Y' : ℕ, (Y' : ℤ) = G' % (B : ℤ) ^ (f.nlimbs + 1) :=
    ⟨_, Int.toNat_of_nonneg (Int.emod_nonneg _ (by exact_mod_cast (B_pow_pos _).ne'))⟩
  obtain ⟨hl0, hh0⟩ := row_final hs0 hfin0 hF1 hF2 hX'
  obtain ⟨hl1, hh1⟩ := row_final hs1 hfin1 hG1 hG2 hY'
  rw [e3.1] at hh0
  rw [e3.2] at hh1
  dsimp only
  rw [hh0, M.pure_bind, hh1, M.pure_bind]
  have split_low : ∀ {T S x Z : ℕ}, T % B ^ f.nlimbs = S % B ^ N1 + B ^ N1 * (x % B) →
      T % B ^ f.nlimbs = Z % B ^ f.nlimbs → S % B ^ N1 = Z % B ^ N1 ∧ x % B = Z / B ^ N1 % B := by
    intro T S x Z h1 h2
    rw [h1, ← eN, mod_succ Z] at h2
    have l1 := mod_lt_pow S N1
    have l2 := mod_lt_pow Z N1
    have q := congrArg (· / B ^ N1) h2
    simp only [Nat.add_mul_div_left _ _ (B_pow_pos N1), Nat.div_eq_of_lt l1,
      Nat.div_eq_of_lt l2, Nat.zero_add] at q
    rw [q] at h2
    exact ⟨by omega, q⟩
  obtain ⟨p0, q0⟩ := split_low hso0 hl0
  obtain ⟨p1, q1⟩ := split_low hso1 hl1
  refine Sat.pure ⟨hlf2.len, ?_, hlg2.len, ?_⟩
  · refine ⟨X', ?_⟩
    dsimp only
    rw [hlf2.nlimbs, hN1]
    exact ⟨hX', hF1, hF2, by rw [hlf2.2.1, p0], q0, rfl⟩
  · refine ⟨Y', ?_⟩
    dsimp only
    rw [hlg2.nlimbs, ← hn, hN1]
    exact ⟨hY', hG1, hG2, by rw [hlg2.2.1, p1], q1, rfl⟩

end Cmpa
