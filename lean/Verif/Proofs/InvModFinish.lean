import Verif.Proofs.InvRun
import Verif.Proofs.InvModOdd

/-!
# Completing the reduction of the coefficients
-/

set_option linter.unusedSectionVars false

namespace Cmpa
variable [LimbCfg] {φ ψ χ : Fmt}

open M TransitionMatrix

/-- The signed value `h` represented by the limb `v`. -/
def Signed (v : ℕ) (h : ℤ) : Prop := (v : ℤ) = h + (if h < 0 then (B : ℤ) else 0)

theorem four_pow_le {e : ℕ} (he : e + 2 ≤ W) : 4 * 2 ^ e ≤ B := by
  rw [B_eq_two_pow, show 4 * 2 ^ e = 2 ^ (e + 2) by rw [pow_add]; ring]
  exact Nat.pow_le_pow_right (by norm_num) he

theorem shr_top' {v : ℕ} (hv : v < B) : shr v (W - 1) = if 2 * v < B then 0 else 1 := by
  rw [shr_eq]
  have hB := B_half
  split
  · exact Nat.div_eq_of_lt (by omega)
  · exact Nat.div_eq_of_lt_le (by omega) (by omega)

theorem mod_head_sat {ta tb : ℕ} {na nb : Bool} {X Y e k : ℕ} {r : ModRow} {R n : ℕ}
    (h : RowInv ta tb na nb X Y (k + 1) (r.carry0, r.carry1, r.borrow) R) {a b V : ℤ}
    (ha : (ta : ℤ) = a + (if na then (B : ℤ) else 0))
    (hb : (tb : ℤ) = b + (if nb then (B : ℤ) else 0))
    (hX : X < B ^ (k + 1)) (hY : Y < B ^ (k + 1)) (hV : a * X + b * Y = V) (he : e + 2 ≤ W)
    (hn : n < B ^ (k + 1)) (hlo : -(2 ^ e * n) ≤ V) (hhi : V ≤ 2 ^ e * n) :
    Sat (mod_head r (X / B ^ k % B, Y / B ^ k % B) (bmask na, bmask nb)) (fun v => v < B ∧
      ∃ z : ℤ, Signed v z ∧ V = R + B ^ (k + 1) * z ∧ -(2 ^ e) ≤ z ∧ z < 2 ^ e) := by
  unfold mod_head
  refine Sat.bind (mod_sub_sat na nb h.c0 h.bo (dig_lt X k) (dig_lt Y k)) ?_
  rintro ⟨bo, v⟩ ⟨hv, hbo, heq⟩
  dsimp only at hv hbo heq ⊢
  have hc1 := h.c1
  dsimp only at hc1
  have hRlt := h.lt
  have hz : V = R + B ^ (k + 1) * ((v : ℤ) + B * ((r.carry1 : ℤ) - bo)) := by
    have h1 := h.eq
    dsimp only at h1
    have eX := Nat.mod_add_div (B * X) (B ^ (k + 1))
    have eY := Nat.mod_add_div (B * Y) (B ^ (k + 1))
    rw [mul_B_dig] at eX eY
    have dX : X / B ^ k % B = X / B ^ k := Nat.mod_eq_of_lt (Nat.div_lt_of_lt_mul (by rwa [← pow_succ]))
    have dY : Y / B ^ k % B = Y / B ^ k := Nat.mod_eq_of_lt (Nat.div_lt_of_lt_mul (by rwa [← pow_succ]))
    rw [dX, dY] at heq
    rw [Nat.mod_eq_of_lt hX, Nat.mod_eq_of_lt hY] at h1
    rw [← hV]
    zify at eX eY
    push_cast at h1 heq ⊢
    cases na <;> cases nb <;> simp only [if_true, if_false, Bool.false_eq_true] at h1 heq ha hb
    · linear_combination -h1 - (B : ℤ) ^ (k + 1) * heq - X * ha - Y * hb
    · linear_combination -h1 - (B : ℤ) ^ (k + 1) * heq - X * ha - Y * hb + eY
    · linear_combination -h1 - (B : ℤ) ^ (k + 1) * heq - X * ha - Y * hb + eX
    · linear_combination -h1 - (B : ℤ) ^ (k + 1) * heq - X * ha - Y * hb + eX + eY
  have hBk : (0 : ℤ) < (B : ℤ) ^ (k + 1) := by exact_mod_cast B_pow_pos (k + 1)
  have h2e : (0 : ℤ) < 2 ^ e := by positivity
  have hnz : (n : ℤ) < (B : ℤ) ^ (k + 1) := by exact_mod_cast hn
  have hRz : (R : ℤ) < (B : ℤ) ^ (k + 1) := by exact_mod_cast hRlt
  have hB4 : 4 * (2 : ℤ) ^ e ≤ B := by exact_mod_cast four_pow_le he
  have hmul : (2 : ℤ) ^ e * n < 2 ^ e * (B : ℤ) ^ (k + 1) := mul_lt_mul_of_pos_left hnz h2e
  have hzhi : (v : ℤ) + B * ((r.carry1 : ℤ) - bo) < 2 ^ e := by
    refine lt_of_mul_lt_mul_left (a := (B : ℤ) ^ (k + 1)) ?_ hBk.le
    have : (0 : ℤ) ≤ R := by positivity
    linarith [mul_comm ((B : ℤ) ^ (k + 1)) (2 ^ e)]
  have hzlo : -(2 ^ e) - 1 < (v : ℤ) + B * ((r.carry1 : ℤ) - bo) := by
    refine lt_of_mul_lt_mul_left (a := (B : ℤ) ^ (k + 1)) ?_ hBk.le
    have : (B : ℤ) ^ (k + 1) * (-(2 ^ e) - 1) = -(2 ^ e * (B : ℤ) ^ (k + 1)) - (B : ℤ) ^ (k + 1) := by ring
    linarith
  have hvz : (v : ℤ) < B := by exact_mod_cast hv
  have hv0 : (0 : ℤ) ≤ v := by positivity
  have hd : bo = r.carry1 ∨ bo = r.carry1 + 1 := by
    have h1 : bo = 0 ∨ bo = 1 ∨ bo = 2 := by omega
    have h2 : r.carry1 = 0 ∨ r.carry1 = 1 := by omega
    rcases h1 with h1 | h1 | h1 <;> rcases h2 with h2 | h2 <;> rw [h1, h2] at hzhi hzlo ⊢ <;>
      push_cast at hzhi hzlo <;> first | omega | (exfalso; linarith)
  have hass : bo - r.carry1 = shr v (W - 1) := by
    rw [shr_top' hv]
    rcases hd with hd | hd <;> rw [hd] at hzhi hzlo ⊢ <;> push_cast at hzhi hzlo
    · rw [Nat.sub_self, if_pos (by zify; linarith)]
    · rw [Nat.add_sub_cancel_left, if_neg (by zify; linarith)]
  have hass1 : r.carry1 = 0 ∨ bo ≠ 0 := by omega
  rw [M.assert_eq hass1, M.pure_bind, M.sub_eq (by omega), M.pure_bind,
    M.assert_eq (by omega), M.pure_bind, M.pure_bind, M.assert_eq hass, M.pure_bind]
  refine Sat.pure ⟨hv, _, ?_, hz, by linarith, hzhi⟩
  unfold Signed
  rcases hd with hd | hd <;> rw [hd] <;> push_cast
  · rw [sub_self, mul_zero, add_zero, if_neg (by linarith), add_zero]
  · rw [if_pos (by linarith)]; ring

theorem or_bnot_mask {x n : ℕ} (hx : x < B) (hn : n ≤ W) :
    x ||| bnot (ct_lsb_mask_l n) = x % 2 ^ n + (B - 2 ^ n) := by
  have h1 : 2 ^ n ≤ B := Nat.pow_le_pow_right (by norm_num) hn
  have h2 := B_split hn
  have h4 := Nat.mod_lt x (Nat.two_pow_pos n)
  rw [Nat.add_comm]
  have e1 : B - 2 ^ n = 2 ^ n * (2 ^ (W - n) - 1) := by rw [Nat.mul_sub, ← h2, mul_one]
  rw [e1, Nat.two_pow_add_eq_or_of_lt h4, ← e1, ct_lsb_mask_l_eq hn]
  apply Nat.eq_of_testBit_eq
  intro j
  have e2 : bnot (2 ^ n - 1) = B - 2 ^ n := by unfold bnot; omega
  rw [Nat.testBit_or, Nat.testBit_or, ← e2, testBit_bnot (by omega), Nat.testBit_two_pow_sub_one,
    Nat.testBit_mod_two_pow]
  by_cases hj : j < n
  · simp [hj]
  · by_cases hjW : j < W
    · simp [hj, hjW]
    · have : x.testBit j = false := Nat.testBit_lt_two_pow (lt_of_lt_of_le hx
        (Nat.pow_le_pow_right (by norm_num) (by omega)))
      simp [hj, hjW, this]

theorem RedcKernel.finish_in_twos_complement_sat {k : RedcKernel} {e X j out v : ℕ} {z : ℤ}
    (hk : k.Inv e X j out) (he : e + 2 ≤ W) (hv : v < B) (hz : Signed v z)
    (hlo : -(2 ^ e) ≤ z) (hhi : z < 2 ^ e) (hc : k.carry < 2 ^ e) :
    Sat (k.finish_in_twos_complement v) (fun s =>
      s.1 = (if k.carry + z < 0 then 1 else 0) ∧ s.2 < B ∧ ∃ t : ℕ, t < B ∧
        (t : ℤ) = k.last_redced_val + 2 ^ (W - e) * ((k.carry + z) % 2 ^ e) ∧
        s.2 = if k.carry + z < 0 then t % 2 ^ e + (B - 2 ^ e) else t) := by
  unfold RedcKernel.finish_in_twos_complement
  have he' : e ≤ W := by omega
  have hB4 := four_pow_le he
  have h2e : 0 < 2 ^ e := Nat.two_pow_pos e
  have hzB : (2 : ℤ) ^ e ∣ (B : ℤ) := by exact_mod_cast two_pow_dvd_B he'
  rw [ct_add_l_l_eq hv hk.carry]
  dsimp only
  unfold Signed at hz
  obtain ⟨c, hcz⟩ : ∃ c : ℤ, c = 2 ^ e := ⟨_, rfl⟩
  have hcn : ((2 ^ e : ℕ) : ℤ) = c := by rw [hcz]; push_cast; ring
  have hkc : (k.carry : ℤ) < c := by rw [← hcn]; exact_mod_cast hc
  have hB4' : 4 * c ≤ B := by rw [← hcn]; exact_mod_cast hB4
  rw [← hcz] at hlo hhi
  -- the sum, its carry and the signs
  obtain ⟨q, w, hq, hw, hwB, hsum⟩ : ∃ q w, (v + k.carry) / B = q ∧ (v + k.carry) % B = w ∧ w < B ∧
      w + B * q = v + k.carry := ⟨_, _, rfl, rfl, Nat.mod_lt _ B_pos, Nat.mod_add_div _ _⟩
  rw [hq, hw]
  have hq1 : q ≤ 1 := by rw [← hq]; exact add_div_le_one hv hk.carry
  have hfacts : (q = 0 ∨ shr v (W - 1) = 1) ∧ (q = 0 ∨ shr w (W - 1) = 0) ∧
      (q = 1 ∨ shr w (W - 1) = shr v (W - 1)) ∧ shr w (W - 1) = q ^^^ shr v (W - 1) ∧
      (q ^^^ shr v (W - 1)) = (if k.carry + z < 0 then 1 else 0) ∧
      ((w : ℤ) = k.carry + z ∨ (w : ℤ) = k.carry + z + B) := by
    rw [shr_top' hv, shr_top' hwB]
    have hq' : q = 0 ∨ q = 1 := by omega
    zify at hsum hv hwB
    have hk0 : (0 : ℤ) ≤ k.carry := by positivity
    rcases lt_or_ge z 0 with h0 | h0
    · rw [if_pos h0] at hz
      have hv2 : ¬ 2 * v < B := by zify; linarith
      rw [if_neg hv2]
      rcases hq' with h | h <;> rw [h] at hsum ⊢ <;> push_cast at hsum
      · have hw2 : ¬ 2 * w < B := by zify; linarith
        rw [if_neg hw2, if_pos (by linarith)]
        exact ⟨Or.inl rfl, Or.inl rfl, Or.inr rfl, by decide, by decide, Or.inr (by linarith)⟩
      · have hw2 : 2 * w < B := by zify; linarith
        rw [if_pos hw2, if_neg (by linarith)]
        exact ⟨Or.inr rfl, Or.inr rfl, Or.inl rfl, by decide, by decide, Or.inl (by linarith)⟩
    · rw [if_neg (by linarith)] at hz
      have hv2 : 2 * v < B := by zify; linarith
      rw [if_pos hv2]
      rcases hq' with h | h <;> rw [h] at hsum ⊢ <;> push_cast at hsum
      · have hw2 : 2 * w < B := by zify; linarith
        rw [if_pos hw2, if_neg (by linarith)]
        exact ⟨Or.inl rfl, Or.inl rfl, Or.inr rfl, by decide, by decide, Or.inl (by linarith)⟩
      · exfalso; linarith
  obtain ⟨f1, f2, f3, f4, f5, f6⟩ := hfacts
  rw [M.assert_eq f1, M.pure_bind, M.assert_eq f2, M.pure_bind, M.assert_eq f3, M.pure_bind,
    M.assert_eq f4, M.pure_bind, hk.rshift, hk.mask, redc_lshift_hi_eq he' hwB, M.pure_bind, f5,
    Nat.or_comm k.last_redced_val, or_eq_add_of_lt hk.last]
  have hmod : ((w % 2 ^ e : ℕ) : ℤ) = (k.carry + z) % 2 ^ e := by
    push_cast
    rcases f6 with h | h <;> rw [h]
    obtain ⟨d, hd⟩ := hzB
    rw [hd, Int.add_mul_emod_self_left]
  have ht : w % 2 ^ e * 2 ^ (W - e) + k.last_redced_val < B := by
    have h1 := Nat.mod_lt w h2e
    have h2 : (w % 2 ^ e + 1) * 2 ^ (W - e) ≤ 2 ^ e * 2 ^ (W - e) := Nat.mul_le_mul_right _ h1
    rw [← B_split he', Nat.add_mul, one_mul] at h2
    have := hk.last
    omega
  have htz : ((w % 2 ^ e * 2 ^ (W - e) + k.last_redced_val : ℕ) : ℤ)
      = k.last_redced_val + 2 ^ (W - e) * ((k.carry + z) % 2 ^ e) := by
    rw [← hmod]; push_cast; ring
  by_cases h0 : (k.carry : ℤ) + z < 0
  · have h3 : wsub 0 (if (k.carry : ℤ) + z < 0 then 1 else 0) &&& bnot (ct_lsb_mask_l e)
        = bnot (ct_lsb_mask_l e) := by
      have h4 : wsub 0 (if (k.carry : ℤ) + z < 0 then 1 else 0) = lmax := by
        rw [if_pos h0]
        have := one_lt_B
        unfold wsub lmax
        rw [Nat.mod_eq_of_lt] <;> omega
      rw [h4, lmax_and bnot_lt]
    rw [h3, or_bnot_mask ht he']
    have h5 := Nat.mod_lt (w % 2 ^ e * 2 ^ (W - e) + k.last_redced_val) h2e
    refine Sat.pure ⟨rfl, ?_, _, ht, htz, by dsimp only; rw [if_pos h0]⟩
    dsimp only
    omega
  · have h3 : wsub 0 (if (k.carry : ℤ) + z < 0 then 1 else 0) = 0 := by
      rw [if_neg h0]; unfold wsub; simp
    rw [h3, Nat.zero_and, Nat.or_zero]
    exact Sat.pure ⟨rfl, ht, _, ht, htz, by dsimp only; rw [if_neg h0]⟩

theorem mod_finish_sat {u0 u : Buf φ} {ta tb : ℕ} {na nb : Bool} {X Y n e k : ℕ} {r : ModRow}
    {R out v : ℕ} (h : ModInv ta tb na nb X Y n e (k + 1) r R out) (hN : u0.nlimbs = k + 1)
    (hL : Low u0 out k u) (hn : n < B ^ (k + 1)) (he : e + 2 ≤ W) {z V : ℤ} (hv : v < B)
    (hz : Signed v z) (hV : V = R + B ^ (k + 1) * z) (hlo : -(2 ^ e) ≤ z) (hhi : z < 2 ^ e) :
    Sat (mod_finish u r k v (n / B ^ k % B)) (fun s => ∃ (sg gq : Bool) (P m : ℕ) (U : ℤ),
      s.1 = (if sg then 1 else 0) ∧ s.2.1 = (if gq then 1 else 0) ∧ s.2.2.len = u0.len ∧
      P < B ^ (k + 1) ∧ s.2.2.toNat = P % 256 ^ u0.len ∧ gq = (!sg && decide (n ≤ P)) ∧
      m < 2 ^ e ∧ 2 ^ e * U = V + m * n ∧ sg = decide (U < 0) ∧
      (P : ℤ) - (if sg then (B : ℤ) ^ (k + 1) else 0) = fit (k + 1) e U) := by
  unfold mod_finish
  have hlt := h.lt
  have hg := h.geq
  have hker := h.ker
  rw [Nat.add_sub_cancel] at hlt hg hker
  rw [Nat.mod_eq_of_lt hn] at hker
  have hval := hker.val
  have hR := h.row.lt
  have hm := hker.m_lt
  have he' : e ≤ W := by omega
  have h2e : (0 : ℤ) < 2 ^ e := by positivity
  have hc : r.kernel.carry < 2 ^ e := by
    by_contra hcon
    have h1 : B ^ (k + 1) * 2 ^ e ≤ B ^ (k + 1) * r.kernel.carry := Nat.mul_le_mul_left _ (by omega)
    have h2 : r.kernel.m * n ≤ (2 ^ e - 1) * B ^ (k + 1) := Nat.mul_le_mul (by omega) hn.le
    rw [Nat.sub_mul, one_mul, Nat.mul_comm (2 ^ e)] at h2
    have h3 : B ^ (k + 1) ≤ B ^ (k + 1) * 2 ^ e := Nat.le_mul_of_pos_right _ (Nat.two_pow_pos e)
    omega
  refine Sat.bind (RedcKernel.finish_in_twos_complement_sat hker he hv hz hlo hhi hc) ?_
  rintro ⟨sgn, w⟩ ⟨hsgn, hw, t, ht, htz, htw⟩
  dsimp only at hsgn hw htw ⊢
  -- the exact result
  obtain ⟨c, hcdef⟩ : ∃ c : ℤ, c = r.kernel.carry + z := ⟨_, rfl⟩
  rw [← hcdef] at hsgn htz htw
  have hcd := Int.emod_add_mul_ediv c (2 ^ e)
  obtain ⟨U, hUdef⟩ : ∃ U : ℤ, U = out + B ^ k * t + B ^ (k + 1) * (c / 2 ^ e) := ⟨_, rfl⟩
  have hBs : (B : ℤ) = 2 ^ e * 2 ^ (W - e) := by exact_mod_cast B_split he'
  have hU : 2 ^ e * U = V + r.kernel.m * n := by
    rw [hUdef, htz, hV]
    zify at hval
    rw [pow_succ] at hval ⊢
    generalize c % 2 ^ e = c1 at *
    generalize c / 2 ^ e = c2 at *
    linear_combination hval + (B : ℤ) ^ k * B * hcd + (B : ℤ) ^ k * B * hcdef - (B : ℤ) ^ k * c1 * hBs
  have hPw : out + B ^ k * w < B ^ (k + 1) := by
    have h2 : B ^ k * (w + 1) ≤ B ^ k * B := Nat.mul_le_mul_left _ hw
    rw [pow_succ]; linarith
  have eo1 : (out + B ^ k * w) % B ^ k = out := by
    rw [Nat.add_mul_mod_self_left, Nat.mod_eq_of_lt hlt]
  have eo2 : (out + B ^ k * w) / B ^ k % B = w := by
    rw [Nat.add_mul_div_left _ _ (B_pow_pos k), Nat.div_eq_of_lt hlt, Nat.zero_add,
      Nat.mod_eq_of_lt hw]
  unfold CtGeqMpMpKernel.update CtGeqMpMpKernel.finish
  rw [leq_kernel_step (x := n) (y := out + B ^ k * w) (i := k) (by rw [eo1]; exact hg) rfl eo2.symm,
    M.pure_bind, Nat.mod_eq_of_lt hPw, Nat.mod_eq_of_lt hn]
  refine Sat.bind (hL.sat_store_mask hN.symm hw (Buf.partial_high_mask_congr hL.len)
    (fun b' hb' => hb')) ?_
  intro u' hu'
  unfold CtLeqMpMpKernel.finish
  rw [from'_ite, M.pure_bind]
  have hcB : (c : ℤ) < 2 * 2 ^ e := by
    have : (r.kernel.carry : ℤ) < 2 ^ e := by exact_mod_cast hc
    rw [hcdef]; linarith
  have hcL : -(2 ^ e) ≤ c := by
    have : (0 : ℤ) ≤ r.kernel.carry := by positivity
    rw [hcdef]; linarith
  have hB1 := one_lt_B
  have hBk : (0 : ℤ) < (B : ℤ) ^ k := by exact_mod_cast B_pow_pos k
  have hltz : (out : ℤ) < (B : ℤ) ^ k := by exact_mod_cast hlt
  have htB : (t : ℤ) + 1 ≤ B := by exact_mod_cast ht
  have htB' := mul_le_mul_of_nonneg_left htB hBk.le
  have hres : (decide (c < 0) : Bool) = decide (U < 0) ∧
      ((out + B ^ k * w : ℕ) : ℤ) - (if decide (c < 0) = true then (B : ℤ) ^ (k + 1) else 0)
        = fit (k + 1) e U := by
    by_cases h0 : c < 0
    · have hq : c / 2 ^ e = -1 := by
        have h1 := Int.emod_nonneg c h2e.ne'
        have h2 := Int.emod_lt_of_pos c h2e
        generalize c / 2 ^ e = c2 at *
        have h3 : (2 : ℤ) ^ e * c2 < 0 := by linarith
        have h4 : c2 < 0 := by
          by_contra hcon
          have : (0 : ℤ) ≤ 2 ^ e * c2 := mul_nonneg h2e.le (by omega)
          linarith
        have h5 : -2 < c2 := by
          refine lt_of_mul_lt_mul_left (a := (2 : ℤ) ^ e) ?_ h2e.le
          linarith
        omega
      rw [hq] at hUdef
      have hU0 : U < 0 := by rw [hUdef, pow_succ]; linarith
      rw [if_pos h0] at htw
      refine ⟨by simp [h0, hU0], ?_⟩
      unfold fit
      rw [if_pos hU0, if_pos (by simpa using h0), Nat.add_sub_cancel]
      have h2eB : 2 ^ e ≤ B := Nat.le_of_dvd B_pos (two_pow_dvd_B he')
      have hwz : (w : ℤ) = ((t % 2 ^ e : ℕ) : ℤ) + (B - 2 ^ e) := by
        rw [htw, Nat.cast_add, Nat.cast_sub h2eB]; push_cast; ring
      have hmodt := Nat.mod_add_div t (2 ^ e)
      have hmodlt := Nat.mod_lt t (Nat.two_pow_pos e)
      have hUm : U % (2 ^ e * (B : ℤ) ^ k) = out + B ^ k * ((t % 2 ^ e : ℕ) : ℤ) := by
        have e1 : U = (out + B ^ k * ((t % 2 ^ e : ℕ) : ℤ)) +
            (2 ^ e * (B : ℤ) ^ k) * ((t / 2 ^ e : ℕ) - 2 ^ (W - e)) := by
          have : (t : ℤ) = ((t % 2 ^ e : ℕ) : ℤ) + 2 ^ e * ((t / 2 ^ e : ℕ) : ℤ) := by
            exact_mod_cast hmodt.symm
          rw [hUdef, pow_succ]
          generalize ((t % 2 ^ e : ℕ) : ℤ) = t1 at *
          generalize ((t / 2 ^ e : ℕ) : ℤ) = t2 at *
          linear_combination (B : ℤ) ^ k * this - (B : ℤ) ^ k * hBs
        rw [e1, Int.add_mul_emod_self_left]
        refine Int.emod_eq_of_lt (by positivity) ?_
        have h6 : ((t % 2 ^ e : ℕ) : ℤ) + 1 ≤ 2 ^ e := by exact_mod_cast hmodlt
        have := mul_le_mul_of_nonneg_left h6 hBk.le
        linarith
      rw [hUm, Nat.cast_add, Nat.cast_mul, hwz, pow_succ]
      push_cast
      ring
    · have h0' : 0 ≤ c := by omega
      rw [if_neg h0] at htw
      subst htw
      have hq0 : 0 ≤ c / 2 ^ e := Int.ediv_nonneg h0' h2e.le
      have hU0 : 0 ≤ U := by
        rw [hUdef]
        have := mul_nonneg (by positivity : (0 : ℤ) ≤ (B : ℤ) ^ (k + 1)) hq0
        have := mul_nonneg hBk.le (by positivity : (0 : ℤ) ≤ w)
        positivity
      refine ⟨by simp [h0, hU0], ?_⟩
      unfold fit
      rw [if_neg (show ¬ decide (c < 0) = true by simpa using h0'), if_neg (show ¬ U < 0 by omega), sub_zero, hUdef,
        Int.add_mul_emod_self_left, Int.emod_eq_of_lt (by positivity)]
      · push_cast; ring
      · exact_mod_cast hPw
  obtain ⟨hsgU, hfit⟩ := hres
  refine Sat.pure ⟨decide (c < 0), !decide (c < 0) && decide (n ≤ out + B ^ k * w), out + B ^ k * w,
    r.kernel.m, U, ?_, ?_, hu'.len, hPw, ?_, rfl, hm, hU, ?_, ?_⟩
  · dsimp only; rw [hsgn]; by_cases h0 : c < 0 <;> simp [h0]
  · dsimp only
    rw [LimbChoice.select_ofBool B_pos (by rw [hsgn]; split <;> simp <;> omega), hsgn]
    by_cases h0 : c < 0 <;> by_cases h1 : n ≤ out + B ^ k * w <;> simp [h0, h1]
  · dsimp only
    have h1 := topv_mod u0 (q := out) (i := k) (v := w) (by omega) hlt hw
    rw [Nat.mod_eq_of_lt (lt_of_lt_of_le hlt (pow_le_len (by rw [← Buf.nlimbs_eq]; omega)))] at h1
    rw [hu'.final (by omega), h1]
  · exact hsgU
  · exact hfit

/-! ### Conditional addition or subtraction of the modulus -/

theorem Low.sat_store_last {b0 b : Buf φ} {r i : ℕ} (h : Low b0 r i b) (hi : i < b0.nlimbs)
    {v n : ℕ} (hv : v < B) (hn : n = b0.nlimbs)
    {Q : Buf φ → Prop} (hQ : ∀ b', Low b0 (r + B ^ i * topv b0 i v) (i + 1) b' → Q b') :
    Sat (M.cond (i + 1 ≠ n)
      (b.store_l_full i v) (b.store_l i (v &&& b.partial_high_mask))) Q := by
  subst hn
  refine Sat.cond (fun hc => ?_) fun hc => ?_
  · refine h.sat_store_full (full_of_lt_pred (by rw [← Buf.nlimbs_eq]; omega)) hv ?_
    intro b' hb'
    refine hQ b' ?_
    unfold topv
    rw [if_neg hc]; exact hb'
  · push Not at hc
    exact h.sat_store_mask (by omega) hv (Buf.partial_high_mask_congr h.len) hQ

theorem cond_neg_limb {d k : ℕ} (neg : Bool) (hd : d < B) (hk : k ≤ 1) :
    ∃ k' v, ct_add_l_l (d ^^^ bmask neg) k = (k', v) ∧ k' ≤ 1 ∧ v < B ∧
      (v : ℤ) + B * k' = (if neg then (B : ℤ) - 1 - d else d) + k := by
  have h1 := one_lt_B
  cases neg
  · have e : d ^^^ bmask false = d := by simp [bmask]
    rw [e, ct_add_l_l_eq hd (by omega)]
    refine ⟨_, _, rfl, add_div_le_one hd (by omega), Nat.mod_lt _ B_pos, ?_⟩
    have := Nat.mod_add_div (d + k) B
    simp only [Bool.false_eq_true, if_false]
    exact_mod_cast this
  · have e : d ^^^ bmask true = B - 1 - d := by
      simp only [bmask, if_true]; exact xor_lmax hd
    rw [e, ct_add_l_l_eq (by omega) (by omega)]
    refine ⟨_, _, rfl, add_div_le_one (by omega) (by omega), Nat.mod_lt _ B_pos, ?_⟩
    have h2 := Nat.mod_add_div (B - 1 - d + k) B
    simp only [if_true]
    have h3 : ((B - 1 - d : ℕ) : ℤ) = (B : ℤ) - 1 - d := by omega
    rw [← h3]
    exact_mod_cast h2

theorem eq_of_mod_cong {x r z m : ℕ} {y : ℤ} (hx : x = r % m) (h1 : (r : ℤ) ≡ y [ZMOD m])
    (h2 : (z : ℤ) ≡ y [ZMOD m]) (hz : z < m) : x = z := by
  have h3 : r ≡ z [MOD m] := (Int.natCast_modEq_iff).1 (h1.trans h2.symm)
  rw [hx, h3, Nat.mod_eq_of_lt hz]

theorem u_i_into_range_sat {u : Buf φ} {n : Buf χ} (sg gq : Bool) {z : ℕ}
    (hN : u.nlimbs = n.nlimbs)
    (hz : (z : ℤ) ≡ u.toNat + (if gq then -(n.toNat : ℤ) else if sg then (n.toNat : ℤ) else 0)
      [ZMOD ((256 ^ u.len : ℕ) : ℤ)])
    (hzn : z < n.toNat) (hn : n.toNat ≤ 256 ^ u.len) :
    Sat (u_i_into_range u (if sg then 1 else 0) (if gq then 1 else 0) n) (fun u' =>
      u'.len = u.len ∧ u'.toNat = z) := by
  unfold u_i_into_range
  have h1B := one_lt_B
  have e1 : LimbChoice.from' (if gq then 1 else 0) = pure (.ofBool gq) := by
    rw [from'_ite, Bool.decide_coe]
  have e2 : LimbChoice.from' ((if sg then 1 else 0) ||| (if gq then 1 else 0))
      = pure (.ofBool (sg || gq)) := by
    have : ((if sg then 1 else 0) ||| (if gq then 1 else 0)) = if (sg || gq) = true then 1 else 0 := by
      cases sg <;> cases gq <;> rfl
    rw [this, from'_ite, Bool.decide_coe]
  rw [e1, M.pure_bind, e2, M.pure_bind]
  dsimp only
  rw [select_bmask, select_bmask, LimbChoice.select_ofBool B_pos h1B]
  refine Sat.bind (P := fun s : Buf φ × ℕ × ℕ => s.1.len = u.len ∧ s.1.toNat = z) ?_ ?_
  swap
  · rintro ⟨u', _, _⟩ ⟨hl, hv⟩
    dsimp only at hl hv ⊢
    rw [M.assertM_eq, M.pure_bind]
    · exact Sat.pure ⟨hl, hv⟩
    · refine Sat.bind (ct_gt_mp_mp_sat n u') ?_
      rintro _ rfl
      refine Sat.pure ?_
      rw [LimbChoice.unwrap_ofBool, hv]
      simp [hzn]
  refine Sat.mono (Sat.forRange (P := fun i (s : Buf φ × ℕ × ℕ) => ∃ r : ℕ, r < B ^ i ∧
    Low u (r % 256 ^ u.len) i s.1 ∧ s.2.1 ≤ 1 ∧ s.2.2 ≤ 1 ∧
    (r : ℤ) + s.2.2 * B ^ i = (u.toNat % B ^ i : ℕ) + (if sg || gq then
      (if gq then (B : ℤ) ^ i - (n.toNat % B ^ i : ℕ) else (n.toNat % B ^ i : ℕ))
        - s.2.1 * B ^ i else 0)) (Nat.zero_le _) ?_ ?_) ?_
  · refine ⟨0, by simp, by simpa using Low.zero u, ?_, by simp, ?_⟩
    · dsimp only; split <;> omega
    · cases sg <;> cases gq <;> simp [Nat.mod_one]
  · rintro i ⟨u', kn, c⟩ _ hi ⟨r, hr, hL, hkn, hc, heq⟩
    dsimp only at hL hkn hc heq ⊢
    refine Sat.bind (n.sat_load_l hi (Q := fun v => v = n.toNat / B ^ i % B) rfl) ?_
    rintro _ rfl
    obtain ⟨kn', v, ev, hkn', hv, hveq⟩ := cond_neg_limb gq (dig_lt n.toNat i) hkn
    rw [ev]
    dsimp only
    refine Sat.bind (hL.sat_load (by omega) le_rfl (Q := fun v => v = u.toNat / B ^ i % B) rfl) ?_
    rintro _ rfl
    rw [and_bmask hv]
    have hv' : (if (sg || gq) = true then v else 0) < B := by split <;> omega
    obtain ⟨c', w, ew, hc', hw, hweq⟩ := ct_add_l_l_c_spec (dig_lt u.toNat i) hv' hc
    rw [ew, M.pure_bind]
    dsimp only
    refine Sat.bind (hL.sat_store_last (by omega) hw hL.nlimbs (fun b' hb' => hb')) ?_
    intro u'' hu''
    refine Sat.pure ⟨r + B ^ i * w, ?_, ?_, hkn', hc', ?_⟩
    · have h2 : B ^ i * (w + 1) ≤ B ^ i * B := Nat.mul_le_mul_left _ hw
      rw [pow_succ]; linarith
    · dsimp only
      rw [← topv_mod u (by omega) hr hw]; exact hu''
    · dsimp only
      rw [mod_succ u.toNat, mod_succ n.toNat, pow_succ]
      zify at hweq
      push_cast at heq hweq hveq ⊢
      cases sg <;> cases gq <;>
        simp only [if_true, if_false, Bool.false_eq_true, Bool.or_true, Bool.or_false] at heq hweq hveq ⊢
      · linear_combination heq - (B : ℤ) ^ i * hweq
      · linear_combination heq - (B : ℤ) ^ i * hweq + (B : ℤ) ^ i * hveq
      · linear_combination heq - (B : ℤ) ^ i * hweq + (B : ℤ) ^ i * hveq
      · linear_combination heq - (B : ℤ) ^ i * hweq + (B : ℤ) ^ i * hveq
  · rintro ⟨u', kn, c⟩ ⟨r, hr, hL, hkn, hc, heq⟩
    dsimp only at hL hkn hc heq ⊢
    refine ⟨hL.len, ?_⟩
    have hdvd : ((256 ^ u.len : ℕ) : ℤ) ∣ (B : ℤ) ^ n.nlimbs := by
      rw [← hN, Buf.nlimbs_eq]; exact_mod_cast len_dvd_pow u.len
    refine eq_of_mod_cong (hL.final (by omega)) ?_ hz (by omega)
    rw [n.mod_high le_rfl, u.mod_high (by omega)] at heq
    obtain ⟨d, hd⟩ := hdvd
    refine Int.modEq_iff_dvd.2 ?_
    cases sg <;> cases gq <;>
        simp only [if_true, if_false, Bool.false_eq_true, Bool.or_true, Bool.or_false] at heq ⊢
    · exact ⟨d * c, by linear_combination - heq + (c : ℤ) * hd⟩
    · exact ⟨d * (c + kn - 1), by linear_combination - heq + (c + kn - 1 : ℤ) * hd⟩
    · exact ⟨d * (c + kn), by linear_combination - heq + (c + kn : ℤ) * hd⟩
    · exact ⟨d * (c + kn - 1), by linear_combination - heq + (c + kn - 1 : ℤ) * hd⟩

end Cmpa
