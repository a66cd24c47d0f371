import Verif.Model.InvModOdd
import Verif.Proofs.Gcd

/-!
# Applying a batch of division steps to the coefficients modulo an odd number
-/

set_option linter.unusedSectionVars false

namespace Cmpa
variable [LimbCfg] {φ ψ χ : Fmt}

open M TransitionMatrix

theorem mod_sub_sat {u bo lx ly : ℕ} (na nb : Bool) (hu : u < B) (hbo : bo ≤ 2)
    (hlx : lx < B) (hly : ly < B) :
    Sat (mod_sub u bo (lx, ly) (bmask na, bmask nb)) (fun s => s.2 < B ∧ s.1 ≤ 2 ∧
      (s.2 : ℤ) - B * s.1 = u - bo - (if na then (lx : ℤ) else 0) - (if nb then (ly : ℤ) else 0)) := by
  unfold mod_sub
  dsimp only
  rw [and_bmask hlx, and_bmask hly]
  have hlx' : (if na then lx else 0) < B := by split <;> omega
  have hly' : (if nb then ly else 0) < B := by split <;> omega
  have ex : ((if na then lx else 0 : ℕ) : ℤ) = if na then (lx : ℤ) else 0 := by split <;> rfl
  have ey : ((if nb then ly else 0 : ℕ) : ℤ) = if nb then (ly : ℤ) else 0 := by split <;> rfl
  rw [← ex, ← ey]
  generalize (if na then lx else 0 : ℕ) = lx' at *
  generalize (if nb then ly else 0 : ℕ) = ly' at *
  have hB := B_ge
  obtain ⟨fb, r1, e3, hfb, hr1, h3, -⟩ := ct_sub_l_l_spec hu hlx'
  obtain ⟨gb, r2, e4, hgb, hr2, h4, -⟩ := ct_sub_l_l_spec hr1 hly'
  obtain ⟨b0, r3, e5, hb0, hr3, h5, h5'⟩ := ct_sub_l_l_spec hr2 (b := bo) (by omega)
  rw [e3]; dsimp only
  have hfb' : fb = 0 ∨ fb = 1 := by omega
  have hgb' : gb = 0 ∨ gb = 1 := by omega
  have a1 : fb = 0 ∨ 1 ≤ r1 := by rcases hfb' with h | h <;> subst h <;> omega
  have a3 : fb + gb < 2 ∨ 2 ≤ r2 := by
    rcases hfb' with h | h <;> rcases hgb' with h' | h' <;> subst h <;> subst h' <;> omega
  have a4 : b0 + fb + gb ≤ 2 := by
    rcases hfb' with h | h <;> rcases hgb' with h' | h' <;> subst h <;> subst h' <;> omega
  rw [M.assert_eq a1, M.pure_bind, e4]; dsimp only
  rw [M.addL_eq (by omega), M.pure_bind, M.assert_eq a3, M.pure_bind,
    M.assert_eq hbo, M.pure_bind, e5]
  dsimp only
  rw [M.addL_eq (by omega), M.pure_bind, M.addL_eq (by omega), M.pure_bind,
    M.assert_eq a4, M.pure_bind]
  refine Sat.pure ⟨hr3, a4, ?_⟩
  dsimp only
  zify at h3 h4 h5
  push_cast
  linear_combination - h3 - h4 - h5

/-- `k ≥ 1` limbs of a row have been handed to the reduction, which has returned `k - 1` limbs
making up `out`. -/
structure ModInv (ta tb : ℕ) (na nb : Bool) (X Y n e k : ℕ) (r : ModRow) (R out : ℕ) : Prop where
  row : RowInv ta tb na nb X Y k (r.carry0, r.carry1, r.borrow) R
  ker : r.kernel.Inv e (R + r.kernel.m * (n % B ^ k)) (k - 1) out
  lt : out < B ^ (k - 1)
  geq : r.geq = if n % B ^ (k - 1) ≤ out then 1 else 0

theorem mod_start_sat {ta tb : ℕ} {na nb : Bool} {X Y n e neg : ℕ} (hta : ta < B) (htb : tb < B)
    (he : e ≤ W) (hneg : wmul (n % B) neg = lmax) :
    Sat (mod_start (X % B, Y % B) (ta, tb) e (n % B) neg) (fun r =>
      ∃ R, ModInv ta tb na nb X Y n e 1 r R 0) := by
  have hx := Nat.mod_lt X B_pos
  have hy := Nat.mod_lt Y B_pos
  unfold mod_start
  dsimp only
  rw [ct_mul_l_l_eq hta hx, M.pure_bind]
  dsimp only
  have hm := Nat.div_add_mod (ta * (X % B)) B
  have hh : ta * (X % B) / B < B := Nat.div_lt_of_lt_mul (Nat.mul_lt_mul'' hta hx)
  have hl : ta * (X % B) % B < B := Nat.mod_lt _ B_pos
  generalize ta * (X % B) / B = hi at *
  generalize ta * (X % B) % B = lo at *
  obtain ⟨gk, r0, e1, hgk, hr0, h1⟩ := ct_mul_add_l_l_l_c_spec hl htb hy B_pos
  rw [e1, M.pure_bind]
  dsimp only
  rw [ct_add_l_l_eq hh hgk]
  dsimp only
  have hc1 : (hi + gk) / B ≤ 1 := add_div_le_one hh (by omega)
  rw [M.assert_eq hc1, M.pure_bind]
  refine Sat.bind (RedcKernel.start_sat he hr0 (Nat.mod_lt n B_pos) hneg) ?_
  intro k hk
  refine Sat.pure ⟨r0, ⟨⟨Nat.mod_lt _ B_pos, hc1, by simp, by simpa using hr0, ?_⟩, ?_, by simp, by simp [Nat.mod_one]⟩⟩
  · dsimp only
    have h2 := Nat.mod_add_div (hi + gk) B
    rw [pow_one, pow_one, Nat.mul_mod_right, Nat.mul_mod_right]
    zify at hm h1 h2
    push_cast
    simp only [ite_self, sub_zero]
    linear_combination hm - h1 + (B : ℤ) * h2
  · dsimp only
    rw [pow_one]; exact hk

theorem mod_limb_sat {ta tb : ℕ} {na nb : Bool} {X Y n e k : ℕ} {r : ModRow} {R out : ℕ}
    (h : ModInv ta tb na nb X Y n e (k + 1) r R out) (hta : ta < B) (htb : tb < B) (he : e ≤ W) :
    Sat (mod_limb r (n / B ^ (k + 1) % B) (n / B ^ k % B) (X / B ^ (k + 1) % B, Y / B ^ (k + 1) % B)
      (X / B ^ k % B, Y / B ^ k % B) (ta, tb) (bmask na, bmask nb)) (fun s =>
        s.2 < B ∧ ∃ R', ModInv ta tb na nb X Y n e (k + 2) s.1 R' (out + B ^ k * s.2)) := by
  have hx := dig_lt X (k + 1)
  have hy := dig_lt Y (k + 1)
  unfold mod_limb
  dsimp only
  rw [ct_mul_l_l_eq hta hx, M.pure_bind]
  dsimp only
  have hm := Nat.div_add_mod (ta * (X / B ^ (k + 1) % B)) B
  have hh : ta * (X / B ^ (k + 1) % B) / B < B := Nat.div_lt_of_lt_mul (Nat.mul_lt_mul'' hta hx)
  have hl : ta * (X / B ^ (k + 1) % B) % B < B := Nat.mod_lt _ B_pos
  generalize ta * (X / B ^ (k + 1) % B) / B = hi at *
  generalize ta * (X / B ^ (k + 1) % B) % B = lo at *
  obtain ⟨gk, r0, e1, hgk, hr0, h1⟩ := ct_mul_add_l_l_l_c_spec hl htb hy h.row.c0
  dsimp only at e1
  rw [e1, M.pure_bind]
  dsimp only
  obtain ⟨k1, k0, e2, hk1, hk0, h2⟩ := ct_add_l_l_c_spec hh hgk h.row.c1
  dsimp only at e2
  rw [e2, M.pure_bind]
  dsimp only
  refine Sat.bind (mod_sub_sat na nb hr0 h.row.bo (dig_lt X k) (dig_lt Y k)) ?_
  rintro ⟨bo', u⟩ ⟨hu, hbo', hsub⟩
  dsimp only at hu hbo' hsub ⊢
  have hker := h.ker
  rw [Nat.add_sub_cancel] at hker
  refine Sat.bind (RedcKernel.update_sat he hker hu (dig_lt n (k + 1))) ?_
  rintro ⟨kern, v⟩ ⟨hkm, hv, hki⟩
  dsimp only at hkm hv hki ⊢
  have hlt := h.lt
  rw [Nat.add_sub_cancel] at hlt
  have hg := h.geq
  rw [Nat.add_sub_cancel] at hg
  have hout : out + B ^ k * v < B ^ (k + 1) := by
    have h2 : B ^ k * (v + 1) ≤ B ^ k * B := Nat.mul_le_mul_left _ hv
    rw [pow_succ]; linarith
  have eo1 : (out + B ^ k * v) % B ^ k = out := by
    rw [Nat.add_mul_mod_self_left, Nat.mod_eq_of_lt hlt]
  have eo2 : (out + B ^ k * v) / B ^ k % B = v := by
    rw [Nat.add_mul_div_left _ _ (B_pow_pos k), Nat.div_eq_of_lt hlt, Nat.zero_add,
      Nat.mod_eq_of_lt hv]
  unfold CtGeqMpMpKernel.update
  rw [leq_kernel_step (x := n) (y := out + B ^ k * v) (i := k) (by rw [eo1]; exact hg) rfl eo2.symm,
    M.pure_bind, Nat.mod_eq_of_lt hout]
  refine Sat.pure ⟨hv, R + B ^ (k + 1) * u, ⟨⟨hk0, hk1, hbo', ?_, ?_⟩, ?_, hout, rfl⟩⟩
  · have h1 := h.row.lt
    have h2 : B ^ (k + 1) * (u + 1) ≤ B ^ (k + 1) * B := Nat.mul_le_mul_left _ hu
    rw [pow_succ B (k + 1)]; linarith
  · have h3 := h.row.eq
    dsimp only at h3 ⊢
    have eX : B * X / B ^ (k + 1) = X / B ^ k := mul_B_dig X k
    have eY : B * Y / B ^ (k + 1) = Y / B ^ k := mul_B_dig Y k
    rw [mod_succ X (k + 1), mod_succ Y (k + 1), mod_succ (B * X) (k + 1), mod_succ (B * Y) (k + 1),
      pow_succ _ (k + 1), eX, eY]
    zify at hm h1 h2
    push_cast at h3 hsub ⊢
    cases na <;> cases nb <;> simp only [if_true, if_false, Bool.false_eq_true] at h3 hsub ⊢ <;>
      linear_combination h3 + (B : ℤ) ^ (k + 1) * (hsub + hm - h1 - (B : ℤ) * h2)
  · dsimp only
    rw [hkm, mod_succ n (k + 1), show k + 2 - 1 = k + 1 by omega]
    convert hki using 1
    ring

end Cmpa
