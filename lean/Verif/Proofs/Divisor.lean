import Verif.Model.Div
import Verif.Proofs.Knuth
import Verif.Proofs.LDiv
import Verif.Proofs.BufBits
import Verif.Proofs.AddMod
import Verif.Proofs.Composite

/-!
# `CtMpDivisor`
-/

set_option linter.unusedSectionVars false

namespace Cmpa
variable [LimbCfg] {f g h : Fmt}

open M

/-! ### Scaling of limbs -/

theorem mod_mul_eq_of_factor {val p q : ℕ} (hp : 0 < p) : val * p % (p * q) = val % q * p := by
  rw [Nat.mul_comm val p, Nat.mul_mod_mul_left, Nat.mul_comm]

theorem _scale_val_eq {val s c : ℕ} (hs : s < W) (hv : val < B) (hc : c ≤ 2 ^ s) :
    CtMpDivisor._scale_val val s ((W - s) % W) (ct_lsb_mask_l s) c =
      pure ((val * 2 ^ s + c) / B, (val * 2 ^ s + c) % B) := by
  have hp : 0 < 2 ^ s := Nat.two_pow_pos s
  have hq : 0 < 2 ^ (W - s) := Nat.two_pow_pos _
  have hB : B = 2 ^ s * 2 ^ (W - s) := by
    rw [← pow_add, B_eq_two_pow]; congr 1; omega
  have h1 : shl 1 s = 2 ^ s := by
    rw [shl_eq, one_mul, Nat.mod_eq_of_lt (two_pow_lt_B hs)]
  have hcB : c < B := lt_of_le_of_lt hc (two_pow_lt_B hs)
  -- `val = a q + b`
  have ha : val / 2 ^ (W - s) < 2 ^ s := by
    rw [Nat.div_lt_iff_lt_mul hq, ← hB]; exact hv
  have hb := Nat.mod_lt val hq
  have hab := Nat.div_add_mod' val (2 ^ (W - s))
  have e1 : shl val s = val % 2 ^ (W - s) * 2 ^ s := by
    rw [shl_eq, hB, mod_mul_eq_of_factor hp]
  have e2 : shr val ((W - s) % W) &&& ct_lsb_mask_l s = val / 2 ^ (W - s) := by
    rw [and_mask hs.le, shr_eq]
    by_cases h0 : s = 0
    · subst h0
      simp only [Nat.sub_zero, pow_zero, Nat.mod_one]
      rw [← B_eq_two_pow, Nat.div_eq_of_lt hv]
    · rw [Nat.mod_eq_of_lt (by omega : W - s < W), Nat.mod_eq_of_lt ha]
  generalize val / 2 ^ (W - s) = a at *
  generalize val % 2 ^ (W - s) = b at *
  generalize hP : 2 ^ s = p at *
  generalize 2 ^ (W - s) = q at *
  have hbp : (b + 1) * p ≤ q * p := Nat.mul_le_mul_right _ hb
  have hbp' : b * p + p ≤ B := by rw [Nat.add_mul, one_mul, Nat.mul_comm q p, ← hB] at hbp; exact hbp
  have hval : val * p + c = a * B + (b * p + c) := by rw [← hab, hB]; ring
  have hapB : (a + 1) * p ≤ p * p := Nat.mul_le_mul_right _ ha
  unfold CtMpDivisor._scale_val
  rw [shlC_eq hs, M.pure_bind, h1, M.assert_eq hc, M.pure_bind, shlC_eq hs, M.pure_bind, e1,
    ct_add_l_l_eq (by omega) hcB]
  dsimp only
  have hpB : p < B := by rw [← hP]; exact two_pow_lt_B hs
  have hle : b * p + c ≤ B := by omega
  have hcase : (b * p + c) / B = 0 ∧ (b * p + c) % B = b * p + c ∨
      ((b * p + c) / B = 1 ∧ (b * p + c) % B = 0) := by
    rcases Nat.lt_or_eq_of_le hle with h | h
    · left; exact ⟨Nat.div_eq_of_lt h, Nat.mod_eq_of_lt h⟩
    · right; rw [h]; exact ⟨Nat.div_self B_pos, Nat.mod_self _⟩
  have hr : (val * p + c) / B = a + (b * p + c) / B := by
    rw [hval, Nat.mul_comm a B, Nat.mul_add_div B_pos]
  have hr2 : (val * p + c) % B = (b * p + c) % B := by
    rw [hval, Nat.mul_comm a B, Nat.mul_add_mod]
  have hsum : a + (b * p + c) / B ≤ p := by
    rcases hcase with h | h <;> omega
  rw [M.assert_eq (by rcases hcase with h | h <;> omega), M.pure_bind, shrC_eq
    (Nat.mod_lt _ W_pos), M.pure_bind, e2, M.addL_eq (by omega), M.pure_bind,
    M.assert_eq hsum, M.pure_bind, hr, hr2]

/-- What the fields of a divisor for the value `V` are. -/
structure CtMpDivisor.Ok (d : CtMpDivisor f) (V : ℕ) : Prop where
  v_eq : d.v.toNat = V + d.decrement
  dec_lt : d.decrement < B
  len_pos : 0 < d.v_len
  lo : 256 ^ (d.v_len - 1) ≤ V
  hi : V < 256 ^ d.v_len
  shift_lt : d.scaling_shift < W
  rshift : d.scaling_low_src_rshift = (W - d.scaling_shift) % W
  mask : d.scaling_low_src_mask = ct_lsb_mask_l d.scaling_shift
  norm : B ^ ct_mp_nlimbs d.v_len ≤ 2 * (V * 2 ^ d.scaling_shift)
  lt : V * 2 ^ d.scaling_shift < B ^ ct_mp_nlimbs d.v_len
  head : d.scaled_v_head = V * 2 ^ d.scaling_shift / B ^ (ct_mp_nlimbs d.v_len - 1)
  tail : d.scaled_v_tail_head = if ct_mp_nlimbs d.v_len = 1 then 0 else
    V * 2 ^ d.scaling_shift / B ^ (ct_mp_nlimbs d.v_len - 2) % B
  valid : d.scaled_v_head_divisor.Valid
  divisor_v : d.scaled_v_head_divisor.v = d.scaled_v_head

namespace CtMpDivisor.Ok
variable {d : CtMpDivisor f} {V : ℕ}

theorem pos (h : d.Ok V) : 0 < V := lt_of_lt_of_le (by positivity) h.lo

theorem n_pos (h : d.Ok V) : 0 < ct_mp_nlimbs d.v_len := nlimbs_pos_iff.2 h.len_pos

theorem scaled_pos (h : d.Ok V) : 0 < V * 2 ^ d.scaling_shift :=
  Nat.mul_pos h.pos (Nat.two_pow_pos _)

theorem v_len_le (h : d.Ok V) : d.v_len ≤ d.v.len := by
  have h1 := d.v.toNat_lt
  rw [h.v_eq] at h1
  have h2 : 256 ^ (d.v_len - 1) < 256 ^ d.v.len := lt_of_le_of_lt (le_trans h.lo (by omega)) h1
  have h3 := (Nat.pow_lt_pow_iff_right (by norm_num : 1 < 256)).1 h2
  omega

theorem n_le (h : d.Ok V) : ct_mp_nlimbs d.v_len ≤ d.v.nlimbs := by
  rw [Buf.nlimbs_eq]; exact nlimbs_mono h.v_len_le

theorem scale_val_eq (h : d.Ok V) {val c : ℕ} (hv : val < B) (hc : c ≤ 2 ^ d.scaling_shift) :
    d.scale_val val c = pure ((val * 2 ^ d.scaling_shift + c) / B,
      (val * 2 ^ d.scaling_shift + c) % B) := by
  unfold CtMpDivisor.scale_val
  rw [h.rshift, h.mask]
  exact _scale_val_eq h.shift_lt hv hc

theorem scaled_carry_le {val s c : ℕ} (hv : val < B) (hc : c ≤ 2 ^ s) :
    (val * 2 ^ s + c) / B ≤ 2 ^ s := by
  rw [← Nat.lt_succ_iff, Nat.div_lt_iff_lt_mul B_pos, Nat.succ_mul]
  have : (val + 1) * 2 ^ s ≤ B * 2 ^ s := Nat.mul_le_mul_right _ hv
  rw [Nat.add_mul, one_mul] at this
  have hB := B_pos
  rw [Nat.mul_comm (2 ^ s) B]
  omega

theorem unscale_val_eq (h : d.Ok V) {val last : ℕ} (hv : val < B) :
    d.unscale_val val last = pure ((last * B + val) / 2 ^ d.scaling_shift % B) := by
  unfold CtMpDivisor.unscale_val
  rw [shrC_eq h.shift_lt, M.pure_bind, h.rshift, h.mask, shlC_eq (Nat.mod_lt _ W_pos), M.pure_bind,
    and_mask h.shift_lt.le, shr_eq, shl_eq]
  congr 1
  generalize hs : d.scaling_shift = s
  have hsW : s < W := hs ▸ h.shift_lt
  by_cases h0 : s = 0
  · subst h0
    simp only [Nat.sub_zero, pow_zero, Nat.mod_one, zero_mul, Nat.zero_mod, Nat.div_one]
    rw [Nat.zero_or, Nat.mul_comm, Nat.mul_add_mod, Nat.mod_eq_of_lt hv]
  · rw [Nat.mod_eq_of_lt (by omega : W - s < W)]
    have hp : 0 < 2 ^ s := Nat.two_pow_pos s
    have hB : B = 2 ^ s * 2 ^ (W - s) := by rw [← pow_add, B_eq_two_pow]; congr 1; omega
    have h1 : val / 2 ^ s < 2 ^ (W - s) := by
      rw [Nat.div_lt_iff_lt_mul hp, Nat.mul_comm, ← hB]; exact hv
    have h2 : last % 2 ^ s < 2 ^ s := Nat.mod_lt _ hp
    have h3 : last % 2 ^ s * 2 ^ (W - s) + 2 ^ (W - s) ≤ B := by
      rw [hB, ← Nat.succ_mul]; exact Nat.mul_le_mul_right _ h2
    have hq : 0 < 2 ^ (W - s) := Nat.two_pow_pos _
    have h4 : last % 2 ^ s * 2 ^ (W - s) < B := by omega
    rw [Nat.mod_eq_of_lt h4, or_eq_add_of_lt h1]
    have h5 : last % 2 ^ s * 2 ^ (W - s) + val / 2 ^ s < B := by omega
    have e : (last * B + val) / 2 ^ s = last * 2 ^ (W - s) + val / 2 ^ s := by
      rw [hB, show last * (2 ^ s * 2 ^ (W - s)) + val = 2 ^ s * (last * 2 ^ (W - s)) + val by ring,
        Nat.mul_add_div hp]
    have e2 : last * 2 ^ (W - s) = last / 2 ^ s * B + last % 2 ^ s * 2 ^ (W - s) := by
      conv_lhs => rw [← Nat.div_add_mod' last (2 ^ s)]
      rw [hB]; ring
    rw [e, e2, Nat.add_assoc, Nat.mul_comm (last / 2 ^ s) B, Nat.mul_add_mod, Nat.mod_eq_of_lt h5]

end CtMpDivisor.Ok

/-! ### The limbs of the scaled divisor -/

/-- `x` is the borrow of the decrement into limb `i`. -/
def Vdb (v V dec i x : ℕ) : Prop := x < B ∧ v % B ^ i + x * B ^ i = dec + V % B ^ i

theorem Vdb.zero {v V dec : ℕ} (h : dec < B) : Vdb v V dec 0 dec := ⟨h, by simp [Nat.mod_one]⟩

theorem Vdb.step {v V dec i x : ℕ} (hv : v = V + dec) (h : Vdb v V dec i x) :
    ∃ x', ct_sub_l_l (v / B ^ i % B) x = (x', V / B ^ i % B) ∧ x' ≤ 1 ∧ Vdb v V dec (i + 1) x' := by
  obtain ⟨w, y, h1, h2, h3, h4, -⟩ := ct_sub_l_l_spec (dig_lt v i) h.1
  have e : v % B ^ (i + 1) + w * B ^ (i + 1) = dec + (V % B ^ i + B ^ i * y) := by
    rw [mod_succ, pow_succ]
    linear_combination h.2 + B ^ i * h4
  have hm : V % B ^ (i + 1) = V % B ^ i + B ^ i * y := by
    have hlt : V % B ^ i + B ^ i * y < B ^ (i + 1) := by
      have := mod_lt_pow V i
      have h5 : B ^ i * (y + 1) ≤ B ^ i * B := Nat.mul_le_mul_left _ h3
      rw [pow_succ]
      rw [Nat.mul_add] at h5
      omega
    have hmod : (V % B ^ i + B ^ i * y) ≡ V [MOD B ^ (i + 1)] := by
      refine Nat.ModEq.add_left_cancel' dec ?_
      rw [← e, Nat.add_comm dec V, ← hv]
      show _ % _ = _ % _
      rw [Nat.add_mul_mod_self_right, Nat.mod_mod]
    rw [← hmod, Nat.mod_eq_of_lt hlt]
  have hy : y = V / B ^ i % B := by
    have := mod_succ V i
    rw [hm] at this
    exact Nat.eq_of_mul_eq_mul_left (B_pow_pos i) (by omega)
  subst hy
  refine ⟨w, h1, h2, lt_of_le_of_lt h2 one_lt_B, ?_⟩
  rw [e, hm]

/-- `c` is the carry of the scaling into limb `i`. -/
def Svc (V s i c : ℕ) : Prop := c = V % B ^ i * 2 ^ s / B ^ i

theorem Svc.zero {V s : ℕ} : Svc V s 0 0 := by simp [Svc, Nat.mod_one]

theorem Svc.le {V s i c : ℕ} (h : Svc V s i c) : c ≤ 2 ^ s := by
  rw [h]
  refine Nat.div_le_of_le_mul ?_
  exact Nat.mul_le_mul_right _ (mod_lt_pow V i).le

theorem mul_two_pow_mod (V s i : ℕ) : V * 2 ^ s % B ^ i = V % B ^ i * 2 ^ s % B ^ i := by
  rw [Nat.mod_mul_mod]

/-- The scaled value of the lower limbs. -/
theorem Svc.eq {V s i c : ℕ} (h : Svc V s i c) :
    V % B ^ i * 2 ^ s = V * 2 ^ s % B ^ i + c * B ^ i := by
  rw [mul_two_pow_mod, h, Nat.mul_comm _ (B ^ i)]
  exact (Nat.mod_add_div _ _).symm

theorem Svc.step {V s i c : ℕ} (h : Svc V s i c) :
    Svc V s (i + 1) ((V / B ^ i % B * 2 ^ s + c) / B) ∧
      (V / B ^ i % B * 2 ^ s + c) % B = V * 2 ^ s / B ^ i % B := by
  have h1 := h.eq
  have h2 : V % B ^ (i + 1) * 2 ^ s
      = V * 2 ^ s % B ^ i + B ^ i * (V / B ^ i % B * 2 ^ s + c) := by
    rw [mod_succ]; linear_combination h1
  have h3 := mod_lt_pow (V * 2 ^ s) i
  have h4 : V % B ^ (i + 1) * 2 ^ s / B ^ i = V / B ^ i % B * 2 ^ s + c := by
    rw [h2, Nat.add_mul_div_left _ _ (B_pow_pos i), Nat.div_eq_of_lt h3, Nat.zero_add]
  constructor
  · unfold Svc
    rw [pow_succ, ← Nat.div_div_eq_div_mul, ← pow_succ, h4]
  · have h5 : V * 2 ^ s % B ^ (i + 1) / B ^ i = V * 2 ^ s / B ^ i % B := by
      rw [mod_succ, Nat.add_mul_div_left _ _ (B_pow_pos i), Nat.div_eq_of_lt h3, Nat.zero_add]
    rw [← h5, mul_two_pow_mod, ← h4, pow_succ, Nat.mod_mul_right_div_self]

namespace CtMpDivisor.Ok
variable {d : CtMpDivisor f} {V : ℕ}

theorem vdb_zero (h : d.Ok V) : Vdb d.v.toNat V d.decrement 0 d.decrement := Vdb.zero h.dec_lt

theorem scaled_v_val_sat (h : d.Ok V) {i x c : ℕ} (hi : i < ct_mp_nlimbs d.v_len)
    (hx : Vdb d.v.toNat V d.decrement i x) (hc : c ≤ 2 ^ d.scaling_shift) :
    Sat (d.scaled_v_val i x c) (fun r => Vdb d.v.toNat V d.decrement (i + 1) r.1 ∧
      r.2.1 = (V / B ^ i % B * 2 ^ d.scaling_shift + c) / B ∧
      r.2.2 = (V / B ^ i % B * 2 ^ d.scaling_shift + c) % B) := by
  unfold CtMpDivisor.scaled_v_val
  refine Sat.bind (P := fun l => l = d.v.toNat / B ^ i % B)
    (Buf.sat_load_l d.v (lt_of_lt_of_le hi h.n_le) rfl) fun l hl => ?_
  subst l
  obtain ⟨x', h1, -, h3⟩ := hx.step h.v_eq
  rw [h1]
  dsimp only
  rw [h.scale_val_eq (dig_lt _ _) hc, M.pure_bind]
  exact Sat.pure ⟨h3, rfl, rfl⟩

/-- `V` has no limbs above those of the divisor. -/
theorem mod_n (h : d.Ok V) : V % B ^ ct_mp_nlimbs d.v_len = V := by
  refine Nat.mod_eq_of_lt (lt_of_le_of_lt ?_ h.lt)
  exact Nat.le_mul_of_pos_right _ (Nat.two_pow_pos _)

theorem scaled_mod_n (h : d.Ok V) : V * 2 ^ d.scaling_shift % B ^ ct_mp_nlimbs d.v_len
    = V * 2 ^ d.scaling_shift := Nat.mod_eq_of_lt h.lt

/-- There is no carry out of the scaled divisor. -/
theorem svc_n (h : d.Ok V) {c : ℕ} (hc : Svc V d.scaling_shift (ct_mp_nlimbs d.v_len) c) : c = 0 := by
  rw [hc, h.mod_n]; exact Nat.div_eq_of_lt h.lt

/-! ### Subtraction of a multiple of the scaled divisor -/

/-- State of the subtraction of `q` times the scaled divisor from `Z`, after `i` limbs; `y` is
the value of the result's limbs so far. -/
structure SubI (d : CtMpDivisor f) (V q Z i y vdb svc b : ℕ) : Prop where
  vdb : Vdb d.v.toNat V d.decrement i vdb
  svc : Svc V d.scaling_shift i svc
  b_lt : b < B
  eq : y + q * (V * 2 ^ d.scaling_shift % B ^ i) = Z % B ^ i + b * B ^ i
  lt : y < B ^ i

theorem sub_zero (h : d.Ok V) (q Z : ℕ) : SubI d V q Z 0 0 d.decrement 0 0 :=
  ⟨h.vdb_zero, Svc.zero, B_pos, by simp [Nat.mod_one], by simp⟩

theorem sub_step_sat (h : d.Ok V) {q Z i y vdb svc b : ℕ} (hi : i < ct_mp_nlimbs d.v_len)
    (hq : q < B) (hs : SubI d V q Z i y vdb svc b) :
    Sat (d.sub_scaled_qv_val (Z / B ^ i % B) i q vdb svc b) (fun r => r.2.2.2 < B ∧
      SubI d V q Z (i + 1) (y + B ^ i * r.2.2.2) r.1 r.2.1 r.2.2.1) := by
  unfold CtMpDivisor.sub_scaled_qv_val
  refine Sat.bind (h.scaled_v_val_sat hi hs.vdb hs.svc.le) ?_
  rintro ⟨x', c', v'⟩ ⟨h1, h2, h3⟩
  dsimp only at h1 h2 h3 ⊢
  obtain ⟨h4, h5⟩ := hs.svc.step
  rw [h5] at h3
  subst h2 h3
  obtain ⟨w, r, e1, hw, hr, e2⟩ := ct_mul_sub_l_l_l_b_spec (dig_lt Z i) hq
    (dig_lt (V * 2 ^ d.scaling_shift) i) hs.b_lt
  rw [e1, M.pure_bind]
  refine Sat.pure ⟨hr, h1, h4, hw, ?_, ?_⟩
  · dsimp only
    rw [mod_succ, mod_succ, pow_succ]
    linear_combination hs.eq - B ^ i * e2
  · dsimp only
    have := hs.lt
    have h6 : B ^ i * (r + 1) ≤ B ^ i * B := Nat.mul_le_mul_left _ hr
    rw [Nat.mul_add, mul_one] at h6
    rw [pow_succ]
    omega

/-! ### Conditional addition of the scaled divisor -/

/-- State of the addition, if `c` is set, of the scaled divisor to `Z`, after `i` limbs. -/
structure AddI (d : CtMpDivisor f) (V : ℕ) (c : Bool) (Z i y vdb k : ℕ) : Prop where
  vdb : Vdb d.v.toNat V d.decrement i vdb
  k_le : k ≤ 2 ^ d.scaling_shift
  k_zero : c = false → k = 0
  eq : y + k * B ^ i = Z % B ^ i + if c then V % B ^ i * 2 ^ d.scaling_shift else 0
  lt : y < B ^ i

theorem add_zero (h : d.Ok V) (c : Bool) (Z : ℕ) : AddI d V c Z 0 0 d.decrement 0 :=
  ⟨h.vdb_zero, Nat.zero_le _, fun _ => rfl, by simp [Nat.mod_one], by simp⟩

theorem add_step_sat (h : d.Ok V) {c : Bool} {Z i y vdb k : ℕ} (hi : i < ct_mp_nlimbs d.v_len)
    (hs : AddI d V c Z i y vdb k) :
    Sat (d.add_scaled_v_val_cond (Z / B ^ i % B) i vdb k (.ofBool c)) (fun r => r.2.2 < B ∧
      AddI d V c Z (i + 1) (y + B ^ i * r.2.2) r.1 r.2.1) := by
  unfold CtMpDivisor.add_scaled_v_val_cond
  refine Sat.bind (h.scaled_v_val_sat hi hs.vdb hs.k_le) ?_
  rintro ⟨x', c', v'⟩ ⟨h1, h2, h3⟩
  dsimp only at h1 h2 h3 ⊢
  have hc1 := scaled_carry_le (dig_lt V i) hs.k_le
  have h2s := two_pow_lt_B h.shift_lt
  have hdm := Nat.div_add_mod' (V / B ^ i % B * 2 ^ d.scaling_shift + k) B
  rw [← h2, ← h3] at hdm
  rw [← h2] at hc1
  have hv' : v' < B := h3 ▸ Nat.mod_lt _ B_pos
  rw [LimbChoice.select_ofBool B_pos (by omega), LimbChoice.select_ofBool B_pos hv']
  have hv'' : (if c = true then v' else 0) < B := by split <;> [exact hv'; exact B_pos]
  rw [ct_add_l_l_eq (dig_lt _ _) hv'']
  dsimp only
  have hlt : ∀ r, r < B → y + B ^ i * r < B ^ (i + 1) := by
    intro r hr
    have := hs.lt
    have h6 : B ^ i * (r + 1) ≤ B ^ i * B := Nat.mul_le_mul_left _ hr
    rw [Nat.mul_add, mul_one] at h6
    rw [pow_succ]
    omega
  have hd := dig_lt Z i
  generalize hz : Z / B ^ i % B = z at *
  cases c with
  | false =>
    simp only [Bool.false_eq_true, if_false, Nat.add_zero]
    rw [Nat.div_eq_of_lt hd, Nat.mod_eq_of_lt hd, M.addL_eq (by simpa using B_pos), M.pure_bind]
    refine Sat.pure ⟨hd, h1, Nat.zero_le _, fun _ => rfl, ?_, hlt _ hd⟩
    have e := hs.eq
    have e0 := hs.k_zero rfl
    simp only [Bool.false_eq_true, if_false] at e ⊢
    rw [mod_succ, hz]
    rw [e0] at e
    linear_combination e
  | true =>
    simp only [if_true]
    have hdm2 := Nat.div_add_mod' (z + v') B
    have hk : c' + (z + v') / B ≤ 2 ^ d.scaling_shift := by
      have h8 : (c' + (z + v') / B) * B < (2 ^ d.scaling_shift + 1) * B := by
        have h9 : (V / B ^ i % B + 1) * 2 ^ d.scaling_shift ≤ B * 2 ^ d.scaling_shift :=
          Nat.mul_le_mul_right _ (dig_lt V i)
        have := hs.k_le
        rw [Nat.add_mul, one_mul] at h9
        have e1 : (c' + (z + v') / B) * B = c' * B + (z + v') / B * B := by ring
        have e2 : (2 ^ d.scaling_shift + 1) * B = B * 2 ^ d.scaling_shift + B := by ring
        rw [e1, e2]
        omega
      have := lt_of_mul_lt_mul_right h8 (Nat.zero_le _)
      omega
    rw [M.addL_eq (by omega), M.pure_bind]
    refine Sat.pure ⟨Nat.mod_lt _ B_pos, h1, hk, fun h0 => by simp at h0, ?_,
      hlt _ (Nat.mod_lt _ B_pos)⟩
    have e := hs.eq
    simp only [if_true] at e ⊢
    rw [mod_succ, mod_succ, pow_succ, hz]
    linear_combination e + B ^ i * hdm + B ^ i * hdm2

/-! ### The quotient estimate -/

theorem head_lt (h : d.Ok V) : d.scaled_v_head < B := by
  rw [h.head, Nat.div_lt_iff_lt_mul (B_pow_pos _), ← pow_succ']
  have := h.n_pos
  rw [show ct_mp_nlimbs d.v_len - 1 + 1 = ct_mp_nlimbs d.v_len by omega]
  exact h.lt

theorem head_norm (h : d.Ok V) : B ≤ 2 * d.scaled_v_head := by
  rw [h.head]
  have hn := h.n_pos
  obtain ⟨m, hm⟩ : ∃ m, ct_mp_nlimbs d.v_len = m + 1 := ⟨_, (Nat.succ_pred_eq_of_pos hn).symm⟩
  have h1 := h.norm
  rw [hm] at h1 ⊢
  rw [Nat.add_sub_cancel]
  have h2 : 2 ^ (W - 1) ≤ V * 2 ^ d.scaling_shift / B ^ m := by
    rw [Nat.le_div_iff_mul_le (B_pow_pos _)]
    have : 2 * (2 ^ (W - 1) * B ^ m) ≤ 2 * (V * 2 ^ d.scaling_shift) := by
      rw [← Nat.mul_assoc, ← B_half, ← pow_succ']; exact h1
    omega
  have := B_half
  omega

theorem tail_lt (h : d.Ok V) : d.scaled_v_tail_head < B := by
  rw [h.tail]; split <;> [exact B_pos; exact dig_lt _ _]

theorem make_q_estimate_eq (h : d.Ok V) {u0 u1 u2 : ℕ} (h0 : u0 ≤ d.scaled_v_head) (h1 : u1 < B)
    (h2 : u2 < B) {q0 r0 q : ℕ} (hq0 : q0 < B)
    (hq : (u0 < d.scaled_v_head ∧ q0 = (u0 * B + u1) / d.scaled_v_head ∧
        r0 = (u0 * B + u1) % d.scaled_v_head) ∨
      (u0 = d.scaled_v_head ∧ q0 = B - 1 ∧ r0 = u1 + d.scaled_v_head))
    (hp : r0 < B ∧ r0 * B + u2 < q0 * d.scaled_v_tail_head → 0 < q0)
    (hqe : q = if r0 < B ∧ r0 * B + u2 < q0 * d.scaled_v_tail_head then q0 - 1 else q0) :
    d.make_q_estimate u0 u1 u2 = pure q := by
  have hh := h.head_lt
  have hn := h.head_norm
  have ht := h.tail_lt
  have hv := h.valid
  have hdv := h.divisor_v
  have hB := one_lt_B
  unfold CtMpDivisor.make_q_estimate
  generalize d.scaled_v_head = v1 at *
  generalize d.scaled_v_tail_head = v2 at *
  rw [ct_sub_l_l_eq (by omega) hh]
  dsimp only
  rw [from'_ite, M.pure_bind]
  have hu : (if v1 ≤ u0 then u0 - v1 else u0 + B - v1) < B := by split <;> omega
  rw [LimbChoice.select_ofBool hu (by omega)]
  have hsel : (if decide (u0 < v1) = true then u0 else if v1 ≤ u0 then u0 - v1 else u0 + B - v1)
      = if u0 < v1 then u0 else 0 := by
    by_cases hc : u0 < v1
    · simp [hc]
    · simp [hc, show v1 ≤ u0 by omega, show u0 - v1 = 0 by omega]
  rw [hsel]
  have huh : (if u0 < v1 then u0 else 0) < v1 := by split <;> omega
  rw [M.assert_eq huh, M.pure_bind, CtLDivisor.do_div_eq hv (by rw [hdv]; exact huh) h1, M.pure_bind]
  dsimp only
  have hq0z : (LimbChoice.ofBool (decide (u0 < v1))).unwrap ≠ 0 ∨ u0 = v1 := by
    by_cases hc : u0 < v1
    · left; simp [hc]
    · right; omega
  rw [M.assert_eq hq0z, M.pure_bind, LimbChoice.not_ofBool, hdv]
  have hqlt : ((if u0 < v1 then u0 else 0) * B + u1) / v1 < B := by
    rw [Nat.div_lt_iff_lt_mul (by omega)]
    have : ((if u0 < v1 then u0 else 0) + 1) * B ≤ v1 * B := Nat.mul_le_mul_right _ huh
    rw [Nat.add_mul, one_mul] at this
    rw [Nat.mul_comm B v1]; omega
  have hrlt : ((if u0 < v1 then u0 else 0) * B + u1) % v1 < B :=
    lt_trans (Nat.mod_lt _ (by omega)) hh
  rw [LimbChoice.select_ofBool hqlt lmax_lt, ct_add_l_l_eq h1 hh]
  dsimp only
  rw [LimbChoice.select_ofBool hrlt (Nat.mod_lt _ B_pos)]
  have hcy : (u1 + v1) / B = if B ≤ u1 + v1 then 1 else 0 := by
    split
    · rename_i hc
      exact Nat.div_eq_of_lt_le (by omega) (by omega)
    · exact Nat.div_eq_of_lt (by omega)
  have hcy1 : (u1 + v1) / B &&& bnot 1 = 0 := by
    rw [hcy]
    split
    · unfold bnot
      rw [Nat.one_and_eq_mod_two]
      have := B_half
      have := Nat.two_pow_pos (W - 1)
      omega
    · simp
  rw [M.assert_eq hcy1, M.pure_bind, hcy, from'_ite, M.pure_bind, LimbChoice.and_ofBool]
  have hQ : (if (!decide (u0 < v1)) = true then lmax
      else ((if u0 < v1 then u0 else 0) * B + u1) / v1) = q0 := by
    rcases hq with ⟨hc, rfl, -⟩ | ⟨hc, rfl, -⟩
    · simp [hc]
    · simp [hc, lmax]
  have hR : (if (!decide (u0 < v1)) = true then (u1 + v1) % B
      else ((if u0 < v1 then u0 else 0) * B + u1) % v1) = r0 % B := by
    rcases hq with ⟨hc, -, rfl⟩ | ⟨hc, -, rfl⟩
    · simp only [hc, decide_true, Bool.not_true, Bool.false_eq_true, if_false, if_true]
      rw [Nat.mod_eq_of_lt (lt_trans (Nat.mod_lt _ (by omega)) hh)]
    · simp [hc]
  have hC : ((!decide (u0 < v1)) && decide (B ≤ u1 + v1)) = decide (B ≤ r0) := by
    rcases hq with ⟨hc, -, rfl⟩ | ⟨hc, -, rfl⟩
    · have : ¬ B ≤ (u0 * B + u1) % v1 := by
        have := Nat.mod_lt (u0 * B + u1) (by omega : v1 > 0); omega
      simp [hc, this]
    · simp [hc]
  rw [hQ, hR, hC, ct_mul_l_l_eq ht hq0, M.pure_bind]
  dsimp only
  have hqv : v2 * q0 / B < B := by
    rw [Nat.div_lt_iff_lt_mul B_pos]
    exact Nat.mul_lt_mul_of_lt_of_lt ht hq0
  have hrB : r0 % B < B := Nat.mod_lt _ B_pos
  have hqvl : v2 * q0 % B < B := Nat.mod_lt _ B_pos
  rw [ct_gt_l_l_eq hqv hrB, ct_eq_l_l_eq hqv hrB, ct_gt_l_l_eq hqvl h2,
    LimbChoice.not_ofBool, LimbChoice.and_ofBool, LimbChoice.or_ofBool, LimbChoice.and_ofBool,
    LimbChoice.select_ofBool B_pos hB]
  have hdm := Nat.div_add_mod' (v2 * q0) B
  have hT : ((!decide (B ≤ r0)) && ((decide (v2 * q0 / B > r0 % B)) ||
      ((decide (v2 * q0 / B = r0 % B)) && decide (v2 * q0 % B > u2))))
      = decide (r0 < B ∧ r0 * B + u2 < q0 * v2) := by
    by_cases hr : B ≤ r0
    · simp [hr, show ¬ r0 < B by omega]
    · rw [Nat.mod_eq_of_lt (by omega : r0 < B)]
      simp only [hr, decide_false, Bool.not_false, Bool.true_and, show r0 < B by omega, true_and]
      rw [Bool.eq_iff_iff]
      simp only [Bool.or_eq_true, Bool.and_eq_true, decide_eq_true_eq]
      rw [Nat.mul_comm q0 v2]
      generalize hz : v2 * q0 = z at *
      generalize hx : z / B = x at *
      generalize z % B = y at *
      rw [← hdm]
      constructor
      · rintro (hc | ⟨rfl, hc⟩)
        · have := Nat.mul_le_mul_right B (show r0 + 1 ≤ x from hc)
          rw [Nat.add_mul, one_mul] at this
          omega
        · omega
      · intro hc
        by_contra hcc
        push Not at hcc
        rcases Nat.lt_or_eq_of_le hcc.1 with h5 | h5
        · have := Nat.mul_le_mul_right B (show x + 1 ≤ r0 from h5)
          rw [Nat.add_mul, one_mul] at this
          omega
        · have := hcc.2 h5
          subst h5
          omega
  rw [hT]
  by_cases hc : r0 < B ∧ r0 * B + u2 < q0 * v2
  · rw [if_pos hc] at hqe
    simp only [hc, and_self, decide_true, if_true]
    rw [M.sub_eq (hp hc), hqe]
  · rw [if_neg hc] at hqe
    simp only [hc, decide_false, Bool.false_eq_true, if_false]
    rw [M.sub_eq (Nat.zero_le _), hqe, Nat.sub_zero]

/-- The estimate is the quotient or one more. -/
theorem make_q_estimate_sat (h : d.Ok V) {U u0 u1 u2 : ℕ}
    (hU : U < V * 2 ^ d.scaling_shift * B)
    (hu0 : u0 = U / B ^ ct_mp_nlimbs d.v_len)
    (hu1 : u1 = U / B ^ (ct_mp_nlimbs d.v_len - 1) % B)
    (h2 : u2 < B) (hu2 : 2 ≤ ct_mp_nlimbs d.v_len → u2 = U / B ^ (ct_mp_nlimbs d.v_len - 2) % B) :
    Sat (d.make_q_estimate u0 u1 u2) (fun q => q < B ∧ U / (V * 2 ^ d.scaling_shift) ≤ q ∧
      q ≤ U / (V * 2 ^ d.scaling_shift) + 1) := by
  have hh := h.head_lt
  have hn := h.head_norm
  have ht := h.tail_lt
  have hu1B : u1 < B := hu1 ▸ dig_lt _ _
  -- the decomposition into limbs
  obtain ⟨P, vl, ul, hvl, hul, hlt, hdiv⟩ : ∃ P vl ul, vl < P ∧ ul < P ∧
      ((u0 * B + u1) * B + u2) * P + ul
        < ((d.scaled_v_head * B + d.scaled_v_tail_head) * P + vl) * B ∧
      (((u0 * B + u1) * B + u2) * P + ul) / ((d.scaled_v_head * B + d.scaled_v_tail_head) * P + vl)
        = U / (V * 2 ^ d.scaling_shift) := by
    have hnp := h.n_pos
    by_cases hn1 : ct_mp_nlimbs d.v_len = 1
    · refine ⟨1, 0, 0, by norm_num, by norm_num, ?_⟩
      have e1 := h.head
      have e2 := h.tail
      rw [hn1] at e1 hu0 hu1
      simp only [Nat.sub_self, pow_zero, Nat.div_one, pow_one] at e1 hu0 hu1
      rw [if_pos hn1] at e2
      rw [e2, hu0, hu1, Nat.div_add_mod', e1]
      simp only [Nat.add_zero, Nat.mul_one]
      constructor
      · have := Nat.mul_le_mul_right B (Nat.succ_le_of_lt hU)
        rw [Nat.succ_mul] at this
        omega
      · rw [Nat.mul_comm (V * 2 ^ d.scaling_shift) B, ← Nat.div_div_eq_div_mul, Nat.mul_comm U B,
          Nat.mul_add_div B_pos, Nat.div_eq_of_lt h2, Nat.add_zero]
    · obtain ⟨m, hm⟩ : ∃ m, ct_mp_nlimbs d.v_len = m + 2 := ⟨ct_mp_nlimbs d.v_len - 2, by omega⟩
      have e1 := h.head
      have e2 := h.tail
      have e3 := hu2 (by omega)
      rw [if_neg hn1] at e2
      rw [hm] at e1 e2 e3 hu0 hu1
      simp only [Nat.add_sub_cancel, show m + 2 - 1 = m + 1 by omega] at e1 e2 e3 hu1
      refine ⟨B ^ m, V * 2 ^ d.scaling_shift % B ^ m, U % B ^ m, mod_lt_pow _ _, mod_lt_pow _ _, ?_⟩
      have eU : ((u0 * B + u1) * B + u2) * B ^ m + U % B ^ m = U := by
        rw [hu0, hu1, e3]
        have a1 := div_succ U (m + 1)
        have a2 := div_succ U m
        have a3 := low_high U m
        rw [show U / B ^ (m + 2) * B + U / B ^ (m + 1) % B = U / B ^ (m + 1) by
          rw [Nat.mul_comm, Nat.add_comm]; exact a1.symm]
        rw [show U / B ^ (m + 1) * B + U / B ^ m % B = U / B ^ m by
          rw [Nat.mul_comm, Nat.add_comm]; exact a2.symm]
        rw [Nat.mul_comm, Nat.add_comm]; exact a3.symm
      have eV : (d.scaled_v_head * B + d.scaled_v_tail_head) * B ^ m
          + V * 2 ^ d.scaling_shift % B ^ m = V * 2 ^ d.scaling_shift := by
        rw [e1, e2]
        have a2 := div_succ (V * 2 ^ d.scaling_shift) m
        have a3 := low_high (V * 2 ^ d.scaling_shift) m
        rw [show V * 2 ^ d.scaling_shift / B ^ (m + 1) * B + V * 2 ^ d.scaling_shift / B ^ m % B
          = V * 2 ^ d.scaling_shift / B ^ m by
          rw [Nat.mul_comm, Nat.add_comm]; exact a2.symm]
        rw [Nat.mul_comm, Nat.add_comm]; exact a3.symm
      rw [eU, eV]
      exact ⟨hU, rfl⟩
  have hu0le := knuth_u0 ht hvl hlt
  obtain ⟨q0, r0, hq⟩ : ∃ q0 r0, (u0 < d.scaled_v_head ∧ q0 = (u0 * B + u1) / d.scaled_v_head ∧
        r0 = (u0 * B + u1) % d.scaled_v_head) ∨
      (u0 = d.scaled_v_head ∧ q0 = B - 1 ∧ r0 = u1 + d.scaled_v_head) := by
    rcases Nat.lt_or_eq_of_le hu0le with h5 | h5
    · exact ⟨_, _, Or.inl ⟨h5, rfl, rfl⟩⟩
    · exact ⟨_, _, Or.inr ⟨h5, rfl, rfl⟩⟩
  obtain ⟨k1, k2, k3, k4⟩ := knuth hh ht hn hu1B h2 hvl hul hlt hq rfl
  rw [hdiv] at k3 k4
  rw [h.make_q_estimate_eq hu0le hu1B h2 k1 hq k2 rfl]
  refine Sat.pure ⟨?_, k3, k4⟩
  split <;> omega

end CtMpDivisor.Ok
end Cmpa
