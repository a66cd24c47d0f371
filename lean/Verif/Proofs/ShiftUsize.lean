import Verif.Proofs.Shift
import Verif.Proofs.GcdUsize
import Verif.Proofs.Usize
import Verif.Model.ShiftUsize

/-!
# Shift distances, exponents and lengths in a bounded `usize`
-/

set_option linter.unusedSectionVars false

namespace Cmpa
variable [LimbCfg] {f g h : Fmt}

open M

theorem subU_eq (u : UsizeCfg) {a b : ℕ} (h : b ≤ a) : M.subU u a b = pure (a - b) := by
  unfold M.subU; rw [if_pos h]; rfl

theorem M.loopUp_congr {σ : Type} {F G : ℕ → σ → M σ} (n lo : ℕ) (s : σ)
    (h : ∀ i s, i < lo + n → F i s = G i s) : loopUp n lo s F = loopUp n lo s G := by
  induction n generalizing lo s with
  | zero => rfl
  | succ n ih =>
    unfold loopUp
    rw [h lo s (by omega)]
    congr 1
    funext _
    congr 1
    funext s'
    exact ih (lo + 1) s' fun i t hi => h i t (by omega)

theorem M.forRange_congr {σ : Type} {F G : ℕ → σ → M σ} (n : ℕ) (s : σ)
    (h : ∀ i s, i < n → F i s = G i s) : forRange 0 n s F = forRange 0 n s G :=
  M.loopUp_congr _ _ _ fun i s hi => h i s (by omega)

theorem M.forDown_congr {σ : Type} {F G : ℕ → σ → M σ} (n : ℕ) (s : σ)
    (h : ∀ i s, i < n → F i s = G i s) : forDown n s F = forDown n s G := by
  induction n generalizing s with
  | zero => rfl
  | succ n ih =>
    unfold forDown
    rw [h n s (by omega)]
    congr 1
    funext _
    congr 1
    funext s'
    exact ih s' fun i t hi => h i t (by omega)

theorem M.sub_bind_congr {α : Type} {a b : ℕ} {F G : ℕ → M α} (h : b ≤ a → F (a - b) = G (a - b)) :
    (M.sub a b >>= F) = (M.sub a b >>= G) := by
  unfold M.sub
  split
  · next hb => rw [mk_bind, mk_bind, h hb]
  · rfl

section
variable (u : UsizeCfg)

theorem usize_ge : 2 ^ 32 ≤ @B u.cfg := @B_ge u.cfg

theorem ct_gt_usize_usize_agrees {a b : ℕ} (ha : a < @B u.cfg) (hb : b < @B u.cfg) :
    ct_gt_usize_usize' u a b = pure (ct_gt_usize_usize a b) := ct_lt_usize_usize_agrees u hb ha

theorem ct_geq_usize_usize_agrees {a b : ℕ} (ha : a < @B u.cfg) (hb : b < @B u.cfg) :
    ct_geq_usize_usize' u a b = pure (ct_geq_usize_usize a b) := ct_leq_usize_usize_agrees u hb ha

theorem ct_mp_nlimbs'_eq {len : ℕ} (h : len + LB < @B u.cfg) : ct_mp_nlimbs' u len = pure (ct_mp_nlimbs len) := by
  unfold ct_mp_nlimbs'
  rw [addU_eq u h, M.pure_bind, subU_eq u (by have := LB_pos; omega), M.pure_bind]
  rfl

/-- Lengths for which the bits can be counted. -/
def BitsFit (len : ℕ) : Prop := 8 * len + W < @B u.cfg

theorem BitsFit.nlimbs {u : UsizeCfg} {len : ℕ} (h : BitsFit u len) : ct_mp_nlimbs len * W < @B u.cfg := by
  unfold BitsFit at h
  have h1 : ct_mp_nlimbs len * LB ≤ len + LB - 1 := by
    unfold ct_mp_nlimbs
    exact Nat.div_mul_le_self _ _
  have h2 : ct_mp_nlimbs len * W = 8 * (ct_mp_nlimbs len * LB) := by
    unfold W
    ring
  have h3 : W = 8 * LB := rfl
  omega

theorem ct_clear_bits_above_mp'_eq (a : Buf f) (d : ℕ) (hl : a.nlimbs ≤ @B u.cfg) (hd : d < @B u.cfg) :
    ct_clear_bits_above_mp' u a d = ct_clear_bits_above_mp a d := by
  unfold ct_clear_bits_above_mp' ct_clear_bits_above_mp
  dsimp only
  rw [M.forRange_congr (G := fun i (op0, next_mask) => do
    let is_first_limb := ct_eq_usize_usize i (d / W)
    let mask := is_first_limb.select next_mask (ct_lsb_mask_l (d % W))
    let next_mask := is_first_limb.select next_mask 0
    let val ← op0.load_l i
    let op0 ← op0.store_l i (val &&& mask)
    pure (op0, next_mask))]
  rintro i ⟨b, m⟩ hi
  dsimp only
  rw [ct_eq_usize_usize_agrees u (by omega) (lt_of_le_of_lt (Nat.div_le_self _ _) hd), M.pure_bind]

theorem ct_clear_bits_below_mp'_eq (a : Buf f) (d : ℕ) (hl : a.nlimbs ≤ @B u.cfg) (hd : d < @B u.cfg) :
    ct_clear_bits_below_mp' u a d = ct_clear_bits_below_mp a d := by
  unfold ct_clear_bits_below_mp' ct_clear_bits_below_mp
  dsimp only
  rw [M.forRange_congr (G := fun i (op0, next_mask) => do
    let is_last_limb := ct_eq_usize_usize i (d / W)
    let mask := is_last_limb.select next_mask (bnot (ct_lsb_mask_l (d % W)))
    let next_mask := is_last_limb.select next_mask lmax
    let val ← op0.load_l i
    let op0 ← op0.store_l i (val &&& mask)
    pure (op0, next_mask))]
  rintro i ⟨b, m⟩ hi
  dsimp only
  rw [ct_eq_usize_usize_agrees u (by omega) (lt_of_le_of_lt (Nat.div_le_self _ _) hd), M.pure_bind]

theorem wsubU_lt (a b : ℕ) : @wsub u.cfg a b < @B u.cfg := @Nat.mod_lt _ _ (@B_pos u.cfg)

theorem wsubU_eq {a b : ℕ} (ha : a < @B u.cfg) (h : b ≤ a) : @wsub u.cfg a b = a - b := by
  unfold wsub
  generalize @B u.cfg = c at *
  rw [show a + (c - b) = a - b + c by omega, Nat.add_mod_right, Nat.mod_eq_of_lt (by omega)]

/-- A selection in a `usize` is one of natural numbers, if the two agree on the number which is selected. -/
theorem sel_eq {c : Bool} {x y x' y' : ℕ} (hx : x < @B u.cfg) (hy : y < @B u.cfg) (h0 : c = false → x = x')
    (h1 : c = true → y = y') :
    (LimbChoice.ofBool c).select_usize' u x y = (LimbChoice.ofBool c).select_usize x' y' := by
  rw [select_usize'_ofBool u hx hy, LimbChoice.select_usize_ofBool]
  cases c
  · exact h0 rfl
  · exact h1 rfl

theorem ct_lshift_mp_out'_eq (a : Buf f) (d : ℕ) (hl : 0 < a.len) (hb : BitsFit u a.len) (hd : d < @B u.cfg) :
    ct_lshift_mp_out' u a (8 * a.len) d = ct_lshift_mp_out a d := by
  have hn := hb.nlimbs
  have hW := W_pos
  have hn0 : 0 < a.nlimbs := nlimbs_pos_iff.2 hl
  have hn1 : a.nlimbs ≤ a.nlimbs * W := Nat.le_mul_of_pos_right _ hW
  change a.nlimbs * W < _ at hn
  unfold BitsFit at hb
  have hdiv : ∀ x, x < @B u.cfg → x / W < @B u.cfg := fun x hx => lt_of_le_of_lt (Nat.div_le_self _ _) hx
  unfold ct_lshift_mp_out' ct_lshift_mp_out
  simp only []
  rw [ct_lt_usize_usize_agrees u (by omega) hd, M.pure_bind, ct_lt_usize_usize_eq,
    sel_eq u (x' := 8 * a.len - d) (y' := 0) (wsubU_lt u _ _) (by omega)
      (fun h => wsubU_eq u (by omega) (by simpa using h)) (fun _ => rfl)]
  generalize hs1 : (LimbChoice.ofBool (decide (8 * a.len < d))).select_usize (8 * a.len - d) 0 = s1
  have hs1' : s1 ≤ 8 * a.len := by
    rw [← hs1, LimbChoice.select_usize_ofBool]
    split <;> omega
  rw [ct_geq_usize_usize_agrees u (by omega) (by omega), M.pure_bind, ct_geq_usize_usize_eq,
    sel_eq u (x' := s1) (y' := 8 * a.len) (by omega) (by omega) (fun _ => rfl) (fun _ => rfl)]
  generalize hs2 : (LimbChoice.ofBool (decide (8 * a.len ≤ s1))).select_usize s1 (8 * a.len) = s2
  have hs2' : s2 ≤ 8 * a.len := by
    rw [← hs2, LimbChoice.select_usize_ofBool]
    split <;> omega
  rw [addU_eq u hb, M.pure_bind, ct_leq_usize_usize_agrees u hb hd, M.pure_bind, M.pure_bind, ct_leq_usize_usize_eq,
    sel_eq u (x' := 8 * a.len + W - d) (y' := 0) (wsubU_lt u _ _) (by omega)
      (fun h => wsubU_eq u (by omega) (by simp at h; omega)) (fun _ => rfl)]
  generalize hs3 : (LimbChoice.ofBool (decide (8 * a.len + W ≤ d))).select_usize (8 * a.len + W - d) 0 = s3
  have hs3' : s3 ≤ 8 * a.len + W ∧ (¬ 8 * a.len + W ≤ d → 0 < s3) := by
    rw [← hs3, LimbChoice.select_usize_ofBool]
    split <;> simp_all <;> omega
  rw [mulU_eq u hn, M.pure_bind, ct_gt_usize_usize_agrees u (by omega) hn, M.pure_bind, ct_gt_usize_usize_eq,
    sel_eq u (x' := s3) (y' := 8 * a.len) (by omega) (by omega) (fun _ => rfl) (fun _ => rfl)]
  generalize hs4 : (LimbChoice.ofBool (decide (a.nlimbs * W < s3))).select_usize s3 (8 * a.len) = s4
  have hs4' : s4 ≤ 8 * a.len + W ∧ (¬ 8 * a.len + W ≤ d → 0 < s4) := by
    rw [← hs4, LimbChoice.select_usize_ofBool]
    split
    · exact ⟨by omega, fun _ => by omega⟩
    · exact hs3'
  rw [subU_eq u hn0, M.pure_bind,
    sel_eq u (x' := s2 / W) (y' := a.nlimbs - 1) (hdiv _ (by omega)) (by omega) (fun _ => rfl) (fun _ => rfl),
    sel_eq u (x' := (s4 - 1) / W) (y' := 0) (hdiv _ (wsubU_lt u _ _)) (by omega)
      (fun h => by rw [wsubU_eq u (by omega) (hs4'.2 (by simpa using h))]) (fun _ => rfl),
    sel_eq u (x' := 0) (y' := d - 8 * a.len) (by omega) (wsubU_lt u _ _) (fun _ => rfl)
      (fun h => wsubU_eq u (by omega) (by simp at h; omega))]
  generalize hs5 : (LimbChoice.ofBool (decide (8 * a.len < d))).select_usize 0 (d - 8 * a.len) = s5
  have hs5' : s5 ≤ d := by
    rw [← hs5, LimbChoice.select_usize_ofBool]
    split <;> omega
  rw [sel_eq u (x' := s5) (y' := 0) (by omega) (by omega) (fun _ => rfl) (fun _ => rfl)]

theorem ct_rshift_mp_out'_eq (a : Buf f) (d : ℕ) (hl : 0 < a.len) (hn : a.nlimbs * W < @B u.cfg)
    (hb : 8 * a.len < @B u.cfg) (hd : d < @B u.cfg) :
    ct_rshift_mp_out' u a (8 * a.len) d = ct_rshift_mp_out a d := by
  have hW := W_pos
  have hn0 : 0 < a.nlimbs := nlimbs_pos_iff.2 hl
  have hn1 : a.nlimbs ≤ a.nlimbs * W := Nat.le_mul_of_pos_right _ hW
  have hW1 : W < @B u.cfg := lt_of_le_of_lt (Nat.le_mul_of_pos_left _ hn0) hn
  have hdiv : ∀ x, x < @B u.cfg → x / W < @B u.cfg := fun x hx => lt_of_le_of_lt (Nat.div_le_self _ _) hx
  unfold ct_rshift_mp_out' ct_rshift_mp_out
  simp only []
  rw [ct_lt_usize_usize_agrees u hd (by omega), M.pure_bind, ct_lt_usize_usize_eq,
    sel_eq u (x' := d - W) (y' := 0) (wsubU_lt u _ _) (by omega)
      (fun h => wsubU_eq u (by omega) (by simpa using h)) (fun _ => rfl)]
  generalize hs1 : (LimbChoice.ofBool (decide (d < W))).select_usize (d - W) 0 = s1
  have hs1' : s1 ≤ d := by
    rw [← hs1, LimbChoice.select_usize_ofBool]
    split <;> omega
  rw [ct_geq_usize_usize_agrees u (by omega) (by omega), M.pure_bind, ct_geq_usize_usize_eq,
    sel_eq u (x' := s1) (y' := 8 * a.len) (by omega) (by omega) (fun _ => rfl) (fun _ => rfl)]
  generalize hs2 : (LimbChoice.ofBool (decide (s1 ≥ 8 * a.len))).select_usize s1 (8 * a.len) = s2
  have hs2' : s2 < @B u.cfg := by
    rw [← hs2, LimbChoice.select_usize_ofBool]
    split <;> omega
  rw [mulU_eq u hn, M.pure_bind, ct_gt_usize_usize_agrees u (by omega) hn, M.pure_bind, ct_gt_usize_usize_eq,
    sel_eq u (x' := d) (y' := 8 * a.len) (by omega) (by omega) (fun _ => rfl) (fun _ => rfl)]
  generalize hs4 : (LimbChoice.ofBool (decide (d > a.nlimbs * W))).select_usize d (8 * a.len) = s4
  have hs4' : s4 < @B u.cfg ∧ (0 ≠ d → 0 < s4) := by
    rw [← hs4, LimbChoice.select_usize_ofBool]
    split
    · exact ⟨by omega, fun _ => by omega⟩
    · exact ⟨by omega, fun _ => by omega⟩
  rw [ct_eq_usize_usize_agrees u (by omega) hd, M.pure_bind, ct_eq_usize_usize_eq, subU_eq u hn0, M.pure_bind,
    sel_eq u (x' := s2 / W) (y' := a.nlimbs - 1) (hdiv _ (by omega)) (by omega) (fun _ => rfl) (fun _ => rfl),
    sel_eq u (x' := (s4 - 1) / W) (y' := 0) (hdiv _ (wsubU_lt u _ _)) (by omega)
      (fun h => by rw [wsubU_eq u (by omega) (hs4'.2 (by simpa using h))]) (fun _ => rfl),
    sel_eq u (x' := 0) (y' := W - d) (by omega) (wsubU_lt u _ _) (fun _ => rfl)
      (fun h => wsubU_eq u (by omega) (by simp at h; omega))]
  generalize hs5 : (LimbChoice.ofBool (decide (d < W))).select_usize 0 (W - d) = s5
  have hs5' : s5 ≤ W := by
    rw [← hs5, LimbChoice.select_usize_ofBool]
    split <;> omega
  rw [sel_eq u (x' := s5) (y' := 0) (by omega) (by omega) (fun _ => rfl) (fun _ => rfl)]

/-- The distance as capped. -/
theorem cap_eq (a : Buf f) (d : ℕ) :
    (LimbChoice.ofBool (decide (d > 8 * a.len))).select_usize d (8 * a.len) = min d (8 * a.len) := by
  rw [LimbChoice.select_usize_ofBool]
  by_cases h : d > 8 * a.len
  · rw [if_pos (by simpa using h)]
    omega
  · rw [if_neg (by simpa using h)]
    omega

theorem M.cond_congr {α : Type} {c : Prop} [Decidable c] {t t' e e' : M α} (ht : c → t = t') (he : ¬ c → e = e') :
    M.cond c t e = M.cond c t' e' := by
  by_cases h : c
  · rw [ht h]
    unfold M.cond branch
    rw [decide_eq_true h]
    rfl
  · rw [he h]
    unfold M.cond branch
    rw [decide_eq_false h]
    rfl

/-- `ct_lshift_mp` doesn't notice the size of `usize`, if the bits of the buffer can be counted. -/
theorem ct_lshift_mp'_eq (a : Buf f) (d : ℕ) (hb : BitsFit u a.len) (hd : d < @B u.cfg) :
    ct_lshift_mp' u a d = ct_lshift_mp a d := by
  have hb' : 8 * a.len + W < @B u.cfg := hb
  unfold ct_lshift_mp' ct_lshift_mp
  refine M.cond_congr (fun _ => rfl) fun he => ?_
  have hl : 0 < a.len := nlimbs_pos_iff.1 (nlimbs_pos_of_not_empty he)
  rw [mulU_eq u (by omega), M.pure_bind, ct_lshift_mp_out'_eq u a d hl hb hd]
  simp only []
  congr 1
  funext out
  rw [ct_gt_usize_usize_agrees u hd (by omega), M.pure_bind, ct_gt_usize_usize_eq,
    sel_eq u (x' := d) (y' := 8 * a.len) hd (by omega) (fun _ => rfl) (fun _ => rfl), cap_eq]
  have hcap : min d (8 * a.len) ≤ 8 * a.len := min_le_right _ _
  generalize min d (8 * a.len) = e at hcap ⊢
  have hLB := W_eq
  have hmod : e % W < W := Nat.mod_lt _ W_pos
  unfold ct_lshift_mp_rest'
  simp only [M.bind_assoc]
  rw [addU_eq u (by rcases W_cases with h | h <;> omega), M.pure_bind, ct_mp_nlimbs'_eq u (by omega), M.pure_bind,
    ct_eq_usize_usize_agrees u (by omega) (by omega)]
  simp only [M.pure_bind, ct_eq_usize_usize_eq]
  rw [sel_eq u (x' := W - e % W) (y' := 0) (by omega) (by omega) (fun _ => rfl) (fun _ => rfl)]

theorem len_le_nlimbs_mul_W (a : Buf f) : 8 * a.len ≤ a.nlimbs * W := by
  have h3 : a.nlimbs * W = 8 * (a.nlimbs * LB) := by
    unfold W
    ring
  have h1 : a.len ≤ a.nlimbs * LB := by
    show a.len ≤ (a.len + LB - 1) / LB * LB
    have h2 := Nat.div_add_mod (a.len + LB - 1) LB
    have h4 := Nat.mod_lt (a.len + LB - 1) LB_pos
    rw [Nat.mul_comm] at h2
    omega
  omega

/-- `ct_rshift_mp` doesn't notice the size of `usize`, if the bits of the limbs of the buffer can be counted. -/
theorem ct_rshift_mp'_eq (a : Buf f) (d : ℕ) (hn : a.nlimbs * W < @B u.cfg) (hd : d < @B u.cfg) :
    ct_rshift_mp' u a d = ct_rshift_mp a d := by
  have hb' := len_le_nlimbs_mul_W a
  unfold ct_rshift_mp' ct_rshift_mp
  refine M.cond_congr (fun _ => rfl) fun he => ?_
  have hl : 0 < a.len := nlimbs_pos_iff.1 (nlimbs_pos_of_not_empty he)
  have hW1 : W < @B u.cfg := lt_of_le_of_lt (Nat.le_mul_of_pos_left _ (nlimbs_pos_iff.2 hl)) hn
  rw [mulU_eq u (by omega), M.pure_bind, ct_rshift_mp_out'_eq u a d hl hn (by omega) hd]
  simp only []
  congr 1
  funext out
  rw [ct_gt_usize_usize_agrees u hd (by omega), M.pure_bind, ct_gt_usize_usize_eq,
    sel_eq u (x' := d) (y' := 8 * a.len) hd (by omega) (fun _ => rfl) (fun _ => rfl), cap_eq]
  generalize min d (8 * a.len) = e
  have hmod : e % W < W := Nat.mod_lt _ W_pos
  unfold ct_rshift_mp_rest'
  simp only [M.bind_assoc]
  rw [ct_eq_usize_usize_agrees u (by omega) (by omega)]
  simp only [M.pure_bind, ct_eq_usize_usize_eq]
  rw [sel_eq u (x' := W - e % W) (y' := 0) (by omega) (by omega) (fun _ => rfl) (fun _ => rfl)]

theorem LB_le : LB ≤ 8 := by
  rcases W_cases with h | h <;> have := W_eq <;> omega

theorem ct_mp_nlimbs'_panic {len : ℕ} (h : ¬ len + LB < @B u.cfg) : (ct_mp_nlimbs' u len).val = none := by
  unfold ct_mp_nlimbs'
  exact bind_panic (addU_panic u h)

theorem nlimbs_for_len'_eq {len : ℕ} (h : len + LB < @B u.cfg) :
    nlimbs_for_len' u len = pure (ct_mp_nlimbs len) := by
  unfold nlimbs_for_len'
  have h1 : ct_mp_nlimbs len * LB ≤ len + LB - 1 := Nat.div_mul_le_self _ _
  rw [ct_mp_nlimbs'_eq u h, M.pure_bind, mulU_eq u (by omega), M.pure_bind, Nat.mul_div_cancel _ LB_pos, Nat.mul_mod_left]
  rfl

/-- `ct_div_pow2_mp` doesn't notice the size of `usize` if the bits of the dividend can be counted. -/
theorem ct_div_pow2_mp'_eq (e : ℕ) (r : Buf f) (v : CtMpDivisor g) (q : Option (Buf h)) (he : e + 9 < @B u.cfg) :
    ct_div_pow2_mp' u e r v q = ct_div_pow2_mp e r v q := by
  have hB := usize_ge u
  have hLB := LB_le
  have hLB' := LB_pos
  unfold ct_div_pow2_mp' ct_div_pow2_mp
  rw [addU_eq u (by omega), M.pure_bind, addU_eq u (by omega), M.pure_bind, subU_eq u (by omega), M.pure_bind]
  simp only []
  have hl : 1 ≤ (e + 1 + 8 - 1) / 8 ∧ (e + 1 + 8 - 1) / 8 + 10 < @B u.cfg := by omega
  generalize (e + 1 + 8 - 1) / 8 = n at hl ⊢
  rw [ct_mp_nlimbs'_eq u (by omega), M.pure_bind]
  have hn : 1 ≤ ct_mp_nlimbs n := Nat.div_pos (by omega) hLB'
  refine M.cond_congr (fun _ => rfl) fun _ => M.cond_congr (fun _ => rfl) fun _ => ?_
  congr 1
  funext r1
  congr 1
  funext uh
  refine M.cond_congr (fun _ => ?_) fun hv => ?_
  · rw [subU_eq u hn, M.pure_bind]
  · rw [addU_eq u (by omega), M.pure_bind, subU_eq u (by omega), M.pure_bind, ct_mp_nlimbs'_eq u (by omega), M.pure_bind]

theorem ct_div_pow2_mp'_panic (e : ℕ) (r : Buf f) (v : CtMpDivisor g) (q : Option (Buf h)) (he : ¬ e + 9 < @B u.cfg) :
    (ct_div_pow2_mp' u e r v q).val = none := by
  unfold ct_div_pow2_mp'
  by_cases h1 : e + 1 < @B u.cfg
  · rw [addU_eq u h1, M.pure_bind]
    exact bind_panic (addU_panic u (by omega))
  · exact bind_panic (addU_panic u h1)

theorem ct_mod_pow2_mp'_eq (e : ℕ) (r : Buf f) (v : CtMpDivisor g) (he : e + 9 < @B u.cfg) :
    ct_mod_pow2_mp' u e r v = ct_mod_pow2_mp e r v := by
  unfold ct_mod_pow2_mp' ct_mod_pow2_mp
  rw [ct_div_pow2_mp'_eq u e r v _ he]
  rfl

theorem ct_mod_pow2_mp'_panic (e : ℕ) (r : Buf f) (v : CtMpDivisor g) (he : ¬ e + 9 < @B u.cfg) :
    (ct_mod_pow2_mp' u e r v).val = none := by
  unfold ct_mod_pow2_mp'
  exact bind_panic (ct_div_pow2_mp'_panic u e r v _ he)

/-- Lengths `m` of shifted dividends and `l` of divisors for which the limbs of the quotient can be counted. -/
def QuotFit (m l : ℕ) : Prop := m + 1 < @B u.cfg ∧ m + 1 - l + LB < @B u.cfg

/-- Up to the shift, the main part doesn't notice the size of `usize` if the limbs of the quotient can be counted. -/
theorem lshifted_main'_eq (op : Buf f) (n s : ℕ) (v : CtMpDivisor g) (q : Option (Buf h)) (hn : n ≤ op.len)
    (hv : v.v_len ≤ n + s) (hq : QuotFit u (n + s) v.v_len) (hb : BitsFit u op.len) :
    lshifted_main' u op n s (n + s) v q = lshifted_main op n s v q := by
  have hb' : 8 * op.len + W < @B u.cfg := hb
  have hLB := LB_le
  have hLB' := LB_pos
  have hW : W = 8 * LB := rfl
  have hB := usize_ge u
  unfold lshifted_main' lshifted_main
  rw [addU_eq u hq.1, M.pure_bind, subU_eq u (by omega), M.pure_bind, ct_mp_nlimbs'_eq u hq.2, M.pure_bind]
  congr 1
  funext q1
  have hm := Nat.mod_lt s hLB'
  have hm' := Nat.mod_le s LB
  have hsub : M.sub op.len n = pure (op.len - n) := if_pos hn
  dsimp only
  rw [subU_eq u hm', M.pure_bind, subU_eq u hn, M.pure_bind, hsub, M.pure_bind, addU_eq u (by omega), M.pure_bind,
    subU_eq u (by omega), M.pure_bind, addU_eq u (by omega), M.pure_bind, ct_mp_nlimbs'_eq u (by omega), M.pure_bind]
  have h1 : 1 ≤ ct_mp_nlimbs (op.len - n + LB - s % LB + 1) := Nat.div_pos (by omega) hLB'
  have h2 : ct_mp_nlimbs (op.len - n + LB - s % LB + 1) * LB ≤ op.len - n + LB - s % LB + 1 + LB - 1 :=
    Nat.div_mul_le_self _ _
  have hsub' : M.sub (ct_mp_nlimbs (op.len - n + LB - s % LB + 1)) 1 =
    pure (ct_mp_nlimbs (op.len - n + LB - s % LB + 1) - 1) := if_pos h1
  rw [subU_eq u h1, M.pure_bind, hsub', M.pure_bind]
  generalize ct_mp_nlimbs (op.len - n + LB - s % LB + 1) = k at h1 h2 ⊢
  have h3 : (k - 1) * LB + LB = k * LB := by
    rw [← Nat.succ_mul]
    congr 1
    omega
  have h4 : min ((k - 1) * LB) (s - s % LB) ≤ (k - 1) * LB := min_le_left _ _
  have h5 : min ((k - 1) * LB) (s - s % LB) ≤ s - s % LB := min_le_right _ _
  rw [mulU_eq u (by omega), M.pure_bind, addU_eq u (by omega), M.pure_bind]
  have h6 : min ((k - 1) * LB) (s - s % LB) + s % LB ≤ s := by omega
  have h7 : 8 * (min ((k - 1) * LB) (s - s % LB) + s % LB) < @B u.cfg := by omega
  have hsub2 : M.sub s (min ((k - 1) * LB) (s - s % LB) + s % LB) =
    pure (s - (min ((k - 1) * LB) (s - s % LB) + s % LB)) := if_pos h6
  rw [subU_eq u h6, hsub2, mulU_eq u h7, M.pure_bind, M.pure_bind, M.pure_bind, ct_lshift_mp'_eq u op _ hb h7]

/-- `ct_div_lshifted_mp_mp` doesn't notice the size of `usize` if the limbs of the quotient can be counted. -/
theorem ct_div_lshifted_mp_mp'_eq (op : Buf f) (n s : ℕ) (v : CtMpDivisor g) (q : Option (Buf h)) (hn : n ≤ op.len)
    (hq : QuotFit u (n + s) v.v_len) (hb : BitsFit u op.len) (hr : v.v_len ≤ op.len ∨ ¬ n + s < v.v_len) :
    ct_div_lshifted_mp_mp' u op n s v q = ct_div_lshifted_mp_mp op n s v q := by
  have hb' : 8 * op.len + W < @B u.cfg := hb
  unfold ct_div_lshifted_mp_mp' ct_div_lshifted_mp_mp
  congr 1
  funext _
  rw [addU_eq u (by have := hq.1; omega), M.pure_bind]
  refine M.cond_congr (fun _ => rfl) fun _ => M.cond_congr (fun _ => rfl) fun hr' => M.cond_congr (fun hv => ?_)
    fun hv => lshifted_main'_eq u op n s v q hn (Nat.not_lt.1 hv) hq hb
  have : 8 * s < @B u.cfg := by
    rcases hr with h | h
    · omega
    · exact absurd hv h
  rw [mulU_eq u this, M.pure_bind, ct_lshift_mp'_eq u _ _ hb this]

theorem ct_mod_lshifted_mp_mp'_eq (op : Buf f) (n s : ℕ) (v : CtMpDivisor g) (hn : n ≤ op.len)
    (hq : QuotFit u (n + s) v.v_len) (hb : BitsFit u op.len) (hr : v.v_len ≤ op.len ∨ ¬ n + s < v.v_len) :
    ct_mod_lshifted_mp_mp' u op n s v = ct_mod_lshifted_mp_mp op n s v := by
  unfold ct_mod_lshifted_mp_mp' ct_mod_lshifted_mp_mp
  rw [ct_div_lshifted_mp_mp'_eq u op n s v _ hn hq hb hr]
  rfl

/-- The limbs of the quotient can't be counted, and there is nothing else to complain about. -/
theorem ct_div_lshifted_mp_mp'_panic2 (op : Buf f) (n s : ℕ) (v : CtMpDivisor g) (q : Option (Buf h))
    (hq : ¬ QuotFit u (n + s) v.v_len) (hr : v.v_len ≤ op.len) (hv : v.v_len ≤ n + s)
    (hl : ∀ b ∈ q, n + s ≤ b.len + v.v_len) : (ct_div_lshifted_mp_mp' u op n s v q).val = none := by
  unfold ct_div_lshifted_mp_mp'
  refine bind_panic' fun _ => ?_
  by_cases hs : n + s < @B u.cfg
  · rw [addU_eq u hs, M.pure_bind]
    refine M.cond_panic (fun he => ?_) fun _ => M.cond_panic (fun he => ?_) fun _ => M.cond_panic (fun he => ?_) fun _ => ?_
    · obtain ⟨b, hb, h⟩ := he
      have := hl b hb
      omega
    · have := min_le_left v.v_len (n + s)
      omega
    · omega
    · unfold lshifted_main'
      by_cases h1 : n + s + 1 < @B u.cfg
      · rw [addU_eq u h1, M.pure_bind, subU_eq u (by omega), M.pure_bind]
        exact bind_panic (ct_mp_nlimbs'_panic u fun h2 => hq ⟨h1, h2⟩)
      · exact bind_panic (addU_panic u h1)
  · exact bind_panic (addU_panic u hs)

theorem ct_div_lshifted_mp_mp'_panic (op : Buf f) (n s : ℕ) (v : CtMpDivisor g) (q : Option (Buf h))
    (hs : ¬ n + s < @B u.cfg) : (ct_div_lshifted_mp_mp' u op n s v q).val = none := by
  unfold ct_div_lshifted_mp_mp'
  refine bind_panic' fun _ => bind_panic (addU_panic u hs)

theorem ct_lshift_mp'_panic (a : Buf f) (d : ℕ) (hl : 0 < a.len) (hb : ¬ BitsFit u a.len) (_ : d < @B u.cfg) :
    (ct_lshift_mp' u a d).val = none := by
  unfold BitsFit at hb
  unfold ct_lshift_mp'
  refine M.cond_panic (fun he => ?_) fun _ => ?_
  · have := (Buf.is_empty_iff a).1 he
    omega
  by_cases h8 : 8 * a.len < @B u.cfg
  · rw [mulU_eq u h8, M.pure_bind]
    refine bind_panic ?_
    unfold ct_lshift_mp_out'
    refine bind_panic' fun _ => ?_
    refine bind_panic' fun _ => ?_
    exact bind_panic (addU_panic u hb)
  · exact bind_panic (mulU_panic u h8)

theorem ct_rshift_mp'_panic (a : Buf f) (d : ℕ) (hl : 0 < a.len) (hn : ¬ a.nlimbs * W < @B u.cfg) :
    (ct_rshift_mp' u a d).val = none := by
  unfold ct_rshift_mp'
  refine M.cond_panic (fun he => ?_) fun _ => ?_
  · have := (Buf.is_empty_iff a).1 he
    omega
  by_cases h8 : 8 * a.len < @B u.cfg
  · rw [mulU_eq u h8, M.pure_bind]
    refine bind_panic ?_
    unfold ct_rshift_mp_out'
    refine bind_panic' fun _ => ?_
    refine bind_panic' fun _ => ?_
    exact bind_panic (mulU_panic u hn)
  · exact bind_panic (mulU_panic u h8)

/-! ## Release builds -/

theorem addU_rel (a b : ℕ) : RSat (M.addU u a b) (· = (a + b) % @B u.cfg) := by
  unfold M.addU M.addL
  split
  · next h => exact ⟨_, rfl, (Nat.mod_eq_of_lt h).symm⟩
  · exact ⟨_, rfl, rfl⟩

theorem mulU_rel (a b : ℕ) : RSat (M.mulU u a b) (· = a * b % @B u.cfg) := by
  unfold M.mulU M.mulL
  split
  · next h => exact ⟨_, rfl, (Nat.mod_eq_of_lt h).symm⟩
  · exact ⟨_, rfl, rfl⟩

theorem subU_rel (a b : ℕ) : RSat (M.subU u a b) (fun r => b ≤ a → r = a - b) := by
  unfold M.subU
  split
  · exact ⟨_, rfl, fun _ => rfl⟩
  · next h => exact ⟨_, rfl, fun h' => absurd h' h⟩

/-- If the number of bits wraps around to zero, a left shift by any distance computes something. -/
theorem ct_lshift_mp_out'_rel (a : Buf f) (d : ℕ) (hl : 8 * a.len = @B u.cfg) (hd : d < @B u.cfg) :
    RSat (ct_lshift_mp_out' u a 0 d) (fun _ => True) := by
  have hB := usize_ge u
  have hW := W_cases
  have hnW : a.nlimbs * W = @B u.cfg := by
    have h1 : W ∣ @B u.cfg := by
      unfold B
      rcases hW with h | h <;> rcases @W_cases u.cfg with h' | h' <;> rw [h, h'] <;> norm_num
    have h2 := len_le_nlimbs_mul_W a
    have h3 : a.nlimbs * W = 8 * (a.nlimbs * LB) := by
      unfold W
      ring
    have h4 : a.nlimbs * LB ≤ a.len + LB - 1 := Nat.div_mul_le_self _ _
    have h5 : W = 8 * LB := rfl
    obtain ⟨k, hk⟩ := h1
    have h6 : a.nlimbs * W < (k + 1) * W := by
      rw [Nat.add_mul, Nat.mul_comm k, ← hk]
      have := LB_pos
      omega
    have h7 : k ≤ a.nlimbs := by
      have : W * k ≤ W * a.nlimbs := by rw [Nat.mul_comm W a.nlimbs]; omega
      exact Nat.le_of_mul_le_mul_left this W_pos
    have h8 : a.nlimbs < k + 1 := Nat.lt_of_mul_lt_mul_right h6
    rw [hk, Nat.mul_comm W, show a.nlimbs = k by omega]
  have hn0 : 0 < a.nlimbs := by
    by_contra h
    rw [show a.nlimbs = 0 by omega] at hnW
    omega
  have hnB : a.nlimbs - 1 < @B u.cfg := by
    have : a.nlimbs ≤ a.nlimbs * W := Nat.le_mul_of_pos_right _ W_pos
    omega
  unfold ct_lshift_mp_out'
  simp only []
  rw [ct_lt_usize_usize_agrees u (by omega) hd, M.pure_bind, ct_lt_usize_usize_eq,
    select_usize'_ofBool u (wsubU_lt u _ _) (by omega)]
  have hs1 : (if decide (0 < d) = true then 0 else @wsub u.cfg 0 d) = 0 := by
    split
    · rfl
    · next h =>
      rw [show d = 0 by simpa using h, wsubU_eq u (by omega) (le_refl 0)]
  rw [hs1, ct_geq_usize_usize_agrees u (by omega) (by omega), M.pure_bind, ct_geq_usize_usize_eq,
    select_usize'_ofBool u (by omega) (by omega)]
  have hs2 : (if decide (0 ≥ 0) = true then 0 else 0) = 0 := by simp
  rw [hs2]
  have hWB : 0 + W < @B u.cfg := by rcases hW with h | h <;> omega
  rw [addU_eq u hWB, M.pure_bind, ct_leq_usize_usize_agrees u hWB hd, M.pure_bind, M.pure_bind,
    ct_leq_usize_usize_eq, select_usize'_ofBool u (wsubU_lt u _ _) (by omega)]
  generalize hs3 : (if decide (0 + W ≤ d) = true then 0 else @wsub u.cfg (0 + W) d) = s3
  have hs3' : s3 < @B u.cfg := by
    rw [← hs3]
    split
    · omega
    · exact wsubU_lt u _ _
  refine RSat.bind (mulU_rel u _ _) ?_
  rintro _ rfl
  rw [hnW, Nat.mod_self, ct_gt_usize_usize_agrees u hs3' (by omega), M.pure_bind, ct_gt_usize_usize_eq,
    select_usize'_ofBool u hs3' (by omega)]
  have hs4 : (if decide (s3 > 0) = true then 0 else s3) = 0 := by
    split
    · rfl
    · next h => simpa using h
  have hBW : (@B u.cfg - 1) / W = a.nlimbs - 1 := by
    rw [← hnW]
    obtain ⟨m, hm⟩ : ∃ m, a.nlimbs = m + 1 := ⟨a.nlimbs - 1, by omega⟩
    rw [hm, Nat.add_sub_cancel, Nat.div_eq_iff W_pos]
    have := W_pos
    rw [Nat.add_mul]
    omega
  have hw1 : @wsub u.cfg 0 1 = @B u.cfg - 1 := by
    unfold wsub
    rw [Nat.zero_add, Nat.mod_eq_of_lt (by omega)]
  rw [hs4, subU_eq u hn0, M.pure_bind, hw1, hBW, Nat.zero_div, Nat.zero_mod,
    select_usize'_ofBool u (by omega) hnB, if_pos (by simp), select_usize'_ofBool u hnB (by omega),
    select_usize'_ofBool u (by omega) (wsubU_lt u _ _)]
  have hw2 : @wsub u.cfg d 0 = d := wsubU_eq u hd (Nat.zero_le _)
  rw [hw2]
  refine RSat.bind (Sat.rel (a.sat_load_l (Q := fun _ => True) (by omega) trivial)) fun l _ => ?_
  rw [shrC_eq W_pos, M.pure_bind]
  refine RSat.bind (Sat.rel (a.sat_load_l (Q := fun _ => True) (by split <;> omega) trivial)) fun l _ => ?_
  rw [shlC_eq (Nat.mod_lt _ W_pos), M.pure_bind, select_usize'_ofBool u (by split <;> omega) (by omega), shlC_eq]
  · exact RSat.pure trivial
  · have := W_pos
    by_cases h1 : 0 + W ≤ d
    · rw [if_pos (by simpa using h1)]
      exact this
    · rw [if_neg (by simpa using h1)]
      split <;> omega

theorem ct_lshift_mp_rest'_zero (u' : UsizeCfg) (a : Buf f) : ct_lshift_mp_rest' u a 0 = ct_lshift_mp_rest' u' a 0 := by
  have h : ∀ u : UsizeCfg, 0 + 7 < @B u.cfg ∧ (0 + 7) / 8 + LB < @B u.cfg ∧ W < @B u.cfg := fun u => by
    have hB := usize_ge u
    have := LB_le
    rcases W_cases with h | h <;> omega
  unfold ct_lshift_mp_rest'
  simp only []
  rw [addU_eq u (h u).1, addU_eq u' (h u').1, M.pure_bind, M.pure_bind, ct_mp_nlimbs'_eq u (h u).2.1,
    ct_mp_nlimbs'_eq u' (h u').2.1, M.pure_bind, M.pure_bind, Nat.zero_mod,
    ct_eq_usize_usize_agrees u (a := 0) (b := 0) (@B_pos u.cfg) (@B_pos u.cfg),
    ct_eq_usize_usize_agrees u' (a := 0) (b := 0) (@B_pos u'.cfg) (@B_pos u'.cfg), M.pure_bind, M.pure_bind,
    ct_eq_usize_usize_eq 0 0]
  rw [sel_eq u (x := W - 0) (x' := W - 0) (y' := 0) (h u).2.2 (@B_pos u.cfg) (fun _ => rfl) (fun _ => rfl),
    sel_eq u' (x := W - 0) (x' := W - 0) (y' := 0) (h u').2.2 (@B_pos u'.cfg) (fun _ => rfl) (fun _ => rfl)]

/-- A left shift by no distance does nothing. -/
theorem ct_lshift_mp_rest'_zero_sat (u' : UsizeCfg) (a : Buf f) (hb : BitsFit u' a.len) (hl : 0 < a.len) :
    Sat (ct_lshift_mp_rest' u a 0) (fun a' => a'.len = a.len ∧ a'.toNat = a.toNat) := by
  have h1 : Sat (ct_lshift_mp' u' a 0) (fun p => p.1.len = a.len ∧ p.1.toNat = a.toNat) := by
    rw [ct_lshift_mp'_eq u' a 0 hb (lt_of_le_of_lt (Nat.zero_le _) hb)]
    refine (ct_lshift_mp_sat a 0).mono fun p hp => ⟨hp.1, ?_⟩
    rw [hp.2.1, pow_zero, Nat.mul_one, Nat.mod_eq_of_lt (by rw [← pow_256_eq]; exact a.toNat_lt)]
  have hb' : 8 * a.len + W < @B u'.cfg := hb
  rw [ct_lshift_mp_rest'_zero u u' a]
  obtain ⟨p, hp, hp'⟩ := h1
  unfold ct_lshift_mp' at hp
  rw [cond_val_neg (by rw [Buf.is_empty_iff]; omega), mulU_eq u' (by omega), M.pure_bind, bind_val] at hp
  obtain ⟨out, -, hp⟩ := Option.bind_eq_some_iff.1 hp
  rw [ct_gt_usize_usize_agrees u' (by omega) (by omega), M.pure_bind, ct_gt_usize_usize_eq, decide_eq_false (by omega)] at hp
  dsimp only at hp
  rw [select_usize'_ofBool u' (by omega) (by omega), if_neg (by simp), bind_val] at hp
  obtain ⟨a', ha', hp⟩ := Option.bind_eq_some_iff.1 hp
  cases hp
  exact ⟨a', ha', hp'⟩

/-- A left shift by any distance does nothing in a release build, if the number of bits wraps around to zero. -/
theorem ct_lshift_mp'_rel (u' : UsizeCfg) (a : Buf f) (d : ℕ) (hl : 8 * a.len = @B u.cfg) (hb : BitsFit u' a.len)
    (hd : d < @B u.cfg) :
    RSat (ct_lshift_mp' u a d) (fun p => p.1.len = a.len ∧ p.1.toNat = a.toNat) := by
  have hB := usize_ge u
  have hl0 : 0 < a.len := by omega
  unfold ct_lshift_mp'
  refine RSat.cond (fun he => ?_) fun _ => ?_
  · have := (Buf.is_empty_iff a).1 he
    omega
  refine RSat.bind (mulU_rel u _ _) ?_
  rintro _ rfl
  rw [hl, Nat.mod_self]
  refine RSat.bind (ct_lshift_mp_out'_rel u a d hl hd) fun out _ => ?_
  rw [ct_gt_usize_usize_agrees u hd (by omega), M.pure_bind, ct_gt_usize_usize_eq]
  dsimp only
  rw [select_usize'_ofBool u hd (by omega)]
  have h0 : (if decide (d > 0) = true then 0 else d) = 0 := by
    split
    · rfl
    · next h => simpa using h
  rw [h0]
  exact RSat.bind (ct_lshift_mp_rest'_zero_sat u u' a hb hl0).rel fun a' ha' => RSat.pure ha'

theorem nlimbs_for_len'_rel {len : ℕ} (h0 : len < @B u.cfg) (h : @B u.cfg < len + LB) :
    RSat (nlimbs_for_len' u len) (· = 0) := by
  have hB := usize_ge u
  have hLB := LB_le
  unfold nlimbs_for_len' ct_mp_nlimbs'
  rw [M.bind_assoc]
  refine RSat.bind (addU_rel u _ _) ?_
  rintro _ rfl
  rw [show len + LB = len + LB - @B u.cfg + @B u.cfg by omega, Nat.add_mod_right, Nat.mod_eq_of_lt (by omega),
    M.bind_assoc, subU_eq u (by omega), M.pure_bind, M.pure_bind, Nat.div_eq_of_lt (by omega), mulU_eq u (by omega),
    M.pure_bind]
  exact RSat.pure (by simp)

end
end Cmpa
