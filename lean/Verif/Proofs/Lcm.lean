import Verif.Model.Lcm
import Verif.Proofs.Gcd
import Verif.Proofs.MgPanic
import Verif.Proofs.DivMp
import Verif.Proofs.DivisorNew
import Verif.Proofs.Mul

/-!
# The least common multiple
-/

set_option linter.unusedSectionVars false

namespace Cmpa
variable [LimbCfg] {φ ψ χ : Fmt}

open M

/-- A limb of a right shifted number, assembled from two adjacent limbs. -/
theorem unscale_bits {s val last : ℕ} (hsW : s < W) (hv : val < B) :
    shl (last &&& ct_lsb_mask_l s) ((W - s) % W) ||| shr val s = (last * B + val) / 2 ^ s % B := by
  rw [and_mask hsW.le, shr_eq, shl_eq]
  by_cases h0 : s = 0
  · subst h0
    simp only [Nat.sub_zero, pow_zero, Nat.mod_one, zero_mul, Nat.zero_mod, Nat.div_one]
    rw [Nat.zero_or, Nat.mul_comm, Nat.mul_add_mod, Nat.mod_eq_of_lt hv]
  · rw [Nat.mod_eq_of_lt (by omega : W - s < W)]
    have hp : 0 < 2 ^ s := Nat.two_pow_pos s
    have hB : B = 2 ^ s * 2 ^ (W - s) := by rw [← pow_add, B_eq_two_pow]; congr 1; omega
    have h1 : val / 2 ^ s < 2 ^ (W - s) := by
      rw [Nat.div_lt_iff_lt_mul hp, Nat.mul_comm, ← hB]; exact hv
    have h2 : last % 2 ^ s < 2 ^ s := Nat.mod_lt _ hp
    have h3 : last % 2 ^ s * 2 ^ (W - s) + 2 ^ (W - s) ≤ B := by
      rw [hB, ← Nat.succ_mul]; exact Nat.mul_le_mul_right _ h2
    have hq : 0 < 2 ^ (W - s) := Nat.two_pow_pos _
    have h4 : last % 2 ^ s * 2 ^ (W - s) < B := by omega
    rw [Nat.mod_eq_of_lt h4, or_eq_add_of_lt h1]
    have h5 : last % 2 ^ s * 2 ^ (W - s) + val / 2 ^ s < B := by omega
    have e : (last * B + val) / 2 ^ s = last * 2 ^ (W - s) + val / 2 ^ s := by
      rw [hB, show last * (2 ^ s * 2 ^ (W - s)) + val = 2 ^ s * (last * 2 ^ (W - s)) + val by ring,
        Nat.mul_add_div hp]
    have e2 : last * 2 ^ (W - s) = last / 2 ^ s * B + last % 2 ^ s * 2 ^ (W - s) := by
      conv_lhs => rw [← Nat.div_add_mod' last (2 ^ s)]
      rw [hB]; ring
    rw [e, e2, Nat.add_assoc, Nat.mul_comm (last / 2 ^ s) B, Nat.mul_add_mod, Nat.mod_eq_of_lt h5]

/-- Dividing by a power of 256, in terms of limbs and bits. -/
theorem div_256_split (P S : ℕ) : P / 256 ^ S = P / B ^ (S / LB) / 2 ^ (8 * (S % LB)) := by
  rw [Nat.div_div_eq_div_mul]
  congr 1
  conv_lhs => rw [← Nat.div_add_mod S LB]
  rw [pow_add, pow_mul, ← B_eq_256_pow, ← pow_256_eq]

theorem lcm_limb (P S i : ℕ) :
    (P / B ^ (S / LB + i + 1) % B * B + P / B ^ (S / LB + i) % B) / 2 ^ (8 * (S % LB)) % B =
      P / 256 ^ S / B ^ i % B := by
  have hs : 8 * (S % LB) < W := by
    have := Nat.mod_lt S LB_pos
    unfold W; omega
  have := unscale_dig (P / B ^ (S / LB)) i hs
  rw [Nat.div_div_eq_div_mul, Nat.div_div_eq_div_mul P, ← pow_add, ← pow_add, ← Nat.add_assoc] at this
  rw [this, div_256_split]

theorem lcm_copy_high_sat (prod b : Buf χ) {g : ℕ} (hg0 : 0 < g) (hg : g ≤ prod.len)
    (hN : ct_mp_nlimbs g ≤ b.nlimbs) (hb : prod.toNat / 256 ^ (prod.len - g) < 256 ^ b.len) :
    Sat (lcm_copy_high prod b g) (fun b' => b'.len = b.len ∧
      b'.toNat = prod.toNat / 256 ^ (prod.len - g)) := by
  unfold lcm_copy_high
  dsimp only
  have hLB := LB_pos
  rw [M.assert_eq hN, M.pure_bind, M.sub_eq hg, M.pure_bind]
  set S := prod.len - g with hS
  have hr : 8 * (S % LB) < W := by
    have := Nat.mod_lt S LB_pos
    unfold W; omega
  have hidx : S / LB + ct_mp_nlimbs g ≤ prod.nlimbs := by
    rw [prod.nlimbs_eq, show prod.len = S + g by omega]
    unfold ct_mp_nlimbs
    rw [Nat.le_div_iff_mul_le hLB, Nat.add_mul]
    have h1 := Nat.div_mul_le_self S LB
    have h2 := Nat.div_mul_le_self (g + LB - 1) LB
    omega
  have hgn : 0 < ct_mp_nlimbs g := nlimbs_pos_iff.2 hg0
  rw [M.assert_eq hidx, M.pure_bind]
  refine Sat.bind (Buf.sat_load_l prod (by omega) (Q := fun v => v = prod.toNat / B ^ (S / LB) % B)
    rfl) ?_
  intro l0 hl0
  have hD : prod.toNat / 256 ^ S < 256 ^ g := by
    rw [Nat.div_lt_iff_lt_mul (by positivity), ← pow_add, show g + S = prod.len by omega]
    exact prod.toNat_lt
  refine Sat.bind (Sat.forRange (P := fun i s =>
    Low b (prod.toNat / 256 ^ S % B ^ i) i s.1 ∧ s.2 = prod.toNat / B ^ (S / LB + i) % B)
    (Nat.zero_le _) ⟨by simpa [Nat.mod_one] using Low.zero b, by simpa using hl0⟩ ?_) ?_
  · rintro i ⟨c, last⟩ - hi ⟨hc, hlast⟩
    dsimp only at hc hlast
    unfold lcm_copy_step
    dsimp only
    refine Sat.bind (P := fun v => v = prod.toNat / B ^ (S / LB + i + 1) % B) ?_ ?_
    · refine Sat.cond (fun h => ?_) fun h => ?_
      · exact Buf.sat_load_l prod h rfl
      · refine Sat.pure ?_
        rw [Nat.div_eq_of_lt, Nat.zero_mod]
        refine lt_of_lt_of_le prod.toNat_lt_B (Nat.pow_le_pow_right B_pos (by omega))
    intro nx hnx
    rw [shrC_eq hr, M.pure_bind, shlC_eq (Nat.mod_lt _ W_pos), M.pure_bind]
    have hbits := unscale_bits (last := nx) hr (show last < B by rw [hlast]; exact Nat.mod_lt _ B_pos)
    have hlimb := lcm_limb prod.toNat S i
    rw [← hlast, ← hnx, ← hbits] at hlimb
    rw [hlimb]
    refine Sat.bind (hc.sat_store (by omega) (Nat.mod_lt _ B_pos) ?_ (fun b' hb' => hb')) ?_
    · intro hlst
      refine lt_of_le_of_lt (Nat.mod_le _ _) ?_
      have h1 : i < ct_mp_nlimbs b.len := by rw [← Buf.nlimbs_eq]; omega
      have h2 := (pow_sub_bytes h1).2 (by rw [← Buf.nlimbs_eq]; exact hlst)
      rw [← h2, Nat.div_lt_iff_lt_mul (Nat.pow_pos B_pos), B_eq_256_pow, ← pow_mul, ← pow_add]
      refine lt_of_lt_of_le hb (Nat.pow_le_pow_right (by norm_num) ?_)
      rw [Nat.mul_comm]; omega
    · intro b' hb'
      refine Sat.pure ⟨?_, hnx⟩
      rwa [Nat.mod_pow_succ]
  rintro ⟨c, last⟩ ⟨hc, hlast⟩
  dsimp only at hc hlast ⊢
  have hBg : 256 ^ g ≤ B ^ ct_mp_nlimbs g := by
    rw [B_eq_256_pow, ← pow_mul, Nat.mul_comm]
    exact Nat.pow_le_pow_right (by norm_num) (le_nlimbs_mul g)
  rw [M.assertM_eq, M.pure_bind]
  swap
  · rw [shrC_eq hr, M.pure_bind]
    refine Sat.pure ?_
    simp only [decide_eq_true_eq]
    rw [shr_eq]
    have h1 : prod.toNat / B ^ (S / LB + ct_mp_nlimbs g) / 2 ^ (8 * (S % LB)) = 0 := by
      rw [pow_add, ← Nat.div_div_eq_div_mul, Nat.div_div_eq_div_mul (prod.toNat / _),
        Nat.mul_comm, ← Nat.div_div_eq_div_mul, ← div_256_split]
      exact Nat.div_eq_of_lt (by omega)
    have h2 := Nat.div_le_div_right (c := 2 ^ (8 * (S % LB))) (Nat.mod_le
      (prod.toNat / B ^ (S / LB + ct_mp_nlimbs g)) B)
    rw [h1] at h2
    rw [hlast]; exact Nat.le_zero.1 h2
  refine Buf.sat_clear_bytes_above c g ?_
  intro b' hl hv
  refine ⟨hl.trans hc.len, ?_⟩
  rw [hv, hc.toNat, Nat.mod_eq_of_lt (show prod.toNat / 256 ^ S < B ^ ct_mp_nlimbs g by omega)]
  obtain ⟨k, hk⟩ : 256 ^ g ∣ B ^ ct_mp_nlimbs g := by
    rw [B_eq_256_pow, ← pow_mul, Nat.mul_comm]
    exact pow_dvd_pow _ (le_nlimbs_mul g)
  rw [hk, Nat.mul_assoc, Nat.add_mul_mod_self_left, Nat.mod_eq_of_lt hD]

theorem align_le (b : Buf χ) {g : ℕ} (h : g ≤ b.len) : Buf._limbs_align_len χ g ≤ b.len := by
  unfold Buf._limbs_align_len
  split
  · exact h
  · rename_i hu
    rw [b.aligned (by simpa using hu), b.nlimbs_eq]
    exact Nat.mul_le_mul_right _ (nlimbs_mono h)

theorem align_min (b : Buf χ) (g : ℕ) :
    Buf._limbs_align_len χ (min g b.len) = min (Buf._limbs_align_len χ g) b.len := by
  rcases Nat.le_total g b.len with h | h
  · rw [min_eq_left h, min_eq_left (align_le b h)]
  · have h1 := align_le b (le_refl b.len)
    have h2 : ∀ n, n ≤ Buf._limbs_align_len χ n := fun n => by
      unfold Buf._limbs_align_len; split
      · exact le_refl _
      · exact le_nlimbs_mul _
    have h3 := h2 b.len
    have h4 := h2 g
    rw [min_eq_right h, min_eq_right (by omega)]; omega

/-- The division of the product `P` by the divisor `G`. -/
theorem lcm_divide_exact (result : Buf φ) (gcd : Buf ψ) (op1 prod : Buf χ) {g : ℕ} (hg0 : 0 < g)
    (hg : g ≤ prod.len) (h1 : ct_mp_nlimbs g ≤ op1.nlimbs)
    (h1' : prod.toNat / 256 ^ (prod.len - g) < 256 ^ op1.len) (h0 : g ≤ gcd.len) (hG : 0 < gcd.toNat)
    (hGg : gcd.toNat < 256 ^ g) (hdvd : gcd.toNat ∣ prod.toNat) (hr : prod.len ≤ result.len) :
    Exact (prod.len + min (Buf._limbs_align_len χ g) op1.len ≤ result.len + g)
      (lcm_divide result gcd op1 prod g) (fun r => r.len = result.len ∧ r.toNat = prod.toNat / gcd.toNat) := by
  unfold lcm_divide
  rw [M.assertM_eq, M.pure_bind]
  swap
  · refine Sat.bind (ct_is_zero_mp_sat gcd) ?_
    intro z hz
    refine Sat.pure ?_
    rw [hz]; simp [LimbChoice.unwrap_ofBool]; omega
  refine Sat.bindExact (ct_find_last_set_bit_mp_sat gcd) ?_
  rintro ⟨c, w⟩ hw
  obtain ⟨-, hw⟩ := Prod.mk.inj hw
  dsimp only
  have hw8 : w ≤ 8 * g := by
    rw [hw, Nat.size_le, ← pow_256_eq]; exact hGg
  have hw1 : gcd.toNat < 2 ^ w := by rw [hw]; exact Nat.lt_size_self _
  have hw0 : 0 < w := by rw [hw]; exact Nat.size_pos.2 hG
  have hw2 : 2 ^ (w - 1) ≤ gcd.toNat := by
    refine Nat.lt_size.1 ?_
    omega
  rw [M.sub_eq hw8, M.pure_bind]
  set sh := 8 * g - w with hsh
  refine Sat.bindExact (ct_lshift_mp_sat gcd sh) ?_
  rintro ⟨gc, x⟩ ⟨hgcl, hgcv, -⟩
  dsimp only at hgcl hgcv ⊢
  have hV : gcd.toNat * 2 ^ sh < 256 ^ g := by
    calc gcd.toNat * 2 ^ sh < 2 ^ w * 2 ^ sh := Nat.mul_lt_mul_of_pos_right hw1 (by positivity)
      _ = 256 ^ g := by rw [← pow_add, pow_256_eq]; congr 1; omega
  have hVlo : 256 ^ (g - 1) ≤ gcd.toNat * 2 ^ sh := by
    calc 256 ^ (g - 1) ≤ 2 ^ (w - 1) * 2 ^ sh := by
            rw [← pow_add, pow_256_eq]; exact Nat.pow_le_pow_right (by norm_num) (by omega)
      _ ≤ _ := Nat.mul_le_mul_right _ hw2
  rw [← pow_256_eq, Nat.mod_eq_of_lt (lt_of_lt_of_le hV (Nat.pow_le_pow_right (by norm_num) h0))]
    at hgcv
  refine Sat.bindExact (lcm_copy_high_sat prod op1 hg0 hg h1 h1') ?_
  rintro sp ⟨hspl, hspv⟩
  rw [M.sub_eq (by omega), M.pure_bind, show 8 * g - sh = w by omega]
  refine Sat.bindExact (ct_rshift_mp_sat sp w) ?_
  rintro ⟨sp2, x2⟩ ⟨hsp2l, hsp2v, -⟩
  dsimp only at hsp2l hsp2v ⊢
  -- the value of the high part
  have hhigh : sp2.toNat = prod.toNat * 2 ^ sh / 256 ^ prod.len := by
    rw [hsp2v, hspv, Nat.div_div_eq_div_mul, pow_256_eq, ← pow_add, pow_256_eq,
      show 8 * prod.len = (8 * (prod.len - g) + w) + sh by omega,
      pow_add 2 (8 * (prod.len - g) + w) sh, Nat.mul_div_mul_right _ _ (Nat.two_pow_pos _)]
  have hhlt : sp2.toNat < 256 ^ g := by
    rw [hsp2v]
    refine lt_of_le_of_lt (Nat.div_le_self _ _) ?_
    rw [hspv, Nat.div_lt_iff_lt_mul (by positivity), ← pow_add, show g + (prod.len - g) = prod.len by omega]
    exact prod.toNat_lt
  refine Sat.bindExact (Buf.sat_shrink_to sp2 hhlt) ?_
  rintro ⟨sp3, rest⟩ ⟨h3l, h3v, -, -, -⟩
  dsimp only at h3l h3v ⊢
  rw [align_min, hsp2l, hspl] at h3l
  refine Sat.bindExact (ct_lshift_mp_sat prod sh) ?_
  rintro ⟨lo, x3⟩ ⟨hlol, hlov, -⟩
  dsimp only at hlol hlov ⊢
  rw [← pow_256_eq] at hlov
  have hVpos : 0 < gc.toNat := by rw [hgcv]; positivity
  refine Sat.bindExact (CtMpDivisor.new_sat gc none (by simp) (fun _ _ => hVpos.ne')) ?_
  rintro o ⟨-, ho⟩
  obtain ⟨d, rfl, hd, -, -⟩ := ho (by simpa using hVpos)
  simp only [Option.getD_none, Nat.sub_zero] at hd
  rw [show M.ofOption (some d) = pure d from rfl, M.pure_bind]
  have hvl : d.v_len = g := by
    have e1 := lt_of_le_of_lt hd.lo (hgcv ▸ hV)
    have e2 := lt_of_le_of_lt hVlo (hgcv ▸ hd.hi)
    have e3 := (Nat.pow_lt_pow_iff_right (by norm_num : 1 < 256)).1 e1
    have e4 := (Nat.pow_lt_pow_iff_right (by norm_num : 1 < 256)).1 e2
    have := hd.len_pos
    omega
  have hU : prod.toNat * 2 ^ sh = lo.toNat + 256 ^ lo.len * ((some sp3).map Buf.toNat).getD 0 := by
    simp only [Option.map_some, Option.getD_some]
    rw [h3v, hhigh, hlov, hlol, Nat.mod_add_div]
  have hQ : prod.toNat * 2 ^ sh / gc.toNat = prod.toNat / gcd.toNat := by
    rw [hgcv, Nat.mul_div_mul_right _ _ (Nat.two_pow_pos _)]
  have hR : prod.toNat * 2 ^ sh % gc.toNat = 0 := by
    rw [hgcv]; exact Nat.mod_eq_zero_of_dvd (Nat.mul_dvd_mul_right hdvd _)
  have hQlt : prod.toNat / gcd.toNat < 256 ^ result.len :=
    lt_of_le_of_lt (Nat.div_le_self _ _) (lt_of_lt_of_le prod.toNat_lt
      (Nat.pow_le_pow_right (by norm_num) hr))
  have hdiv := ct_div_mp_mp_sat hd (some sp3) lo (some result) hU
    (show prod.len + min (Buf._limbs_align_len χ g) op1.len = _ by simp [hlol, h3l])
    (fun b hb => Or.inl (by
      rw [Option.mem_some_iff.1 hb] at hQlt; rw [hQ]; exact hQlt))
  have hdiv' : Exact (prod.len + min (Buf._limbs_align_len χ g) op1.len ≤ result.len + g)
      (unwrapE (ct_div_mp_mp (some sp3) lo d (some result))) (fun r =>
      r.2.1.toNat + 256 ^ lo.len * (r.1.map Buf.toNat).getD 0 = 0 ∧
      r.2.2.map Buf.len = some result.len ∧
      ∀ b ∈ r.2.2, b.toNat = prod.toNat / gcd.toNat) := by
    refine ⟨fun hr' => ?_, fun hr' => unwrapE_panic fun a ha => ?_⟩
    swap
    · refine ⟨.InsufficientQuotientSpace, ?_⟩
      unfold ct_div_mp_mp at ha
      rw [cond_val_pos] at ha
      · exact (Option.some.inj ha).symm
      · refine ⟨result, rfl, ?_⟩
        simp only [Option.getD_some]
        rw [hvl, hlol, h3l]
        omega
    unfold unwrapE
    refine Sat.bind hdiv ?_
    rintro (er | r) hr
    · obtain ⟨-, b, hb, h⟩ := hr
      rw [Option.mem_some_iff.1 hb] at hQlt hr'
      rw [hvl] at h
      exfalso
      rcases h with h | h
      · omega
      · rw [hQ] at h
        have := pow_len_le b.len
        rw [← Buf.nlimbs_eq] at this
        omega
    · obtain ⟨-, -, e1, e2, e3⟩ := hr
      rw [hR] at e1
      refine Sat.pure ⟨e1, e2, ?_⟩
      rw [← hQ]; exact e3
  refine (hdiv'.bind (S' := True) ?_).congr ⟨fun h => h.1, fun h => ⟨h, trivial⟩⟩
  rintro ⟨rh, rl, q⟩ - ⟨e1, e2, e3⟩
  refine Sat.exact ?_
  dsimp only at e1 e2 e3 ⊢
  have hrl : rl.toNat = 0 := by omega
  have hrh : (rh.getD (Buf.zeros χ 0)).toNat = 0 := by
    cases rh with
    | none => exact Buf.zeros_toNat _ _
    | some b =>
      simp only [Option.map_some, Option.getD_some] at e1 ⊢
      have hp : 0 < 256 ^ lo.len := by positivity
      have : 256 ^ lo.len * b.toNat = 0 := by omega
      rcases Nat.mul_eq_zero.1 this with h | h
      · omega
      · exact h
  rw [M.assertM_eq, M.pure_bind]
  swap
  · refine Sat.bind (ct_is_zero_mp_sat rl) ?_
    intro z hz
    refine Sat.pure ?_
    rw [hz]; simp [LimbChoice.unwrap_ofBool, hrl]
  rw [M.assertM_eq, M.pure_bind]
  swap
  · refine Sat.bind (ct_is_zero_mp_sat _) ?_
    intro z hz
    refine Sat.pure ?_
    rw [hz]; simp [LimbChoice.unwrap_ofBool, hrh]
  cases q with
  | none => simp at e2
  | some b =>
    refine Sat.pure ⟨by simpa using e2, e3 b rfl⟩

/-! ### The function -/

theorem le_of_backing {b : Buf χ} {n : ℕ}
    (h : ¬ b.backing_len < Buf.n_backing_elements_for_len χ n) : n ≤ b.len := by
  unfold Buf.backing_len Buf.n_backing_elements_for_len at h
  dsimp only at h
  have hu : 0 < χ.usz := by cases χ <;> first | exact Nat.one_pos | exact LB_pos
  have hn : n ≤ Buf._limbs_align_len χ n := by
    cases χ
    · exact le_refl _
    · exact le_refl _
    · exact le_nlimbs_mul _
  generalize Buf._limbs_align_len χ n = m at h hn
  have h1 := Nat.div_add_mod m χ.usz
  have h2 := Nat.div_mul_le_self b.len χ.usz
  have h3 := Nat.mod_lt m hu
  have h4 : (m / χ.usz + if m % χ.usz ≠ 0 then 1 else 0) * χ.usz ≤ b.len / χ.usz * χ.usz :=
    Nat.mul_le_mul_right _ (by omega)
  rw [Nat.add_mul, Nat.mul_comm] at h4
  split at h4
  · omega
  · rename_i hz
    push Not at hz
    omega

theorem backing_lt_bytes (b : Buf χ) (n : ℕ) (h : χ.unaligned = true) :
    b.backing_len < Buf.n_backing_elements_for_len χ n ↔ b.len < n := by
  have hu : χ.usz = 1 := by
    cases χ <;> first | rfl | exact absurd h (by simp [Fmt.unaligned])
  unfold Buf.backing_len Buf.n_backing_elements_for_len Buf._limbs_align_len
  dsimp only
  rw [hu, if_pos h, Nat.div_one, Nat.div_one, Nat.mod_one, if_neg (by simp), Nat.add_zero]

theorem backing_lt_limbs (b : Buf .ne) (n : ℕ) :
    b.backing_len < Buf.n_backing_elements_for_len .ne n ↔ b.len < n := by
  have hLB := LB_pos
  unfold Buf.backing_len Buf.n_backing_elements_for_len Buf._limbs_align_len ct_mp_limbs_align_len
  dsimp only
  have hu : Fmt.ne.usz = LB := rfl
  rw [hu, if_neg (by simp [Fmt.unaligned]), Nat.mul_mod_left, if_neg (by simp),
    Nat.mul_div_cancel _ hLB, Nat.add_zero, b.aligned rfl, Nat.mul_div_cancel _ hLB]
  have h1 := le_nlimbs_mul n
  constructor
  · intro h
    by_contra hc
    have h2 : n ≤ b.nlimbs * LB := by omega
    have h3 := nlimbs_mono h2
    rw [nlimbs_mul] at h3
    omega
  · intro h
    by_contra hc
    have h2 := Nat.mul_le_mul_right LB (Nat.not_lt.1 hc)
    omega

/-- The room the function needs beyond what it checks for, if the second operand is in limbs: the
length of the product is to be a multiple of the limb size, and the result is to have room
for the excess of rounding up the operand length. -/
def LcmRoom (χ : Fmt) (prod_len g result_len : ℕ) : Prop :=
  χ.unaligned = true ∨
    (LB ∣ prod_len ∧ prod_len + ct_mp_limbs_align_len g ≤ result_len + g)

/-- The error reported. -/
def lcmErr (result : Buf φ) (op0 : Buf ψ) (n0 : ℕ) (op1 : Buf χ) (n1 : ℕ) (scratch : Buf χ) :
    Option LcmError :=
  if n0 = 0 ∨ n1 = 0 then none
  else if ¬ LenCompat op0 op1.len ∨ ¬ LenCompat op1 op0.len then some .InconsistentOperandLengths
  else if result.len < n0 + n1 then some .InsufficientResultSpace
  else if scratch.backing_len < Buf.n_backing_elements_for_len χ (n0 + n1) then
    some .InsufficientScratchSpace
  else none

theorem gcdVal_pos (a b : ℕ) : 0 < gcdVal a b := by
  unfold gcdVal; split
  · exact Nat.one_pos
  · rename_i h
    rcases Nat.eq_zero_or_pos (Nat.gcd a b) with h' | h'
    · exact absurd (Nat.gcd_eq_zero_iff.1 h') h
    · exact h'

theorem gcdVal_dvd (a b : ℕ) : gcdVal a b ∣ a * b := by
  unfold gcdVal; split
  · exact one_dvd _
  · exact Dvd.dvd.mul_right (Nat.gcd_dvd_left a b) b

theorem mul_div_gcdVal (a b : ℕ) : a * b / gcdVal a b = Nat.lcm a b := by
  unfold gcdVal; split
  · rename_i h; rw [h.1, h.2]; rfl
  · rfl

theorem gcdVal_lt {a b n m : ℕ} (h0 : a < 256 ^ n) (h1 : b < 256 ^ m) (hn : 0 < n) :
    gcdVal a b < 256 ^ max n m := by
  have e0 : 256 ^ n ≤ 256 ^ max n m := Nat.pow_le_pow_right (by norm_num) (le_max_left _ _)
  have e1 : 256 ^ m ≤ 256 ^ max n m := Nat.pow_le_pow_right (by norm_num) (le_max_right _ _)
  unfold gcdVal; split
  · have : 256 ^ 1 ≤ 256 ^ n := Nat.pow_le_pow_right (by norm_num) hn
    omega
  · rename_i h
    rcases Nat.eq_zero_or_pos a with ha | ha
    · subst ha
      rw [Nat.gcd_zero_left]; omega
    · have := Nat.gcd_le_left b ha
      omega

theorem Buf.take_exact (b : Buf χ) {n : ℕ} (hn : n ≤ b.len) :
    Exact (χ.unaligned = true ∨ LB ∣ n) (b.take n) (fun s => s.2.len = n) := by
  constructor
  · intro h
    obtain ⟨hi, pr, etake, hprl, -⟩ := Buf.take_eq b hn h
    rw [etake]; exact M.sat_mk.2 hprl
  · intro h
    obtain ⟨h1, h2⟩ := not_or.1 h
    rcases b with l | l | l
    · exact absurd rfl h1
    · exact absurd rfl h1
    · unfold Buf.take
      refine bind_panic' fun _ => bind_panic (assert_panic fun h3 => h2 (Nat.dvd_of_mod_eq_zero h3))

/-- What the function needs beyond what it checks for. -/
def LcmOk (result : Buf φ) (op0 : Buf ψ) (n0 : ℕ) (op1 : Buf χ) (n1 : ℕ) (scratch : Buf χ) : Prop :=
  n0 ≠ 0 → n1 ≠ 0 → LenCompat op0 op1.len → LenCompat op1 op0.len → op0.len = op1.len ∧
    (n0 + n1 ≤ result.len → ¬ scratch.backing_len < Buf.n_backing_elements_for_len χ (n0 + n1) →
      LcmRoom χ (n0 + n1) (max n0 n1) result.len)

/-- The part of the function working on the space `p0` for the product. -/
theorem lcm_prod_exact (result : Buf φ) (op0 : Buf ψ) (op1 p0 : Buf χ) {n0 n1 : ℕ}
    (h0' : op0.toNat < 256 ^ n0) (h1' : op1.toNat < 256 ^ n1) (hz0 : n0 ≠ 0) (hz1 : n1 ≠ 0)
    (hcc : LenCompat op0 op1.len ∧ LenCompat op1 op0.len)
    (hg0 : max n0 n1 ≤ op0.len) (hg1 : n1 ≤ op1.len) (hN : ct_mp_nlimbs (max n0 n1) ≤ op1.nlimbs)
    (hP : op0.toNat * op1.toNat / 256 ^ (p0.len - max n0 n1) < 256 ^ op1.len)
    (hp0 : n0 + n1 ≤ p0.len) (hres : p0.len ≤ result.len) :
    Exact (p0.len + min (Buf._limbs_align_len χ (max n0 n1)) op1.len ≤ result.len + max n0 n1)
      (do
        let prod ← p0.copy_from op0
        let (op1_low, _) ← op1.shrink_to n1
        let prod ← ct_mul_trunc_mp_mp prod n0 op1_low
        let (gcd, op1) ← unwrapE (ct_gcd_mp_mp op0 op1)
        let result ← lcm_divide result gcd op1 prod (max n0 n1)
        pure (Except.ok (ε := LcmError) result))
      (fun r => ∃ b, r = .ok b ∧ b.len = result.len ∧ b.toNat = Nat.lcm op0.toNat op1.toNat) := by
  have hn0l : n0 ≤ op0.len := by omega
  have hn1l : n1 ≤ op1.len := by omega
  refine Sat.bindExact (Buf.copy_from_sat p0 op0 (by
    exact lt_of_lt_of_le h0' (Nat.pow_le_pow_right (by norm_num) (by omega)))) ?_
  rintro p1 ⟨hp1l, hp1v⟩
  refine Sat.bindExact (Buf.sat_shrink_to op1 h1') ?_
  rintro ⟨lo, rest⟩ ⟨-, hlov, -, -, -⟩
  dsimp only at hlov ⊢
  refine Sat.bindExact (ct_mul_trunc_mp_mp_sat p1 n0 lo (by omega)) ?_
  rintro p2 ⟨hp2l, hp2v⟩
  have hp2 : p2.toNat = op0.toNat * op1.toNat := by
    rw [hp2v, hp1v, hlov, Nat.mod_eq_of_lt h0', Nat.mod_eq_of_lt]
    refine lt_of_lt_of_le (Nat.mul_lt_mul'' h0' h1') ?_
    rw [← pow_add]
    exact Nat.pow_le_pow_right (by norm_num) (by omega)
  have hp2l' : p2.len = p0.len := by omega
  refine Sat.bindExact (unwrapE_sat (ct_gcd_mp_mp_sat op0 op1) ?_) ?_
  · unfold gcdErr
    rw [if_neg (by omega), if_neg (not_or.2 ⟨not_not.2 hcc.1, not_not.2 hcc.2⟩)]
  rintro ⟨gc, o1⟩ ⟨hgl, hol, hgv, -⟩
  dsimp only at hgl hol hgv ⊢
  have hg := gcdVal_lt h0' h1' (by omega : 0 < n0)
  refine ((lcm_divide_exact result gc o1 p2 (g := max n0 n1) (by omega) (by omega)
    (by rw [o1.nlimbs_eq, hol, ← op1.nlimbs_eq]; exact hN) (by rw [hp2, hp2l', hol]; exact hP)
    (by omega) (by rw [hgv]; exact gcdVal_pos _ _) (by rw [hgv]; exact hg)
    (by rw [hgv, hp2]; exact gcdVal_dvd _ _) (by omega)).bind (S' := True) ?_).congr
    ⟨fun h => by rw [← hp2l', ← hol]; exact h.1, fun h => ⟨by rw [hp2l', hol]; exact h, trivial⟩⟩
  rintro r - ⟨hrl, hrv⟩
  refine Sat.exact ?_
  refine Sat.pure ⟨_, rfl, hrl, ?_⟩
  rw [hrv, hp2, hgv, mul_div_gcdVal]

/-- The part of the function behind its assertion, for declared lengths not exceeding either operand. -/
theorem lcm_rest_exact (result : Buf φ) (op0 : Buf ψ) (op1 : Buf χ) (scratch : Buf χ) {n0 n1 : ℕ}
    (h0' : op0.toNat < 256 ^ n0) (h1' : op1.toNat < 256 ^ n1) (hz0 : n0 ≠ 0) (hz1 : n1 ≠ 0)
    (hcc : LenCompat op0 op1.len ∧ LenCompat op1 op0.len)
    (hg0 : max n0 n1 ≤ op0.len) (hg1 : max n0 n1 ≤ op1.len) :
    Exact (result.len < n0 + n1 ∨ scratch.backing_len <
      Buf.n_backing_elements_for_len χ (n0 + n1) ∨ LcmRoom χ (n0 + n1) (max n0 n1) result.len)
      (M.cond (result.len < n0 + n1) (pure (.error .InsufficientResultSpace)) do
        let prod_len := n0 + n1
        M.cond (scratch.backing_len < Buf.n_backing_elements_for_len χ prod_len)
          (pure (.error .InsufficientScratchSpace)) do
        let (_, prod) ← scratch.take prod_len
        let prod ← prod.copy_from op0
        let (op1_low, _) ← op1.shrink_to n1
        let prod ← ct_mul_trunc_mp_mp prod n0 op1_low
        let (gcd, op1) ← unwrapE (ct_gcd_mp_mp op0 op1)
        let result ← lcm_divide result gcd op1 prod (max n0 n1)
        pure (.ok result))
      (Outcome (if result.len < n0 + n1 then some LcmError.InsufficientResultSpace
        else if scratch.backing_len < Buf.n_backing_elements_for_len χ (n0 + n1) then
          some .InsufficientScratchSpace else none) (fun r => r.len = result.len ∧
        r.toNat = Nat.lcm op0.toNat op1.toNat)) := by
  refine Exact.cond (fun h => ?_) fun hres => ?_
  · rw [if_pos h]
    refine (Sat.exact (Sat.pure ?_)).congr ⟨fun _ => Or.inl h, fun _ => trivial⟩
    rfl
  rw [if_neg hres]
  refine Exact.cond (fun h => ?_) fun hscr => ?_
  · rw [if_pos h]
    refine (Sat.exact (Sat.pure ?_)).congr ⟨fun _ => Or.inr (Or.inl h), fun _ => trivial⟩
    rfl
  rw [if_neg hscr]
  have hscr' := le_of_backing hscr
  refine ((Buf.take_exact scratch hscr').bind
    (S' := n0 + n1 + Buf._limbs_align_len χ (max n0 n1) ≤ result.len + max n0 n1) ?_).congr ?_
  swap
  · constructor
    · rintro ⟨h1, h2⟩
      refine Or.inr (Or.inr ?_)
      by_cases hu : χ.unaligned = true
      · exact Or.inl hu
      · refine Or.inr ⟨h1.resolve_left hu, ?_⟩
        cases χ
        · exact absurd rfl hu
        · exact absurd rfl hu
        · exact h2
    · rintro (h1 | h1 | h1 | ⟨h1, h2⟩)
      · exact absurd h1 hres
      · exact absurd h1 hscr
      · refine ⟨Or.inl h1, ?_⟩
        have : Buf._limbs_align_len χ (max n0 n1) = max n0 n1 := by
          cases χ <;> first | rfl | exact absurd h1 (by simp [Fmt.unaligned])
        omega
      · refine ⟨Or.inr h1, ?_⟩
        have : Buf._limbs_align_len χ (max n0 n1) ≤ ct_mp_limbs_align_len (max n0 n1) := by
          cases χ
          · exact le_nlimbs_mul _
          · exact le_nlimbs_mul _
          · exact le_refl _
        omega
  rintro ⟨ph, p0⟩ - hp0
  dsimp only at hp0 ⊢
  refine (lcm_prod_exact result op0 op1 p0 h0' h1' hz0 hz1 hcc hg0 (by omega)
    (by rw [op1.nlimbs_eq]; exact nlimbs_mono hg1) ?_ (by omega) (by omega)).congr ?_ |>.mono ?_
  · rw [Nat.div_lt_iff_lt_mul (by positivity), ← pow_add]
    refine lt_of_lt_of_le (Nat.mul_lt_mul'' h0' h1') ?_
    rw [← pow_add]
    exact Nat.pow_le_pow_right (by norm_num) (by omega)
  · rw [hp0, min_eq_left (align_le op1 hg1)]
  rintro r ⟨b, rfl, h⟩
  exact ⟨rfl, h⟩

theorem ct_lcm_mp_mp_exact (result : Buf φ) (op0 : Buf ψ) (m0 : ℕ) (op1 : Buf χ) (m1 : ℕ)
    (scratch : Buf χ) {n0 n1 : ℕ} (hn0 : n0 = min m0 op0.len) (hn1 : n1 = min m1 op1.len)
    (h0 : op0.toNat < 256 ^ m0) (h1 : op1.toNat < 256 ^ m1) :
    Exact (LcmOk result op0 n0 op1 n1 scratch) (ct_lcm_mp_mp result op0 m0 op1 m1 scratch)
      (Outcome (lcmErr result op0 n0 op1 n1 scratch) (fun r => r.len = result.len ∧
        r.toNat = Nat.lcm op0.toNat op1.toNat)) := by
  unfold ct_lcm_mp_mp
  dsimp only
  rw [← hn0, ← hn1]
  have h0' : op0.toNat < 256 ^ n0 := by
    rcases Nat.le_total m0 op0.len with h | h
    · rwa [hn0, min_eq_left h]
    · rw [hn0, min_eq_right h]; exact op0.toNat_lt
  have h1' : op1.toNat < 256 ^ n1 := by
    rcases Nat.le_total m1 op1.len with h | h
    · rwa [hn1, min_eq_left h]
    · rw [hn1, min_eq_right h]; exact op1.toNat_lt
  unfold LcmOk
  refine Exact.cond (fun hz => ?_) fun hz => ?_
  · refine (Sat.exact ?_).congr (by simp only [true_iff]; intro h1 h2; omega)
    refine Sat.bind (Buf.sat_clear_bytes_above result 0 (fun b' e1 e2 => And.intro e1 e2)) ?_
    rintro r ⟨e1, e2⟩
    refine Sat.pure ⟨by unfold lcmErr; rw [if_pos hz], e1, ?_⟩
    rw [e2, pow_zero, Nat.mod_one]
    rcases hz with hz | hz
    · rw [hz, pow_zero, Nat.lt_one_iff] at h0'
      rw [h0', Nat.lcm_zero_left]
    · rw [hz, pow_zero, Nat.lt_one_iff] at h1'
      rw [h1', Nat.lcm_zero_right]
  obtain ⟨hz0, hz1⟩ := not_or.1 hz
  unfold lcmErr
  rw [if_neg hz]
  refine Sat.bindExact (len_is_compatible_with_sat op0 op1.len) ?_
  rintro c0 hc0
  refine Sat.bindExact (P := fun c1 => c1 = decide (LenCompat op0 op1.len ∧ LenCompat op1 op0.len)) ?_ ?_
  · refine Sat.cond (fun h => ?_) fun h => Sat.pure ?_
    · have : LenCompat op0 op1.len := by simpa [hc0] using h
      refine (len_is_compatible_with_sat op1 op0.len).mono ?_
      rintro c hc
      simp [hc, this]
    · have : ¬ LenCompat op0 op1.len := by simpa [hc0] using h
      simp [this]
  rintro c1 hc1
  refine Exact.cond (fun h => ?_) fun h => ?_
  · have h' : ¬ (LenCompat op0 op1.len ∧ LenCompat op1 op0.len) := by simpa [hc1] using h
    refine (Sat.exact (Sat.pure ?_)).congr
      ⟨fun _ _ _ h1 h2 => absurd ⟨h1, h2⟩ h', fun _ => trivial⟩
    rw [if_pos (by by_contra hc; push Not at hc; exact h' hc)]
    rfl
  have hcc : LenCompat op0 op1.len ∧ LenCompat op1 op0.len := by simpa [hc1] using h
  rw [if_neg (not_or.2 ⟨not_not.2 hcc.1, not_not.2 hcc.2⟩)]
  refine (Exact.assert (S' := result.len < n0 + n1 ∨ scratch.backing_len <
      Buf.n_backing_elements_for_len χ (n0 + n1) ∨ LcmRoom χ (n0 + n1) (max n0 n1) result.len)
    fun hll => ?_).congr ⟨fun h _ _ _ _ => ⟨h.1, fun h1 h2 => ?_⟩,
      fun h => ⟨(h hz0 hz1 hcc.1 hcc.2).1, ?_⟩⟩
  rotate_left
  · rcases h.2 with h3 | h3 | h3
    · omega
    · exact absurd h3 h2
    · exact h3
  · by_cases h1 : result.len < n0 + n1
    · exact Or.inl h1
    · by_cases h2 : scratch.backing_len < Buf.n_backing_elements_for_len χ (n0 + n1)
      · exact Or.inr (Or.inl h2)
      · exact Or.inr (Or.inr ((h hz0 hz1 hcc.1 hcc.2).2 (by omega) h2))
  exact lcm_rest_exact result op0 op1 scratch h0' h1' hz0 hz1 hcc (by omega) (by omega)

theorem ct_lcm_mp_mp_sat (result : Buf φ) (op0 : Buf ψ) (m0 : ℕ) (op1 : Buf χ) (m1 : ℕ)
    (scratch : Buf χ) {n0 n1 : ℕ} (hn0 : n0 = min m0 op0.len) (hn1 : n1 = min m1 op1.len)
    (h0 : op0.toNat < 256 ^ m0) (h1 : op1.toNat < 256 ^ m1)
    (hl : LenCompat op0 op1.len → LenCompat op1 op0.len → n0 ≠ 0 → n1 ≠ 0 → op0.len = op1.len)
    (hroom : lcmErr result op0 n0 op1 n1 scratch = none → n0 ≠ 0 → n1 ≠ 0 →
      LcmRoom χ (n0 + n1) (max n0 n1) result.len) :
    Sat (ct_lcm_mp_mp result op0 m0 op1 m1 scratch)
      (Outcome (lcmErr result op0 n0 op1 n1 scratch) (fun r => r.len = result.len ∧
        r.toNat = Nat.lcm op0.toNat op1.toNat)) := by
  refine (ct_lcm_mp_mp_exact result op0 m0 op1 m1 scratch hn0 hn1 h0 h1).sat ?_
  intro z0 z1 c0 c1
  refine ⟨hl c0 c1 z0 z1, fun h2 h3 => hroom ?_ z0 z1⟩
  unfold lcmErr
  rw [if_neg (by omega), if_neg (not_or.2 ⟨not_not.2 c0, not_not.2 c1⟩), if_neg (by omega), if_neg h3]

end Cmpa
