import Verif.Proofs.BufCopy
import Verif.Proofs.DivRelease

/-!
# Copying a value that doesn't fit
-/

namespace Cmpa
open M
variable [LimbCfg] {f g : Fmt}

theorem fits_panic {α : Type} (src : Buf g) {n : ℕ} (h : 256 ^ n ≤ src.toNat) (k : Unit → M α) :
    (M.assertM (do let k ← find_last_set_byte_mp src; pure (decide (k ≤ n))) >>= k).val = none := by
  refine M.bind_panic ?_
  have hs : Sat (do let k ← find_last_set_byte_mp src; pure (decide (k ≤ n))) (fun b => b = false) := by
    refine Sat.bind (find_last_set_byte_mp_sat src) ?_
    rintro _ rfl
    refine Sat.pure (decide_eq_false fun h3 => ?_)
    have := (isByteLen_size _).le.1 h3
    omega
  obtain ⟨b, hb, h1⟩ := hs
  unfold M.assertM
  subst h1
  rw [hb]
  rfl

theorem full_digit {x n i : ℕ} (h : i * LB + LB ≤ n) : x % 256 ^ n / B ^ i % B = x / B ^ i % B := by
  have hd : B ^ i * B ∣ 256 ^ n := by
    rw [← pow_succ, ← pow_256]
    exact pow_dvd_pow _ (by rw [Nat.succ_mul]; exact h)
  rw [← Nat.mod_mul_right_div_self, ← Nat.mod_mul_right_div_self, Nat.mod_mod_of_dvd _ hd]

theorem part_digit {x n i : ℕ} (h : i * LB ≤ n) (h' : n < i * LB + LB) :
    x / B ^ i % B % 256 ^ (n - i * LB) = x % 256 ^ n / B ^ i % B := by
  have hd : 256 ^ (n - i * LB) ∣ B := by
    rw [B_eq_256_pow]; exact pow_dvd_pow _ (by omega)
  have e : 256 ^ n = B ^ i * 256 ^ (n - i * LB) := by
    rw [← pow_256, ← pow_add]; congr 1; omega
  rw [Nat.mod_mod_of_dvd _ hd, e, Nat.mod_mul_right_div_self, Nat.mod_eq_of_lt
    (lt_of_lt_of_le (Nat.mod_lt _ (by positivity)) (Nat.le_of_dvd B_pos hd))]

theorem Buf.store_l_low_digit (b : Buf f) (x : ℕ) {i : ℕ} (hi : i < b.nlimbs) {Q : Buf f → Prop}
    (h : RSat (b.store_l i (x % 256 ^ b.len / B ^ i % B)) Q) : RSat (b.store_l i (x / B ^ i % B)) Q := by
  by_cases h1 : i * LB + LB ≤ b.len
  · rwa [full_digit h1] at h
  · have hlt := hi
    rw [Buf.nlimbs_eq, lt_nlimbs_iff] at hlt
    obtain ⟨a, ha, hQ⟩ := h
    refine ⟨a, ?_, hQ⟩
    rw [Buf.store_l_trunc b _ hi (by omega), ← ha, part_digit (by omega) (by omega)]

/-- A release build copies as many bytes as there is room for. -/
theorem Buf.copy_from_rsat (b : Buf f) (src : Buf g) :
    RSat (b.copy_from src) (fun b' => b'.len = b.len ∧ b'.toNat = src.toNat % 256 ^ b.len) := by
  unfold Buf.copy_from
  dsimp only
  refine RSat.bind (P := fun _ => True) (RSat.assertM trivial) fun _ _ => ?_
  have hy : src.toNat % 256 ^ b.len < 256 ^ b.len := Nat.mod_lt _ (by positivity)
  refine RSat.cond (fun hs => ?_) fun hs => ?_
  · refine (b.sat_clear_bytes_above _ fun b' h1 h2 => ⟨h1, ?_⟩).rel
    have := src.toNat_lt_B
    rw [hs, pow_zero] at this
    rw [h2, pow_zero, Nat.mod_one, show src.toNat = 0 by omega, Nat.zero_mod]
  refine RSat.cond (fun hd => ?_) fun hd => ?_
  · have h0 : b.len = 0 := nlimbs_zero_iff.1 hd
    have := b.toNat_lt
    rw [h0, pow_zero] at this
    exact RSat.pure ⟨rfl, by rw [h0, pow_zero, Nat.mod_one]; omega⟩
  have hs0 : 0 < src.len := nlimbs_pos_iff.1 (Nat.pos_of_ne_zero hs)
  have hd0 : 0 < b.len := nlimbs_pos_iff.1 (Nat.pos_of_ne_zero hd)
  set m := min src.nlimbs b.nlimbs with hm
  have hm1 : m ≤ src.nlimbs := min_le_left _ _
  have hm2 : m ≤ b.nlimbs := min_le_right _ _
  have hm0 : 0 < m := lt_min (Nat.pos_of_ne_zero hs) (Nat.pos_of_ne_zero hd)
  set y := src.toNat % 256 ^ b.len with hyd
  refine RSat.bind (P := Upto b y (m - 1)) (Sat.rel ?_) ?_
  · refine Sat.forRange (P := fun i b' => Upto b y i b') (Nat.zero_le _) (Upto.zero _ _) ?_
    rintro i b' - hi hU
    refine Sat.bind (src.sat_load_l_full (full_of_lt_pred (by rw [← Buf.nlimbs_eq]; omega))
      (Q := fun v => v = src.toNat / B ^ i % B) rfl) ?_
    rintro _ rfl
    have hf : i * LB + LB ≤ b.len := full_of_lt_pred (by rw [← Buf.nlimbs_eq]; omega)
    exact hU.sat_store_full hf (full_digit hf).symm fun _ h => h
  · intro b' hU
    refine RSat.bind (src.sat_load_l (i := m - 1) (by omega)
      (Q := fun v => v = src.toNat / B ^ (m - 1) % B) rfl).rel ?_
    rintro _ rfl
    refine RSat.bind (P := fun _ => True) (RSat.assert trivial) fun _ _ => ?_
    refine RSat.bind (P := Upto b y (m - 1 + 1)) ?_ ?_
    · refine Buf.store_l_low_digit b' _ (by rw [hU.nlimbs]; omega) ?_
      rw [hU.len, ← hyd]
      exact (hU.sat_store (by omega) hy rfl fun _ h => h).rel
    rw [Nat.sub_add_cancel hm0]
    intro b'' hU
    refine (b''.sat_clear_bytes_above _ fun b3 h1 h2 => ⟨h1.trans hU.len, ?_⟩).rel
    rw [h2]
    have hys : y ≤ src.toNat := Nat.mod_le _ _
    have hsl := src.toNat_lt
    by_cases hc : b.nlimbs ≤ src.nlimbs
    · have hmb : m = b.nlimbs := by omega
      have := hU.final (by omega) (by rw [hmb]; exact lt_B_pow_of_lt hy)
      rw [this, Nat.mod_eq_of_lt (by omega)]
    · have hms : m = src.nlimbs := by omega
      have h3 := hU.2.1
      rw [hms] at h3
      have hdvd : 256 ^ src.len ∣ B ^ src.nlimbs := by
        rw [← pow_256]; exact pow_dvd_pow _ (le_nlimbs_mul _)
      rw [← Nat.mod_mod_of_dvd b''.toNat hdvd, h3, Nat.mod_mod_of_dvd _ hdvd,
        Nat.mod_eq_of_lt (by omega)]

/-- So does a conditional copy. -/
theorem Buf.copy_from_cond_rsat (b : Buf f) (src : Buf g) (c : Bool) (hl : b.len ≤ src.len) :
    RSat (b.copy_from_cond src (.ofBool c)) (fun b' => b'.len = b.len ∧
      b'.toNat = if c then src.toNat % 256 ^ b.len else b.toNat) := by
  unfold Buf.copy_from_cond
  dsimp only
  refine RSat.bind (P := fun _ => True) (RSat.assertM trivial) fun _ _ => ?_
  have hcl : ∀ b' : Buf f, b'.len = b.len → Sat (b'.clear_bytes_above_cond src.len (.ofBool c))
      (fun x => x = b') := fun b' hl' => b'.clear_bytes_above_cond_noop _ _ (by rw [hl']; exact .inr hl)
  have hzero : b.len = 0 → b.toNat = if c = true then src.toNat % 256 ^ b.len else b.toNat := fun h0 => by
    have h1 := b.toNat_lt
    rw [h0, pow_zero] at h1
    rw [h0, pow_zero, Nat.mod_one]
    split <;> omega
  refine RSat.cond (fun hs => ?_) fun hs => ?_
  · have h0 : src.len = 0 := nlimbs_zero_iff.1 hs
    have := hcl b rfl
    rw [h0] at this
    refine this.rel.mono ?_
    intro b' hb'; subst b'
    exact ⟨rfl, hzero (by omega)⟩
  refine RSat.cond (fun hd => ?_) fun hd => ?_
  · exact RSat.pure ⟨rfl, hzero (nlimbs_zero_iff.1 hd)⟩
  set m := min src.nlimbs b.nlimbs with hm
  have hmb : m = b.nlimbs := min_eq_right (nlimbs_mono hl)
  have hm1 : m ≤ src.nlimbs := min_le_left _ _
  have hm0 : 0 < m := lt_min (Nat.pos_of_ne_zero hs) (Nat.pos_of_ne_zero hd)
  set x := if c = true then src.toNat else b.toNat with hx
  have hxy : (if c = true then src.toNat % 256 ^ b.len else b.toNat) = x % 256 ^ b.len := by
    rw [hx]; split
    · rfl
    · exact (Nat.mod_eq_of_lt b.toNat_lt).symm
  rw [hxy]
  have hsel : ∀ i, (LimbChoice.ofBool c).select (b.toNat / B ^ i % B) (src.toNat / B ^ i % B)
      = x / B ^ i % B := fun i => by
    rw [LimbChoice.select_ofBool (dig_lt _ _) (dig_lt _ _), hx]; split <;> rfl
  have hy : x % 256 ^ b.len < 256 ^ b.len := Nat.mod_lt _ (by positivity)
  clear_value x
  clear hx
  set y := x % 256 ^ b.len with hyd
  refine RSat.bind (P := Upto b y (m - 1)) (Sat.rel ?_) ?_
  · refine Sat.forRange (P := fun i b' => Upto b y i b') (Nat.zero_le _) (Upto.zero _ _) ?_
    rintro i b' - hi hU
    have hfull := full_of_lt_pred (i := i) (n := b.len) (by rw [← Buf.nlimbs_eq]; omega)
    refine Sat.bind (hU.sat_load_full hfull le_rfl (Q := fun v => v = b.toNat / B ^ i % B) rfl) ?_
    rintro _ rfl
    refine Sat.bind (src.sat_load_l_full (full_of_lt_pred (by rw [← Buf.nlimbs_eq]; omega))
      (Q := fun v => v = src.toNat / B ^ i % B) rfl) ?_
    rintro _ rfl
    exact hU.sat_store_full hfull ((hsel i).trans (full_digit hfull).symm) fun _ h => h
  · intro b' hU
    refine RSat.bind (hU.sat_load (j := m - 1) (by omega) le_rfl
      (Q := fun v => v = b.toNat / B ^ (m - 1) % B) rfl).rel ?_
    rintro _ rfl
    refine RSat.bind (src.sat_load_l (i := m - 1) (by omega)
      (Q := fun v => v = src.toNat / B ^ (m - 1) % B) rfl).rel ?_
    rintro _ rfl
    rw [hsel]
    refine RSat.bind (P := fun _ => True) (RSat.assert trivial) fun _ _ => ?_
    refine RSat.bind (P := Upto b y (m - 1 + 1)) ?_ ?_
    · refine Buf.store_l_low_digit b' _ (by rw [hU.nlimbs]; omega) ?_
      rw [hU.len, ← hyd]
      exact (hU.sat_store (by omega) hy rfl fun _ h => h).rel
    rw [Nat.sub_add_cancel hm0]
    intro b'' hU
    refine (hcl b'' hU.len).rel.mono ?_
    intro b3 hb3; subst hb3
    exact ⟨hU.len, hU.final (by omega) (by rw [hmb]; exact lt_B_pow_of_lt hy)⟩

end Cmpa
