import Verif.Proofs.Panic
import Verif.Proofs.BufBits

/-!
# Copying, conditional operations on whole buffers, native integers
-/

set_option linter.unusedSectionVars false

namespace Cmpa
variable [LimbCfg] {f g : Fmt}

open M

/-- Storing a limb into a buffer with too few bytes for it. -/
theorem Buf.store_l_high_panic (b : Buf f) {i v : ℕ} (hi : i < b.nlimbs)
    (hlt : b.len - i * LB < LB) (hf : 256 ^ (b.len - i * LB) ≤ v) : (b.store_l i v).val = none := by
  rw [Buf.nlimbs_eq, lt_nlimbs_iff] at hi
  have hs : ∀ k, 256 ^ k ≤ v → ¬ shr v (8 * k) = 0 := by
    intro k hk
    rw [shr_eq, two_pow_8]
    exact (Nat.div_pos hk (by positivity)).ne'
  rcases b with l | l | l <;> simp only [Buf.store_l] <;> refine M.bind_panic' fun _ => M.bind_panic ?_
  · rw [Buf.len_be] at hi hf hlt
    unfold be_mp_store_l
    refine M.bind_panic' fun _ => ?_
    rw [M.sub_eq (by omega), M.pure_bind, if_neg (by omega)]
    exact M.bind_panic (M.assert_panic (hs _ hf))
  · rw [Buf.len_le] at hi hf hlt
    unfold le_mp_store_l
    refine M.bind_panic' fun _ => ?_
    rw [if_neg (by omega)]
    exact M.bind_panic (M.assert_panic (hs _ hf))
  · exfalso
    rw [Buf.len_ne] at hi hlt
    have h1 := Nat.lt_of_mul_lt_mul_right hi
    have := Nat.mul_le_mul_right LB (Nat.succ_le_of_lt h1)
    rw [Nat.succ_mul] at this
    omega

theorem or_lmax {x : ℕ} (h : x < B) : x ||| lmax = lmax := by
  apply Nat.eq_of_testBit_eq; intro j
  rw [Nat.testBit_or]
  unfold lmax B
  rw [Nat.testBit_two_pow_sub_one]
  by_cases hj : j < W
  · simp [hj]
  · rw [Nat.testBit_lt_two_pow (lt_of_lt_of_le h (Nat.pow_le_pow_right (by norm_num) (by omega)))]
    simp

theorem assert_fits (src : Buf g) {n : ℕ} (h : src.toNat < 256 ^ n) :
    M.assertM (do let k ← find_last_set_byte_mp src; pure (decide (k ≤ n))) = pure () := by
  refine M.assertM_eq (Sat.bind (find_last_set_byte_mp_sat src) ?_)
  rintro _ rfl
  exact Sat.pure (by simpa using (isByteLen_size _).le.2 h)

theorem and_bnot_high_mask (b : Buf f) (hb : 0 < b.len) {v : ℕ} (hv : v < 256 ^ hbytes b.len) :
    v &&& bnot b.partial_high_mask = 0 := by
  rw [b.partial_high_mask_eq hb, pow_256_eq, ← ct_lsb_mask_l_eq, and_bnot_mask]
  · rw [pow_256_eq] at hv; rw [Nat.div_eq_of_lt hv, Nat.zero_mul]
  · exact lt_of_lt_of_le hv (pow_hbytes_le _)
  · rw [W_eq]; have := hbytes_le b.len; omega
  · rw [W_eq]; have := hbytes_le b.len; omega

theorem Buf.clear_bytes_above_cond_noop (b : Buf f) (k : ℕ) (c : Bool)
    (h : c = false ∨ b.len ≤ k) :
    Sat (b.clear_bytes_above_cond k (.ofBool c)) (fun b' => b' = b) := by
  unfold Buf.clear_bytes_above_cond
  refine Sat.cond (fun _ => Sat.pure rfl) fun hk => ?_
  have hc : c = false := h.resolve_right (by omega)
  subst hc
  have hk : k < b.len := by omega
  dsimp only
  rw [LimbChoice.select_ofBool lmax_lt B_pos, if_neg (by simp), or_lmax bnot_lt]
  have hi : k / LB < b.nlimbs := by
    rw [Buf.nlimbs_eq, lt_nlimbs_iff]
    exact lt_of_le_of_lt (Nat.div_mul_le_self _ _) hk
  refine Sat.bind (b.sat_load_l hi (Q := fun v => v = b.toNat / B ^ (k / LB) % B) rfl) ?_
  rintro _ rfl
  rw [and_lmax (dig_lt _ _)]
  refine Sat.bind (b.sat_store_l hi (dig_lt _ _) (Upto.high_lt b.toNat_lt) (Q := fun b' => b' = b)
    fun b' h1 h2 => Buf.ext' h1 (by rw [h2, upd_self])) ?_
  intro b' hb'; subst b'
  refine Sat.forRange (P := fun _ b' => b' = b) (Nat.succ_le_of_lt hi) rfl ?_
  intro i b' _ hi' hb'; subst b'
  refine Sat.bind (b.sat_load_l hi' (Q := fun v => v = b.toNat / B ^ i % B) rfl) ?_
  rintro _ rfl
  rw [and_lmax (dig_lt _ _)]
  exact b.sat_store_l hi' (dig_lt _ _) (Upto.high_lt b.toNat_lt)
    fun b' h1 h2 => Buf.ext' h1 (by rw [h2, upd_self])

theorem Buf.copy_from_sat (b : Buf f) (src : Buf g) (h : src.toNat < 256 ^ b.len) :
    Sat (b.copy_from src) (fun b' => b'.len = b.len ∧ b'.toNat = src.toNat) := by
  unfold Buf.copy_from
  dsimp only
  rw [assert_fits src h, M.pure_bind]
  refine Sat.cond (fun hs => ?_) fun hs => ?_
  · refine b.sat_clear_bytes_above _ fun b' h1 h2 => ⟨h1, ?_⟩
    have := src.toNat_lt_B
    rw [hs] at this
    rw [h2]; simp [Nat.mod_one] at this ⊢; omega
  refine Sat.cond (fun hd => ?_) fun hd => ?_
  · have h0 : b.len = 0 := nlimbs_zero_iff.1 hd
    have := b.toNat_lt
    rw [h0] at h this
    exact Sat.pure ⟨rfl, by simp at h this; omega⟩
  have hs0 : 0 < src.len := nlimbs_pos_iff.1 (Nat.pos_of_ne_zero hs)
  have hd0 : 0 < b.len := nlimbs_pos_iff.1 (Nat.pos_of_ne_zero hd)
  set m := min src.nlimbs b.nlimbs with hm
  have hm1 : m ≤ src.nlimbs := min_le_left _ _
  have hm2 : m ≤ b.nlimbs := min_le_right _ _
  have hm0 : 0 < m := lt_min (Nat.pos_of_ne_zero hs) (Nat.pos_of_ne_zero hd)
  refine Sat.bind (P := Upto b src.toNat (m - 1)) ?_ ?_
  · refine Sat.forRange (P := fun i b' => Upto b src.toNat i b') (Nat.zero_le _) (Upto.zero _ _) ?_
    rintro i b' - hi hU
    refine Sat.bind (src.sat_load_l_full (full_of_lt_pred (by rw [← Buf.nlimbs_eq]; omega))
      (Q := fun v => v = src.toNat / B ^ i % B) rfl) ?_
    rintro _ rfl
    exact hU.sat_store_full (full_of_lt_pred (by rw [← Buf.nlimbs_eq]; omega)) rfl fun _ h => h
  · intro b' hU
    refine Sat.bind (src.sat_load_l (i := m - 1) (by omega)
      (Q := fun v => v = src.toNat / B ^ (m - 1) % B) rfl) ?_
    rintro _ rfl
    rw [M.assert_eq, M.pure_bind]
    · refine Sat.bind (hU.sat_store (by omega) h rfl (Q := Upto b src.toNat (m - 1 + 1))
        fun _ h => h) ?_
      rw [Nat.sub_add_cancel hm0]
      intro b'' hU
      refine b''.sat_clear_bytes_above _ fun b3 h1 h2 => ⟨h1.trans hU.len, ?_⟩
      rw [h2]
      by_cases hc : b.nlimbs ≤ src.nlimbs
      · have hmb : m = b.nlimbs := by omega
        have := hU.final (by omega) (by rw [hmb]; exact lt_B_pow_of_lt h)
        rw [this, Nat.mod_eq_of_lt src.toNat_lt]
      · have hms : m = src.nlimbs := by omega
        have h3 := hU.2.1
        rw [hms] at h3
        have hdvd : 256 ^ src.len ∣ B ^ src.nlimbs := by
          rw [← pow_256]; exact pow_dvd_pow _ (le_nlimbs_mul _)
        rw [← Nat.mod_mod_of_dvd b''.toNat hdvd, h3, Nat.mod_mod_of_dvd _ hdvd,
          Nat.mod_eq_of_lt src.toNat_lt]
    · by_cases hc : b.nlimbs ≤ src.nlimbs
      · right
        refine and_bnot_high_mask b' (by rw [hU.len]; exact hd0) ?_
        rw [hU.len]
        exact Upto.high_lt h (by omega)
      · left; omega

theorem Buf.copy_from_cond_sat (b : Buf f) (src : Buf g) (c : Bool) (h : src.toNat < 256 ^ b.len)
    (hc : c = false ∨ b.len ≤ src.len) :
    Sat (b.copy_from_cond src (.ofBool c))
      (fun b' => b'.len = b.len ∧ b'.toNat = if c then src.toNat else b.toNat) := by
  unfold Buf.copy_from_cond
  dsimp only
  rw [assert_fits src h, M.pure_bind]
  have hcl : ∀ b' : Buf f, b'.len = b.len → Sat (b'.clear_bytes_above_cond src.len (.ofBool c))
      (fun x => x = b') := fun b' hl => b'.clear_bytes_above_cond_noop _ _ (by rw [hl]; exact hc)
  refine Sat.cond (fun hs => ?_) fun hs => ?_
  · have h0 : src.len = 0 := nlimbs_zero_iff.1 hs
    have := hcl b rfl
    rw [h0] at this hc
    refine this.mono ?_
    intro b' hb'; subst b'
    refine ⟨rfl, ?_⟩
    rcases hc with rfl | hc
    · simp
    · have h1 := b.toNat_lt
      have : b.len = 0 := by omega
      rw [this] at h h1
      have e1 : src.toNat = 0 := by simpa using h
      have e2 : b.toNat = 0 := by simpa using h1
      rw [e1, e2]; simp
  refine Sat.cond (fun hd => ?_) fun hd => ?_
  · have h0 : b.len = 0 := nlimbs_zero_iff.1 hd
    have h1 := b.toNat_lt
    rw [h0] at h h1
    have e1 : src.toNat = 0 := by simpa using h
    have e2 : b.toNat = 0 := by simpa using h1
    exact Sat.pure ⟨rfl, by rw [e1, e2]; simp⟩
  have hs0 : 0 < src.len := nlimbs_pos_iff.1 (Nat.pos_of_ne_zero hs)
  have hd0 : 0 < b.len := nlimbs_pos_iff.1 (Nat.pos_of_ne_zero hd)
  set m := min src.nlimbs b.nlimbs with hm
  have hm1 : m ≤ src.nlimbs := min_le_left _ _
  have hm2 : m ≤ b.nlimbs := min_le_right _ _
  have hm0 : 0 < m := lt_min (Nat.pos_of_ne_zero hs) (Nat.pos_of_ne_zero hd)
  set y := if c = true then src.toNat else b.toNat with hy
  have hyl : y < 256 ^ b.len := by
    rw [hy]; split
    · exact h
    · exact b.toNat_lt
  have hsel : ∀ i, (LimbChoice.ofBool c).select (b.toNat / B ^ i % B) (src.toNat / B ^ i % B)
      = y / B ^ i % B := fun i => by
    rw [LimbChoice.select_ofBool (dig_lt _ _) (dig_lt _ _), hy]; split <;> rfl
  refine Sat.bind (P := Upto b y (m - 1)) ?_ ?_
  · refine Sat.forRange (P := fun i b' => Upto b y i b') (Nat.zero_le _) (Upto.zero _ _) ?_
    rintro i b' - hi hU
    have hfull := full_of_lt_pred (i := i) (n := b.len) (by rw [← Buf.nlimbs_eq]; omega)
    refine Sat.bind (hU.sat_load_full hfull le_rfl (Q := fun v => v = b.toNat / B ^ i % B) rfl) ?_
    rintro _ rfl
    refine Sat.bind (src.sat_load_l_full (full_of_lt_pred (by rw [← Buf.nlimbs_eq]; omega))
      (Q := fun v => v = src.toNat / B ^ i % B) rfl) ?_
    rintro _ rfl
    exact hU.sat_store_full hfull (hsel i) fun _ h => h
  · intro b' hU
    refine Sat.bind (hU.sat_load (j := m - 1) (by omega) le_rfl
      (Q := fun v => v = b.toNat / B ^ (m - 1) % B) rfl) ?_
    rintro _ rfl
    refine Sat.bind (src.sat_load_l (i := m - 1) (by omega)
      (Q := fun v => v = src.toNat / B ^ (m - 1) % B) rfl) ?_
    rintro _ rfl
    rw [hsel, M.assert_eq, M.pure_bind]
    · refine Sat.bind (hU.sat_store (by omega) hyl rfl (Q := Upto b y (m - 1 + 1))
        fun _ h => h) ?_
      rw [Nat.sub_add_cancel hm0]
      intro b'' hU
      refine (hcl b'' hU.len).mono ?_
      rintro _ rfl
      refine ⟨hU.len, ?_⟩
      rcases hc with rfl | hc
      · have : y = b.toNat := by simp [hy]
        rw [hU.toNat, this]; exact Nat.mod_add_div _ _
      · have hmb : m = b.nlimbs := by
          have := nlimbs_mono hc
          rw [← Buf.nlimbs_eq, ← Buf.nlimbs_eq] at this
          omega
        exact hU.final (by omega) (by rw [hmb]; exact lt_B_pow_of_lt hyl)
    · by_cases hc : b.nlimbs ≤ src.nlimbs
      · right
        refine and_bnot_high_mask b' (by rw [hU.len]; exact hd0) ?_
        rw [hU.len]
        exact Upto.high_lt hyl (by omega)
      · left; omega

theorem xor_swap {x y c : ℕ} (hx : x < B) (hy : y < B) (hc : c = 0 ∨ c = lmax) :
    y ^^^ ((x ^^^ y) &&& c) = (if c = 0 then y else x) ∧
      (x ^^^ y) ^^^ (y ^^^ ((x ^^^ y) &&& c)) = (if c = 0 then x else y) := by
  have hl : lmax ≠ 0 := by unfold lmax; have := one_lt_B; omega
  rcases hc with rfl | rfl
  · simp [Nat.xor_assoc]
  · rw [and_lmax (xor_lt hx hy)]
    have e : y ^^^ (x ^^^ y) = x := by
      rw [Nat.xor_comm x y, ← Nat.xor_assoc, Nat.xor_self, Nat.zero_xor]
    rw [e]
    refine ⟨by simp [hl], ?_⟩
    rw [Nat.xor_comm x y, Nat.xor_assoc, Nat.xor_self, Nat.xor_zero]; simp [hl]

theorem ct_swap_cond_mp_sat (a : Buf f) (b : Buf g) (c : Bool) (hn : a.nlimbs = b.nlimbs)
    (h : c = false ∨ a.toNat < 256 ^ b.len ∧ b.toNat < 256 ^ a.len) :
    Sat (ct_swap_cond_mp a b (.ofBool c)) (fun r => r.1.len = a.len ∧ r.2.len = b.len ∧
      r.1.toNat = (if c then b.toNat else a.toNat) ∧
      r.2.toNat = (if c then a.toNat else b.toNat)) := by
  unfold ct_swap_cond_mp
  dsimp only
  rw [M.assert_eq hn, M.pure_bind, LimbChoice.select_ofBool B_pos lmax_lt]
  set y0 := if c = true then b.toNat else a.toNat with hy0
  set y1 := if c = true then a.toNat else b.toNat with hy1
  have hl : lmax ≠ 0 := by unfold lmax; have := one_lt_B; omega
  have hl0 : y0 < 256 ^ a.len := by
    rw [hy0]; rcases h with rfl | h
    · simpa using a.toNat_lt
    · split
      · exact h.2
      · exact a.toNat_lt
  have hl1 : y1 < 256 ^ b.len := by
    rw [hy1]; rcases h with rfl | h
    · simpa using b.toNat_lt
    · split
      · exact h.1
      · exact b.toNat_lt
  refine (Sat.forRange (P := fun i s => Upto a y0 i s.1 ∧ Upto b y1 i s.2) (Nat.zero_le _)
    ⟨Upto.zero _ _, Upto.zero _ _⟩ ?_).mono ?_
  · rintro i ⟨a', b'⟩ - hi ⟨hU, hV⟩
    dsimp only at hU hV ⊢
    refine Sat.bind (hU.sat_load hi le_rfl (Q := fun v => v = a.toNat / B ^ i % B) rfl) ?_
    rintro _ rfl
    refine Sat.bind (hV.sat_load (by omega) le_rfl (Q := fun v => v = b.toNat / B ^ i % B) rfl) ?_
    rintro _ rfl
    obtain ⟨e1, e2⟩ := xor_swap (dig_lt a.toNat i) (dig_lt b.toNat i)
      (c := if c = true then lmax else 0) (by split <;> simp)
    rw [e2, e1]
    refine Sat.bind (hU.sat_store hi hl0 (Q := Upto a y0 (i + 1)) ?_ fun _ h => h) ?_
    · rw [hy0]; cases c <;> simp [hl]
    intro a'' hU'
    refine Sat.bind (hV.sat_store (by omega) hl1 (Q := Upto b y1 (i + 1)) ?_ fun _ h => h) ?_
    · rw [hy1]; cases c <;> simp [hl]
    intro b'' hV'
    exact Sat.pure ⟨hU', hV'⟩
  · rintro ⟨a', b'⟩ ⟨hU, hV⟩
    exact ⟨hU.len, hV.len, hU.final le_rfl (lt_B_pow_of_lt hl0),
      hV.final hn.ge (by rw [hn]; exact lt_B_pow_of_lt hl1)⟩

/-! ### Native integers -/

theorem and_lmax_mod {x k : ℕ} (h : x < 2 ^ k) : x &&& (lmax % 2 ^ k) = x % B := by
  unfold lmax B
  apply Nat.eq_of_testBit_eq; intro j
  rw [Nat.testBit_and, Nat.testBit_mod_two_pow, Nat.testBit_mod_two_pow,
    Nat.testBit_two_pow_sub_one]
  by_cases hj : j < k
  · simp [hj, Bool.and_comm]
  · rw [Nat.testBit_lt_two_pow (lt_of_lt_of_le h (Nat.pow_le_pow_right (by norm_num) (by omega)))]
    simp

theorem Buf.set_to_native_sat (b : Buf f) {sz v : ℕ} (hl : sz ≤ b.len) (hv : v < 256 ^ sz) :
    Sat (b.set_to_native sz v) (fun b' => b'.len = b.len ∧ b'.toNat = v) := by
  unfold Buf.set_to_native
  rw [M.assert_eq hl, M.pure_bind]
  have hvl : v < 256 ^ b.len := lt_of_lt_of_le hv (Nat.pow_le_pow_right (by norm_num) hl)
  refine Sat.bind (b.sat_clear_bytes_above sz (Q := fun b' => b'.len = b.len ∧
    b'.toNat = b.toNat % 256 ^ sz) fun _ h1 h2 => ⟨h1, h2⟩) ?_
  rintro b1 ⟨h1, h2⟩
  have hB : 256 ^ sz ≤ B ^ ct_mp_nlimbs sz := Cmpa.pow_len_le sz
  refine Sat.bind (P := fun s => Upto b1 v (ct_mp_nlimbs sz) s.1) ?_ ?_
  · refine (Sat.forRange (P := fun i s => Upto b1 v i s.1 ∧ (i < ct_mp_nlimbs sz → s.2 = v / B ^ i))
      (Nat.zero_le _) ⟨Upto.zero _ _, by simp⟩ ?_).mono fun _ h => h.1
    rintro i ⟨b', w⟩ - hi ⟨hU, hw⟩
    dsimp only at hU hw ⊢
    have hw := hw hi
    subst hw
    have hil : i < b1.nlimbs := by
      rw [Buf.nlimbs_eq, h1]; exact lt_of_lt_of_le hi (nlimbs_mono hl)
    rw [and_lmax_mod (lt_of_le_of_lt (Nat.div_le_self _ _) (by rwa [← pow_256_eq]))]
    refine Sat.bind (hU.sat_store hil (by rwa [h1]) rfl (Q := Upto b1 v (i + 1)) fun _ h => h) ?_
    intro b'' hU'
    refine Sat.pure ⟨hU', fun hi' => ?_⟩
    dsimp only
    rw [lt_nlimbs_iff] at hi'
    have hWs : W ≤ 8 * sz - 1 := by
      rw [W_eq]
      have : LB ≤ (i + 1) * LB := Nat.le_mul_of_pos_left _ (by omega)
      omega
    rw [min_eq_left hWs, Nat.shiftRight_eq_div_pow, ← B_eq_two_pow, pow_succ,
      Nat.div_div_eq_div_mul]
  · rintro ⟨b', w⟩ hU
    refine Sat.pure ⟨hU.len.trans h1, ?_⟩
    dsimp only at hU ⊢
    rw [hU.toNat, h2, Nat.mod_eq_of_lt (lt_of_lt_of_le hv hB), Nat.div_eq_of_lt (lt_of_lt_of_le
      (Nat.mod_lt _ (by positivity)) hB)]
    simp

theorem or_eq_zero {x y : ℕ} : x ||| y = 0 ↔ x = 0 ∧ y = 0 := by
  constructor
  · intro h
    have h1 : x ≤ x ||| y := Nat.left_le_or
    have h2 : y ≤ x ||| y := Nat.right_le_or
    omega
  · rintro ⟨rfl, rfl⟩; rfl

/-- The limbs which can be read: those of the buffer and, with big endian bytes, also a limb of zeros
right after the last one, provided that this one is complete. -/
def Buf.Readable (b : Buf f) (i : ℕ) : Prop := i < b.nlimbs ∨ f = .be ∧ i * LB = b.len

theorem Buf.Readable.le {b : Buf f} {i : ℕ} (h : b.Readable i) : i * LB ≤ b.len := by
  rcases h with h | h
  · rw [Buf.nlimbs_eq, lt_nlimbs_iff] at h; exact h.le
  · exact h.2.le

theorem Buf.Readable.sat {b : Buf f} {i : ℕ} (h : b.Readable i) :
    Sat (b.load_l i) (fun v => v = b.toNat / B ^ i % B) := by
  rcases h with h | ⟨rfl, h⟩
  · exact b.sat_load_l h rfl
  · have h0 : b.toNat / B ^ i = 0 := by
      rw [Nat.div_eq_of_lt]; have := b.toNat_lt; rwa [← h, pow_256] at this
    rw [h0, Nat.zero_mod]
    cases b with | be l => ?_
    rw [Buf.len_be] at h
    simp only [Buf.load_l]
    refine Sat.bind (Sat.emit (P := fun _ => True) trivial) fun _ _ => ?_
    unfold be_mp_load_l
    rw [M.assert_eq h.le, M.pure_bind, M.sub_eq h.le, M.pure_bind, h, Nat.sub_self,
      if_neg (by have := LB_pos; omega)]
    unfold _be_mp_load_l_high_partial slice
    rw [if_pos (by simp)]
    have hz : ∀ n, Nat.ofDigits 256 (List.replicate n 0) = 0 := fun n => by
      induction n with
      | zero => rfl
      | succ n ih => rw [List.replicate_succ, Nat.ofDigits_cons, ih]
    refine M.sat_mk.2 ?_
    simp [from_be_bytes, from_le_bytes, hz]

theorem Buf.load_l_panic {b : Buf f} {i : ℕ} (h : ¬ b.Readable i) : (b.load_l i).val = none := by
  unfold Buf.Readable at h
  rw [Buf.nlimbs_eq, lt_nlimbs_iff] at h
  rcases b with l | l | l <;> simp only [Buf.load_l] <;> refine M.bind_panic' fun _ => ?_
  · rw [Buf.len_be] at h
    unfold be_mp_load_l
    exact M.bind_panic (M.assert_panic (by simp at h; omega))
  · rw [Buf.len_le] at h
    unfold le_mp_load_l
    exact M.bind_panic (M.assert_panic (by simp at h; omega))
  · rw [Buf.len_ne] at h
    unfold ne_mp_load_l
    have h1 : l.length ≤ i := by
      simp at h
      exact Nat.le_of_mul_le_mul_right h LB_pos
    rw [List.getElem?_eq_none h1]; rfl

theorem Buf.try_into_native_sat (b : Buf f) {sz : ℕ} (hsz : 0 < sz)
    (hl : b.Readable (ct_mp_nlimbs sz - 1)) :
    Sat (b.try_into_native sz)
      (fun r => r = if b.toNat < 256 ^ sz then some b.toNat else none) := by
  unfold Buf.try_into_native
  dsimp only
  set n := ct_mp_nlimbs sz with hn
  have hn0 : 0 < n := nlimbs_pos_iff.2 hsz
  have hlle := hl.le
  refine Sat.bind (P := fun h => h < B ∧ (h = 0 ↔ b.toNat / B ^ n = 0)) ?_ ?_
  · rcases Nat.lt_or_ge b.nlimbs n with hlt | hl
    · rw [M.forRange, show b.nlimbs - n = 0 by omega]
      refine Sat.pure ⟨B_pos, ?_⟩
      rw [Nat.div_eq_of_lt (lt_of_lt_of_le b.toNat_lt_B (Nat.pow_le_pow_right B_pos hlt.le))]
    refine (Sat.forRange (P := fun i h => h < B ∧ (h = 0 ↔ b.toNat / B ^ n % B ^ (i - n) = 0))
      hl ⟨B_pos, by simp [Nat.mod_one]⟩ ?_).mono ?_
    · rintro i h hni hi ⟨h1, h2⟩
      refine Sat.bind (b.sat_load_l hi (Q := fun v => v = b.toNat / B ^ i % B) rfl) ?_
      rintro _ rfl
      refine Sat.pure ⟨or_lt h1 (dig_lt _ _), ?_⟩
      rw [or_eq_zero, h2, show i + 1 - n = i - n + 1 by omega, mod_succ (b.toNat / B ^ n),
        Nat.div_div_eq_div_mul, ← pow_add, Nat.add_sub_cancel' hni]
      simp [B_ne_zero]
    · rintro h ⟨h1, h2⟩
      refine ⟨h1, h2.trans ?_⟩
      rw [Nat.mod_eq_of_lt]
      refine Nat.div_lt_of_lt_mul ?_
      rw [← pow_add, Nat.add_sub_cancel' hl]
      exact b.toNat_lt_B
  · rintro h ⟨h1, h2⟩
    refine Sat.bind hl.sat ?_
    rintro _ rfl
    have hd := dig_lt b.toNat (n - 1)
    have hk : 8 * hbytes sz ≤ W := by rw [W_eq]; have := hbytes_le sz; omega
    rw [← hbytes_eq hsz, and_bnot_mask hd hk, and_mask hk]
    have hor : h ||| b.toNat / B ^ (n - 1) % B / 2 ^ (8 * hbytes sz) * 2 ^ (8 * hbytes sz) < B :=
      or_lt h1 (lt_of_le_of_lt (Nat.div_mul_le_self _ _) hd)
    have hiff : (h ||| b.toNat / B ^ (n - 1) % B / 2 ^ (8 * hbytes sz) * 2 ^ (8 * hbytes sz)) = 0 ↔
        b.toNat < 256 ^ sz := by
      rw [or_eq_zero, h2, pow_len hsz, ← hn, pow_256_eq]
      have e : b.toNat / B ^ n = b.toNat / B ^ (n - 1) / B := by
        rw [Nat.div_div_eq_div_mul, ← pow_succ, Nat.sub_add_cancel hn0]
      rw [e]
      have hp : 2 ^ (8 * hbytes sz) ≤ B := Nat.pow_le_pow_right (by norm_num) hk
      have hp0 := Nat.two_pow_pos (8 * hbytes sz)
      rw [mul_comm (B ^ _), ← Nat.div_lt_iff_lt_mul (B_pow_pos _)]
      generalize b.toNat / B ^ (n - 1) = z
      have hB := B_pos
      constructor
      · rintro ⟨h3, h4⟩
        have h3 : z < B := (Nat.div_eq_zero_iff.1 h3).resolve_left hB.ne'
        rw [Nat.mod_eq_of_lt h3] at h4
        have := Nat.mul_eq_zero.1 h4
        exact (Nat.div_eq_zero_iff.1 (this.resolve_right hp0.ne')).resolve_left hp0.ne'
      · intro h3
        rw [Nat.mod_eq_of_lt (by omega), Nat.div_eq_of_lt h3, Nat.div_eq_of_lt (by omega)]
        simp
    refine Sat.cond (fun hc => ?_) fun hc => ?_
    · rw [ct_is_nonzero_l_eq hor] at hc
      refine Sat.pure ?_
      rw [if_neg]
      intro h3
      exact hc (by simp [hiff.2 h3])
    · rw [ct_is_nonzero_l_eq hor] at hc
      have hlt : b.toNat < 256 ^ sz := by
        rw [← hiff]; by_contra h3; exact hc (by simp [h3])
      rw [if_pos hlt]
      have hlt2 : b.toNat / B ^ (n - 1) < 2 ^ (8 * hbytes sz) := by
        rw [← pow_256_eq]
        refine Nat.div_lt_of_lt_mul ?_
        rw [hn, ← pow_len hsz]; exact hlt
      refine Sat.bind (P := fun r => r = b.toNat) ?_ ?_
      · refine (Sat.forDown (P := fun i r => r = b.toNat / B ^ i) ?_ ?_).mono
          fun r h => by simpa using h
        · have hp : 2 ^ (8 * hbytes sz) ≤ B := Nat.pow_le_pow_right (by norm_num) hk
          rw [Nat.mod_eq_of_lt (a := b.toNat / B ^ (n - 1)) (b := B) (by omega),
            Nat.mod_eq_of_lt hlt2]
        · rintro i r hi rfl
          have hfull : (i + 1) * LB < sz := lt_nlimbs_iff.1 (by omega)
          have hWs : W ≤ 8 * sz - 1 := by
            rw [W_eq]
            have : LB ≤ (i + 1) * LB := Nat.le_mul_of_pos_left _ (by omega)
            omega
          refine Sat.bind (b.sat_load_l_full (i := i) (by
            have := Nat.mul_le_mul_right LB (show i + 1 ≤ n - 1 by omega)
            rw [Nat.succ_mul] at this; omega) (Q := fun v => v = b.toNat / B ^ i % B) rfl) ?_
          rintro _ rfl
          refine Sat.pure ?_
          rw [min_eq_left hWs, Nat.shiftLeft_eq]
          have hs : b.toNat < 2 ^ (8 * sz) := by rwa [← pow_256_eq]
          have h5 := div_succ b.toNat i
          have h6 : b.toNat / B ^ i ≤ b.toNat := Nat.div_le_self _ _
          have h7 : b.toNat / B ^ (i + 1) * 2 ^ W = B * (b.toNat / B ^ (i + 1)) := by
            rw [mul_comm, ← B_eq_two_pow]
          rw [Nat.mod_eq_of_lt (a := b.toNat / B ^ (i + 1) * 2 ^ W) (by omega),
            Nat.mod_eq_of_lt (a := b.toNat / B ^ i % B) (b := 2 ^ (8 * sz)) (by omega),
            or_eq_add_of_lt (dig_lt _ _), h7, add_comm]
          exact h5.symm
      · rintro _ rfl
        exact Sat.pure rfl

theorem Buf.try_into_native_panic (b : Buf f) {sz : ℕ} (hl : ¬ b.Readable (ct_mp_nlimbs sz - 1)) :
    (b.try_into_native sz).val = none := by
  unfold Buf.try_into_native
  exact M.bind_panic' fun _ => M.bind_panic (Buf.load_l_panic hl)

end Cmpa
