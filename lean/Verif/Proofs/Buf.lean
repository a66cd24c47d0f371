import Verif.Proofs.BufList

/-!
# Laws of the buffer accessors
-/

set_option linter.unusedSectionVars false

namespace Cmpa
variable [LimbCfg]

/-! ### Limb counts -/

theorem lt_nlimbs_iff {i n : ℕ} : i < ct_mp_nlimbs n ↔ i * LB < n := by
  have hLB := LB_pos
  unfold ct_mp_nlimbs
  rw [Nat.lt_iff_add_one_le, Nat.le_div_iff_mul_le hLB, add_mul, one_mul]
  omega

theorem nlimbs_le_iff {i n : ℕ} : ct_mp_nlimbs n ≤ i ↔ n ≤ i * LB := by
  rw [← Nat.not_lt, lt_nlimbs_iff, Nat.not_lt]

theorem le_nlimbs_mul (n : ℕ) : n ≤ ct_mp_nlimbs n * LB := nlimbs_le_iff.1 le_rfl

theorem nlimbs_pos_iff {n : ℕ} : 0 < ct_mp_nlimbs n ↔ 0 < n := by
  rw [lt_nlimbs_iff, zero_mul]

theorem nlimbs_zero_iff {n : ℕ} : ct_mp_nlimbs n = 0 ↔ n = 0 := by
  have := @nlimbs_pos_iff _ n; omega

@[simp] theorem nlimbs_zero : ct_mp_nlimbs 0 = 0 := nlimbs_zero_iff.2 rfl

theorem nlimbs_mul (k : ℕ) : ct_mp_nlimbs (k * LB) = k := by
  apply le_antisymm
  · exact nlimbs_le_iff.2 le_rfl
  · exact Nat.le_of_mul_le_mul_right (le_nlimbs_mul (k * LB)) LB_pos

theorem nlimbs_mono {a b : ℕ} (h : a ≤ b) : ct_mp_nlimbs a ≤ ct_mp_nlimbs b :=
  nlimbs_le_iff.2 (le_trans h (le_nlimbs_mul b))

theorem pred_nlimbs_mul_lt {n : ℕ} (h : 0 < n) : (ct_mp_nlimbs n - 1) * LB < n := by
  rw [← lt_nlimbs_iff]; have := (nlimbs_pos_iff (n := n)).2 h; omega

theorem full_of_lt_pred {i n : ℕ} (h : i + 1 < ct_mp_nlimbs n) : i * LB + LB ≤ n := by
  have := lt_nlimbs_iff.1 h
  rw [add_mul, one_mul] at this; omega

/-- The number of bytes in the most significant limb. -/
def hbytes (n : ℕ) : ℕ := n - (ct_mp_nlimbs n - 1) * LB

theorem hbytes_pos {n : ℕ} (h : 0 < n) : 0 < hbytes n := by
  have := pred_nlimbs_mul_lt h; unfold hbytes; omega

theorem hbytes_le (n : ℕ) : hbytes n ≤ LB := by
  have h := le_nlimbs_mul n
  unfold hbytes
  rcases Nat.eq_zero_or_pos n with rfl | hn
  · simp
  · have h2 := (nlimbs_pos_iff (n := n)).2 hn
    generalize ct_mp_nlimbs n = m at *
    obtain ⟨k, rfl⟩ := Nat.exists_eq_add_of_le' h2
    rw [add_mul] at h
    simp only [Nat.succ_eq_add_one, Nat.add_sub_cancel] at *
    omega

theorem pow_len {n : ℕ} (h : 0 < n) : 256 ^ n = B ^ (ct_mp_nlimbs n - 1) * 256 ^ hbytes n := by
  rw [← pow_256, ← pow_add]; congr 1
  have := pred_nlimbs_mul_lt h
  unfold hbytes; omega

theorem hbytes_mul {k : ℕ} (h : 0 < k) : hbytes (k * LB) = LB := by
  unfold hbytes; rw [nlimbs_mul]
  obtain ⟨k, rfl⟩ := Nat.exists_eq_add_of_le' h
  rw [Nat.add_sub_cancel, add_mul]; omega

theorem hbytes_eq {n : ℕ} (h : 0 < n) : hbytes n = (n - 1) % LB + 1 := by
  have hLB := LB_pos
  have h1 := hbytes_pos h
  have h2 := hbytes_le n
  have h3 := pred_nlimbs_mul_lt h
  have : n - 1 = (hbytes n - 1) + (ct_mp_nlimbs n - 1) * LB := by
    unfold hbytes at *; omega
  rw [this, Nat.add_mul_mod_self_right, Nat.mod_eq_of_lt (by omega)]; omega

theorem pow_hbytes_le (n : ℕ) : 256 ^ hbytes n ≤ B := by
  rw [B_eq_256_pow]; exact Nat.pow_le_pow_right (by norm_num) (hbytes_le n)

theorem pow_len_le (n : ℕ) : 256 ^ n ≤ B ^ ct_mp_nlimbs n := by
  rw [← pow_256]; exact Nat.pow_le_pow_right (by norm_num) (le_nlimbs_mul n)

/-- The bytes above limb `i`. -/
theorem pow_sub_bytes {i n : ℕ} (h : i < ct_mp_nlimbs n) :
    (i + 1 < ct_mp_nlimbs n → B ≤ 256 ^ (n - i * LB)) ∧
    (i + 1 = ct_mp_nlimbs n → n - i * LB = hbytes n) := by
  constructor
  · intro h2
    have := full_of_lt_pred h2
    rw [B_eq_256_pow]; exact Nat.pow_le_pow_right (by norm_num) (by omega)
  · intro h2
    unfold hbytes; rw [← h2, Nat.add_sub_cancel]

namespace Buf
variable {f g : Fmt}

theorem toNat_be (l : List (Fin 256)) : (be l).toNat = lval l.reverse := rfl
theorem toNat_le (l : List (Fin 256)) : (le l).toNat = lval l := rfl
theorem toNat_ne (l : List (Fin B)) : (ne l).toNat = lval l := rfl

theorem len_be (l : List (Fin 256)) : (be l).len = l.length := rfl
theorem len_le (l : List (Fin 256)) : (le l).len = l.length := rfl
theorem len_ne (l : List (Fin B)) : (ne l).len = l.length * LB := rfl

theorem nlimbs_ne (l : List (Fin B)) : (ne l).nlimbs = l.length := by
  unfold nlimbs; rw [len_ne, nlimbs_mul]

theorem nlimbs_eq (b : Buf f) : b.nlimbs = ct_mp_nlimbs b.len := rfl

theorem aligned (b : Buf f) (h : f.unaligned = false) : b.len = b.nlimbs * LB := by
  cases b <;> simp [Fmt.unaligned] at h
  rw [nlimbs_ne, len_ne]

/-- A buffer of `n` bytes holds a number below `256^n`. -/
theorem toNat_lt (b : Buf f) : b.toNat < 256 ^ b.len := by
  rcases b with l | l | l
  · rw [toNat_be, len_be]; simpa using lval_lt l.reverse
  · rw [toNat_le, len_le]; exact lval_lt l
  · rw [toNat_ne, len_ne, pow_256]; exact lval_lt l

theorem toNat_lt_B (b : Buf f) : b.toNat < B ^ b.nlimbs :=
  lt_of_lt_of_le b.toNat_lt (pow_len_le _)

theorem toNat_mod (b : Buf f) : b.toNat % B ^ b.nlimbs = b.toNat := Nat.mod_eq_of_lt b.toNat_lt_B

theorem toNat_div (b : Buf f) : b.toNat / B ^ b.nlimbs = 0 := Nat.div_eq_of_lt b.toNat_lt_B

theorem toNat_div_high (b : Buf f) : b.toNat / B ^ (b.nlimbs - 1) < 256 ^ hbytes b.len := by
  rcases Nat.eq_zero_or_pos b.len with h | h
  · have := b.toNat_lt
    rw [h, pow_zero] at this
    rw [Nat.div_eq_of_lt]
    · positivity
    · exact lt_of_lt_of_le this (B_pow_pos _)
  · apply Nat.div_lt_of_lt_mul
    rw [nlimbs_eq, ← pow_len h]; exact b.toNat_lt

/-- Buffers of the same format and length holding the same number are equal. -/
theorem ext' {a b : Buf f} (hl : a.len = b.len) (h : a.toNat = b.toNat) : a = b := by
  rcases a with a | a | a <;> rcases b with b | b | b
  · rw [len_be, len_be] at hl
    have := lval_inj (by simpa using hl) h
    rw [List.reverse_inj] at this; rw [this]
  · rw [len_le, len_le] at hl
    rw [lval_inj hl h]
  · rw [len_ne, len_ne] at hl
    rw [lval_inj (Nat.eq_of_mul_eq_mul_right LB_pos hl) h]

theorem is_empty_iff (b : Buf f) : b.is_empty = true ↔ b.len = 0 := by
  rcases b with l | l | l <;> simp [is_empty, len, LB_pos.ne']

/-- Loading a limb. -/
theorem load_l_eq (b : Buf f) {i : ℕ} (h : i < b.nlimbs) :
    b.load_l i = M.ok (b.toNat / B ^ i % B) [.load b.len i] := by
  rw [nlimbs_eq, lt_nlimbs_iff] at h
  rcases b with l | l | l <;> simp only [load_l]
  · rw [len_be] at h
    rw [be_mp_load_l_rev h, le_mp_load_l_eq (by simpa using h)]; rfl
  · rw [len_le] at h
    rw [le_mp_load_l_eq h]; rfl
  · rw [len_ne] at h
    rw [ne_mp_load_l_eq (Nat.lt_of_mul_lt_mul_right h)]; rfl

/-- Loading a full limb. -/
theorem load_l_full_eq (b : Buf f) {i : ℕ} (h : i * LB + LB ≤ b.len) :
    b.load_l_full i = M.ok (b.toNat / B ^ i % B) [.load b.len i] := by
  rcases b with l | l | l <;> simp only [load_l_full]
  · rw [len_be] at h
    rw [be_mp_load_l_full_rev h, le_mp_load_l_full_eq (by simpa using h)]; rfl
  · rw [len_le] at h
    rw [le_mp_load_l_full_eq h]; rfl
  · rw [len_ne] at h
    have hLB := LB_pos
    have h2 : i * LB < l.length * LB := by omega
    rw [ne_mp_load_l_eq (Nat.lt_of_mul_lt_mul_right h2)]; rfl

/-- Storing a limb. -/
theorem store_l_eq (b : Buf f) {i v : ℕ} (h : i < b.nlimbs) (hv : v < B)
    (hv' : v < 256 ^ (b.len - i * LB)) :
    ∃ b', b.store_l i v = M.ok b' [.store b.len i] ∧ b'.len = b.len ∧
      b'.toNat = upd b.toNat i v := by
  rw [nlimbs_eq, lt_nlimbs_iff] at h
  rcases b with l | l | l <;> simp only [store_l]
  · obtain ⟨l', h1, h2, h3⟩ := be_mp_store_l_eq h hv hv'
    rw [h1]; exact ⟨be l', rfl, h2, h3⟩
  · obtain ⟨l', h1, h2, h3⟩ := le_mp_store_l_eq h hv hv'
    rw [h1]; exact ⟨le l', rfl, h2, h3⟩
  · obtain ⟨l', h1, h2, h3⟩ := ne_mp_store_l_eq (Nat.lt_of_mul_lt_mul_right h) hv
    rw [h1]; exact ⟨ne l', rfl, by rw [len_ne, len_ne, h2], h3⟩

/-- Storing a full limb. -/
theorem store_l_full_eq (b : Buf f) {i v : ℕ} (h : i * LB + LB ≤ b.len) (hv : v < B) :
    ∃ b', b.store_l_full i v = M.ok b' [.store b.len i] ∧ b'.len = b.len ∧
      b'.toNat = upd b.toNat i v := by
  rcases b with l | l | l <;> simp only [store_l_full]
  · obtain ⟨l', h1, h2, h3⟩ := be_mp_store_l_full_eq h hv
    rw [h1]; exact ⟨be l', rfl, h2, h3⟩
  · obtain ⟨l', h1, h2, h3⟩ := le_mp_store_l_full_eq h hv
    rw [h1]; exact ⟨le l', rfl, h2, h3⟩
  · rw [len_ne] at h
    have hLB := LB_pos
    have h2 : i * LB < l.length * LB := by omega
    obtain ⟨l', h1, h2, h3⟩ := ne_mp_store_l_eq (Nat.lt_of_mul_lt_mul_right h2) hv
    rw [h1]; exact ⟨ne l', rfl, by rw [len_ne, len_ne, h2], h3⟩

theorem clear_bytes_above_eq (b : Buf f) (k : ℕ) :
    ∃ b', b.clear_bytes_above k = M.ok b' [.range b.len k] ∧ b'.len = b.len ∧
      b'.toNat = b.toNat % 256 ^ k := by
  rcases b with l | l | l <;> simp only [clear_bytes_above]
  · obtain ⟨l', h1, h2, h3⟩ := be_mp_clear_bytes_above_eq l k
    rw [h1]; exact ⟨be l', rfl, h2, h3⟩
  · obtain ⟨l', h1, h2, h3⟩ := le_mp_clear_bytes_above_eq l k
    rw [h1]; exact ⟨le l', rfl, h2, h3⟩
  · obtain ⟨l', h1, h2, h3⟩ := ne_mp_clear_bytes_above_eq l k
    rw [h1]; exact ⟨ne l', rfl, by rw [len_ne, len_ne, h2], h3⟩

theorem clear_bytes_below_eq (b : Buf f) {k : ℕ} (hk : f.unaligned = true ∨ k ≤ b.len ∨ LB ∣ k) :
    ∃ b', b.clear_bytes_below k = M.ok b' [.range b.len k] ∧ b'.len = b.len ∧
      b'.toNat = b.toNat / 256 ^ k * 256 ^ k := by
  rcases b with l | l | l <;> simp only [clear_bytes_below]
  · obtain ⟨l', h1, h2, h3⟩ := be_mp_clear_bytes_below_eq l k
    rw [h1]; exact ⟨be l', rfl, h2, h3⟩
  · obtain ⟨l', h1, h2, h3⟩ := le_mp_clear_bytes_below_eq l k
    rw [h1]; exact ⟨le l', rfl, h2, h3⟩
  · obtain ⟨l', h1, h2, h3⟩ := ne_mp_clear_bytes_below_eq' l (k := k)
      (by simpa [Fmt.unaligned, len_ne] using hk)
    rw [h1]; exact ⟨ne l', rfl, by rw [len_ne, len_ne, h2], h3⟩

/-! ### Traces and lengths, whatever happens -/

theorem quiet_slice {α : Type} {l : List α} {a b : ℕ} : M.Quiet (slice l a b) := by
  unfold slice M.Quiet; split <;> rfl

theorem quiet_splice {α : Type} {l n : List α} {a : ℕ} : M.Quiet (splice l a n) := by
  unfold splice M.Quiet; split <;> rfl

theorem post_splice {α : Type} {l n : List α} {a : ℕ} :
    M.Post (splice l a n) (fun l' => l'.length = l.length) := by
  intro l' h
  unfold splice at h
  split at h
  · simp at h; subst h; simp; omega
  · simp at h

/-- Closes the goal that a helper function emits no events. -/
macro "quiet" : tactic => `(tactic|
  repeat (first
    | exact M.Quiet.pure | exact M.Quiet.assert | exact M.Quiet.check | exact M.Quiet.panic | exact M.Quiet.assertM | exact M.Quiet.sub
    | exact M.Quiet.ofOption | exact quiet_slice | exact quiet_splice
    | refine M.Quiet.bind ?_ (fun _ => ?_) | refine M.Quiet.ite ?_ ?_))

/-- Closes the goal that a helper function keeps the length of a list. -/
macro "keeps_len" : tactic => `(tactic|
  repeat (first
    | exact post_splice | exact M.Post.pure rfl
    | refine M.Post.bind M.Post.trivial (fun _ _ => ?_) | refine M.Post.ite ?_ ?_))

theorem load_l_tr (b : Buf f) (i : ℕ) : (b.load_l i).tr = [.load b.len i] := by
  rcases b with l | l | l <;> refine M.Quiet.emit_bind ?_
  · unfold be_mp_load_l _be_mp_load_l_full _be_mp_load_l_high_partial; quiet
  · unfold le_mp_load_l _le_mp_load_l_full _le_mp_load_l_high_partial; quiet
  · unfold ne_mp_load_l; quiet

theorem load_l_full_tr (b : Buf f) (i : ℕ) : (b.load_l_full i).tr = [.load b.len i] := by
  rcases b with l | l | l <;> refine M.Quiet.emit_bind ?_
  · unfold be_mp_load_l_full _be_mp_load_l_full; quiet
  · unfold le_mp_load_l_full _le_mp_load_l_full; quiet
  · unfold ne_mp_load_l; quiet

theorem store_l_tr (b : Buf f) (i v : ℕ) : (b.store_l i v).tr = [.store b.len i] := by
  rcases b with l | l | l <;> refine M.Quiet.emit_bind ?_
  · unfold be_mp_store_l _be_mp_store_l_full _be_mp_store_l_high_partial; quiet
  · unfold le_mp_store_l _le_mp_store_l_full _le_mp_store_l_high_partial; quiet
  · unfold ne_mp_store_l; quiet

theorem store_l_full_tr (b : Buf f) (i v : ℕ) : (b.store_l_full i v).tr = [.store b.len i] := by
  rcases b with l | l | l <;> refine M.Quiet.emit_bind ?_
  · unfold be_mp_store_l_full _be_mp_store_l_full; quiet
  · unfold le_mp_store_l_full _le_mp_store_l_full; quiet
  · unfold ne_mp_store_l; quiet

theorem store_l_len (b : Buf f) (i v : ℕ) :
    M.Post (b.store_l i v) (fun b' => b'.len = b.len) := by
  rcases b with l | l | l <;>
    refine M.Post.bind M.Post.trivial (fun _ _ => ?_) <;>
    refine M.Post.bind (P := fun l' => l'.length = l.length) ?_
      fun l' hl => M.Post.pure (by simp [len, hl])
  · unfold be_mp_store_l _be_mp_store_l_full _be_mp_store_l_high_partial; keeps_len
  · unfold le_mp_store_l _le_mp_store_l_full _le_mp_store_l_high_partial; keeps_len
  · unfold ne_mp_store_l; keeps_len

theorem store_l_full_len (b : Buf f) (i v : ℕ) :
    M.Post (b.store_l_full i v) (fun b' => b'.len = b.len) := by
  rcases b with l | l | l <;>
    refine M.Post.bind M.Post.trivial (fun _ _ => ?_) <;>
    refine M.Post.bind (P := fun l' => l'.length = l.length) ?_
      fun l' hl => M.Post.pure (by simp [len, hl])
  · unfold be_mp_store_l_full _be_mp_store_l_full; keeps_len
  · unfold le_mp_store_l_full _le_mp_store_l_full; keeps_len
  · unfold ne_mp_store_l; keeps_len

theorem clear_bytes_below_tr (b : Buf f) (k : ℕ) :
    (b.clear_bytes_below k).tr = [.range b.len k] := by
  rcases b with l | l | l <;> refine M.Quiet.emit_bind ?_
  · unfold be_mp_clear_bytes_below; quiet
  · unfold le_mp_clear_bytes_below; quiet
  · unfold ne_mp_clear_bytes_below ne_mp_store_l ne_mp_load_l; quiet

theorem clear_bytes_below_len (b : Buf f) (k : ℕ) :
    M.Post (b.clear_bytes_below k) (fun b' => b'.len = b.len) := by
  rcases b with l | l | l <;>
    refine M.Post.bind M.Post.trivial (fun _ _ => ?_) <;>
    refine M.Post.bind (P := fun l' => l'.length = l.length) ?_
      fun l' hl => M.Post.pure (by simp [len, hl])
  · unfold be_mp_clear_bytes_below; keeps_len
  · unfold le_mp_clear_bytes_below; keeps_len
  · unfold ne_mp_clear_bytes_below ne_mp_store_l
    dsimp only
    refine M.Post.ite ?_ post_splice
    refine M.Post.bind M.Post.trivial (fun _ _ => ?_)
    refine M.Post.bind M.Post.trivial (fun _ _ => ?_)
    refine M.Post.bind post_splice (fun l hl => ?_)
    exact post_splice.mono fun _ h => h.trans hl

/-! ### Rules for loads and stores -/

theorem sat_load_l (b : Buf f) {i : ℕ} (h : i < b.nlimbs) {Q : ℕ → Prop}
    (hQ : Q (b.toNat / B ^ i % B)) : M.Sat (b.load_l i) Q := by
  rw [load_l_eq b h]; exact M.sat_mk.2 hQ

theorem sat_load_l_full (b : Buf f) {i : ℕ} (h : i * LB + LB ≤ b.len) {Q : ℕ → Prop}
    (hQ : Q (b.toNat / B ^ i % B)) : M.Sat (b.load_l_full i) Q := by
  rw [load_l_full_eq b h]; exact M.sat_mk.2 hQ

theorem sat_store_l (b : Buf f) {i v : ℕ} (h : i < b.nlimbs) (hv : v < B)
    (hv' : i + 1 = b.nlimbs → v < 256 ^ hbytes b.len) {Q : Buf f → Prop}
    (hQ : ∀ b' : Buf f, b'.len = b.len → b'.toNat = upd b.toNat i v → Q b') :
    M.Sat (b.store_l i v) Q := by
  have hp := pow_sub_bytes h
  obtain ⟨b', h1, h2, h3⟩ := store_l_eq b h hv (by
    rcases Nat.lt_or_eq_of_le (Nat.succ_le_of_lt h) with h' | h'
    · exact lt_of_lt_of_le hv (hp.1 h')
    · rw [hp.2 h']; exact hv' h')
  rw [h1]; exact M.sat_mk.2 (hQ b' h2 h3)

theorem sat_store_l_full (b : Buf f) {i v : ℕ} (h : i * LB + LB ≤ b.len) (hv : v < B)
    {Q : Buf f → Prop}
    (hQ : ∀ b' : Buf f, b'.len = b.len → b'.toNat = upd b.toNat i v → Q b') :
    M.Sat (b.store_l_full i v) Q := by
  obtain ⟨b', h1, h2, h3⟩ := store_l_full_eq b h hv
  rw [h1]; exact M.sat_mk.2 (hQ b' h2 h3)

theorem sat_clear_bytes_above (b : Buf f) (k : ℕ) {Q : Buf f → Prop}
    (hQ : ∀ b' : Buf f, b'.len = b.len → b'.toNat = b.toNat % 256 ^ k → Q b') :
    M.Sat (b.clear_bytes_above k) Q := by
  obtain ⟨b', h1, h2, h3⟩ := clear_bytes_above_eq b k
  rw [h1]; exact M.sat_mk.2 (hQ b' h2 h3)

theorem sat_clear_bytes_below (b : Buf f) {k : ℕ} (hk : f.unaligned = true ∨ k ≤ b.len ∨ LB ∣ k)
    {Q : Buf f → Prop}
    (hQ : ∀ b' : Buf f, b'.len = b.len → b'.toNat = b.toNat / 256 ^ k * 256 ^ k → Q b') :
    M.Sat (b.clear_bytes_below k) Q := by
  obtain ⟨b', h1, h2, h3⟩ := clear_bytes_below_eq b hk
  rw [h1]; exact M.sat_mk.2 (hQ b' h2 h3)

theorem nlimbs_congr {a : Buf f} {b : Buf g} (h : a.len = b.len) : a.nlimbs = b.nlimbs := by
  unfold nlimbs; rw [h]

/-- The mask covering the most significant limb's bytes. -/
theorem partial_high_mask_eq (b : Buf f) (h : 0 < b.len) :
    b.partial_high_mask = 256 ^ hbytes b.len - 1 := by
  unfold partial_high_mask
  by_cases hu : f.unaligned = true
  · rw [if_pos hu, if_pos h.ne', ← hbytes_eq h, ct_lsb_mask_l_eq, two_pow_8]
    rw [W_eq]; have := hbytes_le b.len; omega
  · have hu : f.unaligned = false := by simpa using hu
    rw [if_neg (by simp [hu])]
    have := b.aligned hu
    have hn : 0 < b.nlimbs := nlimbs_pos_iff.2 h
    rw [this, hbytes_mul hn, ← B_eq_256_pow]; rfl

theorem and_partial_high_mask (b : Buf f) (h : 0 < b.len) (x : ℕ) :
    x &&& b.partial_high_mask = x % 256 ^ hbytes b.len := by
  rw [partial_high_mask_eq b h, ← two_pow_8, Nat.and_two_pow_sub_one_eq_mod]

theorem partial_high_mask_congr {a b : Buf f} (h : a.len = b.len) :
    a.partial_high_mask = b.partial_high_mask := by
  unfold partial_high_mask; rw [h]

/-! ### Splitting and joining -/

theorem toNat_join (h l : Buf f) : (join h l).toNat = l.toNat + 256 ^ l.len * h.toNat := by
  rcases h with h | h | h <;> rcases l with l | l | l
  · show lval (h ++ l).reverse = _
    rw [List.reverse_append, lval_append, len_be, List.length_reverse]; rfl
  · show lval (l ++ h) = _
    rw [lval_append, len_le]; rfl
  · show lval (l ++ h) = _
    rw [lval_append, len_ne, pow_256]; rfl

theorem len_join (h l : Buf f) : (join h l).len = l.len + h.len := by
  rcases h with h | h | h <;> rcases l with l | l | l <;> simp [join, len] <;> ring

theorem ne_backing (n : ℕ) : n_backing_elements_for_len .ne n = ct_mp_nlimbs n := by
  unfold n_backing_elements_for_len _limbs_align_len ct_mp_limbs_align_len
  simp [Fmt.unaligned, Fmt.usz, LB_pos]

theorem take_eq (b : Buf f) {n : ℕ} (hn : n ≤ b.len) (ha : f.unaligned = true ∨ LB ∣ n) :
    ∃ h l, b.take n = M.ok (h, l) [.range b.len n] ∧ l.len = n ∧ h.len = b.len - n ∧
      l.toNat = b.toNat % 256 ^ n ∧ h.toNat = b.toNat / 256 ^ n ∧ join h l = b := by
  rcases b with b | b | b <;> simp only [take, split_at]
  · rw [len_be] at hn
    refine ⟨be (b.take (b.length - n)), be (b.drop (b.length - n)), ?_, ?_, ?_, ?_, ?_, ?_⟩
    · rw [M.sub_eq hn, M.pure_bind, M.check_eq (by omega)]; rfl
    · rw [len_be]; simp; omega
    · rw [len_be, len_be]; simp
    · rw [toNat_be, ← List.take_reverse, (lval_take_drop _ _ (by simpa using hn)).1]; rfl
    · rw [toNat_be, ← List.drop_reverse, (lval_take_drop _ _ (by simpa using hn)).2]; rfl
    · simp [join]
  · rw [len_le] at hn
    refine ⟨le (b.drop n), le (b.take n), ?_, ?_, ?_, ?_, ?_, ?_⟩
    · rw [M.check_eq (by omega)]; rfl
    · rw [len_le]; simp; omega
    · rw [len_le, len_le]; simp
    · exact (lval_take_drop _ _ hn).1
    · exact (lval_take_drop _ _ hn).2
    · simp [join]
  · have ha : LB ∣ n := by simpa [Fmt.unaligned] using ha
    obtain ⟨k, rfl⟩ := ha
    rw [mul_comm] at *
    rw [len_ne] at hn
    have hk := Nat.le_of_mul_le_mul_right hn LB_pos
    refine ⟨ne (b.drop k), ne (b.take k), ?_, ?_, ?_, ?_, ?_, ?_⟩
    · rw [M.assert_eq (by simp), ne_backing, nlimbs_mul, M.check_eq (by omega)]; rfl
    · rw [len_ne]; simp [hk]
    · rw [len_ne, len_ne]; simp [Nat.sub_mul]
    · rw [pow_256]; exact (lval_take_drop _ _ hk).1
    · rw [pow_256]; exact (lval_take_drop _ _ hk).2
    · simp [join]

theorem limbs_align_len_le (b : Buf f) {n : ℕ} (hn : n ≤ b.len) : _limbs_align_len f n ≤ b.len := by
  cases f
  · exact hn
  · exact hn
  · show ct_mp_nlimbs n * LB ≤ _
    rw [b.aligned rfl]
    exact Nat.mul_le_mul_right _ (nlimbs_mono hn)

theorem shrink_to_eq' (b : Buf f) {n : ℕ} (hn : n ≤ b.len) :
    ∃ l h, b._shrink_to n = M.ok (l, h) [.range b.len n] ∧ l.len = _limbs_align_len f n ∧
      h.len = b.len - _limbs_align_len f n ∧
      l.toNat = b.toNat % 256 ^ (_limbs_align_len f n) ∧
      h.toNat = b.toNat / 256 ^ (_limbs_align_len f n) ∧ join h l = b := by
  have hle := limbs_align_len_le b hn
  have ha : f.unaligned = true ∨ LB ∣ _limbs_align_len f n := by
    cases f <;> simp [Fmt.unaligned, _limbs_align_len, ct_mp_limbs_align_len]
  obtain ⟨h, l, e, r⟩ := take_eq b hle ha
  refine ⟨l, h, ?_, r⟩
  rcases b with b | b | b <;> simp only [take, _shrink_to, split_at] at *
  · rw [len_be] at hn
    have : _limbs_align_len .be n = n := rfl
    rw [this, M.sub_eq hn, M.pure_bind, M.check_eq (by omega)] at e
    rw [M.sub_eq hn, M.pure_bind, M.check_eq (by omega)]
    have e := congrArg M.val e
    injection e with e; injection e with e1 e2
    subst e1 e2; rfl
  · rw [len_le] at hn
    have : _limbs_align_len .le n = n := rfl
    rw [this, M.check_eq hn] at e
    rw [M.check_eq hn]
    have e := congrArg M.val e
    injection e with e; injection e with e1 e2
    subst e1 e2; rfl
  · have : _limbs_align_len .ne n = ct_mp_nlimbs n * LB := rfl
    have hle : ct_mp_nlimbs n ≤ b.length := by
      rw [← nlimbs_ne]; exact nlimbs_mono hn
    rw [this, ne_backing, nlimbs_mul, M.assert_eq (by simp), M.check_eq hle] at e
    rw [ne_backing, M.check_eq hle]
    have e := congrArg M.val e
    injection e with e; injection e with e1 e2
    subst e1 e2; rfl

end Buf
end Cmpa
