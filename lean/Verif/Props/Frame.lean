import Verif.Props.NoPanic

/-!
# Frame conditions (C40)

What an operation leaves as it was: the lengths of all buffers; of a buffer's bytes those outside the limb, bit
or part of the buffer the operation works on; and the modulus of an inversion, which is temporarily
overwritten.
-/

namespace Cmpa
namespace Props
open M
variable [LimbCfg] {f g h f' e' φ ψ χ : Fmt}

/-- Specification: the byte at a position, counted from the least significant one. -/
def byteAt (b : Buf f) (p : ℕ) : ℕ := b.toNat / 256 ^ p % 256

/-- A byte is part of a limb. -/
theorem byteAt_eq (b : Buf f) (p : ℕ) :
    byteAt b p = b.toNat / B ^ (p / LB) % B / 256 ^ (p % LB) % 256 := by
  unfold byteAt
  have h1 : 256 ^ p = B ^ (p / LB) * 256 ^ (p % LB) := by
    rw [B_eq_256_pow, ← pow_mul, ← pow_add, Nat.div_add_mod]
  have h2 : B = 256 ^ (p % LB) * (256 ^ (LB - p % LB - 1) * 256) := by
    rw [B_eq_256_pow, ← pow_succ, ← pow_add]
    have := Nat.mod_lt p LB_pos
    congr 1; omega
  rw [h1, ← Nat.div_div_eq_div_mul]
  generalize b.toNat / B ^ (p / LB) = x
  rw [h2, Nat.mod_mul_right_div_self, mul_comm, Nat.mod_mul_right_mod]

/-- C40: storing a limb leaves the bytes of all other limbs as they are. -/
theorem C40_store (b : Buf f) (i v : ℕ) (hi : i * LB < b.len) (hv : v < B)
    (hv' : v < 256 ^ (b.len - i * LB)) :
    Sat (b.store_l i v) (fun b' => b'.len = b.len ∧
      ∀ p, p < i * LB ∨ (i + 1) * LB ≤ p → byteAt b' p = byteAt b p) := by
  refine (C15_store b i v hi hv hv').mono ?_
  rintro b' ⟨h1, h2⟩
  refine ⟨h1, fun p hp => ?_⟩
  have : p / LB ≠ i := by
    rintro rfl
    have h3 := Nat.div_add_mod p LB
    have h4 := Nat.mod_lt p LB_pos
    rw [add_mul, one_mul, mul_comm (p / LB)] at hp
    omega
  rw [byteAt_eq, byteAt_eq, h2, if_neg this]

example : letI := cfg64; ((Buf.ofNat .be 13 0x0102030405060708090a0b0c0d).store_l 1 7).val.map
    (fun b => (b.toNat, b.len)) = some (0x00000000070607 * 2 ^ 48 + 0x08090a0b0c0d, 13) := by
  decide +kernel

/-- C40: setting a bit leaves all other bits as they are. -/
theorem C40_set_bit (b : Buf f) (p : ℕ) (v : Bool) (hp : p < 8 * b.len) :
    Sat (b.set_bit_to p v) (fun b' => b'.len = b.len ∧
      ∀ j, j ≠ p → b'.toNat.testBit j = b.toNat.testBit j) :=
  (C18_set_bit_to b p v hp).mono fun b' ⟨h1, h2⟩ => ⟨h1, fun j hj => by rw [h2, if_neg hj]⟩

example : letI := cfg32; ((Buf.ofNat .le 5 0x80).set_bit_to 39 true).val.map Buf.toNat
    = some (2 ^ 39 + 0x80) := by decide +kernel

/-! ## Parts of buffers -/

/-- C40: whatever is done to the low part of a buffer, as long as it keeps its length, leaves the bytes above as
they are. -/
theorem C40_low_part (b : Buf f) (n : ℕ) (hn : n ≤ b.len) (ha : f = .ne → LB ∣ n)
    (op : Buf f → M (Buf f)) (P : ℕ → ℕ → Prop)
    (hop : ∀ l : Buf f, l.len = n → Sat (op l) (fun l' => l'.len = l.len ∧ P l.toNat l'.toNat)) :
    Sat (do let (high, low) ← b.take n; let low ← op low; pure (Buf.join high low))
      (fun b' => b'.len = b.len ∧ P (b.toNat % 256 ^ n) (b'.toNat % 256 ^ n) ∧
        ∀ p, n ≤ p → byteAt b' p = byteAt b p) := by
  refine (C15_take b n hn ha).bind ?_
  rintro ⟨high, low⟩ ⟨h1, h2, h3, h4⟩
  dsimp only at h1 h2 h3 h4 ⊢
  refine (hop low h1).bind ?_
  rintro low' ⟨h5, h6⟩
  rw [h1] at h5
  have hlt := low'.toNat_lt
  rw [h5] at hlt
  have hm : (Buf.join high low').toNat % 256 ^ n = low'.toNat := by
    rw [Buf.toNat_join, h5, Nat.add_mul_mod_self_left, Nat.mod_eq_of_lt hlt]
  have hd : (Buf.join high low').toNat / 256 ^ n = b.toNat / 256 ^ n := by
    rw [Buf.toNat_join, h5, Nat.add_mul_div_left _ _ (by positivity), Nat.div_eq_of_lt hlt, h4,
      zero_add]
  refine Sat.pure ⟨?_, ?_, fun p hp => ?_⟩
  · rw [Buf.len_join, h5, h2]; omega
  · rw [hm, ← h3]; exact h6
  · obtain ⟨k, rfl⟩ := Nat.exists_eq_add_of_le hp
    unfold byteAt
    rw [pow_add, ← Nat.div_div_eq_div_mul, ← Nat.div_div_eq_div_mul, hd]

/-- C40: and whatever is done to the high part leaves the bytes below as they are. -/
theorem C40_high_part (b : Buf f) (n : ℕ) (hn : n ≤ b.len) (ha : f = .ne → LB ∣ n)
    (op : Buf f → M (Buf f)) (P : ℕ → ℕ → Prop)
    (hop : ∀ l : Buf f, l.len = b.len - n →
      Sat (op l) (fun l' => l'.len = l.len ∧ P l.toNat l'.toNat)) :
    Sat (do let (high, low) ← b.take n; let high ← op high; pure (Buf.join high low))
      (fun b' => b'.len = b.len ∧ P (b.toNat / 256 ^ n) (b'.toNat / 256 ^ n) ∧
        b'.toNat % 256 ^ n = b.toNat % 256 ^ n) := by
  refine (C15_take b n hn ha).bind ?_
  rintro ⟨high, low⟩ ⟨h1, h2, h3, h4⟩
  dsimp only at h1 h2 h3 h4 ⊢
  refine (hop high h2).bind ?_
  rintro high' ⟨h5, h6⟩
  have hlt := low.toNat_lt
  rw [h1] at hlt
  refine Sat.pure ⟨?_, ?_, ?_⟩
  · rw [Buf.len_join, h5, h1, h2]; omega
  · rw [Buf.toNat_join, h1, Nat.add_mul_div_left _ _ (by positivity), Nat.div_eq_of_lt hlt,
      zero_add, ← h4]
    exact h6
  · rw [Buf.toNat_join, h1, Nat.add_mul_mod_self_left, h3, Nat.mod_mod]

/-- C40: an instance of these: shifting the low part of a buffer.  The bits shifted out of it are dropped. -/
theorem C40_lshift_low_part (b : Buf f) (n d : ℕ) (h0 : 0 < n) (hn : n ≤ b.len)
    (ha : f = .ne → LB ∣ n) :
    Sat (do let (high, low) ← b.take n
            let low ← (do let r ← ct_lshift_mp low d; pure r.1)
            pure (Buf.join high low))
      (fun b' => b'.len = b.len ∧
        b'.toNat % 256 ^ n = (b.toNat % 256 ^ n) * 2 ^ d % 2 ^ (8 * n) ∧
        ∀ p, n ≤ p → byteAt b' p = byteAt b p) := by
  refine C40_low_part b n hn ha (fun l => do let r ← ct_lshift_mp l d; pure r.1)
    (fun x y => y = x * 2 ^ d % 2 ^ (8 * n)) ?_
  intro l hl
  refine (C07_lshift l d (by omega)).bind ?_
  rintro ⟨l', o⟩ ⟨h1, -, h2, -⟩
  rw [hl] at h2
  exact Sat.pure ⟨h1, h2⟩

example : letI := cfg64; (do
    let (high, low) ← (Buf.ofNat .be 9 0x010203040506070809).take 3
    let low ← (do let r ← ct_lshift_mp low 4; pure r.1)
    pure (Buf.join high low) : M (Buf .be)).val.map Buf.toNat = some 0x010203040506708090 := by
  decide +kernel

/-- C40: the low part is returned by `shrink_to` together with what is left out (the model's way to say that the latter isn't
touched), and both make up the buffer. -/
theorem C40_shrink_to (b : Buf f) (n : ℕ) (hn : b.toNat < 256 ^ n) :
    Sat (b.shrink_to n) (fun r => Buf.join r.2 r.1 = b) := by
  unfold Buf.shrink_to
  dsimp only
  have hlt : b.toNat < 256 ^ (min n b.len) := by
    rcases min_choice n b.len with h | h <;> rw [h]
    · exact hn
    · exact b.toNat_lt
  rw [assert_fits b hlt, M.pure_bind]
  obtain ⟨l, h, e, h1, h2, h3, h4, h5⟩ := b.shrink_to_eq' (n := min n b.len) (min_le_right _ _)
  rw [e]
  exact sat_mk.2 h5

theorem catNat_part (l r : List (Buf f)) (b : Buf f) :
    catNat (l ++ b :: r) / 256 ^ catLen l % 256 ^ b.len = b.toNat := by
  induction l with
  | nil =>
    simp only [List.nil_append, catLen, List.map_nil, List.sum_nil, pow_zero, Nat.div_one, catNat]
    rw [Nat.add_mul_mod_self_left, Nat.mod_eq_of_lt b.toNat_lt]
  | cons c l ih =>
    simp only [List.cons_append, catNat, catLen, List.map_cons, List.sum_cons] at ih ⊢
    rw [pow_add, ← Nat.div_div_eq_div_mul, Nat.add_mul_div_left _ _ (by positivity),
      Nat.div_eq_of_lt c.toNat_lt, zero_add]
    exact ih

/-- Parts outside the limb changed. -/
theorem upd_part {x i v s m : ℕ} (hv : v < B) (h : s + m ≤ i * LB ∨ (i + 1) * LB ≤ s) :
    upd x i v / 256 ^ s % 256 ^ m = x / 256 ^ s % 256 ^ m := by
  have hB : ∀ k, B ^ k = 256 ^ (k * LB) := fun k => by
    rw [B_eq_256_pow, ← pow_mul, mul_comm]
  rcases h with h | h
  · obtain ⟨k, hk⟩ := Nat.exists_eq_add_of_le h
    have h1 : ∀ y, y / 256 ^ s % 256 ^ m = y % B ^ i / 256 ^ s % 256 ^ m := by
      intro y
      rw [hB, hk, add_assoc, pow_add, Nat.mod_mul_right_div_self, pow_add, Nat.mod_mul_right_mod]
    rw [h1, h1 x, upd_mod x i v le_rfl]
  · obtain ⟨k, hk⟩ := Nat.exists_eq_add_of_le h
    rw [hk, pow_add, ← hB, ← Nat.div_div_eq_div_mul, ← Nat.div_div_eq_div_mul,
      upd_div hv (Nat.lt_succ_self i)]

/-- C40: a write to a number composed of several buffers leaves those alone which hold no part of the limb
written: those which end below it, and those which begin above it. -/
theorem C40_composite (l r : List (Buf f)) (b : Buf f) (i v : ℕ)
    (hi : i * LB < catLen (l ++ b :: r)) (hv : v < B)
    (hfit : v < 256 ^ (catLen (l ++ b :: r) - i * LB))
    (hb : catLen l + b.len ≤ i * LB ∨ (i + 1) * LB ≤ catLen l) :
    Sat (do let c ← Composite.new (l ++ b :: r); let c ← c.store i v; pure c.parts)
      (fun parts => parts[l.length]? = some b) := by
  refine (C19_store _ i v (lt_nlimbs_iff.2 hi) hv hfit).mono ?_
  rintro l' ⟨h1, h2⟩
  rw [List.map_append, List.map_cons] at h1
  obtain ⟨l1, t, rfl, e1, e2⟩ := List.map_eq_append_iff.1 h1
  obtain ⟨b', r1, rfl, e3, e4⟩ := List.map_eq_cons_iff.1 e2
  have hlen : l1.length = l.length := by
    simpa using congrArg List.length e1
  have hcat : catLen l1 = catLen l := congrArg List.sum e1
  rw [List.getElem?_append_right (by omega), hlen, Nat.sub_self, List.getElem?_cons_zero]
  congr 1
  refine Buf.ext' e3 ?_
  have h3 := catNat_part l1 r1 b'
  rw [h2, ← upd_eq_setLimb, hcat, e3, upd_part hv hb, catNat_part] at h3
  exact h3.symm

example : letI := cfg32; (do
    let c ← Composite.new [Buf.ofNat .be 3 1, Buf.ofNat .be 1 2, Buf.ofNat .be 9 3]
    let c ← c.store 1 5; pure c.parts : M (List (Buf .be))).val.map (List.map Buf.toNat)
      = some [1, 2, 5] := by decide +kernel

/-! ## Lengths -/

/-- C40: sums, differences, negation, shifts, products, swaps keep the lengths. -/
theorem C40_len_arith (a : Buf f) (b : Buf g) (c : Bool) (d n : ℕ) :
    (b.len ≤ a.len → Sat (ct_add_mp_mp a b) (fun r => r.1.len = a.len) ∧
      Sat (ct_sub_mp_mp a b) (fun r => r.1.len = a.len) ∧
      Sat (ct_add_cond_mp_mp a b (.ofBool c)) (fun r => r.1.len = a.len) ∧
      Sat (ct_sub_cond_mp_mp a b (.ofBool c)) (fun r => r.1.len = a.len)) ∧
    Sat (ct_negate_mp a) (fun a' => a'.len = a.len) ∧
    Sat (ct_negate_cond_mp a (.ofBool c)) (fun a' => a'.len = a.len) ∧
    Sat (ct_lshift_mp a d) (fun r => r.1.len = a.len) ∧
    Sat (ct_rshift_mp a d) (fun r => r.1.len = a.len) ∧
    (n ≤ a.len → Sat (ct_mul_trunc_mp_mp a n b) (fun a' => a'.len = a.len) ∧
      Sat (ct_mul_trunc_cond_mp_mp a n b (.ofBool c)) (fun a' => a'.len = a.len)) := by
  refine ⟨fun hl => ?_, (C05_negate a).mono fun _ h => h.1, (C04_negate_cond a c).mono ?_, ?_,
    (C08_rshift a d).mono fun _ h => h.1, fun hn => ⟨(C09_mul a n b hn).mono fun _ h => h.1, ?_⟩⟩
  · have hb : b.toNat < 256 ^ a.len :=
      lt_of_lt_of_le b.toNat_lt (Nat.pow_le_pow_right (by norm_num) hl)
    refine ⟨(C02_add_len a b hl).mono fun _ h => h.1, (C03_sub_len a b hl).mono fun _ h => h.1,
      (C04_add_cond a b c (nlimbs_mono hl) fun _ => hb).mono ?_,
      (C04_sub_cond a b c (nlimbs_mono hl) fun _ => hb).mono ?_⟩
    all_goals
      rintro ⟨a', x⟩ h
      cases c
      · exact congrArg Buf.len h.1
      · exact h.1
  · intro a' h
    cases c
    · exact congrArg Buf.len h
    · exact h.1
  · rcases Nat.eq_zero_or_pos a.len with h0 | h0
    · exact (C07_lshift_empty a d h0).mono fun _ h => by rw [h0]; exact h.1
    · exact (C07_lshift a d h0).mono fun _ h => h.1
  · rcases Nat.eq_zero_or_pos b.len with h0 | h0
    · exact (C04_mul_cond_empty a n b c hn h0).mono fun _ h => h.1
    · exact (C04_mul_cond a n b c hn h0).mono fun _ h => h.1

/-! ## The modulus of an inversion -/

/-- C40: `ct_inv_mod_mp_mp` overwrites its modulus, but restores it whenever it returns, whether it succeeds or not. -/
theorem C40_inv_modulus (op0 : Buf φ) (n : Buf ψ) (s0 s1 s2 s3 : Buf .ne) :
    ∀ r, (ct_inv_mod_mp_mp op0 n s0 s1 s2 s3).val = some r → r.1 = n := by
  intro r hr
  have hex := ct_inv_mod_mp_mp_exact op0 n s0 s1 s2 s3
  by_cases hS : InvAnyOk op0 n s0 s1 s2 s3
  · obtain ⟨a, ha, h1, h2, -⟩ := hex.sat hS
    rw [ha, Option.some_inj] at hr
    subst hr
    exact Buf.ext' h1 h2
  · rw [hex.panic hS] at hr; cases hr

example : letI := cfg64; (ct_inv_mod_mp_mp (Buf.ofNat .be 10 3) (Buf.ofNat .be 10 80)
    (Buf.ofNat .ne 16 0) (Buf.ofNat .ne 16 0) (Buf.ofNat .ne 16 0) (Buf.ofNat .ne 16 0)).val.map
    (fun r => (r.1.toNat, r.2.toOption.map Buf.toNat)) = some (80, some 27) := by decide +kernel

end Props
end Cmpa
