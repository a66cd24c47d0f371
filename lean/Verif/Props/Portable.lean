import Verif.Props.RoundTrip
import Verif.Props.Protocol
import Verif.Props.Shift
import Verif.Props.Buf
import Verif.Props.Hex
import Verif.Props.Prime
import Verif.Props.InvMod

/-!
# Results do not depend on the platform or on the storage format (C47)

Two runs of the same operation are compared: one where limbs have the size given by `c`, with buffers of
some formats, and one where they have the size given by `c'`, with buffers of other formats.  Operands
have the same lengths and hold the same numbers.
-/

namespace Cmpa
namespace Props

open M
variable {c c' : LimbCfg} {f g h f' g' h' : Fmt}

/-- Specification: two buffers, possibly on different platforms and in different formats, have the same
length and hold the same number. -/
def SameNum {c c' : LimbCfg} {f f' : Fmt} (x : @Buf c f) (x' : @Buf c' f') : Prop :=
  @Buf.len c f x = @Buf.len c' f' x' ∧ @Buf.toNat c f x = @Buf.toNat c' f' x'

/-- Specification: two buffers have the same length. -/
def SameLen {c c' : LimbCfg} {f f' : Fmt} (x : @Buf c f) (x' : @Buf c' f') : Prop :=
  @Buf.len c f x = @Buf.len c' f' x'

/-- Specification: two runs both end without a panic, with results related by `R`. -/
def Agree {α β : Type} (m : M α) (m' : M β) (R : α → β → Prop) : Prop :=
  ∃ a b, m.val = some a ∧ m'.val = some b ∧ R a b

theorem Agree.of {α β : Type} {m : M α} {m' : M β} {P : α → Prop} {Q : β → Prop}
    {R : α → β → Prop} (h : Sat m P) (h' : Sat m' Q) (hR : ∀ a b, P a → Q b → R a b) :
    Agree m m' R := by
  obtain ⟨a, h1, h2⟩ := h
  obtain ⟨b, h3, h4⟩ := h'
  exact ⟨a, b, h1, h3, hR a b h2 h4⟩

/-- Specification: both runs have succeeded, with results related by `R`. -/
def BothOk {ε ε' α β : Type} (R : α → β → Prop) : Except ε α → Except ε' β → Prop
  | .ok a, .ok b => R a b
  | _, _ => False

theorem unwrap_ofBool (b : Bool) : (@LimbChoice.ofBool c b).unwrap = if b then 1 else 0 := by
  cases b <;> simp

/-! ## C47 -/

/-- C47: the comparisons. -/
theorem C47_compare (a : @Buf c f) (b : @Buf c g) (a' : @Buf c' f') (b' : @Buf c' g')
    (ha : SameNum a a') (hb : SameNum b b') :
    Agree (@ct_eq_mp_mp c f g a b) (@ct_eq_mp_mp c' f' g' a' b') (·.unwrap = ·.unwrap) ∧
    Agree (@ct_neq_mp_mp c f g a b) (@ct_neq_mp_mp c' f' g' a' b') (·.unwrap = ·.unwrap) ∧
    Agree (@ct_leq_mp_mp c f g a b) (@ct_leq_mp_mp c' f' g' a' b') (·.unwrap = ·.unwrap) ∧
    Agree (@ct_lt_mp_mp c f g a b) (@ct_lt_mp_mp c' f' g' a' b') (·.unwrap = ·.unwrap) ∧
    Agree (@ct_geq_mp_mp c f g a b) (@ct_geq_mp_mp c' f' g' a' b') (·.unwrap = ·.unwrap) ∧
    Agree (@ct_gt_mp_mp c f g a b) (@ct_gt_mp_mp c' f' g' a' b') (·.unwrap = ·.unwrap) ∧
    Agree (@ct_is_zero_mp c f a) (@ct_is_zero_mp c' f' a') (·.unwrap = ·.unwrap) ∧
    Agree (@ct_is_one_mp c f a) (@ct_is_one_mp c' f' a') (·.unwrap = ·.unwrap) := by
  refine ⟨.of (@C01_eq c _ _ a b) (@C01_eq c' _ _ a' b') ?_,
    .of (@C01_neq c _ _ a b) (@C01_neq c' _ _ a' b') ?_,
    .of (@C01_leq c _ _ a b) (@C01_leq c' _ _ a' b') ?_,
    .of (@C01_lt c _ _ a b) (@C01_lt c' _ _ a' b') ?_,
    .of (@C01_geq c _ _ a b) (@C01_geq c' _ _ a' b') ?_,
    .of (@C01_gt c _ _ a b) (@C01_gt c' _ _ a' b') ?_,
    .of (@C01_is_zero c _ a) (@C01_is_zero c' _ a') ?_,
    .of (@C01_is_one c _ a) (@C01_is_one c' _ a') ?_⟩ <;>
  · rintro _ _ rfl rfl
    rw [unwrap_ofBool, unwrap_ofBool]
    simp only [ha.2, hb.2]

/-- C47: addition, with the carry. -/
theorem C47_add (a : @Buf c f) (b : @Buf c g) (a' : @Buf c' f') (b' : @Buf c' g')
    (ha : SameNum a a') (hb : SameNum b b') (hl : @Buf.len c g b ≤ @Buf.len c f a) :
    Agree (@ct_add_mp_mp c f g a b) (@ct_add_mp_mp c' f' g' a' b')
      (fun r r' => SameNum r.1 r'.1 ∧ r.2 = r'.2) := by
  refine .of (@C02_add_len c _ _ a b hl) (@C02_add_len c' _ _ a' b' (by rw [← ha.1, ← hb.1]; exact hl)) ?_
  rintro ⟨x, k⟩ ⟨y, l⟩ ⟨h1, h2, h3⟩ ⟨h4, h5, h6⟩
  dsimp only at *
  have hx := @Buf.toNat_lt c _ x
  have hy := @Buf.toNat_lt c' _ y
  rw [h1] at hx
  rw [h4, ← ha.1] at hy
  rw [← ha.1, ← ha.2, ← hb.2, ← h3] at h6
  have hk : k = l := by
    rcases Nat.le_one_iff_eq_zero_or_eq_one.1 h2 with rfl | rfl <;>
    rcases Nat.le_one_iff_eq_zero_or_eq_one.1 h5 with rfl | rfl <;> omega
  subst hk
  exact ⟨⟨by rw [h1, h4, ha.1], by omega⟩, rfl⟩

/-- C47: subtraction, with the borrow. -/
theorem C47_sub (a : @Buf c f) (b : @Buf c g) (a' : @Buf c' f') (b' : @Buf c' g')
    (ha : SameNum a a') (hb : SameNum b b') (hl : @Buf.len c g b ≤ @Buf.len c f a) :
    Agree (@ct_sub_mp_mp c f g a b) (@ct_sub_mp_mp c' f' g' a' b')
      (fun r r' => SameNum r.1 r'.1 ∧ r.2 = r'.2) := by
  refine .of (@C03_sub_len c _ _ a b hl) (@C03_sub_len c' _ _ a' b' (by rw [← ha.1, ← hb.1]; exact hl)) ?_
  rintro ⟨x, k⟩ ⟨y, l⟩ ⟨h1, h2, h3⟩ ⟨h4, h5, h6⟩
  dsimp only at *
  have hx := @Buf.toNat_lt c _ x
  have hy := @Buf.toNat_lt c' _ y
  rw [h1] at hx
  rw [h4, ← ha.1] at hy
  rw [← ha.1, ← ha.2, ← hb.2] at h6
  have hk : k = l := by
    rcases Nat.le_one_iff_eq_zero_or_eq_one.1 h2 with rfl | rfl <;>
    rcases Nat.le_one_iff_eq_zero_or_eq_one.1 h5 with rfl | rfl <;> omega
  subst hk
  exact ⟨⟨by rw [h1, h4, ha.1], by omega⟩, rfl⟩

/-- C47: negation. -/
theorem C47_negate (a : @Buf c f) (a' : @Buf c' f') (ha : SameNum a a') :
    Agree (@ct_negate_mp c f a) (@ct_negate_mp c' f' a') SameNum := by
  refine .of (@C05_negate c _ a) (@C05_negate c' _ a') ?_
  rintro x y ⟨h1, h2⟩ ⟨h3, h4⟩
  exact ⟨by rw [h1, h3, ha.1], by rw [h2, h4, ha.1, ha.2]⟩

/-- C47: multiplication. -/
theorem C47_mul (a : @Buf c f) (b : @Buf c g) (a' : @Buf c' f') (b' : @Buf c' g') (n : ℕ)
    (ha : SameNum a a') (hb : SameNum b b') (hn : n ≤ @Buf.len c f a) :
    Agree (@ct_mul_trunc_mp_mp c f g a n b) (@ct_mul_trunc_mp_mp c' f' g' a' n b') SameNum := by
  refine .of (@C09_mul c _ _ a n b hn) (@C09_mul c' _ _ a' n b' (by rw [← ha.1]; exact hn)) ?_
  rintro x y ⟨h1, h2⟩ ⟨h3, h4⟩
  exact ⟨by rw [h1, h3, ha.1], by rw [h2, h4, ha.1, ha.2, hb.2]⟩

/-- C47: the shifts, as far as the buffer is concerned.  The limb returned in addition depends on the
platform: see `C47_shift_fails`. -/
theorem C47_shift (a : @Buf c f) (a' : @Buf c' f') (ha : SameNum a a') (d : ℕ)
    (hl : 0 < @Buf.len c f a) :
    Agree (@ct_lshift_mp c f a d) (@ct_lshift_mp c' f' a' d) (fun r r' => SameNum r.1 r'.1) ∧
    Agree (@ct_rshift_mp c f a d) (@ct_rshift_mp c' f' a' d) (fun r r' => SameNum r.1 r'.1) := by
  constructor
  · refine .of (@C07_lshift c _ a d hl) (@C07_lshift c' _ a' d (by rw [← ha.1]; exact hl)) ?_
    rintro x y ⟨h1, -, h2, -⟩ ⟨h3, -, h4, -⟩
    exact ⟨by rw [h1, h3, ha.1], by rw [h2, h4, ha.1, ha.2]⟩
  · refine .of (@C08_rshift c _ a d) (@C08_rshift c' _ a' d) ?_
    rintro x y ⟨h1, -, h2, -⟩ ⟨h3, -, h4, -⟩
    exact ⟨by rw [h1, h3, ha.1], by rw [h2, h4, ha.2]⟩

/-- C47: copying, into a buffer of whatever contents. -/
theorem C47_copy (a : @Buf c f) (b : @Buf c g) (a' : @Buf c' f') (b' : @Buf c' g')
    (ha : SameLen a a') (hb : SameNum b b') (hl : @Buf.toNat c g b < 256 ^ @Buf.len c f a) :
    Agree (@Buf.copy_from c f g a b) (@Buf.copy_from c' f' g' a' b') SameNum := by
  unfold SameLen at ha
  refine .of (@C17_copy_from c _ _ a b hl) (@C17_copy_from c' _ _ a' b'
    (by rw [← ha, ← hb.2]; exact hl)) ?_
  rintro x y ⟨h1, h2⟩ ⟨h3, h4⟩
  exact ⟨by rw [h1, h3, ha], by rw [h2, h4, hb.2]⟩

/-- C47: the lengths in bytes and in bits, the number of trailing zero bits, and the single bits. -/
theorem C47_bits (a : @Buf c f) (a' : @Buf c' f') (ha : SameNum a a') :
    Agree (@find_last_set_byte_mp c f a) (@find_last_set_byte_mp c' f' a') (· = ·) ∧
    Agree (@ct_find_last_set_bit_mp c f a) (@ct_find_last_set_bit_mp c' f' a') (·.2 = ·.2) ∧
    Agree (@ct_find_first_set_bit_mp c f a) (@ct_find_first_set_bit_mp c' f' a') (·.2 = ·.2) ∧
    ∀ p, Agree (@Buf.test_bit c f a p) (@Buf.test_bit c' f' a' p) (·.unwrap = ·.unwrap) := by
  refine ⟨.of (@C18_byte_length c _ a) (@C18_byte_length c' _ a') ?_,
    .of (@C18_bit_length c _ a) (@C18_bit_length c' _ a') ?_,
    .of (@C18_trailing_zeros c _ a) (@C18_trailing_zeros c' _ a') ?_,
    fun p => .of (@C18_test_bit c _ a p) (@C18_test_bit c' _ a' p) ?_⟩
  · rintro x y ⟨h1, h2⟩ ⟨h3, h4⟩
    rw [← ha.2] at h3 h4
    exact le_antisymm (h2 y h3) (h4 x h1)
  · rintro x y ⟨-, h1, h2⟩ ⟨-, h3, h4⟩
    rw [← ha.2] at h3 h4
    exact le_antisymm (h2 _ h3) (h4 _ h1)
  · rintro x y ⟨-, h1, h2⟩ ⟨-, h3, h4⟩
    rw [← ha.2] at h3 h4
    by_cases h0 : @Buf.toNat c f a = 0
    · rw [h1 h0, h3 h0]
    · obtain ⟨h5, h6⟩ := h2 h0
      obtain ⟨h7, h8⟩ := h4 h0
      rcases Nat.lt_trichotomy x.2 y.2 with h | h | h
      · exact absurd ((Nat.pow_dvd_pow 2 h).trans h7) h6
      · exact h
      · exact absurd ((Nat.pow_dvd_pow 2 h).trans h5) h8
  · rintro _ _ rfl rfl
    rw [unwrap_ofBool, unwrap_ofBool, ha.2]

/-- C47: division, into a quotient buffer of whatever contents. -/
theorem C47_div (u : @Buf c f) (v : @Buf c g) (q : @Buf c h) (u' : @Buf c' f') (v' : @Buf c' g')
    (q' : @Buf c' h') (hu : SameNum u u') (hv : SameNum v v') (hq : SameLen q q')
    (h0 : @Buf.toNat c g v ≠ 0) (hl : @Buf.len c f u ≤ @Buf.len c h q) :
    Agree (@quotRem c f g h u v q) (@quotRem c' f' g' h' u' v' q')
      (fun r r' => SameNum r.1 r'.1 ∧ SameNum r.2 r'.2) := by
  unfold SameLen at hq
  refine .of (@quotRem_sat c _ _ _ u v q h0 hl) (@quotRem_sat c' _ _ _ u' v' q'
    (by rw [← hv.2]; exact h0) (by rw [← hq, ← hu.1]; exact hl)) ?_
  rintro ⟨x, y⟩ ⟨x', y'⟩ ⟨h1, h2, h3, h4⟩ ⟨h5, h6, h7, h8⟩
  exact ⟨⟨by rw [h1, h5, hu.1], by rw [h2, h6, hu.2, hv.2]⟩,
    ⟨by rw [h3, h7, hq], by rw [h4, h8, hu.2, hv.2]⟩⟩

/-- Reducing `u` modulo `v`. -/
def reduce [LimbCfg] (u : Buf f) (v : Buf g) : M (Buf f) := do
  match ← divideBy v none fun d => do let r ← ct_mod_mp_mp none u d; pure (.ok r) with
  | .ok (_, r) => pure r
  | _ => M.panic

theorem reduce_sat [LimbCfg] (u : Buf f) (v : Buf g) (h0 : v.toNat ≠ 0) :
    Sat (reduce u v) (fun r => r.len = u.len ∧ r.toNat = u.toNat % v.toNat) := by
  unfold reduce
  refine (C21_mod none u v none (by simp) (by simp; omega)).bind ?_
  rintro _ ⟨uh, r, rfl, h1, h2, h3⟩
  cases uh with
  | some _ => simp at h1
  | none => exact Sat.pure ⟨h2, by simpa [dividend] using h3⟩

/-- C47: the remainder of a division. -/
theorem C47_mod (u : @Buf c f) (v : @Buf c g) (u' : @Buf c' f') (v' : @Buf c' g')
    (hu : SameNum u u') (hv : SameNum v v') (h0 : @Buf.toNat c g v ≠ 0) :
    Agree (@reduce f g c u v) (@reduce f' g' c' u' v') SameNum := by
  refine .of (@reduce_sat _ _ c u v h0) (@reduce_sat _ _ c' u' v' (by rw [← hv.2]; exact h0)) ?_
  rintro x x' ⟨h1, h2⟩ ⟨h3, h4⟩
  exact ⟨by rw [h1, h3, hu.1], by rw [h2, h4, hu.2, hv.2]⟩

/-- C47: the greatest common divisor of operands of the same length. -/
theorem C47_gcd (a : @Buf c f) (b : @Buf c g) (a' : @Buf c' f') (b' : @Buf c' g')
    (ha : SameNum a a') (hb : SameNum b b') (hl : @Buf.len c f a = @Buf.len c g b)
    (h0 : @Buf.len c f a ≠ 0) :
    Agree (@ct_gcd_mp_mp c f g a b) (@ct_gcd_mp_mp c' f' g' a' b')
      (BothOk fun r r' => SameNum r.1 r'.1 ∧ SameNum r.2 r'.2) := by
  have hl' : @Buf.len c' f' a' = @Buf.len c' g' b' := by rw [← ha.1, ← hb.1, hl]
  have h0' : @Buf.len c' f' a' ≠ 0 := by rw [← ha.1]; exact h0
  by_cases hz : @Buf.toNat c f a = 0 ∧ @Buf.toNat c g b = 0
  · refine .of (@C29_gcd_zero_zero c _ _ a b h0 (.inl hl.le) (.inl hl.ge) hz.1 hz.2)
      (@C29_gcd_zero_zero c' _ _ a' b' h0' (.inl hl'.le) (.inl hl'.ge) (ha.2 ▸ hz.1) (hb.2 ▸ hz.2)) ?_
    rintro _ _ ⟨x, y, rfl, h1, h2, h3, h4⟩ ⟨x', y', rfl, h5, h6, h7, h8⟩
    exact ⟨⟨by rw [h1, h5, ha.1], by rw [h3, h7]⟩, ⟨by rw [h2, h6, hb.1], by rw [h4, h8]⟩⟩
  · refine .of (@C29_gcd c _ _ a b h0 (.inl hl.le) (.inl hl.ge) hz)
      (@C29_gcd c' _ _ a' b' h0' (.inl hl'.le) (.inl hl'.ge) (by rw [← ha.2, ← hb.2]; exact hz)) ?_
    rintro _ _ ⟨x, y, rfl, h1, h2, h3, h4⟩ ⟨x', y', rfl, h5, h6, h7, h8⟩
    exact ⟨⟨by rw [h1, h5, ha.1], by rw [h3, h7, ha.2, hb.2]⟩,
      ⟨by rw [h2, h6, hb.1], by rw [h4, h8]⟩⟩

/-- C47: modular addition, subtraction and negation, of operands of the same length. -/
theorem C47_add_sub_mod_partial (a : @Buf c f) (b : @Buf c g) (n : @Buf c h) (a' : @Buf c' f')
    (b' : @Buf c' g') (n' : @Buf c' h') (ha : SameNum a a') (hb : SameNum b b') (hn : SameNum n n')
    (hl : @Buf.len c f a = @Buf.len c h n) (han : @Buf.toNat c f a < @Buf.toNat c h n)
    (hbn : @Buf.toNat c g b < @Buf.toNat c h n) :
    Agree (@ct_add_mod_mp_mp c f g h a b n) (@ct_add_mod_mp_mp c' f' g' h' a' b' n')
      (BothOk SameNum) ∧
    Agree (@ct_sub_mod_mp_mp c f g h a b n) (@ct_sub_mod_mp_mp c' f' g' h' a' b' n')
      (BothOk SameNum) ∧
    Agree (@ct_negate_mod_mp c f h a n) (@ct_negate_mod_mp c' f' h' a' n') (BothOk SameNum) := by
  have hl' : @Buf.len c' f' a' = @Buf.len c' h' n' := by rw [← ha.1, ← hn.1, hl]
  have han' : @Buf.toNat c' f' a' < @Buf.toNat c' h' n' := by rw [← ha.2, ← hn.2]; exact han
  have hbn' : @Buf.toNat c' g' b' < @Buf.toNat c' h' n' := by rw [← hb.2, ← hn.2]; exact hbn
  refine ⟨.of (@C06_add_mod_partial c _ _ _ a b n (.inl hl.ge) han hbn (.inl (@Buf.nlimbs_congr c _ _ _ _ hl)))
    (@C06_add_mod_partial c' _ _ _ a' b' n' (.inl hl'.ge) han' hbn' (.inl (@Buf.nlimbs_congr c' _ _ _ _ hl'))) ?_,
    .of (@C06_sub_mod_partial c _ _ _ a b n (.inl hl.ge) han hbn (.inl (@Buf.nlimbs_congr c _ _ _ _ hl)))
    (@C06_sub_mod_partial c' _ _ _ a' b' n' (.inl hl'.ge) han' hbn' (.inl (@Buf.nlimbs_congr c' _ _ _ _ hl'))) ?_,
    .of (@C06_negate_mod c _ _ a n (.inl hl.ge) han) (@C06_negate_mod c' _ _ a' n' (.inl hl'.ge) han') ?_⟩
  · rintro _ _ ⟨x, rfl, h1, h2⟩ ⟨y, rfl, h3, h4⟩
    exact ⟨by rw [h1, h3, ha.1], by rw [h2, h4, ha.2, hb.2, hn.2]⟩
  · rintro _ _ ⟨x, rfl, h1, h2⟩ ⟨y, rfl, h3, h4⟩
    rw [← ha.2, ← hb.2, ← hn.2, ← h2] at h4
    exact ⟨by rw [h1, h3, ha.1], by exact_mod_cast h4.symm⟩
  · rintro _ _ ⟨x, rfl, h1, h2⟩ ⟨y, rfl, h3, h4⟩
    rw [← ha.2, ← hn.2, ← h2] at h4
    exact ⟨by rw [h1, h3, ha.1], by exact_mod_cast h4.symm⟩

/-- On any platform, C28 holds for odd moduli of more than eight bytes, the first of which is not
0xff. -/
theorem ExpModulus.of_byte [LimbCfg] {n : Buf f} (hodd : n.toNat % 2 = 1) (hlen : 8 < n.len)
    (hhigh : n.toNat / 256 ^ (n.len - 1) ≠ 255) : ExpModulus n := by
  have hn := n.toNat_lt
  obtain ⟨k, hk⟩ := Nat.exists_eq_succ_of_ne_zero (n := n.len) (by omega)
  rw [Nat.succ_eq_add_one] at hk
  rw [hk, Nat.add_sub_cancel] at hhigh
  rw [hk, pow_succ] at hn
  have h1 : n.toNat / 256 ^ k < 256 := Nat.div_lt_of_lt_mul hn
  have h2 : n.toNat < 256 ^ k * 255 := by
    rw [Nat.mul_comm]; exact (Nat.div_lt_iff_lt_mul (by positivity)).1 (by omega)
  have hLB : LB ≤ 8 := by rcases LB_cases with h | h <;> omega
  have h3 : n.len ≤ n.nlimbs * LB := by rw [Buf.nlimbs_eq]; exact le_nlimbs_mul _
  refine ⟨hodd, ?_, ?_, Or.inr ?_⟩
  · by_contra h
    have : n.nlimbs * LB ≤ 1 * 8 := Nat.mul_le_mul (by omega) hLB
    omega
  · have h4 : 256 ^ n.len ≤ B ^ n.nlimbs := by
      rw [B_eq_256_pow, ← pow_mul]
      exact Nat.pow_le_pow_right (by norm_num) (by rw [Nat.mul_comm]; exact h3)
    rw [hk, pow_succ] at h4
    have h5 : 256 ≤ B := by
      rw [B_eq_256_pow]
      exact Nat.le_self_pow LB_pos.ne' 256
    have h6 : (B + 1) * 255 ≤ B * 256 := by rw [Nat.add_mul, Nat.one_mul, show B * 256 = B * 255 + B by ring]; exact Nat.add_le_add_left (by linarith) _
    calc (B + 1) * n.toNat ≤ (B + 1) * (256 ^ k * 255) := Nat.mul_le_mul_left _ h2.le
      _ = (B + 1) * 255 * 256 ^ k := by ring
      _ ≤ B * 256 * 256 ^ k := Nat.mul_le_mul_right _ h6
      _ = B * (256 ^ k * 256) := by ring
      _ ≤ B * B ^ n.nlimbs := Nat.mul_le_mul_left _ h4
      _ = _ := by ring
  · rw [hk, pow_add, pow_add]
    omega

/-- C47: modular exponentiation, with result and scratch buffers of whatever contents.  Missing:
moduli of at most eight bytes, see `C47_exp_fails`, and those with a first byte of 0xff, see C28. -/
theorem C47_exp_partial {e e' : Fmt} (out : @Buf c f) (base : @Buf c g) (n : @Buf c h) (x : @Buf c e)
    (nbits : ℕ) (scratch : @Buf c .ne) (out' : @Buf c' f') (base' : @Buf c' g') (n' : @Buf c' h')
    (x' : @Buf c' e') (scratch' : @Buf c' .ne) (ho : SameLen out out') (hb : SameNum base base')
    (hn : SameNum n n') (hx : SameNum x x') (hodd : @Buf.toNat c h n % 2 = 1)
    (hlen : 8 < @Buf.len c h n)
    (hhigh : @Buf.toNat c h n / 256 ^ (@Buf.len c h n - 1) ≠ 255)
    (hol : @Buf.len c h n ≤ @Buf.len c f out) (hbl : @Buf.len c g base = @Buf.len c h n)
    (hbn : @Buf.toNat c g base < @Buf.toNat c h n) (hbits : @Buf.toNat c e x < 2 ^ nbits)
    (hs : @Buf.nlimbs c h n ≤ @Buf.nlimbs c .ne scratch)
    (hs' : @Buf.nlimbs c' h' n' ≤ @Buf.nlimbs c' .ne scratch') :
    Agree (@modExp c _ _ _ _ out base n x nbits scratch)
      (@modExp c' _ _ _ _ out' base' n' x' nbits scratch') SameNum := by
  unfold SameLen at ho
  refine .of (@modExp_sat c _ _ _ _ out base n x nbits scratch (@ExpModulus.of_byte _ c _ hodd hlen hhigh) hol hbl hbn
    hbits hs) (@modExp_sat c' _ _ _ _ out' base' n' x' nbits scratch'
    (@ExpModulus.of_byte _ c' _ (by rw [← hn.2]; exact hodd) (by rw [← hn.1]; exact hlen)
      (by rw [← hn.2, ← hn.1]; exact hhigh)) (by rw [← hn.1, ← ho]; exact hol)
      (by rw [← hn.1, ← hb.1]; exact hbl) (by rw [← hn.2, ← hb.2]; exact hbn)
      (by rw [← hx.2]; exact hbits) hs') ?_
  rintro r r' ⟨h1, h2⟩ ⟨h3, h4⟩
  exact ⟨by rw [h1, h3, ho], by rw [h2, h4, hb.2, hx.2, hn.2]⟩

/-- C47: the inverse modulo an odd number, with result and scratch buffers of whatever contents.  Missing:
moduli using the first eight bytes of their buffer, see C30. -/
theorem C47_inv_odd_partial (result : @Buf c f) (op0 : @Buf c g) (n : @Buf c h) (s0 s1 : @Buf c .ne)
    (result' : @Buf c' f') (op0' : @Buf c' g') (n' : @Buf c' h') (s0' s1' : @Buf c' .ne)
    (hr : SameLen result result') (ho : SameNum op0 op0') (hn : SameNum n n')
    (hodd : @Buf.toNat c h n % 2 = 1) (h1 : 1 < @Buf.toNat c h n)
    (hcop : Nat.gcd (@Buf.toNat c g op0) (@Buf.toNat c h n) = 1)
    (hsmall : @Buf.toNat c h n < 256 ^ (@Buf.len c h n - 8))
    (hroom : @InvOddRoom c _ _ _ result op0 n s0 s1)
    (hroom' : @InvOddRoom c' _ _ _ result' op0' n' s0' s1') :
    Agree (@ct_inv_mod_odd_mp_mp c _ _ _ result op0 n s0 s1)
      (@ct_inv_mod_odd_mp_mp c' _ _ _ result' op0' n' s0' s1')
      (BothOk fun r r' => SameNum r.1 r'.1) := by
  have key : ∀ (d : LimbCfg) (k : Fmt) (m : @Buf d k), @Buf.toNat d k m < 256 ^ (@Buf.len d k m - 8) →
      @Buf.toNat d k m < @B d ^ (@Buf.nlimbs d k m - 1) := by
    intro d k m hm
    refine hm.trans_le ?_
    rw [@B_eq_256_pow d, ← pow_mul]
    refine Nat.pow_le_pow_right (by norm_num) ?_
    have h3 := @le_nlimbs_mul d (@Buf.len d k m)
    rw [← @Buf.nlimbs_eq d k m] at h3
    rcases Nat.eq_zero_or_pos (@Buf.nlimbs d k m) with h | h
    · rw [h] at h3 ⊢; omega
    · obtain ⟨j, hj⟩ := Nat.exists_eq_succ_of_ne_zero h.ne'
      rw [hj, Nat.succ_eq_add_one] at h3 ⊢
      rw [Nat.add_sub_cancel]
      rcases @LB_cases d with hL | hL <;> rw [hL] at h3 ⊢ <;> omega
  unfold SameLen at hr
  refine .of (@C30_inv_odd_partial c _ _ _ result op0 n s0 s1 hroom hodd h1 hcop (key c h n hsmall))
    (@C30_inv_odd_partial c' _ _ _ result' op0' n' s0' s1' hroom' (by rw [← hn.2]; exact hodd)
      (by rw [← hn.2]; exact h1) (by rw [← hn.2, ← ho.2]; exact hcop)
      (key c' h' n' (by rw [← hn.1, ← hn.2]; exact hsmall))) ?_
  rintro _ _ ⟨x, x1, x2, x3, rfl, h2, -, -, -, h3, h4⟩ ⟨y, y1, y2, y3, rfl, h5, -, -, -, h6, h7⟩
  rw [← hn.2] at h6 h7
  rw [← ho.2] at h7
  exact ⟨by rw [h2, h5, hr], inverse_unique h3 h6 h4 h7⟩

/-- C47: the least common multiple, with result and scratch buffers of whatever contents.  Missing:
operands as limbs, see C33. -/
theorem C47_lcm_partial {s s' : Fmt} (result : @Buf c f) (op0 : @Buf c g) (m0 : ℕ) (op1 : @Buf c s) (m1 : ℕ)
    (scratch : @Buf c s) (result' : @Buf c' f') (op0' : @Buf c' g') (op1' : @Buf c' s')
    (scratch' : @Buf c' s') (hs : s ≠ .ne) (hs' : s' ≠ .ne) (hr : SameLen result result')
    (ho0 : SameNum op0 op0') (ho1 : SameNum op1 op1')
    (hlen : @Buf.len c g op0 = @Buf.len c s op1)
    (h0 : @Buf.toNat c g op0 < 256 ^ m0) (h1 : @Buf.toNat c s op1 < 256 ^ m1)
    (hres : m0 + m1 ≤ @Buf.len c f result) (hscr : m0 + m1 ≤ @Buf.len c s scratch)
    (hscr' : m0 + m1 ≤ @Buf.len c' s' scratch') :
    Agree (@ct_lcm_mp_mp c _ _ _ result op0 m0 op1 m1 scratch)
      (@ct_lcm_mp_mp c' _ _ _ result' op0' m0 op1' m1 scratch') (BothOk SameNum) := by
  have key : ∀ t : Fmt, t ≠ .ne → t = .be ∨ t = .le := by intro t; cases t <;> simp
  unfold SameLen at hr
  refine .of (@C33_lcm_bytes_partial c _ _ _ result op0 m0 op1 m1 scratch (key _ hs) hlen h0 h1
    (by omega) (by omega)) (@C33_lcm_bytes_partial c' _ _ _ result' op0' m0 op1' m1 scratch'
    (key _ hs') (by rw [← ho0.1, ← ho1.1]; exact hlen) (by rw [← ho0.2]; exact h0)
    (by rw [← ho1.2]; exact h1) (by omega) (by omega)) ?_
  rintro _ _ ⟨x, rfl, h2, h3⟩ ⟨y, rfl, h4, h5⟩
  exact ⟨by rw [h2, h4, hr], by rw [h3, h5, ho0.2, ho1.2]⟩

/-- C47: the digits of a formatted number.  The underscores between them depend on the platform: see
`C47_format_fails`. -/
theorem C47_format (a : @Buf c f) (a' : @Buf c' f') (ha : SameNum a a') (h0 : @Buf.len c f a ≠ 0) :
    Agree (@Buf.fmt_lower_hex c f a false) (@Buf.fmt_lower_hex c' f' a' false)
      (fun r r' => r.filter (· ≠ ascii '_') = r'.filter (· ≠ ascii '_')) := by
  refine .of (@C41_value c _ a h0) (@C41_value c' _ a' (by rw [← ha.1]; exact h0)) ?_
  rintro r r' ⟨h1, -⟩ ⟨h2, -⟩
  rw [h1, h2, ha.1, ha.2]

/-- C47: where the answer of the small factor test is independent of the platform: numbers of a length
which is a multiple of eight bytes.  Otherwise see `C47_small_factor_fails`. -/
theorem C47_small_factor_partial (p : @Buf c f) (s0 s1 : @Buf c .ne) (p' : @Buf c' f') (s0' s1' : @Buf c' .ne)
    (hp : SameNum p p') (hl : 8 ∣ @Buf.len c f p)
    (hs0 : @Buf.nlimbs c f p ≤ @Buf.nlimbs c .ne s0) (hs1 : @Buf.nlimbs c f p ≤ @Buf.nlimbs c .ne s1)
    (hs0' : @Buf.nlimbs c' f' p' ≤ @Buf.nlimbs c' .ne s0')
    (hs1' : @Buf.nlimbs c' f' p' ≤ @Buf.nlimbs c' .ne s1') :
    Agree (@ct_composite_test_small_prime_gcd_mp c f p s0 s1)
      (@ct_composite_test_small_prime_gcd_mp c' f' p' s0' s1')
      (BothOk fun r r' => r.unwrap = r'.unwrap) := by
  have key : ∀ (d : LimbCfg) (k : Fmt) (m : @Buf d k), 8 ∣ @Buf.len d k m →
      @Buf.nlimbs d k m * @LB d = @Buf.len d k m := by
    intro d k m hm
    have h := @Buf.nlimbs_eq d k m
    unfold ct_mp_nlimbs at h
    rcases @LB_cases d with hL | hL <;> rw [hL] at h ⊢ <;> omega
  refine .of (@C35_small_factor c _ p s0 s1 hs0 hs1) (@C35_small_factor c' _ p' s0' s1' hs0' hs1') ?_
  rintro _ _ ⟨b, rfl, hb⟩ ⟨b', rfl, hb'⟩
  rw [key c f p hl] at hb
  rw [key c' f' p' (by rw [← hp.1]; exact hl), ← hp.1, ← hp.2, ← hb] at hb'
  have : b' = b := Bool.eq_iff_iff.2 hb'
  subst this
  show (LimbChoice.unwrap _) = _
  rw [unwrap_ofBool, unwrap_ofBool]

/-! ### Where the platform shows -/

/-- C47: the limb shifted out. -/
theorem C47_shift_fails : ∃ (a : @Buf cfg32 .be) (a' : @Buf cfg64 .be), SameNum a a' ∧
    (@ct_rshift_mp cfg32 .be a 1).val.map (·.2) = some (2 ^ 31) ∧
    (@ct_rshift_mp cfg64 .be a' 1).val.map (·.2) = some (2 ^ 63) :=
  ⟨@Buf.be cfg32 [3], @Buf.be cfg64 [3], ⟨by decide +kernel, by decide +kernel⟩, by decide +kernel,
    by decide +kernel⟩

/-- C47: a modulus of eight bytes has two limbs on the one platform, and one on the other, where the
exponentiation panics (C28). -/
theorem C47_exp_fails : ∃ (out base n e : @Buf cfg32 .be) (scratch : @Buf cfg32 .ne)
    (out' base' n' e' : @Buf cfg64 .be) (scratch' : @Buf cfg64 .ne),
    SameNum out out' ∧ SameNum base base' ∧ SameNum n n' ∧ SameNum e e' ∧ SameNum scratch scratch' ∧
    (@modExp cfg32 _ _ _ _ out base n e 8 scratch).val.map (@Buf.toNat cfg32 .be) = some 4 ∧
    (@modExp cfg64 _ _ _ _ out' base' n' e' 8 scratch').val = none :=
  ⟨@Buf.ofNat cfg32 .be 8 0, @Buf.ofNat cfg32 .be 8 2, @Buf.ofNat cfg32 .be 8 7,
    @Buf.ofNat cfg32 .be 1 2, @Buf.ofNat cfg32 .ne 8 0,
    @Buf.ofNat cfg64 .be 8 0, @Buf.ofNat cfg64 .be 8 2, @Buf.ofNat cfg64 .be 8 7,
    @Buf.ofNat cfg64 .be 1 2, @Buf.ofNat cfg64 .ne 8 0,
    ⟨by decide +kernel, by decide +kernel⟩, ⟨by decide +kernel, by decide +kernel⟩,
    ⟨by decide +kernel, by decide +kernel⟩, ⟨by decide +kernel, by decide +kernel⟩,
    ⟨by decide +kernel, by decide +kernel⟩, by decide +kernel, by decide +kernel⟩

/-- C47: the underscores of a formatted number. -/
theorem C47_format_fails : ∃ (a : @Buf cfg32 .be) (a' : @Buf cfg64 .be), SameNum a a' ∧
    (@Buf.fmt_lower_hex cfg32 .be a false).val ≠ (@Buf.fmt_lower_hex cfg64 .be a' false).val :=
  ⟨@Buf.be cfg32 [1, 2, 3, 4, 5], @Buf.be cfg64 [1, 2, 3, 4, 5],
    ⟨by decide +kernel, by decide +kernel⟩, by decide +kernel⟩

/-- C47: the prime 31 in four bytes passes the small factor test on the one platform, and is reported
composite on the other. -/
theorem C47_small_factor_fails : ∃ (p : @Buf cfg32 .be) (s : @Buf cfg32 .ne) (p' : @Buf cfg64 .be)
    (s' : @Buf cfg64 .ne), SameNum p p' ∧ @Buf.toNat cfg32 .be p = 31 ∧
    (@ct_composite_test_small_prime_gcd_mp cfg32 .be p s s).val.map
      (fun r => r.toOption.map LimbChoice.unwrap) = some (some 0) ∧
    (@ct_composite_test_small_prime_gcd_mp cfg64 .be p' s' s').val.map
      (fun r => r.toOption.map LimbChoice.unwrap) = some (some 1) :=
  ⟨@Buf.ofNat cfg32 .be 4 31, @Buf.ofNat cfg32 .ne 8 0, @Buf.ofNat cfg64 .be 4 31,
    @Buf.ofNat cfg64 .ne 8 0, ⟨by decide +kernel, by decide +kernel⟩, by decide +kernel,
    by decide +kernel, by decide +kernel⟩

/-! ### Instances -/

example : Agree (@ct_add_mp_mp cfg32 .be .le (@Buf.ofNat cfg32 .be 13 (2 ^ 103 + 5)) (@Buf.ofNat cfg32 .le 9 (2 ^ 71)))
    (@ct_add_mp_mp cfg64 .le .be (@Buf.ofNat cfg64 .le 13 (2 ^ 103 + 5)) (@Buf.ofNat cfg64 .be 9 (2 ^ 71)))
    (fun r r' => SameNum r.1 r'.1 ∧ r.2 = r'.2) :=
  C47_add _ _ _ _ ⟨by decide +kernel, by decide +kernel⟩ ⟨by decide +kernel, by decide +kernel⟩
    (by decide +kernel)

example : Agree (@quotRem cfg32 .be .ne .le (@Buf.ofNat cfg32 .be 13 (2 ^ 103 + 5))
      (@Buf.ofNat cfg32 .ne 8 1000) (@Buf.ofNat cfg32 .le 16 77))
    (@quotRem cfg64 .le .ne .ne (@Buf.ofNat cfg64 .le 13 (2 ^ 103 + 5)) (@Buf.ofNat cfg64 .ne 8 1000)
      (@Buf.ofNat cfg64 .ne 16 0))
    (fun r r' => SameNum r.1 r'.1 ∧ SameNum r.2 r'.2) :=
  C47_div _ _ _ _ _ _ ⟨by decide +kernel, by decide +kernel⟩ ⟨by decide +kernel, by decide +kernel⟩
    (by unfold SameLen; decide +kernel) (by decide +kernel) (by decide +kernel)

example : Agree
    (@modExp cfg32 .be .be .be .be (@Buf.ofNat cfg32 .be 9 1) (@Buf.ofNat cfg32 .be 9 (2 ^ 60))
      (@Buf.ofNat cfg32 .be 9 (2 ^ 71 - 5)) (@Buf.ofNat cfg32 .be 1 200) 8 (@Buf.ofNat cfg32 .ne 12 7))
    (@modExp cfg64 .le .le .le .le (@Buf.ofNat cfg64 .le 9 2) (@Buf.ofNat cfg64 .le 9 (2 ^ 60))
      (@Buf.ofNat cfg64 .le 9 (2 ^ 71 - 5)) (@Buf.ofNat cfg64 .le 1 200) 8 (@Buf.ofNat cfg64 .ne 16 8))
    SameNum :=
  C47_exp_partial _ _ _ _ _ _ _ _ _ _ _ (by unfold SameLen; decide +kernel)
    ⟨by decide +kernel, by decide +kernel⟩ ⟨by decide +kernel, by decide +kernel⟩
    ⟨by decide +kernel, by decide +kernel⟩ (by decide +kernel) (by decide +kernel) (by decide +kernel)
    (by decide +kernel) (by decide +kernel) (by decide +kernel) (by decide +kernel) (by decide +kernel)
    (by decide +kernel)

example : Agree
    (@ct_inv_mod_odd_mp_mp cfg32 .be .be .be (@Buf.ofNat cfg32 .be 12 1) (@Buf.ofNat cfg32 .be 12 3)
      (@Buf.ofNat cfg32 .be 12 1009) (@Buf.ofNat cfg32 .ne 12 7) (@Buf.ofNat cfg32 .ne 12 7))
    (@ct_inv_mod_odd_mp_mp cfg64 .le .le .le (@Buf.ofNat cfg64 .le 12 1) (@Buf.ofNat cfg64 .le 12 3)
      (@Buf.ofNat cfg64 .le 12 1009) (@Buf.ofNat cfg64 .ne 16 8) (@Buf.ofNat cfg64 .ne 16 8))
    (BothOk fun r r' => SameNum r.1 r'.1) :=
  C47_inv_odd_partial _ _ _ _ _ _ _ _ _ _ (by unfold SameLen; decide +kernel)
    ⟨by decide +kernel, by decide +kernel⟩ ⟨by decide +kernel, by decide +kernel⟩
    (by decide +kernel) (by decide +kernel) (by decide +kernel) (by decide +kernel)
    (by unfold InvOddRoom; decide +kernel) (by unfold InvOddRoom; decide +kernel)

example : Agree
    (@ct_composite_test_small_prime_gcd_mp cfg32 .be (@Buf.ofNat cfg32 .be 8 (31 * 10 ^ 9 + 31))
      (@Buf.ofNat cfg32 .ne 8 7) (@Buf.ofNat cfg32 .ne 8 7))
    (@ct_composite_test_small_prime_gcd_mp cfg64 .ne (@Buf.ofNat cfg64 .ne 8 (31 * 10 ^ 9 + 31))
      (@Buf.ofNat cfg64 .ne 16 8) (@Buf.ofNat cfg64 .ne 16 8))
    (BothOk fun r r' => r.unwrap = r'.unwrap) :=
  C47_small_factor_partial _ _ _ _ _ _
    ⟨by decide +kernel, by decide +kernel⟩ (by decide +kernel) (by decide +kernel) (by decide +kernel)
    (by decide +kernel) (by decide +kernel)

end Props
end Cmpa
