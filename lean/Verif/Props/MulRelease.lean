import Verif.Props.Mul
import Verif.Props.SquareRelease
import Verif.Proofs.DivRelease

/-!
# Products with a declared length beyond the first operand's buffer (C75)
-/

namespace Cmpa.Props
open M
variable [LimbCfg] {f g : Fmt}

omit [LimbCfg] in
theorem cond_rel {α : Type} {c : Prop} [Decidable c] {t t' e e' : M α} (ht : t.rel = t'.rel) (he : e.rel = e'.rel) :
    (M.cond c t e).rel = (M.cond c t' e').rel := by
  refine (bind_rel (M.branch c) _).trans (Eq.trans ?_ (bind_rel (M.branch c) _).symm)
  congr 1
  funext x
  split
  · exact ht
  · exact he

/-- Nothing is cleared beyond the end. -/
theorem clear_bytes_above_rel (a : Buf f) {n : ℕ} (h : a.len ≤ n) : (a.clear_bytes_above n).rel = some a := by
  rcases a with l | l | l <;> simp only [Buf.clear_bytes_above]
  · rw [Buf.len_be] at h
    unfold be_mp_clear_bytes_above
    rw [if_pos h]; rfl
  · rw [Buf.len_le] at h
    unfold le_mp_clear_bytes_above
    rw [if_pos h]; rfl
  · rw [Buf.len_ne] at h
    unfold ne_mp_clear_bytes_above
    dsimp only
    rw [if_pos ((Nat.le_div_iff_mul_le LB_pos).2 h)]; rfl

theorem same_nlimbs {a : Buf f} {n : ℕ} (h : a.len ≤ n) (hn : ct_mp_nlimbs n ≤ a.nlimbs) :
    ct_mp_nlimbs n = ct_mp_nlimbs a.len := le_antisymm hn (nlimbs_mono h)

theorem mul_cond_rel (a : Buf f) {n : ℕ} (b : Buf g) (c : LimbChoice) (h : a.len ≤ n)
    (hn : ct_mp_nlimbs n ≤ a.nlimbs) :
    (ct_mul_trunc_cond_mp_mp a n b c).rel = (ct_mul_trunc_cond_mp_mp a a.len b c).rel := by
  unfold ct_mul_trunc_cond_mp_mp
  rw [assert_bind_rel, assert_bind_rel]
  refine cond_rel rfl ?_
  dsimp only
  rw [bind_rel, bind_rel, clear_bytes_above_rel a h, clear_bytes_above_rel a le_rfl, same_nlimbs h hn]

theorem square_rel (a : Buf f) {n : ℕ} (h : a.len ≤ n) (hn : ct_mp_nlimbs n ≤ a.nlimbs) :
    (ct_square_trunc_mp a n).rel = (ct_square_trunc_mp a a.len).rel := by
  unfold ct_square_trunc_mp
  rw [assert_bind_rel, assert_bind_rel]
  dsimp only
  rw [bind_rel, bind_rel, clear_bytes_above_rel a h, clear_bytes_above_rel a le_rfl, same_nlimbs h hn]

theorem mul_l_rel (a : Buf f) {n : ℕ} (v : ℕ) (h : a.len ≤ n) (hn : ct_mp_nlimbs n ≤ a.nlimbs) :
    (ct_mul_trunc_mp_l a n v).rel = (ct_mul_trunc_mp_l a a.len v).rel := by
  have h0 : n = 0 ↔ a.len = 0 := by
    rw [← nlimbs_zero_iff, same_nlimbs h hn, nlimbs_zero_iff]
  unfold ct_mul_trunc_mp_l
  rw [assert_bind_rel, assert_bind_rel]
  dsimp only
  rw [bind_rel, bind_rel, clear_bytes_above_rel a h, clear_bytes_above_rel a le_rfl, same_nlimbs h hn]
  simp only [h0]

/-- C75: a debug build panics exactly if the declared length of the first operand exceeds its buffer. -/
theorem C75_mul_debug (a : Buf f) (n : ℕ) (b : Buf g) (c : Bool) :
    ((ct_mul_trunc_cond_mp_mp a n b (.ofBool c)).val = none ↔ a.len < n) ∧
    ((ct_mul_trunc_mp_mp a n b).val = none ↔ a.len < n) := by
  have key : ∀ c : Bool, (ct_mul_trunc_cond_mp_mp a n b (.ofBool c)).val = none ↔ a.len < n := by
    intro c
    constructor
    · intro h
      by_contra hc
      obtain ⟨r, hr, -⟩ := ct_mul_trunc_cond_mp_mp_sat a n b c (by omega)
      rw [h] at hr; cases hr
    · intro h
      unfold ct_mul_trunc_cond_mp_mp
      refine M.bind_panic ?_
      unfold M.assert
      rw [if_neg (by omega)]; rfl
  refine ⟨key c, ?_⟩
  unfold ct_mul_trunc_mp_mp
  rw [LimbChoice.new_one]
  exact key true

/-- C75: likewise for the product with a limb. -/
theorem C75_mul_l_debug (a : Buf f) (n v : ℕ) (hv : v < B) :
    (ct_mul_trunc_mp_l a n v).val = none ↔ a.len < n := by
  constructor
  · intro h
    by_contra hc
    obtain ⟨r, hr, -⟩ := ct_mul_trunc_mp_l_sat a n hv (by omega)
    rw [h] at hr; cases hr
  · intro h
    unfold ct_mul_trunc_mp_l
    refine M.bind_panic ?_
    unfold M.assert
    rw [if_neg (by omega)]; rfl

/-- C75: squaring panics for these lengths, too, besides the operands it panics for anyway. -/
theorem C75_square_debug (a : Buf f) (n : ℕ) :
    (ct_square_trunc_mp a n).val = none ↔ a.len < n ∨ ¬ Squarable a.nlimbs (a.toNat % 256 ^ n) := by
  by_cases h : a.len < n
  · refine iff_of_true ?_ (.inl h)
    unfold ct_square_trunc_mp
    refine M.bind_panic ?_
    unfold M.assert
    rw [if_neg (by omega)]; rfl
  · rw [C10_square_panics_fails a n (by omega)]
    exact ⟨.inr, fun h' => h'.resolve_left h⟩

example : letI := cfg64;
    (ct_mul_trunc_mp_mp (Buf.be [1, 2, 3]) 4 (Buf.le [5])).val = none ∧
    (ct_mul_trunc_mp_l (Buf.be [1, 2, 3]) 4 5).val = none ∧
    (ct_square_trunc_mp (Buf.be [1, 2, 3]) 4).val = none := by decide +kernel

/-- C75: in a release build, a declared length beyond the buffer, but not beyond its last limb, is the buffer's length. -/
theorem C75_mul_release (a : Buf f) (n : ℕ) (b : Buf g) (h : a.len ≤ n) (hn : ct_mp_nlimbs n ≤ a.nlimbs) :
    RSat (ct_mul_trunc_mp_mp a n b) (fun a' => a'.len = a.len ∧ a'.toNat = a.toNat * b.toNat % 256 ^ a.len) := by
  obtain ⟨a', h1, h2, h3⟩ := (ct_mul_trunc_mp_mp_sat a a.len b le_rfl).rel
  refine ⟨a', ?_, h2, by rw [h3, Nat.mod_eq_of_lt a.toNat_lt]⟩
  rw [← h1]
  exact mul_cond_rel a b _ h hn

/-- C75: likewise for the conditional product. -/
theorem C75_mul_cond_release (a : Buf f) (n : ℕ) (b : Buf g) (c : Bool) (h : a.len ≤ n)
    (hn : ct_mp_nlimbs n ≤ a.nlimbs) (hb : 0 < b.len) :
    RSat (ct_mul_trunc_cond_mp_mp a n b (.ofBool c)) (fun a' => a'.len = a.len ∧
      a'.toNat = if c then a.toNat * b.toNat % 256 ^ a.len else a.toNat) := by
  obtain ⟨a', h1, h2, h3⟩ := (C04_mul_cond a a.len b c le_rfl hb).rel
  refine ⟨a', by rw [← h1]; exact mul_cond_rel a b _ h hn, h2, ?_⟩
  rw [h3, Nat.mod_eq_of_lt a.toNat_lt]

/-- C75: likewise for the product with a limb. -/
theorem C75_mul_l_release (a : Buf f) (n v : ℕ) (hv : v < B) (h : a.len ≤ n) (hn : ct_mp_nlimbs n ≤ a.nlimbs) :
    RSat (ct_mul_trunc_mp_l a n v) (fun a' => a'.len = a.len ∧ a'.toNat = a.toNat * v % 256 ^ a.len) := by
  obtain ⟨a', h1, h2, h3⟩ := (ct_mul_trunc_mp_l_sat a a.len hv le_rfl).rel
  exact ⟨a', by rw [← h1]; exact mul_l_rel a v h hn, h2, by rw [h3, Nat.mod_eq_of_lt a.toNat_lt]⟩

/-- C75: likewise for the square, if the operand is one for which it is right. -/
theorem C75_square_release (a : Buf f) (n : ℕ) (h : a.len ≤ n) (hn : ct_mp_nlimbs n ≤ a.nlimbs)
    (hk : SquareKept a.nlimbs a.toNat) :
    RSat (ct_square_trunc_mp a n) (fun a' => a'.len = a.len ∧ a'.toNat = a.toNat ^ 2 % 256 ^ a.len) := by
  obtain ⟨a', h1, h2, S, -, h3, h4⟩ := C10_square_release_exact a a.len le_rfl
  rw [Nat.mod_eq_of_lt a.toNat_lt] at h3 h4
  rw [h3.2 hk, Finset.sum_empty, Nat.add_zero, ← h2, Nat.mod_eq_of_lt a'.toNat_lt, h2] at h4
  exact ⟨a', by rw [← h1]; exact square_rel a h hn, h2, h4⟩

example : letI := cfg64;
    (ct_mul_trunc_mp_mp (Buf.be [1, 2, 3]) 8 (Buf.le [5])).rel.map Buf.toNat = some 0x050a0f ∧
    (ct_mul_trunc_mp_l (Buf.be [1, 2, 3]) 4 5).rel.map Buf.toNat = some 0x050a0f ∧
    (ct_square_trunc_mp (Buf.be [1, 2, 3]) 4).rel.map Buf.toNat = some 0x0a0c09 := by decide +kernel

end Cmpa.Props
