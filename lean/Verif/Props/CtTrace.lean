import Verif.Proofs.CtLcm
import Verif.Proofs.CtPrime
import Verif.Proofs.CtWheel
import Verif.Props.Div

/-!
# Execution traces and secrets (C37)

The model records the events of a run: the outcome of each branch, each loop iteration, and the number of the limb of
each access to a buffer.  The theorems are about two runs of a function on arguments of the same lengths, but with
arbitrary values: both leave the same events.

That a function panics, or returns an error, is taken to be public: the runs compared are those which don't
panic, and which are successful in case of functions which can return an error.

Two notions are used: `SameEvents` compares all events; `SameShape` compares all events, but not which of the limbs of a
buffer is read.  Shifts by secret distances read at distances which depend on the secret, so that
only the latter holds (see the comment at shift_impl.rs:80ff).
-/

set_option linter.unusedSectionVars false

namespace Cmpa
namespace Props
open M
variable [LimbCfg] {f g h e k : Fmt} {α β ε : Type}

/-! ### Specification -/

/-- What is left of an event if the number of the limb read isn't observed. -/
def shape : Ev → Ev
  | .load len _ => .load len 0
  | ev => ev

/-- If neither run panics, both leave the same events. -/
def SameEvents (m n : M α) : Prop := m.val ≠ none → n.val ≠ none → m.tr = n.tr

/-- The run ends with a result, not with an error or a panic. -/
def Succeeds (m : M (Except ε α)) : Prop := ∃ a, m.val = some (.ok a)

/-- If both runs are successful, both leave the same events. -/
def SameEventsOk (m n : M (Except ε α)) : Prop := Succeeds m → Succeeds n → m.tr = n.tr

/-- If neither run panics, both leave the same events, up to the numbers of the limbs read. -/
def SameShape (m n : M α) : Prop := m.val ≠ none → n.val ≠ none → m.tr.map shape = n.tr.map shape

/-- If both runs are successful, both leave the same events, up to the numbers of the limbs read. -/
def SameShapeOk (m n : M (Except ε α)) : Prop := Succeeds m → Succeeds n → m.tr.map shape = n.tr.map shape

omit [LimbCfg] in
theorem seen_noPos (m : M α) : @M.seen α Obs.noPos m = m.tr.map shape := by
  refine List.map_congr_left fun ev _ => ?_
  cases ev <;> rfl

omit [LimbCfg] in
theorem sameEvents {m n : M α} {R : α → α → Prop} (h : @SameTr α α Obs.full m n R) : SameEvents m n := by
  intro hm hn
  obtain ⟨a, ha⟩ := Option.ne_none_iff_exists'.1 hm
  obtain ⟨b, hb⟩ := Option.ne_none_iff_exists'.1 hn
  have := (h a b ha hb).1
  rwa [M.seen_full, M.seen_full] at this

omit [LimbCfg] in
theorem sameShape {m n : M α} {R : α → α → Prop} (h : @SameTr α α Obs.noPos m n R) : SameShape m n := by
  intro hm hn
  obtain ⟨a, ha⟩ := Option.ne_none_iff_exists'.1 hm
  obtain ⟨b, hb⟩ := Option.ne_none_iff_exists'.1 hn
  have := (h a b ha hb).1
  rwa [seen_noPos, seen_noPos] at this

omit [LimbCfg] in
theorem sameEventsOk [Pub α] {m n : M (Except ε α)} (h : @CtOk α Obs.full ε _ m n) : SameEventsOk m n := by
  rintro ⟨a, ha⟩ ⟨b, hb⟩
  have := (h a b ha hb).1
  rwa [M.seen_full, M.seen_full] at this

omit [LimbCfg] in
theorem sameShapeOk [Pub α] {m n : M (Except ε α)} (h : @CtOk α Obs.noPos ε _ m n) : SameShapeOk m n := by
  rintro ⟨a, ha⟩ ⟨b, hb⟩
  have := (h a b ha hb).1
  rwa [seen_noPos, seen_noPos] at this

theorem pub_opt {q q' : Option (Buf f)} (h : q.map Buf.len = q'.map Buf.len) : Pub.rel q q' := by
  cases q <;> cases q' <;> first | trivial | (simp at h; done) | exact Option.some.inj h

/-- No positions are observed. -/
theorem noPos_absurd {p : Prop} (h : Obs.noPos.pos = true) : p := absurd h (by decide)

/-- Used in the examples: the run doesn't panic, and it isn't one without events. -/
def runs (m : M α) : Bool := m.val.isSome && !m.tr.isEmpty

/-- Used in the examples: the run is successful, and it isn't one without events. -/
def runsOk (m : M (Except ε α)) : Bool := (m.val.map Except.isOk == some true) && !m.tr.isEmpty

omit [LimbCfg] in
theorem not_sameEvents {m n : M α} (h : runs m ∧ runs n ∧ m.tr ≠ n.tr) : ¬ SameEvents m n := by
  obtain ⟨h1, h2, h3⟩ := h
  intro hs
  simp only [runs, Bool.and_eq_true] at h1 h2
  exact h3 (hs (Option.isSome_iff_ne_none.1 h1.1) (Option.isSome_iff_ne_none.1 h2.1))

omit [LimbCfg] in
theorem succeeds_of_runsOk {m : M (Except ε α)} (h : runsOk m) : Succeeds m := by
  unfold runsOk at h
  unfold Succeeds
  match hm : m.val with
  | none => rw [hm] at h; cases h
  | some (.error e) => rw [hm] at h; cases h
  | some (.ok a) => exact ⟨a, rfl⟩

omit [LimbCfg] in
theorem not_sameEventsOk {m n : M (Except ε α)} (h : runsOk m ∧ runsOk n ∧ m.tr ≠ n.tr) : ¬ SameEventsOk m n :=
  fun hs => h.2.2 (hs (succeeds_of_runsOk h.1) (succeeds_of_runsOk h.2.1))

/-! ### Comparisons -/

/-- C37: comparisons of two numbers. -/
theorem C37_compare {a a' : Buf f} {b b' : Buf g} (ha : a.len = a'.len) (hb : b.len = b'.len) :
    SameEvents (ct_eq_mp_mp a b) (ct_eq_mp_mp a' b') ∧ SameEvents (ct_neq_mp_mp a b) (ct_neq_mp_mp a' b') ∧
      SameEvents (ct_leq_mp_mp a b) (ct_leq_mp_mp a' b') ∧ SameEvents (ct_lt_mp_mp a b) (ct_lt_mp_mp a' b') ∧
      SameEvents (ct_geq_mp_mp a b) (ct_geq_mp_mp a' b') ∧ SameEvents (ct_gt_mp_mp a b) (ct_gt_mp_mp a' b') := by
  letI := Obs.full
  exact ⟨sameEvents (ct_eq_mp_mp_ct ha hb), sameEvents (ct_neq_mp_mp_ct ha hb), sameEvents (ct_leq_mp_mp_ct ha hb),
    sameEvents (ct_lt_mp_mp_ct ha hb), sameEvents (ct_geq_mp_mp_ct ha hb), sameEvents (ct_gt_mp_mp_ct ha hb)⟩

example : letI := cfg64
    (Buf.ofNat .be 9 5).len = (Buf.ofNat .be 9 (2 ^ 70)).len ∧
      runs (ct_eq_mp_mp (Buf.ofNat .be 9 5) (Buf.ofNat .le 17 5)) ∧
      runs (ct_eq_mp_mp (Buf.ofNat .be 9 (2 ^ 70)) (Buf.ofNat .le 17 (2 ^ 130))) ∧
      runs (ct_gt_mp_mp (Buf.ofNat .be 9 (2 ^ 70)) (Buf.ofNat .le 17 (2 ^ 130))) := by decide +kernel

/-- C37: comparisons with zero, one and a limb. -/
theorem C37_compare_const {a a' : Buf f} (ha : a.len = a'.len) (l l' : ℕ) :
    SameEvents (ct_is_zero_mp a) (ct_is_zero_mp a') ∧ SameEvents (ct_is_one_mp a) (ct_is_one_mp a') ∧
      SameEvents (ct_leq_mp_l a l) (ct_leq_mp_l a' l') := by
  letI := Obs.full
  exact ⟨sameEvents (ct_is_zero_mp_ct ha), sameEvents (ct_is_one_mp_ct ha), sameEvents (ct_leq_mp_l_ct ha)⟩

example : letI := cfg32
    runs (ct_is_zero_mp (Buf.ofNat .be 9 0)) ∧ runs (ct_is_one_mp (Buf.ofNat .be 9 (2 ^ 70))) ∧
      runs (ct_leq_mp_l (Buf.ofNat .be 9 (2 ^ 70)) 77) := by decide +kernel

/-! ### Buffers -/

/-- C37: copying and swapping under a secret condition. -/
theorem C37_copy {a a' : Buf f} {b b' : Buf g} (ha : a.len = a'.len) (hb : b.len = b'.len) (c c' : LimbChoice) :
    SameEvents (a.copy_from b) (a'.copy_from b') ∧ SameEvents (a.copy_from_cond b c) (a'.copy_from_cond b' c') ∧
      SameEvents (ct_swap_cond_mp a b c) (ct_swap_cond_mp a' b' c') := by
  letI := Obs.full
  exact ⟨sameEvents (Buf.copy_from_ct ha hb), sameEvents (Buf.copy_from_cond_ct ha hb), sameEvents (ct_swap_cond_mp_ct ha hb)⟩

example : letI := cfg64
    runs ((Buf.ofNat .be 9 5).copy_from_cond (Buf.ofNat .le 9 7) ⟨0⟩) ∧
      runs ((Buf.ofNat .be 9 (2 ^ 70)).copy_from_cond (Buf.ofNat .le 9 (2 ^ 71)) ⟨1⟩) ∧
      runs (ct_swap_cond_mp (Buf.ofNat .be 9 (2 ^ 70)) (Buf.ofNat .le 9 (2 ^ 71)) ⟨1⟩) := by decide +kernel

/-- C37: searching for set bits, and clearing the bits above and below a secret position. -/
theorem C37_bits {a a' : Buf f} (ha : a.len = a'.len) (i j : ℕ) :
    SameEvents (ct_find_first_set_bit_mp a) (ct_find_first_set_bit_mp a') ∧
      SameEvents (ct_find_last_set_bit_mp a) (ct_find_last_set_bit_mp a') ∧
      SameEvents (ct_clear_bits_above_mp a i) (ct_clear_bits_above_mp a' j) ∧
      SameEvents (ct_clear_bits_below_mp a i) (ct_clear_bits_below_mp a' j) := by
  letI := Obs.full
  exact ⟨sameEvents (ct_find_first_set_bit_mp_ct ha), sameEvents (ct_find_last_set_bit_mp_ct ha),
    sameEvents (ct_clear_bits_above_mp_ct ha), sameEvents (ct_clear_bits_below_mp_ct ha)⟩

example : letI := cfg64
    runs (ct_find_first_set_bit_mp (Buf.ofNat .be 9 0)) ∧ runs (ct_find_last_set_bit_mp (Buf.ofNat .be 9 (2 ^ 70))) ∧
      runs (ct_clear_bits_above_mp (Buf.ofNat .be 9 (2 ^ 70)) 3) ∧
      runs (ct_clear_bits_below_mp (Buf.ofNat .be 9 (2 ^ 70)) 70) := by decide +kernel

/-- C37: access to the bit at a public position, and clearing bytes under a secret condition. -/
theorem C37_bit {a a' : Buf f} (ha : a.len = a'.len) (i : ℕ) (v v' : Bool) (c c' : LimbChoice) :
    SameEvents (a.test_bit i) (a'.test_bit i) ∧ SameEvents (a.set_bit_to i v) (a'.set_bit_to i v') ∧
      SameEvents (a.clear_bytes_above_cond i c) (a'.clear_bytes_above_cond i c') := by
  letI := Obs.full
  exact ⟨sameEvents (Buf.test_bit_ct ha rfl), sameEvents (Buf.set_bit_to_ct ha rfl),
    sameEvents (Buf.clear_bytes_above_cond_ct ha rfl)⟩

example : letI := cfg32
    runs ((Buf.ofNat .be 9 (2 ^ 70)).test_bit 70) ∧ runs ((Buf.ofNat .be 9 0).set_bit_to 70 true) ∧
      runs ((Buf.ofNat .be 9 (2 ^ 70)).clear_bytes_above_cond 3 ⟨1⟩) := by decide +kernel

/-! ### Addition, subtraction, multiplication -/

/-- C37: addition and subtraction, also under a secret condition. -/
theorem C37_add_sub {a a' : Buf f} {b b' : Buf g} (ha : a.len = a'.len) (hb : b.len = b'.len) (c c' : LimbChoice) :
    SameEvents (ct_add_mp_mp a b) (ct_add_mp_mp a' b') ∧ SameEvents (ct_sub_mp_mp a b) (ct_sub_mp_mp a' b') ∧
      SameEvents (ct_add_cond_mp_mp a b c) (ct_add_cond_mp_mp a' b' c') ∧
      SameEvents (ct_sub_cond_mp_mp a b c) (ct_sub_cond_mp_mp a' b' c') := by
  letI := Obs.full
  exact ⟨sameEvents (ct_add_mp_mp_ct ha hb), sameEvents (ct_sub_mp_mp_ct ha hb), sameEvents (ct_add_cond_mp_mp_ct ha hb),
    sameEvents (ct_sub_cond_mp_mp_ct ha hb)⟩

example : letI := cfg64
    runs (ct_add_mp_mp (Buf.ofNat .be 17 (2 ^ 128 - 1)) (Buf.ofNat .le 9 1)) ∧
      runs (ct_sub_cond_mp_mp (Buf.ofNat .be 17 0) (Buf.ofNat .le 9 (2 ^ 65)) ⟨1⟩) := by decide +kernel

/-- C37: addition and subtraction of a limb, and negation. -/
theorem C37_add_sub_l {a a' : Buf f} (ha : a.len = a'.len) (l l' : ℕ) (c c' : LimbChoice) :
    SameEvents (ct_add_mp_l a l) (ct_add_mp_l a' l') ∧ SameEvents (ct_sub_mp_l a l) (ct_sub_mp_l a' l') ∧
      SameEvents (ct_negate_mp a) (ct_negate_mp a') ∧ SameEvents (ct_negate_cond_mp a c) (ct_negate_cond_mp a' c') := by
  letI := Obs.full
  exact ⟨sameEvents (ct_add_mp_l_ct ha), sameEvents (ct_sub_mp_l_ct ha), sameEvents (ct_negate_mp_ct ha),
    sameEvents (ct_negate_cond_mp_ct ha)⟩

example : letI := cfg64
    runs (ct_add_mp_l (Buf.ofNat .be 17 (2 ^ 128 - 1)) 1) ∧ runs (ct_sub_mp_l (Buf.ofNat .be 17 0) (2 ^ 63)) ∧
      runs (ct_negate_cond_mp (Buf.ofNat .be 17 5) ⟨0⟩) := by decide +kernel

/-- C37: modular addition, subtraction and negation. -/
theorem C37_modular {a a' : Buf f} {b b' : Buf g} (ha : a.len = a'.len) (hb : b.len = b'.len) {n n' : Buf h} (hn : n.len = n'.len) :
    SameEventsOk (ct_add_mod_mp_mp a b n) (ct_add_mod_mp_mp a' b' n') ∧
      SameEventsOk (ct_sub_mod_mp_mp a b n) (ct_sub_mod_mp_mp a' b' n') ∧
      SameEventsOk (ct_negate_mod_mp a n) (ct_negate_mod_mp a' n') := by
  letI := Obs.full
  exact ⟨sameEventsOk (ct_add_mod_mp_mp_ct ha hb hn), sameEventsOk (ct_sub_mod_mp_mp_ct ha hb hn),
    sameEventsOk (ct_negate_mod_mp_ct ha hn)⟩

example : letI := cfg64
    runsOk (ct_add_mod_mp_mp (Buf.ofNat .be 9 (2 ^ 70)) (Buf.ofNat .le 9 1) (Buf.ofNat .le 9 (2 ^ 70 + 1))) ∧
      runsOk (ct_add_mod_mp_mp (Buf.ofNat .be 9 3) (Buf.ofNat .le 9 1) (Buf.ofNat .le 9 5)) ∧
      runsOk (ct_negate_mod_mp (Buf.ofNat .be 9 3) (Buf.ofNat .le 9 5)) := by decide +kernel

/-- C37: multiplication and squaring, also under a secret condition. -/
theorem C37_mul {a a' : Buf f} {b b' : Buf g} (ha : a.len = a'.len) (hb : b.len = b'.len) (n l l' : ℕ) (c c' : LimbChoice) :
    SameEvents (ct_mul_trunc_mp_mp a n b) (ct_mul_trunc_mp_mp a' n b') ∧
      SameEvents (ct_mul_trunc_cond_mp_mp a n b c) (ct_mul_trunc_cond_mp_mp a' n b' c') ∧
      SameEvents (ct_mul_trunc_mp_l a n l) (ct_mul_trunc_mp_l a' n l') ∧
      SameEvents (ct_square_trunc_mp a n) (ct_square_trunc_mp a' n) := by
  letI := Obs.full
  exact ⟨sameEvents (ct_mul_trunc_mp_mp_ct ha rfl hb), sameEvents (ct_mul_trunc_cond_mp_mp_ct ha rfl hb),
    sameEvents (ct_mul_trunc_mp_l_ct ha rfl), sameEvents (ct_square_trunc_mp_ct ha rfl)⟩

example : letI := cfg64
    runs (ct_mul_trunc_mp_mp (Buf.ofNat .be 17 (2 ^ 70)) 9 (Buf.ofNat .le 9 (2 ^ 64 + 1))) ∧
      runs (ct_mul_trunc_cond_mp_mp (Buf.ofNat .be 17 3) 9 (Buf.ofNat .le 9 5) ⟨0⟩) ∧
      runs (ct_square_trunc_mp (Buf.ofNat .be 17 (2 ^ 64 + 3)) 9) := by decide +kernel

/-! ### Shifts -/

/-- C37: shifts by a public distance. -/
theorem C37_shift {a a' : Buf f} (ha : a.len = a'.len) (d : ℕ) :
    SameEvents (ct_lshift_mp a d) (ct_lshift_mp a' d) ∧ SameEvents (ct_rshift_mp a d) (ct_rshift_mp a' d) := by
  letI := Obs.full
  exact ⟨sameEvents (ct_lshift_mp_ct ha (fun _ => rfl)), sameEvents (ct_rshift_mp_ct ha (fun _ => rfl))⟩

example : letI := cfg64
    runs (ct_lshift_mp (Buf.ofNat .be 17 (2 ^ 64 + 3)) 65) ∧ runs (ct_rshift_mp (Buf.ofNat .be 17 (2 ^ 130)) 65) := by
  decide +kernel

/-- C37: shifts by a secret distance perform the same operations in the same order; the numbers of the limbs read may
differ. -/
theorem C37_shift_secret_partial {a a' : Buf f} (ha : a.len = a'.len) (d d' : ℕ) :
    SameShape (ct_lshift_mp a d) (ct_lshift_mp a' d') ∧ SameShape (ct_rshift_mp a d) (ct_rshift_mp a' d') := by
  letI := Obs.noPos
  exact ⟨sameShape (ct_lshift_mp_ct ha noPos_absurd), sameShape (ct_rshift_mp_ct ha noPos_absurd)⟩

omit [LimbCfg] in
/-- C37, contradicting witness: shifts by distances of one limb and of no bits don't leave the same events. -/
theorem C37_shift_secret_fails : letI := cfg64
    ¬ SameEvents (ct_lshift_mp (Buf.ofNat .be 16 1) 64) (ct_lshift_mp (Buf.ofNat .be 16 1) 0) ∧
      ¬ SameEvents (ct_rshift_mp (Buf.ofNat .be 16 1) 64) (ct_rshift_mp (Buf.ofNat .be 16 1) 0) := by
  exact ⟨not_sameEvents (by decide +kernel), not_sameEvents (by decide +kernel)⟩

/-! ### Division

The number of significant bytes of the divisor is public (see the comment at div_impl.rs:41-45). -/

theorem ctIf_bindSome [Obs] {σ : Type} {P : α → Prop} {R : α → α → Prop} {S : σ → σ → Prop} {m n : M (Option σ)}
    {u v : Option σ → M α} (hm : ∀ a b, m.val = some (some a) → n.val = some (some b) → m.seen = n.seen ∧ S a b)
    (hu : Post (u none) (fun a => ¬ P a)) (hv : Post (v none) (fun a => ¬ P a))
    (hk : ∀ a b, S a b → CtIf P R (u (some a)) (v (some b))) : CtIf P R (m >>= u) (n >>= v) := by
  intro x y hx hy px py
  rw [bind_val] at hx hy
  cases ha : m.val with
  | none => rw [ha] at hx; cases hx
  | some a =>
    cases hb : n.val with
    | none => rw [hb] at hy; cases hy
    | some b =>
      rw [ha] at hx
      rw [hb] at hy
      cases a with
      | none => exact absurd px (hu x hx)
      | some a =>
        cases b with
        | none => exact absurd py (hv y hy)
        | some b =>
          obtain ⟨h1, h2⟩ := hm a b ha hb
          obtain ⟨h3, h4⟩ := hk a b h2 x y hx hy px py
          refine ⟨?_, h4⟩
          rw [bind_seen_some ha, bind_seen_some hb, h1, h3]

/-- The division yields a result. -/
def IsQuotient : DivResult α → Prop
  | .ok _ => True
  | _ => False

/-- If both divisions yield results, both leave the same events. -/
def SameEventsDiv (m n : M (DivResult α)) : Prop :=
  ∀ a b, m.val = some (.ok a) → n.val = some (.ok b) → m.tr = n.tr

theorem sameEventsDiv {m n : M (DivResult α)} {R : DivResult α → DivResult α → Prop}
    (h : @CtIf Obs.full (DivResult α) IsQuotient R m n) : SameEventsDiv m n := by
  intro a b ha hb
  have := (h _ _ ha hb trivial trivial).1
  rwa [M.seen_full, M.seen_full] at this

/-- The divisors two divisions are done with have the same public properties: the length of the buffer, whether it is
to be decremented, and the number of significant bytes. -/
structure SameDivisorShape (v v' : Buf g) (dec dec' : Option ℕ) : Prop where
  len : v.len = v'.len
  isSome : dec.isSome = dec'.isSome
  limb : ∀ x ∈ dec, x < B
  limb' : ∀ x ∈ dec', x < B
  bytes : byteLen (v.toNat - dec.getD 0) = byteLen (v'.toNat - dec'.getD 0)

theorem divideBy_ct [Obs] [Pub α] {v v' : Buf g} {dec dec' : Option ℕ} (hv : SameDivisorShape v v' dec dec')
    {u w : CtMpDivisor g → M (Except DivError α)}
    (hk : ∀ d d' : CtMpDivisor g, d.v.len = d'.v.len → d.v_len = d'.v_len → CtOk (u d) (w d')) :
    CtIf IsQuotient (fun r r' => ∀ a b, r = .ok a → r' = .ok b → Pub.rel a b) (divideBy v dec u) (divideBy v' dec' w) := by
  unfold divideBy
  refine ctIf_bindSome (CtMpDivisor.new_dec_ct hv.len hv.isSome hv.limb hv.limb' hv.bytes) (Post.pure id) (Post.pure id) ?_
  rintro d d' ⟨h1, h2⟩
  refine CtIf.bindOk (hk d d' h1 h2) (fun e => Post.pure id) (fun e => Post.pure id) fun a b hab => ?_
  exact CtIf.of (SameTr.pure (by rintro _ _ ⟨⟩ ⟨⟩; exact hab))

theorem ctOk_map [Obs] {σ : Type} [Pub σ] {m n : M σ} (h : Ct m n) :
    CtOk (do let r ← m; pure (.ok r) : M (Except ε σ)) (do let r ← n; pure (.ok r)) :=
  CtOk.bind h fun _ _ hab => CtOk.pure hab

/-- C37: division and remainder of multiple-precision numbers. -/
theorem C37_div {x x' : Option (Buf f)} {u u' : Buf f} {v v' : Buf g} {dec dec' : Option ℕ} {q q' : Option (Buf h)}
    (hx : x.map Buf.len = x'.map Buf.len) (hu : u.len = u'.len) (hv : SameDivisorShape v v' dec dec')
    (hq : q.map Buf.len = q'.map Buf.len) :
    SameEventsDiv (divideBy v dec fun d => ct_div_mp_mp x u d q) (divideBy v' dec' fun d => ct_div_mp_mp x' u' d q') ∧
      SameEventsDiv (divideBy v dec fun d => do let r ← ct_mod_mp_mp x u d; pure (.ok r))
        (divideBy v' dec' fun d => do let r ← ct_mod_mp_mp x' u' d; pure (.ok r)) := by
  letI := Obs.full
  exact ⟨sameEventsDiv (divideBy_ct hv fun d d' h1 h2 => ct_div_mp_mp_ct (pub_opt hx) hu h1 h2 (pub_opt hq)),
    sameEventsDiv (divideBy_ct hv fun d d' h1 h2 => ctOk_map (ct_mod_mp_mp_ct (pub_opt hx) hu h1 h2))⟩

example : letI := cfg64
    ((divideBy (Buf.ofNat .le 17 (2 ^ 129 + 12345)) none fun d =>
      ct_div_mp_mp (some (Buf.ofNat .be 5 (2 ^ 40 - 3))) (Buf.ofNat .be 20 (2 ^ 150 - 7)) d
        (some (Buf.ofNat .ne 16 77))).val.bind DivResult.nums).isSome ∧
    ((divideBy (Buf.ofNat .le 17 (2 ^ 131 - 1)) none fun d =>
      ct_div_mp_mp (some (Buf.ofNat .be 5 0)) (Buf.ofNat .be 20 77) d
        (some (Buf.ofNat .ne 16 77))).val.bind DivResult.nums).isSome ∧
    byteLen (2 ^ 129 + 12345) = byteLen (2 ^ 131 - 1) := by decide +kernel
example : letI := cfg64; SameDivisorShape (Buf.ofNat .le 17 (2 ^ 129 + 12345)) (Buf.ofNat .le 17 (2 ^ 131 - 1)) none none :=
  @SameDivisorShape.mk cfg64 _ _ _ _ _ (by decide +kernel) rfl (by simp) (by simp) (by decide +kernel)

/-- C37: division of a power of two, whose exponent is public. -/
theorem C37_div_pow2 {r r' : Buf f} {v v' : Buf g} {dec dec' : Option ℕ} {q q' : Option (Buf h)} (x : ℕ)
    (hr : r.len = r'.len) (hv : SameDivisorShape v v' dec dec') (hq : q.map Buf.len = q'.map Buf.len) :
    SameEventsDiv (divideBy v dec fun d => ct_div_pow2_mp x r d q) (divideBy v' dec' fun d => ct_div_pow2_mp x r' d q') ∧
      SameEventsDiv (divideBy v dec fun d => ct_mod_pow2_mp x r d) (divideBy v' dec' fun d => ct_mod_pow2_mp x r' d) := by
  letI := Obs.full
  exact ⟨sameEventsDiv (divideBy_ct hv fun d d' h1 h2 => ct_div_pow2_mp_ct rfl hr h1 h2 (pub_opt hq)),
    sameEventsDiv (divideBy_ct hv fun d d' h1 h2 => ct_mod_pow2_mp_ct rfl hr h1 h2)⟩

example : letI := cfg64
    ((divideBy (Buf.ofNat .le 10 (2 ^ 70 + 12345)) none fun d =>
      ct_div_pow2_mp 200 (Buf.ofNat .be 9 99) d (some (Buf.ofNat .ne 24 7))).val.bind DivResult.nums2).isSome := by
  decide +kernel

/-- C37: division of a shifted number; the distance is public. -/
theorem C37_div_lshifted {u u' : Buf f} {v v' : Buf g} {dec dec' : Option ℕ} {q q' : Option (Buf h)} (len dist : ℕ)
    (hu : u.len = u'.len) (hv : SameDivisorShape v v' dec dec') (hq : q.map Buf.len = q'.map Buf.len) :
    SameEventsDiv (divideBy v dec fun d => ct_div_lshifted_mp_mp u len dist d q)
        (divideBy v' dec' fun d => ct_div_lshifted_mp_mp u' len dist d q') ∧
      SameEventsDiv (divideBy v dec fun d => ct_mod_lshifted_mp_mp u len dist d)
        (divideBy v' dec' fun d => ct_mod_lshifted_mp_mp u' len dist d) := by
  letI := Obs.full
  exact ⟨sameEventsDiv (divideBy_ct hv fun d d' h1 h2 => ct_div_lshifted_mp_mp_ct hu rfl rfl h1 h2 (pub_opt hq)),
    sameEventsDiv (divideBy_ct hv fun d d' h1 h2 => ct_mod_lshifted_mp_mp_ct hu rfl rfl h1 h2)⟩

example : letI := cfg32
    ((divideBy (Buf.ofNat .le 10 (2 ^ 70 + 12345)) none fun d =>
      ct_div_lshifted_mp_mp (Buf.ofNat .be 10 (2 ^ 72 - 99)) 9 23 d
        (some (Buf.ofNat .ne 24 7))).val.bind DivResult.nums2).isSome := by decide +kernel

theorem divideByL_ct [Obs] [Pub α] {v v' : ℕ} (hv : v < B) (hv' : v' < B) {u w : CtLDivisor → M (Except DivError α)}
    (hk : ∀ d d' : CtLDivisor, d.v = v → d'.v = v' → CtOk (u d) (w d')) :
    CtIf IsQuotient (fun _ _ => True) (divideByL v u) (divideByL v' w) := by
  unfold divideByL
  have key : ∀ {v : ℕ}, v < B → ∀ d, (CtLDivisor.new v).val = some (some d) → d.v = v := by
    intro v hv d hd
    by_cases h0 : v = 0
    · subst h0
      have := CtLDivisor.new_zero.post _ hd
      cases this
    · obtain ⟨d', h1, -, h2⟩ := (CtLDivisor.new_spec hv h0).post _ hd
      cases h1
      exact h2
  refine ctIf_bindSome (S := fun d d' => d.v = v ∧ d'.v = v') (fun a b ha hb => ?_) (Post.pure id) (Post.pure id) ?_
  · exact ⟨(CtLDivisor.new_ct a b ha hb).1, key hv a ha, key hv' b hb⟩
  rintro d d' ⟨h1, h2⟩
  refine CtIf.bindOk (hk d d' h1 h2) (fun e => Post.pure id) (fun e => Post.pure id) fun a b _ => ?_
  exact CtIf.of (SameTr.pure trivial)

/-- C37: division by a limb. -/
theorem C37_div_l {u u' : Buf f} {v v' : ℕ} {q q' : Option (Buf h)} (hu : u.len = u'.len) (hv : v < B) (hv' : v' < B)
    (hl : byteLen v = byteLen v') (hq : q.map Buf.len = q'.map Buf.len) :
    SameEventsDiv (divideByL v fun d => ct_div_mp_l u d q) (divideByL v' fun d => ct_div_mp_l u' d q') := by
  letI := Obs.full
  refine sameEventsDiv (divideByL_ct hv hv' fun d d' h1 h2 => ct_div_mp_l_ct hu (pub_opt hq) ?_)
  intro n n' hn hn'
  rw [h1, ct_find_last_set_byte_l_eq hv] at hn
  rw [h2, ct_find_last_set_byte_l_eq hv'] at hn'
  cases hn
  cases hn'
  exact hl

example : letI := cfg64
    ((divideByL 0xfedcba987654321 fun d => ct_div_mp_l (Buf.ofNat .be 20 (2 ^ 155 + 3)) d
      (some (Buf.ofNat .le 17 7))).val.bind DivResult.numsL).isSome ∧
    ((divideByL 0xf0000000000000f fun d => ct_div_mp_l (Buf.ofNat .be 20 5) d
      (some (Buf.ofNat .le 17 8))).val.bind DivResult.numsL).isSome ∧
    byteLen 0xfedcba987654321 = byteLen 0xf0000000000000f := by decide +kernel

/-- C37: the remainder of a division by a limb, not even whose number of significant bytes can be seen. -/
theorem C37_mod_l {u u' : Buf f} {v v' : ℕ} (hu : u.len = u'.len) (hv : v < B) (hv' : v' < B) :
    SameEventsDiv (divideByL v fun d => do let r ← ct_mod_mp_l u d; pure (.ok r))
      (divideByL v' fun d => do let r ← ct_mod_mp_l u' d; pure (.ok r)) := by
  letI := Obs.full
  exact sameEventsDiv (divideByL_ct hv hv' fun d d' _ _ => ctOk_map (ct_mod_mp_l_ct hu))

/-! ### Montgomery arithmetic -/

/-- C37: the factor for Montgomery reduction. -/
theorem C37_montgomery_inv {n n' : Buf f} (hn : n.len = n'.len) :
    SameEventsOk (ct_montgomery_neg_n0_inv_mod_l_mp n) (ct_montgomery_neg_n0_inv_mod_l_mp n') := by
  letI := Obs.full
  exact sameEventsOk (ct_montgomery_neg_n0_inv_mod_l_mp_ct hn)

example : letI := cfg64
    runsOk (ct_montgomery_neg_n0_inv_mod_l_mp (Buf.ofNat .le 9 (2 ^ 72 - 93))) ∧
      runsOk (ct_montgomery_neg_n0_inv_mod_l_mp (Buf.ofNat .le 9 1)) := by decide +kernel

/-- C37: Montgomery reduction. -/
theorem C37_montgomery_redc {t t' : Buf f} {n n' : Buf g} (x x' : ℕ) (ht : t.len = t'.len) (hn : n.len = n'.len) :
    SameEventsOk (ct_montgomery_redc_mp t n x) (ct_montgomery_redc_mp t' n' x') := by
  letI := Obs.full
  exact sameEventsOk (ct_montgomery_redc_mp_ct ht hn)

example : letI := cfg64
    runsOk (ct_montgomery_redc_mp (Buf.ofNat .be 18 (2 ^ 135 + 77)) (Buf.ofNat .le 9 (2 ^ 72 - 93)) 5752210517608354805) := by
  decide +kernel

/-- C37: Montgomery multiplication. -/
theorem C37_montgomery_mul {r r' : Buf f} {a a' : Buf g} {b b' : Buf h} {n n' : Buf k} (x x' : ℕ)
    (hr : r.len = r'.len) (ha : a.len = a'.len) (hb : b.len = b'.len) (hn : n.len = n'.len) :
    SameEventsOk (ct_montgomery_mul_mod_mp_mp r a b n x) (ct_montgomery_mul_mod_mp_mp r' a' b' n' x') := by
  letI := Obs.full
  exact sameEventsOk (ct_montgomery_mul_mod_mp_mp_ct hr ha hb hn)

example : letI := cfg32
    runsOk (ct_montgomery_mul_mod_mp_mp (Buf.ofNat .ne 16 0) (Buf.ofNat .be 9 (2 ^ 70 + 3))
      (Buf.ofNat .le 9 (2 ^ 71 + 5)) (Buf.ofNat .be 9 (2 ^ 72 - 2 ^ 64 - 1)) 1) ∧
    runsOk (ct_montgomery_mul_mod_mp_mp (Buf.ofNat .ne 16 0) (Buf.ofNat .be 9 3)
      (Buf.ofNat .le 9 5) (Buf.ofNat .be 9 (2 ^ 71 - 1)) 1) := by decide +kernel

/-- C37: conversion to Montgomery form. -/
theorem C37_montgomery_form {r r' : Buf f} {t t' : Buf g} {n n' : Buf k} {y y' : Buf h} (x x' : ℕ)
    (hr : r.len = r'.len) (ht : t.len = t'.len) (hn : n.len = n'.len) (hy : y.len = y'.len) :
    SameEventsOk (ct_to_montgomery_form_mp r t n x y) (ct_to_montgomery_form_mp r' t' n' x' y') := by
  letI := Obs.full
  exact sameEventsOk (ct_to_montgomery_form_mp_ct hr ht hn hy)

example : letI := cfg64
    runsOk (ct_to_montgomery_form_mp (Buf.ofNat .ne 16 0) (Buf.ofNat .be 9 77)
      (Buf.ofNat .le 9 (2 ^ 71 - 93)) 5752210517608354805 (Buf.ofNat .le 9 (2 ^ 256 % (2 ^ 71 - 93)))) := by decide +kernel

/-- C37: direct conversion to Montgomery form and the squared radix: the number of
significant bytes of the modulus is public. -/
theorem C37_montgomery_form_direct {t t' : Buf f} {n n' : Buf g} (ht : t.len = t'.len) (hn : n.len = n'.len)
    (hl : byteLen n.toNat = byteLen n'.toNat) :
    SameEventsOk (ct_to_montgomery_form_direct_mp t n) (ct_to_montgomery_form_direct_mp t' n') ∧
      SameEventsOk (ct_montgomery_radix2_mod_n_mp t n) (ct_montgomery_radix2_mod_n_mp t' n') := by
  letI := Obs.full
  exact ⟨sameEventsOk (ct_to_montgomery_form_direct_mp_ct ht hn hl), sameEventsOk (ct_montgomery_radix2_mod_n_mp_ct ht hn hl)⟩

example : letI := cfg64
    runsOk (ct_to_montgomery_form_direct_mp (Buf.ofNat .be 12 77) (Buf.ofNat .le 9 (2 ^ 72 - 93))) ∧
      runsOk (ct_montgomery_radix2_mod_n_mp (Buf.ofNat .be 12 77) (Buf.ofNat .le 9 (2 ^ 72 - 93))) := by decide +kernel

/-- C37: exponentiation with the precomputed squared radix: the bound on the exponent's number of bits is
public, the exponent is not. -/
theorem C37_montgomery_exp {r r' : Buf f} {a a' : Buf g} {n n' : Buf k} {y y' : Buf h} {x x' : Buf e} {s s' : Buf .ne}
    (m m' nbits : ℕ) (hr : r.len = r'.len) (ha : a.len = a'.len) (hn : n.len = n'.len) (hy : y.len = y'.len)
    (hx : x.len = x'.len) (hs : s.len = s'.len) :
    SameEventsOk (ct_montogmery_exp_mod_odd_mp_mp r a n m y x nbits s)
      (ct_montogmery_exp_mod_odd_mp_mp r' a' n' m' y' x' nbits s') := by
  letI := Obs.full
  exact sameEventsOk (ct_montogmery_exp_mod_odd_mp_mp_ct hr ha hn hy hx rfl hs)

/-- C37: exponentiation: the number of significant bytes of the modulus and the bound on the exponent's number of bits
are public, the exponent is not. -/
theorem C37_exp {r r' : Buf f} {a a' : Buf g} {n n' : Buf k} {x x' : Buf e} {s s' : Buf .ne}
    (nbits : ℕ) (hr : r.len = r'.len) (ha : a.len = a'.len) (hn : n.len = n'.len)
    (hl : byteLen n.toNat = byteLen n'.toNat) (hx : x.len = x'.len) (hs : s.len = s'.len) :
    SameEventsOk (ct_exp_mod_odd_mp_mp r a n x nbits s) (ct_exp_mod_odd_mp_mp r' a' n' x' nbits s') := by
  letI := Obs.full
  exact sameEventsOk (ct_exp_mod_odd_mp_mp_ct hr ha hn hl hx rfl hs)

example : letI := cfg64
    runsOk (ct_exp_mod_odd_mp_mp (Buf.ofNat .be 10 0) (Buf.ofNat .le 9 (2 ^ 70 + 9))
      (Buf.ofNat .be 9 (2 ^ 71 - 93)) (Buf.ofNat .le 2 1234) 9 (Buf.ofNat .ne 16 0)) ∧
    runsOk (ct_exp_mod_odd_mp_mp (Buf.ofNat .be 10 0) (Buf.ofNat .le 9 5)
      (Buf.ofNat .be 9 (2 ^ 68 - 93)) (Buf.ofNat .le 2 0) 9 (Buf.ofNat .ne 16 0)) ∧
    byteLen (2 ^ 71 - 93) = byteLen (2 ^ 68 - 93) := by decide +kernel

/-! ### Greatest common divisors, inverses -/

/-- C37: greatest common divisors with an odd number. -/
theorem C37_gcd_odd {a a' : Buf f} {b b' : Buf g} (ha : a.len = a'.len) (hb : b.len = b'.len) :
    SameEventsOk (ct_gcd_odd_mp_mp a b) (ct_gcd_odd_mp_mp a' b') := by
  letI := Obs.full
  exact sameEventsOk (ct_gcd_odd_mp_mp_ct ha hb)

example : letI := cfg64
    runsOk (ct_gcd_odd_mp_mp (Buf.ofNat .be 3 189) (Buf.ofNat .be 3 45)) ∧
      runsOk (ct_gcd_odd_mp_mp (Buf.ofNat .be 3 1) (Buf.ofNat .be 3 0)) := by decide +kernel

/-- C37: greatest common divisors: all of the operations and their order. -/
theorem C37_gcd_partial {a a' : Buf f} {b b' : Buf g} (ha : a.len = a'.len) (hb : b.len = b'.len) :
    SameShapeOk (ct_gcd_mp_mp a b) (ct_gcd_mp_mp a' b') := by
  letI := Obs.noPos
  exact sameShapeOk (ct_gcd_mp_mp_ct ha hb noPos_absurd)

/-- C37: greatest common divisors: nothing but the largest power of two dividing the greatest common divisor
can be seen. -/
theorem C37_gcd_pow2_partial {a a' : Buf f} {b b' : Buf g} (ha : a.len = a'.len) (hb : b.len = b'.len)
    (hp : ∀ i, 2 ^ i ∣ Nat.gcd a.toNat b.toNat ↔ 2 ^ i ∣ Nat.gcd a'.toNat b'.toNat) :
    SameEventsOk (ct_gcd_mp_mp a b) (ct_gcd_mp_mp a' b') := by
  letI := Obs.full
  exact sameEventsOk (ct_gcd_mp_mp_ct ha hb (fun _ => hp))

omit [LimbCfg] in
/-- C37, contradicting witness: the power of two dividing the greatest common divisor can be seen, from the limbs
read when shifting by its exponent. -/
theorem C37_gcd_fails : letI := cfg32
    ¬ SameEventsOk (ct_gcd_mp_mp (Buf.ofNat .ne 8 (2 ^ 32)) (Buf.ofNat .ne 8 (2 ^ 32)))
      (ct_gcd_mp_mp (Buf.ofNat .ne 8 1) (Buf.ofNat .ne 8 1)) :=
  not_sameEventsOk (by decide +kernel)

example : letI := cfg32
    runsOk (ct_gcd_mp_mp (Buf.ofNat .le 5 12) (Buf.ofNat .be 5 18)) ∧
      runsOk (ct_gcd_mp_mp (Buf.ofNat .le 5 2) (Buf.ofNat .be 5 4)) := by decide +kernel

/-- C37: least common multiples: all of the operations and their order.  The operands are less than `256 ^ n` and
`256 ^ m`, where `n` and `m` are the lengths passed. -/
theorem C37_lcm_partial {r r' : Buf f} {a a' : Buf g} {b b' s s' : Buf h} (n m : ℕ) (hr : r.len = r'.len)
    (ha : a.len = a'.len) (hb : b.len = b'.len) (hs : s.len = s'.len) (h0 : a.toNat < 256 ^ n) (h0' : a'.toNat < 256 ^ n)
    (h1 : b.toNat < 256 ^ m) (h1' : b'.toNat < 256 ^ m) :
    SameShapeOk (ct_lcm_mp_mp r a n b m s) (ct_lcm_mp_mp r' a' n b' m s') := by
  letI := Obs.noPos
  exact sameShapeOk (ct_lcm_mp_mp_ct hr ha hb hs rfl rfl h0 h0' h1 h1' noPos_absurd)

/-- C37: least common multiples of nonzero numbers: nothing but the greatest common divisor's number of bits and
the largest power of two dividing it can be seen. -/
theorem C37_lcm_gcd_partial {r r' : Buf f} {a a' : Buf g} {b b' s s' : Buf h} (n m : ℕ) (hr : r.len = r'.len)
    (ha : a.len = a'.len) (hb : b.len = b'.len) (hs : s.len = s'.len) (h0 : a.toNat < 256 ^ n) (h0' : a'.toNat < 256 ^ n)
    (h1 : b.toNat < 256 ^ m) (h1' : b'.toNat < 256 ^ m) (hz : a.toNat ≠ 0) (hz' : a'.toNat ≠ 0)
    (hp : ∀ i, 2 ^ i ∣ Nat.gcd a.toNat b.toNat ↔ 2 ^ i ∣ Nat.gcd a'.toNat b'.toNat)
    (hl : Nat.size (Nat.gcd a.toNat b.toNat) = Nat.size (Nat.gcd a'.toNat b'.toNat)) :
    SameEventsOk (ct_lcm_mp_mp r a n b m s) (ct_lcm_mp_mp r' a' n b' m s') := by
  letI := Obs.full
  refine sameEventsOk (ct_lcm_mp_mp_ct hr ha hb hs rfl rfl h0 h0' h1 h1' fun _ => ⟨hp, ?_⟩)
  unfold gcdVal
  rwa [if_neg (fun h => hz h.1), if_neg (fun h => hz' h.1)]

omit [LimbCfg] in
/-- C37, contradicting witness: the power of two dividing the greatest common divisor can be seen. -/
theorem C37_lcm_fails : letI := cfg32
    ¬ SameEventsOk
      (ct_lcm_mp_mp (Buf.ofNat .ne 16 0) (Buf.ofNat .ne 8 (2 ^ 32)) 8 (Buf.ofNat .ne 8 (2 ^ 32)) 8 (Buf.ofNat .ne 16 0))
      (ct_lcm_mp_mp (Buf.ofNat .ne 16 0) (Buf.ofNat .ne 8 1) 8 (Buf.ofNat .ne 8 1) 8 (Buf.ofNat .ne 16 0)) :=
  not_sameEventsOk (by decide +kernel)

example : letI := cfg32
    runsOk (ct_lcm_mp_mp (Buf.ofNat .ne 16 0) (Buf.ofNat .le 12 123456789012) 7
      (Buf.ofNat .ne 12 123456000) 5 (Buf.ofNat .ne 16 77)) := by decide +kernel

/-- C37: successful inversion modulo an odd number. -/
theorem C37_inv_odd {r r' : Buf f} {a a' : Buf g} {n n' : Buf h} {s s' t t' : Buf .ne} (hr : r.len = r'.len)
    (ha : a.len = a'.len) (hn : n.len = n'.len) (hs : s.len = s'.len) (ht : t.len = t'.len) :
    SameEventsOk (ct_inv_mod_odd_mp_mp r a n s t) (ct_inv_mod_odd_mp_mp r' a' n' s' t') := by
  letI := Obs.full
  exact sameEventsOk (ct_inv_mod_odd_mp_mp_ct hr ha hn hs ht)

omit [LimbCfg] in
/-- C37, contradicting witness: if there is no inverse, the events depend on the modulus. -/
theorem C37_inv_odd_error_fails : letI := cfg32
    ¬ SameEvents
      (ct_inv_mod_odd_mp_mp (Buf.ofNat .ne 8 0) (Buf.ofNat .ne 8 0) (Buf.ofNat .ne 8 (2 ^ 32 + 1))
        (Buf.ofNat .ne 8 0) (Buf.ofNat .ne 8 0))
      (ct_inv_mod_odd_mp_mp (Buf.ofNat .ne 8 0) (Buf.ofNat .ne 8 0) (Buf.ofNat .ne 8 3)
        (Buf.ofNat .ne 8 0) (Buf.ofNat .ne 8 0)) :=
  not_sameEvents (by decide +kernel)

example : letI := cfg32
    runsOk (ct_inv_mod_odd_mp_mp (Buf.ofNat .ne 8 0) (Buf.ofNat .le 5 500)
      (Buf.ofNat .be 5 1009) (Buf.ofNat .ne 8 0) (Buf.ofNat .ne 8 0)) ∧
    runsOk (ct_inv_mod_odd_mp_mp (Buf.ofNat .ne 8 0) (Buf.ofNat .le 5 2)
      (Buf.ofNat .be 5 5) (Buf.ofNat .ne 8 0) (Buf.ofNat .ne 8 0)) := by decide +kernel

/-- C37: inversion modulo a secret power of two: the bound on the exponent is public. -/
theorem C37_inv_pow2 {r r' : Buf f} {a a' : Buf g} {s s' : Buf .ne} (x x' bound : ℕ) (hr : r.len = r'.len)
    (ha : a.len = a'.len) (hs : s.len = s'.len) :
    SameEvents (ct_inv_mod_pow2_mp r a x bound s) (ct_inv_mod_pow2_mp r' a' x' bound s') := by
  letI := Obs.full
  exact sameEvents (ct_inv_mod_pow2_mp_ct hr ha rfl hs)

example : letI := cfg32
    runs (ct_inv_mod_pow2_mp (Buf.ofNat .ne 16 99) (Buf.ofNat .le 3 77777) 61 64 (Buf.ofNat .ne 8 5)) ∧
      runs (ct_inv_mod_pow2_mp (Buf.ofNat .ne 16 99) (Buf.ofNat .le 3 3) 7 64 (Buf.ofNat .ne 8 5)) := by decide +kernel

/-- An inverse has been found. -/
def Inverted (m : M (Buf g × Except GcdError (Buf f))) : Prop := ∃ n v, m.val = some (n, .ok v)

/-- C37: successful inversion: all of the operations and their order. -/
theorem C37_inv_partial {a a' : Buf f} {n n' : Buf g} {s0 s1 s2 s3 t0 t1 t2 t3 : Buf .ne} (ha : a.len = a'.len)
    (hn : n.len = n'.len) (h0 : s0.len = t0.len) (h1 : s1.len = t1.len) (h2 : s2.len = t2.len) (h3 : s3.len = t3.len)
    (hi : Inverted (ct_inv_mod_mp_mp a n s0 s1 s2 s3)) (hi' : Inverted (ct_inv_mod_mp_mp a' n' t0 t1 t2 t3)) :
    (ct_inv_mod_mp_mp a n s0 s1 s2 s3).tr.map shape = (ct_inv_mod_mp_mp a' n' t0 t1 t2 t3).tr.map shape := by
  letI := Obs.noPos
  obtain ⟨x, v, hv⟩ := hi
  obtain ⟨x', v', hv'⟩ := hi'
  have := (ct_inv_mod_mp_mp_ct ha hn h0 h1 h2 h3 noPos_absurd _ _ hv hv' ⟨v, rfl⟩ ⟨v', rfl⟩).1
  rwa [seen_noPos, seen_noPos] at this

/-- C37: successful inversion: nothing but the largest power of two dividing the modulus can be seen. -/
theorem C37_inv_pow2_part_partial {a a' : Buf f} {n n' : Buf g} {s0 s1 s2 s3 t0 t1 t2 t3 : Buf .ne}
    (ha : a.len = a'.len) (hn : n.len = n'.len) (h0 : s0.len = t0.len) (h1 : s1.len = t1.len) (h2 : s2.len = t2.len)
    (h3 : s3.len = t3.len) (hp : ∀ i, 2 ^ i ∣ n.toNat ↔ 2 ^ i ∣ n'.toNat)
    (hi : Inverted (ct_inv_mod_mp_mp a n s0 s1 s2 s3)) (hi' : Inverted (ct_inv_mod_mp_mp a' n' t0 t1 t2 t3)) :
    (ct_inv_mod_mp_mp a n s0 s1 s2 s3).tr = (ct_inv_mod_mp_mp a' n' t0 t1 t2 t3).tr := by
  letI := Obs.full
  obtain ⟨x, v, hv⟩ := hi
  obtain ⟨x', v', hv'⟩ := hi'
  have := (ct_inv_mod_mp_mp_ct ha hn h0 h1 h2 h3 (fun _ => hp) _ _ hv hv' ⟨v, rfl⟩ ⟨v', rfl⟩).1
  rwa [M.seen_full, M.seen_full] at this

omit [LimbCfg] in
/-- C37, contradicting witness: the power of two dividing the modulus can be seen. -/
theorem C37_inv_fails : letI := cfg32
    ∃ (a n n' s : Buf .ne), n.len = n'.len ∧ Inverted (ct_inv_mod_mp_mp a n s s s s) ∧
      Inverted (ct_inv_mod_mp_mp a n' s s s s) ∧
      (ct_inv_mod_mp_mp a n s s s s).tr ≠ (ct_inv_mod_mp_mp a n' s s s s).tr := by
  have key : ∀ {f g : Fmt} {m : letI := cfg32; M (Buf g × Except GcdError (Buf f))},
      (m.val.map fun r => r.2.isOk) = some true → letI := cfg32; Inverted m := by
    intro f g m h
    match hm : m.val with
    | none => rw [hm] at h; cases h
    | some (_, .error e) => rw [hm] at h; cases h
    | some (n, .ok a) => exact ⟨n, a, hm⟩
  refine ⟨@Buf.ofNat cfg32 .ne 8 5, @Buf.ofNat cfg32 .ne 8 (2 ^ 32 * 3), @Buf.ofNat cfg32 .ne 8 6,
    @Buf.ofNat cfg32 .ne 8 0, ?_, key ?_, key ?_, ?_⟩ <;> decide +kernel

example : letI := cfg32
    ((ct_inv_mod_mp_mp (Buf.ofNat .ne 8 12345) (Buf.ofNat .le 7 1000004)
      (Buf.ofNat .ne 8 1) (Buf.ofNat .ne 8 2) (Buf.ofNat .ne 8 3) (Buf.ofNat .ne 8 4)).val.map fun r => r.2.isOk) = some true := by
  decide +kernel

/-! ### Primes -/

/-- C37: the test for small factors. -/
theorem C37_small_factors {p p' : Buf f} {s s' t t' : Buf .ne} (hp : p.len = p'.len) (hs : s.len = s'.len)
    (ht : t.len = t'.len) :
    SameEventsOk (ct_composite_test_small_prime_gcd_mp p s t) (ct_composite_test_small_prime_gcd_mp p' s' t') := by
  letI := Obs.full
  exact sameEventsOk (ct_composite_test_small_prime_gcd_mp_ct hp hs ht)

example : letI := cfg32
    runsOk (ct_composite_test_small_prime_gcd_mp (Buf.ofNat .ne 4 (53 * 59)) (Buf.ofNat .ne 8 5) (Buf.ofNat .ne 16 7)) ∧
      runsOk (ct_composite_test_small_prime_gcd_mp (Buf.ofNat .ne 4 (23 * 59)) (Buf.ofNat .ne 8 5) (Buf.ofNat .ne 16 7)) := by
  decide +kernel

/-- C37: the Miller-Rabin test, whether the candidate passes it or not. -/
theorem C37_miller_rabin {a a' : Buf f} {p p' : Buf g} {m m' : Buf h} {s s' t t' : Buf .ne} (ha : a.len = a'.len)
    (hp : p.len = p'.len) (hm : m.len = m'.len) (hs : s.len = s'.len) (ht : t.len = t'.len) :
    SameEventsOk (ct_prime_test_miller_rabin_mp a p m s t) (ct_prime_test_miller_rabin_mp a' p' m' s' t') := by
  letI := Obs.full
  exact sameEventsOk (ct_prime_test_miller_rabin_mp_ct ha hp hm hs ht)

example : letI := cfg32
    runsOk (ct_prime_test_miller_rabin_mp (Buf.ofNat .be 4 (2 * 2 ^ 32 % 2047)) (Buf.ofNat .be 4 2047)
      (Buf.ofNat .be 4 (2 ^ 32 % 2047)) (Buf.ofNat .ne 4 5) (Buf.ofNat .ne 4 7)) ∧
    runsOk (ct_prime_test_miller_rabin_mp (Buf.ofNat .be 4 (3 * 2 ^ 32 % 2047)) (Buf.ofNat .be 4 2047)
      (Buf.ofNat .be 4 (2 ^ 32 % 2047)) (Buf.ofNat .ne 4 5) (Buf.ofNat .ne 4 7)) := by decide +kernel

/-- C37: the start of the wheel at a secret lower bound: all of the operations and their order. -/
theorem C37_wheel_start_partial {a a' : Buf f} (ha : a.len = a'.len) :
    SameShape (WheelLvl1.start_geq_than a) (WheelLvl1.start_geq_than a') := by
  letI := Obs.noPos
  exact sameShape (WheelLvl1.start_geq_than_ct rfl ha)

omit [LimbCfg] in
/-- C37, contradicting witness: the entry of the table looked up depends on the lower bound. -/
theorem C37_wheel_start_fails : letI := cfg64
    ¬ SameEvents (WheelLvl1.start_geq_than (Buf.ofNat .be 11 614889782588491408))
      (WheelLvl1.start_geq_than (Buf.ofNat .be 11 5)) :=
  not_sameEvents (by decide +kernel)

example : letI := cfg64
    runs (WheelLvl1.start_geq_than (Buf.ofNat .be 11 614889782588491408)) ∧
      runs (WheelLvl1.start_geq_than (Buf.ofNat .be 11 5)) := by decide +kernel

end Props
end Cmpa
