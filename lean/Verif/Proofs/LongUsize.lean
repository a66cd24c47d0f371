import Verif.Proofs.ShiftUsize
import Verif.Proofs.CostPrime
import Verif.Proofs.Panic
import Verif.Proofs.Mul
import Verif.Model.LongUsize

/-!
# Lengths of operands in a bounded `usize`

If the lengths of the operands are not too large, then the functions of `LongUsize.lean` do the same as those with an
unbounded `usize`: a debug build has the same outcome and the same events.
-/

set_option linter.unusedSectionVars false

namespace Cmpa

open M

/-! ### The same run of a debug build -/

/-- Debug builds of `m` and `m'` have the same outcome, which may be a panic, and the same events. -/
structure SameRun {α : Type} (m m' : M α) : Prop where
  val : m.val = m'.val
  tr : m.tr = m'.tr

namespace SameRun
variable {α β σ ε : Type}

theorem of_eq {m m' : M α} (h : m = m') : SameRun m m' := h ▸ ⟨rfl, rfl⟩
theorem rfl' {m : M α} : SameRun m m := ⟨rfl, rfl⟩

theorem sat {m m' : M α} (h : SameRun m m') {P : α → Prop} (hs : Sat m' P) : Sat m P := by
  obtain ⟨a, ha, hp⟩ := hs
  exact ⟨a, h.val.trans ha, hp⟩

theorem bind {m m' : M α} {f f' : α → M β} (h : SameRun m m') (hf : ∀ a, m'.val = some a → SameRun (f a) (f' a)) :
    SameRun (m >>= f) (m' >>= f') := by
  constructor
  · rw [bind_val, bind_val, h.val]
    cases h' : m'.val with
    | none => rfl
    | some a => exact (hf a h').val
  · change bindTr _ _ _ = bindTr _ _ _
    rw [h.val, h.tr]
    cases h' : m'.val with
    | none => rfl
    | some a => exact congrArg (m'.tr ++ ·) (hf a h').tr

theorem bind_same {m : M α} {f f' : α → M β} (hf : ∀ a, m.val = some a → SameRun (f a) (f' a)) :
    SameRun (m >>= f) (m >>= f') := bind rfl' hf

theorem cond {c : Prop} [Decidable c] {t t' e e' : M α} (ht : c → SameRun t t') (he : ¬ c → SameRun e e') :
    SameRun (M.cond c t e) (M.cond c t' e') := by
  refine bind_same fun b hb => ?_
  have : b = decide c := by
    have : some (decide c) = some b := hb
    simpa using this.symm
  subst this
  by_cases h : c
  · simpa [h] using ht h
  · simpa [h] using he h

theorem bindE {m m' : M (Except ε α)} {f f' : α → M (Except ε β)} (h : SameRun m m')
    (hf : ∀ a, m'.val = some (.ok a) → SameRun (f a) (f' a)) : SameRun (M.bindE m f) (M.bindE m' f') := by
  refine bind h fun r hr => ?_
  cases r with
  | error _ => exact rfl'
  | ok a => exact hf a hr

theorem unwrapE {m m' : M (Except ε α)} (h : SameRun m m') : SameRun (Cmpa.unwrapE m) (Cmpa.unwrapE m') :=
  bind h fun _ _ => rfl'

theorem assertM {m m' : M Bool} (h : m.val = m'.val) : SameRun (M.assertM m) (M.assertM m') := by
  unfold M.assertM
  rw [h]
  exact rfl'

theorem subU (u : UsizeCfg) {a b : ℕ} : SameRun (M.subU u a b) (M.sub a b) := by
  unfold M.subU M.sub
  split <;> exact ⟨rfl, rfl⟩

theorem loopUp {F G : ℕ → σ → M σ} (I : ℕ → σ → Prop) (n lo : ℕ) (s : σ) (h0 : I lo s)
    (h : ∀ i s, i < lo + n → I i s → SameRun (F i s) (G i s) ∧ Post (G i s) (I (i + 1))) :
    SameRun (M.loopUp n lo s F) (M.loopUp n lo s G) ∧ Post (M.loopUp n lo s G) (I (lo + n)) := by
  induction n generalizing lo s with
  | zero => exact ⟨rfl', Post.pure h0⟩
  | succ n ih =>
    unfold M.loopUp
    obtain ⟨h1, h2⟩ := h lo s (by omega) h0
    have ih' := fun s' (hs' : I (lo + 1) s') => ih (lo + 1) s' hs' fun i t hi => h i t (by omega)
    refine ⟨bind_same fun _ _ => bind h1 fun s' hs' => (ih' s' (h2 s' hs')).1, Post.bind Post.trivial fun _ _ =>
      Post.bind h2 fun s' hs' => ?_⟩
    rw [show lo + (n + 1) = lo + 1 + n by omega]
    exact (ih' s' hs').2

theorem forRange {F G : ℕ → σ → M σ} (I : ℕ → σ → Prop) {n : ℕ} {s : σ} (h0 : I 0 s)
    (h : ∀ i s, i < n → I i s → SameRun (F i s) (G i s) ∧ Post (G i s) (I (i + 1))) :
    SameRun (M.forRange 0 n s F) (M.forRange 0 n s G) ∧ Post (M.forRange 0 n s G) (I n) := by
  have := loopUp I (n - 0) 0 s h0 fun i s hi => h i s (by omega)
  rwa [show 0 + (n - 0) = n by omega] at this

theorem forDown {F G : ℕ → σ → M σ} (I : ℕ → σ → Prop) {n : ℕ} {s : σ} (h0 : I n s)
    (h : ∀ i s, i < n → I (i + 1) s → SameRun (F i s) (G i s) ∧ Post (G i s) (I i)) :
    SameRun (M.forDown n s F) (M.forDown n s G) ∧ Post (M.forDown n s G) (I 0) := by
  induction n generalizing s with
  | zero => exact ⟨rfl', Post.pure h0⟩
  | succ n ih =>
    unfold M.forDown
    obtain ⟨h1, h2⟩ := h n s (by omega) h0
    have ih' := fun s' (hs' : I n s') => ih (s := s') hs' fun i t hi => h i t (by omega)
    exact ⟨bind_same fun _ _ => bind h1 fun s' hs' => (ih' s' (h2 s' hs')).1, Post.bind Post.trivial fun _ _ =>
      Post.bind h2 fun s' hs' => (ih' s' hs').2⟩

/-- No conclusion about panics in a release build is drawn: otherwise the results are the same. -/
theorem rel {m m' : M α} (h : SameRun m m') {a : α} (ha : m'.val = some a) : m.rel = some a ∧ m.rtr = m'.tr := by
  have h1 := m.coh a (h.val.trans ha)
  exact ⟨h1.1, h1.2.trans h.tr⟩

end SameRun

variable [LimbCfg] {φ ψ χ : Fmt} {f g h f' e : Fmt}

/-! ### Positions of bits -/

theorem load_l_post (b : Buf f) {i : ℕ} (hi : i < b.nlimbs) : Post (b.load_l i) (fun v => v = b.toNat / B ^ i % B) :=
  (b.sat_load_l hi (Q := fun v => v = b.toNat / B ^ i % B) rfl).post

theorem ct_is_zero_choice {v : ℕ} (hv : v < B) :
    LimbChoice.from' (ct_is_zero_l v) = pure (.ofBool (decide (v = 0))) := by
  rw [ct_is_zero_l_eq hv, show (if v = 0 then 1 else 0) = (decide (v = 0)).toNat by split <;> simp_all, from'_toNat]

section
variable (u : UsizeCfg)

theorem firstSet_l {v : ℕ} (hv : v < B) : ∃ t, ct_find_first_set_bit_l v = pure t ∧ t ≤ W := by
  obtain ⟨t, h3, ht⟩ := ct_find_first_set_bit_l_spec hv
  refine ⟨t, h3, ?_⟩
  rcases ht with ⟨_, h⟩ | ⟨h0, h4, _⟩
  · exact h.le
  · by_contra hc
    exact h0 (Nat.eq_zero_of_dvd_of_lt ((pow_dvd_pow 2 (by omega : W ≤ t)).trans h4) hv)

theorem ct_find_first_set_bit_mp'_run (b : Buf f) (hb : b.nlimbs * W < @B u.cfg) :
    SameRun (ct_find_first_set_bit_mp' u b) (ct_find_first_set_bit_mp b) := by
  unfold ct_find_first_set_bit_mp' ct_find_first_set_bit_mp
  have hB := @B_pos u.cfg
  have hl := SameRun.forRange
    (F := fun i (s : LimbChoice × ℕ) => do
      let op0_val ← b.load_l i
      let n ← ct_find_first_set_bit_l op0_val
      let ntrailing_zeroes ← M.addU u s.2 (s.1.select 0 n)
      let c ← LimbChoice.from' (ct_is_zero_l op0_val)
      pure (s.1.and c, ntrailing_zeroes))
    (G := fun i (s : LimbChoice × ℕ) => do
      let op0_val ← b.load_l i
      let n ← ct_find_first_set_bit_l op0_val
      let c ← LimbChoice.from' (ct_is_zero_l op0_val)
      pure (s.1.and c, s.2 + s.1.select 0 n))
    (n := b.nlimbs) (s := (LimbChoice.new 1, 0)) (fun i s => (∃ c, s.1 = .ofBool c) ∧ s.2 ≤ i * W)
    ⟨⟨true, by rw [LimbChoice.new_one]⟩, Nat.zero_le _⟩ (by
      rintro i ⟨_, n⟩ hi ⟨⟨c, h1⟩, h2⟩
      dsimp only at h1 h2 ⊢
      subst h1
      have hiW : (i + 1) * W ≤ b.nlimbs * W := Nat.mul_le_mul_right W hi
      rw [Nat.add_mul, Nat.one_mul] at hiW
      have key : ∀ v, v = b.toNat / B ^ i % B → ∃ t, ct_find_first_set_bit_l v = pure t ∧
          LimbChoice.from' (ct_is_zero_l v) = pure (.ofBool (decide (v = 0))) ∧ (LimbChoice.ofBool c).select 0 t ≤ W := by
        rintro _ rfl
        have hd := dig_lt b.toNat i
        obtain ⟨t, ht, htW⟩ := firstSet_l hd
        refine ⟨t, ht, ct_is_zero_choice hd, ?_⟩
        rw [LimbChoice.select_ofBool B_pos (lt_of_le_of_lt htW W_lt_B)]
        split <;> omega
      constructor
      · refine SameRun.bind_same fun v hv => ?_
        obtain ⟨t, h3, h4, h5⟩ := key v (load_l_post b hi v hv)
        rw [h3, M.pure_bind, M.pure_bind, addU_eq u (by omega), M.pure_bind]
        exact SameRun.rfl'
      · refine Post.bind (load_l_post b hi) fun v hv => ?_
        obtain ⟨t, h3, h4, h5⟩ := key v hv
        rw [h3, h4, M.pure_bind, M.pure_bind]
        refine Post.pure ⟨⟨_, LimbChoice.and_ofBool ..⟩, ?_⟩
        dsimp only
        rw [Nat.add_mul, Nat.one_mul]
        omega)
  refine SameRun.bind hl.1 fun s hs => ?_
  obtain ⟨c, n⟩ := s
  obtain ⟨⟨c, rfl⟩, h2⟩ := hl.2 _ hs
  dsimp only at h2 ⊢
  rw [sel_eq u (by omega) hB (fun _ => rfl) (fun _ => rfl)]
  exact SameRun.rfl'

theorem ct_find_last_set_bit_mp'_run (b : Buf f) (hb : b.nlimbs * W < @B u.cfg) :
    SameRun (ct_find_last_set_bit_mp' u b) (ct_find_last_set_bit_mp b) := by
  unfold ct_find_last_set_bit_mp' ct_find_last_set_bit_mp
  have hB := @B_pos u.cfg
  have hl := SameRun.forDown
    (F := fun i (s : LimbChoice × ℕ) => do
      let op0_val ← b.load_l i
      let n ← ct_find_last_set_bit_l op0_val
      let d ← M.sub W n
      let nleading_zeroes ← M.addU u s.2 (s.1.select 0 d)
      let c ← LimbChoice.from' (ct_is_zero_l op0_val)
      pure (s.1.and c, nleading_zeroes))
    (G := fun i (s : LimbChoice × ℕ) => do
      let op0_val ← b.load_l i
      let n ← ct_find_last_set_bit_l op0_val
      let d ← M.sub W n
      let c ← LimbChoice.from' (ct_is_zero_l op0_val)
      pure (s.1.and c, s.2 + s.1.select 0 d))
    (n := b.nlimbs) (s := (LimbChoice.new 1, 0)) (fun i s => (∃ c, s.1 = .ofBool c) ∧ s.2 + i * W ≤ b.nlimbs * W)
    ⟨⟨true, by rw [LimbChoice.new_one]⟩, by simp⟩ (by
      rintro i ⟨_, n⟩ hi ⟨⟨c, h1⟩, h2⟩
      dsimp only at h1 h2 ⊢
      subst h1
      rw [Nat.add_mul, Nat.one_mul] at h2
      have key : ∀ v, v = b.toNat / B ^ i % B → ct_find_last_set_bit_l v = pure (Nat.size v) ∧
          M.sub W (Nat.size v) = pure (W - Nat.size v) ∧
          LimbChoice.from' (ct_is_zero_l v) = pure (.ofBool (decide (v = 0))) ∧
          (LimbChoice.ofBool c).select 0 (W - Nat.size v) ≤ W := by
        rintro _ rfl
        have hd := dig_lt b.toNat i
        have hs : Nat.size (b.toNat / B ^ i % B) ≤ W := Nat.size_le.2 hd
        have := W_lt_B
        refine ⟨ct_find_last_set_bit_l_eq hd, M.sub_eq hs, ct_is_zero_choice hd, ?_⟩
        rw [LimbChoice.select_ofBool B_pos (by omega)]
        split <;> omega
      constructor
      · refine SameRun.bind_same fun v hv => ?_
        obtain ⟨h3, h4, h5, h6⟩ := key v (load_l_post b hi v hv)
        rw [h3, M.pure_bind, M.pure_bind, h4, M.pure_bind, M.pure_bind, addU_eq u (by omega), M.pure_bind]
        exact SameRun.rfl'
      · refine Post.bind (load_l_post b hi) fun v hv => ?_
        obtain ⟨h3, h4, h5, h6⟩ := key v hv
        rw [h3, M.pure_bind, h4, M.pure_bind, h5, M.pure_bind]
        refine Post.pure ⟨⟨_, LimbChoice.and_ofBool ..⟩, ?_⟩
        dsimp only
        omega)
  refine SameRun.bind hl.1 fun s hs => ?_
  obtain ⟨c, n⟩ := s
  dsimp only
  rw [mulU_eq u hb, M.pure_bind]
  exact SameRun.bind (SameRun.subU u) fun _ _ => SameRun.rfl'

theorem firstSet_le (b : Buf f) : Post (ct_find_first_set_bit_mp b) (fun r => (∃ c, r.1 = .ofBool c) ∧ r.2 ≤ b.nlimbs * W) := by
  refine fun r hr => ?_
  obtain ⟨h1, h2⟩ := (ct_find_first_set_bit_mp_sat b).post r hr
  refine ⟨⟨_, h1⟩, ?_⟩
  rcases h2 with ⟨_, h⟩ | ⟨h0, h4, _⟩
  · omega
  · by_contra hc
    have h5 : b.toNat < B ^ b.nlimbs := b.toNat_lt_B
    rw [B_pow_eq] at h5
    exact h0 (Nat.eq_zero_of_dvd_of_lt ((pow_dvd_pow 2 (by omega : b.nlimbs * W ≤ r.2)).trans h4) h5)

theorem lastSet_le (b : Buf f) : Post (ct_find_last_set_bit_mp b) (fun r => (∃ c, r.1 = .ofBool c) ∧ r.2 ≤ b.nlimbs * W) := by
  refine fun r hr => ?_
  have h1 := (ct_find_last_set_bit_mp_sat b).post r hr
  subst h1
  refine ⟨⟨_, rfl⟩, Nat.size_le.2 ?_⟩
  have h5 : b.toNat < B ^ b.nlimbs := b.toNat_lt_B
  rwa [B_pow_eq] at h5

/-! ### Lengths -/

/-- Operands of `k` limbs for which the number of steps of Euclid's algorithm can be computed. -/
def NFit (k : ℕ) : Prop := StepsFit u (k * LB)

variable {u}

theorem mul_W (k : ℕ) : k * W = 8 * (k * LB) := by unfold W; ring

theorem NFit.spec {k : ℕ} (h : NFit u k) : 49 * (k * W + 2) + 57 < @B u.cfg := by
  rw [mul_W]; exact h

theorem len_le (b : Buf f) : b.len ≤ b.nlimbs * LB := le_nlimbs_mul b.len

theorem NFit.bits {k : ℕ} (h : NFit u k) : k * W < @B u.cfg := by have := h.spec; omega

theorem NFit.fit {k : ℕ} (h : NFit u k) {b : Buf f} (hb : b.nlimbs ≤ k) : BitsFit u b.len := by
  have h1 := h.spec
  have h2 := len_le_nlimbs_mul_W b
  have h3 := Nat.mul_le_mul_right W hb
  have h4 := LB_le
  have h5 : W = 8 * LB := rfl
  unfold BitsFit
  omega

theorem NFit.steps {k : ℕ} (h : NFit u k) {a : Buf f} {b : Buf g} (ha : a.nlimbs ≤ k) (hb : b.nlimbs ≤ k) :
    StepsFit u (max a.len b.len) := by
  have h1 := h.spec
  have h2 := len_le_nlimbs_mul_W a
  have h3 := Nat.mul_le_mul_right W ha
  have h4 := len_le_nlimbs_mul_W b
  have h5 := Nat.mul_le_mul_right W hb
  unfold StepsFit
  omega

theorem NFit.mono {k l : ℕ} (h : NFit u k) (hl : l ≤ k) : NFit u l := by
  have h1 := h.spec
  have h3 := Nat.mul_le_mul_right W hl
  unfold NFit StepsFit
  rw [← mul_W]
  omega

variable (u)

/-! ### Greatest common divisors -/

theorem ct_gcd_mp_mp'_run (a : Buf φ) (b : Buf ψ) {k : ℕ} (hk : NFit u k) (ha : a.nlimbs ≤ k) (hb : b.nlimbs ≤ k) :
    SameRun (ct_gcd_mp_mp' u a b) (ct_gcd_mp_mp a b) := by
  have hB := hk.bits
  have haB := Nat.mul_le_mul_right W ha
  have hbB := Nat.mul_le_mul_right W hb
  unfold ct_gcd_mp_mp' ct_gcd_mp_mp
  refine SameRun.cond (fun _ => .rfl') fun _ => ?_
  refine SameRun.bind_same fun c0 _ => SameRun.bind_same fun c1 _ => SameRun.cond (fun _ => .rfl') fun _ => ?_
  refine SameRun.bind (ct_find_first_set_bit_mp'_run u a (by omega)) fun r hr => ?_
  obtain ⟨⟨c0, h0⟩, h0'⟩ := firstSet_le a _ hr
  obtain ⟨_, n0⟩ := r
  refine SameRun.bind (ct_find_first_set_bit_mp'_run u b (by omega)) fun r hr => ?_
  obtain ⟨⟨c1, h1⟩, h1'⟩ := firstSet_le b _ hr
  obtain ⟨_, n1⟩ := r
  dsimp only at h0 h1 h0' h1' ⊢
  subst h0 h1
  refine SameRun.bind_same fun _ _ => ?_
  rw [ct_lt_usize_usize_agrees u (by omega) (by omega), M.pure_bind, ct_lt_usize_usize_eq]
  simp only [LimbChoice.not_ofBool, LimbChoice.and_ofBool, LimbChoice.or_ofBool]
  rw [sel_eq u (by omega) (by omega) (fun _ => rfl) (fun _ => rfl)]
  generalize hm : LimbChoice.select_usize _ n0 n1 = m
  have hm' : m ≤ k * W := by
    rw [← hm, LimbChoice.select_usize_ofBool]
    split <;> omega
  rw [ct_rshift_mp'_eq u a m (by omega) (by omega)]
  refine SameRun.bind_same fun r hr => ?_
  have ha1 := ((ct_rshift_mp_sat a m).post _ hr).1
  obtain ⟨a1, _⟩ := r
  dsimp only at ha1 ⊢
  rw [ct_rshift_mp'_eq u b m (by omega) (by omega)]
  refine SameRun.bind_same fun r hr => ?_
  have hb1 := ((ct_rshift_mp_sat b m).post _ hr).1
  obtain ⟨b1, _⟩ := r
  dsimp only at hb1 ⊢
  have ha1' : a1.nlimbs ≤ k := by unfold Buf.nlimbs; rw [ha1]; exact ha
  have hb1' : b1.nlimbs ≤ k := by unfold Buf.nlimbs; rw [hb1]; exact hb
  refine SameRun.bind_same fun r hr => ?_
  obtain ⟨ha2, hb2⟩ := (ct_swap_cond_mp_cost ha1' hb1').2 _ hr
  obtain ⟨a2, b2⟩ := r
  rw [fits_buf_iff] at ha2 hb2
  dsimp only at ha2 hb2 ⊢
  refine SameRun.bind_same fun _ _ => SameRun.bind_same fun v _ => SameRun.bind_same fun a3 hr => ?_
  have ha3 := fits_buf_iff.1 ((Buf.store_l_cost ha2).2 _ hr)
  refine SameRun.bind (SameRun.unwrapE (SameRun.of_eq (ct_gcd_odd_mp_mp'_eq u a3 b2 (hk.steps ha3 hb2)))) fun r hr => ?_
  obtain ⟨ha4, hb4⟩ := (unwrapE_cost (ct_gcd_odd_mp_mp_cost ha3 hb2)).2 _ hr
  obtain ⟨a4, b4⟩ := r
  rw [fits_buf_iff] at ha4 hb4
  dsimp only at ha4 hb4 ⊢
  refine SameRun.bind_same fun _ _ => SameRun.bind_same fun _ _ => SameRun.bind_same fun _ _ => ?_
  rw [ct_lshift_mp'_eq u a4 m (hk.fit ha4) (by omega)]
  exact .rfl'

/-! ### Inverses modulo powers of two -/

theorem shrink_to_nlimbs {b : Buf f} {n : ℕ} :
    Post (b.shrink_to n) (fun r => r.1.nlimbs ≤ ct_mp_nlimbs n ∧ r.1.nlimbs ≤ b.nlimbs ∧ r.1.len + r.2.len = b.len) := by
  intro r hr
  have h0 := shrink_to_len r hr
  refine ⟨?_, nlimbs_mono (by omega), h0⟩
  revert r
  unfold Buf.shrink_to
  refine Post.bind Post.trivial fun _ _ => ?_
  obtain ⟨l, h, e, h1, h2, _⟩ := b.shrink_to_eq' (n := min n b.len) (min_le_right _ _)
  rw [e]
  intro a ha h0
  cases ha
  show ct_mp_nlimbs l.len ≤ _
  rw [h1]
  have h3 : ct_mp_nlimbs (min n b.len) ≤ ct_mp_nlimbs n := nlimbs_mono (min_le_left _ _)
  unfold Buf._limbs_align_len
  split
  · exact h3
  · unfold ct_mp_limbs_align_len
    rw [nlimbs_le_iff]
    exact Nat.mul_le_mul_right _ h3

theorem inv_pow2_sub_step_len {t : Buf .ne} {j L : ℕ} {s : Buf φ × ℕ × ℕ} (hs : s.1.len = L) :
    Post (inv_pow2_sub_step t j s) (fun r => r.1.len = L) := by
  unfold inv_pow2_sub_step; dsimp only; keeps L

theorem clear_bytes_above_len {b : Buf f} {k L : ℕ} (hb : b.len = L) : Post (b.clear_bytes_above k) (fun c => c.len = L) := by
  obtain ⟨b', h1, h2, _⟩ := Buf.clear_bytes_above_eq b k
  rw [h1]
  intro a ha
  cases ha
  exact h2.trans hb

theorem clear_bits_above_mp_len {b : Buf f} {k L : ℕ} (hb : b.len = L) :
    Post (clear_bits_above_mp b k) (fun c => c.len = L) := by
  unfold clear_bits_above_mp; dsimp only; keeps L
  exact clear_bytes_above_len (by assumption)

theorem inv_pow2_lift_len {a : Buf ψ} {l c L : ℕ} {s : Buf φ × Buf .ne} (hs : s.1.len = L) :
    Post (inv_pow2_lift a l c s) (fun r => r.1.len = L) := by
  unfold inv_pow2_lift
  dsimp only
  refine Post.bind Post.trivial fun _ _ => Post.bind Post.trivial fun _ _ => Post.bind Post.trivial fun _ _ =>
    Post.bind (P := fun r => r.1.len = L) (Post.forRange hs fun _ _ h => inv_pow2_sub_step_len h) fun r hr =>
    Post.bind (clear_bits_above_mp_len hr) fun _ h => Post.pure h

theorem inv_pow2_loop_len {a : Buf ψ} {m l L : ℕ} : ∀ {fuel c : ℕ} {s : Buf φ × Buf .ne}, s.1.len = L →
    Post (inv_pow2_loop a m l fuel c s) (fun r => r.1.len = L)
  | 0, c, s, hs => by unfold inv_pow2_loop; exact Post.panic
  | fuel + 1, c, s, hs => by
    unfold inv_pow2_loop
    exact Post.cond (Post.bind (inv_pow2_lift_len hs) fun _ h => inv_pow2_loop_len h) (Post.pure hs)

theorem ct_clear_bits_above_mp_len {b : Buf f} {k L : ℕ} (hb : b.len = L) :
    Post (ct_clear_bits_above_mp b k) (fun c => c.len = L) := by
  unfold ct_clear_bits_above_mp; dsimp only; keeps L

theorem clear_bytes_below_lenIs {b : Buf f} {k L : ℕ} (hb : b.len = L) :
    Post (b.clear_bytes_below k) (fun c => c.len = L) := (Buf.clear_bytes_below_len b k).mono fun _ h => h.trans hb

theorem ct_inv_mod_pow2_mp_len {r : Buf φ} {a : Buf ψ} {x m : ℕ} {s : Buf .ne} :
    Post (ct_inv_mod_pow2_mp r a x m s) (fun o => o.1.len = r.len) := by
  unfold ct_inv_mod_pow2_mp
  refine Post.bind Post.trivial fun _ _ => Post.bind Post.trivial fun _ _ => Post.bind Post.trivial fun _ _ =>
    Post.bind Post.trivial fun _ _ => Post.bind Post.trivial fun _ _ => Post.bind Post.trivial fun _ _ =>
    Post.bind (clear_bytes_above_len rfl) fun r1 h1 => Post.bind shrink_to_len fun (r2, r3) h2 =>
    Post.bind Post.trivial fun _ _ => Post.bind Post.trivial fun _ _ =>
    Post.bind (clear_bytes_below_lenIs rfl) fun r4 h4 => Post.bind (Buf.store_l_lenIs h4) fun r5 h5 =>
    Post.bind (inv_pow2_loop_len h5) fun r6 h6 => Post.bind (ct_clear_bits_above_mp_len h6) fun r7 h7 =>
    Post.bind Post.trivial fun _ _ => Post.pure ?_
  dsimp only at h2 ⊢
  rw [Buf.len_join]
  omega

theorem inv_pow2_lift'_run (a : Buf ψ) {l c m : ℕ} (s : Buf φ × Buf .ne) (hc : c < m) (hl : l ≤ m) (hm : 2 * m + 16 < @B u.cfg) :
    SameRun (inv_pow2_lift' u a l c s) (inv_pow2_lift a l c s >>= fun s => pure (2 * c, s)) := by
  have hLB := LB_le
  unfold inv_pow2_lift' inv_pow2_lift
  dsimp only
  simp only [M.bind_assoc, M.pure_bind]
  refine SameRun.bind_same fun _ _ => ?_
  rw [addU_eq u (by omega), M.pure_bind]
  refine SameRun.bind_same fun _ _ => ?_
  rw [mulU_eq u (by omega), M.pure_bind]
  refine SameRun.bind_same fun _ _ => ?_
  rw [ct_mp_nlimbs'_eq u (by omega), M.pure_bind]
  refine SameRun.bind_same fun _ _ => ?_
  rw [mulU_eq u (by omega), M.pure_bind, Nat.mul_comm c 2]
  exact .rfl'

theorem inv_pow2_loop'_run (a : Buf ψ) {m l : ℕ} (hl : l ≤ m) (hm : 2 * m + 16 < @B u.cfg) :
    ∀ (fuel c : ℕ) (s : Buf φ × Buf .ne), SameRun (inv_pow2_loop' u a m l fuel c s) (inv_pow2_loop a m l fuel c s)
  | 0, c, s => .rfl'
  | fuel + 1, c, s => by
    unfold inv_pow2_loop' inv_pow2_loop
    refine SameRun.cond (fun hc => ?_) fun _ => .rfl'
    have h1 := SameRun.bind (f := fun (r : ℕ × Buf φ × Buf .ne) => inv_pow2_loop' u a m l fuel r.1 r.2)
      (f' := fun (r : ℕ × Buf φ × Buf .ne) => inv_pow2_loop a m l fuel r.1 r.2)
      (inv_pow2_lift'_run u a s hc hl hm) fun r _ => inv_pow2_loop'_run a hl hm fuel r.1 r.2
    simp only [M.bind_assoc, M.pure_bind] at h1
    exact h1

theorem assert_val {c : Prop} [Decidable c] {x : Unit} (h : (M.assert c).val = some x) : c := by
  unfold M.assert at h
  split at h
  · assumption
  · cases h

theorem ct_inv_mod_pow2_mp'_run (r : Buf φ) (a : Buf ψ) {x m : ℕ} (s : Buf .ne) (hm : 2 * m + 24 < @B u.cfg) :
    SameRun (ct_inv_mod_pow2_mp' u r a x m s) (ct_inv_mod_pow2_mp r a x m s) := by
  have hLB := LB_le
  have hLB' := LB_pos
  unfold ct_inv_mod_pow2_mp' ct_inv_mod_pow2_mp
  refine SameRun.bind_same fun _ _ => SameRun.bind_same fun _ _ => SameRun.bind_same fun _ h1 =>
    SameRun.bind_same fun _ h2 => ?_
  have hm0 : m ≠ 0 := assert_val h1
  have hxm : x ≤ m := assert_val h2
  rw [addU_eq u (by omega), M.pure_bind]
  dsimp only
  refine SameRun.bind_same fun _ _ => ?_
  rw [nlimbs_for_len'_eq u (by omega), M.pure_bind]
  refine SameRun.bind (SameRun.of_eq ?_) fun _ _ => ?_
  · unfold M.assertM M.assert
    by_cases hc : ct_mp_nlimbs ((m + 7) / 8) ≤ s.nlimbs <;> simp [hc]
  refine SameRun.bind_same fun r1 h1 => SameRun.bind_same fun r2 h2 => ?_
  have hr2 := (shrink_to_nlimbs _ h2).1
  obtain ⟨r2, r3⟩ := r2
  dsimp only at hr2 ⊢
  refine SameRun.bind_same fun t1 _ => SameRun.bind_same fun t2 _ => ?_
  obtain ⟨t2, t3⟩ := t2
  dsimp only
  refine SameRun.bind_same fun r4 h4 => SameRun.bind_same fun r5 h5 => ?_
  have hr4 := clear_bytes_below_lenIs rfl _ h4
  have hr5 := Buf.store_l_lenIs hr4 _ h5
  refine SameRun.bind (inv_pow2_loop'_run u a (by omega) (by omega) _ _ _) fun r6 h6 => ?_
  have hr6 := inv_pow2_loop_len hr5 _ h6
  obtain ⟨r6, t6⟩ := r6
  dsimp only at hr6 ⊢
  rw [ct_clear_bits_above_mp'_eq u r6 x _ (by omega)]
  · exact .rfl'
  · have h7 : ct_mp_nlimbs ((m + 7) / 8) ≤ (m + 7) / 8 := nlimbs_le_iff.2 (Nat.le_mul_of_pos_right _ hLB')
    unfold Buf.nlimbs at hr2 ⊢
    rw [hr6]
    omega

/-! ### Inverses -/

theorem nlimbs_for_buf'_eq {b : Buf f} {k : ℕ} (hk : NFit u k) (hb : b.nlimbs ≤ k) :
    nlimbs_for_len' u b.len = pure (ct_mp_nlimbs b.len) := by
  have h1 := hk.fit hb
  have h2 : W = 8 * LB := rfl
  unfold BitsFit at h1
  exact nlimbs_for_len'_eq u (by omega)

theorem ct_inv_mod_odd_mp_mp_impl'_run (r : Buf φ) (a : Buf ψ) (n : Buf χ) (s t : Buf .ne) {k : ℕ} (hk : NFit u k)
    (ha : a.nlimbs ≤ k) (hn : n.nlimbs ≤ k) :
    SameRun (ct_inv_mod_odd_mp_mp_impl' u r a n s t) (ct_inv_mod_odd_mp_mp_impl r a n s t) := by
  unfold ct_inv_mod_odd_mp_mp_impl' ct_inv_mod_odd_mp_mp_impl
  refine SameRun.bind_same fun _ _ => SameRun.cond (fun _ => .rfl') fun _ => SameRun.bind_same fun _ _ =>
    SameRun.bind_same fun _ _ => SameRun.cond (fun _ => .rfl') fun _ => ?_
  rw [nlimbs_for_buf'_eq u hk hn, M.pure_bind]
  refine SameRun.cond (fun _ => .rfl') fun _ => SameRun.cond (fun _ => .rfl') fun _ => SameRun.bind_same fun x _ => ?_
  cases x with
  | error _ => exact .rfl'
  | ok x =>
    dsimp only
    refine SameRun.bind_same fun f1 _ => SameRun.bind_same fun f2 h2 => ?_
    have hf2 := (shrink_to_nlimbs _ h2).1
    obtain ⟨f2, f3⟩ := f2
    dsimp only at hf2 ⊢
    refine SameRun.bind_same fun u1 _ => SameRun.bind_same fun (u2, u3) _ => ?_
    refine SameRun.bind_same fun r1 _ => SameRun.bind_same fun (r2, r3) _ => ?_
    refine SameRun.bind_same fun z _ => SameRun.bind_same fun u4 _ => SameRun.bind_same fun u5 _ => ?_
    rw [ct_gcd_ext_odd_mp_mp'_eq u _ _ _ _ (hk.steps (le_trans hf2 hn) ha)]
    exact .rfl'

theorem ct_inv_mod_odd_mp_mp'_run (r : Buf φ) (a : Buf ψ) (n : Buf χ) (s t : Buf .ne) {k : ℕ} (hk : NFit u k)
    (ha : a.nlimbs ≤ k) (hn : n.nlimbs ≤ k) :
    SameRun (ct_inv_mod_odd_mp_mp' u r a n s t) (ct_inv_mod_odd_mp_mp r a n s t) :=
  SameRun.bindE (ct_inv_mod_odd_mp_mp_impl'_run u r a n s t hk ha hn) fun _ _ => .rfl'

theorem ct_sub_mp_mp_len {a : Buf f} {b : Buf g} {L : ℕ} (ha : a.len = L) :
    Post (ct_sub_mp_mp a b) (fun r => r.1.len = L) := by
  unfold ct_sub_mp_mp; exact ct_sub_cond_mp_mp_len ha

theorem ct_mul_trunc_mp_mp_len {a : Buf f} {n L : ℕ} {b : Buf g} (ha : a.len = L) :
    Post (ct_mul_trunc_mp_mp a n b) (fun r => r.len = L) := by
  intro r hr
  by_cases hn : n ≤ a.len
  · exact ((ct_mul_trunc_mp_mp_sat a n b hn).post r hr).1.trans ha
  · exfalso
    have : (ct_mul_trunc_mp_mp a n b).val = none := by
      unfold ct_mul_trunc_mp_mp ct_mul_trunc_cond_mp_mp
      exact bind_panic (assert_panic hn)
    rw [this] at hr
    cases hr

theorem inv_mod_garner'_run (a : Buf φ) (n : Buf ψ) (b c s : Buf .ne) {x m k : ℕ} (hk : NFit u k)
    (hn : n.nlimbs ≤ k) (hb : b.nlimbs ≤ k) (hx : x ≤ k * W) (hm : M.sub (8 * n.len) 1 = pure m) :
    SameRun (inv_mod_garner' u a n b c s x m) (inv_mod_garner a n b c s x) := by
  have hB := hk.spec
  have h0 := len_le_nlimbs_mul_W n
  have h1 := Nat.mul_le_mul_right W hn
  have hm' : m ≤ k * W := by
    unfold M.sub at hm
    split at hm
    · have : some (8 * n.len - 1) = some m := congrArg M.val hm
      simp only [Option.some.injEq] at this
      omega
    · exact absurd (congrArg M.val hm) (by simp [M.panic])
  unfold inv_mod_garner' inv_mod_garner
  rw [hm, M.pure_bind]
  refine SameRun.bind_same fun a1 _ => SameRun.bind_same fun (b1, _) h1 => ?_
  have hb1 := ct_sub_mp_mp_len rfl _ h1
  refine SameRun.bind (ct_inv_mod_pow2_mp'_run u c n s (by omega)) fun (c1, _) _ => ?_
  refine SameRun.bind_same fun b2 h2 => ?_
  have hb2 := ct_mul_trunc_mp_mp_len hb1 _ h2
  have hb2' : b2.nlimbs ≤ @B u.cfg := by
    have h3 : b2.nlimbs = b.nlimbs := by unfold Buf.nlimbs; rw [hb2]
    have h4 := Nat.le_mul_of_pos_right k W_pos
    omega
  dsimp only
  rw [ct_clear_bits_above_mp'_eq u b2 x hb2' (by omega)]
  refine SameRun.bind_same fun b3 _ => SameRun.bind_same fun b4 _ => SameRun.bind_same fun (a2, z) _ =>
    SameRun.bind_same fun _ _ => ?_
  rw [ct_lshift_mp'_eq u n x (hk.fit hn) (by omega)]
  exact .rfl'

theorem ct_inv_mod_mp_mp'_run (a : Buf φ) (n : Buf ψ) (s0 s1 s2 s3 : Buf .ne) {k : ℕ} (hk : NFit u k)
    (ha : a.nlimbs ≤ k) (hn : n.nlimbs ≤ k) :
    SameRun (ct_inv_mod_mp_mp' u a n s0 s1 s2 s3) (ct_inv_mod_mp_mp a n s0 s1 s2 s3) := by
  have hB := hk.spec
  have h0 := len_le_nlimbs_mul_W n
  have h1 := Nat.mul_le_mul_right W hn
  unfold ct_inv_mod_mp_mp' ct_inv_mod_mp_mp
  refine SameRun.cond (fun _ => .rfl') fun _ => SameRun.bind_same fun _ _ => SameRun.cond (fun _ => .rfl') fun _ =>
    SameRun.bind_same fun _ _ => SameRun.cond (fun _ => .rfl') fun _ => SameRun.bind_same fun _ _ =>
    SameRun.bind_same fun _ _ => SameRun.cond (fun _ => .rfl') fun _ => ?_
  rw [nlimbs_for_buf'_eq u hk hn, M.pure_bind]
  refine SameRun.cond (fun _ => .rfl') fun _ => SameRun.cond (fun _ => .rfl') fun _ =>
    SameRun.cond (fun _ => .rfl') fun _ => SameRun.cond (fun _ => .rfl') fun _ => ?_
  refine SameRun.bind_same fun b0 _ => SameRun.bind_same fun (b1, b2) h2 => ?_
  have hb1 := le_trans (shrink_to_nlimbs _ h2).1 hn
  refine SameRun.bind_same fun c0 _ => SameRun.bind_same fun (c1, c2) h2 => ?_
  refine SameRun.bind (ct_find_first_set_bit_mp'_run u n (by omega)) fun (z, x) hr => ?_
  have hx := (firstSet_le n _ hr).2
  refine SameRun.cond (fun _ => .rfl') fun _ => ?_
  dsimp only at hb1 hx ⊢
  rw [ct_rshift_mp'_eq u n x (by omega) (by omega)]
  refine SameRun.bind_same fun (n1, _) hr => ?_
  have hn1 : n1.len = n.len := ((ct_rshift_mp_sat n x).post _ hr).1
  have hn1' : n1.nlimbs ≤ k := by unfold Buf.nlimbs; rw [hn1]; exact hn
  dsimp only
  rw [mulU_eq u (by omega), M.pure_bind]
  refine SameRun.bind (SameRun.subU u) fun m hm => ?_
  have hm' : M.sub (8 * n1.len) 1 = pure m ∧ m ≤ 8 * n1.len := by
    unfold M.sub at hm ⊢
    split at hm
    · simp only [Option.some.injEq] at hm
      rw [if_pos (by assumption), hm]
      exact ⟨rfl, by omega⟩
    · simp [M.panic] at hm
  refine SameRun.bind (ct_inv_mod_pow2_mp'_run u b1 a s2 (by omega)) fun (b3, t2) hr => ?_
  have hb3 : b3.len = b1.len := ct_inv_mod_pow2_mp_len _ hr
  have hb3' : b3.nlimbs ≤ k := by unfold Buf.nlimbs; rw [hb3]; exact hb1
  refine SameRun.bind (ct_inv_mod_odd_mp_mp_impl'_run u c1 a n1 t2 s3 hk ha hn1') fun o _ => ?_
  cases o with
  | error e =>
    dsimp only
    rw [ct_lshift_mp'_eq u n1 x (hk.fit hn1') (by omega)]
    exact .rfl'
  | ok o => exact inv_mod_garner'_run u _ n1 b3 _ _ hk hn1' hb3' (by omega) hm'.1

/-! ### Least common multiples -/

theorem take_len {b : Buf f} {n : ℕ} : Post (b.take n) (fun r => r.2.len ≤ n) := by
  rcases b with b | b | b
  · unfold Buf.take
    refine Post.bind Post.trivial fun _ _ => Post.bind (P := fun p => p + n = b.length) ?_ fun p hp => ?_
    · intro p hp
      unfold M.sub at hp
      split at hp
      · simp only [Option.some.injEq] at hp; omega
      · simp [M.panic] at hp
    · unfold Buf.split_at
      rw [M.bind_assoc]
      refine Post.bind Post.trivial fun _ _ => ?_
      rw [M.pure_bind]
      refine Post.pure ?_
      show (b.drop p).length ≤ n
      rw [List.length_drop]
      omega
  · unfold Buf.take
    refine Post.bind Post.trivial fun _ _ => ?_
    unfold Buf.split_at
    rw [M.bind_assoc]
    refine Post.bind Post.trivial fun _ _ => ?_
    rw [M.pure_bind]
    refine Post.pure ?_
    show (b.take n).length ≤ n
    rw [List.length_take]
    omega
  · unfold Buf.take
    refine Post.bind Post.trivial fun _ _ => Post.bind (P := fun _ => n % LB = 0) (fun x h => assert_val h) fun _ hn => ?_
    unfold Buf.split_at
    rw [M.bind_assoc]
    refine Post.bind Post.trivial fun _ _ => ?_
    rw [M.pure_bind]
    refine Post.pure ?_
    show (b.take (Buf.n_backing_elements_for_len .ne n)).length * LB ≤ n
    rw [List.length_take]
    obtain ⟨m, rfl⟩ := Nat.dvd_of_mod_eq_zero hn
    have h1 : Buf.n_backing_elements_for_len .ne (LB * m) = m := by
      have h2 : ct_mp_nlimbs (LB * m) = m := by rw [Nat.mul_comm]; exact nlimbs_mul m
      simp only [Buf.n_backing_elements_for_len, Buf._limbs_align_len, Fmt.unaligned, ct_mp_limbs_align_len, h2, Fmt.usz]
      simp [Nat.mul_div_cancel _ LB_pos]
    rw [h1, Nat.mul_comm LB m]
    exact Nat.mul_le_mul_right _ (min_le_left _ _)

theorem copy_from_len {b : Buf f} {c : Buf g} {L : ℕ} (hb : b.len = L) : Post (b.copy_from c) (fun r => r.len = L) := by
  unfold Buf.copy_from; dsimp only; keeps L
  all_goals exact clear_bytes_above_len (by assumption)

theorem lcm_divide'_run (r : Buf φ) (d : Buf ψ) (b p : Buf χ) {l k : ℕ} (hk : NFit u k) (hd : d.nlimbs ≤ k)
    (hb : b.nlimbs ≤ k) (hp : 8 * p.len ≤ 2 * (k * W)) (hl : 8 * l ≤ k * W) :
    SameRun (lcm_divide' u r d b p l) (lcm_divide r d b p l) := by
  have hB := hk.spec
  have hd' := Nat.mul_le_mul_right W hd
  have hb' := Nat.mul_le_mul_right W hb
  unfold lcm_divide' lcm_divide
  refine SameRun.bind_same fun _ _ => ?_
  refine SameRun.bind (ct_find_last_set_bit_mp'_run u d (by omega)) fun (z, w) hr => ?_
  have hw := (lastSet_le d _ hr).2
  dsimp only at hw ⊢
  rw [mulU_eq u (by omega), M.pure_bind]
  refine SameRun.bind (SameRun.subU u) fun x hx => ?_
  have hx' : x ≤ 8 * l := fits_nat_elim ((Cost.sub (le_refl _)).2 _ hx)
  rw [ct_lshift_mp'_eq u d x (hk.fit hd) (by omega)]
  refine SameRun.bind_same fun (d1, _) _ => SameRun.bind_same fun b1 h1 => ?_
  have hb1 : b1.nlimbs ≤ k := (lcm_copy_high_cost hb (le_refl _)).2 _ h1
  have hb1' := Nat.mul_le_mul_right W hb1
  dsimp only
  rw [M.pure_bind]
  refine SameRun.bind (SameRun.subU u) fun y hy => ?_
  have hy' : y ≤ 8 * l := fits_nat_elim ((Cost.sub (le_refl _)).2 _ hy)
  rw [ct_rshift_mp'_eq u b1 y (by omega) (by omega)]
  refine SameRun.bind_same fun (b2, _) _ => SameRun.bind_same fun (b3, _) _ => ?_
  dsimp only
  rw [ct_lshift_mp'_eq u p x ?_ (by omega)]
  · exact .rfl'
  · have := LB_le
    have : W = 8 * LB := rfl
    unfold BitsFit
    omega

theorem ct_lcm_mp_mp'_run (r : Buf φ) (a : Buf ψ) (al : ℕ) (b : Buf χ) (bl : ℕ) (s : Buf χ) {k : ℕ} (hk : NFit u k)
    (ha : a.nlimbs ≤ k) (hb : b.nlimbs ≤ k) :
    SameRun (ct_lcm_mp_mp' u r a al b bl s) (ct_lcm_mp_mp r a al b bl s) := by
  have hB := hk.spec
  have ha' := Nat.mul_le_mul_right W ha
  have hb' := Nat.mul_le_mul_right W hb
  have ha0 := len_le_nlimbs_mul_W a
  have hb0 := len_le_nlimbs_mul_W b
  unfold ct_lcm_mp_mp' ct_lcm_mp_mp
  dsimp only
  refine SameRun.cond (fun _ => .rfl') fun _ => SameRun.bind_same fun _ _ => SameRun.bind_same fun _ _ =>
    SameRun.cond (fun _ => .rfl') fun _ => SameRun.bind_same fun _ _ => ?_
  rw [addU_eq u (by omega), M.pure_bind]
  refine SameRun.cond (fun _ => .rfl') fun _ => ?_
  rw [M.pure_bind]
  refine SameRun.cond (fun _ => .rfl') fun _ => SameRun.bind_same fun (_, p) h1 => ?_
  have hp : p.len ≤ _ := take_len _ h1
  refine SameRun.bind_same fun p1 h1 => ?_
  have hp1 : p1.len = p.len := copy_from_len rfl _ h1
  refine SameRun.bind_same fun (b1, _) _ => SameRun.bind_same fun p2 h2 => ?_
  have hp2 : p2.len = p.len := ct_mul_trunc_mp_mp_len hp1 _ h2
  refine SameRun.bind (SameRun.unwrapE (ct_gcd_mp_mp'_run u a b hk ha hb)) fun (d, b2) h3 => ?_
  obtain ⟨hd, hb2⟩ := (unwrapE_cost (ct_gcd_mp_mp_cost ha hb)).2 _ h3
  exact SameRun.bind (lcm_divide'_run u r d b2 p2 hk hd hb2 (by omega) (by omega)) fun _ _ => .rfl'

/-! ### Montgomery arithmetic -/

/-- Moduli of `k` limbs for which the square of the radix can be described. -/
def RadixFit (k : ℕ) : Prop := 2 * (k * W) + 9 < @B u.cfg

theorem nlimbs_self_mul_LB {b : Buf f} {k : ℕ} (hb : b.nlimbs ≤ k) : 8 * (ct_mp_nlimbs b.len * LB) ≤ k * W := by
  rw [mul_W]
  exact Nat.mul_le_mul_left _ (Nat.mul_le_mul_right _ hb)

theorem ct_montgomery_radix_shift_len'_eq {n : Buf f} {k : ℕ} (hn : n.nlimbs ≤ k) (hk : k * W + 64 < @B u.cfg) :
    ct_montgomery_radix_shift_len' u n.len = pure (ct_montgomery_radix_shift_len n.len) := by
  have h1 := nlimbs_self_mul_LB hn
  have h2 := le_nlimbs_mul n.len
  have h3 := LB_le
  unfold ct_montgomery_radix_shift_len'
  rw [ct_mp_nlimbs'_eq u (by omega), M.pure_bind, mulU_eq u (by omega)]
  rfl

theorem ct_to_montgomery_form_direct_mp'_run (t : Buf f) (n : Buf g) {k : ℕ} (hn : n.nlimbs ≤ k)
    (hk : k * W + 8 * t.len + 144 < @B u.cfg) :
    SameRun (ct_to_montgomery_form_direct_mp' u t n) (ct_to_montgomery_form_direct_mp t n) := by
  have hLB := LB_le
  have hW : W = 8 * LB := rfl
  unfold ct_to_montgomery_form_direct_mp' ct_to_montgomery_form_direct_mp
  refine SameRun.bind_same fun _ _ => SameRun.cond (fun _ => .rfl') fun _ => SameRun.bind_same fun _ _ =>
    SameRun.cond (fun _ => .rfl') fun _ => SameRun.bind_same fun _ _ => ?_
  rw [ct_montgomery_radix_shift_len'_eq u hn (by omega), M.pure_bind]
  refine SameRun.bind_same fun v hv => ?_
  cases v with
  | none => exact .rfl'
  | some v =>
    have hv1 := fits_some_elim ((CtMpDivisor.new_cost (b := n) (dec := none) (le_refl _) (by simp)).2 _ hv)
    have hv2 : v.v_len ≤ n.nlimbs * LB := nlimbs_le_iff.1 hv1
    have h1 : ct_montgomery_radix_shift_len n.len = n.nlimbs * LB := rfl
    have h2 : 8 * (n.nlimbs * LB) ≤ k * W := nlimbs_self_mul_LB hn
    dsimp only
    rw [ct_mod_lshifted_mp_mp'_eq u t t.len _ v (le_refl _) ⟨by omega, by omega⟩ (by unfold BitsFit; omega)
      (Or.inr (by omega))]
    exact .rfl'

theorem ct_montgomery_radix2_mod_n_mp'_run (r : Buf f) (n : Buf g) {k : ℕ} (hn : n.nlimbs ≤ k) (hk : RadixFit u k) :
    SameRun (ct_montgomery_radix2_mod_n_mp' u r n) (ct_montgomery_radix2_mod_n_mp r n) := by
  have hB := usize_ge u
  have h1 : ct_montgomery_radix_shift_len n.len = n.nlimbs * LB := rfl
  have h2 : 8 * (n.nlimbs * LB) ≤ k * W := nlimbs_self_mul_LB hn
  unfold RadixFit at hk
  unfold ct_montgomery_radix2_mod_n_mp' ct_montgomery_radix2_mod_n_mp
  refine SameRun.bind_same fun _ _ => SameRun.cond (fun _ => .rfl') fun _ => SameRun.bind_same fun _ _ =>
    SameRun.cond (fun _ => .rfl') fun _ => SameRun.bind_same fun _ _ => SameRun.bind_same fun (_, _) _ =>
    SameRun.bind_same fun _ _ => ?_
  rw [ct_montgomery_radix_shift_len'_eq u hn (by omega), M.pure_bind]
  refine SameRun.bind_same fun v hv => ?_
  cases v with
  | none => exact .rfl'
  | some v =>
    dsimp only
    rw [mulU_eq u (by omega), M.pure_bind, ct_mod_pow2_mp'_eq u _ _ _ (by omega)]
    exact .rfl'

theorem nlimbs_for_buf_eq {b : Buf f} {k : ℕ} (hb : b.nlimbs ≤ k) (hk : k * W + 64 < @B u.cfg) :
    nlimbs_for_len' u b.len = pure (ct_mp_nlimbs b.len) := by
  have h1 := nlimbs_self_mul_LB hb
  have h2 := le_nlimbs_mul b.len
  have h3 := LB_le
  exact nlimbs_for_len'_eq u (by omega)

theorem _ct_montogmery_exp_mod_mp_mp'_run (r : Buf f) (a : Buf g) (n : Buf f') (x : ℕ) (p : Buf e) (m : ℕ) (s : Buf .ne)
    {k : ℕ} (hn : n.nlimbs ≤ k) (hk : k * W + 64 < @B u.cfg) (hp : 8 * p.len < @B u.cfg) :
    SameRun (_ct_montogmery_exp_mod_mp_mp' u r a n x p m s) (_ct_montogmery_exp_mod_mp_mp r a n x p m s) := by
  unfold _ct_montogmery_exp_mod_mp_mp' _ct_montogmery_exp_mod_mp_mp
  refine SameRun.bind_same fun _ _ => ?_
  rw [nlimbs_for_buf_eq u hn hk, M.pure_bind]
  refine SameRun.bind_same fun _ _ => SameRun.bind_same fun _ _ => SameRun.bind_same fun (_, _) _ => ?_
  dsimp only
  rw [mulU_eq u hp, M.pure_bind]
  exact .rfl'

theorem ct_montogmery_exp_mod_odd_mp_mp'_run (r : Buf f) (a : Buf g) (n : Buf f') (x : ℕ) (b : Buf h) (p : Buf e) (m : ℕ)
    (s : Buf .ne) {k : ℕ} (hn : n.nlimbs ≤ k) (hk : k * W + 64 < @B u.cfg) (hp : 8 * p.len < @B u.cfg) :
    SameRun (ct_montogmery_exp_mod_odd_mp_mp' u r a n x b p m s) (ct_montogmery_exp_mod_odd_mp_mp r a n x b p m s) := by
  unfold ct_montogmery_exp_mod_odd_mp_mp' ct_montogmery_exp_mod_odd_mp_mp
  refine SameRun.bind_same fun _ _ => SameRun.cond (fun _ => .rfl') fun _ => SameRun.bind_same fun _ _ =>
    SameRun.cond (fun _ => .rfl') fun _ => ?_
  rw [nlimbs_for_buf_eq u hn hk, M.pure_bind]
  refine SameRun.cond (fun _ => .rfl') fun _ => SameRun.bind_same fun _ _ => SameRun.cond (fun _ => .rfl') fun _ =>
    SameRun.bind_same fun _ _ => SameRun.bind_same fun _ _ => SameRun.cond (fun _ => .rfl') fun _ =>
    SameRun.bind_same fun _ _ => SameRun.bind_same fun _ _ => SameRun.bind_same fun (_, _) _ =>
    SameRun.bind_same fun _ _ => SameRun.bind_same fun _ _ => ?_
  exact SameRun.bind (_ct_montogmery_exp_mod_mp_mp'_run u _ a n x p m s hn hk hp) fun _ _ => .rfl'

theorem ct_exp_mod_odd_mp_mp'_run (r : Buf f) (a : Buf g) (n : Buf f') (p : Buf e) (m : ℕ)
    (s : Buf .ne) {k : ℕ} (hn : n.nlimbs ≤ k) (hk : RadixFit u k) (hp : 8 * p.len < @B u.cfg) :
    SameRun (ct_exp_mod_odd_mp_mp' u r a n p m s) (ct_exp_mod_odd_mp_mp r a n p m s) := by
  have hB := usize_ge u
  have hk' : k * W + 64 < @B u.cfg := by unfold RadixFit at hk; omega
  unfold ct_exp_mod_odd_mp_mp' ct_exp_mod_odd_mp_mp
  refine SameRun.bind_same fun _ _ => SameRun.cond (fun _ => .rfl') fun _ => SameRun.bind_same fun _ _ =>
    SameRun.cond (fun _ => .rfl') fun _ => SameRun.bind_same fun _ _ => SameRun.bind_same fun _ _ =>
    SameRun.cond (fun _ => .rfl') fun _ => SameRun.bind_same fun _ _ => ?_
  rw [nlimbs_for_buf_eq u hn hk', M.pure_bind]
  refine SameRun.cond (fun _ => .rfl') fun _ => SameRun.bindE .rfl' fun x _ => SameRun.bind_same fun _ _ =>
    SameRun.bind_same fun (_, _) _ => SameRun.bind_same fun _ _ => ?_
  refine SameRun.bind (SameRun.unwrapE (ct_montgomery_radix2_mod_n_mp'_run u _ n hn hk)) fun _ _ => ?_
  refine SameRun.bind_same fun _ _ => SameRun.bind_same fun (_, _) _ => SameRun.bind_same fun _ _ =>
    SameRun.bind_same fun _ _ => SameRun.bind_same fun _ _ => ?_
  exact SameRun.bind (_ct_montogmery_exp_mod_mp_mp'_run u _ _ n x p m _ hn hk' hp) fun _ _ => .rfl'

/-! ### Tests for primality -/

theorem ct_composite_test_small_prime_gcd_mp'_run (p : Buf φ) (s t : Buf .ne) {k : ℕ} (hk : NFit u k) (hp : p.nlimbs ≤ k) :
    SameRun (ct_composite_test_small_prime_gcd_mp' u p s t) (ct_composite_test_small_prime_gcd_mp p s t) := by
  have hB := hk.spec
  have h2 : 8 * (ct_mp_nlimbs p.len * LB) ≤ k * W := nlimbs_self_mul_LB hp
  unfold ct_composite_test_small_prime_gcd_mp' ct_composite_test_small_prime_gcd_mp
  refine SameRun.cond (fun _ => .rfl') fun _ => ?_
  rw [nlimbs_for_buf'_eq u hk hp, M.pure_bind]
  refine SameRun.cond (fun _ => .rfl') fun _ => SameRun.cond (fun _ => .rfl') fun _ => ?_
  rw [mulU_eq u (by omega), M.pure_bind]
  have hk' : ct_mp_nlimbs (ct_mp_nlimbs p.len * LB) ≤ k := by rw [nlimbs_mul]; exact hp
  refine SameRun.bind_same fun _ _ => SameRun.bind_same fun _ _ => SameRun.bind_same fun (g1, _) h1 => ?_
  have hg1 := (shrink_to_nlimbs _ h1).1
  refine SameRun.bind_same fun g2 h2 => ?_
  have hg2 := copy_from_len rfl _ h2
  have hg2' : g2.nlimbs ≤ k := by unfold Buf.nlimbs; rw [hg2]; exact le_trans hg1 hk'
  refine SameRun.bind_same fun _ _ => SameRun.bind_same fun (p1, _) h1 => ?_
  have hp1 := (shrink_to_nlimbs _ h1).1
  dsimp only at hp1 ⊢
  rw [ct_gcd_odd_mp_mp'_eq u g2 p1 (hk.steps hg2' (le_trans hp1 hk'))]
  exact .rfl'

theorem mr_step'_run (a : Buf χ) (p : Buf φ) (b : Buf ψ) (x : ℕ) {i j : ℕ} (s : Buf .ne × Buf .ne × ℕ)
    (hi : i < @B u.cfg) (hj : j < @B u.cfg) : SameRun (mr_step' u a p b x i j s) (mr_step a p b x i j s) := by
  unfold mr_step' mr_step
  dsimp only
  refine SameRun.bind_same fun _ _ => SameRun.bind_same fun _ _ => SameRun.bind_same fun _ _ =>
    SameRun.bind_same fun _ _ => SameRun.bind_same fun (_, _) _ => ?_
  rw [ct_eq_usize_usize_agrees u hj hi, M.pure_bind, ct_lt_usize_usize_agrees u hj hi, M.pure_bind]
  exact .rfl'

theorem mr_main'_run (a : Buf χ) (p : Buf φ) (b : Buf ψ) (s t : Buf .ne) {k : ℕ} (hp : p.nlimbs ≤ k)
    (hk : k * W < @B u.cfg) : SameRun (mr_main' u a p b s t) (mr_main a p b s t) := by
  have h0 := len_le_nlimbs_mul_W p
  have h1 := Nat.mul_le_mul_right W hp
  unfold mr_main' mr_main
  refine SameRun.bind_same fun _ _ => SameRun.bind_same fun (q, _) hq => ?_
  have hq1 : q.nlimbs ≤ p.nlimbs := (shrink_to_nlimbs _ hq).1
  refine SameRun.bind_same fun _ _ => SameRun.bind_same fun q1 hr => ?_
  have hq2 : q1.nlimbs ≤ p.nlimbs := (Buf.store_l_cost hq1).2 _ hr
  have hq3 := Nat.mul_le_mul_right W hq2
  refine SameRun.bind (ct_find_first_set_bit_mp'_run u q1 (by omega)) fun (_, i) hr => ?_
  have hi := (firstSet_le q1 _ hr).2
  dsimp only at hi ⊢
  refine SameRun.bind_same fun _ _ => SameRun.bind_same fun _ _ => SameRun.bind_same fun _ _ =>
    SameRun.bind_same fun (_, _) _ => SameRun.bind_same fun _ _ => SameRun.bind_same fun (_, _) _ =>
    SameRun.bind_same fun y _ => ?_
  cases y with
  | error _ => exact .rfl'
  | ok x =>
    dsimp only
    rw [mulU_eq u (by omega), M.pure_bind]
    refine SameRun.bind (SameRun.forDown (fun _ _ => True) trivial fun j s hj _ =>
      ⟨mr_step'_run u a p b x s (by omega) (by omega), Post.trivial⟩).1 fun _ _ => .rfl'

theorem ct_prime_test_miller_rabin_mp'_run (a : Buf χ) (p : Buf φ) (b : Buf ψ) (s t : Buf .ne) {k : ℕ} (hp : p.nlimbs ≤ k)
    (hk : k * W + 64 < @B u.cfg) :
    SameRun (ct_prime_test_miller_rabin_mp' u a p b s t) (ct_prime_test_miller_rabin_mp a p b s t) := by
  unfold ct_prime_test_miller_rabin_mp' ct_prime_test_miller_rabin_mp
  refine SameRun.bind_same fun _ _ => SameRun.cond (fun _ => .rfl') fun _ => SameRun.bind_same fun _ _ =>
    SameRun.cond (fun _ => .rfl') fun _ => SameRun.bind_same fun _ _ => SameRun.bind_same fun _ _ =>
    SameRun.cond (fun _ => .rfl') fun _ => SameRun.bind_same fun _ _ => ?_
  rw [nlimbs_for_buf_eq u hp hk, M.pure_bind]
  refine SameRun.cond (fun _ => .rfl') fun _ => SameRun.cond (fun _ => .rfl') fun _ => ?_
  exact mr_main'_run u a p b s t hp (by omega)

end

end Cmpa
