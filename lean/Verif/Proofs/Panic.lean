import Verif.Base.M

/-!
# Computations that panic in a debug build
-/

namespace Cmpa
namespace M
variable {α β σ ε : Type}

theorem bind_panic {m : M α} {f : α → M β} (h : m.val = none) : (m >>= f).val = none := by
  rw [bind_val, h]; rfl

theorem bind_panic' {m : M α} {f : α → M β} (h : ∀ a, (f a).val = none) :
    (m >>= f).val = none := by
  rw [bind_val]; cases m.val with
  | none => rfl
  | some a => exact h a

/-- What is known about the first part's result can be made use of. -/
theorem Post.bind_panic {m : M α} {f : α → M β} {P : α → Prop} (hm : Post m P)
    (h : ∀ a, P a → (f a).val = none) : (m >>= f).val = none := by
  rw [bind_val]; cases hv : m.val with
  | none => rfl
  | some a => exact h a (hm a hv)

theorem Sat.post {m : M α} {P : α → Prop} (h : Sat m P) : Post m P := by
  obtain ⟨a, h1, h2⟩ := h
  intro b hb
  rw [h1] at hb; cases hb; exact h2

theorem cond_val_neg {c : Prop} [Decidable c] {t e : M α} (h : ¬ c) :
    (M.cond c t e).val = e.val := by
  show (if decide c = true then t else e).val = e.val
  rw [if_neg (by simpa using h)]

theorem cond_val_pos {c : Prop} [Decidable c] {t e : M α} (h : c) :
    (M.cond c t e).val = t.val := by
  show (if decide c = true then t else e).val = t.val
  rw [if_pos (by simpa using h)]

theorem cond_panic {c : Prop} [Decidable c] {t e : M α} (ht : c → t.val = none)
    (he : ¬ c → e.val = none) : (M.cond c t e).val = none := by
  by_cases h : c
  · rw [cond_val_pos h, ht h]
  · rw [cond_val_neg h, he h]

theorem assert_panic {c : Prop} [Decidable c] (h : ¬ c) : (M.assert c).val = none := by
  unfold M.assert; rw [if_neg h]; rfl

theorem check_panic {c : Prop} [Decidable c] (h : ¬ c) : (M.check c).val = none := by
  unfold M.check; rw [if_neg h]; rfl

theorem sub_panic {a b : ℕ} (h : ¬ b ≤ a) : (M.sub a b).val = none := by
  unfold M.sub; rw [if_neg h]; rfl

/-- A loop whose first iteration panics. -/
theorem forRange_panic {lo hi : ℕ} {s : σ} {f : ℕ → σ → M σ} (h : lo < hi)
    (hf : (f lo s).val = none) : (M.forRange lo hi s f).val = none := by
  unfold M.forRange
  obtain ⟨k, hk⟩ := Nat.exists_eq_succ_of_ne_zero (n := hi - lo) (by omega)
  rw [hk]
  show (emit .iter >>= fun _ => f lo s >>= fun s => _).val = none
  exact bind_panic' fun _ => M.bind_panic hf

/-! ### Exact preconditions -/

/-- `m` panics exactly if `S` is wrong, and its result satisfies `P` otherwise. -/
structure Exact (S : Prop) (m : M α) (P : α → Prop) : Prop where
  sat : S → Sat m P
  panic : ¬ S → m.val = none

variable {S S' : Prop} {P : α → Prop} {Q : β → Prop}

theorem Exact.iff {m : M α} (h : Exact S m P) : m.val = none ↔ ¬ S := by
  refine ⟨fun h1 h2 => ?_, h.panic⟩
  obtain ⟨a, ha, -⟩ := h.sat h2
  rw [h1] at ha; cases ha

theorem Sat.exact {m : M α} (h : Sat m P) : Exact True m P := ⟨fun _ => h, fun h => absurd trivial h⟩

theorem Exact.congr {m : M α} (h : Exact S m P) (hS : S ↔ S') : Exact S' m P :=
  ⟨fun h1 => h.sat (hS.2 h1), fun h1 => h.panic (fun h2 => h1 (hS.1 h2))⟩

theorem Exact.mono {m : M α} {P' : α → Prop} (h : Exact S m P) (hP : ∀ a, P a → P' a) :
    Exact S m P' := ⟨fun h1 => (h.sat h1).mono hP, h.panic⟩

theorem Exact.bind {m : M α} {f : α → M β} (h : Exact S m P)
    (hf : ∀ a, S → P a → Exact S' (f a) Q) : Exact (S ∧ S') (m >>= f) Q := by
  constructor
  · rintro ⟨h1, h2⟩
    exact Sat.bind (h.sat h1) fun a ha => (hf a h1 ha).sat h2
  · intro h1
    by_cases hS : S
    · exact (h.sat hS).post.bind_panic fun a ha => (hf a hS ha).panic fun h2 => h1 ⟨hS, h2⟩
    · exact M.bind_panic (h.panic hS)

theorem Sat.bindExact {m : M α} {f : α → M β} (h : Sat m P)
    (hf : ∀ a, P a → Exact S (f a) Q) : Exact S (m >>= f) Q :=
  (h.exact.bind fun a _ ha => hf a ha).congr ⟨fun h => h.2, fun h => ⟨trivial, h⟩⟩

/-- A check whose outcome is the first part of the precondition. -/
theorem Exact.assert {c : Prop} [Decidable c] {f : Unit → M β} (hf : c → Exact S' (f ()) Q) :
    Exact (c ∧ S') (M.assert c >>= f) Q := by
  refine Exact.bind (P := fun _ => True) ⟨fun h => ?_, fun h => assert_panic h⟩
    fun _ h _ => hf h
  rw [M.assert_eq h]; exact Sat.pure trivial

/-- A check outcome of which has to be calculated. -/
theorem Exact.assertM {c : Prop} [Decidable c] {m : M Bool} {f : Unit → M β}
    (hm : Sat m (fun b => b = decide c)) (hf : c → Exact S' (f ()) Q) :
    Exact (c ∧ S') (M.assertM m >>= f) Q := by
  refine Exact.bind (P := fun _ => True) ⟨fun h => ?_, fun h => ?_⟩ fun _ h _ => hf h
  · rw [M.assertM_eq (hm.mono fun b hb => by rw [hb, decide_eq_true h])]; exact Sat.pure trivial
  · obtain ⟨b, hb, rfl⟩ := hm
    unfold M.assertM
    rw [hb, decide_eq_false h]
    rfl

theorem Exact.cond {c : Prop} [Decidable c] {t e : M α} (ht : c → Exact S t P)
    (he : ¬ c → Exact S e P) : Exact S (M.cond c t e) P :=
  ⟨fun h => Sat.cond (fun h1 => (ht h1).sat h) fun h1 => (he h1).sat h,
    fun h => cond_panic (fun h1 => (ht h1).panic h) fun h1 => (he h1).panic h⟩

theorem Exact.loopUp {f : ℕ → σ → M σ} (P : ℕ → σ → Prop) (S : ℕ → Prop) :
    ∀ {n i : ℕ} {s : σ}, P i s →
      (∀ j s, i ≤ j → j < i + n → P j s → Exact (S j) (f j s) (P (j + 1))) →
      Exact (∀ j, i ≤ j → j < i + n → S j) (M.loopUp n i s f) (P (i + n))
  | 0, i, s, h0, _ => by
    refine (Sat.exact ?_).congr ⟨fun _ j h1 h2 => by omega, fun _ => trivial⟩
    exact Sat.pure h0
  | n + 1, i, s, h0, hs => by
    show Exact _ (emit .iter >>= fun _ => f i s >>= fun s => M.loopUp n (i + 1) s f) _
    refine Sat.bindExact (P := fun _ => True) (Sat.emit trivial) fun _ _ => ?_
    refine ((hs i s le_rfl (by omega) h0).bind (S' := ∀ j, i + 1 ≤ j → j < i + 1 + n → S j)
      fun s' _ h' => ?_).congr ⟨fun h j h1 h2 => ?_, fun h =>
        ⟨h i le_rfl (by omega), fun j h1 h2 => h j (by omega) (by omega)⟩⟩
    · have := Exact.loopUp P S (n := n) h' fun j s h1 h2 => hs j s (by omega) (by omega)
      rwa [show i + 1 + n = i + (n + 1) by omega] at this ⊢
    · rcases Nat.eq_or_lt_of_le h1 with rfl | h3
      · exact h.1
      · exact h.2 j h3 (by omega)

theorem Exact.forRange {f : ℕ → σ → M σ} (P : ℕ → σ → Prop) (S : ℕ → Prop) {lo hi : ℕ} {s : σ}
    (hle : lo ≤ hi) (h0 : P lo s)
    (hs : ∀ i s, lo ≤ i → i < hi → P i s → Exact (S i) (f i s) (P (i + 1))) :
    Exact (∀ i, lo ≤ i → i < hi → S i) (M.forRange lo hi s f) (P hi) := by
  unfold M.forRange
  have := Exact.loopUp P S (n := hi - lo) h0 (fun i s h1 h2 => hs i s h1 (by omega))
  rwa [show lo + (hi - lo) = hi by omega] at this

theorem Exact.forDown {f : ℕ → σ → M σ} (P : ℕ → σ → Prop) (S : ℕ → Prop) :
    ∀ {hi : ℕ} {s : σ}, P hi s →
      (∀ i s, i < hi → P (i + 1) s → Exact (S i) (f i s) (P i)) →
      Exact (∀ i, i < hi → S i) (M.forDown hi s f) (P 0)
  | 0, s, h0, _ => by
    refine (Sat.exact ?_).congr ⟨fun _ j h1 => by omega, fun _ => trivial⟩
    exact Sat.pure h0
  | n + 1, s, h0, hs => by
    unfold M.forDown
    refine Sat.bindExact (P := fun _ => True) (Sat.emit trivial) fun _ _ => ?_
    refine ((hs n s (by omega) h0).bind (S' := ∀ i, i < n → S i) fun s' _ h' => ?_).congr
      ⟨fun h j h1 => ?_, fun h => ⟨h n (by omega), fun j h1 => h j (by omega)⟩⟩
    · exact Exact.forDown P S h' fun i s h1 => hs i s (by omega)
    · rcases Nat.lt_succ_iff_lt_or_eq.1 h1 with h3 | rfl
      · exact h.2 j h3
      · exact h.1

end M
end Cmpa
