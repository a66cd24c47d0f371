import Verif.Base.M

/-!
# Simulation

Two computations, maybe with results of different types, which take the same course in debug and in
release builds.
-/

namespace Cmpa
namespace M
variable {α β α' β' σ σ' : Type}

/-- Either no result on both sides, or related results. -/
def OptRel (R : α → β → Prop) : Option α → Option β → Prop
  | none, none => True
  | some a, some b => R a b
  | _, _ => False

/-- The same events and related results, in both kinds of builds. -/
structure Sim (R : α → β → Prop) (m : M α) (m' : M β) : Prop where
  tr : m.tr = m'.tr
  rtr : m.rtr = m'.rtr
  val : OptRel R m.val m'.val
  rel : OptRel R m.rel m'.rel

theorem Sim.pure {R : α → β → Prop} {a : α} {b : β} (h : R a b) :
    Sim R (Pure.pure a) (Pure.pure b) := ⟨rfl, rfl, h, h⟩

theorem Sim.refl {R : α → α → Prop} (h : ∀ a, R a a) (m : M α) : Sim R m m := by
  refine ⟨rfl, rfl, ?_, ?_⟩
  · cases m.val with
    | none => exact trivial
    | some a => exact h a
  · cases m.rel with
    | none => exact trivial
    | some a => exact h a

theorem Sim.mono {R S : α → β → Prop} {m : M α} {m' : M β} (h : Sim R m m')
    (hs : ∀ a b, R a b → S a b) : Sim S m m' := by
  obtain ⟨h1, h2, h3, h4⟩ := h
  refine ⟨h1, h2, ?_, ?_⟩
  · revert h3; cases m.val <;> cases m'.val <;> first | exact hs _ _ | exact id
  · revert h4; cases m.rel <;> cases m'.rel <;> first | exact hs _ _ | exact id

theorem Sim.eq {m m' : M α} (h : Sim Eq m m') : m = m' := by
  obtain ⟨h1, h2, h3, h4⟩ := h
  have key : ∀ o o' : Option α, OptRel Eq o o' → o = o' := by
    rintro (_ | a) (_ | b) h
    · rfl
    · exact h.elim
    · exact h.elim
    · exact congrArg some h
  ext1
  · exact key _ _ h3
  · exact h1
  · exact key _ _ h4
  · exact h2

theorem Sim.bind {R : α → β → Prop} {S : α' → β' → Prop} {m : M α} {m' : M β} {f : α → M α'}
    {f' : β → M β'} (h : Sim R m m') (hf : ∀ a b, R a b → Sim S (f a) (f' b)) :
    Sim S (m >>= f) (m' >>= f') := by
  obtain ⟨h1, h2, h3, h4⟩ := h
  refine ⟨?_, ?_, ?_, ?_⟩
  · show bindTr _ _ _ = bindTr _ _ _
    revert h3
    rcases m.val with _ | a <;> rcases m'.val with _ | b <;> intro h3
    · exact h1
    · exact h3.elim
    · exact h3.elim
    · show m.tr ++ _ = m'.tr ++ _
      rw [h1]; exact congrArg _ (hf a b h3).tr
  · show bindTr _ _ _ = bindTr _ _ _
    revert h4
    rcases m.rel with _ | a <;> rcases m'.rel with _ | b <;> intro h4
    · exact h2
    · exact h4.elim
    · exact h4.elim
    · show m.rtr ++ _ = m'.rtr ++ _
      rw [h2]; exact congrArg _ (hf a b h4).rtr
  · show OptRel S (bindVal _ _) (bindVal _ _)
    revert h3
    rcases m.val with _ | a <;> rcases m'.val with _ | b <;> intro h3
    · exact trivial
    · exact h3.elim
    · exact h3.elim
    · exact (hf a b h3).val
  · show OptRel S (bindVal _ _) (bindVal _ _)
    revert h4
    rcases m.rel with _ | a <;> rcases m'.rel with _ | b <;> intro h4
    · exact trivial
    · exact h4.elim
    · exact h4.elim
    · exact (hf a b h4).rel

theorem Sim.sat {R : α → β → Prop} {m : M α} {m' : M β} (h : Sim R m m') {P : β → Prop}
    (hs : Sat m' P) : Sat m (fun a => ∃ b, R a b ∧ P b) := by
  obtain ⟨b, hb, hp⟩ := hs
  have h3 := h.val
  rw [hb] at h3
  revert h3
  unfold Sat
  rcases m.val with _ | a <;> intro h3
  · exact h3.elim
  · exact ⟨a, rfl, b, h3, hp⟩

/-- The same computation first. -/
theorem Sim.bind_same {S : α' → β' → Prop} {m : M α} {f : α → M α'} {f' : α → M β'}
    (hf : ∀ a, Sim S (f a) (f' a)) : Sim S (m >>= f) (m >>= f') :=
  Sim.bind (R := Eq) (Sim.refl (fun _ => rfl) m) fun a _ h => h ▸ hf a

theorem Sim.loopUp {f : ℕ → σ → M σ} {f' : ℕ → σ' → M σ'} {R : ℕ → σ → σ' → Prop} :
    ∀ {n lo : ℕ} {s : σ} {s' : σ'}, R lo s s' →
      (∀ i s s', lo ≤ i → i < lo + n → R i s s' → Sim (R (i + 1)) (f i s) (f' i s')) →
      Sim (R (lo + n)) (M.loopUp n lo s f) (M.loopUp n lo s' f')
  | 0, _, _, _, h, _ => Sim.pure h
  | n + 1, lo, s, s', h, hf => by
    show Sim _ (emit .iter >>= fun _ => f lo s >>= fun t => M.loopUp n (lo + 1) t f)
      (emit .iter >>= fun _ => f' lo s' >>= fun t => M.loopUp n (lo + 1) t f')
    refine Sim.bind_same fun _ => Sim.bind (hf lo s s' (by omega) (by omega) h) fun t t' ht => ?_
    have := Sim.loopUp (n := n) ht (fun i s s' h1 h2 => hf i s s' (by omega) (by omega))
    rwa [show lo + 1 + n = lo + (n + 1) by omega] at this

theorem Sim.forRange {f : ℕ → σ → M σ} {f' : ℕ → σ' → M σ'} (R : ℕ → σ → σ' → Prop) {n : ℕ}
    {s : σ} {s' : σ'} (h : R 0 s s')
    (hf : ∀ i s s', i < n → R i s s' → Sim (R (i + 1)) (f i s) (f' i s')) :
    Sim (R n) (M.forRange 0 n s f) (M.forRange 0 n s' f') := by
  have := Sim.loopUp (n := n - 0) (lo := 0) h (fun i s s' _ h2 => hf i s s' (by omega))
  rwa [show 0 + (n - 0) = n by omega] at this

end M
end Cmpa
