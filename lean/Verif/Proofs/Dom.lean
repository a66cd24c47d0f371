import Verif.Base.LoopE
import Verif.Proofs.Panic

/-!
# Runs of which the second one panics less

`Dom R m m'`: whenever `m` has a result in a debug build, so has `m'`, and the two are related.
-/

namespace Cmpa
namespace M
variable {α β α' β' σ σ' ε : Type}

/-- If `m` doesn't panic, then neither does `m'`, and the results are related. -/
def Dom (R : α → β → Prop) (m : M α) (m' : M β) : Prop :=
  ∀ a, m.val = some a → ∃ b, m'.val = some b ∧ R a b

theorem Dom.pure {R : α → β → Prop} {a : α} {b : β} (h : R a b) :
    Dom R (Pure.pure a) (Pure.pure b) := by
  intro a' ha
  cases (show some a = some a' from ha)
  exact ⟨b, rfl, h⟩

theorem Dom.refl {R : α → α → Prop} (h : ∀ a, R a a) (m : M α) : Dom R m m :=
  fun a ha => ⟨a, ha, h a⟩

theorem Dom.of_panic {R : α → β → Prop} {m : M α} {m' : M β} (h : m.val = none) : Dom R m m' := by
  intro a ha; rw [h] at ha; cases ha

theorem Dom.mono {R S : α → β → Prop} {m : M α} {m' : M β} (h : Dom R m m')
    (hs : ∀ a b, R a b → S a b) : Dom S m m' := fun a ha =>
  let ⟨b, hb, hr⟩ := h a ha
  ⟨b, hb, hs a b hr⟩

theorem Dom.bind {R : α → β → Prop} {S : α' → β' → Prop} {m : M α} {m' : M β} {f : α → M α'}
    {f' : β → M β'} (h : Dom R m m') (hf : ∀ a b, R a b → Dom S (f a) (f' b)) :
    Dom S (m >>= f) (m' >>= f') := by
  intro c hc
  rw [bind_val] at hc
  obtain ⟨a, ha, hc⟩ := Option.bind_eq_some_iff.1 hc
  obtain ⟨b, hb, hr⟩ := h a ha
  obtain ⟨d, hd, hs⟩ := hf a b hr c hc
  exact ⟨d, by rw [bind_val, hb]; exact hd, hs⟩

theorem Dom.bind_same {S : α' → β' → Prop} {m : M α} {f : α → M α'} {f' : α → M β'}
    (hf : ∀ a, Dom S (f a) (f' a)) : Dom S (m >>= f) (m >>= f') :=
  Dom.bind (R := Eq) (Dom.refl (fun _ => rfl) m) fun a _ h => h ▸ hf a

theorem Dom.cond {R : α → β → Prop} {c c' : Prop} [Decidable c] [Decidable c'] (hc : c ↔ c')
    {m n : M α} {m' n' : M β} (h1 : c → Dom R m m') (h2 : ¬ c → Dom R n n') :
    Dom R (M.cond c m n) (M.cond c' m' n') := by
  by_cases h : c
  · intro a ha
    rw [cond_val_pos h] at ha
    rw [cond_val_pos (hc.1 h)]
    exact h1 h a ha
  · intro a ha
    rw [cond_val_neg h] at ha
    rw [cond_val_neg (fun h' => h (hc.2 h'))]
    exact h2 h a ha

/-- Related results, or the same error. -/
def ExRel (R : α → β → Prop) : Except ε α → Except ε β → Prop
  | .ok a, .ok b => R a b
  | .error e, .error e' => e = e'
  | _, _ => False

theorem Dom.bindE {R : α → β → Prop} {S : α' → β' → Prop} {m : M (Except ε α)}
    {m' : M (Except ε β)} {f : α → M (Except ε α')} {f' : β → M (Except ε β')}
    (h : Dom (ExRel R) m m') (hf : ∀ a b, R a b → Dom (ExRel S) (f a) (f' b)) :
    Dom (ExRel S) (M.bindE m f) (M.bindE m' f') := by
  refine h.bind fun a b hr => ?_
  rcases a with e | a <;> rcases b with e' | b
  · exact Dom.pure hr
  · exact hr.elim
  · exact hr.elim
  · exact hf a b hr

theorem Dom.forDownE {R : σ → σ' → Prop} {f : ℕ → σ → M (Except ε σ)}
    {f' : ℕ → σ' → M (Except ε σ')} :
    ∀ {n : ℕ} {s : σ} {s' : σ'}, R s s' →
      (∀ i s s', R s s' → Dom (ExRel R) (f i s) (f' i s')) →
      Dom (ExRel R) (M.forDownE n s f) (M.forDownE n s' f')
  | 0, _, _, h, _ => Dom.pure h
  | n + 1, s, s', h, hf => by
    unfold M.forDownE
    refine Dom.bind_same fun _ => (hf n s s' h).bind fun a b hr => ?_
    rcases a with e | a <;> rcases b with e' | b
    · exact Dom.pure hr
    · exact hr.elim
    · exact hr.elim
    · exact Dom.forDownE hr hf

end M
end Cmpa
