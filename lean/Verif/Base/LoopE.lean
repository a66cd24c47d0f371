import Verif.Base.M

/-!
# Early returns

Functions returning a Rust `Result` are computations of type `M (Except ε α)`: a panic is
`M.val = none`, an error return is `Except.error`.
-/

namespace Cmpa
namespace M
variable {α β σ ε : Type}

/-- The operator `?`. -/
def bindE (m : M (Except ε α)) (f : α → M (Except ε β)) : M (Except ε β) := do
  match ← m with
  | .error e => pure (.error e)
  | .ok a => f a

/-- `i = hi; while i > 0 { i -= 1; ... }` with a body which may return an error. -/
def forDownE : (hi : ℕ) → σ → (ℕ → σ → M (Except ε σ)) → M (Except ε σ)
  | 0, s, _ => pure (.ok s)
  | n + 1, s, f => do
    emit .iter
    match ← f n s with
    | .error e => pure (.error e)
    | .ok s' => forDownE n s' f

/-- `for i in lo..lo+n { ... }` with a body which may return an error. -/
def loopUpE : (n lo : ℕ) → σ → (ℕ → σ → M (Except ε σ)) → M (Except ε σ)
  | 0, _, s, _ => pure (.ok s)
  | n + 1, lo, s, f => do
    emit .iter
    match ← f lo s with
    | .error e => pure (.error e)
    | .ok s' => loopUpE n (lo + 1) s' f

/-- A condition on successful results and one on errors. -/
def OkErr (P : α → Prop) (E : ε → Prop) : Except ε α → Prop
  | .ok a => P a
  | .error e => E e

theorem Sat.bindE {m : M (Except ε α)} {f : α → M (Except ε β)} {P : α → Prop} {E : ε → Prop}
    {Q : β → Prop} (hm : Sat m (OkErr P E)) (hf : ∀ a, P a → Sat (f a) (OkErr Q E)) :
    Sat (M.bindE m f) (OkErr Q E) := by
  refine hm.bind fun r hr => ?_
  cases r with
  | error e => exact Sat.pure hr
  | ok a => exact hf a hr

theorem Sat.forDownE {f : ℕ → σ → M (Except ε σ)} (P : ℕ → σ → Prop) {E : ε → Prop} :
    ∀ {hi : ℕ} {s : σ}, P hi s →
      (∀ i s, i < hi → P (i + 1) s → Sat (f i s) (OkErr (P i) E)) →
      Sat (M.forDownE hi s f) (OkErr (P 0) E)
  | 0, s, h0, _ => Sat.pure h0
  | n + 1, s, h0, hs => by
    unfold M.forDownE
    refine Sat.bind (P := fun _ => True) (Sat.emit trivial) fun _ _ => ?_
    refine Sat.bind (hs n s (by omega) h0) fun r hr => ?_
    cases r with
    | error e => exact Sat.pure hr
    | ok s' => exact Sat.forDownE P hr (fun i s h1 => hs i s (by omega))

theorem Sat.loopUpE {f : ℕ → σ → M (Except ε σ)} (P : ℕ → σ → Prop) {E : ε → Prop} :
    ∀ {n lo : ℕ} {s : σ}, P lo s →
      (∀ i s, lo ≤ i → i < lo + n → P i s → Sat (f i s) (OkErr (P (i + 1)) E)) →
      Sat (M.loopUpE n lo s f) (OkErr (P (lo + n)) E)
  | 0, lo, s, h0, _ => Sat.pure h0
  | n + 1, lo, s, h0, hs => by
    unfold M.loopUpE
    refine Sat.bind (P := fun _ => True) (Sat.emit trivial) fun _ _ => ?_
    refine Sat.bind (hs lo s le_rfl (by omega) h0) fun r hr => ?_
    cases r with
    | error e => exact Sat.pure hr
    | ok s' =>
      have := Sat.loopUpE P (n := n) (lo := lo + 1) hr (fun i s h1 h2 => hs i s (by omega) (by omega))
      rw [show lo + 1 + n = lo + (n + 1) by omega] at this
      exact this

end M
end Cmpa
