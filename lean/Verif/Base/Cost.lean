import Verif.Base.CtTactic
import Mathlib.Tactic.Ring

/-!
# The work of a computation

The work of a computation is the sum over its events: a branch, an iteration of a loop, a load of a limb and
a store of a limb count as one step each.  Filling or splitting a buffer of `n` limbs counts as `n + 1`
steps.  The functions on single limbs leave no events and are not counted.
-/

namespace Cmpa
variable {α β σ ε : Type} {S T : Type}

/-- The number of steps of an event. -/
def Ev.steps [LimbCfg] : Ev → ℕ
  | .range len _ => ct_mp_nlimbs len + 1
  | _ => 1

/-- The number of steps of a computation. -/
def M.steps [LimbCfg] (m : M α) : ℕ := (m.tr.map Ev.steps).sum

/-- Bounds on the sizes of the parts of a value. -/
class Shape [LimbCfg] (α : Type) (S : outParam Type) where
  fits : α → S → Prop

section
variable [LimbCfg]

/-- A bound on the number of limbs. -/
instance {f : Fmt} : Shape (Buf f) ℕ := ⟨fun b u => b.nlimbs ≤ u⟩
/-- A bound on a number, or none. -/
instance : Shape ℕ (Option ℕ) := ⟨fun n u => ∀ v, u = some v → n ≤ v⟩
instance : Shape Unit Unit := ⟨fun _ _ => True⟩
instance : Shape Bool Unit := ⟨fun _ _ => True⟩
instance : Shape LimbChoice Unit := ⟨fun _ _ => True⟩
instance : Shape DoubleLimb Unit := ⟨fun _ _ => True⟩
instance : Shape CtLDivisor Unit := ⟨fun _ _ => True⟩
instance [Shape α S] [Shape β T] : Shape (α × β) (S × T) :=
  ⟨fun x s => Shape.fits x.1 s.1 ∧ Shape.fits x.2 s.2⟩
instance [Shape α S] : Shape (Except ε α) S := ⟨fun x s => ∀ a, x = .ok a → Shape.fits a s⟩
instance [Shape α S] : Shape (Option α) S := ⟨fun x s => ∀ a, x = some a → Shape.fits a s⟩

theorem fits_mk [Shape α S] [Shape β T] {a : α} {b : β} {s : S} {t : T} (ha : Shape.fits a s)
    (hb : Shape.fits b t) : Shape.fits (a, b) (s, t) := ⟨ha, hb⟩
theorem fits_buf {f : Fmt} {b : Buf f} {u : ℕ} (h : b.nlimbs ≤ u) : Shape.fits b u := h
theorem fits_nat {n : ℕ} : Shape.fits n (none : Option ℕ) := by rintro v ⟨⟩
theorem fits_nat_le {n u : ℕ} (h : n ≤ u) : Shape.fits n (some u) := by rintro v ⟨⟩; exact h
theorem fits_choice {c : LimbChoice} : Shape.fits c () := trivial
theorem fits_double {c : DoubleLimb} : Shape.fits c () := trivial
theorem fits_bool {c : Bool} : Shape.fits c () := trivial
theorem fits_divisor {c : CtLDivisor} : Shape.fits c () := trivial
theorem fits_unit {c : Unit} : Shape.fits c () := trivial
theorem fits_ok [Shape α S] {a : α} {s : S} (h : Shape.fits a s) : Shape.fits (.ok a : Except ε α) s := by
  rintro b ⟨⟩; exact h
theorem fits_err [Shape α S] {e : ε} {s : S} : Shape.fits (.error e : Except ε α) s := by rintro b ⟨⟩
theorem fits_some [Shape α S] {a : α} {s : S} (h : Shape.fits a s) : Shape.fits (some a) s := by
  rintro b ⟨⟩; exact h
theorem fits_none [Shape α S] {s : S} : Shape.fits (none : Option α) s := by rintro b ⟨⟩

/-- What a bound on a value says. -/
theorem fits_mk_iff [Shape α S] [Shape β T] {a : α} {b : β} {s : S × T} :
    Shape.fits (a, b) s ↔ Shape.fits a s.1 ∧ Shape.fits b s.2 := Iff.rfl
theorem fits_buf_iff {f : Fmt} {b : Buf f} {u : ℕ} : Shape.fits b u ↔ b.nlimbs ≤ u := Iff.rfl
theorem fits_nat_some_iff {n u : ℕ} : Shape.fits n (some u) ↔ n ≤ u :=
  ⟨fun h => h _ rfl, fits_nat_le⟩
theorem fits_ok_iff [Shape α S] {a : α} {s : S} : Shape.fits (.ok a : Except ε α) s ↔ Shape.fits a s :=
  ⟨fun h => h _ rfl, fits_ok⟩
theorem fits_some_iff [Shape α S] {a : α} {s : S} : Shape.fits (some a) s ↔ Shape.fits a s :=
  ⟨fun h => h _ rfl, fits_some⟩

theorem fits_nat_elim {n u : ℕ} (h : Shape.fits n (some u)) : n ≤ u := fits_nat_some_iff.1 h
theorem fits_ok_elim [Shape α S] {a : α} {s : S} (h : Shape.fits (.ok a : Except ε α) s) : Shape.fits a s :=
  fits_ok_iff.1 h
theorem fits_some_elim [Shape α S] {a : α} {s : S} (h : Shape.fits (some a) s) : Shape.fits a s :=
  fits_some_iff.1 h

namespace M

/-- `m` takes at most `n` steps, and the sizes of its result are bounded by `s`. -/
def Cost [Shape α S] (m : M α) (n : ℕ) (s : S) : Prop :=
  m.steps ≤ n ∧ ∀ a, m.val = some a → Shape.fits a s

theorem Cost.mono [Shape α S] {m : M α} {n n' : ℕ} {s : S} (h : Cost m n s) (hn : n ≤ n') :
    Cost m n' s := ⟨h.1.trans hn, h.2⟩

theorem Cost.maxLeft [Shape α S] {m : M α} {n k : ℕ} {s : S} (h : Cost m n s) : Cost m (max n k) s :=
  h.mono (le_max_left _ _)
theorem Cost.maxRight [Shape α S] {m : M α} {n k : ℕ} {s : S} (h : Cost m k s) : Cost m (max n k) s :=
  h.mono (le_max_right _ _)

theorem Cost.bind [Shape α S] [Shape β T] {m : M α} {f : α → M β} {n k : ℕ} {s : S} {t : T}
    (hm : Cost m n s) (hf : ∀ a, Shape.fits a s → Cost (f a) k t) : Cost (m >>= f) (n + k) t := by
  refine ⟨?_, Post.bind hm.2 fun a ha => (hf a ha).2⟩
  show ((bindTr m.val m.tr _).map Ev.steps).sum ≤ _
  cases h : m.val with
  | none => exact hm.1.trans (Nat.le_add_right _ _)
  | some a =>
    simp only [bindTr, List.map_append, List.sum_append]
    exact Nat.add_le_add hm.1 (hf a (hm.2 a h)).1

theorem Cost.pure [Shape α S] {a : α} {s : S} (h : Shape.fits a s) : Cost (Pure.pure a) 0 s :=
  ⟨le_refl 0, Post.pure h⟩

theorem Cost.quiet [Shape α S] {m : M α} {s : S} (h : Quiet m) (hs : ∀ a, m.val = some a → Shape.fits a s) :
    Cost m 0 s := by
  refine ⟨?_, hs⟩
  unfold M.steps
  rw [show m.tr = [] from h]
  exact le_refl 0

theorem Cost.panic [Shape α S] {s : S} : Cost (M.panic : M α) 0 s :=
  .quiet .panic (fun a h => by simp [M.panic] at h)
theorem Cost.assert {c : Prop} [Decidable c] : Cost (M.assert c) 0 () := .quiet .assert fun _ _ => trivial
theorem Cost.check {c : Prop} [Decidable c] : Cost (M.check c) 0 () := .quiet .check fun _ _ => trivial
theorem Cost.assertM {m : M Bool} : Cost (M.assertM m) 0 () := .quiet .assertM fun _ _ => trivial
theorem Cost.addL {a b : ℕ} : Cost (M.addL a b) 0 none := .quiet .addL fun _ _ => fits_nat
theorem Cost.mulL {a b : ℕ} : Cost (M.mulL a b) 0 none := .quiet .mulL fun _ _ => fits_nat
theorem Cost.sub {a b u : ℕ} (h : a ≤ u) : Cost (M.sub a b) 0 (some u) :=
  .quiet .sub fun x hx => fits_nat_le (by
    unfold M.sub at hx
    split at hx
    · simp only [Option.some.injEq] at hx; omega
    · simp [M.panic] at hx)
theorem Cost.subAny {a b : ℕ} : Cost (M.sub a b) 0 none := .quiet .sub fun _ _ => fits_nat
theorem Cost.ofOption {o : Option ℕ} : Cost (M.ofOption o) 0 none := .quiet .ofOption fun _ _ => fits_nat

theorem Cost.ofOption' [Shape α S] {o : Option α} {s : S} (h : Shape.fits o s) : Cost (M.ofOption o) 0 s :=
  .quiet .ofOption fun a ha => h a (by cases o <;> simp_all [M.ofOption])

theorem Cost.debugPanic [Shape α S] {a : α} {s : S} : Cost (M.debugPanic a) 0 s :=
  .quiet rfl (fun a h => by simp [M.debugPanic] at h)

theorem Cost.emit {e : Ev} : Cost (M.emit e) e.steps () := ⟨by simp [M.steps, M.emit], fun _ _ => trivial⟩
theorem Cost.branch {c : Prop} [Decidable c] : Cost (M.branch c) 1 () :=
  ⟨by simp [M.steps, M.branch, M.ok, Ev.steps], fun _ _ => trivial⟩

theorem Cost.ite [Shape α S] {c : Prop} [Decidable c] {t e : M α} {n k : ℕ} {s : S} (ht : Cost t n s)
    (he : Cost e k s) : Cost (if c then t else e) (max n k) s := by
  split
  · exact ht.mono (le_max_left _ _)
  · exact he.mono (le_max_right _ _)

theorem Cost.cond [Shape α S] {c : Prop} [Decidable c] {t e : M α} {n k : ℕ} {s : S} (ht : Cost t n s)
    (he : Cost e k s) : Cost (M.cond c t e) (1 + max n k) s :=
  Cost.bind (m := M.branch c) Cost.branch fun _ _ => Cost.ite ht he


/-- With the condition known in the branches. -/
theorem Cost.cond' [Shape α S] {c : Prop} [Decidable c] {t e : M α} {n k : ℕ} {s : S} (ht : c → Cost t n s)
    (he : ¬ c → Cost e k s) : Cost (M.cond c t e) (1 + max n k) s := by
  by_cases hc : c
  · refine Cost.mono (n := 1 + n) ?_ (by omega)
    refine ⟨?_, ?_⟩
    · have := (ht hc).1
      simp only [M.steps, M.cond, M.bind, M.branch, bindTr, hc, decide_true, if_true, List.map_append,
        List.sum_append, List.map_cons, List.map_nil, List.sum_cons, List.sum_nil, Ev.steps] at *
      omega
    · intro a ha; refine (ht hc).2 a ?_; simpa [M.cond, M.bind, bindVal, M.branch, hc] using ha
  · refine Cost.mono (n := 1 + k) ?_ (by omega)
    refine ⟨?_, ?_⟩
    · have := (he hc).1
      simp only [M.steps, M.cond, M.bind, M.branch, bindTr, hc, decide_false, Bool.false_eq_true, if_false,
        List.map_append, List.sum_append, List.map_cons, List.map_nil, List.sum_cons, List.sum_nil,
        Ev.steps] at *
      omega
    · intro a ha; refine (he hc).2 a ?_; simpa [M.cond, M.bind, bindVal, M.branch, hc] using ha

/-- An assertion holds in the rest of the run. -/
theorem Cost.assertBind [Shape β T] {c : Prop} [Decidable c] {f : Unit → M β} {n : ℕ} {t : T}
    (h : c → Cost (f ()) n t) : Cost (M.assert c >>= f) n t := by
  by_cases hc : c
  · have : M.assert c >>= f = f () := by simp [M.assert, hc]
    rw [this]; exact h hc
  · refine ⟨?_, fun a ha => ?_⟩
    · simp [M.steps, M.assert, hc, Bind.bind, M.bind, M.debugPanic, bindTr]
    · rw [bind_val] at ha; simp [M.assert, hc, M.debugPanic] at ha

theorem Cost.loopUp [Shape σ S] {k : ℕ} {s : S} :
    ∀ {n lo : ℕ} {x : σ} {f : ℕ → σ → M σ}, Shape.fits x s →
      (∀ i y, lo ≤ i → i < lo + n → Shape.fits y s → Cost (f i y) k s) → Cost (M.loopUp n lo x f) (n * (k + 1)) s
  | 0, lo, x, f, h0, _ => by
    unfold M.loopUp; rw [Nat.zero_mul]; exact .pure h0
  | n + 1, lo, x, f, h0, h => by
    unfold M.loopUp
    refine ((Cost.emit (e := .iter)).bind fun _ _ => (h lo x (le_refl _) (by omega) h0).bind fun y hy =>
      Cost.loopUp hy fun i y h1 h2 => h i y (by omega) (by omega)).mono ?_
    rw [Nat.succ_mul]
    simp only [Ev.steps]
    omega

theorem Cost.forRange [Shape σ S] {lo hi N k : ℕ} {s : S} {x : σ} {f : ℕ → σ → M σ} (hN : hi - lo ≤ N)
    (h0 : Shape.fits x s) (h : ∀ i y, i < hi → Shape.fits y s → Cost (f i y) k s) :
    Cost (M.forRange lo hi x f) (N * (k + 1)) s :=
  (Cost.loopUp h0 fun i y _ h2 => h i y (by omega)).mono (Nat.mul_le_mul_right _ hN)

theorem Cost.forDown [Shape σ S] {hi N k : ℕ} {s : S} {x : σ} {f : ℕ → σ → M σ} (hN : hi ≤ N)
    (h0 : Shape.fits x s) (h : ∀ i y, i < hi → Shape.fits y s → Cost (f i y) k s) :
    Cost (M.forDown hi x f) (N * (k + 1)) s := by
  refine Cost.mono ?_ (Nat.mul_le_mul_right _ hN)
  clear hN
  induction hi generalizing x with
  | zero => unfold M.forDown; rw [Nat.zero_mul]; exact .pure h0
  | succ n ih =>
    unfold M.forDown
    refine ((Cost.emit (e := .iter)).bind fun _ _ => (h n x (by omega) h0).bind fun y hy =>
      ih hy fun i y h2 => h i y (by omega)).mono ?_
    rw [Nat.succ_mul]
    simp only [Ev.steps]
    omega

theorem Cost.bindE [Shape α S] [Shape β T] {m : M (Except ε α)} {f : α → M (Except ε β)} {n k : ℕ} {s : S}
    {t : T} (hm : Cost m n s) (hf : ∀ a, Shape.fits a s → Cost (f a) k t) : Cost (M.bindE m f) (n + k) t := by
  refine hm.bind fun r hr => ?_
  cases r with
  | error e => exact (Cost.pure fits_err).mono (Nat.zero_le _)
  | ok a => exact hf a (fits_ok_iff.1 hr)

theorem Cost.forDownE [Shape σ S] {hi N k : ℕ} {s : S} {x : σ} {f : ℕ → σ → M (Except ε σ)} (hN : hi ≤ N)
    (h0 : Shape.fits x s) (h : ∀ i y, i < hi → Shape.fits y s → Cost (f i y) k s) :
    Cost (M.forDownE hi x f) (N * (k + 1)) s := by
  refine Cost.mono ?_ (Nat.mul_le_mul_right _ hN)
  clear hN
  induction hi generalizing x with
  | zero => unfold M.forDownE; rw [Nat.zero_mul]; exact .pure (fits_ok h0)
  | succ n ih =>
    unfold M.forDownE
    refine ((Cost.emit (e := .iter)).bind fun _ _ => (h n x (by omega) h0).bind (k := n * (k + 1)) fun y hy =>
      ?_).mono ?_
    · cases y with
      | error e => exact (Cost.pure fits_err).mono (Nat.zero_le _)
      | ok a => exact ih (fits_ok_iff.1 hy) fun i y h2 => h i y (by omega)
    rw [Nat.succ_mul]
    simp only [Ev.steps]
    omega

theorem Cost.loopUpE [Shape σ S] {k : ℕ} {s : S} :
    ∀ {n lo : ℕ} {x : σ} {f : ℕ → σ → M (Except ε σ)}, Shape.fits x s →
      (∀ i y, lo ≤ i → i < lo + n → Shape.fits y s → Cost (f i y) k s) → Cost (M.loopUpE n lo x f) (n * (k + 1)) s
  | 0, lo, x, f, h0, _ => by
    unfold M.loopUpE; rw [Nat.zero_mul]; exact .pure (fits_ok h0)
  | n + 1, lo, x, f, h0, h => by
    unfold M.loopUpE
    refine ((Cost.emit (e := .iter)).bind fun _ _ => (h lo x (le_refl _) (by omega) h0).bind (k := n * (k + 1))
      fun y hy => ?_).mono ?_
    · cases y with
      | error e => exact (Cost.pure fits_err).mono (Nat.zero_le _)
      | ok a => exact Cost.loopUpE (fits_ok_iff.1 hy) fun i y h1 h2 => h i y (by omega) (by omega)
    rw [Nat.succ_mul]
    simp only [Ev.steps]
    omega

theorem Cost.loopUpE' [Shape σ S] {n lo N k : ℕ} {s : S} {x : σ} {f : ℕ → σ → M (Except ε σ)} (hN : n ≤ N)
    (h0 : Shape.fits x s) (h : ∀ i y, i < lo + n → Shape.fits y s → Cost (f i y) k s) :
    Cost (M.loopUpE n lo x f) (N * (k + 1)) s :=
  (Cost.loopUpE h0 fun i y _ h2 => h i y h2).mono (Nat.mul_le_mul_right _ hN)

end M
end

theorem ub_sub {a b u : ℕ} (h : a ≤ u) : a - b ≤ u := le_trans (Nat.sub_le _ _) h
theorem ub_min_left {a b u : ℕ} (h : a ≤ u) : min a b ≤ u := le_trans (min_le_left _ _) h
theorem ub_min_right {a b u : ℕ} (h : b ≤ u) : min a b ≤ u := le_trans (min_le_right _ _) h
theorem ub_lt {a b u : ℕ} (h : a < b) (h' : b ≤ u) : a ≤ u := by omega
theorem ub_add {a b u v : ℕ} (h : a ≤ u) (h' : b ≤ v) : a + b ≤ u + v := Nat.add_le_add h h'
theorem ub_max {a b u v : ℕ} (h : a ≤ u) (h' : b ≤ v) : max a b ≤ max u v := by omega

theorem ub_le {a b u : ℕ} (h : a ≤ b) (h' : b ≤ u) : a ≤ u := le_trans h h'
theorem ub_nlimbs [LimbCfg] {f : Fmt} {b : Buf f} {u : ℕ} (h : b.nlimbs ≤ u) : ct_mp_nlimbs b.len ≤ u := h
theorem ub_div {a b u : ℕ} (h : a ≤ u) : a / b ≤ u / b := Nat.div_le_div_right h

/-- Bounds on sizes by those of the operands. -/
syntax "ub_strict" : tactic
macro_rules
  | `(tactic| ub_strict) => `(tactic| first
    | with_reducible assumption
    | (with_reducible apply ub_sub; ub_strict; done)
    | (with_reducible apply ub_min_left; ub_strict; done)
    | (with_reducible apply ub_min_right; ub_strict; done)
    | (with_reducible apply ub_nlimbs; ub_strict; done)
    | (with_reducible apply ub_div; ub_strict; done)
    | (with_reducible apply ub_lt; (with_reducible assumption); ub_strict; done)
    | (with_reducible apply ub_le; (with_reducible assumption); ub_strict; done)
    | (with_reducible apply ub_add <;> ub_strict; done)
    | (with_reducible apply ub_max <;> ub_strict; done))

/-- Bounds on sizes. -/
syntax "ub" : tactic
macro_rules
  | `(tactic| ub) => `(tactic| first
    | ub_strict
    | (with_reducible apply ub_sub; ub; done)
    | (with_reducible apply ub_min_left; ub; done)
    | (with_reducible apply ub_min_right; ub; done)
    | (with_reducible apply ub_lt; (with_reducible assumption); ub; done)
    | (with_reducible apply ub_add <;> ub; done)
    | (with_reducible apply ub_max <;> ub; done)
    | with_reducible exact le_refl _
    | omega)

/-- Further rules for the sizes of results. -/
syntax "fits_ext" : tactic
macro_rules
  | `(tactic| fits_ext) => `(tactic| fail)

/-- The sizes of a result. -/
macro "fits" : tactic => `(tactic|
  repeat' (first
    | with_reducible exact fits_err
    | with_reducible exact fits_none
    | with_reducible exact fits_nat
    | with_reducible apply fits_mk
    | with_reducible apply fits_ok
    | with_reducible apply fits_some
    | with_reducible assumption
    | (with_reducible apply fits_nat_le; ub)
    | (with_reducible apply fits_buf; ub)
    | with_reducible exact fits_choice
    | with_reducible exact fits_bool
    | with_reducible exact fits_unit
    | with_reducible exact fits_double
    | with_reducible exact fits_divisor
    | fits_ext))

open Lean Meta Elab Tactic

namespace CostTactic
open CtTactic (headName isMatch splitPair solve)

/-- Take bounds apart. -/
partial def splitFits (g : MVarId) (h : FVarId) : MetaM MVarId := g.withContext do
  let t ← Core.betaReduce (← instantiateMVars (← h.getType))
  unless t.isAppOfArity ``Shape.fits 6 do return g
  let as := t.getAppArgs
  let α ← whnfR as[1]!
  let x ← whnfCore as[4]!
  let s ← whnfCore (← instantiateMVars as[5]!)
  if α.isAppOf ``Prod then
    unless x.isAppOf ``Prod.mk do return g
    let x1 := x.appFn!.appArg!
    let x2 := x.appArg!
    let s1 ← if s.isAppOf ``Prod.mk then pure s.appFn!.appArg! else mkAppM ``Prod.fst #[s]
    let s2 ← if s.isAppOf ``Prod.mk then pure s.appArg! else mkAppM ``Prod.snd #[s]
    let p1 ← mkAppM ``Shape.fits #[x1, s1]
    let p2 ← mkAppM ``Shape.fits #[x2, s2]
    let g ← g.replaceLocalDeclDefEq h (mkAnd p1 p2)
    let r ← g.cases h
    let some r := r[0]? | return g
    let some h1 := r.fields[0]? | return r.mvarId
    let some h2 := r.fields[1]? | return r.mvarId
    let g ← splitFits r.mvarId h2.fvarId!
    splitFits g h1.fvarId!
  else if α.isAppOf ``Buf then
    g.replaceLocalDeclDefEq h (← mkAppM ``LE.le #[← mkAppM ``Buf.nlimbs #[x], s])
  else if α.isConstOf ``Nat then
    if s.isAppOf ``Option.some then elim g h ``fits_nat_elim
    else g.tryClear h
  else if α.isAppOf ``Except || α.isAppOf ``Option then
    if x.isAppOf ``Except.ok then elim g h ``fits_ok_elim
    else if x.isAppOf ``Option.some then elim g h ``fits_some_elim
    else if x.isFVar then return g
    else g.tryClear h
  else if s.isAppOf ``Unit.unit then g.tryClear h
  else return g
where
  elim (g : MVarId) (h : FVarId) (n : Name) : MetaM MVarId := do
    let pf ← mkAppM n #[mkFVar h]
    let g ← g.assert `h (← instantiateMVars (← inferType pf)) pf
    let (h', g) ← g.intro1
    let g ← g.tryClear h
    splitFits g h'

/-- The theorem on a function. -/
def costName (n : Name) : Name := n.modifyBase fun b => match b with
  | .str p s => .str p (s ++ "_cost")
  | b => b

def quietName (n : Name) : Name := match n with
  | .str _ s => .str `Cmpa ("quiet_" ++ s)
  | b => b

partial def isCostGoal : Expr → Bool
  | .forallE _ _ b _ => isCostGoal b
  | .mdata _ e => isCostGoal e
  | e => e.isAppOf ``M.Cost

/-- Apply a theorem; its premises are bounds, or further goals `Cost`. -/
def applyThm (g : MVarId) (n : Name) : TacticM (List MVarId) := do
  let gs ← g.apply (← mkConstWithFreshMVarLevels n) { newGoals := .all, allowSynthFailures := true }
  let mut rest := #[]
  for g in gs do
    if ← g.isAssigned then continue
    let t ← instantiateMVars (← g.getType)
    if (← g.withContext (isProp t)) then
      if isCostGoal t then rest := rest.push g
      else if t.isAppOf ``Shape.fits then solve g (do evalTactic (← `(tactic| fits)))
      else solve g (do evalTactic (← `(tactic| ub)))
  return rest.toList

/-- The head of the computation in a goal `Cost`, possibly with premises. -/
partial def costHead : Expr → Option Name
  | .forallE _ _ b _ => costHead b
  | .mdata _ e => costHead e
  | e => if e.isAppOfArity ``M.Cost 7 then headName e.getAppArgs[4]! else none

/-- Apply a hypothesis. -/
def applyHyp (g : MVarId) (h : Expr) : TacticM (List MVarId) := do
  let gs ← g.apply h { newGoals := .all, allowSynthFailures := true }
  for g in gs do
    if ← g.isAssigned then continue
    let t ← instantiateMVars (← g.getType)
    if (← g.withContext (isProp t)) then
      if t.isAppOf ``Shape.fits then solve g (do evalTactic (← `(tactic| fits)))
      else solve g (do evalTactic (← `(tactic| ub)))
  return []

def callThm (g : MVarId) (n : Name) : TacticM (List MVarId) := g.withContext do
  let env ← getEnv
  for d in ← getLCtx do
    if d.isImplementationDetail then continue
    if costHead (← instantiateMVars d.type) == some n then
      return ← applyHyp g d.toExpr
  if env.contains (costName n) then applyThm g (costName n)
  else if env.contains (quietName n) then
    let gs ← g.apply (← mkConstWithFreshMVarLevels ``M.Cost.quiet)
    let h1 :: h2 :: _ := gs | throwError "cost: quiet"
    let r ← h1.apply (← mkConstWithFreshMVarLevels (quietName n))
    unless r.isEmpty do throwError "cost: quiet"
    solve h2 (do evalTactic (← `(tactic| (intro _ _; fits; done))))
    return []
  else throwError "cost: no theorem on {n}"

def setM (g : MVarId) (m : Expr) : MetaM MVarId := g.withContext do
  let t ← whnfR (← instantiateMVars (← g.getType))
  g.replaceTargetDefEq (mkAppN t.getAppFn (t.getAppArgs.set! 4 m))

/-- Introduce all premises. -/
partial def introAll (g : MVarId) : MetaM MVarId := do
  let (xs, g) ← g.intros
  let mut g := g
  for x in xs.reverse do
    g ← g.withContext do
      if (← isProp (← x.getType)) then return g
      else splitPair g x
  splitAll g
where
  splitAll (g : MVarId) : MetaM MVarId := g.withContext do
    let mut g := g
    for d in (← getLCtx).decls.toArray do
      let some d := d | continue
      if d.isImplementationDetail then continue
      if (← instantiateMVars d.type).isAppOf ``Shape.fits then
        if (← g.getDecl).lctx.contains d.fvarId then
          g ← splitFits g d.fvarId
    return g

/-- Take a `match` apart. -/
def matchStep (g : MVarId) (m : Expr) : MetaM (List MVarId) := g.withContext do
  let some app ← matchMatcherApp? m | throwError "cost: match"
  let some d := app.discrs[0]? | throwError "cost: match without discriminant"
  unless app.discrs.size = 1 do throwError "cost: match on several values"
  let d := d.consumeMData
  let dt ← whnfR (← inferType d)
  let n := (← whnfR (← instantiateMVars (← g.getType))).getAppArgs[5]!
  let two := n.getAppFn.isMVar && (dt.isAppOf ``Option || dt.isAppOf ``Except)
  if two then
    let a ← mkFreshExprMVar (mkConst ``Nat)
    let b ← mkFreshExprMVar (mkConst ``Nat)
    unless ← isDefEq n (← mkAppM ``Max.max #[a, b]) do throwError "cost: match bound"
  let (x, g) ← if d.isFVar then pure (d.fvarId!, g) else do
    let (xs, g) ← g.generalize #[{ expr := d }]
    pure (xs[0]!, g)
  let ss ← g.cases x
  let mut res := #[]
  let mut i := 0
  for s in ss do
    let mut g := s.mvarId
    if two then
      let gs ← g.apply (← mkConstWithFreshMVarLevels (if i = 0 then ``M.Cost.maxLeft else ``M.Cost.maxRight))
      g := gs[0]!
    i := i + 1
    for y in s.fields do
      if y.isFVar then g ← splitPair g y.fvarId!
    res := res.push (← introAll.splitAll g)
  return res.toList

partial def step (g : MVarId) (keep : Bool := true) : TacticM (List MVarId) := g.withContext do
  let ty ← instantiateMVars (← g.getType)
  if ty.isForall then
    unless isCostGoal ty do throwError "cost: not a goal Cost"
    return [← introAll g]
  let t ← whnfR ty
  unless t.isAppOfArity ``M.Cost 7 do throwError "cost: not a goal Cost"
  let m := t.getAppArgs[4]!.consumeMData.headBeta
  if let .letE _ _ v b _ := m then
    return [← setM g (b.instantiate1 v)]
  if ← isMatch m then
    let m' ← whnfCore m
    if ← isMatch m' then
      for d in ← getLCtx do
        if d.isImplementationDetail then continue
        if let some n := costHead (← instantiateMVars d.type) then
          if ← isMatcher n then
            let s ← saveState
            try return ← applyHyp (← setM g m') d.toExpr
            catch _ => s.restore
      return ← matchStep (← setM g m') m'
    else return [← setM g m']
  let g ← setM g m
  match headName m with
  | some ``Bind.bind =>
    let a := m.appFn!.appArg!.consumeMData
    if keep && a.isAppOf ``M.assert then applyThm g ``M.Cost.assertBind
    else applyThm g ``M.Cost.bind
  | some ``M.cond => applyThm g ``M.Cost.cond
  | some ``ite => applyThm g ``M.Cost.ite
  | some ``Pure.pure => applyThm g ``M.Cost.pure
  | some ``M.panic => applyThm g ``M.Cost.panic
  | some ``M.sub => do
    let s ← saveState
    try applyThm g ``M.Cost.sub
    catch _ =>
      s.restore
      applyThm g ``M.Cost.subAny
  | some ``M.addL => applyThm g ``M.Cost.addL
  | some ``M.mulL => applyThm g ``M.Cost.mulL
  | some ``M.debugPanic => applyThm g ``M.Cost.debugPanic
  | some ``M.assert => applyThm g ``M.Cost.assert
  | some ``M.check => applyThm g ``M.Cost.check
  | some ``M.assertM => applyThm g ``M.Cost.assertM
  | some ``M.emit => applyThm g ``M.Cost.emit
  | some ``M.branch => applyThm g ``M.Cost.branch
  | some ``M.ofOption => applyThm g ``M.Cost.ofOption <|> applyThm g ``M.Cost.ofOption'
  | some ``M.forRange => applyThm g ``M.Cost.forRange
  | some ``M.forDown => applyThm g ``M.Cost.forDown
  | some ``M.forDownE => applyThm g ``M.Cost.forDownE
  | some ``M.loopUpE => applyThm g ``M.Cost.loopUpE'
  | some ``M.bindE => applyThm g ``M.Cost.bindE
  | some c => callThm g c
  | none => g.withContext do
    for d in ← getLCtx do
      if d.isImplementationDetail then continue
      let t ← instantiateMVars d.type
      if isCostGoal t && (costHead t).isNone then
        let s ← saveState
        try return ← applyHyp g d.toExpr
        catch _ => s.restore
    throwError "cost: stuck at {m}"

end CostTactic

/-- One step of `cost`. -/
elab "cost_step" : tactic => do
  let g ← getMainGoal
  let rest := (← getGoals).tail!
  let gs ← CostTactic.step g
  setGoals (gs ++ rest)

/-- One step of `cost!`. -/
elab "cost_step!" : tactic => do
  let g ← getMainGoal
  let rest := (← getGoals).tail!
  let gs ← CostTactic.step g (keep := false)
  setGoals (gs ++ rest)

/-- As `cost`, without making use of assertions. -/
macro "cost!" : tactic => `(tactic| (apply M.Cost.mono; (repeat' cost_step!)))

/-- Bound the work of a computation, by going through its code; leaves an inequality between bounds. -/
macro "cost" : tactic => `(tactic| (apply M.Cost.mono; (repeat' cost_step)))

/-- The inequality left by `cost`. -/
macro "cost_fin" : tactic => `(tactic| (
  try simp only [Ev.steps, max_self, Nat.reduceAdd, Nat.add_zero, Nat.zero_add, Nat.zero_max, Nat.max_zero,
    Nat.zero_mul]
  first
    | omega
    | (ring_nf; omega)))

end Cmpa
