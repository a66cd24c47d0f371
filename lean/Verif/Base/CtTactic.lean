import Verif.Base.Pub
import Lean.Elab.Tactic

/-!
# The tactic `ct`

`ct` proves goals `SameTr m n R` where `m` and `n` are two runs of the same code, on data whose public parts
agree.  Calls of other functions are dealt with by the theorem about the function, which is found by
its name: `foo_ct` for a function `foo`, or `quiet_foo` if the function has no events at all.

This is a proof search procedure only: the proofs it finds are checked by the kernel like all others.
-/

namespace Cmpa

namespace M
variable {α β : Type} [Obs]

theorem SameTr.ite {c d : Prop} [Decidable c] [Decidable d] {t e : M α} {t' e' : M β}
    {R : α → β → Prop} (h : c ↔ d) (ht : c → SameTr t t' R) (he : ¬ c → SameTr e e' R) :
    SameTr (if c then t else e) (if d then t' else e') R := by
  by_cases hc : c
  · rw [if_pos hc, if_pos (h.1 hc)]; exact ht hc
  · rw [if_neg hc, if_neg (fun hd => hc (h.2 hd))]; exact he hc

/-- Two successful runs leave the same events, and the public parts of their results agree: that an error
is returned is public. -/
def CtOk {ε : Type} [Pub α] (m n : M (Except ε α)) : Prop :=
  ∀ a b, m.val = some (.ok a) → n.val = some (.ok b) → m.seen = n.seen ∧ Pub.rel a b

section
variable {σ τ ε ε' : Type}

theorem cond_val {c : Prop} [Decidable c] {t e : M α} : (M.cond c t e).val = if c then t.val else e.val := by
  show (M.branch c >>= fun b => if b then t else e).val = _
  rw [bind_val]
  by_cases hc : c <;> simp [M.branch, hc]

theorem SameTr.ok [Pub α] {m n : M (Except ε α)} (h : SameTr m n Pub.rel) : CtOk m n := fun a b ha hb =>
  h _ _ ha hb

theorem CtOk.bind [Pub α] {m : M σ} {n : M τ} {f : σ → M (Except ε α)} {g : τ → M (Except ε α)}
    {R : σ → τ → Prop} (h : SameTr m n R) (hf : ∀ a b, R a b → CtOk (f a) (g b)) :
    CtOk (m >>= f) (n >>= g) := by
  intro x y hx hy
  rw [bind_val] at hx hy
  cases hm : m.val with
  | none => rw [hm] at hx; cases hx
  | some a =>
    cases hn : n.val with
    | none => rw [hn] at hy; cases hy
    | some b =>
      rw [hm] at hx
      rw [hn] at hy
      obtain ⟨h1, h2⟩ := h a b hm hn
      obtain ⟨h3, h4⟩ := hf a b h2 x y hx hy
      refine ⟨?_, h4⟩
      rw [bind_seen_some hm, bind_seen_some hn, h1, h3]

theorem SameTr.bindOk [Pub σ] {m n : M (Except ε σ)} {f : Except ε σ → M α} {g : Except ε σ → M β}
    {S : α → β → Prop} (h : CtOk m n) (he : ∀ e, (f (.error e)).val = none) (he' : ∀ e, (g (.error e)).val = none)
    (hf : ∀ a b, Pub.rel a b → SameTr (f (.ok a)) (g (.ok b)) S) :
    SameTr (m >>= f) (n >>= g) S := by
  intro x y hx hy
  rw [bind_val] at hx hy
  cases hm : m.val with
  | none => rw [hm] at hx; cases hx
  | some a =>
    cases hn : n.val with
    | none => rw [hn] at hy; cases hy
    | some b =>
      rw [hm] at hx
      rw [hn] at hy
      cases a with
      | error e => exact absurd ((he e).symm.trans hx) (by simp)
      | ok a =>
        cases b with
        | error e => exact absurd ((he' e).symm.trans hy) (by simp)
        | ok b =>
          obtain ⟨h1, h2⟩ := h a b hm hn
          obtain ⟨h3, h4⟩ := hf a b h2 x y hx hy
          refine ⟨?_, h4⟩
          rw [bind_seen_some hm, bind_seen_some hn, h1, h3]

theorem CtOk.bindOk [Pub σ] [Pub α] {m n : M (Except ε σ)} {f g : Except ε σ → M (Except ε' α)}
    (h : CtOk m n) (he : ∀ e x, (f (.error e)).val ≠ some (.ok x))
    (he' : ∀ e x, (g (.error e)).val ≠ some (.ok x))
    (hf : ∀ a b, Pub.rel a b → CtOk (f (.ok a)) (g (.ok b))) :
    CtOk (m >>= f) (n >>= g) := by
  intro x y hx hy
  rw [bind_val] at hx hy
  cases hm : m.val with
  | none => rw [hm] at hx; cases hx
  | some a =>
    cases hn : n.val with
    | none => rw [hn] at hy; cases hy
    | some b =>
      rw [hm] at hx
      rw [hn] at hy
      cases a with
      | error e => exact absurd hx (he e x)
      | ok a =>
        cases b with
        | error e => exact absurd hy (he' e y)
        | ok b =>
          obtain ⟨h1, h2⟩ := h a b hm hn
          obtain ⟨h3, h4⟩ := hf a b h2 x y hx hy
          refine ⟨?_, h4⟩
          rw [bind_seen_some hm, bind_seen_some hn, h1, h3]

theorem CtOk.bindE [Pub σ] [Pub α] {m n : M (Except ε σ)} {f g : σ → M (Except ε α)}
    (h : CtOk m n) (hf : ∀ a b, Pub.rel a b → CtOk (f a) (g b)) : CtOk (M.bindE m f) (M.bindE n g) := by
  refine CtOk.bindOk h ?_ ?_ hf <;> intro e x h <;> simp at h

theorem CtOk.cond [Pub α] {c d : Prop} [Decidable c] [Decidable d] {t e t' e' : M (Except ε α)}
    (h : c ↔ d) (ht : c → CtOk t t') (he : ¬ c → CtOk e e') : CtOk (M.cond c t e) (M.cond d t' e') := by
  show CtOk (M.branch c >>= fun b => if b then t else e) (M.branch d >>= fun b => if b then t' else e')
  refine CtOk.bind (SameTr.branch h) ?_
  rintro a b ⟨rfl, rfl⟩
  by_cases hc : c
  · simpa [hc] using ht hc
  · simpa [hc] using he hc

theorem CtOk.ite [Pub α] {c d : Prop} [Decidable c] [Decidable d] {t e t' e' : M (Except ε α)}
    (h : c ↔ d) (ht : c → CtOk t t') (he : ¬ c → CtOk e e') :
    CtOk (if c then t else e) (if d then t' else e') := by
  by_cases hc : c
  · rw [if_pos hc, if_pos (h.1 hc)]; exact ht hc
  · rw [if_neg hc, if_neg (fun hd => hc (h.2 hd))]; exact he hc

theorem CtOk.condErr1 [Pub α] {c d : Prop} [Decidable c] [Decidable d] {x y : ε} {e e' : M (Except ε α)}
    (he : CtOk e e') :
    CtOk (M.cond c (Pure.pure (.error x)) e) (M.cond d (Pure.pure (.error y)) e') := by
  by_cases hc : c
  · intro a b ha; rw [cond_val] at ha; simp [hc] at ha
  · by_cases hd : d
    · intro a b ha hb; rw [cond_val] at hb; simp [hd] at hb
    · exact CtOk.cond (by simp [hc, hd]) (fun h => absurd h hc) (fun _ => he)

theorem CtOk.condErr2 [Pub α] {c d : Prop} [Decidable c] [Decidable d] {x y : ε} {e e' : M (Except ε α)}
    (he : CtOk e e') :
    CtOk (M.cond c e (Pure.pure (.error x))) (M.cond d e' (Pure.pure (.error y))) := by
  by_cases hc : c
  · by_cases hd : d
    · exact CtOk.cond (by simp [hc, hd]) (fun _ => he) (fun h => absurd hc h)
    · intro a b ha hb; rw [cond_val] at hb; simp [hd] at hb
  · intro a b ha; rw [cond_val] at ha; simp [hc] at ha

theorem CtOk.pure [Pub α] {a b : α} (h : Pub.rel a b) :
    CtOk (Pure.pure (.ok a) : M (Except ε α)) (Pure.pure (.ok b)) := by
  intro x y hx hy
  simp at hx hy; subst hx hy; exact ⟨rfl, h⟩

theorem CtOk.err [Pub α] {e : ε} {n : M (Except ε α)} :
    CtOk (Pure.pure (.error e) : M (Except ε α)) n := by
  intro x y hx; simp at hx

theorem CtOk.panicL [Pub α] {m : M (Except ε α)} : CtOk (M.panic : M (Except ε α)) m := by
  intro x y hx; cases hx

theorem CtOk.debugPanicL [Pub α] {a : Except ε α} {m : M (Except ε α)} :
    CtOk (M.debugPanic a : M (Except ε α)) m := by
  intro x y hx; cases hx

theorem CtOk.forDownE [Pub σ] {f g : ℕ → σ → M (Except ε σ)} :
    ∀ {hi hi' : ℕ} {s t : σ} (_ : hi = hi') (_ : Pub.rel s t)
      (_ : ∀ i s t, i < hi → Pub.rel s t → CtOk (f i s) (g i t)),
      CtOk (M.forDownE hi s f) (M.forDownE hi' t g)
  | 0, _, s, t, hh, h0, _ => by subst hh; exact CtOk.pure h0
  | n + 1, _, s, t, hh, h0, hs => by
    subst hh
    unfold M.forDownE
    refine CtOk.bind SameTr.emit fun _ _ _ => ?_
    exact CtOk.bindE (hs n s t (by omega) h0) fun a b hab =>
      CtOk.forDownE rfl hab fun i s t hi h => hs i s t (by omega) h

/-- Two runs which return a value leave the same events, and the public parts of their results agree: that
there is no value is public. -/
def CtSome [Pub α] (m n : M (Option α)) : Prop :=
  ∀ a b, m.val = some (some a) → n.val = some (some b) → m.seen = n.seen ∧ Pub.rel a b

theorem SameTr.some [Pub α] {m n : M (Option α)} (h : SameTr m n Pub.rel) : CtSome m n := fun a b ha hb =>
  h _ _ ha hb

theorem ofOption_ct [Pub α] {o o' : Option α} (h : Pub.rel o o') : Ct (M.ofOption o) (M.ofOption o') := by
  refine SameTr.ofOption ?_
  rintro a b rfl rfl
  exact h

theorem SameTr.bindSome [Pub σ] {m n : M (Option σ)} {f : Option σ → M α} {g : Option σ → M β}
    {S : α → β → Prop} (h : CtSome m n) (he : (f none).val = none) (he' : (g none).val = none)
    (hf : ∀ a b, Pub.rel a b → SameTr (f (.some a)) (g (.some b)) S) :
    SameTr (m >>= f) (n >>= g) S := by
  intro x y hx hy
  rw [bind_val] at hx hy
  cases hm : m.val with
  | none => rw [hm] at hx; cases hx
  | some a =>
    cases hn : n.val with
    | none => rw [hn] at hy; cases hy
    | some b =>
      rw [hm] at hx
      rw [hn] at hy
      cases a with
      | none => exact absurd (he.symm.trans hx) (by simp)
      | some a =>
        cases b with
        | none => exact absurd (he'.symm.trans hy) (by simp)
        | some b =>
          obtain ⟨h1, h2⟩ := h a b hm hn
          obtain ⟨h3, h4⟩ := hf a b h2 x y hx hy
          refine ⟨?_, h4⟩
          rw [bind_seen_some hm, bind_seen_some hn, h1, h3]

theorem CtOk.bindSome [Pub σ] [Pub α] {m n : M (Option σ)} {f g : Option σ → M (Except ε' α)}
    (h : CtSome m n) (he : ∀ x, (f none).val ≠ some (.ok x))
    (he' : ∀ x, (g none).val ≠ some (.ok x))
    (hf : ∀ a b, Pub.rel a b → CtOk (f (.some a)) (g (.some b))) :
    CtOk (m >>= f) (n >>= g) := by
  intro x y hx hy
  rw [bind_val] at hx hy
  cases hm : m.val with
  | none => rw [hm] at hx; cases hx
  | some a =>
    cases hn : n.val with
    | none => rw [hn] at hy; cases hy
    | some b =>
      rw [hm] at hx
      rw [hn] at hy
      cases a with
      | none => exact absurd hx (he x)
      | some a =>
        cases b with
        | none => exact absurd hy (he' y)
        | some b =>
          obtain ⟨h1, h2⟩ := h a b hm hn
          obtain ⟨h3, h4⟩ := hf a b h2 x y hx hy
          refine ⟨?_, h4⟩
          rw [bind_seen_some hm, bind_seen_some hn, h1, h3]

theorem CtSome.bind [Pub α] {m : M σ} {n : M τ} {f : σ → M (Option α)} {g : τ → M (Option α)}
    {R : σ → τ → Prop} (h : SameTr m n R) (hf : ∀ a b, R a b → CtSome (f a) (g b)) :
    CtSome (m >>= f) (n >>= g) := by
  intro x y hx hy
  rw [bind_val] at hx hy
  cases hm : m.val with
  | none => rw [hm] at hx; cases hx
  | some a =>
    cases hn : n.val with
    | none => rw [hn] at hy; cases hy
    | some b =>
      rw [hm] at hx
      rw [hn] at hy
      obtain ⟨h1, h2⟩ := h a b hm hn
      obtain ⟨h3, h4⟩ := hf a b h2 x y hx hy
      refine ⟨?_, h4⟩
      rw [bind_seen_some hm, bind_seen_some hn, h1, h3]

theorem CtSome.bindSome [Pub α] {m n : M (Option σ)} {f g : Option σ → M (Option α)} {R : σ → σ → Prop}
    (h : ∀ a b, m.val = some (some a) → n.val = some (some b) → m.seen = n.seen ∧ R a b) (he : ∀ x, (f none).val ≠ some (.some x))
    (he' : ∀ x, (g none).val ≠ some (.some x))
    (hf : ∀ a b, R a b → CtSome (f (.some a)) (g (.some b))) :
    CtSome (m >>= f) (n >>= g) := by
  intro x y hx hy
  rw [bind_val] at hx hy
  cases hm : m.val with
  | none => rw [hm] at hx; cases hx
  | some a =>
    cases hn : n.val with
    | none => rw [hn] at hy; cases hy
    | some b =>
      rw [hm] at hx
      rw [hn] at hy
      cases a with
      | none => exact absurd hx (he x)
      | some a =>
        cases b with
        | none => exact absurd hy (he' y)
        | some b =>
          obtain ⟨h1, h2⟩ := h a b hm hn
          obtain ⟨h3, h4⟩ := hf a b h2 x y hx hy
          refine ⟨?_, h4⟩
          rw [bind_seen_some hm, bind_seen_some hn, h1, h3]

theorem CtSome.condNone [Pub α] {c d : Prop} [Decidable c] [Decidable d] {e e' : M (Option α)}
    (he : CtSome e e') : CtSome (M.cond c (Pure.pure none) e) (M.cond d (Pure.pure none) e') := by
  intro a b ha hb
  rw [cond_val] at ha hb
  by_cases hc : c
  · simp [hc] at ha
  · by_cases hd : d
    · simp [hd] at hb
    · rw [if_neg hc] at ha
      rw [if_neg hd] at hb
      obtain ⟨h1, h2⟩ := he a b ha hb
      refine ⟨?_, h2⟩
      show (M.branch c >>= fun b => if b then Pure.pure none else e).seen
        = (M.branch d >>= fun b => if b then Pure.pure none else e').seen
      rw [bind_seen_some (a := false) (by simp [M.branch, hc]), bind_seen_some (a := false) (by simp [M.branch, hd])]
      simp [M.branch, M.seen, hc, hd, show e.tr.map Obs.see = e'.tr.map Obs.see from h1]

end

end M

/-- Conditions on lists of buffers. -/
macro "ct_side_list" : tactic => `(tactic|
  repeat' (first
    | exact List.Forall₂.nil
    | refine List.Forall₂.cons ?_ ?_
    | with_reducible assumption
    | with_reducible rfl))

/-- Conditions on public data. -/
macro "ct_side_pub" : tactic => `(tactic| first
  | with_reducible rfl
  | with_reducible exact Iff.rfl
  | with_reducible assumption
  | (simp only [Buf.is_empty_iff, Buf.len_join, low_buf, low_prod, low_mk, low_ok, low_list, low_some, low_none, low_nat, low_choice, low_bool, low_double,
      Buf.nlimbs, and_true, true_and, *]; done)
  | (simp only [Buf.nlimbs, low_buf, low_prod] at *; omega)
  | trivial
  | (ct_side_list; done))

/-- Conditions on public data, possibly under the premise that the positions of loads are observed. -/
macro "ct_side" : tactic => `(tactic| first
  | ct_side_pub
  | (intro hpos; exact absurd (hpos.symm.trans ‹Obs.pos = false›) (by decide))
  | (intro hpos; ct_side_pub))

open Lean Meta Elab Tactic

namespace CtTactic

/-- Take a pair apart. -/
partial def splitPair (g : MVarId) (x : FVarId) : MetaM MVarId := g.withContext do
  let t ← whnfR (← x.getType)
  if t.isAppOf ``Prod then
    let s ← g.cases x
    let some s := s[0]? | return g
    let fields := s.fields.map (·.fvarId!)
    let mut g := s.mvarId
    for y in fields do
      g ← splitPair g y
    return g
  else
    return g

/-- Simplify the first `k` premises of the goal, hypotheses on public data, or close the goal by a contradiction. -/
partial def splitHyps (k : ℕ) (g : MVarId) : MetaM (Option MVarId) := do
  if k = 0 then return some g
  let (h, g) ← g.intro1
  g.withContext do
  let t ← Core.betaReduce (← instantiateMVars (← h.getType))
  let t ← whnfR t
  let t ← if t.isAppOfArity ``Pub.rel 4 then do
      let as := t.getAppArgs
      whnfD (mkAppN t.getAppFn #[as[0]!, as[1]!, ← whnfR as[2]!, ← whnfR as[3]!])
    else if t.isAppOfArity ``Eq 3 then do
      let as := t.getAppArgs
      pure (mkAppN t.getAppFn #[as[0]!, ← whnfR as[1]!, ← whnfR as[2]!])
    else pure t
  if t.isAppOf ``And then
    let g ← g.replaceLocalDeclDefEq h t
    let s ← g.cases h
    let some s := s[0]? | return g
    let (_, g) ← s.mvarId.revert (s.fields.map (·.fvarId!)) (preserveOrder := true)
    splitHyps (k + 1) g
  else if t.isConstOf ``True then
    splitHyps (k - 1) (← g.tryClear h)
  else if t.isConstOf ``False then
    let _ ← g.cases h
    return none
  else if t.isAppOfArity ``Eq 3 && t.appArg!.isFVar && t.appFn!.appArg!.isFVar then
    let g ← g.replaceLocalDeclDefEq h t
    let (_, g) ← substCore g h (symm := true) (tryToSkip := true)
    splitHyps (k - 1) g
  else if t.isAppOf ``Eq then
    let g ← g.replaceLocalDeclDefEq h t
    splitHyps (k - 1) g
  else
    splitHyps (k - 1) g

/-- Introduce the results of the first parts of two runs. -/
def introPair (g : MVarId) : MetaM (Option MVarId) := do
  let (xs, g) ← g.introN 2
  let some a := xs[0]? | return g
  let some b := xs[1]? | return g
  let g ← splitPair g b
  let g ← splitPair g a
  splitHyps 1 g

/-- The head constant. -/
def headName (e : Expr) : Option Name := e.getAppFn.constName?

/-- Is this a `match`? -/
def isMatch (e : Expr) : MetaM Bool := do
  match headName e with
  | some n => return (← getMatcherInfo? n).isSome
  | none => return false

def side : TacticM Unit := do evalTactic (← `(tactic| ct_side))

/-- Run a tactic on a goal, without leaving any goal. -/
def solve (g : MVarId) (t : TacticM Unit) : TacticM Unit := do
  let saved ← getGoals
  setGoals [g]
  t
  let rest ← getGoals
  unless rest.isEmpty do throwError "ct: goals left"
  setGoals saved

/-- Is this a goal `SameTr`, possibly with premises? -/
partial def isTraceGoal : Expr → Bool
  | .forallE _ _ b _ => isTraceGoal b
  | .mdata _ e => isTraceGoal e
  | e => e.isAppOf ``M.SameTr || e.isAppOf ``M.Ct || e.isAppOf ``M.CtOk || e.isAppOf ``M.CtSome

/-- Apply a theorem; its premises are conditions on public data, or further goals `SameTr`. -/
def applyThm (g : MVarId) (n : Name) : TacticM (List MVarId) := do
  let gs ← g.apply (← mkConstWithFreshMVarLevels n) { newGoals := .all, allowSynthFailures := true }
  let mut rest := #[]
  for g in gs do
    if ← g.isAssigned then continue
    let t ← instantiateMVars (← g.getType)
    if (← g.withContext (isProp t)) then
      if isTraceGoal t then rest := rest.push g
      else solve g side
    else
      -- instances or values, to be assigned by unification
      pure ()
  return rest.toList

/-- The theorem on a function. -/
def callThm (g : MVarId) (n : Name) : TacticM (List MVarId) := do
  let env ← getEnv
  let ctName := n.modifyBase fun b => match b with
    | .str p s => .str p (s ++ "_ct")
    | b => b
  let quietName := match n with
    | .str _ s => (.str `Cmpa ("quiet_" ++ s) : Name)
    | b => b
  if env.contains ctName then
    applyThm g ctName
  else if env.contains quietName then
    let gs ← g.apply (← mkConstWithFreshMVarLevels ``M.Ct.quiet)
    let mut i := 0
    for h in gs do
      if i < 2 then
        let r ← h.apply (← mkConstWithFreshMVarLevels quietName)
        unless r.isEmpty do throwError "ct: quiet"
      else
        solve h (do evalTactic (← `(tactic| (intro _ _; repeat' (first | trivial | constructor)))))
      i := i + 1
    return []
  else
    throwError "ct: no theorem on {n}"

/-- A goal: whether it is about successful runs only, the arguments, and the positions of the two
computations among them. -/
structure Goal where
  ok : Bool
  args : Array Expr

def Goal.m (t : Goal) : Expr := t.args[if t.ok then 4 else 3]!
def Goal.n (t : Goal) : Expr := t.args[if t.ok then 5 else 4]!
def Goal.expr (t : Goal) (m n : Expr) : Expr :=
  let i := if t.ok then 4 else 3
  mkAppN (.const (if t.ok then ``M.CtOk else ``M.SameTr) []) ((t.args.set! i m).set! (i + 1) n)

/-- The two computations. -/
def parts (g : MVarId) : MetaM Goal := g.withContext do
  let t ← whnfR (← instantiateMVars (← g.getType))
  if t.isAppOfArity ``M.SameTr 6 then return ⟨false, t.getAppArgs⟩
  else if t.isAppOfArity ``M.CtOk 6 then return ⟨true, t.getAppArgs⟩
  else throwError "ct: not a goal SameTr: {t}"

def setParts (g : MVarId) (m n : Expr) : MetaM MVarId := g.withContext do
  g.replaceTargetDefEq ((← parts g).expr m n)

/-- Does the theorem on a function deal with successful runs only? -/
def isOkThm (n : Name) (p : Name := ``M.CtOk) : MetaM Bool := do
  let ctName := n.modifyBase fun b => match b with
    | .str p s => .str p (s ++ "_ct")
    | b => b
  match (← getEnv).find? ctName with
  | some c => return concl c.type
  | none => return false
where
  concl : Expr → Bool
  | .forallE _ _ b _ => concl b
  | .mdata _ e => concl e
  | e => e.isAppOf p

/-- Is this `pure (.error e)`? -/
def isErr (e : Expr) : Bool := e.isAppOf ``Pure.pure && e.appArg!.isAppOf ``Except.error

def noOk : TacticM Unit := do evalTactic (← `(tactic| (intro e; first
  | rfl
  | (cases e <;> rfl)
  | (intro x h; simp at h; done)
  | (intro x h; cases e <;> simp at h; done)
  | (intro x h; cases e <;> first | (simp at h; done) | (exact nomatch h)))))

def noSome : TacticM Unit := do evalTactic (← `(tactic| first
  | rfl
  | (intro x h; cases h; done)
  | (intro x h; simp at h; done)))

mutual

/-- One step; returns the goals left. -/
partial def step (g : MVarId) : TacticM (List MVarId) := g.withContext do
  -- premises
  let ty ← instantiateMVars (← g.getType)
  if ty.isForall then
    let (xs, g) ← g.intros
    let mut g := g
    for x in xs.reverse do
      g ← splitPair g x
    return [g]
  let t ← parts g
  let m := t.m.consumeMData.headBeta
  let n := t.n.consumeMData.headBeta
  -- local definitions
  match m, n with
  | .letE x ty v b _, .letE _ ty' v' b' _ =>
    return ← letStep g x ty v b ty' v' b' t
  | _, _ => pure ()
  if ← isMatch m then
    let m' ← whnfCore m
    let n' ← whnfCore n
    if !(← isMatch m') || !(← isMatch n') then
      return [← setParts g m' n']
    return ← matchStep g m' n'
  match headName m with
  | some ``Bind.bind => bindStep (← setParts g m n) m n
  | some ``M.cond =>
    if t.ok then
      if isErr m.appFn!.appArg! then applyThm g ``M.CtOk.condErr1
      else if isErr m.appArg! then applyThm g ``M.CtOk.condErr2
      else applyThm g ``M.CtOk.cond >>= introAll 1
    else applyThm g ``M.SameTr.cond >>= introAll 1
  | some ``ite => applyThm g (if t.ok then ``M.CtOk.ite else ``M.SameTr.ite) >>= introAll 1
  | some ``Pure.pure => do
    if isErr m && t.ok then applyThm g ``M.CtOk.err
    else applyThm g (if t.ok then ``M.CtOk.pure else ``M.SameTr.pure)
  | some ``M.panic => applyThm g (if t.ok then ``M.CtOk.panicL else ``M.SameTr.panicL)
  | some ``M.sub => applyThm g ``M.SameTr.subAny
  | some ``M.addL => applyThm g ``M.SameTr.addL
  | some ``M.mulL => applyThm g ``M.SameTr.mulL
  | some ``M.debugPanic =>
    applyThm g (if t.ok then ``M.CtOk.debugPanicL else ``M.SameTr.debugPanicL)
  | some ``M.assert => applyThm g ``M.SameTr.assert
  | some ``M.check => applyThm g ``M.SameTr.check
  | some ``M.assertM => applyThm g ``M.SameTr.assertM
  | some ``M.forRange => do
    let gs ← applyThm g ``M.SameTr.forRangeLow
    gs.filterMapM fun g => do
      let (_, g) ← (← forallGoal g).introN 1
      let (xs, g) ← g.introN 4
      -- order: s t (lo ≤ i) (i < hi)
      let _ := xs
      let (_, g) ← g.revert (xs.extract 2 4)
      let (ys, g) ← g.introN 2
      let g ← g.tryClearMany ys
      let (_, g) ← g.revert (xs.extract 0 2)
      introPair g
  | some ``M.forDown => do
    let gs ← applyThm g ``M.SameTr.forDownLow
    gs.filterMapM fun g => do
      let (_, g) ← (← forallGoal g).introN 1
      let (xs, g) ← g.introN 3
      let (_, g) ← g.revert #[xs[2]!]
      let (ys, g) ← g.introN 1
      let g ← g.tryClearMany ys
      let (_, g) ← g.revert (xs.extract 0 2)
      introPair g
  | some ``M.forDownE => do
    let gs ← applyThm g ``M.CtOk.forDownE
    gs.filterMapM fun g => do
      let (_, g) ← g.introN 1
      let (xs, g) ← g.introN 3
      let g ← g.tryClear xs[2]!
      let (_, g) ← g.revert (xs.extract 0 2)
      introPair g
  | some ``M.bindE => do
    let gs ← applyThm g (if t.ok then ``M.CtOk.bindE else ``M.SameTr.bindE)
    match gs with
    | [g1, g2] =>
      match ← introPair g2 with
      | some g2 => return [g1, g2]
      | none => return [g1]
    | gs => return gs
  | some c => callThm g c
  | none => throwError "ct: stuck at {m}"

/-- Premises which are implications. -/
partial def introAll (k : ℕ) (gs : List MVarId) : TacticM (List MVarId) :=
  gs.mapM fun g => do return (← g.introN k).2

partial def forallGoal (g : MVarId) : MetaM MVarId := return g

/-- A local definition: public if it can be shown to be the same in both runs. -/
partial def letStep (g : MVarId) (x : Name) (t v b t' v' b' : Expr) (gl : Goal) :
    TacticM (List MVarId) := g.withContext do
  let mk (m n : Expr) : Expr := gl.expr m n
  let same ← (do
    if ← withReducible (isDefEq v v') then return true
    unless ← isDefEq t t' do return false
    let tw ← whnfR t
    unless tw.isConstOf ``Nat do return false
    let s ← saveState
    try
      let p ← mkFreshExprMVar (← mkEq v v')
      solve p.mvarId! side
      return true
    catch _ =>
      s.restore
      return false)
  if same then
    -- the same value in both runs
    let eq ← if ← withReducible (isDefEq v v') then mkEqRefl v else do
      let p ← mkFreshExprMVar (← mkEq v v')
      solve p.mvarId! side
      instantiateMVars p
    -- ∀ x, SameTr (b x) (b' x) R
    let ty ← withLocalDeclD x t fun xv => do mkForallFVars #[xv] (mk (b.instantiate1 xv) (b'.instantiate1 xv))
    let h ← mkFreshExprSyntheticOpaqueMVar ty
    -- motive
    let motive ← withLocalDeclD x t fun xv => do
      mkLambdaFVars #[xv] (mk (b.instantiate1 v) (b'.instantiate1 xv))
    let pf ← mkAppOptM ``Eq.subst #[t, motive, v, v', eq, Expr.app h v]
    g.assign pf
    let (_, g) ← h.mvarId!.intro1P
    return [g]
  else
    -- the public parts may be the same
    let low? ← (do
      let tw ← whnfR t
      if tw.isConstOf ``Nat || tw.isConstOf ``LimbChoice then return none
      let s ← saveState
      try
        let p ← mkFreshExprMVar (← mkAppM ``Pub.rel #[v, v'])
        solve p.mvarId! side
        return some (← instantiateMVars p)
      catch _ =>
        s.restore
        return none)
    if let some p := low? then
      let ty ← withLocalDeclD x t fun xv => withLocalDeclD (x.appendAfter "'") t' fun xv' => do
        let prem ← mkAppM ``Pub.rel #[xv, xv']
        mkForallFVars #[xv, xv'] (← mkArrow prem (mk (b.instantiate1 xv) (b'.instantiate1 xv')))
      let h ← mkFreshExprSyntheticOpaqueMVar ty
      g.assign (mkApp3 h v v' p)
      let (_, g) ← h.mvarId!.introNP 2
      match ← splitHyps 1 g with
      | some g => return [g]
      | none => return []
    let ty ← withLocalDeclD x t fun xv => withLocalDeclD (x.appendAfter "'") t' fun xv' => do
      mkForallFVars #[xv, xv'] (mk (b.instantiate1 xv) (b'.instantiate1 xv'))
    let h ← mkFreshExprSyntheticOpaqueMVar ty
    g.assign (mkApp2 h v v')
    let (_, g) ← h.mvarId!.introNP 2
    return [g]

/-- A `match`: on a secret pair, or on a result known to be related. -/
partial def matchStep (g : MVarId) (m n : Expr) : TacticM (List MVarId) := g.withContext do
  let some app ← matchMatcherApp? m | throwError "ct: match"
  let some app' ← matchMatcherApp? n | throwError "ct: match"
  let d := app.discrs[0]!
  let d' := app'.discrs[0]!
  let t ← whnfR (← inferType d)
  if t.isAppOf ``Prod then
    -- secret pairs
    let g ← setParts g m n
    let (xs, g) ← g.generalize #[{ expr := d, xName? := some `p }]
    let g ← splitPair g xs[0]!
    g.withContext do
    let gl ← parts g
    let n := gl.n
    let m ← whnfCore gl.m
    let g ← setParts g m n
    if ← isMatch n then
      let some app' ← matchMatcherApp? n | throwError "ct: match"
      let d' := app'.discrs[0]!
      let (xs, g) ← g.generalize #[{ expr := d', xName? := some `p' }]
      let g ← splitPair g xs[0]!
      g.withContext do
      let gl ← parts g
      return [← setParts g gl.m (← whnfCore gl.n)]
    else return [g]
  else if d.isFVar && d'.isFVar then
    let ss ← g.cases d.fvarId!
    let mut res := #[]
    for s in ss do
      let ss' ← s.mvarId.cases d'.fvarId!
      for s' in ss' do
        -- simplify the hypotheses
        let decls ← s'.mvarId.withContext do
          (← getLCtx).decls.toArray.filterMapM fun d? => do
            let some d := d? | return none
            if d.isImplementationDetail then return none
            if (← instantiateMVars d.type).isAppOf ``Pub.rel then return some d.fvarId else return none
        let (hs, g1) ← s'.mvarId.revert decls
        let gg ← splitHyps hs.size g1
        if let some g1 := gg then
          res := res.push g1
    return res.toList
  else throwError "ct: match on {d}"

/-- A sequence. -/
partial def bindStep (g : MVarId) (m n : Expr) : TacticM (List MVarId) := g.withContext do
  let a := m.appFn!.appArg!
  let a' := n.appFn!.appArg!
  let a := a.consumeMData.headBeta
  -- a branch
  match headName a with
  | some ``M.branch =>
    return ← applyThm g ``M.SameTr.branchIf >>= introAll 1
  | _ => pure ()
  let _ := a'
  let gl ← parts g
  -- a function which may return an error, where the error is not taken any further
  if let some c := headName a then
    if ← isOkThm c then
      let gs ← g.apply (← mkConstWithFreshMVarLevels (if gl.ok then ``M.CtOk.bindOk else ``M.SameTr.bindOk))
      let [g1, g2, g3, g4] := gs.take 4 | throwError "ct: bindOk"
      let rest ← callThm g1 c
      solve g2 noOk
      solve g3 noOk
      match ← introPair g4 with
      | some g4 => return rest ++ [g4]
      | none => return rest
    if ← isOkThm c ``M.CtSome then
      let gs ← g.apply (← mkConstWithFreshMVarLevels (if gl.ok then ``M.CtOk.bindSome else ``M.SameTr.bindSome))
      let [g1, g2, g3, g4] := gs.take 4 | throwError "ct: bindSome"
      let rest ← callThm g1 c
      solve g2 noSome
      solve g3 noSome
      match ← introPair g4 with
      | some g4 => return rest ++ [g4]
      | none => return rest
  let gs ← g.apply (← mkConstWithFreshMVarLevels (if gl.ok then ``M.CtOk.bind else ``M.SameTr.bind))
  let [g1, g2] := gs.take 2 | throwError "ct: bind"
  let alt (n : Name) : TacticM (List MVarId) := do
    let r ← applyThm g1 n
    return r
  let rest ← match headName a with
    | some ``M.assert => alt ``M.SameTr.assert
    | some ``M.check => alt ``M.SameTr.check
    | some ``M.assertM => alt ``M.SameTr.assertM
    | some ``M.addL => alt ``M.SameTr.addL
    | some ``M.mulL => alt ``M.SameTr.mulL
    | some ``M.sub => do
      let s ← saveState
      try alt ``M.SameTr.subEq
      catch _ =>
        s.restore
        alt ``M.SameTr.subAny
    | some ``M.emit => alt ``M.SameTr.emit
    | some ``Pure.pure | some ``Bind.bind | some ``M.cond | some ``M.forRange | some ``M.forDown | some ``ite
    | some ``M.bindE =>
      lowRel g1
      pure [g1]
    | some c =>
      if ← isMatch a then
        lowRel g1
        pure [g1]
      else
        callThm g1 c
    | none =>
      lowRel g1
      pure [g1]
  match ← introPair g2 with
  | some g2 => return rest ++ [g2]
  | none => return rest

/-- Use the relation `Pub.rel` between the results of the first parts. -/
partial def lowRel (g : MVarId) : TacticM Unit := g.withContext do
  let gl ← parts g
  let α := gl.args[0]!
  let R := gl.args[5]!
  let inst ← synthInstance (← mkAppM ``Pub #[α])
  let r := mkApp2 (.const ``Pub.rel []) α inst
  unless ← isDefEq R r do throwError "ct: relation"

end

end CtTactic

/-- One step of `ct`. -/
elab "ct_step" : tactic => do
  let g ← getMainGoal
  let rest := (← getGoals).tail!
  let gs ← CtTactic.step g
  setGoals (gs ++ rest)

/-- Two runs of the same code leave the same events. -/
macro "ct" : tactic => `(tactic| repeat' ct_step)

end Cmpa
