import Verif.Base.Cfg

/-!
# The execution monad

`M α` is a computation which either panics or returns an `α`, and which in both
cases leaves a list of observable events behind: the branches taken, and the limb
positions of buffers read or written.  Events model what the library means by
"constant time": see `/repo/src/limb/mod.rs` and the doc comments "Runs in constant
time ...".

A computation describes two kinds of builds at once.  `val` and `tr` are the result and the events
of a debug build, whose panics are out-of-bounds accesses, failed assertions, failed
`debug_assert!`s and arithmetic overflow.  `rel` and `rtr` are those of a release build, in which
there are no `debug_assert!`s, and additions and multiplications of limbs and the distances of
shifts wrap around.  Subtractions are the exception: if one of them underflows, then `rel` is `none`
as well.  So `rel = none` reads "panics or underflows", and nothing is concluded from it.

The field `coh` is a proof that both builds agree whenever the debug build does not panic.  It is
available for every program written with the operations below.
-/

namespace Cmpa

deriving instance DecidableEq for Except

/-- Observable events. -/
inductive Ev where
  /-- a branch with the given outcome -/
  | branch (b : Bool)
  /-- limb `i` of a buffer of `len` bytes is read -/
  | load (len i : ℕ)
  /-- limb `i` of a buffer of `len` bytes is written -/
  | store (len i : ℕ)
  /-- a range of a buffer of `len` bytes is filled or split at byte `pos` -/
  | range (len pos : ℕ)
  /-- one more loop iteration -/
  | iter
  deriving DecidableEq, Repr

/-- Computations: optional result (`none` = panic) and events, for a debug and a release build. -/
@[ext] structure M (α : Type) where
  /-- the result in a debug build -/
  val : Option α
  /-- the events in a debug build -/
  tr : List Ev
  /-- the result in a release build -/
  rel : Option α
  /-- the events in a release build -/
  rtr : List Ev
  /-- the builds agree if the debug build does not panic -/
  coh : ∀ a, val = some a → rel = some a ∧ rtr = tr

namespace M

variable {α β γ σ τ : Type}

/-- A result along with events, in both kinds of builds. -/
@[reducible] def ok (a : α) (t : List Ev) : M α :=
  ⟨some a, t, some a, t, fun _ h => ⟨h, rfl⟩⟩

/-- A panic in both kinds of builds. -/
def panic : M α := ⟨none, [], none, [], fun _ h => by cases h⟩

/-- A panic in a debug build, the result `a` in a release build. -/
def debugPanic (a : α) : M α := ⟨none, [], some a, [], fun _ h => by cases h⟩

@[reducible] protected def pure (a : α) : M α := ok a []

/-- The result of `f` on the result `o`. -/
def bindVal (o : Option α) (f : α → Option β) : Option β :=
  match o with
  | none => none
  | some a => f a

/-- The events `t` followed by those of `f` on the result `o`. -/
def bindTr (o : Option α) (t : List Ev) (f : α → List Ev) : List Ev :=
  match o with
  | none => t
  | some a => t ++ f a

protected def bind (m : M α) (f : α → M β) : M β where
  val := bindVal m.val fun a => (f a).val
  tr := bindTr m.val m.tr fun a => (f a).tr
  rel := bindVal m.rel fun a => (f a).rel
  rtr := bindTr m.rel m.rtr fun a => (f a).rtr
  coh b hb := by
    cases h : m.val with
    | none => rw [h] at hb; cases hb
    | some a =>
      rw [h] at hb
      obtain ⟨h1, h2⟩ := m.coh a h
      obtain ⟨h3, h4⟩ := (f a).coh b hb
      rw [h1, h2]
      exact ⟨h3, congrArg (m.tr ++ ·) h4⟩

instance : Monad M where
  pure := M.pure
  bind := M.bind

/-- `debug_assert!`. -/
def assert (c : Prop) [Decidable c] : M Unit := if c then ok () [] else debugPanic ()

/-- `assert!`, and the checks of the bounds of an array. -/
def check (c : Prop) [Decidable c] : M Unit := if c then ok () [] else panic

/-- A `debug_assert!` on the outcome of a computation; its own events do not count,
they are not there in a release build. -/
def assertM (m : M Bool) : M Unit :=
  match m.val with
  | some true => ok () []
  | _ => debugPanic ()

/-- A branch on `c`. -/
def branch (c : Prop) [Decidable c] : M Bool := ok (decide c) [.branch (decide c)]

/-- `if c { t } else { e }` -/
def cond (c : Prop) [Decidable c] (t e : M α) : M α :=
  M.bind (branch c) fun b => if b then t else e

/-- `Option::unwrap`. -/
def ofOption : Option α → M α
  | some a => ok a []
  | none => panic

/-- A single observable event. -/
def emit (e : Ev) : M Unit := ok () [e]

/-- Subtraction of `usize`s or limbs (underflow panics; see above for release builds). -/
def sub (a b : ℕ) : M ℕ := if b ≤ a then ok (a - b) [] else panic

/-- Limb addition (overflow panics in a debug build). -/
def addL [LimbCfg] (a b : ℕ) : M ℕ := if a + b < B then ok (a + b) [] else debugPanic ((a + b) % B)

/-- Limb multiplication (overflow panics in a debug build). -/
def mulL [LimbCfg] (a b : ℕ) : M ℕ := if a * b < B then ok (a * b) [] else debugPanic (a * b % B)

/-- Iterate `n` times, with the counter running from `lo` upwards. -/
def loopUp : (n lo : ℕ) → σ → (ℕ → σ → M σ) → M σ
  | 0, _, s, _ => pure s
  | n + 1, lo, s, f => do
    emit .iter
    let s' ← f lo s
    loopUp n (lo + 1) s' f

/-- `for i in lo..hi`. -/
def forRange (lo hi : ℕ) (s : σ) (f : ℕ → σ → M σ) : M σ := loopUp (hi - lo) lo s f

/-- `i = hi; while i > 0 { i -= 1; ... }`. -/
def forDown : (hi : ℕ) → σ → (ℕ → σ → M σ) → M σ
  | 0, s, _ => pure s
  | n + 1, s, f => do
    emit .iter
    let s' ← f n s
    forDown n s' f

/-- `m` does not panic and its result satisfies `P`. -/
def Sat (m : M α) (P : α → Prop) : Prop := ∃ a, m.val = some a ∧ P a

@[simp] theorem pure_val (a : α) : (pure a : M α).val = some a := rfl
@[simp] theorem pure_tr (a : α) : (pure a : M α).tr = [] := rfl
@[simp] theorem panic_val : (panic : M α).val = none := rfl
@[simp] theorem panic_tr : (panic : M α).tr = [] := rfl
@[simp] theorem debugPanic_val (a : α) : (debugPanic a).val = none := rfl
@[simp] theorem debugPanic_tr (a : α) : (debugPanic a).tr = [] := rfl
@[simp] theorem debugPanic_rel (a : α) : (debugPanic a).rel = some a := rfl
@[simp] theorem pure_rel (a : α) : (pure a : M α).rel = some a := rfl
@[simp] theorem pure_rtr (a : α) : (pure a : M α).rtr = [] := rfl

theorem bind_val (m : M α) (f : α → M β) :
    (m >>= f).val = m.val.bind (fun a => (f a).val) := by
  show bindVal m.val _ = _
  cases m.val <;> rfl

theorem bind_rel (m : M α) (f : α → M β) :
    (m >>= f).rel = m.rel.bind (fun a => (f a).rel) := by
  show bindVal m.rel _ = _
  cases m.rel <;> rfl

@[simp] theorem pure_bind (a : α) (f : α → M β) : (pure a >>= f) = f a := by
  show M.bind (M.pure a) f = f a
  ext1 <;> simp [M.bind, bindVal, bindTr]

@[simp] theorem mk_bind (a : α) (f : α → M β) : ((ok a [] : M α) >>= f) = f a :=
  pure_bind a f

@[simp] theorem bind_pure (m : M α) : (m >>= fun a => pure a) = m := by
  show M.bind m _ = m
  rcases m with ⟨_ | a, t, _ | a', t', h⟩ <;> ext1 <;> simp [M.bind, bindVal, bindTr]

@[simp] theorem bind_assoc (m : M α) (f : α → M β) (g : β → M γ) :
    ((m >>= f) >>= g) = (m >>= fun a => f a >>= g) := by
  show M.bind (M.bind m f) g = M.bind m (fun a => M.bind (f a) g)
  have hv : ∀ (o : Option α) (u : α → Option β) (v : β → Option γ),
      bindVal (bindVal o u) v = bindVal o fun a => bindVal (u a) v := by
    intro o u v; cases o <;> rfl
  have ht : ∀ (o : Option α) (t : List Ev) (u : α → Option β) (t' : α → List Ev)
      (t'' : β → List Ev), bindTr (bindVal o u) (bindTr o t t') t'' =
        bindTr o t fun a => bindTr (u a) (t' a) t'' := by
    intro o t u t' t''
    cases o with
    | none => rfl
    | some a =>
      show bindTr (u a) (t ++ t' a) t'' = t ++ bindTr (u a) (t' a) t''
      cases u a <;> simp [bindTr]
  ext1
  · exact hv _ _ _
  · exact ht _ _ _ _ _
  · exact hv _ _ _
  · exact ht _ _ _ _ _

theorem Sat.bind {m : M α} {f : α → M β} {P : α → Prop} {Q : β → Prop}
    (hm : Sat m P) (hf : ∀ a, P a → Sat (f a) Q) : Sat (m >>= f) Q := by
  obtain ⟨a, ha, hp⟩ := hm
  obtain ⟨b, hb, hq⟩ := hf a hp
  exact ⟨b, by rw [bind_val, ha]; exact hb, hq⟩

theorem sat_bind_iff {m : M α} {f : α → M β} {Q : β → Prop} :
    Sat (m >>= f) Q ↔ Sat m (fun a => Sat (f a) Q) := by
  constructor
  · rintro ⟨b, hb, hq⟩
    rw [bind_val] at hb
    cases h : m.val with
    | none => simp [h] at hb
    | some a => exact ⟨a, h, b, by simpa [h] using hb, hq⟩
  · intro h; exact h.bind (fun _ h => h)

theorem Sat.mono {m : M α} {P Q : α → Prop} (hm : Sat m P) (h : ∀ a, P a → Q a) : Sat m Q := by
  obtain ⟨a, ha, hp⟩ := hm; exact ⟨a, ha, h a hp⟩

theorem Sat.and {m : M α} {P Q : α → Prop} (h1 : Sat m P) (h2 : Sat m Q) :
    Sat m (fun a => P a ∧ Q a) := by
  obtain ⟨a, ha, hp⟩ := h1; obtain ⟨b, hb, hq⟩ := h2
  rw [ha] at hb; cases hb; exact ⟨a, ha, hp, hq⟩

@[simp] theorem sat_pure {a : α} {P : α → Prop} : Sat (pure a) P ↔ P a := by
  constructor
  · rintro ⟨b, hb, hp⟩
    simp at hb; exact hb ▸ hp
  · intro h; exact ⟨a, rfl, h⟩

@[simp] theorem sat_mk {a : α} {t : List Ev} {P : α → Prop} : Sat (ok a t) P ↔ P a := by
  constructor
  · rintro ⟨b, hb, hp⟩
    simp at hb; exact hb ▸ hp
  · intro h; exact ⟨a, rfl, h⟩

theorem Sat.pure {a : α} {P : α → Prop} (h : P a) : Sat (Pure.pure a) P := sat_pure.2 h

theorem Sat.assert {c : Prop} [Decidable c] {P : Unit → Prop} (h : c) (hp : P ()) :
    Sat (M.assert c) P := by
  unfold M.assert; rw [if_pos h]; exact ⟨(), rfl, hp⟩

theorem assert_eq {c : Prop} [Decidable c] (h : c) : M.assert c = Pure.pure () := by
  unfold M.assert; rw [if_pos h]; rfl

theorem Sat.check {c : Prop} [Decidable c] {P : Unit → Prop} (h : c) (hp : P ()) :
    Sat (M.check c) P := by
  unfold M.check; rw [if_pos h]; exact ⟨(), rfl, hp⟩

theorem check_eq {c : Prop} [Decidable c] (h : c) : M.check c = Pure.pure () := by
  unfold M.check; rw [if_pos h]; rfl

theorem assertM_eq {m : M Bool} (h : Sat m (fun b => b = true)) : assertM m = Pure.pure () := by
  obtain ⟨a, ha, rfl⟩ := h
  unfold assertM; rw [ha]; rfl

theorem Sat.branch {c : Prop} [Decidable c] {P : Bool → Prop} (h : P (decide c)) :
    Sat (M.branch c) P := ⟨_, rfl, h⟩

theorem sat_branch_bind {c : Prop} [Decidable c] {f : Bool → M β} {Q : β → Prop} :
    Sat (M.branch c >>= f) Q ↔ Sat (f (decide c)) Q := by
  rw [sat_bind_iff]; exact sat_mk

theorem Sat.cond {c : Prop} [Decidable c] {t e : M α} {Q : α → Prop}
    (ht : c → Sat t Q) (he : ¬ c → Sat e Q) : Sat (M.cond c t e) Q := by
  show Sat (M.branch c >>= fun b => if b then t else e) Q
  rw [sat_branch_bind]
  by_cases h : c
  · simp only [h, decide_true, if_true]; exact ht h
  · simp only [h, decide_false, Bool.false_eq_true, if_false]; exact he h

theorem sat_cond_iff {c : Prop} [Decidable c] {t e : M α} {Q : α → Prop} :
    Sat (M.cond c t e) Q ↔ if c then Sat t Q else Sat e Q := by
  show Sat (M.branch c >>= fun b => if b then t else e) Q ↔ _
  rw [sat_branch_bind]
  by_cases h : c <;> simp [h]

theorem Sat.emit {e : Ev} {P : Unit → Prop} (h : P ()) : Sat (M.emit e) P := ⟨_, rfl, h⟩

theorem sub_eq {a b : ℕ} (h : b ≤ a) : M.sub a b = Pure.pure (a - b) := by
  unfold M.sub; rw [if_pos h]; rfl

theorem addL_eq [LimbCfg] {a b : ℕ} (h : a + b < B) : M.addL a b = Pure.pure (a + b) := by
  unfold M.addL; rw [if_pos h]; rfl

theorem mulL_eq [LimbCfg] {a b : ℕ} (h : a * b < B) : M.mulL a b = Pure.pure (a * b) := by
  unfold M.mulL; rw [if_pos h]; rfl

theorem Sat.loopUp {f : ℕ → σ → M σ} {P : ℕ → σ → Prop} :
    ∀ {n lo : ℕ} {s : σ}, P lo s →
      (∀ i s, lo ≤ i → i < lo + n → P i s → Sat (f i s) (P (i + 1))) →
      Sat (M.loopUp n lo s f) (P (lo + n))
  | 0, lo, s, h0, _ => by simpa [M.loopUp] using h0
  | n + 1, lo, s, h0, hs => by
    unfold M.loopUp
    refine Sat.bind (P := fun _ => True) (Sat.emit trivial) fun _ _ => ?_
    refine Sat.bind (hs lo s le_rfl (by omega) h0) fun s' h' => ?_
    have := Sat.loopUp (n := n) (lo := lo + 1) (s := s') h'
      (fun i s h1 h2 => hs i s (by omega) (by omega))
    rwa [show lo + 1 + n = lo + (n + 1) by omega] at this

/-- Invariant rule for `for i in lo..hi`. -/
theorem Sat.forRange {f : ℕ → σ → M σ} (P : ℕ → σ → Prop) {lo hi : ℕ} {s : σ}
    (hle : lo ≤ hi) (h0 : P lo s)
    (hs : ∀ i s, lo ≤ i → i < hi → P i s → Sat (f i s) (P (i + 1))) :
    Sat (M.forRange lo hi s f) (P hi) := by
  unfold M.forRange
  have := Sat.loopUp (n := hi - lo) h0 (fun i s h1 h2 => hs i s h1 (by omega))
  rwa [show lo + (hi - lo) = hi by omega] at this

/-- Invariant rule for `while i > 0 { i -= 1; ... }`. -/
theorem Sat.forDown {f : ℕ → σ → M σ} (P : ℕ → σ → Prop) :
    ∀ {hi : ℕ} {s : σ}, P hi s →
      (∀ i s, i < hi → P (i + 1) s → Sat (f i s) (P i)) →
      Sat (M.forDown hi s f) (P 0)
  | 0, s, h0, _ => by simpa [M.forDown] using h0
  | n + 1, s, h0, hs => by
    unfold M.forDown
    refine Sat.bind (P := fun _ => True) (Sat.emit trivial) fun _ _ => ?_
    refine Sat.bind (hs n s (by omega) h0) fun s' h' => ?_
    exact Sat.forDown P h' (fun i s h1 => hs i s (by omega))

/-! ### Release builds -/

/-- `m` does not panic in a release build and its result satisfies `P`. -/
def RSat (m : M α) (P : α → Prop) : Prop := ∃ a, m.rel = some a ∧ P a

/-- What holds of a debug build that does not panic holds of the release build. -/
theorem Sat.rel {m : M α} {P : α → Prop} (h : Sat m P) : RSat m P := by
  obtain ⟨a, ha, hp⟩ := h
  exact ⟨a, (m.coh a ha).1, hp⟩

theorem RSat.bind {m : M α} {f : α → M β} {P : α → Prop} {Q : β → Prop}
    (hm : RSat m P) (hf : ∀ a, P a → RSat (f a) Q) : RSat (m >>= f) Q := by
  obtain ⟨a, ha, hp⟩ := hm
  obtain ⟨b, hb, hq⟩ := hf a hp
  exact ⟨b, by rw [bind_rel, ha]; exact hb, hq⟩

theorem RSat.mono {m : M α} {P Q : α → Prop} (hm : RSat m P) (h : ∀ a, P a → Q a) : RSat m Q := by
  obtain ⟨a, ha, hp⟩ := hm; exact ⟨a, ha, h a hp⟩

theorem RSat.pure {a : α} {P : α → Prop} (h : P a) : RSat (Pure.pure a) P := ⟨a, rfl, h⟩

theorem RSat.assert {c : Prop} [Decidable c] {P : Unit → Prop} (hp : P ()) :
    RSat (M.assert c) P := by
  refine ⟨(), ?_, hp⟩
  unfold M.assert; split <;> rfl

theorem RSat.assertM {m : M Bool} {P : Unit → Prop} (hp : P ()) : RSat (M.assertM m) P := by
  refine ⟨(), ?_, hp⟩
  unfold M.assertM; split <;> rfl

theorem RSat.cond {c : Prop} [Decidable c] {t e : M α} {Q : α → Prop}
    (ht : c → RSat t Q) (he : ¬ c → RSat e Q) : RSat (M.cond c t e) Q := by
  show RSat (M.branch c >>= fun b => if b then t else e) Q
  refine RSat.bind (P := fun b => b = decide c) ⟨_, rfl, rfl⟩ fun b hb => ?_
  subst hb
  by_cases h : c
  · simp only [h, decide_true, if_true]; exact ht h
  · simp only [h, decide_false, Bool.false_eq_true, if_false]; exact he h

theorem RSat.loopUp {f : ℕ → σ → M σ} {P : ℕ → σ → Prop} :
    ∀ {n lo : ℕ} {s : σ}, P lo s →
      (∀ i s, lo ≤ i → i < lo + n → P i s → RSat (f i s) (P (i + 1))) →
      RSat (M.loopUp n lo s f) (P (lo + n))
  | 0, lo, s, h0, _ => RSat.pure h0
  | n + 1, lo, s, h0, hs => by
    unfold M.loopUp
    refine RSat.bind (P := fun _ => True) ⟨_, rfl, trivial⟩ fun _ _ => ?_
    refine RSat.bind (hs lo s le_rfl (by omega) h0) fun s' h' => ?_
    have := RSat.loopUp (n := n) (lo := lo + 1) (s := s') h'
      (fun i s h1 h2 => hs i s (by omega) (by omega))
    rwa [show lo + 1 + n = lo + (n + 1) by omega] at this

theorem RSat.forRange {f : ℕ → σ → M σ} (P : ℕ → σ → Prop) {lo hi : ℕ} {s : σ}
    (hle : lo ≤ hi) (h0 : P lo s)
    (hs : ∀ i s, lo ≤ i → i < hi → P i s → RSat (f i s) (P (i + 1))) :
    RSat (M.forRange lo hi s f) (P hi) := by
  unfold M.forRange
  have := RSat.loopUp (n := hi - lo) h0 (fun i s h1 h2 => hs i s h1 (by omega))
  rwa [show lo + (hi - lo) = hi by omega] at this

theorem RSat.forDown {f : ℕ → σ → M σ} (P : ℕ → σ → Prop) :
    ∀ {hi : ℕ} {s : σ}, P hi s →
      (∀ i s, i < hi → P (i + 1) s → RSat (f i s) (P i)) →
      RSat (M.forDown hi s f) (P 0)
  | 0, s, h0, _ => RSat.pure h0
  | n + 1, s, h0, hs => by
    unfold M.forDown
    refine RSat.bind (P := fun _ => True) ⟨_, rfl, trivial⟩ fun _ _ => ?_
    refine RSat.bind (hs n s (by omega) h0) fun s' h' => ?_
    exact RSat.forDown P h' (fun i s h1 => hs i s (by omega))

/-! ### Partial correctness and silent computations -/

/-- If `m` does not panic, its result satisfies `P`. -/
def Post (m : M α) (P : α → Prop) : Prop := ∀ a, m.val = some a → P a

theorem Post.bind {m : M α} {f : α → M β} {P : α → Prop} {Q : β → Prop}
    (hm : Post m P) (hf : ∀ a, P a → Post (f a) Q) : Post (m >>= f) Q := by
  intro b hb
  rw [bind_val] at hb
  cases h : m.val with
  | none => simp [h] at hb
  | some a => exact hf a (hm a h) b (by simpa [h] using hb)

theorem Post.pure {a : α} {P : α → Prop} (h : P a) : Post (Pure.pure a) P := by
  intro b hb; simp at hb; exact hb ▸ h

theorem Post.mono {m : M α} {P Q : α → Prop} (hm : Post m P) (h : ∀ a, P a → Q a) : Post m Q :=
  fun a ha => h a (hm a ha)

theorem Post.trivial {m : M α} : Post m (fun _ => True) := fun _ _ => True.intro

theorem Post.ite {c : Prop} [Decidable c] {t e : M α} {P : α → Prop} (ht : Post t P)
    (he : Post e P) : Post (if c then t else e) P := by split <;> assumption

/-- `m` leaves no events. -/
def Quiet (m : M α) : Prop := m.tr = []

theorem Quiet.bind {m : M α} {f : α → M β} (hm : Quiet m) (hf : ∀ a, Quiet (f a)) :
    Quiet (m >>= f) := by
  show bindTr m.val m.tr _ = []
  cases h : m.val with
  | none => exact hm
  | some a =>
    have h1 : m.tr = [] := hm
    have h2 : (f a).tr = [] := hf a
    simp [bindTr, h1, h2]

theorem Quiet.pure {a : α} : Quiet (Pure.pure a : M α) := rfl
theorem Quiet.panic : Quiet (M.panic : M α) := rfl
theorem Quiet.assert {c : Prop} [Decidable c] : Quiet (M.assert c) := by
  unfold M.assert Quiet; split <;> rfl
theorem Quiet.check {c : Prop} [Decidable c] : Quiet (M.check c) := by
  unfold M.check Quiet; split <;> rfl
theorem Quiet.assertM {m : M Bool} : Quiet (M.assertM m) := by
  unfold M.assertM Quiet; split <;> rfl
theorem Quiet.sub {a b : ℕ} : Quiet (M.sub a b) := by
  unfold M.sub Quiet; split <;> rfl
theorem Quiet.addL [LimbCfg] {a b : ℕ} : Quiet (M.addL a b) := by
  unfold M.addL Quiet; split <;> rfl
theorem Quiet.mulL [LimbCfg] {a b : ℕ} : Quiet (M.mulL a b) := by
  unfold M.mulL Quiet; split <;> rfl
theorem Quiet.ofOption {o : Option α} : Quiet (M.ofOption o) := by
  unfold M.ofOption Quiet; split <;> rfl
theorem Quiet.ite {c : Prop} [Decidable c] {t e : M α} (ht : Quiet t) (he : Quiet e) :
    Quiet (if c then t else e) := by split <;> assumption

theorem Quiet.emit_bind {m : M α} {e : Ev} (h : Quiet m) :
    (M.emit e >>= fun _ => m).tr = [e] := by
  have h : m.tr = [] := h
  show (M.bind _ _).tr = _
  simp [M.bind, bindTr, M.emit, h]

end M
end Cmpa
