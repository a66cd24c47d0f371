import Verif.Base.M

/-!
# Relating the events of two runs

What is observed of a run is given by `Obs`: either all events, or all events up to the positions of the limbs
read.
-/

namespace Cmpa

/-- What is observed: are the positions of the limbs read? -/
class Obs where
  pos : Bool

/-- All events. -/
@[reducible] def Obs.full : Obs := ⟨true⟩
/-- All events, but not which limb is read from a buffer. -/
@[reducible] def Obs.noPos : Obs := ⟨false⟩

/-- What is seen of an event. -/
def Obs.see [Obs] : Ev → Ev
  | .load len i => .load len (if Obs.pos then i else 0)
  | e => e

namespace M
variable {α β σ τ : Type} [Obs]

/-- The events of a run which are observed. -/
def seen (m : M α) : List Ev := m.tr.map Obs.see

theorem seen_pure (a : α) : (Pure.pure a : M α).seen = [] := rfl

theorem bind_seen_some {m : M σ} {f : σ → M α} {a : σ} (h : m.val = some a) :
    (m >>= f).seen = m.seen ++ (f a).seen := by
  show (M.bindTr m.val m.tr _).map _ = _
  rw [h]
  exact List.map_append

omit [Obs] in
theorem seen_full {m : M α} : @seen α Obs.full m = m.tr := by
  refine (List.map_congr_left (g := id) ?_).trans (List.map_id _)
  intro e _
  cases e <;> rfl

/-- Two runs leave the same events and related results (if neither panics). -/
def SameTr (m : M α) (n : M β) (R : α → β → Prop) : Prop :=
  ∀ a b, m.val = some a → n.val = some b → m.seen = n.seen ∧ R a b

theorem SameTr.bind {m : M α} {n : M β} {f : α → M σ} {g : β → M τ}
    {R : α → β → Prop} {S : σ → τ → Prop}
    (h : SameTr m n R) (hfg : ∀ a b, R a b → SameTr (f a) (g b) S) :
    SameTr (m >>= f) (n >>= g) S := by
  intro x y hx hy
  rw [bind_val] at hx hy
  cases hm : m.val with
  | none => simp [hm] at hx
  | some a =>
    cases hn : n.val with
    | none => simp [hn] at hy
    | some b =>
      obtain ⟨ht, hr⟩ := h a b hm hn
      simp only [hm, hn, Option.bind_some] at hx hy
      obtain ⟨ht', hs⟩ := hfg a b hr x y hx hy
      refine ⟨?_, hs⟩
      rw [bind_seen_some hm, bind_seen_some hn, ht, ht']

theorem SameTr.quiet {m : M α} {n : M β} (hm : Quiet m) (hn : Quiet n) :
    SameTr m n (fun _ _ => True) :=
  fun _ _ _ _ => ⟨by rw [seen, seen, show m.tr = [] from hm, show n.tr = [] from hn], trivial⟩

/-- Add what is known about the results of the single runs. -/
theorem SameTr.post {m : M α} {n : M β} {R : α → β → Prop} {P : α → Prop} {Q : β → Prop}
    (h : SameTr m n R) (hm : Post m P) (hn : Post n Q) :
    SameTr m n (fun a b => R a b ∧ P a ∧ Q b) :=
  fun a b ha hb => ⟨(h a b ha hb).1, (h a b ha hb).2, hm a ha, hn b hb⟩

theorem SameTr.pure {a : α} {b : β} {R : α → β → Prop} (h : R a b) :
    SameTr (Pure.pure a : M α) (Pure.pure b : M β) R := by
  intro x y hx hy
  simp at hx hy; subst hx hy; exact ⟨rfl, h⟩

theorem SameTr.mono {m : M α} {n : M β} {R S : α → β → Prop}
    (h : SameTr m n R) (hRS : ∀ a b, R a b → S a b) : SameTr m n S :=
  fun a b ha hb => ⟨(h a b ha hb).1, hRS _ _ (h a b ha hb).2⟩

theorem SameTr.assert {c d : Prop} [Decidable c] [Decidable d] :
    SameTr (M.assert c) (M.assert d) (fun _ _ => True) := by
  intro a b _ _; unfold M.assert seen; constructor
  · split <;> split <;> rfl
  · trivial

theorem SameTr.check {c d : Prop} [Decidable c] [Decidable d] :
    SameTr (M.check c) (M.check d) (fun _ _ => True) := by
  intro a b _ _; unfold M.check seen; constructor
  · split <;> split <;> rfl
  · trivial

theorem SameTr.assertM {m n : M Bool} :
    SameTr (M.assertM m) (M.assertM n) (fun _ _ => True) := by
  intro a b _ _; unfold M.assertM seen; constructor
  · split <;> split <;> rfl
  · trivial

theorem SameTr.sub {a b c d : ℕ} :
    SameTr (M.sub a b) (M.sub c d) (fun x y => x = a - b ∧ b ≤ a ∧ y = c - d ∧ d ≤ c) := by
  intro x y hx hy
  unfold M.sub seen at *
  split at hx <;> split at hy <;> simp_all

theorem SameTr.addL [LimbCfg] {a b c d : ℕ} :
    SameTr (M.addL a b) (M.addL c d) (fun _ _ => True) := by
  intro x y _ _; unfold M.addL seen; constructor
  · split <;> split <;> rfl
  · trivial

theorem SameTr.mulL [LimbCfg] {a b c d : ℕ} :
    SameTr (M.mulL a b) (M.mulL c d) (fun _ _ => True) := by
  intro x y _ _; unfold M.mulL seen; constructor
  · split <;> split <;> rfl
  · trivial

/-- Branches on equivalent conditions. -/
theorem SameTr.branch {c d : Prop} [Decidable c] [Decidable d] (h : c ↔ d) :
    SameTr (M.branch c) (M.branch d) (fun x y => x = y ∧ x = decide c) := by
  intro x y hx hy
  unfold M.branch seen at *
  have : decide c = decide d := decide_eq_decide.2 h
  simp_all

theorem SameTr.cond {c d : Prop} [Decidable c] [Decidable d] {t e : M α} {t' e' : M β}
    {R : α → β → Prop} (h : c ↔ d) (ht : c → SameTr t t' R) (he : ¬ c → SameTr e e' R) :
    SameTr (M.cond c t e) (M.cond d t' e') R := by
  show SameTr (M.branch c >>= fun b => if b then t else e)
    (M.branch d >>= fun b => if b then t' else e') R
  refine SameTr.bind (SameTr.branch h) ?_
  rintro a b ⟨rfl, rfl⟩
  by_cases hc : c
  · simp only [hc, decide_true, if_true]; exact ht hc
  · simp only [hc, decide_false, Bool.false_eq_true, if_false]; exact he hc

theorem SameTr.emit {e : Ev} : SameTr (M.emit e) (M.emit e) (fun _ _ => True) :=
  fun _ _ _ _ => ⟨rfl, trivial⟩

theorem SameTr.loopUp {f : ℕ → σ → M σ} {g : ℕ → τ → M τ} {R : ℕ → σ → τ → Prop} :
    ∀ {n lo : ℕ} {s : σ} {t : τ}, R lo s t →
      (∀ i s t, lo ≤ i → i < lo + n → R i s t → SameTr (f i s) (g i t) (R (i + 1))) →
      SameTr (M.loopUp n lo s f) (M.loopUp n lo t g) (R (lo + n))
  | 0, lo, s, t, h0, _ => by simpa [M.loopUp] using SameTr.pure h0
  | n + 1, lo, s, t, h0, hs => by
    unfold M.loopUp
    refine SameTr.bind SameTr.emit fun _ _ _ => ?_
    refine SameTr.bind (hs lo s t le_rfl (by omega) h0) fun s' t' h' => ?_
    have := SameTr.loopUp (n := n) (lo := lo + 1) h'
      (fun i s t h1 h2 => hs i s t (by omega) (by omega))
    rwa [show lo + 1 + n = lo + (n + 1) by omega] at this

theorem SameTr.forRange {f : ℕ → σ → M σ} {g : ℕ → τ → M τ} (R : ℕ → σ → τ → Prop)
    {lo hi : ℕ} {s : σ} {t : τ} (h0 : R lo s t)
    (hs : ∀ i s t, lo ≤ i → i < hi → R i s t → SameTr (f i s) (g i t) (R (i + 1))) :
    SameTr (M.forRange lo hi s f) (M.forRange lo hi t g) (R (lo + (hi - lo))) := by
  unfold M.forRange
  exact SameTr.loopUp h0 (fun i s t h1 h2 => hs i s t h1 (by omega))

theorem SameTr.forDown {f : ℕ → σ → M σ} {g : ℕ → τ → M τ} (R : ℕ → σ → τ → Prop) :
    ∀ {hi : ℕ} {s : σ} {t : τ}, R hi s t →
      (∀ i s t, i < hi → R (i + 1) s t → SameTr (f i s) (g i t) (R i)) →
      SameTr (M.forDown hi s f) (M.forDown hi t g) (R 0)
  | 0, s, t, h0, _ => by simpa [M.forDown] using SameTr.pure h0
  | n + 1, s, t, h0, hs => by
    unfold M.forDown
    refine SameTr.bind SameTr.emit fun _ _ _ => ?_
    refine SameTr.bind (hs n s t (by omega) h0) fun s' t' h' => ?_
    exact SameTr.forDown R h' (fun i s t h1 => hs i s t (by omega))

end M
end Cmpa
