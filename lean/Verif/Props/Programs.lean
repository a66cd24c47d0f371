import Verif.Props.Add
import Verif.Props.Buf
import Verif.Props.Mul
import Verif.Props.Shift
import Verif.Props.CtTrace
import Verif.Model.Montgomery

/-!
# Programs in fixed width arithmetic (C51)

A user of the library keeps numbers in buffers of one length, and a secret bit in a `LimbChoice`, and composes
functions of the library into programs.  `Prog` is the language of these programs, `Prog.run` calls the library, and
`Prog.spec` says what is to be computed: arithmetic modulo a power of 256, on plain numbers.
-/

namespace Cmpa
namespace Props
open M

/-! ### Specification -/

/-- One step of a program with `k` numbers and a bit, the flag.  Numbers are denoted by their place.

Rust doesn't permit `d = s`; nothing here depends on it. -/
inductive Step (k : ℕ)
  /-- `x d += x s`; the flag becomes the carry -/
  | add (d s : Fin k)
  /-- `x d -= x s`; the flag becomes the borrow -/
  | sub (d s : Fin k)
  /-- the same, only if the flag is set -/
  | addIf (d s : Fin k)
  /-- the same, only if the flag is set -/
  | subIf (d s : Fin k)
  /-- `x d += v`; the flag becomes the carry -/
  | addByte (d : Fin k) (v : Fin 256)
  /-- `x d *= x s` -/
  | mul (d s : Fin k)
  /-- `x d = - x d` -/
  | neg (d : Fin k)
  /-- the same, only if the flag is set -/
  | negIf (d : Fin k)
  /-- `x d <<= n` -/
  | shl (d : Fin k) (n : ℕ)
  /-- `x d >>= n` -/
  | shr (d : Fin k) (n : ℕ)
  /-- `x d = x s` -/
  | copy (d s : Fin k)
  /-- the same, only if the flag is set -/
  | copyIf (d s : Fin k)
  /-- exchange `x d` and `x s`, only if the flag is set -/
  | swapIf (d s : Fin k)
  /-- the flag becomes `x a < x b` -/
  | lt (a b : Fin k)
  /-- the flag becomes `x a = 0` -/
  | isZero (a : Fin k)
  /-- the flag becomes the bit `n` of `x a` -/
  | testBit (a : Fin k) (n : ℕ)
  /-- the flag is inverted -/
  | not

/-- What a step is to compute, for numbers less than `m`. -/
def Step.specOf {k : ℕ} (m : ℕ) (x : Fin k → ℕ) (flag : Bool) : Step k → (Fin k → ℕ) × Bool
  | .add d s => (Function.update x d ((x d + x s) % m), decide (m ≤ x d + x s))
  | .sub d s => (Function.update x d ((x d + (m - x s)) % m), decide (x d < x s))
  | .addIf d s =>
    if flag then (Function.update x d ((x d + x s) % m), decide (m ≤ x d + x s)) else (x, false)
  | .subIf d s =>
    if flag then (Function.update x d ((x d + (m - x s)) % m), decide (x d < x s)) else (x, false)
  | .addByte d v => (Function.update x d ((x d + v.val) % m), decide (m ≤ x d + v.val))
  | .mul d s => (Function.update x d (x d * x s % m), flag)
  | .neg d => (Function.update x d ((m - x d) % m), flag)
  | .negIf d => (if flag then Function.update x d ((m - x d) % m) else x, flag)
  | .shl d n => (Function.update x d (x d * 2 ^ n % m), flag)
  | .shr d n => (Function.update x d (x d / 2 ^ n), flag)
  | .copy d s => (Function.update x d (x s), flag)
  | .copyIf d s => (if flag then Function.update x d (x s) else x, flag)
  | .swapIf d s => (if flag then Function.update (Function.update x d (x s)) s (x d) else x, flag)
  | .lt a b => (x, decide (x a < x b))
  | .isZero a => (x, decide (x a = 0))
  | .testBit a n => (x, (x a).testBit n)
  | .not => (x, !flag)

/-- The same, in the form used for programs. -/
def Step.spec {k : ℕ} (m : ℕ) (s : Step k) (x : (Fin k → ℕ) × Bool) : (Fin k → ℕ) × Bool := s.specOf m x.1 x.2

/-- Programs made of steps. -/
inductive Prog (σ : Type)
  /-- a single step -/
  | step (s : σ)
  /-- one program after the other -/
  | seq (p q : Prog σ)
  /-- programs `p 0`, `p 1`, …, `p (n - 1)`, one after the other -/
  | loop (n : ℕ) (p : ℕ → Prog σ)
  /-- a branch on the flag, which thereby ceases to be a secret -/
  | ifFlag (p q : Prog σ)

/-- What a program is to compute, given what the steps are to compute. -/
def Prog.spec {σ X : Type} (f : σ → X × Bool → X × Bool) : Prog σ → X × Bool → X × Bool
  | .step s, x => f s x
  | .seq p q, x => q.spec f (p.spec f x)
  | .loop n p, x => (List.range n).foldl (fun x i => (p i).spec f x) x
  | .ifFlag p q, x => if x.2 then p.spec f x else q.spec f x

/-- Programs without branches on the flag. -/
def Prog.Straight {σ : Type} : Prog σ → Prop
  | .step _ => True
  | .seq p q => p.Straight ∧ q.Straight
  | .loop _ p => ∀ i, (p i).Straight
  | .ifFlag _ _ => False

/-! ### Programs calling the library -/

section
variable [LimbCfg]

/-- A program, given how to run its steps, and where the flag is. -/
def Prog.run {σ ρ : Type} (f : σ → ρ → M ρ) (flag : ρ → LimbChoice) : Prog σ → ρ → M ρ
  | .step s, r => f s r
  | .seq p q, r => do
    let r ← p.run f flag r
    q.run f flag r
  | .loop n p, r => M.forRange 0 n r fun i r => (p i).run f flag r
  | .ifFlag p q, r => M.cond ((flag r).unwrap ≠ 0) (p.run f flag r) (q.run f flag r)

/-- If the steps compute what they are to compute, so do programs. -/
theorem Prog.run_sat {σ ρ X : Type} {f : σ → ρ → M ρ} {flag : ρ → LimbChoice} {sp : σ → X × Bool → X × Bool}
    {H : ρ → X × Bool → Prop} (hflag : ∀ r x, H r x → flag r = .ofBool x.2)
    (hstep : ∀ s r x, H r x → Sat (f s r) (fun r => H r (sp s x))) (p : Prog σ) {r : ρ} {x : X × Bool} (h : H r x) :
    Sat (p.run f flag r) (fun r => H r (p.spec sp x)) := by
  induction p generalizing r x with
  | step s => exact hstep s r x h
  | seq p q hp hq => exact (hp h).bind fun r hr => hq hr
  | loop n p hp =>
    refine Sat.forRange (fun i r => H r ((List.range i).foldl (fun x i => (p i).spec sp x) x)) (Nat.zero_le n) h ?_
    intro i r _ _ hr
    rw [List.range_succ, List.foldl_append]
    exact hp i hr
  | ifFlag p q hp hq =>
    unfold Prog.run Prog.spec
    have hc : (flag r).unwrap = if x.2 then 1 else 0 := by rw [hflag r x h, LimbChoice.unwrap_ofBool]
    rw [hc]
    cases hx : x.2
    · exact Sat.cond (fun h' => absurd rfl h') fun _ => by simpa [hx] using hq h
    · exact Sat.cond (fun _ => by simpa [hx] using hp h) fun h' => absurd Nat.one_ne_zero h'

/-- If the events of the steps depend on public data only, so do those of programs without branches on the flag. -/
theorem Prog.run_ct [Obs] {σ ρ ρ' : Type} {f : σ → ρ → M ρ} {f' : σ → ρ' → M ρ'} {flag : ρ → LimbChoice}
    {flag' : ρ' → LimbChoice} {R : ρ → ρ' → Prop} (hstep : ∀ s r r', R r r' → SameTr (f s r) (f' s r') R)
    (p : Prog σ) (hp : p.Straight) {r : ρ} {r' : ρ'} (h : R r r') :
    SameTr (p.run f flag r) (p.run f' flag' r') R := by
  induction p generalizing r r' with
  | step s => exact hstep s r r' h
  | seq p q ihp ihq => exact (ihp hp.1 h).bind fun _ _ h => ihq hp.2 h
  | loop n p ih => exact SameTr.forRange (fun _ => R) h fun i _ _ _ _ h => ih i (hp i) h
  | ifFlag p q => exact hp.elim

/-- A run which ends with a result doesn't panic. -/
theorem _root_.Cmpa.M.Sat.ne_none {α : Type} {m : M α} {P : α → Prop} (h : Sat m P) : m.val ≠ none := by
  obtain ⟨a, ha, -⟩ := h
  rw [ha]
  exact Option.some_ne_none a

/-- No error, so nothing goes wrong when the result is unwrapped. -/
theorem unwrapE_ok {α ε : Type} {m : M (Except ε α)} {P : α → Prop} (h : Sat m (fun r => ∃ a, r = .ok a ∧ P a)) :
    Sat (unwrapE m) P := by
  refine h.bind ?_
  rintro r ⟨a, rfl, ha⟩
  exact Sat.pure ha

/-- Buffers of the formats `fm`, and a choice. -/
structure Regs {k : ℕ} (fm : Fin k → Fmt) where
  reg : ∀ i, Buf (fm i)
  flag : LimbChoice

variable {k : ℕ} {fm : Fin k → Fmt}

/-- Replace a buffer. -/
def Regs.set (r : Regs fm) (d : Fin k) (b : Buf (fm d)) : Regs fm := { r with reg := Function.update r.reg d b }

/-- The buffer and the carry returned. -/
def Regs.setCarry (r : Regs fm) (d : Fin k) (p : Buf (fm d) × ℕ) : M (Regs fm) := do
  let c ← LimbChoice.from' p.2
  pure { reg := Function.update r.reg d p.1, flag := c }

/-- A step, by a call of the library. -/
def Step.run (s : Step k) (r : Regs fm) : M (Regs fm) :=
  match s with
  | .add d s => do r.setCarry d (← ct_add_mp_mp (r.reg d) (r.reg s))
  | .sub d s => do r.setCarry d (← ct_sub_mp_mp (r.reg d) (r.reg s))
  | .addIf d s => do r.setCarry d (← ct_add_cond_mp_mp (r.reg d) (r.reg s) r.flag)
  | .subIf d s => do r.setCarry d (← ct_sub_cond_mp_mp (r.reg d) (r.reg s) r.flag)
  | .addByte d v => do r.setCarry d (← ct_add_mp_l (r.reg d) v.val)
  | .mul d s => do
    let b ← ct_mul_trunc_mp_mp (r.reg d) (r.reg d).len (r.reg s)
    pure (r.set d b)
  | .neg d => do
    let b ← ct_negate_mp (r.reg d)
    pure (r.set d b)
  | .negIf d => do
    let b ← ct_negate_cond_mp (r.reg d) r.flag
    pure (r.set d b)
  | .shl d n => do
    let p ← ct_lshift_mp (r.reg d) n
    pure (r.set d p.1)
  | .shr d n => do
    let p ← ct_rshift_mp (r.reg d) n
    pure (r.set d p.1)
  | .copy d s => do
    let b ← (r.reg d).copy_from (r.reg s)
    pure (r.set d b)
  | .copyIf d s => do
    let b ← (r.reg d).copy_from_cond (r.reg s) r.flag
    pure (r.set d b)
  | .swapIf d s => do
    let p ← ct_swap_cond_mp (r.reg d) (r.reg s) r.flag
    pure ((r.set d p.1).set s p.2)
  | .lt a b => do
    let c ← ct_lt_mp_mp (r.reg a) (r.reg b)
    pure { r with flag := c }
  | .isZero a => do
    let c ← ct_is_zero_mp (r.reg a)
    pure { r with flag := c }
  | .testBit a n => do
    let c ← (r.reg a).test_bit n
    pure { r with flag := c }
  | .not => pure { r with flag := r.flag.not }

/-- A program, by calls of the library. -/
def Prog.call (p : Prog (Step k)) (r : Regs fm) : M (Regs fm) := p.run Step.run Regs.flag r

/-- The buffers are `len` bytes long each, and hold these numbers; the choice holds the flag. -/
def Regs.Holds (r : Regs fm) (len : ℕ) (x : (Fin k → ℕ) × Bool) : Prop :=
  (∀ i, (r.reg i).len = len ∧ (r.reg i).toNat = x.1 i) ∧ r.flag = .ofBool x.2

namespace Regs

theorem Holds.set {r : Regs fm} {len : ℕ} {x : Fin k → ℕ} {c : Bool} (h : r.Holds len (x, c)) {d : Fin k}
    {b : Buf (fm d)} {v : ℕ} (hl : b.len = len) (hv : b.toNat = v) :
    (r.set d b).Holds len (Function.update x d v, c) := by
  refine ⟨fun i => ?_, h.2⟩
  dsimp only [Regs.set]
  by_cases hi : i = d
  · subst hi
    rw [Function.update_self, Function.update_self]
    exact ⟨hl, hv⟩
  · rw [Function.update_of_ne hi, Function.update_of_ne hi]
    exact h.1 i

theorem Holds.flag {r : Regs fm} {len : ℕ} {x : Fin k → ℕ} {c : Bool} (h : r.Holds len (x, c)) {l : LimbChoice}
    {c' : Bool} (hl : l = .ofBool c') : ({ r with flag := l } : Regs fm).Holds len (x, c') := ⟨h.1, hl⟩

theorem Holds.setCarry {r : Regs fm} {len : ℕ} {x : Fin k → ℕ} {c : Bool} (h : r.Holds len (x, c)) {d : Fin k}
    {p : Buf (fm d) × ℕ} {v : ℕ} {c' : Bool} (hl : p.1.len = len) (hv : p.1.toNat = v) (hp : p.2 ≤ 1)
    (hc : decide (p.2 = 1) = c') :
    Sat (r.setCarry d p) (fun r => r.Holds len (Function.update x d v, c')) := by
  unfold Regs.setCarry
  rw [LimbChoice.from'_eq hp]
  refine Sat.bind (Sat.pure rfl) ?_
  rintro l rfl
  exact Sat.pure ((h.set hl hv).flag (by rw [hc]))

end Regs

omit [LimbCfg] in
theorem of_if_true {p q : Prop} (h : if true = true then p else q) : p := by simpa using h

omit [LimbCfg] in
/-- A sum, its carry, and the remainder. -/
theorem sum_carry {a c m s : ℕ} (ha : a < m) (hc : c ≤ 1) (h : a + c * m = s) :
    a = s % m ∧ decide (c = 1) = decide (m ≤ s) := by
  have : c = 0 ∨ c = 1 := by omega
  rcases this with rfl | rfl
  · have h1 : a = s := by omega
    subst h1
    refine ⟨(Nat.mod_eq_of_lt ha).symm, ?_⟩
    rw [decide_eq_decide]
    omega
  · have h1 : a + m = s := by omega
    subst h1
    refine ⟨by rw [Nat.add_mod_right, Nat.mod_eq_of_lt ha], ?_⟩
    rw [decide_eq_decide]
    omega

omit [LimbCfg] in
/-- A difference, its borrow, and the remainder. -/
theorem diff_borrow {a b c m u : ℕ} (ha : a < m) (hb : b < m) (hu : u < m) (hc : c ≤ 1) (h : a + b = u + c * m) :
    a = (u + (m - b)) % m ∧ decide (c = 1) = decide (u < b) := by
  have : c = 0 ∨ c = 1 := by omega
  rcases this with rfl | rfl
  · have h1 : u + (m - b) = a + m := by omega
    refine ⟨by rw [h1, Nat.add_mod_right, Nat.mod_eq_of_lt ha], ?_⟩
    rw [decide_eq_decide]
    omega
  · have h1 : u + (m - b) = a := by omega
    refine ⟨by rw [h1, Nat.mod_eq_of_lt ha], ?_⟩
    rw [decide_eq_decide]
    omega

theorem Step.run_sat (s : Step k) {r : Regs fm} {len : ℕ} {x : Fin k → ℕ} {c : Bool} (hlen : 0 < len)
    (h : r.Holds len (x, c)) : Sat (s.run r) (fun r => r.Holds len (s.spec (256 ^ len) (x, c))) := by
  have hl : ∀ i, (r.reg i).len = len := fun i => (h.1 i).1
  have hx : ∀ i, (r.reg i).toNat = x i := fun i => (h.1 i).2
  have hc : r.flag = .ofBool c := h.2
  have hlt : ∀ i, x i < 256 ^ len := fun i => by
    rw [← hx, ← hl i]; exact (r.reg i).toNat_lt
  have hn : ∀ i j, (r.reg i).nlimbs = (r.reg j).nlimbs := fun i j => Buf.nlimbs_congr (by rw [hl, hl])
  cases s with
  | add d s =>
    refine (C02_add_len (r.reg d) (r.reg s) (by rw [hl, hl])).bind ?_
    rintro ⟨b, cy⟩ ⟨h1, h2, h3⟩
    rw [hl, hx, hx] at h3
    have hb := b.toNat_lt
    rw [h1, hl] at hb
    have := sum_carry hb h2 h3
    exact h.setCarry (by rw [h1, hl]) this.1 h2 this.2
  | sub d s =>
    refine (C03_sub_len (r.reg d) (r.reg s) (by rw [hl, hl])).bind ?_
    rintro ⟨b, cy⟩ ⟨h1, h2, h3⟩
    rw [hl, hx, hx] at h3
    have hb := b.toNat_lt
    rw [h1, hl] at hb
    have := diff_borrow hb (hlt s) (hlt d) h2 h3
    exact h.setCarry (by rw [h1, hl]) this.1 h2 this.2
  | addIf d s =>
    show Sat (ct_add_cond_mp_mp _ _ r.flag >>= _) _
    rw [hc]
    refine (C04_add_cond (r.reg d) (r.reg s) c (hn _ _).le fun _ => by rw [hx, hl]; exact hlt s).bind ?_
    rintro ⟨b, cy⟩ h0
    cases c with
    | false =>
      obtain ⟨rfl, rfl⟩ : b = r.reg d ∧ cy = 0 := by simpa using h0
      have := h.setCarry (d := d) (p := (r.reg d, 0)) (c' := false) (hl d) (hx d) (Nat.zero_le 1) rfl
      rw [Function.update_eq_self] at this
      exact this
    | true =>
      obtain ⟨h1, h2, h3⟩ := of_if_true h0
      rw [hl, hx, hx] at h3
      have hb := b.toNat_lt
      rw [h1, hl] at hb
      have := sum_carry hb h2 h3
      exact h.setCarry (by rw [h1, hl]) this.1 h2 this.2
  | subIf d s =>
    show Sat (ct_sub_cond_mp_mp _ _ r.flag >>= _) _
    rw [hc]
    refine (C04_sub_cond (r.reg d) (r.reg s) c (hn _ _).le fun _ => by rw [hx, hl]; exact hlt s).bind ?_
    rintro ⟨b, cy⟩ h0
    cases c with
    | false =>
      obtain ⟨rfl, rfl⟩ : b = r.reg d ∧ cy = 0 := by simpa using h0
      have := h.setCarry (d := d) (p := (r.reg d, 0)) (c' := false) (hl d) (hx d) (Nat.zero_le 1) rfl
      rw [Function.update_eq_self] at this
      exact this
    | true =>
      obtain ⟨h1, h2, h3⟩ := of_if_true h0
      rw [hl, hx, hx] at h3
      have hb := b.toNat_lt
      rw [h1, hl] at hb
      have := diff_borrow hb (hlt s) (hlt d) h2 h3
      exact h.setCarry (by rw [h1, hl]) this.1 h2 this.2
  | addByte d v =>
    have hv : v.val < 256 ^ len := lt_of_lt_of_le v.isLt (Nat.le_self_pow hlen.ne' 256)
    have hv' : v.val < B := lt_of_lt_of_le v.isLt (le_trans (by norm_num) B_ge)
    refine (C02_add_l (r.reg d) v.val hv' (by rwa [hl])).bind ?_
    rintro ⟨b, cy⟩ ⟨h1, h2, h3⟩
    rw [hl, hx] at h3
    have hb := b.toNat_lt
    rw [h1, hl] at hb
    have := sum_carry hb h2 h3
    exact h.setCarry (by rw [h1, hl]) this.1 h2 this.2
  | mul d s =>
    refine (C09_mul (r.reg d) _ (r.reg s) le_rfl).bind ?_
    rintro b ⟨h1, h2⟩
    rw [Nat.mod_eq_of_lt (r.reg d).toNat_lt, hx, hx, hl] at h2
    exact Sat.pure (h.set (by rw [h1, hl]) h2)
  | neg d =>
    refine (C05_negate (r.reg d)).bind ?_
    rintro b ⟨h1, h2⟩
    rw [hx, hl] at h2
    exact Sat.pure (h.set (by rw [h1, hl]) h2)
  | negIf d =>
    show Sat (ct_negate_cond_mp _ r.flag >>= _) _
    rw [hc]
    refine (C04_negate_cond (r.reg d) c).bind ?_
    intro b h0
    cases c with
    | false =>
      have h1 : b = r.reg d := by simpa using h0
      subst h1
      have := h.set (d := d) (hl d) (hx d)
      rw [Function.update_eq_self] at this
      exact Sat.pure this
    | true =>
      obtain ⟨h1, h2⟩ := of_if_true h0
      rw [hx, hl] at h2
      exact Sat.pure (h.set (by rw [h1, hl]) h2)
  | shl d n =>
    refine (C07_lshift (r.reg d) n (by rwa [hl])).bind ?_
    rintro ⟨b, o⟩ ⟨h1, -, h2, -⟩
    rw [hx, hl, pow_mul] at h2
    exact Sat.pure (h.set (by rw [h1, hl]) h2)
  | shr d n =>
    refine (C08_rshift (r.reg d) n).bind ?_
    rintro ⟨b, o⟩ ⟨h1, -, h2, -⟩
    rw [hx] at h2
    exact Sat.pure (h.set (by rw [h1, hl]) h2)
  | copy d s =>
    refine (C17_copy_from (r.reg d) (r.reg s) (by rw [hx, hl]; exact hlt s)).bind ?_
    rintro b ⟨h1, h2⟩
    exact Sat.pure (h.set (by rw [h1, hl]) (by rw [h2, hx]))
  | copyIf d s =>
    show Sat (Buf.copy_from_cond _ _ r.flag >>= _) _
    rw [hc]
    refine (C17_copy_from_cond_partial (r.reg d) (r.reg s) c (by rw [hx, hl]; exact hlt s)
      (.inr (by rw [hl, hl]))).bind ?_
    rintro b ⟨h1, h2⟩
    have := h.set (d := d) (by rw [h1, hl]) h2
    rw [hx, hx] at this
    cases c with
    | false =>
      rw [if_neg Bool.false_ne_true, Function.update_eq_self] at this
      exact Sat.pure this
    | true => exact Sat.pure this
  | swapIf d s =>
    show Sat (ct_swap_cond_mp _ _ r.flag >>= _) _
    rw [hc]
    refine (C04_swap_cond (r.reg d) (r.reg s) c
      (fun _ => ⟨by rw [hx, hl]; exact hlt d, by rw [hx, hl]; exact hlt s⟩) (hn _ _)).bind ?_
    rintro ⟨b, b'⟩ ⟨h1, h2, h3, h4⟩
    have := (h.set (d := d) (by rw [h1, hl]) h3).set (d := s) (by rw [h2, hl]) h4
    rw [hx, hx] at this
    cases c with
    | false =>
      simp only [Bool.false_eq_true, if_false, Function.update_eq_self] at this
      exact Sat.pure this
    | true => exact Sat.pure this
  | lt a b =>
    refine (C01_lt (r.reg a) (r.reg b)).bind ?_
    intro l h1
    rw [hx, hx] at h1
    exact Sat.pure (h.flag h1)
  | isZero a =>
    refine (C01_is_zero (r.reg a)).bind ?_
    intro l h1
    rw [hx] at h1
    exact Sat.pure (h.flag h1)
  | testBit a n =>
    refine (C18_test_bit (r.reg a) n).bind ?_
    intro l h1
    rw [hx] at h1
    exact Sat.pure (h.flag h1)
  | not => exact Sat.pure (h.flag (by rw [hc, LimbChoice.not_ofBool]))

theorem Prog.call_sat (p : Prog (Step k)) {r : Regs fm} {len : ℕ} {x : (Fin k → ℕ) × Bool} (hlen : 0 < len)
    (h : r.Holds len x) : Sat (p.call r) (fun r => r.Holds len (p.spec (Step.spec (256 ^ len)) x)) :=
  Prog.run_sat (H := fun (r : Regs fm) x => r.Holds len x) (fun _ _ h => h.2) (fun s _ _ h => s.run_sat hlen h) p h

/-! ### Events -/

variable [Obs]

/-- Buffers of the same lengths. -/
def Regs.SameLens (r r' : Regs fm) : Prop := ∀ i, (r.reg i).len = (r'.reg i).len

omit [Obs] in
theorem Regs.SameLens.set {r r' : Regs fm} (h : r.SameLens r') {d : Fin k} {b b' : Buf (fm d)} (hb : b.len = b'.len) :
    (r.set d b).SameLens (r'.set d b') := by
  intro i
  dsimp only [Regs.set]
  by_cases hi : i = d
  · subst hi
    rw [Function.update_self, Function.update_self]
    exact hb
  · rw [Function.update_of_ne hi, Function.update_of_ne hi]
    exact h i

theorem Regs.SameLens.setCarry {r r' : Regs fm} (h : r.SameLens r') {d : Fin k} {p p' : Buf (fm d) × ℕ}
    (hb : Pub.rel p p') : SameTr (r.setCarry d p) (r'.setCarry d p') Regs.SameLens := by
  have hc : Ct (LimbChoice.from' p.2) (LimbChoice.from' p'.2) := by
    unfold LimbChoice.from'
    ct
  exact hc.bind fun _ _ _ => SameTr.pure (h.set hb.1)

theorem Step.run_ct (s : Step k) {r r' : Regs fm} (h : r.SameLens r') :
    SameTr (s.run r) (s.run r') Regs.SameLens := by
  cases s with
  | add d s => exact (ct_add_mp_mp_ct (h d) (h s)).bind fun _ _ hp => h.setCarry hp
  | sub d s => exact (ct_sub_mp_mp_ct (h d) (h s)).bind fun _ _ hp => h.setCarry hp
  | addIf d s => exact (ct_add_cond_mp_mp_ct (h d) (h s)).bind fun _ _ hp => h.setCarry hp
  | subIf d s => exact (ct_sub_cond_mp_mp_ct (h d) (h s)).bind fun _ _ hp => h.setCarry hp
  | addByte d v => exact (ct_add_mp_l_ct (h d)).bind fun _ _ hp => h.setCarry hp
  | mul d s => exact (ct_mul_trunc_mp_mp_ct (h d) (h d) (h s)).bind fun _ _ hp => SameTr.pure (h.set hp)
  | neg d => exact (ct_negate_mp_ct (h d)).bind fun _ _ hp => SameTr.pure (h.set hp)
  | negIf d => exact (ct_negate_cond_mp_ct (h d)).bind fun _ _ hp => SameTr.pure (h.set hp)
  | shl d n => exact (ct_lshift_mp_ct (h d) fun _ => rfl).bind fun _ _ hp => SameTr.pure (h.set hp.1)
  | shr d n => exact (ct_rshift_mp_ct (h d) fun _ => rfl).bind fun _ _ hp => SameTr.pure (h.set hp.1)
  | copy d s => exact (Buf.copy_from_ct (h d) (h s)).bind fun _ _ hp => SameTr.pure (h.set hp)
  | copyIf d s => exact (Buf.copy_from_cond_ct (h d) (h s)).bind fun _ _ hp => SameTr.pure (h.set hp)
  | swapIf d s =>
    exact (ct_swap_cond_mp_ct (h d) (h s)).bind fun _ _ hp => SameTr.pure ((h.set hp.1).set hp.2)
  | lt a b => exact (ct_lt_mp_mp_ct (h a) (h b)).bind fun _ _ _ => SameTr.pure h
  | isZero a => exact (ct_is_zero_mp_ct (h a)).bind fun _ _ _ => SameTr.pure h
  | testBit a n => exact (Buf.test_bit_ct (h a) rfl).bind fun _ _ _ => SameTr.pure h
  | not => exact SameTr.pure h

theorem Prog.call_ct (p : Prog (Step k)) (hp : p.Straight) {r r' : Regs fm} (h : r.SameLens r') :
    SameTr (p.call r) (p.call r') Regs.SameLens := Prog.run_ct (fun s _ _ h => s.run_ct h) p hp h

end

/-! ## C51 -/

section
variable [LimbCfg] {k : ℕ} {fm : Fin k → Fmt}

/-- C51: a program made of calls of the library, on numbers in buffers of one length, in any mixture of formats,
computes what it is to compute, and doesn't panic. -/
theorem C51_program (p : Prog (Step k)) (r : Regs fm) (len : ℕ) (x : Fin k → ℕ) (flag : Bool) (hlen : 0 < len)
    (h : ∀ i, (r.reg i).len = len ∧ (r.reg i).toNat = x i) (hf : r.flag = .ofBool flag) :
    Sat (p.call r) (fun r' =>
      (∀ i, (r'.reg i).len = len ∧ (r'.reg i).toNat = (p.spec (Step.spec (256 ^ len)) (x, flag)).1 i) ∧
      r'.flag = .ofBool (p.spec (Step.spec (256 ^ len)) (x, flag)).2) := p.call_sat hlen ⟨h, hf⟩

/-- C51: unless a program branches on the flag, the events of its run depend on the length of the buffers only. -/
theorem C51_constant_time (p : Prog (Step k)) (hp : p.Straight) (r r' : Regs fm) (len : ℕ) (hlen : 0 < len)
    (h : ∀ i, (r.reg i).len = len) (h' : ∀ i, (r'.reg i).len = len) (flag flag' : Bool)
    (hf : r.flag = .ofBool flag) (hf' : r'.flag = .ofBool flag') : (p.call r).tr = (p.call r').tr := by
  have h1 := p.call_sat (x := (fun i => (r.reg i).toNat, flag)) hlen ⟨fun i => ⟨h i, rfl⟩, hf⟩
  have h2 := p.call_sat (x := (fun i => (r'.reg i).toNat, flag')) hlen ⟨fun i => ⟨h' i, rfl⟩, hf'⟩
  exact sameEvents (@Prog.call_ct _ k fm Obs.full p hp r r' fun i => by rw [h, h'])
    h1.ne_none h2.ne_none

end

/-- C51: the numbers a program computes depend neither on the size of limbs nor on the formats of the buffers. -/
theorem C51_portable {k : ℕ} (c c' : LimbCfg) {fm fm' : Fin k → Fmt} (p : Prog (Step k)) (r : @Regs c k fm)
    (r' : @Regs c' k fm') (len : ℕ) (flag : Bool) (hlen : 0 < len)
    (h : ∀ i, @Buf.len c (fm i) (@Regs.reg c k fm r i) = len)
    (h' : ∀ i, @Buf.len c' (fm' i) (@Regs.reg c' k fm' r' i) = len)
    (hv : ∀ i, @Buf.toNat c (fm i) (@Regs.reg c k fm r i) = @Buf.toNat c' (fm' i) (@Regs.reg c' k fm' r' i))
    (hf : @Regs.flag c k fm r = @LimbChoice.ofBool c flag)
    (hf' : @Regs.flag c' k fm' r' = @LimbChoice.ofBool c' flag) :
    ∃ s s', (@Prog.call c k fm p r).val = some s ∧ (@Prog.call c' k fm' p r').val = some s' ∧
      ∀ i, @Buf.toNat c (fm i) (@Regs.reg c k fm s i) = @Buf.toNat c' (fm' i) (@Regs.reg c' k fm' s' i) := by
  obtain ⟨s, hs, h1⟩ := @C51_program c k fm p r len (fun i => @Buf.toNat c (fm i) (@Regs.reg c k fm r i)) flag hlen
    (fun i => ⟨h i, rfl⟩) hf
  obtain ⟨s', hs', h2⟩ := @C51_program c' k fm' p r' len (fun i => @Buf.toNat c (fm i) (@Regs.reg c k fm r i)) flag hlen
    (fun i => ⟨h' i, (hv i).symm⟩) hf'
  exact ⟨s, s', hs, hs', fun i => by rw [(h1.1 i).2, (h2.1 i).2]⟩

/-- Multiplication by shifts and conditional additions: `x 0 += x 1 * x 2`. -/
def shiftAndAdd (nbits : ℕ) : Prog (Step 3) :=
  .loop nbits fun _ => (.seq (.step (.testBit 1 0)) (.seq (.step (.addIf 0 2)) (.seq (.step (.shr 1 1)) (.step (.shl 2 1)))))

example (nbits : ℕ) : (shiftAndAdd nbits).Straight := fun _ => ⟨trivial, trivial, trivial, trivial⟩

/-- The formats of the numbers in the example. -/
def exFmt : Fin 3 → Fmt
  | 0 => .be
  | 1 => .le
  | 2 => .ne

/-- The numbers in the example, of eight bytes. -/
def exRegs [LimbCfg] (x : ℕ) : Regs exFmt where
  reg
    | 0 => Buf.ofNat .be 8 0
    | 1 => Buf.ofNat .le 8 x
    | 2 => Buf.ofNat .ne 8 0x123456789abcdef
  flag := LimbChoice.ofBool false

example : letI := cfg64; ((shiftAndAdd 16).call (exRegs 0xfedc)).val.map (fun r => (r.reg 0).toNat) =
    some (0xfedc * 0x123456789abcdef % 256 ^ 8) := by decide +kernel

example : letI := cfg32; ((shiftAndAdd 16).call (exRegs 0xfedc)).val.map (fun r => (r.reg 0).toNat) =
    some (0xfedc * 0x123456789abcdef % 256 ^ 8) := by decide +kernel

example : letI := cfg64; ((shiftAndAdd 2).call (exRegs 3)).tr = ((shiftAndAdd 2).call (exRegs 0)).tr ∧
    runs ((shiftAndAdd 2).call (exRegs 3)) = true := by decide +kernel

/-- A branch on the flag does show. -/
example : letI := cfg64; ((Prog.seq (.step (.isZero 1)) (.ifFlag (.step (.copy 0 2)) (.step .not))).call (exRegs 3)).tr ≠
    ((Prog.seq (.step (.isZero 1)) (.ifFlag (.step (.copy 0 2)) (.step .not))).call (exRegs 0)).tr := by decide +kernel

end Props
end Cmpa
