import Verif.Props.Programs
import Verif.Props.Protocol
import Mathlib.Data.ZMod.Basic

/-!
# Programs in modular arithmetic (C52)

A user of the library keeps numbers modulo `n` in Montgomery form, and composes modular additions, subtractions,
negations and Montgomery multiplications into programs, for example the formulas for points on an elliptic curve,
using the bits of a secret scalar.  What is to be computed is given in the ring `ZMod n`.
-/

namespace Cmpa
namespace Props
open M

/-! ### Specification -/

/-- One step of a program with `k` numbers modulo `n`, a secret scalar, and a bit, the flag. -/
inductive ModStep (k : ℕ)
  /-- `x d += x s` -/
  | add (d s : Fin k)
  /-- `x d -= x s` -/
  | sub (d s : Fin k)
  /-- `x d = - x d` -/
  | neg (d : Fin k)
  /-- `x d = x a * x b` -/
  | mul (d a b : Fin k)
  /-- `x d = x s` -/
  | copy (d s : Fin k)
  /-- the same, only if the flag is set -/
  | copyIf (d s : Fin k)
  /-- exchange `x d` and `x s`, only if the flag is set -/
  | swapIf (d s : Fin k)
  /-- the flag becomes `x a = x b` -/
  | eq (a b : Fin k)
  /-- the flag becomes `x a = 0` -/
  | isZero (a : Fin k)
  /-- the flag becomes the bit `i` of the scalar -/
  | bit (i : ℕ)
  /-- the flag is inverted -/
  | not

/-- What a step is to compute. -/
def ModStep.spec {k N : ℕ} (e : ℕ) (s : ModStep k) : (Fin k → ZMod N) × Bool → (Fin k → ZMod N) × Bool
  | (x, flag) =>
    match s with
    | .add d s => (Function.update x d (x d + x s), flag)
    | .sub d s => (Function.update x d (x d - x s), flag)
    | .neg d => (Function.update x d (- x d), flag)
    | .mul d a b => (Function.update x d (x a * x b), flag)
    | .copy d s => (Function.update x d (x s), flag)
    | .copyIf d s => (if flag then Function.update x d (x s) else x, flag)
    | .swapIf d s => (if flag then Function.update (Function.update x d (x s)) s (x d) else x, flag)
    | .eq a b => (x, decide (x a = x b))
    | .isZero a => (x, decide (x a = 0))
    | .bit i => (x, e.testBit i)
    | .not => (x, !flag)

/-! ### Programs calling the library -/

variable [LimbCfg] {k : ℕ} {fm fi : Fin k → Fmt} {f' e' h' : Fmt}

/-- A step, by a call of the library: `n` is the modulus, `neg` the constant for Montgomery multiplications, `e` the
scalar.  No errors are expected. -/
def ModStep.run (n : Buf f') (neg : ℕ) (e : Buf e') (s : ModStep k) (r : Regs fm) : M (Regs fm) :=
  match s with
  | .add d s => do
    let b ← unwrapE (ct_add_mod_mp_mp (r.reg d) (r.reg s) n)
    pure (r.set d b)
  | .sub d s => do
    let b ← unwrapE (ct_sub_mod_mp_mp (r.reg d) (r.reg s) n)
    pure (r.set d b)
  | .neg d => do
    let b ← unwrapE (ct_negate_mod_mp (r.reg d) n)
    pure (r.set d b)
  | .mul d a b => do
    let b ← unwrapE (ct_montgomery_mul_mod_mp_mp (r.reg d) (r.reg a) (r.reg b) n neg)
    pure (r.set d b)
  | .copy d s => do
    let b ← (r.reg d).copy_from (r.reg s)
    pure (r.set d b)
  | .copyIf d s => do
    let b ← (r.reg d).copy_from_cond (r.reg s) r.flag
    pure (r.set d b)
  | .swapIf d s => do
    let p ← ct_swap_cond_mp (r.reg d) (r.reg s) r.flag
    pure ((r.set d p.1).set s p.2)
  | .eq a b => do
    let c ← ct_eq_mp_mp (r.reg a) (r.reg b)
    pure { r with flag := c }
  | .isZero a => do
    let c ← ct_is_zero_mp (r.reg a)
    pure { r with flag := c }
  | .bit i => do
    let c ← e.test_bit i
    pure { r with flag := c }
  | .not => pure { r with flag := r.flag.not }

/-- Convert the inputs, for the places listed. -/
def loadInputs (n : Buf f') (neg : ℕ) (radix2 : Buf h') (input : ∀ i, Buf (fi i)) :
    List (Fin k) → Regs fm → M (Regs fm)
  | [], r => pure r
  | i :: l, r => do
    let b ← unwrapE (ct_to_montgomery_form_mp (r.reg i) (input i) n neg radix2)
    loadInputs n neg radix2 input l (r.set i b)

/-- A user's program: the constants for the modulus, the inputs converted, a program run, one of its numbers converted
back. -/
def evalMod (p : Prog (ModStep k)) (n : Buf f') (e : Buf e') (input : ∀ i, Buf (fi i)) (radix2 : Buf h')
    (r : Regs fm) (out : Fin k) : M (Buf (fm out)) := do
  let neg ← unwrapE (ct_montgomery_neg_n0_inv_mod_l_mp n)
  let radix2 ← unwrapE (ct_montgomery_radix2_mod_n_mp radix2 n)
  let r ← loadInputs n neg radix2 input (List.finRange k) r
  let r ← p.run (ModStep.run n neg e) Regs.flag r
  unwrapE (ct_montgomery_redc_mp (r.reg out) n neg)

/-- The length of the numbers: the one of the modulus, or, if all of them are in native form, the next multiple of the
size of a limb. -/
def ModLen (fm : Fin k → Fmt) (nlen len : ℕ) : Prop :=
  nlen ≤ len ∧ ∀ i, len ≤ nlen ∨ ((fm i).unaligned = false ∧ len - nlen < LB)

/-- The buffers hold these numbers, in Montgomery form. -/
def Regs.HoldsMod (r : Regs fm) (n : Buf f') (len : ℕ) (x : (Fin k → ZMod n.toNat) × Bool) : Prop :=
  (∀ i, (r.reg i).len = len ∧ (r.reg i).toNat < n.toNat ∧
    ((r.reg i).toNat : ZMod n.toNat) = x.1 i * (radix n : ZMod n.toNat)) ∧ r.flag = .ofBool x.2

section
variable {n : Buf f'}

theorem radix_isUnit (hodd : n.toNat % 2 = 1) : IsUnit (radix n : ZMod n.toNat) := by
  rw [ZMod.isUnit_iff_coprime, radix, B, ← pow_mul]
  exact Nat.Coprime.pow_left _ ((Nat.coprime_two_left).2 (Nat.odd_iff.2 hodd))

theorem cast_inj {a b : ℕ} (ha : a < n.toNat) (hb : b < n.toNat) :
    (a : ZMod n.toNat) = (b : ZMod n.toNat) ↔ a = b := by
  rw [ZMod.natCast_eq_natCast_iff', Nat.mod_eq_of_lt ha, Nat.mod_eq_of_lt hb]

theorem ModLen.nlimbs {len : ℕ} (h : ModLen fm n.len len) (i : Fin k) {b : Buf (fm i)} (hb : b.len = len) :
    b.nlimbs = n.nlimbs := by
  rcases h.2 i with h1 | ⟨h1, h2⟩
  · exact Buf.nlimbs_congr (by have := h.1; omega)
  · have h3 := b.aligned h1
    have h4 : n.nlimbs ≤ b.nlimbs := nlimbs_mono (by have := h.1; omega)
    refine le_antisymm ?_ h4
    by_contra hc
    have h5 : n.len ≤ n.nlimbs * LB := le_nlimbs_mul _
    have h6 : (n.nlimbs + 1) * LB ≤ b.nlimbs * LB := Nat.mul_le_mul_right _ (by omega)
    rw [Nat.add_mul, one_mul] at h6
    omega

theorem ModLen.compat {len : ℕ} (h : ModLen fm n.len len) (i : Fin k) {b : Buf (fm i)} (hb : b.len = len)
    (hlt : b.toNat < n.toNat) : LenCompat b n.len := by
  rcases h.2 i with h1 | ⟨h1, h2⟩
  · exact .inl (by omega)
  · exact .inr ⟨h1, by omega, hlt.trans n.toNat_lt⟩

namespace Regs

theorem HoldsMod.set {r : Regs fm} {len : ℕ} {x : Fin k → ZMod n.toNat} {c : Bool} (h : r.HoldsMod n len (x, c))
    {d : Fin k} {b : Buf (fm d)} {v : ZMod n.toNat} (hl : b.len = len) (hlt : b.toNat < n.toNat)
    (hv : (b.toNat : ZMod n.toNat) = v * (radix n : ZMod n.toNat)) :
    (r.set d b).HoldsMod n len (Function.update x d v, c) := by
  refine ⟨fun i => ?_, h.2⟩
  dsimp only [Regs.set]
  by_cases hi : i = d
  · subst hi
    rw [Function.update_self, Function.update_self]
    exact ⟨hl, hlt, hv⟩
  · rw [Function.update_of_ne hi, Function.update_of_ne hi]
    exact h.1 i

theorem HoldsMod.flag {r : Regs fm} {len : ℕ} {x : Fin k → ZMod n.toNat} {c : Bool} (h : r.HoldsMod n len (x, c))
    {l : LimbChoice} {c' : Bool} (hl : l = .ofBool c') : ({ r with flag := l } : Regs fm).HoldsMod n len (x, c') :=
  ⟨h.1, hl⟩

end Regs

theorem ModStep.run_sat (s : ModStep k) {neg : ℕ} {e : Buf e'} {r : Regs fm} {len : ℕ}
    {x : Fin k → ZMod n.toNat} {c : Bool} (hn : ExpModulus n) (hneg : NegInv n neg) (hlen : ModLen fm n.len len)
    (h : r.HoldsMod n len (x, c)) :
    Sat (s.run n neg e r) (fun r => r.HoldsMod n len (s.spec e.toNat (x, c))) := by
  have hl : ∀ i, (r.reg i).len = len := fun i => (h.1 i).1
  have hlt : ∀ i, (r.reg i).toNat < n.toNat := fun i => (h.1 i).2.1
  have hx : ∀ i, ((r.reg i).toNat : ZMod n.toNat) = x i * (radix n : ZMod n.toNat) := fun i => (h.1 i).2.2
  have hc : r.flag = .ofBool c := h.2
  have hnl : ∀ i, n.len ≤ (r.reg i).len := fun i => by rw [hl]; exact hlen.1
  have hfit : ∀ i j, (r.reg i).toNat < 256 ^ (r.reg j).len := fun i j =>
    lt_of_lt_of_le ((hlt i).trans n.toNat_lt) (Nat.pow_le_pow_right (by norm_num) (hnl j))
  have hli : ∀ i, (r.reg i).nlimbs = n.nlimbs := fun i => hlen.nlimbs i (hl i)
  have hpos : 0 < n.toNat := by have := hn.odd; omega
  have hu := radix_isUnit hn.odd
  cases s with
  | add d s =>
    refine (unwrapE_ok (C06_add_mod_partial (r.reg d) (r.reg s) n (.inl (hnl d)) (hlt d) (hlt s)
      (.inl (hli d)))).bind ?_
    rintro b ⟨h1, h2⟩
    refine Sat.pure (h.set (by rw [h1, hl]) (by rw [h2]; exact Nat.mod_lt _ hpos) ?_)
    rw [h2, ZMod.natCast_mod, Nat.cast_add, hx, hx, add_mul]
  | sub d s =>
    refine (unwrapE_ok (C06_sub_mod_partial (r.reg d) (r.reg s) n (.inl (hnl d)) (hlt d) (hlt s)
      (.inl (hli d)))).bind ?_
    rintro b ⟨h1, h2⟩
    refine Sat.pure (h.set (by rw [h1, hl]) ?_ ?_)
    · have := Int.emod_lt_of_pos (((r.reg d).toNat : ℤ) - (r.reg s).toNat) (Int.natCast_pos.2 hpos)
      rw [← h2] at this
      exact_mod_cast this
    · have : ((b.toNat : ℤ) : ZMod n.toNat) = (((r.reg d).toNat : ℤ) - ((r.reg s).toNat : ℤ) : ℤ) := by
        rw [h2, ZMod.intCast_mod]
      rw [Int.cast_sub, Int.cast_natCast, Int.cast_natCast, Int.cast_natCast, hx, hx] at this
      rw [this, sub_mul]
  | neg d =>
    refine (unwrapE_ok (C06_negate_mod (r.reg d) n (.inl (hnl d)) (hlt d))).bind ?_
    rintro b ⟨h1, h2⟩
    refine Sat.pure (h.set (by rw [h1, hl]) ?_ ?_)
    · have := Int.emod_lt_of_pos (-((r.reg d).toNat : ℤ)) (Int.natCast_pos.2 hpos)
      rw [← h2] at this
      exact_mod_cast this
    · have : ((b.toNat : ℤ) : ZMod n.toNat) = (-((r.reg d).toNat : ℤ) : ℤ) := by
        rw [h2, ZMod.intCast_mod]
      rw [Int.cast_neg, Int.cast_natCast, Int.cast_natCast, hx] at this
      rw [this, _root_.neg_mul]
  | mul d a b =>
    refine (unwrapE_ok (C26_mul_partial (r.reg d) (r.reg a) (r.reg b) n neg hn.odd hneg (hlt a) (hlt b)
      (hlen.compat a (hl a) (hlt a)) (hlen.compat b (hl b) (hlt b)) hn.high (hnl d) (.inr hn.align) ?_)).bind ?_
    · right
      have := hnl b
      have := odd_len_pos hn.odd
      omega
    rintro b' ⟨h1, h2, h3⟩
    refine Sat.pure (h.set (by rw [h1, hl]) h2 ?_)
    have h4 := (ZMod.natCast_eq_natCast_iff _ _ _).2 h3
    rw [Nat.cast_mul, Nat.cast_mul, hx, hx] at h4
    refine hu.mul_right_cancel ?_
    rw [h4]
    ring
  | copy d s =>
    refine (C17_copy_from (r.reg d) (r.reg s) (hfit s d)).bind ?_
    rintro b ⟨h1, h2⟩
    exact Sat.pure (h.set (by rw [h1, hl]) (by rw [h2]; exact hlt s) (by rw [h2, hx]))
  | copyIf d s =>
    show Sat (Buf.copy_from_cond _ _ r.flag >>= _) _
    rw [hc]
    refine (C17_copy_from_cond_partial (r.reg d) (r.reg s) c (hfit s d) (.inr (by rw [hl, hl]))).bind ?_
    rintro b ⟨h1, h2⟩
    cases c with
    | false =>
      rw [if_neg Bool.false_ne_true] at h2
      have := h.set (d := d) (by rw [h1, hl]) (by rw [h2]; exact hlt d) (by rw [h2, hx])
      rw [Function.update_eq_self] at this
      exact Sat.pure this
    | true =>
      rw [if_pos rfl] at h2
      exact Sat.pure (h.set (d := d) (by rw [h1, hl]) (by rw [h2]; exact hlt s) (by rw [h2, hx]))
  | swapIf d s =>
    show Sat (ct_swap_cond_mp _ _ r.flag >>= _) _
    rw [hc]
    refine (C04_swap_cond (r.reg d) (r.reg s) c (fun _ => ⟨hfit d s, hfit s d⟩) (by rw [hli, hli])).bind ?_
    rintro ⟨b, b'⟩ ⟨h1, h2, h3, h4⟩
    cases c with
    | false =>
      rw [if_neg Bool.false_ne_true] at h3 h4
      have := (h.set (d := d) (by rw [h1, hl]) (by rw [h3]; exact hlt d) (by rw [h3, hx])).set (d := s)
        (by rw [h2, hl]) (by rw [h4]; exact hlt s) (by rw [h4, hx])
      rw [Function.update_eq_self, Function.update_eq_self] at this
      exact Sat.pure this
    | true =>
      rw [if_pos rfl] at h3 h4
      exact Sat.pure ((h.set (d := d) (by rw [h1, hl]) (by rw [h3]; exact hlt s) (by rw [h3, hx])).set (d := s)
        (by rw [h2, hl]) (by rw [h4]; exact hlt d) (by rw [h4, hx]))
  | eq a b =>
    refine (C01_eq (r.reg a) (r.reg b)).bind ?_
    intro l h1
    refine Sat.pure (h.flag ?_)
    rw [h1, decide_eq_decide.2]
    rw [← cast_inj (hlt a) (hlt b), hx, hx]
    exact hu.mul_left_inj
  | isZero a =>
    refine (C01_is_zero (r.reg a)).bind ?_
    intro l h1
    refine Sat.pure (h.flag ?_)
    rw [h1, decide_eq_decide.2]
    rw [← cast_inj (hlt a) hpos, hx, Nat.cast_zero]
    exact hu.mul_left_eq_zero
  | bit i =>
    refine (C18_test_bit e i).bind ?_
    intro l h1
    exact Sat.pure (h.flag h1)
  | not => exact Sat.pure (h.flag (by rw [hc, LimbChoice.not_ofBool]))

/-- What is in a register after its input has been converted. -/
def FormOf (n : Buf f') (len : ℕ) {f g : Fmt} (b : Buf f) (t : Buf g) : Prop :=
  b.len = len ∧ b.toNat < n.toNat ∧
    (b.toNat : ZMod n.toNat) = (t.toNat : ZMod n.toNat) * (radix n : ZMod n.toNat)

theorem loadInputs_sat {neg : ℕ} {radix2 : Buf h'} {input : ∀ i, Buf (fi i)} {len : ℕ} (hn : ExpModulus n)
    (hneg : NegInv n neg) (hlen : ModLen fm n.len len) (hr2 : radix2.toNat = radix n ^ 2 % n.toNat)
    (hrl : radix2.len = n.len)
    (hin : ∀ i, (input i).toNat < n.toNat ∧ LenCompat (input i) n.len) (l : List (Fin k)) {r : Regs fm}
    (hr : ∀ i, (r.reg i).len = len) (hdone : ∀ i, i ∉ l → FormOf n len (r.reg i) (input i)) :
    Sat (loadInputs n neg radix2 input l r)
      (fun r' => (∀ i, FormOf n len (r'.reg i) (input i)) ∧ r'.flag = r.flag) := by
  induction l generalizing r with
  | nil => exact Sat.pure ⟨fun i => hdone i List.not_mem_nil, rfl⟩
  | cons j l ih =>
    have hpos : 0 < n.toNat := by have := hn.odd; omega
    refine (unwrapE_ok (C27_form_partial (r.reg j) (input j) n neg radix2 hn.odd hneg (hin j).1 hr2 (hin j).2
      (.inl hrl.le) hn.high (by rw [hr]; exact hlen.1) (.inr hn.align) ?_)).bind ?_
    · right
      have := odd_len_pos hn.odd
      omega
    rintro b ⟨h1, h2⟩
    have hb : FormOf n len b (input j) := by
      refine ⟨by rw [h1, hr], by rw [h2]; exact Nat.mod_lt _ hpos, ?_⟩
      rw [h2, ZMod.natCast_mod, Nat.cast_mul]
    refine ih (r := r.set j b) ?_ ?_
    · intro i
      dsimp only [Regs.set]
      by_cases hi : i = j
      · subst hi
        rw [Function.update_self]
        exact hb.1
      · rw [Function.update_of_ne hi]
        exact hr i
    · intro i hi
      dsimp only [Regs.set]
      by_cases hij : i = j
      · subst hij
        rw [Function.update_self]
        exact hb
      · rw [Function.update_of_ne hij]
        exact hdone i (by simp [hij, hi])

/-- A program, run. -/
theorem evalMod_sat (p : Prog (ModStep k)) {e : Buf e'} {input : ∀ i, Buf (fi i)} {radix2 : Buf h'} {r : Regs fm}
    {out : Fin k} {len : ℕ} {c : Bool} (hn : ExpModulus n) (hlen : ModLen fm n.len len) (hrl : radix2.len = n.len)
    (hin : ∀ i, (input i).toNat < n.toNat ∧ LenCompat (input i) n.len) (hr : ∀ i, (r.reg i).len = len)
    (hc : r.flag = .ofBool c) :
    Sat (evalMod p n e input radix2 r out) (fun b => b.len = len ∧
      b.toNat = ((p.spec (ModStep.spec e.toNat)
        (fun i => ((input i).toNat : ZMod n.toNat), c)).1 out).val) := by
  have hpos : 0 < n.toNat := by have := hn.odd; omega
  haveI : NeZero n.toNat := ⟨hpos.ne'⟩
  unfold evalMod
  refine (unwrapE_ok (C25_neg_inv n hn.odd)).bind ?_
  intro neg hneg
  refine (unwrapE_ok (C27_radix2 radix2 n hn.odd (.inl hrl.ge))).bind ?_
  rintro r2 ⟨hr2l, hr2⟩
  refine (loadInputs_sat hn hneg hlen hr2 (by rw [hr2l, hrl]) hin (List.finRange k) hr
    fun i hi => absurd (List.mem_finRange i) hi).bind ?_
  rintro r1 ⟨h1, h2⟩
  have h3 : r1.HoldsMod n len (fun i => ((input i).toNat : ZMod n.toNat), c) := ⟨h1, by rw [h2, hc]⟩
  refine (Prog.run_sat (H := fun (r : Regs fm) x => r.HoldsMod n len x) (fun _ _ h => h.2)
    (fun s _ _ h => ModStep.run_sat s hn hneg hlen h) p h3).bind ?_
  intro r2 h4
  have h5 := h4.1 out
  have hR : 0 < radix n := Nat.pos_of_ne_zero (pow_ne_zero _ B_pos.ne')
  refine (unwrapE_ok (C25_redc_partial (r2.reg out) n neg hn.odd hneg (.inl (by rw [h5.1]; exact hlen.1))
    (.inl ?_) (lt_of_lt_of_le h5.2.1 (Nat.le_mul_of_pos_right _ hR)) hn.two_limbs)).mono ?_
  · rw [h5.1]
    have h6 := hlen.1
    have h7 : 1 * LB < n.len := lt_nlimbs_iff.1 hn.two_limbs
    rcases hlen.2 out with h8 | ⟨-, h8⟩ <;> omega
  · rintro b ⟨h6, h7, h8⟩
    refine ⟨by rw [h6, h5.1], ?_⟩
    have h9 := (ZMod.natCast_eq_natCast_iff _ _ _).2 h8
    rw [Nat.cast_mul, h5.2.2] at h9
    have h10 := (radix_isUnit hn.odd).mul_right_cancel h9
    rw [← h10, ZMod.val_natCast, Nat.mod_eq_of_lt h7]

end

/-! ### Events -/

section
variable [Obs]

theorem ModStep.run_ct (s : ModStep k) {n n' : Buf f'} {neg neg' : ℕ} {e x : Buf e'} (hn : n.len = n'.len)
    (he : e.len = x.len) {r r' : Regs fm} (h : r.SameLens r') :
    SameTr (s.run n neg e r) (s.run n' neg' x r') Regs.SameLens := by
  cases s with
  | add d s => exact (unwrapE_ct (ct_add_mod_mp_mp_ct (h d) (h s) hn)).bind fun _ _ hp => SameTr.pure (h.set hp)
  | sub d s => exact (unwrapE_ct (ct_sub_mod_mp_mp_ct (h d) (h s) hn)).bind fun _ _ hp => SameTr.pure (h.set hp)
  | neg d => exact (unwrapE_ct (ct_negate_mod_mp_ct (h d) hn)).bind fun _ _ hp => SameTr.pure (h.set hp)
  | mul d a b =>
    exact (unwrapE_ct (ct_montgomery_mul_mod_mp_mp_ct (h d) (h a) (h b) hn)).bind fun _ _ hp => SameTr.pure (h.set hp)
  | copy d s => exact (Buf.copy_from_ct (h d) (h s)).bind fun _ _ hp => SameTr.pure (h.set hp)
  | copyIf d s => exact (Buf.copy_from_cond_ct (h d) (h s)).bind fun _ _ hp => SameTr.pure (h.set hp)
  | swapIf d s =>
    exact (ct_swap_cond_mp_ct (h d) (h s)).bind fun _ _ hp => SameTr.pure ((h.set hp.1).set hp.2)
  | eq a b => exact (ct_eq_mp_mp_ct (h a) (h b)).bind fun _ _ _ => SameTr.pure h
  | isZero a => exact (ct_is_zero_mp_ct (h a)).bind fun _ _ _ => SameTr.pure h
  | bit i => exact (Buf.test_bit_ct he rfl).bind fun _ _ _ => SameTr.pure h
  | not => exact SameTr.pure h

theorem loadInputs_ct {n n' : Buf f'} {neg neg' : ℕ} {radix2 radix2' : Buf h'} {input input' : ∀ i, Buf (fi i)}
    (hn : n.len = n'.len) (hr2 : radix2.len = radix2'.len) (hin : ∀ i, (input i).len = (input' i).len)
    (l : List (Fin k)) {r r' : Regs fm} (h : r.SameLens r') :
    SameTr (loadInputs n neg radix2 input l r) (loadInputs n' neg' radix2' input' l r') Regs.SameLens := by
  induction l generalizing r r' with
  | nil => exact SameTr.pure h
  | cons j l ih =>
    exact (unwrapE_ct (ct_to_montgomery_form_mp_ct (h j) (hin j) hn hr2)).bind fun _ _ hp => ih (h.set hp)

theorem evalMod_ct (p : Prog (ModStep k)) (hp : p.Straight) {n n' : Buf f'} {e x : Buf e'}
    {input input' : ∀ i, Buf (fi i)} {radix2 radix2' : Buf h'} {r r' : Regs fm} {out : Fin k}
    (hn : n.len = n'.len) (hnb : byteLen n.toNat = byteLen n'.toNat) (he : e.len = x.len)
    (hin : ∀ i, (input i).len = (input' i).len) (hr2 : radix2.len = radix2'.len) (h : r.SameLens r') :
    SameTr (evalMod p n e input radix2 r out) (evalMod p n' x input' radix2' r' out) Pub.rel := by
  unfold evalMod
  refine (unwrapE_ct (ct_montgomery_neg_n0_inv_mod_l_mp_ct hn)).bind fun _ _ _ => ?_
  refine (unwrapE_ct (ct_montgomery_radix2_mod_n_mp_ct hr2 hn hnb)).bind fun _ _ h2 => ?_
  refine (loadInputs_ct hn h2 hin _ h).bind fun _ _ h => ?_
  refine (Prog.run_ct (fun s _ _ h => s.run_ct hn he h) p hp h).bind fun _ _ h => ?_
  exact unwrapE_ct (ct_montgomery_redc_mp_ct (h out) hn)

end

/-! ## C52 -/

/-- C52: a program made of modular operations of the library computes what it is to compute in the ring of integers modulo
`n`, the conversions to and from Montgomery form included, whatever the buffers held before.

Missing: the moduli excluded by `ExpModulus` (see C25, C26 and C27). -/
theorem C52_program_partial (p : Prog (ModStep k)) (n : Buf f') (e : Buf e') (input : ∀ i, Buf (fi i))
    (radix2 : Buf h') (r : Regs fm) (out : Fin k) (len : ℕ) (flag : Bool) (hn : ExpModulus n)
    (hlen : ModLen fm n.len len) (hrl : radix2.len = n.len)
    (hin : ∀ i, (input i).len = n.len ∧ (input i).toNat < n.toNat) (hr : ∀ i, (r.reg i).len = len)
    (hf : r.flag = .ofBool flag) :
    Sat (evalMod p n e input radix2 r out) (fun b => b.len = len ∧ b.toNat < n.toNat ∧
      (b.toNat : ZMod n.toNat) = (p.spec (ModStep.spec e.toNat)
        (fun i => ((input i).toNat : ZMod n.toNat), flag)).1 out) := by
  haveI : NeZero n.toNat := ⟨by have := hn.odd; omega⟩
  refine (evalMod_sat p hn hlen hrl (fun i => ⟨(hin i).2, .inl (hin i).1.le⟩) hr hf).mono ?_
  rintro b ⟨h1, h2⟩
  refine ⟨h1, by rw [h2]; exact ZMod.val_lt _, by rw [h2, ZMod.natCast_val, ZMod.cast_id]⟩

/-- C52: unless the program branches on the flag, the events of its run depend on lengths only: neither on the
inputs, nor on the scalar, nor on the modulus, up to the number of its bytes. -/
theorem C52_constant_time_partial (p : Prog (ModStep k)) (hp : p.Straight) (n n' : Buf f') (e x : Buf e')
    (input input' : ∀ i, Buf (fi i)) (radix2 radix2' : Buf h') (r r' : Regs fm) (out : Fin k) (len : ℕ)
    (flag flag' : Bool) (hn : ExpModulus n) (hn' : ExpModulus n') (hnn : n.len = n'.len)
    (hnb : byteLen n.toNat = byteLen n'.toNat) (he : e.len = x.len) (hlen : ModLen fm n.len len)
    (hrl : radix2.len = n.len) (hrl' : radix2'.len = n.len)
    (hin : ∀ i, (input i).len = n.len ∧ (input i).toNat < n.toNat)
    (hin' : ∀ i, (input' i).len = n.len ∧ (input' i).toNat < n'.toNat)
    (hr : ∀ i, (r.reg i).len = len) (hr' : ∀ i, (r'.reg i).len = len)
    (hf : r.flag = .ofBool flag) (hf' : r'.flag = .ofBool flag') :
    (evalMod p n e input radix2 r out).tr = (evalMod p n' x input' radix2' r' out).tr := by
  have h1 := C52_program_partial p n e input radix2 r out len flag hn hlen hrl hin hr hf
  have h2 := C52_program_partial p n' x input' radix2' r' out len flag' hn' (hnn ▸ hlen) (by rw [hrl', hnn])
    (fun i => ⟨by rw [(hin' i).1, hnn], (hin' i).2⟩) hr' hf'
  exact sameEvents (@evalMod_ct _ k fm fi f' e' h' Obs.full p hp n n' e x input input' radix2 radix2' r r' out hnn hnb he
    (fun i => by rw [(hin i).1, (hin' i).1]) (by rw [hrl, hrl']) fun i => by rw [hr, hr']) h1.ne_none h2.ne_none

/-! ### An example: powers by squaring, with a secret exponent -/

/-- `x 0 = x 0 ^ 2 * (x 1 if the bit i of the scalar is set)`, using `x 2`. -/
def squareStep (i : ℕ) : Prog (ModStep 3) :=
  .seq (.step (.mul 2 0 0)) (.seq (.step (.copy 0 2)) (.seq (.step (.mul 2 0 1))
    (.seq (.step (.bit i)) (.step (.copyIf 0 2)))))

/-- Powers by squaring. -/
def powProg (nbits : ℕ) : Prog (ModStep 3) := .loop nbits fun i => squareStep (nbits - 1 - i)

omit [LimbCfg] in
theorem squareStep_spec {N : ℕ} (e i : ℕ) (x : (Fin 3 → ZMod N) × Bool) :
    ((squareStep i).spec (ModStep.spec e) x).1 0 = x.1 0 ^ 2 * x.1 1 ^ (e.testBit i).toNat ∧
    ((squareStep i).spec (ModStep.spec e) x).1 1 = x.1 1 := by
  obtain ⟨x, c⟩ := x
  cases h : e.testBit i <;> simp [squareStep, Prog.spec, ModStep.spec, h, Function.update, sq]

omit [LimbCfg] in
theorem powProg_spec {N : ℕ} (e nbits : ℕ) (he : e < 2 ^ nbits) (x : (Fin 3 → ZMod N) × Bool) (h0 : x.1 0 = 1) :
    ((powProg nbits).spec (ModStep.spec e) x).1 0 = x.1 1 ^ e := by
  have key : ∀ i, i ≤ nbits →
      ((List.range i).foldl (fun x i => (squareStep (nbits - 1 - i)).spec (ModStep.spec e) x) x).1 0 =
        x.1 1 ^ (e / 2 ^ (nbits - i)) ∧
      ((List.range i).foldl (fun x i => (squareStep (nbits - 1 - i)).spec (ModStep.spec e) x) x).1 1 = x.1 1 := by
    intro i
    induction i with
    | zero =>
      intro _
      refine ⟨?_, rfl⟩
      rw [Nat.sub_zero, Nat.div_eq_of_lt he, pow_zero]
      exact h0
    | succ i ih =>
      intro hi
      obtain ⟨h1, h2⟩ := ih (by omega)
      rw [List.range_succ, List.foldl_append, List.foldl_cons, List.foldl_nil]
      obtain ⟨h3, h4⟩ := squareStep_spec e (nbits - 1 - i)
        ((List.range i).foldl (fun x i => (squareStep (nbits - 1 - i)).spec (ModStep.spec e) x) x)
      rw [h3, h4, h1, h2]
      refine ⟨?_, rfl⟩
      rw [← pow_mul, ← pow_add]
      congr 1
      have h5 : nbits - i = (nbits - 1 - i) + 1 := by omega
      have h6 : nbits - (i + 1) = nbits - 1 - i := by omega
      rw [h5, h6, pow_succ, ← Nat.div_div_eq_div_mul, Nat.testBit_eq_decide_div_mod_eq]
      generalize e / 2 ^ (nbits - 1 - i) = q
      have := Nat.div_add_mod q 2
      rcases Nat.mod_two_eq_zero_or_one q with hq | hq <;> simp [hq] <;> omega
  have := (key nbits le_rfl).1
  rw [Nat.sub_self, pow_zero, Nat.div_one] at this
  exact this

/-- C52: for example, powers with a secret exponent. -/
theorem C52_power_partial {fm fi : Fin 3 → Fmt} (nbits : ℕ) (n : Buf f') (e : Buf e') (input : ∀ i, Buf (fi i))
    (radix2 : Buf h') (r : Regs fm) (len : ℕ) (flag : Bool) (hn : ExpModulus n)
    (hlen : ModLen fm n.len len) (hrl : radix2.len = n.len)
    (hin : ∀ i, (input i).len = n.len ∧ (input i).toNat < n.toNat) (hr : ∀ i, (r.reg i).len = len)
    (hf : r.flag = .ofBool flag) (h0 : (input 0).toNat = 1) (he : e.toNat < 2 ^ nbits) :
    Sat (evalMod (powProg nbits) n e input radix2 r 0) (fun b => b.len = len ∧
      b.toNat = (input 1).toNat ^ e.toNat % n.toNat) := by
  refine (C52_program_partial (powProg nbits) n e input radix2 r 0 len flag hn hlen hrl hin hr hf).mono ?_
  rintro b ⟨h1, h2, h3⟩
  refine ⟨h1, ?_⟩
  rw [powProg_spec e.toNat nbits he _ (by simp [h0]), ← Nat.cast_pow, ZMod.natCast_eq_natCast_iff'] at h3
  rw [← h3, Nat.mod_eq_of_lt h2]

/-- The inputs of the example: 1, the base, and one which doesn't matter. -/
def exInputs (f : Fmt) (base : ℕ) : ∀ i : Fin 3, Buf ((fun _ => f) i)
  | 0 => Buf.ofNat f 8 1
  | 1 => Buf.ofNat f 8 base
  | 2 => Buf.ofNat f 8 0

omit [LimbCfg] in
example : letI := cfg32;
    (evalMod (powProg 4) (Buf.ofNat .be 8 0x123456789abcdef) (Buf.ofNat .le 1 11) (exInputs .be 0xfedcba987654)
      (Buf.ofNat .le 8 0) (exRegs 5) 0).val.map Buf.toNat =
    some (0xfedcba987654 ^ 11 % 0x123456789abcdef) := by decide +kernel

omit [LimbCfg] in
example : letI := cfg32; ExpModulus (Buf.ofNat .be 8 0x123456789abcdef) ∧ ModLen exFmt 8 8 :=
  letI := cfg32
  ⟨⟨by decide +kernel, by decide +kernel, by decide +kernel, .inl (by decide +kernel)⟩, le_rfl, fun _ => .inl le_rfl⟩

example (nbits : ℕ) : (powProg nbits).Straight := fun _ => ⟨trivial, trivial, trivial, trivial, trivial⟩

omit [LimbCfg] in
/-- The same run, for another exponent and another base. -/
example : letI := cfg32;
    (evalMod (powProg 1) (Buf.ofNat .be 8 0x123456789abcdef) (Buf.ofNat .le 1 1) (exInputs .be 0xfedcba987654)
      (Buf.ofNat .le 8 0) (exRegs 5) 0).tr =
    (evalMod (powProg 1) (Buf.ofNat .be 8 0x123456789abcdef) (Buf.ofNat .le 1 0) (exInputs .be 2)
      (Buf.ofNat .le 8 0) (exRegs 6) 0).tr := by decide +kernel

omit [LimbCfg] in
/-- C52 doesn't hold for all odd moduli of two limbs: the square of `-2` modulo `2 ^ 64 - 1` comes out as `3`, with 32 bit
limbs (finding M4). -/
theorem C52_carry_fails : ∃ (c : LimbCfg) (n : @Buf c .be) (e : @Buf c .le) (input : Fin 3 → @Buf c .be)
    (radix2 : @Buf c .le) (r : @Regs c 3 exFmt), @Buf.toNat c .be n = 2 ^ 64 - 1 ∧ @Buf.toNat c .le e = 2 ∧
    @Buf.toNat c .be (input 0) = 1 ∧ @Buf.toNat c .be (input 1) = 2 ^ 64 - 3 ∧ @Buf.nlimbs c .be n = 2 ∧
    (@evalMod c 3 exFmt (fun _ => .be) .be .le .le (powProg 2) n e input radix2 r 0).val.map (@Buf.toNat c .be) = some 3 ∧
    (2 ^ 64 - 3) ^ 2 % (2 ^ 64 - 1) = 4 :=
  ⟨cfg32, @Buf.ofNat cfg32 .be 8 (2 ^ 64 - 1), @Buf.ofNat cfg32 .le 1 2, @exInputs cfg32 .be (2 ^ 64 - 3),
    @Buf.ofNat cfg32 .le 8 0, @exRegs cfg32 5, by decide +kernel, by decide +kernel, by decide +kernel,
    by decide +kernel, by decide +kernel, by decide +kernel, by decide +kernel⟩

end Props
end Cmpa
