import Verif.Props.RsaKey
import Verif.Props.Euclid
import Verif.Props.Hex

/-!
# C68: arithmetic of natural numbers without exceptions

Every finding of this verification concerns operands of a special shape.  With the crate's operations alone, a user can build
operations on natural numbers that are right for all operands in buffers of all lengths, and never panic: they look at
the operands first, and provide enough space.
-/

namespace Cmpa
namespace Props

open M
variable [LimbCfg]

/-! ## The programs -/

/-- A user's program: `a + b`. -/
def natAdd (a b : Buf .be) : M (Buf .be) := do
  let w ← (zeros (max a.len b.len + 1)).copy_from a
  let (w, _) ← ct_add_mp_mp w b
  pure w

/-- A user's program: `a - b`, if `b` isn't greater. -/
def natSub (a b : Buf .be) : M (Option (Buf .be)) := do
  let lt ← ct_lt_mp_mp a b
  M.cond (lt.unwrap ≠ 0) (pure none) do
    let w ← (zeros (max a.len b.len)).copy_from a
    let (w, _) ← ct_sub_mp_mp w b
    pure (some w)

/-- A user's program: quotient and remainder, if the divisor isn't zero. -/
def natDivMod (a b : Buf .be) : M (Option (Buf .be × Buf .be)) := do
  let z ← ct_is_zero_mp b
  M.cond (z.unwrap ≠ 0) (pure none) do
    let q ← quotTo a.len a b
    let r ← reduceTo (zeros b.len) a b
    pure (some (q, r))

/-- A user's program: the greatest common divisor. -/
def natGcd (a b : Buf .be) : M (Buf .be) := do
  let z ← ct_is_zero_mp a
  M.cond (z.unwrap ≠ 0) (pure b) do
    let a' ← (zeros (max a.len b.len)).copy_from a
    let b' ← (zeros (max a.len b.len)).copy_from b
    let (g, _) ← unwrapE (ct_gcd_mp_mp a' b')
    pure g

/-- A user's program: the least common multiple. -/
def natLcm (a b : Buf .be) : M (Buf .be) := do
  let z ← ct_is_zero_mp a
  M.cond (z.unwrap ≠ 0) (pure a) do
    let g ← natGcd a b
    let q ← quotTo a.len a g
    wideMul q b

/-- The loop of `natPow`: with `r` the power for the exponent without its `i` lowest bits. -/
def natPowFrom (n a e : Buf .be) : ℕ → Buf .be → M (Buf .be)
  | 0, r => pure r
  | i + 1, r => do
    let s ← fMul n r r
    let b ← e.test_bit i
    let s ← M.cond (b.unwrap ≠ 0) (fMul n s a) (pure s)
    natPowFrom n a e i s

/-- A user's program: `a ^ e` modulo `n`, if `n` isn't zero. -/
def natPow (n a e : Buf .be) : M (Option (Buf .be)) := do
  let z ← ct_is_zero_mp n
  M.cond (z.unwrap ≠ 0) (pure none) do
    let a ← reduceTo (zeros n.len) a n
    let o ← n.test_bit 0
    M.cond (o.unwrap ≠ 0)
      (do let r ← fPow n a e
          pure (some r))
      (do let one ← reduceTo (zeros n.len) (oneBuf 1) n
          let r ← natPowFrom n a e (8 * e.len) one
          pure (some r))

/-- A user's program: an inverse of `a` modulo `n`, if there is one. -/
def natInv (n a : Buf .be) : M (Option (Buf .be)) := do
  let z ← ct_is_zero_mp n
  M.cond (z.unwrap ≠ 0) (pure none) do
    let one ← ct_is_one_mp n
    M.cond (one.unwrap ≠ 0) (pure (some (zeros n.len))) do
      let a ← reduceTo (zeros n.len) a n
      let o ← n.test_bit 0
      M.cond (o.unwrap ≠ 0) (tryInv n a) do
        let ao ← a.test_bit 0
        M.cond (ao.unwrap = 0) (pure none) do
          let a1 ← ct_is_one_mp a
          M.cond (a1.unwrap ≠ 0) (pure (some a)) (rsaExponent n a)

/-! ## Proofs -/

theorem copy_sat (k : ℕ) (a : Buf .be) (h : a.len ≤ k) :
    Sat ((zeros k).copy_from a) (fun r => r.len = k ∧ r.toNat = a.toNat) :=
  (C17_copy_from (zeros k) a (by rw [zeros_len]; exact a.toNat_lt.trans_le (Nat.pow_le_pow_right (by norm_num) h))).mono
    fun _ hr => ⟨hr.1.trans (zeros_len _), hr.2⟩

theorem unwrap_ne_zero {c : Bool} : (LimbChoice.ofBool c).unwrap ≠ 0 ↔ c = true := by
  rw [LimbChoice.unwrap_ofBool]
  cases c <;> simp

/-- **C68**: sums. -/
theorem C68_add (a b : Buf .be) : Sat (natAdd a b) (fun r => r.toNat = a.toNat + b.toNat) := by
  unfold natAdd
  refine (copy_sat _ a (by omega)).bind fun w hw => ?_
  refine (C02_add_len w b (by rw [hw.1]; omega)).bind ?_
  rintro ⟨r, c⟩ ⟨h1, h2, h3⟩
  refine Sat.pure ?_
  rw [hw.1, hw.2] at h3
  have h4 : ∀ x : Buf .be, x.len ≤ max a.len b.len → x.toNat < 256 ^ max a.len b.len := fun x hx =>
    x.toNat_lt.trans_le (Nat.pow_le_pow_right (by norm_num) hx)
  have h5 := h4 a (le_max_left _ _)
  have h6 := h4 b (le_max_right _ _)
  rcases Nat.eq_zero_or_pos c with rfl | hc
  · simpa using h3
  · obtain rfl : c = 1 := by omega
    rw [pow_succ] at h3
    omega

/-- **C68**: differences. -/
theorem C68_sub (a b : Buf .be) :
    Sat (natSub a b) (fun o => o.map Buf.toNat = if b.toNat ≤ a.toNat then some (a.toNat - b.toNat) else none) := by
  unfold natSub
  refine (C01_lt a b).bind ?_
  rintro _ rfl
  refine Sat.cond (fun hc => ?_) fun hc => ?_
  · rw [unwrap_ne_zero, decide_eq_true_eq] at hc
    exact Sat.pure (by rw [if_neg (by omega)]; rfl)
  · rw [unwrap_ne_zero, decide_eq_true_eq] at hc
    refine (copy_sat _ a (le_max_left _ _)).bind fun w hw => ?_
    refine (C03_sub_len w b (by rw [hw.1]; exact le_max_right _ _)).bind ?_
    rintro ⟨r, c⟩ ⟨h1, h2, h3⟩
    refine Sat.pure ?_
    rw [if_pos (by omega)]
    dsimp only [Option.map_some]
    congr 1
    have h4 := r.toNat_lt
    rw [h1] at h4
    rcases Nat.eq_zero_or_pos c with rfl | hc'
    · omega
    · obtain rfl : c = 1 := by omega
      omega

/-- **C68**: products. -/
theorem C68_mul (a b : Buf .be) : Sat (wideMul a b) (fun r => r.toNat = a.toNat * b.toNat) :=
  (wideMul_sat a b).mono fun _ h => h.2

/-- **C68**: quotients and remainders. -/
theorem C68_div_mod (a b : Buf .be) :
    Sat (natDivMod a b) (fun o => o.map (fun r => (r.1.toNat, r.2.toNat)) =
      if b.toNat = 0 then none else some (a.toNat / b.toNat, a.toNat % b.toNat)) := by
  unfold natDivMod
  refine (C01_is_zero b).bind ?_
  rintro _ rfl
  refine Sat.cond (fun hc => ?_) fun hc => ?_
  · rw [unwrap_ne_zero, decide_eq_true_eq] at hc
    exact Sat.pure (by rw [if_pos hc]; rfl)
  · rw [unwrap_ne_zero, decide_eq_true_eq] at hc
    refine (quotTo_sat a.len a b (by omega) ((Nat.div_le_self _ _).trans_lt a.toNat_lt)).bind fun q hq => ?_
    refine (reduceTo_sat (zeros b.len) a b (by omega) (zeros_len _).ge).bind fun r hr => ?_
    refine Sat.pure ?_
    rw [if_neg hc, Option.map_some, hq.2, hr.2]

/-- **C68**: greatest common divisors. -/
theorem C68_gcd (a b : Buf .be) : Sat (natGcd a b) (fun r => r.toNat = Nat.gcd a.toNat b.toNat) := by
  unfold natGcd
  refine (C01_is_zero a).bind ?_
  rintro _ rfl
  refine Sat.cond (fun hc => ?_) fun hc => ?_
  · rw [unwrap_ne_zero, decide_eq_true_eq] at hc
    exact Sat.pure (by rw [hc, Nat.gcd_zero_left])
  · rw [unwrap_ne_zero, decide_eq_true_eq] at hc
    have hl := len_pos_of_pos (Nat.pos_of_ne_zero hc)
    refine (copy_sat _ a (le_max_left _ _)).bind fun a' ha => ?_
    refine (copy_sat _ b (le_max_right _ _)).bind fun b' hb => ?_
    refine Sat.bind (P := fun s => s.1.toNat = Nat.gcd a.toNat b.toNat) ?_ ?_
    · refine unwrapE_sat ((C29_gcd a' b' (by rw [ha.1]; omega) (.inl (by rw [ha.1, hb.1])) (.inl (by rw [ha.1, hb.1]))
        (by rw [ha.2]; omega)).mono ?_)
      rintro _ ⟨r0, r1, rfl, -, -, h, -⟩
      exact ⟨(r0, r1), rfl, by rw [h, ha.2, hb.2]⟩
    · rintro ⟨g, _⟩ hg
      exact Sat.pure hg

/-- **C68**: least common multiples. -/
theorem C68_lcm (a b : Buf .be) : Sat (natLcm a b) (fun r => r.toNat = Nat.lcm a.toNat b.toNat) := by
  unfold natLcm
  refine (C01_is_zero a).bind ?_
  rintro _ rfl
  refine Sat.cond (fun hc => ?_) fun hc => ?_
  · rw [unwrap_ne_zero, decide_eq_true_eq] at hc
    exact Sat.pure (by rw [hc, Nat.lcm_zero_left])
  · rw [unwrap_ne_zero, decide_eq_true_eq] at hc
    refine (C68_gcd a b).bind fun g hg => ?_
    have hg0 : 0 < g.toNat := hg ▸ Nat.gcd_pos_of_pos_left _ (Nat.pos_of_ne_zero hc)
    refine (quotTo_sat a.len a g hg0 ((Nat.div_le_self _ _).trans_lt a.toNat_lt)).bind fun q hq => ?_
    refine (wideMul_sat q b).mono fun r hr => ?_
    rw [hr.2, hq.2, hg, Nat.lcm, Nat.div_mul_right_comm (Nat.gcd_dvd_left _ _)]

theorem natPowFrom_sat (n a e : Buf .be) (h0 : 0 < n.toNat) {x : ZMod n.toNat} (ha : El n a x) (i : ℕ) (r : Buf .be)
    (hr : El n r (x ^ (e.toNat / 2 ^ i))) : Sat (natPowFrom n a e i r) (fun s => El n s (x ^ e.toNat)) := by
  induction i generalizing r with
  | zero => exact Sat.pure (by simpa using hr)
  | succ i ih =>
    rw [natPowFrom]
    refine (fMul_sat hr hr).bind fun s hs => ?_
    refine (C18_test_bit e i).bind ?_
    rintro _ rfl
    have hd : e.toNat / 2 ^ i = 2 * (e.toNat / 2 ^ (i + 1)) + e.toNat / 2 ^ i % 2 := by
      have := Nat.div_add_mod (e.toNat / 2 ^ i) 2
      rw [Nat.div_div_eq_div_mul, ← pow_succ] at this
      exact this.symm
    refine Sat.bind (P := fun s => El n s (x ^ (e.toNat / 2 ^ i))) (Sat.cond (fun hc => ?_) fun hc => ?_) fun s hs =>
      ih s hs
    · rw [unwrap_ne_zero, Nat.testBit_eq_decide_div_mod_eq, decide_eq_true_eq] at hc
      refine (fMul_sat hs ha).mono fun t ht => ?_
      rw [hd, hc, pow_succ, two_mul, pow_add]
      exact ht
    · rw [unwrap_ne_zero, Nat.testBit_eq_decide_div_mod_eq, decide_eq_true_eq] at hc
      refine Sat.pure ?_
      rw [hd, Nat.mod_two_ne_one.1 hc, add_zero, two_mul, pow_add]
      exact hs

theorem test_bit_zero {n : ℕ} : n.testBit 0 = true ↔ n % 2 = 1 := by
  rw [Nat.testBit_eq_decide_div_mod_eq, decide_eq_true_eq, pow_zero, Nat.div_one]

/-- **C68**: modular powers, for even and odd moduli. -/
theorem C68_pow (n a e : Buf .be) :
    Sat (natPow n a e) (fun o => o.map Buf.toNat =
      if n.toNat = 0 then none else some (a.toNat ^ e.toNat % n.toNat)) := by
  unfold natPow
  refine (C01_is_zero n).bind ?_
  rintro _ rfl
  refine Sat.cond (fun hc => ?_) fun hc => ?_
  · rw [unwrap_ne_zero, decide_eq_true_eq] at hc
    exact Sat.pure (by rw [if_pos hc]; rfl)
  · rw [unwrap_ne_zero, decide_eq_true_eq] at hc
    rw [if_neg hc]
    have h0 := Nat.pos_of_ne_zero hc
    refine (reduceTo_el h0).bind fun a' ha => ?_
    refine (C18_test_bit n 0).bind ?_
    rintro _ rfl
    refine Sat.cond (fun hc => ?_) fun hc => ?_
    · rw [unwrap_ne_zero, test_bit_zero] at hc
      refine (C65_power n a' e hc ha.1.len ha.1.lt).bind fun r hr => Sat.pure ?_
      rw [Option.map_some, hr.2, ha.2, ← Nat.pow_mod]
    · refine (reduceTo_el h0).bind fun one h1 => ?_
      refine (natPowFrom_sat n a' e h0 ha.1 (8 * e.len) one ?_).bind fun r hr => Sat.pure ?_
      · rw [Nat.div_eq_of_lt (by rw [pow_mul]; exact e.toNat_lt), pow_zero]
        have := h1.1
        rwa [oneBuf_toNat, Nat.cast_one] at this
      · rw [Option.map_some]
        have := hr
        rw [← Nat.cast_pow] at this
        congr 1
        have h2 := (ZMod.natCast_eq_natCast_iff' r.toNat (a.toNat ^ e.toNat) n.toNat).1 this.val
        rwa [Nat.mod_eq_of_lt hr.lt] at h2

/-- **C68**: inverses, for even and odd moduli. -/
theorem C68_inv (n a : Buf .be) :
    Sat (natInv n a) (fun o => (o = none ↔ n.toNat = 0 ∨ ¬ Nat.Coprime a.toNat n.toNat) ∧
      ∀ r, o = some r → r.toNat < n.toNat ∧ a.toNat * r.toNat ≡ 1 [MOD n.toNat]) := by
  unfold natInv
  refine (C01_is_zero n).bind ?_
  rintro _ rfl
  refine Sat.cond (fun hc => ?_) fun hc => ?_
  · rw [unwrap_ne_zero, decide_eq_true_eq] at hc
    exact Sat.pure ⟨by simp [hc], by simp⟩
  rw [unwrap_ne_zero, decide_eq_true_eq] at hc
  have h0 := Nat.pos_of_ne_zero hc
  refine (C01_is_one n).bind ?_
  rintro _ rfl
  refine Sat.cond (fun h1 => ?_) fun h1 => ?_
  · rw [unwrap_ne_zero, decide_eq_true_eq] at h1
    refine Sat.pure ⟨by simp [h1], ?_⟩
    rintro _ h
    cases h
    rw [zeros_toNat, h1]
    exact ⟨one_pos, Nat.modEq_one⟩
  rw [unwrap_ne_zero, decide_eq_true_eq] at h1
  refine (reduceTo_el h0).bind fun a' ha => ?_
  have hgcd : Nat.gcd a'.toNat n.toNat = Nat.gcd a.toNat n.toNat := by
    rw [ha.2, ← Nat.gcd_rec, Nat.gcd_comm]
  have hmul : ∀ k, a'.toNat * k % n.toNat = 1 → a.toNat * k ≡ 1 [MOD n.toNat] := by
    intro k hk
    rw [ha.2, Nat.mod_mul_mod] at hk
    rw [Nat.ModEq, hk, Nat.mod_eq_of_lt (by omega)]
  refine (C18_test_bit n 0).bind ?_
  rintro _ rfl
  refine Sat.cond (fun h2 => ?_) fun h2 => ?_
  · rw [unwrap_ne_zero, test_bit_zero] at h2
    refine (C65_inverse n a' h2 (by omega) ha.1.len).mono ?_
    rintro o ⟨h3, h4⟩
    refine ⟨by rw [h3, hgcd]; simp [hc, Nat.Coprime], fun r hr => ?_⟩
    obtain ⟨-, h5, h6⟩ := h4 r hr
    exact ⟨h5, hmul _ h6⟩
  rw [unwrap_ne_zero, test_bit_zero] at h2
  refine (C18_test_bit a' 0).bind ?_
  rintro _ rfl
  refine Sat.cond (fun h3 => ?_) fun h3 => ?_
  · have h3' : ¬ a'.toNat % 2 = 1 := fun h => (unwrap_ne_zero.2 (test_bit_zero.2 h)) h3
    refine Sat.pure ⟨?_, by simp⟩
    simp only [true_iff]
    refine Or.inr fun hco => ?_
    have h5 : 2 ∣ Nat.gcd a'.toNat n.toNat := Nat.dvd_gcd (by omega) (by omega)
    rw [hgcd, hco] at h5
    omega
  have h3' : a'.toNat % 2 = 1 := test_bit_zero.1 (unwrap_ne_zero.1 h3)
  refine (C01_is_one a').bind ?_
  rintro _ rfl
  refine Sat.cond (fun h4 => ?_) fun h4 => ?_
  · rw [unwrap_ne_zero, decide_eq_true_eq] at h4
    have hco : Nat.Coprime a.toNat n.toNat := by
      rw [Nat.Coprime, ← hgcd, h4, Nat.gcd_one_left]
    refine Sat.pure ⟨by simp [hc, hco], ?_⟩
    rintro _ h
    cases h
    refine ⟨ha.1.lt, hmul _ ?_⟩
    rw [h4, mul_one, Nat.mod_eq_of_lt (by omega)]
  · rw [unwrap_ne_zero, decide_eq_true_eq] at h4
    refine (C66_exponent n a' (by omega) h3' (by omega)).mono ?_
    rintro o ⟨h5, h6⟩
    refine ⟨by rw [h5, hgcd]; simp [hc, Nat.Coprime], fun r hr => ?_⟩
    obtain ⟨-, h7, h8⟩ := h6 r hr
    exact ⟨h7, hmul _ h8⟩

/-! ## Expressions -/

/-- Expressions of natural numbers. -/
inductive NatExpr where
  | var (i : ℕ)
  | add (s t : NatExpr)
  | sub (s t : NatExpr)
  | mul (s t : NatExpr)
  | div (s t : NatExpr)
  | mod (s t : NatExpr)
  | gcd (s t : NatExpr)
  | lcm (s t : NatExpr)
  | powMod (n s t : NatExpr)
  | invMod (n s : NatExpr)

/-- The value of an expression; `none` for a negative difference, a division or reduction by zero, and a missing inverse. -/
def NatExpr.value (env : List ℕ) : NatExpr → Option ℕ
  | var i => env[i]?
  | add s t => do let x ← s.value env; let y ← t.value env; pure (x + y)
  | sub s t => do let x ← s.value env; let y ← t.value env; if y ≤ x then pure (x - y) else none
  | mul s t => do let x ← s.value env; let y ← t.value env; pure (x * y)
  | div s t => do let x ← s.value env; let y ← t.value env; if y = 0 then none else pure (x / y)
  | mod s t => do let x ← s.value env; let y ← t.value env; if y = 0 then none else pure (x % y)
  | gcd s t => do let x ← s.value env; let y ← t.value env; pure (Nat.gcd x y)
  | lcm s t => do let x ← s.value env; let y ← t.value env; pure (Nat.lcm x y)
  | powMod n s t => do
    let m ← n.value env; let x ← s.value env; let y ← t.value env; if m = 0 then none else pure (x ^ y % m)
  | invMod n s => do
    let m ← n.value env; let x ← s.value env
    if m = 0 ∨ ¬ Nat.Coprime x m then none else pure (((x : ZMod m)⁻¹).val)

/-- Evaluate two expressions, and go on with their values if both have one. -/
def bothOf {α : Type} (s t : M (Option (Buf .be))) (k : Buf .be → Buf .be → M (Option α)) : M (Option α) := do
  match ← s with
  | none => pure none
  | some x => do
    match ← t with
    | none => pure none
    | some y => k x y

/-- A user's program: evaluate an expression with the crate's operations. -/
def NatExpr.eval (env : List (Buf .be)) : NatExpr → M (Option (Buf .be))
  | var i => pure env[i]?
  | add s t => bothOf (s.eval env) (t.eval env) fun x y => do let r ← natAdd x y; pure (some r)
  | sub s t => bothOf (s.eval env) (t.eval env) natSub
  | mul s t => bothOf (s.eval env) (t.eval env) fun x y => do let r ← wideMul x y; pure (some r)
  | div s t => bothOf (s.eval env) (t.eval env) fun x y => do let r ← natDivMod x y; pure (r.map Prod.fst)
  | mod s t => bothOf (s.eval env) (t.eval env) fun x y => do let r ← natDivMod x y; pure (r.map Prod.snd)
  | gcd s t => bothOf (s.eval env) (t.eval env) fun x y => do let r ← natGcd x y; pure (some r)
  | lcm s t => bothOf (s.eval env) (t.eval env) fun x y => do let r ← natLcm x y; pure (some r)
  | powMod n s t => do
    match ← n.eval env with
    | none => pure none
    | some m => bothOf (s.eval env) (t.eval env) fun x y => natPow m x y
  | invMod n s => bothOf (n.eval env) (s.eval env) natInv

theorem bothOf_sat {s t : M (Option (Buf .be))} {k : Buf .be → Buf .be → M (Option (Buf .be))} {u v : Option ℕ}
    {f : ℕ → ℕ → Option ℕ} (hs : Sat s (fun o => o.map Buf.toNat = u)) (ht : Sat t (fun o => o.map Buf.toNat = v))
    (hk : ∀ x y, Sat (k x y) (fun o => o.map Buf.toNat = f x.toNat y.toNat)) :
    Sat (bothOf s t k) (fun o => o.map Buf.toNat = u.bind fun x => v.bind fun y => f x y) := by
  unfold bothOf
  refine hs.bind fun o ho => ?_
  subst ho
  cases o with
  | none => exact Sat.pure rfl
  | some x =>
    refine ht.bind fun o ho => ?_
    subst ho
    cases o with
    | none => exact Sat.pure rfl
    | some y => exact hk x y

/-- **C68**: every expression, of every size and with numbers of every length, is evaluated right, without panics. -/
theorem C68_expression (env : List (Buf .be)) (e : NatExpr) :
    Sat (e.eval env) (fun o => o.map Buf.toNat = e.value (env.map Buf.toNat)) := by
  have one : ∀ {m : M (Buf .be)} {v : ℕ}, Sat m (fun r => r.toNat = v) →
      Sat (do let r ← m; pure (some r)) (fun o => o.map Buf.toNat = some v) := fun h =>
    h.bind fun r hr => Sat.pure (by rw [Option.map_some, hr])
  induction e with
  | var i => exact Sat.pure (by rw [NatExpr.value, List.getElem?_map])
  | add s t hs ht => exact bothOf_sat hs ht fun x y => one (C68_add x y)
  | sub s t hs ht => exact bothOf_sat hs ht fun x y => C68_sub x y
  | mul s t hs ht => exact bothOf_sat hs ht fun x y => one (C68_mul x y)
  | div s t hs ht =>
    refine bothOf_sat hs ht fun x y => (C68_div_mod x y).bind fun o ho => Sat.pure ?_
    have := congrArg (Option.map Prod.fst) ho
    rw [Option.map_map] at this ⊢
    refine this.trans ?_
    split <;> rfl
  | mod s t hs ht =>
    refine bothOf_sat hs ht fun x y => (C68_div_mod x y).bind fun o ho => Sat.pure ?_
    have := congrArg (Option.map Prod.snd) ho
    rw [Option.map_map] at this ⊢
    refine this.trans ?_
    split <;> rfl
  | gcd s t hs ht => exact bothOf_sat hs ht fun x y => one (C68_gcd x y)
  | lcm s t hs ht => exact bothOf_sat hs ht fun x y => one (C68_lcm x y)
  | powMod n s t hn hs ht =>
    rw [NatExpr.eval, NatExpr.value]
    refine hn.bind fun o ho => ?_
    rw [← ho]
    cases o with
    | none => exact Sat.pure rfl
    | some m =>
      exact bothOf_sat (f := fun x y => if m.toNat = 0 then none else some (x ^ y % m.toNat)) hs ht fun x y => C68_pow m x y
  | invMod n s hn hs =>
    refine bothOf_sat hn hs fun m x => (C68_inv m x).mono ?_
    rintro o ⟨h1, h2⟩
    split
    · rename_i h
      rw [h1.2 h]
      rfl
    · rename_i h
      cases o with
      | none => exact absurd (h1.1 rfl) h
      | some r =>
        obtain ⟨h3, h4⟩ := h2 r rfl
        push Not at h
        have hco := h.2
        rw [Option.map_some]
        refine congrArg some ?_
        haveI : NeZero m.toNat := ⟨h.1⟩
        have h5 : (x.toNat : ZMod m.toNat) * (r.toNat : ZMod m.toNat) = 1 := by
          have := (ZMod.natCast_eq_natCast_iff _ _ _).2 h4
          push_cast at this
          exact this
        have h6 : ((x.toNat : ZMod m.toNat))⁻¹ = (r.toNat : ZMod m.toNat) := by
          have h7 := ZMod.coe_mul_inv_eq_one x.toNat hco
          calc ((x.toNat : ZMod m.toNat))⁻¹ = (x.toNat : ZMod m.toNat)⁻¹ * (x.toNat * (r.toNat : ZMod m.toNat)) := by
                rw [h5, mul_one]
            _ = (x.toNat * (x.toNat : ZMod m.toNat)⁻¹) * (r.toNat : ZMod m.toNat) := by ring
            _ = (r.toNat : ZMod m.toNat) := by rw [h7, one_mul]
        rw [h6, ZMod.val_natCast_of_lt h3]

/-- **C68**: so it is in release builds. -/
theorem C68_expression_release (env : List (Buf .be)) (e : NatExpr) :
    RSat (e.eval env) (fun o => o.map Buf.toNat = e.value (env.map Buf.toNat)) := (C68_expression env e).rel

omit [LimbCfg] in
/-- **C68**: the value depends neither on the size of a limb, nor on the lengths of the buffers, nor on the kind of the
build. -/
theorem C68_expression_portable (c c' : LimbCfg) (env : List (@Buf c .be)) (env' : List (@Buf c' .be)) (e : NatExpr)
    (h : env.map (@Buf.toNat c .be) = env'.map (@Buf.toNat c' .be)) :
    ∃ o o', (@NatExpr.eval c env e).val = some o ∧ (@NatExpr.eval c' env' e).rel = some o' ∧
      o.map (@Buf.toNat c .be) = o'.map (@Buf.toNat c' .be) := by
  obtain ⟨o, h1, h2⟩ := @C68_expression c env e
  obtain ⟨o', h3, h4⟩ := @C68_expression_release c' env' e
  exact ⟨o, o', h1, h3, by rw [h2, h4, h]⟩

/-! ## A calculator -/

/-- A user's program: read hexadecimal texts, unless one of them has other characters. -/
def parseAll : List (List (Fin 256)) → M (Option (List (Buf .be)))
  | [] => pure (some [])
  | s :: l => do
    match ← be_bytes_from_hexstr ((s.length + 1) / 2) s with
    | .error _ => pure none
    | .ok b => do
      match ← parseAll l with
      | none => pure none
      | some bs => pure (some (.be b :: bs))

/-- The bytes of a buffer. -/
def bytesOf : Buf .be → List (Fin 256)
  | .be l => l

/-- A user's program: read hexadecimal texts, evaluate an expression, and write the value as hexadecimal text.  The outer
option tells whether the texts could be read, the inner one whether the expression has a value. -/
def calculator (e : NatExpr) (inputs : List (List (Fin 256))) : M (Option (Option (List (Fin 256)))) := do
  match ← parseAll inputs with
  | none => pure none
  | some env => do
    match ← e.eval env with
    | none => pure (some none)
    | some r => do
      let t ← bytes_to_hexstr (bytesOf r)
      pure (some (some t))

theorem parseAll_sat (l : List (List (Fin 256))) :
    Sat (parseAll l) (fun r => (r = none ↔ ¬ ∀ s ∈ l, IsHex s) ∧
      ∀ env, r = some env → env.map Buf.toNat = l.map hexValue) := by
  induction l with
  | nil =>
    refine Sat.pure ⟨by simp, ?_⟩
    rintro _ h
    cases h
    rfl
  | cons s l ih =>
    rw [parseAll]
    refine (C20_parse ((s.length + 1) / 2) s).bind ?_
    rintro _ (⟨h, -⟩ | ⟨-, h, rfl⟩ | ⟨-, h, b, rfl, -, hv⟩)
    · omega
    · exact Sat.pure ⟨by simp [h], by simp⟩
    · refine ih.bind ?_
      rintro o ⟨h1, h2⟩
      cases o with
      | none =>
        refine Sat.pure ⟨?_, by simp⟩
        have h3 := h1.1 rfl
        simp only [true_iff]
        exact fun h4 => h3 fun t ht => h4 t (List.mem_cons_of_mem _ ht)
      | some bs =>
        refine Sat.pure ⟨?_, ?_⟩
        · have h3 : ∀ s ∈ l, IsHex s := by
            by_contra h4
            exact absurd (h1.2 h4) (by simp)
          simpa [h] using h3
        · rintro _ h3
          cases h3
          rw [List.map_cons, List.map_cons, hv, h2 bs rfl]

/-- **C68**: from text to text: the calculator refuses exactly the inputs that aren't hexadecimal, and otherwise
writes the value of the expression. -/
theorem C68_calculator (e : NatExpr) (inputs : List (List (Fin 256))) :
    Sat (calculator e inputs) (fun r => (r = none ↔ ¬ ∀ s ∈ inputs, IsHex s) ∧
      ∀ o, r = some o → (∀ t, o = some t → IsHex t) ∧ o.map hexValue = e.value (inputs.map hexValue)) := by
  unfold calculator
  refine (parseAll_sat inputs).bind ?_
  rintro p ⟨h1, h2⟩
  cases p with
  | none => exact Sat.pure ⟨⟨fun _ => h1.1 rfl, fun _ => rfl⟩, by simp⟩
  | some env =>
    have h3 : ∀ s ∈ inputs, IsHex s := by
      by_contra h4
      exact absurd (h1.2 h4) (by simp)
    refine (C68_expression env e).bind ?_
    intro o ho
    rw [h2 env rfl] at ho
    cases o with
    | none =>
      refine Sat.pure ⟨⟨fun h => (by cases h), fun h => absurd h3 h⟩, ?_⟩
      rintro _ h
      cases h
      exact ⟨by simp, ho⟩
    | some r =>
      cases r with
      | be l =>
        refine (C20_format l).bind ?_
        rintro t ⟨-, -, h4, h5⟩
        refine Sat.pure ⟨⟨fun h => (by cases h), fun h => absurd h3 h⟩, ?_⟩
        rintro _ h
        cases h
        refine ⟨?_, ?_⟩
        · rintro _ h
          cases h
          exact h4
        · rw [← ho, Option.map_some, Option.map_some, h5]

/-! ## Examples -/

-- 3 * b = 21 in hexadecimal, and "g" is refused
example : letI := cfg32;
    (calculator (.mul (.var 0) (.var 1)) [[51], [98]]).val = some (some (some [48, 48, 50, 49])) := by decide +kernel
example : letI := cfg32; (calculator (.var 0) [[103]]).val = some none := by decide +kernel

-- the inverse of 7 modulo 40, and there is none of 6
example : letI := cfg32; (natInv (Buf.be [40]) (Buf.be [0, 7])).val.map (Option.map Buf.toNat) = some (some 23) := by
  decide +kernel
example : letI := cfg32; (natInv (Buf.be [40]) (Buf.be [6])).val.map (Option.map Buf.toNat) = some none := by
  decide +kernel
example : letI := cfg32; (natPow (Buf.be [40]) (Buf.be [7]) (Buf.be [3])).val.map (Option.map Buf.toNat) =
    some (some 23) := by decide +kernel
example : letI := cfg32; (natLcm (Buf.be [0, 6]) (Buf.be [4])).val.map Buf.toNat = some 12 := by decide +kernel
example : letI := cfg32; (natGcd (Buf.be []) (Buf.be [0, 0])).val.map Buf.toNat = some 0 := by decide +kernel
example : letI := cfg32; (natSub (Buf.be [1]) (Buf.be [0, 0, 2])).val.map (Option.map Buf.toNat) = some none := by
  decide +kernel
-- (x + y) * (x - y) / gcd x y
example : letI := cfg32;
    (NatExpr.eval [Buf.be [6], Buf.be [0, 4]] (.div (.mul (.add (.var 0) (.var 1)) (.sub (.var 0) (.var 1)))
      (.gcd (.var 0) (.var 1)))).val.map (Option.map Buf.toNat) = some (some 10) := by decide +kernel

end Props
end Cmpa
