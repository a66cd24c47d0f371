import Verif.Props.Field
import Verif.Proofs.CtInvMod
import Verif.Props.Euclid
import Verif.Props.PrimeSearch
import Verif.Proofs.Pocklington

/-!
# Provable primes (C58)

Large primes are built from small ones as in appendix C.10 of FIPS 186-4: from a prime `q` and an even number `r` less
than `q` the candidate `r * q + 1` is formed, and Pocklington's criterion is checked with the crate's operations.  The
numbers returned are prime, not just probably prime, and the programs neither panic nor have a restricted domain: the
buffers are allocated with a limb to spare.
-/

namespace Cmpa
namespace Props

open M
variable [LimbCfg]

/-! ## The programs -/

/-- A user's program: the numbers `r * q` and `r * q + 1`, with a limb to spare. -/
def candidate (q r : Buf .be) : M (Buf .be × Buf .be) := do
  let e ← (zeros (q.len + r.len + LB)).copy_from q
  let e ← ct_mul_trunc_mp_mp e q.len r
  let (c, _) ← ct_add_mp_l e 1
  pure (e, c)

/-- A user's program: the number `r * q + 1` if the base `a` proves it prime. -/
def extendPrime (q r a : Buf .be) : M (Option (Buf .be)) := do
  let small ← ct_lt_mp_mp r q
  let odd ← r.test_bit 0
  M.cond (small.unwrap = 0 ∨ odd.unwrap ≠ 0) (pure none) do
    let len := q.len + r.len + LB
    let (e, c) ← candidate q r
    let base ← reduceTo (zeros len) a c
    let x ← modExp (zeros len) base c e (8 * len) (scratchLimbs len)
    let one ← ct_is_one_mp x
    let y ← modExp (zeros len) base c r (8 * r.len) (scratchLimbs len)
    let (y, _) ← ct_sub_mp_l y 1
    let (d, _) ← unwrapE (ct_gcd_odd_mp_mp c y)
    let coprime ← ct_is_one_mp d
    M.cond (one.unwrap = 0 ∨ coprime.unwrap = 0) (pure none) (pure (some c))

/-- A user's program: one extension after the other. -/
def primeChain (q : Buf .be) : List (Buf .be × Buf .be) → M (Option (Buf .be))
  | [] => pure (some q)
  | (r, a) :: l => do
    match ← extendPrime q r a with
    | some c => primeChain c l
    | none => pure none

/-! ## Specification -/

/-- The conditions of Pocklington's criterion. -/
structure Certificate (q r a : ℕ) : Prop where
  small : r < q
  even : r % 2 = 0
  fermat : a ^ (r * q) % (r * q + 1) = 1
  coprime : Nat.gcd (a ^ r % (r * q + 1) - 1) (r * q + 1) = 1

/-! ## Proofs -/

/-- Odd numbers that leave the most significant limb of a buffer of more than one limb zero. -/
theorem expModulus_of_spare {f : Fmt} (n : Buf f) (hodd : n.toNat % 2 = 1) (k : ℕ) (hk : 0 < k) (hl : n.len = k + LB)
    (hs : n.toNat < 256 ^ k) : ExpModulus n := by
  have h2 : 2 ≤ n.nlimbs := by
    by_contra h
    have h1 : n.nlimbs ≤ 1 := by omega
    have := nlimbs_le_iff.1 h1
    omega
  have hB : (256 : ℕ) ^ LB = B := B_eq_256_pow.symm
  have hnl : n.len ≤ n.nlimbs * LB := nlimbs_le_iff.1 le_rfl
  have hBn : 256 ^ n.len ≤ B ^ n.nlimbs := by
    rw [← hB, ← pow_mul, mul_comm LB]
    exact Nat.pow_le_pow_right (by norm_num) hnl
  have e1 : B * n.toNat ≤ 256 ^ n.len := by
    rw [hl, pow_add, hB, mul_comm]
    exact Nat.mul_le_mul_right B hs.le
  have hB2 : 2 ≤ B := by
    rw [← hB]
    calc 2 ≤ 256 ^ 1 := by norm_num
      _ ≤ 256 ^ LB := Nat.pow_le_pow_right (by norm_num) LB_pos
  have e2 : n.toNat ≤ B ^ n.nlimbs := n.toNat_lt.le.trans hBn
  refine ⟨hodd, h2, ?_, Or.inr ?_⟩
  · rw [pow_succ]
    have e3 : B * n.toNat ≤ B ^ n.nlimbs := e1.trans hBn
    nlinarith
  · rw [pow_succ]
    have e4 : 256 * n.toNat ≤ 256 ^ n.len := by
      rw [hl, pow_add]
      calc 256 * n.toNat ≤ 256 * 256 ^ k := Nat.mul_le_mul_left _ hs.le
        _ = 256 ^ k * 256 ^ 1 := by ring
        _ ≤ _ := Nat.mul_le_mul_left _ (Nat.pow_le_pow_right (by norm_num) LB_pos)
    have e5 := n.toNat_lt
    nlinarith

theorem candidate_sat (q r : Buf .be) (hq : 0 < q.len) (hr : r.toNat % 2 = 0) :
    Sat (candidate q r) (fun s => s.1.len = q.len + r.len + LB ∧ s.2.len = q.len + r.len + LB ∧
      s.1.toNat = r.toNat * q.toNat ∧ s.2.toNat = r.toNat * q.toNat + 1 ∧ ExpModulus s.2) := by
  have hLB := LB_pos
  have hB : (256 : ℕ) ^ LB = B := B_eq_256_pow.symm
  have hB2 : 2 ≤ B := by
    rw [← hB]
    calc 2 ≤ 256 ^ 1 := by norm_num
      _ ≤ 256 ^ LB := Nat.pow_le_pow_right (by norm_num) LB_pos
  unfold candidate
  generalize hL : q.len + r.len + LB = L
  refine (C17_copy_from (zeros L) q ?_).bind ?_
  · rw [zeros_len]
    exact q.toNat_lt.trans_le (Nat.pow_le_pow_right (by norm_num) (by omega))
  rintro e0 ⟨le0, ve0⟩
  rw [zeros_len] at le0
  refine (C09_mul_exact e0 q.len r (by omega)).bind ?_
  rintro e ⟨le, ve⟩
  rw [ve0, Nat.mod_eq_of_lt q.toNat_lt, mul_comm] at ve
  rw [le0] at le
  have hsp : r.toNat * q.toNat + 1 ≤ 256 ^ (q.len + r.len) := by
    rw [pow_add]
    have h1 := q.toNat_lt
    have h2 := r.toNat_lt
    calc r.toNat * q.toNat + 1 ≤ (r.toNat + 1) * (q.toNat + 1) := by nlinarith
      _ ≤ 256 ^ r.len * 256 ^ q.len := Nat.mul_le_mul h2 h1
      _ = _ := mul_comm _ _
  have hL1 : 256 ^ (q.len + r.len) < 256 ^ L := Nat.pow_lt_pow_right (by norm_num) (by omega)
  have h1L : 1 < 256 ^ L := Nat.one_lt_pow (by omega) (by norm_num)
  refine (C02_add_l e 1 (by omega) (by rw [le]; exact h1L)).bind ?_
  rintro ⟨c, k⟩ ⟨lc, -, vc⟩
  rw [le] at lc vc
  rw [ve] at vc
  have hk : k = 0 := by
    rcases Nat.eq_zero_or_pos k with h | h
    · exact h
    · have : 256 ^ L ≤ k * 256 ^ L := Nat.le_mul_of_pos_left _ h
      omega
  rw [hk, zero_mul, add_zero] at vc
  have hcodd : c.toNat % 2 = 1 := by
    rw [vc]
    have : r.toNat * q.toNat % 2 = 0 := by rw [Nat.mul_mod, hr]; simp
    omega
  have hlt : c.toNat < 256 ^ (q.len + r.len) := by
    -- the number is odd and the bound is even
    refine lt_of_le_of_ne (vc ▸ hsp) ?_
    intro h
    have : 256 ^ (q.len + r.len) % 2 = 0 := by
      rw [Nat.pow_mod, show 256 % 2 = 0 from rfl, zero_pow (by omega), Nat.zero_mod]
    omega
  exact Sat.pure ⟨le, lc, ve, vc,
    expModulus_of_spare c hcodd (q.len + r.len) (by omega) (by rw [lc, ← hL]) hlt⟩

/-- C58: the result is `r * q + 1` if the conditions of Pocklington's criterion are met, and otherwise there is no
result.  This is for all inputs. -/
theorem C58_extend (q r a : Buf .be) :
    Sat (extendPrime q r a) (fun o =>
      (Certificate q.toNat r.toNat a.toNat → ∃ c, o = some c ∧ c.toNat = r.toNat * q.toNat + 1) ∧
      (¬ Certificate q.toNat r.toNat a.toNat → o = none)) := by
  unfold extendPrime
  refine (C01_lt r q).bind ?_
  rintro _ rfl
  refine (C18_test_bit r 0).bind ?_
  rintro _ rfl
  rw [LimbChoice.unwrap_ofBool, LimbChoice.unwrap_ofBool]
  have hodd0 : r.toNat.testBit 0 = decide (r.toNat % 2 = 1) := by simp [Nat.testBit_zero]
  rw [hodd0]
  refine Sat.cond ?_ ?_
  · intro hc
    refine Sat.pure ⟨fun hcert => ?_, fun _ => rfl⟩
    exfalso
    have h1 := hcert.small
    have h2 := hcert.even
    simp [h1, h2] at hc
  · intro hc
    have hrq : r.toNat < q.toNat := by
      by_contra h
      exact hc (Or.inl (by simp [h]))
    have hev : r.toNat % 2 = 0 := by
      by_contra h
      exact hc (Or.inr (by simp [show r.toNat % 2 = 1 by omega]))
    have hql : 0 < q.len := by
      rcases Nat.eq_zero_or_pos q.len with h | h
      · have := q.toNat_lt
        rw [h, pow_zero] at this
        omega
      · exact h
    have hLB := LB_pos
    have hB : (256 : ℕ) ^ LB = B := B_eq_256_pow.symm
    have hB2 : 2 ≤ B := by
      rw [← hB]
      calc 2 ≤ 256 ^ 1 := by norm_num
        _ ≤ 256 ^ LB := Nat.pow_le_pow_right (by norm_num) LB_pos
    dsimp only
    generalize hL : q.len + r.len + LB = L
    refine (candidate_sat q r hql hev).bind ?_
    rintro ⟨e, c⟩ ⟨le, lc, ve, vc, hce⟩
    dsimp only at le lc ve vc hce ⊢
    rw [hL] at le lc
    have h1L : 1 < 256 ^ L := Nat.one_lt_pow (by omega) (by norm_num)
    have hcp : 0 < c.toNat := by omega
    have hsc : c.nlimbs ≤ (scratchLimbs L).nlimbs := by
      rw [scratchLimbs_nlimbs, Buf.nlimbs, lc]
    refine (reduceTo_sat (zeros L) a c hcp (by rw [zeros_len, lc])).bind ?_
    rintro base ⟨lb, vb⟩
    rw [zeros_len] at lb
    have hbc : base.toNat < c.toNat := vb ▸ Nat.mod_lt _ hcp
    have he : e.toNat < 2 ^ (8 * L) := by
      have := e.toNat_lt
      rw [pow_mul]
      rwa [le] at this
    have hr : r.toNat < 2 ^ (8 * r.len) := by
      have := r.toNat_lt
      rwa [pow_mul]
    refine (modExp_sat (zeros L) base c e (8 * L) (scratchLimbs L) hce (by rw [zeros_len, lc]) (by rw [lb, lc]) hbc he
      hsc).bind ?_
    rintro x ⟨-, vx⟩
    refine (C01_is_one x).bind ?_
    rintro _ rfl
    refine (modExp_sat (zeros L) base c r (8 * r.len) (scratchLimbs L) hce (by rw [zeros_len, lc]) (by rw [lb, lc]) hbc
      hr hsc).bind ?_
    rintro y ⟨ly, vy⟩
    rw [zeros_len] at ly
    refine (C03_sub_l y 1 (by omega) (by rw [ly]; exact h1L)).bind ?_
    rintro ⟨y', k'⟩ ⟨ly', -, vy'⟩
    rw [ly] at ly' vy'
    have hll : y'.len = c.len := by rw [ly', lc]
    refine Sat.bind (P := fun s : Buf .be × Buf .be => s.1.toNat = Nat.gcd y'.toNat c.toNat) ?_ ?_
    · refine (C29_gcd_odd_same_len c y' hce.odd hll.symm).bind ?_
      rintro _ ⟨r0, r1, rfl, -, -, h, -⟩
      exact Sat.pure (h.trans (Nat.gcd_comm _ _))
    rintro ⟨d, _⟩ hd
    dsimp only at hd ⊢
    refine (C01_is_one d).bind ?_
    rintro _ rfl
    rw [LimbChoice.unwrap_ofBool, LimbChoice.unwrap_ofBool]
    have hx : x.toNat = a.toNat ^ (r.toNat * q.toNat) % (r.toNat * q.toNat + 1) := by
      rw [vx, vb, ← Nat.pow_mod, ve, vc]
    have hy : y.toNat = a.toNat ^ r.toNat % (r.toNat * q.toNat + 1) := by
      rw [vy, vb, ← Nat.pow_mod, vc]
    -- if the first power is one, then the other one is not zero
    have hgcd : x.toNat = 1 → d.toNat =
        Nat.gcd (a.toNat ^ r.toNat % (r.toNat * q.toNat + 1) - 1) (r.toNat * q.toNat + 1) := by
      intro h1
      have hy0 : y.toNat ≠ 0 := by
        intro h0
        rw [hy] at h0
        rw [h1, pow_mul, Nat.pow_mod, h0, zero_pow (by omega), Nat.zero_mod] at hx
        exact one_ne_zero hx
      have hk' : k' = 0 := by
        rcases Nat.eq_zero_or_pos k' with h | h
        · exact h
        · have : 256 ^ L ≤ k' * 256 ^ L := Nat.le_mul_of_pos_left _ h
          have h2 := y'.toNat_lt
          rw [ly'] at h2
          omega
      rw [hk', zero_mul, add_zero] at vy'
      rw [hd, ← hy, ← vc, ← vy', Nat.add_sub_cancel]
    refine Sat.cond ?_ ?_
    · intro h
      refine Sat.pure ⟨fun hcert => ?_, fun _ => rfl⟩
      exfalso
      have h1 : x.toNat = 1 := hx.trans hcert.fermat
      have h2 : d.toNat = 1 := (hgcd h1).trans hcert.coprime
      simp [h1, h2] at h
    · intro h
      have h1 : x.toNat = 1 := by
        by_contra h1
        exact h (Or.inl (by simp [h1]))
      have h2 : d.toNat = 1 := by
        by_contra h2
        exact h (Or.inr (by simp [h2]))
      refine Sat.pure ⟨fun _ => ⟨c, rfl, vc⟩, fun hn => ?_⟩
      exact absurd ⟨hrq, hev, hx ▸ h1, hgcd h1 ▸ h2⟩ hn

/-- C58: what is returned for a prime is a larger prime. -/
theorem C58_prime (q r a : Buf .be) (hq : q.toNat.Prime) :
    Sat (extendPrime q r a) (fun o => ∀ c, o = some c →
      c.toNat.Prime ∧ c.toNat = r.toNat * q.toNat + 1 ∧ q.toNat < c.toNat) := by
  refine (C58_extend q r a).mono ?_
  rintro o ⟨h1, h2⟩ c rfl
  by_cases hcert : Certificate q.toNat r.toNat a.toNat
  · obtain ⟨c', hc, hv⟩ := h1 hcert
    obtain rfl : c = c' := by simpa using hc
    have hp := Pocklington.prime_of hq hcert.small hcert.fermat hcert.coprime
    refine ⟨hv ▸ hp, hv, ?_⟩
    have hr : 0 < r.toNat := by
      rcases Nat.eq_zero_or_pos r.toNat with h | h
      · rw [h, zero_mul, zero_add] at hp
        exact absurd hp Nat.not_prime_one
      · exact h
    rw [hv]
    exact Nat.lt_succ_of_le (Nat.le_mul_of_pos_left _ hr)
  · exact absurd (h2 hcert) (by simp)

/-- C58: a prime is not rejected unless the base is unsuitable: divisible by the prime, or `a ^ r = 1` modulo the
prime. -/
theorem C58_not_rejected (q r a : Buf .be) (hr : r.toNat < q.toNat) (hev : r.toNat % 2 = 0)
    (hp : (r.toNat * q.toNat + 1).Prime) (ha : ¬ r.toNat * q.toNat + 1 ∣ a.toNat)
    (ha1 : a.toNat ^ r.toNat % (r.toNat * q.toNat + 1) ≠ 1) :
    Sat (extendPrime q r a) (fun o => ∃ c, o = some c ∧ c.toNat = r.toNat * q.toNat + 1) := by
  refine (C58_extend q r a).mono fun o h => h.1 ?_
  obtain ⟨h1, h2⟩ := Pocklington.witness hp ha ha1
  exact ⟨hr, hev, h1, h2⟩

/-- C58: composite numbers are rejected whatever the base, and so is everything if `r` is odd or not less than `q`. -/
theorem C58_composite_rejected (q r a : Buf .be) (hq : q.toNat.Prime)
    (hc : ¬ (r.toNat * q.toNat + 1).Prime ∨ r.toNat % 2 = 1 ∨ q.toNat ≤ r.toNat) :
    Sat (extendPrime q r a) (fun o => o = none) := by
  refine (C58_extend q r a).mono fun o h => h.2 fun hcert => ?_
  rcases hc with hc | hc | hc
  · exact hc (Pocklington.prime_of hq hcert.small hcert.fermat hcert.coprime)
  · have := hcert.even
    omega
  · have := hcert.small
    omega

/-- C58: for every prime of the form `r * q + 1` there is a suitable base. -/
theorem C58_base_exists (q r : Buf .be) (hr : r.toNat < q.toNat) (hev : r.toNat % 2 = 0)
    (hp : (r.toNat * q.toNat + 1).Prime) :
    ∃ a : Buf .be, Sat (extendPrime q r a) (fun o => ∃ c, o = some c ∧ c.toNat = r.toNat * q.toNat + 1) := by
  have hr0 : 0 < r.toNat := by
    rcases Nat.eq_zero_or_pos r.toNat with h | h
    · rw [h, zero_mul, zero_add] at hp
      exact absurd hp Nat.not_prime_one
    · exact h
  obtain ⟨a, hlt, h1, h2⟩ := Pocklington.exists_witness hp (by omega) hr0
  obtain ⟨b, hb⟩ : ∃ b : Buf .be, b.toNat = a := by
    refine ⟨Buf.ofNat .be a a, ?_⟩
    rw [toNat_ofNat_be, Nat.mod_eq_of_lt (Nat.lt_pow_self (by norm_num))]
  subst hb
  exact ⟨b, C58_not_rejected q r b hr hev hp h1 h2⟩

/-- C58: chains of any length. -/
theorem C58_chain (q : Buf .be) (l : List (Buf .be × Buf .be)) (hq : q.toNat.Prime) :
    Sat (primeChain q l) (fun o => ∀ c, o = some c → c.toNat.Prime ∧ q.toNat + l.length ≤ c.toNat) := by
  induction l generalizing q with
  | nil =>
    rw [primeChain]
    refine Sat.pure ?_
    rintro c hc
    obtain rfl : q = c := by simpa using hc
    exact ⟨hq, le_rfl⟩
  | cons ra l ih =>
    obtain ⟨r, a⟩ := ra
    rw [primeChain]
    refine (C58_prime q r a hq).bind ?_
    rintro (_ | c) h
    · refine Sat.pure ?_
      simp
    · obtain ⟨h1, -, h2⟩ := h c rfl
      refine (ih c h1).mono fun o ho c' hc' => ?_
      obtain ⟨h3, h4⟩ := ho c' hc'
      refine ⟨h3, ?_⟩
      rw [List.length_cons]
      omega

/-! ## Constant time -/

section
variable [Obs]

omit [LimbCfg] in
/-- What is known about the results of two runs may be used. -/
theorem SameTr.withSat {α β : Type} {m : M α} {n : M β} {R : α → β → Prop} {P : α → Prop} {Q : β → Prop}
    (h : SameTr m n R) (hm : Sat m P) (hn : Sat n Q) : SameTr m n (fun a b => R a b ∧ P a ∧ Q b) := by
  intro a b ha hb
  obtain ⟨h1, h2⟩ := h a b ha hb
  obtain ⟨a', ha', hp⟩ := hm
  obtain ⟨b', hb', hq⟩ := hn
  rw [ha] at ha'
  rw [hb] at hb'
  cases ha'
  cases hb'
  exact ⟨h1, h2, hp, hq⟩

theorem candidate_ct {q r q' r' : Buf .be} (hq : q.len = q'.len) (hr : r.len = r'.len) :
    SameTr (candidate q r) (candidate q' r') Pub.rel := by
  unfold candidate
  refine (Buf.copy_from_ct (by rw [zeros_len, zeros_len, hq, hr]) hq).bind fun _ _ e1 => ?_
  refine (ct_mul_trunc_mp_mp_ct e1 hq hr).bind fun _ _ e2 => ?_
  refine (ct_add_mp_l_ct e2).bind ?_
  rintro ⟨_, _⟩ ⟨_, _⟩ e3
  exact SameTr.pure ⟨e2, e3.1⟩

theorem extendPrime_ct {q r a q' r' a' : Buf .be} (hq : q.len = q'.len) (hr : r.len = r'.len) (ha : a.len = a'.len)
    (hq0 : 0 < q.len) (hev : r.toNat % 2 = 0) (hev' : r'.toNat % 2 = 0)
    (hb : byteLen (r.toNat * q.toNat + 1) = byteLen (r'.toNat * q'.toNat + 1)) :
    CtIf (fun o => o.isSome = true) (fun _ _ => True) (extendPrime q r a) (extendPrime q' r' a') := by
  unfold extendPrime
  refine CtIf.bind (ct_lt_mp_mp_ct hr hq) fun _ _ _ => ?_
  refine CtIf.bind (Buf.test_bit_ct hr rfl) fun _ _ _ => ?_
  refine CtIf.condErr (by simp) (by simp) ?_
  refine CtIf.bind (SameTr.withSat (candidate_ct hq hr) (candidate_sat q r hq0 hev)
    (candidate_sat q' r' (hq ▸ hq0) hev')) ?_
  rintro ⟨e, c⟩ ⟨e', c'⟩ ⟨⟨h1, h2⟩, ⟨-, -, -, h3, -⟩, -, -, -, h4, -⟩
  dsimp only at h3 h4
  have hl : q.len + r.len + LB = q'.len + r'.len + LB := by rw [hq, hr]
  rw [← h3, ← h4] at hb
  dsimp only
  rw [← hl]
  refine CtIf.bind (reduceTo_ct rfl ha h2 hb) fun _ _ e1 => ?_
  refine CtIf.bind (modExp_ct rfl e1 h2 hb h1 rfl) fun _ _ e2 => ?_
  refine CtIf.bind (ct_is_one_mp_ct e2) fun _ _ _ => ?_
  rw [← hr]
  refine CtIf.bind (modExp_ct rfl e1 h2 hb hr rfl) fun _ _ e3 => ?_
  refine CtIf.bind (ct_sub_mp_l_ct e3) ?_
  rintro ⟨_, _⟩ ⟨_, _⟩ ⟨e4, -⟩
  refine CtIf.bind (unwrapE_ct (ct_gcd_odd_mp_mp_ct h2 e4)) ?_
  rintro ⟨_, _⟩ ⟨_, _⟩ ⟨e5, -⟩
  refine CtIf.bind (ct_is_one_mp_ct e5) fun _ _ _ => ?_
  refine CtIf.condErr (by simp) (by simp) (CtIf.of (SameTr.pure trivial))

end

/-- C58: a successful run leaves the same events whatever the numbers, apart from the number of bytes of the prime. -/
theorem C58_constant_time (q r a q' r' a' : Buf .be) (hq : q.len = q'.len) (hr : r.len = r'.len) (ha : a.len = a'.len)
    (hc : Certificate q.toNat r.toNat a.toNat) (hc' : Certificate q'.toNat r'.toNat a'.toNat)
    (hb : byteLen (r.toNat * q.toNat + 1) = byteLen (r'.toNat * q'.toNat + 1)) :
    (extendPrime q r a).tr = (extendPrime q' r' a').tr := by
  obtain ⟨o, ho, h1, -⟩ := C58_extend q r a
  obtain ⟨o', ho', h1', -⟩ := C58_extend q' r' a'
  obtain ⟨c, rfl, -⟩ := h1 hc
  obtain ⟨c', rfl, -⟩ := h1' hc'
  have hq0 : 0 < q.len := by
    rcases Nat.eq_zero_or_pos q.len with h | h
    · have h2 := q.toNat_lt
      rw [h, pow_zero] at h2
      have := hc.small
      omega
    · exact h
  have := (@extendPrime_ct _ Obs.full q r a q' r' a' hq hr ha hq0 hc.even hc'.even hb _ _ ho ho' rfl rfl).1
  rwa [M.seen_full, M.seen_full] at this

/-! ## Examples -/

-- 503 = 2 * 251 + 1 is prime
example : letI := cfg32;
    (primeChain (Buf.be [251]) [(Buf.be [2], Buf.be [2])]).val.map (Option.map Buf.toNat) = some (some 503) := by
  decide +kernel
-- 1507 = 6 * 251 + 1 = 11 * 137 isn't
example : letI := cfg32;
    (extendPrime (Buf.be [251]) (Buf.be [6]) (Buf.be [2])).val.map (Option.map Buf.toNat) = some none := by
  decide +kernel
-- an odd `r`, and one which is too large
example : letI := cfg32;
    (extendPrime (Buf.be [251]) (Buf.be [3]) (Buf.be [2])).val.map (Option.map Buf.toNat) = some none := by
  decide +kernel
example : letI := cfg32;
    (extendPrime (Buf.be [3]) (Buf.be [10]) (Buf.be [3])).val.map (Option.map Buf.toNat) = some none := by
  decide +kernel
-- the hypotheses
example : letI := cfg32; Certificate (Buf.be [251]).toNat (Buf.be [2]).toNat (Buf.be [2]).toNat :=
  letI := cfg32
  ⟨by decide +kernel, by decide +kernel, by
    rw [show (Buf.be [251]).toNat = 251 by decide +kernel, show (Buf.be [2]).toNat = 2 by decide +kernel]
    rw [← powMod_eq 503 10 _ _ (by norm_num)]
    decide +kernel, by decide +kernel⟩
example : letI := cfg32; (Buf.be [251]).toNat.Prime := by
  letI := cfg32
  rw [show (Buf.be [251]).toNat = 251 by decide +kernel]
  norm_num
example : letI := cfg32; ((Buf.be [2]).toNat * (Buf.be [251]).toNat + 1).Prime := by
  letI := cfg32
  rw [show (Buf.be [251]).toNat = 251 by decide +kernel, show (Buf.be [2]).toNat = 2 by decide +kernel]
  norm_num

end Props
end Cmpa
