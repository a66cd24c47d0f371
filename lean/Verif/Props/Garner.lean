import Mathlib.Data.Nat.ChineseRemainder
import Verif.Props.BatchInverse

/-!
# C64: numbers from their residues

A user's program which recovers a number from its residues modulo any number of moduli (Garner's method for the
Chinese remainder theorem).
-/

namespace Cmpa
namespace Props

open M
variable [LimbCfg]

/-! ## The programs -/

/-- A user's program: the product in a buffer of its own. -/
def wideMul (a b : Buf .be) : M (Buf .be) := do
  let w ← (zeros (a.len + b.len)).copy_from a
  ct_mul_trunc_mp_mp w a.len b

/-- The loop of `crtNumber`: `x` is the number modulo the product `P` of the moduli so far. -/
def garnerFrom : Buf .be → Buf .be → List (Buf .be × Buf .be) → M (Buf .be)
  | x, _, [] => pure x
  | x, P, (r, m) :: l => do
    let xm ← reduceTo (zeros m.len) x m
    let t ← fSub m r xm
    let Pm ← reduceTo (zeros m.len) P m
    let i ← fInv m Pm
    let h ← fMul m t i
    let w ← wideMul P h
    let (x, _) ← ct_add_mp_mp w x
    let P ← wideMul P m
    garnerFrom x P l

/-- A user's program: the number with the given residues, each followed by its modulus. -/
def crtNumber (l : List (Buf .be × Buf .be)) : M (Buf .be) := garnerFrom (zeros 1) (oneBuf 1) l

/-! ## Specification -/

/-- A residue and an odd modulus. -/
structure Residue (s : Buf .be × Buf .be) : Prop where
  len : s.1.len = s.2.len
  lt : s.1.toNat < s.2.toNat
  odd : s.2.toNat % 2 = 1
  gt : 1 < s.2.toNat

/-! ## Proofs -/

theorem reduceTo_el {a m : Buf .be} (h : 0 < m.toNat) :
    Sat (reduceTo (zeros m.len) a m) (fun r => El m r (a.toNat : ZMod m.toNat) ∧ r.toNat = a.toNat % m.toNat) := by
  refine (reduceTo_sat (zeros m.len) a m h (zeros_len _).ge).mono ?_
  rintro r ⟨h1, h2⟩
  refine ⟨⟨h1.trans (zeros_len _), h2 ▸ Nat.mod_lt _ h, ?_⟩, h2⟩
  rw [h2, ZMod.natCast_mod]

theorem wideMul_sat (P h : Buf .be) :
    Sat (wideMul P h) (fun w => w.len = P.len + h.len ∧ w.toNat = P.toNat * h.toNat) := by
  refine (C17_copy_from (zeros (P.len + h.len)) P (P.toNat_lt.trans_le (Nat.pow_le_pow_right (by norm_num)
    (by rw [zeros_len]; omega)))).bind ?_
  rintro w ⟨l1, v1⟩
  rw [zeros_len] at l1
  refine (C09_mul_exact w P.len h (by omega)).mono ?_
  rintro w2 ⟨l2, v2⟩
  rw [v1, Nat.mod_eq_of_lt P.toNat_lt] at v2
  exact ⟨l2.trans l1, v2⟩

theorem garnerFrom_sat (l : List (Buf .be × Buf .be)) (hl : ∀ s ∈ l, Residue s)
    (hco : (l.map fun s => s.2.toNat).Pairwise Nat.Coprime) (x P : Buf .be) (hlen : x.len ≤ P.len)
    (hlt : x.toNat < P.toNat) (hP : ∀ s ∈ l, Nat.Coprime P.toNat s.2.toNat) :
    Sat (garnerFrom x P l) (fun y => y.toNat < P.toNat * (l.map fun s => s.2.toNat).prod ∧
      y.toNat ≡ x.toNat [MOD P.toNat] ∧ ∀ s ∈ l, y.toNat ≡ s.1.toNat [MOD s.2.toNat]) := by
  induction l generalizing x P with
  | nil =>
    refine Sat.pure ⟨by simpa using hlt, rfl, by simp⟩
  | cons s l ih =>
    obtain ⟨r, m⟩ := s
    have hs := hl (r, m) List.mem_cons_self
    have hm0 : 0 < m.toNat := lt_trans zero_lt_one hs.gt
    have hPm := hP (r, m) List.mem_cons_self
    simp only at hPm
    rw [List.map_cons, List.pairwise_cons] at hco
    rw [garnerFrom]
    refine (reduceTo_el hm0).bind fun xm hxm => ?_
    refine (fSub_sat ⟨hs.len, hs.lt, rfl⟩ hxm.1).bind fun t ht => ?_
    refine (reduceTo_el hm0).bind fun Pm hPm' => ?_
    refine (fInv_coprime_sat hs.odd hs.gt hPm'.1 ?_).bind fun i hi => ?_
    · rw [hPm'.2]
      rw [Nat.Coprime, ← Nat.gcd_rec, Nat.gcd_comm]
      exact hPm
    obtain ⟨z, hz, hz'⟩ := hi
    refine (fMul_sat ht hz).bind fun h hh => ?_
    refine (wideMul_sat P h).bind fun w hw => ?_
    obtain ⟨hw1, hw2⟩ := hw
    refine (C02_add_len w x (by omega)).bind fun x' hx' => ?_
    obtain ⟨x', c⟩ := x'
    obtain ⟨g1, g2, g3⟩ := hx'
    refine (wideMul_sat P m).bind fun P' hP' => ?_
    have hhm : h.toNat < m.toNat := hh.lt
    have hbound : x.toNat + P.toNat * h.toNat < P.toNat * m.toNat := by
      calc x.toNat + P.toNat * h.toNat < P.toNat + P.toNat * h.toNat := by omega
        _ = P.toNat * (h.toNat + 1) := by ring
        _ ≤ _ := Nat.mul_le_mul_left _ hhm
    have hfit : P.toNat * m.toNat < 256 ^ w.len := by
      rw [hw1, hh.len, pow_add]
      exact Nat.mul_lt_mul'' P.toNat_lt m.toNat_lt
    have hc : c = 0 := by
      by_contra hne
      have : 256 ^ w.len ≤ c * 256 ^ w.len := Nat.le_mul_of_pos_left _ (Nat.pos_of_ne_zero hne)
      omega
    have hxv : x'.toNat = x.toNat + P.toNat * h.toNat := by
      rw [hc, zero_mul] at g3
      omega
    have hxm' : x'.toNat ≡ r.toNat [MOD m.toNat] := by
      rw [← ZMod.natCast_eq_natCast_iff, hxv]
      push_cast
      rw [hh.val]
      linear_combination ((r.toNat : ZMod m.toNat) - x.toNat) * hz'
    refine (ih (fun s h => hl s (List.mem_cons_of_mem _ h)) hco.2 x' P' ?_ ?_ ?_).mono fun y hy => ?_
    · rw [g1, hw1, hP'.1, hh.len]
    · rw [hP'.2, hxv]
      exact hbound
    · intro s hs'
      rw [hP'.2]
      exact Nat.Coprime.mul_left (hP s (List.mem_cons_of_mem _ hs')) (hco.1 _ (List.mem_map_of_mem hs'))
    · obtain ⟨h1, h2, h3⟩ := hy
      rw [hP'.2] at h1 h2
      refine ⟨?_, ?_, ?_⟩
      · rw [List.map_cons, List.prod_cons, ← mul_assoc]
        exact h1
      · refine (h2.of_mul_right _).trans ?_
        rw [hxv, Nat.ModEq, Nat.add_mul_mod_self_left]
      · intro s hs'
        rcases List.mem_cons.1 hs' with rfl | hs'
        · exact (h2.of_mul_left _).trans hxm'
        · exact h3 s hs'

/-- **C64**: the number is less than the product of the moduli and has the given residues. -/
theorem C64_crt (l : List (Buf .be × Buf .be)) (hl : ∀ s ∈ l, Residue s)
    (hco : (l.map fun s => s.2.toNat).Pairwise Nat.Coprime) :
    Sat (crtNumber l) (fun y => y.toNat < (l.map fun s => s.2.toNat).prod ∧
      ∀ s ∈ l, y.toNat % s.2.toNat = s.1.toNat) := by
  refine (garnerFrom_sat l hl hco (zeros 1) (oneBuf 1) ?_ ?_ ?_).mono fun y hy => ⟨?_, ?_⟩
  · rw [zeros_len, oneBuf_len 1 one_pos]
  · rw [zeros_toNat, oneBuf_toNat]
    exact one_pos
  · intro s _
    rw [oneBuf_toNat]
    exact Nat.coprime_one_left _
  · have := hy.1
    rwa [oneBuf_toNat, one_mul] at this
  · intro s hs
    have := hy.2.2 s hs
    rwa [Nat.ModEq, Nat.mod_eq_of_lt (hl s hs).lt] at this

/-- **C64**: a number less than the product of the moduli is recovered from its residues. -/
theorem C64_residues (N : ℕ) (l : List (Buf .be × Buf .be)) (hl : ∀ s ∈ l, Residue s)
    (hco : (l.map fun s => s.2.toNat).Pairwise Nat.Coprime) (hN : N < (l.map fun s => s.2.toNat).prod)
    (hr : ∀ s ∈ l, s.1.toNat = N % s.2.toNat) : Sat (crtNumber l) (fun y => y.toNat = N) := by
  refine (C64_crt l hl hco).mono fun y hy => ?_
  have hco' : l.Pairwise (Function.onFun Nat.Coprime fun s => s.2.toNat) := by
    rw [List.pairwise_map] at hco
    exact hco
  have h : y.toNat ≡ N [MOD (l.map fun s => s.2.toNat).prod] := by
    rw [Nat.modEq_list_map_prod_iff hco']
    intro s hs
    rw [Nat.ModEq, hy.2 s hs, hr s hs]
  rwa [Nat.ModEq, Nat.mod_eq_of_lt hy.1, Nat.mod_eq_of_lt hN] at h

/-! ## Constant time -/

section
variable [Obs]

theorem wideMul_ct {a b a' b' : Buf .be} (ha : a.len = a'.len) (hb : b.len = b'.len) :
    SameTr (wideMul a b) (wideMul a' b') Pub.rel := by
  unfold wideMul
  refine (Buf.copy_from_ct (by rw [zeros_len, zeros_len, ha, hb]) ha).bind fun _ _ e1 => ?_
  exact ct_mul_trunc_mp_mp_ct e1 ha hb

theorem garnerFrom_ct {l l' : List (Buf .be × Buf .be)} (hm : l.map Prod.snd = l'.map Prod.snd)
    (hr : (l.map fun s => s.1.len) = l'.map fun s => s.1.len) {x P x' P' : Buf .be} (hx : x.len = x'.len)
    (hP : P.len = P'.len) : SameTr (garnerFrom x P l) (garnerFrom x' P' l') Pub.rel := by
  induction l generalizing l' x P x' P' with
  | nil =>
    cases l' with
    | nil => exact SameTr.pure hx
    | cons => simp at hm
  | cons s l ih =>
    cases l' with
    | nil => simp at hm
    | cons s' l' =>
      obtain ⟨r, m⟩ := s
      obtain ⟨r', m'⟩ := s'
      simp only [List.map_cons, List.cons.injEq] at hm hr
      obtain ⟨rfl, hm⟩ := hm
      rw [garnerFrom, garnerFrom]
      refine (reduceTo_ct rfl hx rfl rfl).bind fun _ _ h1 => ?_
      refine (fSub_ct hr.1 h1).bind fun _ _ h2 => ?_
      refine (reduceTo_ct rfl hP rfl rfl).bind fun _ _ h3 => ?_
      refine (fInv_ct h3).bind fun _ _ h4 => ?_
      refine (fMul_ct h2 h4).bind fun _ _ h5 => ?_
      refine (wideMul_ct hP h5).bind fun _ _ h6 => ?_
      refine (ct_add_mp_mp_ct h6 hx).bind ?_
      rintro ⟨_, _⟩ ⟨_, _⟩ h7
      refine (wideMul_ct hP rfl).bind fun _ _ h8 => ?_
      exact ih hm hr.2 h7.1 h8

end

/-- **C64**: the residues and the number aren't revealed, only the moduli. -/
theorem C64_constant_time (l l' : List (Buf .be × Buf .be)) (hl : ∀ s ∈ l, Residue s)
    (hl' : ∀ s ∈ l', Residue s) (hco : (l.map fun s => s.2.toNat).Pairwise Nat.Coprime)
    (hm : l.map Prod.snd = l'.map Prod.snd) : (crtNumber l).tr = (crtNumber l').tr := by
  have e : (l.map fun s => s.2.toNat) = l'.map fun s => s.2.toNat := by
    have := congrArg (List.map Buf.toNat) hm
    rw [List.map_map, List.map_map] at this
    exact this
  have hr : (l.map fun s => s.1.len) = l'.map fun s => s.1.len := by
    have := congrArg (List.map Buf.len) hm
    rw [List.map_map, List.map_map] at this
    rw [List.map_congr_left fun s hs => (hl s hs).len, List.map_congr_left fun s hs => (hl' s hs).len]
    exact this
  exact sameEvents (@garnerFrom_ct _ Obs.full l l' hm hr _ _ _ _ rfl rfl) (C64_crt l hl hco).ne_none
    (C64_crt l' hl' (e ▸ hco)).ne_none

/-! ## Examples -/

-- the number below 105 that leaves the remainders 2, 3, 2 when divided by 3, 5, 7
example : letI := cfg32;
    (crtNumber [(Buf.be [2], Buf.be [3]), (Buf.be [3], Buf.be [5]),
      (Buf.be [2], Buf.be [7])]).val.map Buf.toNat = some 23 := by decide +kernel

example : letI := cfg32; Residue (Buf.be [2], Buf.be [3]) := by
  letI := cfg32
  exact ⟨by decide +kernel, by decide +kernel, by decide +kernel, by decide +kernel⟩

end Props
end Cmpa
