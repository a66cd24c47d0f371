import Verif.Props.Prime

/-!
# Montgomery arithmetic for every odd modulus (C25, C26, C27, C28, C34)

What the functions do in the cases excluded from the `_partial` theorems.  Specifications are the
following functions on natural numbers, defined in `Verif.Proofs.MgRun`, `neg` being the negative of
the modulus' inverse modulo the limb radix `B`:

* `redcStep n neg T = (T + (T * neg % B) * n) / B`
* `mgRun N n neg a b i`, the multiplication after `i` limbs of `a`, dropping what doesn't fit `N + 1`
  limbs: `mgRun (i + 1) = redcStep n neg ((mgRun i + (limb i of a) * b) % B ^ (N + 1))`
* `mgMul N n neg a b = mgRun N n neg a b N % n`
* `MgKeeps N n neg a b`: nothing is ever dropped, i.e. `mgRun i + (limb i of a) * b < B ^ (N + 1)` for
  all `i < N`.
* `expRun N n neg x e nb r i`, square and multiply exponentiation by the `i` most significant ones of `nb` bits
  of `e`, starting from `r`; `ExpKeeps N n neg x e nb r m`: nothing is dropped in the first `m` steps.

`MgFits f len n T` is the condition for the number `T` before the last subtraction to fit what is taken to be
the width of a result buffer of format `f` and length `len`: either the widths of the result and the
modulus are the same, or `T` fits the smaller one.
-/

namespace Cmpa
namespace Props
open M
variable [LimbCfg] {f g h f' e' φ ψ χ : Fmt}

/-! ## C25 -/

/-- Specification: `U` is the number before the last subtraction of a reduction of `t`; the radix
times `U` exceeds `t` by a multiple of `n` less than the radix times `n`. -/
def ReducesTo (n : Buf g) (t U : ℕ) : Prop := ∃ K < radix n, radix n * U = t + K * n.toNat

theorem ReducesTo.unique {n : Buf g} {t U V : ℕ} (hodd : n.toNat % 2 = 1) (hU : ReducesTo n t U)
    (hV : ReducesTo n t V) : U = V := by
  obtain ⟨K, hK, h1⟩ := hU
  obtain ⟨L, hL, h2⟩ := hV
  have hc : Nat.Coprime n.toNat (radix n) := coprime_radix (by omega) _
  have hR : 0 < radix n := B_pow_pos _
  have h3 : K * n.toNat ≡ L * n.toNat [MOD radix n] := by
    have h4 : t + K * n.toNat ≡ t + L * n.toNat [MOD radix n] := by
      rw [← h1, ← h2]
      exact ((Nat.modEq_zero_iff_dvd).2 (dvd_mul_right _ _)).trans
        ((Nat.modEq_zero_iff_dvd).2 (dvd_mul_right _ _)).symm
    exact Nat.ModEq.add_left_cancel' _ h4
  have h5 := Nat.ModEq.cancel_right_of_coprime (m := radix n) (by
    rw [Nat.coprime_comm] at hc; exact hc) h3
  have h6 : K = L := Nat.ModEq.eq_of_lt_of_lt h5 hK hL
  rw [h6] at h1
  exact Nat.eq_of_mul_eq_mul_left hR (h1.trans h2.symm)

/-- C25: the reduction of any number the function doesn't refuse.  It panics exactly if the modulus
has a single limb, or if one subtraction isn't enough. -/
theorem C25_redc_exact (t : Buf f) (n : Buf g) (neg U : ℕ) (hodd : n.toNat % 2 = 1)
    (hneg : NegInv n neg) (hn : LenCompat n t.len) (ht : LenCompat t (2 * n.len))
    (hU : ReducesTo n t.toNat U) :
    (2 ≤ n.nlimbs ∧ U < 2 * n.toNat → Sat (ct_montgomery_redc_mp t n neg)
      (fun r => ∃ s, r = .ok s ∧ s.len = t.len ∧ s.toNat = U % n.toNat)) ∧
    (n.nlimbs = 1 ∨ 2 * n.toNat ≤ U → (ct_montgomery_redc_mp t n neg).val = none) := by
  have hl := odd_len_pos hodd
  have hpos : 0 < n.nlimbs := nlimbs_pos_iff.2 (by omega)
  have he : redcErr t n = none := by simp [redcErr, hl, hodd, hn, ht]
  obtain ⟨K, hK, h1⟩ := redcRun_spec hneg.wmul t.toNat n.nlimbs
  have hV : U = redcRun n.toNat neg t.toNat n.nlimbs := hU.unique hodd ⟨K, hK, h1⟩
  have hx := ct_montgomery_redc_mp_exact t n neg
  rw [← hV] at hx
  exact ⟨fun h => ok_of_outcome (hx.sat fun _ => ⟨hneg.wmul, h.1, h.2⟩) he,
    fun h => hx.panic fun h' => by
      obtain ⟨-, h2, h3⟩ := h' he
      rcases h with h | h <;> omega⟩

/-- C25: a wrong constant for the reduction always panics. -/
theorem C25_redc_constant (t : Buf f) (n : Buf g) (neg : ℕ) (hodd : n.toNat % 2 = 1)
    (hneg : (n.toNat * neg + 1) % B ≠ 0) (hn : LenCompat n t.len) (ht : LenCompat t (2 * n.len)) :
    (ct_montgomery_redc_mp t n neg).val = none := by
  have he : redcErr t n = none := by simp [redcErr, odd_len_pos hodd, hodd, hn, ht]
  refine (ct_montgomery_redc_mp_exact t n neg).panic fun h => hneg ?_
  have h1 := (h he).1
  have hB := one_lt_B
  unfold Cmpa.wmul lmax at h1
  rw [Nat.mod_mul_mod] at h1
  rw [Nat.add_mod, h1, Nat.mod_eq_of_lt hB, Nat.sub_add_cancel hB.le, Nat.mod_self]

/-! ## C26 -/

/-- C26: the multiplication, for every odd modulus: what it calculates, and when it panics. -/
theorem C26_mul_exact (result : Buf f) (a : Buf g) (b : Buf h) (n : Buf f') (neg : ℕ)
    (hodd : n.toNat % 2 = 1) (hneg : NegInv n neg) (ha : a.toNat < n.toNat)
    (hb : b.toNat < n.toNat) (hal : LenCompat a n.len) (hbl : LenCompat b n.len)
    (hlen : LenCompat n result.len) :
    let Ok := (a.len = 0 ∨ b.len ≠ 0) ∧
      MgFits f result.len n (mgRun n.nlimbs n.toNat neg a.toNat b.toNat n.nlimbs)
    (Ok → Sat (ct_montgomery_mul_mod_mp_mp result a b n neg) (fun r => ∃ s, r = .ok s ∧
      s.len = result.len ∧ s.toNat = mgMul n.nlimbs n.toNat neg a.toNat b.toNat)) ∧
    (¬ Ok → (ct_montgomery_mul_mod_mp_mp result a b n neg).val = none) := by
  have he : mulErr result a b n = none := by simp [mulErr, odd_len_pos hodd, hodd, hal, hbl, hlen]
  have hx := ct_montgomery_mul_mod_mp_mp_exact result a b n neg
  exact ⟨fun h => ok_of_outcome (hx.sat fun _ => ⟨ha, hb, hneg.wmul, h⟩) he,
    fun h => hx.panic fun h' => h (h' he).2.2.2⟩

/-- C26: operands not less than the modulus, or a wrong constant, always panic. -/
theorem C26_mul_unreduced (result : Buf f) (a : Buf g) (b : Buf h) (n : Buf f') (neg : ℕ)
    (hodd : n.toNat % 2 = 1) (hal : LenCompat a n.len) (hbl : LenCompat b n.len)
    (hlen : LenCompat n result.len)
    (hbad : n.toNat ≤ a.toNat ∨ n.toNat ≤ b.toNat ∨ (n.toNat * neg + 1) % B ≠ 0) :
    (ct_montgomery_mul_mod_mp_mp result a b n neg).val = none := by
  have he : mulErr result a b n = none := by simp [mulErr, odd_len_pos hodd, hodd, hal, hbl, hlen]
  refine (ct_montgomery_mul_mod_mp_mp_exact result a b n neg).panic fun h' => ?_
  obtain ⟨h1, h2, h3, -⟩ := h' he
  rcases hbad with h | h | h
  · omega
  · omega
  · refine h ?_
    have hB := one_lt_B
    unfold Cmpa.wmul lmax at h3
    rw [Nat.mod_mul_mod] at h3
    rw [Nat.add_mod, h3, Nat.mod_eq_of_lt hB, Nat.sub_add_cancel hB.le, Nat.mod_self]

/-- C26: the product is right exactly if no carry is dropped. -/
theorem C26_mul_right_iff (n : Buf f) (neg a b : ℕ) (hodd : n.toNat % 2 = 1) (hneg : NegInv n neg)
    (ha : a < n.toNat) (hb : b < n.toNat) :
    mgMul n.nlimbs n.toNat neg a b * radix n ≡ a * b [MOD n.toNat] ↔
      MgKeeps n.nlimbs n.toNat neg a b :=
  mgMul_modEq_iff hneg.wmul (by omega) (ha.trans n.toNat_lt_B) hb n.toNat_lt_B

/-- A product which drops a carry, for any modulus of a most significant limb of all ones and a next
one of at least five. -/
theorem mgKeeps_lossy {N n neg : ℕ} (hN : 3 ≤ N) (hneg : wmul (n % B) neg = lmax) (hodd : n % 2 = 1)
    (hn : B ^ N - B ^ (N - 1) + 5 * B ^ (N - 2) ≤ n) (hlt : n < B ^ N) :
    ∃ a b, a < n ∧ b < n ∧ ¬ MgKeeps N n neg a b := by
  obtain ⟨k, rfl⟩ := Nat.exists_eq_add_of_le hN
  rw [show 3 + k - 1 = 2 + k by omega, show 3 + k - 2 = 1 + k by omega] at hn
  have hB4 : 2 ^ 32 ≤ B := by
    rcases B_cases with h | h <;> rw [h] <;> norm_num
  have hBk : 1 ≤ B ^ k := B_pow_pos k
  have e1 : B ^ (3 + k) = B * B * B * B ^ k := by ring
  have e2 : B ^ (2 + k) = B * B * B ^ k := by ring
  have e3 : B ^ (1 + k) = B * B ^ k := by ring
  have e4 : B ^ (3 + k + 1) = B * B * B * B * B ^ k := by ring
  -- the second factor
  have hBpos := B_pos
  have hδ := Nat.mod_lt (2 * n) hBpos
  have hBBk : B * B ≤ B * B * B ^ k := Nat.le_mul_of_pos_right _ hBk
  have hBB : B * 2 ^ 32 ≤ B * B := Nat.mul_le_mul_left _ hB4
  have hBBB : B * B * 2 ^ 32 * B ^ k ≤ B * B * B * B ^ k := by
    exact Nat.mul_le_mul_right _ (Nat.mul_le_mul_left _ hB4)
  have hnB : B * B < n := by
    rw [e1, e2, e3] at hn
    have : B * B * 2 ^ 32 * B ^ k = 2 ^ 32 * (B * B * B ^ k) := by ring
    omega
  have h2n := Nat.div_add_mod (2 * n) B
  have hB2 : B % 2 = 0 := by
    rw [B_eq_two_pow]
    obtain ⟨j, hj⟩ := Nat.exists_eq_succ_of_ne_zero W_pos.ne'
    rw [hj, pow_succ]; exact Nat.mul_mod_left _ _
  have hδ0 : 0 < 2 * n % B := by
    by_contra hc
    have hc' : 2 * n % B = 0 := by omega
    rw [B_eq_two_pow] at hc'
    obtain ⟨j, hj⟩ := Nat.exists_eq_add_of_le (show 2 ≤ W by rcases W_cases with h | h <;> omega)
    rw [hj, pow_add] at hc'
    have h4 : 2 * n % 4 = 0 := by
      have : (4 : ℕ) ∣ 2 ^ 2 * 2 ^ j := ⟨2 ^ j, by ring⟩
      exact Nat.mod_eq_zero_of_dvd (this.trans (Nat.dvd_of_mod_eq_zero hc'))
    omega
  refine ⟨B * B - 1, n - 2 * n % B, by omega, by omega, fun hk => ?_⟩
  have hbig : B ≤ n := (Nat.le_mul_of_pos_left B hBpos).trans hnB.le
  generalize hδe : 2 * n % B = δ at *
  obtain ⟨b, hb⟩ : ∃ b, n = b + δ := ⟨n - δ, by omega⟩
  rw [show n - δ = b by omega] at hk
  have hd0 : (B * B - 1) / B ^ 0 % B = B - 1 := by
    rw [pow_zero, Nat.div_one, show B * B - 1 = (B - 1) + (B - 1) * B by
      obtain ⟨c, hc⟩ := Nat.exists_eq_add_of_le (Nat.succ_le_of_lt hBpos)
      rw [hc, show Nat.succ 0 + c - 1 = c by omega]
      have : (Nat.succ 0 + c) * (Nat.succ 0 + c) = c + c * (Nat.succ 0 + c) + 1 := by
        rw [Nat.succ_eq_add_one]; ring
      omega, Nat.add_mul_mod_self_right, Nat.mod_eq_of_lt (by omega)]
  have hd1 : (B * B - 1) / B ^ 1 % B = B - 1 := by
    have : (B * B - 1) / B ^ 1 = B - 1 := by
      rw [pow_one, show B * B - 1 = (B - 1) + B * (B - 1) by
        obtain ⟨c, hc⟩ := Nat.exists_eq_add_of_le (Nat.succ_le_of_lt hBpos)
        rw [hc, show Nat.succ 0 + c - 1 = c by omega]
        have : (Nat.succ 0 + c) * (Nat.succ 0 + c) = c + (Nat.succ 0 + c) * c + 1 := by
          rw [Nat.succ_eq_add_one]; ring
        omega, Nat.add_mul_div_left _ _ hBpos, Nat.div_eq_of_lt (by omega), Nat.zero_add]
    rw [this, Nat.mod_eq_of_lt (by omega)]
  have h0 := hk 0 (by omega)
  have h1 := hk 1 (by omega)
  rw [mgRun, hd0, Nat.zero_add] at h0
  rw [mgRun, mgRun, hd0, hd1, Nat.zero_add, Nat.mod_eq_of_lt h0] at h1
  -- the first step adds the largest multiple of `n`
  have hq : b + n = B * (2 * n / B) := by omega
  have hstep : (B - 1) * (2 * n / B) = redcStep n neg ((B - 1) * b) := by
    refine redcStep_eq (m := B - 1) hneg (by omega) ?_
    have : B * ((B - 1) * (2 * n / B)) = (B - 1) * (B * (2 * n / B)) := by ring
    rw [this, ← hq]; ring
  rw [← hstep] at h1
  -- the second sum is too large
  have h2 : B * ((B - 1) * (2 * n / B) + (B - 1) * b) = (B - 1) * ((b + n) + B * b) := by
    rw [hq]; ring
  have h3 : B * ((B - 1) * (2 * n / B) + (B - 1) * b) < B * B ^ (3 + k + 1) :=
    Nat.mul_lt_mul_of_pos_left h1 hBpos
  rw [h2, e4] at h3
  rw [e1, e2, e3] at hn
  obtain ⟨c, hc⟩ := Nat.exists_eq_add_of_le (Nat.succ_le_of_lt hBpos)
  rw [show Nat.succ 0 + c = c + 1 by omega] at hc
  rw [hc] at h3 hn hδ hBB hB4
  rw [show c + 1 - 1 = c by omega] at h3
  have hn' : c * ((c + 1) * (c + 1)) * B ^ k + 5 * ((c + 1) * B ^ k) ≤ n := by
    have e5 : (c + 1) * (c + 1) * (c + 1) * (c + 1) ^ k = c * ((c + 1) * (c + 1)) * (c + 1) ^ k
        + (c + 1) * (c + 1) * (c + 1) ^ k := by ring
    rw [hc]
    omega
  rw [hc] at hBk hn'
  generalize (c + 1) ^ k = Y at *
  -- everything in terms of `c`, `Y`, `b`
  have hbl : c * ((c + 1) * (c + 1)) * Y + 5 * ((c + 1) * Y) ≤ b + c := by omega
  have h5 : c * ((c + 1 + 2) * b) ≤ c * (b + n + (c + 1) * b) := by
    refine Nat.mul_le_mul_left _ ?_
    have : (c + 1 + 2) * b = b + b + (c + 1) * b := by ring
    omega
  have h6 : c * ((c + 3) * (c * ((c + 1) * (c + 1)) * Y + 5 * ((c + 1) * Y)))
      ≤ c * ((c + 3) * (b + c)) := Nat.mul_le_mul_left _ (Nat.mul_le_mul_left _ hbl)
  have h7 : c * ((c + 3) * c) ≤ c * ((c + 3) * c) * Y := Nat.le_mul_of_pos_right _ hBk
  have h8 : 1 * Y ≤ c * Y := Nat.mul_le_mul_right _ (by omega)
  have h9 := Nat.zero_le (c * c * Y)
  have h10 := Nat.zero_le (c * c * c * Y)
  have h11 : (c + 1) * ((c + 1) * (c + 1) * (c + 1) * (c + 1) * Y) + c * ((c + 3) * c) * Y
      + c * c * c * Y + 10 * (c * c * Y) + 9 * (c * Y)
      + (c * Y - Y) = c * ((c + 3) * (c * ((c + 1) * (c + 1)) * Y + 5 * ((c + 1) * Y))) := by
    zify [show Y ≤ c * Y by omega]
    ring
  have h12 : c * ((c + 3) * (b + c)) = c * ((c + 1 + 2) * b) + c * ((c + 3) * c) := by ring
  omega

/-- C26 doesn't hold for any odd modulus of three or more limbs, with a most significant limb of all
ones and a next one of at least five: there are operands with a wrong product. -/
theorem C26_lossy_fails (n : Buf f') (neg : ℕ) (hodd : n.toNat % 2 = 1) (hneg : NegInv n neg)
    (h3 : 3 ≤ n.nlimbs)
    (hn : B ^ n.nlimbs - B ^ (n.nlimbs - 1) + 5 * B ^ (n.nlimbs - 2) ≤ n.toNat) :
    ∃ x y, x < n.toNat ∧ y < n.toNat ∧ ∀ (f g h : Fmt) (result : Buf f) (a : Buf g) (b : Buf h),
      LenCompat n result.len → a.toNat = x → b.toNat = y → LenCompat a n.len →
      LenCompat b n.len →
      Sat (ct_montgomery_mul_mod_mp_mp result a b n neg) (fun r => ∃ s, r = .ok s ∧
        s.len = result.len ∧ s.toNat < n.toNat ∧
        ¬ s.toNat * radix n ≡ a.toNat * b.toNat [MOD n.toNat]) := by
  obtain ⟨x, y, hx, hy, hk⟩ := mgKeeps_lossy h3 hneg.wmul hodd hn n.toNat_lt_B
  refine ⟨x, y, hx, hy, fun f g h result a b hlen ha hb hal hbl => ?_⟩
  subst ha; subst hb
  -- the modulus fills its limbs
  have hbig : 256 ^ (n.nlimbs * LB - 1) ≤ n.toNat := by
    have hN : n.nlimbs = n.nlimbs - 1 + 1 := by omega
    have h1 : B ^ n.nlimbs = B * B ^ (n.nlimbs - 1) := by
      conv_lhs => rw [hN, pow_succ]
      exact Nat.mul_comm _ _
    have h2 : 256 * 256 ^ (n.nlimbs * LB - 1) = B ^ n.nlimbs := by
      rw [B_eq_256_pow, ← pow_mul, ← pow_succ', Nat.mul_comm LB]
      congr 1
      have := Nat.mul_pos (show 0 < n.nlimbs by omega) LB_pos
      omega
    have hB4 : 2 ^ 32 ≤ B := by
      rcases B_cases with h | h <;> rw [h] <;> norm_num
    have h4 : 2 ^ 32 * B ^ (n.nlimbs - 1) ≤ B * B ^ (n.nlimbs - 1) := Nat.mul_le_mul_right _ hB4
    omega
  have hful : n.len = n.nlimbs * LB := by
    have h1 := n.toNat_lt
    have h2 : n.nlimbs * LB - 1 < n.len := (Nat.pow_lt_pow_iff_right (by norm_num)).1
      (hbig.trans_lt h1)
    have h4 : n.len ≤ n.nlimbs * LB := le_nlimbs_mul _
    omega
  have hrl : n.len ≤ result.len := by
    rcases hlen with h1 | ⟨-, h1, h2⟩
    · exact h1
    · by_contra hc
      have h4 : 256 ^ result.len ≤ 256 ^ (n.nlimbs * LB - 1) :=
        Nat.pow_le_pow_right (by norm_num) (by omega)
      omega
  have hfit : MgFits f result.len n
      (mgRun n.nlimbs n.toNat neg a.toNat b.toNat n.nlimbs) := by
    left
    rw [min_eq_left hrl]
    unfold Buf._limbs_align_len
    split
    · rfl
    · have h1 : ct_mp_limbs_align_len n.len = n.nlimbs * LB := rfl
      rw [h1, hful]
  have hne : a.len = 0 ∨ b.len ≠ 0 := by
    by_contra hc
    have h1 : b.len = 0 := by omega
    have h2 := b.toNat_lt
    rw [h1, pow_zero] at h2
    refine hk fun i _ => ?_
    have h4 := mgRun_lt (N := n.nlimbs) (a := a.toNat) hneg.wmul hy i
    have h7 : b.toNat = 0 := by omega
    rw [h7] at h4
    rw [h7, Nat.mul_zero, Nat.add_zero]
    have h5 := n.toNat_lt_B
    have h6 : B ^ n.nlimbs ≤ B ^ (n.nlimbs + 1) := Nat.pow_le_pow_right B_pos (by omega)
    omega
  refine ((C26_mul_exact result a b n neg hodd hneg hx hy hal hbl hlen).1 ⟨hne, hfit⟩).mono ?_
  rintro r ⟨s, h1, h2, h4⟩
  refine ⟨s, h1, h2, ?_, ?_⟩
  · rw [h4]; exact mgMul_lt (by omega)
  · rw [h4, C26_mul_right_iff n neg _ _ hodd hneg hx hy]; exact hk

-- Moduli of this kind: the fields of the curves P-384 and secp256k1, and the 1536 bit group of RFC 3526,
-- `2 ^ 1536 - 2 ^ 1472 - 1 + 2 ^ 64 * (⌊2 ^ 1406 * π⌋ + 741804)`.
example : letI := cfg64;
    B ^ 6 - B ^ 5 + 5 * B ^ 4 ≤ 2 ^ 384 - 2 ^ 128 - 2 ^ 96 + 2 ^ 32 - 1 ∧
    (Buf.ofNat .be 48 (2 ^ 384 - 2 ^ 128 - 2 ^ 96 + 2 ^ 32 - 1)).nlimbs = 6 ∧
    NegInv (Buf.ofNat .be 48 (2 ^ 384 - 2 ^ 128 - 2 ^ 96 + 2 ^ 32 - 1)) 0x100000001 ∧
    B ^ 4 - B ^ 3 + 5 * B ^ 2 ≤ 2 ^ 256 - 2 ^ 32 - 977 ∧
    (Buf.ofNat .be 32 (2 ^ 256 - 2 ^ 32 - 977)).nlimbs = 4 ∧
    NegInv (Buf.ofNat .be 32 (2 ^ 256 - 2 ^ 32 - 977)) 0xd838091dd2253531 ∧
    B ^ 24 - B ^ 23 + 5 * B ^ 22 ≤ 2 ^ 1536 - 2 ^ 1472 - 1 + 2 ^ 64 * 2 ^ 1407 :=
  ⟨by decide +kernel, by decide +kernel, ⟨by decide +kernel, by decide +kernel⟩, by decide +kernel,
    by decide +kernel, ⟨by decide +kernel, by decide +kernel⟩, by decide +kernel⟩

-- A product modulo the prime of secp256k1 that is wrong.
example : letI := cfg64;
    let n := 2 ^ 256 - 2 ^ 32 - 977
    let b := n - 2 * n % 2 ^ 64
    (ct_montgomery_mul_mod_mp_mp (Buf.ofNat .be 32 0) (Buf.ofNat .be 32 (2 ^ 128 - 1))
      (Buf.ofNat .be 32 b) (Buf.ofNat .be 32 n) 0xd838091dd2253531).val.bind mgNum =
      some (mgMul 4 n 0xd838091dd2253531 (2 ^ 128 - 1) b) ∧
    ¬ MgKeeps 4 n 0xd838091dd2253531 (2 ^ 128 - 1) b ∧
    mgMul 4 n 0xd838091dd2253531 (2 ^ 128 - 1) b * 2 ^ 256 % n ≠ (2 ^ 128 - 1) * b % n := by
  decide +kernel

/-! ## C27 -/

/-- C27: the conversion by multiplication, for every odd modulus: it gives `mgMul`, which is right
exactly if no carry is dropped, or panics. -/
theorem C27_form_exact (result : Buf f) (t : Buf g) (n : Buf f') (neg : ℕ) (radix2 : Buf h)
    (hodd : n.toNat % 2 = 1) (hneg : NegInv n neg) (ht : t.toNat < n.toNat)
    (hr2 : radix2.toNat = radix n ^ 2 % n.toNat)
    (htl : LenCompat t n.len) (hrl : LenCompat radix2 n.len) (hlen : LenCompat n result.len) :
    let Ok := (t.len = 0 ∨ radix2.len ≠ 0) ∧
      MgFits f result.len n (mgRun n.nlimbs n.toNat neg t.toNat radix2.toNat n.nlimbs)
    (Ok → Sat (ct_to_montgomery_form_mp result t n neg radix2) (fun r => ∃ s, r = .ok s ∧
      s.len = result.len ∧ s.toNat = mgMul n.nlimbs n.toNat neg t.toNat radix2.toNat ∧
      (s.toNat = t.toNat * radix n % n.toNat ↔
        MgKeeps n.nlimbs n.toNat neg t.toNat radix2.toNat))) ∧
    (¬ Ok → (ct_to_montgomery_form_mp result t n neg radix2).val = none) := by
  have hpos : 0 < n.toNat := by omega
  have hrlt : radix2.toNat < n.toNat := by rw [hr2]; exact Nat.mod_lt _ hpos
  have he : toMgErr result t n radix2 = none := by
    simp [toMgErr, mulErr, odd_len_pos hodd, hodd, htl, hrl, hlen]
  have hx := ct_to_montgomery_form_mp_exact result t n neg radix2
  refine ⟨fun h => (ok_of_outcome (hx.sat ⟨fun _ _ => ⟨ht, hrlt⟩, fun _ => ⟨hneg.wmul, h⟩⟩) he).mono ?_,
    fun h => hx.panic fun h' => h (h'.2 he).2⟩
  rintro r ⟨s, h1, h2, h3⟩
  refine ⟨s, h1, h2, h3, ?_⟩
  rw [← C26_mul_right_iff n neg _ _ hodd hneg ht hrlt, h3]
  have hlt : mgMul n.nlimbs n.toNat neg t.toNat radix2.toNat < n.toNat := mgMul_lt hpos
  generalize mgMul n.nlimbs n.toNat neg t.toNat radix2.toNat = v at *
  have h4 : t.toNat * radix2.toNat ≡ t.toNat * radix n * radix n [MOD n.toNat] := by
    rw [hr2, Nat.mul_assoc, ← sq]
    exact (Nat.mod_modEq _ _).mul_left _
  constructor
  · intro h5
    rw [h5]
    exact ((Nat.mod_modEq _ _).mul_right _).trans h4.symm
  · intro h5
    rw [← Nat.mod_eq_of_lt hlt]
    exact Nat.ModEq.cancel_right_of_coprime (c := radix n) (coprime_radix (by omega) n.nlimbs)
      (h5.trans h4)

example : letI := cfg32;
    let n := 2 ^ 64 - 83
    NegInv (Buf.ofNat .be 8 n) 0x2b2e43db := ⟨by decide +kernel, by decide +kernel⟩

/-! ## C28 -/

/-- C28: the exponentiation, for every odd modulus: when it panics, what it calculates, and that this is
right if no carry is dropped.  `expBase` is the base in Montgomery form as calculated, which remains in the
buffer of the base, `expOne` is the radix modulo `n`. -/
theorem C28_exp_exact (result : Buf f) (base : Buf g) (n : Buf f') (e : Buf e') (nbits neg : ℕ)
    (scratch : Buf .ne) (hodd : n.toNat % 2 = 1) (hneg : NegInv n neg) (hb : base.toNat < n.toNat)
    (hbl : LenCompat base n.len) (hnb : LenCompat n base.len) (hlen : LenCompat n result.len)
    (hsc : n.nlimbs ≤ scratch.nlimbs) :
    let nb := min nbits (8 * e.len)
    let Ok := 2 ≤ n.nlimbs ∧ ExpOk f result.len scratch.len n neg base.toNat e.toNat nb
    (Ok → Sat (ct_exp_mod_odd_mp_mp result base n e nbits scratch) (fun r => ∃ s, r = .ok s ∧
      s.1.len = result.len ∧ s.2.1.len = base.len ∧ s.2.2.len = scratch.len ∧
      s.1.toNat = expValue n neg base.toNat e.toNat nb ∧
      s.2.1.toNat = expBase n neg base.toNat ∧
      (MgKeeps n.nlimbs n.toNat neg base.toNat (radix n * radix n % n.toNat) →
        ExpKeeps n.nlimbs n.toNat neg (expBase n neg base.toNat) e.toNat nb (expOne n neg) nb →
        s.1.toNat = base.toNat ^ (e.toNat % 2 ^ nbits) % n.toNat))) ∧
    (¬ Ok → (ct_exp_mod_odd_mp_mp result base n e nbits scratch).val = none) := by
  intro nb Ok
  have he : expErr result base n scratch = none := by
    simp [expErr, hodd, hbl, hnb, hlen]; omega
  have hx := ct_exp_mod_odd_mp_mp_exact result base n e nbits scratch (fun _ => hneg.wmul)
  refine ⟨fun h => (ok_of_outcome (hx.sat ⟨fun _ _ => hb, fun _ => h⟩) he).mono ?_,
    fun h => hx.panic fun h' => h (h'.2 he)⟩
  rintro r ⟨s, h1, h2, h3, h4, h5, h6⟩
  refine ⟨s, h1, h2, h3, h4, h5, h6, fun k1 k2 => ?_⟩
  rw [h5, ← exponent_bits e nbits]
  exact expValue_spec hneg.wmul (by omega) hb k1 k2

/-- C28: with a base not less than the modulus, the exponentiation panics, unless refused before. -/
theorem C28_exp_unreduced (result : Buf f) (base : Buf g) (n : Buf f') (e : Buf e') (nbits : ℕ)
    (scratch : Buf .ne) (hb : n.toNat ≤ base.toNat)
    (hbl : LenCompat base n.len) (hlen : LenCompat n result.len) :
    (ct_exp_mod_odd_mp_mp result base n e nbits scratch).val = none := by
  obtain ⟨neg, hneg⟩ : ∃ neg, n.toNat % 2 ≠ 0 → wmul (n.toNat % B) neg = lmax := by
    by_cases h : n.toNat % 2 ≠ 0
    · obtain ⟨neg, hneg⟩ := exists_neg h
      exact ⟨neg, fun _ => hneg⟩
    · exact ⟨0, fun h' => absurd h' h⟩
  refine (ct_exp_mod_odd_mp_mp_exact result base n e nbits scratch hneg).panic fun h => ?_
  have := h.1 hlen hbl
  omega

/-- C28: exponentiation of a base in Montgomery form, for every odd modulus. -/
theorem C28_mg_exp_exact (result : Buf f) (base : Buf g) (n : Buf f') (neg x : ℕ)
    (radix_mod_n : Buf h) (e : Buf e') (nbits : ℕ) (scratch : Buf .ne) (hodd : n.toNat % 2 = 1)
    (hneg : NegInv n neg) (hb : base.toNat = x * radix n % n.toNat)
    (hr : radix_mod_n.toNat = radix n % n.toNat)
    (hbl : LenCompat base n.len) (hrl : LenCompat radix_mod_n n.len) (hlen : LenCompat n result.len)
    (hsc : n.nlimbs ≤ scratch.nlimbs) :
    let nb := min nbits (8 * e.len)
    let Ok := nb = 0 ∨ base.len ≠ 0 ∧ ExpFits f result.len scratch.len n neg base.toNat e.toNat nb
      radix_mod_n.toNat
    (Ok → Sat (ct_montogmery_exp_mod_odd_mp_mp result base n neg radix_mod_n e nbits scratch)
      (fun r => ∃ s, r = .ok s ∧ s.1.len = result.len ∧ s.2.len = scratch.len ∧
      s.1.toNat = expRun n.nlimbs n.toNat neg base.toNat e.toNat nb radix_mod_n.toNat nb ∧
      (ExpKeeps n.nlimbs n.toNat neg base.toNat e.toNat nb radix_mod_n.toNat nb →
        s.1.toNat = x ^ (e.toNat % 2 ^ nbits) * radix n % n.toNat))) ∧
    (¬ Ok → (ct_montogmery_exp_mod_odd_mp_mp result base n neg radix_mod_n e nbits scratch).val
      = none) := by
  intro nb Ok
  have hpos : 0 < n.toNat := by omega
  have hblt : base.toNat < n.toNat := by rw [hb]; exact Nat.mod_lt _ hpos
  have hrlt : radix_mod_n.toNat < n.toNat := by rw [hr]; exact Nat.mod_lt _ hpos
  have he : mgExpErr result base n radix_mod_n scratch = none := by
    simp [mgExpErr, hodd, hbl, hrl, hlen]; omega
  have hx := ct_montogmery_exp_mod_odd_mp_mp_exact result base n neg radix_mod_n e nbits scratch
  refine ⟨fun h => (ok_of_outcome (hx.sat ⟨fun _ => hblt, fun _ => ⟨hblt, hrlt, ?_⟩⟩) he).mono ?_,
    fun h => hx.panic fun h' => h ?_⟩
  · exact h.imp_right fun h => ⟨hneg.wmul, h⟩
  · rintro r ⟨s, h1, h2, h3, h4⟩
    refine ⟨s, h1, h2, h3, h4, fun k => ?_⟩
    have h5 := expRun_spec (y := x) hneg.wmul (by omega) n.toNat_lt_B hrlt
      (by rw [hr]; exact Nat.mod_modEq _ _) hblt (by rw [hb]; exact Nat.mod_modEq _ _) nb le_rfl k
    rw [Nat.sub_self, pow_zero, Nat.div_one, exponent_bits] at h5
    rw [h4, ← Nat.mod_eq_of_lt (expRun_lt hpos hrlt nb)]
    exact h5
  · exact (h'.2 he).2.2.imp_right fun h => h.2

-- A modulus outside the domain of `C28_exp_partial`, where all goes well, and one where it doesn't.
example : letI := cfg64;
    (ct_exp_mod_odd_mp_mp (Buf.ofNat .be 16 0) (Buf.ofNat .le 16 3)
      (Buf.ofNat .be 16 (2 ^ 128 - 1)) (Buf.ofNat .le 2 1234) 9 (Buf.ofNat .ne 16 0)).val.bind expNum
      = some (3 ^ (1234 % 2 ^ 9) % (2 ^ 128 - 1)) ∧
    ¬ (B + 1) * (2 ^ 128 - 1) ≤ B ^ 3 ∧
    ExpOk .be 16 16 (Buf.ofNat .be 16 (2 ^ 128 - 1)) 1 3 1234 9 ∧
    MgKeeps 2 (2 ^ 128 - 1) 1 3 1 ∧
    ExpKeeps 2 (2 ^ 128 - 1) 1 3 1234 9 1 9 ∧
    expBase (Buf.ofNat .be 16 (2 ^ 128 - 1)) 1 3 = 3 ∧
    expOne (Buf.ofNat .be 16 (2 ^ 128 - 1)) 1 = 1 ∧
    ¬ ExpOk .ne 16 16 (Buf.ofNat .be 9 (2 ^ 72 - 1)) 1 0xffffffefffffffffff 2 2 := by
  decide +kernel

/-! ## C34 -/

/-- C34: the test, for every odd candidate: when it panics, what it answers, and that this is the strong
probable prime criterion if no carry is dropped.  `MrPasses` compares the powers `expRun` with one and minus
one, `mg_radix.Readable (p.nlimbs - 1)` says that `mg_radix` has as many limbs as `p`, or is of big endian
bytes, with complete limbs, and lacks one limb. -/
theorem C34_exact (mg_base : Buf χ) (p : Buf φ) (mg_radix : Buf ψ)
    (scratch0 scratch1 : Buf .ne) (a s d neg : ℕ) (hodd : p.toNat % 2 = 1) (hneg : NegInv p neg)
    (hsd : p.toNat - 1 = 2 ^ s * d) (hd : 1 < p.toNat → d % 2 = 1)
    (hbase : mg_base.toNat = a * radix p % p.toNat) (hbl : LenCompat mg_base p.len)
    (hrad : mg_radix.toNat = radix p % p.toNat) (hrl : LenCompat mg_radix p.len)
    (hs0 : p.nlimbs ≤ scratch0.nlimbs) (hs1 : p.nlimbs ≤ scratch1.nlimbs) :
    let Ok := 1 < p.toNat ∧ mg_base.len ≠ 0 ∧ mg_radix.Readable (p.nlimbs - 1) ∧
      MrFits p neg mg_base.toNat mg_radix.toNat
    (Ok → Sat (ct_prime_test_miller_rabin_mp mg_base p mg_radix scratch0 scratch1)
      (fun r => ∃ c : Bool, r = .ok (.ofBool c) ∧
        (c = true ↔ MrPasses p neg mg_base.toNat mg_radix.toNat s) ∧
        (ExpKeeps p.nlimbs p.toNat neg mg_base.toNat p.toNat (8 * p.len) mg_radix.toNat
          (8 * p.len - 1) →
          (c = true ↔ StrongProbablePrime p.toNat a)))) ∧
    (¬ Ok →
      (ct_prime_test_miller_rabin_mp mg_base p mg_radix scratch0 scratch1).val = none) := by
  intro Ok
  have hpos : 0 < p.toNat := by omega
  have hb : mg_base.toNat < p.toNat := by rw [hbase]; exact Nat.mod_lt _ hpos
  have hr : mg_radix.toNat < p.toNat := by rw [hrad]; exact Nat.mod_lt _ hpos
  have hs : 1 < p.toNat → IsTz 0 (p.toNat - 1) s := fun h => isTz_of_eq hsd (hd h)
  have he : mrErr mg_base p mg_radix scratch0 scratch1 = none := by
    simp [mrErr, hodd, hbl, hrl, Nat.not_lt.2 hs0, Nat.not_lt.2 hs1]
  have hx := ct_prime_test_miller_rabin_mp_exact mg_base p mg_radix scratch0 scratch1
    (fun _ => hneg.wmul) hs
  refine ⟨fun h => (ok_of_outcome (hx.sat ⟨fun _ _ => ⟨hb, fun _ => hr⟩, fun _ => h⟩) he).mono ?_,
    fun h => hx.panic fun h' => h (h'.2 he)⟩
  rintro r ⟨c, rfl, rfl⟩
  refine ⟨_, rfl, decide_eq_true_iff, fun k => ?_⟩
  rw [decide_eq_true_iff, mrPasses_iff (y := a) hneg.wmul h.1 (by omega) hr
    (by rw [hrad]; exact Nat.mod_modEq _ _) hb (by rw [hbase]; exact Nat.mod_modEq _ _) k (hs h.1),
    mrCond_iff h.1 hodd (hs h.1)]

/-- C34: the candidate one always panics in a debug build, unless the scratch space is insufficient. -/
theorem C34_one_panics_fails (mg_base : Buf χ) (p : Buf φ) (mg_radix : Buf ψ)
    (scratch0 scratch1 : Buf .ne) (hp : p.toNat = 1) (hbl : LenCompat mg_base p.len)
    (hrl : LenCompat mg_radix p.len)
    (hs0 : p.nlimbs ≤ scratch0.nlimbs) (hs1 : p.nlimbs ≤ scratch1.nlimbs) :
    (ct_prime_test_miller_rabin_mp mg_base p mg_radix scratch0 scratch1).val = none := by
  obtain ⟨neg, hneg⟩ := exists_neg (n := p.toNat) (by omega)
  refine (ct_prime_test_miller_rabin_mp_exact mg_base p mg_radix scratch0 scratch1 (s := 0)
    (fun _ => hneg) (fun h => by omega)).panic fun h => ?_
  have := (h.2 (by simp [mrErr, hp, hbl, hrl, Nat.not_lt.2 hs0, Nat.not_lt.2 hs1])).1
  omega

/-- C34: a base or radix not less than the candidate always panics in a debug build, unless the
arguments are refused before. -/
theorem C34_unreduced (mg_base : Buf χ) (p : Buf φ) (mg_radix : Buf ψ)
    (scratch0 scratch1 : Buf .ne) (hodd : p.toNat % 2 = 1) (hbl : LenCompat mg_base p.len)
    (h : p.toNat ≤ mg_base.toNat ∨ p.toNat ≤ mg_radix.toNat ∧ LenCompat mg_radix p.len) :
    (ct_prime_test_miller_rabin_mp mg_base p mg_radix scratch0 scratch1).val = none := by
  obtain ⟨neg, hneg⟩ := exists_neg (n := p.toNat) (by omega)
  obtain ⟨s, hs⟩ : ∃ s, 1 < p.toNat → IsTz 0 (p.toNat - 1) s := by
    by_cases h : 1 < p.toNat
    · obtain ⟨k, hk⟩ := exists_isTz (v := p.toNat - 1) (by omega)
      exact ⟨k, fun _ => hk⟩
    · exact ⟨0, fun h' => absurd h' h⟩
  refine (ct_prime_test_miller_rabin_mp_exact mg_base p mg_radix scratch0 scratch1
    (fun _ => hneg) hs).panic fun h' => ?_
  obtain ⟨h1, h2⟩ := h'.1 (by omega) hbl
  rcases h with h | ⟨h, h3⟩
  · omega
  · have := h2 h3; omega

-- A prime outside the domain of `C34_prime_partial`, where all goes well, and one where it doesn't.
example : letI := cfg32;
    MrFits (Buf.ofNat .be 8 18446744073709551533) 0x2b2e43db 166 83 ∧
    ExpKeeps 2 18446744073709551533 0x2b2e43db 166 18446744073709551533 64 83 63 ∧
    NegInv (Buf.ofNat .be 8 18446744073709551533) 0x2b2e43db ∧
    ¬ (B + 1) * 18446744073709551533 ≤ B ^ 3 ∧
    ¬ MrFits (Buf.ofNat .be 3 16777213) 0xe3aaaaab (4 * 2 ^ 32 % 16777213) (2 ^ 32 % 16777213) :=
  ⟨by decide +kernel, by decide +kernel, ⟨by decide +kernel, by decide +kernel⟩, by decide +kernel,
    by decide +kernel⟩

end Props
end Cmpa
