import Verif.Proofs.AddMod
import Verif.Proofs.InvModFinish
import Verif.Proofs.Panic

/-!
# Addition and subtraction of operands that don't fit into the first one

`ct_add_mp_mp` and `ct_sub_mp_mp` where the second operand has as many limbs as the first one, but more
significant bytes.
-/

namespace Cmpa
open M
variable [LimbCfg] {f g : Fmt} {α β σ : Type}

/-- `m` panics in a debug build exactly if `S` is wrong, and its result satisfies `P` otherwise.  In a
release build it never panics and its result satisfies `P`. -/
structure DbgExact (S : Prop) (m : M α) (P : α → Prop) : Prop where
  exact : Exact S m P
  rsat : RSat m P

section
variable {S : Prop} {P : α → Prop} {Q : β → Prop}
set_option linter.unusedSectionVars false

theorem Sat.dbgExact {m : M α} (h : Sat m P) (hS : S) : DbgExact S m P :=
  ⟨⟨fun _ => h, fun h1 => absurd hS h1⟩, h.rel⟩

theorem Sat.bindDbg {m : M α} {k : α → M β} (hm : Sat m P) (hk : ∀ a, P a → DbgExact S (k a) Q) :
    DbgExact S (m >>= k) Q :=
  ⟨hm.bindExact fun a ha => (hk a ha).exact, hm.rel.bind fun a ha => (hk a ha).rsat⟩

theorem DbgExact.bind {m : M α} {k : α → M β} (hm : DbgExact S m P) (hk : ∀ a, P a → Sat (k a) Q) :
    DbgExact S (m >>= k) Q :=
  ⟨(hm.exact.bind (S' := True) fun a _ ha => (hk a ha).exact).congr (by simp),
    hm.rsat.bind fun a ha => (hk a ha).rel⟩

theorem DbgExact.assert {c : Prop} [Decidable c] {k : Unit → M β} (hk : Sat (k ()) Q) :
    DbgExact c (M.assert c >>= k) Q :=
  ⟨(Exact.assert (S' := True) fun _ => hk.exact).congr (by simp),
    RSat.bind (P := fun _ => True) (RSat.assert trivial) fun _ _ => hk.rel⟩

theorem DbgExact.cond {c : Prop} [Decidable c] {t e : M α} (ht : c → DbgExact S t P)
    (he : ¬ c → DbgExact S e P) : DbgExact S (M.cond c t e) P :=
  ⟨Exact.cond (fun h => (ht h).exact) fun h => (he h).exact,
    RSat.cond (fun h => (ht h).rsat) fun h => (he h).rsat⟩

theorem DbgExact.congr {S' : Prop} {m : M α} (h : DbgExact S m P) (hS : S ↔ S') : DbgExact S' m P :=
  ⟨h.exact.congr hS, h.rsat⟩

theorem DbgExact.mono {P' : α → Prop} {m : M α} (h : DbgExact S m P) (hP : ∀ a, P a → P' a) :
    DbgExact S m P' := ⟨h.exact.mono hP, h.rsat.mono hP⟩

/-- A loop in which an assertion may fail in the last iteration. -/
theorem DbgExact.loopUp {k : ℕ → σ → M σ} {P : ℕ → σ → Prop} :
    ∀ {n lo : ℕ} {s : σ}, P lo s →
      (∀ i s, lo ≤ i → i < lo + n → P i s → Sat (k i s) (P (i + 1))) →
      (∀ s, P (lo + n) s → DbgExact S (k (lo + n) s) (P (lo + n + 1))) →
      DbgExact S (M.loopUp (n + 1) lo s k) (P (lo + n + 1))
  | 0, lo, s, h0, _, hl => by
    unfold M.loopUp
    refine Sat.bindDbg (P := fun _ => True) (Sat.emit trivial) fun _ _ => ?_
    refine (hl s h0).bind fun s' h' => ?_
    unfold M.loopUp
    exact Sat.pure h'
  | n + 1, lo, s, h0, hs, hl => by
    unfold M.loopUp
    refine Sat.bindDbg (P := fun _ => True) (Sat.emit trivial) fun _ _ => ?_
    refine Sat.bindDbg (hs lo s le_rfl (by omega) h0) fun s' h' => ?_
    have e : lo + 1 + n = lo + (n + 1) := by omega
    have := DbgExact.loopUp (n := n) (lo := lo + 1) (s := s') h'
      (fun i s h1 h2 => hs i s (by omega) (by omega)) (by rw [e]; exact hl)
    rwa [e] at this

theorem DbgExact.forRange {k : ℕ → σ → M σ} (P : ℕ → σ → Prop) {lo hi : ℕ} {s : σ} (hlt : lo < hi)
    (h0 : P lo s) (hs : ∀ i s, lo ≤ i → i + 1 < hi → P i s → Sat (k i s) (P (i + 1)))
    (hl : ∀ s, P (hi - 1) s → DbgExact S (k (hi - 1) s) (P hi)) :
    DbgExact S (M.forRange lo hi s k) (P hi) := by
  unfold M.forRange
  obtain ⟨n, hn⟩ : ∃ n, hi = lo + n + 1 := ⟨hi - lo - 1, by omega⟩
  subst hn
  rw [show lo + n + 1 - lo = n + 1 by omega]
  exact DbgExact.loopUp h0 (fun i s h1 h2 => hs i s h1 (by omega)) hl

end

/-- What exceeds the most significant limb. -/
theorem high_part (b : Buf f) (hb : 0 < b.len) {v : ℕ} (hv : v < B) :
    shr (v &&& bnot b.partial_high_mask) b.partial_high_shift = v / 256 ^ hbytes b.len := by
  have hle := hbytes_le b.len
  have hm : v &&& bnot b.partial_high_mask
      = v / 256 ^ hbytes b.len * 256 ^ hbytes b.len := by
    rw [b.partial_high_mask_eq hb, pow_256_eq, ← ct_lsb_mask_l_eq (by rw [W_eq]; omega),
      and_bnot_mask hv (by rw [W_eq]; omega)]
  rw [hm]
  rcases b.partial_high_shift_cases hb with ⟨h1, h2⟩ | ⟨h1, h2, -⟩
  · rw [h1, ← B_eq_256_pow, h2, Nat.div_eq_of_lt hv, Nat.zero_mul]
    simp [shr]
  · rw [h2]; unfold shr
    rw [Nat.shiftRight_eq_div_pow, ← pow_256_eq, Nat.mul_div_cancel _ (by positivity)]

theorem high_div {r v i n : ℕ} (hi : i + 1 = ct_mp_nlimbs n) (hr : r < B ^ i) :
    (r + B ^ i * v) / 256 ^ n = v / 256 ^ hbytes n := by
  rw [pow_len' hi, ← Nat.div_div_eq_div_mul, Nat.add_mul_div_left _ _ (B_pow_pos i),
    Nat.div_eq_of_lt hr, Nat.zero_add]

theorem low_final {a b' : Buf f} {r v i : ℕ} (hi : i + 1 = a.nlimbs) (hr : r < B ^ i) (hv : v < B)
    (hL : Low a (r + B ^ i * topv a i v) (i + 1) b') : b'.toNat = (r + B ^ i * v) % 256 ^ a.len := by
  have hlt : i < a.nlimbs := by omega
  rw [hL.final (by omega), ← topv_mod a hlt hr hv, Nat.mod_eq_of_lt (hr.trans_le (pow_le_len (by
    rw [← Buf.nlimbs_eq]; exact hlt)))]

/-- The sum of numbers of as many limbs. -/
theorem ct_add_cond_mp_mp_wide (a : Buf f) (b : Buf g) (c : Bool) (hl : b.nlimbs ≤ a.nlimbs) {y : ℕ}
    (hy : y = if c then b.toNat else 0) :
    DbgExact (a.toNat + y < B ^ a.nlimbs ∨ (a.toNat + y) % B ^ a.nlimbs < 256 ^ a.len)
      (ct_add_cond_mp_mp a b (.ofBool c)) (fun p => p.1.len = a.len ∧
        p.1.toNat = (a.toNat + y) % 256 ^ a.len ∧
        p.2 = (a.toNat + y) / B ^ a.nlimbs ||| (a.toNat + y) % B ^ a.nlimbs / 256 ^ a.len) := by
  unfold ct_add_cond_mp_mp
  dsimp only
  rw [M.assert_eq hl, M.pure_bind]
  have ha := a.toNat_lt
  have haB := a.toNat_lt_B
  refine DbgExact.cond (fun hz => ?_) fun hz => ?_
  · have h0 : y = 0 := by
      have := b.toNat_lt_B
      rw [hz, pow_zero] at this
      rw [hy]; split <;> omega
    subst h0
    rw [Nat.add_zero]
    refine Sat.dbgExact (Sat.pure ⟨rfl, ?_, ?_⟩) (.inl haB)
    · rw [Nat.mod_eq_of_lt ha]
    · rw [Nat.div_eq_of_lt haB, Nat.mod_eq_of_lt haB, Nat.div_eq_of_lt ha]; rfl
  have hsel : ∀ i, (LimbChoice.ofBool c).select 0 (b.toNat / B ^ i % B) = y / B ^ i % B := by
    rw [hy]; exact select_zero_dig c _
  have hyhigh : ∀ i, b.nlimbs ≤ i → y / B ^ i % B = 0 := by
    intro i hi
    rw [hy]
    cases c
    · simp
    · simpa using b.dig_high hi
  have hyB : y < B ^ a.nlimbs := by
    have h1 := b.toNat_lt_B.trans_le (Nat.pow_le_pow_right B_pos hl)
    have h2 := B_pow_pos a.nlimbs
    rw [hy]; split <;> omega
  clear hy
  have hN : a.nlimbs = ct_mp_nlimbs a.len := Buf.nlimbs_eq a
  refine Sat.bindDbg (Sat.forRange (P := fun i s => ∃ r, Low a r i s.1 ∧ s.2 ≤ 1 ∧ r < B ^ i ∧
    r + s.2 * B ^ i = a.toNat % B ^ i + y % B ^ i) (Nat.zero_le _)
    ⟨0, Low.zero a, by simp [Nat.mod_one]⟩ ?_) ?_
  · rintro i ⟨op0, k⟩ _ hi ⟨r, hL, hk, hrl, hr⟩
    dsimp only at *
    have hfa : i * LB + LB ≤ a.len := full_of_lt_pred (by omega)
    have hfb : i * LB + LB ≤ b.len := full_of_lt_pred (by rw [← Buf.nlimbs_eq]; omega)
    refine Sat.bind (hL.sat_load_full hfa le_rfl (Q := fun v => v = a.toNat / B ^ i % B) rfl) ?_
    rintro _ rfl
    refine Sat.bind (b.sat_load_l_full hfb (Q := fun v => v = b.toNat / B ^ i % B) rfl) ?_
    rintro _ rfl
    rw [hsel]
    obtain ⟨k', v, e, hk', hv, he⟩ := ct_add_l_l_c_spec (dig_lt a.toNat i) (dig_lt y i) hk
    rw [e, M.pure_bind]
    refine Sat.bind (hL.sat_store_full hfa hv (fun b' hb' => hb')) fun b' hb' => ?_
    exact Sat.pure ⟨_, hb', hk', hb'.lt, add_step hr he⟩
  rintro ⟨op0, k⟩ ⟨r, hL, hk, hrl, hr⟩
  dsimp only at *
  refine Sat.bindDbg (b.sat_load_l (by omega) (Q := fun v => v = b.toNat / B ^ (b.nlimbs - 1) % B) rfl) ?_
  rintro _ rfl
  rw [hsel]
  refine DbgExact.bind (DbgExact.forRange (P := fun i s =>
    (i < a.nlimbs → ∃ r, Low a r i s.1 ∧ s.2.1 ≤ 1 ∧ r < B ^ i ∧ s.2.2 = y / B ^ i % B ∧
      r + s.2.1 * B ^ i = a.toNat % B ^ i + y % B ^ i) ∧
    (i = a.nlimbs → s.1.len = a.len ∧ s.1.toNat = (a.toNat + y) % 256 ^ a.len ∧
        s.2.1 = (a.toNat + y) / B ^ a.nlimbs ||| (a.toNat + y) % B ^ a.nlimbs / 256 ^ a.len)) (by omega)
    ⟨fun _ => ⟨r, hL, hk, hrl, rfl, hr⟩, fun h => by omega⟩ ?_ ?_) ?_
  · rintro i ⟨op0, k, u⟩ hi1 hi ⟨hP, -⟩
    obtain ⟨r, hL, hk, hrl, hu, hr⟩ := hP (by omega)
    clear hP
    dsimp only at *
    subst hu
    refine Sat.bind (hL.sat_load (by omega) le_rfl (Q := fun v => v = a.toNat / B ^ i % B) rfl) ?_
    rintro _ rfl
    obtain ⟨k', v, e, hk', hv, he⟩ := ct_add_l_l_c_spec (dig_lt a.toNat i) (dig_lt y i) hk
    rw [e, M.pure_bind]
    refine Sat.cond (fun hcnd => ?_) fun hcnd => absurd (Or.inl (by omega)) hcnd
    refine Sat.bind (hL.sat_store_full (full_of_lt_pred (by omega)) hv (fun b' hb' => hb'))
      fun b' hb' => ?_
    have hu' : 0 = y / B ^ (i + 1) % B := (hyhigh _ (by omega)).symm
    exact Sat.pure ⟨fun _ => ⟨_, hb', hk', hb'.lt, hu', add_step hr he⟩,
      fun h => by omega⟩
  · rintro ⟨op0, k, u⟩ ⟨hP, -⟩
    obtain ⟨r, hL, hk, hrl, hu, hr⟩ := hP (by omega)
    clear hP
    dsimp only at *
    subst hu
    have hlast : a.nlimbs - 1 + 1 = a.nlimbs := by omega
    generalize a.nlimbs - 1 = i at *
    refine Sat.bindDbg (hL.sat_load (by omega) le_rfl (Q := fun v => v = a.toNat / B ^ i % B) rfl) ?_
    rintro _ rfl
    obtain ⟨k', v, e, hk', hv, he⟩ := ct_add_l_l_c_spec (dig_lt a.toNat i) (dig_lt y i) hk
    rw [e, M.pure_bind]
    have hsum := add_step hr he
    have hrv : r + B ^ i * v < B ^ (i + 1) := by
      have := Nat.mul_le_mul_left (B ^ i) (Nat.succ_le_of_lt hv)
      rw [Nat.mul_succ, ← pow_succ] at this
      omega
    rw [hlast, Nat.mod_eq_of_lt haB, Nat.mod_eq_of_lt hyB] at hsum
    rw [hlast] at hrv
    have hdiv : (a.toNat + y) / B ^ a.nlimbs = k' := by
      rw [← hsum, Nat.add_mul_div_right _ _ (B_pow_pos _), Nat.div_eq_of_lt hrv, Nat.zero_add]
    have hmod : (a.toNat + y) % B ^ a.nlimbs = r + B ^ i * v := by
      rw [← hsum, Nat.add_mul_mod_self_right, Nat.mod_eq_of_lt hrv]
    have hhd := high_div (v := v) (hlast.trans hN) hrl
    have hmod' : (a.toNat + y) % 256 ^ a.len = (r + B ^ i * v) % 256 ^ a.len := by
      have hd : 256 ^ a.len ∣ B ^ a.nlimbs := by rw [hN]; exact len_dvd_pow _
      rw [← hmod, Nat.mod_mod_of_dvd _ hd]
    have hapos := len_pos_of_lt (b0 := a) (i := i) (by omega)
    have hS : (k' = 0 ∨ v / 256 ^ hbytes a.len = 0) ↔
        (a.toNat + y < B ^ a.nlimbs ∨ (a.toNat + y) % B ^ a.nlimbs < 256 ^ a.len) := by
      rw [hmod, ← hhd, ← hdiv, Nat.div_eq_zero_iff, Nat.div_eq_zero_iff]
      have h1 := B_pow_pos a.nlimbs
      have h2 : 0 < 256 ^ a.len := by positivity
      omega
    refine DbgExact.cond (fun hcnd => ?_) fun hcnd => ?_
    · have hun : f.unaligned = false := hcnd.resolve_left (by omega)
      have h0 : v / 256 ^ hbytes a.len = 0 := by
        rw [hbytes_ne a hun (by omega), ← B_eq_256_pow, Nat.div_eq_of_lt hv]
      have htop : topv a i v = v := by
        unfold topv
        rw [if_pos hlast, hbytes_ne a hun (by omega), ← B_eq_256_pow, Nat.mod_eq_of_lt hv]
      refine Sat.dbgExact ?_ (hS.1 (.inr h0))
      refine Sat.bind (hL.sat_store_full (full_ne a hun (by omega)) hv (fun b' hb' => hb')) fun b' hb' => ?_
      refine Sat.pure ⟨fun h => by omega, fun _ => ⟨hb'.len, ?_, ?_⟩⟩
      · rw [hmod']; exact low_final hlast hrl hv (by rw [htop]; exact hb')
      · rw [hmod, hhd, h0, hdiv]; simp
    · rw [Buf.partial_high_mask_congr hL.len]
      refine Sat.bindDbg (hL.sat_store_mask hlast hv rfl (fun b' hb' => hb')) fun b' hb' => ?_
      have hsh : op0.partial_high_shift = a.partial_high_shift := by
        unfold Buf.partial_high_shift; rw [hL.len]
      rw [hsh, high_part a hapos hv]
      refine DbgExact.congr ?_ hS
      refine DbgExact.assert (Sat.pure ⟨fun h => by omega, fun _ => ⟨hb'.len, ?_, ?_⟩⟩)
      · rw [hmod']; exact low_final hlast hrl hv hb'
      · rw [hmod, hhd, hdiv]
  · rintro ⟨op0, k, u⟩ ⟨-, hP⟩
    exact Sat.pure (hP rfl)

omit [LimbCfg] in
/-- The most significant bit of a number is the one of its most significant limb. -/
theorem half_iff {b h p r v : ℕ} (hb : b = 2 * h) (hr : r < p) :
    2 * v < b ↔ 2 * (r + p * v) < p * b := by
  subst hb
  have e1 : p * (2 * h) = 2 * (p * h) := by ring
  rw [e1]
  constructor
  · intro h5
    have := Nat.mul_le_mul_left p (show v + 1 ≤ h by omega)
    rw [Nat.mul_add] at this
    omega
  · intro h5
    by_contra h6
    have := Nat.mul_le_mul_left p (show h ≤ v by omega)
    omega

/-- The difference of numbers of as many limbs. -/
theorem ct_sub_cond_mp_mp_wide (a : Buf f) (b : Buf g) (c : Bool) (hl : b.nlimbs ≤ a.nlimbs) {y : ℕ}
    (hy : y = if c then b.toNat else 0) :
    DbgExact (LB ∣ a.len ∨ 2 * y ≤ 2 * a.toNat + B ^ a.nlimbs)
      (ct_sub_cond_mp_mp a b (.ofBool c)) (fun p => p.1.len = a.len ∧
        (p.1.toNat : ℤ) = ((a.toNat : ℤ) - y) % ((256 ^ a.len : ℕ) : ℤ) ∧
        p.2 = if a.toNat < y then 1 else 0) := by
  unfold ct_sub_cond_mp_mp
  dsimp only
  rw [M.assert_eq hl, M.pure_bind]
  have ha := a.toNat_lt
  have haB := a.toNat_lt_B
  refine DbgExact.cond (fun hz => ?_) fun hz => ?_
  · have h0 : y = 0 := by
      have := b.toNat_lt_B
      rw [hz, pow_zero] at this
      rw [hy]; split <;> omega
    subst h0
    refine Sat.dbgExact (Sat.pure ⟨rfl, ?_, ?_⟩) (.inr (by omega))
    · rw [Int.emod_eq_of_lt (by omega) (by omega)]; simp
    · rw [if_neg (by omega)]
  have hsel : ∀ i, (LimbChoice.ofBool c).select 0 (b.toNat / B ^ i % B) = y / B ^ i % B := by
    rw [hy]; exact select_zero_dig c _
  have hyhigh : ∀ i, b.nlimbs ≤ i → y / B ^ i % B = 0 := by
    intro i hi
    rw [hy]
    cases c
    · simp
    · simpa using b.dig_high hi
  have hyB : y < B ^ a.nlimbs := by
    have h1 := b.toNat_lt_B.trans_le (Nat.pow_le_pow_right B_pos hl)
    have h2 := B_pow_pos a.nlimbs
    rw [hy]; split <;> omega
  clear hy
  have hN : a.nlimbs = ct_mp_nlimbs a.len := Buf.nlimbs_eq a
  refine Sat.bindDbg (Sat.forRange (P := fun i s => ∃ r, Low a r i s.1 ∧ s.2 ≤ 1 ∧ r < B ^ i ∧
    r + y % B ^ i = a.toNat % B ^ i + s.2 * B ^ i) (Nat.zero_le _)
    ⟨0, Low.zero a, by simp [Nat.mod_one]⟩ ?_) ?_
  · rintro i ⟨op0, k⟩ _ hi ⟨r, hL, hk, hrl, hr⟩
    dsimp only at *
    have hfa : i * LB + LB ≤ a.len := full_of_lt_pred (by omega)
    have hfb : i * LB + LB ≤ b.len := full_of_lt_pred (by rw [← Buf.nlimbs_eq]; omega)
    refine Sat.bind (hL.sat_load_full hfa le_rfl (Q := fun v => v = a.toNat / B ^ i % B) rfl) ?_
    rintro _ rfl
    refine Sat.bind (b.sat_load_l_full hfb (Q := fun v => v = b.toNat / B ^ i % B) rfl) ?_
    rintro _ rfl
    rw [hsel]
    obtain ⟨k', v, e, hk', hv, he⟩ := ct_sub_l_l_b_spec (dig_lt a.toNat i) (dig_lt y i) hk
    rw [e, M.pure_bind]
    refine Sat.bind (hL.sat_store_full hfa hv (fun b' hb' => hb')) fun b' hb' => ?_
    exact Sat.pure ⟨_, hb', hk', hb'.lt, sub_step hr he⟩
  rintro ⟨op0, k⟩ ⟨r, hL, hk, hrl, hr⟩
  dsimp only at *
  refine Sat.bindDbg (b.sat_load_l (by omega) (Q := fun v => v = b.toNat / B ^ (b.nlimbs - 1) % B) rfl) ?_
  rintro _ rfl
  rw [hsel]
  refine DbgExact.bind (DbgExact.forRange (P := fun i s =>
    (i < a.nlimbs → ∃ r, Low a r i s.1 ∧ s.2.1 ≤ 1 ∧ r < B ^ i ∧ s.2.2 = y / B ^ i % B ∧
      r + y % B ^ i = a.toNat % B ^ i + s.2.1 * B ^ i) ∧
    (i = a.nlimbs → s.1.len = a.len ∧
        (s.1.toNat : ℤ) = ((a.toNat : ℤ) - y) % ((256 ^ a.len : ℕ) : ℤ) ∧
        s.2.1 = if a.toNat < y then 1 else 0)) (by omega)
    ⟨fun _ => ⟨r, hL, hk, hrl, rfl, hr⟩, fun h => by omega⟩ ?_ ?_) ?_
  · rintro i ⟨op0, k, u⟩ hi1 hi ⟨hP, -⟩
    obtain ⟨r, hL, hk, hrl, hu, hr⟩ := hP (by omega)
    clear hP
    dsimp only at *
    subst hu
    refine Sat.bind (hL.sat_load (by omega) le_rfl (Q := fun v => v = a.toNat / B ^ i % B) rfl) ?_
    rintro _ rfl
    obtain ⟨k', v, e, hk', hv, he⟩ := ct_sub_l_l_b_spec (dig_lt a.toNat i) (dig_lt y i) hk
    rw [e, M.pure_bind]
    refine Sat.cond (fun hcnd => ?_) fun hcnd => absurd (Or.inl (by omega)) hcnd
    refine Sat.bind (hL.sat_store_full (full_of_lt_pred (by omega)) hv (fun b' hb' => hb'))
      fun b' hb' => ?_
    have hu' : 0 = y / B ^ (i + 1) % B := (hyhigh _ (by omega)).symm
    exact Sat.pure ⟨fun _ => ⟨_, hb', hk', hb'.lt, hu', sub_step hr he⟩,
      fun h => by omega⟩
  · rintro ⟨op0, k, u⟩ ⟨hP, -⟩
    obtain ⟨r, hL, hk, hrl, hu, hr⟩ := hP (by omega)
    clear hP
    dsimp only at *
    subst hu
    have hlast : a.nlimbs - 1 + 1 = a.nlimbs := by omega
    generalize a.nlimbs - 1 = i at *
    refine Sat.bindDbg (hL.sat_load (by omega) le_rfl (Q := fun v => v = a.toNat / B ^ i % B) rfl) ?_
    rintro _ rfl
    obtain ⟨k', v, e, hk', hv, he⟩ := ct_sub_l_l_b_spec (dig_lt a.toNat i) (dig_lt y i) hk
    rw [e, M.pure_bind]
    have hsum := sub_step hr he
    have hrv : r + B ^ i * v < B ^ (i + 1) := by
      have := Nat.mul_le_mul_left (B ^ i) (Nat.succ_le_of_lt hv)
      rw [Nat.mul_succ, ← pow_succ] at this
      omega
    rw [hlast, Nat.mod_eq_of_lt haB, Nat.mod_eq_of_lt hyB] at hsum
    rw [hlast] at hrv
    have hapos := len_pos_of_lt (b0 := a) (i := i) (by omega)
    have hval : ((((r + B ^ i * v) % 256 ^ a.len : ℕ)) : ℤ) = ((a.toNat : ℤ) - y) % ((256 ^ a.len : ℕ) : ℤ) := by
      obtain ⟨m, hm⟩ : 256 ^ a.len ∣ B ^ a.nlimbs := by rw [hN]; exact len_dvd_pow _
      rw [Int.natCast_mod]
      refine Int.ModEq.symm ((Int.modEq_iff_dvd).2 ⟨k' * m, ?_⟩)
      rw [hm] at hsum
      zify at hsum
      push_cast
      linear_combination hsum
    have hbor : k' = if a.toNat < y then 1 else 0 := by
      rcases Nat.le_one_iff_eq_zero_or_eq_one.1 hk' with rfl | rfl
      · rw [if_neg (by omega)]
      · rw [if_pos (by omega)]
    have hS : (a.partial_high_shift = 0 ∨ k' = shr v (W - 1)) ↔
        (LB ∣ a.len ∨ 2 * y ≤ 2 * a.toNat + B ^ a.nlimbs) := by
      rw [shr_top' hv]
      have hB := B_half
      have hBi := B_pow_pos i
      have hpw : B ^ a.nlimbs = B ^ i * B := by rw [← hlast, pow_succ]
      have hLB := LB_pos
      have hdv : LB ∣ a.len ↔ hbytes a.len = LB := by
        constructor
        · rintro ⟨q, hq⟩
          rw [Nat.mul_comm] at hq
          have hq0 : 0 < q := Nat.pos_of_ne_zero (by rintro rfl; omega)
          rw [hq, hbytes_mul hq0]
        · intro h
          unfold hbytes at h
          exact ⟨ct_mp_nlimbs a.len - 1 + 1, by rw [Nat.mul_comm, Nat.add_mul]; omega⟩
      rw [hdv]
      rcases a.partial_high_shift_cases hapos with ⟨h1, h2⟩ | ⟨h1, h2, -⟩
      · exact ⟨fun _ => .inl h1, fun _ => .inl h2⟩
      have hb0 := hbytes_pos hapos
      have hp : 2 * 256 ^ hbytes a.len ≤ B := by
        rw [B_eq_256_pow, show LB = hbytes a.len + 1 + (LB - hbytes a.len - 1) by omega, pow_add, pow_succ]
        have h3 : 0 < 256 ^ (LB - hbytes a.len - 1) := by positivity
        have h4 := Nat.le_mul_of_pos_right (256 ^ hbytes a.len * 256) h3
        omega
      have ha2 : 2 * a.toNat < B ^ a.nlimbs := by
        rw [pow_len' (hlast.trans hN)] at ha
        have := Nat.mul_le_mul_left (B ^ i) hp
        rw [hpw]
        have e1 : B ^ i * (2 * 256 ^ hbytes a.len) = 2 * (B ^ i * 256 ^ hbytes a.len) := by ring
        omega
      have htop : 2 * v < B ↔ 2 * (r + B ^ i * v) < B ^ a.nlimbs := by
        rw [hpw]; exact half_iff B_half' hrl
      simp only [htop]
      rcases Nat.le_one_iff_eq_zero_or_eq_one.1 hk' with rfl | rfl
      · rw [if_pos (by omega)]
        exact ⟨fun _ => .inr (by omega), fun _ => .inr rfl⟩
      · split
        · constructor <;> rintro (h | h) <;> omega
        · exact ⟨fun _ => .inr (by omega), fun _ => .inr rfl⟩
    refine DbgExact.cond (fun hcnd => ?_) fun hcnd => ?_
    · have hun : f.unaligned = false := hcnd.resolve_left (by omega)
      have htop : topv a i v = v := by
        unfold topv
        rw [if_pos hlast, hbytes_ne a hun (by omega), ← B_eq_256_pow, Nat.mod_eq_of_lt hv]
      refine Sat.dbgExact ?_ (.inl (by rw [a.aligned hun]; exact Dvd.intro_left _ rfl))
      refine Sat.bind (hL.sat_store_full (full_ne a hun (by omega)) hv (fun b' hb' => hb')) fun b' hb' => ?_
      refine Sat.pure ⟨fun h => by omega, fun _ => ⟨hb'.len, ?_, hbor⟩⟩
      rw [← hval, low_final hlast hrl hv (by rw [htop]; exact hb')]
    · rw [Buf.partial_high_mask_congr hL.len]
      refine Sat.bindDbg (hL.sat_store_mask hlast hv rfl (fun b' hb' => hb')) fun b' hb' => ?_
      have hsh : b'.partial_high_shift = a.partial_high_shift := by
        unfold Buf.partial_high_shift; rw [hb'.len]
      rw [hsh]
      refine DbgExact.congr ?_ hS
      refine DbgExact.assert (Sat.pure ⟨fun h => by omega, fun _ => ⟨hb'.len, ?_, hbor⟩⟩)
      rw [← hval, low_final hlast hrl hv hb']
  · rintro ⟨op0, k, u⟩ ⟨-, hP⟩
    exact Sat.pure (hP rfl)

/-! ### Adding or subtracting a limb -/

theorem limb_panic {a : Buf f} {z : ℕ} (hz : z < B) (h : ¬ z < 256 ^ a.len) (k : Unit → M α) :
    (M.assertM (do let n ← ct_find_last_set_byte_l z; pure (decide (n ≤ a.len))) >>= k).val = none := by
  refine M.bind_panic ?_
  rw [ct_find_last_set_byte_l_eq hz, M.pure_bind]
  have h2 : decide ((z.size + 7) / 8 ≤ a.len) = false :=
    decide_eq_false fun h3 => h ((isByteLen_size _).le.1 h3)
  rw [h2]
  rfl

/-- The sum with a limb in release builds. -/
theorem ct_add_mp_l_rsat (a : Buf f) {z : ℕ} (hz : z < B) (h0 : 0 < a.len) :
    RSat (ct_add_mp_l a z) (fun p => p.1.len = a.len ∧ p.1.toNat = (a.toNat + z) % 256 ^ a.len ∧
      p.2 = (a.toNat + z) / B ^ a.nlimbs ||| (a.toNat + z) % B ^ a.nlimbs / 256 ^ a.len) := by
  unfold ct_add_mp_l
  dsimp only
  refine RSat.bind (P := fun _ => True) (RSat.assertM trivial) fun _ _ => ?_
  have hN : a.nlimbs = ct_mp_nlimbs a.len := Buf.nlimbs_eq a
  have hN0 : 0 < a.nlimbs := by rw [hN]; exact nlimbs_pos_iff.2 h0
  have haB := a.toNat_lt_B
  refine RSat.cond (fun h => by omega) fun _ => ?_
  have hadd : ∀ i k r : ℕ, k < B → r + k * B ^ i = a.toNat % B ^ i + z →
      r + B ^ i * ((a.toNat / B ^ i % B + k) % B) + (a.toNat / B ^ i % B + k) / B * B ^ (i + 1)
        = a.toNat % B ^ (i + 1) + z := by
    intro i k r _ h
    have := Nat.mod_add_div (a.toNat / B ^ i % B + k) B
    rw [mod_succ, pow_succ]
    linear_combination h + B ^ i * this
  refine RSat.bind (Sat.rel (Sat.forRange (P := fun i s => ∃ r, Low a r i s.1 ∧ s.2 < B ∧ r < B ^ i ∧
    r + s.2 * B ^ i = a.toNat % B ^ i + z) (Nat.zero_le _)
    ⟨0, Low.zero a, hz, by simp, by simp [Nat.mod_one]⟩ ?_)) ?_
  · rintro i ⟨op0, k⟩ _ hi ⟨r, hL, hk, -, hr⟩
    dsimp only at *
    have hfa : i * LB + LB ≤ a.len := full_of_lt_pred (by omega)
    refine Sat.bind (hL.sat_load_full hfa le_rfl (Q := fun v => v = a.toNat / B ^ i % B) rfl) ?_
    rintro _ rfl
    rw [ct_add_l_l_eq (dig_lt _ _) hk]
    dsimp only
    refine Sat.bind (hL.sat_store_full hfa (Nat.mod_lt _ B_pos) (fun b' hb' => hb'))
      fun b' hb' => ?_
    have hle := add_div_le_one (dig_lt a.toNat i) hk
    exact Sat.pure ⟨_, hb', lt_of_le_of_lt hle one_lt_B, hb'.lt, hadd _ _ _ hk hr⟩
  rintro ⟨op0, k⟩ ⟨r, hL, hk, hrl, hr⟩
  dsimp only at *
  refine RSat.bind (hL.sat_load (by omega) le_rfl
    (Q := fun v => v = a.toNat / B ^ (a.nlimbs - 1) % B) rfl).rel ?_
  rintro _ rfl
  rw [ct_add_l_l_eq (dig_lt _ _) hk]
  dsimp only
  have hlast : a.nlimbs - 1 + 1 = a.nlimbs := by omega
  rw [Buf.partial_high_mask_congr hL.len,
    show op0.partial_high_shift = a.partial_high_shift by
      unfold Buf.partial_high_shift; rw [hL.len]]
  refine RSat.bind (hL.sat_store_mask hlast (Nat.mod_lt _ B_pos) rfl (fun b' hb' => hb')).rel
    fun b' hb' => ?_
  have hsum := hadd _ _ _ hk hr
  generalize a.nlimbs - 1 = i at *
  have hv : (a.toNat / B ^ i % B + k) % B < B := Nat.mod_lt _ B_pos
  generalize (a.toNat / B ^ i % B + k) % B = v at *
  generalize (a.toNat / B ^ i % B + k) / B = k' at *
  refine RSat.bind (P := fun _ => True) (RSat.assert trivial) fun _ _ => RSat.pure ?_
  rw [hlast, Nat.mod_eq_of_lt haB] at hsum
  have hrv : r + B ^ i * v < B ^ a.nlimbs := by
    have := Nat.mul_le_mul_left (B ^ i) (Nat.succ_le_of_lt hv)
    rw [Nat.mul_succ, ← pow_succ, hlast] at this
    omega
  have hdiv : (a.toNat + z) / B ^ a.nlimbs = k' := by
    rw [← hsum, Nat.add_mul_div_right _ _ (B_pow_pos _), Nat.div_eq_of_lt hrv, Nat.zero_add]
  have hmod : (a.toNat + z) % B ^ a.nlimbs = r + B ^ i * v := by
    rw [← hsum, Nat.add_mul_mod_self_right, Nat.mod_eq_of_lt hrv]
  refine ⟨hb'.len, ?_, ?_⟩
  · have hd : 256 ^ a.len ∣ B ^ a.nlimbs := by rw [hN]; exact len_dvd_pow _
    rw [← Nat.mod_mod_of_dvd _ hd, hmod]
    exact low_final hlast hrl hv hb'
  · rw [hmod, hdiv, high_div (hlast.trans hN) hrl, high_part a h0 hv]

/-- The difference with a limb in release builds. -/
theorem ct_sub_mp_l_rsat (a : Buf f) {z : ℕ} (hz : z < B) (h0 : 0 < a.len) :
    RSat (ct_sub_mp_l a z) (fun p => p.1.len = a.len ∧
      (p.1.toNat : ℤ) = ((a.toNat : ℤ) - z) % ((256 ^ a.len : ℕ) : ℤ) ∧
      p.2 = if a.toNat < z then 1 else 0) := by
  unfold ct_sub_mp_l
  dsimp only
  refine RSat.bind (P := fun _ => True) (RSat.assertM trivial) fun _ _ => ?_
  have hN : a.nlimbs = ct_mp_nlimbs a.len := Buf.nlimbs_eq a
  have hN0 : 0 < a.nlimbs := by rw [hN]; exact nlimbs_pos_iff.2 h0
  have haB := a.toNat_lt_B
  refine RSat.cond (fun h => by omega) fun _ => ?_
  refine RSat.bind (Sat.rel (Sat.forRange (P := fun i s => ∃ r, Low a r i s.1 ∧ s.2 < B ∧ r < B ^ i ∧
    r + z = a.toNat % B ^ i + s.2 * B ^ i) (Nat.zero_le _)
    ⟨0, Low.zero a, hz, by simp, by simp [Nat.mod_one]⟩ ?_)) ?_
  · rintro i ⟨op0, k⟩ _ hi ⟨r, hL, hk, -, hr⟩
    dsimp only at *
    have hfa : i * LB + LB ≤ a.len := full_of_lt_pred (by omega)
    refine Sat.bind (hL.sat_load_full hfa le_rfl (Q := fun v => v = a.toNat / B ^ i % B) rfl) ?_
    rintro _ rfl
    obtain ⟨w, d, e, hw, hd, he, -⟩ := ct_sub_l_l_spec (dig_lt a.toNat i) hk
    rw [e]
    dsimp only
    refine Sat.bind (hL.sat_store_full hfa hd (fun b' hb' => hb'))
      fun b' hb' => ?_
    refine Sat.pure ⟨_, hb', lt_of_le_of_lt hw one_lt_B, hb'.lt, ?_⟩
    rw [mod_succ, pow_succ]
    linear_combination hr - B ^ i * he
  rintro ⟨op0, k⟩ ⟨r, hL, hk, hrl, hr⟩
  dsimp only at *
  refine RSat.bind (hL.sat_load (by omega) le_rfl
    (Q := fun v => v = a.toNat / B ^ (a.nlimbs - 1) % B) rfl).rel ?_
  rintro _ rfl
  obtain ⟨w, d, e, hw, hd, he, -⟩ := ct_sub_l_l_spec (dig_lt a.toNat (a.nlimbs - 1)) hk
  rw [e]
  dsimp only
  have hlast : a.nlimbs - 1 + 1 = a.nlimbs := by omega
  rw [Buf.partial_high_mask_congr hL.len]
  refine RSat.bind (hL.sat_store_mask hlast hd rfl (fun b' hb' => hb')).rel fun b' hb' => ?_
  refine RSat.bind (P := fun _ => True) (RSat.assert trivial) fun _ _ => RSat.pure ?_
  have hsum : r + B ^ (a.nlimbs - 1) * d + z = a.toNat + w * B ^ a.nlimbs := by
    have h1 := mod_succ a.toNat (a.nlimbs - 1)
    rw [hlast, Nat.mod_eq_of_lt haB] at h1
    rw [show B ^ a.nlimbs = B ^ (a.nlimbs - 1) * B by rw [← pow_succ, hlast]]
    linear_combination hr - B ^ (a.nlimbs - 1) * he - h1
  generalize a.nlimbs - 1 = i at *
  have hrv : r + B ^ i * d < B ^ a.nlimbs := by
    have := Nat.mul_le_mul_left (B ^ i) (Nat.succ_le_of_lt hd)
    rw [Nat.mul_succ, ← pow_succ, hlast] at this
    omega
  refine ⟨hb'.len, ?_, ?_⟩
  · rw [low_final hlast hrl hd hb']
    obtain ⟨m, hm⟩ : 256 ^ a.len ∣ B ^ a.nlimbs := by rw [hN]; exact len_dvd_pow _
    rw [Int.natCast_mod]
    refine Int.ModEq.symm ((Int.modEq_iff_dvd).2 ⟨w * m, ?_⟩)
    rw [hm] at hsum
    zify at hsum
    push_cast
    linear_combination hsum
  · dsimp only
    rcases Nat.le_one_iff_eq_zero_or_eq_one.1 hw with rfl | rfl
    · rw [if_neg (by omega)]
    · rw [if_pos (by omega)]

end Cmpa
