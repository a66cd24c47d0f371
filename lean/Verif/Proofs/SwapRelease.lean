import Verif.Proofs.SetRelease

/-!
# Exchanging values that don't fit
-/

namespace Cmpa
open M
variable [LimbCfg] {f g : Fmt}

omit [LimbCfg] in
theorem DbgExact.both {α β : Type} {S T : Prop} {P : α → Prop} {Q : β → Prop} {m : M α} {k : α → M β}
    (hm : DbgExact S m P) (hk : ∀ a, P a → DbgExact T (k a) Q) : DbgExact (S ∧ T) (m >>= k) Q := by
  refine ⟨⟨fun h => Sat.bind (hm.exact.sat h.1) fun a ha => (hk a ha).exact.sat h.2, fun h => ?_⟩,
    RSat.bind hm.rsat fun a ha => (hk a ha).rsat⟩
  by_cases hS : S
  · obtain ⟨a, ha, hP⟩ := hm.exact.sat hS
    rw [bind_val, ha]
    exact (hk a hP).exact.panic fun hT => h ⟨hS, hT⟩
  · exact M.bind_panic (hm.exact.panic hS)

/-- Storing the last limb of a number which may not fit. -/
theorem Upto.store_dbg {b0 b : Buf f} {x i : ℕ} (hU : Upto b0 (x % 256 ^ b0.len) i b) (hi : i + 1 = b0.nlimbs)
    (hx : x < B ^ b0.nlimbs) :
    DbgExact (x < 256 ^ b0.len) (b.store_l i (x / B ^ i % B)) (Upto b0 (x % 256 ^ b0.len) (i + 1)) := by
  have hy : x % 256 ^ b0.len < 256 ^ b0.len := Nat.mod_lt _ (by positivity)
  have hst := hU.sat_store (i := i) (by omega) hy (v := x % 256 ^ b0.len / B ^ i % B) rfl
    (Q := Upto b0 (x % 256 ^ b0.len) (i + 1)) fun _ h => h
  refine ⟨⟨fun h => ?_, fun h => ?_⟩, ?_⟩
  · rw [Nat.mod_eq_of_lt h] at hst ⊢
    exact hst
  · have hiL : i * LB < b0.len := by
      rw [← lt_nlimbs_iff, ← Buf.nlimbs_eq]; omega
    have h1 : b0.len < b0.nlimbs * LB := by
      refine (Nat.pow_lt_pow_iff_right (a := 256) (by norm_num)).1 ?_
      rw [pow_256]
      omega
    rw [← hi, Nat.succ_mul] at h1
    refine b.store_l_high_panic (by rw [hU.nlimbs]; omega) (by rw [hU.len]; omega) ?_
    rw [hU.len, Nat.mod_eq_of_lt (Nat.div_lt_of_lt_mul (by rw [← pow_succ, hi]; exact hx)),
      Nat.le_div_iff_mul_le (by have := B_pos; positivity), ← pow_256, ← pow_add,
      Nat.sub_add_cancel hiL.le]
    omega
  · refine Buf.store_l_low_digit b x (by rw [hU.nlimbs]; omega) ?_
    rw [hU.len]
    exact hst.rel

/-- Exchange of numbers with the same number of limbs. -/
theorem ct_swap_cond_mp_dbg (a : Buf f) (b : Buf g) (c : Bool) (hn : a.nlimbs = b.nlimbs) :
    DbgExact (c = true → b.toNat < 256 ^ a.len ∧ a.toNat < 256 ^ b.len) (ct_swap_cond_mp a b (.ofBool c))
      (fun r => r.1.len = a.len ∧ r.2.len = b.len ∧
        r.1.toNat = (if c then b.toNat else a.toNat) % 256 ^ a.len ∧
        r.2.toNat = (if c then a.toNat else b.toNat) % 256 ^ b.len) := by
  unfold ct_swap_cond_mp
  dsimp only
  rw [M.assert_eq hn, M.pure_bind, LimbChoice.select_ofBool B_pos lmax_lt]
  have hl : lmax ≠ 0 := by unfold lmax; have := one_lt_B; omega
  set x0 := if c = true then b.toNat else a.toNat with hx0
  set x1 := if c = true then a.toNat else b.toNat with hx1
  have hb0 : x0 < B ^ a.nlimbs := by
    rw [hx0]; split
    · rw [hn]; exact b.toNat_lt_B
    · exact a.toNat_lt_B
  have hb1 : x1 < B ^ b.nlimbs := by
    rw [hx1]; split
    · rw [← hn]; exact a.toNat_lt_B
    · exact b.toNat_lt_B
  have hy0 : x0 % 256 ^ a.len < 256 ^ a.len := Nat.mod_lt _ (by positivity)
  have hy1 : x1 % 256 ^ b.len < 256 ^ b.len := Nat.mod_lt _ (by positivity)
  have hS : (x0 < 256 ^ a.len ∧ x1 < 256 ^ b.len) ↔
      (c = true → b.toNat < 256 ^ a.len ∧ a.toNat < 256 ^ b.len) := by
    rw [hx0, hx1]
    cases c with
    | false => simp [a.toNat_lt, b.toNat_lt]
    | true => simp
  have d0 : ∀ i, (if (if c = true then lmax else 0) = 0 then a.toNat / B ^ i % B else b.toNat / B ^ i % B)
      = x0 / B ^ i % B := fun i => by rw [hx0]; cases c <;> simp [hl]
  have d1 : ∀ i, (if (if c = true then lmax else 0) = 0 then b.toNat / B ^ i % B else a.toNat / B ^ i % B)
      = x1 / B ^ i % B := fun i => by rw [hx1]; cases c <;> simp [hl]
  refine DbgExact.congr ?_ hS
  clear_value x0 x1
  rcases Nat.eq_zero_or_pos a.nlimbs with h0 | hpos
  · rw [h0] at hb0 ⊢
    have hb0' : b.nlimbs = 0 := by omega
    have ha := a.toNat_lt_B
    have hbb := b.toNat_lt_B
    rw [hb0', pow_zero] at hb1 hbb
    rw [h0, pow_zero] at ha
    rw [pow_zero] at hb0
    have e0 : x0 = 0 := by omega
    have e1 : x1 = 0 := by omega
    subst e0 e1
    refine Sat.dbgExact (Sat.pure ⟨rfl, rfl, ?_, ?_⟩) ⟨by positivity, by positivity⟩
    · rw [Nat.zero_mod]; dsimp only; omega
    · rw [Nat.zero_mod]; dsimp only; omega
  refine DbgExact.mono (DbgExact.forRange (P := fun i s => Upto a (x0 % 256 ^ a.len) i s.1 ∧
    Upto b (x1 % 256 ^ b.len) i s.2) hpos ⟨Upto.zero _ _, Upto.zero _ _⟩ ?_ ?_) ?_
  · rintro i ⟨a', b'⟩ - hi ⟨hU, hV⟩
    dsimp only at hU hV ⊢
    refine Sat.bind (hU.sat_load (by omega) le_rfl (Q := fun v => v = a.toNat / B ^ i % B) rfl) ?_
    rintro _ rfl
    refine Sat.bind (hV.sat_load (by omega) le_rfl (Q := fun v => v = b.toNat / B ^ i % B) rfl) ?_
    rintro _ rfl
    obtain ⟨e1, e2⟩ := xor_swap (dig_lt a.toNat i) (dig_lt b.toNat i)
      (c := if c = true then lmax else 0) (by split <;> simp)
    rw [e2, e1, d0, d1]
    have f0 : i * LB + LB ≤ a.len := full_of_lt_pred (by rw [← Buf.nlimbs_eq]; omega)
    have f1 : i * LB + LB ≤ b.len := full_of_lt_pred (by rw [← Buf.nlimbs_eq]; omega)
    refine Sat.bind (hU.sat_store (by omega) hy0 (Q := Upto a (x0 % 256 ^ a.len) (i + 1)) (full_digit f0).symm
      fun _ h => h) ?_
    intro a'' hU'
    refine Sat.bind (hV.sat_store (by omega) hy1 (Q := Upto b (x1 % 256 ^ b.len) (i + 1)) (full_digit f1).symm
      fun _ h => h) ?_
    intro b'' hV'
    exact Sat.pure ⟨hU', hV'⟩
  · rintro ⟨a', b'⟩ ⟨hU, hV⟩
    dsimp only at hU hV ⊢
    refine Sat.bindDbg (hU.sat_load (by omega) le_rfl (Q := fun v => v = a.toNat / B ^ (a.nlimbs - 1) % B) rfl) ?_
    rintro _ rfl
    refine Sat.bindDbg (hV.sat_load (by omega) le_rfl (Q := fun v => v = b.toNat / B ^ (a.nlimbs - 1) % B) rfl) ?_
    rintro _ rfl
    obtain ⟨e1, e2⟩ := xor_swap (dig_lt a.toNat (a.nlimbs - 1)) (dig_lt b.toNat (a.nlimbs - 1))
      (c := if c = true then lmax else 0) (by split <;> simp)
    rw [e2, e1, d0, d1]
    refine DbgExact.both (hU.store_dbg (by omega) hb0) fun a'' hU' => ?_
    refine DbgExact.bind (hV.store_dbg (by omega) hb1) fun b'' hV' => ?_
    rw [Nat.sub_add_cancel hpos] at hU' hV'
    exact Sat.pure ⟨hU', hV'⟩
  · rintro ⟨a', b'⟩ ⟨hU, hV⟩
    exact ⟨hU.len, hV.len, hU.final le_rfl (lt_B_pow_of_lt hy0),
      hV.final hn.ge (by rw [hn]; exact lt_B_pow_of_lt hy1)⟩

theorem low_digit {a q i n : ℕ} (h : i < n) : (a + B ^ n * q) / B ^ i % B = a / B ^ i % B := by
  obtain ⟨k, rfl⟩ := Nat.exists_eq_add_of_lt h
  rw [show B ^ (i + k + 1) * q = B ^ i * (B * (B ^ k * q)) by ring,
    Nat.add_mul_div_left _ _ (by have := B_pos; positivity), Nat.add_mul_mod_self_left]

/-- A release build exchanges the limbs of the shorter first operand only. -/
theorem ct_swap_cond_mp_rel (a : Buf f) (b : Buf g) (c : Bool) (hn : a.nlimbs < b.nlimbs) :
    RSat (ct_swap_cond_mp a b (.ofBool c))
      (fun r => r.1.len = a.len ∧ r.2.len = b.len ∧
        r.1.toNat = (if c then b.toNat else a.toNat) % 256 ^ a.len ∧
        r.2.toNat = (if c then a.toNat + B ^ a.nlimbs * (b.toNat / B ^ a.nlimbs) else b.toNat)) := by
  unfold ct_swap_cond_mp
  dsimp only
  refine RSat.bind (P := fun _ => True) (RSat.assert trivial) fun _ _ => ?_
  rw [LimbChoice.select_ofBool B_pos lmax_lt]
  have hl : lmax ≠ 0 := by unfold lmax; have := one_lt_B; omega
  set x0 := if c = true then b.toNat else a.toNat with hx0
  set x1 := if c = true then a.toNat + B ^ a.nlimbs * (b.toNat / B ^ a.nlimbs) else b.toNat with hx1
  have ha := a.toNat_lt_B
  have hnl : a.nlimbs * LB < b.len := by rwa [← lt_nlimbs_iff, ← Buf.nlimbs_eq]
  have hy0 : x0 % 256 ^ a.len < 256 ^ a.len := Nat.mod_lt _ (by positivity)
  have hy1 : x1 < 256 ^ b.len := by
    rw [hx1]; split
    · have e : 256 ^ b.len = B ^ a.nlimbs * 256 ^ (b.len - a.nlimbs * LB) := by
        rw [← pow_256, ← pow_add]; congr 1; omega
      have h1 : b.toNat / B ^ a.nlimbs < 256 ^ (b.len - a.nlimbs * LB) :=
        Nat.div_lt_of_lt_mul (by rw [← e]; exact b.toNat_lt)
      rw [e]
      calc _ < B ^ a.nlimbs + B ^ a.nlimbs * (b.toNat / B ^ a.nlimbs) := by omega
        _ = B ^ a.nlimbs * (b.toNat / B ^ a.nlimbs + 1) := by ring
        _ ≤ _ := Nat.mul_le_mul_left _ h1
    · exact b.toNat_lt
  have d0 : ∀ i, (if (if c = true then lmax else 0) = 0 then a.toNat / B ^ i % B else b.toNat / B ^ i % B)
      = x0 / B ^ i % B := fun i => by rw [hx0]; cases c <;> simp [hl]
  have d1 : ∀ i, i < a.nlimbs → (if (if c = true then lmax else 0) = 0 then b.toNat / B ^ i % B
      else a.toNat / B ^ i % B) = x1 / B ^ i % B := fun i hi => by
    rw [hx1]
    cases c
    · simp
    · simp only [if_true, hl, if_false]
      rw [low_digit hi]
  have e1 : x1 / B ^ a.nlimbs = b.toNat / B ^ a.nlimbs := by
    rw [hx1]; split
    · rw [Nat.add_mul_div_left _ _ (by have := B_pos; positivity), Nat.div_eq_of_lt ha, Nat.zero_add]
    · rfl
  clear_value x0 x1
  refine (RSat.forRange (P := fun i s => Upto a (x0 % 256 ^ a.len) i s.1 ∧ Upto b x1 i s.2) (Nat.zero_le _)
    ⟨Upto.zero _ _, Upto.zero _ _⟩ ?_).mono ?_
  · rintro i ⟨a', b'⟩ - hi ⟨hU, hV⟩
    dsimp only at hU hV ⊢
    refine RSat.bind (hU.sat_load (by omega) le_rfl (Q := fun v => v = a.toNat / B ^ i % B) rfl).rel ?_
    rintro _ rfl
    refine RSat.bind (hV.sat_load (by omega) le_rfl (Q := fun v => v = b.toNat / B ^ i % B) rfl).rel ?_
    rintro _ rfl
    obtain ⟨e1, e2⟩ := xor_swap (dig_lt a.toNat i) (dig_lt b.toNat i)
      (c := if c = true then lmax else 0) (by split <;> simp)
    rw [e2, e1, d0, d1 i hi]
    refine RSat.bind (P := Upto a (x0 % 256 ^ a.len) (i + 1)) ?_ ?_
    · refine Buf.store_l_low_digit a' _ (by rw [hU.nlimbs]; exact hi) ?_
      rw [hU.len]
      exact (hU.sat_store hi hy0 rfl fun _ h => h).rel
    intro a'' hU'
    refine RSat.bind (hV.sat_store (by omega) hy1 (Q := Upto b x1 (i + 1)) rfl fun _ h => h).rel ?_
    intro b'' hV'
    exact RSat.pure ⟨hU', hV'⟩
  · rintro ⟨a', b'⟩ ⟨hU, hV⟩
    refine ⟨hU.len, hV.len, hU.final le_rfl (lt_B_pow_of_lt hy0), ?_⟩
    have := hV.toNat
    dsimp only at this ⊢
    rw [this, ← e1, Nat.mod_add_div]

end Cmpa
