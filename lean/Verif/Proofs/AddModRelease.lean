import Verif.Proofs.AddMod
import Verif.Proofs.Panic

/-!
# Modular addition, subtraction and negation in release builds

The assertions that operands are less than the modulus aren't there in release builds.  What is
calculated then.
-/

namespace Cmpa
open M
variable [LimbCfg] {f g h : Fmt}

omit [LimbCfg] in
theorem add_mod_release_final {S n L t w : ℕ} (hn : n < L) (ht : t < L) (hw : w ≤ 1)
    (h3 : t + (if decide (n ≤ S) = true then n else 0) = S % L + w * L) :
    t = (if n ≤ S then S - n else S) % L := by
  have hmd := Nat.mod_add_div S L
  have hm := Nat.mod_lt S (show 0 < L by omega)
  by_cases hov : n ≤ S
  · rw [decide_eq_true hov, if_pos rfl] at h3
    rw [if_pos hov]
    generalize hd : S / L = d at hmd
    generalize hmm : S % L = m at h3 hmd hm
    rcases Nat.le_one_iff_eq_zero_or_eq_one.1 hw with rfl | rfl
    · have : S - n = t + L * d := by omega
      rw [this, Nat.add_mul_mod_self_left, Nat.mod_eq_of_lt ht]
    · rcases Nat.eq_zero_or_pos d with rfl | hd0
      · omega
      · obtain ⟨e, rfl⟩ : ∃ e, d = e + 1 := ⟨d - 1, by omega⟩
        rw [Nat.mul_succ] at hmd
        have : S - n = t + L * e := by omega
        rw [this, Nat.add_mul_mod_self_left, Nat.mod_eq_of_lt ht]
  · rw [decide_eq_false hov, if_neg (by simp)] at h3
    rw [if_neg hov]
    rcases Nat.le_one_iff_eq_zero_or_eq_one.1 hw with rfl | rfl <;> omega

/-- The sum less at most one modulus, truncated to the buffer. -/
theorem ct_add_mod_mp_mp_rsat (a : Buf f) (b : Buf g) (n : Buf h) (hn : LenCompat n a.len)
    (heq : a.nlimbs = n.nlimbs) :
    RSat (ct_add_mod_mp_mp a b n) (fun r => ∃ a' : Buf f, r = .ok a' ∧ a'.len = a.len ∧
      a'.toNat = (if n.toNat ≤ a.toNat + b.toNat % B ^ n.nlimbs
        then a.toNat + b.toNat % B ^ n.nlimbs - n.toNat
        else a.toNat + b.toNat % B ^ n.nlimbs) % 256 ^ a.len) := by
  unfold ct_add_mod_mp_mp
  have hN : a.nlimbs = ct_mp_nlimbs a.len := Buf.nlimbs_eq a
  have ha := a.toNat_lt
  have hnlt := hn.lt
  refine RSat.bind (len_is_compatible_with_sat n a.len).rel ?_
  rintro _ rfl
  refine RSat.cond (fun hc => absurd hn (by simpa using hc)) fun _ => ?_
  refine RSat.bind (P := fun _ => True) (RSat.assert trivial) fun _ _ => ?_
  refine RSat.bind (P := fun _ => True) (RSat.assertM trivial) fun _ _ => ?_
  refine RSat.bind (P := fun _ => True) (RSat.assertM trivial) fun _ _ => ?_
  refine RSat.bind (P := fun _ => True) (RSat.assert trivial) fun _ _ => ?_
  refine Sat.rel ?_
  dsimp only
  let P : ℕ → Buf f × ℕ × ℕ → Prop := fun i s => ∃ q, Low a (q % 256 ^ a.len) i s.1 ∧
    s.2.1 ≤ 1 ∧ q < B ^ i ∧ q + s.2.1 * B ^ i = a.toNat % B ^ i + b.toNat % B ^ i ∧
    s.2.2 = if n.toNat % B ^ i ≤ (a.toNat + b.toNat) % B ^ i then 1 else 0
  have hstep : ∀ {i q k k' v x op0' kk}, i < a.nlimbs →
      q < B ^ i → q + k * B ^ i = a.toNat % B ^ i + b.toNat % B ^ i → v < B → k' ≤ 1 →
      a.toNat / B ^ i % B + b.toNat / B ^ i % B + k = v + k' * B →
      x = q % 256 ^ a.len + B ^ i * topv a i v →
      Low a x (i + 1) op0' →
      kk = (if n.toNat % B ^ (i+1) ≤ (a.toNat + b.toNat) % B ^ (i+1) then 1 else 0) →
      P (i + 1) (op0', k', kk) := by
    intro i q k k' v x op0' kk hi hq hqe hv hk' he hx hL hkk
    refine ⟨q + B ^ i * v, ?_, hk', ?_, add_step hqe he, hkk⟩
    · rw [← topv_mod a hi hq hv, ← hx]; exact hL
    · have := Nat.mul_le_mul_left (B ^ i) (Nat.succ_le_of_lt hv)
      rw [Nat.mul_succ, ← pow_succ] at this
      omega
  have hdig : ∀ {i q k k' v}, q < B ^ i → q + k * B ^ i = a.toNat % B ^ i + b.toNat % B ^ i →
      v < B → a.toNat / B ^ i % B + b.toNat / B ^ i % B + k = v + k' * B →
      v = (a.toNat + b.toNat) / B ^ i % B := by
    intro i q k k' v hq hqe hv he
    rw [add_dig hq hqe, he, Nat.add_mul_mod_self_right, Nat.mod_eq_of_lt hv]
  refine Sat.bind (Sat.forRange (P := P) (Nat.zero_le _)
    ⟨0, Low.zero a, by simp [Nat.mod_one]⟩ ?_) ?_
  · rintro i ⟨op0, k, kk⟩ _ hi ⟨q, hL, hk, hq, hqe, hkk⟩
    dsimp only at hL hk hqe hkk ⊢
    have hia : i < a.nlimbs := by omega
    refine Sat.bind (hL.sat_load hia le_rfl (Q := fun v => v = a.toNat / B ^ i % B) rfl) ?_
    rintro _ rfl
    refine Sat.bind (b.sat_load_l (by omega) (Q := fun v => v = b.toNat / B ^ i % B) rfl) ?_
    rintro _ rfl
    obtain ⟨k', v, e, hk', hv, he⟩ := ct_add_l_l_c_spec (dig_lt a.toNat i) (dig_lt b.toNat i) hk
    rw [e, M.pure_bind]
    refine Sat.bind (n.sat_load_l (by omega) (Q := fun v => v = n.toNat / B ^ i % B) rfl) ?_
    rintro _ rfl
    unfold CtGeqMpMpKernel.update
    rw [leq_kernel_step hkk rfl (hdig hq hqe hv he), M.pure_bind]
    refine Sat.bind (hL.sat_store_trunc hia hv hL.nlimbs (fun b' hb' => hb')) fun b' hb' => ?_
    exact Sat.pure (hstep hia hq hqe hv hk' he rfl hb' rfl)
  rintro ⟨op0, k, kk⟩ hP
  refine Sat.bind (Sat.forRange (P := P) (Nat.min_le_right _ _) hP ?_) ?_
  · rintro i ⟨op0, k, kk⟩ h1 hi ⟨q, hL, hk, hq, hqe, hkk⟩
    dsimp only at hL hk hqe hkk ⊢
    have hia : i < a.nlimbs := by omega
    refine Sat.bind (hL.sat_load hia le_rfl (Q := fun v => v = a.toNat / B ^ i % B) rfl) ?_
    rintro _ rfl
    have hbi : b.toNat / B ^ i % B = 0 := b.dig_high (by omega)
    have hkB : k < B := lt_of_le_of_lt hk one_lt_B
    rw [ct_add_l_l_eq (dig_lt _ _) hkB]
    dsimp only
    have hv : (a.toNat / B ^ i % B + k) % B < B := Nat.mod_lt _ B_pos
    have he : a.toNat / B ^ i % B + b.toNat / B ^ i % B + k
        = (a.toNat / B ^ i % B + k) % B + (a.toNat / B ^ i % B + k) / B * B := by
      rw [hbi, Nat.add_zero, mul_comm]; exact (Nat.mod_add_div _ _).symm
    have hk' := add_div_le_one (dig_lt a.toNat i) hkB
    refine Sat.bind (n.sat_load_l (by omega) (Q := fun v => v = n.toNat / B ^ i % B) rfl) ?_
    rintro _ rfl
    unfold CtGeqMpMpKernel.update
    rw [leq_kernel_step hkk rfl (hdig hq hqe hv he), M.pure_bind]
    refine Sat.bind (hL.sat_store_trunc hia hv hL.nlimbs (fun b' hb' => hb')) fun b' hb' => ?_
    exact Sat.pure (hstep hia hq hqe hv hk' he rfl hb' rfl)
  · rintro ⟨op0, k, kk⟩ ⟨q, hL, hk, hq, hqe, hkk⟩
    dsimp only at *
    rw [a.mod_high heq.le] at hqe
    rw [n.mod_high le_rfl, ← Nat.add_mod_mod] at hkk
    generalize b.toNat % B ^ n.nlimbs = y at *
    unfold CtGeqMpMpKernel.finish CtLeqMpMpKernel.finish
    rw [hkk, from'_ite, M.pure_bind, from'_le_one hk, M.pure_bind, LimbChoice.or_ofBool,
      ← Bool.decide_or]
    have hov : (n.toNat ≤ (a.toNat + y) % B ^ n.nlimbs ∨ k = 1) ↔ n.toNat ≤ a.toNat + y := by
      have hnB := n.toNat_lt_B
      rcases Nat.le_one_iff_eq_zero_or_eq_one.1 hk with rfl | rfl
      · rw [← hqe, Nat.zero_mul, Nat.add_zero, Nat.mod_eq_of_lt hq]; simp
      · rw [← hqe]; simp; omega
    rw [decide_eq_decide.2 hov]
    have hval : op0.toNat = (a.toNat + y) % 256 ^ a.len := by
      rw [hL.final heq.le, ← hqe]
      have hd : 256 ^ a.len ∣ B ^ n.nlimbs := by rw [← heq, hN]; exact len_dvd_pow _
      rw [Nat.add_mod, Nat.mod_eq_zero_of_dvd (hd.mul_left k), Nat.add_zero, Nat.mod_mod]
    have hlen := hL.len
    refine Sat.bind (ct_sub_cond_mp_mp_sat op0 n _ (by rw [hL.nlimbs]; exact heq.ge)
      (fun _ => by rw [hlen]; exact hnlt)) ?_
    rintro ⟨a', w⟩ ⟨h1, h2, h3⟩
    dsimp only at *
    have ha' := a'.toNat_lt
    rw [h1, hlen] at ha'
    rw [hlen, hval] at h3
    exact Sat.pure ⟨a', rfl, h1.trans hlen, add_mod_release_final hnlt ha' h2 h3⟩

omit [LimbCfg] in
theorem sub_mod_release_final {a y n L t w k q m : ℕ} (ht : t < L)
    (hqe : q + y = a + k * (L * m)) (hab : k = 1 ↔ a < y)
    (h3 : q % L + (if decide (k = 1) = true then n else 0) = t + w * L) :
    (t : ℤ) = ((a : ℤ) - y + if a < y then (n : ℤ) else 0) % (L : ℤ) := by
  have hmd := Nat.mod_add_div q L
  have e : (if decide (k = 1) = true then n else 0) = if a < y then n else 0 := by
    by_cases hc : k = 1
    · rw [if_pos (hab.1 hc), if_pos (by simpa using hc)]
    · rw [if_neg fun h' => hc (hab.2 h'), if_neg (by simpa using hc)]
  rw [e] at h3
  have e' : (if a < y then (n : ℤ) else 0) = ((if a < y then n else 0 : ℕ) : ℤ) := by
    split <;> simp
  rw [e']
  generalize (if a < y then n else 0) = x at *
  have ht' : (t : ℤ) = (t : ℤ) % (L : ℤ) :=
    (Int.emod_eq_of_lt (by omega) (by exact_mod_cast ht)).symm
  rw [ht']
  refine Int.ModEq.symm ((Int.modEq_iff_dvd).2 ⟨k * m - w - (q / L : ℕ), ?_⟩)
  zify at hmd h3 hqe
  push_cast
  linear_combination hmd + hqe - h3

/-- The difference plus at most one modulus, truncated to the buffer. -/
theorem ct_sub_mod_mp_mp_rsat (a : Buf f) (b : Buf g) (n : Buf h) (hn : LenCompat n a.len)
    (heq : a.nlimbs = n.nlimbs) :
    RSat (ct_sub_mod_mp_mp a b n) (fun r => ∃ a' : Buf f, r = .ok a' ∧ a'.len = a.len ∧
      (a'.toNat : ℤ) = ((a.toNat : ℤ) - (b.toNat % B ^ n.nlimbs : ℕ) +
        if a.toNat < b.toNat % B ^ n.nlimbs then (n.toNat : ℤ) else 0) % ((256 ^ a.len : ℕ) : ℤ)) := by
  unfold ct_sub_mod_mp_mp
  have hN : a.nlimbs = ct_mp_nlimbs a.len := Buf.nlimbs_eq a
  have ha := a.toNat_lt
  have hnlt := hn.lt
  refine RSat.bind (len_is_compatible_with_sat n a.len).rel ?_
  rintro _ rfl
  refine RSat.cond (fun hc => absurd hn (by simpa using hc)) fun _ => ?_
  refine RSat.bind (P := fun _ => True) (RSat.assert trivial) fun _ _ => ?_
  refine RSat.bind (P := fun _ => True) (RSat.assertM trivial) fun _ _ => ?_
  refine RSat.bind (P := fun _ => True) (RSat.assertM trivial) fun _ _ => ?_
  refine RSat.bind (P := fun _ => True) (RSat.assert trivial) fun _ _ => ?_
  refine Sat.rel ?_
  dsimp only
  let P : ℕ → Buf f × ℕ → Prop := fun i s => ∃ q, Low a (q % 256 ^ a.len) i s.1 ∧
    s.2 ≤ 1 ∧ q < B ^ i ∧ q + b.toNat % B ^ i = a.toNat % B ^ i + s.2 * B ^ i
  have hstep : ∀ {i q k k' v x op0'}, i < a.nlimbs →
      q < B ^ i → q + b.toNat % B ^ i = a.toNat % B ^ i + k * B ^ i → v < B → k' ≤ 1 →
      a.toNat / B ^ i % B + k' * B = b.toNat / B ^ i % B + k + v →
      x = q % 256 ^ a.len + B ^ i * topv a i v →
      Low a x (i + 1) op0' → P (i + 1) (op0', k') := by
    intro i q k k' v x op0' hi hq hqe hv hk' he hx hL
    refine ⟨q + B ^ i * v, ?_, hk', ?_, sub_step hqe he⟩
    · rw [← topv_mod a hi hq hv, ← hx]; exact hL
    · have := Nat.mul_le_mul_left (B ^ i) (Nat.succ_le_of_lt hv)
      rw [Nat.mul_succ, ← pow_succ] at this
      omega
  refine Sat.bind (Sat.forRange (P := P) (Nat.zero_le _)
    ⟨0, Low.zero a, by simp [Nat.mod_one]⟩ ?_) ?_
  · rintro i ⟨op0, k⟩ _ hi ⟨q, hL, hk, hq, hqe⟩
    dsimp only at hL hk hqe ⊢
    have hia : i < a.nlimbs := by omega
    refine Sat.bind (hL.sat_load hia le_rfl (Q := fun v => v = a.toNat / B ^ i % B) rfl) ?_
    rintro _ rfl
    refine Sat.bind (b.sat_load_l (by omega) (Q := fun v => v = b.toNat / B ^ i % B) rfl) ?_
    rintro _ rfl
    obtain ⟨k', v, e, hk', hv, he⟩ := ct_sub_l_l_b_spec (dig_lt a.toNat i) (dig_lt b.toNat i) hk
    rw [e, M.pure_bind]
    refine Sat.bind (hL.sat_store_trunc hia hv hL.nlimbs (fun b' hb' => hb')) fun b' hb' => ?_
    exact Sat.pure (hstep hia hq hqe hv hk' he rfl hb')
  rintro ⟨op0, k⟩ hP
  refine Sat.bind (Sat.forRange (P := P) (Nat.min_le_right _ _) hP ?_) ?_
  · rintro i ⟨op0, k⟩ h1 hi ⟨q, hL, hk, hq, hqe⟩
    dsimp only at hL hk hqe ⊢
    have hia : i < a.nlimbs := by omega
    refine Sat.bind (hL.sat_load hia le_rfl (Q := fun v => v = a.toNat / B ^ i % B) rfl) ?_
    rintro _ rfl
    have hbi : b.toNat / B ^ i % B = 0 := b.dig_high (by omega)
    have hkB : k < B := lt_of_le_of_lt hk one_lt_B
    obtain ⟨k', v, e, hk', hv, he, -⟩ := ct_sub_l_l_spec (dig_lt a.toNat i) hkB
    rw [e]
    dsimp only
    refine Sat.bind (hL.sat_store_trunc hia hv hL.nlimbs (fun b' hb' => hb')) fun b' hb' => ?_
    exact Sat.pure (hstep hia hq hqe hv hk' (by rw [hbi, Nat.zero_add]; exact he) rfl hb')
  · rintro ⟨op0, k⟩ ⟨q, hL, hk, hq, hqe⟩
    dsimp only at *
    rw [a.mod_high heq.le] at hqe
    have haB : a.toNat < B ^ n.nlimbs := heq ▸ a.toNat_lt_B
    have hyB := Nat.mod_lt b.toNat (B_pow_pos n.nlimbs)
    generalize b.toNat % B ^ n.nlimbs = y at *
    rw [from'_le_one hk, M.pure_bind]
    have hlen := hL.len
    refine Sat.bind (ct_add_cond_mp_mp_sat op0 n _ (by rw [hL.nlimbs]; exact heq.ge)
      (fun _ => by rw [hlen]; exact hnlt)) ?_
    rintro ⟨a', w⟩ ⟨h1, h2, h3⟩
    dsimp only at *
    have ha' := a'.toNat_lt
    rw [h1, hlen] at ha'
    rw [hlen, hL.final heq.le] at h3
    obtain ⟨m, hm⟩ : 256 ^ a.len ∣ B ^ n.nlimbs := by rw [← heq, hN]; exact len_dvd_pow _
    have hab : k = 1 ↔ a.toNat < y := by
      rcases Nat.le_one_iff_eq_zero_or_eq_one.1 hk with rfl | rfl <;> omega
    rw [hm] at hqe
    refine Sat.pure ⟨a', rfl, h1.trans hlen, sub_mod_release_final ha' hqe hab h3.symm⟩

/-- The modulus less the operand, truncated to the buffer. -/
theorem ct_negate_mod_mp_rsat (a : Buf f) (n : Buf g) (hn : LenCompat n a.len) :
    RSat (ct_negate_mod_mp a n) (fun r => ∃ a' : Buf f, r = .ok a' ∧ a'.len = a.len ∧
      (a'.toNat : ℤ) = if a.toNat = 0 then 0
        else ((n.toNat : ℤ) - a.toNat) % ((256 ^ a.len : ℕ) : ℤ)) := by
  unfold ct_negate_mod_mp
  have hN : a.nlimbs = ct_mp_nlimbs a.len := Buf.nlimbs_eq a
  have hnN : n.nlimbs ≤ a.nlimbs := by rw [hN]; exact hn.nlimbs
  have ha := a.toNat_lt
  have hnlt := hn.lt
  refine RSat.bind (len_is_compatible_with_sat n a.len).rel ?_
  rintro _ rfl
  refine RSat.cond (fun hc => absurd hn (by simpa using hc)) fun _ => ?_
  refine RSat.bind (P := fun _ => True) (RSat.assertM trivial) fun _ _ => ?_
  refine Sat.rel ?_
  refine Sat.bind (ct_is_zero_mp_sat a) ?_
  rintro _ rfl
  rw [LimbChoice.not_ofBool]
  dsimp only
  refine Sat.bind (ct_negate_cond_mp_sat a _) ?_
  rintro op0 ⟨hlen, hval⟩
  refine Sat.bind (ct_add_cond_mp_mp_sat op0 n _ (by rw [Buf.nlimbs_congr hlen]; exact hnN)
      (fun _ => by rw [hlen]; exact hnlt)) ?_
  rintro ⟨a', w⟩ ⟨h1, h2, h3⟩
  refine Sat.pure ⟨a', rfl, h1.trans hlen, ?_⟩
  dsimp only at *
  have ha' := a'.toNat_lt
  rw [h1, hlen] at ha'
  rw [hlen, hval] at h3
  by_cases h0 : a.toNat = 0
  · simp [h0] at h3
    rw [if_pos h0]; exact_mod_cast h3.1
  · simp [h0] at h3
    rw [Nat.mod_eq_of_lt (by omega)] at h3
    rw [if_neg h0]
    rcases Nat.le_one_iff_eq_zero_or_eq_one.1 h2 with rfl | rfl
    · have : (n.toNat : ℤ) - a.toNat = a'.toNat + ((256 ^ a.len : ℕ) : ℤ) * (-1) := by omega
      rw [this, Int.add_mul_emod_self_left, Int.emod_eq_of_lt (by omega) (by exact_mod_cast ha')]
    · have : (n.toNat : ℤ) - a.toNat = a'.toNat := by omega
      rw [this, Int.emod_eq_of_lt (by omega) (by exact_mod_cast ha')]


/-! ### Debug builds panic -/

theorem assert_lt_panic {α : Type} {a : Buf f} {n : Buf g} (h : n.toNat ≤ a.toNat) (k : Unit → M α) :
    (M.assertM (do let c ← ct_lt_mp_mp a n; pure (decide (c.unwrap ≠ 0))) >>= k).val = none := by
  refine M.bind_panic ?_
  obtain ⟨b, hb, rfl⟩ := lt_sat' a n
  unfold M.assertM
  rw [hb, decide_eq_false (not_lt.2 h)]
  rfl

theorem ct_add_mod_mp_mp_panic (a : Buf f) (b : Buf g) (n : Buf h) (hn : LenCompat n a.len)
    (hbad : n.toNat ≤ a.toNat ∨ n.toNat ≤ b.toNat) : (ct_add_mod_mp_mp a b n).val = none := by
  unfold ct_add_mod_mp_mp
  refine (len_is_compatible_with_sat n a.len).post.bind_panic ?_
  rintro _ rfl
  refine cond_panic (fun hc => absurd hn (by simpa using hc)) fun _ => ?_
  refine bind_panic' fun _ => ?_
  rcases hbad with h1 | h1
  · exact assert_lt_panic h1 _
  · exact bind_panic' fun _ => assert_lt_panic h1 _

theorem ct_sub_mod_mp_mp_panic (a : Buf f) (b : Buf g) (n : Buf h) (hn : LenCompat n a.len)
    (hbad : n.toNat ≤ a.toNat ∨ n.toNat ≤ b.toNat) : (ct_sub_mod_mp_mp a b n).val = none := by
  unfold ct_sub_mod_mp_mp
  refine (len_is_compatible_with_sat n a.len).post.bind_panic ?_
  rintro _ rfl
  refine cond_panic (fun hc => absurd hn (by simpa using hc)) fun _ => ?_
  refine bind_panic' fun _ => ?_
  rcases hbad with h1 | h1
  · exact assert_lt_panic h1 _
  · exact bind_panic' fun _ => assert_lt_panic h1 _

theorem ct_negate_mod_mp_panic (a : Buf f) (n : Buf g) (hn : LenCompat n a.len)
    (hbad : n.toNat ≤ a.toNat) : (ct_negate_mod_mp a n).val = none := by
  unfold ct_negate_mod_mp
  refine (len_is_compatible_with_sat n a.len).post.bind_panic ?_
  rintro _ rfl
  refine cond_panic (fun hc => absurd hn (by simpa using hc)) fun _ => ?_
  exact assert_lt_panic hbad _

end Cmpa
