import Verif.Proofs.DivMp
import Verif.Proofs.DivisorNew
import Verif.Proofs.BufCopy

/-!
# Division by a limb
-/

set_option linter.unusedSectionVars false

namespace Cmpa
variable [LimbCfg] {f g h : Fmt}

open M

theorem div_l_step {U v j : ℕ} (hv : 0 < v) :
    (U / B ^ (j + 1) % v * B + U / B ^ j % B) / v = U / v / B ^ j % B ∧
    (U / B ^ (j + 1) % v * B + U / B ^ j % B) % v = U / B ^ j % v := by
  have e1 := div_succ U j
  have e2 := Nat.div_add_mod (U / B ^ (j + 1)) v
  have hr := Nat.mod_lt (U / B ^ (j + 1)) hv
  have hlt := dig_lt U j
  have e3 : U / v / B ^ j = U / B ^ j / v := by
    rw [Nat.div_div_eq_div_mul, Nat.div_div_eq_div_mul, Nat.mul_comm]
  rw [e3]
  generalize U / B ^ j % B = l at *
  generalize U / B ^ (j + 1) / v = q at *
  generalize U / B ^ (j + 1) % v = r at *
  have e4 : U / B ^ j = (r * B + l) + v * (q * B) := by
    rw [e1, ← e2]; ring
  rw [e4, Nat.add_mul_div_left _ _ hv, Nat.add_mul_mod_self_right, Nat.add_mul_mod_self_left]
  have h5 : (r * B + l) / v < B := by
    rw [Nat.div_lt_iff_lt_mul hv]
    have : (r + 1) * B ≤ v * B := Nat.mul_le_mul_right _ hr
    rw [Nat.add_mul, one_mul] at this
    rw [Nat.mul_comm B v]; omega
  exact ⟨(Nat.mod_eq_of_lt h5).symm, rfl⟩

/-- A zero limb can be stored right after the last byte of a buffer of big endian bytes. -/
theorem Buf.store_zero_end {b : Buf .be} {i : ℕ} (h : i * LB = b.len) :
    Sat (b.store_l i 0) (fun b' => b' = b) := by
  cases b with | be l => ?_
  rw [Buf.len_be] at h
  simp only [Buf.store_l]
  refine Sat.bind (Sat.emit (P := fun _ => True) trivial) fun _ _ => ?_
  refine Sat.bind (P := fun l' => l' = l) ?_ (by rintro _ rfl; exact Sat.pure rfl)
  unfold be_mp_store_l
  have hLB := LB_pos
  rw [M.assert_eq h.le, M.pure_bind, M.sub_eq h.le, M.pure_bind, h, Nat.sub_self,
    if_neg (by omega), M.assert_eq (by simp [shr]), M.pure_bind]
  unfold _be_mp_store_l_high_partial
  rw [M.sub_eq (Nat.zero_le _), M.pure_bind, Nat.sub_zero]
  have hs : Sat (slice (to_be_bytes 0) LB LB) (fun r => r = []) := by
    unfold slice
    rw [if_pos (by simp [to_be_bytes, to_le_bytes])]
    refine M.sat_mk.2 ?_
    simp
  refine Sat.bind hs ?_
  rintro _ rfl
  unfold splice
  rw [if_pos (by simp)]
  exact M.sat_mk.2 (by simp)

theorem Buf.store_l_panic {b : Buf f} {i : ℕ} (h : ¬ b.Readable i) (v : ℕ) :
    (b.store_l i v).val = none := by
  unfold Buf.Readable at h
  rw [Buf.nlimbs_eq, lt_nlimbs_iff] at h
  rcases b with l | l | l <;> simp only [Buf.store_l] <;> refine M.bind_panic' fun _ => M.bind_panic ?_
  · rw [Buf.len_be] at h
    unfold be_mp_store_l
    exact M.bind_panic (M.assert_panic (by simp at h; omega))
  · rw [Buf.len_le] at h
    unfold le_mp_store_l
    exact M.bind_panic (M.assert_panic (by simp at h; omega))
  · rw [Buf.len_ne] at h
    have h1 : l.length ≤ i := by
      simp at h
      exact Nat.le_of_mul_le_mul_right h LB_pos
    unfold ne_mp_store_l splice
    rw [if_neg (by simp; omega)]; rfl

theorem store_q_l_sat {q0 q : Option (Buf h)} {Q j qv : ℕ} (hQ : ∀ b ∈ q0, Q < 256 ^ b.len)
    (hj : ∀ b ∈ q0, b.Readable j) (hi : QInv q0 Q (j + 1) q) (he : qv = Q / B ^ j % B) :
    Sat (store_q_l q j qv) (QInv q0 Q j) := by
  subst he
  cases q0 with
  | none =>
    cases q with
    | none => exact Sat.pure trivial
    | some b => exact hi.elim
  | some b0 =>
    cases q with
    | none => exact hi.elim
    | some b =>
      obtain ⟨h1, h2⟩ := hi
      have hn : b.nlimbs = b0.nlimbs := Buf.nlimbs_congr h1
      unfold store_q_l
      refine Sat.bind (P := fun b' => b'.len = b0.len ∧ b'.toNat / B ^ j = Q / B ^ j) ?_ ?_
      · rcases hj b0 rfl with hlt | ⟨rfl, he⟩
        rotate_left
        · have h0 : ∀ x < 256 ^ b0.len, x / B ^ j = 0 := fun x hx => by
            rw [← he, pow_256] at hx; exact Nat.div_eq_of_lt hx
          rw [h0 _ (hQ b0 rfl), Nat.zero_mod]
          refine (Buf.store_zero_end (he.trans h1.symm)).mono ?_
          rintro _ rfl
          exact ⟨h1, h0 _ (h1 ▸ Buf.toNat_lt _)⟩
        refine Buf.sat_store_l b (by omega) (dig_lt _ _) ?_ ?_
        · intro hlast
          rw [h1]
          exact dig_high_lt (hQ b0 rfl) (by rw [hlast, hn, Buf.nlimbs_eq])
        · intro b' h3 h4
          refine ⟨h3.trans h1, ?_⟩
          rw [h4, upd_div_le, h2]; exact (div_succ Q j).symm
      · rintro b' hb'
        exact Sat.pure hb'

theorem div_mp_l_main_sat (u : Buf f) {d : CtLDivisor} (hd : d.Valid) {q0 q1 : Option (Buf h)}
    (hq : ∀ b ∈ q0, u.toNat / d.v < 256 ^ b.len ∧ b.Readable (u.nlimbs - 1))
    (hi : QInv q0 (u.toNat / d.v) u.nlimbs q1) :
    Sat (div_mp_l_main u d q1) (OkErr (fun r => r.1 = u.toNat % d.v ∧
      QInv q0 (u.toNat / d.v) 0 r.2) (fun _ => False)) := by
  unfold div_mp_l_main
  refine Sat.bind (Sat.forDown (P := fun j (s : ℕ × Option (Buf h)) =>
    s.1 = u.toNat / B ^ j % d.v ∧ QInv q0 (u.toNat / d.v) j s.2) ?_ ?_) ?_
  · refine ⟨?_, hi⟩
    rw [Nat.div_eq_of_lt u.toNat_lt_B, Nat.zero_mod]
  · rintro j ⟨uh, q⟩ hj ⟨h1, h2⟩
    dsimp only at h1 h2 ⊢
    subst uh
    refine Sat.bind (P := fun l => l = u.toNat / B ^ j % B) (Buf.sat_load_l u hj rfl) fun l hl => ?_
    subst l
    obtain ⟨e1, e2⟩ := div_l_step (U := u.toNat) (j := j) hd.v_pos
    rw [CtLDivisor.do_div_eq hd (Nat.mod_lt _ hd.v_pos) (dig_lt _ _), M.pure_bind]
    dsimp only
    rw [e1, e2]
    refine Sat.bind (store_q_l_sat (q0 := q0) (fun b hb => (hq b hb).1) (fun b hb => ?_) h2 rfl) ?_
    · rcases (hq b hb).2 with h3 | h3
      · exact Or.inl (by omega)
      · by_cases hjl : j = u.nlimbs - 1
        · subst hjl; exact Or.inr h3
        · refine Or.inl ?_
          rw [Buf.nlimbs_eq, lt_nlimbs_iff, ← h3.2]
          exact Nat.mul_lt_mul_of_pos_right (by omega) LB_pos
    · intro q' hq'
      exact Sat.pure ⟨rfl, hq'⟩
  · rintro ⟨uh, q⟩ ⟨h1, h2⟩
    refine Sat.pure ⟨?_, h2⟩
    dsimp only at h1 ⊢
    rw [h1, pow_zero, Nat.div_one]

theorem ct_div_mp_l_panic (u : Buf f) {d : CtLDivisor} (hd : d.Valid) {b : Buf h}
    (hu : u.len ≠ 0) (h1 : u.len + 1 ≤ b.len + byteLen d.v) (h2 : byteLen d.v ≤ u.len)
    (h3 : ¬ b.Readable (u.nlimbs - 1)) : (ct_div_mp_l u d (some b)).val = none := by
  have h0 : u.nlimbs ≠ 0 := fun h => hu (nlimbs_zero_iff.1 h)
  unfold ct_div_mp_l
  rw [M.cond_val_neg h0]
  dsimp only
  rw [ct_find_last_set_byte_l_eq hd.v_lt, M.pure_bind]
  have hbl : (Nat.size d.v + 7) / 8 = byteLen d.v := rfl
  rw [hbl, M.cond_val_neg (by omega), M.cond_val_neg (by omega)]
  refine Post.bind_panic (P := fun b' => b'.len = b.len)
    (Buf.sat_clear_bytes_above b _ fun b' h1 _ => h1).post fun b' hb' => ?_
  unfold div_mp_l_main
  refine M.bind_panic ?_
  obtain ⟨n, hn⟩ := Nat.exists_eq_succ_of_ne_zero h0
  rw [hn] at h3 ⊢
  unfold M.forDown
  refine M.bind_panic' fun _ => M.bind_panic (M.bind_panic' fun _ => M.bind_panic' fun _ =>
    M.bind_panic ?_)
  unfold store_q_l
  refine M.bind_panic (Buf.store_l_panic ?_ _)
  unfold Buf.Readable at h3 ⊢
  rw [Buf.nlimbs_congr hb', hb']; exact h3

theorem ct_div_mp_l_sat (u : Buf f) {d : CtLDivisor} (hd : d.Valid) (q0 : Option (Buf h))
    (hq : ∀ b ∈ q0, b.Readable (u.nlimbs - 1) ∨ b.len + byteLen d.v < u.len + 1 ∨ u.len < byteLen d.v)
    (hu : q0.isSome → u.len ≠ 0) :
    Sat (ct_div_mp_l u d q0) (OkErr (fun r => r.1 = u.toNat % d.v ∧
      r.2.map Buf.len = q0.map Buf.len ∧ ∀ b ∈ r.2, b.toNat = u.toNat / d.v)
      (fun e => e = .InsufficientQuotientSpace ∧
        ∃ b ∈ q0, b.len + byteLen d.v < u.len + 1)) := by
  unfold ct_div_mp_l
  refine Sat.cond (fun h0 => ?_) fun h0 => ?_
  · have hl : u.len = 0 := by rw [Buf.nlimbs_eq] at h0; exact nlimbs_zero_iff.1 h0
    have hz : u.toNat = 0 := by have := u.toNat_lt; rw [hl, pow_zero] at this; omega
    cases q0 with
    | some b => exact absurd hl (hu rfl)
    | none =>
      refine Sat.pure ⟨?_, rfl, fun b hb => by simp at hb⟩
      rw [hz, Nat.zero_mod]
  have hu0 : 0 < u.len := by
    rw [Buf.nlimbs_eq] at h0
    exact nlimbs_pos_iff.1 (by omega)
  cases q0 with
  | none =>
    dsimp only
    refine (div_mp_l_main_sat u hd (q0 := (none : Option (Buf h))) (q1 := none)
      (fun b hb => by simp at hb) trivial).mono ?_
    rintro (e | r) hr
    · exact hr.elim
    · exact ⟨hr.1, hr.2.final⟩
  | some b =>
    dsimp only
    rw [ct_find_last_set_byte_l_eq hd.v_lt, M.pure_bind]
    have hbl : (Nat.size d.v + 7) / 8 = byteLen d.v := rfl
    rw [hbl]
    refine Sat.cond (fun hc => ?_) fun hc => ?_
    · exact Sat.pure ⟨rfl, b, rfl, hc⟩
    have hble : byteLen d.v ≤ LB := byteLen_limb_le hd.v_lt
    refine Sat.cond (fun hc2 => ?_) fun hc2 => ?_
    · have hUv : u.toNat < d.v := by
        refine lt_of_lt_of_le u.toNat_lt (le_trans ?_ (byteLen_le hd.v_pos.ne'))
        exact Nat.pow_le_pow_right (by norm_num) (by omega)
      refine Sat.bind (P := fun b' => b'.len = b.len ∧ b'.toNat = b.toNat % 256 ^ 0)
        (Buf.sat_clear_bytes_above b 0 fun b' h1 h2 => ⟨h1, h2⟩) ?_
      rintro b' ⟨h1, h2⟩
      refine Sat.bind (P := fun l => l = u.toNat / B ^ 0 % B)
        (Buf.sat_load_l u (by omega) rfl) fun l hl => ?_
      refine Sat.pure ⟨?_, by simp [h1], ?_⟩
      · dsimp only
        rw [hl, pow_zero, Nat.div_one, Nat.mod_eq_of_lt hUv,
          Nat.mod_eq_of_lt (lt_trans hUv hd.v_lt)]
      · intro b'' hb
        simp only [Option.mem_def, Option.some.injEq] at hb
        subst hb
        rw [h2, pow_zero, Nat.mod_one, Nat.div_eq_of_lt hUv]
    · have hnl : b.Readable (u.nlimbs - 1) := by
        rcases hq b rfl with h1 | h1 | h1
        · exact h1
        · exact absurd h1 hc
        · exact absurd h1 hc2
      have hQ : u.toNat / d.v < 256 ^ (u.len - byteLen d.v + 1) := by
        rw [Nat.div_lt_iff_lt_mul hd.v_pos]
        have hp := byteLen_pos hd.v_pos.ne'
        calc u.toNat < 256 ^ u.len := u.toNat_lt
          _ = 256 ^ (u.len - byteLen d.v + 1) * 256 ^ (byteLen d.v - 1) := by
            rw [← pow_add]; congr 1; omega
          _ ≤ _ := Nat.mul_le_mul_left _ (byteLen_le hd.v_pos.ne')
      have hp := byteLen_pos hd.v_pos.ne'
      refine Sat.bind (P := fun b' => b'.len = b.len ∧
          b'.toNat = b.toNat % 256 ^ (u.len - byteLen d.v + 1))
        (Buf.sat_clear_bytes_above b _ fun b' h1 h2 => ⟨h1, h2⟩) ?_
      rintro b' ⟨h1, h2⟩
      refine (div_mp_l_main_sat u hd (q0 := some b) (q1 := some b') ?_ ?_).mono ?_
      · intro b2 hb2
        simp only [Option.mem_def, Option.some.injEq] at hb2
        subst hb2
        refine ⟨lt_of_lt_of_le hQ (Nat.pow_le_pow_right (by norm_num) (by omega)), hnl⟩
      · refine ⟨h1, ?_⟩
        have hle : 256 ^ (u.len - byteLen d.v + 1) ≤ B ^ u.nlimbs := by
          refine le_trans (pow_len_le _) (Nat.pow_le_pow_right B_pos ?_)
          rw [Buf.nlimbs_eq]
          exact nlimbs_mono (by omega)
        have hlt : b.toNat % 256 ^ (u.len - byteLen d.v + 1) < 256 ^ (u.len - byteLen d.v + 1) :=
          Nat.mod_lt _ (by positivity)
        rw [h2, Nat.div_eq_of_lt (by omega), Nat.div_eq_of_lt (by omega)]
      · rintro (e | r) hr
        · exact hr.elim
        · exact ⟨hr.1, hr.2.final⟩

theorem ct_mod_mp_l_sat (u : Buf f) {d : CtLDivisor} (hd : d.Valid) :
    Sat (ct_mod_mp_l u d) (fun r => r = u.toNat % d.v) := by
  unfold ct_mod_mp_l
  refine Sat.bind (ct_div_mp_l_sat u hd (none : Option (Buf .ne)) (by simp) (by simp)) ?_
  rintro (e | ⟨r, q⟩) hr
  · obtain ⟨-, b, hb, -⟩ := hr
    simp at hb
  · exact Sat.pure hr.1

end Cmpa
