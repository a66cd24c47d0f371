import Verif.Proofs.BufCopy

/-!
# Conditional operations keep the length and never panic

No statement about the values: see finding B1 in DESIGN.md.
-/

namespace Cmpa
open M
variable [LimbCfg] {f g : Fmt}

theorem Buf.clear_bytes_above_cond_len (b : Buf f) (k : ℕ) (c : LimbChoice) :
    Sat (b.clear_bytes_above_cond k c) (fun b' => b'.len = b.len) := by
  unfold Buf.clear_bytes_above_cond
  refine Sat.cond (fun _ => Sat.pure rfl) fun hk => ?_
  have hk : k < b.len := by omega
  dsimp only
  have hi : k / LB < b.nlimbs := by
    rw [Buf.nlimbs_eq, lt_nlimbs_iff]
    exact lt_of_le_of_lt (Nat.div_mul_le_self _ _) hk
  have hst : ∀ {b' : Buf f} {i m : ℕ}, b'.len = b.len → i < b.nlimbs →
      Sat (b'.store_l i (b'.toNat / B ^ i % B &&& m)) (fun b'' => b''.len = b.len) := by
    intro b' i m hl hi
    have hN : b'.nlimbs = b.nlimbs := Buf.nlimbs_congr hl
    refine b'.sat_store_l (by omega) (lt_of_le_of_lt Nat.and_le_left (dig_lt _ _))
      (fun h => lt_of_le_of_lt Nat.and_le_left (Upto.high_lt b'.toNat_lt h)) ?_
    intro b'' h1 _
    exact h1.trans hl
  refine Sat.bind (b.sat_load_l hi (Q := fun v => v = b.toNat / B ^ (k / LB) % B) rfl) ?_
  rintro _ rfl
  refine Sat.bind (hst rfl hi) ?_
  intro b1 hb1
  have hN : b1.nlimbs = b.nlimbs := Buf.nlimbs_congr hb1
  refine Sat.forRange (P := fun _ (x : Buf f) => x.len = b.len) (Nat.succ_le_of_lt (by omega)) hb1 ?_
  intro i b' _ hi' hb'
  have hN' : b'.nlimbs = b.nlimbs := Buf.nlimbs_congr hb'
  refine Sat.bind (b'.sat_load_l (by omega) (Q := fun v => v = b'.toNat / B ^ i % B) rfl) ?_
  rintro _ rfl
  exact hst hb' (by omega)

theorem Buf.copy_from_cond_len (b : Buf f) (src : Buf g) (c : Bool) (h : src.toNat < 256 ^ b.len) :
    Sat (b.copy_from_cond src (.ofBool c)) (fun b' => b'.len = b.len) := by
  unfold Buf.copy_from_cond
  dsimp only
  rw [assert_fits src h, M.pure_bind]
  refine Sat.cond (fun hs => b.clear_bytes_above_cond_len _ _) fun hs => ?_
  refine Sat.cond (fun hd => Sat.pure rfl) fun hd => ?_
  have hs0 : 0 < src.len := nlimbs_pos_iff.1 (Nat.pos_of_ne_zero hs)
  have hd0 : 0 < b.len := nlimbs_pos_iff.1 (Nat.pos_of_ne_zero hd)
  set m := min src.nlimbs b.nlimbs with hm
  have hm1 : m ≤ src.nlimbs := min_le_left _ _
  have hm2 : m ≤ b.nlimbs := min_le_right _ _
  have hm0 : 0 < m := lt_min (Nat.pos_of_ne_zero hs) (Nat.pos_of_ne_zero hd)
  set y := if c = true then src.toNat else b.toNat with hy
  have hyl : y < 256 ^ b.len := by
    rw [hy]; split
    · exact h
    · exact b.toNat_lt
  have hsel : ∀ i, (LimbChoice.ofBool c).select (b.toNat / B ^ i % B) (src.toNat / B ^ i % B)
      = y / B ^ i % B := fun i => by
    rw [LimbChoice.select_ofBool (dig_lt _ _) (dig_lt _ _), hy]; split <;> rfl
  refine Sat.bind (P := Upto b y (m - 1)) ?_ ?_
  · refine Sat.forRange (P := fun i b' => Upto b y i b') (Nat.zero_le _) (Upto.zero _ _) ?_
    rintro i b' - hi hU
    have hfull := full_of_lt_pred (i := i) (n := b.len) (by rw [← Buf.nlimbs_eq]; omega)
    refine Sat.bind (hU.sat_load_full hfull le_rfl (Q := fun v => v = b.toNat / B ^ i % B) rfl) ?_
    rintro _ rfl
    refine Sat.bind (src.sat_load_l_full (full_of_lt_pred (by rw [← Buf.nlimbs_eq]; omega))
      (Q := fun v => v = src.toNat / B ^ i % B) rfl) ?_
    rintro _ rfl
    exact hU.sat_store_full hfull (hsel i) fun _ h => h
  · intro b' hU
    refine Sat.bind (hU.sat_load (j := m - 1) (by omega) le_rfl
      (Q := fun v => v = b.toNat / B ^ (m - 1) % B) rfl) ?_
    rintro _ rfl
    refine Sat.bind (src.sat_load_l (i := m - 1) (by omega)
      (Q := fun v => v = src.toNat / B ^ (m - 1) % B) rfl) ?_
    rintro _ rfl
    rw [hsel, M.assert_eq, M.pure_bind]
    · refine Sat.bind (hU.sat_store (by omega) hyl rfl (Q := Upto b y (m - 1 + 1))
        fun _ h => h) ?_
      intro b'' hU
      exact (b''.clear_bytes_above_cond_len _ _).mono fun _ h => h.trans hU.len
    · by_cases hc : b.nlimbs ≤ src.nlimbs
      · right
        refine and_bnot_high_mask b' (by rw [hU.len]; exact hd0) ?_
        rw [hU.len]
        exact Upto.high_lt hyl (by omega)
      · left; omega
end Cmpa
