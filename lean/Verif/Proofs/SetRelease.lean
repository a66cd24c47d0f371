import Verif.Proofs.BufBits
import Verif.Proofs.AddWide
import Verif.Proofs.CopyRelease

/-!
# Setting a bit or a number that doesn't fit
-/

namespace Cmpa
open M
variable [LimbCfg] {f : Fmt}

/-- Setting a bit above the buffer's last byte, in its last limb. -/
theorem Buf.set_bit_to_high (b : Buf f) {p : ℕ} (v : Bool) (hp : 8 * b.len ≤ p) (hi : p / W < b.nlimbs) :
    DbgExact (v = false) (b.set_bit_to p v) (fun b' => b'.len = b.len ∧ b'.toNat = b.toNat) := by
  unfold Buf.set_bit_to
  dsimp only
  have hW := W_pos
  have hdm := div_W_mul p
  have hpW := Nat.mod_lt p hW
  rw [M.assert_eq hi, M.pure_bind]
  refine Sat.bindDbg (b.sat_load_l hi (Q := fun v => v = b.toNat / B ^ (p / W) % B) rfl) ?_
  rintro _ rfl
  rw [show (if v = true then 1 else 0) = v.toNat by cases v <;> rfl, from'_toNat, M.pure_bind,
    LimbChoice.select_ofBool B_pos shl_lt]
  have hsh : shl 1 (p % W) = 2 ^ (p % W) := by
    rw [shl_eq, one_mul, Nat.mod_eq_of_lt (two_pow_lt_B hpW)]
  rw [hsh]
  have hiL : p / W * LB < b.len := by rwa [Buf.nlimbs_eq, lt_nlimbs_iff] at hi
  have hWL : p / W * W = 8 * (p / W * LB) := by rw [W_eq]; ring
  have hWL' : W = 8 * LB := W_eq
  set i := p / W with hidef
  set d := b.toNat / B ^ i % B with hd
  have hk : b.len < i * LB + LB := by omega
  have hkp : 8 * (b.len - i * LB) ≤ p % W := by omega
  have hdlt : d < 256 ^ (b.len - i * LB) := by
    have := part_digit (x := b.toNat) hiL.le hk
    rw [Nat.mod_eq_of_lt b.toNat_lt] at this
    rw [hd, ← this]
    exact Nat.mod_lt _ (by positivity)
  have hd2 : d < 2 ^ (p % W) := by
    refine lt_of_lt_of_le hdlt ?_
    rw [pow_256_eq]
    exact Nat.pow_le_pow_right (by norm_num) hkp
  have hdB : d < B := dig_lt _ _
  have hand : d &&& bnot (2 ^ (p % W)) = d := by
    apply Nat.eq_of_testBit_eq; intro j
    rw [Nat.testBit_and, testBit_bnot (two_pow_lt_B hpW), Nat.testBit_two_pow]
    by_cases hj : j < p % W
    · have h1 : j < W := by omega
      have h2 : ¬ p % W = j := by omega
      simp [h1, h2]
    · rw [Nat.testBit_lt_two_pow (lt_of_lt_of_le hd2 (Nat.pow_le_pow_right (by norm_num) (by omega)))]
      simp
  rw [hand]
  have hsat : Sat (b.store_l i d) (fun b' => b'.len = b.len ∧ b'.toNat = b.toNat) := by
    refine b.sat_store_l hi hdB (fun h' => ?_) fun b' h1 h2 => ⟨h1, by rw [h2, hd, upd_self]⟩
    exact Upto.high_lt b.toNat_lt h'
  cases v with
  | false =>
    rw [if_neg (by decide), Nat.or_zero]
    exact Sat.dbgExact hsat rfl
  | true =>
    rw [if_pos rfl]
    have hge : 256 ^ (b.len - i * LB) ≤ d ||| 2 ^ (p % W) := by
      refine le_trans ?_ Nat.right_le_or
      rw [pow_256_eq]
      exact Nat.pow_le_pow_right (by norm_num) hkp
    refine ⟨⟨fun h => absurd h (by decide), fun _ => b.store_l_high_panic hi (by omega) hge⟩, ?_⟩
    obtain ⟨a, ha, hQ⟩ := hsat.rel
    refine ⟨a, ?_, hQ⟩
    rw [Buf.store_l_trunc b _ hi hk, ← ha, pow_256_eq, Nat.or_mod_two_pow, ← pow_256_eq, Nat.mod_eq_of_lt hdlt,
      pow_256_eq, Nat.mod_eq_zero_of_dvd (pow_dvd_pow 2 hkp), Nat.or_zero]

/-- A release build stores as many bytes of a native integer as there is room for. -/
theorem Buf.set_to_native_rsat (b : Buf f) {sz v : ℕ} (hl : b.len ≤ sz) (hn : ct_mp_nlimbs sz ≤ b.nlimbs)
    (hv : v < 256 ^ sz) :
    RSat (b.set_to_native sz v) (fun b' => b'.len = b.len ∧ b'.toNat = v % 256 ^ b.len) := by
  unfold Buf.set_to_native
  refine RSat.bind (P := fun _ => True) (RSat.assert trivial) fun _ _ => ?_
  have hy : v % 256 ^ b.len < 256 ^ b.len := Nat.mod_lt _ (by positivity)
  refine RSat.bind (b.sat_clear_bytes_above sz (Q := fun b' => b'.len = b.len) fun _ h1 _ => h1).rel ?_
  intro b1 h1
  have hne : ct_mp_nlimbs sz = b1.nlimbs := by
    rw [Buf.nlimbs_eq, h1]
    exact le_antisymm hn (nlimbs_mono hl)
  refine RSat.bind (P := fun s => Upto b1 (v % 256 ^ b.len) (ct_mp_nlimbs sz) s.1) ?_ ?_
  · refine (RSat.forRange (P := fun i s => Upto b1 (v % 256 ^ b.len) i s.1 ∧ (i < ct_mp_nlimbs sz → s.2 = v / B ^ i))
      (Nat.zero_le _) ⟨Upto.zero _ _, by simp⟩ ?_).mono fun _ h => h.1
    rintro i ⟨b', w⟩ - hi ⟨hU, hw⟩
    dsimp only at hU hw ⊢
    have hw := hw hi
    subst hw
    have hil : i < b1.nlimbs := by omega
    rw [and_lmax_mod (lt_of_le_of_lt (Nat.div_le_self _ _) (by rwa [← pow_256_eq]))]
    refine RSat.bind (P := Upto b1 (v % 256 ^ b.len) (i + 1)) ?_ ?_
    · refine Buf.store_l_low_digit b' _ (by rw [hU.nlimbs]; exact hil) ?_
      rw [hU.len, h1]
      exact (hU.sat_store hil (by rwa [h1]) rfl fun _ h => h).rel
    intro b'' hU'
    refine RSat.pure ⟨hU', fun hi' => ?_⟩
    dsimp only
    rw [lt_nlimbs_iff] at hi'
    have hWs : W ≤ 8 * sz - 1 := by
      rw [W_eq]
      have : LB ≤ (i + 1) * LB := Nat.le_mul_of_pos_left _ (by omega)
      omega
    rw [min_eq_left hWs, Nat.shiftRight_eq_div_pow, ← B_eq_two_pow, pow_succ,
      Nat.div_div_eq_div_mul]
  · rintro ⟨b', w⟩ hU
    refine RSat.pure ⟨hU.len.trans h1, ?_⟩
    dsimp only at hU ⊢
    exact hU.final hne.ge (by rw [hne, Buf.nlimbs_eq, h1]; exact lt_B_pow_of_lt hy)

end Cmpa
