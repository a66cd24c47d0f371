import Verif.Proofs.CtDiv
import Verif.Proofs.DivisorNew

/-!
# Constant time: construction of divisors

The length of the divisor in bytes is public.
-/

set_option linter.unusedSectionVars false

namespace Cmpa
open M
variable [LimbCfg] [Obs] {f g h : Fmt}

theorem dig_zero_iff {x n : ℕ} (h : x < B ^ (n + 1)) : x / B ^ n % B = 0 ↔ x < B ^ n := by
  refine ⟨fun h0 => lt_pow_of_dig_zero h h0, fun h0 => ?_⟩
  rw [Nat.div_eq_of_lt h0, Nat.zero_mod]

theorem find_last_set_limb_go_ct {b b' : Buf f} (hl : b.len = b'.len)
    (hb : ∀ n, b.toNat < B ^ n ↔ b'.toNat < B ^ n) :
    ∀ n, n ≤ b.nlimbs - 1 → b.toNat < B ^ n → b'.toNat < B ^ n →
      SameTr (find_last_set_limb.go b n) (find_last_set_limb.go b' n) (fun x y => x = y)
  | 0, _, _, _ => by
    unfold find_last_set_limb.go
    exact SameTr.pure rfl
  | n + 1, hn, h1, h2 => by
    unfold find_last_set_limb.go
    refine SameTr.bind SameTr.emit fun _ _ _ => ?_
    have hn' : n + 1 < ct_mp_nlimbs b.len := by rw [← Buf.nlimbs_eq]; omega
    refine SameTr.bind (SameTr.post (Buf.load_l_full_ct hl (fun _ => rfl))
      (b.sat_load_l_full (i := n) (full_of_lt_pred hn') (Q := fun v => v = b.toNat / B ^ n % B) rfl).post
      (b'.sat_load_l_full (i := n) (full_of_lt_pred (by rw [← hl]; exact hn'))
        (Q := fun v => v = b'.toNat / B ^ n % B) rfl).post) ?_
    rintro _ _ ⟨-, rfl, rfl⟩
    have e : b.toNat / B ^ n % B ≠ 0 ↔ b'.toNat / B ^ n % B ≠ 0 := by
      rw [Ne, Ne, dig_zero_iff h1, dig_zero_iff h2, hb]
    refine SameTr.cond e (fun _ => SameTr.pure rfl) fun h0 => ?_
    have h3 := lt_pow_of_dig_zero h1 (by simpa using h0)
    exact find_last_set_limb_go_ct hl hb n (by omega) h3 ((hb n).1 h3)

theorem find_last_set_limb_len {b b' : Buf f} (hl : b.len = b'.len)
    (hb : ∀ n, b.toNat < B ^ n ↔ b'.toNat < B ^ n) :
    SameTr (find_last_set_limb b) (find_last_set_limb b') (fun x y => x = y) := by
  have hn : b.nlimbs = b'.nlimbs := by rw [Buf.nlimbs_eq, Buf.nlimbs_eq, hl]
  unfold find_last_set_limb
  dsimp only
  rw [← hn]
  refine SameTr.cond Iff.rfl (fun _ => SameTr.pure rfl) fun h0 => ?_
  have h1 := b.toNat_lt_B
  have h2 := b'.toNat_lt_B
  rw [← hn] at h2
  have e1 : b.nlimbs = b.nlimbs - 1 + 1 := by omega
  refine SameTr.bind (SameTr.post (Buf.load_l_ct hl (fun _ => rfl))
    (b.sat_load_l (i := b.nlimbs - 1) (by omega) (Q := fun v => v = b.toNat / B ^ (b.nlimbs - 1) % B) rfl).post
    (b'.sat_load_l (i := b.nlimbs - 1) (by omega) (Q := fun v => v = b'.toNat / B ^ (b.nlimbs - 1) % B) rfl).post) ?_
  rintro _ _ ⟨-, rfl, rfl⟩
  rw [e1] at h1 h2
  have e : b.toNat / B ^ (b.nlimbs - 1) % B = 0 ↔ b'.toNat / B ^ (b.nlimbs - 1) % B = 0 := by
    rw [dig_zero_iff h1, dig_zero_iff h2, hb]
  refine SameTr.cond e (fun h3 => ?_) fun _ => SameTr.pure rfl
  have h4 := lt_pow_of_dig_zero h1 h3
  exact find_last_set_limb_go_ct hl hb _ le_rfl h4 ((hb _).1 h4)

theorem lt_pow_iff_of_byteLen {x y : ℕ} (h : byteLen x = byteLen y) (n : ℕ) : x < B ^ n ↔ y < B ^ n := by
  rw [← pow_256, ← (isByteLen_size x).le, ← (isByteLen_size y).le]
  unfold byteLen at h
  rw [h]

theorem find_last_set_byte_mp_len {b b' : Buf f} (hl : b.len = b'.len)
    (hb : byteLen b.toNat = byteLen b'.toNat) :
    SameTr (find_last_set_byte_mp b) (find_last_set_byte_mp b')
      (fun x y => x = byteLen b.toNat ∧ y = byteLen b.toNat) := by
  have : SameTr (find_last_set_byte_mp b) (find_last_set_byte_mp b') (fun _ _ => True) := by
    unfold find_last_set_byte_mp
    refine SameTr.bind (find_last_set_limb_len hl (lt_pow_iff_of_byteLen hb)) ?_
    rintro n _ rfl
    ct
  refine (SameTr.post this (find_last_set_byte_mp_sat b).post (find_last_set_byte_mp_sat b').post).mono ?_
  rintro a c ⟨-, rfl, rfl⟩
  exact ⟨rfl, hb.symm⟩

theorem CtLDivisor.new_ct {v v' : ℕ} : CtSome (CtLDivisor.new v) (CtLDivisor.new v') := by
  unfold CtLDivisor.new
  refine CtSome.condNone (SameTr.some ?_)
  ct

namespace CtMpDivisor

theorem head_borrow_ct {v v' : Buf f} {n : ℕ} {dec dec' : Option ℕ} (hl : v.len = v'.len)
    (hd : dec.isSome = dec'.isSome) : Ct (head_borrow v n dec) (head_borrow v' n dec') := by
  match dec, dec', hd with
  | none, none, _ => exact SameTr.pure trivial
  | some _, some _, _ =>
    unfold head_borrow
    dsimp only
    ct

theorem new_scaled_ct {v v' : Buf f} {n x x' : ℕ} {dec dec' : Option ℕ} (hl : v.len = v'.len)
    (hd : dec.isSome = dec'.isSome) : Ct (new_scaled v dec n x) (new_scaled v' dec' n x') := by
  unfold new_scaled
  ct

theorem find_head_ct {v v' : Buf f} {dec dec' : Option ℕ} (hl : v.len = v'.len)
    (hd : dec.isSome = dec'.isSome) (hdec : ∀ x ∈ dec, x < B) (hdec' : ∀ x ∈ dec', x < B)
    (hb : byteLen (v.toNat - dec.getD 0) = byteLen (v'.toNat - dec'.getD 0)) :
    ∀ a b, (find_head v dec).val = some (some a) → (find_head v' dec').val = some (some b) →
      (find_head v dec).seen = (find_head v' dec').seen ∧ a.1 = b.1 := by
  match dec, dec', hd with
  | none, none, _ =>
    have : SameTr (find_head v none) (find_head v' none) (fun a b => ∃ x y, a = some x ∧ b = some y ∧ x.1 = y.1) := by
      unfold find_head
      refine SameTr.bind (find_last_set_byte_mp_len hl hb) ?_
      rintro _ _ ⟨rfl, rfl⟩
      refine SameTr.bind (SameTr.subEq rfl rfl) ?_
      rintro i _ rfl
      refine SameTr.bind (Buf.load_l_ct hl (fun _ => rfl)) fun _ _ _ => ?_
      exact SameTr.pure ⟨_, _, rfl, rfl, rfl⟩
    intro a b ha hb
    obtain ⟨h1, x, y, hx, hy, hxy⟩ := this _ _ ha hb
    cases hx
    cases hy
    exact ⟨h1, hxy⟩
  | some d, some d', _ =>
    intro a b ha hb'
    have h1 := (find_head_some_sat v (hdec d rfl)).post _ ha
    have h2 := (find_head_some_sat v' (hdec' d' rfl)).post _ hb'
    have hv : d ≤ v.toNat := by
      by_contra hc
      exact absurd (h1.1 (by omega)) (by simp)
    have hv' : d' ≤ v'.toNat := by
      by_contra hc
      exact absurd (h2.1 (by omega)) (by simp)
    have h1 := h1.2 hv
    have h2 := h2.2 hv'
    cases h1
    cases h2
    refine ⟨?_, hb⟩
    have : CtSome (find_head v (some d)) (find_head v' (some d')) := by
      unfold find_head
      dsimp only
      refine CtSome.bind (R := fun _ _ => True) (SameTr.mono (R := Pub.rel) ?_ fun _ _ _ => trivial) ?_
      · ct
      · rintro ⟨_, _, _⟩ ⟨_, _, _⟩ -
        exact CtSome.condNone (SameTr.some (SameTr.pure ⟨trivial, trivial⟩))
    exact (this _ _ ha hb').1

theorem new_dec_ct {v v' : Buf f} {dec dec' : Option ℕ} (hl : v.len = v'.len)
    (hd : dec.isSome = dec'.isSome) (hdec : ∀ x ∈ dec, x < B) (hdec' : ∀ x ∈ dec', x < B)
    (hb : byteLen (v.toNat - dec.getD 0) = byteLen (v'.toNat - dec'.getD 0)) :
    CtSome (new v dec) (new v' dec') := by
  unfold new
  refine CtSome.condNone ?_
  refine CtSome.bindSome (find_head_ct hl hd hdec hdec' hb) (fun x => by simp) (fun x => by simp) ?_
  rintro ⟨n, x⟩ ⟨_, x'⟩ rfl
  dsimp only
  refine CtSome.condNone ?_
  exact CtSome.bind (new_scaled_ct hl hd) fun d d' hdd => SameTr.some (SameTr.pure hdd)

theorem new_ct {v v' : Buf f} (hl : v.len = v'.len) (hb : byteLen v.toNat = byteLen v'.toNat) :
    CtSome (new v none) (new v' none) :=
  new_dec_ct hl rfl (by simp) (by simp) hb

end CtMpDivisor

end Cmpa
