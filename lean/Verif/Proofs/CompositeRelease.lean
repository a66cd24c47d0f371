import Verif.Proofs.CopyRelease
import Verif.Proofs.Composite

/-!
# Storing a limb that doesn't fit into a composite buffer
-/

namespace Cmpa
open M
variable [LimbCfg] {f : Fmt}

namespace Composite

omit [LimbCfg] in
theorem cond_val' {α : Type} {c : Prop} [Decidable c] {t e : M α} :
    (M.cond c t e).val = if c then t.val else e.val := by
  show (M.branch c >>= fun b => if b then t else e).val = _
  rw [bind_val]
  by_cases hc : c <;> simp [M.branch, hc]

omit [LimbCfg] in
theorem mod_split (v a b : ℕ) : v % 256 ^ (a + b) = v % 256 ^ a + 256 ^ a * (v / 256 ^ a % 256 ^ b) := by
  rw [pow_add, Nat.mod_mul]

/-- `store_partials_sat` for all values: what there is no room for is left. -/
theorem store_partials_rem : ∀ (c : Composite f) {np value q : ℕ}, WFt q c → 0 < np → np ≤ LB →
    q % LB = np % LB → value < 256 ^ (LB - np) → np + tlen c < LB →
    Sat (store_partials np value c) (fun p => Same c p.1 ∧ p.2 = value / 256 ^ tlen c ∧
      p.1.head?.map Seg.segment = c.head?.map Seg.segment ∧ tval p.1 = value % 256 ^ tlen c)
  | [], np, value, q, _, _, _, _, _, _ => by
    refine M.sat_pure.2 ⟨trivial, ?_, rfl, ?_⟩
    · rw [show tlen ([] : Composite f) = 0 from rfl, pow_zero, Nat.div_one]
    · rw [show tlen ([] : Composite f) = 0 from rfl, pow_zero, Nat.mod_one]
      rfl
  | s :: r, np, value, q, ⟨w1, w2⟩, h0, h1, hq, hv, ht => by
    have hne : np ≠ LB := by omega
    obtain ⟨hqm, hqd⟩ := np_of_mod h0 h1 hne hq
    rw [tlen_cons] at ht ⊢
    unfold store_partials
    refine Sat.cond (fun _ => ?_) (fun he => absurd hne he)
    refine Sat.cond (fun hn => ?_) (fun hn => ?_)
    · have hl : 0 < s.high_next_partial.len := by
        have := (s.high_next_partial.is_empty_iff).not
        rw [Bool.not_eq_true] at this
        have := this.1 hn; omega
      have hp := s.high_next_partial.toNat_lt
      have hB : 256 ^ s.high_next_partial.len ≤ B := pow_le_B (by omega)
      have hnl : s.high_next_partial.nlimbs = 1 := by
        rw [Buf.nlimbs_eq]; exact nlimbs_one hl (by omega)
      have hmask : value &&& ct_lsb_mask_l (8 * s.high_next_partial.len) =
          value % 256 ^ s.high_next_partial.len := by
        rw [and_mask (by rw [W_eq]; omega), two_pow_8]
      have hml := Nat.mod_lt value (show 0 < 256 ^ s.high_next_partial.len by positivity)
      dsimp only
      rw [hmask]
      refine Sat.bind (P := fun p => p.len = s.high_next_partial.len ∧
          p.toNat = value % 256 ^ s.high_next_partial.len)
        (Buf.sat_store_l _ (by omega) (by omega) ?_ ?_) ?_
      · intro _; rw [hbytes_small hl (by omega)]; exact hml
      · intro b' e1 e2
        refine ⟨e1, ?_⟩
        rw [e2]; unfold upd
        rw [pow_zero, Nat.mod_one, zero_add, pow_one, Nat.div_eq_of_lt (a := Buf.toNat _) (by omega)]
        ring
      rintro p ⟨pl, pv⟩
      rw [pl, shrC_eq (by rw [W_eq]; omega), M.pure_bind, shr_eq, two_pow_8]
      have hdiv : value / 256 ^ s.high_next_partial.len <
          256 ^ (LB - (np + s.high_next_partial.len)) := by
        apply Nat.div_lt_of_lt_mul
        rw [← pow_add, show s.high_next_partial.len + (LB - (np + s.high_next_partial.len)) = LB - np by omega]
        exact hv
      have hd : ¬ LB ∣ (q + s.high_next_partial.len) := by
        rw [Nat.dvd_iff_mod_eq_zero, Nat.add_mod, hqm,
          Nat.mod_eq_of_lt (a := s.high_next_partial.len) (by omega), Nat.mod_eq_of_lt (by omega)]
        omega
      obtain ⟨e1, e2, e3⟩ := toNat_eq_tval w2 hd
      rw [e2] at ht ⊢
      refine (store_partials_rem r e3 (by omega) (by omega) ?_ hdiv (by omega)).bind ?_
      · rw [Nat.add_mod, hqm, Nat.mod_eq_of_lt (a := s.high_next_partial.len) (by omega)]
      rintro ⟨r', v'⟩ ⟨s1, s2, _, s4⟩
      dsimp only at s1 s2 s4
      refine M.sat_pure.2 ⟨⟨rfl, rfl, pl.symm, s1⟩, ?_, rfl, ?_⟩
      · dsimp only
        rw [s2, pow_add, Nat.div_div_eq_div_mul]
      · rw [tval_cons]
        dsimp only
        rw [pl, pv, (toNat_eq_tval (s1.wf w2) hd).1, s4, mod_split]
    · have hl : s.high_next_partial.len = 0 := by
        rw [Bool.not_eq_false] at hn
        exact (s.high_next_partial.is_empty_iff).1 hn
      rw [hl, add_zero] at w2
      obtain ⟨e1, e2, e3⟩ := toNat_eq_tval w2 hqd
      rw [hl, zero_add, e2] at ht ⊢
      refine (store_partials_rem r e3 h0 h1 hq hv ht).bind ?_
      rintro ⟨r', v'⟩ ⟨s1, s2, _, s4⟩
      dsimp only at s1 s2 s4
      refine M.sat_pure.2 ⟨⟨rfl, rfl, rfl, s1⟩, s2, rfl, ?_⟩
      have hp := s.high_next_partial.toNat_lt
      rw [hl, pow_zero] at hp
      rw [tval_cons, hl, (toNat_eq_tval (s1.wf w2) hqd).1, s4, show s.high_next_partial.toNat = 0 by omega]
      simp

theorem store_at_unfit {s : Seg f} {r : Composite f} {p i v : ℕ} (h : WF p (s :: r))
    (hi : ct_mp_nlimbs p ≤ i) (hs : i < s.stop) (hv : v < B) (hv2 : 256 ^ (p + len (s :: r) - i * LB) ≤ v) :
    (store_at i v (ct_mp_nlimbs p) s r).val = none ∧
    RSat (store_at i v (ct_mp_nlimbs p) s r) (fun c' => Same (s :: r) c' ∧
      toNat c' = updk (toNat (s :: r)) (i * LB - p) (v % 256 ^ (p + len (s :: r) - i * LB))) := by
  obtain ⟨k, hp, hk, hl0, hk2, hst, hw, hwt⟩ := at_seg h hi hs
  have hip : i * LB = p + k * LB := by
    conv_rhs => rw [hp]
    rw [hk, add_mul]
  have hlen : p + len (s :: r) - i * LB = s.segment.len + tlen (s :: r) - k * LB := by
    rw [len_cons]; omega
  rw [hlen] at hv2 ⊢
  rw [show i * LB - p = k * LB by omega, updk_mul, toNat_cons]
  have hk2' : k < s.segment.nlimbs := hk2
  rw [Buf.nlimbs_eq] at hk2
  have hlt : s.segment.len + tlen (s :: r) - k * LB < LB := by
    have h1 := hv2.trans_lt hv
    rw [B_eq_256_pow] at h1
    exact (Nat.pow_lt_pow_iff_right (by norm_num)).1 h1
  have hkl := lt_nlimbs_iff.1 hk2
  obtain ⟨hk3, hnd, h3⟩ : k + 1 = ct_mp_nlimbs s.segment.len ∧ s.segment.len % LB ≠ 0 ∧
      s.segment.len = k * LB + s.segment.len % LB := by
    rcases full_or_part hk2 with h1 | h1
    · omega
    · exact h1
  have hc : ¬ (i ≠ s.stop - 1 ∨ f.unaligned = false) := by
    rintro (hc | hc)
    · rw [Buf.nlimbs_eq] at hst; omega
    · have := s.segment.aligned hc
      rw [this, Nat.mul_mod_left] at hnd
      exact hnd rfl
  have hm := Nat.mod_lt s.segment.len LB_pos
  have hS := s.segment.toNat_lt
  unfold store_at
  rw [M.sub_eq hi, M.pure_bind, show i - ct_mp_nlimbs p = k by omega]
  by_cases hc2 : r.isEmpty = true ∨ s.segment.len % LB = 0
  · have hr : r = [] := by
      rcases hc2 with hc2 | hc2
      · simpa using hc2
      · exact absurd hc2 hnd
    subst hr
    have h0 : tlen [s] = 0 := by rw [tlen_cons, h.2.2.2.1 rfl]; rfl
    have ht : tval [s] = 0 := by
      have := tval_lt [s]
      rw [h0, pow_zero] at this
      omega
    rw [h0, add_zero] at hv2 hlt ⊢
    constructor
    · rw [cond_val', if_neg hc, cond_val', if_pos hc2]
      exact M.bind_panic (Buf.store_l_high_panic s.segment hk2' hlt hv2)
    · refine RSat.cond (fun hc' => absurd hc' hc) (fun _ => ?_)
      refine RSat.cond (fun _ => ?_) (fun hc' => absurd hc2 hc')
      have hml := Nat.mod_lt v (show 0 < 256 ^ (s.segment.len - k * LB) by positivity)
      have hst := (Buf.sat_store_l s.segment (v := v % 256 ^ (s.segment.len - k * LB)) hk2'
        ((Nat.mod_le _ _).trans_lt hv) (Q := fun b => b.len = s.segment.len ∧
          b.toNat = upd s.segment.toNat k (v % 256 ^ (s.segment.len - k * LB)))
        (by intro _; rw [← (pow_sub_bytes hk2).2 hk3]; exact hml) fun b h1 h2 => ⟨h1, h2⟩).rel
      obtain ⟨b, hb, b1, b2⟩ := hst
      rw [← Buf.store_l_trunc s.segment v hk2' (by omega)] at hb
      refine RSat.bind (P := fun x => x = b) ⟨b, hb, rfl⟩ ?_
      intro x hx
      subst x
      refine RSat.pure ⟨⟨rfl, b1.symm, rfl, Same.refl _⟩, ?_⟩
      have e : tval (⟨s.stop, b, s.high_next_partial⟩ :: []) = tval [s] := rfl
      rw [toNat_cons, e, ht, mul_zero, add_zero, mul_zero, add_zero, b2]
  · generalize hr0 : s.segment.len % LB = r0 at *
    have hml := Nat.mod_lt v (show 0 < 256 ^ r0 by positivity)
    have hexp : s.segment.len + tlen (s :: r) - k * LB = r0 + tlen (s :: r) := by omega
    rw [hexp] at hv2 hlt ⊢
    have key : Sat (do
        let b ← s.segment.store_l k (v &&& ct_lsb_mask_l (8 * r0))
        let value ← shrC v (8 * r0)
        store_partials r0 value (⟨s.stop, b, s.high_next_partial⟩ :: r))
      (fun x => x.2 ≠ 0 ∧ Same (s :: r) x.1 ∧
        toNat x.1 = upd (s.segment.toNat + 256 ^ s.segment.len * tval (s :: r)) k (v % 256 ^ (r0 + tlen (s :: r)))) := by
      rw [and_mask (by rw [W_eq]; omega), two_pow_8, shrC_eq (by rw [W_eq]; omega)]
      refine (Buf.sat_store_l _ hk2' (lt_of_lt_of_le hml (pow_le_B hm.le)) ?_
        (Q := fun b => b.len = s.segment.len ∧
        b.toNat = upd s.segment.toNat k (v % 256 ^ r0)) fun b h1 h2 => ⟨h1, h2⟩).bind ?_
      · intro _
        rw [← (pow_sub_bytes hk2).2 hk3, show s.segment.len - k * LB = r0 by omega]
        exact hml
      rintro b ⟨b1, b2⟩
      rw [M.pure_bind, shr_eq, two_pow_8]
      have hq : (p + s.segment.len) % LB = r0 % LB := by
        rw [hp, Nat.mul_add_mod', hr0, Nat.mod_eq_of_lt hm]
      have hwt' : WFt (p + s.segment.len)
          (⟨s.stop, b, s.high_next_partial⟩ :: r : Composite f) := hwt
      have et : tlen (⟨s.stop, b, s.high_next_partial⟩ :: r) = tlen (s :: r) := rfl
      refine (store_partials_rem _ hwt' (by omega) hm.le hq ?_ (by rw [et]; exact hlt)).mono ?_
      · apply Nat.div_lt_of_lt_mul
        rw [← pow_add, show r0 + (LB - r0) = LB by omega, ← B_eq_256_pow]; exact hv
      rintro ⟨c', v'⟩ ⟨s1, s2, s3, s4⟩
      dsimp only at s1 s2 s3 s4 ⊢
      rw [et] at s2 s4
      refine ⟨?_, Same.trans (b := ⟨s.stop, b, s.high_next_partial⟩ :: r) ⟨rfl, b1.symm, rfl, Same.refl r⟩ s1, ?_⟩
      · rw [s2, Nat.div_div_eq_div_mul, ← pow_add]
        exact (Nat.div_pos hv2 (by positivity)).ne'
      · cases c' with
        | nil => exact s1.elim
        | cons s' r' =>
          have hseg : s'.segment = b := by simpa using s3
          have ht := tval_lt (s :: r)
          have h9 : tval (s :: r) / 256 ^ (LB - r0) = 0 :=
            Nat.div_eq_of_lt (ht.trans_le (Nat.pow_le_pow_right (by norm_num) (by omega)))
          rw [h3] at hS
          rw [toNat_cons, s4, hseg, b1, b2]
          conv_rhs => rw [h3]
          rw [upd_part hm.le hS, ← h3, h9, mul_zero, add_zero, pow_add, Nat.mod_mul_right_mod, Nat.mod_mul_right_div_self]
    rw [M.sat_bind_iff] at key
    constructor
    · rw [cond_val', if_neg hc, cond_val', if_neg hc2]
      obtain ⟨b, hb, key⟩ := key
      rw [M.sat_bind_iff] at key
      obtain ⟨w, hw, x, hx, x1, -⟩ := key
      dsimp only
      rw [bind_val, hb, Option.bind_some, bind_val, hw, Option.bind_some, bind_val, hx, Option.bind_some]
      refine M.bind_panic ?_
      unfold M.assert
      rw [if_neg x1]
      rfl
    · refine RSat.cond (fun hc' => absurd hc' hc) (fun _ => ?_)
      refine RSat.cond (fun hc' => absurd hc' hc2) (fun _ => ?_)
      refine key.rel.bind fun b key => ?_
      rw [M.sat_bind_iff] at key
      refine key.rel.bind fun w key => ?_
      refine key.rel.bind ?_
      rintro ⟨c', w'⟩ ⟨-, x2⟩
      exact RSat.bind (RSat.assert (P := fun _ => True) trivial) fun _ _ => RSat.pure x2

theorem store_from_unfit : ∀ (c : Composite f) {p i v : ℕ}, WF p c → ct_mp_nlimbs p ≤ i →
    i * LB < p + len c → v < B → 256 ^ (p + len c - i * LB) ≤ v →
    (store_from i v (ct_mp_nlimbs p) c).val = none ∧
    RSat (store_from i v (ct_mp_nlimbs p) c)
      (fun c' => Same c c' ∧ toNat c' = updk (toNat c) (i * LB - p) (v % 256 ^ (p + len c - i * LB)))
  | [], p, i, v, _, h1, h2, _, _ => by
    exfalso
    rw [show len ([] : Composite f) = 0 from rfl, add_zero] at h2
    have := nlimbs_le_iff.1 h1; omega
  | s :: r, p, i, v, h, h1, h2, hv, hv2 => by
    unfold store_from
    by_cases hs : i < s.stop
    · obtain ⟨g1, g2⟩ := store_at_unfit h h1 hs hv hv2
      refine ⟨by rw [cond_val', if_pos hs, g1], RSat.cond (fun _ => g2) (fun h => absurd hs h)⟩
    · obtain ⟨w1, w2, w3, w4, w5⟩ := h
      have hs' := hs
      rw [w3] at hs'
      rw [len_cons, tlen_cons] at h2 hv2 ⊢
      have hl : p + s.segment.len + s.high_next_partial.len + len r - i * LB =
        p + (s.segment.len + (s.high_next_partial.len + len r)) - i * LB := by omega
      obtain ⟨g1, g2⟩ := store_from_unfit r w5 (i := i) (v := v) (Nat.not_lt.1 hs') (by omega) hv (by rwa [hl])
      rw [← w3] at g1 g2
      refine ⟨by rw [cond_val', if_neg hs]; exact M.bind_panic g1, RSat.cond (fun h => absurd h hs) (fun _ => ?_)⟩
      refine g2.bind ?_
      rintro r' ⟨e1, e2⟩
      refine RSat.pure ⟨⟨rfl, rfl, rfl, e1⟩, ?_⟩
      have hle := nlimbs_le_iff.1 (Nat.not_lt.1 hs')
      rw [hl] at e2
      generalize v % 256 ^ (p + (s.segment.len + (s.high_next_partial.len + len r)) - i * LB) = u at *
      rw [show i * LB - p = s.segment.len + (s.high_next_partial.len +
        (i * LB - (p + s.segment.len + s.high_next_partial.len))) by omega, toNat_cons, tval_cons, e2,
        toNat_cons, tval_cons]
      generalize i * LB - (p + s.segment.len + s.high_next_partial.len) = k
      unfold updk
      rw [add_assoc s.segment.len, add_assoc s.high_next_partial.len,
        split_div s.segment.toNat_lt, split_div s.high_next_partial.toNat_lt,
        split_mod s.segment.toNat_lt, split_mod s.high_next_partial.toNat_lt, pow_add, pow_add]
      ring

/-- Storing a limb of the concatenation which doesn't fit. -/
theorem store_unfit {c : Composite f} {i v : ℕ} (h : WF 0 c) (hi : i < ct_mp_nlimbs (len c))
    (hv : v < B) (hv2 : 256 ^ (len c - i * LB) ≤ v) :
    (store c i v).val = none ∧
    RSat (store c i v) (fun c' => Same c c' ∧ toNat c' = upd (toNat c) i (v % 256 ^ (len c - i * LB))) := by
  have := store_from_unfit c h (i := i) (v := v) (by rw [nlimbs_zero]; omega)
    (by rw [zero_add]; exact lt_nlimbs_iff.1 hi) hv (by rwa [zero_add])
  rw [nlimbs_zero, Nat.sub_zero, updk_mul, zero_add] at this
  exact this

theorem stop_le {s : Seg f} {r : Composite f} {p : ℕ} (h : WF p (s :: r)) :
    s.stop ≤ ct_mp_nlimbs (p + len (s :: r)) := by
  rw [h.2.2.1, len_cons, tlen_cons, nlimbs_le_iff]
  have := le_nlimbs_mul (p + (s.segment.len + (s.high_next_partial.len + len r)))
  omega

theorem store_from_out : ∀ (c : Composite f) {p i v o : ℕ}, WF p c → ct_mp_nlimbs (p + len c) ≤ i →
    (store_from i v o c).val = none
  | [], _, _, _, _, _, _ => rfl
  | s :: r, p, i, v, o, h, hi => by
    unfold store_from
    have := stop_le h
    rw [cond_val', if_neg (by omega)]
    refine M.bind_panic (store_from_out r h.2.2.2.2 ?_)
    rw [len_cons, tlen_cons] at hi
    rwa [add_assoc, add_assoc]

theorem load_from_out : ∀ (c : Composite f) {p i o : ℕ}, WF p c → ct_mp_nlimbs (p + len c) ≤ i →
    (load_from i o c).val = none
  | [], _, _, _, _, _ => rfl
  | s :: r, p, i, o, h, hi => by
    unfold load_from
    have := stop_le h
    rw [cond_val', if_neg (by omega)]
    refine load_from_out r h.2.2.2.2 ?_
    rw [len_cons, tlen_cons] at hi
    rwa [add_assoc, add_assoc]

end Composite
end Cmpa
