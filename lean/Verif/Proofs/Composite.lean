import Verif.Model.Composite
import Verif.Proofs.Shift

/-!
# Composite buffers: limbs of the concatenation
-/

set_option linter.unusedSectionVars false

namespace Cmpa
open M
variable [LimbCfg] {f : Fmt}

namespace Composite

/-- The number held by the segments. -/
def toNat : Composite f → ℕ
  | [] => 0
  | s :: r => s.segment.toNat + 256 ^ s.segment.len *
      (s.high_next_partial.toNat + 256 ^ s.high_next_partial.len * toNat r)

/-- The length of the segments. -/
def len : Composite f → ℕ
  | [] => 0
  | s :: r => s.segment.len + (s.high_next_partial.len + len r)

/-- The number held by the segments, without the first slice. -/
def tval : Composite f → ℕ
  | [] => 0
  | s :: r => s.high_next_partial.toNat + 256 ^ s.high_next_partial.len * toNat r

/-- The length of the segments, without the first slice. -/
def tlen : Composite f → ℕ
  | [] => 0
  | s :: r => s.high_next_partial.len + len r

/-- What `new` establishes for the segments from byte position `p` on. -/
def WF : ℕ → Composite f → Prop
  | _, [] => True
  | p, s :: r => (s.segment.len = 0 ∨ LB ∣ p) ∧
      (s.high_next_partial.len = 0 ∨ (¬ LB ∣ (p + s.segment.len) ∧
        (p + s.segment.len) % LB + s.high_next_partial.len ≤ LB)) ∧
      s.stop = ct_mp_nlimbs (p + s.segment.len + s.high_next_partial.len) ∧
      (r = [] → s.high_next_partial.len = 0) ∧
      WF (p + s.segment.len + s.high_next_partial.len) r

/-- `WF` without the first slice. -/
def WFt : ℕ → Composite f → Prop
  | _, [] => True
  | q, s :: r =>
      (s.high_next_partial.len = 0 ∨ (¬ LB ∣ q ∧ q % LB + s.high_next_partial.len ≤ LB)) ∧
      WF (q + s.high_next_partial.len) r

/-- The same layout. -/
def Same : Composite f → Composite f → Prop
  | [], [] => True
  | s :: r, s' :: r' => s.stop = s'.stop ∧ s.segment.len = s'.segment.len ∧
      s.high_next_partial.len = s'.high_next_partial.len ∧ Same r r'
  | _, _ => False

theorem Same.refl : ∀ c : Composite f, Same c c
  | [] => trivial
  | _ :: r => ⟨rfl, rfl, rfl, Same.refl r⟩

theorem Same.trans : ∀ {a b c : Composite f}, Same a b → Same b c → Same a c
  | [], [], [], _, _ => trivial
  | _ :: _, _ :: _, _ :: _, ⟨h1, h2, h3, h4⟩, ⟨g1, g2, g3, g4⟩ =>
    ⟨h1.trans g1, h2.trans g2, h3.trans g3, Same.trans h4 g4⟩

theorem Same.wf : ∀ {a b : Composite f} {p : ℕ}, Same a b → WF p a → WF p b
  | [], [], _, _, _ => trivial
  | s :: r, s' :: r', p, ⟨h1, h2, h3, h4⟩, ⟨w1, w2, w3, w4, w5⟩ => by
    refine ⟨h2 ▸ w1, h2 ▸ h3 ▸ w2, h1 ▸ h2 ▸ h3 ▸ w3, ?_, ?_⟩
    · intro hr; subst hr
      cases r with
      | nil => exact h3 ▸ w4 rfl
      | cons => exact h4.elim
    · have := Same.wf h4 w5
      rwa [h2, h3] at this

theorem Same.len_eq : ∀ {a b : Composite f}, Same a b → len a = len b
  | [], [], _ => rfl
  | s :: r, s' :: r', ⟨_, h2, h3, h4⟩ => by
    simp only [len, h2, h3, Same.len_eq h4]

theorem tval_cons (s : Seg f) (r : Composite f) : tval (s :: r) =
    s.high_next_partial.toNat + 256 ^ s.high_next_partial.len * toNat r := rfl

theorem tlen_cons (s : Seg f) (r : Composite f) :
    tlen (s :: r) = s.high_next_partial.len + len r := rfl

theorem toNat_lt : ∀ c : Composite f, toNat c < 256 ^ len c
  | [] => by simp [toNat, len]
  | s :: r => by
    have h1 := s.segment.toNat_lt
    have h2 := s.high_next_partial.toNat_lt
    have h3 := toNat_lt r
    simp only [toNat, len, pow_add]
    have e2 : s.high_next_partial.toNat + 256 ^ s.high_next_partial.len * toNat r <
        256 ^ s.high_next_partial.len * 256 ^ len r := by
      calc _ < 256 ^ s.high_next_partial.len * (toNat r + 1) := by rw [mul_add]; omega
        _ ≤ _ := Nat.mul_le_mul_left _ h3
    calc _ < 256 ^ s.segment.len *
          (s.high_next_partial.toNat + 256 ^ s.high_next_partial.len * toNat r + 1) := by
          rw [mul_add _ _ 1]; omega
      _ ≤ _ := Nat.mul_le_mul_left _ e2

theorem tval_lt (c : Composite f) : tval c < 256 ^ tlen c := by
  cases c with
  | nil => simp [tval, tlen]
  | cons s r =>
    have h2 := s.high_next_partial.toNat_lt
    have h3 := toNat_lt r
    simp only [tval, tlen, pow_add]
    calc _ < 256 ^ s.high_next_partial.len * (toNat r + 1) := by rw [mul_add]; omega
      _ ≤ _ := Nat.mul_le_mul_left _ h3

theorem toNat_eq_tval {c : Composite f} {q : ℕ} (h : WF q c) (hq : ¬ LB ∣ q) :
    toNat c = tval c ∧ len c = tlen c ∧ WFt q c := by
  cases c with
  | nil => exact ⟨rfl, rfl, trivial⟩
  | cons s r =>
    obtain ⟨w1, w2, w3, w4, w5⟩ := h
    have h0 : s.segment.len = 0 := by tauto
    have h1 := s.segment.toNat_lt
    rw [h0, pow_zero] at h1
    have h1 : s.segment.toNat = 0 := by omega
    rw [h0, add_zero] at w2 w5
    refine ⟨?_, ?_, w2, w5⟩
    · simp [toNat, tval, h0, h1]
    · simp [len, tlen, h0]

theorem split_mod {a b h k : ℕ} (ha : a < 256 ^ h) :
    (a + 256 ^ h * b) % 256 ^ (h + k) = a + 256 ^ h * (b % 256 ^ k) := by
  rw [pow_add]
  rw [Nat.mod_mul, Nat.add_mul_mod_self_left, Nat.mod_eq_of_lt ha,
    Nat.add_mul_div_left _ _ (by positivity), Nat.div_eq_of_lt ha, Nat.zero_add]

theorem split_div {a b h k : ℕ} (ha : a < 256 ^ h) :
    (a + 256 ^ h * b) / 256 ^ (h + k) = b / 256 ^ k := by
  rw [pow_add, ← Nat.div_div_eq_div_mul, Nat.add_mul_div_left _ _ (by positivity),
    Nat.div_eq_of_lt ha, Nat.zero_add]

theorem pow_le_B {k : ℕ} (h : k ≤ LB) : 256 ^ k ≤ B := by
  rw [B_eq_256_pow]; exact Nat.pow_le_pow_right (by norm_num) h

theorem nlimbs_one {k : ℕ} (h0 : 0 < k) (h : k ≤ LB) : ct_mp_nlimbs k = 1 := by
  have h1 := (nlimbs_pos_iff (n := k)).2 h0
  have h2 : ct_mp_nlimbs k ≤ 1 := nlimbs_le_iff.2 (by omega)
  omega

theorem hbytes_small {k : ℕ} (h0 : 0 < k) (h : k ≤ LB) : hbytes k = k := by
  unfold hbytes; rw [nlimbs_one h0 h]; omega

theorem or_shl {v x np : ℕ} (hv : v < 256 ^ np) (hx : x * 256 ^ np < B) :
    v ||| shl x (8 * np) = v + 256 ^ np * x := by
  rw [shl_eq, two_pow_8, Nat.mod_eq_of_lt hx, Nat.or_comm, ← two_pow_8,
    or_eq_add_of_lt (by rwa [two_pow_8])]
  ring

theorem np_of_mod {q np : ℕ} (h0 : 0 < np) (h1 : np ≤ LB) (h2 : np ≠ LB) (hq : q % LB = np % LB) :
    q % LB = np ∧ ¬ LB ∣ q := by
  have : np % LB = np := Nat.mod_eq_of_lt (by omega)
  refine ⟨by omega, fun h => ?_⟩
  have := Nat.mod_eq_zero_of_dvd h
  omega

theorem load_partials_sat : ∀ (c : Composite f) {np value q : ℕ}, WFt q c → 0 < np → np ≤ LB →
    q % LB = np % LB → value < 256 ^ np →
    Sat (load_partials np value c) (fun r => r = value + 256 ^ np * (tval c % 256 ^ (LB - np)))
  | [], np, value, q, _, _, _, _, _ => by
    simp [load_partials, tval]
  | s :: r, np, value, q, ⟨w1, w2⟩, h0, h1, hq, hv => by
    unfold load_partials
    refine Sat.cond (fun hne => ?_) (fun he => ?_)
    · obtain ⟨hqm, hqd⟩ := np_of_mod h0 h1 hne hq
      refine Sat.cond (fun hn => ?_) (fun hn => ?_)
      · have hl : 0 < s.high_next_partial.len := by
          have := (s.high_next_partial.is_empty_iff).not
          rw [Bool.not_eq_true] at this
          have := this.1 hn; omega
        have hle : np + s.high_next_partial.len ≤ LB := by
          rcases w1 with w | ⟨_, w⟩ <;> omega
        have hp := s.high_next_partial.toNat_lt
        have hB : 256 ^ s.high_next_partial.len ≤ B := pow_le_B (by omega)
        refine Sat.bind (P := fun l => l = s.high_next_partial.toNat)
          (Buf.sat_load_l _ (by rw [Buf.nlimbs_eq]; exact nlimbs_pos_iff.2 hl) ?_) ?_
        · rw [pow_zero, Nat.div_one, Nat.mod_eq_of_lt (by omega)]
        intro l hl'; subst l
        rw [shlC_eq (by rw [W_eq]; omega), M.pure_bind]
        have hx : s.high_next_partial.toNat * 256 ^ np < B := by
          calc _ < 256 ^ s.high_next_partial.len * 256 ^ np :=
                Nat.mul_lt_mul_of_pos_right hp (by positivity)
            _ ≤ B := by rw [← pow_add]; exact pow_le_B (by omega)
        rw [or_shl hv hx]
        have hv2 : value + 256 ^ np * s.high_next_partial.toNat <
            256 ^ (np + s.high_next_partial.len) := by
          rw [pow_add]
          calc _ < 256 ^ np * (s.high_next_partial.toNat + 1) := by rw [mul_add]; omega
            _ ≤ _ := Nat.mul_le_mul_left _ hp
        have hsplit : LB - np = s.high_next_partial.len + (LB - (np + s.high_next_partial.len)) := by
          omega
        by_cases hnp : np + s.high_next_partial.len = LB
        · rw [hnp]
          have : Sat (load_partials LB (value + 256 ^ np * s.high_next_partial.toNat) r)
              (fun x => x = value + 256 ^ np * s.high_next_partial.toNat) := by
            cases r with
            | nil => exact M.sat_pure.2 rfl
            | cons s' r' =>
              unfold load_partials
              exact Sat.cond (fun h => absurd rfl h) (fun _ => M.sat_pure.2 rfl)
          refine this.mono fun x hx => ?_
          rw [hx]; rw [tval_cons]
          rw [hsplit, split_mod hp, hnp, Nat.sub_self, pow_zero, Nat.mod_one, mul_zero, add_zero]
        · have hd : ¬ LB ∣ (q + s.high_next_partial.len) := by
            rw [Nat.dvd_iff_mod_eq_zero, Nat.add_mod, hqm,
              Nat.mod_eq_of_lt (a := s.high_next_partial.len) (by omega),
              Nat.mod_eq_of_lt (by omega)]
            omega
          obtain ⟨e1, e2, e3⟩ := toNat_eq_tval w2 hd
          refine (load_partials_sat r e3 (by omega) (by omega) ?_ hv2).mono fun x hx => ?_
          · rw [Nat.add_mod, hqm,
              Nat.mod_eq_of_lt (a := s.high_next_partial.len) (by omega)]
          · rw [hx]; rw [tval_cons]
            rw [hsplit, split_mod hp, e1, pow_add]; ring
      · have hl : s.high_next_partial.len = 0 := by
          rw [Bool.not_eq_false] at hn
          exact (s.high_next_partial.is_empty_iff).1 hn
        rw [hl, add_zero] at w2
        obtain ⟨e1, e2, e3⟩ := toNat_eq_tval w2 hqd
        refine (load_partials_sat r e3 h0 h1 hq hv).mono fun x hx => ?_
        have hp := s.high_next_partial.toNat_lt
        rw [hl, pow_zero] at hp
        rw [hx]; rw [tval_cons]
        rw [hl, e1, show s.high_next_partial.toNat = 0 by omega]; simp
    · have : np = LB := by simpa using he
      rw [this]
      refine M.sat_pure.2 ?_
      rw [Nat.sub_self, pow_zero, Nat.mod_one, mul_zero, add_zero]

theorem store_partials_sat : ∀ (c : Composite f) {np value q : ℕ}, WFt q c → 0 < np → np ≤ LB →
    q % LB = np % LB → value < 256 ^ (LB - np) → value < 256 ^ tlen c →
    Sat (store_partials np value c) (fun p => Same c p.1 ∧ p.2 = 0 ∧
      p.1.head?.map Seg.segment = c.head?.map Seg.segment ∧
      tval p.1 = value + 256 ^ (LB - np) * (tval c / 256 ^ (LB - np)))
  | [], np, value, q, _, _, _, _, _, hv => by
    rw [show tlen ([] : Composite f) = 0 from rfl, pow_zero] at hv
    simp [store_partials, tval, Same]
    omega
  | s :: r, np, value, q, ⟨w1, w2⟩, h0, h1, hq, hv, hvt => by
    unfold store_partials
    refine Sat.cond (fun hne => ?_) (fun he => ?_)
    · obtain ⟨hqm, hqd⟩ := np_of_mod h0 h1 hne hq
      refine Sat.cond (fun hn => ?_) (fun hn => ?_)
      · have hl : 0 < s.high_next_partial.len := by
          have := (s.high_next_partial.is_empty_iff).not
          rw [Bool.not_eq_true] at this
          have := this.1 hn; omega
        have hle : np + s.high_next_partial.len ≤ LB := by
          rcases w1 with w | ⟨_, w⟩ <;> omega
        have hp := s.high_next_partial.toNat_lt
        have hB : 256 ^ s.high_next_partial.len ≤ B := pow_le_B (by omega)
        have hnl : s.high_next_partial.nlimbs = 1 := by
          rw [Buf.nlimbs_eq]; exact nlimbs_one hl (by omega)
        have hmask : value &&& ct_lsb_mask_l (8 * s.high_next_partial.len) =
            value % 256 ^ s.high_next_partial.len := by
          rw [and_mask (by rw [W_eq]; omega), two_pow_8]
        have hml := Nat.mod_lt value (show 0 < 256 ^ s.high_next_partial.len by positivity)
        dsimp only
        rw [hmask]
        refine Sat.bind (P := fun p => p.len = s.high_next_partial.len ∧
            p.toNat = value % 256 ^ s.high_next_partial.len)
          (Buf.sat_store_l _ (by omega) (by omega) ?_ ?_) ?_
        · intro _; rw [hbytes_small hl (by omega)]; exact hml
        · intro b' e1 e2
          refine ⟨e1, ?_⟩
          rw [e2]; unfold upd
          rw [pow_zero, Nat.mod_one, zero_add, pow_one, Nat.div_eq_of_lt (a := Buf.toNat _) (by omega)]
          ring
        rintro p ⟨pl, pv⟩
        rw [pl, shrC_eq (by rw [W_eq]; omega), M.pure_bind, shr_eq, two_pow_8]
        have hsplit : LB - np = s.high_next_partial.len + (LB - (np + s.high_next_partial.len)) := by
          omega
        have hdiv : value / 256 ^ s.high_next_partial.len <
            256 ^ (LB - (np + s.high_next_partial.len)) := by
          apply Nat.div_lt_of_lt_mul; rw [← pow_add, ← hsplit]; exact hv
        by_cases hnp : np + s.high_next_partial.len = LB
        · rw [hnp]
          have hz : value / 256 ^ s.high_next_partial.len = 0 := by
            rw [hnp, Nat.sub_self, pow_zero] at hdiv; exact Nat.lt_one_iff.1 hdiv
          have : Sat (store_partials LB (value / 256 ^ s.high_next_partial.len) r)
              (fun x => x = (r, 0)) := by
            rw [hz]
            cases r with
            | nil => exact M.sat_pure.2 rfl
            | cons s' r' =>
              unfold store_partials
              exact Sat.cond (fun h => absurd rfl h) (fun _ => M.sat_pure.2 rfl)
          refine this.bind ?_
          intro x hx; subst x
          refine M.sat_pure.2 ⟨⟨rfl, rfl, pl.symm, Same.refl r⟩, rfl, rfl, ?_⟩
          rw [tval_cons, tval_cons]
          dsimp only
          have e : LB - (np + s.high_next_partial.len) = 0 := by omega
          rw [hsplit, split_div hp, e, pow_zero, Nat.div_one, pl, pv, add_zero]
          have := Nat.mod_add_div value (256 ^ s.high_next_partial.len)
          rw [hz] at this; omega
        · have hd : ¬ LB ∣ (q + s.high_next_partial.len) := by
            rw [Nat.dvd_iff_mod_eq_zero, Nat.add_mod, hqm,
              Nat.mod_eq_of_lt (a := s.high_next_partial.len) (by omega),
              Nat.mod_eq_of_lt (by omega)]
            omega
          obtain ⟨e1, e2, e3⟩ := toNat_eq_tval w2 hd
          refine (store_partials_sat r e3 (by omega) (by omega) ?_ hdiv ?_).bind ?_
          · rw [Nat.add_mod, hqm,
              Nat.mod_eq_of_lt (a := s.high_next_partial.len) (by omega)]
          · apply Nat.div_lt_of_lt_mul; rw [← pow_add, ← e2]; exact hvt
          rintro ⟨r', v'⟩ ⟨s1, s2, _, s4⟩
          dsimp only at s1 s2 s4
          refine M.sat_pure.2 ⟨⟨rfl, rfl, pl.symm, s1⟩, s2, rfl, ?_⟩
          have e1' := (toNat_eq_tval (s1.wf w2) hd).1
          rw [tval_cons, tval_cons]
          dsimp only
          rw [hsplit, split_div hp, pl, pv, e1', s4, e1, pow_add]
          have := Nat.mod_add_div value (256 ^ s.high_next_partial.len)
          linear_combination this
      · have hl : s.high_next_partial.len = 0 := by
          rw [Bool.not_eq_false] at hn
          exact (s.high_next_partial.is_empty_iff).1 hn
        rw [hl, add_zero] at w2
        obtain ⟨e1, e2, e3⟩ := toNat_eq_tval w2 hqd
        rw [tlen_cons, hl, zero_add] at hvt
        refine (store_partials_sat r e3 h0 h1 hq hv (by rwa [← e2])).bind ?_
        rintro ⟨r', v'⟩ ⟨s1, s2, _, s4⟩
        dsimp only at s1 s2 s4
        refine M.sat_pure.2 ⟨⟨rfl, rfl, rfl, s1⟩, s2, rfl, ?_⟩
        have e1' := (toNat_eq_tval (s1.wf w2) hqd).1
        have hp := s.high_next_partial.toNat_lt
        rw [hl, pow_zero] at hp
        rw [tval_cons, tval_cons]
        rw [hl, e1, e1', s4, show s.high_next_partial.toNat = 0 by omega]; simp
    · have : np = LB := by simpa using he
      rw [this, Nat.sub_self, pow_zero] at hv
      rw [this, Nat.sub_self, pow_zero]
      have hz : value = 0 := by omega
      refine M.sat_pure.2 ⟨Same.refl _, hz, rfl, ?_⟩
      dsimp only
      rw [hz]; simp

theorem nlimbs_add_mul (m x : ℕ) : ct_mp_nlimbs (m * LB + x) = m + ct_mp_nlimbs x := by
  unfold ct_mp_nlimbs
  rw [show m * LB + x + LB - 1 = x + LB - 1 + m * LB by have := LB_pos; omega,
    Nat.add_mul_div_right _ _ LB_pos, add_comm]

theorem nlimbs_fill {x y : ℕ} (h : y = 0 ∨ (x % LB ≠ 0 ∧ x % LB + y ≤ LB)) :
    ct_mp_nlimbs (x + y) = ct_mp_nlimbs x := by
  rcases h with rfl | ⟨h1, h2⟩
  · rfl
  · have := Nat.div_add_mod' x LB
    rw [← this, add_assoc, nlimbs_add_mul, nlimbs_add_mul, nlimbs_one (by omega) h2,
      nlimbs_one (by omega) (by omega)]

/-- The segment found by the search. -/
theorem at_seg {s : Seg f} {r : Composite f} {p i : ℕ} (h : WF p (s :: r))
    (hi : ct_mp_nlimbs p ≤ i) (hs : i < s.stop) :
    ∃ k, p = ct_mp_nlimbs p * LB ∧ i = ct_mp_nlimbs p + k ∧ 0 < s.segment.len ∧
      k < s.segment.nlimbs ∧ s.stop = ct_mp_nlimbs p + s.segment.nlimbs ∧
      (s.high_next_partial.len = 0 ∨ (s.segment.len % LB ≠ 0 ∧
        s.segment.len % LB + s.high_next_partial.len ≤ LB)) ∧
      WFt (p + s.segment.len) (s :: r) := by
  obtain ⟨w1, w2, w3, w4, w5⟩ := h
  have hsl : s.segment.len ≠ 0 := by
    intro h0
    rw [h0, add_zero] at w2 w3
    have : ct_mp_nlimbs (p + s.high_next_partial.len) = ct_mp_nlimbs p := by
      apply nlimbs_fill
      rcases w2 with w | ⟨w, w'⟩
      · exact Or.inl w
      · exact Or.inr ⟨fun h => w (Nat.dvd_of_mod_eq_zero h), w'⟩
    omega
  have hd : LB ∣ p := by tauto
  obtain ⟨m, rfl⟩ := hd
  rw [mul_comm] at *
  rw [nlimbs_mul] at *
  have hmod : (m * LB + s.segment.len) % LB = s.segment.len % LB := by
    rw [Nat.mul_add_mod']
  have hdv : LB ∣ (m * LB + s.segment.len) ↔ s.segment.len % LB = 0 := by
    rw [Nat.dvd_iff_mod_eq_zero, hmod]
  have w2' : s.high_next_partial.len = 0 ∨ (s.segment.len % LB ≠ 0 ∧
      s.segment.len % LB + s.high_next_partial.len ≤ LB) := by
    rw [hdv, hmod] at w2; exact w2
  rw [add_assoc, nlimbs_add_mul, nlimbs_fill w2'] at w3
  exact ⟨i - m, rfl, by omega, by omega, by rw [Buf.nlimbs_eq]; omega, w3, w2', w2, w5⟩

theorem dig_full {S T n k : ℕ} (h : k * LB + LB ≤ n) :
    (S + 256 ^ n * T) / B ^ k % B = S / B ^ k % B := by
  obtain ⟨e, rfl⟩ := Nat.exists_eq_add_of_le h
  rw [pow_add, pow_add, pow_256, ← B_eq_256_pow, mul_assoc, mul_assoc,
    Nat.add_mul_div_left _ _ (B_pow_pos k), Nat.add_mul_mod_self_left]

theorem dig_part {S T k r : ℕ} (hr : r ≤ LB) (hS : S < 256 ^ (k * LB + r)) :
    (S + 256 ^ (k * LB + r) * T) / B ^ k % B = S / B ^ k + 256 ^ r * (T % 256 ^ (LB - r)) ∧
      S / B ^ k < 256 ^ r := by
  have h1 : S / B ^ k < 256 ^ r := by
    apply Nat.div_lt_of_lt_mul; rw [← pow_256, ← pow_add]; exact hS
  refine ⟨?_, h1⟩
  rw [pow_add, pow_256, mul_assoc, Nat.add_mul_div_left _ _ (B_pow_pos k)]
  conv_lhs => rw [B_eq_256_pow, show LB = r + (LB - r) by omega]
  rw [split_mod (by rw [show r + (LB - r) = LB by omega, ← B_eq_256_pow]; exact h1)]
  rw [show r + (LB - r) = LB by omega, ← B_eq_256_pow]

theorem upd_full {S T n k v : ℕ} (h : k * LB + LB ≤ n) (hS : S < 256 ^ n) :
    upd (S + 256 ^ n * T) k v = upd S k v + 256 ^ n * T := by
  obtain ⟨e, rfl⟩ := Nat.exists_eq_add_of_le h
  unfold upd
  have h1 : (S + 256 ^ (k * LB + LB + e) * T) % B ^ k = S % B ^ k := by
    rw [pow_add, pow_add, pow_256, mul_assoc, mul_assoc, Nat.add_mul_mod_self_left]
  have h2 : (S + 256 ^ (k * LB + LB + e) * T) / B ^ (k + 1) = S / B ^ (k + 1) + 256 ^ e * T := by
    rw [pow_add, pow_add, pow_256, ← B_eq_256_pow, ← pow_succ, mul_assoc,
      Nat.add_mul_div_left _ _ (B_pow_pos _)]
  have e1 : 256 ^ (k * LB + LB + e) = B ^ k * B * 256 ^ e := by
    rw [pow_add, pow_add, pow_256, ← B_eq_256_pow]
  rw [h1, h2, e1]
  ring

theorem upd_part {S T k r v : ℕ} (hr : r ≤ LB) (hS : S < 256 ^ (k * LB + r)) :
    upd (S + 256 ^ (k * LB + r) * T) k v = upd S k (v % 256 ^ r) +
      256 ^ (k * LB + r) * (v / 256 ^ r + 256 ^ (LB - r) * (T / 256 ^ (LB - r))) := by
  unfold upd
  have h1 : (S + 256 ^ (k * LB + r) * T) % B ^ k = S % B ^ k := by
    rw [pow_add, pow_256, mul_assoc, Nat.add_mul_mod_self_left]
  have e1 : B ^ (k + 1) = 256 ^ (k * LB + r + (LB - r)) := by
    rw [← pow_256, add_mul, one_mul]; congr 1; omega
  have h2 : (S + 256 ^ (k * LB + r) * T) / B ^ (k + 1) = T / 256 ^ (LB - r) := by
    rw [e1, split_div hS]
  have h3 : S / B ^ (k + 1) = 0 := by
    rw [e1]; apply Nat.div_eq_of_lt
    rw [pow_add]
    exact lt_of_lt_of_le hS (Nat.le_mul_of_pos_right _ (by positivity))
  rw [h1, h2, h3, pow_add, pow_256]
  have := (Nat.mod_add_div v (256 ^ r)).symm
  have e3 : B = 256 ^ r * 256 ^ (LB - r) := by
    rw [B_eq_256_pow, ← pow_add]; congr 1; omega
  generalize hT : T / 256 ^ (LB - r) = t
  have e4 : B * t = 256 ^ r * 256 ^ (LB - r) * t := by rw [← e3]
  linear_combination (B ^ k) * this + (B ^ k) * e4

/-- The limb size and the partial limb of a buffer. -/
theorem full_or_part {n k : ℕ} (h : k < ct_mp_nlimbs n) :
    k * LB + LB ≤ n ∨ (k + 1 = ct_mp_nlimbs n ∧ n % LB ≠ 0 ∧ n = k * LB + n % LB) := by
  have h1 := lt_nlimbs_iff.1 h
  rcases Nat.lt_or_ge n (k * LB + LB) with h2 | h2
  · right
    have h3 : n % LB = n - k * LB := by
      rw [show n = (n - k * LB) + k * LB by omega, Nat.add_mul_mod_self_right,
        Nat.mod_eq_of_lt (by omega), Nat.add_sub_cancel]
    refine ⟨?_, by omega, by omega⟩
    have : ct_mp_nlimbs n ≤ k + 1 := nlimbs_le_iff.2 (by rw [add_mul]; omega)
    omega
  · exact Or.inl h2

theorem toNat_cons (s : Seg f) (r : Composite f) :
    toNat (s :: r) = s.segment.toNat + 256 ^ s.segment.len * tval (s :: r) := rfl

theorem len_cons (s : Seg f) (r : Composite f) :
    len (s :: r) = s.segment.len + tlen (s :: r) := rfl

theorem load_at_sat {s : Seg f} {r : Composite f} {p i : ℕ} (h : WF p (s :: r))
    (hi : ct_mp_nlimbs p ≤ i) (hs : i < s.stop) :
    Sat (load_at i (ct_mp_nlimbs p) s r)
      (fun x => x = toNat (s :: r) / 256 ^ (i * LB - p) % B) := by
  have h' := h
  obtain ⟨k, hp, hk, hl0, hk2, hst, hw, hwt⟩ := at_seg h hi hs
  have hexp : 256 ^ (i * LB - p) = B ^ k := by
    rw [← pow_256]; congr 1
    conv_lhs => rw [hp]
    rw [hk, add_mul]; omega
  rw [hexp, toNat_cons]
  unfold load_at
  rw [M.sub_eq hi, M.pure_bind, show i - ct_mp_nlimbs p = k by omega]
  rw [Buf.nlimbs_eq] at hk2
  have hal : f.unaligned = false → k * LB + LB ≤ s.segment.len := by
    intro hf
    have := s.segment.aligned hf
    rw [this]
    have : (k + 1) * LB ≤ s.segment.nlimbs * LB := Nat.mul_le_mul_right _ hk2
    rw [add_mul] at this; omega
  refine Sat.cond (fun hc => ?_) (fun hc => ?_)
  · have hfull : k * LB + LB ≤ s.segment.len := by
      rcases hc with hc | hc
      · apply full_of_lt_pred
        rw [Buf.nlimbs_eq] at hst; omega
      · exact hal hc
    exact Buf.sat_load_l_full _ hfull (dig_full hfull).symm
  · refine Sat.cond (fun hc => ?_) (fun hc2 => ?_)
    · refine Buf.sat_load_l _ hk2 ?_
      rcases full_or_part hk2 with h1 | ⟨h1, h2, h3⟩
      · exact (dig_full h1).symm
      · have hr : r = [] := by
          rcases hc with hc | hc
          · simpa using hc
          · exact absurd hc h2
        subst hr
        have : tval [s] = 0 := by
          have := tval_lt [s]
          rw [tlen_cons, h.2.2.2.1 rfl, show len ([] : Composite f) = 0 from rfl, zero_add,
            pow_zero] at this
          omega
        rw [this, mul_zero, add_zero]
    · have hnd : s.segment.len % LB ≠ 0 := fun h => hc2 (Or.inr h)
      have hc' : i = s.stop - 1 := by
        by_contra hh; exact hc (Or.inl hh)
      have hk3 : k + 1 = ct_mp_nlimbs s.segment.len := by
        rw [Buf.nlimbs_eq] at hst; omega
      obtain ⟨h1, h2, h3⟩ : k + 1 = ct_mp_nlimbs s.segment.len ∧ s.segment.len % LB ≠ 0 ∧
          s.segment.len = k * LB + s.segment.len % LB := by
        rcases full_or_part hk2 with h1 | h1
        · exfalso
          have h5 := le_nlimbs_mul s.segment.len
          rw [← hk3, add_mul, one_mul] at h5
          have : s.segment.len = (k + 1) * LB := by rw [add_mul]; omega
          rw [this, Nat.mul_mod_left] at hnd
          exact hnd rfl
        · exact h1
      have hm := Nat.mod_lt s.segment.len LB_pos
      have hS := s.segment.toNat_lt
      rw [h3] at hS
      obtain ⟨g1, g2⟩ := dig_part (T := tval (s :: r)) hm.le hS
      refine Sat.bind (P := fun x => x = s.segment.toNat / B ^ k)
        (Buf.sat_load_l _ hk2 ?_) ?_
      · rw [Nat.mod_eq_of_lt]
        exact lt_of_lt_of_le g2 (pow_le_B hm.le)
      intro x hx; subst x
      have hq : (p + s.segment.len) % LB = s.segment.len % LB % LB := by
        rw [hp, Nat.mul_add_mod', Nat.mod_mod]
      refine (load_partials_sat (s :: r) hwt (by omega) hm.le hq g2).mono fun x hx => ?_
      rw [hx, ← g1, ← h3]

theorem load_from_sat : ∀ (c : Composite f) {p i : ℕ}, WF p c → ct_mp_nlimbs p ≤ i →
    i * LB < p + len c →
    Sat (load_from i (ct_mp_nlimbs p) c) (fun x => x = toNat c / 256 ^ (i * LB - p) % B)
  | [], p, i, _, h1, h2 => by
    exfalso
    rw [show len ([] : Composite f) = 0 from rfl, add_zero] at h2
    have := nlimbs_le_iff.1 h1; omega
  | s :: r, p, i, h, h1, h2 => by
    unfold load_from
    refine Sat.cond (fun hs => load_at_sat h h1 hs) (fun hs => ?_)
    obtain ⟨w1, w2, w3, w4, w5⟩ := h
    rw [w3] at hs ⊢
    rw [len_cons, tlen_cons] at h2
    refine (load_from_sat r w5 (by omega) (by omega)).mono fun x hx => ?_
    have hle := nlimbs_le_iff.1 (Nat.not_lt.1 hs)
    rw [hx, show i * LB - p = s.segment.len + (s.high_next_partial.len +
      (i * LB - (p + s.segment.len + s.high_next_partial.len))) by omega, toNat_cons, tval_cons,
      split_div s.segment.toNat_lt, split_div s.high_next_partial.toNat_lt]

/-- Loading a limb of the concatenation. -/
theorem load_sat {c : Composite f} {i : ℕ} (h : WF 0 c) (hi : i < ct_mp_nlimbs (len c)) :
    Sat (load c i) (fun x => x = toNat c / B ^ i % B) := by
  have := load_from_sat c h (i := i) (by rw [nlimbs_zero]; omega)
    (by rw [zero_add]; exact lt_nlimbs_iff.1 hi)
  rw [nlimbs_zero, Nat.sub_zero, pow_256] at this
  exact this

/-- The limb at byte position `k` replaced. -/
def updk (x k v : ℕ) : ℕ := x % 256 ^ k + 256 ^ k * (v + B * (x / 256 ^ (k + LB)))

theorem updk_mul (x i v : ℕ) : updk x (i * LB) v = upd x i v := by
  unfold updk upd; rw [pow_add, pow_256, ← B_eq_256_pow, ← pow_succ]

theorem store_at_sat {s : Seg f} {r : Composite f} {p i v : ℕ} (h : WF p (s :: r))
    (hi : ct_mp_nlimbs p ≤ i) (hs : i < s.stop) (hv : v < B)
    (hv2 : v < 256 ^ (p + len (s :: r) - i * LB)) :
    Sat (store_at i v (ct_mp_nlimbs p) s r)
      (fun c' => Same (s :: r) c' ∧ toNat c' = updk (toNat (s :: r)) (i * LB - p) v) := by
  have h' := h
  obtain ⟨k, hp, hk, hl0, hk2, hst, hw, hwt⟩ := at_seg h hi hs
  have hip : i * LB = p + k * LB := by
    conv_rhs => rw [hp]
    rw [hk, add_mul]
  have hexp0 : i * LB - p = k * LB := by omega
  rw [hexp0, updk_mul, toNat_cons]
  have hv2 : v < 256 ^ (s.segment.len + tlen (s :: r) - k * LB) := by
    rw [len_cons] at hv2
    refine lt_of_lt_of_le hv2 (Nat.pow_le_pow_right (by norm_num) ?_)
    omega
  unfold store_at
  rw [M.sub_eq hi, M.pure_bind, show i - ct_mp_nlimbs p = k by omega]
  have hk2' : k < s.segment.nlimbs := hk2
  rw [Buf.nlimbs_eq] at hk2
  have hal : f.unaligned = false → k * LB + LB ≤ s.segment.len := by
    intro hf
    have := s.segment.aligned hf
    rw [this]
    have : (k + 1) * LB ≤ s.segment.nlimbs * LB := Nat.mul_le_mul_right _ hk2
    rw [add_mul] at this; omega
  have hS := s.segment.toNat_lt
  refine Sat.cond (fun hc => ?_) (fun hc => ?_)
  · have hfull : k * LB + LB ≤ s.segment.len := by
      rcases hc with hc | hc
      · apply full_of_lt_pred
        rw [Buf.nlimbs_eq] at hst; omega
      · exact hal hc
    refine (Buf.sat_store_l_full _ hfull hv (Q := fun b => b.len = s.segment.len ∧
      b.toNat = upd s.segment.toNat k v) fun b h1 h2 => ⟨h1, h2⟩).bind ?_
    rintro b ⟨b1, b2⟩
    refine M.sat_pure.2 ⟨⟨rfl, b1.symm, rfl, Same.refl r⟩, ?_⟩
    rw [toNat_cons, upd_full hfull hS, ← b2, ← b1]; rfl
  · refine Sat.cond (fun hc => ?_) (fun hc2 => ?_)
    · have hz : ¬ k * LB + LB ≤ s.segment.len → tlen (s :: r) = 0 ∧ tval (s :: r) = 0 := by
        intro hnf
        rcases full_or_part hk2 with h1 | ⟨h1, h2, h3⟩
        · exact absurd h1 hnf
        · have hr : r = [] := by
            rcases hc with hc | hc
            · simpa using hc
            · exact absurd hc h2
          subst hr
          have h0 : tlen [s] = 0 := by
            rw [tlen_cons, h.2.2.2.1 rfl]; rfl
          refine ⟨h0, ?_⟩
          have := tval_lt [s]
          rw [h0, pow_zero] at this
          omega
      refine (Buf.sat_store_l _ hk2' hv ?_ (Q := fun b => b.len = s.segment.len ∧
        b.toNat = upd s.segment.toNat k v) fun b h1 h2 => ⟨h1, h2⟩).bind ?_
      · intro hk3
        rw [Buf.nlimbs_eq] at hk3
        by_cases hf : k * LB + LB ≤ s.segment.len
        · have : hbytes s.segment.len = LB := by
            have h1 := hbytes_le s.segment.len
            unfold hbytes at *
            rw [← hk3] at *
            rw [Nat.add_sub_cancel] at *
            omega
          rw [this, ← B_eq_256_pow]; exact hv
        · rw [(hz hf).1, add_zero, (pow_sub_bytes hk2).2 hk3] at hv2
          exact hv2
      rintro b ⟨b1, b2⟩
      refine M.sat_pure.2 ⟨⟨rfl, b1.symm, rfl, Same.refl r⟩, ?_⟩
      by_cases hf : k * LB + LB ≤ s.segment.len
      · rw [toNat_cons, upd_full hf hS, ← b2, ← b1]; rfl
      · have e : tval (⟨s.stop, b, s.high_next_partial⟩ :: r) = tval (s :: r) := rfl
        rw [toNat_cons, e, (hz hf).2, mul_zero, add_zero, mul_zero, add_zero, ← b2]
    · have hnd : s.segment.len % LB ≠ 0 := fun h => hc2 (Or.inr h)
      have hc' : i = s.stop - 1 := by
        by_contra hh; exact hc (Or.inl hh)
      have hk3 : k + 1 = ct_mp_nlimbs s.segment.len := by
        rw [Buf.nlimbs_eq] at hst; omega
      obtain ⟨h1, h2, h3⟩ : k + 1 = ct_mp_nlimbs s.segment.len ∧ s.segment.len % LB ≠ 0 ∧
          s.segment.len = k * LB + s.segment.len % LB := by
        rcases full_or_part hk2 with h1 | h1
        · exfalso
          have h5 := le_nlimbs_mul s.segment.len
          rw [← hk3, add_mul, one_mul] at h5
          have : s.segment.len = (k + 1) * LB := by rw [add_mul]; omega
          rw [this, Nat.mul_mod_left] at hnd
          exact hnd rfl
        · exact h1
      have hm := Nat.mod_lt s.segment.len LB_pos
      have hS' := hS
      rw [h3] at hS'
      generalize hr0 : s.segment.len % LB = r0 at *
      have hml := Nat.mod_lt v (show 0 < 256 ^ r0 by positivity)
      dsimp only
      rw [and_mask (by rw [W_eq]; omega), two_pow_8, shrC_eq (by rw [W_eq]; omega)]
      refine (Buf.sat_store_l _ hk2' (lt_of_lt_of_le hml (pow_le_B hm.le)) ?_
        (Q := fun b => b.len = s.segment.len ∧
        b.toNat = upd s.segment.toNat k (v % 256 ^ r0)) fun b h1 h2 => ⟨h1, h2⟩).bind ?_
      · intro _
        rw [← (pow_sub_bytes hk2).2 hk3, show s.segment.len - k * LB = r0 by omega]
        exact hml
      rintro b ⟨b1, b2⟩
      rw [M.pure_bind, shr_eq, two_pow_8]
      have hq : (p + s.segment.len) % LB = r0 % LB := by
        rw [hp, Nat.mul_add_mod', hr0, Nat.mod_eq_of_lt hm]
      have hwt' : WFt (p + s.segment.len)
          (⟨s.stop, b, s.high_next_partial⟩ :: r : Composite f) := hwt
      refine (store_partials_sat _ hwt' (by omega) hm.le hq ?_ ?_).bind ?_
      · apply Nat.div_lt_of_lt_mul
        rw [← pow_add, show r0 + (LB - r0) = LB by omega, ← B_eq_256_pow]; exact hv
      · apply Nat.div_lt_of_lt_mul
        rw [← pow_add]
        refine lt_of_lt_of_le hv2 (Nat.pow_le_pow_right (by norm_num) ?_)
        have : tlen (⟨s.stop, b, s.high_next_partial⟩ :: r) = tlen (s :: r) := rfl
        rw [this]; omega
      rintro ⟨c', v'⟩ ⟨s1, s2, s3, s4⟩
      dsimp only at s1 s2 s3 s4 ⊢
      rw [M.assert_eq s2, M.pure_bind]
      refine M.sat_pure.2 ⟨?_, ?_⟩
      · refine Same.trans ?_ s1
        exact ⟨rfl, b1.symm, rfl, Same.refl r⟩
      · cases c' with
        | nil => exact s1.elim
        | cons s' r' =>
          have hseg : s'.segment = b := by simpa using s3
          have e : tval (⟨s.stop, b, s.high_next_partial⟩ :: r) = tval (s :: r) := rfl
          rw [e] at s4
          rw [toNat_cons, s4, hseg, b1, b2]
          conv_rhs => rw [h3]
          rw [upd_part hm.le hS', ← h3]

theorem store_from_sat : ∀ (c : Composite f) {p i v : ℕ}, WF p c → ct_mp_nlimbs p ≤ i →
    i * LB < p + len c → v < B → v < 256 ^ (p + len c - i * LB) →
    Sat (store_from i v (ct_mp_nlimbs p) c)
      (fun c' => Same c c' ∧ toNat c' = updk (toNat c) (i * LB - p) v)
  | [], p, i, v, _, h1, h2, _, _ => by
    exfalso
    rw [show len ([] : Composite f) = 0 from rfl, add_zero] at h2
    have := nlimbs_le_iff.1 h1; omega
  | s :: r, p, i, v, h, h1, h2, hv, hv2 => by
    unfold store_from
    refine Sat.cond (fun hs => store_at_sat h h1 hs hv hv2) (fun hs => ?_)
    obtain ⟨w1, w2, w3, w4, w5⟩ := h
    rw [w3] at hs ⊢
    rw [len_cons, tlen_cons] at h2 hv2
    refine (store_from_sat r w5 (by omega) (by omega) hv ?_).bind ?_
    · rwa [show p + s.segment.len + s.high_next_partial.len + len r - i * LB =
        p + (s.segment.len + (s.high_next_partial.len + len r)) - i * LB by omega]
    rintro r' ⟨e1, e2⟩
    refine M.sat_pure.2 ⟨⟨rfl, rfl, rfl, e1⟩, ?_⟩
    have hle := nlimbs_le_iff.1 (Nat.not_lt.1 hs)
    rw [show i * LB - p = s.segment.len + (s.high_next_partial.len +
      (i * LB - (p + s.segment.len + s.high_next_partial.len))) by omega, toNat_cons, tval_cons, e2,
      toNat_cons, tval_cons]
    generalize i * LB - (p + s.segment.len + s.high_next_partial.len) = k
    unfold updk
    rw [add_assoc s.segment.len, add_assoc s.high_next_partial.len,
      split_div s.segment.toNat_lt, split_div s.high_next_partial.toNat_lt,
      split_mod s.segment.toNat_lt, split_mod s.high_next_partial.toNat_lt, pow_add, pow_add]
    ring

/-- Storing a limb of the concatenation. -/
theorem store_sat {c : Composite f} {i v : ℕ} (h : WF 0 c) (hi : i < ct_mp_nlimbs (len c))
    (hv : v < B) (hv2 : v < 256 ^ (len c - i * LB)) :
    Sat (store c i v) (fun c' => Same c c' ∧ toNat c' = upd (toNat c) i v) := by
  have := store_from_sat c h (i := i) (v := v) (by rw [nlimbs_zero]; omega)
    (by rw [zero_add]; exact lt_nlimbs_iff.1 hi) hv (by rwa [zero_add])
  rw [nlimbs_zero, Nat.sub_zero, updk_mul] at this
  exact this

/-! ### Construction -/

theorem parts_from_val : ∀ (c : Composite f) (prev : Buf f) {p : ℕ}, WF p c →
    (c = [] → prev.len = 0) →
    catNat (parts_from prev c) = prev.toNat + 256 ^ prev.len * toNat c
  | [], prev, _, _, h => by
    have := prev.toNat_lt
    rw [h rfl, pow_zero] at this
    simp [parts_from, catNat, toNat]; omega
  | s :: r, prev, p, ⟨w1, w2, w3, w4, w5⟩, h => by
    have := parts_from_val r s.high_next_partial w5 w4
    simp only [parts_from, catNat]
    rw [Buf.toNat_join, Buf.len_join, this, toNat_cons, tval_cons, pow_add]
    ring

theorem parts_val : ∀ (c : Composite f) {p : ℕ}, WF p c → catNat (parts c) = toNat c
  | [], _, _ => rfl
  | s :: r, p, ⟨w1, w2, w3, w4, w5⟩ => by
    simp only [parts, catNat]
    rw [parts_from_val r _ w5 w4, toNat_cons, tval_cons]

theorem Same.parts_from : ∀ {a b : Composite f} {x y : Buf f}, Same a b → x.len = y.len →
    (parts_from x a).map Buf.len = (parts_from y b).map Buf.len
  | [], [], _, _, _, _ => rfl
  | s :: r, s' :: r', x, y, ⟨_, h2, h3, h4⟩, h => by
    simp only [Composite.parts_from, List.map_cons, Buf.len_join, h2, h]
    rw [Same.parts_from h4 h3]

theorem Same.parts : ∀ {a b : Composite f}, Same a b →
    (parts a).map Buf.len = (parts b).map Buf.len
  | [], [], _ => rfl
  | s :: r, s' :: r', ⟨_, h2, h3, h4⟩ => by
    simp only [Composite.parts, List.map_cons, h2]
    rw [Same.parts_from h4 h3]

theorem join_empty {a b : Buf f} (h : b.len = 0) : a.join b = a := by
  apply Buf.ext'
  · rw [Buf.len_join, h, zero_add]
  · have := b.toNat_lt
    rw [h, pow_zero] at this
    rw [Buf.toNat_join, h, pow_zero]; omega

/-- `take` of everything. -/
theorem take_all (b : Buf f) {Q : Buf f × Buf f → Prop}
    (hQ : ∀ h : Buf f, h.len = 0 → Q (h, b)) : Sat (b.take b.len) Q := by
  have ha : f.unaligned = true ∨ LB ∣ b.len := by
    by_cases hu : f.unaligned = true
    · exact Or.inl hu
    · right
      rw [b.aligned (by simpa using hu)]; exact Dvd.intro_left _ rfl
  obtain ⟨h, l, e, h1, h2, h3, h4, h5⟩ := Buf.take_eq b le_rfl ha
  rw [e]
  refine M.sat_mk.2 ?_
  have hl : l = b := Buf.ext' h1 (by rw [h3, Nat.mod_eq_of_lt b.toNat_lt])
  rw [hl]
  exact hQ h (by rw [h2]; omega)

theorem create_segments_sat : ∀ (rest : List (Buf f)) (total : ℕ) (segment : Buf f),
    (segment.len = 0 ∨ LB ∣ total) → (f.unaligned = true ∨ LB ∣ total) →
    Sat (create_segments total segment rest) (fun c => WF total c ∧
      len c = catLen (segment :: rest) ∧ ∃ s r, c = s :: r ∧ s.segment = segment ∧
        parts_from s.high_next_partial r = rest)
  | [], total, segment, h1, h2 => by
    unfold create_segments
    refine (take_all segment (Q := fun x => x.1.len = 0 ∧ x.2 = segment)
      fun h hh => ⟨hh, rfl⟩).bind ?_
    rintro ⟨h, l⟩ ⟨e1, e2⟩
    dsimp only at e1 e2 ⊢
    subst e2
    refine M.sat_pure.2 ⟨⟨h1, Or.inl e1, rfl, fun _ => e1, trivial⟩, ?_, _, _, rfl, rfl, rfl⟩
    simp [len, catLen, e1]
  | next :: rest, total, segment, h1, h2 => by
    unfold create_segments
    dsimp only
    have hal : f.unaligned = true ∨ LB ∣ total + segment.len := by
      by_cases hu : f.unaligned = true
      · exact Or.inl hu
      · right
        have : LB ∣ total := by tauto
        refine Nat.dvd_add this ?_
        rw [segment.aligned (by simpa using hu)]; exact Dvd.intro_left _ rfl
    refine Sat.cond (fun hc => ?_) (fun hc => ?_)
    · have hu : f.unaligned = true := by
        rcases hal with h | h
        · exact h
        · exact absurd (Nat.mod_eq_zero_of_dvd h) hc
      obtain ⟨h, l, e, g1, g2, g3, g4, g5⟩ := Buf.take_eq next
        (n := min (LB - (total + segment.len) % LB) next.len) (min_le_right _ _) (Or.inl hu)
      rw [e]
      refine Sat.bind (P := fun x => x = (h, l)) (M.sat_mk.2 rfl) ?_
      intro x hx; subst x
      dsimp only
      have hm := Nat.mod_lt (total + segment.len) LB_pos
      refine (create_segments_sat rest (total + segment.len + l.len) h ?_ (Or.inl hu)).bind ?_
      · rcases Nat.le_total next.len (LB - (total + segment.len) % LB) with hle | hle
        · left; rw [g2, min_eq_right hle]; omega
        · right
          rw [g1, min_eq_left hle]
          have := Nat.div_add_mod (total + segment.len) LB
          refine ⟨(total + segment.len) / LB + 1, ?_⟩
          rw [mul_add]; omega
      · rintro c ⟨w, hl, s, r, rfl, hs, hr⟩
        refine M.sat_pure.2 ⟨⟨h1, ?_, rfl, fun h => by simp at h, w⟩, ?_, _, _, rfl, rfl, ?_⟩
        · right
          refine ⟨fun hd => hc (Nat.mod_eq_zero_of_dvd hd), ?_⟩
          dsimp only; rw [g1]
          have := min_le_left (LB - (total + segment.len) % LB) next.len
          omega
        · rw [len_cons, tlen_cons, hl]
          simp only [catLen, List.map_cons, List.sum_cons]
          rw [g2, g1]
          have := min_le_right (LB - (total + segment.len) % LB) next.len
          omega
        · show s.segment.join l :: _ = _
          rw [hs, hr, g5]
    · have hd : LB ∣ total + segment.len := Nat.dvd_of_mod_eq_zero (by simpa using hc)
      refine (take_all segment (Q := fun x => x.1.len = 0 ∧ x.2 = segment)
        fun h hh => ⟨hh, rfl⟩).bind ?_
      rintro ⟨h, l⟩ ⟨e1, e2⟩
      dsimp only at e1 e2 ⊢
      subst e2
      rw [e1, add_zero]
      refine (create_segments_sat rest (total + l.len) next (Or.inr hd) (Or.inr hd)).bind ?_
      rintro c ⟨w, hl, s, r, rfl, hs, hr⟩
      refine M.sat_pure.2 ⟨⟨h1, Or.inl e1, ?_, fun _ => e1, ?_⟩, ?_, _, _, rfl, rfl, ?_⟩
      · dsimp only; rw [e1, add_zero]
      · dsimp only; rw [e1, add_zero]; exact w
      · rw [len_cons, tlen_cons, hl]
        simp only [catLen, List.map_cons, List.sum_cons, e1]
        omega
      · show s.segment.join h :: _ = _
        rw [hs, hr, join_empty e1]

/-- Construction. -/
theorem new_sat (l : List (Buf f)) :
    Sat (new l) (fun c => WF 0 c ∧ len c = catLen l ∧ toNat c = catNat l ∧ parts c = l) := by
  cases l with
  | nil => exact M.sat_pure.2 ⟨trivial, rfl, rfl, rfl⟩
  | cons b l =>
    refine (create_segments_sat l 0 b (Or.inr (Dvd.intro 0 rfl)) (Or.inr (Dvd.intro 0 rfl))).mono ?_
    rintro c ⟨w, hl, s, r, rfl, hs, hr⟩
    have hp : parts (s :: r) = b :: l := by
      show s.segment :: _ = _
      rw [hs, hr]
    exact ⟨w, hl, by rw [← parts_val _ w, hp], hp⟩

end Composite
end Cmpa
