import Verif.Proofs.Dom
import Verif.Proofs.DivLshifted

/-!
# Divisions with a quotient buffer that has the limbs, but not the bytes for the quotient

Such a division takes the same course as one with a limb buffer of as many limbs, until it panics.
-/

namespace Cmpa
open M
variable [LimbCfg] {f g h : Fmt}

theorem to_le_bytes_mod (v : ℕ) : to_le_bytes v = to_le_bytes (v % B) := by
  unfold to_le_bytes
  refine List.map_congr_left fun k hk => ?_
  have hk := List.mem_range.1 hk
  apply Fin.ext
  show v / 256 ^ k % 256 = v % B / 256 ^ k % 256
  rw [B_eq_256_pow, ← Nat.mod_mul_right_div_self, ← Nat.mod_mul_right_div_self, ← pow_succ,
    Nat.mod_mod_of_dvd _ (pow_dvd_pow _ (Nat.succ_le_of_lt hk))]

theorem Buf.store_l_mod (b : Buf f) {i : ℕ} (v : ℕ) (hi : i * LB + LB ≤ b.len) :
    b.store_l i v = b.store_l i (v % B) := by
  rcases b with l | l | l <;> simp only [Buf.store_l]
  · rw [Buf.len_be] at hi
    unfold be_mp_store_l
    rw [M.sub_eq (by omega), M.pure_bind, if_pos (by omega), M.pure_bind, if_pos (by omega)]
    unfold _be_mp_store_l_full to_be_bytes
    rw [to_le_bytes_mod]
  · rw [Buf.len_le] at hi
    unfold le_mp_store_l
    rw [if_pos hi, if_pos hi]
    unfold _le_mp_store_l_full
    rw [to_le_bytes_mod]
  · unfold ne_mp_store_l
    rw [show Fin.ofNat B v = Fin.ofNat B (v % B) from Fin.ext (Nat.mod_mod _ _).symm]

theorem Buf.store_l_sat (b : Buf f) {i v : ℕ} (h : i < b.nlimbs) (hv : v < B)
    (hv' : v < 256 ^ (b.len - i * LB)) :
    Sat (b.store_l i v) (fun b' => b'.len = b.len ∧ b'.toNat = upd b.toNat i v) := by
  obtain ⟨b', h1, h2⟩ := Buf.store_l_eq b h hv hv'
  exact ⟨b', by rw [h1], h2⟩

/-- Storing a full limb. -/
theorem Buf.store_l_mod_sat (b : Buf f) {i : ℕ} (v : ℕ) (hi : i < b.nlimbs)
    (h1 : i * LB + LB ≤ b.len) :
    Sat (b.store_l i v) (fun b' => b'.len = b.len ∧ b'.toNat = upd b.toNat i (v % B)) := by
  rw [Buf.store_l_mod b v h1]
  refine Buf.store_l_sat b hi (Nat.mod_lt _ B_pos) ?_
  refine lt_of_lt_of_le (Nat.mod_lt _ B_pos) ?_
  rw [B_eq_256_pow]
  exact Nat.pow_le_pow_right (by norm_num) (by omega)

/-- Storing a limb, if it works. -/
theorem Buf.store_l_post (b : Buf f) {i : ℕ} (v : ℕ) (hi : i < b.nlimbs) :
    Post (b.store_l i v) (fun b' => b'.len = b.len ∧ b'.toNat = upd b.toNat i (v % B)) := by
  have hLB := LB_pos
  by_cases h1 : i * LB + LB ≤ b.len
  · exact (Buf.store_l_mod_sat b v hi h1).post
  · by_cases h2 : v < 256 ^ (b.len - i * LB)
    · have h3 : v < B := lt_of_lt_of_le h2 (by
        rw [B_eq_256_pow]; exact Nat.pow_le_pow_right (by norm_num) (by omega))
      rw [Nat.mod_eq_of_lt h3]
      exact (Buf.store_l_sat b hi h3 h2).post
    · intro b' hb'
      rw [Buf.store_l_high_panic b hi (by omega) (by omega)] at hb'
      cases hb'

/-- The same value, in the same number of limbs. -/
def QRel (L : ℕ) : Option (Buf h) → Option (Buf .ne) → Prop
  | some q, some q' => q.len = L ∧ q'.len = ct_mp_nlimbs L * LB ∧ q'.toNat = q.toNat
  | _, _ => False

theorem ne_nlimbs {q' : Buf .ne} {n : ℕ} (hl : q'.len = n * LB) : q'.nlimbs = n := by
  rw [Buf.nlimbs_eq, hl, nlimbs_mul]

theorem store_q_dom {L : ℕ} {q : Option (Buf h)} {q' : Option (Buf .ne)} (hq : QRel L q q')
    (j x : ℕ) (c : LimbChoice) :
    Dom (ExRel (QRel L)) (store_q q j x c) (store_q q' j x c) := by
  rcases q with _ | q <;> rcases q' with _ | q'
  · exact hq.elim
  · exact hq.elim
  · exact hq.elim
  · obtain ⟨h1, h2, h3⟩ := hq
    have hn : q.nlimbs = q'.nlimbs := by rw [ne_nlimbs h2, Buf.nlimbs_eq, h1]
    unfold store_q
    dsimp only
    refine Dom.bind_same fun x => ?_
    refine Dom.cond (by rw [hn]) (fun hj => ?_) fun hj => ?_
    · by_cases hlt : j < q.nlimbs
      swap
      · exact Dom.of_panic (bind_panic (assert_panic hlt))
      rw [M.assert_eq hlt, M.assert_eq (hn ▸ hlt), M.pure_bind, M.pure_bind]
      refine Dom.bind (R := fun b b' => QRel L (some b) (some b')) ?_ fun b b' hb => Dom.pure hb
      intro b hb
      obtain ⟨h4, h5⟩ := Buf.store_l_post q x hlt b hb
      have hlt' : j < q'.nlimbs := hn ▸ hlt
      have hfull : j * LB + LB ≤ q'.len := by
        rw [ne_nlimbs h2] at hlt'
        rw [h2, ← Nat.succ_mul]
        exact Nat.mul_le_mul_right _ hlt'
      obtain ⟨b', hb', h6, h7⟩ := Buf.store_l_mod_sat q' x hlt' hfull
      exact ⟨b', hb', h4.trans h1, h6.trans h2, by rw [h7, h5, h3]⟩
    · refine Dom.cond Iff.rfl (fun _ => Dom.pure rfl) fun _ => Dom.pure ⟨h1, h2, h3⟩

theorem clear_q_dom {L : ℕ} {q : Option (Buf h)} {q' : Option (Buf .ne)} (hq : QRel L q q')
    (n : ℕ) : Dom (QRel L) (clear_q q n) (clear_q q' n) := by
  rcases q with _ | q <;> rcases q' with _ | q'
  · exact hq.elim
  · exact hq.elim
  · exact hq.elim
  · obtain ⟨h1, h2, h3⟩ := hq
    refine Dom.bind (R := fun b b' => QRel L (some b) (some b')) ?_ fun b b' hb => Dom.pure hb
    intro b hb
    obtain ⟨h4, h5⟩ := (Buf.sat_clear_bytes_above q n (Q := fun b' => b'.len = q.len ∧
      b'.toNat = q.toNat % 256 ^ n) fun b' h1 h2 => ⟨h1, h2⟩).post b hb
    obtain ⟨b', hb', h6, h7⟩ := Buf.sat_clear_bytes_above q' n (Q := fun b' => b'.len = q'.len ∧
      b'.toNat = q'.toNat % 256 ^ n) fun b' h1 h2 => ⟨h1, h2⟩
    exact ⟨b', hb', h4.trans h1, h6.trans h2, by rw [h7, h5, h3]⟩

/-- The room for the quotient is sufficient for both or for none. -/
theorem QRel.room {L n m : ℕ} {q : Option (Buf h)} {q' : Option (Buf .ne)} (hq : QRel L q q')
    (hL : m ≤ L + n) : ¬ (∃ b ∈ q, b.len + n < m) ∧ ¬ (∃ b ∈ q', b.len + n < m) := by
  rcases q with _ | q <;> rcases q' with _ | q'
  · exact hq.elim
  · exact hq.elim
  · exact hq.elim
  · obtain ⟨h1, h2, h3⟩ := hq
    have := le_nlimbs_mul L
    constructor <;> rintro ⟨_, hb, hl⟩ <;> cases hb <;> omega

/-- The quotient for the shorter buffer would be that for the longer one. -/
theorem QRel.panic {α β : Type} {m : M (Except DivError α)} {m' : M (Except DivError β)}
    {p : α → Option (Buf h)} {p' : β → Option (Buf .ne)} {L Q : ℕ}
    (hd : Dom (ExRel fun a b => QRel L (p a) (p' b)) m m')
    (hs : Sat m' (OkErr (fun r => ∀ b ∈ p' r, b.toNat = Q) fun _ => False)) (hQ : 256 ^ L ≤ Q) :
    m.val = none := by
  cases hm : m.val with
  | none => rfl
  | some a =>
    exfalso
    obtain ⟨b, hb, hr⟩ := hd a hm
    obtain ⟨b', hb', hp⟩ := hs
    rw [hb] at hb'; cases hb'
    rcases a with e | a <;> rcases b with e' | b
    · exact hp
    · exact hr
    · exact hp
    · change QRel L (p a) (p' b) at hr
      change ∀ x ∈ p' b, x.toNat = Q at hp
      revert hr hp
      rcases p a with _ | q <;> rcases p' b with _ | q' <;> intro hr hp
      · exact hr
      · exact hr
      · exact hr
      · obtain ⟨h1, h2, h3⟩ := hr
        have h4 : q'.toNat = Q := hp q' rfl
        have := q.toNat_lt
        rw [h1] at this
        omega

/-- A limb buffer of as many limbs. -/
theorem QRel.exists (b : Buf h) : ∃ q' : Buf .ne, QRel b.len (some b) (some q') ∧
    q'.len = b.nlimbs * LB := by
  have h1 : (Buf.zeros .ne (b.nlimbs * LB)).len = b.nlimbs * LB :=
    Buf.zeros_len (Or.inr (Dvd.intro_left _ rfl))
  obtain ⟨q', -, h2, h3⟩ := Buf.copy_from_sat (Buf.zeros .ne (b.nlimbs * LB)) b (by
    rw [h1, pow_256]; exact b.toNat_lt_B)
  rw [h1] at h2
  exact ⟨q', ⟨rfl, by rw [h2, Buf.nlimbs_eq], h3⟩, h2⟩

/-! ### The main loops -/

theorem div_step_dom (v : CtMpDivisor g) (j L : ℕ) (s : Composite f × Option (Buf h))
    (s' : Composite f × Option (Buf .ne)) (hs : s.1 = s'.1 ∧ QRel L s.2 s'.2) :
    Dom (ExRel fun s s' => s.1 = s'.1 ∧ QRel L s.2 s'.2) (div_step v j s) (div_step v j s') := by
  obtain ⟨u, q⟩ := s
  obtain ⟨u', q'⟩ := s'
  obtain ⟨rfl, hq⟩ := hs
  unfold div_step
  dsimp only
  refine Dom.bind_same fun _ => Dom.bind_same fun _ => Dom.bind_same fun _ => Dom.bind_same fun _ =>
    Dom.bind_same fun _ => Dom.bind_same fun _ => Dom.bind_same fun _ => Dom.bind_same fun _ =>
    Dom.bind_same fun _ => Dom.bind_same fun _ => ?_
  refine Dom.bindE (store_q_dom hq _ _ _) fun q q' hq => ?_
  exact Dom.bind_same fun _ => Dom.bind_same fun _ => Dom.bind_same fun _ => Dom.pure ⟨rfl, hq⟩

theorem pow2_step_dom (v : CtMpDivisor g) (j L : ℕ) (s : Buf f × ℕ × ℕ × Option (Buf h))
    (s' : Buf f × ℕ × ℕ × Option (Buf .ne))
    (hs : s.1 = s'.1 ∧ s.2.1 = s'.2.1 ∧ s.2.2.1 = s'.2.2.1 ∧ QRel L s.2.2.2 s'.2.2.2) :
    Dom (ExRel fun s s' => s.1 = s'.1 ∧ s.2.1 = s'.2.1 ∧ s.2.2.1 = s'.2.2.1 ∧
      QRel L s.2.2.2 s'.2.2.2) (pow2_step v j s) (pow2_step v j s') := by
  obtain ⟨u, x, y, q⟩ := s
  obtain ⟨u', x', y', q'⟩ := s'
  obtain ⟨rfl, rfl, rfl, hq⟩ := hs
  unfold pow2_step
  dsimp only
  refine Dom.bind_same fun _ => Dom.bind_same fun _ => Dom.bind_same fun _ => Dom.bind_same fun _ =>
    Dom.bind_same fun _ => Dom.bind_same fun _ => Dom.bind_same fun _ => Dom.bind_same fun _ => ?_
  refine Dom.bindE (store_q_dom hq _ _ _) fun q q' hq => ?_
  exact Dom.bind_same fun _ => Dom.bind_same fun _ => Dom.bind_same fun _ => Dom.bind_same fun _ =>
    Dom.pure ⟨rfl, rfl, rfl, hq⟩

theorem lshifted_head_step_dom (v : CtMpDivisor g) (n m j L : ℕ) (s : Buf f × List ℕ × Option (Buf h))
    (s' : Buf f × List ℕ × Option (Buf .ne))
    (hs : s.1 = s'.1 ∧ s.2.1 = s'.2.1 ∧ QRel L s.2.2 s'.2.2) :
    Dom (ExRel fun s s' => s.1 = s'.1 ∧ s.2.1 = s'.2.1 ∧ QRel L s.2.2 s'.2.2)
      (lshifted_head_step v n m j s) (lshifted_head_step v n m j s') := by
  obtain ⟨u, x, q⟩ := s
  obtain ⟨u', x', q'⟩ := s'
  obtain ⟨rfl, rfl, hq⟩ := hs
  unfold lshifted_head_step
  dsimp only
  refine Dom.bind_same fun _ => Dom.bind_same fun _ => Dom.bind_same fun _ => Dom.bind_same fun _ =>
    Dom.bind_same fun _ => Dom.bind_same fun _ => Dom.bind_same fun _ => Dom.bind_same fun _ => ?_
  refine Dom.bindE (store_q_dom hq _ _ _) fun q q' hq => ?_
  exact Dom.bind_same fun _ => Dom.bind_same fun _ => Dom.pure ⟨rfl, rfl, hq⟩

theorem lshifted_tail_step_dom (v : CtMpDivisor g) (j L : ℕ) (s : Buf f × ℕ × Option (Buf h))
    (s' : Buf f × ℕ × Option (Buf .ne))
    (hs : s.1 = s'.1 ∧ s.2.1 = s'.2.1 ∧ QRel L s.2.2 s'.2.2) :
    Dom (ExRel fun s s' => s.1 = s'.1 ∧ s.2.1 = s'.2.1 ∧ QRel L s.2.2 s'.2.2)
      (lshifted_tail_step v j s) (lshifted_tail_step v j s') := by
  obtain ⟨u, x, q⟩ := s
  obtain ⟨u', x', q'⟩ := s'
  obtain ⟨rfl, rfl, hq⟩ := hs
  unfold lshifted_tail_step
  dsimp only
  refine Dom.bind_same fun _ => Dom.bind_same fun _ => Dom.bind_same fun _ => Dom.bind_same fun _ =>
    Dom.bind_same fun _ => Dom.bind_same fun _ => Dom.bind_same fun _ => ?_
  refine Dom.bindE (store_q_dom hq _ _ _) fun q q' hq => ?_
  exact Dom.bind_same fun _ => Dom.bind_same fun _ => Dom.pure ⟨rfl, rfl, hq⟩

/-! ### The divisions -/

theorem ct_div_mp_mp_dom (u_h : Option (Buf f)) (u_l : Buf f) (v : CtMpDivisor g) {L : ℕ}
    {q : Option (Buf h)} {q' : Option (Buf .ne)} (hq : QRel L q q')
    (hL : u_l.len + (u_h.getD (Buf.zeros f 0)).len ≤ L + v.v_len) :
    Dom (ExRel fun s s' => QRel L s.2.2 s'.2.2) (ct_div_mp_mp u_h u_l v q)
      (ct_div_mp_mp u_h u_l v q') := by
  obtain ⟨h1, h2⟩ := hq.room hL
  unfold ct_div_mp_mp
  refine Dom.cond ⟨fun h => absurd h h1, fun h => absurd h h2⟩ (fun h => absurd h h1) fun _ => ?_
  refine Dom.cond Iff.rfl (fun _ => ?_) fun _ => ?_
  · exact (clear_q_dom hq _).bind fun q q' hq => Dom.pure hq
  · refine (clear_q_dom hq _).bind fun q q' hq => ?_
    refine Dom.bind_same fun _ => Dom.bind_same fun _ => Dom.bind_same fun _ => ?_
    refine Dom.bindE (Dom.forDownE ⟨rfl, hq⟩ fun i s s' hs => div_step_dom v i L s s' hs) ?_
    rintro ⟨u, q⟩ ⟨u', q'⟩ ⟨h, hq⟩
    obtain rfl : u = u' := h
    refine Dom.bind_same fun _ => Dom.bind_same fun s => ?_
    obtain ⟨u, _⟩ := s
    dsimp only
    split
    · exact Dom.pure hq
    · exact Dom.of_panic rfl

theorem ct_div_pow2_mp_dom (e : ℕ) (r : Buf f) (v : CtMpDivisor g) {L : ℕ}
    {q : Option (Buf h)} {q' : Option (Buf .ne)} (hq : QRel L q q')
    (hL : (e + 1 + 8 - 1) / 8 ≤ L + v.v_len) :
    Dom (ExRel fun s s' => QRel L s.2 s'.2) (ct_div_pow2_mp e r v q) (ct_div_pow2_mp e r v q') := by
  obtain ⟨h1, h2⟩ := hq.room hL
  unfold ct_div_pow2_mp
  refine Dom.cond ⟨fun h => absurd h h1, fun h => absurd h h2⟩ (fun h => absurd h h1) fun _ => ?_
  refine Dom.cond Iff.rfl (fun _ => Dom.pure rfl) fun _ => ?_
  refine Dom.bind_same fun _ => Dom.bind_same fun _ => ?_
  refine Dom.cond Iff.rfl (fun _ => ?_) fun _ => ?_
  · exact Dom.bind_same fun _ => (clear_q_dom hq _).bind fun q q' hq => Dom.pure hq
  · refine (clear_q_dom hq _).bind fun q q' hq => ?_
    refine Dom.bind_same fun _ => Dom.bind_same fun _ => Dom.bind_same fun _ =>
      Dom.bind_same fun _ => Dom.bind_same fun _ => ?_
    refine Dom.bindE (Dom.forDownE ⟨rfl, rfl, rfl, hq⟩ fun i s s' hs => pow2_step_dom v i L s s' hs) ?_
    rintro ⟨u, x, y, q⟩ ⟨u', x', y', q'⟩ ⟨h, h', h'', hq⟩
    obtain rfl : u = u' := h
    obtain rfl : x = x' := h'
    obtain rfl : y = y' := h''
    exact Dom.bind_same fun _ => Dom.bind_same fun _ => Dom.bind_same fun _ =>
      Dom.bind_same fun _ => Dom.bind_same fun _ => Dom.pure hq

theorem ct_div_lshifted_mp_mp_dom (u : Buf f) (n s : ℕ) (v : CtMpDivisor g) {L : ℕ}
    {q : Option (Buf h)} {q' : Option (Buf .ne)} (hq : QRel L q q')
    (hL : n + s ≤ L + v.v_len) :
    Dom (ExRel fun s s' => QRel L s.2 s'.2) (ct_div_lshifted_mp_mp u n s v q)
      (ct_div_lshifted_mp_mp u n s v q') := by
  obtain ⟨h1, h2⟩ := hq.room hL
  unfold ct_div_lshifted_mp_mp
  refine Dom.bind_same fun _ => ?_
  refine Dom.cond ⟨fun h => absurd h h1, fun h => absurd h h2⟩ (fun h => absurd h h1) fun _ => ?_
  refine Dom.cond Iff.rfl (fun _ => Dom.pure rfl) fun _ => ?_
  refine Dom.cond Iff.rfl (fun _ => ?_) fun _ => ?_
  · exact Dom.bind_same fun _ => (clear_q_dom hq _).bind fun q q' hq => Dom.pure hq
  · unfold lshifted_main
    dsimp only
    refine (clear_q_dom hq _).bind fun q q' hq => ?_
    refine Dom.bind_same fun _ => Dom.bind_same fun _ => Dom.bind_same fun _ =>
      Dom.bind_same fun _ => Dom.bind_same fun _ => Dom.bind_same fun _ => Dom.bind_same fun _ =>
      Dom.bind_same fun _ => Dom.bind_same fun _ => Dom.bind_same fun _ => Dom.bind_same fun _ => ?_
    refine Dom.bindE (Dom.forDownE ⟨rfl, rfl, hq⟩ fun i s s' hs =>
      lshifted_head_step_dom v _ _ i L s s' hs) ?_
    rintro ⟨u, x, q⟩ ⟨u', x', q'⟩ ⟨h, h', hq⟩
    obtain rfl : u = u' := h
    obtain rfl : x = x' := h'
    refine Dom.bind_same fun _ => Dom.bind_same fun _ => Dom.bind_same fun _ =>
      Dom.bind_same fun _ => Dom.bind_same fun _ => Dom.bind_same fun _ => Dom.bind_same fun _ =>
      Dom.bind_same fun _ => ?_
    refine Dom.bindE (Dom.forDownE ⟨rfl, rfl, hq⟩ fun i s s' hs =>
      lshifted_tail_step_dom v i L s s' hs) ?_
    rintro ⟨u, x, q⟩ ⟨u', x', q'⟩ ⟨h, h', hq⟩
    obtain rfl : u = u' := h
    obtain rfl : x = x' := h'
    exact Dom.bind_same fun _ => Dom.bind_same fun _ => Dom.bind_same fun _ => Dom.pure hq

/-- The quotient buffer is sufficient by its number of limbs only. -/
theorem ct_div_mp_mp_panic {d : CtMpDivisor g} {V : ℕ} (hd : d.Ok V) (u_h : Option (Buf f))
    (u_l : Buf f) (b : Buf h) {U ulen : ℕ}
    (hU : U = u_l.toNat + 256 ^ u_l.len * (u_h.map Buf.toNat).getD 0)
    (hul : ulen = u_l.len + (u_h.map Buf.len).getD 0)
    (h1 : 256 ^ b.len ≤ U / V) (h2 : U / V < B ^ b.nlimbs) (h3 : ulen ≤ b.len + d.v_len) :
    (ct_div_mp_mp u_h u_l d (some b)).val = none := by
  obtain ⟨q', hq, hl⟩ := QRel.exists b
  have hb := le_nlimbs_mul b.len
  rw [← Buf.nlimbs_eq] at hb
  have hz0 : (Buf.zeros f 0).len = 0 := Buf.zeros_len (Or.inr (Dvd.intro 0 rfl))
  have hhl : (u_h.getD (Buf.zeros f 0)).len = (u_h.map Buf.len).getD 0 := by
    cases u_h with
    | none => exact hz0
    | some b => rfl
  refine QRel.panic (ct_div_mp_mp_dom u_h u_l d hq (by rw [hhl]; omega)) ?_ h1
  refine (ct_div_mp_mp_sat hd u_h u_l (some q') hU hul ?_).mono ?_
  · intro b' hb'; cases hb'
    exact Or.inl (by rw [hl, pow_256]; exact h2)
  · rintro (e | a) hr
    · obtain ⟨-, b', hb', hr⟩ := hr
      cases hb'
      rw [ne_nlimbs hl] at hr
      exact absurd hr (by omega)
    · exact hr.2.2.2.2

theorem ct_div_pow2_mp_panic {d : CtMpDivisor g} {V : ℕ} (hd : d.Ok V) (e : ℕ) (r : Buf f)
    (b : Buf h) {ulen : ℕ} (hul : ulen = (e + 1 + 8 - 1) / 8) (hr : min d.v_len ulen ≤ r.len)
    (h1 : 256 ^ b.len ≤ 2 ^ e / V) (h2 : 2 ^ e / V < B ^ b.nlimbs) (h3 : ulen ≤ b.len + d.v_len) :
    (ct_div_pow2_mp e r d (some b)).val = none := by
  obtain ⟨q', hq, hl⟩ := QRel.exists b
  have hb := le_nlimbs_mul b.len
  rw [← Buf.nlimbs_eq] at hb
  refine QRel.panic (ct_div_pow2_mp_dom e r d hq (by omega)) ?_ h1
  refine (ct_div_pow2_mp_sat hd e r (some q') hul ?_).mono ?_
  · intro b' hb'; cases hb'
    exact Or.inl (by rw [hl, pow_256]; exact h2)
  · rintro (e | a) hr'
    · rcases hr' with ⟨-, b', hb', hr'⟩ | ⟨-, hr'⟩
      · cases hb'
        rw [ne_nlimbs hl] at hr'
        exact absurd hr' (by omega)
      · exact absurd hr' (by omega)
    · exact hr'.2.2.2

theorem ct_div_lshifted_mp_mp_panic {d : CtMpDivisor g} {V : ℕ} (hd : d.Ok V) (u : Buf f)
    (b : Buf h) {n s U : ℕ} (hin : n ≤ u.len)
    (hx : u.toNat < 256 ^ n) (hU : U = u.toNat * 256 ^ s) (hr : min d.v_len (n + s) ≤ u.len)
    (h1 : 256 ^ b.len ≤ U / V) (h2 : U / V < B ^ b.nlimbs) (h3 : n + s ≤ b.len + d.v_len) :
    (ct_div_lshifted_mp_mp u n s d (some b)).val = none := by
  obtain ⟨q', hq, hl⟩ := QRel.exists b
  have hb := le_nlimbs_mul b.len
  rw [← Buf.nlimbs_eq] at hb
  refine QRel.panic (ct_div_lshifted_mp_mp_dom u n s d hq (by omega)) ?_ h1
  refine (ct_div_lshifted_mp_mp_sat hd u (some q') hin hx hU ?_).mono ?_
  · intro b' hb'; cases hb'
    exact Or.inl (by rw [hl, pow_256]; exact h2)
  · rintro (e | a) hr'
    · rcases hr' with ⟨-, b', hb', hr'⟩ | ⟨-, hr'⟩
      · cases hb'
        rw [ne_nlimbs hl] at hr'
        exact absurd hr' (by omega)
      · exact absurd hr' (by omega)
    · exact hr'.2.2.2

end Cmpa
