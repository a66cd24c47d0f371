import Verif.Proofs.DivPanic

/-!
# Divisions with a quotient buffer that has the limbs, but not the bytes for the quotient, in a release build

Such a division takes the same course as one with a limb buffer of as many limbs; the bytes of the quotient for which
there is no room are dropped.
-/

namespace Cmpa
namespace M
variable {α β α' β' σ σ' ε : Type}

/-- If `m'` doesn't panic in a release build, then neither does `m`, and the results are related. -/
def RDom (R : α → β → Prop) (m : M α) (m' : M β) : Prop :=
  ∀ b, m'.rel = some b → ∃ a, m.rel = some a ∧ R a b

theorem RDom.pure {R : α → β → Prop} {a : α} {b : β} (h : R a b) :
    RDom R (Pure.pure a) (Pure.pure b) := by
  intro b' hb
  cases (show some b = some b' from hb)
  exact ⟨a, rfl, h⟩

theorem RDom.of_panic {R : α → β → Prop} {m : M α} {m' : M β} (h : m'.rel = none) : RDom R m m' := by
  intro a ha; rw [h] at ha; cases ha

theorem RDom.bind {R : α → β → Prop} {S : α' → β' → Prop} {m : M α} {m' : M β} {f : α → M α'}
    {f' : β → M β'} (h : RDom R m m') (hf : ∀ a b, R a b → RDom S (f a) (f' b)) :
    RDom S (m >>= f) (m' >>= f') := by
  intro c hc
  rw [bind_rel] at hc
  obtain ⟨b, hb, hc⟩ := Option.bind_eq_some_iff.1 hc
  obtain ⟨a, ha, hr⟩ := h b hb
  obtain ⟨d, hd, hs⟩ := hf a b hr c hc
  exact ⟨d, by rw [bind_rel, ha]; exact hd, hs⟩

theorem RDom.bind_same {S : α' → β' → Prop} {m : M α} {f : α → M α'} {f' : α → M β'}
    (hf : ∀ a, RDom S (f a) (f' a)) : RDom S (m >>= f) (m >>= f') :=
  RDom.bind (R := Eq) (fun a ha => ⟨a, ha, rfl⟩) fun a _ h => h ▸ hf a

theorem RDom.cond {R : α → β → Prop} {c c' : Prop} [Decidable c] [Decidable c'] (hc : c ↔ c')
    {m n : M α} {m' n' : M β} (h1 : c → RDom R m m') (h2 : ¬ c → RDom R n n') :
    RDom R (M.cond c m n) (M.cond c' m' n') := by
  refine RDom.bind (R := fun b b' => b = decide c ∧ b' = decide c') ?_ ?_
  · intro b hb
    exact ⟨decide c, rfl, rfl, (Option.some.inj hb).symm⟩
  · rintro _ _ ⟨rfl, rfl⟩
    by_cases h : c
    · simpa [h, hc.1 h] using h1 h
    · simpa [h, mt hc.2 h] using h2 h

theorem RDom.bindE {R : α → β → Prop} {S : α' → β' → Prop} {m : M (Except ε α)}
    {m' : M (Except ε β)} {f : α → M (Except ε α')} {f' : β → M (Except ε β')}
    (h : RDom (ExRel R) m m') (hf : ∀ a b, R a b → RDom (ExRel S) (f a) (f' b)) :
    RDom (ExRel S) (M.bindE m f) (M.bindE m' f') := by
  refine h.bind fun a b hr => ?_
  rcases a with e | a <;> rcases b with e' | b
  · exact RDom.pure hr
  · exact hr.elim
  · exact hr.elim
  · exact hf a b hr

theorem RDom.forDownE {R : σ → σ' → Prop} {f : ℕ → σ → M (Except ε σ)}
    {f' : ℕ → σ' → M (Except ε σ')} :
    ∀ {n : ℕ} {s : σ} {s' : σ'}, R s s' →
      (∀ i s s', R s s' → RDom (ExRel R) (f i s) (f' i s')) →
      RDom (ExRel R) (M.forDownE n s f) (M.forDownE n s' f')
  | 0, _, _, h, _ => RDom.pure h
  | n + 1, s, s', h, hf => by
    unfold M.forDownE
    refine RDom.bind_same fun _ => (hf n s s' h).bind fun a b hr => ?_
    rcases a with e | a <;> rcases b with e' | b
    · exact RDom.pure hr
    · exact hr.elim
    · exact hr.elim
    · exact RDom.forDownE hr hf

theorem assert_bind_rel {c : Prop} [Decidable c] (k : Unit → M α) : (M.assert c >>= k).rel = (k ()).rel := by
  rw [bind_rel]
  unfold M.assert; split <;> rfl

end M

open M
variable [LimbCfg] {f g h : Fmt}

/-! ### Storing the quotient -/

theorem to_le_bytes_take (v n : ℕ) (hn : n ≤ LB) :
    (to_le_bytes v).take n = (to_le_bytes (v % 256 ^ n)).take n := by
  unfold to_le_bytes
  rw [← List.map_take, ← List.map_take]
  refine List.map_congr_left fun k hk => ?_
  rw [List.take_range] at hk
  have hk := List.mem_range.1 hk
  apply Fin.ext
  show v / 256 ^ k % 256 = v % 256 ^ n / 256 ^ k % 256
  rw [← Nat.mod_mul_right_div_self, ← Nat.mod_mul_right_div_self, ← pow_succ,
    Nat.mod_mod_of_dvd _ (pow_dvd_pow _ (by omega))]

/-- A release build stores the bytes of a limb for which there is room. -/
theorem Buf.store_l_trunc (b : Buf f) {i : ℕ} (v : ℕ) (hi : i < b.nlimbs) (h1 : b.len < i * LB + LB) :
    (b.store_l i v).rel = (b.store_l i (v % 256 ^ (b.len - i * LB))).rel := by
  rw [Buf.nlimbs_eq, lt_nlimbs_iff] at hi
  rcases b with l | l | l <;> simp only [Buf.store_l]
  · rw [Buf.len_be] at hi h1 ⊢
    suffices e : (be_mp_store_l l i v).rel = (be_mp_store_l l i (v % 256 ^ (l.length - i * LB))).rel by
      simp only [bind_rel, e]
    unfold be_mp_store_l
    rw [assert_bind_rel, assert_bind_rel, M.sub_eq (by omega), M.pure_bind, M.pure_bind, if_neg (by omega),
      if_neg (by omega), assert_bind_rel, assert_bind_rel]
    unfold _be_mp_store_l_high_partial
    rw [M.sub_eq (by omega), M.pure_bind, M.pure_bind, slice_eq (by omega) (by simp), slice_eq (by omega) (by simp)]
    congr 2
    unfold to_be_bytes
    have e : ∀ x, List.take (LB - (LB - (l.length - i * LB))) (List.drop (LB - (l.length - i * LB))
        (to_le_bytes x).reverse) = ((to_le_bytes x).take (l.length - i * LB)).reverse := fun x => by
      rw [List.reverse_take, to_le_bytes_length, List.take_of_length_le]
      simp
    rw [e, e, ← to_le_bytes_take _ _ (by omega)]
  · rw [Buf.len_le] at hi h1 ⊢
    suffices e : (le_mp_store_l l i v).rel = (le_mp_store_l l i (v % 256 ^ (l.length - i * LB))).rel by
      simp only [bind_rel, e]
    unfold le_mp_store_l
    rw [assert_bind_rel, assert_bind_rel, if_neg (by omega), if_neg (by omega), assert_bind_rel, assert_bind_rel]
    unfold _le_mp_store_l_high_partial
    rw [M.sub_eq (by omega), M.pure_bind, M.pure_bind, slice_eq (by omega) (by simp; omega),
      slice_eq (by omega) (by simp; omega)]
    congr 2
    rw [List.drop_zero, List.drop_zero, Nat.sub_zero, ← to_le_bytes_take _ _ (by omega)]
  · rw [Buf.len_ne] at hi h1
    have := Nat.lt_of_mul_lt_mul_right hi
    have := Nat.mul_le_mul_right LB this
    rw [Nat.succ_mul] at this
    omega

/-- The low bytes of the value, in the same number of limbs. -/
def QLow (L : ℕ) : Option (Buf h) → Option (Buf .ne) → Prop
  | some q, some q' => q.len = L ∧ q'.len = ct_mp_nlimbs L * LB ∧ q.toNat = q'.toNat % 256 ^ L
  | _, _ => False

theorem Buf.store_l_low (b : Buf h) {i x : ℕ} (v : ℕ) (hi : i < b.nlimbs) (hx : x < B ^ b.nlimbs)
    (hb : b.toNat = x % 256 ^ b.len) :
    RSat (b.store_l i v) (fun b' => b'.len = b.len ∧ b'.toNat = upd x i (v % B) % 256 ^ b.len) := by
  have hsplit : x = b.toNat + 256 ^ b.len * (x / 256 ^ b.len) := by rw [hb, Nat.mod_add_div]
  by_cases h1 : i * LB + LB ≤ b.len
  · refine (Buf.store_l_mod_sat b v hi h1).rel.mono ?_
    rintro b' ⟨h2, h3⟩
    refine ⟨h2, ?_⟩
    rw [hsplit, Composite.upd_full h1 b.toNat_lt, Nat.add_mul_mod_self_left, ← h3, ← h2, Nat.mod_eq_of_lt b'.toNat_lt]
  · have hlt := hi
    rw [Buf.nlimbs_eq, lt_nlimbs_iff] at hlt
    obtain ⟨r, hr⟩ := Nat.exists_eq_add_of_lt hlt
    have hr' : b.len - i * LB = r + 1 := by omega
    have hm : v % 256 ^ (r + 1) < 256 ^ (r + 1) := Nat.mod_lt _ (by positivity)
    have hle : 256 ^ (r + 1) ∣ B := by
      rw [B_eq_256_pow]; exact pow_dvd_pow _ (by omega)
    have hv : v % B % 256 ^ (r + 1) = v % 256 ^ (r + 1) := Nat.mod_mod_of_dvd _ hle
    obtain ⟨b', h2, h3, h4⟩ := Buf.store_l_sat b (v := v % 256 ^ (r + 1)) hi
      (lt_of_lt_of_le hm (Nat.le_of_dvd B_pos hle)) (by rw [hr']; exact hm)
    refine ⟨b', ?_, h3, ?_⟩
    · rw [Buf.store_l_trunc b v hi (by omega), hr']
      exact (M.coh _ _ h2).1
    · rw [hsplit]
      have e : b.len = i * LB + (r + 1) := by omega
      rw [e, Composite.upd_part (by omega) (by rw [← e]; exact b.toNat_lt), Nat.add_mul_mod_self_left, hv, ← h4, ← e, ← h3,
        Nat.mod_eq_of_lt b'.toNat_lt]

theorem store_q_rdom {L : ℕ} {q : Option (Buf h)} {q' : Option (Buf .ne)} (hq : QLow L q q')
    (j x : ℕ) (c : LimbChoice) :
    RDom (ExRel (QLow L)) (store_q q j x c) (store_q q' j x c) := by
  rcases q with _ | q <;> rcases q' with _ | q'
  · exact hq.elim
  · exact hq.elim
  · exact hq.elim
  · obtain ⟨h1, h2, h3⟩ := hq
    have hn : q.nlimbs = q'.nlimbs := by rw [ne_nlimbs h2, Buf.nlimbs_eq, h1]
    unfold store_q
    dsimp only
    refine RDom.bind_same fun x => ?_
    refine RDom.cond (by rw [hn]) (fun hj => ?_) fun hj => ?_
    · refine RDom.bind (R := fun _ _ => True) (fun _ _ => ⟨(), by unfold M.assert; split <;> rfl, trivial⟩) fun _ _ _ => ?_
      refine RDom.bind (R := fun b b' => QLow L (some b) (some b')) ?_ fun b b' hb => RDom.pure hb
      intro b' hb'
      by_cases hlt : j < q'.nlimbs
      swap
      · exfalso
        obtain ⟨s, hs⟩ : ∃ s, s = q'.store_l j x := ⟨_, rfl⟩
        cases q' with
        | ne l =>
          rw [ne_nlimbs h2] at hlt
          rw [Buf.len_ne] at h2
          have h4 : l.length = ct_mp_nlimbs L := Nat.eq_of_mul_eq_mul_right LB_pos h2
          simp only [Buf.store_l] at hb'
          unfold ne_mp_store_l splice at hb'
          rw [if_neg (by simp; omega)] at hb'
          cases hb'
      have hfull : j * LB + LB ≤ q'.len := by
        have hlt' := hlt
        rw [ne_nlimbs h2] at hlt'
        rw [h2, ← Nat.succ_mul]
        exact Nat.mul_le_mul_right _ hlt'
      obtain ⟨b2, hb2, h6, h7⟩ := (Buf.store_l_mod_sat q' x hlt hfull).rel
      rw [hb'] at hb2
      cases hb2
      obtain ⟨b, hb, h4, h5⟩ := Buf.store_l_low q x (hn ▸ hlt) (by rw [hn]; exact q'.toNat_lt_B) (by rw [h1]; exact h3)
      exact ⟨b, hb, h4.trans h1, h6.trans h2, by rw [h7, h5, h1]⟩
    · refine RDom.cond Iff.rfl (fun _ => RDom.pure rfl) fun _ => RDom.pure ⟨h1, h2, h3⟩

theorem clear_q_rdom {L : ℕ} {q : Option (Buf h)} {q' : Option (Buf .ne)} (hq : QLow L q q')
    (n : ℕ) : RDom (QLow L) (clear_q q n) (clear_q q' n) := by
  rcases q with _ | q <;> rcases q' with _ | q'
  · exact hq.elim
  · exact hq.elim
  · exact hq.elim
  · obtain ⟨h1, h2, h3⟩ := hq
    refine RDom.bind (R := fun b b' => QLow L (some b) (some b')) ?_ fun b b' hb => RDom.pure hb
    intro b' hb'
    obtain ⟨b, hb, h4, h5⟩ := (Buf.sat_clear_bytes_above q n (Q := fun b' => b'.len = q.len ∧
      b'.toNat = q.toNat % 256 ^ n) fun b' h1 h2 => ⟨h1, h2⟩).rel
    obtain ⟨b2, hb2, h6, h7⟩ := (Buf.sat_clear_bytes_above q' n (Q := fun b' => b'.len = q'.len ∧
      b'.toNat = q'.toNat % 256 ^ n) fun b' h1 h2 => ⟨h1, h2⟩).rel
    rw [hb'] at hb2
    cases hb2
    refine ⟨b, hb, h4.trans h1, h6.trans h2, ?_⟩
    rw [h7, h5, h3]
    rcases Nat.le_total L n with hl | hl
    · rw [Nat.mod_eq_of_lt (lt_of_lt_of_le (Nat.mod_lt _ (by positivity)) (Nat.pow_le_pow_right (by norm_num) hl)),
        Nat.mod_mod_of_dvd _ (pow_dvd_pow _ hl)]
    · rw [Nat.mod_mod_of_dvd _ (pow_dvd_pow _ hl), Nat.mod_eq_of_lt (a := q'.toNat % 256 ^ n)
        (lt_of_lt_of_le (Nat.mod_lt _ (by positivity)) (Nat.pow_le_pow_right (by norm_num) hl))]

/-- The room for the quotient is sufficient for both. -/
theorem QLow.room {L n m : ℕ} {q : Option (Buf h)} {q' : Option (Buf .ne)} (hq : QLow L q q')
    (hL : m ≤ L + n) : ¬ (∃ b ∈ q, b.len + n < m) ∧ ¬ (∃ b ∈ q', b.len + n < m) := by
  rcases q with _ | q <;> rcases q' with _ | q'
  · exact hq.elim
  · exact hq.elim
  · exact hq.elim
  · obtain ⟨h1, h2, h3⟩ := hq
    have := le_nlimbs_mul L
    constructor <;> rintro ⟨_, hb, hl⟩ <;> cases hb <;> omega

theorem QLow.exists (b : Buf h) : ∃ q' : Buf .ne, QLow b.len (some b) (some q') ∧
    q'.len = b.nlimbs * LB := by
  obtain ⟨q', ⟨h1, h2, h3⟩, h4⟩ := QRel.exists b
  exact ⟨q', ⟨h1, h2, by rw [h3, Nat.mod_eq_of_lt b.toNat_lt]⟩, h4⟩

/-! ### The main loops -/

theorem div_step_rdom (v : CtMpDivisor g) (j L : ℕ) (s : Composite f × Option (Buf h))
    (s' : Composite f × Option (Buf .ne)) (hs : s.1 = s'.1 ∧ QLow L s.2 s'.2) :
    RDom (ExRel fun s s' => s.1 = s'.1 ∧ QLow L s.2 s'.2) (div_step v j s) (div_step v j s') := by
  obtain ⟨u, q⟩ := s
  obtain ⟨u', q'⟩ := s'
  obtain ⟨rfl, hq⟩ := hs
  unfold div_step
  dsimp only
  refine RDom.bind_same fun _ => RDom.bind_same fun _ => RDom.bind_same fun _ => RDom.bind_same fun _ =>
    RDom.bind_same fun _ => RDom.bind_same fun _ => RDom.bind_same fun _ => RDom.bind_same fun _ =>
    RDom.bind_same fun _ => RDom.bind_same fun _ => ?_
  refine RDom.bindE (store_q_rdom hq _ _ _) fun q q' hq => ?_
  exact RDom.bind_same fun _ => RDom.bind_same fun _ => RDom.bind_same fun _ => RDom.pure ⟨rfl, hq⟩

theorem pow2_step_rdom (v : CtMpDivisor g) (j L : ℕ) (s : Buf f × ℕ × ℕ × Option (Buf h))
    (s' : Buf f × ℕ × ℕ × Option (Buf .ne))
    (hs : s.1 = s'.1 ∧ s.2.1 = s'.2.1 ∧ s.2.2.1 = s'.2.2.1 ∧ QLow L s.2.2.2 s'.2.2.2) :
    RDom (ExRel fun s s' => s.1 = s'.1 ∧ s.2.1 = s'.2.1 ∧ s.2.2.1 = s'.2.2.1 ∧
      QLow L s.2.2.2 s'.2.2.2) (pow2_step v j s) (pow2_step v j s') := by
  obtain ⟨u, x, y, q⟩ := s
  obtain ⟨u', x', y', q'⟩ := s'
  obtain ⟨rfl, rfl, rfl, hq⟩ := hs
  unfold pow2_step
  dsimp only
  refine RDom.bind_same fun _ => RDom.bind_same fun _ => RDom.bind_same fun _ => RDom.bind_same fun _ =>
    RDom.bind_same fun _ => RDom.bind_same fun _ => RDom.bind_same fun _ => RDom.bind_same fun _ => ?_
  refine RDom.bindE (store_q_rdom hq _ _ _) fun q q' hq => ?_
  exact RDom.bind_same fun _ => RDom.bind_same fun _ => RDom.bind_same fun _ => RDom.bind_same fun _ =>
    RDom.pure ⟨rfl, rfl, rfl, hq⟩

theorem lshifted_head_step_rdom (v : CtMpDivisor g) (n m j L : ℕ) (s : Buf f × List ℕ × Option (Buf h))
    (s' : Buf f × List ℕ × Option (Buf .ne))
    (hs : s.1 = s'.1 ∧ s.2.1 = s'.2.1 ∧ QLow L s.2.2 s'.2.2) :
    RDom (ExRel fun s s' => s.1 = s'.1 ∧ s.2.1 = s'.2.1 ∧ QLow L s.2.2 s'.2.2)
      (lshifted_head_step v n m j s) (lshifted_head_step v n m j s') := by
  obtain ⟨u, x, q⟩ := s
  obtain ⟨u', x', q'⟩ := s'
  obtain ⟨rfl, rfl, hq⟩ := hs
  unfold lshifted_head_step
  dsimp only
  refine RDom.bind_same fun _ => RDom.bind_same fun _ => RDom.bind_same fun _ => RDom.bind_same fun _ =>
    RDom.bind_same fun _ => RDom.bind_same fun _ => RDom.bind_same fun _ => RDom.bind_same fun _ => ?_
  refine RDom.bindE (store_q_rdom hq _ _ _) fun q q' hq => ?_
  exact RDom.bind_same fun _ => RDom.bind_same fun _ => RDom.pure ⟨rfl, rfl, hq⟩

theorem lshifted_tail_step_rdom (v : CtMpDivisor g) (j L : ℕ) (s : Buf f × ℕ × Option (Buf h))
    (s' : Buf f × ℕ × Option (Buf .ne))
    (hs : s.1 = s'.1 ∧ s.2.1 = s'.2.1 ∧ QLow L s.2.2 s'.2.2) :
    RDom (ExRel fun s s' => s.1 = s'.1 ∧ s.2.1 = s'.2.1 ∧ QLow L s.2.2 s'.2.2)
      (lshifted_tail_step v j s) (lshifted_tail_step v j s') := by
  obtain ⟨u, x, q⟩ := s
  obtain ⟨u', x', q'⟩ := s'
  obtain ⟨rfl, rfl, hq⟩ := hs
  unfold lshifted_tail_step
  dsimp only
  refine RDom.bind_same fun _ => RDom.bind_same fun _ => RDom.bind_same fun _ => RDom.bind_same fun _ =>
    RDom.bind_same fun _ => RDom.bind_same fun _ => RDom.bind_same fun _ => ?_
  refine RDom.bindE (store_q_rdom hq _ _ _) fun q q' hq => ?_
  exact RDom.bind_same fun _ => RDom.bind_same fun _ => RDom.pure ⟨rfl, rfl, hq⟩

/-! ### The divisions -/

theorem ct_div_mp_mp_rdom (u_h : Option (Buf f)) (u_l : Buf f) (v : CtMpDivisor g) {L : ℕ}
    {q : Option (Buf h)} {q' : Option (Buf .ne)} (hq : QLow L q q')
    (hL : u_l.len + (u_h.getD (Buf.zeros f 0)).len ≤ L + v.v_len) :
    RDom (ExRel fun s s' => s.1 = s'.1 ∧ s.2.1 = s'.2.1 ∧ QLow L s.2.2 s'.2.2) (ct_div_mp_mp u_h u_l v q)
      (ct_div_mp_mp u_h u_l v q') := by
  obtain ⟨h1, h2⟩ := hq.room hL
  unfold ct_div_mp_mp
  refine RDom.cond ⟨fun h => absurd h h1, fun h => absurd h h2⟩ (fun h => absurd h h1) fun _ => ?_
  refine RDom.cond Iff.rfl (fun _ => ?_) fun _ => ?_
  · exact (clear_q_rdom hq _).bind fun q q' hq => RDom.pure ⟨rfl, rfl, hq⟩
  · refine (clear_q_rdom hq _).bind fun q q' hq => ?_
    refine RDom.bind_same fun _ => RDom.bind_same fun _ => RDom.bind_same fun _ => ?_
    refine RDom.bindE (RDom.forDownE ⟨rfl, hq⟩ fun i s s' hs => div_step_rdom v i L s s' hs) ?_
    rintro ⟨u, q⟩ ⟨u', q'⟩ ⟨h, hq⟩
    obtain rfl : u = u' := h
    refine RDom.bind_same fun _ => RDom.bind_same fun s => ?_
    obtain ⟨u, _⟩ := s
    dsimp only
    split
    · exact RDom.pure ⟨rfl, rfl, hq⟩
    · exact RDom.of_panic rfl

theorem ct_div_pow2_mp_rdom (e : ℕ) (r : Buf f) (v : CtMpDivisor g) {L : ℕ}
    {q : Option (Buf h)} {q' : Option (Buf .ne)} (hq : QLow L q q')
    (hL : (e + 1 + 8 - 1) / 8 ≤ L + v.v_len) :
    RDom (ExRel fun s s' => s.1 = s'.1 ∧ QLow L s.2 s'.2) (ct_div_pow2_mp e r v q) (ct_div_pow2_mp e r v q') := by
  obtain ⟨h1, h2⟩ := hq.room hL
  unfold ct_div_pow2_mp
  refine RDom.cond ⟨fun h => absurd h h1, fun h => absurd h h2⟩ (fun h => absurd h h1) fun _ => ?_
  refine RDom.cond Iff.rfl (fun _ => RDom.pure rfl) fun _ => ?_
  refine RDom.bind_same fun _ => RDom.bind_same fun _ => ?_
  refine RDom.cond Iff.rfl (fun _ => ?_) fun _ => ?_
  · exact RDom.bind_same fun _ => (clear_q_rdom hq _).bind fun q q' hq => RDom.pure ⟨rfl, hq⟩
  · refine (clear_q_rdom hq _).bind fun q q' hq => ?_
    refine RDom.bind_same fun _ => RDom.bind_same fun _ => RDom.bind_same fun _ =>
      RDom.bind_same fun _ => RDom.bind_same fun _ => ?_
    refine RDom.bindE (RDom.forDownE ⟨rfl, rfl, rfl, hq⟩ fun i s s' hs => pow2_step_rdom v i L s s' hs) ?_
    rintro ⟨u, x, y, q⟩ ⟨u', x', y', q'⟩ ⟨h, h', h'', hq⟩
    obtain rfl : u = u' := h
    obtain rfl : x = x' := h'
    obtain rfl : y = y' := h''
    exact RDom.bind_same fun _ => RDom.bind_same fun _ => RDom.bind_same fun _ =>
      RDom.bind_same fun _ => RDom.bind_same fun _ => RDom.pure ⟨rfl, hq⟩

theorem ct_div_lshifted_mp_mp_rdom (u : Buf f) (n s : ℕ) (v : CtMpDivisor g) {L : ℕ}
    {q : Option (Buf h)} {q' : Option (Buf .ne)} (hq : QLow L q q')
    (hL : n + s ≤ L + v.v_len) :
    RDom (ExRel fun s s' => s.1 = s'.1 ∧ QLow L s.2 s'.2) (ct_div_lshifted_mp_mp u n s v q)
      (ct_div_lshifted_mp_mp u n s v q') := by
  obtain ⟨h1, h2⟩ := hq.room hL
  unfold ct_div_lshifted_mp_mp
  refine RDom.bind_same fun _ => ?_
  refine RDom.cond ⟨fun h => absurd h h1, fun h => absurd h h2⟩ (fun h => absurd h h1) fun _ => ?_
  refine RDom.cond Iff.rfl (fun _ => RDom.pure rfl) fun _ => ?_
  refine RDom.cond Iff.rfl (fun _ => ?_) fun _ => ?_
  · exact RDom.bind_same fun _ => (clear_q_rdom hq _).bind fun q q' hq => RDom.pure ⟨rfl, hq⟩
  · unfold lshifted_main
    dsimp only
    refine (clear_q_rdom hq _).bind fun q q' hq => ?_
    refine RDom.bind_same fun _ => RDom.bind_same fun _ => RDom.bind_same fun _ =>
      RDom.bind_same fun _ => RDom.bind_same fun _ => RDom.bind_same fun _ => RDom.bind_same fun _ =>
      RDom.bind_same fun _ => RDom.bind_same fun _ => RDom.bind_same fun _ => RDom.bind_same fun _ => ?_
    refine RDom.bindE (RDom.forDownE ⟨rfl, rfl, hq⟩ fun i s s' hs =>
      lshifted_head_step_rdom v _ _ i L s s' hs) ?_
    rintro ⟨u, x, q⟩ ⟨u', x', q'⟩ ⟨h, h', hq⟩
    obtain rfl : u = u' := h
    obtain rfl : x = x' := h'
    refine RDom.bind_same fun _ => RDom.bind_same fun _ => RDom.bind_same fun _ =>
      RDom.bind_same fun _ => RDom.bind_same fun _ => RDom.bind_same fun _ => RDom.bind_same fun _ =>
      RDom.bind_same fun _ => ?_
    refine RDom.bindE (RDom.forDownE ⟨rfl, rfl, hq⟩ fun i s s' hs =>
      lshifted_tail_step_rdom v i L s s' hs) ?_
    rintro ⟨u, x, q⟩ ⟨u', x', q'⟩ ⟨h, h', hq⟩
    obtain rfl : u = u' := h
    obtain rfl : x = x' := h'
    exact RDom.bind_same fun _ => RDom.bind_same fun _ => RDom.bind_same fun _ => RDom.pure ⟨rfl, hq⟩

/-- What a release build returns: the remainder, and the low bytes of the quotient. -/
theorem ct_div_mp_mp_rel {d : CtMpDivisor g} {V : ℕ} (hd : d.Ok V) (u_h : Option (Buf f))
    (u_l : Buf f) (q0 : Option (Buf h)) {U ulen : ℕ}
    (hU : U = u_l.toNat + 256 ^ u_l.len * (u_h.map Buf.toNat).getD 0)
    (hul : ulen = u_l.len + (u_h.map Buf.len).getD 0) :
    RSat (ct_div_mp_mp u_h u_l d q0) (OkErr (fun r =>
      r.1.map Buf.len = u_h.map Buf.len ∧ r.2.1.len = u_l.len ∧
      r.2.1.toNat + 256 ^ u_l.len * (r.1.map Buf.toNat).getD 0 = U % V ∧
      r.2.2.map Buf.len = q0.map Buf.len ∧ ∀ b ∈ r.2.2, b.toNat = U / V % 256 ^ b.len)
      (DivErr q0 (U / V) (ulen - d.v_len))) := by
  by_cases hc : ∀ b ∈ q0, U / V < 256 ^ b.len ∨ B ^ b.nlimbs ≤ U / V ∨ b.len + d.v_len < ulen
  · refine (ct_div_mp_mp_sat hd u_h u_l q0 hU hul hc).rel.mono ?_
    rintro (e | a) hr
    · exact hr
    · exact ⟨hr.1, hr.2.1, hr.2.2.1, hr.2.2.2.1, fun b hb => by
        rw [← hr.2.2.2.2 b hb, Nat.mod_eq_of_lt b.toNat_lt]⟩
  push Not at hc
  obtain ⟨b, hb, h1, h2, h3⟩ := hc
  obtain rfl : q0 = some b := hb
  obtain ⟨q', hq, hl⟩ := QLow.exists b
  have hb := le_nlimbs_mul b.len
  rw [← Buf.nlimbs_eq] at hb
  have hz0 : (Buf.zeros f 0).len = 0 := Buf.zeros_len (Or.inr (Dvd.intro 0 rfl))
  have hhl : (u_h.getD (Buf.zeros f 0)).len = (u_h.map Buf.len).getD 0 := by
    cases u_h with
    | none => exact hz0
    | some b => rfl
  obtain ⟨r', hr', hp⟩ := (ct_div_mp_mp_sat hd u_h u_l (some q') hU hul (by
    intro b' hb'; cases hb'
    exact Or.inl (by rw [hl, pow_256]; exact h2))).rel
  obtain ⟨r, hr, hrel⟩ := ct_div_mp_mp_rdom u_h u_l d hq (by rw [hhl]; omega) r' hr'
  refine ⟨r, hr, ?_⟩
  rcases r' with e' | ⟨x', y', z'⟩
  · obtain ⟨-, b', hb', hp⟩ := hp
    cases hb'
    rw [ne_nlimbs hl] at hp
    exact absurd hp (by omega)
  rcases r with e | ⟨x, y, z⟩
  · exact hrel.elim
  obtain ⟨e1, e2, e3⟩ := hrel
  dsimp only [OkErr] at e1 e2 e3 hp ⊢
  subst e1 e2
  obtain ⟨p1, p2, p3, p4, p5⟩ := hp
  rcases z with _ | z <;> rcases z' with _ | z'
  · exact e3.elim
  · exact e3.elim
  · exact e3.elim
  obtain ⟨k1, k2, k3⟩ := e3
  refine ⟨p1, p2, p3, by simp [k1], ?_⟩
  intro b' hb'
  obtain rfl : z = b' := Option.some.inj hb'
  rw [k3, k1, p5 z' rfl]

theorem ct_div_pow2_mp_rel {d : CtMpDivisor g} {V : ℕ} (hd : d.Ok V) (e : ℕ) (r : Buf f)
    (q0 : Option (Buf h)) {ulen : ℕ} (hul : ulen = (e + 1 + 8 - 1) / 8) :
    RSat (ct_div_pow2_mp e r d q0) (OkErr (fun s =>
      s.1.len = r.len ∧ s.1.toNat = 2 ^ e % V ∧
      s.2.map Buf.len = q0.map Buf.len ∧ ∀ b ∈ s.2, b.toNat = 2 ^ e / V % 256 ^ b.len)
      (DivErr2 q0 (2 ^ e / V) (ulen - d.v_len) r.len (min d.v_len ulen))) := by
  by_cases hc : ∀ b ∈ q0, 2 ^ e / V < 256 ^ b.len ∨ B ^ b.nlimbs ≤ 2 ^ e / V ∨ b.len + d.v_len < ulen
  · refine (ct_div_pow2_mp_sat hd e r q0 hul hc).rel.mono ?_
    rintro (e | a) hr
    · exact hr
    · exact ⟨hr.1, hr.2.1, hr.2.2.1, fun b hb => by
        rw [← hr.2.2.2 b hb, Nat.mod_eq_of_lt b.toNat_lt]⟩
  push Not at hc
  obtain ⟨b, hb, h1, h2, h3⟩ := hc
  obtain rfl : q0 = some b := hb
  obtain ⟨q', hq, hl⟩ := QLow.exists b
  have hb := le_nlimbs_mul b.len
  rw [← Buf.nlimbs_eq] at hb
  obtain ⟨r', hr', hp⟩ := (ct_div_pow2_mp_sat hd e r (some q') hul (by
    intro b' hb'; cases hb'
    exact Or.inl (by rw [hl, pow_256]; exact h2))).rel
  obtain ⟨r2, hr, hrel⟩ := ct_div_pow2_mp_rdom e r d hq (by omega) r' hr'
  refine ⟨r2, hr, ?_⟩
  rcases r' with e' | ⟨y', z'⟩
  · rcases r2 with e2 | r2
    swap
    · exact hrel.elim
    obtain rfl : e2 = e' := hrel
    rcases hp with ⟨-, b', hb', hp⟩ | hp
    · cases hb'
      rw [ne_nlimbs hl] at hp
      exact absurd hp (by omega)
    · exact Or.inr hp
  rcases r2 with e | ⟨y, z⟩
  · exact hrel.elim
  obtain ⟨e1, e3⟩ := hrel
  dsimp only [OkErr] at e1 e3 hp ⊢
  subst e1
  obtain ⟨p1, p2, p4, p5⟩ := hp
  rcases z with _ | z <;> rcases z' with _ | z'
  · exact e3.elim
  · exact e3.elim
  · exact e3.elim
  obtain ⟨k1, k2, k3⟩ := e3
  refine ⟨p1, p2, by simp [k1], ?_⟩
  intro b' hb'
  obtain rfl : z = b' := Option.some.inj hb'
  rw [k3, k1, p5 z' rfl]

theorem ct_div_lshifted_mp_mp_rel {d : CtMpDivisor g} {V : ℕ} (hd : d.Ok V) (u : Buf f)
    (q0 : Option (Buf h)) {u_in_len shl U : ℕ} (hin : u_in_len ≤ u.len)
    (hx : u.toNat < 256 ^ u_in_len) (hU : U = u.toNat * 256 ^ shl) :
    RSat (ct_div_lshifted_mp_mp u u_in_len shl d q0) (OkErr (fun s =>
      s.1.len = u.len ∧ s.1.toNat = U % V ∧
      s.2.map Buf.len = q0.map Buf.len ∧ ∀ b ∈ s.2, b.toNat = U / V % 256 ^ b.len)
      (DivErr2 q0 (U / V) (u_in_len + shl - d.v_len) u.len (min d.v_len (u_in_len + shl)))) := by
  by_cases hc : ∀ b ∈ q0, U / V < 256 ^ b.len ∨ B ^ b.nlimbs ≤ U / V ∨ b.len + d.v_len < u_in_len + shl
  · refine (ct_div_lshifted_mp_mp_sat hd u q0 hin hx hU hc).rel.mono ?_
    rintro (e | a) hr
    · exact hr
    · exact ⟨hr.1, hr.2.1, hr.2.2.1, fun b hb => by
        rw [← hr.2.2.2 b hb, Nat.mod_eq_of_lt b.toNat_lt]⟩
  push Not at hc
  obtain ⟨b, hb, h1, h2, h3⟩ := hc
  obtain rfl : q0 = some b := hb
  obtain ⟨q', hq, hl⟩ := QLow.exists b
  have hb := le_nlimbs_mul b.len
  rw [← Buf.nlimbs_eq] at hb
  obtain ⟨r', hr', hp⟩ := (ct_div_lshifted_mp_mp_sat hd u (some q') hin hx hU (by
    intro b' hb'; cases hb'
    exact Or.inl (by rw [hl, pow_256]; exact h2))).rel
  obtain ⟨r2, hr, hrel⟩ := ct_div_lshifted_mp_mp_rdom u u_in_len shl d hq (by omega) r' hr'
  refine ⟨r2, hr, ?_⟩
  rcases r' with e' | ⟨y', z'⟩
  · rcases r2 with e2 | r2
    swap
    · exact hrel.elim
    obtain rfl : e2 = e' := hrel
    rcases hp with ⟨-, b', hb', hp⟩ | hp
    · cases hb'
      rw [ne_nlimbs hl] at hp
      exact absurd hp (by omega)
    · exact Or.inr hp
  rcases r2 with e | ⟨y, z⟩
  · exact hrel.elim
  obtain ⟨e1, e3⟩ := hrel
  dsimp only [OkErr] at e1 e3 hp ⊢
  subst e1
  obtain ⟨p1, p2, p4, p5⟩ := hp
  rcases z with _ | z <;> rcases z' with _ | z'
  · exact e3.elim
  · exact e3.elim
  · exact e3.elim
  obtain ⟨k1, k2, k3⟩ := e3
  refine ⟨p1, p2, by simp [k1], ?_⟩
  intro b' hb'
  obtain rfl : z = b' := Option.some.inj hb'
  rw [k3, k1, p5 z' rfl]

end Cmpa
