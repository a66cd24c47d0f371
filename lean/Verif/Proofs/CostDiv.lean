import Verif.Proofs.CostArith
import Verif.Proofs.DivisorNew
import Verif.Proofs.CtDiv
import Verif.Proofs.DivMp

/-!
# Bounds on the work: division
-/

set_option linter.unusedSectionVars false

namespace Cmpa
open M
variable [LimbCfg] {f g h : Fmt} {u v w k : ℕ}

/-- A bound on the number of limbs of the divisor. -/
instance : Shape (CtMpDivisor f) ℕ := ⟨fun d u => ct_mp_nlimbs d.v_len ≤ u⟩
instance : Shape (List ℕ) Unit := ⟨fun _ _ => True⟩
/-- Bounds on the number of segments and on the numbers of limbs of their buffers. -/
instance : Shape (Composite f) (ℕ × ℕ) := ⟨fun c s => c.length ≤ s.1 ∧
  ∀ x ∈ c, x.segment.nlimbs ≤ s.2 ∧ x.high_next_partial.nlimbs ≤ s.2⟩

theorem fits_divisor_mk {d : CtMpDivisor f} (h : ct_mp_nlimbs d.v_len ≤ u) : Shape.fits d u := h

macro_rules
  | `(tactic| fits_ext) => `(tactic| (with_reducible apply fits_divisor_mk; ub))

theorem fits_list {l : List ℕ} : Shape.fits l () := trivial

macro_rules
  | `(tactic| fits_ext) => `(tactic| with_reducible exact fits_list)

theorem Buf.nlimbs_join_le (a b : Buf f) : (a.join b).nlimbs ≤ a.nlimbs + b.nlimbs := by
  unfold Buf.nlimbs
  rw [Buf.len_join, nlimbs_le_iff, Nat.add_mul]
  have := le_nlimbs_mul a.len
  have := le_nlimbs_mul b.len
  omega

namespace Composite

theorem load_partials_cost : ∀ {c : Composite f} {p x : ℕ}, Cost (load_partials p x c) (3 * c.length) none
  | [], _, _ => by unfold load_partials; cost; omega
  | s :: rest, _, _ => by
    have ih := fun p x => load_partials_cost (c := rest) (p := p) (x := x)
    unfold load_partials; cost
    simp only [List.length_cons]; omega

theorem load_at_cost {i o : ℕ} {s : Seg f} {c : Composite f} : Cost (load_at i o s c) (3 * c.length + 6) none := by
  unfold load_at; cost
  · simp only [List.length_cons]; omega

theorem load_from_cost : ∀ {c : Composite f} {i o : ℕ}, Cost (load_from i o c) (4 * c.length + 6) none
  | [], _, _ => by unfold load_from; cost; omega
  | s :: rest, _, _ => by
    have ih := fun i o => load_from_cost (c := rest) (i := i) (o := o)
    unfold load_from; cost
    simp only [List.length_cons]; omega

theorem load_cost {c : Composite f} {i : ℕ} {s : ℕ × ℕ} (h : Shape.fits c s) : Cost (c.load i) (4 * s.1 + 6) none := by
  have := h.1
  exact load_from_cost.mono (by omega)

theorem fits_cons {s : Seg f} {c : Composite f} (h1 : s.segment.nlimbs ≤ u) (h2 : s.high_next_partial.nlimbs ≤ u)
    (h : Shape.fits c (k, u)) : Shape.fits (s :: c : Composite f) (k + 1, u) := by
  refine ⟨Nat.succ_le_succ h.1, fun x hx => ?_⟩
  rcases List.mem_cons.1 hx with rfl | hx
  · exact ⟨h1, h2⟩
  · exact h.2 x hx

theorem fits_uncons {s : Seg f} {c : Composite f} (h : Shape.fits (s :: c : Composite f) (k, u)) :
    ∃ k', k = k' + 1 ∧ s.segment.nlimbs ≤ u ∧ s.high_next_partial.nlimbs ≤ u ∧ Shape.fits c (k', u) := by
  obtain ⟨h1, h2⟩ := h
  simp only [List.length_cons] at h1
  refine ⟨k - 1, by omega, (h2 s (by simp)).1, (h2 s (by simp)).2, by simp only; omega, fun x hx => h2 x (by simp [hx])⟩

macro_rules
  | `(tactic| fits_ext) => `(tactic| (with_reducible apply fits_cons))

theorem store_partials_cost : ∀ {c : Composite f} {k p x : ℕ}, Shape.fits c (k, u) →
    Cost (store_partials p x c) (3 * k) ((k, u), none)
  | [], k, _, _, h => by
    unfold store_partials
    exact (Cost.pure (fits_mk h fits_nat)).mono (Nat.zero_le _)
  | s :: rest, k, _, _, h => by
    obtain ⟨k', rfl, h1, h2, h3⟩ := fits_uncons h
    have ih := fun p x => store_partials_cost (c := rest) (k := k') (p := p) (x := x) h3
    unfold store_partials
    refine (Cost.cond (Cost.cond (n := 1 + 3 * k') (k := 3 * k') ?_ ?_) (.pure (fits_mk h fits_nat))).mono (by omega)
    · cost; omega
    · cost; omega

theorem store_at_cost {c : Composite f} {s : Seg f} {i x o : ℕ} (h1 : s.segment.nlimbs ≤ u)
    (h2 : s.high_next_partial.nlimbs ≤ u) (h : Shape.fits c (k, u)) :
    Cost (store_at i x o s c) (3 * k + 6) (k + 1, u) := by
  unfold store_at; cost
  omega

theorem store_from_cost : ∀ {c : Composite f} {k i x o : ℕ}, Shape.fits c (k, u) →
    Cost (store_from i x o c) (4 * k + 6) (k, u)
  | [], k, _, _, _, h => by unfold store_from; cost; omega
  | s :: rest, k, _, _, _, h => by
    obtain ⟨k', rfl, h1, h2, h3⟩ := fits_uncons h
    have ih := fun i x o => store_from_cost (c := rest) (k := k') (i := i) (x := x) (o := o) h3
    unfold store_from; cost
    omega

theorem store_cost {c : Composite f} {i x : ℕ} {s : ℕ × ℕ} (h : Shape.fits c s) :
    Cost (c.store i x) (4 * s.1 + 6) s := store_from_cost h

theorem create_segments_cost : ∀ {l : List (Buf f)} {n : ℕ} {b : Buf f}, b.nlimbs ≤ u → (∀ x ∈ l, x.nlimbs ≤ u) →
    Cost (create_segments n b l) ((l.length + 1) * (u + 2)) (l.length + 1, u)
  | [], n, b, hb, _ => by
    unfold create_segments; cost
    · rename_i h1 h2
      exact .pure (fits_cons h2 h1 ⟨Nat.zero_le _, by simp⟩)
    · simp only [List.length_nil]; omega
  | c :: rest, n, b, hb, hl => by
    have hc : c.nlimbs ≤ u := hl c (by simp)
    have ih := fun n b hb => create_segments_cost (l := rest) (n := n) (b := b) hb fun x hx => hl x (by simp [hx])
    simp only [List.length_cons]
    unfold create_segments; cost
    simp only [Nat.succ_mul]; omega

theorem parts_from_nlimbs : ∀ {c : Composite f} {k : ℕ} {p x : Buf f}, p.nlimbs ≤ u → Shape.fits c (k, u) →
    x ∈ parts_from p c → x.nlimbs ≤ 2 * u
  | [], _, p, x, _, _, hx => by simp [parts_from] at hx
  | s :: rest, _, p, x, hp, hc, hx => by
    obtain ⟨k', rfl, h1, h2, h3⟩ := fits_uncons hc
    rcases List.mem_cons.1 hx with rfl | hx
    · have := Buf.nlimbs_join_le s.segment p
      omega
    · exact parts_from_nlimbs h2 h3 hx

theorem parts_nlimbs {c : Composite f} {x : Buf f} (hc : Shape.fits c (k, u)) (hx : x ∈ c.parts) :
    x.nlimbs ≤ 2 * u := by
  cases c with
  | nil => simp [parts] at hx
  | cons s rest =>
    obtain ⟨k', rfl, h1, h2, h3⟩ := fits_uncons hc
    rcases List.mem_cons.1 hx with rfl | hx
    · omega
    · exact parts_from_nlimbs h2 h3 hx

theorem new_cost {b : Buf f} {l : List (Buf f)} (hb : b.nlimbs ≤ u) (hl : ∀ x ∈ l, x.nlimbs ≤ u) :
    Cost (Composite.new (b :: l)) ((l.length + 1) * (u + 2)) (l.length + 1, u) := create_segments_cost hb hl

end Composite

namespace CtMpDivisor
variable {d : CtMpDivisor f}

theorem _scale_val_cost {a b c x y : ℕ} : Cost (_scale_val a b c x y) 0 (none, none) := by
  unfold _scale_val; cost; exact le_refl 0

theorem find_head_nlimbs {b : Buf f} {dec : Option ℕ} (hdec : ∀ x ∈ dec, x < B) {x y : ℕ}
    (h : (find_head b dec).val = some (some (x, y))) : ct_mp_nlimbs x ≤ b.nlimbs := by
  have key : ∀ z, z ≤ b.toNat → ct_mp_nlimbs (byteLen z) ≤ b.nlimbs := fun z hz => by
    refine nlimbs_mono ((isByteLen_size z).le.2 (lt_of_le_of_lt hz b.toNat_lt))
  cases dec with
  | some dec =>
    obtain ⟨o, ho, h1, h2⟩ := find_head_some_sat b (hdec dec rfl)
    rw [h] at ho
    cases ho
    by_cases hd : b.toNat < dec
    · exact absurd (h1 hd) (by simp)
    · have := h2 (by omega)
      simp only [Option.some.injEq, Prod.mk.injEq] at this
      rw [this.1]
      exact key _ (Nat.sub_le _ _)
  | none =>
    unfold find_head at h
    obtain ⟨n, hn, rfl⟩ := find_last_set_byte_mp_sat b
    rw [bind_val, hn] at h
    simp only [Option.bind_some, bind_val] at h
    cases h1 : (M.sub (ct_mp_nlimbs ((Nat.size b.toNat + 7) / 8)) 1).val with
    | none => simp [h1] at h
    | some i =>
      cases h2 : (b.load_l i).val with
      | none => simp [h1, h2] at h
      | some l =>
        simp [h1, h2] at h
        rw [← h.1]
        exact key _ (le_refl _)

theorem find_head_cost {b : Buf f} {dec : Option ℕ} (hb : b.nlimbs ≤ u) (hdec : ∀ x ∈ dec, x < B) :
    (find_head b dec).steps ≤ 3 * u + 6 := by
  cases dec with
  | some dec =>
    refine (show Cost (find_head b (some dec)) (3 * u + 6) (none, none) from ?_).1
    unfold find_head; cost; omega
  | none =>
    refine (show Cost (find_head b none) (3 * u + 6) (none, none) from ?_).1
    unfold find_head; cost; omega

theorem head_borrow_cost {b : Buf f} {n : ℕ} {dec : Option ℕ} (hn : n ≤ u) :
    Cost (head_borrow b n dec) (2 * u) none := by
  cases dec with
  | some dec => unfold head_borrow; cost; omega
  | none => unfold head_borrow; cost; omega

end CtMpDivisor

theorem CtLDivisor.new_cost {x : ℕ} : Cost (CtLDivisor.new x) 1 () := by
  unfold CtLDivisor.new; cost; omega

namespace CtMpDivisor
variable {d : CtMpDivisor f}

theorem new_scaled_cost {b : Buf f} {dec : Option ℕ} {n x : ℕ} (hn : ct_mp_nlimbs n ≤ u) :
    Cost (new_scaled b dec n x) (4 * u + 4) u := by
  unfold new_scaled; cost
  omega

theorem make_q_estimate_cost {a b c : ℕ} : Cost (make_q_estimate d a b c) 0 none := by
  unfold make_q_estimate; cost; omega

theorem scale_val_cost {a b : ℕ} : Cost (d.scale_val a b) 0 (none, none) := _scale_val_cost

theorem scaled_v_val_cost {i a b : ℕ} : Cost (d.scaled_v_val i a b) 1 (none, none, none) := by
  unfold scaled_v_val; cost; omega

theorem unscale_val_cost {a b : ℕ} : Cost (d.unscale_val a b) 0 none := by
  unfold unscale_val; cost; omega

theorem add_scaled_v_val_cond_cost {o i a b : ℕ} {c : LimbChoice} :
    Cost (d.add_scaled_v_val_cond o i a b c) 1 (none, none, none) := by
  unfold add_scaled_v_val_cond; cost; omega

theorem sub_scaled_qv_val_cost {o i q a b c : ℕ} :
    Cost (d.sub_scaled_qv_val o i q a b c) 1 (none, none, none, none) := by
  unfold sub_scaled_qv_val; cost; omega

end CtMpDivisor

theorem store_q_cost {q : Option (Buf h)} {j x : ℕ} {c : LimbChoice} (hq : Shape.fits q w) :
    Cost (store_q q j x c) 3 w := by
  unfold store_q
  cases q with
  | none => cost; omega
  | some q =>
    have hq := fits_some_elim hq
    have hq : q.nlimbs ≤ w := hq
    cost; omega

theorem clear_q_cost {q : Option (Buf h)} {n : ℕ} (hq : Shape.fits q w) :
    Cost (clear_q q n) (w + 1) w := by
  unfold clear_q
  cases q with
  | none => cost; omega
  | some q =>
    have hq := fits_some_elim hq
    have hq : q.nlimbs ≤ w := hq
    cost; omega

theorem div_step_cost {d : CtMpDivisor g} {j k : ℕ} {x : Composite f × Option (Buf h)} (hd : ct_mp_nlimbs d.v_len ≤ v)
    (hx : Shape.fits x ((k, u), w)) : Cost (div_step d j x) (v * (16 * k + 28) + 28 * k + 50) ((k, u), w) := by
  obtain ⟨p, q⟩ := x
  obtain ⟨h1, h2⟩ := hx
  unfold div_step; cost
  simp only
  cost_fin

theorem CtMpDivisor.new_cost {b : Buf f} {dec : Option ℕ} (hb : b.nlimbs ≤ u) (hdec : ∀ x ∈ dec, x < B) :
    Cost (CtMpDivisor.new b dec) (7 * u + 12) u := by
  have h1 : Cost (CtMpDivisor.find_head b dec) (3 * u + 6) (some (u * LB), none) := by
    refine ⟨CtMpDivisor.find_head_cost hb hdec, fun o ho p hp => ?_⟩
    subst hp
    obtain ⟨x, y⟩ := p
    refine fits_mk (fits_nat_le ?_) fits_nat
    exact nlimbs_le_iff.1 (le_trans (CtMpDivisor.find_head_nlimbs hdec ho) hb)
  have h2 : ∀ x y, x ≤ u * LB → Cost (CtMpDivisor.new_scaled b dec x y) (4 * u + 4) u := fun x y hx =>
    CtMpDivisor.new_scaled_cost (nlimbs_le_iff.2 hx)
  unfold CtMpDivisor.new
  refine (Cost.cond (n := 0) (.pure fits_none) (h1.bind (k := 4 * u + 5) fun o ho => ?_)).mono ?_
  · cases o with
    | none => cost; omega
    | some p =>
      obtain ⟨x, y⟩ := p
      have := fits_nat_elim (fits_some_elim ho).1
      dsimp only
      cost; omega
  · simp only [Nat.zero_max]; omega

theorem nlimbs_add_le {a b x y : ℕ} (ha : ct_mp_nlimbs a ≤ x) (hb : ct_mp_nlimbs b ≤ y) : ct_mp_nlimbs (a + b) ≤ x + y := by
  rw [nlimbs_le_iff] at *
  rw [Nat.add_mul]; omega

theorem nlimbs_zeros {n : ℕ} (hn : n ≤ 2 * LB) : (Buf.zeros f n).nlimbs ≤ 2 := by
  have := LB_pos
  have h : ∀ f : Fmt, (Buf.zeros f n).len ≤ 2 * LB := fun f => by
    cases f with
    | be => exact le_trans (le_of_eq (Buf.zeros_len (Or.inl rfl))) hn
    | le => exact le_trans (le_of_eq (Buf.zeros_len (Or.inl rfl))) hn
    | ne =>
      have := nlimbs_le_iff.2 hn
      have h2 : Buf.n_backing_elements_for_len .ne n = ct_mp_nlimbs n := by
        simp [Buf.n_backing_elements_for_len, Buf._limbs_align_len, Fmt.usz, ct_mp_limbs_align_len, Fmt.unaligned, LB_pos]
      simp only [Buf.zeros, Buf.len, h2, List.length_replicate]
      exact Nat.mul_le_mul_right _ this
  exact nlimbs_le_iff.2 (h f)

theorem parts_cost {a : Option (Buf f)} {c : Composite f} {q : Option (Buf h)} (hc : Shape.fits c (k, u))
    (hq : Shape.fits q w) : Cost (match c.parts with
      | [u_l, u_h', _] => pure (.ok (a.map fun _ => u_h', u_l, q))
      | _ => M.panic : M (Except DivError (Option (Buf f) × Buf f × Option (Buf h)))) 0 (2 * u, 2 * u, w) := by
  split
  · rename_i x y z hp
    refine .pure (fits_ok (fits_mk ?_ (fits_mk ?_ hq)))
    · intro b hb
      cases a with
      | none => simp at hb
      | some a =>
        simp only [Option.map_some, Option.some.injEq] at hb
        subst hb
        exact Composite.parts_nlimbs hc (by simp [hp])
    · exact Composite.parts_nlimbs hc (by simp [hp])
  · exact .panic

theorem ct_div_mp_mp_cost {a : Option (Buf f)} {b : Buf f} {d : CtMpDivisor g} {q : Option (Buf h)}
    (ha : Shape.fits a u) (hb : b.nlimbs ≤ u) (hd : ct_mp_nlimbs d.v_len ≤ v) (hq : Shape.fits q w) :
    Cost (ct_div_mp_mp a b d q) ((2 * u + 1) * (76 * v + 172) + 37 * v + 3 * u + w + 16) (2 * (u + 2), 2 * (u + 2), w) := by
  have h0 : (a.getD (Buf.zeros f 0)).nlimbs ≤ u := by
    cases a with
    | none =>
      have : (Buf.zeros f 0).nlimbs = 0 := by
        unfold Buf.nlimbs
        rw [Buf.zeros_len (Or.inr (dvd_zero _))]; simp [ct_mp_nlimbs, LB_pos]
      simp [this]
    | some a => exact ha a rfl
  have hn : ct_mp_nlimbs (b.len + (a.getD (Buf.zeros f 0)).len) ≤ u + u := nlimbs_add_le hb h0
  have hpad : (Buf.zeros f (LB + if (b.len + (a.getD (Buf.zeros f 0)).len) % LB = 0 then 0 else
      LB - (b.len + (a.getD (Buf.zeros f 0)).len) % LB)).nlimbs ≤ 2 := by
    apply nlimbs_zeros
    split <;> omega
  have hl : ct_mp_nlimbs (b.len + (a.getD (Buf.zeros f 0)).len + 1 - d.v_len) ≤ u + u + 1 := by
    refine le_trans (nlimbs_mono (Nat.sub_le _ _)) (nlimbs_add_le hn (nlimbs_le_iff.2 ?_))
    have := LB_pos
    omega
  unfold ct_div_mp_mp
  generalize a.getD (Buf.zeros f 0) = a' at *
  generalize hP : (Buf.zeros f (LB + if (b.len + a'.len) % LB = 0 then 0 else LB - (b.len + a'.len) % LB)) = P at *
  have hnew : Cost (Composite.new [b, a', P]) (3 * (u + 4)) (3, u + 2) := by
    refine Composite.new_cost (by omega) ?_
    intro x hx
    simp only [List.mem_cons, List.not_mem_nil, or_false] at hx
    rcases hx with rfl | rfl <;> omega
  dsimp only
  rw [hP]
  have ha' : Shape.fits a (2 * (u + 2)) := fun x hx => le_trans (ha x hx) (show u ≤ 2 * (u + 2) by omega)
  have hb' : b.nlimbs ≤ 2 * (u + 2) := by omega
  clear ha
  have hparts := fun (c : Composite f) (q : Option (Buf h)) (hc : Shape.fits c (3, u + 2)) (hq : Shape.fits q w) =>
    parts_cost (a := a) hc hq
  refine Cost.mono (n := 1 + max 0 (1 + max (w + 1) ((2 * u + 1) * (76 * v + 172) + 37 * v + 3 * u + w + 13)))
    (Cost.cond (.pure fits_err) (Cost.cond ?_ ?_)) ?_
  · cost
    exact Nat.le_refl _
  · cost
    simp only
    cost_fin
  · omega

theorem ct_mod_mp_mp_cost {a : Option (Buf f)} {b : Buf f} {d : CtMpDivisor g}
    (ha : Shape.fits a u) (hb : b.nlimbs ≤ u) (hd : ct_mp_nlimbs d.v_len ≤ v) :
    Cost (ct_mod_mp_mp a b d) ((2 * u + 1) * (76 * v + 172) + 37 * v + 3 * u + 16) (2 * (u + 2), 2 * (u + 2)) := by
  unfold ct_mod_mp_mp
  refine ((ct_div_mp_mp_cost (w := 0) ha hb hd fits_none).bind (k := 0) fun r hr => ?_).mono (by omega)
  cases r with
  | error e => exact .panic
  | ok x =>
    have := fits_ok_elim hr
    exact .pure (fits_mk this.1 this.2.1)

theorem pow2_sub_low_cost {d : CtMpDivisor g} {q : ℕ} {r : Buf f} (hd : ct_mp_nlimbs d.v_len ≤ v) (hr : r.nlimbs ≤ u) :
    Cost (pow2_sub_low d q r) (4 * v + 2) (u, none, none, none, none, none) := by
  unfold pow2_sub_low; cost; cost_fin

theorem pow2_step_cost {d : CtMpDivisor g} {j : ℕ} {x : Buf f × ℕ × ℕ × Option (Buf h)}
    (hd : ct_mp_nlimbs d.v_len ≤ v) (hx : Shape.fits x (u, none, none, w)) :
    Cost (pow2_step d j x) (8 * v + 20) (u, none, none, w) := by
  obtain ⟨r, s0, s1, q⟩ := x
  obtain ⟨h1, h2, h3, h4⟩ := hx
  have h1 : r.nlimbs ≤ u := h1
  unfold pow2_step; cost; cost_fin

theorem ct_div_pow2_mp_cost {e : ℕ} {r : Buf f} {d : CtMpDivisor g} {q : Option (Buf h)}
    (hd : ct_mp_nlimbs d.v_len ≤ v) (hr : r.nlimbs ≤ u) (hq : Shape.fits q w) :
    Cost (ct_div_pow2_mp e r d q) ((e / W + 2) * (8 * v + 21) + 5 * v + u + w + 20) (u, w) := by
  have hn : ct_mp_nlimbs ((e + 1 + 8 - 1) / 8 + 1 - d.v_len) ≤ e / W + 2 := by
    refine le_trans (nlimbs_mono (Nat.sub_le _ _)) (nlimbs_le_iff.2 ?_)
    have h1 := LB_pos
    have h2 : e / 8 < (e / 8 / LB + 1) * LB := by
      have := Nat.div_add_mod (e / 8) LB
      have := Nat.mod_lt (e / 8) h1
      rw [Nat.succ_mul, Nat.mul_comm]; omega
    rw [Nat.div_div_eq_div_mul] at h2
    have h3 : (e + 1 + 8 - 1) / 8 = e / 8 + 1 := by omega
    rw [h3, show e / W + 2 = (e / (8 * LB) + 1) + 1 from rfl, Nat.succ_mul]
    omega
  unfold ct_div_pow2_mp
  dsimp only
  refine Cost.mono (n := 1 + max 0 (1 + max 0 (u + 1 + (0 + (1 + max (1 + (w + 1 + 0)) ((e / W + 2) * (8 * v + 21) + 5 * v + w + 10))))))
    (Cost.cond (.pure fits_err) (Cost.cond (.pure fits_err) ?_)) ?_
  · cost
    generalize e / W + 2 = n
    cost_fin
  · omega

theorem ct_mod_pow2_mp_cost {e : ℕ} {r : Buf f} {d : CtMpDivisor g} (hd : ct_mp_nlimbs d.v_len ≤ v)
    (hr : r.nlimbs ≤ u) : Cost (ct_mod_pow2_mp e r d) ((e / W + 2) * (8 * v + 21) + 5 * v + u + 20) u := by
  unfold ct_mod_pow2_mp
  refine ((ct_div_pow2_mp_cost (w := 0) hd hr fits_none).bind (k := 0) fun r hr => ?_).mono (by omega)
  cases r with
  | error e => cases e with
    | InsufficientQuotientSpace => exact .panic
    | InsufficientRemainderSpace => exact .pure fits_err
  | ok x => exact .pure (fits_ok (fits_ok_elim hr).1)

theorem arrGet_cost {l : List ℕ} {i : ℕ} : Cost (arrGet l i) 0 none := Cost.ofOption

theorem arrSet_cost {l : List ℕ} {i x : ℕ} : Cost (arrSet l i x) 0 () := by
  unfold arrSet; cost; omega

theorem lshifted_load_cost {a : Buf f} {l : List ℕ} {x y z t : ℕ} : Cost (lshifted_load a l x y z t) 3 none := by
  unfold lshifted_load; cost; cost_fin

theorem lshifted_modify_cost {α S : Type} [Shape α S] {s : S} {x i : ℕ} {a : Buf f} {l : List ℕ} {op : ℕ → M (α × ℕ)}
    (ha : a.nlimbs ≤ u) (hop : ∀ y, Cost (op y) k (s, none)) : Cost (lshifted_modify x a l i op) (k + 3) (u, (), s) := by
  unfold lshifted_modify
  cost
  cost_fin

theorem lshifted_head_step_cost {d : CtMpDivisor g} {n m j : ℕ} {x : Buf f × List ℕ × Option (Buf h)}
    (hd : ct_mp_nlimbs d.v_len ≤ v) (hx : Shape.fits x (u, (), w)) :
    Cost (lshifted_head_step d n m j x) (10 * v + 30) (u, (), w) := by
  obtain ⟨r, s, q⟩ := x
  obtain ⟨h1, h2, h4⟩ := hx
  have h1 : r.nlimbs ≤ u := h1
  unfold lshifted_head_step; cost; cost_fin

theorem lshifted_tail_step_cost {d : CtMpDivisor g} {j : ℕ} {x : Buf f × ℕ × Option (Buf h)}
    (hd : ct_mp_nlimbs d.v_len ≤ v) (hx : Shape.fits x (u, none, w)) :
    Cost (lshifted_tail_step d j x) (8 * v + 20) (u, none, w) := by
  obtain ⟨r, s0, q⟩ := x
  obtain ⟨h1, h2, h4⟩ := hx
  have h1 : r.nlimbs ≤ u := h1
  unfold lshifted_tail_step; cost; cost_fin

theorem lshifted_main_cost {a : Buf f} {d : CtMpDivisor g} {q : Option (Buf h)} {x y : ℕ} (ha : a.nlimbs ≤ u)
    (hd : ct_mp_nlimbs d.v_len ≤ v) (hq : Shape.fits q w) (hn : ct_mp_nlimbs (x + y + 1 - d.v_len) ≤ k) :
    Cost (lshifted_main a x y d q) (k * (10 * v + 31) + y / LB * (8 * v + 21) + 10 * u + 3 * v + w + 13) (u, w) := by
  unfold lshifted_main; cost
  generalize y / LB = y'
  cost_fin

theorem ct_div_lshifted_mp_mp_cost {a : Buf f} {d : CtMpDivisor g} {q : Option (Buf h)} {x y : ℕ} (ha : a.nlimbs ≤ u)
    (hd : ct_mp_nlimbs d.v_len ≤ v) (hq : Shape.fits q w) (hk : ct_mp_nlimbs (x + y) ≤ k) :
    Cost (ct_div_lshifted_mp_mp a x y d q) ((k + 1) * (18 * v + 52) + 10 * u + 3 * v + w + 16) (u, w) := by
  have hn : ct_mp_nlimbs (x + y + 1 - d.v_len) ≤ k + 1 := by
    refine le_trans (nlimbs_mono (Nat.sub_le _ _)) (nlimbs_add_le hk (nlimbs_le_iff.2 ?_))
    have := LB_pos
    omega
  have hy : y / LB ≤ k := by
    have := nlimbs_le_iff.1 hk
    exact Nat.div_le_of_le_mul (by rw [Nat.mul_comm]; omega)
  have hm := lshifted_main_cost (a := a) (q := q) ha hd hq hn
  generalize y / LB = y' at *
  have h2 : y' * (8 * v + 21) ≤ (k + 1) * (8 * v + 21) := Nat.mul_le_mul_right _ (by omega)
  have h3 : (k + 1) * (18 * v + 52) = (k + 1) * (10 * v + 31) + (k + 1) * (8 * v + 21) := by ring
  rw [h3]
  generalize (k + 1) * (10 * v + 31) = A at *
  generalize (k + 1) * (8 * v + 21) = C at *
  unfold ct_div_lshifted_mp_mp; cost
  omega

theorem ct_mod_lshifted_mp_mp_cost {a : Buf f} {d : CtMpDivisor g} {x y : ℕ} (ha : a.nlimbs ≤ u)
    (hd : ct_mp_nlimbs d.v_len ≤ v) (hk : ct_mp_nlimbs (x + y) ≤ k) :
    Cost (ct_mod_lshifted_mp_mp a x y d) ((k + 1) * (18 * v + 52) + 10 * u + 3 * v + 16) u := by
  unfold ct_mod_lshifted_mp_mp
  refine ((ct_div_lshifted_mp_mp_cost (w := 0) ha hd fits_none hk).bind (k := 0) fun r hr => ?_).mono (by omega)
  cases r with
  | error e => cases e with
    | InsufficientQuotientSpace => exact .panic
    | InsufficientRemainderSpace => exact .pure fits_err
  | ok x => exact .pure (fits_ok (fits_ok_elim hr).1)

theorem store_q_l_cost {q : Option (Buf h)} {j x : ℕ} (hq : Shape.fits q w) : Cost (store_q_l q j x) 1 w := by
  unfold store_q_l
  cases q with
  | none => cost; omega
  | some q =>
    have hq := fits_some_elim hq
    have hq : q.nlimbs ≤ w := hq
    cost; omega

theorem div_mp_l_main_cost {a : Buf f} {d : CtLDivisor} {q : Option (Buf h)} (ha : a.nlimbs ≤ u) (hq : Shape.fits q w) :
    Cost (div_mp_l_main a d q) (3 * u) (none, w) := by
  unfold div_mp_l_main; cost; cost_fin

theorem ct_div_mp_l_cost {a : Buf f} {d : CtLDivisor} {q : Option (Buf h)} (ha : a.nlimbs ≤ u) (hq : Shape.fits q w) :
    Cost (ct_div_mp_l a d q) (3 * u + w + 5) (none, w) := by
  unfold ct_div_mp_l
  refine Cost.mono (n := 1 + max 0 (3 * u + w + 4)) (Cost.cond (.pure (fits_ok (fits_mk fits_nat hq))) ?_) (by omega)
  cases q with
  | none => cost; omega
  | some q =>
    have hq := fits_some_elim hq
    have hq : q.nlimbs ≤ w := hq
    cost; cost_fin

theorem ct_mod_mp_l_cost {a : Buf f} {d : CtLDivisor} (ha : a.nlimbs ≤ u) :
    Cost (ct_mod_mp_l a d) (3 * u + 5) none := by
  unfold ct_mod_mp_l
  refine ((ct_div_mp_l_cost (w := 0) ha fits_none).bind (k := 0) fun r hr => ?_).mono (by omega)
  cases r with
  | error e => exact .panic
  | ok x => exact .pure fits_nat

end Cmpa
