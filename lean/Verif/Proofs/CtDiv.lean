import Verif.Proofs.CtArith
import Verif.Model.Div

/-!
# Constant time: division
-/

set_option linter.unusedSectionVars false

namespace Cmpa
open M
variable [LimbCfg] [Obs] {f g h : Fmt}

/-! ### Composite buffers -/

/-- The public parts of a segment. -/
instance : Pub (Seg f) := ⟨fun s t => s.stop = t.stop ∧ s.segment.len = t.segment.len ∧
  s.high_next_partial.len = t.high_next_partial.len⟩

/-- The public parts of a composite buffer. -/
instance : Pub (List (Seg f)) := ⟨List.Forall₂ Pub.rel⟩

namespace Composite
variable {c c' : Composite f}

theorem low_cons {s t : Seg f} {c d : Composite f} : Pub.rel (s :: c) (t :: d) ↔ Pub.rel s t ∧ Pub.rel c d :=
  List.forall₂_cons

theorem low_isEmpty {c d : Composite f} (h : Pub.rel c d) : c.isEmpty = d.isEmpty := by
  cases h <;> rfl

theorem create_segments_ct : ∀ {l l' : List (Buf f)} {s s' : Buf f} {n : ℕ}, s.len = s'.len →
    List.Forall₂ (fun a b => a.len = b.len) l l' → Ct (create_segments n s l) (create_segments n s' l')
  | [], _, s, s', n, hs, hl => by
    cases hl
    unfold create_segments
    iterate 3 ct_step
    rename_i h1 h2
    refine SameTr.pure ?_
    exact List.Forall₂.cons ⟨by simp only [h1], h2, h1⟩ List.Forall₂.nil
  | a :: l, _, s, s', n, hs, hl => by
    cases hl with
    | @cons _ _ _ l' ha hl =>
      have ih : ∀ {s s' : Buf f} {n n' : ℕ}, s.len = s'.len → n = n' →
          Ct (create_segments n s l) (create_segments n' s' l') := by
        intro _ _ _ _ h hn
        subst hn
        exact create_segments_ct h hl
      unfold create_segments
      simp only [hs, ha]
      refine SameTr.cond Iff.rfl (fun _ => ?_) (fun _ => ?_)
      · refine SameTr.bind (Buf.take_ct ha rfl) ?_
        rintro ⟨x, y⟩ ⟨x', y'⟩ ⟨h1, h2⟩
        rw [low_buf] at h1 h2
        dsimp only at h1 h2 ⊢
        refine SameTr.bind (ih h1 (by rw [h2])) fun _ _ h => SameTr.pure ?_
        exact low_cons.2 ⟨⟨by simp only [h2], hs, h2⟩, h⟩
      · refine SameTr.bind (Buf.take_ct hs rfl) ?_
        rintro ⟨x, y⟩ ⟨x', y'⟩ ⟨h1, h2⟩
        rw [low_buf] at h1 h2
        dsimp only at h1 h2 ⊢
        refine SameTr.bind (ih ha (by rw [h1])) fun _ _ h => SameTr.pure ?_
        exact low_cons.2 ⟨⟨by simp only [h1], h2, h1⟩, h⟩

theorem new_ct {l l' : List (Buf f)} (h : List.Forall₂ (fun a b => a.len = b.len) l l') : Ct (new l) (new l') := by
  cases h with
  | nil => exact SameTr.pure List.Forall₂.nil
  | cons ha hl => exact create_segments_ct ha hl

theorem load_partials_ct : ∀ {c c' : Composite f} {n n' v v' : ℕ}, n = n' → Pub.rel c c' →
    Ct (load_partials n v c) (load_partials n' v' c')
  | [], _, n, n', v, v', hn, hc => by
    cases hc
    exact SameTr.pure trivial
  | s :: c, _, n, n', v, v', hn, hc => by
    cases hc with
    | cons hs hc =>
      obtain ⟨h1, h2, h3⟩ := hs
      have ih : ∀ {n n' v v' : ℕ}, n = n' → Ct (load_partials n v c) (load_partials n' v' _) :=
        fun hn => load_partials_ct hn hc
      subst hn
      unfold load_partials
      refine SameTr.cond Iff.rfl (fun _ => ?_) (fun _ => SameTr.pure trivial)
      refine SameTr.cond ?_ (fun _ => ?_) (fun _ => ih rfl)
      · rw [← Bool.not_eq_true, ← Bool.not_eq_true, is_empty_congr h3]
      · refine SameTr.bind (Buf.load_l_ct h3 (fun _ => rfl)) fun _ _ _ => ?_
        refine SameTr.bind (SameTr.quiet (quiet_shlC _ _) (quiet_shlC _ _)) fun _ _ _ => ?_
        exact ih (by rw [h3])

theorem load_at_ct {s s' : Seg f} {i o o' : ℕ} (ho : o = o') (hs : Pub.rel s s') (hc : Pub.rel c c') :
    Ct (load_at i o s c) (load_at i o' s' c') := by
  obtain ⟨h1, h2, h3⟩ := hs
  subst ho
  unfold load_at
  rw [h1, h2, low_isEmpty hc]
  refine SameTr.bind (SameTr.subEq rfl rfl) fun k _ hk => ?_
  subst hk
  refine SameTr.cond Iff.rfl (fun _ => Buf.load_l_full_ct h2 (fun _ => rfl)) fun _ => ?_
  refine SameTr.cond Iff.rfl (fun _ => Buf.load_l_ct h2 (fun _ => rfl)) fun _ => ?_
  refine SameTr.bind (Buf.load_l_ct h2 (fun _ => rfl)) fun _ _ _ => ?_
  exact load_partials_ct rfl (low_cons.2 ⟨⟨h1, h2, h3⟩, hc⟩)

theorem load_from_ct {i : ℕ} : ∀ {c c' : Composite f} {o o' : ℕ}, o = o' → Pub.rel c c' →
    Ct (load_from i o c) (load_from i o' c')
  | [], _, o, o', ho, hc => by cases hc; exact SameTr.panicL
  | s :: c, _, o, o', ho, hc => by
    cases hc with
    | cons hs hc =>
      unfold load_from
      refine SameTr.cond (by rw [hs.1]) (fun _ => load_at_ct ho hs hc) fun _ => load_from_ct hs.1 hc

theorem load_ct {i j : ℕ} (hc : Pub.rel c c') (hi : i = j) : Ct (load c i) (load c' j) := by
  subst hi
  exact load_from_ct rfl hc

theorem store_partials_ct : ∀ {c c' : Composite f} {n n' v v' : ℕ}, n = n' → Pub.rel c c' →
    SameTr (store_partials n v c) (store_partials n' v' c') (fun a b => Pub.rel a.1 b.1)
  | [], _, n, n', v, v', hn, hc => by
    cases hc
    exact SameTr.pure List.Forall₂.nil
  | s :: c, _, n, n', v, v', hn, hc => by
    cases hc with
    | cons hs hc =>
      obtain ⟨h1, h2, h3⟩ := hs
      have ih : ∀ {n n' v v' : ℕ}, n = n' → SameTr (store_partials n v c) (store_partials n' v' _)
          (fun a b => Pub.rel a.1 b.1) := fun hn => store_partials_ct hn hc
      subst hn
      unfold store_partials
      refine SameTr.cond Iff.rfl (fun _ => ?_) (fun _ => SameTr.pure (low_cons.2 ⟨⟨h1, h2, h3⟩, hc⟩))
      refine SameTr.cond ?_ (fun _ => ?_) (fun _ => ?_)
      · rw [← Bool.not_eq_true, ← Bool.not_eq_true, is_empty_congr h3]
      · refine SameTr.bind (Buf.store_l_ct h3 rfl) fun p p' hp => ?_
        rw [low_buf] at hp
        refine SameTr.bind (SameTr.quiet (quiet_shrC _ _) (quiet_shrC _ _)) fun _ _ _ => ?_
        refine SameTr.bind (ih (by rw [hp])) ?_
        rintro ⟨x, y⟩ ⟨x', y'⟩ h
        exact SameTr.pure (low_cons.2 ⟨⟨h1, h2, hp⟩, h⟩)
      · refine SameTr.bind (ih rfl) ?_
        rintro ⟨x, y⟩ ⟨x', y'⟩ h
        exact SameTr.pure (low_cons.2 ⟨⟨h1, h2, h3⟩, h⟩)

theorem store_at_ct {s s' : Seg f} {i o o' v v' : ℕ} (ho : o = o') (hs : Pub.rel s s') (hc : Pub.rel c c') :
    Ct (store_at i v o s c) (store_at i v' o' s' c') := by
  obtain ⟨h1, h2, h3⟩ := hs
  subst ho
  unfold store_at
  rw [h1, h2, low_isEmpty hc]
  refine SameTr.bind (SameTr.subEq rfl rfl) fun k _ hk => ?_
  subst hk
  refine SameTr.cond Iff.rfl (fun _ => ?_) fun _ => ?_
  · exact SameTr.bind (Buf.store_l_full_ct h2 rfl) fun _ _ h => SameTr.pure (low_cons.2 ⟨⟨rfl, h, h3⟩, hc⟩)
  refine SameTr.cond Iff.rfl (fun _ => ?_) fun _ => ?_
  · exact SameTr.bind (Buf.store_l_ct h2 rfl) fun _ _ h => SameTr.pure (low_cons.2 ⟨⟨rfl, h, h3⟩, hc⟩)
  refine SameTr.bind (Buf.store_l_ct h2 rfl) fun _ _ h => ?_
  refine SameTr.bind (SameTr.quiet (quiet_shrC _ _) (quiet_shrC _ _)) fun _ _ _ => ?_
  refine SameTr.bind (store_partials_ct rfl (low_cons.2 ⟨⟨rfl, h, h3⟩, hc⟩)) ?_
  rintro ⟨x, y⟩ ⟨x', y'⟩ h
  exact SameTr.bind SameTr.assert fun _ _ _ => SameTr.pure h

theorem store_from_ct {i v v' : ℕ} : ∀ {c c' : Composite f} {o o' : ℕ}, o = o' → Pub.rel c c' →
    Ct (store_from i v o c) (store_from i v' o' c')
  | [], _, o, o', ho, hc => by cases hc; exact SameTr.panicL
  | s :: c, _, o, o', ho, hc => by
    cases hc with
    | cons hs hc =>
      unfold store_from
      refine SameTr.cond (by rw [hs.1]) (fun _ => store_at_ct ho hs hc) fun _ => ?_
      exact SameTr.bind (store_from_ct hs.1 hc) fun _ _ h => SameTr.pure (low_cons.2 ⟨hs, h⟩)

theorem store_ct {i j v v' : ℕ} (hc : Pub.rel c c') (hi : i = j) : Ct (store c i v) (store c' j v') := by
  subst hi
  exact store_from_ct rfl hc

theorem parts_from_low : ∀ {c c' : Composite f} {p p' : Buf f}, Pub.rel c c' → p.len = p'.len →
    List.Forall₂ (fun a b : Buf f => a.len = b.len) (parts_from p c) (parts_from p' c')
  | [], _, _, _, hc, _ => by cases hc; exact List.Forall₂.nil
  | s :: c, _, p, p', hc, hp => by
    cases hc with
    | cons hs hc =>
      unfold parts_from
      exact List.Forall₂.cons (by rw [Buf.len_join, Buf.len_join, hs.2.1, hp]) (parts_from_low hc hs.2.2)

theorem parts_low (hc : Pub.rel c c') :
    List.Forall₂ (fun a b : Buf f => a.len = b.len) (parts c) (parts c') := by
  cases hc with
  | nil => exact List.Forall₂.nil
  | cons hs hc => exact List.Forall₂.cons hs.2.1 (parts_from_low hc hs.2.2)

end Composite

/-! ### Divisors -/

/-- The lengths are public, the divisor and the decrement are not. -/
instance : Pub (CtMpDivisor f) := ⟨fun d e => d.v.len = e.v.len ∧ d.v_len = e.v_len⟩

namespace CtMpDivisor
variable {d d' : CtMpDivisor f}

theorem _scale_val_ct {a b c e x a' b' c' e' x' : ℕ} : Ct (_scale_val a b c e x) (_scale_val a' b' c' e' x') := by
  unfold _scale_val
  ct

theorem make_q_estimate_ct {x y z x' y' z' : ℕ} :
    Ct (d.make_q_estimate x y z) (d'.make_q_estimate x' y' z') := by
  unfold make_q_estimate
  ct

theorem scale_val_ct {x y x' y' : ℕ} : Ct (d.scale_val x y) (d'.scale_val x' y') := by
  unfold scale_val
  ct

theorem scaled_v_val_ct {i j x y x' y' : ℕ} (hd : d.v.len = d'.v.len) (hi : i = j) :
    Ct (d.scaled_v_val i x y) (d'.scaled_v_val j x' y') := by
  unfold scaled_v_val
  ct

theorem unscale_val_ct {x y x' y' : ℕ} : Ct (d.unscale_val x y) (d'.unscale_val x' y') := by
  unfold unscale_val
  ct

theorem add_scaled_v_val_cond_ct {i j x y z x' y' z' : ℕ} {c c' : LimbChoice} (hd : d.v.len = d'.v.len) (hi : i = j) :
    Ct (d.add_scaled_v_val_cond x i y z c) (d'.add_scaled_v_val_cond x' j y' z' c') := by
  unfold add_scaled_v_val_cond
  ct

theorem sub_scaled_qv_val_ct {i j x y z w u x' y' z' w' u' : ℕ} (hd : d.v.len = d'.v.len) (hi : i = j) :
    Ct (d.sub_scaled_qv_val x i y z w u) (d'.sub_scaled_qv_val x' j y' z' w' u') := by
  unfold sub_scaled_qv_val
  ct

end CtMpDivisor

theorem store_q_ct {q q' : Option (Buf h)} {i j x x' : ℕ} {c c' : LimbChoice} (hq : Pub.rel q q') (hi : i = j) :
    CtOk (store_q q i x c) (store_q q' j x' c') := by
  subst hi
  match q, q', hq with
  | none, none, _ => exact CtOk.pure trivial
  | some q, some q', hq =>
    rw [low_some, low_buf] at hq
    unfold store_q
    dsimp only
    ct

theorem clear_q_ct {q q' : Option (Buf h)} {i j : ℕ} (hq : Pub.rel q q') (hi : i = j) :
    Ct (clear_q q i) (clear_q q' j) := by
  subst hi
  match q, q', hq with
  | none, none, _ => exact SameTr.pure trivial
  | some q, some q', hq =>
    rw [low_some, low_buf] at hq
    unfold clear_q
    dsimp only
    ct

variable {v v' : CtMpDivisor g}

theorem div_step_ct {i j : ℕ} {s s' : Composite f × Option (Buf h)} (hv : v.v.len = v'.v.len)
    (hl : v.v_len = v'.v_len) (hi : i = j) (hs : Pub.rel s s') :
    CtOk (div_step v i s) (div_step v' j s') := by
  obtain ⟨c, q⟩ := s
  obtain ⟨c', q'⟩ := s'
  obtain ⟨hc, hq⟩ := hs
  dsimp only at hc hq
  subst hi
  unfold div_step
  ct

theorem getD_low {u u' : Option (Buf f)} (hu : Pub.rel u u') :
    (u.getD (Buf.zeros f 0)).len = (u'.getD (Buf.zeros f 0)).len := by
  match u, u', hu with
  | none, none, _ => rfl
  | some _, some _, hu => exact hu

theorem ct_div_mp_mp_ct {u_h w : Option (Buf f)} {u_l u_l' : Buf f} {q q' : Option (Buf h)}
    (hh : Pub.rel u_h w) (hu : u_l.len = u_l'.len) (hv : v.v.len = v'.v.len) (hl : v.v_len = v'.v_len)
    (hq : Pub.rel q q') :
    CtOk (ct_div_mp_mp u_h u_l v q) (ct_div_mp_mp w u_l' v' q') := by
  have hd := getD_low hh
  unfold ct_div_mp_mp
  ct
  rename_i hq2 _ _ _ _ _ _ hp
  dsimp only at hp ⊢
  have hp := Composite.parts_low hp
  revert hp
  generalize Composite.parts _ = l
  generalize Composite.parts _ = l'
  intro hp
  rcases hp with _ | ⟨h1, _ | ⟨h2, _ | ⟨h3, _ | _⟩⟩⟩
  · exact CtOk.panicL
  · exact CtOk.panicL
  · exact CtOk.panicL
  · refine CtOk.pure ⟨?_, h1, hq2⟩
    match u_h, w, hh with
    | none, none, _ => trivial
    | some _, some _, _ => exact h2
  · exact CtOk.panicL

theorem ct_mod_mp_mp_ct {u_h u_h' : Option (Buf f)} {u_l u_l' : Buf f}
    (hh : Pub.rel u_h u_h') (hu : u_l.len = u_l'.len) (hv : v.v.len = v'.v.len) (hl : v.v_len = v'.v_len) :
    Ct (ct_mod_mp_mp u_h u_l v) (ct_mod_mp_mp u_h' u_l' v') := by
  unfold ct_mod_mp_mp
  ct

theorem pow2_sub_low_ct {x x' : ℕ} {r r' : Buf f} (hv : v.v.len = v'.v.len) (hl : v.v_len = v'.v_len)
    (hr : r.len = r'.len) :
    SameTr (pow2_sub_low v x r) (pow2_sub_low v' x' r')
      (fun a b => Pub.rel a b ∧ a.2.2.2.2.1 = b.2.2.2.2.1) := by
  unfold pow2_sub_low
  ct

theorem pow2_step_ct {i j : ℕ} {s s' : Buf f × ℕ × ℕ × Option (Buf h)} (hv : v.v.len = v'.v.len)
    (hl : v.v_len = v'.v_len) (hi : i = j) (hs : Pub.rel s s') :
    CtOk (pow2_step v i s) (pow2_step v' j s') := by
  obtain ⟨c, s0, s1, q⟩ := s
  obtain ⟨c', s0', s1', q'⟩ := s'
  obtain ⟨hc, -, -, hq⟩ := hs
  rw [low_buf] at hc
  dsimp only at hc hq
  subst hi
  unfold pow2_step
  repeat' (first
    | refine CtOk.bind (R := fun (a b : ℕ × ℕ × ℕ × ℕ) => a.2.2.2 = b.2.2.2)
        (SameTr.cond (by rw [hl]) (fun _ => ?_) (fun _ => SameTr.pure (by dsimp only; rw [hl]))) ?_
    | ct_step)

theorem ct_div_pow2_mp_ct {e e' : ℕ} {r r' : Buf f} {q q' : Option (Buf h)} (he : e = e')
    (hr : r.len = r'.len) (hv : v.v.len = v'.v.len) (hl : v.v_len = v'.v_len) (hq : Pub.rel q q') :
    CtOk (ct_div_pow2_mp e r v q) (ct_div_pow2_mp e' r' v' q') := by
  subst he
  unfold ct_div_pow2_mp
  ct

theorem ct_mod_pow2_mp_ct {e e' : ℕ} {r r' : Buf f} (he : e = e')
    (hr : r.len = r'.len) (hv : v.v.len = v'.v.len) (hl : v.v_len = v'.v_len) :
    CtOk (ct_mod_pow2_mp e r v) (ct_mod_pow2_mp e' r' v') := by
  unfold ct_mod_pow2_mp
  ct

theorem quiet_arrGet (l : List ℕ) (k : ℕ) : M.Quiet (arrGet l k) := M.Quiet.ofOption
theorem quiet_arrSet (l : List ℕ) (k x : ℕ) : M.Quiet (arrSet l k x) := by unfold arrSet; quiet

theorem lshifted_load_ct {u u' : Buf f} {s s' : List ℕ} {x y i j x' y' i' j' : ℕ} (hu : u.len = u'.len)
    (hx : x = x') (hy : y = y') (hi : i = i') (hj : j = j') :
    Ct (lshifted_load u s x y i j) (lshifted_load u' s' x' y' i' j') := by
  subst hx hy hi hj
  unfold lshifted_load
  ct

theorem lshifted_modify_ct {α : Type} [Pub α] {u u' : Buf f} {s s' : List ℕ} {x k x' k' : ℕ}
    {op op' : ℕ → M (α × ℕ)} (hu : u.len = u'.len) (hx : x = x') (hk : k = k')
    (ho : ∀ y y', SameTr (op y) (op' y') Pub.rel) :
    Ct (lshifted_modify x u s k op) (lshifted_modify x' u' s' k' op') := by
  subst hx hk
  unfold lshifted_modify
  refine SameTr.cond Iff.rfl (fun _ => ?_) (fun _ => ?_)
  · refine SameTr.bind (Buf.load_l_full_ct hu (fun _ => rfl)) fun _ _ _ => ?_
    refine SameTr.bind (ho _ _) ?_
    rintro ⟨r, y⟩ ⟨r', y'⟩ ⟨h1, -⟩
    exact SameTr.bind (Buf.store_l_full_ct hu rfl) fun _ _ h => SameTr.pure ⟨h, trivial, h1⟩
  · refine SameTr.bind SameTr.subAny fun _ _ _ => ?_
    refine SameTr.bind (SameTr.quiet (quiet_arrGet _ _) (quiet_arrGet _ _)) fun _ _ _ => ?_
    refine SameTr.bind (ho _ _) ?_
    rintro ⟨r, y⟩ ⟨r', y'⟩ ⟨h1, -⟩
    exact SameTr.bind (SameTr.quiet (quiet_arrSet _ _ _) (quiet_arrSet _ _ _)) fun _ _ h =>
      SameTr.pure ⟨hu, trivial, h1⟩

theorem lshifted_head_step_ct {x y i x' y' j : ℕ} {s s' : Buf f × List ℕ × Option (Buf h)} (hv : v.v.len = v'.v.len)
    (hl : v.v_len = v'.v_len) (hx : x = x') (hy : y = y') (hi : i = j) (hs : Pub.rel s s') :
    CtOk (lshifted_head_step v x y i s) (lshifted_head_step v' x' y' j s') := by
  obtain ⟨c, s0, q⟩ := s
  obtain ⟨c', s0', q'⟩ := s'
  obtain ⟨hc, -, hq⟩ := hs
  rw [low_buf] at hc
  dsimp only at hc hq
  subst hx hy hi
  unfold lshifted_head_step
  ct

theorem lshifted_tail_step_ct {i j : ℕ} {s s' : Buf f × ℕ × Option (Buf h)} (hv : v.v.len = v'.v.len)
    (hl : v.v_len = v'.v_len) (hi : i = j) (hs : Pub.rel s s') :
    CtOk (lshifted_tail_step v i s) (lshifted_tail_step v' j s') := by
  obtain ⟨c, s0, q⟩ := s
  obtain ⟨c', s0', q'⟩ := s'
  obtain ⟨hc, -, hq⟩ := hs
  rw [low_buf] at hc
  dsimp only at hc hq
  subst hi
  unfold lshifted_tail_step
  ct

theorem lshifted_main_ct {u u' : Buf f} {q q' : Option (Buf h)} {i i' k k' : ℕ} (hu : u.len = u'.len)
    (hi : i = i') (hk : k = k') (hv : v.v.len = v'.v.len) (hl : v.v_len = v'.v_len) (hq : Pub.rel q q') :
    CtOk (lshifted_main u i k v q) (lshifted_main u' i' k' v' q') := by
  subst hi hk
  unfold lshifted_main
  ct

theorem ct_div_lshifted_mp_mp_ct {u u' : Buf f} {q q' : Option (Buf h)} {i i' k k' : ℕ} (hu : u.len = u'.len)
    (hi : i = i') (hk : k = k') (hv : v.v.len = v'.v.len) (hl : v.v_len = v'.v_len) (hq : Pub.rel q q') :
    CtOk (ct_div_lshifted_mp_mp u i k v q) (ct_div_lshifted_mp_mp u' i' k' v' q') := by
  unfold ct_div_lshifted_mp_mp
  ct

theorem ct_mod_lshifted_mp_mp_ct {u u' : Buf f} {i i' k k' : ℕ} (hu : u.len = u'.len)
    (hi : i = i') (hk : k = k') (hv : v.v.len = v'.v.len) (hl : v.v_len = v'.v_len) :
    CtOk (ct_mod_lshifted_mp_mp u i k v) (ct_mod_lshifted_mp_mp u' i' k' v') := by
  unfold ct_mod_lshifted_mp_mp
  ct

theorem store_q_l_ct {q q' : Option (Buf h)} {i j x x' : ℕ} (hq : Pub.rel q q') (hi : i = j) :
    Ct (store_q_l q i x) (store_q_l q' j x') := by
  subst hi
  match q, q', hq with
  | none, none, _ => exact SameTr.pure trivial
  | some q, some q', hq =>
    rw [low_some, low_buf] at hq
    unfold store_q_l
    dsimp only
    ct

theorem div_mp_l_main_ct {u u' : Buf f} {d d' : CtLDivisor} {q q' : Option (Buf h)} (hu : u.len = u'.len)
    (hq : Pub.rel q q') : CtOk (div_mp_l_main u d q) (div_mp_l_main u' d' q') := by
  unfold div_mp_l_main
  ct

theorem ct_div_mp_l_none_ct {u u' : Buf f} {d d' : CtLDivisor} (hu : u.len = u'.len) :
    CtOk (ct_div_mp_l u d (none : Option (Buf h))) (ct_div_mp_l u' d' (none : Option (Buf h))) := by
  unfold ct_div_mp_l
  dsimp only
  ct

theorem ct_div_mp_l_ct {u u' : Buf f} {d d' : CtLDivisor} {q q' : Option (Buf h)} (hu : u.len = u'.len)
    (hq : Pub.rel q q')
    (hd : ∀ n n', (ct_find_last_set_byte_l d.v).val = some n → (ct_find_last_set_byte_l d'.v).val = some n' → n = n') :
    CtOk (ct_div_mp_l u d q) (ct_div_mp_l u' d' q') := by
  match q, q', hq with
  | none, none, _ => exact ct_div_mp_l_none_ct hu
  | some q, some q', hq =>
    rw [low_some, low_buf] at hq
    unfold ct_div_mp_l
    dsimp only
    ct_step
    · ct
    · refine CtOk.bind (R := fun n n' => n = n') (fun n n' h1 h2 => ⟨?_, hd n n' h1 h2⟩) ?_
      · exact congrArg (List.map Obs.see) ((quiet_ct_find_last_set_byte_l d.v).trans (quiet_ct_find_last_set_byte_l d'.v).symm)
      · rintro n _ rfl
        ct

theorem ct_mod_mp_l_ct {u u' : Buf f} {d d' : CtLDivisor} (hu : u.len = u'.len) :
    Ct (ct_mod_mp_l u d) (ct_mod_mp_l u' d') := by
  unfold ct_mod_mp_l
  refine SameTr.bindOk (ct_div_mp_l_none_ct hu) (fun _ => rfl) (fun _ => rfl) ?_
  rintro ⟨a, _⟩ ⟨b, _⟩ -
  ct

end Cmpa
