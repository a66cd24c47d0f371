import Verif.Proofs.CtWheel
import Verif.Proofs.Wheel

/-!
# Constant time: a run of the prime candidate wheel

The events depend on the lower bound only by how many of the numbers not divisible by 2, 3 or 5 are rejected before each
candidate (and by the positions read in the table of offsets).
-/

set_option linter.unusedSectionVars false

namespace Cmpa
open M
variable [LimbCfg] {φ : Fmt}

/-- From `x` on, `n` numbers not divisible by 2, 3 or 5 come before the first candidate. -/
inductive Gap : ℕ → ℕ → Prop
  | skip {x n} : ¬ Cop3 x → Gap (x + 1) n → Gap x n
  | rej {x n} : Cop3 x → ¬ Cop x → Gap (x + 1) n → Gap x (n + 1)
  | hit {x} : Cop x → Gap x 0

theorem Cop.cop3 {x : ℕ} (h : Cop x) : Cop3 x := ((cop_iff x).1 h).1

theorem Gap.pass {x n : ℕ} (j : ℕ) (h : Gap x n) (hs : ∀ i, i < j → ¬ Cop3 (x + i)) : Gap (x + j) n := by
  induction j generalizing x with
  | zero => exact h
  | succ j ih =>
    have h0 : ¬ Cop3 x := hs 0 (by omega)
    cases h with
    | skip _ h2 =>
      have := ih h2 fun i hi => by
        have := hs (i + 1) (by omega)
        rwa [show x + 1 + i = x + (i + 1) by omega]
      rwa [show x + (j + 1) = x + 1 + j by omega]
    | rej h1 => exact absurd h1 h0
    | hit h1 => exact absurd h1.cop3 h0

theorem cop3_shift (j x : ℕ) : Cop3 (WheelLvl1.PRIMORIAL * j + x) ↔ Cop3 x := by
  have e : ∀ m, (WheelLvl1.PRIMORIAL * j + m) % 30 = m % 30 := by
    intro m
    rw [Nat.add_mod, Nat.mul_mod, lvl1_facts.2.1, zero_mul, Nat.zero_mod, Nat.zero_add, Nat.mod_mod]
  have := e x
  generalize WheelLvl1.PRIMORIAL * j + x = z at *
  unfold Cop3
  omega

theorem Gap.shift {x n : ℕ} (h : Gap x n) : ∀ j y, x = WheelLvl1.PRIMORIAL * j + y → Gap y n := by
  induction h with
  | skip h1 _ ih =>
    rintro j y rfl
    exact .skip ((cop3_shift j y).not.1 h1) (ih j (y + 1) (by omega))
  | rej h1 h2 _ ih =>
    rintro j y rfl
    exact .rej ((cop3_shift j y).1 h1) ((cop_add_mul y j).not.1 h2) (ih j (y + 1) (by omega))
  | hit h1 =>
    rintro j y rfl
    exact .hit ((cop_add_mul y j).1 h1)

/-- What follows for the loop from a production of the level 0 wheel. -/
theorem loop_step {y k n δ : ℕ} (hk : k ≤ 1) (hy : y < WheelLvl1.PRIMORIAL) (hg : Gap (y + k) n)
    (h1 : k ≤ δ) (h2 : δ ≤ 30) (h3 : Cop3 (y + δ)) (h4 : ∀ j, k ≤ j → j < δ → ¬ Cop3 (y + j)) :
    let no := (ct_geq_l_l (y + δ) WheelLvl1.PRIMORIAL).select (y + δ) (wsub (y + δ) WheelLvl1.PRIMORIAL)
    no < B ∧ ((∃ j, 3 ≤ j ∧ j < WheelLvl1.PRIMORIAL_NFACTORS ∧ no % FIRST_PRIMES.getD j 0 = 0) ↔ n ≠ 0) ∧
      (n ≠ 0 → y + δ < WheelLvl1.PRIMORIAL ∧ no = y + δ ∧ Gap (y + δ + 1) (n - 1)) := by
  obtain ⟨hP, hP30, hPB, hn3, hn15⟩ := lvl1_facts
  have hg' : Gap (y + δ) n := by
    have := hg.pass (δ - k) fun i hi => by
      have := h4 (k + i) (by omega) (by omega)
      rwa [← Nat.add_assoc] at this
    rwa [show y + k + (δ - k) = y + δ by omega] at this
  have hw : wsub (y + δ) WheelLvl1.PRIMORIAL < B := wsub_lt
  dsimp only
  rw [ct_geq_l_l_eq (by omega) (by omega), LimbChoice.select_ofBool (by omega) hw]
  have hskip : ∀ m, y + k ≤ m → m < y + δ → ¬ Cop m := by
    intro m hm1 hm2 hc
    refine h4 (m - y) (by omega) (by omega) ?_
    rw [Nat.add_sub_cancel' (by omega)]
    exact hc.cop3
  by_cases hwr : WheelLvl1.PRIMORIAL ≤ y + δ
  · have hy1 : y + 1 = WheelLvl1.PRIMORIAL ∧ k = 1 := by
      by_contra hcc
      exact hskip (WheelLvl1.PRIMORIAL - 1) (by omega) (by omega) cop_pred
    have hδ : y + δ = WheelLvl1.PRIMORIAL + 1 := by
      by_contra hcc
      by_cases he : y + δ = WheelLvl1.PRIMORIAL
      · rw [he] at h3
        unfold Cop3 at h3; omega
      · refine h4 2 (by omega) (by omega) ?_
        rw [show y + 2 = WheelLvl1.PRIMORIAL + 1 by omega]
        unfold Cop3; omega
    have hc1 : Cop (WheelLvl1.PRIMORIAL + 1) := by
      have := (cop_add_mul 1 1).2 cop_one
      rwa [mul_one] at this
    rw [hδ] at hg'
    have hn : n = 0 := by
      cases hg' with
      | skip g _ => exact absurd hc1.cop3 g
      | rej _ g _ => exact absurd hc1 g
      | hit _ => rfl
    rw [decide_eq_true hwr, if_pos rfl, hδ, wsub_eq (by omega) (by omega),
        if_pos (by omega), Nat.add_sub_cancel_left]
    refine ⟨by omega, ⟨?_, fun h => absurd hn h⟩, fun h => absurd hn h⟩
    rintro ⟨j, hj1, hj2, hj3⟩
    exact absurd hj3 (((cop_iff 1).1 cop_one).2 j hj1 hj2)
  · rw [decide_eq_false hwr, if_neg (by simp)]
    have key : (∃ j, 3 ≤ j ∧ j < WheelLvl1.PRIMORIAL_NFACTORS ∧ (y + δ) % FIRST_PRIMES.getD j 0 = 0) ↔
        ¬ Cop (y + δ) := by
      rw [cop_iff]
      constructor
      · rintro ⟨j, i1, i2, i3⟩ ⟨-, h⟩
        exact h j i1 i2 i3
      · intro h
        by_contra hc
        push_neg at hc
        exact h ⟨h3, hc⟩
    rw [key]
    refine ⟨by omega, ?_⟩
    cases hg' with
    | skip g _ => exact absurd h3 g
    | rej _ g g' => exact ⟨⟨fun _ => by omega, fun _ => g⟩, fun _ => ⟨by omega, rfl, g'⟩⟩
    | hit g => exact ⟨⟨fun h => absurd g h, fun h => absurd rfl h⟩, fun h => absurd rfl h⟩

section
variable [Obs]

theorem is_not_coprime_ct (x x' : ℕ) : Ct (WheelLvl1.is_not_coprime x) (WheelLvl1.is_not_coprime x') := by
  unfold WheelLvl1.is_not_coprime
  ct
  refine SameTr.bind (SameTr.refl _) ?_
  rintro a _ rfl
  exact SameTr.pure trivial

theorem produce_loop_ct (hp : Obs.pos = false) (n : ℕ) : ∀ (f f' L L' : ℕ) (s s' : WheelLvl0) (y y' k k' lo lo' : ℕ),
    k ≤ 1 → k' ≤ 1 → y < WheelLvl1.PRIMORIAL → y' < WheelLvl1.PRIMORIAL → Lvl0At s y k → Lvl0At s' y' k' →
    Gap (y + k) n → Gap (y' + k') n →
    SameTr (WheelLvl1.produce_loop L f s y lo) (WheelLvl1.produce_loop L' f' s' y' lo') (fun _ _ => True) := by
  induction n with
  | zero =>
    intro f f' L L' s s' y y' k k' lo lo' hk hk' hy hy' hs hs' hg hg'
    cases f with
    | zero => exact SameTr.panicL
    | succ f =>
    cases f' with
    | zero => intro _ _ _ h; cases h
    | succ f' =>
    obtain ⟨hP, hP30, hPB, hn3, hn15⟩ := lvl1_facts
    rw [WheelLvl1.produce_loop, WheelLvl1.produce_loop]
    refine SameTr.bind (SameTr.post (WheelLvl0.produce_next_delta_ct hp) (lvl0_produce hs).post (lvl0_produce hs').post) ?_
    rintro ⟨t, δ⟩ ⟨t', δ'⟩ ⟨-, ⟨h1, h2, h3, h4, h5⟩, ⟨h1', h2', h3', h4', h5'⟩⟩
    dsimp only at h1 h2 h3 h4 h5 h1' h2' h3' h4' h5' ⊢
    rw [M.addL_eq (by omega), M.pure_bind, M.addL_eq (by omega), M.pure_bind]
    obtain ⟨i1, i2, -⟩ := loop_step hk hy hg h1 h2 h3 h4
    obtain ⟨i1', i2', -⟩ := loop_step hk' hy' hg' h1' h2' h3' h4'
    refine SameTr.bind SameTr.subAny fun _ _ _ => ?_
    refine SameTr.bind (SameTr.post (is_not_coprime_ct _ _) (is_not_coprime_sat i1).post
      (is_not_coprime_sat i1').post) ?_
    rintro _ _ ⟨-, ⟨b, rfl, hb⟩, ⟨b', rfl, hb'⟩⟩
    rw [i2] at hb
    rw [i2'] at hb'
    have e1 : b = false := by cases b <;> simp_all
    have e2 : b' = false := by cases b' <;> simp_all
    subst e1 e2
    refine SameTr.branchIf Iff.rfl (fun h => absurd ?_ h) fun _ => SameTr.pure trivial
    rw [LimbChoice.unwrap_ofBool]; rfl
  | succ n ih =>
    intro f f' L L' s s' y y' k k' lo lo' hk hk' hy hy' hs hs' hg hg'
    cases f with
    | zero => exact SameTr.panicL
    | succ f =>
    cases f' with
    | zero => intro _ _ _ h; cases h
    | succ f' =>
    obtain ⟨hP, hP30, hPB, hn3, hn15⟩ := lvl1_facts
    rw [WheelLvl1.produce_loop, WheelLvl1.produce_loop]
    refine SameTr.bind (SameTr.post (WheelLvl0.produce_next_delta_ct hp) (lvl0_produce hs).post (lvl0_produce hs').post) ?_
    rintro ⟨t, δ⟩ ⟨t', δ'⟩ ⟨-, ⟨h1, h2, h3, h4, h5⟩, ⟨h1', h2', h3', h4', h5'⟩⟩
    dsimp only at h1 h2 h3 h4 h5 h1' h2' h3' h4' h5' ⊢
    rw [M.addL_eq (by omega), M.pure_bind, M.addL_eq (by omega), M.pure_bind]
    obtain ⟨i1, i2, i3⟩ := loop_step hk hy hg h1 h2 h3 h4
    obtain ⟨i1', i2', i3'⟩ := loop_step hk' hy' hg' h1' h2' h3' h4'
    refine SameTr.bind SameTr.subAny fun _ _ _ => ?_
    refine SameTr.bind (SameTr.post (is_not_coprime_ct _ _) (is_not_coprime_sat i1).post
      (is_not_coprime_sat i1').post) ?_
    rintro _ _ ⟨-, ⟨b, rfl, hb⟩, ⟨b', rfl, hb'⟩⟩
    rw [i2] at hb
    rw [i2'] at hb'
    have e1 : b = true := hb.2 (by omega)
    have e2 : b' = true := hb'.2 (by omega)
    subst e1 e2
    obtain ⟨j1, j2, j3⟩ := i3 (by omega)
    obtain ⟨j1', j2', j3'⟩ := i3' (by omega)
    refine SameTr.branchIf Iff.rfl (fun _ => ?_) fun h => absurd ?_ h
    · rw [j2, j2']
      exact ih f f' L L' t t' _ _ 1 1 _ _ le_rfl le_rfl j1 j1' h5 h5' j3 j3'
    · rw [LimbChoice.unwrap_ofBool]; decide

theorem produce_next_delta_ct (hp : Obs.pos = false) {s s' : WheelLvl1} {X X' k k' n : ℕ} (h : WheelAt s X k)
    (h' : WheelAt s' X' k') (hg : Gap (X + k) n) (hg' : Gap (X' + k') n) :
    SameTr s.produce_next_delta s'.produce_next_delta (fun _ _ => True) := by
  obtain ⟨hP, hP30, hPB, hn3, hn15⟩ := lvl1_facts
  have red : ∀ {s : WheelLvl0} {X k : ℕ}, Lvl0At s X k → Gap (X + k) n →
      Lvl0At s (X % WheelLvl1.PRIMORIAL) k ∧ Gap (X % WheelLvl1.PRIMORIAL + k) n := by
    intro s X k h1 h2
    have hX := Nat.div_add_mod X WheelLvl1.PRIMORIAL
    refine ⟨h1.congr ?_, h2.shift (X / WheelLvl1.PRIMORIAL) _ (by omega)⟩
    conv_lhs => rw [← hX]
    rw [Nat.add_mod, Nat.mul_mod, hP30, zero_mul, Nat.zero_mod, Nat.zero_add, Nat.mod_mod]
  obtain ⟨r1, r2⟩ := red h.lvl0 hg
  obtain ⟨r1', r2'⟩ := red h'.lvl0 hg'
  unfold WheelLvl1.produce_next_delta
  rw [h.off, h'.off]
  refine SameTr.bind (produce_loop_ct hp n _ _ _ _ _ _ _ _ k k' _ _ h.k_le h'.k_le (Nat.mod_lt _ (by omega))
    (Nat.mod_lt _ (by omega)) r1 r1' r2 r2') ?_
  rintro ⟨_, _, _, _⟩ ⟨_, _, _, _⟩ -
  dsimp only
  refine SameTr.bind SameTr.addL fun _ _ _ => ?_
  refine SameTr.bind SameTr.subAny fun _ _ _ => ?_
  exact SameTr.bind SameTr.subAny fun _ _ _ => SameTr.pure trivial

end

/-- The numbers of those rejected before each candidate of a list. -/
inductive Gaps : ℕ → List ℕ → List ℕ → Prop
  | nil {x} : Gaps x [] []
  | cons {x z l n ns} : Gap x n → Gaps (z + 1) l ns → Gaps x (z :: l) (n :: ns)

theorem candidates_ct [Obs] (hp : Obs.pos = false) (ns : List ℕ) : ∀ {s s' : WheelLvl1} {X X' k k' c c' : ℕ} {l l' : List ℕ},
    WheelAt s X k → WheelAt s' X' k' → c + s.last_offset_delta = X → c' + s'.last_offset_delta = X' →
    Gaps (X + k) l ns → Gaps (X' + k') l' ns → (s.candidates c ns.length).val = some l →
    (s'.candidates c' ns.length).val = some l' →
    M.seen (s.candidates c ns.length) = M.seen (s'.candidates c' ns.length) := by
  induction ns with
  | nil => intros; rfl
  | cons n ns ih =>
    intro s s' X X' k k' c c' l l' h h' hc hc' hg hg' hl hl'
    cases hg with
    | cons g1 g2 =>
    cases hg' with
    | cons g1' g2' =>
    rename_i z l z' l'
    rw [List.length_cons, WheelLvl1.candidates] at hl hl' ⊢
    rw [WheelLvl1.candidates]
    have key : SameTr (s.produce_next_delta >>= fun r => r.1.candidates (c + r.2) ns.length >>= fun l => pure ((c + r.2) :: l))
        (s'.produce_next_delta >>= fun r => r.1.candidates (c' + r.2) ns.length >>= fun l => pure ((c' + r.2) :: l))
        (fun a b => True) := by
      have e := produce_next_delta_sat h
      have e' := produce_next_delta_sat h'
      refine SameTr.bind (R := fun a b => s.produce_next_delta.val = some a ∧ s'.produce_next_delta.val = some b) ?_ ?_
      · intro a b ha hb
        exact ⟨(produce_next_delta_ct hp h h' g1 g1' a b ha hb).1, ha, hb⟩
      rintro ⟨t, d⟩ ⟨t', d'⟩ ⟨ha, hb⟩
      obtain ⟨Y, i1, i2, i3, i4, i5, i6⟩ := e.post _ ha
      obtain ⟨Y', i1', i2', i3', i4', i5', i6'⟩ := e'.post _ hb
      dsimp only at i2 i5 i6 i2' i5' i6' ⊢
      rw [bind_val, ha] at hl
      rw [bind_val, hb] at hl'
      simp only [Option.bind_some] at hl hl'
      rw [bind_val] at hl hl'
      obtain ⟨a, ha1, ha2⟩ := Option.bind_eq_some_iff.1 hl
      obtain ⟨b, hb1, hb2⟩ := Option.bind_eq_some_iff.1 hl'
      have ha3 : (c + d) :: a = z :: l := Option.some.inj ha2
      have hb3 : (c' + d') :: b = z' :: l' := Option.some.inj hb2
      obtain ⟨rfl, rfl⟩ := List.cons.inj ha3
      obtain ⟨rfl, rfl⟩ := List.cons.inj hb3
      refine SameTr.bind (R := fun _ _ => True) ?_ fun _ _ _ => SameTr.pure trivial
      intro u v _ _
      refine ⟨?_, trivial⟩
      have hY : c + d = Y := by omega
      have hY' : c' + d' = Y' := by omega
      rw [hY] at g2 ha1 ⊢
      rw [hY'] at g2' hb1 ⊢
      exact ih i5 i5' (by omega) (by omega) g2 g2' ha1 hb1
    exact (key _ _ hl hl').1

end Cmpa
