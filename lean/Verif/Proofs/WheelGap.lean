import Verif.Proofs.CtWheelRun
import Verif.Proofs.CostDiv
import Verif.Model.Hex
import Mathlib.Data.Finset.Card
import Mathlib.Algebra.Order.BigOperators.Group.Finset
import Mathlib.Data.Nat.Count

/-!
# The gaps between the candidates of the wheel, and its work

Of 17 numbers with a distance of 30 each, one is not divisible by any of the primes from 7 to 47, as these divide at most
16 of them.
-/

set_option linter.unusedSectionVars false

namespace Cmpa
open M
variable [LimbCfg] {φ : Fmt}

local instance wheelGapObs : Obs := Obs.full

/-- The primes of level 1 which aren't primes of level 0. -/
def upperPrimes : List ℕ := [7, 11, 13, 17, 19, 23, 29, 31, 37, 41, 43, 47]

theorem residues_count : ∀ p ∈ upperPrimes, ∀ c < p,
    ((Finset.range 17).filter (fun k => k % p = c)).card ≤ (17 + p - 1) / p := by decide +kernel

theorem hit_count {p : ℕ} (hp : p ∈ upperPrimes) (r : ℕ) :
    ((Finset.range 17).filter (fun k => (r + 30 * k) % p = 0)).card ≤ (17 + p - 1) / p := by
  by_cases h : ∃ k0 ∈ Finset.range 17, (r + 30 * k0) % p = 0
  · obtain ⟨k0, hk0, h0⟩ := h
    have hp0 : 0 < p := by
      clear h0
      revert p; decide
    refine le_trans (Finset.card_le_card ?_) (residues_count p hp (k0 % p) (Nat.mod_lt _ hp0))
    intro k hk
    rw [Finset.mem_filter] at hk ⊢
    refine ⟨hk.1, ?_⟩
    have h1 := hk.2
    have hcop : Nat.Coprime p 30 := by
      clear h0 h1 hk
      revert p; decide
    have e : r + 30 * k ≡ r + 30 * k0 [MOD p] := h1.trans h0.symm
    exact Nat.ModEq.cancel_left_of_coprime hcop (Nat.ModEq.add_left_cancel' r e)
  · push Not at h
    rw [Finset.filter_eq_empty_iff.2 fun k hk => h k hk]
    exact Nat.zero_le _

theorem exists_unhit (r : ℕ) : ∃ k < 17, ∀ p ∈ upperPrimes, (r + 30 * k) % p ≠ 0 := by
  by_contra hc
  push Not at hc
  have hsub : Finset.range 17 ⊆ upperPrimes.toFinset.biUnion
      fun p => (Finset.range 17).filter (fun k => (r + 30 * k) % p = 0) := by
    intro k hk
    obtain ⟨p, hp, h⟩ := hc k (Finset.mem_range.1 hk)
    exact Finset.mem_biUnion.2 ⟨p, List.mem_toFinset.2 hp, Finset.mem_filter.2 ⟨hk, h⟩⟩
  have h1 := (Finset.card_le_card hsub).trans Finset.card_biUnion_le
  have h2 : ∑ p ∈ upperPrimes.toFinset, ((Finset.range 17).filter (fun k => (r + 30 * k) % p = 0)).card ≤
      ∑ p ∈ upperPrimes.toFinset, (17 + p - 1) / p :=
    Finset.sum_le_sum fun p hp => hit_count (List.mem_toFinset.1 hp) r
  have h3 : ∑ p ∈ upperPrimes.toFinset, (17 + p - 1) / p = 16 := by decide +kernel
  rw [Finset.card_range] at h1
  omega

/-- Among 510 successive numbers there is a candidate. -/
theorem exists_cop (x : ℕ) : ∃ j < 510, Cop (x + j) := by
  obtain ⟨d, hd, he⟩ : ∃ d < 30, (x + d) % 30 = 1 := by
    by_cases h : x % 30 ≤ 1
    · exact ⟨1 - x % 30, by omega, by omega⟩
    · exact ⟨31 - x % 30, by omega, by omega⟩
  obtain ⟨k, hk, h⟩ := exists_unhit (x + d)
  refine ⟨d + 30 * k, by omega, ?_⟩
  rw [← Nat.add_assoc, cop_iff]
  refine ⟨by unfold Cop3; omega, fun i h1 h2 => h _ ?_⟩
  have := lvl1_facts.2.2.2.2
  have h3 : i < 15 := by omega
  clear h2 h this
  revert i; decide

theorem cop3_count (x : ℕ) : Nat.count (fun i => Cop3 (x + i)) 30 = 8 := by
  have key : ∀ r < 30, Nat.count (fun i => Cop3 (r + i)) 30 = 8 := by decide +kernel
  rw [← key (x % 30) (Nat.mod_lt _ (by norm_num))]
  congr 1
  funext i
  unfold Cop3
  apply propext
  omega

theorem cop3_count_mul (x m : ℕ) : Nat.count (fun i => Cop3 (x + i)) (30 * m) = 8 * m := by
  induction m with
  | zero => rfl
  | succ m ih =>
    rw [Nat.mul_succ, Nat.count_add, ih]
    have := cop3_count (x + 30 * m)
    simp only [Nat.add_assoc] at this ⊢
    rw [this]
    omega

theorem gap_of_cop (j : ℕ) : ∀ x, Cop (x + j) → ∃ n, n ≤ Nat.count (fun i => Cop3 (x + i)) j ∧ Gap x n := by
  induction j with
  | zero => intro x h; exact ⟨0, Nat.zero_le _, .hit h⟩
  | succ j ih =>
    intro x h
    by_cases hc : Cop x
    · exact ⟨0, Nat.zero_le _, .hit hc⟩
    · obtain ⟨n, h1, h2⟩ := ih (x + 1) (by rwa [Nat.add_assoc, Nat.add_comm 1])
      have e : Nat.count (fun i => Cop3 (x + i)) (j + 1) =
          Nat.count (fun i => Cop3 (x + 1 + i)) j + if Cop3 x then 1 else 0 := by
        rw [Nat.count_succ']
        simp only [Nat.add_assoc, Nat.add_comm 1, Nat.add_zero]
      rw [e]
      by_cases h3 : Cop3 x
      · exact ⟨n + 1, by rw [if_pos h3]; omega, .rej h3 hc h2⟩
      · exact ⟨n, by rw [if_neg h3]; omega, .skip h3 h2⟩

/-- At most 136 numbers which are not divisible by 2, 3 or 5 are rejected before a candidate is found. -/
theorem exists_gap (x : ℕ) : ∃ n ≤ 136, Gap x n := by
  obtain ⟨j, hj, h⟩ := exists_cop x
  obtain ⟨n, h1, h2⟩ := gap_of_cop j x h
  have h3 := Nat.count_monotone (fun i => Cop3 (x + i)) hj.le
  rw [cop3_count_mul x 17] at h3
  exact ⟨n, by omega, h2⟩

/-! ### Work -/

theorem steps_bind {α β : Type} {m : M α} {f : α → M β} {n k : ℕ} (hm : m.steps ≤ n)
    (hf : ∀ a, m.val = some a → (f a).steps ≤ k) : (m >>= f).steps ≤ n + k := by
  show ((bindTr m.val m.tr _).map Ev.steps).sum ≤ _
  cases h : m.val with
  | none => exact hm.trans (Nat.le_add_right _ _)
  | some a =>
    simp only [bindTr, List.map_append, List.sum_append]
    exact Nat.add_le_add hm (hf a h)

theorem index_u8_steps (v : List ℕ) (i : ℕ) : (index_u8 v i).steps ≤ 1 := by
  unfold index_u8
  exact (Cost.bind (t := none) Cost.emit fun _ _ => Cost.ofOption).1

theorem add_u8_steps (a b : ℕ) : (add_u8 a b).steps ≤ 0 := by
  unfold add_u8
  exact (Cost.bind (t := none) Cost.assert fun _ _ => Cost.pure fits_nat).1

theorem sub_steps (a b : ℕ) : (M.sub a b).steps ≤ 0 := (Cost.subAny (a := a) (b := b)).1
theorem pure_steps {α : Type} (a : α) : (Pure.pure a : M α).steps ≤ 0 := le_refl 0

theorem WheelLvl0.advance_steps (s : WheelLvl0) : s.advance.steps ≤ 1 := by
  unfold WheelLvl0.advance
  exact steps_bind (k := 0) (index_u8_steps _ _) fun _ _ => pure_steps _

theorem WheelLvl0.produce_next_delta_steps (s : WheelLvl0) : s.produce_next_delta.steps ≤ 2 := by
  unfold WheelLvl0.produce_next_delta
  refine steps_bind (k := 1) (index_u8_steps _ _) fun _ _ => ?_
  refine (steps_bind (k := 1) (add_u8_steps _ _) fun _ _ => ?_)
  refine (steps_bind (k := 1) (sub_steps _ _) fun _ _ => ?_)
  exact steps_bind (k := 0) s.advance_steps fun _ _ => pure_steps _

theorem is_not_coprime_steps (x : ℕ) : (WheelLvl1.is_not_coprime x).steps ≤ 12 := by
  have h := lvl1_facts.2.2.2.2
  unfold WheelLvl1.is_not_coprime
  refine (Cost.bind (n := 0) (k := 12) (s := ()) (t := ()) ?_ fun _ _ => ?_).1
  · unfold LimbChoice.from'
    exact Cost.bind (n := 0) (k := 0) (t := ()) Cost.assert fun _ _ => Cost.pure trivial
  · refine Cost.mono (n := 12 * (0 + 1)) (Cost.forRange ?_ trivial fun i y _ _ => ?_) (by omega)
    · show _ - 3 ≤ 12
      omega
    · exact Cost.bind (n := 0) (k := 0) Cost.ofOption fun _ _ => Cost.pure trivial

theorem produce_loop_steps (n : ℕ) : ∀ (f L : ℕ) (s : WheelLvl0) (y k lo : ℕ),
    k ≤ 1 → y < WheelLvl1.PRIMORIAL → Lvl0At s y k → Gap (y + k) n →
    (WheelLvl1.produce_loop L f s y lo).steps ≤ 15 * (n + 1) := by
  induction n with
  | zero =>
    intro f L s y k lo hk hy hs hg
    cases f with
    | zero => exact Nat.zero_le _
    | succ f =>
    obtain ⟨hP, hP30, hPB, hn3, hn15⟩ := lvl1_facts
    rw [WheelLvl1.produce_loop]
    refine steps_bind (k := 13) s.produce_next_delta_steps ?_
    rintro ⟨t, δ⟩ ha
    obtain ⟨h1, h2, h3, h4, h5⟩ := (lvl0_produce hs).post _ ha
    dsimp only at h1 h2 h3 h4 h5 ⊢
    rw [M.addL_eq (by omega), M.pure_bind]
    obtain ⟨i1, i2, -⟩ := loop_step hk hy hg h1 h2 h3 h4
    refine steps_bind (n := 0) (k := 13) (sub_steps _ _) fun _ _ => ?_
    refine steps_bind (k := 1) (is_not_coprime_steps _) ?_
    rintro _ hc
    obtain ⟨b, rfl, hb⟩ := (is_not_coprime_sat i1).post _ hc
    rw [i2] at hb
    have e1 : b = false := by cases b <;> simp_all
    subst e1
    refine steps_bind (n := 1) (k := 0) Cost.branch.1 ?_
    intro c hc
    have : c = false := by
      cases hc
      rw [LimbChoice.unwrap_ofBool]; rfl
    subst this
    exact pure_steps _
  | succ n ih =>
    intro f L s y k lo hk hy hs hg
    cases f with
    | zero => exact Nat.zero_le _
    | succ f =>
    obtain ⟨hP, hP30, hPB, hn3, hn15⟩ := lvl1_facts
    rw [WheelLvl1.produce_loop]
    rw [show 15 * (n + 1 + 1) = 2 + (13 + 15 * (n + 1)) by omega]
    refine steps_bind s.produce_next_delta_steps ?_
    rintro ⟨t, δ⟩ ha
    obtain ⟨h1, h2, h3, h4, h5⟩ := (lvl0_produce hs).post _ ha
    dsimp only at h1 h2 h3 h4 h5 ⊢
    rw [M.addL_eq (by omega), M.pure_bind]
    obtain ⟨i1, i2, i3⟩ := loop_step hk hy hg h1 h2 h3 h4
    obtain ⟨j1, j2, j3⟩ := i3 (by omega)
    rw [← Nat.zero_add (13 + _)]
    refine steps_bind (sub_steps _ _) fun _ _ => ?_
    rw [show 13 + 15 * (n + 1) = 12 + (1 + 15 * (n + 1)) by omega]
    refine steps_bind (is_not_coprime_steps _) ?_
    rintro _ hc
    refine steps_bind Cost.branch.1 ?_
    intro c _
    cases c with
    | false => exact (pure_steps _).trans (Nat.zero_le _)
    | true =>
      rw [j2]
      exact ih f L t _ 1 _ le_rfl j1 h5 j3

theorem produce_next_delta_steps {s : WheelLvl1} {X k : ℕ} (h : WheelAt s X k) : s.produce_next_delta.steps ≤ 2055 := by
  obtain ⟨hP, hP30, hPB, hn3, hn15⟩ := lvl1_facts
  obtain ⟨n, hn, hg⟩ := exists_gap (X + k)
  have hX := Nat.div_add_mod X WheelLvl1.PRIMORIAL
  have h1 : Lvl0At s.lvl0_wheel (X % WheelLvl1.PRIMORIAL) k := by
    refine h.lvl0.congr ?_
    conv_lhs => rw [← hX]
    rw [Nat.add_mod, Nat.mul_mod, hP30, zero_mul, Nat.zero_mod, Nat.zero_add, Nat.mod_mod]
  have h2 : Gap (X % WheelLvl1.PRIMORIAL + k) n := hg.shift (X / WheelLvl1.PRIMORIAL) _ (by omega)
  unfold WheelLvl1.produce_next_delta
  rw [h.off]
  refine (steps_bind (n := 2055) (k := 0) ((produce_loop_steps n _ _ _ _ k _ h.k_le (Nat.mod_lt _ (by omega)) h1 h2).trans
    (by omega)) ?_)
  rintro ⟨_, _, _, _⟩ -
  refine steps_bind (n := 0) (k := 0) Cost.addL.1 fun _ _ => ?_
  refine steps_bind (n := 0) (k := 0) (sub_steps _ _) fun _ _ => ?_
  exact steps_bind (n := 0) (k := 0) (sub_steps _ _) fun _ _ => pure_steps _

theorem candidates_steps : ∀ (n : ℕ) {s : WheelLvl1} {X k c : ℕ}, WheelAt s X k → c + s.last_offset_delta = X →
    (s.candidates c n).steps ≤ 2055 * n
  | 0, s, X, k, c, _, _ => Nat.zero_le _
  | n + 1, s, X, k, c, h, hc => by
    rw [WheelLvl1.candidates, Nat.mul_succ, Nat.add_comm]
    refine steps_bind (produce_next_delta_steps h) ?_
    rintro ⟨s', d⟩ ha
    obtain ⟨Y, h1, h2, h3, h4, h5, h6⟩ := (produce_next_delta_sat h).post _ ha
    dsimp only at h2 h5 h6 ⊢
    have hY : c + d = Y := by omega
    rw [hY]
    exact steps_bind (k := 0) (candidates_steps n h5 (c := Y) (by omega)) fun _ _ => pure_steps _

/-- The increments are at most 510. -/
theorem candidates_gap : ∀ (n : ℕ) {s : WheelLvl1} {X k c : ℕ}, WheelAt s X k → c + s.last_offset_delta = X →
    Sat (s.candidates c n) (fun l => List.IsChain (fun a b => b ≤ a + 510) (X :: l))
  | 0, s, X, k, c, _, _ => Sat.pure (List.isChain_singleton _)
  | n + 1, s, X, k, c, h, hc => by
    rw [WheelLvl1.candidates]
    refine Sat.bind (produce_next_delta_sat h) ?_
    rintro ⟨s', d⟩ ⟨Y, h1, h2, h3, h4, h5, h6⟩
    dsimp only at h2 h5 h6 ⊢
    have hY : c + d = Y := by omega
    rw [hY]
    refine Sat.bind (candidates_gap n h5 (c := Y) (by omega)) ?_
    intro l hl
    refine Sat.pure (List.isChain_cons_cons.2 ⟨?_, hl⟩)
    obtain ⟨j, hj, hcop⟩ := exists_cop (X + k)
    by_contra hgt
    have := h.k_le
    exact h4 (X + k + j) (by omega) (by omega) hcop

theorem ct_find_first_loop_steps (v : List ℕ) (val : ℕ) : ∀ (f lb ub : ℕ), (ct_find_first_loop v val f lb ub).steps ≤ 2 * f
  | 0, _, _ => Nat.zero_le _
  | f + 1, lb, ub => by
    rw [ct_find_first_loop, show 2 * (f + 1) = 0 + (1 + (0 + (1 + 2 * f))) by omega]
    refine steps_bind (sub_steps _ _) fun r _ => ?_
    refine steps_bind Cost.branch.1 fun c _ => ?_
    cases c with
    | false => exact (pure_steps _).trans (Nat.zero_le _)
    | true =>
      refine steps_bind (sub_steps _ _) fun j _ => ?_
      refine steps_bind (index_u8_steps _ _) fun p _ => ?_
      rw [← Nat.zero_add (2 * f)]
      refine steps_bind Cost.assertM.1 fun _ _ => ?_
      rw [← Nat.zero_add (2 * f)]
      exact steps_bind (sub_steps _ _) fun _ _ => ct_find_first_loop_steps v val f _ _

theorem WheelLvl0.start_geq_than_steps (x : ℕ) : (WheelLvl0.start_geq_than x).steps ≤ 18 := by
  unfold WheelLvl0.start_geq_than
  refine steps_bind (n := 0) (k := 18) Cost.assert.1 fun _ _ => ?_
  refine steps_bind (n := 18) (k := 0) ?_ fun _ _ => pure_steps _
  unfold ct_find_first_ge_than
  exact steps_bind (n := 0) (k := 18) Cost.assertM.1 fun _ _ => ct_find_first_loop_steps _ _ _ _ _

theorem NonCtLDivisor.do_div_step_steps (v : ℕ) (s : NonCtDiv) : (NonCtLDivisor.do_div_step v s).steps ≤ 2 := by
  let _ : Shape NonCtDiv Unit := ⟨fun _ _ => True⟩
  have : Cost (NonCtLDivisor.do_div_step v s) 2 () := by
    unfold NonCtLDivisor.do_div_step
    cost
    · exact Cost.pure trivial
    · omega
  exact this.1

theorem NonCtLDivisor.do_div_steps (d : NonCtLDivisor) (x : DoubleLimb) : (d.do_div x).steps ≤ 4 := by
  unfold NonCtLDivisor.do_div
  refine steps_bind (n := 0) (k := 4) Cost.assert.1 fun _ _ => ?_
  refine steps_bind (k := 2) (do_div_step_steps _ _) fun _ _ => ?_
  refine steps_bind (k := 0) (do_div_step_steps _ _) fun _ _ => ?_
  exact steps_bind (n := 0) (k := 0) Cost.assert.1 fun _ _ => pure_steps _

theorem nonct_compute_m_steps (v w : ℕ) : (nonct_compute_m v w).steps ≤ 5 := by
  unfold nonct_compute_m
  refine steps_bind (n := 1) (k := 4) ?_ fun o _ => ?_
  · unfold NonCtLDivisor.new
    refine steps_bind (n := 1) (k := 0) Cost.branch.1 fun c _ => ?_
    cases c <;> exact pure_steps _
  refine steps_bind (n := 0) (k := 4) ?_ fun _ _ => ?_
  · cases o <;> exact le_refl 0
  refine steps_bind (n := 0) (k := 4) (sub_steps _ _) fun _ _ => ?_
  exact steps_bind (k := 0) (NonCtLDivisor.do_div_steps _ _) fun _ _ => pure_steps _

theorem nonct_new_steps (v : ℕ) : (CtLDivisor.nonct_new v).steps ≤ 6 := by
  unfold CtLDivisor.nonct_new
  refine steps_bind (n := 1) (k := 5) Cost.branch.1 fun c _ => ?_
  cases c with
  | true => exact (pure_steps _).trans (Nat.zero_le _)
  | false =>
    refine steps_bind (n := 0) (k := 5) ?_ fun _ _ => ?_
    · have : Cost (ct_find_last_set_bit_l v) 0 none := by cost; omega
      exact this.1
    · exact steps_bind (k := 0) (nonct_compute_m_steps _ _) fun _ _ => pure_steps _

theorem WheelLvl1.start_geq_than_steps (b : Buf φ) : (WheelLvl1.start_geq_than b).steps ≤ 5 * b.nlimbs + 31 := by
  unfold WheelLvl1.start_geq_than
  rw [show 5 * b.nlimbs + 31 = 6 + (0 + ((3 * b.nlimbs + 5) + ((2 * b.nlimbs + 2) + (0 + (18 + 0))))) by omega]
  refine steps_bind (nonct_new_steps _) fun o _ => ?_
  refine steps_bind (Cost.ofOption' (s := ()) ?_).1 fun d _ => ?_
  · intro _ _; trivial
  refine steps_bind (ct_mod_mp_l_cost le_rfl).1 fun _ _ => ?_
  refine steps_bind (ct_leq_mp_l_cost le_rfl).1 fun _ _ => ?_
  refine steps_bind Cost.addL.1 fun _ _ => ?_
  exact steps_bind (WheelLvl0.start_geq_than_steps _) fun _ _ => pure_steps _

/-! ### Formatting -/

theorem nibble_to_hexchar_steps (n : ℕ) : (nibble_to_hexchar n).steps ≤ 0 := by
  unfold nibble_to_hexchar
  split
  · exact pure_steps _
  · split
    · exact steps_bind (n := 0) (k := 0) (sub_steps _ _) fun _ _ => pure_steps _
    · exact le_refl 0

theorem loopUp_steps {α : Type} {k : ℕ} : ∀ {n lo : ℕ} {x : α} {f : ℕ → α → M α}, (∀ i y, (f i y).steps ≤ k) →
    (M.loopUp n lo x f).steps ≤ n * (k + 1)
  | 0, _, _, _, _ => Nat.zero_le _
  | n + 1, lo, x, f, h => by
    unfold M.loopUp
    rw [Nat.succ_mul, show n * (k + 1) + (k + 1) = 1 + (k + n * (k + 1)) by omega]
    refine steps_bind (Cost.emit (e := .iter)).1 fun _ _ => ?_
    exact steps_bind (h _ _) fun _ _ => loopUp_steps h

theorem fmt_l_steps (f : List (Fin 256)) (v l : ℕ) : (fmt_l f v l).steps ≤ l := by
  unfold fmt_l
  refine (loopUp_steps (k := 0) fun i f => ?_).trans (by omega)
  refine steps_bind (n := 0) (k := 0) (sub_steps _ _) fun _ _ => ?_
  refine steps_bind (n := 0) (k := 0) (sub_steps _ _) fun _ _ => ?_
  refine steps_bind (n := 0) (k := 0) ?_ fun _ _ => ?_
  · have : ∀ d, Cost (shrC v d) 0 none := fun d => by cost; omega
    exact (this _).1
  · unfold fmt_byte
    refine steps_bind (n := 0) (k := 0) (nibble_to_hexchar_steps _) fun _ _ => ?_
    exact steps_bind (n := 0) (k := 0) (nibble_to_hexchar_steps _) fun _ _ => pure_steps _

theorem fmt_lower_hex_steps (b : Buf φ) (alternate : Bool) :
    (b.fmt_lower_hex alternate).steps ≤ b.nlimbs * (LB + 2) + LB + 2 := by
  have hload : ∀ i, (b.load_l i).steps ≤ 1 := fun i => by
    have : Cost (b.load_l i) 1 none := by cost; omega
    exact this.1
  unfold Buf.fmt_lower_hex
  rw [show b.nlimbs * (LB + 2) + LB + 2 = 1 + (0 + (1 + (0 + (LB + b.nlimbs * (LB + 1 + 1))))) by ring]
  refine steps_bind Cost.branch.1 fun c _ => ?_
  cases c with
  | true => exact (pure_steps _).trans (Nat.zero_le _)
  | false =>
    refine steps_bind (sub_steps _ _) fun _ _ => ?_
    refine steps_bind (hload _) fun _ _ => ?_
    refine steps_bind (sub_steps _ _) fun l _ => ?_
    refine steps_bind ((fmt_l_steps _ _ _).trans (Nat.mod_lt l LB_pos)) fun _ _ => ?_
    refine (loopUp_steps (k := LB + 1) fun i f => ?_).trans (Nat.mul_le_mul_right _ (by omega))
    dsimp only
    rw [Nat.add_comm, ← Nat.zero_add (1 + LB)]
    refine steps_bind (sub_steps _ _) fun _ _ => ?_
    rw [← Nat.zero_add (1 + LB)]
    refine steps_bind (sub_steps _ _) fun _ _ => ?_
    exact steps_bind (hload _) fun _ _ => fmt_l_steps _ _ _

end Cmpa
