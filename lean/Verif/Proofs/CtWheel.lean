import Verif.Proofs.CtPrime
import Verif.Proofs.LimbBits
import Verif.Model.Wheel

/-!
# Constant time: start of the prime candidate wheel

The positions read in the table of offsets depend on the lower bound, but their number does not.
-/

set_option linter.unusedSectionVars false

namespace Cmpa
open M
variable [LimbCfg] [Obs] {φ : Fmt}

instance : Pub WheelLvl0 := ⟨fun _ _ => True⟩
instance : Pub WheelLvl1 := ⟨fun _ _ => True⟩

theorem index_u8_ct {v : List ℕ} {i j : ℕ} (hij : Obs.pos = true → i = j) : Ct (index_u8 v i) (index_u8 v j) := by
  unfold index_u8
  refine SameTr.bind (R := fun _ _ => True) ?_ fun _ _ _ => SameTr.ofOption fun _ _ _ _ => trivial
  intro _ _ _ _
  exact ⟨by simp [M.seen, M.emit, see_load hij], trivial⟩

theorem index_u8_post {v : List ℕ} {i : ℕ} : Post (index_u8 v i) (fun a => a ∈ v) := by
  unfold index_u8
  refine Post.bind (P := fun _ => True) Post.trivial fun _ _ => ?_
  intro a ha
  cases h : v[i]? with
  | none => rw [h] at ha; cases ha
  | some b => rw [h] at ha; cases ha; exact List.mem_of_getElem? h

theorem add_u8_ct {a b a' b' : ℕ} : Ct (add_u8 a b) (add_u8 a' b') := by
  unfold add_u8
  ct

theorem M.SameTr.refl {α : Type} (m : M α) : SameTr m m (fun a b => a = b) := fun a b ha hb =>
  ⟨rfl, by rw [ha] at hb; exact Option.some.inj hb⟩

theorem ct_find_first_loop_ct (hp : Obs.pos = false) {v : List ℕ} {x x' : ℕ} (hv : ∀ y ∈ v, y < B) (hx : x < B)
    (hx' : x' < B) : ∀ {k lb ub lb' ub' : ℕ}, ub - lb = ub' - lb' → lb ≤ ub → lb' ≤ ub' →
      Ct (ct_find_first_loop v x k lb ub) (ct_find_first_loop v x' k lb' ub')
  | 0, _, _, _, _, _, _, _ => SameTr.panicL
  | k + 1, lb, ub, lb', ub', h, h1, h2 => by
    unfold ct_find_first_loop
    rw [M.sub_eq h1, M.sub_eq h2, M.pure_bind, M.pure_bind, ← h]
    refine SameTr.cond Iff.rfl (fun hr => ?_) fun _ => SameTr.pure trivial
    dsimp only
    rw [M.sub_eq (show 1 ≤ lb + (ub - lb + 1) / 2 by omega), M.sub_eq (show 1 ≤ lb' + (ub - lb + 1) / 2 by omega),
      M.pure_bind, M.pure_bind]
    refine SameTr.bind (SameTr.post (index_u8_ct (fun h => absurd (h.symm.trans hp) (by decide)))
      index_u8_post index_u8_post) ?_
    rintro p p' ⟨-, hpv, hpv'⟩
    refine SameTr.bind SameTr.assertM fun _ _ _ => ?_
    rw [Nat.and_one_is_mod, M.sub_eq (show (ub - lb) % 2 ≤ lb + (ub - lb + 1) / 2 by omega),
      M.sub_eq (show (ub - lb) % 2 ≤ lb' + (ub - lb + 1) / 2 by omega), M.pure_bind, M.pure_bind,
      ct_lt_l_l_eq (hv _ hpv) hx, ct_lt_l_l_eq (hv _ hpv') hx']
    simp only [LimbChoice.select_usize_ofBool]
    refine ct_find_first_loop_ct hp hv hx hx' ?_ ?_ ?_
    · split <;> split <;> omega
    · split <;> omega
    · split <;> omega

theorem ct_find_first_ge_than_ct (hp : Obs.pos = false) {v : List ℕ} {x x' : ℕ} (hv : ∀ y ∈ v, y < B) (hx : x < B)
    (hx' : x' < B) : Ct (ct_find_first_ge_than v x) (ct_find_first_ge_than v x') := by
  unfold ct_find_first_ge_than
  refine SameTr.bind SameTr.assertM fun _ _ _ => ?_
  exact ct_find_first_loop_ct hp hv hx hx' rfl (by omega) (by omega)

theorem WheelLvl0.start_geq_than_ct (hp : Obs.pos = false) {x x' : ℕ} :
    Ct (WheelLvl0.start_geq_than x) (WheelLvl0.start_geq_than x') := by
  unfold WheelLvl0.start_geq_than
  dsimp only
  refine SameTr.bind SameTr.assert fun _ _ _ => ?_
  have h30 : ∀ y, y % WheelLvl0.PRIMORIAL < B := fun y => by
    have h1 : y % WheelLvl0.PRIMORIAL < 30 := Nat.mod_lt _ (by decide)
    rcases B_cases with h | h <;> rw [h] <;> omega
  refine SameTr.bind (ct_find_first_ge_than_ct hp ?_ (h30 _) (h30 _)) fun _ _ _ => SameTr.pure trivial
  intro y hy
  have : ∀ y ∈ WheelLvl0.OFFSETS, y < 256 := by decide
  have := this y hy
  rcases B_cases with h | h <;> rw [h] <;> omega

theorem WheelLvl0.advance_ct (hp : Obs.pos = false) {x x' : WheelLvl0} : Ct x.advance x'.advance := by
  unfold WheelLvl0.advance
  ct

theorem WheelLvl0.produce_next_delta_ct (hp : Obs.pos = false) {x x' : WheelLvl0} :
    Ct x.produce_next_delta x'.produce_next_delta := by
  unfold WheelLvl0.produce_next_delta
  ct

theorem WheelLvl1.start_geq_than_ct (hp : Obs.pos = false) {b b' : Buf φ} (hb : b.len = b'.len) :
    Ct (WheelLvl1.start_geq_than b) (WheelLvl1.start_geq_than b') := by
  unfold WheelLvl1.start_geq_than
  refine SameTr.bind (SameTr.refl _) ?_
  rintro o _ rfl
  refine SameTr.bind (SameTr.refl _) ?_
  rintro d _ rfl
  ct

end Cmpa
