import Verif.Props.Composite
import Verif.Proofs.CompositeRelease

/-!
# Multi-segment buffers: limbs out of range and values that don't fit (C19)
-/

namespace Cmpa
namespace Props
open M
variable [LimbCfg] {f : Fmt}

/-- C19: reading panics exactly if there is no such limb. -/
theorem C19_load_panics (l : List (Buf f)) (i : ℕ) :
    (do let c ← Composite.new l; c.load i).val = none ↔ ct_mp_nlimbs (catLen l) ≤ i := by
  constructor
  · intro h
    by_contra hi
    obtain ⟨x, hx, -⟩ := C19_load l i (by omega)
    rw [h] at hx
    cases hx
  · intro hi
    obtain ⟨c, hc, h1, h2, -⟩ := Composite.new_sat l
    rw [bind_val, hc]
    exact Composite.load_from_out c h1 (by rwa [zero_add, h2])

/-- C19: a debug build panics in writing exactly if there is no such limb, or if it is a partial one and the value doesn't
fit. -/
theorem C19_store_debug (l : List (Buf f)) (i v : ℕ) (hv : v < B) :
    (do let c ← Composite.new l; let c ← c.store i v; pure c.parts).val = none ↔
      ct_mp_nlimbs (catLen l) ≤ i ∨ 256 ^ (catLen l - i * LB) ≤ v := by
  constructor
  · intro h
    by_contra hn
    obtain ⟨x, hx, -⟩ := C19_store l i v (by omega) hv (by omega)
    rw [h] at hx
    cases hx
  · intro h
    obtain ⟨c, hc, h1, h2, -⟩ := Composite.new_sat l
    rw [bind_val, hc]
    refine M.bind_panic ?_
    by_cases hi : ct_mp_nlimbs (catLen l) ≤ i
    · exact Composite.store_from_out c h1 (by rwa [zero_add, h2])
    · exact (Composite.store_unfit h1 (by rw [h2]; omega) hv (by rw [h2]; omega)).1

/-- C19: a release build stores what there is room for, and changes nothing else. -/
theorem C19_store_release (l : List (Buf f)) (i v : ℕ) (hi : i < ct_mp_nlimbs (catLen l)) (hv : v < B) :
    RSat (do let c ← Composite.new l; let c ← c.store i v; pure c.parts)
      (fun l' => l'.map Buf.len = l.map Buf.len ∧
        catNat l' = setLimb (catNat l) i (v % 256 ^ (catLen l - i * LB))) := by
  by_cases hfit : v < 256 ^ (catLen l - i * LB)
  · rw [Nat.mod_eq_of_lt hfit]
    exact (C19_store l i v hi hv hfit).rel
  refine (Composite.new_sat l).rel.bind fun c ⟨h1, h2, h3, h4⟩ => ?_
  refine (Composite.store_unfit h1 (by rwa [h2]) hv (by rw [h2]; omega)).2.bind fun c' ⟨g1, g2⟩ => ?_
  exact RSat.pure ⟨by rw [← g1.parts, h4],
    by rw [Composite.parts_val _ (g1.wf h1), g2, h3, h2, upd_eq_setLimb]⟩

-- three segments of 3, 1 and 2 bytes: the second limb has two bytes; two segments of 1 and 2 bytes: the limb has three
example : letI := cfg32;
    (do let c ← Composite.new [Buf.be [1, 2, 3], Buf.be [4], Buf.be [5, 6]]; c.load 2).val = none ∧
    (do let c ← Composite.new [Buf.be [1, 2, 3], Buf.be [4], Buf.be [5, 6]]; c.load 1).val = some 0x0506 := by
  decide +kernel
example : letI := cfg32;
    ((do let c ← Composite.new [Buf.le [1], Buf.le [2, 3]]; let c ← c.store 0 0xaabbccdd; pure c.parts).val = none) ∧
    (do let c ← Composite.new [Buf.le [1], Buf.le [2, 3]]; let c ← c.store 0 0xaabbccdd; pure c.parts).rel.map
      (List.map Buf.toNat) = some [0xdd, 0xbbcc] := by
  decide +kernel

end Props
end Cmpa
