import Verif.Model.Zeroize
import Verif.Props.Limb

/-!
# Assigning to choices (C12)
-/

namespace Cmpa
namespace Props
variable [LimbCfg]

/-- C12: `&=` and `|=` are the Boolean operations. -/
theorem C12_assign (b c : Bool) :
    (LimbChoice.ofBool b).and_assign (.ofBool c) = .ofBool (b && c) ∧
    (LimbChoice.ofBool b).or_assign (.ofBool c) = .ofBool (b || c) :=
  ⟨LimbChoice.and_ofBool b c, LimbChoice.or_ofBool b c⟩

/-- C12: a choice which has been zeroized is like all others which have been, and selects the first alternative. -/
theorem C12_zeroize (a : LimbChoice) {x y : ℕ} (hx : x < B) (hy : y < B) :
    a.zeroize = .ofBool false ∧ a.zeroize.unwrap = 0 ∧ a.zeroize.select x y = x := by
  have h : a.zeroize = .ofBool false := by
    unfold LimbChoice.zeroize
    simp [LimbChoice.ofBool]
  rw [h]
  exact ⟨rfl, (C12_select false false hx hy 0 0).1, (C12_select false false hx hy 0 0).2.1⟩

example : letI := cfg64; ((LimbChoice.ofBool true).zeroize.unwrap, (LimbChoice.ofBool true).unwrap,
    ((LimbChoice.ofBool true).and_assign (.ofBool false)).unwrap) = (0, 1, 0) := by decide +kernel

end Props
end Cmpa
