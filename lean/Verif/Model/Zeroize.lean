import Verif.Model.Limb

/-!
# Operations assigning to a `LimbChoice` (limb/mod.rs:219-253)
-/

namespace Cmpa
namespace LimbChoice
variable [LimbCfg]

/-- `ops::BitAndAssign`, limb/mod.rs:219-225: the new value of `self`. -/
def and_assign (self rhs : LimbChoice) : LimbChoice := { self with mask := self.mask &&& rhs.mask }

/-- `ops::BitOrAssign`, limb/mod.rs:238-244: the new value of `self`. -/
def or_assign (self rhs : LimbChoice) : LimbChoice := { self with mask := self.mask ||| rhs.mask }

/-- `zeroize::Zeroize`, limb/mod.rs:246-253: the new value of `self`.  The `zeroize` of an integer stores zero. -/
def zeroize (self : LimbChoice) : LimbChoice := { self with mask := 0 }

end LimbChoice
end Cmpa
