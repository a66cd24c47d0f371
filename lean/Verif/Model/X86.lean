import Verif.Model.Limb

/-!
# Model of limb/x86_64_math.rs: the inline assembly variants

The instructions used are given a semantics on a machine state of general purpose registers, numbered as in the
machine code (0 is `rax`, 2 is `rdx`), and the two flags read.  An `asm!` block starts in any state, except that the
input operands are in the registers the compiler has chosen for them, which are parameters of the model.
-/

namespace Cmpa.X86

/-- General purpose registers and the flags read by the code in limb/x86_64_math.rs:31-176. -/
structure State where
  reg : ℕ → ℕ
  cf : Bool
  zf : Bool

/-- The register `rax`, limb/x86_64_math.rs:121. -/
def rax : ℕ := 0
/-- The register `rdx`, limb/x86_64_math.rs:122. -/
def rdx : ℕ := 2

namespace State

/-- Write a register, e.g. the operand of limb/x86_64_math.rs:38. -/
def set (s : State) (r v : ℕ) : State := { s with reg := fun x => if x = r then v else s.reg x }

/-- `xor d, r`, e.g. limb/x86_64_math.rs:34. -/
def xor (s : State) (d r : ℕ) : State :=
  let v := s.reg d ^^^ s.reg r
  { s.set d v with cf := false, zf := decide (v = 0) }

/-- `test a, b`, e.g. limb/x86_64_math.rs:35. -/
def test (s : State) (a b : ℕ) : State :=
  { s with cf := false, zf := decide (s.reg a &&& s.reg b = 0) }

/-- `add d, r`, limb/x86_64_math.rs:76. -/
def add (s : State) (d r : ℕ) : State :=
  let v := s.reg d + s.reg r
  { s.set d (v % 2 ^ 64) with cf := decide (2 ^ 64 ≤ v), zf := decide (v % 2 ^ 64 = 0) }

/-- `sub d, r`, limb/x86_64_math.rs:99. -/
def sub (s : State) (d r : ℕ) : State :=
  let v := (s.reg d + (2 ^ 64 - s.reg r)) % 2 ^ 64
  { s.set d v with cf := decide (s.reg d < s.reg r), zf := decide (v = 0) }

/-- Write the least significant byte of a register, the others are kept; e.g. the operand of
limb/x86_64_math.rs:36. -/
def setLow (s : State) (d : ℕ) (b : Bool) : State :=
  s.set d (s.reg d / 256 * 256 + b.toNat)

/-- `setz d`, limb/x86_64_math.rs:56. -/
def setz (s : State) (d : ℕ) : State := s.setLow d s.zf
/-- `setnz d`, limb/x86_64_math.rs:36. -/
def setnz (s : State) (d : ℕ) : State := s.setLow d (!s.zf)
/-- `setc d`, e.g. limb/x86_64_math.rs:77. -/
def setc (s : State) (d : ℕ) : State := s.setLow d s.cf

/-- `mul r`, limb/x86_64_math.rs:120; the flags, of which `zf` is undefined afterwards, are left out. -/
def mul (s : State) (r : ℕ) : State :=
  let v := s.reg rax * s.reg r
  (s.set rax (v % 2 ^ 64)).set rdx (v / 2 ^ 64)

/-- `div r`, limb/x86_64_math.rs:167; `none` is the divide error, raised for a divisor of zero and if the quotient doesn't fit into a register. -/
def div (s : State) (r : ℕ) : Option State :=
  let u := s.reg rdx * 2 ^ 64 + s.reg rax
  let v := s.reg r
  if v = 0 ∨ 2 ^ 64 ≤ u / v then none
  else some ((s.set rax (u / v)).set rdx (u % v))

end State

/-- `ct_is_nonzero_l`, limb/x86_64_math.rs:31-44; `rv` and `rr` are the registers of `v` and `result`. -/
def ct_is_nonzero_l (s : State) (rv rr v : ℕ) : ℕ :=
  (((s.set rv v).xor rr rr).test rv rv |>.setnz rr).reg rr

/-- `ct_is_zero_l`, limb/x86_64_math.rs:51-64. -/
def ct_is_zero_l (s : State) (rv rr v : ℕ) : ℕ :=
  (((s.set rv v).xor rr rr).test rv rv |>.setz rr).reg rr

/-- `ct_add_l_l`, limb/x86_64_math.rs:71-86: (carry, sum); `r0`, `r1` and `rc` are the registers of
`v0` (and `result`), `v1` and `carry`. -/
def ct_add_l_l (s : State) (r0 r1 rc v0 v1 : ℕ) : ℕ × ℕ :=
  let s := ((((s.set r0 v0).set r1 v1).xor rc rc).add r0 r1).setc rc
  (s.reg rc, s.reg r0)

/-- `ct_sub_l_l`, limb/x86_64_math.rs:94-109: (borrow, difference). -/
def ct_sub_l_l (s : State) (r0 r1 rc v0 v1 : ℕ) : ℕ × ℕ :=
  let s := ((((s.set r0 v0).set r1 v1).xor rc rc).sub r0 r1).setc rc
  (s.reg rc, s.reg r0)

/-- `ct_mul_l_l`, limb/x86_64_math.rs:116-128; `r1` is the register of `v1`. -/
def ct_mul_l_l (s : State) (r1 v0 v1 : ℕ) : DoubleLimb :=
  let s := ((s.set rax v0).set r1 v1).mul r1
  ⟨s.reg rdx, s.reg rax⟩

/-- `NonCtLDivisor::do_div`, limb/x86_64_math.rs:162-176: (quotient, remainder); `rv` is the register of
`self.v`.  The divide error, which ends the process, is modelled as a panic. -/
def NonCtLDivisor.do_div (s : State) (rv v : ℕ) (u : DoubleLimb) : M (ℕ × ℕ) := do
  let s ← M.ofOption ((((s.set rax u.low).set rdx u.high).set rv v).div rv)
  pure (s.reg rax, s.reg rdx)

/-- `CtLDivisor::nonct_compute_m`, limb/mod.rs:1019-1024, with the divisor of limb/x86_64_math.rs, of which
`new` (154-159) checks the divisor for zero. -/
def nonct_compute_m [LimbCfg] (s : State) (rv v v_width : ℕ) : M ℕ := do
  if ← M.branch (v = 0) then M.panic
  else
    let h ← M.sub (ct_lsb_mask_l v_width) v
    let (q, _) ← NonCtLDivisor.do_div s rv v ⟨h, lmax⟩
    pure q

end Cmpa.X86
