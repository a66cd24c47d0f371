import Verif.Model.Euclid
import Verif.Model.Usize

/-!
# The gcd computation with a `usize` of 32 or 64 bits

Elsewhere lengths and counters are unbounded.  Here the number of batches and the variable `delta`
of euclid_impl.rs are computed as in the code, in a `usize` of the size given by `u`: additions and
multiplications which overflow panic in a debug build, and wrap around in a release build.
-/

namespace Cmpa
variable [LimbCfg] {φ ψ : Fmt} {σ : Type}

/-- `a + b` for `usize`, as in euclid_impl.rs:538-542. -/
def M.addU (u : UsizeCfg) (a b : ℕ) : M ℕ := @M.addL u.cfg a b
/-- `a * b` for `usize`, as in euclid_impl.rs:538-542. -/
def M.mulU (u : UsizeCfg) (a b : ℕ) : M ℕ := @M.mulL u.cfg a b

/-- `LimbChoice::select_usize`, limb/mod.rs:181-185. -/
def LimbChoice.select_usize' (u : UsizeCfg) (c : LimbChoice) (v0 v1 : ℕ) : ℕ :=
  let mask := @wsub u.cfg 0 c.unwrap
  v0 ^^^ (mask &&& (v0 ^^^ v1))

/-- The number of steps in `nbatches`, euclid_impl.rs:538-542. -/
def nsteps' (u : UsizeCfg) (d : ℕ) : M ℕ :=
  if d < 46 then do pure ((← M.addU u (← M.mulU u 49 d) 80) / 17)
  else do pure ((← M.addU u (← M.mulU u 49 d) 57) / 17)

/-- `nbatches`, euclid_impl.rs:531-544. -/
def nbatches' (u : UsizeCfg) (len : ℕ) : M ℕ := do
  let nbits ← M.addU u (← M.mulU u len 8) 1
  let d ← M.addU u nbits 1
  let nsteps ← nsteps' u d
  pure ((← M.sub (← M.addU u nsteps STEPS_PER_BATCH) 1) / STEPS_PER_BATCH)

/-- Body of the loop in `batch_divsteps`, euclid_impl.rs:502-526; `delta` is a two's complement
number in a `usize`. -/
def batch_step' (u : UsizeCfg) : ℕ × ℕ × ℕ × TransitionMatrix → M (ℕ × ℕ × ℕ × TransitionMatrix)
  | (delta, f_low, g_low, m) => do
    let delta_is_pos ← LimbChoice.from' (shr (@wneg u.cfg delta) (@W u.cfg - 1))
    M.assert (delta = 0 ∨ delta > 2 ^ (@W u.cfg - 1) - 1 ∨ delta_is_pos.unwrap = 1)
    M.assert (¬ (delta = 0 ∨ delta > 2 ^ (@W u.cfg - 1) - 1) ∨ delta_is_pos.unwrap = 0)
    let g0 ← LimbChoice.from' (g_low &&& 1)
    let case0 := delta_is_pos.and g0
    let m ← m.push_transition case0 g0
    let delta := case0.select_usize' u (@wadd u.cfg 1 delta) (@wsub u.cfg 1 delta)
    let new_f_low := case0.select f_low g_low
    let case0_mask := case0.select 0 lmax
    let f_low_mask := case0.select (g0.select 0 lmax) lmax
    let f_low := f_low ^^^ case0_mask
    let f_low := wadd f_low case0.unwrap
    let f_low := f_low &&& f_low_mask
    let new_g_low ← ct_arithmetic_rshift_l (wadd g_low f_low) 1
    pure (delta, new_f_low, new_g_low, m)

/-- `batch_divsteps`, euclid_impl.rs:495-529. -/
def batch_divsteps' (u : UsizeCfg) (delta f_low g_low : ℕ) : M (ℕ × TransitionMatrix) := do
  M.assert (f_low &&& 1 = 1)
  let s ← M.forRange 0 STEPS_PER_BATCH (delta, f_low, g_low, TransitionMatrix.identity)
    (fun _ => batch_step' u)
  pure (s.1, s.2.2.2)

/-- The loop state of `ct_gcd_ext_odd_mp_mp`, euclid_impl.rs:565-567; see `GcdState`. -/
structure GcdState' (φ ψ : Fmt) (σ : Type) where
  f : Buf φ
  fsh : ℕ × ℕ
  g : Buf ψ
  gsh : ℕ × ℕ
  delta : ℕ
  ext : σ

/-- Body of the loop in `ct_gcd_ext_odd_mp_mp`, euclid_impl.rs:569-585. -/
def gcd_batch' (u : UsizeCfg) (nlimbs : ℕ) (upd : TransitionMatrix → NegMask → σ → M σ)
    (s : GcdState' φ ψ σ) : M (GcdState' φ ψ σ) := do
  let (f_low, g_low) ← M.cond (1 < nlimbs)
    (do
      let f_low ← s.f.load_l_full 0
      let g_low ← s.g.load_l_full 0
      pure (f_low, g_low))
    (pure (s.fsh.1, s.gsh.1))
  M.assert (f_low &&& 1 = 1)
  let (delta, m) ← batch_divsteps' u s.delta f_low g_low
  let neg ← m.t_is_neg_mask
  let ((f, fsh), (g, gsh)) ← m.apply_to_f_g neg s.fsh s.f s.gsh s.g
  let ext ← upd m neg s.ext
  pure ⟨f, fsh, g, gsh, delta, ext⟩

/-- `ct_gcd_ext_odd_mp_mp`, euclid_impl.rs:546-600. -/
def ct_gcd_ext_odd_mp_mp' (u : UsizeCfg) (upd : TransitionMatrix → NegMask → σ → M σ) (ext : σ)
    (f : Buf φ) (g : Buf ψ) : M (Buf φ × Buf ψ × LimbChoice × σ) := do
  let nlimbs := f.nlimbs
  M.assert (nlimbs = g.nlimbs)
  M.assert (nlimbs ≠ 0)
  M.assertM (do let f0 ← f.load_l 0; pure (f0 &&& 1 == 1))
  let n ← nbatches' u (max f.len g.len)
  let f_high ← f.load_l (nlimbs - 1)
  let g_high ← g.load_l (nlimbs - 1)
  let s ← M.forRange 0 n (⟨f, (f_high, 0), g, (g_high, 0), 1, ext⟩ : GcdState' _ _ σ)
    (fun _ => gcd_batch' u nlimbs upd)
  M.assert (s.gsh.1 = 0)
  let g ← s.g.store_l (nlimbs - 1) 0
  M.assert (s.gsh.2 = 0)
  let _ ← M.forRange 0 nlimbs () (fun k _ =>
    M.assertM (do let v ← g.load_l k; pure (v == 0)))
  M.assert (s.fsh.2 = 0 ∨ s.fsh.2 = lmax)
  let f_is_neg ← LimbChoice.from' (shr s.fsh.2 (W - 1))
  let f ← s.f.store_l (nlimbs - 1) (s.fsh.1 &&& s.f.partial_high_mask)
  pure (f, g, f_is_neg, s.ext)

/-- `ct_gcd_odd_mp_mp`, euclid_impl.rs:608-638: the updated `f` and `g`. -/
def ct_gcd_odd_mp_mp' (u : UsizeCfg) (f : Buf φ) (g : Buf ψ) :
    M (Except GcdError (Buf φ × Buf ψ)) := do
  let f0 ← f.test_bit 0
  M.cond (f0.unwrap = 0) (pure (.error .InvalidInputOperandValue)) do
    let c0 ← f.len_is_compatible_with g.len
    let c1 ← g.len_is_compatible_with f.len
    M.cond (¬ c0 = true ∨ ¬ c1 = true) (pure (.error .InconsistentOperandLengths)) do
      let (f, g, gcd_is_neg, _) ← ct_gcd_ext_odd_mp_mp' u (fun _ _ s => pure s) () f g
      let f ← gcd_negate f gcd_is_neg
      pure (.ok (f, g))

end Cmpa
