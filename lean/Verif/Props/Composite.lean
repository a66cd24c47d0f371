import Verif.Proofs.Composite

/-!
# Multi-segment buffers (C19)

`catNat l` is the number held by the concatenation of the buffers `l` (the first one being the
least significant), `catLen l` its length in bytes, `x / B ^ i % B` the `i`-th limb of `x`.
-/

namespace Cmpa
namespace Props
open M
variable [LimbCfg] {f : Fmt}

/-- Specification: `x` with limb `i` replaced by `v`. -/
def setLimb (x i v : ℕ) : ℕ := x - (x / B ^ i % B) * B ^ i + v * B ^ i

theorem upd_eq_setLimb (x i v : ℕ) : upd x i v = setLimb x i v := by
  have h := low_high x (i + 1)
  rw [mod_succ] at h
  unfold setLimb upd
  generalize hd : x / B ^ i % B = d at *
  generalize x / B ^ (i + 1) = t at *
  generalize x % B ^ i = m at *
  have e : x - d * B ^ i = m + B ^ i * (B * t) := by
    rw [h, pow_succ, mul_comm d]
    have : B ^ i * B * t = B ^ i * (B * t) := by ring
    omega
  rw [e]; ring

/-- C19: reading a limb. -/
theorem C19_load (l : List (Buf f)) (i : ℕ) (hi : i < ct_mp_nlimbs (catLen l)) :
    Sat (do let c ← Composite.new l; c.load i) (fun x => x = catNat l / B ^ i % B) :=
  (Composite.new_sat l).bind fun c ⟨h1, h2, h3, _⟩ =>
    (Composite.load_sat h1 (by rwa [h2])).mono fun x hx => by rw [hx, h3]

/-- C19: writing a limb changes that limb of the concatenation and nothing else. -/
theorem C19_store (l : List (Buf f)) (i v : ℕ) (hi : i < ct_mp_nlimbs (catLen l)) (hv : v < B)
    (hfit : v < 256 ^ (catLen l - i * LB)) :
    Sat (do let c ← Composite.new l; let c ← c.store i v; pure c.parts)
      (fun l' => l'.map Buf.len = l.map Buf.len ∧ catNat l' = setLimb (catNat l) i v) :=
  (Composite.new_sat l).bind fun c ⟨h1, h2, h3, h4⟩ =>
    (Composite.store_sat h1 (by rwa [h2]) hv (by rwa [h2])).bind fun c' ⟨g1, g2⟩ =>
      M.sat_pure.2 ⟨by rw [← g1.parts, h4],
        by rw [Composite.parts_val _ (g1.wf h1), g2, h3, upd_eq_setLimb]⟩

/-- A sequence of writes. -/
def storeAll (c : Composite f) : List (ℕ × ℕ) → M (Composite f)
  | [] => pure c
  | (i, v) :: ops => do
    let c ← c.store i v
    storeAll c ops

theorem storeAll_sat : ∀ (ops : List (ℕ × ℕ)) {c : Composite f}, Composite.WF 0 c →
    (∀ p ∈ ops, p.1 < ct_mp_nlimbs c.len ∧ p.2 < B ∧ p.2 < 256 ^ (c.len - p.1 * LB)) →
    Sat (storeAll c ops) (fun c' => Composite.Same c c' ∧
      c'.toNat = ops.foldl (fun x p => setLimb x p.1 p.2) c.toNat)
  | [], c, h, _ => M.sat_pure.2 ⟨Composite.Same.refl c, rfl⟩
  | (i, v) :: ops, c, h, ho => by
    obtain ⟨h1, h2, h3⟩ := ho (i, v) (by simp)
    unfold storeAll
    refine (Composite.store_sat h h1 h2 h3).bind fun c' ⟨g1, g2⟩ => ?_
    refine (storeAll_sat ops (g1.wf h) ?_).mono ?_
    · intro p hp
      rw [← g1.len_eq]
      exact ho p (by simp [hp])
    · rintro c'' ⟨k1, k2⟩
      exact ⟨g1.trans k1, by rw [k2, g2, upd_eq_setLimb]; rfl⟩

/-- C19: after any sequence of writes, the composite reads, and the buffers it has been made from
hold, what a contiguous buffer would. -/
theorem C19_history (l : List (Buf f)) (ops : List (ℕ × ℕ))
    (ho : ∀ p ∈ ops, p.1 < ct_mp_nlimbs (catLen l) ∧ p.2 < B ∧
      p.2 < 256 ^ (catLen l - p.1 * LB)) (j : ℕ) (hj : j < ct_mp_nlimbs (catLen l)) :
    Sat (do let c ← Composite.new l
            let c ← storeAll c ops
            let x ← c.load j
            pure (x, c.parts))
      (fun r => let y := ops.foldl (fun x p => setLimb x p.1 p.2) (catNat l)
        r.1 = y / B ^ j % B ∧ catNat r.2 = y ∧ r.2.map Buf.len = l.map Buf.len) :=
  (Composite.new_sat l).bind fun c ⟨h1, h2, h3, h4⟩ =>
    (storeAll_sat ops h1 (by rwa [h2])).bind fun c' ⟨g1, g2⟩ =>
      (Composite.load_sat (g1.wf h1) (by rwa [← g1.len_eq, h2])).bind fun x hx =>
        M.sat_pure.2 ⟨by rw [hx, g2, h3],
          by rw [Composite.parts_val _ (g1.wf h1), g2, h3],
          by rw [← g1.parts, h4]⟩

-- three segments of 3, 2 and 9 bytes: limb 0 straddles all of them
example : letI := cfg64;
    ((do let c ← Composite.new [Buf.be [1, 2, 3], Buf.be [4, 5], Buf.be [6, 7, 8, 9, 10, 11, 12, 13, 14]]
         let c ← storeAll c [(0, 0x1122334455667788), (1, 0xaabbccddee)]
         let x ← c.load 0
         pure (x, c.parts) : M (ℕ × List (Buf .be))).val.map fun r => (r.1, r.2.map Buf.toNat)) =
      some (0x1122334455667788, [0x667788, 0x4455, 0x00aabbccddee112233]) := by decide +kernel

end Props
end Cmpa
