import Verif.Props.SquareRoot

/-!
# C63: many inverses for the price of one

A user's program which inverts the elements of a list by a single inversion and three multiplications for each
(Montgomery's trick).
-/

namespace Cmpa
namespace Props

open M
variable [LimbCfg]

/-! ## The programs -/

/-- The recursion of `batchInv`: the inverses of the elements of the list, and the one of `acc`. -/
def batchInvFrom (p : Buf .be) : Buf .be → List (Buf .be) → M (List (Buf .be) × Buf .be)
  | acc, [] => do
    let u ← fInv p acc
    pure ([], u)
  | acc, a :: l => do
    let t ← fMul p acc a
    let (bs, u) ← batchInvFrom p t l
    let b ← fMul p u acc
    let u ← fMul p u a
    pure (b :: bs, u)

/-- A user's program: the inverses of the elements of the list. -/
def batchInv (p : Buf .be) (l : List (Buf .be)) : M (List (Buf .be)) := do
  let (bs, _) ← batchInvFrom p (oneBuf p.len) l
  pure bs

/-! ## Proofs -/

section
variable {p : Buf .be}

/-- `b` is the inverse of `a`. -/
def IsInverse (p a b : Buf .be) : Prop := b.len = p.len ∧ b.toNat < p.toNat ∧ a.toNat * b.toNat % p.toNat = 1

theorem IsInverse.of_el (hp : 1 < p.toNat) {a b : Buf .be} {x y : ZMod p.toNat} (ha : El p a x) (hb : El p b y)
    (h : x * y = 1) : IsInverse p a b := by
  refine ⟨hb.len, hb.lt, ?_⟩
  rw [← ha.val, ← hb.val, ← Nat.cast_mul, ← Nat.cast_one, ZMod.natCast_eq_natCast_iff, Nat.ModEq,
    Nat.mod_eq_of_lt hp] at h
  exact h

theorem batchInvFrom_sat (hp : FieldModulus p) (l : List (Buf .be)) (hl : ∀ a ∈ l, a.len = p.len ∧ a.toNat < p.toNat ∧ a.toNat ≠ 0)
    {acc : Buf .be} {x : ZMod p.toNat} (ha : El p acc x) (hx : x ≠ 0) :
    Sat (batchInvFrom p acc l) (fun r => List.Forall₂ (IsInverse p) l r.1 ∧ ∃ z, El p r.2 z ∧ x * z = 1) := by
  haveI := hp.inst
  induction l generalizing acc x with
  | nil =>
    rw [batchInvFrom]
    refine (fInv_sat hp ha hx).bind fun u hu => ?_
    exact Sat.pure ⟨.nil, hu⟩
  | cons a l ih =>
    have h := hl a List.mem_cons_self
    have hel : El p a (a.toNat : ZMod p.toNat) := ⟨h.1, h.2.1, rfl⟩
    have ha0 : (a.toNat : ZMod p.toNat) ≠ 0 := fun e => h.2.2 (hel.zero_iff.2 e)
    rw [batchInvFrom]
    refine (fMul_sat ha hel).bind fun t ht => ?_
    refine (ih (fun a h => hl a (List.mem_cons_of_mem _ h)) ht (mul_ne_zero hx ha0)).bind fun r hr => ?_
    obtain ⟨bs, u⟩ := r
    obtain ⟨h1, z, hz, hz'⟩ := hr
    refine (fMul_sat hz ha).bind fun b hb => ?_
    refine (fMul_sat hz hel).bind fun u hu => ?_
    refine Sat.pure ⟨.cons (IsInverse.of_el hp.prime.one_lt hel hb ?_) h1, _, hu, ?_⟩
    · rw [← hz']
      ring
    · rw [← hz']
      ring

/-- **C63**: every element of the result is the inverse of the corresponding one of the list. -/
theorem C63_batch_inverse (p : Buf .be) (l : List (Buf .be)) (hp : FieldModulus p)
    (hl : ∀ a ∈ l, a.len = p.len ∧ a.toNat < p.toNat ∧ a.toNat ≠ 0) :
    Sat (batchInv p l) (List.Forall₂ (IsInverse p) l) := by
  haveI := hp.inst
  unfold batchInv
  refine (batchInvFrom_sat hp l hl (oneBuf_el hp) one_ne_zero).bind fun r hr => ?_
  obtain ⟨bs, u⟩ := r
  exact Sat.pure hr.1

theorem batchInvFrom_ct [Obs] {l l' : List (Buf .be)} (hl : l.map Buf.len = l'.map Buf.len) {acc acc' : Buf .be}
    (ha : acc.len = acc'.len) :
    SameTr (batchInvFrom p acc l) (batchInvFrom p acc' l') (fun r r' => r.2.len = r'.2.len) := by
  induction l generalizing l' acc acc' with
  | nil =>
    cases l' with
    | nil =>
      rw [batchInvFrom, batchInvFrom]
      exact (fInv_ct ha).bind fun _ _ h => SameTr.pure h
    | cons => simp at hl
  | cons a l ih =>
    cases l' with
    | nil => simp at hl
    | cons a' l' =>
      rw [List.map_cons, List.map_cons, List.cons.injEq] at hl
      rw [batchInvFrom, batchInvFrom]
      refine (fMul_ct ha hl.1).bind fun _ _ h1 => ?_
      refine (ih hl.2 h1).bind fun r r' h2 => ?_
      refine (fMul_ct h2 ha).bind fun _ _ _ => ?_
      exact (fMul_ct h2 hl.1).bind fun _ _ h3 => SameTr.pure h3

/-- **C63**: the elements aren't revealed, only their number. -/
theorem C63_constant_time (p : Buf .be) (l l' : List (Buf .be)) (hp : FieldModulus p)
    (hl : ∀ a ∈ l, a.len = p.len ∧ a.toNat < p.toNat ∧ a.toNat ≠ 0)
    (hl' : ∀ a ∈ l', a.len = p.len ∧ a.toNat < p.toNat ∧ a.toNat ≠ 0) (h : l.length = l'.length) :
    (batchInv p l).tr = (batchInv p l').tr := by
  letI := Obs.full
  refine sameEvents (R := fun _ _ => True) ?_ (C63_batch_inverse p l hp hl).ne_none
    (C63_batch_inverse p l' hp hl').ne_none
  unfold batchInv
  refine (batchInvFrom_ct (l := l) (l' := l') ?_ rfl).bind fun _ _ _ => SameTr.pure trivial
  refine List.ext_getElem (by simpa using h) fun i h1 h2 => ?_
  rw [List.getElem_map, List.getElem_map, (hl _ (List.getElem_mem _)).1, (hl' _ (List.getElem_mem _)).1]

end

/-! ## Examples -/

-- the inverses of 2, 3, 7 modulo 11
example : letI := cfg32;
    (batchInv (Buf.be [11]) [Buf.be [2], Buf.be [3],
      Buf.be [7]]).val.map (List.map Buf.toNat) = some [6, 4, 8] := by decide +kernel

end Props
end Cmpa
