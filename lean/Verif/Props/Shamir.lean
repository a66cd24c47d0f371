import Mathlib.LinearAlgebra.Lagrange
import Verif.Props.Elliptic

/-!
# C61: Shamir's secret sharing

A user's programs which share a secret and which reconstruct it, on top of the arithmetic in prime fields.
-/

namespace Cmpa
namespace Props

open M
variable [LimbCfg]

/-! ## The programs -/

/-- `vec![0, …, 0, 1]`. -/
def oneBuf (len : ℕ) : Buf .be := .be (List.replicate (len - 1) 0 ++ [1])

/-- A user's program: the value at `x` of the polynomial with the given coefficients, the constant one first. The
constant coefficient is the secret, the value is the share. -/
def share (p x : Buf .be) : List (Buf .be) → M (Buf .be)
  | [] => pure (zeros p.len)
  | c :: cs => do
    let r ← share p x cs
    let r ← fMul p r x
    fAdd p r c

/-- A user's program: numerator and denominator of Lagrange's coefficient at `x`. -/
def lagrangeFrac (p x : Buf .be) : List (Buf .be) → Buf .be → Buf .be → M (Buf .be × Buf .be)
  | [], n, d => pure (n, d)
  | z :: zs, n, d => do
    let same ← fEq z x
    M.cond (same = true) (lagrangeFrac p x zs n d) do
      let n ← fMul p n z
      let u ← fSub p z x
      let d ← fMul p d u
      lagrangeFrac p x zs n d

/-- The loop of `reconstruct`: add the contributions of the given shares to `s`. -/
def reconstructFrom (p : Buf .be) (xs : List (Buf .be)) : List (Buf .be × Buf .be) → Buf .be → M (Buf .be)
  | [], s => pure s
  | (x, y) :: l, s => do
    let (n, d) ← lagrangeFrac p x xs (oneBuf p.len) (oneBuf p.len)
    let d ← fInv p d
    let w ← fMul p n d
    let t ← fMul p w y
    let s ← fAdd p s t
    reconstructFrom p xs l s

/-- A user's program: the secret from shares. -/
def reconstruct (p : Buf .be) (l : List (Buf .be × Buf .be)) : M (Buf .be) :=
  reconstructFrom p (l.map Prod.fst) l (zeros p.len)

/-! ## Specification -/

/-- The polynomial with the coefficients in the buffers. -/
noncomputable def polyOf {p : Buf .be} (cs : List (Buf .be)) : Polynomial (ZMod p.toNat) :=
  ∑ i ∈ Finset.range cs.length, Polynomial.C ((cs.getD i (zeros 0)).toNat : ZMod p.toNat) * Polynomial.X ^ i

/-- The pair is a point of the graph of the polynomial. -/
def IsShare {p : Buf .be} (f : Polynomial (ZMod p.toNat)) (s : Buf .be × Buf .be) : Prop :=
  ∃ a, El p s.1 a ∧ El p s.2 (f.eval a)

/-! ## Proofs -/

theorem be_snoc_toNat (l : List (Fin 256)) (c : Fin 256) :
    (Buf.be (l ++ [c]) : Buf .be).toNat = c.val + 256 * (Buf.be l : Buf .be).toNat := by
  simp [Buf.toNat, Nat.ofDigits_cons]

theorem zeros_toNat (n : ℕ) : (zeros n).toNat = 0 := by
  induction n with
  | zero => rfl
  | succ n ih =>
    rw [zeros, List.replicate_succ', be_snoc_toNat]
    rw [zeros] at ih
    rw [ih]
    rfl

theorem oneBuf_toNat (n : ℕ) : (oneBuf n).toNat = 1 := by
  rw [oneBuf, be_snoc_toNat]
  have := zeros_toNat (n - 1)
  rw [zeros] at this
  rw [this]
  rfl

theorem oneBuf_len (n : ℕ) (h : 0 < n) : (oneBuf n).len = n := by
  simp only [oneBuf, Buf.len, List.length_append, List.length_replicate, List.length_singleton]
  omega

/-- Every number which fits is in some buffer. -/
theorem exists_be (n v : ℕ) (h : v < 256 ^ n) : ∃ b : Buf .be, b.len = n ∧ b.toNat = v := by
  induction n generalizing v with
  | zero => exact ⟨.be [], rfl, by simp at h; simp [Buf.toNat, h]⟩
  | succ n ih =>
    obtain ⟨b, hb, hv⟩ := ih (v / 256) (by rw [Nat.div_lt_iff_lt_mul (by norm_num)]; rwa [pow_succ] at h)
    cases b with
    | be l =>
      refine ⟨.be (l ++ [⟨v % 256, Nat.mod_lt _ (by norm_num)⟩]), ?_, ?_⟩
      · simp only [Buf.len, List.length_append, List.length_singleton] at hb ⊢
        omega
      · rw [be_snoc_toNat, hv]
        exact Nat.mod_add_div _ _

section
variable {p : Buf .be}

theorem zeros_el (hp : 0 < p.toNat) : El p (zeros p.len) 0 :=
  ⟨zeros_len _, by rw [zeros_toNat]; exact hp, by rw [zeros_toNat, Nat.cast_zero]⟩

theorem FieldModulus.len_pos (hp : FieldModulus p) : 0 < p.len := by
  rcases Nat.eq_zero_or_pos p.len with h | h
  · have := p.toNat_lt
    have h2 := hp.prime.two_le
    rw [h, pow_zero] at this
    omega
  · exact h

theorem oneBuf_el (hp : FieldModulus p) : El p (oneBuf p.len) 1 :=
  ⟨oneBuf_len _ hp.len_pos, by rw [oneBuf_toNat]; exact hp.prime.one_lt, by rw [oneBuf_toNat, Nat.cast_one]⟩

theorem polyOf_nil : (polyOf [] : Polynomial (ZMod p.toNat)) = 0 := by simp [polyOf]

theorem polyOf_cons (c : Buf .be) (cs : List (Buf .be)) : (polyOf (c :: cs) : Polynomial (ZMod p.toNat)) =
    polyOf cs * Polynomial.X + Polynomial.C (c.toNat : ZMod p.toNat) := by
  unfold polyOf
  rw [List.length_cons, Finset.sum_range_succ', Finset.sum_mul]
  congr 1
  · refine Finset.sum_congr rfl fun i _ => ?_
    rw [List.getD_cons_succ, pow_succ, mul_assoc]
  · rw [List.getD_cons_zero, pow_zero, mul_one]

theorem polyOf_degree (cs : List (Buf .be)) : (polyOf cs : Polynomial (ZMod p.toNat)).degree < cs.length := by
  refine lt_of_le_of_lt (Polynomial.degree_sum_le _ _) ?_
  rw [Finset.sup_lt_iff (by exact_mod_cast WithBot.bot_lt_coe _)]
  intro i hi
  refine lt_of_le_of_lt (Polynomial.degree_C_mul_X_pow_le _ _) ?_
  exact_mod_cast Finset.mem_range.1 hi

theorem polyOf_coeff (cs : List (Buf .be)) (n : ℕ) :
    (polyOf cs : Polynomial (ZMod p.toNat)).coeff n = ((cs.getD n (zeros 0)).toNat : ZMod p.toNat) := by
  rw [polyOf, Polynomial.finset_sum_coeff]
  by_cases hn : n < cs.length
  · rw [Finset.sum_eq_single n]
    · rw [Polynomial.coeff_C_mul_X_pow, if_pos rfl]
    · intro i _ hi
      rw [Polynomial.coeff_C_mul_X_pow, if_neg (Ne.symm hi)]
    · intro h
      exact absurd (Finset.mem_range.2 hn) h
  · rw [List.getD_eq_default _ _ (not_lt.1 hn), zeros_toNat, Nat.cast_zero]
    refine Finset.sum_eq_zero fun i hi => ?_
    rw [Polynomial.coeff_C_mul_X_pow, if_neg]
    have := Finset.mem_range.1 hi
    omega

/-- **C61**: a share is the value of the polynomial. -/
theorem C61_share (p x : Buf .be) (cs : List (Buf .be)) (hp : 0 < p.toNat) (hx : x.len = p.len) (hx' : x.toNat < p.toNat)
    (hcs : ∀ c ∈ cs, c.len = p.len ∧ c.toNat < p.toNat) :
    Sat (share p x cs) (fun y => El p y ((polyOf cs : Polynomial (ZMod p.toNat)).eval (x.toNat : ZMod p.toNat))) := by
  induction cs with
  | nil =>
    refine Sat.pure ?_
    rw [polyOf_nil, Polynomial.eval_zero]
    exact zeros_el hp
  | cons c cs ih =>
    rw [share]
    refine (ih fun c hc => hcs c (List.mem_cons_of_mem _ hc)).bind fun r hr => ?_
    refine (fMul_sat hr ⟨hx, hx', rfl⟩).bind fun r hr => ?_
    have h := hcs c List.mem_cons_self
    refine (fAdd_sat hr ⟨h.1, h.2, rfl⟩).mono fun r hr => ?_
    rw [polyOf_cons, Polynomial.eval_add, Polynomial.eval_mul, Polynomial.eval_X, Polynomial.eval_C]
    exact hr

theorem lagrangeFrac_sat {x n d : Buf .be} {a u v : ZMod p.toNat} (hx : El p x a) (zs : List (Buf .be))
    (hz : ∀ z ∈ zs, El p z (z.toNat : ZMod p.toNat)) (hn : El p n u) (hd : El p d v) :
    Sat (lagrangeFrac p x zs n d) (fun r =>
      El p r.1 (u * ((zs.map fun z => (z.toNat : ZMod p.toNat)).filter (· ≠ a)).prod) ∧
      El p r.2 (v * (((zs.map fun z => (z.toNat : ZMod p.toNat)).filter (· ≠ a)).map (· - a)).prod)) := by
  induction zs generalizing n d u v with
  | nil =>
    refine Sat.pure ⟨?_, ?_⟩
    · simpa using hn
    · simpa using hd
  | cons z zs ih =>
    have h1 := hz z List.mem_cons_self
    have h2 : ∀ z ∈ zs, El p z (z.toNat : ZMod p.toNat) := fun z h => hz z (List.mem_cons_of_mem _ h)
    rw [lagrangeFrac]
    refine (fEq_sat h1 hx).bind fun same hs => ?_
    refine Sat.cond (fun h => ?_) (fun h => ?_)
    · have h' := hs.1 h
      refine (ih h2 hn hd).mono fun r hr => ?_
      rw [List.map_cons, List.filter_cons_of_neg (by simpa using h')]
      exact hr
    · have h' : (z.toNat : ZMod p.toNat) ≠ a := fun e => h (hs.2 e)
      refine (fMul_sat hn h1).bind fun _ g1 => ?_
      refine (fSub_sat h1 hx).bind fun _ g2 => ?_
      refine (fMul_sat hd g2).bind fun _ g3 => ?_
      refine (ih h2 g1 g3).mono fun r hr => ?_
      rw [List.map_cons, List.filter_cons_of_pos (by simpa using h'), List.prod_cons, List.map_cons, List.prod_cons,
        ← mul_assoc, ← mul_assoc]
      exact hr

/-- Lagrange's coefficient at `a`. -/
theorem lagrange_weight {F : Type} [Field F] [DecidableEq F] (L : List F) (hL : L.Nodup) (a : F) :
    (Lagrange.basis L.toFinset id a).eval 0 * ((L.filter (· ≠ a)).map (· - a)).prod = (L.filter (· ≠ a)).prod := by
  have e : L.toFinset.erase a = (L.filter (· ≠ a)).toFinset := by
    ext b
    simp [and_comm]
  have hN : (L.filter (· ≠ a)).Nodup := hL.filter _
  rw [Lagrange.basis, Polynomial.eval_prod, e, List.prod_toFinset _ hN, ← List.prod_map_mul]
  conv_rhs => rw [← List.map_id (L.filter (· ≠ a))]
  congr 1
  refine List.map_congr_left fun b hb => ?_
  have hb' : b - a ≠ 0 := sub_ne_zero.2 (by simpa using (List.mem_filter.1 hb).2)
  have hb'' : a - b ≠ 0 := by rw [← neg_sub]; exact neg_ne_zero.2 hb'
  simp only [Lagrange.basisDivisor, Polynomial.eval_mul, Polynomial.eval_C, Polynomial.eval_sub, Polynomial.eval_X, id]
  field_simp
  ring

theorem reconstructFrom_sat [Fact p.toNat.Prime] (hp : FieldModulus p) (f : Polynomial (ZMod p.toNat))
    (xs : List (Buf .be)) (hxs : ∀ x ∈ xs, El p x (x.toNat : ZMod p.toNat))
    (hnd : (xs.map fun x => (x.toNat : ZMod p.toNat)).Nodup)
    (l : List (Buf .be × Buf .be)) (hl : ∀ s ∈ l, IsShare f s) {s : Buf .be} {u : ZMod p.toNat} (hs : El p s u) :
    Sat (reconstructFrom p xs l s) (fun r => El p r (u + (l.map fun s =>
      f.eval (s.1.toNat : ZMod p.toNat) *
      (Lagrange.basis (xs.map fun x => (x.toNat : ZMod p.toNat)).toFinset id (s.1.toNat : ZMod p.toNat)).eval 0).sum)) := by
  induction l generalizing s u with
  | nil =>
    refine Sat.pure ?_
    simpa using hs
  | cons xy l ih =>
    obtain ⟨x, y⟩ := xy
    obtain ⟨a, hx, hy⟩ := hl (x, y) List.mem_cons_self
    rw [reconstructFrom]
    refine (lagrangeFrac_sat hx xs hxs (oneBuf_el hp) (oneBuf_el hp)).bind fun nd hnd' => ?_
    obtain ⟨n, d⟩ := nd
    obtain ⟨h1, h2⟩ := hnd'
    rw [one_mul] at h1 h2
    have w := lagrange_weight _ hnd a
    refine (fInv_sat hp h2 ?_).bind fun d' hd' => ?_
    · refine List.prod_ne_zero fun h => ?_
      obtain ⟨b, hb, hb'⟩ := List.mem_map.1 h
      have := (List.mem_filter.1 hb).2
      simp only [ne_eq, decide_not, Bool.not_eq_true', decide_eq_false_iff_not] at this
      exact this (sub_eq_zero.1 hb')
    obtain ⟨z, hz, hz'⟩ := hd'
    refine (fMul_sat h1 hz).bind fun _ h3 => ?_
    refine (fMul_sat h3 hy).bind fun _ h4 => ?_
    refine (fAdd_sat hs h4).bind fun _ h5 => ?_
    refine (ih (fun s h => hl s (List.mem_cons_of_mem _ h)) h5).mono fun r hr => ?_
    rw [List.map_cons, List.sum_cons, ← add_assoc]
    have e : ((x.toNat : ℕ) : ZMod p.toNat) = a := hx.val
    have e2 : f.eval a * (Lagrange.basis (xs.map fun x => (x.toNat : ZMod p.toNat)).toFinset id a).eval 0 =
        (List.filter (fun x => decide (x ≠ a)) (List.map (fun z => (z.toNat : ZMod p.toNat)) xs)).prod * z * f.eval a := by
      rw [← w, mul_assoc _ _ z, hz', mul_one, mul_comm]
    simp only [e]
    rw [e2]
    exact hr

/-- **C61**: any shares of distinct abscissas, more than the degree of the polynomial, give the secret. -/
theorem C61_reconstruct (p : Buf .be) (f : Polynomial (ZMod p.toNat)) (l : List (Buf .be × Buf .be))
    (hp : FieldModulus p) (hl : ∀ s ∈ l, IsShare f s) (hnd : (l.map fun s => s.1.toNat).Nodup)
    (hdeg : f.degree < l.length) :
    Sat (reconstruct p l) (fun r => El p r (f.eval 0)) := by
  haveI := hp.inst
  have hxs : ∀ x ∈ l.map Prod.fst, El p x (x.toNat : ZMod p.toNat) := by
    intro x hx
    obtain ⟨s, hs, rfl⟩ := List.mem_map.1 hx
    obtain ⟨a, h1, _⟩ := hl s hs
    exact ⟨h1.len, h1.lt, rfl⟩
  have hn : ((l.map Prod.fst).map fun x => (x.toNat : ZMod p.toNat)).Nodup := by
    have h : ((l.map fun s => s.1.toNat).map (Nat.cast : ℕ → ZMod p.toNat)).Nodup := by
      refine List.Nodup.map_on ?_ hnd
      intro a ha b hb hab
      obtain ⟨s, hs, rfl⟩ := List.mem_map.1 ha
      obtain ⟨t, ht, rfl⟩ := List.mem_map.1 hb
      exact ((hxs s.1 (List.mem_map_of_mem hs)).eq_iff (hxs t.1 (List.mem_map_of_mem ht))).2 hab
    rw [List.map_map] at h ⊢
    exact h
  refine (reconstructFrom_sat hp f _ hxs hn l hl (zeros_el hp.prime.pos)).mono fun r hr => ?_
  have hcard : ((l.map Prod.fst).map fun x => (x.toNat : ZMod p.toNat)).toFinset.card = l.length := by
    rw [List.toFinset_card_of_nodup hn, List.length_map, List.length_map]
  have key := Lagrange.eq_interpolate (v := id) (s := ((l.map Prod.fst).map fun x => (x.toNat : ZMod p.toNat)).toFinset)
    (f := f) (Set.injOn_id _) (by rw [hcard]; exact hdeg)
  rw [zero_add] at hr
  have e : f.eval 0 = (l.map fun s => f.eval (s.1.toNat : ZMod p.toNat) *
      (Lagrange.basis ((l.map Prod.fst).map fun x => (x.toNat : ZMod p.toNat)).toFinset id
        (s.1.toNat : ZMod p.toNat)).eval 0).sum := by
    conv_lhs => rw [key]
    rw [Lagrange.interpolate_apply, Polynomial.eval_finset_sum, List.sum_toFinset _ hn, List.map_map, List.map_map]
    congr 1
    refine List.map_congr_left fun s _ => ?_
    simp only [Function.comp_apply, Polynomial.eval_mul, Polynomial.eval_C, id]
  rw [e]
  exact hr

/-- A user's program: a share for each of the abscissas. -/
def shareAll (p : Buf .be) (cs : List (Buf .be)) : List (Buf .be) → M (List (Buf .be × Buf .be))
  | [] => pure []
  | x :: xs => do
    let y ← share p x cs
    let l ← shareAll p cs xs
    pure ((x, y) :: l)

theorem shareAll_sat (hp : 0 < p.toNat) (cs xs : List (Buf .be))
    (hcs : ∀ c ∈ cs, c.len = p.len ∧ c.toNat < p.toNat) (hxs : ∀ x ∈ xs, x.len = p.len ∧ x.toNat < p.toNat) :
    Sat (shareAll p cs xs) (fun l => l.map Prod.fst = xs ∧
      ∀ s ∈ l, IsShare (polyOf cs : Polynomial (ZMod p.toNat)) s) := by
  induction xs with
  | nil => exact Sat.pure ⟨rfl, by simp⟩
  | cons x xs ih =>
    have h := hxs x List.mem_cons_self
    rw [shareAll]
    refine (C61_share p x cs hp h.1 h.2 hcs).bind fun y hy => ?_
    refine (ih fun x hx => hxs x (List.mem_cons_of_mem _ hx)).bind fun l hl => ?_
    refine Sat.pure ⟨by rw [List.map_cons, hl.1], ?_⟩
    intro s hs
    rcases List.mem_cons.1 hs with rfl | hs
    · exact ⟨_, ⟨h.1, h.2, rfl⟩, hy⟩
    · exact hl.2 s hs

/-- **C61**: a shared secret is reconstructed from as many shares as there are coefficients, or more. -/
theorem C61_share_reconstruct (p c : Buf .be) (cs xs : List (Buf .be)) (hp : FieldModulus p)
    (hcs : ∀ c' ∈ c :: cs, c'.len = p.len ∧ c'.toNat < p.toNat) (hxs : ∀ x ∈ xs, x.len = p.len ∧ x.toNat < p.toNat)
    (hnd : (xs.map Buf.toNat).Nodup) (hk : cs.length < xs.length) :
    Sat (do let l ← shareAll p (c :: cs) xs; reconstruct p l) (fun r => r.len = p.len ∧ r.toNat = c.toNat) := by
  refine (shareAll_sat hp.prime.pos (c :: cs) xs hcs hxs).bind fun l hl => ?_
  have hlen : l.length = xs.length := by rw [← hl.1, List.length_map]
  refine (C61_reconstruct p _ l hp hl.2 ?_ ?_).mono fun r hr => ?_
  · have : (l.map fun s => s.1.toNat) = xs.map Buf.toNat := by rw [← hl.1, List.map_map]; rfl
    rw [this]
    exact hnd
  · refine lt_of_lt_of_le (polyOf_degree _) ?_
    rw [List.length_cons, hlen]
    exact_mod_cast hk
  · rw [polyOf_cons, Polynomial.eval_add, Polynomial.eval_mul, Polynomial.eval_X, mul_zero, zero_add,
      Polynomial.eval_C] at hr
    have h := hcs c List.mem_cons_self
    exact ⟨hr.len, (hr.eq_iff ⟨h.1, h.2, rfl⟩).2 rfl⟩

/-! ### Secrecy -/

/-- Every polynomial is the one of some coefficients in buffers. -/
theorem exists_polyOf [Fact p.toNat.Prime] (g : Polynomial (ZMod p.toNat)) (k : ℕ) (hg : g.degree < k) :
    ∃ cs : List (Buf .be), cs.length = k ∧ (∀ c ∈ cs, c.len = p.len ∧ c.toNat < p.toNat) ∧ polyOf cs = g := by
  have hpos : 0 < p.toNat := (Fact.out : p.toNat.Prime).pos
  haveI : NeZero p.toNat := ⟨hpos.ne'⟩
  choose b hb1 hb2 using fun a : ZMod p.toNat => exists_be p.len a.val (lt_trans (ZMod.val_lt a) p.toNat_lt)
  refine ⟨(List.range k).map fun i => b (g.coeff i), by simp, ?_, ?_⟩
  · intro c hc
    obtain ⟨i, _, rfl⟩ := List.mem_map.1 hc
    exact ⟨hb1 _, by rw [hb2]; exact ZMod.val_lt _⟩
  · ext n
    rw [polyOf_coeff]
    by_cases hn : n < k
    · rw [List.getD_eq_getElem _ _ (by simpa using hn)]
      simp [hb2]
    · rw [List.getD_eq_default _ _ (by simpa using hn), zeros_toNat, Nat.cast_zero,
        Polynomial.coeff_eq_zero_of_degree_lt (lt_of_lt_of_le hg (by exact_mod_cast not_lt.1 hn))]

/-- **C61**: fewer shares than coefficients are compatible with every secret. -/
theorem C61_secrecy (p c c' : Buf .be) (cs xs : List (Buf .be)) (hp : p.toNat.Prime)
    (hcs : ∀ d ∈ c :: cs, d.len = p.len ∧ d.toNat < p.toNat) (hc' : c'.len = p.len ∧ c'.toNat < p.toNat)
    (hxs : ∀ x ∈ xs, x.len = p.len ∧ x.toNat < p.toNat ∧ x.toNat ≠ 0) (hk : xs.length ≤ cs.length) :
    ∃ cs' : List (Buf .be), cs'.length = cs.length ∧ (∀ d ∈ c' :: cs', d.len = p.len ∧ d.toNat < p.toNat) ∧
      ∀ x ∈ xs, ∃ y, Sat (share p x (c :: cs)) (fun r => r.toNat = y) ∧
        Sat (share p x (c' :: cs')) (fun r => r.toNat = y) := by
  haveI : Fact p.toNat.Prime := ⟨hp⟩
  let F := ZMod p.toNat
  -- a polynomial which is zero at the abscissas and one at zero
  obtain ⟨h, hdeg, hz, h0⟩ : ∃ h : Polynomial F, h.degree ≤ xs.length ∧
      (∀ x ∈ xs, h.eval (x.toNat : F) = 0) ∧ h.eval 0 = 1 := by
    clear hk
    induction xs with
    | nil => exact ⟨1, by simp, by simp, by simp⟩
    | cons x xs ih =>
      obtain ⟨h, hd, hz, h0⟩ := ih fun x hx => hxs x (List.mem_cons_of_mem _ hx)
      have hx := hxs x List.mem_cons_self
      have hx0 : (x.toNat : F) ≠ 0 := fun e =>
        hx.2.2 ((El.zero_iff ⟨hx.1, hx.2.1, rfl⟩).2 e)
      refine ⟨h * (1 - Polynomial.C ((x.toNat : F)⁻¹) * Polynomial.X), ?_, ?_, ?_⟩
      · refine (Polynomial.degree_mul_le _ _).trans ?_
        rw [List.length_cons, Nat.cast_succ]
        refine add_le_add hd ?_
        refine (Polynomial.degree_sub_le _ _).trans (max_le ?_ ?_)
        · exact (Polynomial.degree_one_le).trans (by norm_num)
        · exact Polynomial.degree_C_mul_X_le _
      · intro y hy
        rw [Polynomial.eval_mul]
        rcases List.mem_cons.1 hy with rfl | hy
        · simp [hx0]
        · rw [hz y hy, zero_mul]
      · simp [h0]
  obtain ⟨ds, hl, hd, hg⟩ := exists_polyOf (p := p)
    (polyOf (c :: cs) + Polynomial.C ((c'.toNat : F) - c.toNat) * h) (cs.length + 1) (by
      refine lt_of_le_of_lt (Polynomial.degree_add_le _ _) (max_lt ?_ ?_)
      · exact_mod_cast polyOf_degree (p := p) (c :: cs)
      · refine lt_of_le_of_lt ((Polynomial.degree_mul_le _ _).trans (add_le_add Polynomial.degree_C_le hdeg)) ?_
        rw [zero_add]
        exact_mod_cast Nat.lt_succ_of_le hk)
  obtain ⟨d, cs', rfl⟩ : ∃ d cs', ds = d :: cs' := by
    cases ds with
    | nil => simp at hl
    | cons d cs' => exact ⟨d, cs', rfl⟩
  have hd' : (d.toNat : F) = c'.toNat := by
    have := congrArg (Polynomial.eval 0) hg
    rw [polyOf_cons, polyOf_cons] at this
    simpa [h0] using this
  have hdc : d.toNat = c'.toNat := by
    have h1 := hd d List.mem_cons_self
    exact (El.eq_iff (p := p) ⟨h1.1, h1.2, rfl⟩ ⟨hc'.1, hc'.2, rfl⟩).2 hd'
  have hg' : (polyOf (c' :: cs') : Polynomial F) = polyOf (d :: cs') := by
    rw [polyOf_cons, polyOf_cons, hdc]
  have hcs' : ∀ d ∈ c' :: cs', d.len = p.len ∧ d.toNat < p.toNat := by
    intro e he
    rcases List.mem_cons.1 he with rfl | he
    · exact hc'
    · exact hd e (List.mem_cons_of_mem _ he)
  refine ⟨cs', by simpa using hl, hcs', fun x hx => ?_⟩
  have hx' := hxs x hx
  refine ⟨((polyOf (c :: cs) : Polynomial F).eval (x.toNat : F)).val, ?_, ?_⟩
  · refine (C61_share p x _ hp.pos hx'.1 hx'.2.1 hcs).mono fun r hr => ?_
    rw [← hr.val, ZMod.val_natCast, Nat.mod_eq_of_lt hr.lt]
  · refine (C61_share p x _ hp.pos hx'.1 hx'.2.1 hcs').mono fun r hr => ?_
    have e : (polyOf (c' :: cs') : Polynomial F).eval (x.toNat : F) =
        (polyOf (c :: cs) : Polynomial F).eval (x.toNat : F) := by
      rw [hg', hg, Polynomial.eval_add, Polynomial.eval_mul, hz x hx, mul_zero, add_zero]
    rw [← e, ← hr.val, ZMod.val_natCast, Nat.mod_eq_of_lt hr.lt]

/-- **C61**: one less shares than coefficients and the secret determine the coefficients, so every secret is
compatible with such shares in exactly one way. -/
theorem C61_secrecy_unique (p c : Buf .be) (cs cs' xs : List (Buf .be)) (hp : p.toNat.Prime)
    (hcs : ∀ d ∈ c :: cs, d.len = p.len ∧ d.toNat < p.toNat) (hcs' : ∀ d ∈ c :: cs', d.len = p.len ∧ d.toNat < p.toNat)
    (hxs : ∀ x ∈ xs, x.len = p.len ∧ x.toNat < p.toNat ∧ x.toNat ≠ 0) (hnd : (xs.map Buf.toNat).Nodup)
    (hk : xs.length = cs.length) (hk' : xs.length = cs'.length)
    (h : ∀ x ∈ xs, ∃ y, Sat (share p x (c :: cs)) (fun r => r.toNat = y) ∧
      Sat (share p x (c :: cs')) (fun r => r.toNat = y)) :
    cs.map Buf.toNat = cs'.map Buf.toNat := by
  haveI : Fact p.toNat.Prime := ⟨hp⟩
  let F := ZMod p.toNat
  have hx0 : ∀ x ∈ xs, (x.toNat : F) ≠ 0 := fun x hx e =>
    (hxs x hx).2.2 ((El.zero_iff (p := p) ⟨(hxs x hx).1, (hxs x hx).2.1, rfl⟩).2 e)
  have hnd' : ((0 : F) :: (xs.map Buf.toNat).map (Nat.cast : ℕ → F)).Nodup := by
    refine List.nodup_cons.2 ⟨?_, List.Nodup.map_on ?_ hnd⟩
    · intro h
      rw [List.map_map] at h
      obtain ⟨x, hx, e⟩ := List.mem_map.1 h
      exact hx0 x hx e
    · intro a ha b hb hab
      obtain ⟨x, hx, rfl⟩ := List.mem_map.1 ha
      obtain ⟨y, hy, rfl⟩ := List.mem_map.1 hb
      exact (El.eq_iff (p := p) ⟨(hxs x hx).1, (hxs x hx).2.1, rfl⟩ ⟨(hxs y hy).1, (hxs y hy).2.1, rfl⟩).2 hab
  have hcard : ((0 : F) :: (xs.map Buf.toNat).map (Nat.cast : ℕ → F)).toFinset.card = xs.length + 1 := by
    rw [List.toFinset_card_of_nodup hnd', List.length_cons, List.length_map, List.length_map]
  have key : (polyOf (c :: cs) : Polynomial F) = polyOf (c :: cs') := by
    refine Polynomial.eq_of_degrees_lt_of_eval_finset_eq
      ((0 : F) :: (xs.map Buf.toNat).map (Nat.cast : ℕ → F)).toFinset ?_ ?_ ?_
    · rw [hcard, hk]
      exact polyOf_degree (p := p) (c :: cs)
    · rw [hcard, hk']
      exact polyOf_degree (p := p) (c :: cs')
    · intro a ha
      rw [List.mem_toFinset] at ha
      rcases List.mem_cons.1 ha with rfl | ha
      · simp [polyOf_cons]
      · rw [List.map_map] at ha
        obtain ⟨x, hx, rfl⟩ := List.mem_map.1 ha
        obtain ⟨y, ⟨r, hr, hy⟩, ⟨r', hr', hy'⟩⟩ := h x hx
        obtain ⟨q, hq, h1⟩ := C61_share p x (c :: cs) hp.pos (hxs x hx).1 (hxs x hx).2.1 hcs
        obtain ⟨q', hq', h2⟩ := C61_share p x (c :: cs') hp.pos (hxs x hx).1 (hxs x hx).2.1 hcs'
        rw [hr] at hq
        rw [hr'] at hq'
        cases hq
        cases hq'
        exact (h1.eq_iff h2).1 (hy.trans hy'.symm)
  refine List.ext_getElem (by rw [List.length_map, List.length_map, ← hk, hk']) fun i h1 h2 => ?_
  rw [List.getElem_map, List.getElem_map]
  rw [List.length_map] at h1 h2
  have e := congrArg (fun f => f.coeff (i + 1)) key
  simp only [polyOf_coeff] at e
  rw [List.getD_cons_succ, List.getD_cons_succ, List.getD_eq_getElem _ _ h1, List.getD_eq_getElem _ _ h2] at e
  have g1 := hcs cs[i] (List.mem_cons_of_mem _ (List.getElem_mem h1))
  have g2 := hcs' cs'[i] (List.mem_cons_of_mem _ (List.getElem_mem h2))
  exact (El.eq_iff (p := p) ⟨g1.1, g1.2, rfl⟩ ⟨g2.1, g2.2, rfl⟩).2 e

end

/-! ## Constant time -/

section
variable [Obs] {p : Buf .be}

theorem share_ct {x x' : Buf .be} (hx : x.len = x'.len) {cs cs' : List (Buf .be)}
    (hcs : cs.map Buf.len = cs'.map Buf.len) : SameTr (share p x cs) (share p x' cs') Pub.rel := by
  induction cs generalizing cs' with
  | nil =>
    cases cs' with
    | nil => exact SameTr.pure rfl
    | cons => simp at hcs
  | cons c cs ih =>
    cases cs' with
    | nil => simp at hcs
    | cons c' cs' =>
      rw [List.map_cons, List.map_cons, List.cons.injEq] at hcs
      rw [share, share]
      refine (ih hcs.2).bind fun _ _ h1 => ?_
      refine (fMul_ct h1 hx).bind fun _ _ h2 => ?_
      exact fAdd_ct h2 hcs.1

theorem reconstructFrom_ct (xs : List (Buf .be)) {l l' : List (Buf .be × Buf .be)}
    (h1 : l.map Prod.fst = l'.map Prod.fst) (h2 : (l.map fun s => s.2.len) = l'.map fun s => s.2.len)
    {s s' : Buf .be} (hs : s.len = s'.len) :
    SameTr (reconstructFrom p xs l s) (reconstructFrom p xs l' s') Pub.rel := by
  induction l generalizing l' s s' with
  | nil =>
    cases l' with
    | nil => exact SameTr.pure hs
    | cons => simp at h1
  | cons a l ih =>
    cases l' with
    | nil => simp at h1
    | cons a' l' =>
      obtain ⟨x, y⟩ := a
      obtain ⟨x', y'⟩ := a'
      simp only [List.map_cons, List.cons.injEq] at h1 h2
      obtain ⟨rfl, h1⟩ := h1
      rw [reconstructFrom, reconstructFrom]
      refine (SameTr.refl _).bind fun nd nd' e => ?_
      subst e
      obtain ⟨n, d⟩ := nd
      refine (SameTr.refl _).bind fun d' d'' e => ?_
      subst e
      refine (SameTr.refl _).bind fun w w' e => ?_
      subst e
      refine (fMul_ct rfl h2.1).bind fun _ _ h3 => ?_
      refine (fAdd_ct hs h3).bind fun _ _ h4 => ?_
      exact ih h1 h2.2 h4

end

/-- **C61**: sharing doesn't reveal the secret, the other coefficients and the share. -/
theorem C61_share_constant_time (p x : Buf .be) (cs cs' : List (Buf .be)) (hp : 0 < p.toNat) (hx : x.len = p.len)
    (hx' : x.toNat < p.toNat) (hcs : ∀ c ∈ cs, c.len = p.len ∧ c.toNat < p.toNat)
    (hcs' : ∀ c ∈ cs', c.len = p.len ∧ c.toNat < p.toNat) (hk : cs.length = cs'.length) :
    (share p x cs).tr = (share p x cs').tr := by
  refine sameEvents (@share_ct _ Obs.full p x x rfl cs cs' ?_) (C61_share p x cs hp hx hx' hcs).ne_none
    (C61_share p x cs' hp hx hx' hcs').ne_none
  refine List.ext_getElem (by simpa using hk) fun i h1 h2 => ?_
  rw [List.getElem_map, List.getElem_map, (hcs _ (List.getElem_mem _)).1, (hcs' _ (List.getElem_mem _)).1]

/-- **C61**: reconstructing doesn't reveal the shares and the secret, only the abscissas. -/
theorem C61_reconstruct_constant_time (p : Buf .be) (f f' : Polynomial (ZMod p.toNat))
    (l l' : List (Buf .be × Buf .be)) (hp : FieldModulus p) (hl : ∀ s ∈ l, IsShare f s) (hl' : ∀ s ∈ l', IsShare f' s)
    (hnd : (l.map fun s => s.1.toNat).Nodup) (hdeg : f.degree < l.length) (hdeg' : f'.degree < l'.length)
    (hx : l.map Prod.fst = l'.map Prod.fst) : (reconstruct p l).tr = (reconstruct p l').tr := by
  have hlen : l.length = l'.length := by
    have := congrArg List.length hx
    rwa [List.length_map, List.length_map] at this
  have hnd' : (l'.map fun s => s.1.toNat).Nodup := by
    have e : (l'.map fun s => s.1.toNat) = l.map fun s => s.1.toNat := by
      have := congrArg (List.map Buf.toNat) hx
      rw [List.map_map, List.map_map] at this
      exact this.symm
    rw [e]
    exact hnd
  refine sameEvents (R := @Pub.rel _ _) ?_ (C61_reconstruct p f l hp hl hnd hdeg).ne_none
    (C61_reconstruct p f' l' hp hl' hnd' hdeg').ne_none
  unfold reconstruct
  rw [hx]
  refine @reconstructFrom_ct _ Obs.full p _ l l' hx ?_ _ _ rfl
  refine List.ext_getElem (by simpa using hlen) fun i h1 h2 => ?_
  rw [List.getElem_map, List.getElem_map]
  obtain ⟨_, _, h3⟩ := hl _ (List.getElem_mem (by simpa using h1))
  obtain ⟨_, _, h4⟩ := hl' _ (List.getElem_mem (by simpa using h2))
  exact h3.len.trans h4.len.symm

/-! ## Examples -/

-- the secret 5 in the field of 11 elements, shared by 5 + 3 x, one limb of 32 bits spare
example : letI := cfg32;
    (share (Buf.be [11]) (Buf.be [4]) [Buf.be [5], Buf.be [3]]).val.map
      Buf.toNat = some 6 := by decide +kernel

example : letI := cfg32;
    (reconstruct (Buf.be [11]) [(Buf.be [4], Buf.be [6]),
      (Buf.be [1], Buf.be [8])]).val.map Buf.toNat = some 5 := by decide +kernel

-- the hypotheses can be met
example : letI := cfg32; FieldModulus (Buf.be [11]) := by
  letI := cfg32
  exact ⟨by norm_num [Buf.toNat, Nat.ofDigits_cons], by decide +kernel⟩

end Props
end Cmpa
