import Verif.Props.Montgomery
import Verif.Props.Add
import Verif.Props.Mul
import Verif.Props.Div
import Verif.Props.Lcm
import Verif.Props.Euclid
import Verif.Props.InvAny

/-!
# Operations undo and confirm each other (C46)

Programs calling several operations on the same buffers, as users do.
-/

namespace Cmpa
namespace Props

open M
variable [LimbCfg] {f g h f' : Fmt}

/-! ## C46 -/

/-- C46: subtracting what has been added restores the buffer byte by byte; the borrow is the carry. -/
theorem C46_add_sub (a : Buf f) (b : Buf g) (hl : b.nlimbs ≤ a.nlimbs) (hb : b.toNat < 256 ^ a.len) :
    Sat (do
      let (a, carry) ← ct_add_mp_mp a b
      let (a, borrow) ← ct_sub_mp_mp a b
      pure (a, carry, borrow)) (fun r => r.1 = a ∧ r.2.1 = r.2.2) := by
  refine (C02_add a b hl hb).bind ?_
  rintro ⟨a1, c⟩ ⟨h1, h2, h3⟩
  dsimp only at h1 h2 h3 ⊢
  refine (C03_sub a1 b ((Buf.nlimbs_congr h1).symm ▸ hl) (h1 ▸ hb)).bind ?_
  rintro ⟨a2, c'⟩ ⟨h4, h5, h6⟩
  dsimp only at h4 h5 h6 ⊢
  have ha := a.toNat_lt
  have ha2 := a2.toNat_lt
  rw [h4, h1] at ha2
  rw [h1] at h6
  have hc : c = c' := by
    rcases Nat.le_one_iff_eq_zero_or_eq_one.1 h2 with rfl | rfl <;>
    rcases Nat.le_one_iff_eq_zero_or_eq_one.1 h5 with rfl | rfl <;> omega
  subst hc
  exact Sat.pure ⟨Buf.ext' (h4.trans h1) (by dsimp only; omega), rfl⟩

/-- C46: adding what has been subtracted restores the buffer byte by byte; the carry is the borrow. -/
theorem C46_sub_add (a : Buf f) (b : Buf g) (hl : b.nlimbs ≤ a.nlimbs) (hb : b.toNat < 256 ^ a.len) :
    Sat (do
      let (a, borrow) ← ct_sub_mp_mp a b
      let (a, carry) ← ct_add_mp_mp a b
      pure (a, borrow, carry)) (fun r => r.1 = a ∧ r.2.1 = r.2.2) := by
  refine (C03_sub a b hl hb).bind ?_
  rintro ⟨a1, c⟩ ⟨h1, h2, h3⟩
  dsimp only at h1 h2 h3 ⊢
  refine (C02_add a1 b ((Buf.nlimbs_congr h1).symm ▸ hl) (h1 ▸ hb)).bind ?_
  rintro ⟨a2, c'⟩ ⟨h4, h5, h6⟩
  dsimp only at h4 h5 h6 ⊢
  have ha := a.toNat_lt
  have ha2 := a2.toNat_lt
  rw [h4, h1] at ha2
  rw [h1] at h6
  have hc : c = c' := by
    rcases Nat.le_one_iff_eq_zero_or_eq_one.1 h2 with rfl | rfl <;>
    rcases Nat.le_one_iff_eq_zero_or_eq_one.1 h5 with rfl | rfl <;> omega
  subst hc
  exact Sat.pure ⟨Buf.ext' (h4.trans h1) (by dsimp only; omega), rfl⟩

/-- C46: subtracting is adding the two's complement, up to the carry. -/
theorem C46_sub_is_add_neg (a : Buf f) (b : Buf g) (hl : b.len = a.len) :
    Sat (ct_sub_mp_mp a b) (fun r =>
      Sat (do let b ← ct_negate_mp b; ct_add_mp_mp a b) (fun r' => r'.1 = r.1)) := by
  refine (C03_sub_len a b hl.le).mono ?_
  rintro ⟨a1, c⟩ ⟨h1, h2, h3⟩
  refine (C05_negate b).bind ?_
  rintro b' ⟨h4, h5⟩
  refine (C02_add_len a b' (by omega)).mono ?_
  rintro ⟨a2, c'⟩ ⟨h6, h7, h8⟩
  dsimp only at h1 h2 h3 h6 h7 h8 ⊢
  refine Buf.ext' (h6.trans h1.symm) ?_
  rw [hl] at h5
  have ha := a.toNat_lt
  have ha1 := a1.toNat_lt
  have ha2 := a2.toNat_lt
  have hb := b.toNat_lt
  rw [hl] at hb
  rw [h1] at ha1
  rw [h6] at ha2
  generalize 256 ^ a.len = L at *
  rcases Nat.eq_zero_or_pos b.toNat with h0 | h0
  · rw [h0, Nat.sub_zero, Nat.mod_self] at h5
    rcases Nat.le_one_iff_eq_zero_or_eq_one.1 h2 with rfl | rfl <;>
    rcases Nat.le_one_iff_eq_zero_or_eq_one.1 h7 with rfl | rfl <;> omega
  · rw [Nat.mod_eq_of_lt (by omega)] at h5
    rcases Nat.le_one_iff_eq_zero_or_eq_one.1 h2 with rfl | rfl <;>
    rcases Nat.le_one_iff_eq_zero_or_eq_one.1 h7 with rfl | rfl <;> omega

/-- C46: the same modulo a number.  Missing: first operands with more limbs than the modulus, see C06. -/
theorem C46_add_sub_mod_partial (a : Buf f) (b : Buf g) (n : Buf h) (hn : n.len ≤ a.len) (ha : a.toNat < n.toNat)
    (hb : b.toNat < n.toNat) (hl : a.nlimbs = n.nlimbs) :
    Sat (do
      let a ← unwrapE (ct_add_mod_mp_mp a b n)
      unwrapE (ct_sub_mod_mp_mp a b n)) (fun r => r = a) := by
  refine Sat.bind (P := fun a' : Buf f => a'.len = a.len ∧ a'.toNat = (a.toNat + b.toNat) % n.toNat) ?_ ?_
  · refine (C06_add_mod_partial a b n (Or.inl hn) ha hb (Or.inl hl)).bind ?_
    rintro r ⟨s, rfl, h1⟩
    exact Sat.pure h1
  · rintro a1 ⟨h1, h2⟩
    have h3 : a1.toNat < n.toNat := by
      rw [h2]
      exact Nat.mod_lt _ (by omega)
    refine (C06_sub_mod_partial a1 b n (Or.inl (by omega)) h3 hb (Or.inl ((Buf.nlimbs_congr h1).trans hl))).bind ?_
    rintro r ⟨s, rfl, h4, h5⟩
    refine Sat.pure (Buf.ext' (h4.trans h1) ?_)
    have h6 : (s.toNat : ℤ) = a.toNat := by
      rw [h5, h2]
      push_cast
      rw [Int.emod_sub_emod, add_sub_cancel_right]
      exact Int.emod_eq_of_lt (by omega) (by omega)
    exact_mod_cast h6

/-- A user's program: remainder and quotient, errors being unexpected. -/
def quotRem (u : Buf f) (v : Buf g) (q : Buf h) : M (Buf f × Buf h) := do
  match ← divideBy v none fun d => ct_div_mp_mp none u d (some q) with
  | .ok (_, r, some q) => pure (r, q)
  | _ => M.panic

theorem quotRem_sat (u : Buf f) (v : Buf g) (q : Buf h) (hv : v.toNat ≠ 0) (hq : u.len ≤ q.len) :
    Sat (quotRem u v q) (fun s => s.1.len = u.len ∧ s.1.toNat = u.toNat % v.toNat ∧ s.2.len = q.len ∧
      s.2.toNat = u.toNat / v.toNat) := by
  have hfit : QuotientFits (some q) (dividendLen (f := f) none u) (v.toNat - (none : Option ℕ).getD 0)
      (dividend none u / (v.toNat - (none : Option ℕ).getD 0)) := by
    refine C21_quotient_len _ _ _ _ ?_ ?_ ?_
    · simpa [dividend, dividendLen] using u.toNat_lt
    · simp; omega
    · intro b hb
      cases hb
      have h1 := byteLen_pos hv
      simp [dividendLen]
      omega
  refine (C21_div none u v none (some q) (by simp) (by simp; omega) hfit).bind ?_
  rintro r ⟨uh, ul, q', rfl, h1, h2, h3, h4, h5⟩
  cases uh with
  | some _ => simp at h1
  | none =>
    cases q' with
    | none => simp at h4
    | some q' =>
      refine Sat.pure ⟨h2, ?_, by simpa using h4, ?_⟩
      · simpa [dividend] using h3
      · simpa [dividend] using h5 q' rfl

/-- C46: division undone by multiplying and adding. -/
theorem C46_div_mul_add (u : Buf f) (v : Buf g) (q : Buf h) (hv : v.toNat ≠ 0) (hq : u.len + v.len ≤ q.len) :
    Sat (do
      let (r, q) ← quotRem u v q
      let p ← ct_mul_trunc_mp_mp q u.len v
      ct_add_mp_mp p r) (fun s => s.1.toNat = u.toNat ∧ s.2 = 0) := by
  refine (quotRem_sat u v q hv (by omega)).bind ?_
  rintro ⟨r, q1⟩ ⟨h1, h2, h4, h5⟩
  dsimp only at h1 h2 h4 h5 ⊢
  have hqu : q1.toNat < 256 ^ u.len := by
    rw [h5]
    exact (Nat.div_le_self _ _).trans_lt u.toNat_lt
  refine (C09_mul_exact q1 u.len v (by omega)).bind ?_
  rintro q2 ⟨h6, h7⟩
  refine (C02_add_len q2 r (by omega)).mono ?_
  rintro ⟨s, c⟩ ⟨h8, h9, h10⟩
  dsimp only at h8 h9 h10 ⊢
  rw [h7, Nat.mod_eq_of_lt hqu, h5, h2, Nat.div_add_mod'] at h10
  have h11 : u.toNat < 256 ^ q2.len :=
    u.toNat_lt.trans_le (Nat.pow_le_pow_right (by norm_num) (by omega))
  rcases Nat.le_one_iff_eq_zero_or_eq_one.1 h9 with rfl | rfl <;> omega

/-- C46: multiplication undone by division. -/
theorem C46_mul_div (a : Buf f) (n : ℕ) (v : Buf g) (q : Buf h) (hv : v.toNat ≠ 0) (hn : n + v.len ≤ a.len)
    (ha : a.toNat < 256 ^ n) (hq : a.len ≤ q.len) :
    Sat (do
      let p ← ct_mul_trunc_mp_mp a n v
      quotRem p v q) (fun s => s.1.toNat = 0 ∧ s.2.toNat = a.toNat) := by
  refine (C09_mul_exact a n v hn).bind ?_
  rintro p ⟨h1, h2⟩
  rw [Nat.mod_eq_of_lt ha] at h2
  refine (quotRem_sat p v q hv (by omega)).mono ?_
  rintro ⟨r, q'⟩ ⟨-, h3, -, h4⟩
  dsimp only at h3 h4 ⊢
  rw [h3, h4, h2]
  exact ⟨Nat.mul_mod_left _ _, Nat.mul_div_cancel _ (Nat.pos_of_ne_zero hv)⟩

/-- C46: the product of the greatest common divisor and the least common multiple is the product of the operands.
Missing: operands as limbs, see C33. -/
theorem C46_gcd_lcm_partial (a : Buf f) (b gscratch : Buf .be) (l : Buf h) (hl : a.len = b.len) (hne : a.len ≠ 0)
    (hnz : a.toNat ≠ 0 ∨ b.toNat ≠ 0) (hll : 3 * a.len ≤ l.len) (hgs : 2 * a.len ≤ gscratch.len) :
    Sat (do
      let l ← unwrapE (ct_lcm_mp_mp l a a.len b b.len gscratch)
      let (d, _) ← unwrapE (ct_gcd_mp_mp a b)
      ct_mul_trunc_mp_mp l (2 * a.len) d) (fun p => p.toNat = a.toNat * b.toNat) := by
  refine Sat.bind (P := fun l' : Buf h => l'.len = l.len ∧ l'.toNat = Nat.lcm a.toNat b.toNat) ?_ ?_
  · refine (C33_lcm_bytes_partial l a a.len b b.len gscratch (Or.inl rfl) hl a.toNat_lt b.toNat_lt (by omega)
      (by omega)).bind ?_
    rintro r ⟨s, rfl, h⟩
    exact Sat.pure h
  rintro l' ⟨h1, h2⟩
  refine Sat.bind (P := fun s : Buf f × Buf .be => s.1.len = a.len ∧ s.1.toNat = Nat.gcd a.toNat b.toNat) ?_ ?_
  · refine (C29_gcd a b hne (Or.inl hl.le) (Or.inl hl.ge) (by omega)).bind ?_
    rintro r ⟨s, s', rfl, h3, -, h4, -⟩
    exact Sat.pure ⟨h3, h4⟩
  rintro ⟨d, _⟩ ⟨h3, h4⟩
  dsimp only at h3 h4 ⊢
  refine (C09_mul_exact l' (2 * a.len) d (by omega)).mono ?_
  rintro p ⟨-, h5⟩
  have h6 : Nat.lcm a.toNat b.toNat < 256 ^ (2 * a.len) := by
    rcases Nat.eq_zero_or_pos (Nat.lcm a.toNat b.toNat) with h | h
    · rw [h]
      positivity
    · have ha := a.toNat_lt
      have hb := b.toNat_lt
      rw [← hl] at hb
      have h7 : 0 < a.toNat * b.toNat := by
        rw [Nat.pos_iff_ne_zero]
        intro h0
        have : Nat.lcm a.toNat b.toNat = 0 := by rw [Nat.lcm, h0, Nat.zero_div]
        omega
      refine (Nat.le_of_dvd h7 (Nat.lcm_dvd_mul _ _)).trans_lt ?_
      rw [two_mul, pow_add]
      exact Nat.mul_lt_mul_of_lt_of_lt ha hb
  rw [h5, h2, Nat.mod_eq_of_lt h6, h4, mul_comm, Nat.gcd_mul_lcm]

/-- C46: a number's Montgomery form, converted back.  Missing: moduli of a single limb, see C25. -/
theorem C46_montgomery_partial (t : Buf f) (n : Buf g) (hodd : n.toNat % 2 = 1) (hn : n.len ≤ t.len)
    (ht : t.len ≤ 2 * n.len) (hlt : t.toNat < n.toNat) (h2 : 2 ≤ n.nlimbs) :
    Sat (do
      let neg ← unwrapE (ct_montgomery_neg_n0_inv_mod_l_mp n)
      let t ← unwrapE (ct_to_montgomery_form_direct_mp t n)
      unwrapE (ct_montgomery_redc_mp t n neg)) (fun s => s = t) := by
  refine Sat.bind (P := NegInv n) ?_ ?_
  · refine (C25_neg_inv n hodd).bind ?_
    rintro r ⟨s, rfl, h⟩
    exact Sat.pure h
  intro neg hneg
  refine Sat.bind (P := fun s : Buf f => s.len = t.len ∧ s.toNat = t.toNat * radix n % n.toNat) ?_ ?_
  · refine (C27_direct t n hodd (Or.inl hn)).bind ?_
    rintro r ⟨s, rfl, h⟩
    exact Sat.pure h
  rintro s ⟨h3, h4⟩
  refine (C27_back_partial s n neg t.toNat hodd hneg (Or.inl (by omega)) (Or.inl (by omega)) hlt h4 h2).bind ?_
  rintro r ⟨s', rfl, h5, h6⟩
  exact Sat.pure (Buf.ext' (h5.trans h3) h6)

/-- C46: multiplication modulo an odd number through Montgomery forms gives what multiplication and division
give.  Missing: moduli of a single limb and those excluded from C26. -/
theorem C46_mul_mod_partial (a b r : Buf f) (n : Buf g) (w q : Buf h) (hodd : n.toNat % 2 = 1) (ha : a.toNat < n.toNat)
    (hb : b.toNat < n.toNat) (hal : a.len = n.len) (hbl : b.len = n.len) (hrl : r.len = n.len) (h2 : 2 ≤ n.nlimbs)
    (hhigh : (B + 1) * n.toNat ≤ B ^ (n.nlimbs + 1))
    (halign : LB ∣ n.len ∨ 257 * n.toNat ≤ 256 ^ (n.len + 1))
    (hw : w.toNat = a.toNat) (hwl : 2 * n.len ≤ w.len) (hql : w.len ≤ q.len) :
    Sat (do
      let neg ← unwrapE (ct_montgomery_neg_n0_inv_mod_l_mp n)
      let a ← unwrapE (ct_to_montgomery_form_direct_mp a n)
      let b ← unwrapE (ct_to_montgomery_form_direct_mp b n)
      let r ← unwrapE (ct_montgomery_mul_mod_mp_mp r a b n neg)
      unwrapE (ct_montgomery_redc_mp r n neg)) (fun s =>
        Sat (do
          let p ← ct_mul_trunc_mp_mp w n.len b
          quotRem p n q) (fun s' => s.toNat = a.toNat * b.toNat % n.toNat ∧ s'.1.toNat = s.toNat)) := by
  have hpos : 0 < n.toNat := by omega
  have hlen0 : n.len ≠ 0 := by
    intro h
    have := n.toNat_lt
    rw [h, pow_zero] at this
    omega
  have second : ∀ s : Buf f, s.toNat = a.toNat * b.toNat % n.toNat → Sat (do
          let p ← ct_mul_trunc_mp_mp w n.len b
          quotRem p n q) (fun s' => s.toNat = a.toNat * b.toNat % n.toNat ∧ s'.1.toNat = s.toNat) := by
    intro s hs
    refine (C09_mul_exact w n.len b (by omega)).bind ?_
    rintro p ⟨h1, h2⟩
    refine (quotRem_sat p n q (by omega) (by omega)).mono ?_
    rintro ⟨x, y⟩ ⟨-, h3, -, -⟩
    dsimp only at h3 ⊢
    rw [hw, Nat.mod_eq_of_lt (ha.trans n.toNat_lt)] at h2
    exact ⟨hs, by rw [h3, h2, hs]⟩
  refine Sat.mono (P := fun s => s.toNat = a.toNat * b.toNat % n.toNat) ?_ second
  refine Sat.bind (P := NegInv n) ?_ ?_
  · refine (C25_neg_inv n hodd).bind ?_
    rintro r ⟨s, rfl, h⟩
    exact Sat.pure h
  intro neg hneg
  have toMg : ∀ t : Buf f, t.len = n.len → Sat (unwrapE (ct_to_montgomery_form_direct_mp t n))
      (fun s => s.len = n.len ∧ s.toNat = t.toNat * radix n % n.toNat) := by
    intro t ht
    refine (C27_direct t n hodd (Or.inl ht.ge)).bind ?_
    rintro r ⟨s, rfl, h⟩
    exact Sat.pure ⟨h.1.trans ht, h.2⟩
  refine (toMg a hal).bind ?_
  rintro a1 ⟨h3, h4⟩
  refine (toMg b hbl).bind ?_
  rintro b1 ⟨h5, h6⟩
  have h7 : a1.toNat < n.toNat := by rw [h4]; exact Nat.mod_lt _ hpos
  have h8 : b1.toNat < n.toNat := by rw [h6]; exact Nat.mod_lt _ hpos
  refine Sat.bind (P := fun s : Buf f => s.len = n.len ∧
    s.toNat = (a.toNat * b.toNat % n.toNat) * radix n % n.toNat) ?_ ?_
  · refine (C26_mul_partial r a1 b1 n neg hodd hneg h7 h8 (Or.inl (by omega)) (Or.inl (by omega)) hhigh (by omega)
      (Or.inr halign) (Or.inr (by omega))).bind ?_
    rintro r ⟨s, rfl, h9, h10, h11⟩
    refine Sat.pure ⟨h9.trans hrl, ?_⟩
    have h12 : s.toNat * radix n ≡ (a.toNat * b.toNat % n.toNat) * radix n * radix n [MOD n.toNat] := by
      refine h11.trans ?_
      rw [h4, h6]
      refine ((Nat.mod_modEq _ _).mul (Nat.mod_modEq _ _)).trans ?_
      rw [show a.toNat * radix n * (b.toNat * radix n) = a.toNat * b.toNat * radix n * radix n by ring]
      exact (((Nat.mod_modEq _ _).mul_right _).mul_right _).symm
    have h13 := Nat.ModEq.cancel_right_of_coprime (c := radix n) (coprime_radix (by omega) n.nlimbs) h12
    rw [Nat.ModEq, Nat.mod_eq_of_lt h10] at h13
    exact h13
  rintro s ⟨h9, h10⟩
  refine (C27_back_partial s n neg _ hodd hneg (Or.inl (by omega)) (Or.inl (by omega)) (Nat.mod_lt _ hpos) h10 h2).bind ?_
  rintro r ⟨s', rfl, h11, h12⟩
  exact Sat.pure h12

/-- C46: the inverse of the inverse is the number itself.  Missing: as for `C32_inv_partial`. -/
theorem C46_inv_inv_partial (op0 : Buf f) (n : Buf g) (s0 s1 s2 s3 : Buf .ne) (hl : op0.len = n.len)
    (h0 : n.nlimbs ≤ s0.nlimbs) (h1 : n.nlimbs ≤ s1.nlimbs) (h2 : n.nlimbs ≤ s2.nlimbs) (h3 : n.nlimbs ≤ s3.nlimbs)
    (hn1 : 1 < n.toNat) (hlt : op0.toNat < n.toNat) (hcop : Nat.gcd op0.toNat n.toNat = 1)
    (hn : ∀ m e, m % 2 = 1 → n.toNat = m * 2 ^ e → m < B ^ (n.nlimbs - 1) ∨ m = 1)
    (hok : LiftOk op0.toNat (8 * n.len - 1))
    (hok' : ∀ a, op0.toNat * a % n.toNat = 1 → a < n.toNat → LiftOk a (8 * n.len - 1))
    (hokm : ∀ m e, m % 2 = 1 → n.toNat = m * 2 ^ e → LiftOk m (8 * n.len - 1)) :
    Sat (do
      let (n, r) ← ct_inv_mod_mp_mp op0 n s0 s1 s2 s3
      let r ← unwrapE (pure r)
      let (n, r) ← ct_inv_mod_mp_mp r n s0 s1 s2 s3
      let r ← unwrapE (pure r)
      pure (n, r)) (fun s => s.1 = n ∧ s.2 = op0) := by
  have hlen0 : n.len ≠ 0 := by
    intro h
    have := n.toNat_lt
    rw [h, pow_zero] at this
    omega
  have step : ∀ (o : Buf f) (k : Buf g), o.len = n.len → k = n → Nat.gcd o.toNat n.toNat = 1 →
      LiftOk o.toNat (8 * n.len - 1) →
      Sat (ct_inv_mod_mp_mp o k s0 s1 s2 s3) (fun r => r.1 = n ∧ ∃ o', r.2 = .ok o' ∧ o'.len = o.len ∧
        o'.toNat < n.toNat ∧ o.toNat * o'.toNat % n.toNat = 1) := by
    rintro o k ho rfl hc hok
    refine (C32_inv_partial o k s0 s1 s2 s3 ⟨hlen0, Or.inl ho.ge, Or.inl ho.le, h0, h1, h2, h3⟩ hn1 hc hn hok
      hokm).mono ?_
    rintro ⟨k', r⟩ ⟨h4, h5, h6⟩
    exact ⟨Buf.ext' h4 h5, h6⟩
  refine (step op0 n hl rfl hcop hok).bind ?_
  rintro ⟨n1, r⟩ ⟨h4, o, h5, h6, h7, h8⟩
  dsimp only at h4 h5 h6 h7 h8 ⊢
  subst h5
  refine Sat.bind (P := fun x => x = o) (Sat.pure rfl) ?_
  rintro x rfl
  have hc : Nat.Coprime x.toNat n.toNat :=
    Nat.dvd_one.1 (by
      rw [← h8]
      exact (Nat.dvd_mod_iff (Nat.gcd_dvd_right _ _)).2 (Dvd.dvd.mul_left (Nat.gcd_dvd_left _ _) _))
  refine (step x n1 (h6.trans hl) h4 hc (hok' _ h8 h7)).bind ?_
  rintro ⟨n2, r⟩ ⟨h9, o', h10, h11, h12, h13⟩
  dsimp only at h9 h10 h11 h12 h13 ⊢
  subst h10
  refine Sat.bind (P := fun y => y = o') (Sat.pure rfl) ?_
  rintro y rfl
  refine Sat.pure ⟨h9, Buf.ext' (h11.trans h6) ?_⟩
  have e1 : x.toNat * y.toNat ≡ x.toNat * op0.toNat [MOD n.toNat] := by
    rw [Nat.ModEq, h13, mul_comm, h8]
  have e2 := Nat.ModEq.cancel_left_of_coprime hc.symm e1
  rw [Nat.ModEq, Nat.mod_eq_of_lt h12, Nat.mod_eq_of_lt hlt] at e2
  exact e2

-- The hypotheses can be met.
example : letI := cfg64;
    (quotRem (Buf.ofNat .be 11 (2 ^ 85 + 12345)) (Buf.ofNat .le 3 65537) (Buf.ofNat .ne 16 7)).val.map
      (fun s => (s.1.toNat, s.2.toNat)) = some ((2 ^ 85 + 12345) % 65537, (2 ^ 85 + 12345) / 65537) := by
  decide +kernel
example : letI := cfg32;
    ((do
      let (a, carry) ← ct_add_mp_mp (Buf.ofNat .be 5 (2 ^ 40 - 1)) (Buf.ofNat .ne 4 77)
      let (a, borrow) ← ct_sub_mp_mp a (Buf.ofNat .ne 4 77)
      pure (a, carry, borrow) : M (Buf .be × ℕ × ℕ)).val.map fun s => (s.1.toNat, s.2)) = some (2 ^ 40 - 1, 1, 1) := by
  decide +kernel
example : letI := cfg32;
    ((do
      let l ← unwrapE (ct_lcm_mp_mp (Buf.ofNat .le 24 0) (Buf.ofNat .ne 8 (2 ^ 33 * 15)) 8 (Buf.ofNat .be 8 (2 ^ 34 * 21))
        8 (Buf.ofNat .be 16 0))
      let (d, _) ← unwrapE (ct_gcd_mp_mp (Buf.ofNat .ne 8 (2 ^ 33 * 15)) (Buf.ofNat .be 8 (2 ^ 34 * 21)))
      ct_mul_trunc_mp_mp l 16 d : M (Buf .le)).val.map Buf.toNat) = some (2 ^ 67 * 315) := by
  decide +kernel

example : letI := cfg32;
    ((do
      let n := Buf.ofNat .be 9 (2 ^ 70 - 35)
      let neg ← unwrapE (ct_montgomery_neg_n0_inv_mod_l_mp n)
      let a ← unwrapE (ct_to_montgomery_form_direct_mp (Buf.ofNat .le 9 (3 ^ 40)) n)
      let b ← unwrapE (ct_to_montgomery_form_direct_mp (Buf.ofNat .le 9 (5 ^ 29)) n)
      let r ← unwrapE (ct_montgomery_mul_mod_mp_mp (Buf.ofNat .le 9 1) a b n neg)
      unwrapE (ct_montgomery_redc_mp r n neg) : M (Buf .le)).val.map Buf.toNat) =
      some (3 ^ 40 * 5 ^ 29 % (2 ^ 70 - 35)) := by
  decide +kernel
example : letI := cfg32;
    ((do
      let (n, r) ← ct_inv_mod_mp_mp (Buf.ofNat .be 6 1001) (Buf.ofNat .be 6 (2 ^ 20 * 3)) (Buf.ofNat .ne 8 0)
        (Buf.ofNat .ne 8 0) (Buf.ofNat .ne 8 0) (Buf.ofNat .ne 8 0)
      let r ← unwrapE (pure r)
      let (n, r) ← ct_inv_mod_mp_mp r n (Buf.ofNat .ne 8 0) (Buf.ofNat .ne 8 0) (Buf.ofNat .ne 8 0) (Buf.ofNat .ne 8 0)
      let r ← unwrapE (pure r)
      pure (n, r) : M (Buf .be × Buf .be)).val.map fun s => (s.1.toNat, s.2.toNat)) = some (2 ^ 20 * 3, 1001) := by
  decide +kernel
example : letI := cfg32;
    ∀ m e, m % 2 = 1 → 2 ^ 20 * 3 = m * 2 ^ e → m < B ^ ((Buf.ofNat .be 6 (2 ^ 20 * 3)).nlimbs - 1) ∨ m = 1 := by
  letI := cfg32
  intro m e _ h
  left
  have h1 : m ≤ 2 ^ 20 * 3 := by
    rw [h]
    exact Nat.le_mul_of_pos_right m (by positivity)
  exact h1.trans_lt (by decide +kernel)

end Props
end Cmpa
