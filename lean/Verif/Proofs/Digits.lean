import Verif.Model.Value
import Verif.Proofs.LimbBits

/-!
# Digit sums and limbs of natural numbers
-/

set_option linter.unusedSectionVars false

namespace Cmpa

/-- Value of a list of digits, least significant first. -/
def lval {n : ℕ} (l : List (Fin n)) : ℕ := Nat.ofDigits n (l.map Fin.val)

section
variable {n : ℕ}

@[simp] theorem lval_nil : lval ([] : List (Fin n)) = 0 := rfl
@[simp] theorem lval_cons (x : Fin n) (l : List (Fin n)) : lval (x :: l) = x + n * lval l := by
  simp [lval, Nat.ofDigits_cons]

theorem lval_append (a b : List (Fin n)) : lval (a ++ b) = lval a + n ^ a.length * lval b := by
  simp [lval, Nat.ofDigits_append]

theorem lval_lt (l : List (Fin n)) : lval l < n ^ l.length := by
  induction l with
  | nil => simp
  | cons x l ih =>
    simp only [lval_cons, List.length_cons, pow_succ']
    have := x.2
    calc (x : ℕ) + n * lval l < n + n * lval l := by omega
      _ = n * (lval l + 1) := by ring
      _ ≤ n * n ^ l.length := Nat.mul_le_mul_left _ ih

theorem lval_take_drop (l : List (Fin n)) (k : ℕ) (hk : k ≤ l.length) :
    lval (l.take k) = lval l % n ^ k ∧ lval (l.drop k) = lval l / n ^ k := by
  have h := lval_append (l.take k) (l.drop k)
  rw [List.take_append_drop, List.length_take, min_eq_left hk] at h
  have h2 := lval_lt (l.take k)
  rw [List.length_take, min_eq_left hk] at h2
  have hp : 0 < n ^ k := by omega
  constructor
  · rw [h, Nat.add_mul_mod_self_left, Nat.mod_eq_of_lt h2]
  · rw [h, Nat.add_mul_div_left _ _ hp, Nat.div_eq_of_lt h2, zero_add]

theorem lval_replicate_zero [NeZero n] (k : ℕ) : lval (List.replicate k (0 : Fin n)) = 0 := by
  induction k with
  | zero => rfl
  | succ k ih => simp [List.replicate_succ, ih]

theorem lval_inj : ∀ {a b : List (Fin n)}, a.length = b.length → lval a = lval b → a = b
  | [], [], _, _ => rfl
  | [], _ :: _, h, _ => by simp at h
  | _ :: _, [], h, _ => by simp at h
  | x :: a, y :: b, h, hv => by
    simp only [lval_cons] at hv
    have hx := x.2
    have hy := y.2
    have h1 : (x : ℕ) = y := by
      have := congrArg (· % n) hv
      simpa [Nat.add_mul_mod_self_left, Nat.mod_eq_of_lt hx, Nat.mod_eq_of_lt hy] using this
    have h2 : lval a = lval b := by
      rw [h1] at hv
      exact Nat.eq_of_mul_eq_mul_left (by omega : 0 < n) (by omega)
    have := lval_inj (a := a) (b := b) (by simpa using h) h2
    rw [this, Fin.ext h1]

/-- Value of a slice. -/
theorem lval_slice (l : List (Fin n)) {a b : ℕ} (hab : a ≤ b) (hb : b ≤ l.length) :
    lval ((l.drop a).take (b - a)) = lval l / n ^ a % n ^ (b - a) := by
  rw [(lval_take_drop _ _ (by simp; omega)).1, (lval_take_drop _ _ (by omega)).2]

/-- Value after replacing a slice. -/
theorem lval_splice (l new : List (Fin n)) {a : ℕ} (h : a + new.length ≤ l.length) :
    lval (l.take a ++ new ++ l.drop (a + new.length)) =
      lval l % n ^ a + n ^ a * (lval new + n ^ new.length * (lval l / n ^ (a + new.length))) := by
  rw [lval_append, lval_append, (lval_take_drop _ _ h).2, (lval_take_drop _ _ (by omega)).1,
    List.length_append, List.length_take, min_eq_left (by omega)]
  ring

theorem lval_range_map [NeZero n] (v : ℕ) (k : ℕ) :
    lval ((List.range k).map fun j => Fin.ofNat n (v / n ^ j)) = v % n ^ k := by
  induction k with
  | zero => simp [Nat.mod_one]
  | succ k ih =>
    rw [List.range_succ, List.map_append, lval_append, ih]
    simp [Fin.ofNat, Nat.mod_pow_succ]

end

section
variable [LimbCfg]

/-! ### Replacing a limb -/

/-- `x` with limb `i` replaced by `v`. -/
def upd (x i v : ℕ) : ℕ := x % B ^ i + B ^ i * (v + B * (x / B ^ (i + 1)))

theorem mod_succ (x i : ℕ) : x % B ^ (i + 1) = x % B ^ i + B ^ i * (x / B ^ i % B) :=
  Nat.mod_pow_succ

theorem div_succ (x i : ℕ) : x / B ^ i = x / B ^ i % B + B * (x / B ^ (i + 1)) := by
  rw [pow_succ, ← Nat.div_div_eq_div_mul]; exact (Nat.mod_add_div _ _).symm

theorem upd_self (x i : ℕ) : upd x i (x / B ^ i % B) = x := by
  unfold upd; rw [← div_succ]; exact Nat.mod_add_div _ _

theorem upd_mod (x i v : ℕ) {j : ℕ} (h : j ≤ i) : upd x i v % B ^ j = x % B ^ j := by
  obtain ⟨k, rfl⟩ := Nat.exists_eq_add_of_le h
  unfold upd
  rw [pow_add, mul_assoc, Nat.add_mul_mod_self_left, Nat.mod_mul_right_mod]

theorem upd_div_le (x i v : ℕ) : upd x i v / B ^ i = v + B * (x / B ^ (i + 1)) := by
  unfold upd
  rw [Nat.add_mul_div_left _ _ (B_pow_pos i), Nat.div_eq_of_lt (Nat.mod_lt _ (B_pow_pos i)),
    zero_add]

theorem upd_div {x i v : ℕ} (hv : v < B) {j : ℕ} (h : i < j) : upd x i v / B ^ j = x / B ^ j := by
  obtain ⟨k, rfl⟩ := Nat.exists_eq_add_of_le (Nat.succ_le_of_lt h)
  have : upd x i v / B ^ (i + 1) = x / B ^ (i + 1) := by
    conv_lhs => rw [pow_succ, ← Nat.div_div_eq_div_mul, upd_div_le]
    rw [Nat.add_mul_div_left _ _ B_pos, Nat.div_eq_of_lt hv, zero_add]
  rw [pow_add, ← Nat.div_div_eq_div_mul, ← Nat.div_div_eq_div_mul, Nat.succ_eq_add_one, this]

theorem upd_mod_succ {x i v : ℕ} (hv : v < B) : upd x i v % B ^ (i + 1) = x % B ^ i + B ^ i * v := by
  rw [mod_succ, upd_mod _ _ _ le_rfl, upd_div_le, Nat.add_mul_mod_self_left, Nat.mod_eq_of_lt hv]

theorem upd_dig {x i v : ℕ} (hv : v < B) : upd x i v / B ^ i % B = v := by
  rw [upd_div_le, Nat.add_mul_mod_self_left, Nat.mod_eq_of_lt hv]

theorem upd_dig_lt {x i v j : ℕ} (h : j < i) : upd x i v / B ^ j % B = x / B ^ j % B := by
  have h1 := upd_mod x i v (j := j + 1) h
  have h2 := upd_mod x i v (j := j) h.le
  rw [mod_succ, mod_succ, h2] at h1
  exact Nat.eq_of_mul_eq_mul_left (B_pow_pos j) (by omega)

theorem upd_dig_gt {x i v j : ℕ} (hv : v < B) (h : i < j) :
    upd x i v / B ^ j % B = x / B ^ j % B := by rw [upd_div hv h]

theorem dig_lt (x i : ℕ) : x / B ^ i % B < B := Nat.mod_lt _ B_pos

/-- The low `i` limbs and the rest. -/
theorem low_high (x i : ℕ) : x = x % B ^ i + B ^ i * (x / B ^ i) := (Nat.mod_add_div _ _).symm

theorem mod_lt_pow (x i : ℕ) : x % B ^ i < B ^ i := Nat.mod_lt _ (B_pow_pos i)

end
end Cmpa
