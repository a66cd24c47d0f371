import Verif.Props.Cost
import Verif.Proofs.WheelGap
import Verif.Model.HexWriter

/-!
# C70: the conversions from and to hexadecimal digits are linear
-/

namespace Cmpa.Props
open M

variable [LimbCfg] {φ : Fmt}

theorem nibble_from_hex_steps (c : Fin 256) : (nibble_from_hex c).steps ≤ 0 := by
  unfold nibble_from_hex
  repeat' split
  all_goals first
    | exact steps_bind (k := 0) (sub_steps _ _) fun _ _ => pure_steps _
    | exact pure_steps _

theorem bindE_steps {α β ε : Type} {m : M (Except ε α)} {k : α → M (Except ε β)} {n j : ℕ} (hm : m.steps ≤ n)
    (hk : ∀ a, (k a).steps ≤ j) : (M.bindE m k).steps ≤ n + j := by
  unfold M.bindE
  refine steps_bind hm fun r _ => ?_
  cases r with
  | error e => exact Nat.zero_le _
  | ok a => exact hk a

theorem byte_from_hex_steps (c d : Fin 256) : (byte_from_hex c d).steps ≤ 0 := by
  unfold byte_from_hex
  refine bindE_steps (j := 0) (nibble_from_hex_steps _) fun _ => ?_
  exact bindE_steps (j := 0) (nibble_from_hex_steps _) fun _ => pure_steps _

theorem getByte_steps (l : List (Fin 256)) (i : ℕ) : (getByte l i).steps ≤ 0 := by
  unfold getByte M.ofOption
  split <;> exact le_refl 0

theorem setByte_steps (l : List (Fin 256)) (i : ℕ) (b : Fin 256) : (setByte l i b).steps ≤ 0 := by
  unfold setByte
  split <;> exact le_refl 0

theorem emit_iter_steps : (M.emit .iter).steps ≤ 1 := le_refl 1

theorem from_loop_steps (s : List (Fin 256)) (off : ℕ) : ∀ (i : ℕ) (r : List (Fin 256)),
    (be_bytes_from_hexstr_loop s off i r).steps ≤ i / 2
  | 0, r => by rw [be_bytes_from_hexstr_loop]; exact pure_steps _
  | 1, r => by rw [be_bytes_from_hexstr_loop]; exact pure_steps _
  | i + 2, r => by
    rw [be_bytes_from_hexstr_loop, show (i + 2) / 2 = 1 + i / 2 by omega]
    refine steps_bind emit_iter_steps fun _ _ => ?_
    refine (steps_bind (getByte_steps _ _) fun _ _ => ?_).trans (Nat.zero_add _).le
    refine (steps_bind (getByte_steps _ _) fun _ _ => ?_).trans (Nat.zero_add _).le
    refine (bindE_steps (byte_from_hex_steps _ _) fun _ => ?_).trans (Nat.zero_add _).le
    exact (steps_bind (setByte_steps _ _ _) fun _ _ => from_loop_steps s off i _).trans (Nat.zero_add _).le

theorem cond_steps {α : Type} {c : Prop} [Decidable c] {t e : M α} {n : ℕ} (ht : t.steps ≤ n) (he : e.steps ≤ n) :
    (M.cond c t e).steps ≤ 1 + n := by
  refine steps_bind (n := 1) (le_refl 1) fun b _ => ?_
  split
  · exact ht
  · exact he

theorem be_bytes_from_hexstr_steps (n : ℕ) (s : List (Fin 256)) :
    (be_bytes_from_hexstr n s).steps ≤ s.length / 2 + 2 := by
  unfold be_bytes_from_hexstr
  refine (cond_steps (n := s.length / 2 + 1) (Nat.zero_le _) ?_).trans (by omega)
  refine (steps_bind (sub_steps _ _) fun _ _ => ?_).trans (Nat.zero_add _).le
  refine bindE_steps (from_loop_steps _ _ _ _) fun p => ?_
  refine cond_steps (n := 0) ?_ (pure_steps _)
  refine steps_bind (k := 0) (getByte_steps _ _) fun _ _ => ?_
  refine bindE_steps (j := 0) (byte_from_hex_steps _ _) fun _ => ?_
  exact steps_bind (k := 0) (setByte_steps _ _ _) fun _ _ => pure_steps _

theorem to_loop_steps : ∀ l r : List (Fin 256), (bytes_to_hexstr_loop l r).steps ≤ l.length
  | [], r => by rw [bytes_to_hexstr_loop]; exact pure_steps _
  | b :: l, r => by
    rw [bytes_to_hexstr_loop, List.length_cons, Nat.add_comm]
    refine steps_bind emit_iter_steps fun _ _ => ?_
    refine (steps_bind (nibble_to_hexchar_steps _) fun _ _ => ?_).trans (Nat.zero_add _).le
    exact (steps_bind (nibble_to_hexchar_steps _) fun _ _ => to_loop_steps l _).trans (Nat.zero_add _).le

/-- C70: reading a string of hexadecimal digits takes an iteration per pair of digits, writing one an iteration per
byte. -/
theorem C70_hexstr (n : ℕ) (s l : List (Fin 256)) :
    (be_bytes_from_hexstr n s).steps ≤ s.length / 2 + 2 ∧
    (bytes_from_hexstr n s).steps ≤ s.length / 2 + 3 ∧
    (bytes_to_hexstr l).steps ≤ l.length := by
  refine ⟨be_bytes_from_hexstr_steps n s, ?_, to_loop_steps l []⟩
  unfold bytes_from_hexstr
  exact (cond_steps (Nat.zero_le _) (be_bytes_from_hexstr_steps n s)).trans (by omega)

example : letI := cfg32; (be_bytes_from_hexstr 3 [49, 50, 97, 98, 99]).steps = 4 ∧ (bytes_to_hexstr [1, 2, 3]).steps = 3 := by
  decide +kernel

theorem loopUp_steps {σ : Type} {k : ℕ} {f : ℕ → σ → M σ} (h : ∀ i y, (f i y).steps ≤ k) :
    ∀ (n lo : ℕ) (x : σ), (M.loopUp n lo x f).steps ≤ n * (k + 1)
  | 0, lo, x => Nat.zero_le _
  | n + 1, lo, x => by
    rw [M.loopUp, show (n + 1) * (k + 1) = 1 + (k + n * (k + 1)) by rw [Nat.succ_mul]; omega]
    exact steps_bind emit_iter_steps fun _ _ => steps_bind (h _ _) fun _ _ => loopUp_steps h n _ _

/-- C70: formatting a number takes an iteration per byte, and for each limb another one and a load. -/
theorem C70_format_len (b : Buf φ) (alternate : Bool) :
    (b.fmt_lower_hex alternate).steps ≤ b.len + 2 * b.nlimbs + 1 := by
  unfold Buf.fmt_lower_hex
  have hb : (M.branch (b.is_empty = true)).val = some (decide (b.is_empty = true)) := rfl
  by_cases h0 : b.is_empty = true
  · refine le_trans (b := 1) ?_ (by omega)
    refine steps_bind (n := 1) (k := 0) (le_refl 1) fun c hc => ?_
    rw [hb, Option.some.injEq, decide_eq_true h0] at hc
    rw [← hc]
    exact pure_steps _
  have hn : 0 < b.nlimbs := nlimbs_pos_of_not_empty h0
  have hl : 0 < b.len := nlimbs_pos_iff.1 hn
  have hn1 : b.nlimbs = (b.len - 1) / LB + 1 := by
    show (b.len + LB - 1) / LB = _
    rw [show b.len + LB - 1 = (b.len - 1) + LB by omega, Nat.add_div_right _ LB_pos]
  have hd : LB * ((b.len - 1) / LB) + (b.len - 1) % LB = b.len - 1 := Nat.div_add_mod _ _
  refine le_trans (b := 1 + (0 + (1 + (0 + ((b.len - 1) % LB + 1 + (b.nlimbs - 1) * (LB + 1 + 1)))))) ?_ ?_
  · refine steps_bind (n := 1) (le_refl 1) fun c hc => ?_
    rw [hb, Option.some.injEq, decide_eq_false h0] at hc
    rw [← hc, if_neg (by decide)]
    refine steps_bind (sub_steps _ _) fun _ _ => ?_
    refine steps_bind Buf.load_l_cost.1 fun _ _ => ?_
    refine steps_bind (sub_steps _ _) fun l hl' => ?_
    have : l = b.len - 1 := by
      rw [M.sub, if_pos (show 1 ≤ b.len from hl)] at hl'
      exact (Option.some.inj hl').symm
    rw [this]
    refine steps_bind (fmt_l_steps _ _ _) fun _ _ => ?_
    refine loopUp_steps (fun i f => ?_) _ _ _
    refine (steps_bind (sub_steps _ _) fun _ _ => ?_).trans (Nat.zero_add _).le
    refine (steps_bind (sub_steps _ _) fun _ _ => ?_).trans (Nat.zero_add _).le
    exact (steps_bind Buf.load_l_cost.1 fun _ _ => fmt_l_steps _ _ _).trans (Nat.add_comm _ _).le
  · rw [hn1, Nat.add_sub_cancel]
    have : (b.len - 1) / LB * (LB + 1 + 1) = LB * ((b.len - 1) / LB) + 2 * ((b.len - 1) / LB) := by ring
    omega

example : letI := cfg32; ((Buf.be [1, 2, 3, 4, 5]).fmt_lower_hex false).steps = 9 := by decide +kernel

end Cmpa.Props
