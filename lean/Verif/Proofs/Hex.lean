import Verif.Model.Hex
import Verif.Proofs.Buf
import Mathlib.Data.Nat.Digits.Lemmas

/-!
# Hexadecimal strings
-/

set_option linter.unusedSectionVars false

namespace Cmpa

open M

/-! ### Specification -/

/-- The ASCII code of a character. -/
def ascii (c : Char) : Fin 256 := Fin.ofNat 256 c.toNat

/-- The lower case hexadecimal digits. -/
def lowerDigits : List (Fin 256) :=
  ['0', '1', '2', '3', '4', '5', '6', '7', '8', '9', 'a', 'b', 'c', 'd', 'e', 'f'].map ascii

/-- The upper case hexadecimal digits. -/
def upperDigits : List (Fin 256) :=
  ['0', '1', '2', '3', '4', '5', '6', '7', '8', '9', 'A', 'B', 'C', 'D', 'E', 'F'].map ascii

/-- The value of a hexadecimal digit. -/
def hexDigit (c : Fin 256) : Option ℕ := (lowerDigits.idxOf? c).or (upperDigits.idxOf? c)

/-- The string consists of hexadecimal digits. -/
def IsHex (s : List (Fin 256)) : Prop := ∀ c ∈ s, (hexDigit c).isSome

instance (s : List (Fin 256)) : Decidable (IsHex s) := inferInstanceAs (Decidable (∀ _ ∈ _, _))

/-- The number denoted by a string of hexadecimal digits, the most significant one first. -/
def hexValue (s : List (Fin 256)) : ℕ := Nat.ofDigits 16 (s.reverse.map fun c => (hexDigit c).getD 0)

/-- The lower case digit of a value. -/
def digitChar (d : ℕ) : Fin 256 := lowerDigits.getD d 0

/-- The `n` least significant hexadecimal digits of a number, the most significant one first, in lower case. -/
def hexDigits (n v : ℕ) : List (Fin 256) :=
  ((List.range n).map fun k => digitChar (v / 16 ^ k % 16)).reverse

/-! ### Parsing -/

theorem nibble_from_hex_val : ∀ c : Fin 256, (nibble_from_hex c).val =
    some (match hexDigit c with
      | some d => .ok d
      | none => .error .InvalidHexChar) := by decide +kernel

theorem hexDigit_lt : ∀ c : Fin 256, (hexDigit c).getD 0 < 16 := by decide +kernel

theorem nibble_from_hex_sat (c : Fin 256) : Sat (nibble_from_hex c) (OkErr
    (fun d => hexDigit c = some d) (fun e => e = .InvalidHexChar ∧ hexDigit c = none)) := by
  refine ⟨_, nibble_from_hex_val c, ?_⟩
  cases h : hexDigit c with
  | none => exact ⟨rfl, rfl⟩
  | some d => exact rfl

theorem nibbles_or : ∀ a b : Fin 16, ((((0 <<< 4) % 256 ||| a.val) <<< 4) % 256 ||| b.val) =
    a.val * 16 + b.val := by decide +kernel

theorem byte_from_hex_sat (c0 c1 : Fin 256) : Sat (byte_from_hex c0 c1) (OkErr
    (fun b => IsHex [c0, c1] ∧ b.val = hexValue [c0, c1])
    (fun e => e = .InvalidHexChar ∧ ¬ IsHex [c0, c1])) := by
  unfold byte_from_hex
  have g0 := hexDigit_lt c0
  have g1 := hexDigit_lt c1
  refine (nibble_from_hex_sat c0).bind fun r hr => ?_
  cases r with
  | error e =>
    obtain ⟨rfl, h⟩ := hr
    refine Sat.pure ⟨rfl, fun hh => ?_⟩
    have := hh c0 (by simp)
    rw [h] at this; exact absurd this (by simp)
  | ok d0 =>
    change hexDigit c0 = some d0 at hr
    refine (nibble_from_hex_sat c1).bind fun r hr1 => ?_
    cases r with
    | error e =>
      obtain ⟨rfl, h⟩ := hr1
      refine Sat.pure ⟨rfl, fun hh => ?_⟩
      have := hh c1 (by simp)
      rw [h] at this; exact absurd this (by simp)
    | ok d1 =>
      change hexDigit c1 = some d1 at hr1
      rw [hr] at g0; rw [hr1] at g1
      simp only [Option.getD_some] at g0 g1
      have hn := nibbles_or ⟨d0, g0⟩ ⟨d1, g1⟩
      dsimp only at hn
      refine Sat.pure ⟨?_, ?_⟩
      · intro c hc
        simp only [List.mem_cons, List.not_mem_nil, or_false] at hc
        rcases hc with rfl | rfl
        · rw [hr]; rfl
        · rw [hr1]; rfl
      · rw [hn]
        simp only [hexValue, List.reverse_cons, List.reverse_nil, List.nil_append, List.singleton_append,
          List.map_cons, List.map_nil, hr, hr1, Option.getD_some, Nat.ofDigits_cons, Nat.ofDigits_nil]
        rw [Fin.val_ofNat, Nat.mod_eq_of_lt (by omega)]
        push_cast
        ring

theorem isHex_cons {c : Fin 256} {s : List (Fin 256)} :
    IsHex (c :: s) ↔ (hexDigit c).isSome ∧ IsHex s := by
  unfold IsHex; rw [List.forall_mem_cons]

theorem isHex_append {s t : List (Fin 256)} : IsHex (s ++ t) ↔ IsHex s ∧ IsHex t := by
  unfold IsHex; rw [List.forall_mem_append]

theorem hexValue_append (s t : List (Fin 256)) :
    hexValue (s ++ t) = hexValue s * 16 ^ t.length + hexValue t := by
  unfold hexValue
  rw [List.reverse_append, List.map_append, Nat.ofDigits_append, List.length_map, List.length_reverse]
  ring

theorem beVal_append (s t : List (Fin 256)) :
    Nat.ofDigits 256 ((s ++ t).reverse.map Fin.val) =
      Nat.ofDigits 256 (s.reverse.map Fin.val) * 256 ^ t.length +
        Nat.ofDigits 256 (t.reverse.map Fin.val) := by
  rw [List.reverse_append, List.map_append, Nat.ofDigits_append, List.length_map, List.length_reverse]
  ring

/-- The big endian number in a list of bytes. -/
def beVal (s : List (Fin 256)) : ℕ := Nat.ofDigits 256 (s.reverse.map Fin.val)

theorem beVal_cons (b : Fin 256) (t : List (Fin 256)) :
    beVal (b :: t) = b.val * 256 ^ t.length + beVal t := by
  have := beVal_append [b] t
  simpa [beVal] using this

theorem beVal_zeros (n : ℕ) (t : List (Fin 256)) : beVal (List.replicate n 0 ++ t) = beVal t := by
  induction n with
  | zero => rfl
  | succ n ih => rw [List.replicate_succ, List.cons_append, beVal_cons, ih]; simp

theorem getByte_sat {l : List (Fin 256)} {i : ℕ} (h : i < l.length) :
    Sat (getByte l i) (fun c => c = l[i]) := by
  unfold getByte
  rw [List.getElem?_eq_getElem h]
  exact Sat.pure rfl

theorem setByte_sat {k n : ℕ} {t : List (Fin 256)} {b : Fin 256} (hk : k + 1 = n) :
    Sat (setByte (List.replicate n 0 ++ t) k b) (fun r => r = List.replicate k 0 ++ b :: t) := by
  subst hk
  unfold setByte
  rw [if_pos (by simp; omega)]
  refine Sat.pure ?_
  rw [List.replicate_succ', List.append_assoc, List.set_append_right _ _ (by simp)]
  simp

theorem loop_sat (s : List (Fin 256)) (off : ℕ) : ∀ (i : ℕ) (t : List (Fin 256)), i ≤ s.length →
    s.length % 2 = i % 2 → 2 * t.length = s.length - i → IsHex (s.drop i) → beVal t = hexValue (s.drop i) →
    Sat (be_bytes_from_hexstr_loop s off i (List.replicate (off + (i + 1) / 2) 0 ++ t)) (OkErr
      (fun r => r.1 = s.length % 2 ∧ IsHex (s.drop r.1) ∧
        ∃ t', r.2 = List.replicate (off + r.1) 0 ++ t' ∧ 2 * t'.length = s.length - r.1 ∧
          beVal t' = hexValue (s.drop r.1))
      (fun e => e = .InvalidHexChar ∧ ¬ IsHex s))
  | 0, t, h1, h2, h3, h4, h5 => by
    rw [be_bytes_from_hexstr_loop]
    exact Sat.pure ⟨by omega, h4, t, rfl, h3, h5⟩
  | 1, t, h1, h2, h3, h4, h5 => by
    rw [be_bytes_from_hexstr_loop]
    exact Sat.pure ⟨by omega, h4, t, rfl, h3, h5⟩
  | i + 2, t, h1, h2, h3, h4, h5 => by
    rw [be_bytes_from_hexstr_loop]
    refine Sat.bind (P := fun _ => True) (Sat.emit trivial) fun _ _ => ?_
    refine Sat.bind (getByte_sat (by omega : i < s.length)) ?_
    rintro _ rfl
    refine Sat.bind (getByte_sat (by omega : i + 1 < s.length)) ?_
    rintro _ rfl
    have hd : s.drop i = [s[i], s[i + 1]] ++ s.drop (i + 2) := by
      rw [List.drop_eq_getElem_cons (by omega : i < s.length),
        List.drop_eq_getElem_cons (by omega : i + 1 < s.length)]
      rfl
    refine (byte_from_hex_sat _ _).bind fun r hr => ?_
    cases r with
    | error e =>
      obtain ⟨rfl, hr⟩ := hr
      refine Sat.pure ⟨rfl, fun hh => hr ?_⟩
      have h6 : IsHex (s.drop i) := fun c hc => hh c (List.mem_of_mem_drop hc)
      rw [hd, isHex_append] at h6
      exact h6.1
    | ok b =>
      obtain ⟨hr1, hr2⟩ := hr
      dsimp only
      refine Sat.bind (setByte_sat (by omega)) ?_
      rintro _ rfl
      refine loop_sat s off i (b :: t) (by omega) (by omega) (by rw [List.length_cons]; omega) ?_ ?_
      · rw [hd, isHex_append]; exact ⟨hr1, h4⟩
      · rw [hd, hexValue_append, beVal_cons, h5, hr2, List.length_drop, ← h3, pow_mul]
        norm_num

theorem be_bytes_from_hexstr_sat (n : ℕ) (s : List (Fin 256)) :
    Sat (be_bytes_from_hexstr n s) (OkErr
      (fun r => s.length ≤ 2 * n ∧ IsHex s ∧ r.length = n ∧ beVal r = hexValue s)
      (fun e => (2 * n < s.length ∧ e = .InvalidHexStrLen) ∨
        (s.length ≤ 2 * n ∧ ¬ IsHex s ∧ e = .InvalidHexChar))) := by
  unfold be_bytes_from_hexstr
  refine Sat.cond (fun hc => Sat.pure (Or.inl ⟨hc, rfl⟩)) fun hc => ?_
  dsimp only
  rw [M.sub_eq (by omega), M.pure_bind]
  have h0 := loop_sat s (n - (s.length + 1) / 2) s.length [] le_rfl rfl (by simp) (by simp [IsHex])
    (by simp [beVal, hexValue])
  rw [List.append_nil, Nat.sub_add_cancel (by omega)] at h0
  refine h0.bind fun r hr => ?_
  cases r with
  | error e => exact Sat.pure (Or.inr ⟨by omega, hr.2, hr.1⟩)
  | ok r =>
    obtain ⟨i, r⟩ := r
    obtain ⟨h1, h2, t, h3, h4, h5⟩ := hr
    dsimp only at h1 h2 h3 h4 h5 ⊢
    subst h3
    refine Sat.cond (fun h6 => ?_) fun h6 => ?_
    · rw [h6] at h1 h2 h4 h5 ⊢
      refine Sat.bind (getByte_sat (by omega : 0 < s.length)) ?_
      rintro _ rfl
      have hd : s = [s[0]] ++ s.drop 1 := by
        rw [List.singleton_append, List.getElem_cons_drop, List.drop_zero]
      refine (byte_from_hex_sat _ _).bind fun r hr => ?_
      cases r with
      | error e =>
        obtain ⟨rfl, hr⟩ := hr
        refine Sat.pure (Or.inr ⟨by omega, fun hh => hr ?_, rfl⟩)
        rw [isHex_cons]
        refine ⟨by decide +kernel, ?_⟩
        intro c hc
        rw [List.mem_singleton] at hc
        exact hh c (by rw [hc]; exact List.getElem_mem _)
      | ok b =>
        obtain ⟨hr1, hr2⟩ := hr
        dsimp only
        refine Sat.bind (setByte_sat rfl) ?_
        rintro _ rfl
        refine Sat.pure ⟨by omega, ?_, ?_, ?_⟩
        · rw [hd, isHex_append]
          exact ⟨fun c hc => hr1 c (List.mem_cons_of_mem _ hc), h2⟩
        · simp; omega
        · rw [beVal_zeros, beVal_cons, h5, hr2]
          conv_rhs => rw [hd, hexValue_append, List.length_drop, ← h4, pow_mul]
          norm_num [hexValue, Nat.ofDigits_cons, show hexDigit 48 = some 0 by decide +kernel]
    · have hi : i = 0 := by omega
      subst hi
      refine Sat.pure ⟨by omega, h2, ?_, ?_⟩
      · simp only [List.length_append, List.length_replicate]
        omega
      · rw [beVal_zeros]; exact h5

/-! ### Formatting -/

theorem nibble_to_hexchar_val : ∀ d : Fin 16, (nibble_to_hexchar d).val = some (digitChar d) := by
  decide +kernel

theorem nibble_to_hexchar_sat {d : ℕ} (h : d < 16) :
    Sat (nibble_to_hexchar d) (fun c => c = digitChar d) := ⟨_, nibble_to_hexchar_val ⟨d, h⟩, rfl⟩

theorem hexDigit_digitChar : ∀ d : Fin 16, hexDigit (digitChar d) = some d.val := by decide +kernel

theorem hexDigits_add (n m v : ℕ) : hexDigits (n + m) v = hexDigits n (v / 16 ^ m) ++ hexDigits m v := by
  unfold hexDigits
  rw [Nat.add_comm n m, List.range_add, List.map_append, List.reverse_append, List.map_map]
  congr 2
  refine List.map_congr_left fun k _ => ?_
  simp only [Function.comp_apply]
  rw [Nat.div_div_eq_div_mul, ← pow_add]

theorem hexDigits_length (n v : ℕ) : (hexDigits n v).length = n := by simp [hexDigits]

theorem div_mod_eq' (a b c : ℕ) : a / b % c = a % (b * c) / b := by
  rw [Nat.mod_mul_right_div_self]

theorem hexDigits_mod (n m v : ℕ) (h : n ≤ m) : hexDigits n (v % 16 ^ m) = hexDigits n v := by
  unfold hexDigits
  congr 1
  refine List.map_congr_left fun k hk => ?_
  rw [List.mem_range] at hk
  congr 1
  rw [div_mod_eq', div_mod_eq', ← pow_succ,
    Nat.mod_mod_of_dvd _ (pow_dvd_pow 16 (by omega))]

theorem isHex_hexDigits (n v : ℕ) : IsHex (hexDigits n v) := by
  intro c hc
  unfold hexDigits at hc
  rw [List.mem_reverse, List.mem_map] at hc
  obtain ⟨k, -, rfl⟩ := hc
  rw [hexDigit_digitChar ⟨v / 16 ^ k % 16, Nat.mod_lt _ (by norm_num)⟩]
  rfl

theorem hexValue_hexDigits (n v : ℕ) : hexValue (hexDigits n v) = v % 16 ^ n := by
  induction n with
  | zero => simp [hexDigits, hexValue, Nat.mod_one]
  | succ n ih =>
    rw [Nat.add_comm n 1, hexDigits_add, hexValue_append, ih, hexDigits_length, Nat.add_comm 1 n, pow_succ]
    have h1 : hexValue (hexDigits 1 (v / 16 ^ n)) = v / 16 ^ n % 16 := by
      have := hexDigit_digitChar ⟨v / 16 ^ n % 16, Nat.mod_lt _ (by norm_num)⟩
      simp [hexDigits, hexValue, this]
    rw [h1, Nat.mod_mul]
    ring

theorem hexDigits_two (v : ℕ) : hexDigits 2 v = [digitChar (v / 16 % 16), digitChar (v % 16)] := by
  simp [hexDigits, List.range_succ]

theorem and_15 (v : ℕ) : v &&& 0xf = v % 16 := Nat.and_two_pow_sub_one_eq_mod v 4

theorem shr_4 (v : ℕ) : v >>> 4 = v / 16 := by rw [Nat.shiftRight_eq_div_pow]

theorem bytes_to_hexstr_loop_sat : ∀ (l r : List (Fin 256)),
    Sat (bytes_to_hexstr_loop l r) (fun s => s = r ++ hexDigits (2 * l.length) (beVal l))
  | [], r => by
    rw [bytes_to_hexstr_loop]
    exact Sat.pure (by simp [hexDigits])
  | b :: l, r => by
    have hb := b.isLt
    rw [bytes_to_hexstr_loop, shr_4, and_15]
    refine Sat.bind (P := fun _ => True) (Sat.emit trivial) fun _ _ => ?_
    refine Sat.bind (nibble_to_hexchar_sat (by omega)) ?_
    rintro _ rfl
    dsimp only
    refine Sat.bind (nibble_to_hexchar_sat (by omega)) ?_
    rintro _ rfl
    refine (bytes_to_hexstr_loop_sat l _).mono ?_
    rintro _ rfl
    have hl : beVal l < 16 ^ (2 * l.length) := by
      rw [pow_mul]
      have := Nat.ofDigits_lt_base_pow_length (b := 256) (l := l.reverse.map Fin.val) (by norm_num) (by
        intro x hx
        rw [List.mem_map] at hx
        obtain ⟨y, -, rfl⟩ := hx
        exact y.isLt)
      rwa [List.length_map, List.length_reverse] at this
    have h16 : (256 : ℕ) ^ l.length = 16 ^ (2 * l.length)   := by rw [pow_mul]; norm_num
    rw [List.length_cons, show 2 * (l.length + 1) = 2 + 2 * l.length by ring, hexDigits_add, beVal_cons, h16,
      Nat.mul_comm b.val, Nat.mul_add_div (by positivity), Nat.div_eq_of_lt hl, Nat.add_zero,
      ← hexDigits_mod _ _ (_ + _) le_rfl, Nat.mul_add_mod, hexDigits_mod _ _ _ le_rfl, hexDigits_two,
      Nat.mod_eq_of_lt (by omega : b.val / 16 < 16)]
    simp

theorem bytes_to_hexstr_sat (l : List (Fin 256)) :
    Sat (bytes_to_hexstr l) (fun s => s = hexDigits (2 * l.length) (beVal l)) := by
  refine (bytes_to_hexstr_loop_sat l []).mono ?_
  rintro _ rfl
  rw [List.nil_append]

/-- The digits of the value of a string of hexadecimal digits are the string, in lower case. -/
theorem hexDigits_hexValue : ∀ (s : List (Fin 256)),
    hexDigits s.length (hexValue s) = s.map fun c => digitChar ((hexDigit c).getD 0)
  | [] => rfl
  | c :: s => by
    have h1 := hexDigit_lt c
    have h2 : hexValue (c :: s) = 16 ^ s.length * (hexDigit c).getD 0 + hexValue s := by
      have := hexValue_append [c] s
      rw [List.singleton_append] at this
      rw [this]
      simp [hexValue]; ring
    have h3 : hexValue s < 16 ^ s.length := by
      have := Nat.ofDigits_lt_base_pow_length (b := 16) (l := s.reverse.map fun c => (hexDigit c).getD 0)
        (by norm_num) (by
        intro x hx
        rw [List.mem_map] at hx
        obtain ⟨y, -, rfl⟩ := hx
        exact hexDigit_lt y)
      rwa [List.length_map, List.length_reverse] at this
    rw [List.length_cons, Nat.add_comm, hexDigits_add, h2, Nat.mul_add_div (by positivity),
      Nat.div_eq_of_lt h3, Nat.add_zero, ← hexDigits_mod _ _ (_ + _) le_rfl, Nat.mul_add_mod,
      hexDigits_mod _ _ _ le_rfl, hexDigits_hexValue s, List.map_cons]
    simp [hexDigits, Nat.mod_eq_of_lt h1]

variable [LimbCfg] {φ : Fmt}

theorem fmt_byte_sat (f : List (Fin 256)) {v : ℕ} (hv : v < 256) :
    Sat (fmt_byte f v) (fun r => r = f ++ hexDigits 2 v) := by
  unfold fmt_byte
  rw [shr_4, and_15]
  refine Sat.bind (nibble_to_hexchar_sat (by omega)) ?_
  rintro _ rfl
  dsimp only
  refine Sat.bind (nibble_to_hexchar_sat (by omega)) ?_
  rintro _ rfl
  refine Sat.pure ?_
  rw [hexDigits_two, Nat.mod_eq_of_lt (by omega : v / 16 < 16)]
  simp

theorem fmt_l_sat (f : List (Fin 256)) (v : ℕ) {len : ℕ} (hl : len ≤ LB) :
    Sat (fmt_l f v len) (fun r => r = f ++ hexDigits (2 * len) v) := by
  unfold fmt_l
  refine (Sat.forRange (P := fun i r => r = f ++ hexDigits (2 * i) (v / 16 ^ (2 * (len - i))))
    (Nat.zero_le _) ?_ ?_).mono ?_
  · simp [hexDigits]
  · rintro i _ - hi rfl
    rw [M.sub_eq hi.le, M.pure_bind, M.sub_eq (by omega), M.pure_bind]
    unfold shrC
    have hW : W = 8 * LB := rfl
    rw [M.assert_eq (by omega), M.pure_bind, M.pure_bind, Nat.mod_eq_of_lt (by omega : 8 * (len - i - 1) < W)]
    refine (fmt_byte_sat _ (Nat.mod_lt _ (by norm_num))).mono ?_
    rintro _ rfl
    rw [List.append_assoc, show 2 * (i + 1) = 2 * i + 2 by ring, hexDigits_add, Nat.div_div_eq_div_mul,
      ← pow_add, show 2 * (len - (i + 1)) + 2 = 2 * (len - i) by omega]
    congr 2
    have h16 := hexDigits_mod 2 2 (v >>> (8 * (len - i - 1))) le_rfl
    rw [show (16 : ℕ) ^ 2 = 256 by norm_num] at h16
    unfold shr
    rw [h16, Nat.shiftRight_eq_div_pow]
    congr 2
    rw [show 8 * (len - i - 1) = 4 * (2 * (len - (i + 1))) by omega, pow_mul]
    norm_num
  · rintro _ rfl
    simp

/-- Groups of the digits of the `k` least significant limbs of `v`, each one preceded by an underscore. -/
def hexGroups (v : ℕ) : ℕ → List (Fin 256)
  | 0 => []
  | k + 1 => ascii '_' :: hexDigits (2 * LB) (v / B ^ k) ++ hexGroups v k

theorem fmt_lower_hex_sat (b : Buf φ) (alt : Bool) : Sat (b.fmt_lower_hex alt) (fun r =>
    r = (if alt then [ascii '0', ascii 'x'] else []) ++
      (if b.len = 0 then ['(', 'e', 'm', 'p', 't', 'y', ')'].map ascii
        else hexDigits (2 * hbytes b.len) (b.toNat / B ^ (b.nlimbs - 1)) ++
          hexGroups b.toNat (b.nlimbs - 1))) := by
  unfold Buf.fmt_lower_hex
  dsimp only
  have hpre : (if alt then [48, 120] else [] : List (Fin 256)) =
    (if alt then [ascii '0', ascii 'x'] else []) := by cases alt <;> decide
  rw [hpre]
  generalize (if alt then [ascii '0', ascii 'x'] else [] : List (Fin 256)) = pre
  refine Sat.cond (fun hc => ?_) fun hc => ?_
  · rw [Buf.is_empty_iff] at hc
    rw [if_pos hc]
    exact Sat.pure rfl
  · rw [Buf.is_empty_iff] at hc
    have hn : 0 < b.nlimbs := nlimbs_pos_iff.2 (by omega)
    rw [M.sub_eq (by omega), M.pure_bind]
    refine Sat.bind (P := fun v => v = b.toNat / B ^ (b.nlimbs - 1) % B)
      (Buf.sat_load_l b (by omega) rfl) ?_
    rintro _ rfl
    rw [M.sub_eq (by omega), M.pure_bind, ← hbytes_eq (by omega)]
    refine Sat.bind (fmt_l_sat pre _ (hbytes_le b.len)) ?_
    rintro _ rfl
    have hB : B = 16 ^ (2 * LB) := by unfold B W; rw [show 8 * LB = 4 * (2 * LB) by ring, pow_mul]; norm_num
    have hmod : ∀ n x, n ≤ 2 * LB → hexDigits n (x % B) = hexDigits n x := by
      intro n x h
      rw [hB]; exact hexDigits_mod _ _ _ h
    have hh := hbytes_le b.len
    rw [hmod _ _ (by omega), if_neg hc]
    refine (Sat.forRange (P := fun i r => r ++ hexGroups b.toNat (b.nlimbs - 1 - i) = pre ++
      (hexDigits (2 * hbytes b.len) (b.toNat / B ^ (b.nlimbs - 1)) ++
        hexGroups b.toNat (b.nlimbs - 1))) (Nat.zero_le _) ?_ ?_).mono ?_
    · rw [Nat.sub_zero, List.append_assoc]
    · rintro i r - hi hr
      rw [M.sub_eq (by omega), M.pure_bind, M.sub_eq (by omega), M.pure_bind]
      refine Sat.bind (P := fun v => v = b.toNat / B ^ (b.nlimbs - 2 - i) % B)
        (Buf.sat_load_l b (by omega) rfl) ?_
      rintro _ rfl
      refine (fmt_l_sat _ _ le_rfl).mono ?_
      rintro _ rfl
      rw [← hr, hmod _ _ le_rfl, show b.nlimbs - 1 - i = (b.nlimbs - 1 - (i + 1)) + 1 by omega, hexGroups,
        show b.nlimbs - 2 - i = b.nlimbs - 1 - (i + 1) by omega]
      simp [ascii]
    · intro r hr
      rw [Nat.sub_self] at hr
      rw [← hr, hexGroups, List.append_nil]

theorem filter_hexDigits (n v : ℕ) : (hexDigits n v).filter (· ≠ ascii '_') = hexDigits n v := by
  rw [List.filter_eq_self]
  intro c hc
  have h1 := isHex_hexDigits n v c hc
  rw [decide_eq_true_iff]
  rintro rfl
  exact absurd h1 (by decide +kernel)

theorem filter_hexGroups (v : ℕ) : ∀ k, (hexGroups v k).filter (· ≠ ascii '_') = hexDigits (2 * (k * LB)) v
  | 0 => by simp [hexGroups, hexDigits]
  | k + 1 => by
    have hB : B ^ k = 16 ^ (2 * (k * LB)) := by
      unfold B W; rw [← pow_mul, show 8 * LB * k = 4 * (2 * (k * LB)) by ring, pow_mul]; norm_num
    rw [hexGroups, List.filter_append, filter_hexGroups v k, List.filter_cons_of_neg (by simp), filter_hexDigits, hB,
      ← hexDigits_add]
    congr 1; ring

theorem filter_fmt (b : Buf φ) (h : b.len ≠ 0) :
    (hexDigits (2 * hbytes b.len) (b.toNat / B ^ (b.nlimbs - 1)) ++
      hexGroups b.toNat (b.nlimbs - 1)).filter (· ≠ ascii '_') = hexDigits (2 * b.len) b.toNat := by
  have hB : B ^ (b.nlimbs - 1) = 16 ^ (2 * ((b.nlimbs - 1) * LB)) := by
    unfold B W; rw [← pow_mul, show 8 * LB * (b.nlimbs - 1) = 4 * (2 * ((b.nlimbs - 1) * LB)) by ring, pow_mul]
    norm_num
  rw [List.filter_append, filter_hexGroups, filter_hexDigits, hB, ← hexDigits_add]
  congr 1
  have : b.len = (b.nlimbs - 1) * LB + hbytes b.len := by
    unfold hbytes
    have := pred_nlimbs_mul_lt (n := b.len) (by omega)
    rw [Buf.nlimbs_eq]
    omega
  omega

end Cmpa
