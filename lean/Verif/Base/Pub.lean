import Verif.Model.Composite
import Verif.Base.LoopE
import Verif.Base.SameTr
import Verif.Proofs.Buf

/-!
# Constant time: relating two runs

`Pub.rel x y`: the public parts of `x` and `y` agree.  The public part of a buffer is its length.  Limbs
and choices have no public part.  Numbers which are public are passed as equal ones.

The tactic `ct` proves that two runs of a function on related arguments leave the same events, by going
through the code of the function step by step.
-/

namespace Cmpa

/-- What an attacker may know. -/
class Pub (α : Type) where
  rel : α → α → Prop

variable {α β σ τ ε : Type}

instance : Pub ℕ := ⟨fun _ _ => True⟩
instance : Pub Unit := ⟨fun _ _ => True⟩
instance : Pub Bool := ⟨fun _ _ => True⟩
instance : Pub LimbChoice := ⟨fun _ _ => True⟩
instance : Pub DoubleLimb := ⟨fun _ _ => True⟩
instance : Pub CtLDivisor := ⟨fun _ _ => True⟩
instance : Pub (List ℕ) := ⟨fun _ _ => True⟩
instance [LimbCfg] {f : Fmt} : Pub (Buf f) := ⟨fun a b => a.len = b.len⟩
instance [Pub α] [Pub β] : Pub (α × β) := ⟨fun a b => Pub.rel a.1 b.1 ∧ Pub.rel a.2 b.2⟩
/-- An error is public. -/
instance [Pub α] : Pub (Except ε α) := ⟨fun
  | .ok a, .ok b => Pub.rel a b
  | .error e, .error e' => e = e'
  | _, _ => False⟩
/-- Whether there is a value is public. -/
instance [Pub α] : Pub (Option α) := ⟨fun
  | some a, some b => Pub.rel a b
  | none, none => True
  | _, _ => False⟩

theorem low_buf [LimbCfg] {f : Fmt} {a b : Buf f} : Pub.rel a b ↔ a.len = b.len := Iff.rfl
theorem low_prod [Pub α] [Pub β] {a b : α × β} : Pub.rel a b ↔ Pub.rel a.1 b.1 ∧ Pub.rel a.2 b.2 := Iff.rfl
theorem low_mk [Pub α] [Pub β] {a a' : α} {b b' : β} :
    Pub.rel (a, b) (a', b') ↔ Pub.rel a a' ∧ Pub.rel b b' := Iff.rfl
theorem low_list {a b : List ℕ} : Pub.rel a b := trivial
theorem low_nat {a b : ℕ} : Pub.rel a b := trivial
theorem low_choice {a b : LimbChoice} : Pub.rel a b := trivial
theorem low_double {a b : DoubleLimb} : Pub.rel a b := trivial
theorem low_bool {a b : Bool} : Pub.rel a b := trivial
theorem low_ok [Pub α] {a b : α} : Pub.rel (.ok a : Except ε α) (.ok b) ↔ Pub.rel a b := Iff.rfl

theorem low_some [Pub α] {a b : α} : Pub.rel (some a) (some b) ↔ Pub.rel a b := Iff.rfl
theorem low_none [Pub α] : Pub.rel (none : Option α) none := trivial

namespace M
variable [Obs]

/-- Two runs leave the same events, and the public parts of their results agree. -/
abbrev Ct [Pub α] (m n : M α) : Prop := SameTr m n Pub.rel

theorem Ct.quiet [Pub α] {m n : M α} (hm : Quiet m) (hn : Quiet n) (h : ∀ a b : α, Pub.rel a b) : Ct m n :=
  (SameTr.quiet hm hn).mono fun a b _ => h a b

theorem SameTr.subEq {a b c d : ℕ} (h : a = c) (h' : b = d) : SameTr (M.sub a b) (M.sub c d) (fun x y => x = y) := by
  subst h h'
  intro x y hx hy
  rw [hx] at hy
  exact ⟨rfl, Option.some_inj.1 hy⟩

theorem SameTr.subAny {a b c d : ℕ} : SameTr (M.sub a b) (M.sub c d) (fun _ _ => True) :=
  SameTr.sub.mono fun _ _ _ => trivial

theorem SameTr.forRangeLow [Pub σ] {f g : ℕ → σ → M σ} {lo hi lo' hi' : ℕ} {s t : σ} (hlo : lo = lo')
    (hhi : hi = hi') (h0 : Pub.rel s t)
    (hs : ∀ i s t, lo ≤ i → i < hi → Pub.rel s t → SameTr (f i s) (g i t) Pub.rel) :
    SameTr (M.forRange lo hi s f) (M.forRange lo' hi' t g) Pub.rel := by
  subst hlo hhi
  exact SameTr.forRange (fun _ => Pub.rel) h0 hs

theorem SameTr.forDownLow [Pub σ] {f g : ℕ → σ → M σ} {hi hi' : ℕ} {s t : σ}
    (hhi : hi = hi') (h0 : Pub.rel s t)
    (hs : ∀ i s t, i < hi → Pub.rel s t → SameTr (f i s) (g i t) Pub.rel) :
    SameTr (M.forDown hi s f) (M.forDown hi' t g) Pub.rel := by
  subst hhi
  exact SameTr.forDown (fun _ => Pub.rel) h0 hs

theorem SameTr.branchIf {c d : Prop} [Decidable c] [Decidable d] {t e : M α} {t' e' : M β}
    {R : α → β → Prop} (h : c ↔ d) (ht : c → SameTr t t' R) (he : ¬ c → SameTr e e' R) :
    SameTr (M.branch c >>= fun b => if b = true then t else e)
      (M.branch d >>= fun b => if b = true then t' else e') R := SameTr.cond h ht he

theorem SameTr.bindE [Pub α] [Pub β] {m n : M (Except ε α)} {f g : α → M (Except ε β)}
    (h : SameTr m n Pub.rel) (hf : ∀ a b, Pub.rel a b → SameTr (f a) (g b) Pub.rel) :
    SameTr (M.bindE m f) (M.bindE n g) Pub.rel := by
  refine SameTr.bind h fun a b hab => ?_
  match a, b, hab with
  | .ok a, .ok b, hab => exact hf a b hab
  | .error e, .error e', hab => exact SameTr.pure hab

theorem SameTr.ofOption {o o' : Option α} {R : α → α → Prop} (h : ∀ a b, o = some a → o' = some b → R a b) :
    SameTr (M.ofOption o) (M.ofOption o') R := by
  intro x y hx hy
  cases o <;> cases o' <;> simp_all [M.ofOption, M.seen]

theorem SameTr.panicL {m : M β} {R : α → β → Prop} : SameTr (M.panic : M α) m R := by
  intro x y hx; cases hx

theorem SameTr.debugPanicL {a : α} {m : M β} {R : α → β → Prop} :
    SameTr (M.debugPanic a : M α) m R := by
  intro x y hx; cases hx

end M

/-- Functions without observable events. -/
macro "quiet" : tactic => `(tactic|
  repeat' (first
    | exact M.Quiet.pure | exact M.Quiet.assert | exact M.Quiet.check | exact M.Quiet.panic | exact M.Quiet.assertM | exact M.Quiet.sub
    | exact M.Quiet.addL | exact M.Quiet.mulL | exact M.Quiet.ofOption
    | assumption
    | refine M.Quiet.bind ?_ (fun _ => ?_) | refine M.Quiet.ite ?_ ?_ | split))

section
variable [LimbCfg]

theorem quiet_from' (c : ℕ) : M.Quiet (LimbChoice.from' c) := by unfold LimbChoice.from'; quiet
theorem quiet_shlC (a s : ℕ) : M.Quiet (shlC a s) := by unfold shlC; quiet
theorem quiet_shrC (a s : ℕ) : M.Quiet (shrC a s) := by unfold shrC; quiet
theorem quiet_ct_lt_or_eq_l_l (a b : ℕ) : M.Quiet (ct_lt_or_eq_l_l a b) := by unfold ct_lt_or_eq_l_l; quiet
theorem quiet_ct_add_l_l_c (a b c : ℕ) : M.Quiet (ct_add_l_l_c a b c) := by unfold ct_add_l_l_c; quiet
theorem quiet_ct_sub_l_l_b (a b c : ℕ) : M.Quiet (ct_sub_l_l_b a b c) := by unfold ct_sub_l_l_b; quiet
theorem quiet_ct_mul_l_l (a b : ℕ) : M.Quiet (ct_mul_l_l a b) := by unfold ct_mul_l_l; quiet
theorem quiet_ct_mul_add_l_l_l_c (a b c d : ℕ) : M.Quiet (ct_mul_add_l_l_l_c a b c d) := by
  unfold ct_mul_add_l_l_l_c
  refine M.Quiet.bind (quiet_ct_mul_l_l _ _) fun _ => ?_
  quiet
theorem quiet_ct_mul_sub_l_l_l_b (a b c d : ℕ) : M.Quiet (ct_mul_sub_l_l_l_b a b c d) := by
  unfold ct_mul_sub_l_l_l_b
  refine M.Quiet.bind (quiet_ct_mul_l_l _ _) fun _ => ?_
  quiet
theorem quiet_ct_inv_mod_l (a : ℕ) : M.Quiet (ct_inv_mod_l a) := by unfold ct_inv_mod_l; quiet
theorem quiet_ct_find_last_set_bit_l (a : ℕ) : M.Quiet (ct_find_last_set_bit_l a) := by
  unfold ct_find_last_set_bit_l; quiet
theorem quiet_ct_find_last_set_byte_l (a : ℕ) : M.Quiet (ct_find_last_set_byte_l a) := by
  unfold ct_find_last_set_byte_l
  exact M.Quiet.bind (quiet_ct_find_last_set_bit_l _) fun _ => M.Quiet.pure
theorem quiet_ct_find_first_set_bit_l_loop : ∀ f a b c d : ℕ, M.Quiet (ct_find_first_set_bit_l_loop f a b c d)
  | 0, _, _, _, _ => M.Quiet.pure
  | f + 1, a, b, c, d => by
    rw [ct_find_first_set_bit_l_loop]
    refine M.Quiet.ite (M.Quiet.bind M.Quiet.sub fun _ => quiet_ct_find_first_set_bit_l_loop _ _ _ _ _) M.Quiet.pure
theorem quiet_ct_find_first_set_bit_l (a : ℕ) : M.Quiet (ct_find_first_set_bit_l a) := by
  unfold ct_find_first_set_bit_l
  refine M.Quiet.bind (quiet_ct_find_first_set_bit_l_loop _ _ _ _ _) fun _ => ?_
  quiet
theorem quiet_ct_arithmetic_rshift_l (a b : ℕ) : M.Quiet (ct_arithmetic_rshift_l a b) := by
  unfold ct_arithmetic_rshift_l; quiet
theorem quiet_ct_compute_m (a b : ℕ) : M.Quiet (ct_compute_m a b) := by unfold ct_compute_m; quiet
theorem quiet_do_div (d : CtLDivisor) (u : DoubleLimb) : M.Quiet (d.do_div u) := by
  unfold CtLDivisor.do_div
  repeat' (first
    | exact M.Quiet.pure | exact M.Quiet.assert | exact M.Quiet.check | exact M.Quiet.panic | exact M.Quiet.sub | exact M.Quiet.addL
    | exact quiet_from' _ | exact quiet_ct_mul_l_l _ _ | exact quiet_ct_add_l_l_c _ _ _
    | refine M.Quiet.bind ?_ (fun _ => ?_))

variable {f : Fmt} [Obs]

theorem see_load {len i j : ℕ} (hij : Obs.pos = true → i = j) : Obs.see (.load len i) = Obs.see (.load len j) := by
  unfold Obs.see
  cases h : Obs.pos
  · rfl
  · simp [hij h]

theorem Buf.load_l_ct {a b : Buf f} {i j : ℕ} (h : a.len = b.len) (hij : Obs.pos = true → i = j) :
    M.Ct (a.load_l i) (b.load_l j) :=
  fun _ _ _ _ => ⟨by rw [M.seen, M.seen, Buf.load_l_tr, Buf.load_l_tr, h, List.map_cons, List.map_cons,
    see_load hij], trivial⟩
theorem Buf.load_l_full_ct {a b : Buf f} {i j : ℕ} (h : a.len = b.len) (hij : Obs.pos = true → i = j) :
    M.Ct (a.load_l_full i) (b.load_l_full j) :=
  fun _ _ _ _ => ⟨by rw [M.seen, M.seen, Buf.load_l_full_tr, Buf.load_l_full_tr, h, List.map_cons, List.map_cons,
    see_load hij], trivial⟩
theorem Buf.store_l_ct {a b : Buf f} {i j v w : ℕ} (h : a.len = b.len) (hij : i = j) :
    M.Ct (a.store_l i v) (b.store_l j w) :=
  fun x y hx hy => ⟨by rw [M.seen, M.seen, Buf.store_l_tr, Buf.store_l_tr, h, hij], by
    rw [low_buf, Buf.store_l_len a i v x hx, Buf.store_l_len b j w y hy, h]⟩
theorem Buf.store_l_full_ct {a b : Buf f} {i j v w : ℕ} (h : a.len = b.len) (hij : i = j) :
    M.Ct (a.store_l_full i v) (b.store_l_full j w) :=
  fun x y hx hy => ⟨by rw [M.seen, M.seen, Buf.store_l_full_tr, Buf.store_l_full_tr, h, hij], by
    rw [low_buf, Buf.store_l_full_len a i v x hx, Buf.store_l_full_len b j w y hy, h]⟩

theorem is_empty_congr {g : Fmt} {a : Buf f} {b : Buf g} (h : a.len = b.len) :
    a.is_empty = true ↔ b.is_empty = true := by rw [Buf.is_empty_iff, Buf.is_empty_iff, h]

end

end Cmpa
