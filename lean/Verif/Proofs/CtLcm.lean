import Verif.Proofs.CtInvMod
import Verif.Proofs.Lcm

/-!
# Constant time: the least common multiple
-/

set_option linter.unusedSectionVars false

namespace Cmpa
open M
variable [LimbCfg] [Obs] {φ ψ χ : Fmt}

theorem lcm_copy_step_ct {p p' : Buf χ} {a b c d i a' b' c' d' i' : ℕ} {s s' : Buf χ × ℕ} (hp : p.len = p'.len)
    (ha : a = a') (hi : i = i') (hs : s.1.len = s'.1.len) :
    Ct (lcm_copy_step p a b c d i s) (lcm_copy_step p' a' b' c' d' i' s') := by
  subst ha hi
  obtain ⟨r, c⟩ := s
  obtain ⟨r', c'⟩ := s'
  dsimp only at hs
  unfold lcm_copy_step
  ct

theorem lcm_copy_high_ct {p p' r r' : Buf χ} {g g' : ℕ} (hp : p.len = p'.len) (hr : r.len = r'.len) (hg : g = g') :
    Ct (lcm_copy_high p r g) (lcm_copy_high p' r' g') := by
  subst hg
  unfold lcm_copy_high
  dsimp only
  rw [← hp]
  refine SameTr.bind SameTr.assert fun _ _ _ => ?_
  refine SameTr.bind (SameTr.subEq rfl rfl) ?_
  rintro m _ rfl
  ct

theorem scaled_byteLen {G w g : ℕ} (hG : 0 < G) (hGg : G < 256 ^ g) (hw : w = Nat.size G) :
    G * 2 ^ (8 * g - w) < 256 ^ g ∧ byteLen (G * 2 ^ (8 * g - w)) = g := by
  have hw8 : w ≤ 8 * g := by
    rw [hw, Nat.size_le, ← pow_256_eq]; exact hGg
  have hw0 : 0 < w := by rw [hw]; exact Nat.size_pos.2 hG
  have e : Nat.size (G * 2 ^ (8 * g - w)) = 8 * g := by
    rw [← Nat.shiftLeft_eq, Nat.size_shiftLeft hG.ne', ← hw]; omega
  refine ⟨?_, ?_⟩
  · rw [pow_256_eq, ← Nat.size_le, e]
  · unfold byteLen; rw [e]; omega

/-- The divisor is scaled, so that its length is the same for all. The distance is seen if positions are. -/
theorem lcm_divide_ct {r r' : Buf φ} {G G' : Buf ψ} {o o' p p' : Buf χ} {g g' : ℕ} (hr : r.len = r'.len)
    (hG : G.len = G'.len) (ho : o.len = o'.len) (hp : p.len = p'.len) (hg : g = g') (hgl : g ≤ G.len)
    (h0 : 0 < G.toNat) (h0' : 0 < G'.toNat) (h1 : G.toNat < 256 ^ g) (h1' : G'.toNat < 256 ^ g)
    (hk : Obs.pos = true → Nat.size G.toNat = Nat.size G'.toNat) :
    Ct (lcm_divide r G o p g) (lcm_divide r' G' o' p' g') := by
  subst hg
  unfold lcm_divide
  refine SameTr.bind SameTr.assertM fun _ _ _ => ?_
  refine SameTr.bind (SameTr.post (ct_find_last_set_bit_mp_ct hG) (ct_find_last_set_bit_mp_sat G).post
    (ct_find_last_set_bit_mp_sat G').post) ?_
  rintro ⟨_, w⟩ ⟨_, w'⟩ ⟨-, hw, hw'⟩
  obtain ⟨-, hw⟩ := Prod.mk.inj hw
  obtain ⟨-, hw'⟩ := Prod.mk.inj hw'
  dsimp only
  obtain ⟨e1, e2⟩ := scaled_byteLen h0 h1 hw
  obtain ⟨e1', e2'⟩ := scaled_byteLen h0' h1' hw'
  have hw8 : w ≤ 8 * g := by rw [hw, Nat.size_le, ← pow_256_eq]; exact h1
  have hw8' : w' ≤ 8 * g := by rw [hw', Nat.size_le, ← pow_256_eq]; exact h1'
  have hww : Obs.pos = true → w = w' := fun h => by rw [hw, hw', hk h]
  rw [M.sub_eq hw8, M.sub_eq hw8', M.pure_bind, M.pure_bind]
  have hs : Obs.pos = true → 8 * g - w = 8 * g - w' := fun h => by rw [hww h]
  generalize 8 * g - w = s at *
  generalize 8 * g - w' = s' at *
  refine SameTr.bind (SameTr.post (ct_lshift_mp_ct hG hs) (ct_lshift_mp_sat G s).post
    (ct_lshift_mp_sat G' s').post) ?_
  rintro ⟨D, _⟩ ⟨D', _⟩ ⟨⟨hD, -⟩, ⟨-, hv, -⟩, -, hv', -⟩
  dsimp only [low_buf] at hD hv hv' ⊢
  have hgl2 : 256 ^ g ≤ 256 ^ G.len := Nat.pow_le_pow_right (by norm_num) hgl
  rw [← pow_256_eq, Nat.mod_eq_of_lt (lt_of_lt_of_le e1 hgl2)] at hv
  rw [← pow_256_eq, Nat.mod_eq_of_lt (lt_of_lt_of_le e1' (hG ▸ hgl2))] at hv'
  have hb : byteLen D.toNat = byteLen D'.toNat := by rw [hv, hv', e2, e2']
  have hs2 : Obs.pos = true → 8 * g - s = 8 * g - s' := fun h => by rw [hs h]
  refine SameTr.bind (lcm_copy_high_ct hp ho rfl) fun q q' hq => ?_
  refine SameTr.bind (R := fun x y => Obs.pos = true → x = y) ?_ fun d d' hd => ?_
  · intro x y hx hy
    refine ⟨?_, fun h => ?_⟩
    · exact (SameTr.subAny _ _ hx hy).1
    · rw [hs h] at hx
      rw [hx] at hy
      exact Option.some.inj hy
  ct

theorem M.Post.assert {c : Prop} [Decidable c] : Post (M.assert c) (fun _ => c) := by
  intro a ha
  unfold M.assert at ha
  split at ha
  · assumption
  · cases ha

theorem lt_pow_min {x k l : ℕ} (h : x < 256 ^ k) (h' : x < 256 ^ l) : x < 256 ^ min k l := by
  rcases Nat.le_total k l with h2 | h2
  · rwa [min_eq_left h2]
  · rwa [min_eq_right h2]

theorem compat2'_ct {α ε : Type} [Pub α] {c c' : Bool} {x y : ε} {m m' : M Bool} {k k' : M (Except ε α)}
    (hm : Ct m m') (hk : CtOk k k') :
    CtOk (M.cond (c = true) m (pure false) >>= fun c => M.cond (c = false) (pure (.error x)) k)
      (M.cond (c' = true) m' (pure false) >>= fun c => M.cond (c = false) (pure (.error y)) k') := by
  cases c
  · intro a b ha
    rw [bind_val, cond_val] at ha
    simp [cond_val] at ha
  · cases c'
    · intro a b _ ha
      rw [bind_val, cond_val] at ha
      simp [cond_val] at ha
    · exact CtOk.bind (SameTr.cond Iff.rfl (fun _ => hm) fun _ => SameTr.pure trivial) fun _ _ _ =>
        CtOk.condErr1 hk

/-- The greatest common divisor is what the operands are multiplied and divided by. -/
theorem ct_lcm_mp_mp_ct {r r' : Buf φ} {a a' : Buf ψ} {b b' s s' : Buf χ} {k l k' l' : ℕ} (hr : r.len = r'.len)
    (ha : a.len = a'.len) (hb : b.len = b'.len) (hs : s.len = s'.len) (hk : k = k') (hl : l = l')
    (h0 : a.toNat < 256 ^ k) (h0' : a'.toNat < 256 ^ k) (h1 : b.toNat < 256 ^ l) (h1' : b'.toNat < 256 ^ l)
    (hp : Obs.pos = true → SamePow2 (Nat.gcd a.toNat b.toNat) (Nat.gcd a'.toNat b'.toNat) ∧
      Nat.size (gcdVal a.toNat b.toNat) = Nat.size (gcdVal a'.toNat b'.toNat)) :
    CtOk (ct_lcm_mp_mp r a k b l s) (ct_lcm_mp_mp r' a' k' b' l' s') := by
  subst hk hl
  unfold ct_lcm_mp_mp
  dsimp only
  rw [← ha, ← hb, ← hr]
  refine CtOk.cond Iff.rfl (fun _ => ?_) fun hne => ?_
  · ct
  obtain ⟨hne0, hne1⟩ := not_or.1 hne
  have g0 : a.toNat < 256 ^ min k a.len := lt_pow_min h0 a.toNat_lt
  have g0' : a'.toNat < 256 ^ min k a.len := lt_pow_min h0' (ha ▸ a'.toNat_lt)
  have g1 : b.toNat < 256 ^ min l b.len := lt_pow_min h1 b.toNat_lt
  have g1' : b'.toNat < 256 ^ min l b.len := lt_pow_min h1' (hb ▸ b'.toNat_lt)
  generalize hn0 : min k a.len = n0 at *
  generalize hn1 : min l b.len = n1 at *
  refine CtOk.bind (Buf.len_is_compatible_with_ct ha rfl) fun c c' _ => ?_
  refine compat2'_ct (Buf.len_is_compatible_with_ct hb rfl) ?_
  refine CtOk.bind (SameTr.post SameTr.assert (Post.assert (c := a.len = b.len)) Post.trivial) ?_
  rintro _ _ ⟨-, hll, -⟩
  have hll' : a'.len = b'.len := by omega
  refine CtOk.cond Iff.rfl (fun _ => CtOk.err) fun _ => ?_
  refine CtOk.cond (by unfold Buf.backing_len; rw [hs]) (fun _ => CtOk.err) fun _ => ?_
  refine CtOk.bind (Buf.take_ct hs rfl) ?_
  rintro ⟨_, p⟩ ⟨_, p'⟩ ⟨-, hp0⟩
  refine CtOk.bind (Buf.copy_from_ct hp0 ha) fun p p' hp0 => ?_
  refine CtOk.bind (Buf.shrink_to_ct hb rfl) ?_
  rintro ⟨q, _⟩ ⟨q', _⟩ ⟨hq, -⟩
  refine CtOk.bind (ct_mul_trunc_mp_mp_ct hp0 rfl hq) fun p p' hp0 => ?_
  have hcompat : ∀ {a : Buf ψ} {b : Buf χ}, a.len = b.len → a.len ≠ 0 → gcdErr a b = none := by
    intro a b hl h
    unfold gcdErr
    rw [if_neg h, if_neg]
    rw [not_or, not_not, not_not]
    exact ⟨Or.inl hl.le, Or.inl hl.ge⟩
  refine CtOk.bind (SameTr.post (unwrapE_ct (ct_gcd_mp_mp_ct ha hb (fun h => (hp h).1)))
    (unwrapE_sat (ct_gcd_mp_mp_sat a b) (hcompat hll (by omega))).post
    (unwrapE_sat (ct_gcd_mp_mp_sat a' b') (hcompat hll' (by omega))).post) ?_
  rintro ⟨G, o⟩ ⟨G', o'⟩ ⟨⟨hG, ho⟩, ⟨hGl, -, hv, -⟩, -, -, hv', -⟩
  dsimp only [low_buf] at hG ho hGl hv hv' ⊢
  refine CtOk.bind (lcm_divide_ct hr hG ho hp0 rfl (by omega) (hv ▸ gcdVal_pos _ _) (hv' ▸ gcdVal_pos _ _)
    (hv ▸ gcdVal_lt g0 g1 (by omega)) (hv' ▸ gcdVal_lt g0' g1' (by omega))
    (fun h => by rw [hv, hv', (hp h).2])) fun x y hxy => CtOk.pure hxy

end Cmpa
