import Verif.Model.HexWriter
import Verif.Props.Hex

/-!
# Formatting to writers which may fail (C55)
-/

namespace Cmpa
namespace Props
open M
variable [LimbCfg] {φ : Fmt} {σ : Type}

/-! ### Specification -/

/-- Writing one piece after the other, until a write fails: the state of the sink then, and whether all was
written. -/
def feed (w : Sink σ) : List (List (Fin 256)) → σ → Except σ σ
  | [], s => .ok s
  | c :: cs, s => if (w.write s c).2 then feed w cs (w.write s c).1 else .error (w.write s c).1

/-- A sink which is a buffer for up to `cap` characters; what does not fit is not written at all. -/
def boundedSink (cap : ℕ) : Sink (List (Fin 256)) where
  write s c := if s.length + c.length ≤ cap then (s ++ c, true) else (s, false)

/-- A sink which never fails. -/
def freeSink : Sink (List (Fin 256)) where
  write s c := (s ++ c, true)

/-- The text of a number: see `C41_format`. -/
def hexText (b : Buf φ) (alternate : Bool) : List (Fin 256) :=
  (if alternate then [ascii '0', ascii 'x'] else []) ++
    (if b.len = 0 then ['(', 'e', 'm', 'p', 't', 'y', ')'].map ascii
      else hexDigits (2 * (b.len - (b.nlimbs - 1) * LB)) (b.toNat / B ^ (b.nlimbs - 1)) ++
        hexGroups b.toNat (b.nlimbs - 1))

/-! ### Proofs -/

omit [LimbCfg] in
theorem feed_append (w : Sink σ) : ∀ (cs ds : List (List (Fin 256))) (s : σ),
    feed w (cs ++ ds) s = match feed w cs s with
      | .ok s => feed w ds s
      | .error s => .error s
  | [], _, _ => rfl
  | c :: cs, ds, s => by
    rw [List.cons_append, feed, feed]
    by_cases h : (w.write s c).2 = true
    · rw [if_pos h, if_pos h, feed_append w cs ds]
    · rw [if_neg h, if_neg h]

/-- A program writing to a sink writes, piece by piece, what another one appends. -/
def Writes (put : ∀ σ : Type, Sink σ → σ → M (Except σ σ)) (app : List (Fin 256) → M (List (Fin 256))) : Prop :=
  ∃ cs : List (List (Fin 256)), (∀ c ∈ cs, c ≠ []) ∧ (∀ f, (app f).val = some (f ++ cs.flatten)) ∧
    ∀ (σ : Type) (w : Sink σ) (s : σ), (put σ w s).val = some (feed w cs s)

section
variable {put put' : ∀ σ : Type, Sink σ → σ → M (Except σ σ)} {app app' : List (Fin 256) → M (List (Fin 256))}

omit [LimbCfg] in
theorem Writes.nil : Writes (fun _ _ s => pure (.ok s)) (fun f => pure f) :=
  ⟨[], by simp, by simp, fun _ w s => rfl⟩

omit [LimbCfg] in
theorem Writes.str {c : List (Fin 256)} (hc : c ≠ []) :
    Writes (fun _ w s => w.write_str s c) (fun f => pure (f ++ c)) :=
  ⟨[c], by simpa using hc, by simp, fun _ w s => by simp [Sink.write_str, feed]⟩

omit [LimbCfg] in
theorem Writes.seq (h : Writes put app) (h' : Writes put' app') :
    Writes (fun σ w s => tryE (put σ w s) fun s => put' σ w s) (fun f => app f >>= app') := by
  obtain ⟨cs, h1, h2, h3⟩ := h
  obtain ⟨ds, g1, g2, g3⟩ := h'
  refine ⟨cs ++ ds, ?_, fun f => ?_, fun σ w s => ?_⟩
  · intro c hc
    rcases List.mem_append.1 hc with hc | hc
    · exact h1 c hc
    · exact g1 c hc
  · rw [bind_val, h2]
    exact (g2 _).trans (by rw [List.flatten_append, List.append_assoc])
  · unfold tryE
    rw [bind_val, h3, feed_append]
    cases feed w cs s with
    | ok s => exact g3 σ w s
    | error s => rfl

omit [LimbCfg] in
theorem Writes.pre {α : Type} {m : M α} {a : α} {put : α → ∀ σ : Type, Sink σ → σ → M (Except σ σ)}
    {app : α → List (Fin 256) → M (List (Fin 256))} (hm : m.val = some a) (h : Writes (put a) (app a)) :
    Writes (fun σ w s => m >>= fun a => put a σ w s) (fun f => m >>= fun a => app a f) := by
  obtain ⟨cs, h1, h2, h3⟩ := h
  exact ⟨cs, h1, fun f => by rw [bind_val, hm]; exact h2 f, fun σ w s => by rw [bind_val, hm]; exact h3 σ w s⟩

omit [LimbCfg] in
theorem Writes.loop {put : ℕ → ∀ σ : Type, Sink σ → σ → M (Except σ σ)}
    {app : ℕ → List (Fin 256) → M (List (Fin 256))} : ∀ {n lo : ℕ}, (∀ i, lo ≤ i → i < lo + n → Writes (put i) (app i)) →
    Writes (fun σ w s => tryLoop n lo s fun i s => put i σ w s) (fun f => M.loopUp n lo f app)
  | 0, _, _ => Writes.nil
  | n + 1, lo, h =>
    Writes.pre (m := M.emit .iter) (a := ()) (put := fun _ σ w s => tryE (put lo σ w s) fun s =>
      tryLoop n (lo + 1) s fun i s => put i σ w s) (app := fun _ f => app lo f >>= fun f => M.loopUp n (lo + 1) f app) rfl
      (Writes.seq (h lo le_rfl (by omega)) (Writes.loop fun i h1 h2 => h i (by omega) (by omega)))

end

omit [LimbCfg] in
theorem writes_byte {v : ℕ} (hv : v < 256) : Writes (fun _ w s => fmt_byte_to w s v) (fun f => fmt_byte f v) := by
  unfold fmt_byte_to fmt_byte
  rw [shr_4, and_15]
  have h1 := nibble_to_hexchar_val ⟨v / 16, by omega⟩
  have h2 := nibble_to_hexchar_val ⟨v % 16, by omega⟩
  dsimp only at h1 h2
  refine ⟨[[digitChar (v / 16)], [digitChar (v % 16)]], by simp, fun f => ?_, fun σ w s => ?_⟩
  · rw [bind_val, h1]
    show (nibble_to_hexchar (v % 16) >>= _).val = _
    rw [bind_val, h2]
    simp
  · rw [bind_val, h1]
    simp only [tryE, Sink.write_str, feed]
    by_cases hw : (w.write s [digitChar (v / 16)]).2 = true
    · simp [hw, h2, bind_val]
      split <;> simp_all
    · simp [hw]

theorem writes_l (v : ℕ) {len : ℕ} (hl : len ≤ LB) : Writes (fun _ w s => fmt_l_to w s v len) (fun f => fmt_l f v len) := by
  unfold fmt_l_to fmt_l M.forRange
  refine Writes.loop (put := fun i σ w s => _) (app := fun i f => _) fun i _ hi => ?_
  rw [Nat.zero_add] at hi
  have hW : W = 8 * LB := rfl
  refine Writes.pre (a := len - i) (by rw [M.sub_eq hi.le]; rfl) ?_
  refine Writes.pre (a := len - i - 1) (by rw [M.sub_eq (by omega)]; rfl) ?_
  refine Writes.pre (a := shr v (8 * (len - i - 1) % W)) (by unfold shrC; rw [M.assert_eq (by omega)]; rfl) ?_
  exact writes_byte (Nat.mod_lt _ (by norm_num))

theorem writes_fmt (b : Buf φ) (alternate : Bool) : ∃ cs : List (List (Fin 256)), (∀ c ∈ cs, c ≠ []) ∧
    (b.fmt_lower_hex alternate).val = some cs.flatten ∧
    ∀ (σ : Type) (w : Sink σ) (s : σ), (b.fmt_lower_hex_to w s alternate).val = some (feed w cs s) := by
  have h1 : Writes (fun σ w s => if alternate then w.write_str s [48, 120] else pure (.ok s))
      (fun f => pure (f ++ if alternate then [48, 120] else [])) := by
    cases alternate
    · simpa using Writes.nil
    · exact Writes.str (by simp)
  have h2 : Writes (fun σ w s => M.cond (b.is_empty = true)
      (tryE (w.write_str s [40, 101, 109, 112, 116, 121, 41]) fun s => pure (.ok s)) do
        let n ← M.sub b.nlimbs 1
        let v ← b.load_l n
        let l ← M.sub b.len 1
        tryE (fmt_l_to w s v (l % LB + 1)) fun s =>
          tryLoop (b.nlimbs - 1) 0 s fun i s =>
            tryE (w.write_str s [95]) fun s => do
              let j ← M.sub b.nlimbs 2
              let j ← M.sub j i
              let v ← b.load_l j
              fmt_l_to w s v LB)
      (fun f => M.cond (b.is_empty = true) (pure (f ++ [40, 101, 109, 112, 116, 121, 41])) do
        let n ← M.sub b.nlimbs 1
        let v ← b.load_l n
        let l ← M.sub b.len 1
        let f ← fmt_l f v (l % LB + 1)
        M.forRange 0 (b.nlimbs - 1) f fun i f => do
          let f := f ++ [95]
          let j ← M.sub b.nlimbs 2
          let j ← M.sub j i
          let v ← b.load_l j
          fmt_l f v LB) := by
    by_cases hc : b.is_empty = true
    · simp only [if_pos hc, M.cond]
      refine Writes.pre (m := M.branch _) (a := true) (by simp [M.branch, hc]) ?_
      simpa using Writes.seq (Writes.str (c := [40, 101, 109, 112, 116, 121, 41]) (by simp)) Writes.nil
    · have hl : 0 < b.len := by rw [Buf.is_empty_iff] at hc; omega
      have hn : 0 < b.nlimbs := nlimbs_pos_iff.2 hl
      refine Writes.pre (m := M.branch _) (a := false) (by simp [M.branch, hc]) ?_
      simp only [Bool.false_eq_true, if_false]
      refine Writes.pre (a := b.nlimbs - 1) (by rw [M.sub_eq (by omega)]; rfl) ?_
      refine Writes.pre (a := b.toNat / B ^ (b.nlimbs - 1) % B) (by rw [Buf.load_l_eq b (by omega)]) ?_
      refine Writes.pre (a := b.len - 1) (by rw [M.sub_eq (by omega)]; rfl) ?_
      refine Writes.seq (writes_l _ (Nat.mod_lt _ LB_pos)) ?_
      refine Writes.loop (put := fun i σ w s => _) (app := fun i f => _) fun i _ hi => ?_
      have := Writes.seq (Writes.str (c := [95]) (by simp))
        (Writes.pre (m := M.sub b.nlimbs 2) (a := b.nlimbs - 2) (put := fun j _ w s => do
            let j ← M.sub j i
            let v ← b.load_l j
            fmt_l_to w s v LB) (app := fun j f => do
            let j ← M.sub j i
            let v ← b.load_l j
            fmt_l f v LB) (by rw [M.sub_eq (by omega)]; rfl)
          (Writes.pre (a := b.nlimbs - 2 - i) (by rw [M.sub_eq (by omega)]; rfl)
            (Writes.pre (a := b.toNat / B ^ (b.nlimbs - 2 - i) % B) (by rw [Buf.load_l_eq b (by omega)])
              (writes_l _ le_rfl))))
      simpa using this
  obtain ⟨cs, g1, g2, g3⟩ := Writes.seq h1 h2
  refine ⟨cs, g1, ?_, fun σ w s => g3 σ w s⟩
  have := g2 []
  rw [List.nil_append] at this
  rw [← this]
  simp [Buf.fmt_lower_hex]

omit [LimbCfg] in
theorem feed_free : ∀ (cs : List (List (Fin 256))) (s : List (Fin 256)), feed freeSink cs s = .ok (s ++ cs.flatten)
  | [], s => by simp [feed]
  | c :: cs, s => by
    show feed freeSink cs (s ++ c) = _
    rw [feed_free cs]; simp

omit [LimbCfg] in
theorem feed_bounded (cap : ℕ) : ∀ (cs : List (List (Fin 256))) (s : List (Fin 256)), (∀ c ∈ cs, c ≠ []) →
    s.length ≤ cap → (s.length + cs.flatten.length ≤ cap → feed (boundedSink cap) cs s = .ok (s ++ cs.flatten)) ∧
    (cap < s.length + cs.flatten.length → ∃ t, feed (boundedSink cap) cs s = .error t ∧ t.length ≤ cap ∧
      s <+: t ∧ t <+: s ++ cs.flatten)
  | [], s, _, hs => ⟨fun _ => by simp [feed], fun h => absurd h (by simpa using hs)⟩
  | c :: cs, s, hc, hs => by
    rw [List.flatten_cons, List.length_append]
    by_cases hl : s.length + c.length ≤ cap
    · have hf : feed (boundedSink cap) (c :: cs) s = feed (boundedSink cap) cs (s ++ c) := by
        simp [feed, boundedSink, hl]
      have ih := feed_bounded cap cs (s ++ c) (fun d hd => hc d (List.mem_cons_of_mem _ hd)) (by simpa using hl)
      rw [List.length_append, Nat.add_assoc, List.append_assoc] at ih
      rw [hf]
      refine ⟨ih.1, fun h => ?_⟩
      obtain ⟨t, h1, h2, h3, h4⟩ := ih.2 h
      exact ⟨t, h1, h2, (List.prefix_append _ _).trans h3, h4⟩
    · refine ⟨fun h => absurd h (by omega), fun _ => ⟨s, ?_, hs, List.prefix_rfl, List.prefix_append _ _⟩⟩
      simp [feed, boundedSink, hl]

omit [LimbCfg] in
theorem push_eq (cap : ℕ) : ∀ l r : List (Fin 256), r.length + 2 * l.length ≤ cap →
    (bytes_to_hexstr_push cap l r).val = (bytes_to_hexstr_loop l r).val
  | [], _, _ => rfl
  | b :: l, r, h => by
    rw [List.length_cons] at h
    rw [bytes_to_hexstr_push, bytes_to_hexstr_loop]
    show (nibble_to_hexchar (b.val >>> 4) >>= _).val = (nibble_to_hexchar (b.val >>> 4) >>= _).val
    rw [bind_val, bind_val]
    cases (nibble_to_hexchar (b.val >>> 4)).val with
    | none => rfl
    | some c =>
      show (pushWithin cap r c >>= _).val = (nibble_to_hexchar (b.val &&& 0xf) >>= _).val
      have h1 : (pushWithin cap r c).val = some (r ++ [c]) := by
        unfold pushWithin; rw [M.check_eq (by omega)]; rfl
      rw [bind_val, h1]
      show (nibble_to_hexchar (b.val &&& 0xf) >>= _).val = (nibble_to_hexchar (b.val &&& 0xf) >>= _).val
      rw [bind_val, bind_val]
      cases (nibble_to_hexchar (b.val &&& 0xf)).val with
      | none => rfl
      | some d =>
        show (pushWithin cap (r ++ [c]) d >>= _).val = _
        have h2 : (pushWithin cap (r ++ [c]) d).val = some (r ++ [c] ++ [d]) := by
          unfold pushWithin; rw [M.check_eq (by rw [List.length_append, List.length_singleton]; omega)]; rfl
        rw [bind_val, h2]
        exact push_eq cap l _ (by simp; omega)

/-! ## C55 -/

/-- C55: whatever the writer does, formatting a number passes it, in order, the pieces of the number's text, up to and including the
first one the writer reports an error for; this is when an error is returned.  Nothing panics, and the pieces do not
depend on the writer. -/
theorem C55_writer (b : Buf φ) (alternate : Bool) : ∃ pieces : List (List (Fin 256)),
    (∀ c ∈ pieces, c ≠ []) ∧ pieces.flatten = hexText b alternate ∧
    ∀ (σ : Type) (w : Sink σ) (s : σ), Sat (b.fmt_lower_hex_to w s alternate) (fun r => r = feed w pieces s) := by
  obtain ⟨cs, h1, h2, h3⟩ := writes_fmt b alternate
  obtain ⟨t, ht, h4⟩ := C41_format b alternate
  rw [h2, Option.some_inj] at ht
  exact ⟨cs, h1, ht.trans h4, fun σ w s => ⟨_, h3 σ w s, rfl⟩⟩

/-- C55: a writer which never fails gets the whole text, after what it had before. -/
theorem C55_complete (b : Buf φ) (alternate : Bool) (s : List (Fin 256)) :
    Sat (b.fmt_lower_hex_to freeSink s alternate) (fun r => r = .ok (s ++ hexText b alternate)) := by
  obtain ⟨cs, -, h2, h3⟩ := C55_writer b alternate
  exact (h3 _ freeSink s).mono fun r hr => by rw [hr, feed_free, h2]

/-- C55: with a buffer of bounded size, formatting is successful if and only if the text fits, otherwise
what has been written is an initial part of the text. -/
theorem C55_bounded (b : Buf φ) (alternate : Bool) (cap : ℕ) :
    Sat (b.fmt_lower_hex_to (boundedSink cap) [] alternate) (fun r =>
      if (hexText b alternate).length ≤ cap then r = .ok (hexText b alternate)
      else ∃ t, r = .error t ∧ t.length ≤ cap ∧ t <+: hexText b alternate) := by
  obtain ⟨cs, h1, h2, h3⟩ := C55_writer b alternate
  refine (h3 _ (boundedSink cap) []).mono fun r hr => ?_
  have h4 := feed_bounded cap cs [] h1 (Nat.zero_le _)
  simp only [List.length_nil, Nat.zero_add, List.nil_append, h2] at h4
  split
  · next h => rw [hr, h4.1 h]
  · next h =>
    obtain ⟨t, g1, g2, -, g3⟩ := h4.2 (by omega)
    exact ⟨t, hr.trans g1, g2, g3⟩

theorem hexGroups_length (v : ℕ) : ∀ k, (hexGroups v k).length = k * (2 * LB + 1)
  | 0 => by simp [hexGroups]
  | k + 1 => by
    rw [hexGroups, List.length_append, List.length_cons, hexDigits_length, hexGroups_length v k]; ring

/-- C55: the length of the text: two characters per byte, and one between limbs. -/
theorem C55_length (b : Buf φ) (alternate : Bool) : (hexText b alternate).length =
    (if alternate then 2 else 0) + if b.len = 0 then 7 else 2 * b.len + (b.nlimbs - 1) := by
  unfold hexText
  rw [List.length_append]
  congr 1
  · cases alternate <;> rfl
  · split
    · rfl
    · next h =>
      have hn : 0 < b.nlimbs := nlimbs_pos_iff.2 (by omega)
      have h1 : (b.nlimbs - 1) * LB < b.len := lt_nlimbs_iff.1 (by rw [← Buf.nlimbs_eq]; omega)
      rw [List.length_append, hexDigits_length, hexGroups_length, Nat.mul_add, Nat.mul_one,
        show (b.nlimbs - 1) * (2 * LB) = 2 * ((b.nlimbs - 1) * LB) by ring]
      omega

omit [LimbCfg] in
/-- C55: formatting bytes asks once for memory, for exactly the length of the result, which is therefore never
enlarged.  An error is returned if and only if there is no memory. -/
theorem C55_alloc (reserve : ℕ → Bool) (bytes : List (Fin 256)) :
    Sat (bytes_to_hexstr_alloc reserve bytes) (fun r =>
      if reserve (2 * bytes.length) then ∃ s, r = .ok s ∧ s.length = 2 * bytes.length ∧
        (bytes_to_hexstr bytes).val = some s
      else r = .error ()) := by
  letI := cfg64
  unfold bytes_to_hexstr_alloc
  cases hr : reserve (2 * bytes.length)
  · exact Sat.pure (by simp)
  · obtain ⟨s, h1, h2, h3, -, -⟩ := C20_format bytes
    refine Sat.bind (P := fun t => t = s) ⟨s, ?_, rfl⟩ ?_
    · rw [push_eq _ _ _ (by simp)]; exact h1
    · rintro _ rfl
      exact Sat.pure (by simpa using ⟨h3, h1⟩)

/-! ### Examples -/

-- "0x000012_3456789a" takes 17 characters
example : letI := cfg32; (hexText (Buf.ofNat .be 7 0x123456789a) true).length = 17 := by decide +kernel
example : letI := cfg32;
    ((Buf.ofNat .be 7 0x123456789a).fmt_lower_hex_to (boundedSink 17) [] true).val.map (Except.toOption) =
      some (some (['0', 'x', '0', '0', '0', '0', '1', '2', '_', '3', '4', '5', '6', '7', '8', '9', 'a'].map ascii)) := by
  decide +kernel
example : letI := cfg32;
    ((Buf.ofNat .be 7 0x123456789a).fmt_lower_hex_to (boundedSink 10) [] true).val.map
      (fun r => match r with | .ok _ => [] | .error t => t) =
      some (['0', 'x', '0', '0', '0', '0', '1', '2', '_', '3'].map ascii) := by
  decide +kernel
example : (bytes_to_hexstr_alloc (fun n => decide (n ≤ 4)) [18, 0xab]).val.map Except.toOption =
    some (some (['1', '2', 'a', 'b'].map ascii)) ∧
    (bytes_to_hexstr_alloc (fun n => decide (n ≤ 3)) [18, 0xab]).val.map Except.toOption = some none := by
  decide +kernel

end Props
end Cmpa
