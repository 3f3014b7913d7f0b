import Verif.Proofs.NmeaDecode

set_option autoImplicit false

/-!
# NMEA decoder: when a call stays inside its buffers, and when it does not
-/

namespace Verif.Nmea
open NmeaSpec MsgFrame

/-! ## Safety of one call -/

theorem nextTok_empty (d : Nat → UInt8) (pos : Nat) (h : pos < bufLen) :
    nextTok d 0 pos [] = .ok ⟨[], 0, pos + 1⟩ := by
  unfold nextTok; rw [rd_ok h]; rfl

theorem nextTok_safe (d : Nat → UInt8) (A E : Nat) (hE : E < bufLen)
    (hw : ∀ i, A ≤ i → i + 128 ≤ E → ∃ j, i ≤ j ∧ j < i + 128 ∧ d j = 44)
    (left pos : Nat) (acc : List UInt8) (h1 : pos + left = E) (h2 : A + acc.length ≤ pos)
    (h3 : acc.length < 128) (h4 : ∀ j, pos ≤ j + acc.length → j < pos → d j ≠ 44) :
    ∃ t, nextTok d left pos acc = .ok t ∧ A ≤ t.pos ∧
      ((0 < t.left ∧ t.pos + t.left = E) ∨ (t.left = 0 ∧ t.pos ≤ E + 1)) := by
  induction left generalizing pos acc with
  | zero =>
    unfold nextTok
    rw [rd_ok (by omega)]
    dsimp only
    rw [if_pos (show acc.length < tokenLen from h3)]
    exact ⟨_, rfl, by dsimp only; omega, Or.inr ⟨rfl, by dsimp only; omega⟩⟩
  | succ left ih =>
    unfold nextTok
    rw [rd_ok (by omega)]
    dsimp only
    by_cases hc : d pos = 0x2C
    · rw [if_pos hc, if_pos (show acc.length < tokenLen from h3)]
      refine ⟨_, rfl, by dsimp only; omega, ?_⟩
      dsimp only
      omega
    · rw [if_neg hc, if_pos (show acc.length < tokenLen from h3)]
      have h4' : ∀ j, pos + 1 ≤ j + (acc.length + 1) → j < pos + 1 → d j ≠ 44 := by
        intro j g1 g2
        rcases Nat.lt_succ_iff_lt_or_eq.mp g2 with g | rfl
        · exact h4 j (by omega) g
        · exact hc
      have h3' : acc.length + 1 < 128 := by
        by_contra hcon
        obtain ⟨j, g1, g2, g3⟩ := hw (pos + 1 - 128) (by omega) (by omega)
        exact h4' j (by omega) (by omega) g3
      exact ih (pos + 1) (acc ++ [d pos]) (by omega) (by simp; omega) (by simp; omega) (by
        simp only [List.length_append, List.length_singleton]; exact h4')

theorem runFields_safe (d : Nat → UInt8) (A E : Nat) (hE : E + 1 < bufLen)
    (hw : ∀ i, A ≤ i → i + 128 ≤ E → ∃ j, i ≤ j ∧ j < i + 128 ∧ d j = 44)
    (hs : List Handler) (left pos : Nat) (g : Gga) (hA : A ≤ pos)
    (h : (0 < left ∧ pos + left = E) ∨ (left = 0 ∧ pos ≤ E + 1)) :
    ∃ r, runFields d hs left pos g = .ok r := by
  have hstep : ∀ {left pos : Nat}, A ≤ pos → ((0 < left ∧ pos + left = E) ∨ (left = 0 ∧ pos ≤ E + 1)) →
      ∃ t, nextTok d left pos [] = .ok t ∧ (t.chars = [] ∨ (A ≤ t.pos ∧
        ((0 < t.left ∧ t.pos + t.left = E) ∨ (t.left = 0 ∧ t.pos ≤ E + 1)))) := by
    intro left pos hA h
    rcases h with ⟨_, h⟩ | ⟨rfl, h⟩
    · obtain ⟨t, h1, h2⟩ := nextTok_safe d A E (by omega) hw left pos [] h (by simpa using hA) (by simp)
        (fun j g1 g2 => by simp at g1; omega)
      exact ⟨t, h1, Or.inr h2⟩
    · exact ⟨_, nextTok_empty d pos (by omega), Or.inl rfl⟩
  induction hs generalizing left pos g with
  | nil =>
    unfold runFields
    obtain ⟨t, h1, -⟩ := hstep hA h
    rw [h1]
    exact ⟨_, rfl⟩
  | cons f hs ih =>
    unfold runFields
    obtain ⟨t, h1, h2⟩ := hstep hA h
    rw [h1]
    dsimp only
    by_cases hc : t.chars.length + 1 < 2
    · rw [if_pos hc]; exact ⟨_, rfl⟩
    · rw [if_neg hc]
      rcases h2 with h2 | ⟨h2, h3⟩
      · rw [h2] at hc; simp at hc
      · rcases f t.chars g with ⟨b, g'⟩
        cases b
        · exact ⟨_, rfl⟩
        · exact ih _ _ _ h2 h3

theorem findStar_safe (d : Nat → UInt8) (stop n i : Nat) (h : stop < i + n) : ∃ r, findStar d stop n i = .ok r := by
  induction n generalizing i with
  | zero => unfold findStar; rw [if_neg (by omega)]; exact ⟨_, rfl⟩
  | succ n ih =>
    unfold findStar
    split_ifs
    · exact ⟨_, rfl⟩
    · exact ih (i + 1) (by omega)
    · exact ⟨_, rfl⟩

/-- Every 128 consecutive pending bytes contain a comma or an asterisk. -/
def Windows (s : Nmea) : Prop :=
  ∀ i, s.start ≤ i → i + 128 ≤ s.stop → ∃ j, i ≤ j ∧ j < i + 128 ∧ (s.data j = 44 ∨ s.data j = 42)

theorem locate_safe {s : Nmea} (h1 : s.start + 13 ≤ s.stop) (h2 : s.stop ≤ 1019) : ∃ r, locate s = .ok r := by
  have hbl : bufLen = 1024 := rfl
  unfold locate
  have t1 : tryStart s = .ok (s.data s.start == 0x24) := by unfold tryStart; rw [rd_ok (by omega)]
  have t2 : tryTalker s = .ok (s.data (s.start + 6) == 0x2C) := by unfold tryTalker; rw [if_neg (by omega)]
  rw [t1]
  cases s.data s.start == 0x24
  · exact ⟨_, rfl⟩
  rw [t2]
  cases s.data (s.start + 6) == 0x2C
  · exact ⟨_, rfl⟩
  dsimp only
  obtain ⟨r, hr⟩ := findStar_safe s.data s.stop (bufLen - (s.start + 7)) (s.start + 7) (by omega)
  rw [hr]
  cases r with
  | none => exact ⟨_, rfl⟩
  | some star =>
    dsimp only
    obtain ⟨-, g2, -⟩ := findStar_sound hr
    have : ∃ b, tryMsgEnd s star = .ok b := by
      unfold tryMsgEnd
      by_cases k1 : sub16 s.stop (star + 1) < 4
      · rw [if_pos k1]; exact ⟨_, rfl⟩
      · rw [if_neg k1, if_neg (by omega)]
        by_cases k2 : s.data (star + 3) ≠ 0x0D
        · rw [if_pos k2]; exact ⟨_, rfl⟩
        · rw [if_neg k2, if_neg (by omega)]; exact ⟨_, rfl⟩
    obtain ⟨b, hb⟩ := this
    rw [hb]
    cases b <;> exact ⟨_, rfl⟩

theorem tryDecode_safe {s : Nmea} (o : Out) (h1 : s.start + 13 ≤ s.stop) (h2 : s.stop ≤ 1019) (hw : Windows s) :
    ∃ r, tryDecode s o = .ok r := by
  have hbl : bufLen = 1024 := rfl
  unfold tryDecode
  dsimp only
  rw [if_neg (by omega), sub16_le (by omega) (by omega), if_neg (by omega)]
  obtain ⟨r, hr⟩ := locate_safe h1 h2
  rw [hr]
  cases r with
  | none => exact ⟨_, rfl⟩
  | some star =>
    dsimp only
    obtain ⟨-, -, -, l4, -⟩ := locate_some hr
    obtain ⟨g1, g2, g3, g4, g5⟩ := findStar_sound l4
    by_cases hv : verifyChecksum s.data s.start (s.start + 7) star (s.data (star + 1)) (s.data (star + 2)) = true
    · rw [if_pos hv]
      have : ∃ p, tryPayload s star { o with type := .null } = .ok p := by
        unfold tryPayload
        split_ifs
        · obtain ⟨p, hp⟩ := runFields_safe s.data (s.start + 7) star (by omega) (by
            intro i k1 k2
            obtain ⟨j, j1, j2, j3⟩ := hw i (by omega) (by omega)
            rcases j3 with j3 | j3
            · exact ⟨j, j1, j2, j3⟩
            · exact absurd j3 (g5 j (by omega) (by omega))) handlers (star - (s.start + 7)) (s.start + 7) o.gga
            (le_refl _) (by omega)
          dsimp only
          rw [hp]
          exact ⟨_, rfl⟩
        · exact ⟨_, rfl⟩
      obtain ⟨⟨b, o'⟩, hp⟩ := this
      rw [hp]
      cases b <;> exact ⟨_, rfl⟩
    · rw [if_neg hv]; exact ⟨_, rfl⟩

theorem decodeLoop_safe (used : Nat) {s : Nmea} (o : Out) (h1 : s.start + used = s.stop) (h2 : s.stop ≤ 1019)
    (hw : Windows s) : ∃ r, decodeLoop used s o = .ok r := by
  induction used generalizing s o with
  | zero => exact ⟨_, rfl⟩
  | succ k ih =>
    unfold decodeLoop
    by_cases hk : k + 1 ≤ 13
    · rw [if_pos hk]; exact ⟨_, rfl⟩
    rw [if_neg hk]
    obtain ⟨⟨n, o'⟩, ht⟩ := tryDecode_safe o (by omega) h2 hw
    rw [ht]
    dsimp only
    by_cases hn : n = 0
    · rw [if_pos hn, Nat.mod_eq_of_lt (by omega)]
      exact ih (s := at' s (s.start + 1)) o' (by dsimp only; omega) h2
        (fun i g1 g2 => hw i (by dsimp only at g1; omega) g2)
    · rw [if_neg hn]; exact ⟨_, rfl⟩

/-- A call that returns false keeps a suffix of at most 13 pending bytes. -/
theorem decode_false {s s' : Nmea} {o o' : Out} (hi : Inv s) (h : decode s o = .ok (false, s', o')) :
    Inv s' ∧ content s' <:+ content s ∧ s'.stop ≤ 14 := by
  have h1 := hi.ordered; have h2 := hi.space
  have hbl : bufLen = 1024 := rfl
  unfold decode at h
  obtain ⟨q, g1, g2, g3, -, -⟩ := trimFront_spec s.data (s.stop - s.start) s.start (by omega)
  rw [g1] at h
  dsimp only at h
  rw [sub16_le (by omega) (by omega)] at h
  rcases hl : decodeLoop (s.stop - q) { s with start := q } o with e | ⟨b, u, t, o1⟩
  · rw [hl] at h; simp at h
  · rw [hl] at h
    cases b with
    | true => simp at h
    | false =>
      dsimp only at h
      obtain ⟨p, k1, rfl, k3, k4, -⟩ := decodeLoop_false (by dsimp only; omega) (by dsimp only; omega) hl
      dsimp only at k1 k3
      obtain ⟨t', c1, c2, c3, c4, c5⟩ := compact_spec (s := { s with start := p }) (u := u)
        ⟨by dsimp only; omega, by dsimp only; omega⟩ k3
      have e : compact (at' { s with start := q } p) u = .ok t' := c1
      rw [e] at h
      injection h with h
      simp only [Prod.mk.injEq, true_and] at h
      obtain ⟨rfl, -⟩ := h
      refine ⟨c2, ?_, by omega⟩
      rw [c3]
      unfold content
      dsimp only
      rw [show s.stop - s.start = (p - s.start) + (s.stop - p) by omega, slice_add,
        show s.start + (p - s.start) = p by omega]
      exact List.suffix_append _ _

theorem decode_safe {s : Nmea} (o : Out) (hi : Inv s) (h : s.stop ≤ 1019) (hw : Windows s) :
    ∃ r, decode s o = .ok r := by
  have h1 := hi.ordered; have h2 := hi.space
  have hbl : bufLen = 1024 := rfl
  unfold decode
  obtain ⟨q, g1, g2, g3, -, -⟩ := trimFront_spec s.data (s.stop - s.start) s.start (by omega)
  rw [g1]
  dsimp only
  rw [sub16_le (by omega) (by omega)]
  obtain ⟨⟨b, u, t, o1⟩, hl⟩ := decodeLoop_safe (s.stop - q) (s := { s with start := q }) o (by dsimp only; omega) h
    (fun i k1 k2 => hw i (by dsimp only at k1; omega) k2)
  rw [hl]
  cases b with
  | true => exact ⟨_, rfl⟩
  | false =>
    dsimp only
    obtain ⟨p, k1, rfl, k3, -, -⟩ := decodeLoop_false (by dsimp only; omega) (by dsimp only; omega) hl
    dsimp only at k1 k3
    obtain ⟨t', c1, -⟩ := compact_spec (s := { s with start := p }) (u := u)
      ⟨by dsimp only; omega, by dsimp only; omega⟩ k3
    have e : compact (at' { s with start := q } p) u = .ok t' := c1
    rw [e]
    exact ⟨_, rfl⟩

/-! ## A sentence behind `g` -/

theorem sentence_head {body m : List UInt8} (h : Sentence body m) : ∃ t, m = 36 :: t := by
  obtain ⟨k1, k0, v1, v0, rfl, -⟩ := h
  exact ⟨body ++ [42, k1, k0, 13, 10], by simp⟩

theorem fix_length {x : Fix} {m : List UInt8} (hm : Sentence x.body m) : 14 ≤ m.length := by
  obtain ⟨k1, k0, v1, v0, rfl, -⟩ := hm
  have := join_length_ge x
  unfold Fix.body talker
  simp
  omega

/-- A well-formed sentence behind bytes without `$` is decoded; the new start is the
old position plus the absolute end of the sentence. -/
theorem decode_here {s : Nmea} (o : Out) (hi : Inv s) {g m rest : List UInt8} {x : Fix} (hx : x.Ok)
    (hm : Sentence x.body m) (hc : content s = g ++ (m ++ rest)) (hg : 36 ∉ g) :
    ∃ f, decode s o = .ok (true, { s with start := (s.start + g.length) + (s.start + g.length + m.length) },
      ⟨.gpgga, f⟩) ∧ Matches x f ∧ Arrays o.gga x f := by
  have h1 := hi.ordered; have h2 := hi.space
  have hbl : bufLen = 1024 := rfl
  have hl := congrArg List.length hc
  have h14 := fix_length hm
  unfold content at hc hl
  rw [slice_length] at hl
  simp only [List.length_append] at hl
  have hc2 := hc
  rw [hl, slice_add, slice_add] at hc
  obtain ⟨a1, a2⟩ := List.append_inj hc (slice_length _ _ _)
  obtain ⟨a2, a3⟩ := List.append_inj a2 (slice_length _ _ _)
  obtain ⟨q, g1, g2, g3, g4, g5⟩ := trimFront_spec s.data (s.stop - s.start) s.start (by omega)
  have hd36 : s.data (s.start + g.length) = 36 := by
    obtain ⟨t, rfl⟩ := sentence_head hm
    rw [List.length_cons, slice_succ] at a2
    injection a2
  have hq : q = s.start + g.length := by
    apply le_antisymm
    · by_contra hcon
      exact g5 (s.start + g.length) (by omega) (by omega) hd36
    · by_contra hcon
      exact hg (by rw [← a1]; exact slice_mem.mpr ⟨q, g2, by omega, g4 (by omega)⟩)
  subst hq
  obtain ⟨f, hf, hmat⟩ := tryDecode_complete (s := { s with start := s.start + g.length }) o hx hm a2
    (by dsimp only; omega) (by dsimp only; omega)
  refine ⟨f, ?_, hmat⟩
  unfold decode
  rw [g1]
  dsimp only
  rw [sub16_le (by omega) (by omega)]
  obtain ⟨k, hk⟩ : ∃ k, s.stop - (s.start + g.length) = k + 1 := ⟨s.stop - (s.start + g.length) - 1, by omega⟩
  rw [hk]
  unfold decodeLoop
  rw [if_neg (by omega), hf]
  dsimp only
  rw [if_neg (by omega), Nat.mod_eq_of_lt (by omega)]

/-! ## Running off the buffer -/

theorem tryDecode_outside {s : Nmea} (o : Out) (h1 : s.stop < s.start) (h2 : bufLen ≤ s.start) (h3 : s.start ≤ 3072) :
    tryDecode s o = .error .oobRead := by
  have hl : locate s = .error .oobRead := by
    unfold locate tryStart rd
    rw [if_neg (by omega)]
  unfold tryDecode
  dsimp only
  rw [if_neg (by omega), if_neg (by unfold sub16; omega), hl]

theorem decodeLoop_runs_off (used : Nat) {s : Nmea} (o : Out) (h1 : s.stop < s.start) (h2 : s.start ≤ 3072)
    (h3 : bufLen + 14 ≤ s.start + used) (hu : 13 < used) (hz : ∀ j, s.start ≤ j → j < bufLen → s.data j ≠ 36) :
    decodeLoop used s o = .error .oobRead := by
  have hbl : bufLen = 1024 := rfl
  induction used generalizing s o with
  | zero => omega
  | succ k ih =>
    unfold decodeLoop
    rw [if_neg (by omega)]
    by_cases hb : s.start < bufLen
    · rw [tryDecode_no_dollar o hb (hz _ (le_refl _) hb)]
      dsimp only
      rw [if_pos rfl, Nat.mod_eq_of_lt (by omega)]
      exact ih (s := at' s (s.start + 1)) _ (by dsimp only; omega) (by dsimp only; omega) (by dsimp only; omega)
        (by omega) (fun j k1 k2 => hz j (by dsimp only at k1; omega) k2)
    · rw [tryDecode_outside o h1 (by omega) h2]

theorem decode_runs_off {s : Nmea} (o : Out) (h1 : s.stop < s.start) (h2 : s.start ≤ 3072)
    (hz : ∀ j, s.start ≤ j → j < bufLen → s.data j ≠ 36) : decode s o = .error .oobRead := by
  have hbl : bufLen = 1024 := rfl
  unfold decode
  rw [show s.stop - s.start = 0 by omega]
  unfold trimFront
  dsimp only
  have : sub16 s.stop s.start = s.stop + 65536 - s.start := by unfold sub16; omega
  rw [this, decodeLoop_runs_off _ (s := { s with start := s.start }) o h1 h2 (by omega) (by omega) hz]

/-- After a sentence that does not start at index 0, the next call reads outside the
buffer. -/
theorem decode_offset_breaks {s : Nmea} (o : Out) (hi : Inv s) {g m : List UInt8} {x : Fix} (hx : x.Ok)
    (hm : Sentence x.body m) (hc : content s = g ++ m) (hg : 36 ∉ g) (hpos : 0 < s.start + g.length)
    (hz : ∀ j, s.stop ≤ j → j < bufLen → s.data j ≠ 36) :
    ∃ s2 o2, decode s o = .ok (true, s2, o2) ∧ decode s2 o2 = .error .oobRead := by
  have h1 := hi.ordered; have h2 := hi.space
  have hbl : bufLen = 1024 := rfl
  have hl := congrArg List.length hc
  unfold content at hl
  rw [slice_length, List.length_append] at hl
  obtain ⟨f, hf, -⟩ := decode_here o hi (rest := []) hx hm (by simpa using hc) hg
  refine ⟨_, _, hf, decode_runs_off _ (by dsimp only; omega) (by dsimp only; omega) ?_⟩
  intro j k1 k2
  exact hz j (by dsimp only at k1; omega) k2

theorem nextTok_long (d : Nat → UInt8) (left pos : Nat) (acc : List UInt8) (hb : pos + left < bufLen)
    (h1 : 128 ≤ acc.length + left) (ha : acc.length ≤ 128)
    (h2 : ∀ j, pos ≤ j → j + acc.length < pos + 128 → d j ≠ 44) :
    nextTok d left pos acc = .error .oobWrite := by
  have htl : tokenLen = 128 := rfl
  induction left generalizing pos acc with
  | zero =>
    unfold nextTok
    rw [rd_ok (by omega)]
    dsimp only
    rw [if_neg (by omega)]
  | succ left ih =>
    unfold nextTok
    rw [rd_ok (by omega)]
    dsimp only
    by_cases hc : d pos = 0x2C
    · rw [if_pos hc]
      have : 128 ≤ acc.length := by
        by_contra hcon
        exact h2 pos (le_refl _) (by omega) hc
      rw [if_neg (by omega)]
    · rw [if_neg hc]
      by_cases hl : acc.length < tokenLen
      · rw [if_pos hl]
        exact ih (pos + 1) (acc ++ [d pos]) (by omega) (by simp; omega) (by simp; omega) (fun j k1 k2 => h2 j (by omega)
          (by simp at k2; omega))
      · rw [if_neg hl]

/-! ## The reported type -/

theorem tryDecode_type {s : Nmea} {o o' : Out} {n : Nat} (h : tryDecode s o = .ok (n, o')) (ht : o'.type = .gpgga) :
    slice s.data s.start 7 = 36 :: talker := by
  unfold tryDecode at h
  dsimp only at h
  have hz : ∀ {x y : Nat × Out}, (Except.ok x : C (Nat × Out)) = .ok y → x = y := fun h => by injection h
  have hn : ∀ {k : Nat}, (Except.ok (k, ({ o with type := .null } : Out)) : C (Nat × Out)) = .ok (n, o') → False := by
    intro k h
    have := congrArg (fun x => x.2.type) (hz h)
    dsimp only at this
    rw [ht] at this
    cases this
  by_cases h1 : s.stop = s.start
  · rw [if_pos h1] at h; exact absurd h hn
  rw [if_neg h1] at h
  by_cases h2 : sub16 s.stop s.start < 13
  · rw [if_pos h2] at h; exact absurd h hn
  rw [if_neg h2] at h
  rcases hl : locate s with e | r
  · rw [hl] at h; simp at h
  rw [hl] at h
  cases r with
  | none => exact absurd h hn
  | some star =>
    dsimp only at h
    obtain ⟨l1, -, l3, -⟩ := locate_some hl
    by_cases h3 : verifyChecksum s.data s.start (s.start + 7) star (s.data (star + 1)) (s.data (star + 2)) = true
    · rw [if_pos h3] at h
      by_cases hg : (List.range' (s.start + 1) 5).map s.data = gpgga
      · have : slice s.data (s.start + 1) 5 = gpgga := hg
        rw [show (7 : Nat) = 1 + (5 + 1) from rfl, slice_add, slice_add, this]
        show [s.data s.start] ++ (gpgga ++ [s.data (s.start + 6)]) = _
        rw [l1, l3]; rfl
      · have : tryPayload s star { o with type := .null } = .ok (false, { o with type := .null }) := by
          unfold tryPayload; rw [if_neg hg]
        rw [this] at h
        exact absurd h hn
    · rw [if_neg h3] at h; exact absurd h hn

theorem decodeLoop_false_type {used : Nat} {s : Nmea} {o : Out} {u : Nat} {s' : Nmea} {o' : Out}
    (hs : s.start + used = s.stop) (hb : s.stop ≤ bufLen)
    (h : decodeLoop used s o = .ok (false, u, s', o')) :
    (used ≤ 13 → o' = o) ∧ (13 < used → o'.type = .gpgga → slice s.data (s.stop - 14) 7 = 36 :: talker) := by
  have hbl : bufLen = 1024 := rfl
  induction used generalizing s o with
  | zero =>
    unfold decodeLoop at h
    injection h with h
    simp only [Prod.mk.injEq, true_and] at h
    exact ⟨fun _ => h.2.2.symm, by omega⟩
  | succ k ih =>
    unfold decodeLoop at h
    by_cases h1 : k + 1 ≤ 13
    · rw [if_pos h1] at h
      injection h with h
      simp only [Prod.mk.injEq, true_and] at h
      exact ⟨fun _ => h.2.2.symm, by omega⟩
    · rw [if_neg h1] at h
      refine ⟨fun hc => absurd hc h1, fun _ => ?_⟩
      rcases ht : tryDecode s o with e | ⟨n, o1⟩
      · rw [ht] at h; simp at h
      · rw [ht] at h
        dsimp only at h
        by_cases h2 : n = 0
        · rw [if_pos h2, Nat.mod_eq_of_lt (by omega)] at h
          obtain ⟨a, b⟩ := ih (s := at' s (s.start + 1)) (by dsimp only; omega) hb h
          by_cases hk : 13 < k
          · exact b hk
          · intro hty
            rw [a (by omega)] at hty
            rw [show s.stop - 14 = s.start by omega]
            exact tryDecode_type ht hty
        · rw [if_neg h2] at h; simp at h

end Verif.Nmea
