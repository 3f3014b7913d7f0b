import Verif.Proofs.NmeaSafe

set_option autoImplicit false

/-!
# C37-C41: NMEA decoder

The sentence specification is in `Spec/Nmea.lean`. `Matches x g`: the output `g`
holds the values of the fix `x`.
-/

namespace Verif.Nmea
open NmeaSpec MsgFrame

/-! ## Runs -/

/-- The `while` loop of `GPS_TaskMethod` (gps.c 71-92), at most `fuel` calls of
`NmeaDecode_Decode`: the fixes pushed to the vehicle state. -/
def drain : Nat → Nmea → Out → C (List Gga × Nmea × Out)
  | 0, s, o => .ok ([], s, o)
  | fuel + 1, s, o =>
    match decode s o with
    | .error e => .error e
    | .ok (false, s', o') => .ok ([], s', o')
    | .ok (true, s', o') =>
      match drain fuel s' o' with
      | .error e => .error e
      | .ok (gs, t, q) => .ok (o'.gga :: gs, t, q)

/-- `GPS_TaskMethod` (gps.c 61-92) per received batch. -/
def feed (fuel : Nat) : List (List UInt8) → Nmea → Out → C (List Gga × Nmea × Out)
  | [], s, o => .ok ([], s, o)
  | b :: bs, s, o =>
    match accumulate s b with
    | .error e => .error e
    | .ok (false, s1) => feed fuel bs s1 o
    | .ok (true, s1) =>
      match drain fuel s1 o with
      | .error e => .error e
      | .ok (gs, s2, o2) =>
        match feed fuel bs s2 o2 with
        | .error e => .error e
        | .ok (gs', s3, o3) => .ok (gs ++ gs', s3, o3)

/-- An empty decoder; the buffer content is unspecified. -/
def Empty (s : Nmea) : Prop := s.start = 0 ∧ s.stop = 0 ∧ s.avail = 1024

/-- The decoder as it is after reset: static storage, so the buffer is zero. -/
def Fresh (s : Nmea) : Prop := Empty s ∧ ∀ j, s.data j = 0

theorem Empty.inv {s : Nmea} (h : Empty s) : Inv s := ⟨by rw [h.1]; exact Nat.zero_le _, by rw [h.2.1, h.2.2]; rfl⟩

theorem init_fresh (d : Nat → UInt8) (h : ∀ j, d j = 0) : Fresh (init d) := ⟨⟨rfl, rfl, rfl⟩, h⟩

/-- One batch into an empty decoder. -/
theorem accumulate_empty {s : Nmea} (h : Empty s) (b : List UInt8) (hb : b.length ≤ 1024) :
    accumulate s b = .ok (true, ⟨0, b.length, 1024 - b.length, store s.data 0 b⟩) := by
  obtain ⟨h1, h2, h3⟩ := h
  have hbl : bufLen = 1024 := rfl
  unfold accumulate
  rw [if_neg (by omega), if_neg (by omega), h1, h2, h3, Nat.zero_add]

theorem store_beyond {d : Nat → UInt8} {i : Nat} {l : List UInt8} {j : Nat} (h : i + l.length ≤ j) :
    store d i l j = d j := by
  unfold store
  rw [if_pos (by omega), List.getElem?_eq_none (by omega)]
  rfl

/-- The state behind one batch. -/
theorem loaded {s : Nmea} (b : List UInt8) (hb : b.length ≤ 1024) :
    Inv ⟨0, b.length, 1024 - b.length, store s.data 0 b⟩ ∧
      content ⟨0, b.length, 1024 - b.length, store s.data 0 b⟩ = b := by
  have hbl : bufLen = 1024 := rfl
  refine ⟨⟨Nat.zero_le _, by dsimp only; omega⟩, ?_⟩
  unfold content
  dsimp only
  rw [Nat.sub_zero, slice_store]

theorem load {s : Nmea} (h : Empty s) (b : List UInt8) (hb : b.length ≤ 1024) :
    ∃ st, accumulate s b = .ok (true, st) ∧ st.start = 0 ∧ st.stop = b.length ∧ Inv st ∧ content st = b ∧
      ∀ j, b.length ≤ j → st.data j = s.data j :=
  ⟨_, accumulate_empty h b hb, rfl, rfl, (loaded b hb).1, (loaded b hb).2, fun j hj => by
    show store s.data 0 b j = s.data j
    exact store_beyond (by omega)⟩

/-- An error in the attempt at a `$` in front is the result of the call. -/
theorem decode_error {s : Nmea} {o : Out} {e : UB} (hi : Inv s) (hd : s.data s.start = 36)
    (hl : 13 < s.stop - s.start) (ht : tryDecode s o = .error e) : decode s o = .error e := by
  have h1 := hi.ordered; have h2 := hi.space
  have hbl : bufLen = 1024 := rfl
  obtain ⟨q, g1, g2, g3, g4, g5⟩ := trimFront_spec s.data (s.stop - s.start) s.start (by omega)
  have hq : q = s.start := by
    by_contra hcon
    exact g5 s.start (le_refl _) (by omega) hd
  subst hq
  unfold decode
  rw [g1]
  dsimp only
  rw [sub16_le (by omega) (by omega)]
  obtain ⟨k, hk⟩ : ∃ k, s.stop - s.start = k + 1 := ⟨s.stop - s.start - 1, by omega⟩
  rw [hk]
  unfold decodeLoop
  rw [if_neg (by omega), ht]

/-- A failed attempt at a `$` in front, and no `$` behind it. -/
theorem decode_skip {s : Nmea} {o o1 : Out} (hi : Inv s) (hd : s.data s.start = 36)
    (hl : 13 < s.stop - s.start) (ht : tryDecode s o = .ok (0, o1))
    (hno : ∀ j, s.start < j → j < s.stop → s.data j ≠ 36) :
    ∃ s2 o2, decode s o = .ok (false, s2, o2) ∧ Inv s2 ∧ content s2 = slice s.data (s.stop - 13) 13 := by
  have h1 := hi.ordered; have h2 := hi.space
  have hbl : bufLen = 1024 := rfl
  obtain ⟨q, g1, g2, g3, g4, g5⟩ := trimFront_spec s.data (s.stop - s.start) s.start (by omega)
  have hq : q = s.start := by
    by_contra hcon
    exact g5 s.start (le_refl _) (by omega) hd
  subst hq
  unfold decode
  rw [g1]
  dsimp only
  rw [sub16_le (by omega) (by omega)]
  obtain ⟨n, hn⟩ : ∃ n, s.stop - s.start = n + 1 := ⟨s.stop - s.start - 1, by omega⟩
  rw [hn]
  unfold decodeLoop
  rw [if_neg (by omega), ht]
  dsimp only
  rw [if_pos rfl, Nat.mod_eq_of_lt (by omega)]
  obtain ⟨o', ho⟩ := decodeLoop_no_dollar n (at' s (s.start + 1)) o1 (by dsimp only; omega)
    (by dsimp only; omega) (fun j k1 k2 => hno j (by dsimp only at k1; omega) (by dsimp only at k2; omega))
  rw [ho]
  dsimp only
  rw [show min n 13 = 13 by omega]
  obtain ⟨t', c1, c2, c3, c4, c5⟩ := compact_spec (s := { s with start := s.stop - 13 }) (u := 13)
    ⟨by dsimp only; omega, by dsimp only; omega⟩ (by dsimp only; omega)
  rw [c1]
  refine ⟨t', o', rfl, c2, ?_⟩
  rw [c3]
  unfold content
  dsimp only
  rw [show s.stop - (s.stop - 13) = 13 by omega]

/-- Up to 13 bytes in front of the buffer are kept. -/
theorem decode_keep {s : Nmea} {o : Out} (h0 : s.start = 0) (h13 : s.stop ≤ 13)
    (hd : 0 < s.stop → s.data 0 = 36) : decode s o = .ok (false, s, o) := by
  have hbl : bufLen = 1024 := rfl
  obtain ⟨q, g1, g2, g3, g4, g5⟩ := trimFront_spec s.data (s.stop - s.start) s.start (by omega)
  have hq : q = s.start := by
    by_contra hcon
    exact g5 s.start (le_refl _) (by omega) (by rw [h0]; exact hd (by omega))
  subst hq
  unfold decode
  rw [g1]
  dsimp only
  rw [sub16_le (by omega) (by omega)]
  have hl0 : ∀ u (t : Nmea), u ≤ 13 → decodeLoop u t o = .ok (false, u, t, o) := by
    intro u t hu
    cases u with
    | zero => rfl
    | succ u => unfold decodeLoop; rw [if_pos hu]
  rw [hl0 _ _ (by omega)]
  dsimp only
  unfold compact
  rw [if_neg (by dsimp only; omega)]

/-- With nothing left the buffer is reset. -/
theorem decode_reset {s : Nmea} (o : Out) (h1 : s.start = s.stop) (h2 : 1 < s.start) (h3 : s.stop + s.avail = bufLen) :
    ∃ s', decode s o = .ok (false, s', o) ∧ Empty s' := by
  have hbl : bufLen = 1024 := rfl
  unfold decode
  rw [show s.stop - s.start = 0 by omega]
  unfold trimFront
  dsimp only
  rw [show sub16 s.stop s.start = 0 by unfold sub16; omega]
  unfold decodeLoop
  dsimp only
  unfold compact
  rw [if_pos (by dsimp only; omega), if_neg (by omega)]
  refine ⟨_, rfl, rfl, ?_, ?_⟩
  · dsimp only; unfold sub16; omega
  · dsimp only; omega

/-! ## C37: memory safety -/

/-- **C37 fails: a sentence behind other bytes.** Any bytes in front of a valid GPGGA
sentence in one read make the call after it read outside the buffer. -/
theorem C37_prefix_breaks {s : Nmea} (hs : Fresh s) (o : Out) {g m : List UInt8} {x : Fix} (hx : x.Ok)
    (hm : Sentence x.body m) (hg : 36 ∉ g) (hne : g ≠ []) (hlen : (g ++ m).length ≤ 1024) (fuel : Nat) :
    feed (fuel + 2) [g ++ m] s o = .error .oobRead := by
  have hgl : 0 < g.length := List.length_pos_iff.mpr hne
  obtain ⟨hi, hc⟩ := loaded (s := s) (g ++ m) hlen
  obtain ⟨s2, o2, h1, h2⟩ := decode_offset_breaks o hi hx hm hc hg (by dsimp only; omega) (by
    intro j k1 k2
    dsimp only at k1 ⊢
    rw [store_beyond (by omega), hs.2]; decide)
  unfold feed
  rw [accumulate_empty hs.1 _ hlen]
  dsimp only
  unfold drain
  rw [h1]
  dsimp only
  unfold drain
  rw [h2]

/-- **C37 fails: two sentences in one read.** -/
theorem C37_two_sentences_break {s : Nmea} (hs : Fresh s) (o : Out) {m1 m2 : List UInt8} {x1 x2 : Fix}
    (hx1 : x1.Ok) (hm1 : Sentence x1.body m1) (hx2 : x2.Ok) (hm2 : Sentence x2.body m2)
    (hlen : (m1 ++ m2).length ≤ 1024) (fuel : Nat) : feed (fuel + 3) [m1 ++ m2] s o = .error .oobRead := by
  have h14 := fix_length hm1
  have hbl : bufLen = 1024 := rfl
  obtain ⟨hi, hc⟩ := loaded (s := s) (m1 ++ m2) hlen
  obtain ⟨f, hf, -⟩ := decode_here o hi (g := []) hx1 hm1 (by simpa using hc) (by simp)
  have hl : (m1 ++ m2).length = m1.length + m2.length := List.length_append
  obtain ⟨s2, o2, h1, h2⟩ := decode_offset_breaks (g := []) (m := m2)
    (s := ⟨m1.length, (m1 ++ m2).length, 1024 - (m1 ++ m2).length, store s.data 0 (m1 ++ m2)⟩) ⟨.gpgga, f⟩
    ⟨by dsimp only; omega, by dsimp only; omega⟩ hx2 hm2 (by
      unfold content
      dsimp only
      unfold content at hc
      dsimp only at hc
      rw [Nat.sub_zero, hl, slice_add] at hc
      have := (List.append_inj hc (slice_length _ _ _)).2
      rw [Nat.zero_add] at this
      rw [show (m1 ++ m2).length - m1.length = m2.length by omega]
      simpa using this) (by simp) (by simp; omega) (by
    intro j k1 k2
    dsimp only at k1 ⊢
    rw [store_beyond (by omega), hs.2]; decide)
  simp only [List.length_nil, Nat.add_zero, Nat.zero_add] at hf
  unfold feed
  rw [accumulate_empty hs.1 _ hlen]
  dsimp only
  unfold drain
  rw [hf]
  dsimp only
  unfold drain
  rw [h1]
  dsimp only
  unfold drain
  rw [h2]

/-- **C37 fails: a long field.** A checksummed GPGGA sentence whose first field has
128 or more characters writes outside the 128-byte token buffer on the stack. -/
theorem C37_long_field_overflows {s : Nmea} (hs : Empty s) (o : Out) {f rest m : List UInt8}
    (hm : Sentence (talker ++ (f ++ rest)) m) (hf : 128 ≤ f.length) (hcomma : ∀ c ∈ f, c ≠ 44)
    (hstar : ∀ c ∈ f ++ rest, c ≠ 42) (hlen : m.length ≤ 1024) (fuel : Nat) :
    feed (fuel + 1) [m] s o = .error .oobWrite := by
  have hbl : bufLen = 1024 := rfl
  obtain ⟨st, hacc, e1, e2, hi, hc, -⟩ := load hs m hlen
  have hd : slice st.data st.start m.length = m := by
    unfold content at hc; rw [e1, e2, Nat.sub_zero] at hc; rw [e1]; exact hc
  obtain ⟨a1, a2, a3, a4, -⟩ := slice_parts hm hd
  have hfl : (f ++ rest).length = f.length + rest.length := List.length_append
  obtain ⟨l1, l2⟩ := locate_sentence hm hd (by omega) (by omega) (by omega) hstar
  have ht : tryDecode st o = .error .oobWrite := by
    unfold tryDecode
    dsimp only
    rw [if_neg (by omega), sub16_le (by omega) (by omega), if_neg (by omega), l1]
    dsimp only
    rw [if_pos l2]
    have : tryPayload st (st.start + 7 + (f ++ rest).length) { o with type := .null } = .error .oobWrite := by
      unfold tryPayload
      rw [if_pos (by
        show slice st.data (st.start + 1) 5 = gpgga
        rw [← slice_take _ _ 5 6 (by omega), a3]; rfl)]
      dsimp only
      unfold handlers runFields
      rw [nextTok_long _ _ _ _ (by omega) (by simp only [List.length_nil]; omega) (by simp) (by
        intro j k1 k2
        rw [hfl, slice_add] at a4
        obtain ⟨b1, -⟩ := List.append_inj a4 (slice_length _ _ _)
        intro hj
        exact hcomma 44 (by rw [← b1]; exact slice_mem.mpr ⟨j, k1, by simp only [List.length_nil] at k2; omega, hj⟩) rfl)]
    rw [this]
  unfold feed
  rw [hacc]
  dsimp only
  unfold drain
  rw [decode_error hi a2 (by omega) ht]

/-- **C37 fails: a full buffer.** 1024 bytes that begin like a sentence and contain no
`*` make the search for the `*` read one byte behind the buffer. -/
theorem C37_full_buffer_breaks {s : Nmea} (hs : Empty s) (o : Out) {b : List UInt8} (hlen : b.length = 1024)
    (h0 : b[0]? = some 36) (h6 : b[6]? = some 44) (hstar : 42 ∉ b) (fuel : Nat) :
    feed (fuel + 1) [b] s o = .error .oobRead := by
  have hbl : bufLen = 1024 := rfl
  obtain ⟨st, hacc, e1, e2, hi, hc, -⟩ := load hs b (by omega)
  rw [hlen] at e2
  unfold content at hc
  rw [e1, e2, Nat.sub_zero] at hc
  have d0 : st.data 0 = 36 := by
    rw [← hc, slice_getElem?] at h0; simpa using h0
  have d6 : st.data 6 = 44 := by
    rw [← hc, slice_getElem?] at h6; simpa using h6
  have hfs : ∀ n i, i + n = 1024 → findStar st.data st.stop n i = .error .oobRead := by
    intro n
    induction n with
    | zero => intro i hi; unfold findStar; rw [if_pos (by omega)]
    | succ n ih =>
      intro i hi
      unfold findStar
      rw [if_pos (by omega), if_neg ?_]
      · exact ih (i + 1) (by omega)
      · intro hh
        exact hstar (by rw [← hc]; exact slice_mem.mpr ⟨i, by omega, by omega, hh⟩)
  have ht : tryDecode st o = .error .oobRead := by
    have hl : locate st = .error .oobRead := by
      unfold locate tryStart tryTalker
      rw [e1, rd_ok (by omega), d0]
      dsimp only
      rw [show ((36 : UInt8) == 0x24) = true from rfl]
      dsimp only
      rw [if_neg (by omega), d6, show ((44 : UInt8) == 0x2C) = true from rfl]
      dsimp only
      rw [hfs _ _ (by omega)]
    unfold tryDecode
    dsimp only
    rw [if_neg (by omega), e1, e2, if_neg (by unfold sub16; omega), hl]
  unfold feed
  rw [hacc]
  dsimp only
  unfold drain
  rw [decode_error hi (by rw [e1]; exact d0) (by omega) ht]

/-- No 128 consecutive bytes without a comma or an asterisk. -/
def Short (l : List UInt8) : Prop := ∀ w, w <:+: l → w.length = 128 → ∃ c ∈ w, c = 44 ∨ c = 42

theorem windows_of_short {s : Nmea} (h : Short (content s)) (ho : s.start ≤ s.stop) : Windows s := by
  intro i h1 h2
  obtain ⟨c, hc, hcc⟩ := h (slice s.data i 128) (by
    refine ⟨slice s.data s.start (i - s.start), slice s.data (i + 128) (s.stop - (i + 128)), ?_⟩
    unfold content
    rw [show s.stop - s.start = (i - s.start) + 128 + (s.stop - (i + 128)) by omega, slice_add, slice_add]
    rw [show s.start + (i - s.start) = i by omega, show s.start + (i - s.start + 128) = i + 128 by omega])
    (slice_length _ _ _)
  obtain ⟨j, j1, j2, rfl⟩ := slice_mem.mp hc
  exact ⟨j, j1, j2, hcc⟩

/-- **C37, what holds for one call.** With at most 1019 bytes in the buffer and
fields below 128 characters the call stays inside its buffers, whatever the bytes. -/
theorem C37_call_safe_partial {s : Nmea} (o : Out) (hi : Inv s) (h : s.stop ≤ 1019) (hw : Short (content s)) :
    ∃ r, decode s o = .ok r :=
  decode_safe o hi h (windows_of_short hw hi.ordered)

/-- A run up to the first decoded sentence; `true`: a sentence was decoded. -/
def untilFix : List (List UInt8) → Nmea → Out → C (Bool × Nmea × Out)
  | [], s, o => .ok (false, s, o)
  | b :: bs, s, o =>
    match accumulate s b with
    | .error e => .error e
    | .ok (false, s1) => untilFix bs s1 o
    | .ok (true, s1) =>
      match decode s1 o with
      | .error e => .error e
      | .ok (true, s2, o2) => .ok (true, s2, o2)
      | .ok (false, s2, o2) => untilFix bs s2 o2

/-- **C37, what holds for a stream.** Up to and including the first decoded sentence,
any stream in reads of at most 1005 bytes and with fields below 128 characters is
handled inside the buffers. -/
theorem C37_until_first_fix_partial (bs : List (List UInt8)) {s : Nmea} (o : Out) (hs : Empty s)
    (hb : ∀ b ∈ bs, b.length ≤ 1005) (hw : Short bs.flatten) : ∃ r, untilFix bs s o = .ok r := by
  suffices H : ∀ (bs : List (List UInt8)) (s : Nmea) (o : Out) (pre : List UInt8), Inv s → s.stop ≤ 14 →
      content s <:+ pre → (∀ b ∈ bs, b.length ≤ 1005) → Short (pre ++ bs.flatten) → ∃ r, untilFix bs s o = .ok r by
    refine H bs s o [] hs.inv (by rw [hs.2.1]; omega) ?_ hb (by simpa using hw)
    unfold content
    rw [hs.1, hs.2.1]
    exact ⟨[], by simp [slice]⟩
  intro bs
  induction bs with
  | nil => intro s o _ _ _ _ _ _; exact ⟨_, rfl⟩
  | cons b bs ih =>
    intro s o pre hi h14 hc hb hw
    have hbb := hb b (by simp)
    have hsp := hi.space
    have hbl : bufLen = 1024 := rfl
    unfold untilFix
    obtain ⟨r, s1, a1, a2, a3, a4, a5, a6⟩ := accumulate_spec hi b
    have hr : r = true := a6.mpr (by omega)
    subst hr
    obtain ⟨c1, c2, -⟩ := a5 rfl
    rw [a1]
    dsimp only
    have hsuf : content s1 <:+ pre ++ b := by
      rw [c1]
      obtain ⟨t, rfl⟩ := hc
      exact ⟨t, by simp⟩
    have hsh : Short (content s1) := by
      intro w hwi hwl
      refine hw w ?_ hwl
      refine List.IsInfix.trans (List.IsInfix.trans hwi hsuf.isInfix) ?_
      exact ⟨[], bs.flatten, by simp⟩
    obtain ⟨⟨k, s2, o2⟩, hd⟩ := decode_safe o a2 (by omega) (windows_of_short hsh a2.ordered)
    rw [hd]
    cases k with
    | true => exact ⟨_, rfl⟩
    | false =>
      obtain ⟨d1, d2, d3⟩ := decode_false a2 hd
      exact ih s2 o2 (pre ++ b) d1 d3 (d2.trans hsuf) (fun c hc => hb c (List.mem_cons_of_mem _ hc)) (by
        simpa using hw)

/-! ## C38: soundness -/

/-- **C38, what holds.** A decoded sentence stands contiguously in the decoder's
buffer, is a GPGGA sentence, and its checksum is right; it consists of received
bytes unless its `*` stands exactly at the end of the received bytes. -/
theorem C38_sound_partial {s s' : Nmea} {o o' : Out} (hi : Inv s) (h : decode s o = .ok (true, s', o')) :
    ∃ p star body, s.start ≤ p ∧ p + 9 ≤ star ∧ body = slice s.data (p + 1) (star - (p + 1)) ∧
      Sentence body (slice s.data p (star + 5 - p)) ∧ talker <+: body ∧ o'.type = .gpgga ∧
      (star + 5 ≤ s.stop ∨ star = s.stop) := by
  have h1 := hi.ordered; have h2 := hi.space
  have hbl : bufLen = 1024 := rfl
  unfold decode at h
  obtain ⟨q, g1, g2, g3, -, -⟩ := trimFront_spec s.data (s.stop - s.start) s.start (by omega)
  rw [g1] at h
  dsimp only at h
  rw [sub16_le (by omega) (by omega)] at h
  rcases hl : decodeLoop (s.stop - q) { s with start := q } o with e | ⟨b, u, t, o1⟩
  · rw [hl] at h; simp at h
  · rw [hl] at h
    cases b with
    | false =>
      dsimp only at h
      rcases hc : compact t u with e | t'
      · rw [hc] at h; simp at h
      · rw [hc] at h; simp at h
    | true =>
      dsimp only at h
      injection h with h
      simp only [Prod.mk.injEq, true_and] at h
      obtain ⟨rfl, rfl⟩ := h
      obtain ⟨p, n, o2, star, k1, k2, -⟩ := decodeLoop_true (by dsimp only; omega) (by dsimp only; omega) hl
      have hr := k2.received (by dsimp only; omega)
      have hroom := k2.room
      dsimp only at k1 hr hroom
      refine ⟨p, star, _, by omega, hroom, rfl, k2.sentence, ?_, k2.type, hr⟩
      have := k2.talk
      dsimp only at this
      rw [← this, show star - (p + 1) = 6 + (star - (p + 1) - 6) by omega, slice_add]
      exact List.prefix_append _ _

/-! ## C39: completeness -/

/-- **C39, what holds.** From an empty decoder, any number of valid sentences, each
arriving in one read or cut once within its first 13 bytes, are all decoded, each
exactly once, in order, with their values, and without leaving the buffers. -/
theorem C39_one_per_read_partial (l : List (Fix × List UInt8 × Nat)) {s : Nmea} (o : Out) (hs : Empty s)
    (hl : ∀ e ∈ l, e.1.Ok ∧ Sentence e.1.body e.2.1 ∧ e.2.1.length ≤ 1024 ∧ e.2.2 ≤ 13) (fuel : Nat) :
    ∃ gs s' o', feed (fuel + 2) (l.flatMap (fun e => [e.2.1.take e.2.2, e.2.1.drop e.2.2])) s o = .ok (gs, s', o') ∧
      List.Forall₂ (fun e g => Matches e.1 g) l gs ∧ Empty s' := by
  have hbl : bufLen = 1024 := rfl
  induction l generalizing s o with
  | nil => exact ⟨[], s, o, rfl, List.Forall₂.nil, hs⟩
  | cons e l ih =>
    obtain ⟨x, m, k⟩ := e
    obtain ⟨hx, hm, hlen, hk⟩ := hl (x, m, k) (by simp)
    dsimp only at hx hm hlen hk
    have h14 := fix_length hm
    have htl : (m.take k).length = k := by rw [List.length_take]; omega
    obtain ⟨s1, a1, a2, a3, a4, a5, -⟩ := load hs (m.take k) (by omega)
    rw [htl] at a3
    -- the piece within the first 13 bytes is kept
    have hd1 : drain (fuel + 2) s1 o = .ok ([], s1, o) := by
      unfold drain
      rw [decode_keep a2 (by omega) ?_]
      intro hpos
      unfold content at a5
      obtain ⟨t, rfl⟩ := sentence_head hm
      obtain ⟨k', rfl⟩ : ∃ k', k = k' + 1 := ⟨k - 1, by omega⟩
      rw [a2, a3, Nat.sub_zero, slice_succ, List.take_succ_cons] at a5
      injection a5
    -- the rest completes the sentence
    obtain ⟨b, s2, b1, b2, b3, b4, b5, b6⟩ := accumulate_spec a4 (m.drop k)
    have hb : b = true := b6.mpr (by rw [List.length_drop]; have := a4.space; omega)
    subst hb
    obtain ⟨c1, c2, -⟩ := b5 rfl
    rw [a5, List.take_append_drop] at c1
    obtain ⟨f, hf, hmat, -⟩ := decode_here o b2 (g := []) (rest := []) hx hm (by simpa using c1) (by simp)
    rw [List.length_drop] at c2
    obtain ⟨s3, e1, e2⟩ := decode_reset
      (s := { s2 with start := s2.start + ([] : List UInt8).length + (s2.start + ([] : List UInt8).length + m.length) })
      ⟨.gpgga, f⟩ (by simp only [List.length_nil]; omega) (by simp only [List.length_nil]; omega) b2.space
    have hd2 : drain (fuel + 2) s2 o = .ok ([f], s3, ⟨.gpgga, f⟩) := by
      unfold drain
      rw [hf]
      dsimp only
      unfold drain
      rw [e1]
    obtain ⟨gs, s', o', h1, h2, h3⟩ := ih (s := s3) ⟨.gpgga, f⟩ e2 (fun e he => hl e (List.mem_cons_of_mem _ he))
    refine ⟨f :: gs, s', o', ?_, List.Forall₂.cons hmat h2, h3⟩
    rw [List.flatMap_cons]
    show feed (fuel + 2) (m.take k :: m.drop k :: _) s o = _
    unfold feed
    rw [a1]
    dsimp only
    rw [hd1]
    dsimp only
    unfold feed
    rw [b1]
    dsimp only
    rw [hd2]
    dsimp only
    have h1' : feed (fuel + 2) ([].append (l.flatMap (fun e => [e.2.1.take e.2.2, e.2.1.drop e.2.2]))) s3 ⟨.gpgga, f⟩ =
      .ok (gs, s', o') := h1
    rw [h1']
    rfl

/-- **C39 fails: a late cut.** A valid sentence cut anywhere behind its 13th byte is
lost: the two reads produce no fix. -/
theorem C39_cut_sentence_lost {s : Nmea} (hs : Fresh s) (o : Out) {m : List UInt8} {x : Fix} (hx : x.Ok)
    (hm : Sentence x.body m) (hd : 36 ∉ x.body) (hlen : m.length ≤ 1000) {k : Nat} (h1 : 14 ≤ k) (h2 : k < m.length)
    (fuel : Nat) : ∃ s' o', feed (fuel + 1) [m.take k, m.drop k] s o = .ok ([], s', o') := by
  have hbl : bufLen = 1024 := rfl
  have htl : (m.take k).length = k := by rw [List.length_take]; omega
  obtain ⟨st, hacc, e1, e2, hi, hc, e3⟩ := load hs.1 (m.take k) (by omega)
  rw [htl] at e2 e3
  have hsl := hm
  obtain ⟨k1, k0, v1, v0, hmeq, hv1, hv0, -⟩ := hsl
  have hml : m.length = x.body.length + 6 := by rw [hmeq]; simp
  have hhex : ∀ {c : UInt8} {v : Nat}, hexVal c = some v → c ≠ 36 := by
    rintro c v h rfl
    rw [show hexVal 36 = none from rfl] at h
    cases h
  have htail : 36 ∉ m.drop 1 := by
    rw [hmeq]
    simp only [List.cons_append, List.drop_succ_cons, List.drop_zero, List.mem_append,
      List.mem_cons, List.not_mem_nil, or_false, not_or]
    refine ⟨⟨not_false, hd⟩, by decide, fun h => hhex hv1 h.symm, fun h => hhex hv0 h.symm, by decide, by decide⟩
  have hck : slice st.data 0 k = m.take k := by
    unfold content at hc
    rwa [e1, e2, Nat.sub_zero] at hc
  have hget : ∀ j, j < k → m[j]? = some (st.data j) := by
    intro j hj
    have := slice_getElem? st.data 0 k j
    rw [hck, if_pos hj, List.getElem?_take, if_pos hj, Nat.zero_add] at this
    exact this
  have hbody : ∀ j, j < x.body.length → m[j + 1]? = x.body[j]? := by
    intro j hj
    rw [hmeq]
    simp [List.getElem?_append, hj]
  have hno : ∀ j, 1 ≤ j → j < k → st.data j ≠ 36 := by
    intro j g1 g2 hj
    apply htail
    rw [List.mem_iff_getElem?]
    refine ⟨j - 1, ?_⟩
    rw [List.getElem?_drop, show 1 + (j - 1) = j by omega, hget j g2, hj]
  have hd0 : st.data 0 = 36 := by
    have := hget 0 (by omega)
    obtain ⟨t, rfl⟩ := sentence_head hm
    simpa using this.symm
  -- the first attempt fails
  have hnostar : ∀ j, 1 ≤ j → j ≤ x.body.length → j < k → st.data j ≠ 42 := by
    intro j g1 g2 g3 hj
    have h := hget j g3
    rw [show j = (j - 1) + 1 by omega, hbody _ (by omega), show j - 1 + 1 = j by omega, hj] at h
    exact fix_nostar hx 42 (List.mem_iff_getElem?.mpr ⟨_, h⟩) rfl
  have hloc : locate st = .ok none := by
    unfold locate
    have t1 : tryStart st = .ok (st.data 0 == 0x24) := by unfold tryStart; rw [e1, rd_ok (by omega)]
    have t2 : tryTalker st = .ok (st.data 6 == 0x2C) := by unfold tryTalker; rw [e1, if_neg (by omega)]
    rw [t1]
    cases st.data 0 == 0x24
    · rfl
    rw [t2]
    cases st.data 6 == 0x2C
    · rfl
    dsimp only
    obtain ⟨r, hr⟩ := findStar_safe st.data st.stop (bufLen - (st.start + 7)) (st.start + 7) (by omega)
    rw [hr]
    cases r with
    | none => rfl
    | some star =>
      obtain ⟨f1, f2, f3, f4, f5⟩ := findStar_sound hr
      have hsk : star < k := by
        by_contra hcon
        have := e3 star (by omega)
        rw [this, hs.2] at f4
        exact absurd f4 (by decide)
      have : x.body.length < star := by
        by_contra hcon
        exact hnostar star (by omega) (by omega) hsk f4
      have t4 : tryMsgEnd st star = .ok false := by
        unfold tryMsgEnd
        rw [if_pos (by rw [e2]; unfold sub16; omega)]
      dsimp only
      rw [t4]
  have htry : tryDecode st o = .ok (0, { o with type := .null }) := by
    unfold tryDecode
    rw [hloc]
    dsimp only
    split_ifs <;> rfl
  -- the loop runs to the last 13 bytes
  obtain ⟨s2, o2, p1, p2, p3⟩ := decode_skip hi (by rw [e1]; exact hd0) (by omega) htry
    (fun j k1 k2 => hno j (by omega) (by omega))
  have p4 := (decode_false hi p1).2.2
  rw [e2] at p3
  have hdr : drain (fuel + 1) st o = .ok ([], s2, o2) := by unfold drain; rw [p1]
  unfold feed
  rw [hacc]
  dsimp only
  rw [hdr]
  dsimp only
  -- the second read
  have hdl : (m.drop k).length = m.length - k := List.length_drop
  obtain ⟨b, s3, a1, a2, a3, a4, a5, a6⟩ := accumulate_spec p2 (m.drop k)
  have hb : b = true := a6.mpr (by have := p2.space; omega)
  subst hb
  obtain ⟨c1, c2, -⟩ := a5 rfl
  unfold feed
  rw [a1]
  dsimp only
  have hno3 : ∀ j, s3.start ≤ j → j < s3.stop → s3.data j ≠ 36 := by
    intro j g1 g2 hj
    have hmem : (36 : UInt8) ∈ content s3 := slice_mem.mpr ⟨j, g1, by omega, hj⟩
    rw [c1, p3, List.mem_append] at hmem
    rcases hmem with h | h
    · obtain ⟨i, i1, i2, i3⟩ := slice_mem.mp h
      exact hno i (by omega) (by omega) i3
    · apply htail
      rw [show k = 1 + (k - 1) by omega, ← List.drop_drop] at h
      exact List.mem_of_mem_drop h
  have hfin : ∃ s4 o4, decode s3 o2 = .ok (false, s4, o4) := by
    have q1 := a2.ordered; have q2 := a2.space
    unfold decode
    obtain ⟨q, g1, g2, g3, g4, g5⟩ := trimFront_spec s3.data (s3.stop - s3.start) s3.start (by omega)
    rw [g1]
    dsimp only
    rw [sub16_le (by omega) (by omega)]
    obtain ⟨o', ho⟩ := decodeLoop_no_dollar (s3.stop - q) { s3 with start := q } o2 (by dsimp only; omega)
      (by dsimp only; omega) (fun j k1 k2 => hno3 j (by dsimp only at k1; omega) k2)
    rw [ho]
    dsimp only
    obtain ⟨t', z1, -⟩ := compact_spec (s := { s3 with start := s3.stop - min (s3.stop - q) 13 })
      (u := min (s3.stop - q) 13) ⟨by dsimp only; omega, by dsimp only; omega⟩ (by dsimp only; omega)
    rw [z1]
    exact ⟨_, _, rfl⟩
  obtain ⟨s4, o4, hf⟩ := hfin
  have hdr2 : drain (fuel + 1) s3 o2 = .ok ([], s4, o4) := by unfold drain; rw [hf]
  rw [hdr2]
  dsimp only
  unfold feed
  exact ⟨s4, o4, rfl⟩

/-- **C39 fails: a read of more than 1024 bytes is dropped**, with every sentence in
it (the stream buffer holds up to 2048). -/
theorem C39_long_read_dropped {s : Nmea} (hs : Empty s) (o : Out) (b : List UInt8) (hb : 1024 < b.length) (fuel : Nat) :
    feed fuel [b] s o = .ok ([], s, o) := by
  have ha : accumulate s b = .ok (false, s) := by
    unfold accumulate; rw [if_pos (by rw [hs.2.2]; exact hb)]
  unfold feed
  rw [ha]
  rfl

/-! ## C40: fields -/

/-- **C40, decimal digit.** -/
theorem C40_decimal_digit (c : UInt8) :
    charToUInt8Dec c = (if IsDigit c then some (UInt8.ofNat (dig c)) else none) ∧
      charToUInt16Dec c = (if IsDigit c then some (UInt16.ofNat (dig c)) else none) :=
  ⟨charToUInt8Dec_eq c, charToUInt16Dec_eq c⟩

/-- **C40, hexadecimal digit.** -/
theorem C40_hex_digit (c : UInt8) : charToUInt16Hex c = (hexVal c).map UInt16.ofNat := charToUInt16Hex_eq c

/-- **C40, decimal number.** Success iff all characters are digits; the value is the
number modulo 256, so exact whenever it fits. -/
theorem C40_decimal_number (l : List UInt8) :
    ((strToUInt8Dec l).1 = true ↔ ∀ c ∈ l, IsDigit c) ∧
      ((∀ c ∈ l, IsDigit c) → (strToUInt8Dec l).2.toNat = natVal l % 256) := by
  obtain ⟨h1, h2⟩ := strToUInt8Dec_spec l
  refine ⟨⟨fun h => ?_, fun h => (h1 h).1⟩, fun h => (h1 h).2⟩
  by_contra hc
  rw [h2 hc] at h
  cases h

/-- **C40, time.** A NUL-terminated time field is accepted iff it is `hhmmss` or
`hhmmss.sss` in digits, with these values. -/
theorem C40_time (l : List UInt8) (hn : ∀ c ∈ l, c ≠ 0) :
    (utcTime (fun i => l.getD i 0)).map Time.val = timeOf l := utcTime_spec l hn

/-- **C40, positions.** A position field is accepted iff it has at most 10
characters; it then leaves its 11-byte array NUL-terminated, with the characters of
the field in front, and still 11 bytes. -/
theorem C40_position (tok : List UInt8) (g : Gga) (hd : g.lat.length = 11 ∧ g.lon.length = 11) :
    ((hLat tok g).1 = true ↔ tok.length ≤ 10) ∧ ((hLon tok g).1 = true ↔ tok.length ≤ 10) ∧
    (tok.length ≤ 10 →
      ((hLat tok g).2.lat.length = 11 ∧ 0 ∈ (hLat tok g).2.lat ∧ cstr (hLat tok g).2.lat = cstr tok) ∧
      ((hLon tok g).2.lon.length = 11 ∧ 0 ∈ (hLon tok g).2.lon ∧ cstr (hLon tok g).2.lon = cstr tok)) := by
  have key : ∀ dst : List UInt8, dst.length = 11 → tok.length ≤ 10 →
      (strncpyTok dst tok).length = 11 ∧ 0 ∈ strncpyTok dst tok ∧ cstr (strncpyTok dst tok) = cstr tok := by
    intro dst h1 h2
    have h3 : (tok.takeWhile (· ≠ 0)).length ≤ tok.length := (List.takeWhile_prefix _).length_le
    have h4 : ∀ c ∈ tok.takeWhile (· ≠ 0), c ≠ 0 := fun c hc => by
      have := List.all_takeWhile (p := fun x : UInt8 => decide (x ≠ 0)) (l := tok)
      simpa using List.all_eq_true.mp this c hc
    unfold strncpyTok cstr
    dsimp only
    obtain ⟨n, hn⟩ : ∃ n, tok.length + 1 - (tok.takeWhile (· ≠ 0)).length = n + 1 :=
      ⟨tok.length - (tok.takeWhile (· ≠ 0)).length, by omega⟩
    rw [hn]
    refine ⟨?_, ?_, ?_⟩
    · simp only [List.length_append, List.length_replicate, List.length_drop]
      omega
    · simp [List.replicate_succ]
    · rw [List.append_assoc, List.takeWhile_append_of_pos (by simpa using h4), List.replicate_succ]
      simp
  refine ⟨?_, ?_, fun h => ⟨?_, ?_⟩⟩
  · unfold hLat; split_ifs <;> simp <;> omega
  · unfold hLon; split_ifs <;> simp <;> omega
  · unfold hLat
    rw [if_neg (by omega)]
    exact key _ hd.1 h
  · unfold hLon
    rw [if_neg (by omega)]
    exact key _ hd.2 h

/-! ## C41: the reported type -/

/-- **C41, what holds.** When the call returns false: with at most 13 bytes behind the
first `$` the output is untouched; otherwise the type is NULL unless the last 14
pending bytes begin with "$GPGGA,". -/
theorem C41_type_null_partial {s s' : Nmea} {o o' : Out} (hi : Inv s) (h : decode s o = .ok (false, s', o')) :
    o' = o ∨ o'.type = .null ∨ (14 ≤ s.stop - s.start ∧ slice s.data (s.stop - 14) 7 = 36 :: talker) := by
  have h1 := hi.ordered; have h2 := hi.space
  have hbl : bufLen = 1024 := rfl
  unfold decode at h
  obtain ⟨q, g1, g2, g3, -, -⟩ := trimFront_spec s.data (s.stop - s.start) s.start (by omega)
  rw [g1] at h
  dsimp only at h
  rw [sub16_le (by omega) (by omega)] at h
  rcases hl : decodeLoop (s.stop - q) { s with start := q } o with e | ⟨b, u, t, o1⟩
  · rw [hl] at h; simp at h
  · rw [hl] at h
    cases b with
    | true => simp at h
    | false =>
      dsimp only at h
      have ho : o1 = o' := by
        rcases hc : compact t u with e | t'
        · rw [hc] at h; simp at h
        · rw [hc] at h
          injection h with h
          simp only [Prod.mk.injEq, true_and] at h
          exact h.2
      subst ho
      obtain ⟨a, b⟩ := decodeLoop_false_type (by dsimp only; omega) (by dsimp only; omega) hl
      by_cases hk : s.stop - q ≤ 13
      · exact Or.inl (a hk)
      · cases hty : o1.type with
        | null => exact Or.inr (Or.inl rfl)
        | gpgga => exact Or.inr (Or.inr ⟨by omega, b (by omega) hty⟩)

/-! ## Witnesses -/

/-- "GPGGA,ab" with its checksum: 14 bytes. -/
def shortSentence : List UInt8 := [36, 71, 80, 71, 71, 65, 44, 97, 98, 42, 55, 57, 13, 10]

/-- "GPGGA,161229.487,3723.2475,N,12158.3416,W,1,07,1.0,9.0,M,0.0,M". -/
def bodyA : List UInt8 :=
  [71, 80, 71, 71, 65, 44, 49, 54, 49, 50, 50, 57, 46, 52, 56, 55, 44, 51, 55, 50, 51, 46, 50, 52, 55, 53,
   44, 78, 44, 49, 50, 49, 53, 56, 46, 51, 52, 49, 54, 44, 87, 44, 49, 44, 48, 55, 44, 49, 46, 48, 44, 57, 46,
   48, 44, 77, 44, 48, 46, 48, 44, 77]

/-- The same with the time 161229.478. -/
def bodyB : List UInt8 :=
  [71, 80, 71, 71, 65, 44, 49, 54, 49, 50, 50, 57, 46, 52, 55, 56, 44, 51, 55, 50, 51, 46, 50, 52, 55, 53,
   44, 78, 44, 49, 50, 49, 53, 56, 46, 51, 52, 49, 54, 44, 87, 44, 49, 44, 48, 55, 44, 49, 46, 48, 44, 57, 46,
   48, 44, 77, 44, 48, 46, 48, 44, 77]

/-- The complete first sentence. -/
def msgA : List UInt8 := 36 :: bodyA ++ [42, 55, 66, 13, 10]

/-- Zeroed output. -/
def out0 : Out := ⟨.null, ⟨⟨0, 0, 0, 0⟩, List.replicate 11 0, 0, List.replicate 11 0, 0, 0, 0⟩⟩

/-- Zeroed decoder. -/
def fresh0 : Nmea := init (fun _ => 0)

/-- The state after a read. -/
def acc1 (s : Nmea) (b : List UInt8) : Nmea :=
  match accumulate s b with
  | .ok (_, t) => t
  | .error _ => s

/-- **C41 fails**: a 14-byte checksummed sentence with a bad field leaves the type
GPGGA although the call returns false; and a call with few bytes leaves the type of
the previous sentence. -/
theorem C41_type_left_set :
    (decode (acc1 fresh0 shortSentence) out0).map (fun r => (r.1, r.2.2.type)) = .ok (false, .gpgga) ∧
    (decode fresh0 { out0 with type := .gpgga }).map (fun r => (r.1, r.2.2.type)) = .ok (false, .gpgga) := by
  decide +kernel

/-- **C38 fails**: after a sentence, the first part of another sentence of the same
length and XOR is accepted with the checksum bytes left over from the first one. The
fix reported (time .478) belongs to no sentence received. -/
theorem C38_stale_bytes_accepted :
    (feed 2 [msgA] fresh0 out0).bind (fun r =>
      (decode (acc1 r.2.1 (36 :: bodyB)) r.2.2).map (fun q => (r.1.length, q.1, q.2.2.gga.time.millisec))) =
      .ok (1, true, 478) ∧
    ∀ m, Sentence bodyB m → ¬ m <:+: msgA ++ (36 :: bodyB) := by
  constructor
  · decide +kernel
  · rintro m ⟨k1, k0, v1, v0, rfl, -⟩ h
    have h2 : (36 :: bodyB ++ [42]) <:+: msgA ++ (36 :: bodyB) :=
      List.IsInfix.trans ⟨[], [k1, k0, 13, 10], by simp⟩ h
    revert h2
    decide +kernel

/-- The fix in `msgA`. -/
def fixA : Fix :=
  { time := [49, 54, 49, 50, 50, 57, 46, 52, 56, 55]
    lat := [51, 55, 50, 51, 46, 50, 52, 55, 53]
    ns := 78
    lon := [49, 50, 49, 53, 56, 46, 51, 52, 49, 54]
    ew := 87
    fix := 49
    sats := [48, 55]
    unused := [[49, 46, 48], [57, 46, 48], [77], [48, 46, 48], [77]]
    more := [] }

/-- The hypotheses of C37 and C39 are met. -/
theorem fixA_ok : fixA.Ok where
  time := by decide
  lat := by unfold PosText; decide
  ns := by decide
  lon := by unfold PosText; decide
  ew := by decide
  fix := by decide
  sats := by decide
  five := by decide
  present := by decide
  short := by decide
  clean := by decide +kernel

theorem msgA_sentence : Sentence fixA.body msgA :=
  ⟨55, 66, 7, 11, by decide +kernel, rfl, rfl, by decide +kernel⟩

example : (feed 2 [msgA] fresh0 out0).map (fun r => r.1.map (fun g => (g.time.val, cstr g.lat == fixA.lat, g.sats))) =
    .ok [((16, 12, 29, 487), true, 7)] := by decide +kernel

example : feed 9 [[13, 10] ++ msgA] fresh0 out0 = .error .oobRead :=
  C37_prefix_breaks (init_fresh _ (fun _ => rfl)) out0 fixA_ok msgA_sentence (by decide) (by simp) (by decide) 7

example : ∃ s' o', feed 9 [msgA.take 40, msgA.drop 40] fresh0 out0 = .ok ([], s', o') :=
  C39_cut_sentence_lost (init_fresh _ (fun _ => rfl)) out0 fixA_ok msgA_sentence (by decide +kernel) (by decide) (by omega)
    (by decide) 8

end Verif.Nmea
