import Verif.Proofs.MsgFrame

set_option autoImplicit false

/-!
# C30-C34: message frame decoder and encoder
-/

namespace Verif.MsgFrame
open FrameSpec

/-- Decoder invariant. -/
structure Inv (s : Dec) : Prop where
  ordered : s.start ≤ s.stop
  space : s.stop + s.avail = bufLen
  low : 6 ≤ s.msgLen
  high : s.msgLen ≤ bufLen

/-- Received bytes not consumed yet. -/
def content (s : Dec) : List UInt8 := slice s.data s.start (s.stop - s.start)

theorem content_length (s : Dec) : (content s).length = s.stop - s.start := slice_length _ _ _

theorem init_inv {L : Nat} {d : Nat → UInt8} {s : Dec} (hL : 6 ≤ L) (h : init L d = some s) :
    Inv s ∧ s.msgLen = L ∧ content s = [] ∧ s.start = 0 ∧ s.stop = 0 := by
  unfold init at h
  split_ifs at h with h1
  injection h with h
  subst h
  exact ⟨⟨le_rfl, rfl, hL, by dsimp only; omega⟩, rfl, rfl, rfl, rfl⟩

/-- `RecvBytes`: never out of bounds; appends all bytes or refuses and changes
nothing; it refuses iff they do not fit. -/
theorem recvBytes_spec {s : Dec} (hi : Inv s) (bytes : List UInt8) :
    ∃ b s', recvBytes s bytes = .ok (b, s') ∧ Inv s' ∧ s'.msgLen = s.msgLen ∧
      (b = false → s' = s) ∧
      (b = true → content s' = content s ++ bytes ∧ s'.start = s.start ∧
        s'.stop = s.stop + bytes.length) ∧
      (b = true ↔ bytes.length ≤ s.avail) := by
  have h1 := hi.ordered; have h2 := hi.space
  unfold recvBytes
  by_cases h : s.avail < bytes.length
  · rw [if_pos h]
    exact ⟨false, s, rfl, hi, rfl, fun _ => rfl, by simp, by simp; omega⟩
  · rw [if_neg h, if_neg (by omega)]
    refine ⟨true, _, rfl, ⟨by dsimp only; omega, by dsimp only; omega, hi.low, hi.high⟩, rfl, by simp,
      fun _ => ⟨?_, rfl, rfl⟩, by simp; omega⟩
    unfold content
    dsimp only
    rw [show s.stop + bytes.length - s.start = (s.stop - s.start) + bytes.length by omega, slice_add,
      slice_store_before _ (by omega), show s.start + (s.stop - s.start) = s.stop by omega, slice_store]

/-- `RecvMsg`: never out of bounds, terminates (it is a total function), and
consumes input from the left. -/
theorem recvMsg_spec (crc : CrcUnit) {s : Dec} (hi : Inv s) :
    ∃ r s', recvMsg crc s = .ok (r, s') ∧ Inv s' ∧ s'.msgLen = s.msgLen ∧
      (r = none → (content s').length < s.msgLen ∧ s'.start ≤ 1 ∧ content s' <:+ content s ∧
        ∀ V : List UInt8 → Prop, (∀ p, Acc crc s.msgLen s.data p ↔ V (slice s.data p s.msgLen)) →
          Parse V s.msgLen (content s) [] (content s')) ∧
      (∀ off, r = some off → s'.stop = s.stop ∧ s.start ≤ off ∧ s'.start = off + s.msgLen ∧ s'.data = s.data ∧
        Acc crc s.msgLen s.data off ∧
        (∃ pre, content s = pre ++ slice s'.data off s.msgLen ++ content s') ∧
        ∀ V : List UInt8 → Prop, (∀ p, Acc crc s.msgLen s.data p ↔ V (slice s.data p s.msgLen)) →
          ∀ ms rest, Parse V s.msgLen (content s') ms rest →
            Parse V s.msgLen (content s) (slice s'.data off s.msgLen :: ms) rest) := by
  have h1 := hi.ordered; have h2 := hi.space
  obtain ⟨r, start', used', e1, e2, e3, e4, e5⟩ :=
    scan_spec crc s.msgLen hi.low s.data (s.stop - s.start) s.start (by omega)
  unfold recvMsg
  rw [e1]
  cases r with
  | some off =>
    obtain ⟨g1, g2, g3, g4, g5⟩ := e5 off rfl
    dsimp only
    refine ⟨some off, _, rfl, ⟨by dsimp only; omega, h2, hi.low, hi.high⟩, rfl, by simp, ?_⟩
    intro o ho
    injection ho with ho
    subst ho
    have hc : content { s with start := start' } = slice s.data start' used' := by
      unfold content; dsimp only; congr 1; omega
    refine ⟨rfl, g1, g2, rfl, g3, ⟨slice s.data s.start (off - s.start), ?_⟩, ?_⟩
    · rw [hc]
      unfold content
      dsimp only
      rw [show s.stop - s.start = (off - s.start) + (s.msgLen + used') by omega, slice_add, slice_add,
        show s.start + (off - s.start) = off by omega, g2, List.append_assoc]
    · intro V hV ms rest hp
      rw [hc] at hp
      exact g5 V hV ms rest hp
  | none =>
    obtain ⟨g1, g2, g3⟩ := e4 rfl
    dsimp only
    rw [if_neg (by omega)]
    refine ⟨none, _, rfl, ?_, ?_, ?_, by simp⟩
    · unfold compact
      split_ifs with hs
      · exact ⟨Nat.zero_le _, by dsimp only; omega, hi.low, hi.high⟩
      · exact ⟨by dsimp only; omega, h2, hi.low, hi.high⟩
    · unfold compact; split_ifs <;> rfl
    · intro _
      have hc : content (compact { s with start := start' } used') = slice s.data start' used' := by
        unfold compact content
        dsimp only
        split_ifs with hs
        · dsimp only
          rw [show s.stop - start' - 0 = used' by omega, compact_loop]
          apply slice_ext
          intro j hj
          simp only [Nat.zero_add, hj, if_true]
          rw [Nat.add_comm]
        · dsimp only
          congr 1; omega
      refine ⟨by rw [hc, slice_length]; exact g1, ?_, ?_, ?_⟩
      · unfold compact
        split_ifs with hs
        · exact Nat.zero_le _
        · dsimp only at hs ⊢; omega
      · rw [hc]
        refine ⟨slice s.data s.start (start' - s.start), ?_⟩
        unfold content
        rw [show s.stop - s.start = (start' - s.start) + used' by omega, slice_add,
          show s.start + (start' - s.start) = start' by omega]
      · intro V hV
        rw [hc]; exact g3 V hV

/-! ## C30: histories -/

/-- Calls on the decoder. -/
inductive Call where
  | bytes (b : List UInt8)
  | msg (crc : CrcUnit)

/-- One call. -/
def callStep (s : Dec) : Call → C Dec
  | .bytes b => (recvBytes s b).map (·.2)
  | .msg crc => (recvMsg crc s).map (·.2)

/-- C30 for one message length. -/
def SafeFor (L : Nat) : Prop :=
  ∀ (d : Nat → UInt8) (s : Dec), init L d = some s → ∀ calls : List Call,
    ∃ s', calls.foldlM callStep s = .ok s' ∧ s'.start ≤ s'.stop ∧ s'.stop + s'.avail = bufLen

/-- **C30, for lengths from 6 on.** No sequence of batches and `RecvMsg` calls, with
any behaviour of the CRC unit, leaves the buffer; the cursors stay ordered. -/
theorem C30_safe_partial (L : Nat) (hL : 6 ≤ L) : SafeFor L := by
  intro d s h calls
  have hinv := (init_inv hL h).1
  clear h
  suffices H : ∃ s', calls.foldlM callStep s = .ok s' ∧ Inv s' by
    obtain ⟨s', h1, h2⟩ := H
    exact ⟨s', h1, h2.ordered, h2.space⟩
  induction calls generalizing s with
  | nil => exact ⟨s, rfl, hinv⟩
  | cons c calls ih =>
    rw [List.foldlM_cons]
    cases c with
    | bytes b =>
      obtain ⟨r, s1, e1, e2, -⟩ := recvBytes_spec hinv b
      simp only [callStep, e1, Except.map, bind, Except.bind]
      exact ih s1 e2
    | msg crc =>
      obtain ⟨r, s1, e1, e2, -⟩ := recvMsg_spec crc hinv
      simp only [callStep, e1, Except.map, bind, Except.bind]
      exact ih s1 e2

/-- **C30 is false for lengths 0, 1, 3, 4 and 5**, which `MsgFrameDecode_Init`
accepts: the decoder reads before its buffer. -/
theorem C30_short_lengths_unsafe : ∀ L ∈ [0, 1, 3, 4, 5], ¬ SafeFor L := by
  intro L hL h
  have key : ∀ L ∈ [0, 1, 3, 4, 5], ∃ s : Dec, init L (fun _ => 0) = some s ∧
      ∃ b : List UInt8, ([Call.bytes b, .msg (fun _ _ => some 0)].foldlM callStep s) = .error .oobRead := by
    intro L hL
    simp only [List.mem_cons, List.not_mem_nil, or_false] at hL
    rcases hL with rfl | rfl | rfl | rfl | rfl
    · exact ⟨_, rfl, [], rfl⟩
    · exact ⟨_, rfl, [0x3A], rfl⟩
    · exact ⟨_, rfl, [0x3A, 0x0D, 0x0A], rfl⟩
    · exact ⟨_, rfl, [0x3A, 0, 0x0D, 0x0A], rfl⟩
    · exact ⟨_, rfl, [0x3A, 0, 0, 0x0D, 0x0A], rfl⟩
  obtain ⟨s, h1, b, h2⟩ := key L hL
  obtain ⟨s', h3, -⟩ := h _ s h1 [Call.bytes b, .msg (fun _ _ => some 0)]
  rw [h2] at h3
  exact absurd h3 (by simp)

/-- With message length 2 the search never finds a candidate: one byte would have to be both the
first byte and the last but one. -/
theorem scan_two (crc : CrcUnit) (d : Nat → UInt8) (used start : Nat) (h : start + used ≤ bufLen) :
    ∃ start' used', scan crc 2 used d start = .ok (none, d, start', used') ∧
      start' + used' = start + used ∧ start ≤ start' := by
  induction used generalizing start with
  | zero => exact ⟨start, 0, by unfold scan; rw [if_pos (by omega)], rfl, Nat.le_refl _⟩
  | succ used ih =>
    unfold scan
    by_cases hu : used + 1 < 2
    · rw [if_pos hu]
      exact ⟨start, used + 1, rfl, rfl, Nat.le_refl _⟩
    · rw [if_neg hu, if_neg (by omega), if_neg (by omega)]
      have hno : ¬ (d start = 0x3A ∧ d (start + 2 - 2) = 0x0D ∧ d (start + 2 - 1) = 0x0A) := by
        rintro ⟨h1, h2, -⟩
        rw [show start + 2 - 2 = start by omega, h1] at h2
        exact absurd h2 (by decide)
      obtain ⟨a, b, e1, e2, e3⟩ := ih (start + 1) (by omega)
      simp only [if_neg hno]
      exact ⟨a, b, e1, by omega, by omega⟩

/-- **C30, length 2** is accepted as well; such a decoder is safe, and never returns a message. -/
theorem C30_length_two : SafeFor 2 := by
  intro d s h calls
  have hinv : s.start ≤ s.stop ∧ s.stop + s.avail = bufLen ∧ s.msgLen = 2 := by
    unfold init at h
    rw [if_neg (by decide)] at h
    injection h with h
    subst h
    exact ⟨Nat.le_refl _, rfl, rfl⟩
  clear h
  suffices H : ∃ s', calls.foldlM callStep s = .ok s' ∧
      s'.start ≤ s'.stop ∧ s'.stop + s'.avail = bufLen ∧ s'.msgLen = 2 by
    obtain ⟨s', h1, h2, h3, -⟩ := H
    exact ⟨s', h1, h2, h3⟩
  induction calls generalizing s with
  | nil => exact ⟨s, rfl, hinv⟩
  | cons c calls ih =>
    obtain ⟨i1, i2, i3⟩ := hinv
    rw [List.foldlM_cons]
    cases c with
    | bytes b =>
      simp only [callStep, recvBytes]
      by_cases hb : s.avail < b.length
      · rw [if_pos hb]
        exact ih s ⟨i1, i2, i3⟩
      · rw [if_neg hb, if_neg (by omega)]
        exact ih _ ⟨by dsimp only; omega, by dsimp only; omega, i3⟩
    | msg crc =>
      obtain ⟨a, u, e1, e2, e3⟩ := scan_two crc s.data (s.stop - s.start) s.start (by omega)
      have hm : recvMsg crc s = .ok (none, compact { s with data := s.data, start := a } u) := by
        unfold recvMsg
        rw [i3, e1]
        dsimp only
        rw [if_neg (by omega)]
      simp only [callStep, hm, Except.map, bind, Except.bind]
      refine ih _ ?_
      unfold compact
      split_ifs with hs
      · dsimp only at hs ⊢
        exact ⟨Nat.zero_le _, by omega, i3⟩
      · dsimp only at hs ⊢
        exact ⟨by omega, i2, i3⟩

/-- **C30, exactly**: the lengths for which the decoder stays inside its buffer. (Lengths above 1024
are refused by the initialiser.) -/
theorem C30_safe_iff (L : Nat) : SafeFor L ↔ L = 2 ∨ 6 ≤ L := by
  constructor
  · intro h
    by_contra hn
    have hl : L ∈ [0, 1, 3, 4, 5] := by
      have : L = 0 ∨ L = 1 ∨ L = 3 ∨ L = 4 ∨ L = 5 := by omega
      simpa using this
    exact C30_short_lengths_unsafe L hl h
  · rintro (rfl | h)
    · exact C30_length_two
    · exact C30_safe_partial L h

/-! ## C31: soundness -/

/-- History with observations: accepted bytes and returned messages with the
checksum function in force. -/
structure Obs where
  dec : Dec
  accepted : List UInt8
  returned : List (List UInt8 × (List UInt8 → UInt32))

/-- One call with observations. -/
def obsStep (o : Obs) : Call → C Obs
  | .bytes b =>
    match recvBytes o.dec b with
    | .error e => .error e
    | .ok (true, s) => .ok { o with dec := s, accepted := o.accepted ++ b }
    | .ok (false, s) => .ok { o with dec := s }
  | .msg crc =>
    match recvMsg crc o.dec with
    | .error e => .error e
    | .ok (some off, s) =>
      .ok { o with dec := s, returned := o.returned ++
        [(slice s.data off s.msgLen, fun z => (crc off z).getD 0)] }
    | .ok (none, s) => .ok { o with dec := s }

/-- **C31.** Whatever the calls and the CRC unit do, every returned message is a
contiguous run of the accepted bytes, unmodified, and a valid frame of the
configured length under the checksum the unit delivered. -/
theorem C31_sound (L : Nat) (hL : 6 ≤ L) (d : Nat → UInt8) (s : Dec) (h : init L d = some s)
    (calls : List Call) :
    ∃ o, calls.foldlM obsStep ⟨s, [], []⟩ = .ok o ∧
      ∀ m f, (m, f) ∈ o.returned → m <:+: o.accepted ∧ Valid f L m := by
  obtain ⟨hinv, hlen, hcont, -, -⟩ := init_inv hL h
  suffices H : ∀ o : Obs, Inv o.dec → o.dec.msgLen = L → content o.dec <:+ o.accepted →
      (∀ m f, (m, f) ∈ o.returned → m <:+: o.accepted ∧ Valid f L m) →
      ∃ o', calls.foldlM obsStep o = .ok o' ∧
        ∀ m f, (m, f) ∈ o'.returned → m <:+: o'.accepted ∧ Valid f L m by
    exact H ⟨s, [], []⟩ hinv hlen (by rw [hcont]; exact List.nil_suffix) (by simp)
  induction calls with
  | nil => intro o _ _ _ hr; exact ⟨o, rfl, hr⟩
  | cons c calls ih =>
    intro o hi hl hc hr
    rw [List.foldlM_cons]
    cases c with
    | bytes b =>
      obtain ⟨r, s1, e1, e2, e3, e4, e5, -⟩ := recvBytes_spec hi b
      simp only [obsStep, e1]
      cases r with
      | true =>
        refine ih _ e2 (by rw [← hl, ← e3]) ?_ ?_
        · obtain ⟨pre, hp⟩ := hc
          exact ⟨pre, by rw [(e5 rfl).1, ← hp, List.append_assoc]⟩
        · intro m f hm
          obtain ⟨h1, h2⟩ := hr m f hm
          exact ⟨h1.trans (List.infix_append' [] _ _), h2⟩
      | false =>
        exact ih _ e2 (by rw [← hl, ← e3]) (by rw [e4 rfl]; exact hc) hr
    | msg crc =>
      obtain ⟨r, s1, e1, e2, e3, e4, e5⟩ := recvMsg_spec crc hi
      simp only [obsStep, e1]
      cases r with
      | none =>
        exact ih _ e2 (by rw [← hl, ← e3]) ((e4 rfl).2.2.1.trans hc) hr
      | some off =>
        obtain ⟨g1, g2, g3, g4, g5, ⟨pre, g6⟩, g7⟩ := e5 off rfl
        have hm : slice s1.data off s1.msgLen <:+: o.accepted := by
          refine List.IsInfix.trans ?_ hc.isInfix
          rw [e3, g6]
          exact ⟨pre, content s1, rfl⟩
        refine ih _ e2 (by rw [← hl, ← e3]) ?_ ?_
        · refine List.IsSuffix.trans ?_ hc
          rw [g6]
          exact List.suffix_append _ _
        · intro m f hmem
          rcases List.mem_append.mp hmem with h1 | h1
          · exact hr m f h1
          · simp only [List.mem_singleton, Prod.mk.injEq] at h1
            obtain ⟨rfl, rfl⟩ := h1
            refine ⟨hm, ?_⟩
            rw [e3, g4, ← hl]
            exact g5

/-! ## C32: completeness and independence of the cut -/

/-- Calling `RecvMsg` until it returns false, with the messages returned. -/
inductive Drained (crc : CrcUnit) : Dec → List (List UInt8) → Dec → Prop
  | stop {s s'} : recvMsg crc s = .ok (none, s') → Drained crc s [] s'
  | more {s s1 s' off ms} : recvMsg crc s = .ok (some off, s1) → Drained crc s1 ms s' →
      Drained crc s (slice s1.data off s.msgLen :: ms) s'

/-- Batches fed one after the other, each accepted, the decoder drained after each. -/
inductive Session (crc : CrcUnit) : Dec → List (List UInt8) → List (List UInt8) → Dec → Prop
  | nil {s} : Session crc s [] [] s
  | cons {s s1 s2 s3 b bs ms ms'} : recvBytes s b = .ok (true, s1) → Drained crc s1 ms s2 →
      Session crc s2 bs ms' s3 → Session crc s (b :: bs) (ms ++ ms') s3

/-- A CRC unit that always computes `f`. -/
def unit (f : List UInt8 → UInt32) : CrcUnit := fun _ m => some (f m)

theorem drained_spec {f : List UInt8 → UInt32} {s s' : Dec} {ms : List (List UInt8)} (hi : Inv s)
    (h : Drained (unit f) s ms s') :
    Inv s' ∧ s'.msgLen = s.msgLen ∧ s'.start ≤ 1 ∧
      Parse (Valid f s.msgLen) s.msgLen (content s) ms (content s') := by
  induction h with
  | @stop s s' h =>
    obtain ⟨r, s1, e1, e2, e3, e4, -⟩ := recvMsg_spec (unit f) hi
    rw [h] at e1
    injection e1 with e1
    injection e1 with e1 e1'
    subst e1 e1'
    obtain ⟨-, g2, -, g4⟩ := e4 rfl
    exact ⟨e2, e3, g2, g4 _ (fun p => Iff.rfl)⟩
  | @more s s1 s' off ms h _ ih =>
    obtain ⟨r, s1', e1, e2, e3, -, e5⟩ := recvMsg_spec (unit f) hi
    rw [h] at e1
    injection e1 with e1
    injection e1 with e1 e1'
    subst e1 e1'
    obtain ⟨-, -, -, -, -, -, g7⟩ := e5 off rfl
    obtain ⟨i1, i2, i3, i4⟩ := ih e2
    rw [e3] at i4
    exact ⟨i1, by rw [i2, e3], i3, g7 _ (fun p => Iff.rfl) _ _ i4⟩

/-- Draining ends. -/
theorem drained_exists (crc : CrcUnit) {s : Dec} (hi : Inv s) : ∃ ms s', Drained crc s ms s' := by
  induction hn : s.stop - s.start using Nat.strongRecOn generalizing s with
  | _ n ih =>
    obtain ⟨r, s1, e1, e2, e3, -, e5⟩ := recvMsg_spec crc hi
    cases r with
    | none => exact ⟨_, _, .stop e1⟩
    | some off =>
      obtain ⟨g1, g2, g3, -⟩ := e5 off rfl
      have := hi.low; have := e2.ordered
      obtain ⟨ms, s', h⟩ := ih (s1.stop - s1.start) (by omega) e2 rfl
      exact ⟨_, _, .more e1 h⟩

/-- **C32, chunking.** However the stream is cut into accepted batches, the
messages returned are the greedy left-to-right parse of the whole stream, and the
bytes left in the decoder are the parse's rest. -/
theorem C32_greedy_parse (f : List UInt8 → UInt32) (L : Nat) (hL : 6 ≤ L) (d : Nat → UInt8) (s s' : Dec)
    (h : init L d = some s) (bs ms : List (List UInt8)) (hs : Session (unit f) s bs ms s') :
    Parse (Valid f L) L bs.flatten ms (content s') := by
  obtain ⟨hinv, hlen, hcont, -, -⟩ := init_inv hL h
  suffices H : Inv s → s.msgLen = L → (content s).length < L →
      Parse (Valid f L) L (content s ++ bs.flatten) ms (content s') by
    have := H hinv hlen (by rw [hcont]; simp; omega)
    rwa [hcont] at this
  clear h hinv hlen hcont
  induction hs with
  | nil =>
    intro _ _ hl
    simpa using Parse.done (V := Valid f L) hl
  | @cons s s1 s2 s3 b bs ms ms' h1 h2 _ ih =>
    intro hi hlen hlt
    obtain ⟨r, t, e1, e2, e3, -, e5, -⟩ := recvBytes_spec hi b
    rw [h1] at e1
    injection e1 with e1
    injection e1 with e1 e1'
    subst e1 e1'
    obtain ⟨g1, g2, g3, g4⟩ := drained_spec e2 h2
    rw [e3, hlen, (e5 rfl).1] at g4
    have := ih g1 (by rw [g2, e3, hlen]) g4.rest_lt
    have := g4.append this
    simpa using this

/-- **C32, no batch is refused.** Batches of up to `1024 - L` bytes are always
accepted when the decoder is drained after each. -/
theorem C32_batches_accepted (f : List UInt8 → UInt32) (L : Nat) (hL : 6 ≤ L) (d : Nat → UInt8) (s : Dec)
    (h : init L d = some s) (bs : List (List UInt8)) (hb : ∀ b ∈ bs, b.length + L ≤ bufLen) :
    ∃ ms s', Session (unit f) s bs ms s' := by
  obtain ⟨hinv, hlen, hcont, hs0, hs1⟩ := init_inv hL h
  suffices H : ∀ s, Inv s → s.msgLen = L → s.start ≤ 1 → (content s).length < L →
      ∃ ms s', Session (unit f) s bs ms s' from
    H s hinv hlen (by omega) (by rw [hcont]; simp; omega)
  clear h hinv hlen hcont hs0 hs1
  induction bs with
  | nil => intro s _ _ _ _; exact ⟨_, _, .nil⟩
  | cons b bs ih =>
    intro s hi hlen hst hlt
    obtain ⟨r, t, e1, e2, e3, -, e5, e6⟩ := recvBytes_spec hi b
    have hroom : b.length ≤ s.avail := by
      rw [content_length] at hlt
      have := hi.space; have := hi.ordered
      have := hb b (by simp)
      omega
    have hr : r = true := e6.mpr hroom
    subst hr
    obtain ⟨ms, s2, hd⟩ := drained_exists (unit f) e2
    obtain ⟨g1, g2, g3, g4⟩ := drained_spec e2 hd
    have hl2 : s2.msgLen = L := by rw [g2, e3, hlen]
    obtain ⟨ms', s3, hs⟩ := ih (fun b' h' => hb b' (List.mem_cons_of_mem _ h')) s2 g1 hl2 g3
      (by have := g4.rest_lt; rwa [e3, hlen] at this)
    exact ⟨_, _, .cons e1 hd hs⟩

/-- **C32, independence.** Two ways of cutting the same stream return the same
messages in the same order. -/
theorem C32_cut_independent (f : List UInt8 → UInt32) (L : Nat) (hL : 6 ≤ L) (d d' : Nat → UInt8)
    (s s' t t' : Dec) (h : init L d = some s) (h' : init L d' = some t) (bs bs' ms ms' : List (List UInt8))
    (hs : Session (unit f) s bs ms s') (ht : Session (unit f) t bs' ms' t')
    (heq : bs.flatten = bs'.flatten) : ms = ms' := by
  have p1 := C32_greedy_parse f L hL d s s' h bs ms hs
  have p2 := C32_greedy_parse f L hL d' t t' h' bs' ms' ht
  rw [heq] at p1
  exact (p1.det p2).1

/-- What the greedy parse returns, by positions: the messages stand at increasing,
non-overlapping positions, each is valid, and every valid frame of the stream is
returned unless it overlaps one that starts before it and was returned. -/
theorem C32_parse_positions (V : List UInt8 → Prop) (L : Nat) (l : List UInt8)
    (ms : List (List UInt8)) (r : List UInt8) (h : Parse V L l ms r) :
    ∃ qs : List Nat, ms = qs.map (fun q => (l.drop q).take L) ∧
      qs.Pairwise (fun a b => a + L ≤ b) ∧
      (∀ q ∈ qs, q + L ≤ l.length ∧ V ((l.drop q).take L)) ∧
      ∀ p, p + L ≤ l.length → V ((l.drop p).take L) → ∃ q ∈ qs, q ≤ p ∧ p < q + L := by
  induction h with
  | done h1 => exact ⟨[], rfl, List.Pairwise.nil, by simp, fun p hp _ => by omega⟩
  | @hit l ms r h1 h2 _ ih =>
    obtain ⟨qs, e1, e2, e3, e4⟩ := ih
    have hd : ∀ q, (l.drop L).drop q = l.drop (q + L) := by
      intro q; rw [List.drop_drop]; congr 1; omega
    refine ⟨0 :: qs.map (· + L), ?_, ?_, ?_, ?_⟩
    · rw [e1]
      simp only [List.map_cons, List.drop_zero, List.map_map, List.cons.injEq, true_and]
      apply List.map_congr_left
      intro q _
      simp only [Function.comp, hd]
    · rw [List.pairwise_cons]
      refine ⟨?_, ?_⟩
      · intro a ha
        rw [List.mem_map] at ha
        obtain ⟨q, -, rfl⟩ := ha
        omega
      · rw [List.pairwise_map]
        exact e2.imp (fun h => by omega)
    · intro q hq
      rcases List.mem_cons.mp hq with rfl | hq
      · exact ⟨by omega, by simpa using h2⟩
      · rw [List.mem_map] at hq
        obtain ⟨q', hq', rfl⟩ := hq
        obtain ⟨g1, g2⟩ := e3 q' hq'
        rw [List.length_drop] at g1
        rw [hd] at g2
        exact ⟨by omega, g2⟩
    · intro p hp hv
      by_cases hpl : p < L
      · exact ⟨0, by simp, by omega, by omega⟩
      · obtain ⟨q, hq, g1, g2⟩ := e4 (p - L) (by rw [List.length_drop]; omega) (by
          rw [hd, show p - L + L = p by omega]; exact hv)
        exact ⟨q + L, List.mem_cons_of_mem _ (List.mem_map_of_mem hq), by omega, by omega⟩
  | @skip b l ms r h1 h2 _ ih =>
    obtain ⟨qs, e1, e2, e3, e4⟩ := ih
    refine ⟨qs.map (· + 1), ?_, ?_, ?_, ?_⟩
    · rw [e1, List.map_map]
      rfl
    · rw [List.pairwise_map]
      exact e2.imp (fun h => by omega)
    · intro q hq
      rw [List.mem_map] at hq
      obtain ⟨q', hq', rfl⟩ := hq
      obtain ⟨g1, g2⟩ := e3 q' hq'
      exact ⟨by rw [List.length_cons]; omega, g2⟩
    · intro p hp hv
      cases p with
      | zero => exact absurd (by simpa using hv) h2
      | succ p =>
        obtain ⟨q, hq, g1, g2⟩ := e4 p (by rw [List.length_cons] at hp; omega) hv
        exact ⟨q + 1, List.mem_map_of_mem hq, by omega, by omega⟩

/-! ## C33: round trip -/

/-- The frame the encoder builds in a buffer with arbitrary old contents. -/
def encode (f : List UInt8 → Option UInt32) (addr func : UInt16) (payload buf : List UInt8) :
    Option (List UInt8) :=
  (initFrame addr func payload.length buf).map fun b => updateCrc f (putPayload b payload)

/-- The header bytes of a frame. -/
def header (addr func : UInt16) : List UInt8 :=
  [0x3A, (addr >>> 8).toUInt8, addr.toUInt8, (func >>> 8).toUInt8, func.toUInt8]

theorem initFrame_eq (addr func : UInt16) (n : Nat) (buf : List UInt8) (h : buf.length = n + 11) :
    ∃ mid : List UInt8, mid.length = n + 4 ∧
      initFrame addr func n buf = some (header addr func ++ mid ++ [0x0D, 0x0A]) := by
  unfold initFrame
  rw [if_neg (by omega)]
  obtain ⟨b0, b1, b2, b3, b4, rest, rfl, hr⟩ : ∃ b0 b1 b2 b3 b4 rest,
      buf = b0 :: b1 :: b2 :: b3 :: b4 :: rest ∧ rest.length = n + 6 := by
    match buf, h with
    | b0 :: b1 :: b2 :: b3 :: b4 :: rest, h => exact ⟨b0, b1, b2, b3, b4, rest, rfl, by simpa using h⟩
  obtain ⟨mid, x, y, rfl, hm⟩ : ∃ mid x y, rest = mid ++ [x, y] ∧ mid.length = n + 4 := by
    refine ⟨rest.take (n + 4), rest[n + 4]'(by omega), rest[n + 5]'(by omega), ?_, by rw [List.length_take]; omega⟩
    conv_lhs => rw [← List.take_append_drop (n + 4) rest]
    congr 1
    rw [List.drop_eq_getElem_cons (by omega), List.drop_eq_getElem_cons (by omega), List.drop_of_length_le (by omega)]
  refine ⟨mid, hm, ?_⟩
  have e1 : (b0 :: b1 :: b2 :: b3 :: b4 :: (mid ++ [x, y])).length - 2 = mid.length + 5 := by simp
  have e2 : (b0 :: b1 :: b2 :: b3 :: b4 :: (mid ++ [x, y])).length - 1 = mid.length + 6 := by simp
  rw [e1, e2]
  simp [header]

/-- The bytes of an encoded frame. -/
theorem encode_eq (f : List UInt8 → Option UInt32) (addr func : UInt16) (payload buf : List UInt8)
    (h : buf.length = payload.length + 11) :
    encode f addr func payload buf = some (header addr func ++ payload ++
      be32 ((f (header addr func ++ payload ++ [0, 0, 0, 0] ++ [0x0D, 0x0A])).getD 0) ++ [0x0D, 0x0A]) := by
  obtain ⟨mid, hm, e⟩ := initFrame_eq addr func payload.length buf h
  unfold encode
  rw [e]
  simp only [Option.map_some, Option.some.injEq]
  have hp : putPayload (header addr func ++ mid ++ [0x0D, 0x0A]) payload =
      header addr func ++ payload ++ mid.drop payload.length ++ [0x0D, 0x0A] := by
    unfold putPayload
    have h5 : (header addr func).length = 5 := rfl
    have t1 : (header addr func ++ mid ++ [0x0D, 0x0A]).take 5 = header addr func := by
      rw [List.append_assoc, List.take_left' h5]
    have t2 : (header addr func ++ mid ++ [0x0D, 0x0A]).drop (5 + payload.length) =
        mid.drop payload.length ++ [0x0D, 0x0A] := by
      rw [List.append_assoc (header addr func), List.drop_append, h5,
        List.drop_eq_nil_of_le (by rw [h5]; omega),
        List.nil_append, show 5 + payload.length - 5 = payload.length by omega,
        List.drop_append_of_le_length (by omega)]
    rw [t1, t2]
    simp
  rw [hp]
  unfold updateCrc
  have hlen : (header addr func ++ payload ++ mid.drop payload.length ++ [0x0D, 0x0A]).length =
      payload.length + 11 := by
    simp [header, hm]
  have h4 : (mid.drop payload.length).length = 4 := by simp [hm]
  have hx : (header addr func ++ payload).length = payload.length + 5 := by simp [header]
  dsimp only
  rw [hlen, show payload.length + 11 - 6 = payload.length + 5 by omega]
  have ht : (header addr func ++ payload ++ mid.drop payload.length ++ [0x0D, 0x0A]).take (payload.length + 5) =
      header addr func ++ payload := by
    rw [List.append_assoc, List.take_left' hx]
  have hd : (header addr func ++ payload ++ mid.drop payload.length ++ [0x0D, 0x0A]).drop (payload.length + 5 + 4) =
      [0x0D, 0x0A] := by
    rw [List.drop_left' (by rw [List.length_append, hx, h4])]
  rw [ht, hd]

/-- **C33.** For every address, function, payload and checksum function: the
encoded frame is valid, carries address, function and payload, and a decoder of
the same length that receives it returns exactly it. -/
theorem C33_round_trip (f : List UInt8 → UInt32) (addr func : UInt16) (payload buf : List UInt8)
    (hlen : buf.length = payload.length + 11) (hmax : payload.length + 11 ≤ bufLen)
    (d : Nat → UInt8) :
    ∃ frame s s1 s2, encode (fun m => some (f m)) addr func payload buf = some frame ∧
      Valid f (payload.length + 11) frame ∧
      (frame[1]?.map (·.toNat * 256)).bind (fun hi => frame[2]?.map (hi + ·.toNat)) = some addr.toNat ∧
      (frame[3]?.map (·.toNat * 256)).bind (fun hi => frame[4]?.map (hi + ·.toNat)) = some func.toNat ∧
      (frame.drop 5).take payload.length = payload ∧
      init (payload.length + 11) d = some s ∧
      recvBytes s frame = .ok (true, s1) ∧ recvMsg (unit f) s1 = .ok (some 0, s2) ∧
      slice s2.data 0 (payload.length + 11) = frame := by
  have he := encode_eq (fun m => some (f m)) addr func payload buf hlen
  simp only [Option.getD_some] at he
  generalize hframe : header addr func ++ payload ++
      be32 (f (header addr func ++ payload ++ [0, 0, 0, 0] ++ [0x0D, 0x0A])) ++ [0x0D, 0x0A] = frame at he
  have hx : (header addr func ++ payload).length = payload.length + 5 := by simp [header]
  have hfl : frame.length = payload.length + 11 := by
    rw [← hframe]; simp [header, be32_length]
  have hwith : ∀ c, withCrc frame c = header addr func ++ payload ++ c ++ [0x0D, 0x0A] := by
    intro c
    unfold withCrc
    rw [hfl, ← hframe, show payload.length + 11 - 6 = payload.length + 5 by omega,
      show payload.length + 11 - 2 = payload.length + 9 by omega]
    rw [List.drop_left' (by rw [List.length_append, hx, be32_length])]
    rw [List.append_assoc (header addr func ++ payload), List.take_left' hx]
  have hv : Valid f (payload.length + 11) frame := by
    refine ⟨hfl, ?_, ?_, ?_, ?_⟩
    · rw [← hframe]; rfl
    · rw [← hframe, List.getElem?_append_right (by rw [List.length_append, hx, be32_length]; omega),
        List.length_append, hx, be32_length]
      rw [show payload.length + 11 - 2 - (payload.length + 5 + 4) = 0 by omega]; rfl
    · rw [← hframe, List.getElem?_append_right (by rw [List.length_append, hx, be32_length]; omega),
        List.length_append, hx, be32_length]
      rw [show payload.length + 11 - 1 - (payload.length + 5 + 4) = 1 by omega]; rfl
    · rw [hwith, hwith, be_eq]; exact hframe.symm
  have h16 : ∀ v : UInt16, (v >>> 8).toUInt8.toNat * 256 + v.toUInt8.toNat = v.toNat := by
    intro v
    have := v.toNat_lt
    simp [Nat.shiftRight_eq_div_pow]
    omega
  have hinit : ∃ s, init (payload.length + 11) d = some s := by
    unfold init; rw [if_neg (by omega)]; exact ⟨_, rfl⟩
  obtain ⟨s, hs⟩ := hinit
  obtain ⟨hinv, hL, hcont, h0, h1⟩ := init_inv (by omega) hs
  obtain ⟨r, s1, e1, e2, e3, -, e5, e6⟩ := recvBytes_spec hinv frame
  have hroom : r = true := e6.mpr (by have := hinv.space; omega)
  subst hroom
  obtain ⟨c1, c2, c3⟩ := e5 rfl
  rw [hcont, List.nil_append] at c1
  have hdata : slice s1.data 0 (payload.length + 11) = frame := by
    unfold content at c1
    rw [c2, c3, h0, h1, Nat.zero_add, Nat.sub_zero, hfl] at c1
    exact c1
  obtain ⟨r2, s2, g1, g2, g3, g4, g5⟩ := recvMsg_spec (unit f) e2
  have hacc : Acc (unit f) s1.msgLen s1.data 0 := by
    unfold Acc
    rw [e3, hL, hdata]
    exact hv
  refine ⟨frame, s, s1, s2, he, hv, ?_, ?_, ?_, hs, e1, ?_, ?_⟩
  · rw [← hframe]
    show some ((addr >>> 8).toUInt8.toNat * 256 + addr.toUInt8.toNat) = _
    rw [h16]
  · rw [← hframe]
    show some ((func >>> 8).toUInt8.toNat * 256 + func.toUInt8.toNat) = _
    rw [h16]
  · rw [← hframe]
    have h5 : (header addr func).length = 5 := rfl
    rw [List.append_assoc, List.append_assoc, List.drop_left' h5, List.take_left]
  · cases r2 with
    | some off =>
      obtain ⟨k1, k2, k3, -⟩ := g5 off rfl
      have := g2.ordered
      have : off = 0 := by omega
      rw [g1, this]
    | none =>
      exfalso
      obtain ⟨k1, k2, k3, k4⟩ := g4 rfl
      have hp := k4 (Valid f s1.msgLen) (fun p => Iff.rfl)
      rw [c1] at hp
      cases hp with
      | done h => omega
      | skip h hn _ =>
        apply hn
        rw [List.take_of_length_le (by omega), e3, hL]
        exact hv
  · cases r2 with
    | some off =>
      obtain ⟨-, -, -, k4, -⟩ := g5 off rfl
      rw [k4, hdata]
    | none =>
      exfalso
      obtain ⟨k1, k2, k3, k4⟩ := g4 rfl
      have hp := k4 (Valid f s1.msgLen) (fun p => Iff.rfl)
      rw [c1] at hp
      cases hp with
      | done h => omega
      | skip h hn _ =>
        apply hn
        rw [List.take_of_length_le (by omega), e3, hL]
        exact hv

/-! ## C34: CRC unit failure -/

/-- C34 in full: while the CRC unit fails, no message is returned. -/
def NothingWithoutCrc : Prop :=
  ∀ (L : Nat) (d : Nat → UInt8) (s s1 : Dec) (bytes : List UInt8), 11 ≤ L → init L d = some s →
    recvBytes s bytes = .ok (true, s1) → ∃ s2, recvMsg (fun _ _ => none) s1 = .ok (none, s2)

/-- A test command "assert the ECU error" with an all-zero CRC field. -/
def forged : List UInt8 := [0x3A, 0, 1, 1, 1, 0, 0, 0, 0, 0, 0, 0, 1, 0, 0, 0, 0, 0x0D, 0x0A]

/-- **C34 is false.** While the CRC unit fails, frames whose CRC field is zero are
accepted. -/
theorem C34_zero_field_accepted : ¬ NothingWithoutCrc := by
  intro h
  obtain ⟨s2, h2⟩ := h 19 (fun _ => 0) ⟨19, 0, 0, 1024, fun _ => 0⟩
    ⟨19, 0, 19, 1005, store (fun _ => 0) 0 forged⟩ forged (by omega) rfl rfl
  have hscan : (recvMsg (fun _ _ => none) ⟨19, 0, 19, 1005, store (fun _ => 0) 0 forged⟩).map (·.1) =
      .ok (some 0) := rfl
  rw [h2] at hscan
  exact absurd hscan (by simp [Except.map])

/-- **C34, what holds.** While the CRC unit fails, only frames with a zero CRC
field are returned. -/
theorem C34_only_zero_field_partial {s s2 : Dec} (hi : Inv s) {off : Nat}
    (h : recvMsg (fun _ _ => none) s = .ok (some off, s2)) :
    slice s2.data off s.msgLen = withCrc (slice s2.data off s.msgLen) [0, 0, 0, 0] := by
  obtain ⟨r, s1, e1, e2, e3, -, e5⟩ := recvMsg_spec (fun _ _ => none) hi
  rw [h] at e1
  injection e1 with e1
  injection e1 with e1 e1'
  subst e1 e1'
  obtain ⟨-, -, -, g4, g5, -⟩ := e5 off rfl
  rw [g4]
  have hsum := g5.sum
  have hz : be 0 = [0, 0, 0, 0] := by decide
  simp only [Option.getD_none, hz] at hsum
  exact hsum

example : (recvMsg (unit fun _ => 0) ⟨19, 0, 19, 1005, store (fun _ => 0) 0 forged⟩).map (·.1) =
    .ok (some 0) := rfl

end Verif.MsgFrame
