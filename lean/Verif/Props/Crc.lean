import Verif.Proofs.Crc

set_option autoImplicit false

/-!
# C81, C82: the checksum on both ends of the link, and what it detects
-/

namespace Verif.Crc
open CrcSpec FrameSpec

/-- C81: the PC tool computes, for every message, the number that the VCU's CRC unit
computes when fed as the firmware feeds it. -/
theorem C81_same_checksum (m : List UInt8) : crc32mpeg2 m = (hal m).toNat := by
  rw [py_eq, hal]
  show _ = (handle8 m 0xFFFFFFFF#32).toNat
  rw [handle8_bytes]

/-- C81 for the firmware's own function: it returns that number whenever it gets hold of the CRC unit, and
reports failure otherwise. -/
theorem C81_when_locked (locked : Bool) (m : List UInt8) :
    (calculate locked m).map UInt32.toNat = if locked then some (crc32mpeg2 m) else none := by
  cases locked
  · rfl
  · simp only [calculate, if_true, Option.map_some, C81_same_checksum]

/-- Check value of CRC-32/MPEG-2 for "123456789"; an odd number of trailing bytes. -/
example : hal [0x31, 0x32, 0x33, 0x34, 0x35, 0x36, 0x37, 0x38, 0x39] = 0x0376E6E7 := by decide +kernel

/-- C82 (part): a change of the bytes before the checksum that is confined to 32
consecutive bits is detected. -/
theorem C82_burst_partial {L : Nat} {m m' : List UInt8} (hv : Valid hal L m)
    (hd : m'.drop (L - 6) = m.drop (L - 6)) (hb : Burst 32 (m.take (L - 6)) (m'.take (L - 6))) : ¬ Valid hal L m' := by
  intro hv'
  obtain ⟨a, c0, c1, c2, c3, rfl, h1, -, h3⟩ := (valid_iff L m).mp hv
  obtain ⟨a', d0, d1, d2, d3, rfl, g1, -, g3⟩ := (valid_iff L m').mp hv'
  have hL : L - 6 = a.length := by simp at h1; omega
  have hL' : L - 6 = a'.length := by simp at g1; omega
  rw [hL, List.take_left' rfl, List.take_left' (by omega)] at hb
  rw [hL, List.drop_left' rfl, List.drop_left' (by omega)] at hd
  injection hd with e0 hd
  injection hd with e1 hd
  injection hd with e2 hd
  injection hd with e3 hd
  subst e0 e1 e2 e3
  rw [h3, bytes_bits, bytes_bits, bits_append, bits_append, List.foldl_append, List.foldl_append] at g3
  have g4 := feed_injective _ g3
  obtain ⟨p, u, v, s, e1, e2, e3, e4, e5⟩ := hb
  rw [e1, e2, List.foldl_append, List.foldl_append, List.foldl_append, List.foldl_append] at g4
  have g5 := feed_injective _ g4
  rw [feed_top u _ e4, feed_top v _ (by omega), e3] at g5
  have g6 := shifts_injective g5
  apply e5
  apply top_injective e3 e4
  rw [BitVec.xor_comm _ (top u), BitVec.xor_comm _ (top v)] at g6
  have : ∀ x y z : BitVec 32, x ^^^ z = y ^^^ z → x = y := by
    intro x y z h
    have h2 : (x ^^^ z) ^^^ z = (y ^^^ z) ^^^ z := by rw [h]
    simpa [BitVec.xor_assoc] using h2
  exact this _ _ _ g6

example : ¬ Valid hal 12 [0x3A, 0, 2, 0, 1, 0x54, 0xD0, 0xFB, 0xF5, 0x38, 0x0D, 0x0A] :=
  C82_burst_partial (m := [0x3A, 0, 2, 0, 1, 0x55, 0xD0, 0xFB, 0xF5, 0x38, 0x0D, 0x0A])
    ⟨rfl, rfl, rfl, rfl, by decide +kernel⟩ rfl
    ⟨(bits [0x3A, 0, 2, 0, 1, 0x55]).take 47, [true], [false], [], by decide +kernel, by decide +kernel, rfl, by decide,
      by decide⟩

/-- C82 (part): any change confined to the checksum and what follows it is detected. -/
theorem C82_field_partial {L : Nat} {m m' : List UInt8} (hv : Valid hal L m)
    (hd : m'.take (L - 6) = m.take (L - 6)) (hne : m' ≠ m) : ¬ Valid hal L m' := by
  intro hv'
  obtain ⟨a, c0, c1, c2, c3, rfl, h1, -, h3⟩ := (valid_iff L m).mp hv
  obtain ⟨a', d0, d1, d2, d3, rfl, g1, -, g3⟩ := (valid_iff L m').mp hv'
  have hL : L - 6 = a.length := by simp at h1; omega
  have hL' : L - 6 = a'.length := by simp at g1; omega
  rw [hL, List.take_left' rfl, List.take_left' (by omega)] at hd
  subst hd
  rw [← h3] at g3
  obtain ⟨rfl, rfl, rfl, rfl⟩ := word_injective g3
  exact hne rfl

/-- C82 (part): frames of the VCU's message lengths (up to 43 bytes) with up to three
bits changed, anywhere, are detected; frames up to the decoder's maximum of 1024 bytes
with up to two. -/
theorem C82_bits_partial {L : Nat} {m m' : List UInt8} (hv : Valid hal L m) (hv' : Valid hal L m') (hne : m ≠ m') :
    (L ≤ 1024 → 3 ≤ distance m m') ∧ (L ≤ 43 → 4 ≤ distance m m') := by
  obtain ⟨E, h1, h2, h3, h4⟩ := syndrome hv hv'
  rw [← h1]
  have h0 : E ≠ [] := by
    rintro rfl
    apply hne
    apply bits_injective
    exact zip_zero (by rw [bits_length, bits_length, hv.len, hv'.len]) h1.symm
  refine ⟨fun hL => ?_, fun hL => ?_⟩
  · match E, h0 with
    | [e], _ => simp at h4; exact absurd h4 (vec_ne_zero e)
    | [e, f], _ =>
      simp at h4 h2 h3
      exact absurd (xor_eq_zero.mpr h4) (two_terms e f h2 (by omega))
    | _ :: _ :: _ :: _, _ => simp
  · match E, h0 with
    | [e], _ => simp at h4; exact absurd h4 (vec_ne_zero e)
    | [e, f], _ =>
      simp at h4 h2 h3
      exact absurd (xor_eq_zero.mpr h4) (two_terms e f h2 (by omega))
    | [e, f, g], _ =>
      simp at h4 h2 h3
      exact absurd (xor_eq_zero.mpr h4) (three_terms e f g h2.1.1 h2.2 (by omega))
    | _ :: _ :: _ :: _ :: _, _ => simp

/-- C82 fails as a statement about all positions: every valid frame, with the last byte
before the checksum changed by 07 and the checksum by E8 65 05 C0, is again valid. -/
theorem C82_undetected (a : List UInt8) (ha : a ≠ []) (b c0 c1 c2 c3 : UInt8) (L : Nat)
    (hv : Valid hal L (a ++ [b, c0, c1, c2, c3, 0x0D, 0x0A])) :
    Valid hal L (a ++ [b ^^^ 0x07, c0 ^^^ 0xE8, c1 ^^^ 0x65, c2 ^^^ 0x05, c3 ^^^ 0xC0, 0x0D, 0x0A]) ∧
    Burst 29 (a ++ [b, c0, c1, c2, c3, 0x0D, 0x0A])
      (a ++ [b ^^^ 0x07, c0 ^^^ 0xE8, c1 ^^^ 0x65, c2 ^^^ 0x05, c3 ^^^ 0xC0, 0x0D, 0x0A]) := by
  constructor
  · obtain ⟨a', d0, d1, d2, d3, e, h1, h2, h3⟩ := (valid_iff L _).mp hv
    rw [show a ++ [b, c0, c1, c2, c3, 0x0D, 0x0A] = (a ++ [b]) ++ [c0, c1, c2, c3, 0x0D, 0x0A] by simp] at e
    obtain ⟨e1, e2⟩ := List.append_inj' e rfl
    subst e1
    injection e2 with q0 e2
    injection e2 with q1 e2
    injection e2 with q2 e2
    injection e2 with q3 e2
    subst q0 q1 q2 q3
    refine (valid_iff L _).mpr ⟨a ++ [b ^^^ 0x07], c0 ^^^ 0xE8, c1 ^^^ 0x65, c2 ^^^ 0x05, c3 ^^^ 0xC0,
      by simp, by simpa using h1, ?_, ?_⟩
    · cases a with
      | nil => exact absurd rfl ha
      | cons x a => simpa using h2
    · rw [word_xor, h3]
      have hlin : ∀ (r : BitVec 32), bytes [b ^^^ 0x07, 0, 0, 0, 0, 0x0D, 0x0A] r =
          bytes [b, 0, 0, 0, 0, 0x0D, 0x0A] r ^^^ bytes [0x07, 0, 0, 0, 0, 0, 0] 0#32 := by
        intro r
        have h7 := writeByte_xor b 0x07 r 0#32
        have hz : ∀ x : UInt8, ∀ r s : BitVec 32, writeByte (r ^^^ s) x = writeByte r x ^^^ writeByte s 0 := by
          intro x r s
          rw [← writeByte_xor, UInt8.xor_zero]
        rw [BitVec.xor_zero] at h7
        simp only [bytes, List.foldl_cons, List.foldl_nil]
        rw [h7, hz, hz, hz, hz, hz, hz]
      have hs : ∀ x, a ++ [x] ++ [0, 0, 0, 0, 0x0D, 0x0A] = a ++ [x, 0, 0, 0, 0, 0x0D, 0x0A] := by intro x; simp
      rw [hs, hs]
      have happ : ∀ (x y : List UInt8) (r : BitVec 32), bytes (x ++ y) r = bytes y (bytes x r) := by
        intro x y r; exact List.foldl_append
      rw [happ, happ, hlin, undetected_sum]
  · have f5 : ∀ b : UInt8, (byteBits (b ^^^ 0x07)).take 5 = (byteBits b).take 5 ∧
        (byteBits (b ^^^ 0x07)).drop 5 ≠ (byteBits b).drop 5 := by
      have : ∀ i : Fin 256, (byteBits (UInt8.ofNat i ^^^ 0x07)).take 5 = (byteBits (UInt8.ofNat i)).take 5 ∧
        (byteBits (UInt8.ofNat i ^^^ 0x07)).drop 5 ≠ (byteBits (UInt8.ofNat i)).drop 5 := by decide +kernel
      intro b
      simpa using this ⟨b.toNat, b.toNat_lt⟩
    have f6 : ∀ b : UInt8, (byteBits (b ^^^ 0xC0)).drop 2 = (byteBits b).drop 2 := by
      have : ∀ i : Fin 256, (byteBits (UInt8.ofNat i ^^^ 0xC0)).drop 2 = (byteBits (UInt8.ofNat i)).drop 2 := by
        decide +kernel
      intro b
      simpa using this ⟨b.toNat, b.toNat_lt⟩
    have hbit : ∀ b c0 c1 c2 c3 : UInt8, bits (a ++ [b, c0, c1, c2, c3, 0x0D, 0x0A]) =
        (bits a ++ (byteBits b).take 5) ++ ((byteBits b).drop 5 ++ bits [c0, c1, c2] ++ (byteBits c3).take 2) ++
          ((byteBits c3).drop 2 ++ bits [0x0D, 0x0A]) := by
      intro b c0 c1 c2 c3
      rw [bits_append]
      have h1 : bits [b, c0, c1, c2, c3, 0x0D, 0x0A] = byteBits b ++ bits [c0, c1, c2] ++ byteBits c3 ++ bits [0x0D, 0x0A] := by
        simp [bits]
      rw [h1]
      conv => lhs; rw [← List.take_append_drop 5 (byteBits b), ← List.take_append_drop 2 (byteBits c3)]
      simp only [List.append_assoc]
    refine ⟨_, _, (byteBits (b ^^^ 0x07)).drop 5 ++ bits [c0 ^^^ 0xE8, c1 ^^^ 0x65, c2 ^^^ 0x05] ++
      (byteBits (c3 ^^^ 0xC0)).take 2, _, hbit b c0 c1 c2 c3, ?_, ?_, ?_, ?_⟩
    · rw [hbit, (f5 b).1, f6]
    · simp [bits_length, byteBits_length]
    · simp [bits_length, byteBits_length]
    · intro h
      have h2 := congrArg (List.take 3) h
      rw [List.append_assoc, List.append_assoc, List.take_left' (by simp [byteBits_length]),
        List.take_left' (by simp [byteBits_length])] at h2
      exact (f5 b).2 h2.symm

/-- C82: hence the claim for bursts of up to 32 bits anywhere in the frame is false. -/
theorem C82_not : ¬ ∀ (L : Nat) (m m' : List UInt8), Valid hal L m → Burst 32 m m' → ¬ Valid hal L m' := by
  intro h
  have hv : Valid hal 12 ([0x3A, 0, 2, 0, 1] ++ [0x55, 0xD0, 0xFB, 0xF5, 0x38, 0x0D, 0x0A]) :=
    ⟨rfl, rfl, rfl, rfl, by decide +kernel⟩
  obtain ⟨h1, p, u, v, s, h2, h3, h4, h5, h6⟩ := C82_undetected _ (by decide) _ _ _ _ _ _ hv
  exact h 12 _ _ hv ⟨p, u, v, s, h2, h3, h4, by omega, h6⟩ h1

end Verif.Crc
