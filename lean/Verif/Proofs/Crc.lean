import Verif.Model.Crc
import Verif.Spec.Crc
import Verif.Spec.MsgFrame
import Mathlib.Tactic.IntervalCases
import Mathlib.Data.Nat.Bitwise

set_option autoImplicit false

/-!
# Algebra of the CRC register
-/

namespace Verif.Crc
open CrcSpec

/-! ## Shifting is linear and injective -/

theorem shift_xor (a b : BitVec 32) : shift (a ^^^ b) = shift a ^^^ shift b := by
  unfold shift
  rw [BitVec.msb_xor, BitVec.shiftLeft_xor_distrib]
  cases a.msb <;> cases b.msb <;> simp only [Bool.xor_false, Bool.xor_true, Bool.not_true,
    Bool.not_false, if_true, if_false, Bool.false_eq_true]
  · rw [BitVec.xor_assoc]
  · rw [BitVec.xor_assoc, BitVec.xor_comm (b <<< 1), BitVec.xor_assoc]
  · rw [BitVec.xor_assoc, BitVec.xor_comm 0x04C11DB7#32 ((b <<< 1) ^^^ _), BitVec.xor_assoc (b <<< 1)]
    simp

theorem shift_zero : shift 0#32 = 0#32 := by decide

theorem shifts_zero (n : Nat) : shifts n 0#32 = 0#32 := by
  induction n with
  | zero => rfl
  | succ n ih => unfold shifts; rw [shift_zero, ih]

theorem shifts_xor (n : Nat) (a b : BitVec 32) : shifts n (a ^^^ b) = shifts n a ^^^ shifts n b := by
  induction n generalizing a b with
  | zero => rfl
  | succ n ih => unfold shifts; rw [shift_xor, ih]

theorem shifts_add (m n : Nat) (r : BitVec 32) : shifts (m + n) r = shifts n (shifts m r) := by
  induction m generalizing r with
  | zero => rw [Nat.zero_add]; rfl
  | succ m ih =>
    rw [Nat.succ_add]
    show shifts (m + n) (shift r) = shifts n (shifts m (shift r))
    exact ih (shift r)

theorem shift_eq_zero {a : BitVec 32} (h : shift a = 0#32) : a = 0#32 := by
  unfold shift at h
  split_ifs at h with hm
  · have := congrArg (fun x => x.getLsbD 0) h
    simp at this
  · apply BitVec.eq_of_getLsbD_eq
    intro i hi
    by_cases h31 : i = 31
    · subst h31
      rw [BitVec.msb_eq_getLsbD_last] at hm
      simpa using hm
    · have := congrArg (fun x => x.getLsbD (i + 1)) h
      simp only [BitVec.getLsbD_shiftLeft, BitVec.getLsbD_zero] at this
      simpa [show i + 1 < 32 by omega] using this

theorem xor_eq_zero {a b : BitVec 32} : a ^^^ b = 0#32 ↔ a = b := by
  constructor
  · intro h
    have : (a ^^^ b) ^^^ b = 0#32 ^^^ b := by rw [h]
    rw [BitVec.xor_assoc, BitVec.xor_self] at this
    simpa using this
  · rintro rfl; exact BitVec.xor_self

theorem shift_injective {a b : BitVec 32} (h : shift a = shift b) : a = b := by
  apply xor_eq_zero.mp
  apply shift_eq_zero
  rw [shift_xor, h, BitVec.xor_self]

theorem shifts_injective {n : Nat} {a b : BitVec 32} (h : shifts n a = shifts n b) : a = b := by
  induction n generalizing a b with
  | zero => exact h
  | succ n ih => exact shift_injective (ih h)

/-- Shifting up what was shifted down. -/
theorem shifts_down (n : Nat) (y : BitVec 32) (hy : ∀ i, i < n → y.getLsbD i = false) : shifts n (y >>> n) = y := by
  induction n with
  | zero => simp [shifts]
  | succ n ih =>
    unfold shifts
    have : shift (y >>> (n + 1)) = y >>> n := by
      unfold shift
      have hm : (y >>> (n + 1)).msb = false := by
        rw [BitVec.msb_eq_getLsbD_last, BitVec.getLsbD_ushiftRight]
        exact BitVec.getLsbD_of_ge _ _ (by omega)
      rw [hm]
      simp only [Bool.false_eq_true, if_false]
      apply BitVec.eq_of_getLsbD_eq
      intro i hi
      rw [BitVec.getLsbD_shiftLeft, BitVec.getLsbD_ushiftRight, BitVec.getLsbD_ushiftRight]
      by_cases h0 : i = 0
      · subst h0; simp [hy n (by omega)]
      · simp [hi, show ¬ i < 1 by omega, show n + 1 + (i - 1) = n + i by omega]
    rw [this]
    exact ih (fun i hi => hy i (by omega))

/-! ## Bit-serial form -/

/-- The bit in the top position. -/
def topBit (x : Bool) : BitVec 32 := if x then 0x80000000#32 else 0#32

/-- Feeding one bit. -/
def feedBit (r : BitVec 32) (x : Bool) : BitVec 32 := shift (r ^^^ topBit x)

/-- Bits aligned at the top of the register. -/
def top : List Bool → BitVec 32
  | [] => 0#32
  | x :: u => topBit x ^^^ (top u >>> 1)

theorem getLsbD_topBit (x : Bool) (i : Nat) : (topBit x).getLsbD i = (x && decide (i = 31)) := by
  unfold topBit
  cases x with
  | false => simp
  | true =>
    by_cases h : i < 32
    · simp only [if_true, Bool.true_and]
      interval_cases i <;> rfl
    · rw [BitVec.getLsbD_of_ge _ _ (by omega)]
      simp; omega

theorem getLsbD_top (u : List Bool) (i : Nat) (hi : i < 32) : (top u).getLsbD i = u.getD (31 - i) false := by
  induction u generalizing i with
  | nil => simp [top]
  | cons x u ih =>
    unfold top
    rw [BitVec.getLsbD_xor, getLsbD_topBit, BitVec.getLsbD_ushiftRight]
    by_cases h : i = 31
    · subst h
      rw [BitVec.getLsbD_of_ge _ _ (by omega)]
      simp
    · rw [Nat.add_comm 1 i, ih (i + 1) (by omega)]
      obtain ⟨k, hk⟩ : ∃ k, 31 - i = k + 1 := ⟨30 - i, by omega⟩
      rw [hk, show 31 - (i + 1) = k by omega]
      simp [h]

theorem top_injective {u v : List Bool} (h1 : u.length = v.length) (h2 : u.length ≤ 32) (h : top u = top v) : u = v := by
  apply List.ext_getElem h1
  intro i g1 g2
  have := congrArg (fun x => x.getLsbD (31 - i)) h
  rw [getLsbD_top _ _ (by omega), getLsbD_top _ _ (by omega), show 31 - (31 - i) = i by omega] at this
  simpa [List.getD_eq_getElem?_getD, g1, g2] using this

theorem feed_top (u : List Bool) (r : BitVec 32) (h : u.length ≤ 32) :
    u.foldl feedBit r = shifts u.length (r ^^^ top u) := by
  induction u generalizing r with
  | nil => simp [top, shifts]
  | cons x u ih =>
    rw [List.length_cons] at h
    rw [List.foldl_cons, ih _ (by omega), List.length_cons]
    show _ = shifts u.length (shift (r ^^^ (topBit x ^^^ (top u >>> 1))))
    rw [← BitVec.xor_assoc, shift_xor (r ^^^ topBit x)]
    have : shift (top u >>> 1) = top u := by
      have := shifts_down 1 (top u) (fun i hi => by
        rw [getLsbD_top _ _ (by omega)]
        rw [List.getD_eq_getElem?_getD, List.getElem?_eq_none (by omega)]
        rfl)
      exact this
    rw [this]
    rfl

theorem feed_injective (s : List Bool) {a b : BitVec 32} (h : s.foldl feedBit a = s.foldl feedBit b) : a = b := by
  induction s generalizing a b with
  | nil => exact h
  | cons x s ih =>
    have := shift_injective (ih h)
    have h2 : (a ^^^ topBit x) ^^^ topBit x = (b ^^^ topBit x) ^^^ topBit x := by rw [this]
    simpa [BitVec.xor_assoc] using h2

theorem feed_xor (u v : List Bool) (h : u.length = v.length) (a b : BitVec 32) :
    (List.zipWith (· ^^ ·) u v).foldl feedBit (a ^^^ b) = u.foldl feedBit a ^^^ v.foldl feedBit b := by
  induction u generalizing v a b with
  | nil => cases v with
    | nil => rfl
    | cons y v => simp at h
  | cons x u ih =>
    cases v with
    | nil => simp at h
    | cons y v =>
      rw [List.zipWith_cons_cons, List.foldl_cons, List.foldl_cons, List.foldl_cons, ← ih v (by simpa using h)]
      congr 1
      unfold feedBit
      rw [← shift_xor]
      congr 1
      have : topBit (x ^^ y) = topBit x ^^^ topBit y := by cases x <;> cases y <;> decide
      rw [this]
      simp only [BitVec.xor_assoc]
      congr 1
      rw [← BitVec.xor_assoc b, BitVec.xor_comm b (topBit x), BitVec.xor_assoc]

/-! ## Bytes -/

theorem top_byte (b : UInt8) : top (byteBits b) = b.toBitVec.setWidth 32 <<< 24 := by
  have : ∀ i : Fin 256, top (byteBits (UInt8.ofNat i)) = (UInt8.ofNat i).toBitVec.setWidth 32 <<< 24 := by decide +kernel
  have h := this ⟨b.toNat, b.toNat_lt⟩
  simpa using h

theorem byteBits_length (b : UInt8) : (byteBits b).length = 8 := by simp [byteBits]

theorem writeByte_bits (r : BitVec 32) (b : UInt8) : writeByte r b = (byteBits b).foldl feedBit r := by
  rw [feed_top _ _ (by rw [byteBits_length]; omega), byteBits_length, top_byte]
  rfl

/-- The bytes one after another. -/
def bytes (m : List UInt8) (r : BitVec 32) : BitVec 32 := m.foldl writeByte r

theorem bytes_bits (m : List UInt8) (r : BitVec 32) : bytes m r = (bits m).foldl feedBit r := by
  induction m generalizing r with
  | nil => rfl
  | cons b m ih =>
    have : bits (b :: m) = byteBits b ++ bits m := by simp [bits]
    rw [this, List.foldl_append, ← writeByte_bits]
    exact ih _

theorem word_split (a b c d : UInt8) :
    word a b c d = (a.toBitVec.setWidth 32 <<< 24) ^^^ (word b c d 0 >>> 8) := by
  apply BitVec.eq_of_getLsbD_eq
  intro i hi
  unfold word
  simp only [BitVec.getLsbD_or, BitVec.getLsbD_xor, BitVec.getLsbD_shiftLeft, BitVec.getLsbD_ushiftRight,
    BitVec.getLsbD_setWidth]
  interval_cases i <;> simp

theorem word_low (b c d : UInt8) (i : Nat) (hi : i < 8) : (word b c d 0).getLsbD i = false := by
  unfold word
  simp only [BitVec.getLsbD_or, BitVec.getLsbD_shiftLeft, BitVec.getLsbD_setWidth]
  interval_cases i <;> simp

theorem shifts_word (n : Nat) (r : BitVec 32) (a b c d : UInt8) :
    shifts (8 + n) (r ^^^ word a b c d) = shifts n (writeByte r a ^^^ word b c d 0) := by
  rw [shifts_add, word_split, ← BitVec.xor_assoc, shifts_xor 8, shifts_down 8 _ (fun i hi => word_low b c d i hi)]
  rfl

theorem word_zero : word 0 0 0 0 = 0#32 := by decide

theorem writeWord_bytes (r : BitVec 32) (a b c d : UInt8) :
    writeWord r (word a b c d) = bytes [a, b, c, d] r := by
  unfold writeWord
  refine (shifts_word 24 _ _ _ _ _).trans ?_
  refine (shifts_word 16 _ _ _ _ _).trans ?_
  refine (shifts_word 8 _ _ _ _ _).trans ?_
  refine (shifts_word 0 _ _ _ _ _).trans ?_
  rw [word_zero]
  simp [shifts, bytes]

theorem half_word (a b : UInt8) : (half a b).setWidth 32 <<< 16 = word a b 0 0 := by
  apply BitVec.eq_of_getLsbD_eq
  intro i hi
  unfold half word
  simp only [BitVec.getLsbD_or, BitVec.getLsbD_shiftLeft, BitVec.getLsbD_setWidth]
  interval_cases i <;> simp

theorem writeHalf_bytes (r : BitVec 32) (a b : UInt8) : writeHalf r (half a b) = bytes [a, b] r := by
  unfold writeHalf
  rw [half_word]
  refine (shifts_word 8 _ _ _ _ _).trans ?_
  refine (shifts_word 0 _ _ _ _ _).trans ?_
  rw [word_zero]
  simp [shifts, bytes]

theorem handle8_bytes (m : List UInt8) (r : BitVec 32) : handle8 m r = bytes m r := by
  induction m, r using handle8.induct with
  | case1 a b c d l r ih => unfold handle8; rw [ih, writeWord_bytes]; rfl
  | case2 a b c r => unfold handle8; rw [writeHalf_bytes]; rfl
  | case3 a b r => unfold handle8; rw [writeHalf_bytes]
  | case4 a r => rfl
  | case5 r => rfl

theorem hal_bits (m : List UInt8) : (hal m).toBitVec = (bits m).foldl feedBit 0xFFFFFFFF#32 := by
  unfold hal
  rw [handle8_bytes, bytes_bits]

/-! ## The Python function -/

theorem pyShift_eq (r : BitVec 32) : pyShift r.toNat = (shift r).toNat := by
  have hlt := r.isLt
  have hbit : (r.toNat &&& 0x80000000 = 0) ↔ r.msb = false := by
    rw [BitVec.msb_eq_decide]
    rw [show (0x80000000 : Nat) = 2 ^ 31 from rfl, Nat.and_two_pow]
    have : r.toNat.testBit 31 = decide (2 ^ 31 ≤ r.toNat) := by
      rw [Nat.testBit_eq_decide_div_mod_eq]
      congr 1
      apply propext
      omega
    rw [this]
    by_cases h : 2 ^ 31 ≤ r.toNat <;> simp
  unfold pyShift shift
  cases hm : r.msb with
  | false =>
    rw [if_pos (hbit.mpr hm)]
    rw [BitVec.msb_eq_decide] at hm
    simp only [Bool.false_eq_true, if_false, BitVec.toNat_shiftLeft]
    simp at hm
    rw [Nat.shiftLeft_eq]
    omega
  | true =>
    rw [if_neg (by rw [hbit]; simp [hm])]
    rw [BitVec.msb_eq_decide] at hm
    simp at hm
    simp only [if_true, BitVec.toNat_xor, BitVec.toNat_shiftLeft]
    apply Nat.eq_of_testBit_eq
    intro i
    rw [Nat.testBit_xor, Nat.testBit_xor, Nat.testBit_mod_two_pow]
    rw [show (0x104c11db7 : Nat) = 0x04C11DB7 ^^^ 2 ^ 32 by decide, Nat.testBit_xor, Nat.testBit_two_pow]
    rw [show (0x04C11DB7#32).toNat = 0x04C11DB7 from rfl]
    by_cases h1 : i < 32
    · simp [h1, show ¬ (32 = i) by omega]
    · by_cases h2 : i = 32
      · subst h2
        have : (r.toNat <<< 1).testBit 32 = true := by
          rw [Nat.testBit_shiftLeft]
          simp only [show (32 ≥ 1) by omega, decide_true, Bool.true_and]
          rw [Nat.testBit_eq_decide_div_mod_eq]
          simp only [decide_eq_true_eq]
          omega
        rw [this]
        simp
      · have h3 : (r.toNat <<< 1).testBit i = false := by
          apply Nat.testBit_lt_two_pow
          rw [Nat.shiftLeft_eq]
          calc r.toNat * 2 ^ 1 < 2 ^ 33 := by omega
            _ ≤ 2 ^ i := Nat.pow_le_pow_right (by omega) (by omega)
        rw [h3]
        simp [h1, show ¬ (32 = i) by omega]

theorem pyShifts_eq (n : Nat) (r : BitVec 32) : pyShifts n r.toNat = (shifts n r).toNat := by
  induction n generalizing r with
  | zero => rfl
  | succ n ih => unfold pyShifts shifts; rw [pyShift_eq, ih]

theorem py_eq (m : List UInt8) : crc32mpeg2 m = (bytes m 0xFFFFFFFF#32).toNat := by
  unfold crc32mpeg2 bytes
  suffices H : ∀ r : BitVec 32, m.foldl (fun c v => pyShifts 8 (c ^^^ (v.toNat <<< 24))) r.toNat =
      (m.foldl writeByte r).toNat from H 0xFFFFFFFF#32
  induction m with
  | nil => intro r; rfl
  | cons b m ih =>
    intro r
    rw [List.foldl_cons, List.foldl_cons, ← ih]
    congr 1
    unfold writeByte
    have hb := b.toNat_lt
    have hx : (r ^^^ (b.toBitVec.setWidth 32 <<< 24)).toNat = r.toNat ^^^ (b.toNat <<< 24) := by
      rw [BitVec.toNat_xor, BitVec.toNat_shiftLeft, BitVec.toNat_setWidth, UInt8.toNat_toBitVec,
        Nat.mod_eq_of_lt (a := b.toNat) (by omega), Nat.mod_eq_of_lt]
      rw [Nat.shiftLeft_eq]
      omega
    rw [← hx, pyShifts_eq]

/-! ## Frames -/

theorem word_getLsbD (a b c d : UInt8) (i : Nat) (hi : i < 32) :
    (word a b c d).getLsbD i = if i < 8 then d.toBitVec.getLsbD i else if i < 16 then c.toBitVec.getLsbD (i - 8)
      else if i < 24 then b.toBitVec.getLsbD (i - 16) else a.toBitVec.getLsbD (i - 24) := by
  unfold word
  simp only [BitVec.getLsbD_or, BitVec.getLsbD_shiftLeft, BitVec.getLsbD_setWidth]
  interval_cases i <;> simp

theorem word_xor (a b c d a' b' c' d' : UInt8) :
    word (a ^^^ a') (b ^^^ b') (c ^^^ c') (d ^^^ d') = word a b c d ^^^ word a' b' c' d' := by
  apply BitVec.eq_of_getLsbD_eq
  intro i hi
  rw [BitVec.getLsbD_xor, word_getLsbD _ _ _ _ _ hi, word_getLsbD _ _ _ _ _ hi, word_getLsbD _ _ _ _ _ hi]
  simp only [UInt8.toBitVec_xor, BitVec.getLsbD_xor]
  split_ifs <;> rfl

theorem word_injective {a b c d a' b' c' d' : UInt8} (h : word a b c d = word a' b' c' d') :
    a = a' ∧ b = b' ∧ c = c' ∧ d = d' := by
  have key : ∀ i, i < 32 → (word a b c d).getLsbD i = (word a' b' c' d').getLsbD i := fun i _ => by rw [h]
  refine ⟨?_, ?_, ?_, ?_⟩ <;> apply UInt8.toBitVec_inj.mp <;> apply BitVec.eq_of_getLsbD_eq <;> intro i hi
  · have := key (i + 24) (by omega)
    rw [word_getLsbD _ _ _ _ _ (by omega), word_getLsbD _ _ _ _ _ (by omega)] at this
    simpa [show ¬ i + 24 < 8 by omega, show ¬ i + 24 < 16 by omega, show ¬ i + 24 < 24 by omega] using this
  · have := key (i + 16) (by omega)
    rw [word_getLsbD _ _ _ _ _ (by omega), word_getLsbD _ _ _ _ _ (by omega)] at this
    simpa [show ¬ i + 16 < 8 by omega, show ¬ i + 16 < 16 by omega, show i + 16 < 24 by omega] using this
  · have := key (i + 8) (by omega)
    rw [word_getLsbD _ _ _ _ _ (by omega), word_getLsbD _ _ _ _ _ (by omega)] at this
    simpa [show ¬ i + 8 < 8 by omega, show i + 8 < 16 by omega] using this
  · have := key i (by omega)
    rw [word_getLsbD _ _ _ _ _ (by omega), word_getLsbD _ _ _ _ _ (by omega)] at this
    simpa [hi] using this

theorem word_be (v : UInt32) : ∃ a b c d, FrameSpec.be v = [a, b, c, d] ∧ word a b c d = v.toBitVec := by
  refine ⟨_, _, _, _, rfl, ?_⟩
  apply BitVec.eq_of_getLsbD_eq
  intro i hi
  rw [word_getLsbD _ _ _ _ _ hi]
  have e : v.toBitVec.getLsbD i = v.toNat.testBit i := rfl
  have f : ∀ n j : Nat, j < 8 → (UInt8.ofNat n).toBitVec.getLsbD j = n.testBit j := by
    intro n j hj
    show (BitVec.ofNat 8 n).getLsbD j = _
    rw [BitVec.getLsbD_ofNat]
    simp [hj]
  rw [e]
  split_ifs with h1 h2 h3
  · rw [f _ _ h1]
  · rw [f _ _ (by omega), Nat.testBit_div_two_pow, show i - 8 + 8 = i by omega]
  · rw [f _ _ (by omega), Nat.testBit_div_two_pow, show i - 16 + 16 = i by omega]
  · rw [f _ _ (by omega), Nat.testBit_div_two_pow, show i - 24 + 24 = i by omega]

/-- Shape of a valid frame. -/
theorem valid_iff (L : Nat) (m : List UInt8) :
    FrameSpec.Valid hal L m ↔ ∃ a c0 c1 c2 c3, m = a ++ [c0, c1, c2, c3, 0x0D, 0x0A] ∧ m.length = L ∧ m[0]? = some 0x3A ∧
      word c0 c1 c2 c3 = bytes (a ++ [0, 0, 0, 0, 0x0D, 0x0A]) 0xFFFFFFFF#32 := by
  constructor
  · intro ⟨h1, h2, h3, h4, h5⟩
    have h6 : 6 ≤ m.length := by
      have := congrArg List.length h5
      simp only [FrameSpec.withCrc, List.length_append, List.length_take, List.length_drop] at this
      have hb : (FrameSpec.be (hal (FrameSpec.withCrc m [0, 0, 0, 0]))).length = 4 := rfl
      unfold FrameSpec.withCrc at hb
      rw [hb] at this
      have h0 : m.length ≠ 0 := by
        intro hc
        have : m = [] := List.length_eq_zero_iff.mp hc
        rw [this] at h2
        simp at h2
      omega
    obtain ⟨a, b, c, d, e1, e2⟩ := word_be (hal (FrameSpec.withCrc m [0, 0, 0, 0]))
    have hd : m.drop (m.length - 2) = [0x0D, 0x0A] := by
      apply List.ext_getElem?
      intro i
      rw [List.getElem?_drop]
      match i with
      | 0 => rw [← h1] at h3; simpa using h3
      | 1 => rw [← h1] at h4; rw [show m.length - 2 + 1 = m.length - 1 by omega, h4]; rfl
      | i + 2 => rw [List.getElem?_eq_none (by omega)]; rfl
    refine ⟨m.take (m.length - 6), a, b, c, d, ?_, h1, h2, ?_⟩
    · rw [e1] at h5
      rw [FrameSpec.withCrc, hd] at h5
      rw [h5]
      simp
    · rw [e2, hal]
      show handle8 _ _ = _
      rw [handle8_bytes, FrameSpec.withCrc, hd]
      simp
  · rintro ⟨a, c0, c1, c2, c3, rfl, h1, h2, h3⟩
    have hl : (a ++ [c0, c1, c2, c3, 0x0D, 0x0A]).length = a.length + 6 := by simp
    have hw : ∀ z0 z1 z2 z3 : UInt8, FrameSpec.withCrc (a ++ [c0, c1, c2, c3, 0x0D, 0x0A]) [z0, z1, z2, z3] =
        a ++ [z0, z1, z2, z3, 0x0D, 0x0A] := by
      intro z0 z1 z2 z3
      unfold FrameSpec.withCrc
      rw [hl, show a.length + 6 - 6 = a.length by omega, List.take_left' rfl,
        show a.length + 6 - 2 = a.length + 4 by omega, List.drop_append]
      simp
    refine ⟨h1, h2, ?_, ?_, ?_⟩
    · rw [← h1, hl, show a.length + 6 - 2 = a.length + 4 by omega, List.getElem?_append_right (by omega)]
      simp
    · rw [← h1, hl, show a.length + 6 - 1 = a.length + 5 by omega, List.getElem?_append_right (by omega)]
      simp
    · obtain ⟨z0, z1, z2, z3, e1, e2⟩ := word_be (hal (a ++ [0, 0, 0, 0, 0x0D, 0x0A]))
      rw [hw, e1, hw]
      have : word z0 z1 z2 z3 = word c0 c1 c2 c3 := by
        rw [e2, h3, hal]
        exact handle8_bytes _ _
      obtain ⟨rfl, rfl, rfl, rfl⟩ := word_injective this
      rfl

/-! ## Weights -/

/-- The register holding `x^e`. -/
def vec (e : Nat) : BitVec 32 := shifts e 1#32

theorem vec_add (a b : Nat) : vec (a + b) = shifts b (vec a) := shifts_add a b _

theorem vec_inj_shift (a b k : Nat) (h : vec (a + k) = vec (b + k)) : vec a = vec b := by
  rw [vec_add, vec_add] at h
  exact shifts_injective h

theorem vec_ne_zero (e : Nat) : vec e ≠ 0#32 := by
  intro h
  have : shifts e 1#32 = shifts e 0#32 := by rw [shifts_zero]; exact h
  exact absurd (shifts_injective this) (by decide)

theorem topBit_true : topBit true = vec 31 := by decide +kernel
theorem topBit_false : topBit false = 0#32 := by decide

theorem feed_false (u : List Bool) (h : u.count true = 0) (r : BitVec 32) : u.foldl feedBit r = shifts u.length r := by
  induction u generalizing r with
  | nil => rfl
  | cons x u ih =>
    cases x with
    | true => simp at h
    | false =>
      rw [List.foldl_cons, ih (by simpa using h)]
      show _ = shifts u.length (shift r)
      unfold feedBit
      rw [topBit_false, BitVec.xor_zero]

theorem feed_split (u : List Bool) (r : BitVec 32) : u.foldl feedBit r = shifts u.length r ^^^ u.foldl feedBit 0#32 := by
  induction u generalizing r with
  | nil => simp [shifts]
  | cons x u ih =>
    rw [List.foldl_cons, ih, List.foldl_cons, ih (feedBit 0#32 x)]
    show _ = shifts u.length (shift r) ^^^ _
    unfold feedBit
    rw [shift_xor, shifts_xor, shift_xor 0#32, shift_zero, BitVec.zero_xor, BitVec.xor_assoc]

/-- `Sum n u r`: `r` is the sum of powers of `x`, one for each of the positions marked
in `u`; position `i` has exponent `n - i`. -/
def sumOf : Nat → List Bool → BitVec 32
  | _, [] => 0#32
  | n, x :: u => (if x then vec n else 0#32) ^^^ sumOf (n - 1) u

theorem feed_sum (u : List Bool) : u.foldl feedBit 0#32 = sumOf (u.length + 31) u := by
  induction u with
  | nil => rfl
  | cons x u ih =>
    rw [List.foldl_cons, feed_split, ih]
    show _ = (if x then vec (u.length + 1 + 31) else 0#32) ^^^ sumOf (u.length + 1 + 31 - 1) u
    rw [show u.length + 1 + 31 - 1 = u.length + 31 by omega]
    congr 1
    unfold feedBit
    rw [BitVec.zero_xor]
    cases x with
    | false => rw [topBit_false, shift_zero, shifts_zero]; rfl
    | true =>
      rw [topBit_true, show u.length + 1 + 31 = 31 + (1 + u.length) by omega, vec_add, shifts_add]
      rfl

theorem shifts_sum (k n : Nat) (u : List Bool) (h : u.length ≤ n + 1) : shifts k (sumOf n u) = sumOf (n + k) u := by
  induction u generalizing n with
  | nil => exact shifts_zero k
  | cons x u ih =>
    unfold sumOf
    rw [shifts_xor]
    congr 1
    · cases x with
      | false => exact shifts_zero k
      | true => exact (vec_add n k).symm
    · rcases Nat.eq_zero_or_pos n with h0 | h0
      · have : u = [] := by
          apply List.length_eq_zero_iff.mp
          rw [List.length_cons] at h
          omega
        subst this
        exact shifts_zero k
      · rw [ih (n - 1) (by rw [List.length_cons] at h; omega), show n - 1 + k = n + k - 1 by omega]

theorem top_sum (u : List Bool) (h : u.length ≤ 32) : top u = sumOf 31 u := by
  have h1 := feed_top u 0#32 h
  rw [BitVec.zero_xor, feed_sum] at h1
  apply shifts_injective (n := u.length)
  rw [← h1, shifts_sum _ _ _ (by omega), Nat.add_comm]

/-- Exponents of the marked positions. -/
def exps : Nat → List Bool → List Nat
  | _, [] => []
  | n, x :: u => (if x then [n] else []) ++ exps (n - 1) u

theorem exps_length (n : Nat) (u : List Bool) : (exps n u).length = u.count true := by
  induction u generalizing n with
  | nil => rfl
  | cons x u ih => cases x <;> simp [exps, ih]

theorem exps_mem (n : Nat) (u : List Bool) (h : u.length ≤ n + 1) : ∀ e ∈ exps n u, e ≤ n ∧ n < e + u.length := by
  induction u generalizing n with
  | nil => simp [exps]
  | cons x u ih =>
    intro e he
    rw [List.length_cons] at h ⊢
    unfold exps at he
    rw [List.mem_append] at he
    rcases he with he | he
    · cases x with
      | false => simp at he
      | true => simp at he; omega
    · have h2 : u ≠ [] := by rintro rfl; simp [exps] at he
      have h3 : 0 < u.length := List.length_pos_iff.mpr h2
      have := ih (n - 1) (by omega) e he
      omega

theorem exps_sorted (n : Nat) (u : List Bool) (h : u.length ≤ n + 1) : (exps n u).Pairwise (· > ·) := by
  induction u generalizing n with
  | nil => simp [exps]
  | cons x u ih =>
    rw [List.length_cons] at h
    unfold exps
    rw [List.pairwise_append]
    refine ⟨by cases x <;> simp, ih (n - 1) (by omega), ?_⟩
    intro a ha b hb
    cases x with
    | false => simp at ha
    | true =>
      simp at ha
      have h2 : u ≠ [] := by rintro rfl; simp [exps] at hb
      have h3 : 0 < u.length := List.length_pos_iff.mpr h2
      have := exps_mem (n - 1) u (by omega) b hb
      omega

theorem sum_exps (n : Nat) (u : List Bool) : sumOf n u = (exps n u).foldr (fun e r => vec e ^^^ r) 0#32 := by
  induction u generalizing n with
  | nil => rfl
  | cons x u ih =>
    unfold sumOf exps
    rw [ih]
    cases x <;> simp

/-! ## Powers of x, by computation -/

/-- None of the next `n` values is `t`. -/
def noneIs (t : Nat) : Nat → Nat → Bool
  | 0, _ => true
  | n + 1, c => c != t && noneIs t n (pyShift c)

theorem noneIs_spec (t : BitVec 32) (n : Nat) (r : BitVec 32) (h : noneIs t.toNat n r.toNat = true) :
    ∀ k, k < n → shifts k r ≠ t := by
  induction n generalizing r with
  | zero => intro k hk; omega
  | succ n ih =>
    unfold noneIs at h
    rw [Bool.and_eq_true, pyShift_eq] at h
    intro k hk
    match k with
    | 0 => intro hc; subst hc; simp [shifts] at h
    | k + 1 => exact ih _ h.2 k (by omega)

/-- For the next `n` values `c`: `c + 1` is none of the values after it. -/
def noSum : Nat → Nat → Bool
  | 0, _ => true
  | n + 1, c => noneIs (c ^^^ 1) n (pyShift c) && noSum n (pyShift c)

theorem noSum_spec (n : Nat) (r : BitVec 32) (h : noSum n r.toNat = true) :
    ∀ j k, j < k → k < n → shifts k r ≠ shifts j r ^^^ 1#32 := by
  induction n generalizing r with
  | zero => intro j k _ hk; omega
  | succ n ih =>
    unfold noSum at h
    rw [Bool.and_eq_true, pyShift_eq] at h
    intro j k hj hk
    obtain ⟨k, rfl⟩ : ∃ k', k = k' + 1 := ⟨k - 1, by omega⟩
    match j with
    | 0 =>
      have : r.toNat ^^^ 1 = (r ^^^ 1#32).toNat := by rw [BitVec.toNat_xor]; rfl
      rw [this] at h
      exact noneIs_spec _ _ _ h.1 k (by omega)
    | j + 1 => exact ih _ h.2 j k (by omega) (by omega)

theorem order_big (d : Nat) (h1 : 1 ≤ d) (h2 : d ≤ 8223) : vec d ≠ 1#32 := by
  have : noneIs 1 8223 (pyShift 1) = true := by decide +kernel
  have hc := noneIs_spec 1#32 8223 (shift 1#32) (by rw [← pyShift_eq]; exact this) (d - 1) (by omega)
  have e : vec d = shifts (d - 1) (shift 1#32) := by
    obtain ⟨k, rfl⟩ : ∃ k, d = k + 1 := ⟨d - 1, by omega⟩
    rfl
  rw [e]
  exact hc

theorem no_trinomial (a b : Nat) (h1 : 1 ≤ a) (h2 : a < b) (h3 : b ≤ 375) : vec b ≠ vec a ^^^ 1#32 := by
  have : noSum 375 (pyShift 1) = true := by decide +kernel
  have hc := noSum_spec 375 (shift 1#32) (by rw [← pyShift_eq]; exact this) (a - 1) (b - 1) (by omega) (by omega)
  have e : ∀ d, 1 ≤ d → vec d = shifts (d - 1) (shift 1#32) := by
    intro d hd
    obtain ⟨k, rfl⟩ : ∃ k, d = k + 1 := ⟨d - 1, by omega⟩
    rfl
  rw [e a h1, e b (by omega)]
  exact hc

theorem two_terms (a b : Nat) (h : b < a) (h2 : a ≤ 8223) : vec a ^^^ vec b ≠ 0#32 := by
  intro hc
  have h3 := xor_eq_zero.mp hc
  rw [show a = (a - b) + b by omega] at h3
  rw [show vec b = vec (0 + b) by rw [Nat.zero_add]] at h3
  exact order_big (a - b) (by omega) (by omega) (vec_inj_shift _ _ _ h3)

theorem three_terms (a b c : Nat) (h : b < a) (h1 : c < b) (h2 : a ≤ 375) : vec a ^^^ (vec b ^^^ vec c) ≠ 0#32 := by
  intro hc
  have h3 := xor_eq_zero.mp hc
  have e : ∀ d, c ≤ d → vec d = shifts c (vec (d - c)) := by
    intro d hd
    rw [← vec_add, Nat.sub_add_cancel hd]
  rw [e a (by omega), e b (by omega), e c (by omega), ← shifts_xor] at h3
  have h4 := shifts_injective h3
  rw [Nat.sub_self] at h4
  exact no_trinomial (b - c) (a - c) (by omega) (by omega) (by omega) h4

/-! ## Differences of messages -/

theorem bits_append (a b : List UInt8) : bits (a ++ b) = bits a ++ bits b := by simp [bits]

theorem bits_length (m : List UInt8) : (bits m).length = 8 * m.length := by
  induction m with
  | nil => rfl
  | cons b m ih =>
    rw [show b :: m = [b] ++ m from rfl, bits_append, List.length_append, ih]
    simp [bits, byteBits_length]
    omega

theorem top_xor (u v : List Bool) (h : u.length = v.length) : top (List.zipWith (· ^^ ·) u v) = top u ^^^ top v := by
  induction u generalizing v with
  | nil => cases v with
    | nil => rfl
    | cons y v => simp at h
  | cons x u ih =>
    cases v with
    | nil => simp at h
    | cons y v =>
      rw [List.zipWith_cons_cons]
      unfold top
      rw [ih v (by simpa using h), BitVec.ushiftRight_xor_distrib]
      have : topBit (x ^^ y) = topBit x ^^^ topBit y := by cases x <;> cases y <;> decide
      rw [this]
      simp only [BitVec.xor_assoc]
      congr 1
      rw [← BitVec.xor_assoc (top u >>> 1), BitVec.xor_comm (top u >>> 1) (topBit y), BitVec.xor_assoc]

theorem top_word (a b c d : UInt8) : top (bits [a, b, c, d]) = word a b c d := by
  have h1 := writeWord_bytes 0#32 a b c d
  rw [bytes_bits, feed_top _ _ (by rw [bits_length]; simp), bits_length] at h1
  unfold writeWord at h1
  have := shifts_injective (n := 32) h1
  simpa using this.symm

theorem zip_self (u : List Bool) : (List.zipWith (· ^^ ·) u u).count true = 0 := by
  induction u with
  | nil => rfl
  | cons x u ih => rw [List.zipWith_cons_cons, List.count_cons, ih]; cases x <;> rfl

theorem zip_zero {u v : List Bool} (hl : u.length = v.length) (h : (List.zipWith (· ^^ ·) u v).count true = 0) : u = v := by
  induction u generalizing v with
  | nil => cases v with
    | nil => rfl
    | cons y v => simp at hl
  | cons x u ih =>
    cases v with
    | nil => simp at hl
    | cons y v =>
      rw [List.zipWith_cons_cons, List.count_cons] at h
      have h1 := ih (by simpa using hl) (by omega)
      have h2 : (x ^^ y) ≠ true := by intro hc; simp [hc] at h
      have h3 : x = y := by cases x <;> cases y <;> simp at h2 ⊢
      rw [h1, h3]

theorem bits_injective {m m' : List UInt8} (h : bits m = bits m') : m = m' := by
  induction m generalizing m' with
  | nil =>
    have := congrArg List.length h
    rw [bits_length, bits_length] at this
    symm
    simpa using this
  | cons b m ih =>
    cases m' with
    | nil =>
      have := congrArg List.length h
      rw [bits_length, bits_length] at this
      simp at this
    | cons b' m' =>
      rw [show b :: m = [b] ++ m from rfl, show b' :: m' = [b'] ++ m' from rfl, bits_append, bits_append] at h
      obtain ⟨h1, h2⟩ := List.append_inj h (by rw [bits_length, bits_length]; rfl)
      have h3 : bits [b, 0, 0, 0] = bits [b', 0, 0, 0] := by
        rw [show [b, 0, 0, 0] = [b] ++ [0, 0, 0] from rfl, show [b', 0, 0, 0] = [b'] ++ [0, 0, 0] from rfl,
          bits_append, bits_append, h1]
      have h4 := congrArg top h3
      rw [top_word, top_word] at h4
      rw [(word_injective h4).1, ih h2]

/-- Two valid frames of the same length: the differing positions, as exponents, add up
to nothing. -/
theorem syndrome {L : Nat} {m m' : List UInt8} (hv : FrameSpec.Valid hal L m) (hv' : FrameSpec.Valid hal L m') :
    ∃ E : List Nat, E.length = distance m m' ∧ E.Pairwise (· > ·) ∧ (∀ e ∈ E, e ≤ 8 * L + 31) ∧
      E.foldr (fun e r => vec e ^^^ r) 0#32 = 0#32 := by
  obtain ⟨a, c0, c1, c2, c3, rfl, h1, -, h3⟩ := (valid_iff L m).mp hv
  obtain ⟨a', d0, d1, d2, d3, rfl, g1, -, g3⟩ := (valid_iff L m').mp hv'
  have hl : a.length = a'.length := by simp at h1 g1; omega
  have hL : L = a.length + 6 := by simp at h1; omega
  have hbl : (bits a).length = (bits a').length := by rw [bits_length, bits_length, hl]
  obtain ⟨dA, hA⟩ : ∃ d, d = List.zipWith (· ^^ ·) (bits a) (bits a') := ⟨_, rfl⟩
  obtain ⟨dC, hC⟩ : ∃ d, d = List.zipWith (· ^^ ·) (bits [c0, c1, c2, c3]) (bits [d0, d1, d2, d3]) := ⟨_, rfl⟩
  have lA : dA.length = 8 * a.length := by
    rw [hA, List.length_zipWith, ← hbl, Nat.min_self, bits_length]
  have lC : dC.length = 32 := by
    rw [hC, List.length_zipWith, bits_length, bits_length]; rfl
  have hx : word c0 c1 c2 c3 ^^^ word d0 d1 d2 d3 = shifts 48 (dA.foldl feedBit 0#32) := by
    rw [h3, g3, bytes_bits, bytes_bits, ← feed_xor _ _ (by rw [bits_length, bits_length]; simp [hl]), BitVec.xor_self,
      bits_append, bits_append, List.zipWith_append hbl, List.foldl_append, feed_false _ (zip_self _), ← hA,
      List.length_zipWith, bits_length]
    rfl
  rw [← top_word, ← top_word, ← top_xor _ _ (by rw [bits_length, bits_length]; rfl), ← hC, top_sum _ (by omega),
    feed_sum, shifts_sum _ _ _ (by omega)] at hx
  refine ⟨exps (dA.length + 31 + 48) dA ++ exps 31 dC, ?_, ?_, ?_, ?_⟩
  · rw [List.length_append, exps_length, exps_length]
    unfold distance
    rw [show a ++ [c0, c1, c2, c3, 0x0D, 0x0A] = a ++ ([c0, c1, c2, c3] ++ [0x0D, 0x0A]) by simp,
      show a' ++ [d0, d1, d2, d3, 0x0D, 0x0A] = a' ++ ([d0, d1, d2, d3] ++ [0x0D, 0x0A]) by simp,
      bits_append, bits_append, bits_append, bits_append, List.zipWith_append hbl,
      List.zipWith_append (by rw [bits_length, bits_length]; rfl), List.count_append, List.count_append, zip_self,
      ← hA, ← hC]
    rfl
  · rw [List.pairwise_append]
    refine ⟨exps_sorted _ _ (by omega), exps_sorted _ _ (by omega), ?_⟩
    intro x hx y hy
    have := exps_mem _ _ (by omega) x hx
    have := exps_mem _ _ (by omega) y hy
    omega
  · intro e he
    rcases List.mem_append.mp he with he | he
    · have := exps_mem _ _ (by omega) e he
      omega
    · have := exps_mem _ _ (by omega) e he
      omega
  · have hf : ∀ (l : List Nat) (z : BitVec 32), l.foldr (fun e r => vec e ^^^ r) z =
        l.foldr (fun e r => vec e ^^^ r) 0#32 ^^^ z := by
      intro l z
      induction l with
      | nil => simp
      | cons e l ih => rw [List.foldr_cons, ih, List.foldr_cons, BitVec.xor_assoc]
    rw [List.foldr_append, hf, ← sum_exps, ← sum_exps, hx, BitVec.xor_self]

theorem xor_swap (r s x y : BitVec 32) : (r ^^^ s) ^^^ (x ^^^ y) = (r ^^^ x) ^^^ (s ^^^ y) := by
  apply BitVec.eq_of_getLsbD_eq
  intro i _
  simp only [BitVec.getLsbD_xor]
  cases r.getLsbD i <;> cases s.getLsbD i <;> cases x.getLsbD i <;> cases y.getLsbD i <;> rfl

theorem writeByte_xor (x y : UInt8) (r s : BitVec 32) :
    writeByte (r ^^^ s) (x ^^^ y) = writeByte r x ^^^ writeByte s y := by
  unfold writeByte
  rw [← shifts_xor, UInt8.toBitVec_xor, BitVec.setWidth_xor, BitVec.shiftLeft_xor_distrib, xor_swap]

theorem undetected_sum : bytes [0x07, 0, 0, 0, 0, 0, 0] 0#32 = word 0xE8 0x65 0x05 0xC0 := by decide +kernel

end Verif.Crc
