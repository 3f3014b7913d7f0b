import Verif.Model.MsgFrame
import Verif.Spec.MsgFrame
import Mathlib.Data.List.Basic
import Mathlib.Data.List.Induction
import Mathlib.Tactic.SplitIfs
import Mathlib.Tactic.IntervalCases

set_option autoImplicit false

namespace Verif.FrameSpec

theorem Parse.rest_lt {V L l ms r} (h : Parse V L l ms r) : r.length < L := by
  induction h with
  | done h => exact h
  | hit _ _ _ ih => exact ih
  | skip _ _ _ ih => exact ih

/-- The parse is a function. -/
theorem Parse.det {V L l ms r ms' r'} (h : Parse V L l ms r) (h' : Parse V L l ms' r') :
    ms = ms' ∧ r = r' := by
  induction h generalizing ms' r' with
  | done h =>
    cases h' with
    | done _ => exact ⟨rfl, rfl⟩
    | hit h1 _ _ => omega
    | skip h1 _ _ => omega
  | hit h1 h2 _ ih =>
    cases h' with
    | done h => omega
    | hit _ _ h3 => obtain ⟨a, b⟩ := ih h3; exact ⟨by rw [a], b⟩
    | skip _ h3 _ => exact absurd h2 h3
  | skip h1 h2 _ ih =>
    cases h' with
    | done h => omega
    | hit _ h3 _ => exact absurd h3 h2
    | skip _ _ h3 => exact ih h3

theorem Parse.total (V : List UInt8 → Prop) (L : Nat) (hL : 0 < L) (l : List UInt8) :
    ∃ ms r, Parse V L l ms r := by
  classical
  induction hn : l.length using Nat.strongRecOn generalizing l with
  | _ n ih =>
    by_cases h1 : l.length < L
    · exact ⟨_, _, .done h1⟩
    · replace h1 : L ≤ l.length := by omega
      by_cases h2 : V (l.take L)
      · obtain ⟨ms, r, h⟩ := ih (l.drop L).length (by rw [List.length_drop]; omega) _ rfl
        exact ⟨_, _, .hit h1 h2 h⟩
      · cases l with
        | nil => simp at h1; omega
        | cons b l =>
          obtain ⟨ms, r, h⟩ := ih l.length (by simp at hn; omega) _ rfl
          exact ⟨_, _, .skip h1 h2 h⟩

/-- Feeding more bytes continues the parse from the left-over bytes. -/
theorem Parse.append {V L l ms r x ms' r'} (h : Parse V L l ms r) (h' : Parse V L (r ++ x) ms' r') :
    Parse V L (l ++ x) (ms ++ ms') r' := by
  induction h with
  | done _ => exact h'
  | @hit l ms r h1 h2 _ ih =>
    have e1 : (l ++ x).take L = l.take L := List.take_append_of_le_length h1
    have e2 : (l ++ x).drop L = l.drop L ++ x := List.drop_append_of_le_length h1
    have := Parse.hit (V := V) (L := L) (l := l ++ x) (ms := ms ++ ms') (r := r')
      (by rw [List.length_append]; omega) (by rw [e1]; exact h2) (by rw [e2]; exact ih h')
    rw [e1] at this
    exact this
  | @skip b l ms r h1 h2 _ ih =>
    have e1 : ((b :: l) ++ x).take L = (b :: l).take L := List.take_append_of_le_length h1
    rw [List.cons_append] at e1 ⊢
    exact .skip (by simp only [List.length_cons, List.length_append] at h1 ⊢; omega)
      (by rw [e1]; exact h2) (ih h')

end Verif.FrameSpec

namespace Verif.MsgFrame
open FrameSpec

theorem slice_length (d : Nat → UInt8) (i n : Nat) : (slice d i n).length = n := by simp [slice]

theorem slice_getElem? (d : Nat → UInt8) (i n j : Nat) :
    (slice d i n)[j]? = if j < n then some (d (i + j)) else none := by
  unfold slice
  split_ifs with h
  · rw [List.getElem?_map, List.getElem?_range' h]; simp
  · rw [List.getElem?_eq_none (by simpa using h)]

theorem slice_ext {d d' : Nat → UInt8} {i n i' : Nat} (h : ∀ j < n, d (i + j) = d' (i' + j)) :
    slice d i n = slice d' i' n := by
  apply List.ext_getElem?
  intro j
  rw [slice_getElem?, slice_getElem?]
  split_ifs with hj
  · rw [h j hj]
  · rfl

theorem slice_succ (d : Nat → UInt8) (i n : Nat) : slice d i (n + 1) = d i :: slice d (i + 1) n := by
  unfold slice; rw [List.range'_succ]; rfl

theorem slice_add (d : Nat → UInt8) (i a b : Nat) : slice d i (a + b) = slice d i a ++ slice d (i + a) b := by
  induction a generalizing i with
  | zero => simp [slice]
  | succ a ih =>
    rw [show a + 1 + b = (a + b) + 1 by omega, slice_succ, slice_succ, ih,
      show i + 1 + a = i + (a + 1) by omega]
    rfl

theorem slice_take (d : Nat → UInt8) (i a n : Nat) (h : a ≤ n) : (slice d i n).take a = slice d i a := by
  obtain ⟨b, rfl⟩ := Nat.exists_eq_add_of_le h
  rw [slice_add, List.take_left' (slice_length _ _ _)]

theorem slice_drop (d : Nat → UInt8) (i a n : Nat) (h : a ≤ n) :
    (slice d i n).drop a = slice d (i + a) (n - a) := by
  obtain ⟨b, rfl⟩ := Nat.exists_eq_add_of_le h
  rw [slice_add, List.drop_left' (slice_length _ _ _)]
  congr 1; omega

theorem slice_store (d : Nat → UInt8) (i : Nat) (l : List UInt8) : slice (store d i l) i l.length = l := by
  apply List.ext_getElem?
  intro j
  rw [slice_getElem?]
  split_ifs with hj
  · simp [store, hj]
  · simp at hj; simp [hj]

theorem slice_store_before {d : Nat → UInt8} {i a n : Nat} (l : List UInt8) (h : a + n ≤ i) :
    slice (store d i l) a n = slice d a n := by
  apply slice_ext
  intro j hj
  unfold store
  rw [if_neg (by omega)]

theorem slice_store_after {d : Nat → UInt8} {i a n : Nat} (l : List UInt8) (h : i + l.length ≤ a) :
    slice (store d i l) a n = slice d a n := by
  apply slice_ext
  intro j hj
  unfold store
  rw [if_pos (by omega)]
  rw [List.getElem?_eq_none (by omega)]
  rfl

theorem be32_fromBe32 (a b c d : UInt8) : be32 (fromBe32 a b c d) = [a, b, c, d] := by
  unfold be32 fromBe32
  simp only [List.cons.injEq, and_true]
  refine ⟨?_, ?_, ?_, ?_⟩ <;>
  · apply UInt8.toBitVec_inj.mp
    apply BitVec.eq_of_getLsbD_eq
    intro i hi
    simp only [UInt32.toBitVec_toUInt8, UInt32.toBitVec_shiftRight, UInt32.toBitVec_or,
      UInt32.toBitVec_shiftLeft, UInt8.toBitVec_toUInt32]
    interval_cases i <;> simp

theorem fromBe32_be32 (v : UInt32) :
    fromBe32 (v >>> 24).toUInt8 (v >>> 16).toUInt8 (v >>> 8).toUInt8 v.toUInt8 = v := by
  unfold fromBe32
  apply UInt32.toBitVec_inj.mp
  apply BitVec.eq_of_getLsbD_eq
  intro i hi
  simp only [UInt32.toBitVec_toUInt8, UInt32.toBitVec_shiftRight, UInt32.toBitVec_or,
    UInt32.toBitVec_shiftLeft, UInt8.toBitVec_toUInt32]
  interval_cases i <;> simp

theorem eq_fromBe32_iff (v : UInt32) (a b c d : UInt8) :
    v = fromBe32 a b c d ↔ be32 v = [a, b, c, d] := by
  constructor
  · rintro rfl; exact be32_fromBe32 a b c d
  · intro h
    unfold be32 at h
    simp only [List.cons.injEq, and_true] at h
    obtain ⟨rfl, rfl, rfl, rfl⟩ := h
    exact (fromBe32_be32 v).symm

theorem be_eq (v : UInt32) : be v = be32 v := by
  unfold be be32
  simp only [List.cons.injEq, and_true]
  refine ⟨?_, ?_, ?_, ?_⟩ <;>
  · apply UInt8.toNat_inj.mp
    simp [Nat.shiftRight_eq_div_pow]

theorem be32_length (v : UInt32) : (be32 v).length = 4 := rfl

/-- The CRC field as four single bytes. -/
theorem slice_four (d : Nat → UInt8) (i : Nat) : slice d i 4 = [d i, d (i + 1), d (i + 2), d (i + 3)] := by
  simp [slice, List.range'_succ]

theorem withCrc_slice (d : Nat → UInt8) (start L : Nat) (hL : 6 ≤ L) (c : List UInt8) :
    withCrc (slice d start L) c =
      slice d start (L - 6) ++ c ++ slice d (start + (L - 2)) 2 := by
  unfold withCrc
  rw [slice_length, slice_take _ _ _ _ (by omega), slice_drop _ _ _ _ (by omega)]
  congr 2; omega

theorem slice_split (d : Nat → UInt8) (start L : Nat) (hL : 6 ≤ L) :
    slice d start L = slice d start (L - 6) ++ slice d (start + L - 6) 4 ++ slice d (start + (L - 2)) 2 := by
  conv_lhs => rw [show L = (L - 6) + (4 + 2) by omega]
  rw [slice_add, slice_add, List.append_assoc]
  congr 3
  · omega
  · omega

theorem slice_zeroed (d : Nat → UInt8) (start L : Nat) (hL : 6 ≤ L) (c : List UInt8) (hc : c.length = 4) :
    slice (store d (start + L - 6) c) start L = withCrc (slice d start L) c := by
  rw [slice_split _ _ _ hL, withCrc_slice _ _ _ hL, slice_store_before (a := start) (n := L - 6) _ (by omega),
    slice_store_after (a := start + (L - 2)) _ (by omega)]
  congr 2
  have := slice_store d (start + L - 6) c
  rwa [hc] at this

theorem store_restore (d : Nat → UInt8) (i : Nat) (c : List UInt8) (hc : c.length = 4) :
    store (store d i c) i (be32 (fromBe32 (d i) (d (i + 1)) (d (i + 2)) (d (i + 3)))) = d := by
  rw [be32_fromBe32]
  funext j
  unfold store
  by_cases h : i ≤ j
  · simp only [h, if_true]
    obtain ⟨k, rfl⟩ := Nat.exists_eq_add_of_le h
    rw [Nat.add_sub_cancel_left]
    match k with
    | 0 => simp
    | 1 => simp
    | 2 => simp
    | 3 => simp
    | k + 4 =>
      rw [List.getElem?_eq_none (by simp), List.getElem?_eq_none (by omega)]
      rfl
  · simp only [h, if_false]

/-- The checksum condition of `Valid` as the decoder tests it. -/
theorem sum_iff (d : Nat → UInt8) (start L : Nat) (hL : 6 ≤ L) (v : UInt32) :
    slice d start L = withCrc (slice d start L) (be v) ↔
    v = fromBe32 (d (start + L - 6)) (d (start + L - 6 + 1)) (d (start + L - 6 + 2)) (d (start + L - 6 + 3)) := by
  rw [eq_fromBe32_iff, ← slice_four, be_eq, withCrc_slice _ _ _ hL]
  constructor
  · intro h
    conv at h => lhs; rw [slice_split _ _ _ hL]
    rw [List.append_assoc, List.append_assoc] at h
    have h1 := List.append_cancel_left h
    exact (List.append_cancel_right h1).symm
  · intro h
    rw [h]
    exact slice_split _ _ _ hL

theorem verifyCrc_eq (crc : CrcUnit) (L : Nat) (d : Nat → UInt8) (start : Nat) (hL : 6 ≤ L)
    (hs : start + L ≤ bufLen) :
    ∃ b, verifyCrc crc L d start = .ok (b, d) ∧
      (b = true ↔ slice d start L = withCrc (slice d start L)
        (be ((crc start (withCrc (slice d start L) [0, 0, 0, 0])).getD 0))) := by
  unfold verifyCrc
  rw [if_neg (by omega), if_neg (by omega)]
  dsimp only
  rw [store_restore _ _ _ rfl, slice_zeroed _ _ _ hL _ rfl]
  refine ⟨_, rfl, ?_⟩
  rw [sum_iff _ _ _ hL, beq_iff_eq]

/-- What the decoder accepts at buffer position `p`. -/
def Acc (crc : CrcUnit) (L : Nat) (d : Nat → UInt8) (p : Nat) : Prop :=
  Valid (fun z => (crc p z).getD 0) L (slice d p L)

theorem acc_iff (crc : CrcUnit) (L : Nat) (d : Nat → UInt8) (p : Nat) (hL : 6 ≤ L) :
    Acc crc L d p ↔ (d p = 0x3A ∧ d (p + L - 2) = 0x0D ∧ d (p + L - 1) = 0x0A) ∧
      slice d p L = withCrc (slice d p L)
        (be ((crc p (withCrc (slice d p L) [0, 0, 0, 0])).getD 0)) := by
  have h0 : (slice d p L)[0]? = some (d p) := by rw [slice_getElem?, if_pos (by omega)]; rfl
  have h1 : (slice d p L)[L - 2]? = some (d (p + L - 2)) := by
    rw [slice_getElem?, if_pos (by omega)]; congr 2; omega
  have h2 : (slice d p L)[L - 1]? = some (d (p + L - 1)) := by
    rw [slice_getElem?, if_pos (by omega)]; congr 2; omega
  constructor
  · rintro ⟨-, a, b, c, e⟩
    rw [h0] at a; rw [h1] at b; rw [h2] at c
    exact ⟨⟨by injection a, by injection b, by injection c⟩, e⟩
  · rintro ⟨⟨a, b, c⟩, e⟩
    exact ⟨slice_length _ _ _, by rw [h0, a], by rw [h1, b], by rw [h2, c], e⟩

/-- The search loop: memory safe, buffer unchanged, first acceptable position. -/
theorem scan_spec (crc : CrcUnit) (L : Nat) (hL : 6 ≤ L) (d : Nat → UInt8) (used start : Nat)
    (h : start + used ≤ bufLen) :
    ∃ r start' used', scan crc L used d start = .ok (r, d, start', used') ∧
      start' + used' = start + used ∧ start ≤ start' ∧
      (r = none → used' < L ∧ (∀ p, start ≤ p → p < start' → ¬ Acc crc L d p) ∧
        ∀ V : List UInt8 → Prop, (∀ p, Acc crc L d p ↔ V (slice d p L)) →
          Parse V L (slice d start used) [] (slice d start' used')) ∧
      (∀ off, r = some off → start ≤ off ∧ start' = off + L ∧ Acc crc L d off ∧
        (∀ p, start ≤ p → p < off → ¬ Acc crc L d p) ∧
        ∀ V : List UInt8 → Prop, (∀ p, Acc crc L d p ↔ V (slice d p L)) →
          ∀ ms rest, Parse V L (slice d start' used') ms rest →
            Parse V L (slice d start used) (slice d off L :: ms) rest) := by
  induction used generalizing start with
  | zero =>
    refine ⟨none, start, 0, ?_, rfl, le_rfl, ?_, by simp⟩
    · unfold scan; rw [if_pos (by omega)]
    · intro _
      exact ⟨by omega, fun p h1 h2 => by omega, fun V _ => .done (by rw [slice_length]; omega)⟩
  | succ used ih =>
    by_cases hu : used + 1 < L
    · refine ⟨none, start, used + 1, ?_, rfl, le_rfl, ?_, by simp⟩
      · unfold scan; rw [if_pos hu]
      · intro _
        exact ⟨hu, fun p h1 h2 => by omega, fun V _ => .done (by rw [slice_length]; omega)⟩
    · obtain ⟨b, hv, hb⟩ := verifyCrc_eq crc L d start hL (by omega)
      by_cases hacc : Acc crc L d start
      · obtain ⟨hc, hsum⟩ := (acc_iff crc L d start hL).mp hacc
        have hbt : b = true := hb.mpr hsum
        subst hbt
        refine ⟨some start, start + L, used + 1 - L, ?_, by omega, by omega, by simp, ?_⟩
        · unfold scan
          rw [if_neg hu, if_neg (by omega), if_neg (by omega)]
          simp only [hc, and_self, if_true, hv]
        · intro off ho
          injection ho with ho
          subst ho
          refine ⟨le_rfl, rfl, hacc, fun p h1 h2 => by omega, ?_⟩
          intro V hV ms rest hp
          have e1 : (slice d start (used + 1)).take L = slice d start L := slice_take _ _ _ _ (by omega)
          have e2 : (slice d start (used + 1)).drop L = slice d (start + L) (used + 1 - L) :=
            slice_drop _ _ _ _ (by omega)
          rw [← e1]
          refine .hit (by rw [slice_length]; omega) (by rw [e1]; exact (hV start).mp hacc) ?_
          rw [e2]; exact hp
      · have hstep : scan crc L (used + 1) d start = scan crc L used d (start + 1) := by
          conv_lhs => unfold scan
          rw [if_neg hu, if_neg (by omega), if_neg (by omega)]
          by_cases hc : d start = 0x3A ∧ d (start + L - 2) = 0x0D ∧ d (start + L - 1) = 0x0A
          · have hbf : b = false := by
              cases hb' : b with
              | false => rfl
              | true => exact absurd ((acc_iff crc L d start hL).mpr ⟨hc, hb.mp hb'⟩) hacc
            subst hbf
            simp only [hc, and_self, if_true, hv]
          · simp only [hc, if_false]
        obtain ⟨r, start', used', h1, h2, h3, h4, h5⟩ := ih (start + 1) (by omega)
        have hskip : ∀ V : List UInt8 → Prop, (∀ p, Acc crc L d p ↔ V (slice d p L)) → ∀ ms rest,
            Parse V L (slice d (start + 1) used) ms rest → Parse V L (slice d start (used + 1)) ms rest := by
          intro V hV ms rest hp
          rw [slice_succ]
          refine .skip (by rw [← slice_succ, slice_length]; omega) ?_ hp
          rw [← slice_succ, slice_take _ _ _ _ (by omega), ← hV]
          exact hacc
        refine ⟨r, start', used', by rw [hstep, h1], by omega, by omega, ?_, ?_⟩
        · intro hr
          obtain ⟨g1, g2, g3⟩ := h4 hr
          refine ⟨g1, ?_, fun V hV => hskip V hV _ _ (g3 V hV)⟩
          intro p hp1 hp2
          rcases Nat.eq_or_lt_of_le hp1 with e | e
          · rw [← e]; exact hacc
          · exact g2 p e hp2
        · intro off ho
          obtain ⟨g1, g2, g3, g4, g5⟩ := h5 off ho
          refine ⟨by omega, g2, g3, ?_, fun V hV ms rest hp => hskip V hV _ _ (g5 V hV ms rest hp)⟩
          intro p hp1 hp2
          rcases Nat.eq_or_lt_of_le hp1 with e | e
          · rw [← e]; exact hacc
          · exact g4 p e hp2

/-- The byte-by-byte compaction moves the block. -/
theorem compact_loop (d : Nat → UInt8) (st n : Nat) :
    (List.range n).foldl (fun d i => fun j => if j = i then d (i + st) else d j) d =
      fun j => if j < n then d (j + st) else d j := by
  induction n with
  | zero => simp
  | succ n ih =>
    rw [List.range_succ, List.foldl_append, ih]
    funext j
    simp only [List.foldl_cons, List.foldl_nil]
    by_cases h1 : j = n
    · subst h1
      rw [if_pos rfl, if_neg (by omega), if_pos (by omega)]
    · rw [if_neg h1]
      by_cases h2 : j < n
      · rw [if_pos h2, if_pos (by omega)]
      · rw [if_neg h2, if_neg (by omega)]

end Verif.MsgFrame
