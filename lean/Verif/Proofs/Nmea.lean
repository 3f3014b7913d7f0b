import Verif.Model.Nmea
import Verif.Spec.Nmea
import Verif.Proofs.MsgFrame
import Mathlib.Tactic.Ring
import Mathlib.Data.Nat.ModEq

set_option autoImplicit false

/-!
# Lemmas about the NMEA decoder
-/

namespace Verif.Nmea
open NmeaSpec MsgFrame

/-! ## Digits -/

theorem le_iff_toNat (a b : UInt8) : a ≤ b ↔ a.toNat ≤ b.toNat := UInt8.le_iff_toNat_le

theorem charToUInt8Dec_eq (c : UInt8) :
    charToUInt8Dec c = if IsDigit c then some (UInt8.ofNat (dig c)) else none := by
  unfold charToUInt8Dec dig
  have h1 : (0x30 : UInt8) ≤ c ↔ 48 ≤ c.toNat := le_iff_toNat _ _
  have h2 : c ≤ (0x39 : UInt8) ↔ c.toNat ≤ 57 := le_iff_toNat _ _
  by_cases h : IsDigit c
  · rw [if_pos (by rw [h1, h2]; exact h), if_pos h]
    congr 1
    apply UInt8.toNat_inj.mp
    have := c.toNat_lt
    rw [UInt8.toNat_sub_of_le _ _ (h1.mpr h.1), UInt8.toNat_ofNat', show (0x30 : UInt8).toNat = 48 from rfl]
    omega
  · rw [if_neg (by rw [h1, h2]; exact h), if_neg h]

theorem toUInt16_sub (c k : UInt8) (h : k.toNat ≤ c.toNat) :
    c.toUInt16 - k.toUInt16 = UInt16.ofNat (c.toNat - k.toNat) := by
  apply UInt16.toNat_inj.mp
  have := c.toNat_lt
  rw [UInt16.toNat_sub_of_le _ _ (by rw [UInt16.le_iff_toNat_le]; simpa using h), UInt16.toNat_ofNat']
  simp
  omega

theorem charToUInt16Dec_eq (c : UInt8) :
    charToUInt16Dec c = if IsDigit c then some (UInt16.ofNat (dig c)) else none := by
  unfold charToUInt16Dec dig
  have h1 : (0x30 : UInt8) ≤ c ↔ 48 ≤ c.toNat := le_iff_toNat _ _
  have h2 : c ≤ (0x39 : UInt8) ↔ c.toNat ≤ 57 := le_iff_toNat _ _
  by_cases h : IsDigit c
  · rw [if_pos (by rw [h1, h2]; exact h), if_pos h]
    exact congrArg some (toUInt16_sub c 0x30 h.1)
  · rw [if_neg (by rw [h1, h2]; exact h), if_neg h]

theorem charToUInt16Hex_eq (c : UInt8) : charToUInt16Hex c = (hexVal c).map UInt16.ofNat := by
  unfold charToUInt16Hex hexVal
  have a1 : (0x30 : UInt8) ≤ c ↔ 48 ≤ c.toNat := le_iff_toNat _ _
  have a2 : c ≤ (0x39 : UInt8) ↔ c.toNat ≤ 57 := le_iff_toNat _ _
  have b1 : (0x41 : UInt8) ≤ c ↔ 65 ≤ c.toNat := le_iff_toNat _ _
  have b2 : c ≤ (0x46 : UInt8) ↔ c.toNat ≤ 70 := le_iff_toNat _ _
  have c1 : (0x61 : UInt8) ≤ c ↔ 97 ≤ c.toNat := le_iff_toNat _ _
  have c2 : c ≤ (0x66 : UInt8) ↔ c.toNat ≤ 102 := le_iff_toNat _ _
  have hadd : ∀ k : UInt8, k.toNat ≤ c.toNat →
      c.toUInt16 - k.toUInt16 + 10 = UInt16.ofNat (c.toNat - k.toNat + 10) := by
    intro k hk
    rw [toUInt16_sub c k hk]
    apply UInt16.toNat_inj.mp
    have := c.toNat_lt
    simp
  simp only [a1, a2, b1, b2, c1, c2]
  split_ifs with h1 h2 h3
  · exact congrArg some (toUInt16_sub c 0x30 h1.1)
  · have := hadd 0x41 h2.1
    rw [Option.map_some]
    refine congrArg some (this.trans ?_)
    congr 1
    show c.toNat - 65 + 10 = c.toNat - 55
    omega
  · have := hadd 0x61 h3.1
    rw [Option.map_some]
    refine congrArg some (this.trans ?_)
    congr 1
    show c.toNat - 97 + 10 = c.toNat - 87
    omega
  · rfl

theorem hexVal_lt {c : UInt8} {v : Nat} (h : hexVal c = some v) : v < 16 := by
  unfold hexVal at h
  split_ifs at h <;> injection h with h <;> omega

/-! ## Decimal strings -/

/-- Value of a reversed digit string. -/
def revVal : List UInt8 → Nat
  | [] => 0
  | c :: cs => dig c + 10 * revVal cs

theorem natVal_append (l : List UInt8) (c : UInt8) : natVal (l ++ [c]) = 10 * natVal l + dig c := by
  unfold natVal; rw [List.foldl_append]; rfl

theorem natVal_reverse (l : List UInt8) : natVal l.reverse = revVal l := by
  induction l with
  | nil => rfl
  | cons c cs ih => rw [List.reverse_cons, natVal_append, ih, revVal]; omega

theorem strLoop_spec (l : List UInt8) (mul : UInt16) (out : UInt8) :
    ((∀ c ∈ l, IsDigit c) → (strLoop l mul out).1 = true ∧
      (strLoop l mul out).2.toNat = (out.toNat + mul.toNat * revVal l) % 256) ∧
    ((¬ ∀ c ∈ l, IsDigit c) → (strLoop l mul out).1 = false) := by
  induction l generalizing mul out with
  | nil =>
    refine ⟨fun _ => ⟨rfl, ?_⟩, fun h => absurd (by simp) h⟩
    have := out.toNat_lt
    simp only [strLoop, revVal]
    omega
  | cons c cs ih =>
    unfold strLoop
    rw [charToUInt16Dec_eq]
    by_cases hc : IsDigit c
    · rw [if_pos hc]
      dsimp only
      obtain ⟨i1, i2⟩ := ih (mul * 10) (out + (mul * UInt16.ofNat (dig c)).toUInt8)
      constructor
      · intro h
        obtain ⟨j1, j2⟩ := i1 (fun x hx => h x (List.mem_cons_of_mem _ hx))
        refine ⟨j1, ?_⟩
        rw [j2]
        have hd : dig c < 65536 := by have := c.toNat_lt; unfold dig; omega
        simp only [UInt8.toNat_add, UInt16.toNat_toUInt8, UInt16.toNat_mul, UInt16.toNat_ofNat', revVal]
        have e10 : (10 : UInt16).toNat = 10 := rfl
        rw [e10, Nat.mod_eq_of_lt (show dig c < 2 ^ 16 from hd)]
        have key : ((out.toNat + mul.toNat * dig c % 2 ^ 16 % 2 ^ 8) % 2 ^ 8 +
            mul.toNat * 10 % 2 ^ 16 * revVal cs) % 256 =
            (out.toNat + mul.toNat * (dig c + 10 * revVal cs)) % 256 := by
          have m1 : mul.toNat * dig c % 2 ^ 16 % 2 ^ 8 ≡ mul.toNat * dig c [MOD 256] := by
            unfold Nat.ModEq
            rw [show (2 : Nat) ^ 16 = 65536 from rfl, show (2 : Nat) ^ 8 = 256 from rfl]
            omega
          have m2 : mul.toNat * 10 % 2 ^ 16 ≡ mul.toNat * 10 [MOD 256] := by
            unfold Nat.ModEq
            rw [show (2 : Nat) ^ 16 = 65536 from rfl]
            omega
          have m3 : (out.toNat + mul.toNat * dig c % 2 ^ 16 % 2 ^ 8) % 2 ^ 8 ≡
              out.toNat + mul.toNat * dig c [MOD 256] :=
            (Nat.mod_modEq _ _).trans (m1.add_left _)
          have m4 := m3.add (m2.mul_right (revVal cs))
          refine m4.trans ?_
          rw [show out.toNat + mul.toNat * dig c + mul.toNat * 10 * revVal cs =
            out.toNat + mul.toNat * (dig c + 10 * revVal cs) by ring]
        exact key
      · intro h
        apply i2
        intro h'
        apply h
        intro x hx
        rcases List.mem_cons.mp hx with rfl | hx
        · exact hc
        · exact h' x hx
    · rw [if_neg hc]
      exact ⟨fun h => absurd (h c (by simp)) hc, fun _ => rfl⟩

theorem strToUInt8Dec_spec (l : List UInt8) :
    ((∀ c ∈ l, IsDigit c) → (strToUInt8Dec l).1 = true ∧ (strToUInt8Dec l).2.toNat = natVal l % 256) ∧
    ((¬ ∀ c ∈ l, IsDigit c) → (strToUInt8Dec l).1 = false) := by
  unfold strToUInt8Dec
  obtain ⟨h1, h2⟩ := strLoop_spec l.reverse 1 0
  constructor
  · intro h
    obtain ⟨g1, g2⟩ := h1 (fun c hc => h c (List.mem_reverse.mp hc))
    refine ⟨g1, ?_⟩
    rw [g2, ← natVal_reverse, List.reverse_reverse]
    simp
  · intro h
    exact h2 (fun h' => h (fun c hc => h' c (List.mem_reverse.mpr hc)))

/-! ## Time -/

theorem two_digits {a b : UInt8} (ha : IsDigit a) (hb : IsDigit b) :
    (10 * UInt8.ofNat (dig a) + UInt8.ofNat (dig b)).toNat = natVal [a, b] := by
  unfold IsDigit at ha hb
  simp [natVal, dig]
  omega

theorem three_digits {a b c : UInt8} (ha : IsDigit a) (hb : IsDigit b) (hc : IsDigit c) :
    (100 * UInt16.ofNat (dig a) + 10 * UInt16.ofNat (dig b) + UInt16.ofNat (dig c)).toNat =
      natVal [a, b, c] := by
  unfold IsDigit at ha hb hc
  simp [natVal, dig]
  omega

/-- The value a time stands for. -/
def Time.val (t : Time) : Nat × Nat × Nat × Nat := (t.hour.toNat, t.min.toNat, t.sec.toNat, t.millisec.toNat)

theorem utcTime_none5 (b : Nat → UInt8) (h : charToUInt8Dec (b 5) = none) : utcTime b = none := by
  unfold utcTime
  rw [h]
  by_cases h10 : b 10 ≠ 0
  · rw [if_pos h10]
  · rw [if_neg h10]
    cases charToUInt8Dec (b 0) <;> cases charToUInt8Dec (b 1) <;> cases charToUInt8Dec (b 2) <;>
      cases charToUInt8Dec (b 3) <;> cases charToUInt8Dec (b 4) <;> rfl

theorem utcTime_none9 (b : Nat → UInt8) (h6 : b 6 ≠ 0) (h : charToUInt16Dec (b 9) = none) :
    utcTime b = none := by
  unfold utcTime
  rw [h]
  by_cases h10 : b 10 ≠ 0
  · rw [if_pos h10]
  · rw [if_neg h10]
    cases charToUInt8Dec (b 0) <;> cases charToUInt8Dec (b 1) <;> cases charToUInt8Dec (b 2) <;>
      cases charToUInt8Dec (b 3) <;> cases charToUInt8Dec (b 4) <;> cases charToUInt8Dec (b 5) <;> try rfl
    dsimp only
    rw [if_pos h6]
    split_ifs
    · cases charToUInt16Dec (b 7) <;> cases charToUInt16Dec (b 8) <;> rfl
    · rfl

/-- The time conversion on a NUL-free string in a zeroed buffer. -/
theorem utcTime_spec (l : List UInt8) (hn : ∀ c ∈ l, c ≠ 0) :
    (utcTime (fun i => l.getD i 0)).map Time.val = timeOf l := by
  have hz : ∀ x : UInt8, x = 0 → ¬ IsDigit x := by rintro x rfl; decide
  have hd : ∀ (i : Nat) (h : i < l.length), l.getD i 0 ≠ 0 := by
    intro i h
    have : l.getD i 0 = l[i] := by simp [List.getD, h]
    rw [this]
    exact hn _ (List.getElem_mem h)
  by_cases h6 : l.length < 6
  · -- some digit is missing
    have hlast : charToUInt8Dec (l.getD 5 0) = none := by
      rw [charToUInt8Dec_eq, if_neg]
      apply hz
      simp [List.getD, List.getElem?_eq_none (by omega : l.length ≤ 5)]
    have e1 := utcTime_none5 (fun i => l.getD i 0) hlast
    rw [e1]
    unfold timeOf
    split
    · simp at h6
    · simp at h6
    · rfl
  by_cases h7 : 7 ≤ l.length ∧ l.length ≤ 9
  · have h9 : l.getD 9 0 = 0 := by
      simp [List.getD, List.getElem?_eq_none (by omega : l.length ≤ 9)]
    have hnine : charToUInt16Dec (l.getD 9 0) = none := by
      rw [charToUInt16Dec_eq, if_neg (hz _ h9)]
    have e1 := utcTime_none9 (fun i => l.getD i 0) (hd 6 (by omega)) hnine
    rw [e1]
    unfold timeOf
    split
    · simp at h7
    · simp at h7
    · rfl
  · match l, h6, h7 with
    | [], h, _ => exact absurd (by simp) h
    | [_], h, _ => exact absurd (by simp) h
    | [_, _], h, _ => exact absurd (by simp) h
    | [_, _, _], h, _ => exact absurd (by simp) h
    | [_, _, _, _], h, _ => exact absurd (by simp) h
    | [_, _, _, _, _], h, _ => exact absurd (by simp) h
    | [_, _, _, _, _, _, _], _, h => exact absurd (by simp) h
    | [_, _, _, _, _, _, _, _], _, h => exact absurd (by simp) h
    | [_, _, _, _, _, _, _, _, _], _, h => exact absurd (by simp) h
    | [a, b, c, d, e, f], _, _ =>
      unfold utcTime timeOf
      simp only [List.getD_cons_zero, List.getD_cons_succ, List.getD_nil, charToUInt8Dec_eq]
      simp only [ne_eq, not_true_eq_false, if_false, List.mem_cons, List.not_mem_nil, or_false,
        forall_eq_or_imp, forall_eq]
      by_cases hall : IsDigit a ∧ IsDigit b ∧ IsDigit c ∧ IsDigit d ∧ IsDigit e ∧ IsDigit f
      · rw [if_pos hall]
        obtain ⟨ha, hb, hc, hd', he, hf⟩ := hall
        simp [ha, hb, hc, hd', he, hf, Time.val, -UInt8.toNat_add, -UInt8.toNat_mul, two_digits]
      · rw [if_neg hall]
        split
        · rename_i g1 g2 g3 g4 g5 g6
          split_ifs at g1 g2 g3 g4 g5 g6
          exact absurd ⟨‹_›, ‹_›, ‹_›, ‹_›, ‹_›, ‹_›⟩ hall
        · rfl
    | [a, b, c, d, e, f, p, q, r, s], _, _ =>
      unfold utcTime timeOf
      simp only [List.getD_cons_zero, List.getD_cons_succ, List.getD_nil, charToUInt8Dec_eq, charToUInt16Dec_eq]
      simp only [ne_eq, not_true_eq_false, if_false, List.mem_cons, List.not_mem_nil, or_false,
        forall_eq_or_imp, forall_eq]
      have hp0 : p ≠ 0 := hn p (by simp)
      have h46 : (0x2E : UInt8) = 46 := rfl
      by_cases hall : (IsDigit a ∧ IsDigit b ∧ IsDigit c ∧ IsDigit d ∧ IsDigit e ∧ IsDigit f ∧
          IsDigit q ∧ IsDigit r ∧ IsDigit s) ∧ p = 46
      · rw [if_pos hall]
        obtain ⟨⟨ha, hb, hc, hd', he, hf, hq, hr, hs⟩, hp⟩ := hall
        simp [ha, hb, hc, hd', he, hf, hq, hr, hs, hp, Time.val, -UInt8.toNat_add, -UInt8.toNat_mul,
          -UInt16.toNat_add, -UInt16.toNat_mul, two_digits, three_digits]
      · rw [if_neg hall]
        split
        · rename_i g1 g2 g3 g4 g5 g6
          split_ifs at g1 g2 g3 g4 g5 g6
          by_cases hp : p = 0x2E
          · rw [if_pos hp]
            split
            · rename_i k1 k2 k3
              split_ifs at k1 k2 k3
              exact absurd ⟨⟨‹_›, ‹_›, ‹_›, ‹_›, ‹_›, ‹_›, ‹_›, ‹_›, ‹_›⟩, hp⟩ hall
            · rfl
          · rw [if_neg hp, if_pos hp0]
            rfl
        · rfl
    | a :: b :: c :: d :: e :: f :: p :: q :: r :: s :: t :: rest, _, _ =>
      have : (a :: b :: c :: d :: e :: f :: p :: q :: r :: s :: t :: rest).getD 10 0 ≠ 0 := hd 10 (by simp)
      unfold utcTime timeOf
      rw [if_pos this]
      rfl

/-! ## Tokens -/

theorem rd_ok {d : Nat → UInt8} {i : Nat} (h : i < bufLen) : rd d i = .ok (d i) := if_pos h

/-- A field without commas, ended by a comma or by the end of the payload. -/
theorem nextTok_field (d : Nat → UInt8) (f : List UInt8) (left pos : Nat) (acc : List UInt8)
    (hc : ∀ c ∈ f, c ≠ 0x2C) (hl : acc.length + f.length < tokenLen)
    (hd : slice d pos f.length = f) (hb : pos + f.length < bufLen)
    (hend : left = f.length ∨ (f.length < left ∧ d (pos + f.length) = 0x2C)) :
    nextTok d left pos acc = .ok ⟨acc ++ f, left - (f.length + 1), pos + f.length + 1⟩ := by
  induction f generalizing left pos acc with
  | nil =>
    simp only [List.length_nil, Nat.add_zero] at *
    rcases hend with rfl | ⟨h1, h2⟩
    · unfold nextTok
      rw [rd_ok hb]
      dsimp only
      rw [if_pos hl]
      simp
    · obtain ⟨n, rfl⟩ := Nat.exists_eq_add_of_lt h1
      rw [Nat.zero_add]
      unfold nextTok
      rw [rd_ok hb]
      dsimp only
      rw [if_pos h2, if_pos hl]
      simp
  | cons c f ih =>
    rw [List.length_cons] at *
    obtain ⟨n, rfl⟩ : ∃ n, left = n + 1 := ⟨left - 1, by omega⟩
    have hs : d pos = c ∧ slice d (pos + 1) f.length = f := by
      rw [slice_succ] at hd
      injection hd with h1 h2
      exact ⟨h1, h2⟩
    unfold nextTok
    rw [rd_ok (by omega), hs.1]
    dsimp only
    rw [if_neg (hc c (by simp)), if_pos (by omega)]
    rw [ih n (pos + 1) (acc ++ [c]) (fun x hx => hc x (List.mem_cons_of_mem _ hx))
      (by rw [List.length_append, List.length_singleton]; omega) hs.2 (by omega) (by
        rcases hend with h | ⟨h1, h2⟩
        · left; omega
        · right; exact ⟨by omega, by rw [← h2]; congr 1; omega⟩)]
    rw [List.append_assoc, List.singleton_append, show n + 1 - (f.length + 1 + 1) = n - (f.length + 1) by omega,
      show pos + 1 + f.length + 1 = pos + (f.length + 1) + 1 by omega]

/-- Handlers applied to fields. -/
def pureRun : List Handler → List (List UInt8) → Gga → Bool × Gga
  | h :: hs, f :: fs, g =>
    match h f g with
    | (false, g') => (false, g')
    | (true, g') => pureRun hs fs g'
  | _, _, g => (true, g)

theorem join_cons_cons (f g : List UInt8) (fs : List (List UInt8)) :
    join (f :: g :: fs) = f ++ 44 :: join (g :: fs) := rfl

theorem slice_cut {d : Nat → UInt8} {pos n : Nat} {a b : List UInt8} {c : UInt8} (h : slice d pos n = a ++ c :: b) :
    slice d pos a.length = a ∧ d (pos + a.length) = c ∧ slice d (pos + a.length + 1) b.length = b := by
  have hn : n = a.length + (b.length + 1) := by
    have := congrArg List.length h
    simpa [slice_length] using this
  subst hn
  rw [slice_add, slice_succ] at h
  obtain ⟨h1, h2⟩ := List.append_inj h (by rw [slice_length])
  injection h2 with h2 h3
  exact ⟨h1, h2, h3⟩

theorem runFields_fields (d : Nat → UInt8) (hs : List Handler) (fs : List (List UInt8)) (pos : Nat) (g : Gga)
    (left : Nat) (hleft : left = (join fs).length)
    (hlen : hs.length ≤ fs.length) (hne : ∀ f ∈ fs.take hs.length, 1 ≤ f.length)
    (hc : ∀ f ∈ fs, ∀ c ∈ f, c ≠ 0x2C) (hsh : ∀ f ∈ fs, f.length < tokenLen)
    (hd : slice d pos left = join fs) (hb0 : pos < bufLen) (hb : fs ≠ [] → pos + left + 1 < bufLen) :
    runFields d hs left pos g = .ok (pureRun hs fs g) := by
  induction hs generalizing fs pos g left with
  | nil =>
    have hp : pureRun [] fs g = (true, g) := by unfold pureRun; rfl
    rw [hp]
    unfold runFields
    cases fs with
    | nil =>
      have : left = 0 := hleft
      subst this
      unfold nextTok
      rw [rd_ok (by omega)]
      rfl
    | cons f fs =>
      have hb := hb (by simp)
      have : ∃ t, nextTok d left pos [] = .ok t := by
        cases fs with
        | nil =>
          have e : left = f.length := hleft
          refine ⟨_, nextTok_field d f left pos [] (hc f (by simp)) (by simpa using hsh f (by simp)) ?_ (by omega)
            (Or.inl e)⟩
          rw [← e]; exact hd
        | cons f' fs =>
          rw [join_cons_cons] at hleft hd
          rw [List.length_append, List.length_cons] at hleft
          obtain ⟨h1, h2, h3⟩ := slice_cut hd
          exact ⟨_, nextTok_field d f left pos [] (hc f (by simp)) (by simpa using hsh f (by simp)) h1 (by omega)
            (Or.inr ⟨by omega, h2⟩)⟩
      obtain ⟨t, ht⟩ := this
      rw [ht]
  | cons h hs ih =>
    cases fs with
    | nil => simp at hlen
    | cons f fs =>
      have hf1 : 1 ≤ f.length := hne f (by simp)
      have hb := hb (by simp)
      unfold runFields pureRun
      cases fs with
      | nil =>
        have e : left = f.length := hleft
        have hs0 : hs = [] := by
          cases hs with
          | nil => rfl
          | cons _ _ => simp at hlen
        subst hs0
        rw [nextTok_field d f left pos [] (hc f (by simp)) (by simpa using hsh f (by simp)) (by rw [← e]; exact hd)
          (by omega) (Or.inl e)]
        dsimp only
        rw [List.nil_append, if_neg (by omega)]
        rcases hr : h f g with ⟨b, g'⟩
        cases b with
        | false => rfl
        | true =>
          dsimp only
          exact ih [] _ g' _ (by simp [join]; omega) (by simp) (by simp) (by simp) (by simp)
            (by rw [show left - (f.length + 1) = 0 by omega]; rfl) (by omega) (by simp)
      | cons f' fs =>
        rw [join_cons_cons] at hleft hd
        rw [List.length_append, List.length_cons] at hleft
        obtain ⟨h1, h2, h3⟩ := slice_cut hd
        rw [show (join (f' :: fs)).length = left - (f.length + 1) by omega] at h3
        rw [nextTok_field d f left pos [] (hc f (by simp)) (by simpa using hsh f (by simp)) h1 (by omega)
          (Or.inr ⟨by omega, h2⟩)]
        dsimp only
        rw [List.nil_append, if_neg (by omega)]
        rcases hr : h f g with ⟨b, g'⟩
        cases b with
        | false => rfl
        | true =>
          dsimp only
          refine ih (f' :: fs) _ g' _ (by omega) ?_ ?_ ?_ ?_ h3 (by omega) (fun _ => by omega)
          · simp only [List.length_cons] at hlen ⊢; omega
          · intro x hx; exact hne x (by rw [List.length_cons, List.take_succ_cons]; exact List.mem_cons_of_mem _ hx)
          · intro x hx; exact hc x (List.mem_cons_of_mem _ hx)
          · intro x hx; exact hsh x (List.mem_cons_of_mem _ hx)

/-! ## Checksum and end of payload -/

theorem findStar_hit (d : Nat → UInt8) (stop : Nat) (n i star : Nat) (h1 : i ≤ star) (h2 : star ≤ stop)
    (h3 : star < i + n) (h4 : d star = 0x2A) (h5 : ∀ j, i ≤ j → j < star → d j ≠ 0x2A) :
    findStar d stop n i = .ok (some star) := by
  induction n generalizing i with
  | zero => omega
  | succ n ih =>
    unfold findStar
    rw [if_pos (by omega)]
    rcases Nat.eq_or_lt_of_le h1 with rfl | hlt
    · rw [if_pos h4]
    · rw [if_neg (h5 i (le_refl _) hlt)]
      exact ih (i + 1) hlt (by omega) (fun j hj => h5 j (by omega))

theorem findStar_sound {d : Nat → UInt8} {stop n i star : Nat} (h : findStar d stop n i = .ok (some star)) :
    i ≤ star ∧ star ≤ stop ∧ star < i + n ∧ d star = 0x2A ∧ ∀ j, i ≤ j → j < star → d j ≠ 0x2A := by
  induction n generalizing i with
  | zero =>
    unfold findStar at h
    split_ifs at h
    simp at h
  | succ n ih =>
    unfold findStar at h
    split_ifs at h with h1 h2
    · injection h with h
      injection h with h
      subst h
      exact ⟨le_refl _, h1, by omega, h2, fun j _ _ => by omega⟩
    · obtain ⟨g1, g2, g3, g4, g5⟩ := ih h
      refine ⟨by omega, g2, by omega, g4, ?_⟩
      intro j hj hlt
      rcases Nat.eq_or_lt_of_le hj with rfl | hlt'
      · exact h2
      · exact g5 j hlt' hlt
    · simp at h

theorem xorFrom_eq (d : Nat → UInt8) (i n : Nat) : xorFrom d i n = (xorAll (slice d i n)).toUInt16 := by
  unfold xorFrom xorAll slice
  rw [List.foldl_map]
  suffices H : ∀ (l : List Nat) (x : UInt8),
      l.foldl (fun x j => x ^^^ (d j).toUInt16) x.toUInt16 = (l.foldl (fun x j => x ^^^ d j) x).toUInt16 from
    H _ 0
  intro l
  induction l with
  | nil => intro x; rfl
  | cons j l ih =>
    intro x
    rw [List.foldl_cons, List.foldl_cons, ← ih]
    congr 1

theorem hex_pair (v1 v0 : Nat) (h1 : v1 < 16) (h0 : v0 < 16) :
    ((UInt16.ofNat v1 <<< 4) + UInt16.ofNat v0).toNat = v1 * 16 + v0 := by
  simp only [UInt16.toNat_add, UInt16.toNat_shiftLeft, UInt16.toNat_ofNat']
  rw [show (4 : UInt16).toNat % 16 = 4 from rfl, Nat.shiftLeft_eq]
  omega

theorem verifyChecksum_iff (d : Nat → UInt8) (mb pb pe : Nat) (k1 k0 : UInt8) :
    verifyChecksum d mb pb pe k1 k0 = true ↔ pb + 2 ≤ pe ∧ ∃ v1 v0, hexVal k1 = some v1 ∧ hexVal k0 = some v0 ∧
      v1 * 16 + v0 = (xorAll (slice d (mb + 1) (pe - (mb + 1)))).toNat := by
  unfold verifyChecksum
  rw [charToUInt16Hex_eq, charToUInt16Hex_eq]
  by_cases h : pe < pb + 2
  · rw [if_pos h]
    simp; omega
  · rw [if_neg h]
    rcases e1 : hexVal k1 with _ | v1
    · simp
    rcases e0 : hexVal k0 with _ | v0
    · simp
    simp only [Option.map_some, beq_iff_eq, Option.some.injEq]
    rw [xorFrom_eq, ← UInt16.toNat_inj, hex_pair _ _ (hexVal_lt e1) (hexVal_lt e0)]
    simp only [UInt8.toNat_toUInt16]
    constructor
    · intro h'
      exact ⟨by omega, _, _, rfl, rfl, h'.symm⟩
    · rintro ⟨_, _, _, rfl, rfl, h'⟩
      exact h'.symm

end Verif.Nmea
