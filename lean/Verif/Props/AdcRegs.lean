import Verif.Spec.AdcRegs
import Verif.Props.Board
import Verif.Props.Clock
import Verif.Model.Adc
import Mathlib.Tactic.IntervalCases

set_option autoImplicit false

/-!
# C146: the analogue inputs are converted in the order the application numbers them
-/

namespace Verif.AdcRegs

open Verif.AdcRegs.Spec
open Verif.Board (setField setField_bit field_set_same field_set_other Port)
open Verif.Board.Spec (field)

/-- Writing one field leaves a disjoint one alone, of whatever width. -/
theorem field_set_disj (w m : Nat) (hm : m = 2 ^ w - 1) (x v : BitVec 32) (i w' j : Nat)
    (hj : j * w' + w' ≤ 32) (hv : v.toNat < 2 ^ w)
    (hd : j * w' + w' ≤ i * w ∨ i * w + w ≤ j * w') :
    field w' (setField w m x i v) j = field w' x j := by
  apply BitVec.eq_of_getLsbD_eq
  intro k hk
  unfold field
  rw [BitVec.getLsbD_extractLsb', BitVec.getLsbD_extractLsb',
    setField_bit w m hm x v i _ (by omega) hv, if_neg (by omega)]

theorem ch_lt {c : Call} (h : Fits c) : (BitVec.ofNat 32 c.channel).toNat < 2 ^ 5 := by
  rw [BitVec.toNat_ofNat, Nat.mod_eq_of_lt (by have := h.1; omega)]
  have := h.1; omega

theorem ch_val {c : Call} (h : Fits c) : ((BitVec.ofNat 32 c.channel).setWidth 5).toNat = c.channel := by
  have := h.1
  rw [BitVec.toNat_setWidth, BitVec.toNat_ofNat, Nat.mod_eq_of_lt (a := c.channel) (by omega),
    Nat.mod_eq_of_lt (by omega)]

/-- **C146, one call.** A call the driver accepts, on registers holding anything: that rank gets that channel, that
channel its sampling time; every other rank, every other channel's time, the length of the sequence, the modes and
the clock stay. -/
theorem C146_one_call (r : Regs) (c : Call) (h : Fits c) :
    slot (configChannel r c) (c.rank - 1) = c.channel ∧
    (∀ k < 16, k ≠ c.rank - 1 → slot (configChannel r c) k = slot r k) ∧
    timeCode (configChannel r c) c.channel = c.time.setWidth 3 ∧
    (∀ ch ≤ 18, ch ≠ c.channel → timeCode (configChannel r c) ch = timeCode r ch) ∧
    length (configChannel r c) = length r ∧
    (configChannel r c).cr1 = r.cr1 ∧ (configChannel r c).cr2 = r.cr2 ∧
    divider (configChannel r c) = divider r := by
  have hl := ch_lt h
  have hc := ch_val h
  obtain ⟨h1, h2, h3, h4⟩ := h
  have h4' : c.time.toNat < 2 ^ 3 := h4
  have e1 : (configChannel r c).sqr3 =
      if c.rank < 7 then setField 5 31 r.sqr3 (c.rank - 1) (BitVec.ofNat 32 c.channel) else r.sqr3 := by
    unfold configChannel; dsimp only; split_ifs <;> rfl
  have e2 : (configChannel r c).sqr2 =
      if 7 ≤ c.rank ∧ c.rank < 13 then setField 5 31 r.sqr2 (c.rank - 7) (BitVec.ofNat 32 c.channel)
      else r.sqr2 := by
    unfold configChannel; dsimp only; split_ifs <;> first | rfl | (exfalso; omega)
  have e3 : (configChannel r c).sqr1 =
      if 13 ≤ c.rank then setField 5 31 r.sqr1 (c.rank - 13) (BitVec.ofNat 32 c.channel) else r.sqr1 := by
    unfold configChannel; dsimp only; split_ifs <;> first | rfl | (exfalso; omega)
  have e4 : (configChannel r c).smpr1 =
      if 10 ≤ c.channel then setField 3 7 r.smpr1 (c.channel - 10) c.time else r.smpr1 := by
    unfold configChannel; dsimp only; split_ifs <;> first | rfl | (exfalso; omega)
  have e5 : (configChannel r c).smpr2 =
      if 10 ≤ c.channel then r.smpr2 else setField 3 7 r.smpr2 c.channel c.time := by
    unfold configChannel; dsimp only; split_ifs <;> first | rfl | (exfalso; omega)
  refine ⟨?_, ?_, ?_, ?_, ?_, ?_, ?_, ?_⟩
  · unfold slot
    rw [e1, e2, e3]
    by_cases a : c.rank < 7
    · rw [if_pos (by omega), if_pos a, field_set_same 5 31 (by decide) _ _ _ (by omega) hl, hc]
    · by_cases b : c.rank < 13
      · rw [if_neg (by omega), if_pos (by omega), if_pos ⟨by omega, b⟩,
          show c.rank - 1 - 6 = c.rank - 7 by omega,
          field_set_same 5 31 (by decide) _ _ _ (by omega) hl, hc]
      · rw [if_neg (by omega), if_neg (by omega), if_pos (by omega),
          show c.rank - 1 - 12 = c.rank - 13 by omega,
          field_set_same 5 31 (by decide) _ _ _ (by omega) hl, hc]
  · intro k hk hne
    unfold slot
    rw [e1, e2, e3]
    by_cases a : k < 6
    · rw [if_pos a, if_pos a]
      split_ifs
      · rw [field_set_other 5 31 (by decide) _ _ _ _ (by omega) hl hne]
      · rfl
    · by_cases b : k < 12
      · rw [if_neg a, if_pos b, if_neg a, if_pos b]
        split_ifs
        · rw [field_set_other 5 31 (by decide) _ _ _ _ (by omega) hl (by omega)]
        · rfl
      · rw [if_neg a, if_neg b, if_neg a, if_neg b]
        split_ifs
        · rw [field_set_other 5 31 (by decide) _ _ _ _ (by omega) hl (by omega)]
        · rfl
  · unfold timeCode
    rw [e4, e5]
    by_cases a : 10 ≤ c.channel
    · rw [if_neg (by omega), if_pos a, field_set_same 3 7 (by decide) _ _ _ (by omega) h4']
    · rw [if_pos (by omega), if_neg a, field_set_same 3 7 (by decide) _ _ _ (by omega) h4']
  · intro ch hch hne
    unfold timeCode
    rw [e4, e5]
    by_cases a : ch < 10
    · rw [if_pos a, if_pos a]
      split_ifs
      · rfl
      · rw [field_set_other 3 7 (by decide) _ _ _ _ (by omega) h4' hne]
    · rw [if_neg a, if_neg a]
      split_ifs
      · rw [field_set_other 3 7 (by decide) _ _ _ _ (by omega) h4' (by omega)]
      · rfl
  · unfold length
    rw [e3]
    split_ifs
    · rw [field_set_disj 5 31 (by decide) _ _ _ 4 5 (by omega) hl (by omega)]
    · rfl
  · unfold configChannel; dsimp only; split_ifs <;> rfl
  · unfold configChannel; dsimp only; split_ifs <;> rfl
  · have hx : ∀ x : BitVec 32, ∀ a b : BitVec 32,
        field 2 a 8 = 3#2 → field 2 b 8 = 0#2 → field 2 ((x &&& a) ||| b) 8 = field 2 x 8 := by
      intro x a b ha hb
      apply BitVec.eq_of_getLsbD_eq
      intro k hk
      have ha' := congrArg (fun y => y.getLsbD k) ha
      have hb' := congrArg (fun y => y.getLsbD k) hb
      have e3 : (3#2).getLsbD k = true := by
        interval_cases k <;> rfl
      simp only [field, BitVec.getLsbD_extractLsb', BitVec.getLsbD_zero, e3, hk, decide_true,
        Bool.true_and] at ha' hb'
      simp only [field, BitVec.getLsbD_extractLsb', BitVec.getLsbD_or, BitVec.getLsbD_and, ha', hb',
        Bool.and_true, Bool.or_false]
    unfold divider configChannel
    dsimp only
    split_ifs <;> dsimp only <;> first | rfl | rw [hx _ _ _ (by decide) (by decide)]

/-- **C146, any sequence of calls.** For each rank and for each channel the last call that names it counts. -/
theorem C146_last_call_counts (l : List Call) (r : Regs) (h : ∀ c ∈ l, Fits c) :
    (∀ k < 16, slot (configChannels r l) k =
      (l.filter (fun c => c.rank = k + 1)).foldl (fun _ c => c.channel) (slot r k)) ∧
    (∀ ch ≤ 18, timeCode (configChannels r l) ch =
      (l.filter (fun c => c.channel = ch)).foldl (fun _ c => c.time.setWidth 3) (timeCode r ch)) ∧
    length (configChannels r l) = length r ∧
    (configChannels r l).cr1 = r.cr1 ∧ (configChannels r l).cr2 = r.cr2 ∧
    divider (configChannels r l) = divider r := by
  induction l generalizing r with
  | nil => exact ⟨fun _ _ => rfl, fun _ _ => rfl, rfl, rfl, rfl, rfl⟩
  | cons c l ih =>
    have hc := h c (List.mem_cons_self ..)
    obtain ⟨a1, a2, a3, a4, a5, a6, a7, a8⟩ := C146_one_call r c hc
    obtain ⟨b1, b2, b3, b4, b5, b6⟩ := ih (configChannel r c) (fun d hd => h d (List.mem_cons_of_mem _ hd))
    have e : configChannels r (c :: l) = configChannels (configChannel r c) l := rfl
    rw [e]
    refine ⟨?_, ?_, b3.trans a5, b4.trans a6, b5.trans a7, b6.trans a8⟩
    · intro k hk
      rw [b1 k hk]
      by_cases hr : c.rank = k + 1
      · rw [List.filter_cons_of_pos (by simpa using hr), List.foldl_cons]
        have : k = c.rank - 1 := by omega
        rw [this, a1]
      · rw [List.filter_cons_of_neg (by simpa using hr), a2 k hk (by have := hc.2.1; omega)]
    · intro ch hch
      rw [b2 ch hch]
      by_cases hr : c.channel = ch
      · rw [List.filter_cons_of_pos (by simpa using hr), List.foldl_cons, ← hr, a3]
      · rw [List.filter_cons_of_neg (by simpa using hr), a4 ch hch (fun x => hr x.symm)]

theorem flag_lt (b : Bool) : (flag b).toNat < 2 ^ 1 := by cases b <;> decide
theorem flag_bit (b : Bool) : (flag b).getLsbD 0 = b := by cases b <;> rfl

/-- **C146, settings.** Whatever the registers held before, the converter behaves as the settings say (for settings
without the discontinuous mode). -/
theorem C146_settings (r : Regs) (a : Init) (h : InitFits a) :
    length (adcInit r a) = a.conversions.toNat ∧
    (adcInit r a).cr1.getLsbD 8 = a.scan ∧
    bits (adcInit r a) = 12 - 2 * a.resolution.toNat ∧
    (RightAligned (adcInit r a) ↔ a.alignLeft = false) ∧
    (FreeRunning (adcInit r a) ↔ a.cont = true ∧ ∀ t, a.trigger = some t → t.2 = 0#32) ∧
    (KeepsAsking (adcInit r a) ↔ a.dmaCont = true) ∧
    divider (adcInit r a) = 2 * a.prescaler.toNat + 2 := by
  obtain ⟨p1, p2, p3, p4, p5, p6⟩ := h
  have p2' : a.resolution.toNat < 2 ^ 2 := p2
  have p1' : a.prescaler.toNat < 2 ^ 2 := p1
  have hconv : (a.conversions - 1#32).toNat = a.conversions.toNat - 1 := by
    rw [BitVec.toNat_sub_of_le (by rw [BitVec.le_def]; exact p3)]; rfl
  have hconv' : (a.conversions - 1#32).toNat < 2 ^ 4 := by rw [hconv]; omega
  have k1 : ∀ (x y : BitVec 32) (i k : Nat), y.toNat < 2 ^ 1 → k < 32 →
      (setField 1 1 x i y).getLsbD k = if k = i then y.getLsbD 0 else x.getLsbD k := by
    intro x y i k hy hk
    rw [setField_bit 1 1 (by decide) x y i k hk hy]
    by_cases hki : k = i
    · rw [if_pos (by omega), if_pos hki, hki]; simp
    · rw [if_neg (by omega), if_neg hki]
  have ecr1 : (adcInit r a).cr1 =
      (setField 2 3 (setField 1 1 r.cr1 8 (flag a.scan)) 12 a.resolution) &&& ~~~ 0x800#32 := by
    unfold adcInit; rw [p5]
  refine ⟨?_, ?_, ?_, ?_, ?_, ?_, ?_⟩
  · show (field 4 (setField 4 15 r.sqr1 5 (a.conversions - 1#32)) 5).toNat + 1 = _
    rw [field_set_same 4 15 (by decide) _ _ _ (by omega) hconv', BitVec.toNat_setWidth,
      Nat.mod_eq_of_lt hconv', hconv]
    omega
  · rw [ecr1, BitVec.getLsbD_and, setField_bit 2 3 (by decide) _ _ _ _ (by decide) p2', if_neg (by decide),
      k1 _ _ _ _ (flag_lt _) (by decide), if_pos rfl, flag_bit]
    simp
  · unfold bits
    have : field 2 (adcInit r a).cr1 12 = a.resolution.setWidth 2 := by
      rw [ecr1, ← field_set_same 2 3 (by decide) (setField 1 1 r.cr1 8 (flag a.scan)) a.resolution 12
        (by omega) p2']
      apply BitVec.eq_of_getLsbD_eq
      intro k hk
      unfold field
      rw [BitVec.getLsbD_extractLsb', BitVec.getLsbD_extractLsb', BitVec.getLsbD_and]
      have : (~~~ 0x800#32).getLsbD (12 * 2 + k) = true := by interval_cases k <;> decide
      rw [this, Bool.and_true]
    rw [this, BitVec.toNat_setWidth, Nat.mod_eq_of_lt p2']
  · unfold RightAligned adcInit
    dsimp only
    rw [k1 _ _ _ _ (flag_lt _) (by decide), if_neg (by decide), k1 _ _ _ _ (flag_lt _) (by decide),
      if_neg (by decide), k1 _ _ _ _ (flag_lt _) (by decide), if_neg (by decide)]
    rcases ht : a.trigger with _ | ⟨sel, edge⟩
    · dsimp only
      rw [BitVec.getLsbD_and, BitVec.getLsbD_and, k1 _ _ _ _ (flag_lt _) (by decide), if_pos rfl, flag_bit]
      simp
    · obtain ⟨t1, t2⟩ := p6 _ ht
      dsimp only
      rw [setField_bit 2 3 (by decide) _ _ _ _ (by decide) t2, if_neg (by decide),
        setField_bit 4 15 (by decide) _ _ _ _ (by decide) t1, if_neg (by decide),
        k1 _ _ _ _ (flag_lt _) (by decide), if_pos rfl, flag_bit]
  · unfold FreeRunning
    have c1 : (adcInit r a).cr2.getLsbD 1 = a.cont := by
      unfold adcInit
      dsimp only
      rw [k1 _ _ _ _ (flag_lt _) (by decide), if_neg (by decide), k1 _ _ _ _ (flag_lt _) (by decide),
        if_neg (by decide), k1 _ _ _ _ (flag_lt _) (by decide), if_pos rfl, flag_bit]
    have c2 : (adcInit r a).cr1.getLsbD 11 = false := by
      rw [ecr1, BitVec.getLsbD_and]
      have : (~~~ 0x800#32).getLsbD 11 = false := by decide
      rw [this, Bool.and_false]
    have c3 : field 2 (adcInit r a).cr2 14 =
        match a.trigger with | some t => t.2.setWidth 2 | none => 0#2 := by
      unfold adcInit
      dsimp only
      rw [field_set_disj 1 1 (by decide) _ _ _ 2 14 (by omega) (flag_lt _) (by omega),
        field_set_disj 1 1 (by decide) _ _ _ 2 14 (by omega) (flag_lt _) (by omega),
        field_set_disj 1 1 (by decide) _ _ _ 2 14 (by omega) (flag_lt _) (by omega)]
      rcases ht : a.trigger with _ | ⟨sel, edge⟩
      · dsimp only
        apply BitVec.eq_of_getLsbD_eq
        intro k hk
        unfold field
        rw [BitVec.getLsbD_extractLsb', BitVec.getLsbD_and]
        have : (~~~ 0x30000000#32).getLsbD (14 * 2 + k) = false := by interval_cases k <;> decide
        rw [this]
        simp
      · obtain ⟨t1, t2⟩ := p6 _ ht
        dsimp only
        rw [field_set_same 2 3 (by decide) _ _ _ (by omega) t2]
    rw [c1, c2, c3]
    rcases ht : a.trigger with _ | ⟨sel, edge⟩
    · simp
    · obtain ⟨t1, t2⟩ := p6 _ ht
      dsimp only at t2 ⊢
      constructor
      · rintro ⟨x, -, y⟩
        refine ⟨x, ?_⟩
        rintro t ⟨⟩
        dsimp only
        apply BitVec.eq_of_toNat_eq
        have := congrArg BitVec.toNat y
        rw [BitVec.toNat_setWidth, Nat.mod_eq_of_lt t2] at this
        exact this
      · rintro ⟨x, y⟩
        have := y _ rfl
        dsimp only at this
        rw [this]
        exact ⟨x, rfl, rfl⟩
  · unfold KeepsAsking adcInit
    dsimp only
    rw [k1 _ _ _ _ (flag_lt _) (by decide), if_neg (by decide), k1 _ _ _ _ (flag_lt _) (by decide),
      if_pos rfl, flag_bit]
  · show 2 * (field 2 (setField 2 3 r.ccr 8 a.prescaler) 8).toNat + 2 = _
    rw [field_set_same 2 3 (by decide) _ _ _ (by omega) p1', BitVec.toNat_setWidth, Nat.mod_eq_of_lt p1']

theorem shipped_fits : (∀ c ∈ shippedCalls, Fits c) ∧ InitFits shippedInit := by
  refine ⟨by decide, by decide, by decide, by decide, by decide, rfl, ?_⟩
  intro t ht
  cases ht

/-- **C146, the shipped sequence.** Whatever the registers held before `MX_ADC1_Init`: twelve inputs are
converted per sweep, in the order in which the application numbers them; sweep follows sweep untriggered; results
have 12 bits, right aligned. -/
theorem C146_sequence (r : Regs) :
    (sweep (mxAdc1 r)).map pinOfInput = signals.map some ∧ FreeRunning (mxAdc1 r) ∧ bits (mxAdc1 r) = 12 ∧
    RightAligned (mxAdc1 r) ∧ (∀ ch ∈ sweep (mxAdc1 r), sampling (timeCode (mxAdc1 r) ch) = 480) ∧
    divider (mxAdc1 r) = 8 := by
  obtain ⟨hf, hi⟩ := shipped_fits
  obtain ⟨b1, b2, b3, b4, b5, b6⟩ := C146_last_call_counts shippedCalls (adcInit r shippedInit) hf
  obtain ⟨c1, c2, c3, c4, c5, c6, c7⟩ := C146_settings r shippedInit hi
  have hs : sweep (mxAdc1 r) = [0, 1, 2, 3, 4, 5, 6, 7, 8, 9, 14, 15] := by
    unfold sweep mxAdc1
    rw [b4, c2, b3, c1, if_pos (show shippedInit.scan = true from rfl)]
    show (List.range 12).map _ = _
    have : ∀ k ∈ List.range 12, slot (configChannels (adcInit r shippedInit) shippedCalls) k =
        (fun k => (shippedCalls.filter (fun c => c.rank = k + 1)).foldl (fun _ c => c.channel) 0) k := by
      intro k hk
      rw [b1 k (by have := List.mem_range.1 hk; omega)]
      have hk' : k < 12 := List.mem_range.1 hk
      interval_cases k <;> rfl
    rw [List.map_congr_left this]
    rfl
  refine ⟨?_, ?_, ?_, ?_, ?_, ?_⟩
  · rw [hs]; rfl
  · unfold FreeRunning mxAdc1
    rw [b4, b5]
    refine c5.2 ⟨rfl, ?_⟩
    intro t ht; cases ht
  · unfold bits mxAdc1
    rw [b4]
    exact c3
  · unfold RightAligned mxAdc1
    rw [b5]
    exact c4.2 rfl
  · rw [hs]
    intro ch hch
    unfold mxAdc1
    rw [b2 ch (by have : ∀ x ∈ [0, 1, 2, 3, 4, 5, 6, 7, 8, 9, 14, 15], x ≤ 18 := by decide
                  exact this ch hch)]
    simp only [List.mem_cons, List.not_mem_nil, or_false] at hch
    rcases hch with h | h | h | h | h | h | h | h | h | h | h | h <;> subst h <;> rfl
  · unfold mxAdc1
    rw [b6, c7]
    rfl

/-- **C146, pins.** Every signal comes in on a pin that start-up has switched to its analogue function. -/
theorem C146_pins (s : Board.St) (p : Port) (i : Nat) (h : (p, i) ∈ signals) :
    (Board.Spec.pinOf (Board.run s Board.shipped) p i).mode = 3#2 := by
  have hb : ∀ x ∈ signals, (x.1, x.2, Board.Spec.Role.analog) ∈ Board.Spec.board := by decide
  have := Board.C124_board_wired s p i .analog (hb _ h)
  exact this

/-- **C146, starting.** Starting leaves the sequence, times, clock, resolution and alignment alone, and the
converter then runs. -/
theorem C146_started (r : Regs) (h : FreeRunning r) :
    Started (startDma r) ∧ FreeRunning (startDma r) ∧ sweep (startDma r) = sweep r ∧
    sweepCycles (startDma r) = sweepCycles r ∧ divider (startDma r) = divider r ∧
    bits (startDma r) = bits r ∧ (RightAligned (startDma r) ↔ RightAligned r) ∧
    (KeepsAsking (startDma r) ↔ KeepsAsking r) := by
  obtain ⟨h1, h2, h3⟩ := h
  have hone : r.cr2 &&& 1#32 ≠ 1#32 ∨ r.cr2.getLsbD 0 = true := by
    by_cases hb : r.cr2.getLsbD 0 = true
    · exact .inr hb
    · left
      intro he
      have := congrArg (fun x => x.getLsbD 0) he
      simp only [BitVec.getLsbD_and] at this
      exact hb (by simpa using this)
  have hz : ∀ x : BitVec 32, field 2 x 14 = 0#2 → x &&& 0x30000000#32 = 0#32 := by
    intro x hx
    apply BitVec.eq_of_getLsbD_eq
    intro k hk
    rw [BitVec.getLsbD_and, BitVec.getLsbD_zero]
    by_cases hk' : k = 28 ∨ k = 29
    · have := congrArg (fun y => y.getLsbD (k - 28)) hx
      simp only [field, BitVec.getLsbD_extractLsb', BitVec.getLsbD_zero] at this
      rw [show 14 * 2 + (k - 28) = k by omega] at this
      have hlt : k - 28 < 2 := by omega
      simp only [hlt, decide_true, Bool.true_and] at this
      rw [this, Bool.false_and]
    · have : (0x30000000#32).getLsbD k = false := by
        have : ∀ j < 32, ¬ (j = 28 ∨ j = 29) → (0x30000000#32).getLsbD j = false := by decide
        exact this k hk hk'
      rw [this, Bool.and_false]
  have hor : ∀ (x m : BitVec 32) (w j : Nat), field w m j = 0#w → field w (x ||| m) j = field w x j := by
    intro x m w j hm
    apply BitVec.eq_of_getLsbD_eq
    intro k hk
    have := congrArg (fun y => y.getLsbD k) hm
    simp only [field, BitVec.getLsbD_extractLsb', BitVec.getLsbD_zero, hk, decide_true, Bool.true_and] at this
    simp only [field, BitVec.getLsbD_extractLsb', BitVec.getLsbD_or, this, Bool.or_false]
  have e2 : (startDma r).cr2 = ((r.cr2 ||| 1#32) ||| 0x100#32) ||| 0x40000000#32 := by
    unfold startDma
    dsimp only
    have hadon : (if r.cr2 &&& 1#32 ≠ 1#32 then r.cr2 ||| 1#32 else r.cr2) = r.cr2 ||| 1#32 := by
      split_ifs with hc
      · rfl
      · rcases hone with hh | hh
        · exact absurd hh hc
        · apply BitVec.eq_of_getLsbD_eq
          intro k hk
          rw [BitVec.getLsbD_or]
          by_cases hk0 : k = 0
          · subst hk0; rw [hh]; rfl
          · have : (1#32).getLsbD k = false := by
              have : ∀ j < 32, j ≠ 0 → (1#32).getLsbD j = false := by decide
              exact this k hk hk0
            rw [this, Bool.or_false]
    rw [hadon, if_pos]
    apply hz
    rw [hor _ _ _ _ (by decide), hor _ _ _ _ (by decide), h3]
  have e1 : (startDma r).cr1 = r.cr1 ||| 0x04000000#32 := rfl
  have b8 : (startDma r).cr1.getLsbD 8 = r.cr1.getLsbD 8 := by
    rw [e1, BitVec.getLsbD_or]
    have : (0x04000000#32).getLsbD 8 = false := by decide
    rw [this, Bool.or_false]
  have bb : bits (startDma r) = bits r := by
    unfold bits
    rw [e1, hor _ _ _ _ (by decide)]
  have hsw : sweep (startDma r) = sweep r := by
    unfold sweep
    rw [b8]
    rfl
  refine ⟨⟨?_, ?_, ?_⟩, ⟨?_, ?_, ?_⟩, hsw, ?_, rfl, bb, ?_, ?_⟩
  · rw [e2]; simp
  · rw [e2]; simp
  · rw [e2]; simp
  · rw [e2]; simp [h1]
  · rw [e1, BitVec.getLsbD_or, h2]; rfl
  · rw [e2, hor _ _ _ _ (by decide), hor _ _ _ _ (by decide), hor _ _ _ _ (by decide), h3]
  · unfold sweepCycles
    rw [hsw, bb]
    rfl
  · unfold RightAligned; rw [e2]; simp
  · unfold KeepsAsking; rw [e2]; simp

/-- **C146, time.** For every crystal frequency a sweep takes 5904 cycles of 8 bus clocks, and the converter
makes more than 22 sweeps per period of the control task. With the 16 MHz crystal the converter's clock is
13.5 MHz (it may be at most 36). -/
theorem C146_time (r : Regs) (f : ℚ) (hf : 0 < f) :
    sweepCycles (startDma (mxAdc1 r)) = 5904 ∧
    sweepTime (startDma (mxAdc1 r)) f = 188928 / (27 * f) ∧
    22 * sweepTime (startDma (mxAdc1 r)) f < Clock.taskTimer f ∧
    adcClk (startDma (mxAdc1 r)) 16000000 = 13500000 := by
  obtain ⟨a1, a2, a3, a4, a5, a6⟩ := C146_sequence r
  obtain ⟨-, -, -, b4, b5, -, -, -⟩ := C146_started (mxAdc1 r) a2
  have hlen : (sweep (mxAdc1 r)).length = 12 := by
    have := congrArg List.length a1
    rw [List.length_map, List.length_map] at this
    exact this
  have hc : sweepCycles (mxAdc1 r) = 5904 := by
    unfold sweepCycles
    rw [List.map_congr_left (g := fun _ => 492) (fun ch hch => by rw [a5 ch hch, a3]),
      List.map_const', List.sum_replicate, hlen]
    rfl
  have hclk : ∀ f, adcClk (startDma (mxAdc1 r)) f = f * 27 / 32 := by
    intro f
    unfold adcClk
    rw [b5, a6, Clock.pclk2, Clock.apb2_val, Clock.hclk_val]
    push_cast
    ring
  have ht : sweepTime (startDma (mxAdc1 r)) f = 188928 / (27 * f) := by
    unfold sweepTime
    rw [b4, hc, hclk]
    have hf' : f ≠ 0 := ne_of_gt hf
    push_cast
    field_simp
    norm_num
  refine ⟨b4.trans hc, ht, ?_, ?_⟩
  · obtain ⟨-, h2, -, -, -⟩ := Clock.C118_intervals f hf
    rw [ht, h2, ← mul_div_assoc, div_lt_div_iff₀ (by linarith) hf]
    nlinarith
  · rw [hclk]; norm_num

/-- **C146, what C68 starts from.** The settings the analysis of the driver takes as given are those in the
registers: transfers of 16 bits, no further requests after the first pass, twelve conversions. -/
theorem C146_driver_settings (r : Regs) :
    Adc.shippedHw.halfWord = (Board.adcDma.memSize == 0x2000#32) ∧
    (KeepsAsking (startDma (mxAdc1 r)) ↔ Adc.shippedHw.oneShot = false) ∧
    length (mxAdc1 r) = 12 := by
  obtain ⟨hf, hi⟩ := shipped_fits
  obtain ⟨-, -, b3, -, b5, -⟩ := C146_last_call_counts shippedCalls (adcInit r shippedInit) hf
  obtain ⟨c1, -, -, -, -, c6, -⟩ := C146_settings r shippedInit hi
  obtain ⟨-, a2, -, -, -, -⟩ := C146_sequence r
  obtain ⟨-, -, -, -, -, -, -, b8⟩ := C146_started (mxAdc1 r) a2
  refine ⟨by rfl, ?_, ?_⟩
  · rw [b8]
    unfold KeepsAsking mxAdc1
    rw [b5]
    exact c6.trans (by decide)
  · unfold mxAdc1
    rw [b3, c1]
    rfl

/-- Nine: throttle 2 comes in on PB1, whatever was in the registers before, here all ones. -/
example : (sweep (mxAdc1 ⟨~~~0, ~~~0, ~~~0, ~~~0, ~~~0, ~~~0, ~~~0, ~~~0⟩))[9]? = some 9 ∧
    pinOfInput 9 = some (.b, 1) := by decide +kernel

/-- Two calls for the same rank: the second counts, and rank 13 to 16 do not disturb the length. -/
example : sweep (configChannels (adcInit ⟨0, 0, 0, 0, 0, 0, 0, 0⟩ { shippedInit with conversions := 14#32 })
    (shippedCalls ++ [⟨17, 13, 1#32⟩, ⟨3, 14, 2#32⟩, ⟨11, 2, 0#32⟩])) =
    [0, 11, 2, 3, 4, 5, 6, 7, 8, 9, 14, 15, 17, 3] := by decide +kernel

end Verif.AdcRegs
