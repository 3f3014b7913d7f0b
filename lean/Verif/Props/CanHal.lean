import Verif.Model.CanHal
import Verif.Props.InverterCmd
import Verif.Model.Startup
import Mathlib.Tactic.FinCases

set_option autoImplicit false

/-!
# C90, C91: concurrent senders on one CAN bus
-/

namespace Verif.CanHal

/-- How often a frame was passed to `CAN_SendMessage` in a history. -/
def passed (f : Frame) (es : List Ev) : Nat :=
  es.countP fun e => match e with
    | .enter _ g => decide (g = f)
    | _ => false

/-- Nobody enters `CAN_SendMessage` while a call is in progress. -/
def Exclusive : St → List Ev → Prop
  | _, [] => True
  | s, e :: es => (∀ t f, e = .enter t f → ∀ u, s.call u = none) ∧ Exclusive (step s e) es

/-- Mailbox `m` is pending with frame `f`. -/
def holds (b : Fin 3 → Box) (f : Frame) (m : Fin 3) : Nat :=
  if (b m).pend = true ∧ (b m).frame = f then 1 else 0

/-- Number of pending mailboxes with frame `f`. -/
def inBoxes (b : Fin 3 → Box) (f : Frame) : Nat := holds b f 0 + holds b f 1 + holds b f 2

theorem holds_upd (b : Fin 3 → Box) (m : Fin 3) (x : Box) (f : Frame) (k : Fin 3) :
    holds (upd b m x) f k =
      if k = m then (if x.pend = true ∧ x.frame = f then 1 else 0) else holds b f k := by
  unfold holds upd
  split <;> rfl

theorem inBoxes_upd (b : Fin 3 → Box) (m : Fin 3) (x : Box) (f : Frame) :
    inBoxes (upd b m x) f + holds b f m =
      inBoxes b f + (if x.pend = true ∧ x.frame = f then 1 else 0) := by
  unfold inBoxes
  simp only [holds_upd]
  fin_cases m <;> simp <;> omega

theorem inBoxes_quiet (b : Fin 3 → Box) (m : Fin 3) (r : Frame) (f : Frame)
    (h : (b m).pend = false) : inBoxes (upd b m ⟨r, false⟩) f = inBoxes b f := by
  have := inBoxes_upd b m ⟨r, false⟩ f
  have e : holds b f m = 0 := by simp [holds, h]
  simpa [e] using this

/-- What a call in progress has written. -/
def Wrote (b : Fin 3 → Box) (f : Frame) : Pc → Prop
  | .level => True
  | .tsr => True
  | .id m => (b m).pend = false
  | .dlc m => (b m).pend = false ∧ (b m).frame.id = f.id
  | .hi m => (b m).pend = false ∧ (b m).frame.id = f.id ∧ (b m).frame.dlc = f.dlc
  | .lo m => (b m).pend = false ∧ (b m).frame.id = f.id ∧ (b m).frame.dlc = f.dlc ∧
      (b m).frame.hi = f.hi
  | .load m => (b m).pend = false ∧ (b m).frame = f
  | .store m i => (b m).pend = false ∧ (b m).frame = f ∧ i = f.id

/-- Invariant: at most one call, which has written its part of the frame; accepted frames are on the
bus or pending; `n f` bounds the acceptances of `f`. -/
structure Inv (s : St) (n : Frame → Nat) : Prop where
  call : (∀ u, s.call u = none) ∨ ∃ t f pc, (∀ u, s.call u = if u = t then some (f, pc) else none) ∧
    Wrote s.box f pc ∧ s.accepted.count f + 1 ≤ n f
  bound : ∀ f, s.accepted.count f ≤ n f
  count : ∀ f, s.accepted.count f = s.bus.count f + inBoxes s.box f

theorem upd_single {f f' : Frame} {pc pc' : Pc} {c : Nat → Option (Frame × Pc)} {t : Nat}
    (h : ∀ u, c u = if u = t then some (f, pc) else none) (u : Nat) :
    upd c t (some (f', pc')) u = if u = t then some (f', pc') else none := by
  unfold upd
  split
  · rfl
  · rename_i hu; rw [h u, if_neg hu]

theorem upd_none {f : Frame} {pc : Pc} {c : Nat → Option (Frame × Pc)} {t : Nat}
    (h : ∀ u, c u = if u = t then some (f, pc) else none) (u : Nat) : upd c t none u = none := by
  unfold upd
  split
  · rfl
  · rename_i hu; rw [h u, if_neg hu]

/-- A mailbox that is not the call's does not matter to what the call wrote. -/
theorem wrote_sent {b : Fin 3 → Box} {f : Frame} {pc : Pc} (m : Fin 3) (hm : (b m).pend = true)
    (h : Wrote b f pc) : Wrote (upd b m ⟨(b m).frame, false⟩) f pc := by
  have key : ∀ k : Fin 3, (b k).pend = false → upd b m ⟨(b m).frame, false⟩ k = b k := by
    intro k hk
    unfold upd
    rw [if_neg]
    rintro rfl
    rw [hm] at hk; cases hk
  cases pc with
  | level => trivial
  | tsr => trivial
  | id k => show _ = _; rw [key k h]; exact h
  | dlc k => show _ ∧ _; rw [key k h.1]; exact h
  | hi k => show _ ∧ _; rw [key k h.1]; exact h
  | lo k => show _ ∧ _; rw [key k h.1]; exact h
  | load k => show _ ∧ _; rw [key k h.1]; exact h
  | store k i => show _ ∧ _; rw [key k h.1]; exact h

theorem write_empty {s : St} {m : Fin 3} (g : Frame → Frame) (h : (s.box m).pend = false) :
    write s m g = upd s.box m ⟨g (s.box m).frame, false⟩ := by
  unfold write; rw [h]; rfl

theorem upd_self {α β : Type} [DecidableEq α] (g : α → β) (a : α) (v : β) : upd g a v a = v := by
  unfold upd; rw [if_pos rfl]

theorem inv_access {s : St} {n : Frame → Nat} {t : Nat} {f : Frame} {pc : Pc} (code : Fin 3)
    (hc : ∀ u, s.call u = if u = t then some (f, pc) else none) (hw : Wrote s.box f pc)
    (hn : s.accepted.count f + 1 ≤ n f) (hb : ∀ f, s.accepted.count f ≤ n f)
    (hk : ∀ f, s.accepted.count f = s.bus.count f + inBoxes s.box f) :
    Inv (access s t code f pc) n := by
  cases pc with
  | level =>
    dsimp only [access]
    split
    · exact ⟨.inr ⟨t, f, .tsr, upd_single hc, trivial, hn⟩, hb, hk⟩
    · exact ⟨.inl (upd_none hc), hb, hk⟩
  | tsr =>
    dsimp only [access]
    split
    · split
      · exact ⟨.inr ⟨t, f, .tsr, hc, trivial, hn⟩, hb, hk⟩
      · rename_i h
        exact ⟨.inr ⟨t, f, .id code, upd_single hc, by simpa [Wrote] using h, hn⟩, hb, hk⟩
    · exact ⟨.inl (upd_none hc), hb, hk⟩
  | id m =>
    have hp : (s.box m).pend = false := hw
    simp only [access, write_empty _ hp]
    refine ⟨.inr ⟨t, f, .dlc m, upd_single hc, ?_, hn⟩, hb, fun g => ?_⟩
    · simp [Wrote, upd_self]
    · rw [inBoxes_quiet _ _ _ _ hp]; exact hk g
  | dlc m =>
    have hp : (s.box m).pend = false := hw.1
    simp only [access, write_empty _ hp]
    refine ⟨.inr ⟨t, f, .hi m, upd_single hc, ?_, hn⟩, hb, fun g => ?_⟩
    · simp [Wrote, upd_self, hw.2]
    · rw [inBoxes_quiet _ _ _ _ hp]; exact hk g
  | hi m =>
    have hp : (s.box m).pend = false := hw.1
    simp only [access, write_empty _ hp]
    refine ⟨.inr ⟨t, f, .lo m, upd_single hc, ?_, hn⟩, hb, fun g => ?_⟩
    · simp [Wrote, upd_self, hw.2]
    · rw [inBoxes_quiet _ _ _ _ hp]; exact hk g
  | lo m =>
    have hp : (s.box m).pend = false := hw.1
    obtain ⟨_, h1, h2, h3⟩ := hw
    simp only [access, write_empty _ hp]
    refine ⟨.inr ⟨t, f, .load m, upd_single hc, ?_, hn⟩, hb, fun g => ?_⟩
    · simp only [Wrote, upd_self, true_and]
      cases hf : (s.box m).frame
      rw [hf] at h1 h2 h3
      cases f
      simp_all
    · rw [inBoxes_quiet _ _ _ _ hp]; exact hk g
  | load m =>
    refine ⟨.inr ⟨t, f, .store m (s.box m).frame.id, upd_single hc, ⟨hw.1, hw.2, ?_⟩, hn⟩, hb, hk⟩
    rw [hw.2]
  | store m i =>
    obtain ⟨hp, h1, rfl⟩ := hw
    have hf : ({ (s.box m).frame with id := f.id } : Frame) = f := by rw [h1]
    simp only [access, hp, Bool.false_eq_true, if_false, hf]
    refine ⟨.inl (upd_none hc), fun g => ?_, fun g => ?_⟩
    · rw [List.count_append, List.count_singleton]
      by_cases e : f = g
      · subst e; simpa using hn
      · simpa [e] using hb g
    · rw [List.count_append, List.count_singleton, hk g]
      have := inBoxes_upd s.box m ⟨f, true⟩ g
      have e : holds s.box g m = 0 := by simp [holds, hp]
      rw [e] at this
      simp only [true_and] at this
      by_cases e : f = g
      · subst e; simp only [beq_self_eq_true, if_true] at this ⊢; omega
      · simp only [e, if_false, beq_iff_eq] at this ⊢; omega

/-- One event. -/
theorem inv_step {s : St} {n : Frame → Nat} (h : Inv s n) (e : Ev)
    (hx : ∀ t f, e = .enter t f → ∀ u, s.call u = none) :
    Inv (step s e) (fun f => n f + passed f [e]) := by
  obtain ⟨hc, hb, hk⟩ := h
  cases e with
  | enter t f =>
    have hz := hx t f rfl
    simp only [step, hz t]
    refine ⟨.inr ⟨t, f, .level, ?_, trivial, ?_⟩, fun g => ?_, hk⟩
    · intro u
      show upd s.call t _ u = _
      unfold upd
      split
      · rfl
      · exact hz u
    · have := hb f; simp [passed]; exact this
    · exact Nat.le_trans (hb g) (Nat.le_add_right _ _)
  | step t code =>
    have hn : (fun f => n f + passed f [Ev.step t code]) = n := by funext f; simp [passed]
    rw [hn]
    rcases hc with hz | ⟨t', f, pc, h1, h2, h3⟩
    · simp only [step, hz t]
      exact ⟨.inl hz, hb, hk⟩
    · by_cases ht : t = t'
      · subst ht
        have : s.call t = some (f, pc) := by rw [h1, if_pos rfl]
        simp only [step, this]
        exact inv_access code h1 h2 h3 hb hk
      · have : s.call t = none := by rw [h1, if_neg ht]
        simp only [step, this]
        exact ⟨.inr ⟨t', f, pc, h1, h2, h3⟩, hb, hk⟩
  | sent m =>
    have hn : (fun f => n f + passed f [Ev.sent m]) = n := by funext f; simp [passed]
    rw [hn]
    dsimp only [step]
    split
    · rename_i hp
      refine ⟨?_, hb, fun g => ?_⟩
      · rcases hc with hz | ⟨t', f, pc, h1, h2, h3⟩
        · exact .inl hz
        · exact .inr ⟨t', f, pc, h1, wrote_sent m hp h2, h3⟩
      · have := inBoxes_upd s.box m ⟨(s.box m).frame, false⟩ g
        simp only [Bool.false_eq_true, false_and, if_false, Nat.add_zero] at this
        rw [hk g, ← this, List.count_append, List.count_singleton]
        unfold holds
        by_cases e : (s.box m).frame = g
        · simp [hp, e]; omega
        · simp [e]
    · exact ⟨hc, hb, hk⟩

theorem inv_run : ∀ (es : List Ev) (s : St) (n : Frame → Nat), Inv s n → Exclusive s es →
    Inv (run s es) (fun f => n f + passed f es)
  | [], s, n, h, _ => by
    have : (fun f => n f + passed f []) = n := by funext f; simp [passed]
    rw [this]; exact h
  | e :: es, s, n, h, hx => by
    have := inv_run es (step s e) _ (inv_step h e hx.1) hx.2
    refine (show (fun f => n f + passed f (e :: es)) =
      (fun f => (n f + passed f [e]) + passed f es) from ?_) ▸ this
    funext f
    unfold passed
    rw [show e :: es = [e] ++ es from rfl, List.countP_append]
    omega

theorem inv_init : Inv init (fun _ => 0) :=
  ⟨.inl fun _ => rfl, fun _ => by simp [init], fun f => by simp [init, inBoxes, holds]⟩

/-- **C90 as far as it holds.** If calls of `CAN_SendMessage` for the bus never overlap, then for
every history, whatever the peripheral does in between: each accepted frame is on the bus or waits
in a mailbox, exactly as often as it was accepted, and no frame appears on the bus more often than
it was passed; in particular every frame on the bus was passed by a caller. Missing: overlapping
calls (`C90_mix`). -/
theorem C90_exclusive_partial (es : List Ev) (hx : Exclusive init es) (f : Frame) :
    let s := run init es
    s.accepted.count f = s.bus.count f + inBoxes s.box f ∧
      s.bus.count f ≤ passed f es ∧ (f ∈ s.bus → ∃ t, Ev.enter t f ∈ es) := by
  obtain ⟨_, hb, hk⟩ := inv_run es init _ inv_init hx
  have h1 := hb f
  have h2 := hk f
  rw [Nat.zero_add] at h1
  refine ⟨h2, by omega, fun hf => ?_⟩
  have : 0 < passed f es := by
    have := List.count_pos_iff.2 hf
    omega
  obtain ⟨e, he, hp⟩ := List.countP_pos_iff.1 this
  cases e with
  | enter t g =>
    have e : g = f := by simpa using hp
    exact ⟨t, e ▸ he⟩
  | step t c => simp at hp
  | sent m => simp at hp

/-! ## Overlapping calls -/

/-- The frame assembled when a call of `f` has made `k` of its register accesses (identifier, length,
bytes 4-7, bytes 0-3, read of the identifier register) when another call sends `g` from the same
mailbox. -/
def mix (f g : Frame) : Fin 6 → Frame
  | 0 => f
  | 1 => ⟨g.id, f.dlc, f.hi, f.lo⟩
  | 2 => ⟨g.id, g.dlc, f.hi, f.lo⟩
  | 3 => ⟨g.id, g.dlc, g.hi, f.lo⟩
  | 4 => g
  | 5 => ⟨f.id, g.dlc, g.hi, g.lo⟩

/-- The history: caller 0 makes `k` register accesses for `f`; caller 1 sends `g` completely; caller
0 goes on. -/
def overlap (f g : Frame) (k : Nat) : List Ev :=
  [.enter 0 f, .step 0 0, .step 0 0] ++ List.replicate k (.step 0 0) ++
  [.enter 1 g] ++ List.replicate 8 (.step 1 0) ++ [.sent 0] ++
  List.replicate (6 - k) (.step 0 0) ++ [.sent 0]

/-- **C90 is false.** For all frames `f`, `g` and at each of the six places where the first call can
be interrupted, the bus carries `g` and then the mixture; both calls have returned OK. -/
theorem C90_mix (f g : Frame) (k : Fin 6) :
    (run init (overlap f g k)).bus = [g, mix f g k] ∧
    (run init (overlap f g k)).accepted = [g, f] := by
  fin_cases k <;>
    simp [overlap, run, step, access, write, upd, init, anyEmpty, List.replicate, mix]

/-- C90 fails: a frame that nobody passed is sent. -/
theorem C90_not : ¬ ∀ es f, f ∈ (run init es).bus → ∃ t, Ev.enter t f ∈ es := by
  intro h
  let f : Frame := ⟨1, 8, (1, 1, 1, 1), (1, 1, 1, 1)⟩
  let g : Frame := ⟨2, 8, (2, 2, 2, 2), (2, 2, 2, 2)⟩
  obtain ⟨t, ht⟩ := h (overlap f g 3) (mix f g 3) 
    (by rw [show (3 : Nat) = ((3 : Fin 6) : Nat) from rfl, (C90_mix f g 3).1]; simp)
  simp [overlap, f, g, mix] at ht

-- without overlap the two frames are sent as passed
example : Exclusive init ([.enter 0 (debugFrame 7)] ++ List.replicate 8 (.step 0 0) ++
    [.enter 1 (debugFrame 8), .sent 0, .step 1 2]) := by
  simp [Exclusive, List.replicate, step, access, write, upd, init, anyEmpty]
  intro u h; simp [h]

/-! ## C91: torque commands and debug frames -/

open Verif.InvSpec Verif.InvDrv

/-- The debug frame carries the counter, least significant byte first. -/
theorem debugFrame_counter (c : UInt32) :
    let p := (debugFrame c).bytes
    p[0].toNat + 256 * p[1].toNat + 65536 * p[2].toNat + 16777216 * p[3].toNat = c.toNat := by
  show c.toUInt8.toNat + 256 * (c >>> 8).toUInt8.toNat + 65536 * (c >>> 16).toUInt8.toNat +
    16777216 * (c >>> 24).toUInt8.toNat = c.toNat
  have h := c.toNat_lt
  simp only [UInt32.toNat_toUInt8, UInt32.toNat_shiftRight]
  simp only [UInt32.reduceToNat, Nat.shiftRight_eq_div_pow, Nat.reduceMod, Nat.reducePow]
  omega

/-- **C91 is false.** The throttle task and the PC interface task have the same priority, so the
scheduler may switch from one to the other at any tick. For every debug counter value and every
torque command there is such a switch after which the bus carries an enabling command frame whose
torque is the low half of the debug counter, which nobody requested. -/
theorem C91_torque_from_counter (c : UInt32) (m : ℤ) (d : UInt8) :
    let g := Frame.of 0x0C0 8 (commandBytes m d true false)
    let bus := (run init (overlap (debugFrame c) g 3)).bus
    ∃ w ∈ bus, w.id = 0x0C0 ∧ w.dlc = 8 ∧ enableBit w.bytes = true ∧
      directionBit w.bytes = d.toNat.testBit 0 ∧
      torqueField w.bytes =
        (if c.toNat % 65536 < 32768 then (c.toNat % 65536 : ℤ) else (c.toNat % 65536 : ℤ) - 65536) := by
  intro g bus
  refine ⟨mix (debugFrame c) g 3, ?_, rfl, rfl, ?_, ?_, ?_⟩
  · show _ ∈ (run init (overlap (debugFrame c) g 3)).bus
    have := (C90_mix (debugFrame c) g 3).1
    rw [show ((3 : Fin 6) : Nat) = 3 from rfl] at this
    rw [this]; simp
  · show enableBit (commandBytes 0 d true false) = true
    exact (C21_frame_decodes 0 (by omega) d true false).2.2.1
  · show directionBit (commandBytes 0 d true false) = _
    exact (C21_frame_decodes 0 (by omega) d true false).2.1
  · show (let u : Nat := c.toUInt8.toNat + 256 * (c >>> 8).toUInt8.toNat;
      if u < 32768 then (u : ℤ) else u - 65536) = _
    have e : c.toUInt8.toNat + 256 * (c >>> 8).toUInt8.toNat = c.toNat % 65536 := by
      simp only [UInt32.toNat_toUInt8, UInt32.toNat_shiftRight]
      simp only [UInt32.reduceToNat, Nat.shiftRight_eq_div_pow, Nat.reduceMod, Nat.reducePow]
      omega
    dsimp only
    rw [e]
    push_cast
    rfl

/-- The scheduler's precondition for the overlap: the tasks involved have equal priority. -/
example : Startup.Task.pc.priority = Startup.Task.throttle.priority ∧
    Startup.Task.pc.priority = Startup.Task.stateManager.priority := by decide

-- a commanded 12.3 Nm becomes 2000.0 Nm when the counter is 20000 (200 s after start-up)
example : let bus := (run init (overlap (debugFrame 20000)
      (Frame.of 0x0C0 8 (commandBytes 123 1 true false)) 3)).bus
    bus.map (fun w => (w.id, torqueField w.bytes, enableBit w.bytes)) =
      [(0x0C0, 123, true), (0x0C0, 20000, true)] := by decide +kernel

/-- C91 as far as it holds: when calls do not overlap and the callers pass command frames and
debug frames, every frame with the command identifier on the bus is, byte for byte, a command frame
that was passed, with its torque. Missing: `C91_torque_from_counter`. -/
theorem C91_exclusive_partial (es : List Ev) (hx : Exclusive init es)
    (hes : ∀ t f, Ev.enter t f ∈ es → (∃ c, f = debugFrame c) ∨
      ∃ m d en dis, -32768 ≤ m ∧ m ≤ 32767 ∧ f = Frame.of 0x0C0 8 (commandBytes m d en dis)) (w : Frame)
    (hw : w ∈ (run init es).bus) (hi : w.id = 0x0C0) :
    ∃ t m d en dis, Ev.enter t (Frame.of 0x0C0 8 (commandBytes m d en dis)) ∈ es ∧
      torqueField w.bytes = m ∧ enableBit w.bytes = en := by
  obtain ⟨t, ht⟩ := (C90_exclusive_partial es hx w).2.2 hw
  rcases hes t w ht with ⟨c, rfl⟩ | ⟨m, d, en, dis, h1, h2, rfl⟩
  · exact absurd hi (by show (0xAF : UInt32) ≠ 0x0C0; decide)
  · have h := C21_frame_decodes m ⟨h1, h2⟩ d en dis
    exact ⟨t, m, d, en, dis, ht, h.1, h.2.2.1⟩

end Verif.CanHal
