import Verif.Props.Can
import Verif.Props.CanStatus

set_option autoImplicit false

/-!
# From the wire to the published value (C96)

Composition of the receive interrupt, the receive queue (256 places, bms.h 23,
cInverter.h 25) and the receive loops of the inverter and BMS tasks.
-/

namespace Verif.CanFresh
open Verif.Can Verif.CanSpec Verif.Dbc

/-- `INVERTER_QUEUE_LENGTH`, cInverter.h 25, and `BMS_QUEUE_LENGTH`, bms.h 23. -/
def queueLength : Nat := 256

/-- Shortest CAN frame, in bit times: 44 bits and 3 bits of intermission (frame
without data, no stuff bits). -/
def minFrameBits : Nat := 47

variable (buses : Nat → RxBus) (s0 : RxState)

/-- State after a history. -/
def after (evs : List RxEv) : RxState := evs.foldl (rxStep buses) s0

/-- Timing.  `ts i` is the bit time at which frame `i` of the bus is complete:
frames are at least one shortest frame apart.  The queue is found empty often
enough: at every receive interrupt of the bus, the frames delivered since some
moment at which the queue was empty, including those of this interrupt, were on
the wire within `window` bit times. -/
structure Served (dev k : Nat) (evs : List RxEv) (ts : Nat → Nat) (window : Nat) : Prop where
  gap : ∀ i, ts i + minFrameBits ≤ ts (i + 1)
  served : ∀ p g fifo, p ++ [RxEv.isr dev g fifo] <+: evs →
    ∃ a, a <+: p ∧ ((after buses s0 a).qs k).items = [] ∧
      ∀ n, n + 1 = (busFrames dev (p ++ [RxEv.isr dev g fifo])).length →
        ts n ≤ ts (busFrames dev a).length + window

theorem gap_many {ts : Nat → Nat} (h : ∀ i, ts i + minFrameBits ≤ ts (i + 1)) (i d : Nat) :
    ts i + minFrameBits * d ≤ ts (i + d) := by
  induction d with
  | zero => simp
  | succ d ih =>
    have := h (i + d)
    rw [← Nat.add_assoc, Nat.mul_succ]
    omega

theorem busFrames_append (dev : Nat) (a b : List RxEv) :
    busFrames dev (a ++ b) = busFrames dev a ++ busFrames dev b := by
  simp [busFrames]

theorem rxLoop_cap (dev : Nat) (regs : List Reg) (g : UInt32) (fifo : List HalRx) (qs : Queues)
    (k : Nat) : (rxLoop dev regs g fifo qs k).cap = (qs k).cap := by
  have hp : ∀ (qs : Queues) (j : Nat) (f : CanFrame), (push qs j f k).cap = (qs k).cap := by
    intro qs j f
    unfold push
    split_ifs with h1 h2
    · subst h1; rfl
    · subst h1; rfl
    · rfl
  have hd : ∀ (regs : List Reg) (f : CanFrame) (qs : Queues),
      (dispatch regs f qs k).cap = (qs k).cap := by
    intro regs f
    induction regs with
    | nil => intro qs; rfl
    | cons r regs ih =>
      intro qs
      show (dispatch regs f _ k).cap = _
      rw [ih]
      dsimp only
      split_ifs
      · exact hp _ _ _
      · rfl
  induction fifo generalizing g qs with
  | nil => rfl
  | cons x rest ih =>
    cases x with
    | fail => rfl
    | frame w => simp only [rxLoop]; rw [ih, hd]

theorem after_cap (evs : List RxEv) (k : Nat) :
    ((after buses s0 evs).qs k).cap = (s0.qs k).cap := by
  induction evs using List.reverseRecOn with
  | nil => rfl
  | append_singleton evs e ih =>
    have : after buses s0 (evs ++ [e]) = rxStep buses (after buses s0 evs) e := by
      simp [after]
    rw [this, ← ih]
    cases e with
    | isr d g fifo =>
      simp only [rxStep, rxIsr]
      split_ifs
      · exact rxLoop_cap _ _ _ _ _ _
      · rfl
    | read j =>
      simp only [rxStep]
      split
      · rfl
      · dsimp only; split_ifs with h
        · subst h; rfl
        · rfl

/-- What was read stays read. -/
theorem got_mono (a b : List RxEv) (k : Nat) :
    (after buses s0 a).got k <+: (after buses s0 (a ++ b)).got k := by
  induction b using List.reverseRecOn with
  | nil => simp
  | append_singleton b e ih =>
    have : after buses s0 (a ++ (b ++ [e])) = rxStep buses (after buses s0 (a ++ b)) e := by
      simp [after]
    rw [this]
    refine ih.trans ?_
    cases e with
    | isr d g fifo => exact List.prefix_rfl
    | read j =>
      simp only [rxStep]
      split
      · exact List.prefix_rfl
      · dsimp only; split_ifs with h
        · subst h; exact List.prefix_append _ _
        · exact List.prefix_rfl

theorem after_concat (evs : List RxEv) (e : RxEv) :
    after buses s0 (evs ++ [e]) = rxStep buses (after buses s0 evs) e := by
  simp [after]

/-- **C96** (nothing is lost).  One registration for the queue, standard
identifiers, and a queue that is found empty often enough for the bus speed
(12 ms at 1 Mbit/s): what the task has read and what still waits are exactly the
matching frames of the bus, in order. -/
theorem C96_nothing_lost (dev k : Nat) (r : Reg) (hu : (buses dev).inUse = true)
    (hreg : (buses dev).regs.filter (fun r => r.queue == k) = [r])
    (hother : ∀ d, d ≠ dev → (buses d).regs.filter (fun r => r.queue == k) = [])
    (hempty : (s0.qs k).items = []) (hgot : s0.got k = []) (hcap : (s0.qs k).cap = queueLength)
    (evs : List RxEv) (hstd : AllStandard evs) (ts : Nat → Nat)
    (hs : Served buses s0 dev k evs ts 12000) :
    (after buses s0 evs).got k ++ ((after buses s0 evs).qs k).items
      = (busFrames dev evs).filter (wants r) := by
  suffices H : ∀ p, p <+: evs → ((after buses s0 p).got k ++ ((after buses s0 p).qs k).items
      = (busFrames dev p).filter (wants r) ∧
      ((after buses s0 p).qs k).items.length ≤ ((after buses s0 p).qs k).cap) from
    (H evs List.prefix_rfl).1
  intro p
  induction hn : p.length using Nat.strong_induction_on generalizing p with
  | _ n IH =>
  intro hpre
  rcases List.eq_nil_or_concat p with rfl | ⟨q, e, rfl⟩
  · simp [after, busFrames, hempty, hgot]
  rw [List.concat_eq_append] at hpre hn ⊢
  have hq : q <+: evs := (List.prefix_append q [e]).trans hpre
  obtain ⟨ih, hlen⟩ := IH q.length (by subst hn; simp) q rfl hq
  have hstdq : AllStandard (q ++ [e]) := fun d g fifo h => hstd d g fifo (hpre.subset h)
  rw [after_concat, busFrames_append, List.filter_append, ← ih]
  have hcq := after_cap buses s0 q k
  generalize hS : after buses s0 q = S at *
  cases e with
  | isr d g fifo =>
    have hw : ∀ w, HalRx.frame w ∈ fifo → w.ext = false := hstdq d g fifo (by simp)
    by_cases hd : d = dev
    · subst hd
      have hr := C24_routing d (buses d) g fifo S.qs hu hw k hlen
      simp only [rxStep]
      rw [hr, offered_single hreg]
      refine ⟨?_, appended_le _ _⟩
      have hb : busFrames d [RxEv.isr d g fifo] = (arrived fifo).map (asSeen d) := by
        simp [busFrames]
      rw [hb]
      unfold appended
      dsimp only
      rw [List.take_of_length_le, List.append_assoc]
      -- the queue does not overflow
      obtain ⟨a, hap, ha, hwin⟩ := hs.served q g fifo hpre
      obtain ⟨iha, -⟩ := IH a.length (by subst hn; have := hap.length_le; simp; omega) a rfl
        (hap.trans hq)
      rw [ha, List.append_nil] at iha
      obtain ⟨b, rfl⟩ := hap
      have hmono := (got_mono buses s0 a b k).length_le
      rw [hS, iha] at hmono
      have htot : (S.got k).length + (S.qs k).items.length
          + (((arrived fifo).map (asSeen d)).filter (wants r)).length
          = ((busFrames d a).filter (wants r)).length
            + ((busFrames d (b ++ [RxEv.isr d g fifo])).filter (wants r)).length := by
        rw [busFrames_append, hb, List.filter_append, List.length_append, ← List.length_append,
          ih, busFrames_append, List.filter_append, List.length_append]
        omega
      have hcount : (busFrames d (b ++ [RxEv.isr d g fifo])).length ≤ queueLength := by
        rcases Nat.eq_zero_or_pos (busFrames d (b ++ [RxEv.isr d g fifo])).length with h0 | hpos
        · omega
        · have hl : (busFrames d (a ++ b ++ [RxEv.isr d g fifo])).length
              = (busFrames d a).length + (busFrames d (b ++ [RxEv.isr d g fifo])).length := by
            rw [List.append_assoc, busFrames_append, List.length_append]
          obtain ⟨c, hc⟩ : ∃ c, (busFrames d (b ++ [RxEv.isr d g fifo])).length = c + 1 :=
            ⟨_, (Nat.succ_pred_eq_of_pos hpos).symm⟩
          have h1 := hwin ((busFrames d a).length + c) (by omega)
          have h2 := gap_many hs.gap (busFrames d a).length c
          rw [hc]
          unfold minFrameBits at h2
          unfold queueLength
          omega
      have hfl := List.length_filter_le (wants r) (busFrames d (b ++ [RxEv.isr d g fifo]))
      rw [List.length_append, hcq, hcap]
      omega
    · have hb : busFrames dev [RxEv.isr d g fifo] = [] := by simp [busFrames, hd]
      rw [hb, List.filter_nil, List.append_nil]
      simp only [rxStep]
      by_cases hud : (buses d).inUse = true
      · rw [C24_routing d (buses d) g fifo S.qs hud hw k hlen, offered_none (hother d hd),
          appended_nil hlen]
        exact ⟨rfl, hlen⟩
      · simp only [Bool.not_eq_true] at hud
        rw [C24_unconfigured_bus _ _ _ _ _ hud]
        exact ⟨rfl, hlen⟩
  | read j =>
    have hb : busFrames dev [RxEv.read j] = [] := by simp [busFrames]
    rw [hb, List.filter_nil, List.append_nil]
    simp only [rxStep]
    cases hqq : (S.qs j).items with
    | nil => exact ⟨rfl, hlen⟩
    | cons f rest =>
      by_cases hjk : k = j
      · subst hjk
        simp only [if_true]
        rw [hqq] at hlen
        refine ⟨by rw [hqq]; simp, ?_⟩
        simp at hlen ⊢; omega
      · simp only [if_neg hjk]
        exact ⟨trivial, hlen⟩

theorem busFrames_bus (dev : Nat) (evs : List RxEv) {f : CanFrame} (h : f ∈ busFrames dev evs) :
    f.busInstance = dev := by
  simp only [busFrames, List.mem_flatMap] at h
  obtain ⟨e, -, h⟩ := h
  cases e with
  | isr d g fifo =>
    dsimp only at h
    split_ifs at h with hd
    · simp only [List.mem_map] at h
      obtain ⟨w, -, rfl⟩ := h
      rfl
    · simp at h
  | read j => simp at h

/-- Status frames of the inverter (identifiers of the table, eight data bytes). -/
def isInverterStatus (f : CanFrame) : Bool :=
  decide (f.dlc = 8) && decide (f.msgId.toNat ∈ inverterIds)

/-- Status frames of the battery management system. -/
def isBmsStatus (f : CanFrame) : Bool :=
  decide (f.dlc = 8) && decide (f.msgId.toNat ∈ bmsIds)

theorem inverter_wants {f : CanFrame} (h : isInverterStatus f = true) :
    wants inverterReg f = true := by
  simp only [isInverterStatus, Bool.and_eq_true, decide_eq_true_eq] at h
  rcases inv_id_cases h.2 with e | e | e | e | e | e | e | e | e | e | e <;>
    simp only [wants, inverterReg, e] <;> decide

theorem bms_wants {f : CanFrame} (h : isBmsStatus f = true) : wants bmsReg f = true := by
  simp only [isBmsStatus, Bool.and_eq_true, decide_eq_true_eq] at h
  have := h.2
  simp only [bmsIds, List.mem_cons, List.not_mem_nil, or_false] at this
  have e : f.msgId = 0x301 ∨ f.msgId = 0x302 ∨ f.msgId = 0x303 ∨ f.msgId = 0x304 := by
    simp only [← UInt32.toNat_inj]; exact this
  rcases e with e | e | e | e <;> simp only [wants, bmsReg, e] <;> decide

theorem filter_status {p q : CanFrame → Bool} {dev : Nat} {fs : List CanFrame}
    (hbus : ∀ f ∈ fs, f.busInstance = dev) {acc : Nat → Bool → CanFrame → Bool}
    (hacc : ∀ f, f.busInstance = dev → acc dev true f = p f) (hp : ∀ f, p f = true → q f = true) :
    (((fs.filter q).map fun f => (f, true)).filter fun fa => acc dev fa.2 fa.1).map (·.1)
      = fs.filter p := by
  induction fs with
  | nil => rfl
  | cons f fs ih =>
    have ih := ih fun f hf => hbus f (List.mem_cons_of_mem _ hf)
    have hf := hacc f (hbus f (by simp))
    by_cases hpf : p f = true
    · simp only [List.filter_cons, hp f hpf, hpf, if_true, List.map_cons]
      simp only [hf, hpf, if_true, List.map_cons, ih]
    · rw [Bool.not_eq_true] at hpf
      by_cases hq : q f = true
      · simp only [List.filter_cons, hq, hpf, if_true, List.map_cons]
        simp [hf, hpf, ih]
      · rw [Bool.not_eq_true] at hq
        simp [hq, hpf, ih]

/-- **C96** (inverter).  Every time the inverter task has emptied its queue, every
motor and inverter field of the vehicle state equals what the most recent status
frame on the bus that carries it says — whatever other traffic there is on the
three buses.  The task handles what it reads, and its accesses to the vehicle
state always succeed (they wait for ever, cInverter.c 65-294). -/
theorem C96_inverter_fresh (dev : Nat) (hu : (buses dev).inUse = true)
    (hreg : (buses dev).regs.filter (fun r => r.queue == inverterReg.queue) = [inverterReg])
    (hother : ∀ d, d ≠ dev → (buses d).regs.filter (fun r => r.queue == inverterReg.queue) = [])
    (hempty : (s0.qs inverterReg.queue).items = []) (hgot : s0.got inverterReg.queue = [])
    (hcap : (s0.qs inverterReg.queue).cap = queueLength)
    (evs : List RxEv) (hstd : AllStandard evs) (ts : Nat → Nat)
    (hs : Served buses s0 dev inverterReg.queue evs ts 12000)
    (hdone : ((after buses s0 evs).qs inverterReg.queue).items = []) (d : VData) (fld : InvField) :
    getInv fld (InvDrv.processing dev
        (((after buses s0 evs).got inverterReg.queue).map fun f => (f, true)) d) =
      (latest inverterTable fld ((busFrames dev evs).filter isInverterStatus)).getD
        (getInv fld d) := by
  have h := C96_nothing_lost buses s0 dev _ inverterReg hu hreg hother hempty hgot hcap evs hstd ts hs
  rw [hdone, List.append_nil] at h
  rw [h, C22_stream]
  rw [filter_status (acc := invAccepted) (p := isInverterStatus)
    (fun f hf => busFrames_bus dev evs hf) _ (fun f hf => inverter_wants hf)]
  intro f hf
  simp [invAccepted, isInverterStatus, hf]

/-- **C96** (battery).  The same for the battery management system's task, with
the scale factors the code uses. -/
theorem C96_bms_fresh (dev : Nat) (hu : (buses dev).inUse = true)
    (hreg : (buses dev).regs.filter (fun r => r.queue == bmsReg.queue) = [bmsReg])
    (hother : ∀ d, d ≠ dev → (buses d).regs.filter (fun r => r.queue == bmsReg.queue) = [])
    (hempty : (s0.qs bmsReg.queue).items = []) (hgot : s0.got bmsReg.queue = [])
    (hcap : (s0.qs bmsReg.queue).cap = queueLength)
    (evs : List RxEv) (hstd : AllStandard evs) (ts : Nat → Nat)
    (hs : Served buses s0 dev bmsReg.queue evs ts 12000)
    (hdone : ((after buses s0 evs).qs bmsReg.queue).items = []) (d : VData) (fld : BmsField) :
    getBms fld (Bms.processing dev
        (((after buses s0 evs).got bmsReg.queue).map fun f => (f, true)) d) =
      (latest (bmsTable codeScale) fld ((busFrames dev evs).filter isBmsStatus)).getD
        (getBms fld d) := by
  have h := C96_nothing_lost buses s0 dev _ bmsReg hu hreg hother hempty hgot hcap evs hstd ts hs
  rw [hdone, List.append_nil] at h
  rw [h, C23_stream]
  rw [filter_status (acc := bmsAccepted) (p := isBmsStatus)
    (fun f hf => busFrames_bus dev evs hf) _ (fun f hf => bms_wants hf)]
  intro f hf
  simp [bmsAccepted, isBmsStatus, hf]

/-- The timing condition is needed: when more than 256 matching frames arrive
between two readings, the newest ones are lost and the task goes on with old
values — the queue keeps the first 256. -/
theorem C96_overflow_keeps_oldest (dev : Nat) (b : RxBus) (g : UInt32) (fifo : List HalRx)
    (qs : Queues) (k : Nat) (hu : b.inUse = true)
    (hstd : ∀ w, HalRx.frame w ∈ fifo → w.ext = false)
    (hfull : (qs k).items.length = queueLength) (hcap : (qs k).cap = queueLength) :
    rxIsr dev b g fifo qs k = qs k := by
  rw [C24_routing dev b g fifo qs hu hstd k (by omega)]
  unfold appended
  rw [List.take_append_of_le_length (by omega), List.take_of_length_le (by omega)]

/-- The bound is the exact one for whole frames: 257 of the shortest frames take
256 frame times, which is more than 12 ms, and 256 of them fit in 12 ms. -/
example : minFrameBits * (queueLength - 1) ≤ 12000 ∧ 12000 < minFrameBits * queueLength := by
  decide

/-- A history that satisfies the timing condition: an interrupt with three
frames, of which one belongs to another node and two carry the motor position
information, then the task empties the queue. -/
def demoFrame (i : UInt32) (x : UInt8) : HalRx :=
  .frame ⟨false, i, false, Vector.replicate 8 x, 8⟩

def demoBuses : Nat → RxBus := fun d => ⟨true, if d = 0 then [inverterReg] else if d = 1 then [bmsReg] else []⟩
def demoState : RxState := ⟨fun _ => ⟨queueLength, []⟩, fun _ => []⟩
def demoEvents : List RxEv :=
  [.isr 0 0 [demoFrame 0x0A5 1, demoFrame 0x7FF 9, demoFrame 0x0A5 2], .isr 1 0 [demoFrame 0x0A5 3],
   .read 0, .read 0]

example : Served demoBuses demoState 0 0 demoEvents (fun i => 130 * i) 12000 where
  gap i := by unfold minFrameBits; omega
  served p g fifo h := by
    have hp : p = [] := by
      have hl := h.length_le
      rcases p with _ | ⟨e1, p⟩
      · rfl
      · rcases p with _ | ⟨e2, p⟩
        · simp [demoEvents, List.cons_prefix_cons] at h
        · rcases p with _ | ⟨e3, p⟩
          · simp [demoEvents, List.cons_prefix_cons] at h
          · rcases p with _ | ⟨e4, p⟩
            · simp [demoEvents, List.cons_prefix_cons] at h
            · simp [demoEvents] at hl
    subst hp
    simp only [demoEvents, List.nil_append, List.cons_prefix_cons] at h
    obtain ⟨h, -⟩ := h
    injection h with _ h1 h2
    subst h1 h2
    refine ⟨[], List.prefix_rfl, rfl, fun n hn => ?_⟩
    have : n = 2 := by
      have : (busFrames 0 ([] ++ [RxEv.isr 0 0 [demoFrame 0x0A5 1, demoFrame 0x7FF 9,
        demoFrame 0x0A5 2]])).length = 3 := by decide
      omega
    subst this
    decide

example : ((after demoBuses demoState demoEvents).qs 0).items = [] ∧
    ((after demoBuses demoState demoEvents).got 0).map (fun f => (f.msgId, f.data[0])) =
      [(0x0A5, 1), (0x0A5, 2)] := by
  decide

end Verif.CanFresh
