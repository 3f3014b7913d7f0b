import Verif.Model.Can

set_option autoImplicit false

/-!
# What the CAN driver is supposed to do
-/

namespace Verif.CanSpec
open Verif.Can

/-- The frame a listener should see for a frame on bus `dev`. -/
def asSeen (dev : Nat) (w : WireFrame) : CanFrame := ⟨dev, w.id, w.data, w.dlc⟩

/-- Frames the hardware delivers in one interrupt, in order: everything before
the first read failure. -/
def arrived : List HalRx → List WireFrame
  | .frame w :: rest => w :: arrived rest
  | _ => []

/-- The registration wants this frame. -/
def wants (r : Reg) (f : CanFrame) : Bool := f.msgId &&& r.mask == r.deviceId

/-- Copies of the frames that belong in queue `k`: one per matching registration. -/
def offered (regs : List Reg) (k : Nat) (fs : List CanFrame) : List CanFrame :=
  fs.flatMap fun f => (regs.filter fun r => r.queue == k && wants r f).map fun _ => f

/-- A history of the receive side: interrupts on the three buses and reads by the
queues' owners. -/
inductive RxEv where
  | isr (dev : Nat) (garbage : UInt32) (fifo : List HalRx)
  | read (k : Nat)

/-- Queues and what each owner has read so far. -/
structure RxState where
  qs : Queues
  got : Nat → List CanFrame

/-- `xQueueReceive` without waiting (orionBms.c 151, cInverter.c 303), or an
interrupt of the driver. -/
def rxStep (buses : Nat → RxBus) (s : RxState) : RxEv → RxState
  | .isr dev g fifo => { s with qs := rxIsr dev (buses dev) g fifo s.qs }
  | .read k =>
    match (s.qs k).items with
    | [] => s
    | f :: rest =>
      { qs := fun j => if j = k then { s.qs k with items := rest } else s.qs j
        got := fun j => if j = k then s.got k ++ [f] else s.got j }

/-- Frames on bus `dev` in a history, as listeners should see them. -/
def busFrames (dev : Nat) (evs : List RxEv) : List CanFrame :=
  evs.flatMap fun
    | .isr d _ fifo => if d = dev then (arrived fifo).map (asSeen dev) else []
    | .read _ => []

/-- All frames carry standard identifiers. -/
def AllStandard (evs : List RxEv) : Prop :=
  ∀ d g fifo, RxEv.isr d g fifo ∈ evs → ∀ w, HalRx.frame w ∈ fifo → w.ext = false

/-- C25: everything accepted is handed to the hardware exactly once, in order,
once nothing is pending. -/
def TxExact (s0 : Tx) : Prop :=
  ∀ evs, (txRun s0 evs).queue = [] → (txRun s0 evs).handed = (txRun s0 evs).accepted.map (·.2)

/-- C25: an accepted frame is eventually handed over: after enough completions of
the hardware, without new calls, nothing is pending. -/
def TxProgress (s0 : Tx) : Prop :=
  ∀ evs, (txRun s0 evs).ready = true → (txRun s0 evs).free = 0 →
    ∃ n, (txRun (txRun s0 evs) (List.replicate n .complete)).queue.length <
      (txRun s0 evs).queue.length ∨ (txRun s0 evs).queue = []

end Verif.CanSpec
