import Verif.Model.Delay

set_option autoImplicit false

/-!
# The time limit of a kernel call (Lib/FreeRTOS/Source/tasks.c)

A call with a block time may sleep several times: it is woken, finds that another task was
faster, and sleeps again for what is left of its time. `vTaskSetTimeOutState` notes when the
call began, `xTaskCheckForTimeOut` computes what is left. Here one task `me` makes such calls,
on top of the tick counter and delayed lists of `Model/Delay`, among any other tasks.

Between `xTaskCheckForTimeOut` and `vTaskPlaceOnEventList` a queue keeps the scheduler suspended
(queue.c 909-932), so no tick is counted in between; `xStreamBufferSend` does not
(stream_buffer.c 543-568), so `check` and `sleep` are separate events here.
-/

namespace Verif.TimeOut

open Verif.Delay (W maxDelay)

/-- `TimeOut_t` (task.h 102-106) and `xTicksToWait`. -/
structure Call where
  ovf : Nat
  entering : Nat
  left : Nat
deriving DecidableEq, Repr

/-- The kernel's waits, `xNumOfOverflows` (tasks.c 373; a number here: it is a `BaseType_t`, and
2^31 overflows take 292 thousand years), the call in progress, and the number of calls that gave up. -/
structure St where
  d : Delay.St
  ovf : Nat
  call : Option Call
  gaveUp : Nat
deriving DecidableEq, Repr

/-- `vTaskSetTimeOutState`, `vTaskInternalSetTimeOutState` (tasks.c 3196-3213). -/
def setState (s : St) (left : Nat) : Call := ⟨s.ovf, s.d.tick, left⟩

/-- `xTaskCheckForTimeOut` (tasks.c 3216-3277): the answer, and what it stores back. -/
def checkForTimeOut (s : St) (c : Call) : Bool × Call :=
  let elapsed := (s.d.tick + W - c.entering) % W
  if c.left = maxDelay then (false, c)
  else if s.ovf ≠ c.ovf ∧ c.entering ≤ s.d.tick then (true, c)
  else if elapsed < c.left then (false, setState s (c.left - elapsed))
  else (true, { c with left := 0 })

/-- What happens. tasks.c 2665-2832, 3196-3277. -/
inductive Ev where
  /-- ticks, other tasks' waits, events for any task -/
  | sys (e : Delay.Ev)
  /-- `me` calls with a block time of `n` ticks and has to wait (queue.c 894, 1348, 1519,
  stream_buffer.c 537) -/
  | enter (n : Nat)
  /-- `me` is at `xTaskCheckForTimeOut` -/
  | check
  /-- `me` goes to sleep for the time left -/
  | sleep
  /-- `me` has got what it wanted and returns -/
  | leave
deriving DecidableEq, Repr

/-- Is it a wait of `me`? -/
instance (me : Nat) (e : Delay.Ev) : Decidable (∃ n, e = Delay.Ev.block me n) :=
  match e with
  | .tick => isFalse (by rintro ⟨n, h⟩; cases h)
  | .event t => isFalse (by rintro ⟨n, h⟩; cases h)
  | .block t n => if h : t = me then isTrue ⟨n, by rw [h]⟩ else isFalse (by rintro ⟨m, e⟩; cases e; exact h rfl)

/-- One event. Events that cannot happen change nothing: a sleeping task does nothing, and
nobody else puts `me` to sleep. `xNumOfOverflows` is counted where the delayed lists are
switched (tasks.c 208, 2684). -/
def step (me : Nat) (s : St) : Ev → C St
  | .sys e =>
    if (∃ n, e = .block me n) then .ok s
    else
      match Delay.step s.d e with
      | .error u => .error u
      | .ok (_, d) =>
        .ok { s with d := d, ovf := if e = .tick ∧ d.tick = 0 then s.ovf + 1 else s.ovf }
  | .enter n =>
    if s.call = none ∧ Delay.waiting s.d me = false ∧ n ≠ 0 then .ok { s with call := some (setState s n) }
    else .ok s
  | .check =>
    match s.call with
    | none => .ok s
    | some c =>
      if Delay.waiting s.d me then .ok s
      else if (checkForTimeOut s c).1 then .ok { s with call := none, gaveUp := s.gaveUp + 1 }
      else .ok { s with call := some (checkForTimeOut s c).2 }
  | .sleep =>
    match s.call with
    | none => .ok s
    | some c =>
      match Delay.step s.d (.block me c.left) with
      | .error u => .error u
      | .ok (_, d) => .ok { s with d := d }
  | .leave => if Delay.waiting s.d me then .ok s else .ok { s with call := none }

/-- A history. tasks.c 2665-2832, 3196-3277. -/
def run (me : Nat) : St → List Ev → C St
  | s, [] => .ok s
  | s, e :: es =>
    match step me s e with
    | .error u => .error u
    | .ok s => run me s es

/-- When the scheduler starts, with any tick count. tasks.c 1967-2060. -/
def start (t0 : Nat) : St := ⟨Delay.start t0, 0, none, 0⟩

end Verif.TimeOut
