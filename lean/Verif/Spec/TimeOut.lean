import Verif.Model.TimeOut

set_option autoImplicit false

/-! # What a time limit means: counting ticks -/

namespace Verif.TimeOut

/-- A tick. -/
def Ev.isTick : Ev → Bool
  | .sys .tick => true
  | _ => false

/-- Ticks in a history. -/
def ticks (es : List Ev) : Nat := es.countP Ev.isTick

/-- The call goes on all the time: it does not return by itself, and no other is begun. -/
def Ev.within : Ev → Bool
  | .enter _ => false
  | .leave => false
  | _ => true

/-- Other tasks ask for waits that the type of the tick count can hold. -/
def Ev.valid : Ev → Prop
  | .sys (.block _ n) => n < 2 ^ 32
  | .enter n => n < 2 ^ 32
  | _ => True

/-- Every sleep comes directly after the call has begun or checked its time, as in queue.c. The
flag says that the event before was such a one. -/
def Prompt : Bool → List Ev → Prop
  | _, [] => True
  | b, .sleep :: es => b = true ∧ Prompt false es
  | _, .check :: es => Prompt true es
  | _, .enter _ :: es => Prompt true es
  | _, _ :: es => Prompt false es

/-- A state of the running system. -/
def Reached (me : Nat) (s : St) : Prop :=
  ∃ t0 es, t0 < 2 ^ 32 ∧ (∀ e ∈ es, e.valid) ∧ run me (start t0) es = .ok s

end Verif.TimeOut
