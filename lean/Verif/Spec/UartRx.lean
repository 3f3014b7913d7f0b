import Verif.Model.UartRx

set_option autoImplicit false

/-!
# What it means that a serial port is listening
-/

namespace Verif.UartRx.Spec

open Verif.UartRx

/-- Bytes are stored as they come, a full buffer interrupts, and so does the silence after fewer bytes,
which the handler then takes for the end of a message. -/
def Listening (s : St) : Prop :=
  s.r.en = true ∧ s.r.dmar = true ∧ s.r.tcie = true ∧ s.r.idleie = true ∧ s.r.toIdle = true

instance (s : St) : Decidable (Listening s) := by unfold Listening; infer_instance

/-- The stream is asking for its interrupt. -/
def asking (s : St) : Bool := s.r.tcif && s.r.tcie

/-- The port has been configured and none of its handlers is running. -/
def AtRest (s : St) : Prop := s.isr = none ∧ s.task = none

instance (s : St) : Decidable (AtRest s) := by unfold AtRest; infer_instance

/-- Five places in the port's handler: inside `UART_EndRxTransfer` after errors have been switched off
(three), between the test and the assignment in `HAL_DMA_Abort_IT`, and between the two assignments
that end a reception at a silent line. -/
def fragile : List Pc := [.endIdle, .endReady, .endType, .abortState, .idleType]

/-- The stream's final interrupt is never served at a place in `l`. -/
def Spared (l : List Pc) : St → List Ev → Prop
  | _, [] => True
  | s, e :: es =>
      (e = .done → asking s = true → ∀ p ∈ l, s.isr ≠ some p) ∧ Spared l (step s e) es

instance (l : List Pc) : (s : St) → (es : List Ev) → Decidable (Spared l s es)
  | _, [] => isTrue trivial
  | s, e :: es =>
      have := instDecidableSpared l (step s e) es
      by unfold Spared; infer_instance
where instDecidableSpared (l : List Pc) : (s : St) → (es : List Ev) → Decidable (Spared l s es)
  | _, [] => isTrue trivial
  | s, e :: es =>
      have := instDecidableSpared l (step s e) es
      by unfold Spared; infer_instance

end Verif.UartRx.Spec
