import Verif.Model.UartTx

set_option autoImplicit false

/-!
# Executions without end in which everybody gets their turn
-/

namespace Verif.UartTx

/-- The state before event `i`. -/
def at_ (e : Nat → Ev) : Nat → St
  | 0 => boot
  | i + 1 => step (at_ e i) (e i)

/-- Everybody gets their turn: the stream and the port's shift register work when they have something to do, the
task goes on, the port's handler goes on, the stream's interrupt is taken when it is pending and not disabled, and
not every entry of the port's handler is used up by reception. -/
structure Fair (e : Nat → Ev) : Prop where
  byte : ∀ i, ∃ j, i ≤ j ∧ e j = .byte
  line : ∀ i, ∃ j, i ≤ j ∧ e j = .line
  task : ∀ i, ∃ j, i ≤ j ∧ (at_ e j).isr = .out ∧ ∃ n, e j = .task n
  port : ∀ i, ∃ j, i ≤ j ∧ ∃ rx n, e j = .port rx n
  dma : ∀ i, ∃ j, i ≤ j ∧ (at_ e j).r.masked = false ∧ e j = .dma
  quiet : ∀ i, ∃ j, i ≤ j ∧ (∃ a b, (at_ e j).isr = .branch a b) ∧ ∃ n, e j = .port false n

/-- Events of a line without errors, with messages that are not empty. -/
def Clean : Ev → Prop
  | .task n => n ≠ 0
  | .noise => False
  | _ => True

end Verif.UartTx
