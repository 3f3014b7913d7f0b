import Verif.Model.Car
import Verif.Spec.Dbc
import Verif.Spec.Response

set_option autoImplicit false

/-!
# Battery measurements on the bus that call for the end of torque
-/

namespace Verif.Car
open Verif.Can Verif.CanSpec Verif.Dbc Verif.FaultSpec

/-- The value a frame of the battery management system carries for a field, if it carries it: the
message list with the scale factors of the code (C23). -/
def reading (fld : BmsField) (f : CanFrame) : Option Val :=
  if f.dlc = 8 then
    ((bmsTable codeScale).find? (fun s => decide (s.msgId = f.msgId.toNat) && decide (s.field = fld))).map
      (·.value f.data)
  else none

/-- The documented drive faults that are measured by the battery management system: the field, the values that
are a fault, the number of consecutive samples of the state manager after which it counts. -/
inductive Measured (cfg : Config) : BmsField → (Val → Prop) → Nat → Prop
  | temperature : Measured cfg .maxT
      (fun v => ∃ x, v = .flt x ∧ F32.lt (F32.ofInt cfg.bms.maxCellTemp.toInt) x = true) (bmsSamples cfg 10)
  | current : Measured cfg .current
      (fun v => ∃ x, v = .flt x ∧ F32.lt (F32.ofInt cfg.bms.maxCurrent.toInt) x = true) (bmsSamples cfg 10)
  | voltage : Measured cfg .maxV
      (fun v => ∃ x, v = .flt x ∧ F32.lt (F32.ofInt cfg.bms.maxCellVoltage.toInt) x = true) (bmsSamples cfg 10)
  | charge : Measured cfg .soc
      (fun v => ∃ x, v = .flt x ∧ F32.lt x (F32.ofInt cfg.bms.minStateOfCharge.toNat) = true) 1

/-- What happens at the receive queues. -/
def rxs (H : List (Nat × Ev)) : List RxEv :=
  H.filterMap fun x => match x.2 with
    | .rx e => some e
    | .veh _ => none

/-- Every frame received on bus `dev` from time `a` on and before `b` that carries the field carries a value
that is a fault. -/
def Reports (dev : Nat) (fld : BmsField) (bad : Val → Prop) (a b : Nat) (H : List (Nat × Ev)) : Prop :=
  ∀ t g fifo, (t, Ev.rx (.isr dev g fifo)) ∈ H → a ≤ t → t < b →
    ∀ w ∈ arrived fifo, ∀ v, reading fld (asSeen dev w) = some v → bad v

end Verif.Car
