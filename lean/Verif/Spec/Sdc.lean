import Verif.Model.Sdc

set_option autoImplicit false

/-!
# What an observer of pins and reads knows about the shutdown circuit

These definitions look at the event list only: which pin changed and which input was read.
-/

namespace Verif.SdcSpec

open Verif.Sdc

/-- Level of pin `f` after the events. -/
def level (f : Field) (init : Bool) : List Ev → Bool
  | [] => init
  | .pin g v :: es => level f (if g = f then v else init) es
  | _ :: es => level f init es

/-- The value read from pin `f` at the last read of it; `last` before any read. -/
def sampled (f : Field) (lvl last : Bool) : List Ev → Bool
  | [] => last
  | .pin g v :: es => sampled f (if g = f then v else lvl) last es
  | .isrRead g :: es => sampled f lvl (if g = f then lvl else last) es
  | _ :: es => sampled f lvl last es

/-- No pin, nor the IMU line, goes from low to high. -/
def NoRise (lvl : Levels) (imu : Bool) : List Ev → Prop
  | [] => True
  | .pin g v :: es => (v = true → lvl g = true) ∧
      NoRise (fun f => if f = g then v else lvl f) imu es
  | .imuPin v :: es => (v = true → imu = true) ∧ NoRise lvl v es
  | _ :: es => NoRise lvl imu es

/-- The last actual change of a shutdown-circuit pin was low to high; `acc` is the verdict so
far. -/
def LastRose (lvl : Levels) (acc : Bool) : List Ev → Bool
  | [] => acc
  | .pin g v :: es =>
      LastRose (fun f => if f = g then v else lvl f) (if v = lvl g then acc else v) es
  | _ :: es => LastRose lvl acc es

/-- Nothing is under way: no interrupt line pending, handler not running, no notification, task
waiting. -/
def Quiet (s : St) : Prop :=
  (∀ l, s.exti l = false) ∧ s.isr = none ∧ s.pending = 0 ∧ s.phase = .idle

/-- Only steps of the publishing task. -/
def IsTask : Ev → Prop
  | .take => True
  | .acquire ok => ok = true
  | .copy _ => True
  | .release => True
  | _ => False

/-- The lock discipline on events: values are copied and the lock released only while it is held,
and it is not acquired again while held. -/
def Locked : Bool → List Ev → Prop
  | _, [] => True
  | held, .acquire ok :: es => held = false ∧ Locked ok es
  | held, .copy _ :: es => held = true ∧ Locked held es
  | held, .release :: es => held = true ∧ Locked false es
  | held, _ :: es => Locked held es

end Verif.SdcSpec
