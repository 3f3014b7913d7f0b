import Verif.Model.TorqueMap

set_option autoImplicit false

/-!
# The torque map with any table, and with fused multiplications

`TorqueMap_Interpolate` (torqueMap.c 21-46) takes the table as an argument, and its last
line is the one expression of the firmware in which a compiler may join a product and a
sum of `float`s into one operation. The shipped build does not (toolchain.cmake 45: `-O0`);
with optimisation GCC does for this processor (`-std=gnu11`, `-mfpu=fpv5-d16`, lines 49 and
51). `torqueMap.c` is vcu/vehicleLogic/throttleController/torqueMap.c.
-/

namespace Verif.Throttle

/-- The instruction a joined product and sum is compiled to: one rounding. Hardware; for
torqueMap.c 45. -/
def fma : F32 → F32 → F32 → F32
  | .fin a, .fin b, .fin c => F32.round (a * b + c)
  | .fin _, .fin _, c => c
  | a, b, c => (a.mul b).add c

/-- What the compiler makes of torqueMap.c 45 (toolchain.cmake 45-51): three operations, or
one of the two products joined with the sum. -/
inductive Joined where
  | none | first | second
deriving DecidableEq

/-- The value of torqueMap.c 45. -/
def blend (j : Joined) (t torque0 torque1 : F32) : F32 :=
  match j with
  | .none => (((F32.fin 1).sub t).mul torque0).add (t.mul torque1)
  | .first => fma ((F32.fin 1).sub t) torque0 (t.mul torque1)
  | .second => fma t torque1 (((F32.fin 1).sub t).mul torque0)

/-- `TorqueMap_Interpolate`, torqueMap.c 21-46, as compiled with `j`. -/
def interpolateAs (j : Joined) (map : TorqueMap) (accel : F32) : F32 :=
  let (lo, up) := bucket map accel
  if lo = up then .fin 0 else
  let t := (accel.sub map.accel[lo]).div (map.accel[up].sub map.accel[lo])
  blend j t map.torque[lo] map.torque[up]

end Verif.Throttle
