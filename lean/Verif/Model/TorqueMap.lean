import Verif.C.Float32

set_option autoImplicit false

/-!
# Accelerator to torque map

`vcu/vehicleLogic/throttleController/torqueMap.{h,c}` (paths relative to
`/repo/firmware/src`).
-/

namespace Verif.Throttle

/-- `TorqueMap_T`, torqueMap.h 15-19. -/
structure TorqueMap where
  accel : Vector F32 5
  torque : Vector F32 5
deriving DecidableEq

/-- `TorqueMap_Default`, torqueMap.c 10-14; the literals are rounded to binary32. -/
def mapForward : TorqueMap where
  accel := #v[F32.round 0, F32.round (1/10), F32.round (5/10), F32.round (7/10), F32.round 1]
  torque := #v[F32.round 0, F32.round 0, F32.round 100, F32.round 200, F32.round 500]

/-- `TorqueMap_DefaultReverse`, torqueMap.c 15-19. -/
def mapReverse : TorqueMap where
  accel := #v[F32.round 0, F32.round (1/10), F32.round (5/10), F32.round (7/10), F32.round 1]
  torque := #v[F32.round 0, F32.round 0, F32.round 20, F32.round 75, F32.round 75]

/-- The bucket search, torqueMap.c 23-32 (the last matching bucket wins; the
pair starts as `(0, 0)`). -/
def bucket (map : TorqueMap) (accel : F32) : Fin 5 × Fin 5 :=
  (List.finRange 4).foldl
    (fun p i =>
      if accel.ge map.accel[i.castSucc] && accel.le map.accel[i.succ]
      then (i.castSucc, i.succ) else p)
    (0, 0)

/-- `TorqueMap_Interpolate`, torqueMap.c 21-46. -/
def interpolate (map : TorqueMap) (accel : F32) : F32 :=
  let (lo, up) := bucket map accel
  if lo = up then .fin 0 else
  let accel0 := map.accel[lo]
  let accel1 := map.accel[up]
  let torque0 := map.torque[lo]
  let torque1 := map.torque[up]
  let t := (accel.sub accel0).div (accel1.sub accel0)
  (((F32.fin 1).sub t).mul torque0).add (t.mul torque1)

end Verif.Throttle
