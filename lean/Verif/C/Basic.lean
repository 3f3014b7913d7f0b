set_option autoImplicit false

/-!
# C-level vocabulary

Undefined behaviour is a distinct outcome of the model: a function that can
reach it returns `C α = Except UB α`.
-/

namespace Verif

/-- Kinds of undefined (or fatal) behaviour that the modelled code can reach; `configASSERT` is
FreeRTOSConfig.h 122. -/
inductive UB where
  | nullDeref
  | oobRead
  | oobWrite
  | divByZero
  | badCast
  | uninitRead
  /-- A failed `configASSERT`: interrupts off, endless loop (FreeRTOSConfig.h 122). -/
  | assertFail
deriving DecidableEq, Repr

/-- Result of a C computation: a value or undefined behaviour (see `UB`; FreeRTOSConfig.h 122). -/
abbrev C (α : Type) := Except UB α

deriving instance DecidableEq for Except

end Verif
