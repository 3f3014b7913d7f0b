import Verif.Model.Reset

set_option autoImplicit false

/-!
# What a C program finds in memory when it begins
-/

namespace Verif.Reset.Spec

open Verif.Reset

/-- The word a program finds at address `a` if before reset the memory held `m`: the initial value in
the image for an initialised object, zero for any other global object, and what was there before
elsewhere. -/
def startValue (L : Link) (m : Nat → Nat) (a : Nat) : Nat :=
  if L.sdata ≤ a ∧ a < L.edata then m (L.sidata + (a - L.sdata))
  else if L.sbss ≤ a ∧ a < L.ebss then 0
  else m a

/-- A placement the start-up code can work with. -/
structure Sound (L : Link) : Prop where
  sdata4 : L.sdata % 4 = 0
  edata4 : L.edata % 4 = 0
  sidata4 : L.sidata % 4 = 0
  sbss4 : L.sbss % 4 = 0
  ebss4 : L.ebss % 4 = 0
  data : L.sdata ≤ L.edata
  order : L.edata ≤ L.sbss
  bss : L.sbss ≤ L.ebss
  top : L.ebss + 4 < 2 ^ 32
  image : L.sidata + (L.edata - L.sdata) ≤ L.sdata

end Verif.Reset.Spec
