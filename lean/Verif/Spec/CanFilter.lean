import Verif.Model.CanFilter

set_option autoImplicit false

/-!
# Specification: which frames of a bus the VCU hears
-/

namespace Verif.CanFilter

/-- Everything on the bus of peripheral `d` is received into FIFO 0, whose interrupt is enabled: for every
header, the peripheral is listening, some bank lets the header pass, and no bank that does so puts it in
the other FIFO (so that it does not matter which of them the hardware prefers). -/
def Hears (s : St) (d : Dev) : Prop :=
  s.fmpie0 d = true ∧ s.listens d = true ∧ ∀ h : Header,
    (∃ k, s.matches d k h = true) ∧ ∀ k, s.matches d k h = true → (s.banks d).ffa1r.getLsbD k = false

/-- Nothing on the bus of peripheral `d` is received. -/
def Deaf (s : St) (d : Dev) : Prop := ∀ (h : Header) (k : Nat), s.matches d k h = false

/-- In the order of calls, CAN1 is configured and CAN2 later. -/
def Before (l : List Dev) : Prop := [.can1, .can2].Sublist l

end Verif.CanFilter
