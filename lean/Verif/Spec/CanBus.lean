import Verif.Model.CanBus

set_option autoImplicit false

/-!
# Specification: frames given to the CAN driver and frames on the bus
-/

namespace Verif.CanBus

/-- Frames waiting in mailboxes, by mailbox number. -/
def St.pending (s : St) : List Frame :=
  ((s.box 0).toList ++ (s.box 1).toList ++ (s.box 2).toList).map Req.frame

/-- Every frame a call accepted is on the bus, was given up, or waits in the queue or in a mailbox, and
nothing else is. -/
def Accounted (s : St) : Prop := s.accepted.Perm (s.bus ++ s.lost ++ s.queue ++ s.pending)

/-- The bus is kind to the peripheral: in this slot no lower identifier competes with one of its frames and
nothing goes wrong. -/
def Kind (ids : Nat → Prop) : Ev → Prop
  | .slot rival fault => fault = none ∧ ∀ r, rival = some r → ∀ i, ids i → i ≤ r
  | _ => True

/-- Only frames with these identifiers are sent. -/
def Uses (ids : Nat → Prop) : Ev → Prop
  | .send f _ => ids f.id
  | _ => True

/-- A frame given up in this slot. -/
def isFault : Ev → Bool
  | .slot _ (some _) => true
  | _ => false

/-- The answers a caller gets to a series of calls. -/
def answers : St → List (Frame × Fin 3) → List Bool
  | _, [] => []
  | s, (f, m) :: rest => (send f m s).2 :: answers (send f m s).1 rest

/-- The call happens when what is still pending sits in lower mailboxes and has no higher identifier; in
particular whenever nothing is pending. -/
def Polite (s : St) : Ev → Prop
  | .send f m => ∀ i r, s.box i = some r → i < m ∧ r.frame.id ≤ f.id
  | _ => True

/-- Every call of the run is polite. -/
def AllPolite (c : Mcr) : St → List Ev → Prop
  | _, [] => True
  | s, e :: es => Polite s e ∧ AllPolite c (step c s e) es

end Verif.CanBus
