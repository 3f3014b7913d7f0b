import Verif.Model.SbWait

set_option autoImplicit false

/-!
# What a task that waits on a stream buffer may expect
-/

namespace Verif.SbWait

/-- A state of the running system: any events since the buffer was created. -/
def Reached (c : Cfg) (s : St) : Prop := ∃ rN wN es, run c (create rN wN) es = .ok s

/-- The notifications given to the reading task among the events. -/
def gives (es : List Ev) : Nat := es.count .giveR

/-- Neither the tick nor a notification from elsewhere ends the reader's wait, and it asks for
at least one byte. -/
def Ev.undisturbed : Ev → Prop
  | .rTick => False
  | .giveR => False
  | .receive max _ => 0 < max
  | _ => True

end Verif.SbWait
