import Verif.Model.Memory

set_option autoImplicit false

/-!
# Specification: objects that share nothing
-/

namespace Verif.Memory

/-- No two declared arrays overlap: what the linker does with variables. -/
def Apart (z : Sizes) (P : Obj → Nat) : Prop :=
  ∀ o o', o ≠ o' → P o + bytes z o ≤ P o' ∨ P o' + bytes z o' ≤ P o

/-- The address is in no declared array. -/
def Outside (z : Sizes) (P : Obj → Nat) (a : Nat) : Prop :=
  ∀ o, a < P o ∨ P o + bytes z o ≤ a

/-- The operations on queue `i`. -/
def opsOf (i : Qi) : List Ev → List Queue.Op
  | [] => []
  | .queue k op :: es => if k = i then op :: opsOf i es else opsOf i es
  | _ :: es => opsOf i es

/-- The accesses to stream buffer `i`. -/
def accOf (i : Si) : List Ev → List StreamBuf.Ev
  | [] => []
  | .stream k e :: es => if k = i then e :: accOf i es else accOf i es
  | _ :: es => accOf i es

/-- What the callers of operations on queue `i` saw. -/
def seen (i : Qi) : List (Qi × Queue.Res) → List Queue.Res
  | [] => []
  | (k, r) :: rs => if k = i then r :: seen i rs else seen i rs

/-- The byte other code wrote last at `a`, or `v` if it wrote none. -/
def lastOther (a : Nat) : UInt8 → List Ev → UInt8
  | v, [] => v
  | v, .other x w :: es => lastOther a (if x = a then w else v) es
  | v, _ :: es => lastOther a v es

/-- Code that keeps to the interfaces: items of the size the queue was made for, sends of at least
one byte, and no other writes into the arrays. -/
def Proper (z : Sizes) (P : Obj → Nat) : Ev → Prop
  | .queue i (.send x) => x.length = qSize z i
  | .queue _ .recv => True
  | .stream _ (.send _ d) => d ≠ []
  | .stream _ _ => True
  | .other a _ => Outside z P a

end Verif.Memory
