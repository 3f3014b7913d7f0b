import Verif.Model.CanRx

set_option autoImplicit false

/-!
# Specification: frames on the bus and frames delivered
-/

namespace Verif.CanRx

/-- Layout of a received frame in the registers (reference manual, CAN_RIxR, CAN_RDTxR, CAN_RDLxR,
CAN_RDHxR), in arithmetic. -/
def Raw.isStd (r : Raw) : Prop := r.rir.toNat / 4 % 2 = 0
def Raw.stdId (r : Raw) : Nat := r.rir.toNat / 2 ^ 21
def Raw.dlc (r : Raw) : Nat := r.rdtr.toNat % 16
def Raw.byte (r : Raw) (k : Nat) : Nat :=
  if k < 4 then r.rdlr.toNat / 256 ^ k % 256 else r.rdhr.toNat / 256 ^ (k - 4) % 256

/-- `f` is frame `r` as received on bus `dev`. (The identifier only for standard frames: C26.) -/
structure Shows (dev : Nat) (r : Raw) (f : CanFrame) : Prop where
  bus : f.busInstance = dev
  dlc : f.dlc.toNat = r.dlc
  data : ∀ k (hk : k < 8), (f.data[k]).toNat = r.byte k
  id : r.isStd → f.msgId.toNat = r.stdId

/-- The times at which frames arrived. -/
def arrivals : List (Nat × Ev) → List Nat
  | [] => []
  | (t, .arrive _) :: es => t :: arrivals es
  | (_, .cpu _) :: es => arrivals es

/-- A frame takes at least 44 bit times and 3 more before the next (CAN 2.0). -/
def frameTime : Nat := 47

/-- Frames do not overlap on the bus. -/
def Spaced (es : List (Nat × Ev)) : Prop :=
  ∀ n a b, (arrivals es)[n]? = some a → (arrivals es)[n + 1]? = some b → a + frameTime ≤ b

/-- The processor is quick enough: whatever happens `3 * frameTime` or more after the arrival of a frame,
that frame has been delivered before. -/
def Served (dev : Nat) (h : Hdr) (es : List (Nat × Ev)) : Prop :=
  ∀ j t e, es[j]? = some (t, e) → ∀ n a, (arrivals (es.take j))[n]? = some a →
    a + 3 * frameTime ≤ t → n < (run dev (boot h) ((es.take j).map Prod.snd)).delivered.length

end Verif.CanRx
