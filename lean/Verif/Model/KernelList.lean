import Verif.C.Basic
import Mathlib.Logic.Function.Basic

set_option autoImplicit false

/-!
# The kernel's linked lists (Lib/FreeRTOS/Source/list.c, include/list.h)

Memory at the level of pointers: every list item and every end marker has its own `pxNext` and
`pxPrevious`. A list is named by `L`, an item by `X`; an address is one of the two. Items keep
their `pvOwner` for ever, so the owner is not a field. The integrity check words are not compiled
(`configUSE_LIST_DATA_INTEGRITY_CHECK_BYTES` is 0). `uxNumberOfItems` is a natural number: a list
never holds 2^32 items. Every operation is inside a critical section or runs with the scheduler
suspended (C101), so an operation is one step.
-/

namespace Verif.KList

variable {L X : Type} [DecidableEq L] [DecidableEq X]

/-- What a `ListItem_t *` points to: the `xListEnd` of a list, or an item (list.h 139-171). -/
inductive Addr (L X : Type) where
  | mark (l : L)
  | item (x : X)
deriving DecidableEq

/-- The fields of all items and lists (list.h 139-171). -/
structure Heap (L X : Type) where
  next : Addr L X → Addr L X
  prev : Addr L X → Addr L X
  value : Addr L X → Nat
  container : X → Option L
  index : L → Addr L X
  count : L → Nat

/-- `portMAX_DELAY` (portmacro.h 64). -/
def maxDelay : Nat := 4294967295

/-- All lists after `vListInitialise` (list.c 37-59), all items after `vListInitialiseItem`
(list.c 62-71). The pointers of an item that was never inserted are whatever memory held;
here they are `junk`. The item values are `v`. -/
def init (junk : X → Addr L X) (v : X → Nat) : Heap L X where
  next a := match a with | .mark l => .mark l | .item x => junk x
  prev a := match a with | .mark l => .mark l | .item x => junk x
  value a := match a with | .mark _ => maxDelay | .item x => v x
  container _ := none
  index l := .mark l
  count _ := 0

/-- `listSET_LIST_ITEM_VALUE` (list.h 198). -/
def setValue (h : Heap L X) (x : X) (v : Nat) : Heap L X :=
  { h with value := Function.update h.value (.item x) v }

/-- `vListInsertEnd` (list.c 74-100): in front of the item `pxIndex` points to. -/
def insertEnd (h : Heap L X) (l : L) (n : X) : Heap L X :=
  let i := h.index l
  let h := { h with next := Function.update h.next (.item n) i
                    prev := Function.update h.prev (.item n) (h.prev i) }
  let h := { h with next := Function.update h.next (h.prev i) (.item n) }
  let h := { h with prev := Function.update h.prev i (.item n) }
  { h with container := Function.update h.container n (some l)
           count := Function.update h.count l (h.count l + 1) }

/-- The loop of `vListInsert` (list.c 150-154) from the address `a`. The C loop has no bound of
its own: `none` says that it has not ended after that many steps. -/
def seek (h : Heap L X) (v : Nat) : Nat → Addr L X → Option (Addr L X)
  | 0, _ => none
  | k + 1, a => if h.value (h.next a) ≤ v then seek h v k (h.next a) else some a

/-- `vListInsert` (list.c 103-167). `fuel` bounds the loop, see `seek`. -/
def insert (fuel : Nat) (h : Heap L X) (l : L) (n : X) : Option (Heap L X) :=
  let v := h.value (.item n)
  match (if v = maxDelay then some (h.prev (.mark l)) else seek h v fuel (.mark l)) with
  | none => none
  | some p =>
    let h := { h with next := Function.update h.next (.item n) (h.next p) }
    let h := { h with prev := Function.update h.prev (h.next (.item n)) (.item n) }
    let h := { h with prev := Function.update h.prev (.item n) p }
    let h := { h with next := Function.update h.next p (.item n) }
    some { h with container := Function.update h.container n (some l)
                  count := Function.update h.count l (h.count l + 1) }

/-- `uxListRemove` (list.c 170-195): the number of items left, and the new memory. -/
def remove (h : Heap L X) (x : X) : C (Nat × Heap L X) :=
  match h.container x with
  | none => .error .nullDeref
  | some l =>
    let h := { h with prev := Function.update h.prev (h.next (.item x)) (h.prev (.item x)) }
    let h := { h with next := Function.update h.next (h.prev (.item x)) (h.next (.item x)) }
    let h := if h.index l = .item x then
        { h with index := Function.update h.index l (h.prev (.item x)) }
      else h
    let h := { h with container := Function.update h.container x none
                      count := Function.update h.count l (h.count l - 1) }
    .ok (h.count l, h)

/-- `listGET_OWNER_OF_NEXT_ENTRY` (list.h 277-288): the address whose `pvOwner` is read. The
marker has no `pvOwner` (`MiniListItem_t`, list.h 152-159): reading it is out of bounds. -/
def nextEntry (h : Heap L X) (l : L) : C (X × Heap L X) :=
  let i := h.next (h.index l)
  let i := if i = .mark l then h.next i else i
  match i with
  | .item x => .ok (x, { h with index := Function.update h.index l i })
  | .mark _ => .error .oobRead

/-- `listGET_OWNER_OF_HEAD_ENTRY` (list.h 307). -/
def headEntry (h : Heap L X) (l : L) : C X :=
  match h.next (.mark l) with
  | .item x => .ok x
  | .mark _ => .error .oobRead

end Verif.KList
