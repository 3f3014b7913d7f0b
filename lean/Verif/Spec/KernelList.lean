set_option autoImplicit false

/-!
# What a kernel list is to its users

A sequence with a reading position: the items the position has passed since it was at the start,
and the items ahead of it.
-/

namespace Verif.KList

variable {X : Type} [DecidableEq X]

/-- The items in order: those up to and including the one read last, then the others. -/
structure Z (X : Type) where
  past : List X
  ahead : List X
deriving DecidableEq

/-- The whole content. -/
def Z.all (z : Z X) : List X := z.past ++ z.ahead

/-- Into a list sorted by value: behind everything that is not larger. -/
def put (val : X → Nat) (n : X) : List X → List X
  | [] => [n]
  | x :: xs => if val x ≤ val n then x :: put val n xs else n :: x :: xs

/-- Sorted insertion keeps the reading position. -/
def Z.insert (z : Z X) (val : X → Nat) (n : X) : Z X :=
  if ∀ x ∈ z.past, val x ≤ val n then ⟨z.past, put val n z.ahead⟩ else ⟨put val n z.past, z.ahead⟩

/-- In front of the item read last; with nothing read yet, at the end. -/
def Z.insertEnd (z : Z X) (n : X) : Z X :=
  match z.past.getLast? with
  | none => ⟨[], z.ahead ++ [n]⟩
  | some y => ⟨z.past.dropLast ++ [n, y], z.ahead⟩

/-- The item is gone, everything else stays where it was. -/
def Z.erase (z : Z X) (x : X) : Z X := ⟨z.past.erase x, z.ahead.erase x⟩

/-- The next item in turn: from the front again after the last one. -/
def Z.next (z : Z X) : Option (X × Z X) :=
  match z.ahead, z.past with
  | x :: b, a => some (x, ⟨a ++ [x], b⟩)
  | [], x :: b => some (x, ⟨[x], b⟩)
  | [], [] => none

/-! ## Using the lists -/

variable {L : Type} [DecidableEq L]

/-- What the kernel does with lists: set the value of an item, insert an item by value, insert it
at the end, remove it, take the next one in turn. -/
inductive Op (L X : Type) where
  | value (x : X) (v : Nat)
  | insert (l : L) (x : X)
  | insertEnd (l : L) (x : X)
  | remove (x : X)
  | next (l : L)
deriving DecidableEq

/-- What an operation answers: nothing, how many items are left, or an item. -/
inductive Ans (X : Type) where
  | done
  | left (n : Nat)
  | item (x : X)
deriving DecidableEq

/-- Sequences, the values of the items, and where each item is. -/
structure Use (L X : Type) where
  lists : L → Z X
  val : X → Nat
  home : X → Option L

/-- One operation on sequences. `none` is wrong use: a value above `portMAX_DELAY`, an item that is
inserted while it is in a list or removed while it is in none, the next item of an empty list. -/
def Use.step (u : Use L X) : Op L X → Option (Ans X × Use L X)
  | .value x v => if v ≤ 4294967295 then some (.done, { u with val := fun y => if y = x then v else u.val y }) else none
  | .insert l x =>
    if u.home x = none then
      some (.done, { u with lists := fun m => if m = l then (u.lists l).insert u.val x else u.lists m
                            home := fun y => if y = x then some l else u.home y })
    else none
  | .insertEnd l x =>
    if u.home x = none then
      some (.done, { u with lists := fun m => if m = l then (u.lists l).insertEnd x else u.lists m
                            home := fun y => if y = x then some l else u.home y })
    else none
  | .remove x =>
    match u.home x with
    | none => none
    | some l =>
      some (.left ((u.lists l).erase x).all.length,
        { u with lists := fun m => if m = l then (u.lists l).erase x else u.lists m
                 home := fun y => if y = x then none else u.home y })
  | .next l =>
    match (u.lists l).next with
    | none => none
    | some (x, z) => some (.item x, { u with lists := fun m => if m = l then z else u.lists m })

/-- A history: the answers, and what is left. -/
def Use.run (u : Use L X) : List (Op L X) → Option (List (Ans X) × Use L X)
  | [] => some ([], u)
  | o :: os =>
    match u.step o with
    | none => none
    | some (a, u) =>
      match u.run os with
      | none => none
      | some (as, u) => some (a :: as, u)

end Verif.KList
