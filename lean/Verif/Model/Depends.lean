import Verif.C.Basic

set_option autoImplicit false

/-!
# Module registry: system-lib/depends/depends.c
-/

namespace Verif.Depends

/-- `nModules` (depends.c 12). -/
structure St where
  nModules : UInt32
deriving DecidableEq, Repr

/-- Its initial value. depends.c 12. -/
def start : St := ⟨1⟩

/-- `RegisterModule` (depends.c 14-23): `nonNull` says whether the caller passed a place for the id. Returns
the id stored there, if any. -/
def registerModule (s : St) (nonNull : Bool) : Option UInt32 × St :=
  if nonNull then (some s.nModules, ⟨s.nModules + 1⟩) else (none, s)

/-- `DependOn` (depends.c 25-34). -/
def dependOn (s : St) (compId : UInt32) : Bool :=
  decide (compId > 0 ∧ compId < s.nModules)

/-- A sequence of registrations and the ids it stored, oldest first. depends.c 14-23. -/
def registerAll : St → List Bool → List UInt32 × St
  | s, [] => ([], s)
  | s, b :: bs =>
    let r := registerModule s b
    let rest := registerAll r.2 bs
    (r.1.toList ++ rest.1, rest.2)

end Verif.Depends
