import Verif.Model.Core
/-
`remove_library` (src/gotcha_utils.c:96-105) on the engine's state.  The engine itself never calls it;
test/unit calls it for loaded libraries (test/unit/gotcha_unit_tests.c:77-81).  Here a GOTCHA is modelled
that also calls it for every library dlclose is about to unload.
-/
namespace Gotcha

/-- src/gotcha_utils.c:96-105 `remove_library`.  The list of library records is in `Model/Utils` (C63);
here it is the table and the record, which is cleared (:103) and freed. -/
def State.removeLib (s : State) (l : Lib) : Except Fault State := do
  match ← s.libTab.lookup (linkMapHash l) (linkMapEq l.lm) with
  | none => .ok s
  | some r =>
    let (t, _) ← s.libTab.removefrom (linkMapHash l) (linkMapEq l.lm)
    .ok { s with libTab := t, libs := s.libs.set r ⟨0, false, 0⟩ }

/-- test/unit/gotcha_unit_tests.c:78-81: `remove_library` for several libraries (src/gotcha_utils.c:96-105). -/
def removeLibs : List Lib → State → Except Fault State
  | [], s => .ok s
  | l :: ls, s => do
    let s ← s.removeLib l
    removeLibs ls s

/-- The events of a process with a GOTCHA that calls `remove_library` (src/gotcha_utils.c:96-105). -/
inductive DropEv where
  /-- an event of the engine as it is -/
  | op (o : Op)
  /-- `remove_library` for libraries that are loaded, as in test/unit -/
  | remove (ls : List Lib)

/-- As `stepOp` (Model/Core); once GOTCHA is initialised (before, it intercepts nothing, and the table does
not exist), dlclose has `remove_library` (src/gotcha_utils.c:96-105) called for the libraries that go. -/
def stepDrop (env : Env) : DropEv → State → Except Fault (State × Obs)
  | .op (.unload dead), s => do
    let s ← if s.inited then removeLibs (s.linkMap.filter (fun l => dead l.lm)) s else .ok s
    stepOp env (.unload dead) s
  | .op o, s => stepOp env o s
  | .remove ls, s => do
    let s ← removeLibs ls s
    .ok (s, .unit)

/-- A history of such events (src/gotcha_utils.c:96-105 and the engine of `Model/Core`). -/
def runDrop (env : Env) : List DropEv → State → Except Fault (State × List Obs)
  | [], s => .ok (s, [])
  | e :: es, s => do
    let (s, o) ← stepDrop env e s
    let (s, os) ← runDrop env es s
    .ok (s, o :: os)

end Gotcha
