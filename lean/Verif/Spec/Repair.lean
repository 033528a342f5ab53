import Verif.Spec.Calls
import Verif.Spec.Effects
/-
Interception in some of the objects.
-/
namespace Gotcha.Spec

/-- As `Wired`, for the slots of the objects in `good`. -/
def WiredFor (p : Process) (good : Lib → Prop) (ops : List Op) (s : State) : Prop :=
  ∀ f r, registered p.env ops f ≠ [] → realAfter p.env p.libs ops f = some r → p.P r = none →
    ∀ l ∈ libsAfter p.libs ops, good l → ∀ off, (off, f) ∈ rlOf l →
    ∃ order, order.Perm (registered p.env ops f) ∧
      Calls p.P s (s.mem (l.addr + off)) (wrappers order ++ [r])

/-- A history in which everything may have happened that makes GOTCHA miss slots: filters that leave objects out,
objects loaded behind GOTCHA's back, unloaded and loaded again, slots written by the loader.  (Each GOT slot belongs
to one function, the first table with "main" contains nothing else, and the 32-bit generation counter does not wrap
around.) -/
def Rough (p : Process) (ops : List Op) : Prop := HistoryFor p True (fun _ => False) ops

end Gotcha.Spec
