import Verif.Model.Drop
import Verif.Spec.History
import Verif.Spec.Real
import Verif.Spec.Calls
/-
C126: the assumptions about a process whose GOTCHA calls `remove_library` at dlclose.
-/
namespace Gotcha.Spec

/-- The engine's events among them. -/
def opsOf : List DropEv → List Op
  | [] => []
  | .op o :: es => o :: opsOf es
  | .remove _ :: es => opsOf es

/-- The loader's part.  Each event is as in `LoaderOk`, except that only the objects loaded now count as
having been loaded before: an object that was unloaded may be loaded again, any number of times, with its
slots as the loader leaves them.  `remove_library` is called for loaded objects, once the table exists. -/
def DropLoader (p : Process) : List Lib → Bool → List DropEv → Prop
  | _, _, [] => True
  | libs, inited, .op o :: es => LoaderOk p True (fun l => l ∈ libs) libs inited [o] ∧
      DropLoader p (loadStep libs o) (inited || isApi o) es
  | libs, inited, .remove ls :: es => inited = true ∧ (∀ l ∈ ls, l ∈ libs) ∧ DropLoader p libs inited es

/-- As `History p True`, with reloading. -/
structure DropHistory (p : Process) (es : List DropEv) : Prop where
  loader : DropLoader p p.libs false es
  cons : SlotCons p.libs
  filter : ∀ f, Op.setFilter f ∈ opsOf es → f = .all
  main : MainAlone (opsOf es)
  short : (opsOf es).length + 3 < 2 ^ 32
  honest : Honest p.env p.P (opsOf es)

end Gotcha.Spec
