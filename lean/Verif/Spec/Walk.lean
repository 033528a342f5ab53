import Verif.Model.Walk
import Verif.Spec.History
/-
What a walk over the link map needs of the other threads.
-/
namespace Gotcha.Spec

/-- The event as one of a history: the steps of the walk are not the loader's. -/
def loaderOp : WalkEv → Option Op
  | .step => none
  | .load ld => some (.load ld)
  | .unload dead => some (.unload dead)

/-- The walk has the address of this `struct link_map` in its hands. -/
def standsOn (a : Addr) : WPos → Prop
  | .upd b => a = b
  | .next b => a = b
  | .fin => False

/-- No other thread unloads the object the walk stands on. -/
def Spares (env : Env) (t : Option (HTable Name BId)) : List WalkEv → State → Walk → Prop
  | [], _, _ => True
  | .step :: es, s, w => ∀ s' w', walkStep env t w s = .ok (s', w') → Spares env t es s' w'
  | .load ld :: es, s, w => Spares env t es (s.load ld) w
  | .unload dead :: es, s, w => (∀ a, standsOn a w.pos → dead a = false) ∧
      Spares env t es (s.unload dead) w

/-- No two objects have the same address of their `struct link_map`, at any time. -/
def Unique (libs : List Lib) : List WalkEv → Prop
  | [] => (libs.map Lib.lm).Nodup
  | .step :: es => Unique libs es
  | .load ld :: es => (libs.map Lib.lm).Nodup ∧ Unique (libs ++ ld.libs) es
  | .unload dead :: es => (libs.map Lib.lm).Nodup ∧ Unique (libs.filter (fun l => !dead l.lm)) es

/-- The loader is busy, and no new object gets the address `a`. -/
def NotReused (a : Addr) : List WalkEv → Prop
  | [] => True
  | .step :: _ => False
  | .load ld :: es => (∀ l ∈ ld.libs, l.lm ≠ a) ∧ NotReused a es
  | .unload _ :: es => NotReused a es

/-- `get_library` finds a record of the object, and its generation is the current one: the object's slots
have been written. -/
def Current (s : State) (l : Lib) : Prop :=
  ∃ r rec, s.libTab.lookup (linkMapHash l) (linkMapEq l.lm) = .ok (some r) ∧ s.libs[r]? = some rec ∧
    rec.gen = s.gen

end Gotcha.Spec
