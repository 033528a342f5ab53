import Verif.Spec.Repair
/-
C131: how objects are treated from some moment on.
-/
namespace Gotcha.Spec

/-- The objects that the events in `ops` have loaded. -/
def loadedIn (ops : List Op) (l : Lib) : Prop :=
  ∃ ld, (Op.dlopen ld ∈ ops ∨ Op.load ld ∈ ops) ∧ l ∈ ld.libs

/-- After `before`, the objects in `good` pass the filter, and `more`, which is what happens then, treats them well:
every filter set lets them pass and none of them is loaded behind GOTCHA's back.  About what `before` did to them
nothing is said. -/
structure Treats (p : Process) (good : Lib → Prop) (before more : List Op) : Prop where
  now : ∀ l, good l → Passes (filterAfter before) l
  filter : ∀ f, Op.setFilter f ∈ more → ∀ l, good l → Passes f l
  loader : LoaderFor p True good (fun l => p.seen l ∨ loadedIn before l) (libsAfter p.libs before) true more
  main : MainAlone (before ++ more)
  honest : Honest p.env p.P (before ++ more)
  short : (before ++ more).length + 3 < 2 ^ 32

end Gotcha.Spec
