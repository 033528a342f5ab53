import Verif.Spec.History
import Verif.Spec.Order
import Verif.Spec.Calls
/-
C127: bindings of one tool, distributed over tables and calls in one way or another.
-/
namespace Gotcha.Spec

/-- One or more gotcha_wrap calls of one tool in a row; no table names "main". -/
def WrapRow (tool : Option Name) (X : List Op) : Prop :=
  X ≠ [] ∧ ∀ o ∈ X, ∃ tbl, o = .wrap tbl tool ∧ ¬ hasMain tbl

/-- The bindings of `f` in a number of calls, in order. -/
def bindingsOf (f : Name) (X : List Op) : List UBinding :=
  (X.flatMap tableOf).filter (fun u => u.name = f)

/-- The same bindings, those of one function in the same order. -/
def SameBindings (X Y : List Op) : Prop := ∀ f, bindingsOf f X = bindingsOf f Y

end Gotcha.Spec

namespace Gotcha.Spec

/-- Nothing a client can see tells the two states apart: handles, call sites of wrapped functions, and what
calls of them run.  (`strict`: the conditions of C01, under which all call sites are up to date.) -/
structure Indistinct (p : Process) (strict : Prop) (ops : List Op) (s s' : State) : Prop where
  loaded : s'.linkMap = s.linkMap
  handles : ∀ u ∈ ops.flatMap tableOf, s'.getWrappee u.handle = s.getWrappee u.handle
  sites : strict → ∀ l ∈ s.linkMap, ∀ off f, (off, f) ∈ rlOf l → registered p.env ops f ≠ [] →
    s'.mem (l.addr + off) = s.mem (l.addr + off)
  calls : strict → ∀ l ∈ s.linkMap, ∀ off f, (off, f) ∈ rlOf l → registered p.env ops f ≠ [] →
    ∀ r, realAfter p.env p.libs ops f = some r → p.P r = none →
    ∃ path, (∀ x, Calls p.P s (s.mem (l.addr + off)) x ↔ x = path) ∧
      ∀ x, Calls p.P s' (s'.mem (l.addr + off)) x ↔ x = path

end Gotcha.Spec
