import Verif.Spec.Real
/-
What the loader alone would have done to memory, and which filter is in force.
-/
namespace Gotcha.Spec

/-- A memory word after one event, had GOTCHA done nothing. -/
def loaderWord (op : Op) (a old : Addr) : Addr :=
  match op with
  | .dlopen ld => (ld.mem a).getD old
  | .load ld => (ld.mem a).getD old
  | _ => old

/-- A memory word after a history, had GOTCHA done nothing. -/
def loaderMem (mem : Addr → Addr) (ops : List Op) (a : Addr) : Addr :=
  ops.foldl (fun v op => loaderWord op a v) (mem a)

/-- Effect of an event on the library filter. -/
def filterStep (f : Filter) : Op → Filter
  | .setFilter f' => f'
  | _ => f

/-- The library filter in force after a history. -/
def filterAfter (ops : List Op) : Filter := ops.foldl filterStep .all

/-- The filter lets GOTCHA work on the object at its place in the link map (`hasNext`: something
follows it). -/
def lets : Filter → Lib → (hasNext : Bool) → Prop
  | .all, _, _ => True
  | .byName none, _, _ => False
  | .byName (some f), l, _ => ∃ n, l.name = some n ∧ f <:+: n
  | .last, _, hasNext => hasNext = false
  | .custom f, l, hasNext => f l hasNext = true

/-- Object `l` of the link map `libs` is open to GOTCHA. -/
def Admitted (flt : Filter) (libs : List Lib) (l : Lib) : Prop :=
  ∃ X Y, libs = X ++ l :: Y ∧ lets flt l (!Y.isEmpty)

end Gotcha.Spec
