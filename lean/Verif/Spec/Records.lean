import Verif.Model.Core
/-
Which objects get a library record of their own.
-/
namespace Gotcha.Spec

/-- Two objects are confused when the second is looked up: same hash, and the first has the larger (or
the same) link_map address. -/
def confused (a b : Lib) : Prop := linkMapHash a = linkMapHash b ∧ b.lm ≤ a.lm

instance (a b : Lib) : Decidable (confused a b) :=
  inferInstanceAs (Decidable (_ ∧ _))

/-- Specification: which of the objects, seen in this order, get a record: those not confused with one
that has a record already. -/
def owners : List Lib → List Lib → List Lib
  | own, [] => own
  | own, l :: ls => owners (if ∃ a ∈ own, confused a l then own else own ++ [l]) ls

end Gotcha.Spec
