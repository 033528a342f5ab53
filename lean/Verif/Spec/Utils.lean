import Verif.Model.Utils
/-
What the list of library records and the debug level should be.
-/
namespace Gotcha.Spec.Utils
open Gotcha Utils

/-- The libraries on record after one more use, the most recently added first. -/
def libsStep (L : List Addr) : LibOp → List Addr
  | .ensure a => if a ∈ L then L else a :: L
  | .remove a => L.filter (fun b => b ≠ a)

/-- The libraries on record after a sequence of uses. -/
def libsAfter (ops : List LibOp) : List Addr := ops.foldl libsStep []

/-- The library a use is about. -/
def addrOf : LibOp → Addr
  | .ensure a | .remove a => a

/-- The records of `l` are a proper doubly linked list of the libraries `L`: from the head through
`next` they come in this order, from some last record through `prev` in the opposite order. -/
def ListOf (l : LibList) (L : List Addr) : Prop :=
  l.forward l.store.length l.head = .ok L ∧
    ∃ last, l.backward l.store.length last = .ok L.reverse ∧ (last = none ↔ L = [])

end Gotcha.Spec.Utils
