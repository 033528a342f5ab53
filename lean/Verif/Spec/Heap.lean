import Verif.Model.Heap
/-
What GOTCHA's blocks of memory are for.
-/
namespace Gotcha.Spec
open Gotcha.Heap (Mem Kind Block Which Bad)

/-- How many allocated blocks serve a purpose. -/
def blocks (h : Mem) (k : Kind) : Nat := (h.live.filter (fun b => b.kind = k)).length

/-- How many internal bindings the allocated arrays have room for. -/
def bindRoom (h : Mem) : Nat := ((h.live.filter (fun b => b.kind = .bindArr)).map (·.len)).sum

/-- A global table of `n` entries has an array of exactly `n` entries, and there is no other array of that
table; or it has no entries and no array. -/
def Backed (h : Mem) (w : Which) (n : Nat) : Prop :=
  match h.arr w with
  | none => n = 0 ∧ blocks h (.table w) = 0
  | some i => ⟨i, .table w, n⟩ ∈ h.live ∧ blocks h (.table w) = 1

/-- All memory is accounted for. -/
structure Accounted (s : State) (h : Mem) : Prop where
  /-- no block is allocated twice -/
  distinct : (h.live.map (·.id)).Nodup
  libTab : Backed h .libs s.libTab.slots.length
  funTab : Backed h .funs s.funTab.slots.length
  notFound : Backed h .missing s.notFound.slots.length
  /-- no `new_bindings` table outlives its `gotcha_wrap` -/
  temp : blocks h .newBindings = 0
  /-- one record per library GOTCHA has seen -/
  records : blocks h .libRec = s.libs.length
  tools : blocks h .tool = s.tools.store.length
  /-- every internal binding is in an allocated array, and there is no other array -/
  binds : bindRoom h = s.binds.length
  pairs : blocks h .bindRec = blocks h .bindHash

/-- The outcome with the heap is the outcome without: same result after as many allocations, same fault, no
bad free. -/
def Agrees {α : Type} : Except Bad (α × Mem) → Except Fault (α × Nat) → Prop
  | .ok (x, h), r => r = .ok (x, h.calls)
  | .error (.fault f), r => r = .error f
  | .error .badFree, _ => False

/-- There is a record for the object. -/
def Recorded (s : State) (l : Lib) : Prop :=
  ∃ r, s.libTab.lookup (linkMapHash l) (linkMapEq l.lm) = .ok (some r)

end Gotcha.Spec
