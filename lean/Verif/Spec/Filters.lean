import Verif.Model.Filters
import Verif.Spec.LibC
/-
What the filters are supposed to let pass.
-/
namespace Gotcha.Spec.Filters
open Gotcha Gotcha.Filters Gotcha.Spec.LibC

/-- Whether the last of the calls `cs`, in memory `m`, lets the object pass whose name is `n`; without calls,
every object passes.  `empty` is whether an empty filter matches. -/
inductive Lets (empty : Bool) (m : LibC.Mem) (k : Link) (n : Name) : List Call → Bool → Prop
  | none : Lets empty m k n [] true
  | restore {cs} : Lets empty m k n (cs ++ [.restore]) true
  | last {cs} : Lets empty m k n (cs ++ [.onlyLast]) (!k.hasNext)
  | custom {cs f} : Lets empty m k n (cs ++ [.setFunc f]) (f m k)
  | noName {cs} : Lets empty m k n (cs ++ [.byName 0]) false
  | name {cs p f} (b : Bool) : p ≠ 0 → CStr m p f → (b = true ↔ (f ≠ [] ∨ empty = true) ∧ f <:+: n) →
      Lets empty m k n (cs ++ [.byName p]) b

/-- What C says about strstr: a pointer is returned exactly if the second string occurs in the first (the empty
string occurs everywhere). -/
def Strstr (strstr : LibC.Mem → Addr → Addr → Except Fault (Option Addr)) : Prop :=
  ∀ m hay nee h n, CStr m hay h → CStr m nee n → ∃ r, strstr m hay nee = .ok r ∧ (r ≠ none ↔ n <:+: h)

/-- The filter with strings (`Filter` of `Model/Core`) that the last of the calls makes, in memory `m`; a
function of the client's sees the object by its link map. -/
inductive Means (m : LibC.Mem) (link : Lib → Bool → Link) : List Call → Filter → Prop
  | none : Means m link [] .all
  | restore {cs} : Means m link (cs ++ [.restore]) .all
  | last {cs} : Means m link (cs ++ [.onlyLast]) .last
  | custom {cs f} : Means m link (cs ++ [.setFunc f]) (.custom fun l b => f m (link l b))
  | noName {cs} : Means m link (cs ++ [.byName 0]) (.byName .none)
  | name {cs p f} : p ≠ 0 → CStr m p f → Means m link (cs ++ [.byName p]) (.byName (some f))

end Gotcha.Spec.Filters
