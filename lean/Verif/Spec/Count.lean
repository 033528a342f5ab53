import Verif.Model.Core
/-
Sizes of hash tables, in unbounded arithmetic.
-/
namespace Gotcha.Spec

/-- `n` is the least multiple of `k` that is at least `i`. -/
def LeastMultiple (k i n : Nat) : Prop := k ∣ n ∧ i ≤ n ∧ ∀ m, k ∣ m → i ≤ m → n ≤ m

/-- The allocator never has half the address space to give (glibc: no request above `PTRDIFF_MAX`). -/
def Finite (malloc : BitVec 64 → Bool) : Prop := ∀ b : BitVec 64, 2 ^ 63 ≤ b.toNat → malloc b = false

/-- The allocator has what is asked for, up to `k` bytes. -/
def HasUpTo (malloc : BitVec 64 → Bool) (k : Nat) : Prop := ∀ b : BitVec 64, b.toNat ≤ k → malloc b = true

/-- The state after a call that registers a tool and moves the generation counter. -/
def OnlyTool (s s' : State) : Prop := s' = { s with tools := s'.tools, gen := s.gen + 1 }

end Gotcha.Spec
