import Verif.Spec.Printf
/-
C134: what reaches the descriptor when the kernel takes only part of what it is given.
-/
namespace Gotcha.Spec.Printf

/-- What reaches the descriptor of the buffers `ws` written one after the other when the kernel takes at most `acc i`
bytes of the i-th one (0 if the system call fails). -/
def arrived (acc : Nat → Nat) : List (List UInt8) → List UInt8
  | [] => []
  | w :: ws => w.take (acc 0) ++ arrived (fun i => acc (i + 1)) ws

end Gotcha.Spec.Printf
