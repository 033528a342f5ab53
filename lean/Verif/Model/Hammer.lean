import Verif.Spec.Program
/-
The test hammer, of any size.
-/
namespace Gotcha.Tests
open Gotcha Spec

/-- The pairs of the maps in test/hammer/wrap.h:26-28, filled by `Generate<Y, X>::init` (test/hammer/gen.cc:25-56),
in their order. -/
def pairs (Y X : Nat) : List (Nat × Nat) :=
  (List.range (Y + 1)).flatMap fun a => (List.range (X + 1)).map fun b => (a, b)

/-- test/hammer/wrap.h:24-34 (`WrapperInfo`): for each pair the name of the function, the wrapper and the handle.
Simplified: dladdr (test/hammer/wrap.cc:38-47) finds every name. -/
structure Info where
  name : Nat → Nat → Name
  wrapper : Nat → Nat → Addr
  handle : Nat → Nat → HAddr

/-- test/hammer/wrap.cc:62-71. -/
def Info.table (i : Info) (Y X : Nat) : List UBinding :=
  (pairs Y X).map fun q => ⟨i.name q.1 q.2, i.wrapper q.1 q.2, i.handle q.1 q.2⟩

/-- test/hammer/wrap.cc:59-86 (`dowrap`), the call of gotcha_wrap. -/
def Info.dowrap (i : Info) (Y X : Nat) (tool : String) : Op := .wrap (i.table Y X) (some (nm tool))

/-- test/hammer/math.hpp:38 (`Mult::math`).  Simplified: no overflow. -/
def multMath (A B : Nat) (_ : Int) : Prog Int := .ret (A * B)

/-- test/hammer/math.hpp:46 (`Add::math`).  Simplified: no overflow. -/
def addMath (A B : Nat) (_ : Int) : Prog Int := .ret (A + B)

/-- test/hammer/math.hpp:61-65,67-71 (`mult_math_wrapper`, `add_math_wrapper`). -/
def negMath (h : HAddr) (_ : Int) : Prog Int :=
  .look (.next h) fun mathfn => .call (.fixed mathfn) 0 fun v => .ret (v * -1)

/-- The sign of test/hammer/multref.cc:36. -/
def sign (isNeg : Bool) : Int := if isNeg then -1 else 1

/-- test/hammer/multref.cc:29-47 (`MultChecker<A, B>::doCheck`); `slot a b` is the slot through which
`Mult<a, b>::math` is called (each library has its own copy of doCheck, and any of them may run). -/
def multCheck (slot : Nat → Nat → Lib × Addr) (A : Nat) (isNeg : Bool) :
    Nat → (Bool → Prog Int) → Prog Int
  | 0, k => .call (.slot (slot A 0).1 (slot A 0).2) 0 fun mult => k (mult == 0)
  | B + 1, k => multCheck slot A isNeg B fun good =>
      if good then .call (.slot (slot A (B + 1)).1 (slot A (B + 1)).2) 0 fun mult =>
        k (mult == A * (B + 1 : Nat) * sign isNeg)
      else k false

/-- test/hammer/addref.cc:23-57 (`AddChecker<A, B>::doCheck`). -/
def addCheck (slot : Nat → Nat → Lib × Addr) (X : Nat) (isNeg : Bool) :
    Nat → Nat → (Bool → Prog Int) → Prog Int
  | 0, 0, k => .call (.slot (slot 0 0).1 (slot 0 0).2) 0 fun add => k (add == 0)
  | A + 1, 0, k => addCheck slot X isNeg A X fun good =>
      if good then .call (.slot (slot (A + 1) 0).1 (slot (A + 1) 0).2) 0 fun add =>
        k (add == (A + 1 : Nat) * sign isNeg)
      else k false
  | A, B + 1, k => addCheck slot X isNeg A B fun good =>
      if good then .call (.slot (slot A (B + 1)).1 (slot A (B + 1)).2) 0 fun add =>
        k (add == (A + (B + 1 : Nat)) * sign isNeg)
      else k false
termination_by A B => (A, B)

/-- test/hammer/wrap.cc:53-57 (`validate`). -/
def validate : List ((Bool → Prog Int) → Prog Int) → (Bool → Prog Int) → Prog Int
  | [], k => k true
  | c :: cs, k => c fun good => if good then validate cs k else k false

/-- A library libref, with the template arguments of its multiplications (STARTY and STARTX,
test/hammer/multref.cc:49-51) and the slots through which its checks call. -/
structure Ref where
  y : Nat
  x : Nat
  mult : Nat → Nat → Lib × Addr
  add : Nat → Nat → Lib × Addr

/-- test/hammer/hammer.cc:60-111 (`main`) with test/hammer/addref.cc:59-61.  `mults` and `adds` are the libraries in
the order of the sets `checkFunctions`.  What it writes is left out. -/
def hammerMain (multinfo addinfo : Info) (Y X : Nat) (mults adds : List Ref) : Prog Int :=
  let multValidate isNeg k := validate (mults.map fun r => multCheck r.mult r.y isNeg r.x) k
  let addValidate isNeg k := validate (adds.map fun r => addCheck r.add X isNeg Y X) k
  multValidate false fun g1 => addValidate false fun g2 =>
    .event (multinfo.dowrap Y X "Multiplies") fun _ =>
      multValidate true fun g3 => addValidate false fun g4 =>
        .event (addinfo.dowrap Y X "Additions") fun _ =>
          multValidate true fun g5 => addValidate true fun g6 =>
            .ret (if g1 && g2 && g3 && g4 && g5 && g6 then 0 else -1)

end Gotcha.Tests
