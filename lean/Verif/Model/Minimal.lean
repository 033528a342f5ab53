import Verif.Spec.Program
/-
The example src/example/minimal: a tool that wraps the function retX of its own library, and a program that
calls it.
-/
namespace Gotcha.Minimal
open Gotcha Spec

/-- sampleLib.c:37 (`bindings`); `dog` is the address of dogRetX, `h` that of origRetX_handle
(sampleLib.c:21). -/
def bindings (dog : Addr) (h : HAddr) : List UBinding := [⟨nm "retX", dog, h⟩]

/-- sampleLib.c:40-43 (`sample_init`): its call of gotcha_wrap, whose result it ignores. -/
def sampleInit (dog : Addr) (h : HAddr) : Op :=
  .wrap (bindings dog h) (some (nm "gotcha_internal_sample_tool"))

/-- sampleLib.c:50 (`retX`). -/
def retX (x : Int) : Prog Int := .ret x

/-- sampleLib.c:57-61 (`dogRetX`).  Simplified: of what printf writes only the number is kept, and
gotcha_get_wrappee is asked again for the call instead of keeping its answer in a variable.  Adding 1 to
the greatest int is undefined. -/
def dogRetX (h : HAddr) (x : Int) : Prog Int :=
  .out x (.test h (.ret 0) (.call (.next h) x fun y => if y < 2147483647 then .ret (y + 1) else .undef))

/-- symbolLookup.c:25-30 (`main`); `off` in `l` is the slot of the program for retX.  A failing assert is
`undef`.  Simplified: sample_init is called in place, not through the slot of the program for it. -/
def main (dog : Addr) (h : HAddr) (l : Lib) (off : Addr) : Prog Int :=
  .event (sampleInit dog h) fun _ =>
    .call (.slot l off) 9 fun v => if v = 10 then .ret 0 else .undef

end Gotcha.Minimal
