import Verif.Spec.Program
/-
Programs of the test suite: symver and wrap_main, and how a program whose main function is wrapped starts.
-/
namespace Gotcha.Tests
open Gotcha Spec

/-! ### symver -/

/-- test/symver/retX_new.c:17-18 (`retX_new`, `retX@@GOTCHA_2`). -/
def retXNew (x : Int) : Prog Int := .ret x

/-- test/symver/retX_old.c:18-19 (`retX_old`, `retX@GOTCHA_1`).  Simplified: no overflow for the smallest int. -/
def retXOld (x : Int) : Prog Int := .ret (-x)

/-- test/symver/test_symver.c:36-40 (`dogRetX`).  Of printf the number is kept.  Simplified: no overflow. -/
def dogRetX (h : HAddr) (x : Int) : Prog Int :=
  .look (.next h) fun orig => .out x (if orig ≠ 0 then .call (.fixed orig) x fun y => .ret (y + 1) else .ret 0)

/-- test/symver/test_symver.c:27-28,31-34 (`bindings`, `wrap_init`); `f` is the name retX. -/
def symverWrap (f : Name) (w : Addr) (h : HAddr) : Op := .wrap [⟨f, w, h⟩] (some (nm "symbol_version_test"))

/-- test/symver/test_symver.c:42-47 (`main`); a failing assert is `undef`. -/
def symverMain (f : Name) (w : Addr) (h : HAddr) (l : Lib) (off : Addr) : Prog Int :=
  .event (symverWrap f w h) fun _ => .call (.slot l off) 9 fun checkVal =>
    if checkVal = 10 then .ret 0 else .undef

/-! ### how a program starts -/

/-- src/translations.c:35-46 `gotcha_internal_libc_start_main`; `pack m a` stands for the arguments of
`__libc_start_main`, of which `m` is the main function; its own `main_arg` is not used. -/
def startMain {V A : Type} (env : Env) (pack : Addr → A → V) (a : A) : Prog V :=
  .look (.next env.hLibcMain) fun underlyingLibcMain => .look (.next env.hMain) fun underlyingMain =>
    .call (.fixed underlyingLibcMain) (pack underlyingMain a) .ret

/-- src/translations.c:29-33 `gotcha_internal_main`. -/
def internalMainProg {V : Type} (env : Env) (x : V) : Prog V :=
  .look (.next env.hMain) fun underlyingMain => .call (.fixed underlyingMain) x .ret

/-- What src/translations.c:44-45 calls, the C library's `__libc_start_main`: it calls the main function it is
given with the other arguments.  Simplified: that is all it does, and the status passed to exit is its result. -/
def libcStart {V A : Type} (arg : A → V) (m : Addr) (a : A) : Prog V := .call (.fixed m) (arg a) .ret

/-! ### wrap_main -/

/-- The lines that the test writes. -/
inductive Line where
  | constructor
  | wrapperMain
  | arg (i : Nat) (s : Name)
  | mainMain
  | returning (n : Int)
  deriving DecidableEq

/-- The values of this test: ints, the arguments of `__libc_start_main`, argv, and lines. -/
inductive SVal where
  | int (n : Int)
  | start (main : Addr) (argv : List Name)
  | argv (s : List Name)
  | line (l : Line)
  deriving DecidableEq

/-- test/wrap_main/lib.c:13-15. -/
def printArgs : Nat → List Name → Prog SVal → Prog SVal
  | _, [], k => k
  | i, s :: ss, k => .out (.line (.arg i s)) (printArgs (i + 1) ss k)

/-- test/wrap_main/lib.c:8-19 (`couldnt_find_a_better_main`). -/
def betterMain (h : HAddr) : SVal → Prog SVal
  | .argv av => .out (.line .wrapperMain) (.look (.next h) fun orig => printArgs 0 av
      (.call (.fixed orig) (.argv av) fun
        | .int n => .out (.line (.returning (n - 1))) (.ret (.int (n - 1)))
        | _ => .undef))
  | _ => .undef

/-- test/wrap_main/lib.c:7 (`getX`) once the constructor has counted `x` up (lib.c:24). -/
def getX (_ : SVal) : Prog SVal := .ret (.int 1)

/-- test/wrap_main/app.c:4-7 (`main`); `off` in `l` is its slot for getX. -/
def appMain (l : Lib) (off : Addr) : SVal → Prog SVal
  | .argv _ => .out (.line .mainMain) (.call (.slot l off) (.int 0) .ret)
  | _ => .undef

/-- test/wrap_main/lib.c:20-21,26 (`actions`, and the call of gotcha_wrap). -/
def mainWrap (w : Addr) (h : HAddr) : Op := .wrap [⟨nm "main", w, h⟩] (some (nm "test_tool"))

/-- test/wrap_main/lib.c:23-27 (`phnglui`), run by the loader, and then the start-up code of test/wrap_main/app.c,
which calls `__libc_start_main` through the slot `o` of `l` with the program's own main `m` and argv. -/
def wrapMainStart (w : Addr) (h : HAddr) (l : Lib) (o m : Addr) (av : List Name) : Prog SVal :=
  .out (.line .constructor) (.event (mainWrap w h) fun _ => .call (.slot l o) (.start m av) .ret)

end Gotcha.Tests
