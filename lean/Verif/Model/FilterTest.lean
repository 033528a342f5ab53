import Verif.Model.Tests
/-
The program of test/filter.  What it writes goes to standard error and is left out.
-/
namespace Gotcha.Tests
open Gotcha Spec

/-- test/filter/num.c:15 (`return_four`, unless it is wrapped), 17 (`return_five`, `n` = 5) and 18 (`return_six`,
`n` = 6), and test/filter/test_filter.c:23-25 (`wrong_return_four`, `n` = 5, `wrong_return_five`, `n` = 4 and
`wrong_return_six`, `n` = 3): they ignore their argument and return a number. -/
def returns (n : Int) (_ : Int) : Prog Int := .ret n

/-- test/filter/test_filter.c:29-30 and 39 (`func_four`, and the call of gotcha_wrap). -/
def wrapFour (w : Addr) (h : HAddr) : Op := .wrap [⟨nm "return_four", w, h⟩] (some (nm "test_filter_four"))

/-- test/filter/test_filter.c:31-32 and 50. -/
def wrapFive (w : Addr) (h : HAddr) : Op := .wrap [⟨nm "return_five", w, h⟩] (some (nm "test_filter_five"))

/-- test/filter/test_filter.c:33-34 and 62. -/
def wrapSix (w : Addr) (h : HAddr) : Op := .wrap [⟨nm "return_six", w, h⟩] (some (nm "test_filter_six"))

/-- test/filter/test_filter.c:49. -/
def filterNum : Op := .setFilter (.byName (some (nm "libnum3.so")))

/-- `if (result == GOTCHA_FUNCTION_NOT_FOUND) return -1;` (test/filter/test_filter.c:40-43, 51-54, 63-66). -/
def unlessMissing (o : Obs) (k : Prog Int) : Prog Int :=
  match o with
  | .ret .functionNotFound => .ret (-1)
  | _ => k

/-- test/filter/test_filter.c:36-73 (`main`, up to the call of gotcha_restore_library_filter_func), with the
value of had_error as its result; `off4`, `off5` and `off6` are the slots of the program `l` for the three
functions. -/
def filterBody (w4 w5 w6 : Addr) (h4 h5 h6 : HAddr) (l : Lib) (off4 off5 off6 : Addr) : Prog Int :=
  .event (wrapFour w4 h4) fun o => unlessMissing o <|
  .call (.slot l off4) 0 fun result =>
    let hadError : Int := if result ≠ 5 then -1 else 0
  .event filterNum fun _ => .event (wrapFive w5 h5) fun o => unlessMissing o <|
  .call (.slot l off5) 0 fun result =>
    let hadError : Int := if result ≠ 5 then -1 else hadError
  .event (.setFilter .last) fun _ => .event (wrapSix w6 h6) fun o => unlessMissing o <|
  .call (.slot l off6) 0 fun result =>
    let hadError : Int := if result ≠ 6 then -1 else hadError
  .event (.setFilter .all) fun _ => .ret hadError

/-- test/filter/test_filter.c:74: the table of the third tool is wrapped again, without a name. -/
def wrapSixAgain (w : Addr) (h : HAddr) : Op := .wrap [⟨nm "return_six", w, h⟩] none

/-- test/filter/test_filter.c:36-76 (`main`). -/
def filterMain (w4 w5 w6 : Addr) (h4 h5 h6 : HAddr) (l : Lib) (off4 off5 off6 : Addr) : Prog Int :=
  (filterBody w4 w5 w6 h4 h5 h6 l off4 off5 off6).andThen fun hadError =>
    .event (wrapSixAgain w6 h6) fun _ => .ret hadError

end Gotcha.Tests
