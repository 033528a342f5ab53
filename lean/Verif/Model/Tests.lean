import Verif.Spec.Program
/-
Programs of the project's own test suite: stack, ppc_stress_multi_module, function_ptr, priority, dispatcher
and dlopen.  Of what they write, standard output is kept (of printf, the number); what goes to standard error
is left out.  `fprintf` and the like are not calls through slots here.
-/
namespace Gotcha.Tests
open Gotcha Spec

/-! ### stack -/

/-- test/stack/tool1.c:39-48 (`init_tool1`, its call of gotcha_wrap), test/stack/tool2.c:39-49, and
test/ppc_stress_multi_module/tool1.c:42-51; `w` is the address of retX_wrapper, `h` that of origRetX_handle. -/
def initTool (tool : String) (w : Addr) (h : HAddr) : Op := .wrap [⟨nm "retX", w, h⟩] (some (nm tool))

/-- What `init_tool1` returns (test/stack/tool1.c:43-47). -/
def initResult : Obs → Int
  | .ret .success => 0
  | _ => -1

/-- test/stack/lib1.c:16 and test/ppc_stress_multi_module/tool2.c:26 (`retX`). -/
def retX (x : Int) : Prog Int := .ret x

/-- test/stack/tool1.c:33-37 (`retX_wrapper`, `k` = 1), test/stack/tool2.c:33-37 (`k` = 2) and
test/ppc_stress_multi_module/tool1.c:36-40 (`k` = 15, the sum of storage1test and storage2test).  Of printf
the address is kept.  Simplified: signed overflow is `undef` above the greatest int only. -/
def retXWrapper (h : HAddr) (k x : Int) : Prog Int :=
  .look (.next h) fun orig => .out orig.toNat
    (if orig ≠ 0 then .call (.fixed orig) x fun y => if y + k ≤ 2147483647 then .ret (y + k) else .undef
      else .ret 0)

/-- test/stack/app.c:28-38 (`main`); `off` in `l` is its slot for retX.  Simplified: init_tool1 and init_tool2
are called in place, not through slots. -/
def stackMain (w1 w2 : Addr) (h1 h2 : HAddr) (l : Lib) (off : Addr) : Prog Int :=
  .event (initTool "tool1" w1 h1) fun _ => .event (initTool "tool2" w2 h2) fun o =>
    if initResult o ≠ 0 then .ret (-1)
    else .call (.slot l off) 10 fun result => .out result (if result = 13 then .ret 0 else .ret 1)

/-- test/ppc_stress_multi_module/app.c:27-36 (`main`).  Simplified as stackMain. -/
def stressMain (w : Addr) (h : HAddr) (l : Lib) (off : Addr) : Prog Int :=
  .event (initTool "tool1" w h) fun o =>
    if initResult o ≠ 0 then .ret (-1)
    else .call (.slot l off) 10 fun result => .out result (if result = 25 then .ret 0 else .ret 1)

/-! ### function_ptr -/

/-- test/function_ptr/num.c:16 (`return_four`), test/dlopen/num.c:18-21. -/
def returnFour (_ : Int) : Prog Int := .ret 3

/-- test/function_ptr/test_function_ptr.c:8, test/dlopen/test_dlopen.c:34 (`correct_return_four`). -/
def correctFour (_ : Int) : Prog Int := .ret 4

/-- test/function_ptr/test_function_ptr.c:11-12,20 (`funcs`, and the call of gotcha_wrap). -/
def ptrWrap (w : Addr) (h : HAddr) : Op := .wrap [⟨nm "return_four", w, h⟩] (some (nm "dlopen_test"))

/-- test/function_ptr/test_function_ptr.c:13-32 (`main`); `&return_four` is read from the slot `off` of `l`. -/
def ptrMain (w : Addr) (h : HAddr) (l : Lib) (off : Addr) : Prog Int :=
  .look (.slot l off) fun fp => .call (.fixed fp) 0 fun result =>
    if result ≠ 3 then .ret (-1)
    else .event (ptrWrap w h) fun o =>
      match o with
      | .ret .functionNotFound => .ret (-1)
      | _ => .look (.slot l off) fun fp2 => .call (.fixed fp2) 0 fun result =>
        if result ≠ 4 then .ret (-1) else .ret 0

/-! ### priority -/

/-- The values of this test: ints, and the text in a buffer. -/
inductive Val where
  | int (n : Int)
  | buf (s : List Char)
  deriving DecidableEq, Repr

/-- The digit "%d" writes for 1, 2 and 3. -/
def digit : Nat → Char
  | 1 => '1'
  | 2 => '2'
  | _ => '3'

/-- What tool `i` appends: test/priority/tool1.c:35, tool2.c:35, tool3.c:35; and what "t%d=>" writes
(test/priority/app.c:76). -/
def tag (i : Nat) : List Char := ['t', digit i, '=', '>']

/-- test/priority/lib1.c:16 (`retX`). -/
def retBuf (x : Val) : Prog Val := .ret x

/-- test/priority/tool1.c:33-38 (`retX_wrapper`), and tool2.c, tool3.c:33-38.  The buffer of 15 bytes
(test/priority/app.c:33) is passed along as a value, strcat past its end is `undef`; if there is nothing to call
the buffer keeps its text. -/
def bufWrapper (h : HAddr) (i : Nat) : Val → Prog Val
  | .buf s => .look (.next h) fun orig =>
      if s.length + 4 < 15 then
        if orig ≠ 0 then .call (.fixed orig) (.buf (s ++ tag i)) .ret else .ret (.buf (s ++ tag i))
      else .undef
  | .int _ => .undef

/-- test/priority/app.c:49-57, one comparison: elements `k` and `k + 1` of `in` and `indices` are exchanged if the
first is not greater. -/
def exch (a b : Int × Nat) : (Int × Nat) × (Int × Nat) := if a.1 ≤ b.1 then (b, a) else (a, b)

/-- test/priority/app.c:48-58, the inner loop. -/
def bubble : (Int × Nat) × (Int × Nat) × (Int × Nat) → (Int × Nat) × (Int × Nat) × (Int × Nat)
  | (a, b, c) => ((exch a b).1, (exch (exch a b).2 c).1, (exch (exch a b).2 c).2)

/-- test/priority/app.c:66-78 (`get_expected_result`) with app.c:40-62 (`bubble3`). -/
def expected (p1 p2 p3 : Int) : List Char :=
  match bubble (bubble (bubble ((p1, 1), (p2, 2), (p3, 3)))) with
  | (a, b, c) => tag a.2 ++ tag b.2 ++ tag c.2

/-- test/priority/app.c:79-106 (`main`), with the priorities it reads from the environment; `fail` is 1 for
whatever strncmp returns that is not 0.  Simplified as stackMain. -/
def prioMain (p1 p2 p3 : Int) (w1 w2 w3 : Addr) (h1 h2 h3 : HAddr) (l : Lib) (off : Addr) : Prog Val :=
  .event (.setPriority (nm "tool1") p1) fun _ => .event (.setPriority (nm "tool2") p2) fun _ =>
    .event (.setPriority (nm "tool3") p3) fun _ =>
    .event (initTool "tool1" w1 h1) fun _ => .event (initTool "tool2" w2 h2) fun _ =>
    .event (initTool "tool3" w3 h3) fun o =>
      if initResult o ≠ 0 then .ret (.int (-1))
      else .call (.slot l off) (.buf []) fun str =>
        if str = .buf (expected p1 p2 p3) then .ret (.int 0) else .ret (.int 1)

/-! ### dispatcher -/

/-- test/dispatcher/main.c:48-51,54 (`bindings`, and the call of gotcha_wrap). -/
def dispWrap (wf wb : Addr) (hf hb : HAddr) : Op :=
  .wrap [⟨nm "foo", wf, hf⟩, ⟨nm "bar", wb, hb⟩] (some (nm "test"))

/-- test/dispatcher/main.c:26-35 (`do_foo`), main.c:37-46 (`do_bar`). -/
def doIt (h : HAddr) (x : Int) : Prog Int := .look (.next h) fun orig => .call (.fixed orig) x .ret

/-- test/dispatcher/libdispatcher.c:45-55 (`foo`) with 30-43 (`dispatch_init`); `ld` is what loading libimpl.so
does, `n` the handle of it, and `who` an address in libdispatcher.  A failing assert is `undef`.  Simplified:
this program calls foo of libdispatcher once, so that pthread_once runs dispatch_init in place; that dlopen fails
is left out; of the operands of + the left one is called first. -/
def dispFoo (dl : List Lib → RealDl) (ld : Load) (n : Nat) (who : Addr) (x : Int) : Prog Int :=
  .event (.dlopen ld) fun _ =>
    .look (.sym dl (.other n) (nm "foo") who) fun implFoo => if implFoo = 0 then .undef else
    .look (.sym dl (.other n) (nm "bar") who) fun implBar => if implBar = 0 then .undef else
    .call (.fixed implBar) x fun _ =>
    .call (.fixed implBar) x fun b => .call (.fixed implFoo) x fun f => .ret (b + f)

/-- test/dispatcher/libimpl.c:19-24 (`foo`). -/
def implFoo (_ : Int) : Prog Int := .ret 42

/-- test/dispatcher/libimpl.c:26-31 (`bar`). -/
def implBar (_ : Int) : Prog Int := .ret 23

/-- test/dispatcher/main.c:53-58 (`main`). -/
def dispMain (wf wb : Addr) (hf hb : HAddr) (l : Lib) (off : Addr) : Prog Int :=
  .event (dispWrap wf wb hf hb) fun _ => .call (.slot l off) 0 fun y => .out y (.ret 0)

/-! ### dlopen -/

/-- test/dlopen/test_dlopen.c:47-50,62 (`funcs`, and the call of gotcha_wrap). -/
def dlWrap (w4 w5 w6 : Addr) (h4 h5 h6 : HAddr) : Op :=
  .wrap [⟨nm "return_four", w4, h4⟩, ⟨nm "return_five", w5, h5⟩, ⟨nm "return_six", w6, h6⟩]
    (some (nm "dlopen_test"))

/-- test/dlopen/test_dlopen.c:35 (`correct_return_five`). -/
def correctFive (_ : Int) : Prog Int := .ret 5

/-- test/dlopen/test_dlopen.c:36 (`correct_return_six`). -/
def correctSix (_ : Int) : Prog Int := .ret 6

/-- test/dlopen/num.c:23 (`test_return_five`); `off` in `num` is its slot for return_five. -/
def testFive (num : Lib) (off : Addr) (x : Int) : Prog Int := .call (.slot num off) x .ret

/-- test/dlopen/test_dlopen.c:76-82 (and 101-107, 112-118, 127-133, 146-152): dlsym finds a function that
returns `want`; otherwise had_error is set. -/
def finds (dl : List Lib → RealDl) (hnd : DlHandle) (f : String) (who : Addr) (want err : Int)
    (k : Int → Prog Int) : Prog Int :=
  .look (.sym dl hnd (nm f) who) fun a =>
    if a = 0 then k (-1) else .call (.fixed a) 0 fun y => if y ≠ want then k (-1) else k err

/-- test/dlopen/test_dlopen.c:85-91: the same without a test for NULL, which it is undefined to call. -/
def calls (dl : List Lib → RealDl) (hnd : DlHandle) (f : String) (who : Addr) (want err : Int)
    (k : Int → Prog Int) : Prog Int :=
  .look (.sym dl hnd (nm f) who) fun a =>
    if a = 0 then .undef else .call (.fixed a) 0 fun y => if y ≠ want then k (-1) else k err

/-- test/dlopen/test_dlopen.c:119-125 (and 135-141, 153-158): dlsym finds nothing; otherwise had_error is set. -/
def lacks (dl : List Lib → RealDl) (hnd : DlHandle) (f : String) (who : Addr) (err : Int)
    (k : Int → Prog Int) : Prog Int :=
  .look (.sym dl hnd (nm f) who) fun a => if a ≠ 0 then k (-1) else k err

/-- test/dlopen/test_dlopen.c:52-160 (`main`); `ld1` and `ld2` are what loading libnum.so and libnum2.so does,
`n1` and `n2` the handles of them, `n0` is RTLD_DEFAULT, `who` an address in the program.  Simplified: that
dlopen fails is left out. -/
def dlMain (w4 w5 w6 : Addr) (h4 h5 h6 : HAddr) (dl : List Lib → RealDl) (ld1 ld2 : Load) (n0 n1 n2 : Nat)
    (who : Addr) : Prog Int :=
  .event (dlWrap w4 w5 w6 h4 h5 h6) fun o =>
    match o with
    | .ret .functionNotFound =>
      .event (.dlopen ld1) fun _ =>
      finds dl (.other n1) "return_four" who 4 0 fun e =>
      calls dl (.other n1) "test_return_five" who 5 e fun e =>
      .event (.dlopen ld2) fun _ =>
      finds dl (.other n2) "return_six" who 6 e fun e =>
      finds dl (.other n0) "return_four" who 4 e fun e =>
      lacks dl (.other n0) "test_return_five" who e fun e =>
      finds dl (.other n0) "return_six" who 6 e fun e =>
      lacks dl (.other n0) "return_dummy" who e fun e =>
      finds dl .next "test_return_five" who 5 e fun e =>
      lacks dl .next "return_dummy" who e fun e =>
      .ret e
    | _ => .ret (-1)

end Gotcha.Tests
