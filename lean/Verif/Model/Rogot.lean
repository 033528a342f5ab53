import Verif.Model.Autotee
/-
The test rogot: test/rogot/autotee.c is src/example/autotee/autotee.c but for `close_autotee`, and the two programs
test_autotee.c are the same.
-/
namespace Gotcha.Autotee
open Gotcha

/-- test/rogot/autotee.c:89-99 `close_autotee`: here `tee_FILE` is set to NULL. -/
def closeRogot (st : St) : Except Fault St :=
  match st.teeFILE with
  | .null => .ok st
  | .opened => .ok { st with teeFILE := .null, teeFd := -1 }
  | .closed => .error .uninit

/-- test/rogot/test_autotee.c:24-48 (`main`), with any calls before `init_autotee`, between it and `close_autotee`, and
afterwards: the final state, the values that the calls returned, and the exit status. -/
def teeMain (O : Outside) (close : St → Except Fault St) (file : Option Int) (wrapOk : Bool)
    (before between after : List Call) (st : St) : Except Fault (St × List Int × Int) := do
  let (st, r1) ← runCalls (direct O) before st
  let (st, result) := initAutotee file wrapOk st
  if result ≠ 0 then .ok (st, r1, -1)
  else
    let (st, r2) ← runCalls (wrapped O) between st
    let st ← close st
    let (st, r3) ← runCalls (wrapped O) after st
    .ok (st, r1 ++ r2 ++ r3, 0)

/-- The bytes of a text (test/rogot/test_autotee.c:33-46). -/
def txt (s : String) : List UInt8 := s.toUTF8.toList

/-- test/rogot/test_autotee.c:27-28. -/
def teeBefore : List Call :=
  [.printf (txt "Every stdout print after this line should also appear in tee.out:\n")]

/-- test/rogot/test_autotee.c:33-42; stream 2 is stderr. -/
def teeBetween : List Call :=
  [.printf (txt "First line\n"), .printf (txt "Second line\n"), .fprintf .stdout (txt "Third line\n"),
    .fprintf .stdout (txt "Forth line\n"), .puts (txt "Fifth line"), .fputs (txt "Sixth ") .stdout,
    .fputs (txt "line\n") .stdout, .fwrite (txt "Seventh line\n") .stdout,
    .fprintf (.other 2) (txt "Eighth line is stderr and should not appear in in tee.out\n")]

/-- test/rogot/test_autotee.c:44-45. -/
def teeAfter : List Call := [.printf (txt "Ninth line is after close and should not appear in tee.out\n")]

end Gotcha.Autotee
