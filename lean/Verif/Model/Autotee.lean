import Verif.Model.Basic
/-
Model of the example tool src/example/autotee/autotee.c: wrappers of the output functions that copy
what goes to stdout into another file.

* A channel is a FILE or a file descriptor.  The output functions of the C library are one operation:
  hand some bytes to a channel.  How many of them are accepted, and the value returned, is decided by
  the `Outside`, which may use the function, the channel, how often the channel was used before, and
  the bytes; it does not see the other channels.  What a FILE buffers counts as accepted.
* A format and its arguments are given by the text they stand for (`va_copy` makes both calls see the
  same arguments; `%n` is not modelled).  printf and vprintf are the fprintf family on stdout (C11
  7.21.6).
* The wrappees are the C library's functions (what GOTCHA hands out is the subject of `Model/Core`).
-/
namespace Gotcha.Autotee
open Gotcha

/-- A stream. -/
inductive File where
  | stdout
  /-- the stream in `tee_FILE` -/
  | tee
  | other (n : Nat)
  deriving DecidableEq, Repr

/-- Where bytes go. -/
inductive Chan where
  | file (f : File)
  | fd (n : Int)
  deriving DecidableEq, Repr

/-- The functions of the C library used: the fprintf family, fputs, puts, fwrite, write. -/
inductive Fn where
  | fmt | fputs | puts | fwrite | write
  deriving DecidableEq, Repr

/-- The number of bytes accepted and the return value of an output operation. -/
def Outside := Fn → Chan → Nat → List UInt8 → Nat × Int

/-- src/example/autotee/autotee.c:38 `tee_FILE`: NULL, an open stream, or a pointer to a stream that
was closed. -/
inductive TeeFile where
  | null | opened | closed
  deriving DecidableEq, Repr

/-- The channels (what they accepted, how often they were used) and the variables of the tool
(src/example/autotee/autotee.c:37-38). -/
structure St where
  out : Chan → List UInt8
  uses : Chan → Nat
  teeFILE : TeeFile
  teeFd : Int

/-- One output operation of the C library.  A closed stream must not be used (C11 7.21.3: the pointer
is indeterminate). -/
def io (O : Outside) (fn : Fn) (ch : Chan) (data : List UInt8) (st : St) : Except Fault (St × Int) :=
  if ch = .file .tee ∧ st.teeFILE ≠ .opened then .error .uninit
  else
    let r := O fn ch (st.uses ch) data
    .ok ({ st with out := upd st.out ch (st.out ch ++ data.take r.1),
                   uses := upd st.uses ch (st.uses ch + 1) }, r.2)

/-- An output call of the application. -/
inductive Call where
  | printf (text : List UInt8)
  | fprintf (f : File) (text : List UInt8)
  | vfprintf (f : File) (text : List UInt8)
  | vprintf (text : List UInt8)
  | write (fd : Int) (data : List UInt8)
  | puts (s : List UInt8)
  | fputs (s : List UInt8) (f : File)
  | fwrite (data : List UInt8) (f : File)

/-- The call without the tool. -/
def direct (O : Outside) : Call → St → Except Fault (St × Int)
  | .printf t, st => io O .fmt (.file .stdout) t st
  | .fprintf f t, st => io O .fmt (.file f) t st
  | .vfprintf f t, st => io O .fmt (.file f) t st
  | .vprintf t, st => io O .fmt (.file .stdout) t st
  | .write fd d, st => io O .write (.fd fd) d st
  | .puts s, st => io O .puts (.file .stdout) (s ++ [10]) st
  | .fputs s f, st => io O .fputs (.file f) s st
  | .fwrite d f, st => io O .fwrite (.file f) d st

/-- `if (tee_FILE) fn(.., tee_FILE)`: the copy made by a wrapper. -/
def copy (O : Outside) (fn : Fn) (data : List UInt8) (st : St) : Except Fault St :=
  if st.teeFILE = .null then .ok st
  else
    match io O fn (.file .tee) data st with
    | .error f => .error f
    | .ok (st, _) => .ok st

/-- src/example/autotee/autotee.c:97-114 `printf_wrapper`. -/
def printfWrapper (O : Outside) (text : List UInt8) (st : St) : Except Fault (St × Int) := do
  let st ← copy O .fmt text st
  io O .fmt (.file .stdout) text st

/-- src/example/autotee/autotee.c:116-135 `fprintf_wrapper`. -/
def fprintfWrapper (O : Outside) (f : File) (text : List UInt8) (st : St) :
    Except Fault (St × Int) := do
  if f ≠ .stdout then io O .fmt (.file f) text st
  else
    let st ← copy O .fmt text st
    io O .fmt (.file .stdout) text st

/-- src/example/autotee/autotee.c:137-149 `vfprintf_wrapper`. -/
def vfprintfWrapper (O : Outside) (f : File) (text : List UInt8) (st : St) :
    Except Fault (St × Int) := do
  if f ≠ .stdout then io O .fmt (.file f) text st
  else
    let st ← copy O .fmt text st
    io O .fmt (.file f) text st

/-- src/example/autotee/autotee.c:151-161 `vprintf_wrapper`. -/
def vprintfWrapper (O : Outside) (text : List UInt8) (st : St) : Except Fault (St × Int) := do
  let st ← copy O .fmt text st
  io O .fmt (.file .stdout) text st

/-- src/example/autotee/autotee.c:163-169 `write_wrapper`. -/
def writeWrapper (O : Outside) (fd : Int) (data : List UInt8) (st : St) : Except Fault (St × Int) := do
  if fd ≠ 1 then io O .write (.fd fd) data st
  else
    let st ← if st.teeFd ≠ -1 then do
        let (st, _) ← io O .write (.fd st.teeFd) data st
        .ok st
      else .ok st
    io O .write (.fd fd) data st

/-- src/example/autotee/autotee.c:171-179 `puts_wrapper`. -/
def putsWrapper (O : Outside) (s : List UInt8) (st : St) : Except Fault (St × Int) := do
  let st ← copy O .fputs s st
  let st ← copy O .fputs [10] st
  io O .puts (.file .stdout) (s ++ [10]) st

/-- src/example/autotee/autotee.c:181-186 `fputs_wrapper`. -/
def fputsWrapper (O : Outside) (s : List UInt8) (f : File) (st : St) : Except Fault (St × Int) := do
  if f ≠ .stdout then io O .fputs (.file f) s st
  else
    let st ← copy O .fputs s st
    io O .fputs (.file f) s st

/-- The conversion of a `size_t` to the `int` that a function returns, and back to what the caller of a
`size_t` function finds.  The caller looks at 64 bits of which the callee sets 32 only; the ABI says
nothing about the others, and the sign extension (the conversion of C) is taken here. -/
def narrow (r : Int) : Int := (BitVec.ofInt 32 r).toInt

/-- src/example/autotee/autotee.c:188-194 `fwrite_wrapper`; `data` are the `size * nmemb` bytes.  It
returns an `int` (src/example/autotee/autotee.c:47, 188) where fwrite returns a `size_t`. -/
def fwriteWrapper (O : Outside) (data : List UInt8) (f : File) (st : St) :
    Except Fault (St × Int) := do
  if f ≠ .stdout then
    let (st, r) ← io O .fwrite (.file f) data st
    .ok (st, narrow r)
  else
    let st ← copy O .fwrite data st
    let (st, r) ← io O .fwrite (.file f) data st
    .ok (st, narrow r)

/-- The call as intercepted (the table `iofuncs`, src/example/autotee/autotee.c:60-68). -/
def wrapped (O : Outside) : Call → St → Except Fault (St × Int)
  | .printf t => printfWrapper O t
  | .fprintf f t => fprintfWrapper O f t
  | .vfprintf f t => vfprintfWrapper O f t
  | .vprintf t => vprintfWrapper O t
  | .write fd d => writeWrapper O fd d
  | .puts s => putsWrapper O s
  | .fputs s f => fputsWrapper O s f
  | .fwrite d f => fwriteWrapper O d f

/-- A sequence of calls and the values they return. -/
def runCalls (f : Call → St → Except Fault (St × Int)) : List Call → St → Except Fault (St × List Int)
  | [], st => .ok (st, [])
  | c :: cs, st => do
    let (st, r) ← f c st
    let (st, rs) ← runCalls f cs st
    .ok (st, r :: rs)

/-- src/example/autotee/autotee.c:70-87 `init_autotee`.  `file` is the descriptor that fopen gets, none
if it fails; `wrapOk` tells whether gotcha_wrap returns GOTCHA_SUCCESS.  The priority set for another
tool name and the messages on stderr are left out. -/
def initAutotee (file : Option Int) (wrapOk : Bool) (st : St) : St × Int :=
  match file with
  | none => ({ st with teeFILE := .null }, -1)
  | some fd => ({ st with teeFILE := .opened, teeFd := fd }, if wrapOk then 0 else -1)

/-- src/example/autotee/autotee.c:89-95 `close_autotee`; `tee_FILE` keeps its value. -/
def closeAutotee (st : St) : Except Fault St :=
  match st.teeFILE with
  | .null => .ok st
  | .opened => .ok { st with teeFILE := .closed, teeFd := -1 }
  | .closed => .error .uninit

end Gotcha.Autotee
