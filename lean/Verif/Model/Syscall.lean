import Verif.Model.Basic
/-
Model of the functions of src/libc_wrappers.c that do a system call and nothing else: `gotcha_write` (:181-183),
`gotcha_getpid`, `gotcha_gettid` (:294-296), `gotcha_open` (:307-329), `gotcha_mmap` (:331-337), `gotcha_close`
(:359), `gotcha_mprotect` (:361-363) and `gotcha_read` (:365-367).

The arguments have the types of the C prototypes; that `int`s go through 64-bit registers is not modelled.  What is at
the addresses passed is the kernel's state.
-/
namespace Gotcha.Sys

/-- What the kernel is asked. -/
inductive Req where
  | write (fd : BitVec 32) (buf : Addr) (count : BitVec 64)
  | read (fd : BitVec 32) (buf : Addr) (count : BitVec 64)
  | getpid
  | gettid
  | openFile (path : Addr) (flags mode : BitVec 32)
  | mmap (addr : Addr) (length : BitVec 64) (prot flags fd : BitVec 32) (offset : BitVec 64)
  | mprotect (addr : Addr) (length : BitVec 64) (prot : BitVec 32)
  | close (fd : BitVec 32)
  deriving DecidableEq

/-- The kernel: what a request does to it, and what is in the result register then. -/
abbrev Kernel (σ : Type) := σ → Req → σ × Int

/-- The kernel's state and `errno`. -/
structure St (σ : Type) where
  kernel : σ
  errno : Int

/-- The function `syscall` of libc: results from -4095 to -1 are error numbers. -/
def syscall {σ} (K : Kernel σ) (q : Req) (s : St σ) : St σ × Int :=
  let (k, r) := K s.kernel q
  if -4095 ≤ r ∧ r ≤ -1 then (⟨k, -r⟩, -1) else (⟨k, s.errno⟩, r)

/-- A call in the program; `mode` of `open` is there if the caller passes three arguments. -/
inductive Call where
  | write (fd : BitVec 32) (buf : Addr) (count : BitVec 64)
  | read (fd : BitVec 32) (buf : Addr) (count : BitVec 64)
  | getpid
  | gettid
  | openFile (path : Addr) (flags : BitVec 32) (mode : Option (BitVec 32))
  | mmap (addr : Addr) (length : BitVec 64) (prot flags fd : BitVec 32) (offset : BitVec 64)
  | mprotect (addr : Addr) (length : BitVec 64) (prot : BitVec 32)
  | close (fd : BitVec 32)
  deriving DecidableEq

/-- Returned values: of type `int` or `pid_t`, and of type `ssize_t` or `void *`. -/
inductive Val where
  | int (v : BitVec 32)
  | word (v : BitVec 64)
  deriving DecidableEq

/-- `O_CREAT` of fcntl.h. -/
def oCreat : BitVec 32 := 0x40

/-- src/libc_wrappers.c:307-329 `gotcha_open`; `none`: an argument is read that has not been passed. -/
def gotchaOpen {σ} (K : Kernel σ) (path : Addr) (flags : BitVec 32) (args : Option (BitVec 32)) (s : St σ) :
    Option (St σ × Val) :=
  let mode : Option (BitVec 32) := if flags &&& oCreat ≠ 0 then args else some 0
  match mode with
  | none => none
  | some m =>
    let (s, result) := syscall K (.openFile path flags m) s
    if result ≥ 0 then some (s, .int (BitVec.ofInt 32 result)) else some (s, .int (BitVec.ofInt 32 (-1)))

/-- `gotcha_write` (src/libc_wrappers.c:181-183), `gotcha_read` (src/libc_wrappers.c:365-367), `gotcha_getpid` and
`gotcha_gettid` (src/libc_wrappers.c:294-296), `gotcha_open`, `gotcha_mmap` (src/libc_wrappers.c:331-337),
`gotcha_mprotect` and `gotcha_close` (src/libc_wrappers.c:359-363). -/
def call {σ} (K : Kernel σ) (s : St σ) : Call → Option (St σ × Val)
  | .write fd buf count =>
    let (s, r) := syscall K (.write fd buf count) s
    some (s, .word (BitVec.ofInt 64 r))
  | .read fd buf count =>
    let (s, r) := syscall K (.read fd buf count) s
    some (s, .word (BitVec.ofInt 64 r))
  | .getpid =>
    let (s, r) := syscall K .getpid s
    some (s, .int (BitVec.ofInt 32 r))
  | .gettid =>
    let (s, r) := syscall K .gettid s
    some (s, .int (BitVec.ofInt 32 r))
  | .openFile path flags args => gotchaOpen K path flags args s
  | .mmap addr length prot flags fd offset =>
    let (s, r) := syscall K (.mmap addr length prot flags fd offset) s
    some (s, .word (BitVec.ofInt 64 r))
  | .mprotect addr length prot =>
    let (s, r) := syscall K (.mprotect addr length prot) s
    some (s, .int (BitVec.ofInt 32 r))
  | .close fd =>
    let (s, r) := syscall K (.close fd) s
    some (s, .int (BitVec.ofInt 32 r))

/-- Calls one after the other. -/
def calls {σ} (K : Kernel σ) : List Call → St σ → Option (St σ × List Val)
  | [], s => some (s, [])
  | c :: cs, s =>
    match call K s c with
    | none => none
    | some (s, v) =>
      match calls K cs s with
      | none => none
      | some (s, vs) => some (s, v :: vs)

end Gotcha.Sys
