/-
Outcomes that the C code can run into and that are not ordinary results.  Undefined
behaviour, faults and divergence are never assumed away: every modelled function that can
reach one of them returns `Except Fault _`.
-/
namespace Gotcha

/-- Abnormal outcomes of the modelled C code (no single C line: this is the model's
universe of undefined behaviour, hardware faults and non-termination). -/
inductive Fault where
  /-- dereference of a NULL pointer -/
  | nullDeref
  /-- integer division or remainder by zero -/
  | divZero
  /-- access outside an object -/
  | outOfBounds
  /-- use of an indeterminate (never written) value -/
  | uninit
  /-- write to a page that is not writable (SIGSEGV) -/
  | segv
  /-- a loop that never terminates -/
  | diverge
  /-- the process is terminated by the library (`exit`) -/
  | exit
  /-- signed integer overflow -/
  | intOverflow
  deriving DecidableEq, Repr

/-- A machine address (`void *`, `ElfW(Addr)` on LP64). -/
abbrev Addr := BitVec 64

/-- The contents of a C string, without the terminating NUL.  The model assumes that strings
handed to GOTCHA are not modified while GOTCHA holds a pointer to them
(docs/api.rst: "GOTCHA does not create a copy of the binding functions and is the
responsibility of the user to maintain this binding"). -/
abbrev Name := List UInt8

/-- Name literals. -/
def nm (s : String) : Name := s.toUTF8.toList

/-- Update of a function at one point. -/
def upd {α β : Type} [DecidableEq α] (m : α → β) (k : α) (v : β) : α → β :=
  fun x => if x = k then v else m x

@[simp] theorem upd_self {α β : Type} [DecidableEq α] (m : α → β) (k : α) (v : β) :
    upd m k v k = v := by simp [upd]

theorem upd_ne {α β : Type} [DecidableEq α] (m : α → β) {k x : α} (v : β) (h : x ≠ k) :
    upd m k v x = m x := by simp [upd, h]

end Gotcha
