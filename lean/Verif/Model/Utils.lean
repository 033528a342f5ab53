import Verif.Model.Hash
import Verif.Model.LibC
import Verif.Model.Printf
/-
Model of the parts of src/gotcha_utils.c that the interception engine (`Model/Core`) leaves out:
the debug level (:26-46) and the doubly linked list of library records with `remove_library`
(:74-105); and of `gotcha_assert_fail` (src/libc_wrappers.c:260-277).
-/
namespace Gotcha.Utils
open Gotcha LibC

/-! ### debug level -/

/-- src/gotcha_utils.c:27 `debug_level` and :29 `debug_initialized` (both zero at start). -/
structure Debug where
  level : Int := 0
  initialized : Bool := false
  deriving DecidableEq, Repr

/-- src/gotcha_utils.c:28-46 `debug_init`, with the functions of src/libc_wrappers.c.  `envName` is the
address of the literal "GOTCHA_DEBUG" (src/gotcha_utils.h:43), `environ` the entries of `__environ`.
The message of :45 is not modelled. -/
def debugInit (m : Mem) (envName : Addr) (environ : List Addr) (d : Debug) : Except Fault Debug :=
  if d.initialized then .ok d
  else
    let d := { d with initialized := true }
    match getenv m envName environ with
    | .error f => .error f
    | .ok none => .ok d
    | .ok (some str) =>
      match atoi m str with
      | .error f => .error f
      | .ok v => .ok { d with level := if v ≤ 0 then 1 else v }

/-- src/gotcha_utils.h:57-64 `debug_printf(lvl, ..)`: is the message printed? -/
def debugShown (d : Debug) (lvl : Int) : Bool := decide (d.level ≥ lvl)

/-- src/gotcha_utils.h:66-73 `error_printf(..)`: is the message printed? -/
def errorShown (d : Debug) : Bool := decide (d.level ≠ 0)

/-! ### failed assertions -/

/-- src/libc_wrappers.c:260-277 `gotcha_assert_fail(s, file, line, function)`: what is written to
descriptor 2 before the process sends itself SIGABRT.  Strings are given by their contents before the
NUL, `junk` is the initial contents of `linestr`; a write is taken to be complete. -/
def assertFail (junk : List UInt8) (s file : Name) (line : BitVec 32) (function : Name) :
    Except Fault (List UInt8) :=
  match Printf.ulongToStr (line.setWidth 64) 0 (64 - 1) junk with
  | .error f => .error f
  | .ok (arr, r) =>
    match (if r = -1 then Printf.setAt arr 0 0 else .ok arr) with
    | .error f => .error f
    | .ok arr =>
      match Printf.cstrOf arr with
      | .error f => .error f
      | .ok linestr => .ok (file ++ nm ":" ++ linestr ++ nm ": " ++ function ++ nm ": Assertion `" ++ s ++
          nm "' failed.\n")

/-! ### the list of library records -/

/-- src/tool.h:41-47 `struct library_t`: the fields `map`, `next` and `prev` (`generation` and `flags`
are in `Model/Core`). -/
structure LibNode where
  map : Addr
  next : Option Nat
  prev : Option Nat
  deriving DecidableEq, Repr

/-- src/gotcha_utils.c:51-52: `library_table` and `library_list`.  `library_t *` is an index into the
append-only `store`; a freed record is `none` and touching it is a fault. -/
structure LibList where
  store : List (Option LibNode)
  head : Option Nat
  tab : HTable Addr Nat

namespace LibList

/-- `lib->field` for a pointer `i`. -/
def deref (l : LibList) (i : Nat) : Except Fault LibNode :=
  match l.store[i]? with
  | some (some n) => .ok n
  | _ => .error .outOfBounds

/-- An assignment to a field of `*i`. -/
def update (l : LibList) (i : Nat) (f : LibNode → LibNode) : Except Fault LibList :=
  match l.store[i]? with
  | some (some n) => .ok { l with store := l.store.set i (some (f n)) }
  | _ => .error .outOfBounds

/-- `if (p) p->field = ..`. -/
def updateIf (l : LibList) (p : Option Nat) (f : LibNode → LibNode) : Except Fault LibList :=
  match p with
  | some i => l.update i f
  | none => .ok l

/-- src/gotcha_utils.c:61-63 `link_map_cmp(stored, key) == 0`. -/
def same (key stored : Addr) : Bool := decide (¬ stored < key)

/-- src/gotcha_utils.c:74-81 `get_library`.  `hash` is `link_map_hash` (:55-59) on the loaded objects. -/
def get (hash : Addr → BitVec 32) (l : LibList) (map : Addr) : Except Fault (Option Nat) :=
  l.tab.lookup (hash map) (same map)

/-- src/gotcha_utils.c:83-94 `add_library`. -/
def add (hash : Addr → BitVec 32) (l : LibList) (map : Addr) : Except Fault (LibList × Nat) := do
  let i := l.store.length
  let l' : LibList := { l with store := l.store ++ [some { map, next := l.head, prev := none }] }
  let l' ← l'.updateIf l.head (fun n => { n with prev := some i })
  let t ← l'.tab.addto map i (hash map)
  .ok ({ l' with head := some i, tab := t }, i)

/-- src/gotcha_utils.c:96-105 `remove_library`.  The record is cleared and freed last; the pointers
`prev` and `next` are read anew at each use in C, the record does not change in between. -/
def remove (hash : Addr → BitVec 32) (l : LibList) (map : Addr) : Except Fault LibList := do
  match ← l.get hash map with
  | none => .ok l
  | some i =>
    let n ← l.deref i
    let l ← l.updateIf n.prev (fun x => { x with next := n.next })
    let n ← l.deref i
    let l ← l.updateIf n.next (fun x => { x with prev := n.prev })
    let h ← l.deref i
    let l : LibList := if l.head = some i then { l with head := h.next } else l
    let (t, _) ← l.tab.removefrom (hash map) (same map)
    .ok { l with tab := t, store := l.store.set i none }

/-- `get_library`, then `add_library` when absent (src/gotcha.c:105-109 and :364-368). -/
def ensure (hash : Addr → BitVec 32) (l : LibList) (map : Addr) : Except Fault (LibList × Nat) := do
  match ← l.get hash map with
  | some i => .ok (l, i)
  | none => l.add hash map

/-- The records reached from `library_list` through `next`. -/
def forward (l : LibList) : Nat → Option Nat → Except Fault (List Addr)
  | _, none => .ok []
  | 0, some _ => .error .diverge
  | fuel + 1, some i => do
    let n ← l.deref i
    let r ← l.forward fuel n.next
    .ok (n.map :: r)

/-- The records reached from record `p` through `prev`. -/
def backward (l : LibList) : Nat → Option Nat → Except Fault (List Addr)
  | _, none => .ok []
  | 0, some _ => .error .diverge
  | fuel + 1, some i => do
    let n ← l.deref i
    let r ← l.backward fuel n.prev
    .ok (n.map :: r)

end LibList

/-- A use of the library records. -/
inductive LibOp where
  /-- `get_library`, `add_library` when absent -/
  | ensure (map : Addr)
  /-- `remove_library` -/
  | remove (map : Addr)

/-- One use. -/
def libStep (hash : Addr → BitVec 32) (l : LibList) : LibOp → Except Fault LibList
  | .ensure a => do
    let (l, _) ← l.ensure hash a
    .ok l
  | .remove a => l.remove hash a

/-- A sequence of uses. -/
def libRun (hash : Addr → BitVec 32) : List LibOp → LibList → Except Fault LibList
  | [], l => .ok l
  | op :: ops, l => do
    let l ← libStep hash l op
    libRun hash ops l

end Gotcha.Utils
