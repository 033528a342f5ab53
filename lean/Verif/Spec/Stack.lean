import Verif.Model.Core
/-
What GOTCHA is supposed to do, without hash tables, linked lists, bindings, generations or GOTs: for
every function name a stack of frames (outermost first) and the real function under it.

The only things taken from the model are the types of the inputs (objects, binding tables) and the
per-object symbol lookup, which has its own specification (C49-C51).
-/
namespace Gotcha.Spec

/-- One tool's wrapper on the stack of a function. -/
structure Frame where
  tool : Name
  wrapper : Addr
  handle : HAddr
  deriving DecidableEq, Repr

/-- The abstract state. -/
structure Abs where
  inited : Bool
  mainWrapped : Bool
  /-- priority of every tool ever named -/
  prio : Name → Option Int
  /-- stack of wrappers, outermost first -/
  stack : Name → List Frame
  /-- the real function, once resolved -/
  real : Name → Option Addr
  libs : List Lib
  vdso : Option Addr

/-- Definition of `f` exported by an object. -/
def exportsAt (l : Lib) (f : Name) : Option Addr :=
  match Elf.exported l.img l.addr f with
  | .ok r => r
  | .error _ => none

/-- First definition of `f` in link-map order, the vdso excluded. -/
def firstDef (v : Option Addr) (ls : List Lib) (f : Name) : Option Addr :=
  ls.findSome? (fun l => if v = some l.lm then none else exportsAt l f)

/-- Insert `x` in front of the first element satisfying `q` (at the end if there is none). -/
def insertBefore {α : Type} (q : α → Bool) (x : α) : List α → List α
  | [] => [x]
  | y :: ys => if q y then x :: y :: ys else y :: insertBefore q x ys

/-- Priority of a tool; tools start with −1. -/
def Abs.prioOf (A : Abs) (t : Name) : Int := (A.prio t).getD (-1)

/-- A tool is registered the first time it is named. -/
def Abs.touch (A : Abs) (t : Name) : Abs :=
  { A with prio := upd A.prio t (some (A.prioOf t)) }

/-- The definition of `f` calls should finally reach. -/
def Abs.resolve (A : Abs) (f : Name) : Option Addr := firstDef A.vdso A.libs f

/-- One binding of a table is put on its stack: below the frames of higher or equal priority, above
those of lower priority; the first one of a function resolves the real function.  `p` is the
priority of the tool.  The result says whether the function had to be resolved and could not be. -/
def Abs.push (A : Abs) (tool : Name) (p : Int) (u : UBinding) : Abs × Bool :=
  let fr : Frame := ⟨tool, u.wrapper, u.handle⟩
  match A.stack u.name with
  | [] =>
    ({ A with stack := upd A.stack u.name [fr], real := upd A.real u.name (A.resolve u.name) },
     (A.resolve u.name).isNone)
  | st =>
    ({ A with stack := upd A.stack u.name (insertBefore (fun g => A.prioOf g.tool < p) fr st) },
     false)

/-- A whole table, in order; counts the functions that could not be resolved.  `om` is what happens
before a binding of "main" is put on its stack. -/
def Abs.pushAll (om : Abs → Abs) (tool : Name) : List UBinding → Abs → Abs × Nat
  | [], A => (A, 0)
  | u :: us, A =>
    let p := A.prioOf tool
    let A1 := if u.name = nm "main" then om A else A
    let r := A1.push tool p u
    let r2 := Abs.pushAll om tool us r.1
    (r2.1, r2.2 + if r.2 then 1 else 0)

/-- gotcha_wrap. -/
def Abs.wrap (om : Abs → Abs) (tbl : List UBinding) (tool : Option Name) (A : Abs) : Abs × RetCode :=
  let t := tool.getD (nm "[UNSPECIFIED]")
  let r := Abs.pushAll om t tbl (A.touch t)
  (r.1, if r.2 > 0 then .functionNotFound else .success)

/-- Wrapping main for the first time makes GOTCHA wrap `__libc_start_main` and `main` itself. -/
def Abs.onMain (env : Env) (A : Abs) : Abs :=
  if A.mainWrapped then A
  else
    let A := { A with mainWrapped := true }
    let A := (Abs.wrap id (libcMainTable env) (some (nm "gotcha")) A).1
    (Abs.wrap id (mainTable env) (some (nm "gotcha")) A).1

/-- First use of GOTCHA: it wraps dlopen and dlsym itself. -/
def Abs.init (env : Env) (A : Abs) : Abs :=
  if A.inited then A
  else (Abs.wrap (Abs.onMain env) (dlTable env) (some (nm "gotcha"))
    { A with inited := true, vdso := env.vdsoOf A.libs }).1

/-- An intercepted dlopen: new objects, and every pending function is looked for again. -/
def Abs.dlopen (A : Abs) (libs : List Lib) : Abs :=
  let A1 := { A with libs := A.libs ++ libs }
  { A1 with real := fun f =>
      if A.stack f ≠ [] ∧ A.real f = none then A1.resolve f else A.real f }

/-- One event and what its caller sees. -/
def Abs.step (env : Env) : Op → Abs → Abs × Obs
  | .wrap tbl tool, A =>
    let r := Abs.wrap (Abs.onMain env) tbl tool (A.init env)
    (r.1, .ret r.2)
  | .setPriority t v, A =>
    let A := A.init env
    ({ A with prio := upd A.prio t (some v) }, .unit)
  | .getPriority t, A =>
    let A := A.init env
    (A, .prio (A.prio t))
  | .setFilter _, A => (A, .unit)
  | .dlopen ld, A =>
    if A.inited then (A.dlopen ld.libs, .unit) else ({ A with libs := A.libs ++ ld.libs }, .unit)
  | .load ld, A => ({ A with libs := A.libs ++ ld.libs }, .unit)
  | .unload dead, A => ({ A with libs := A.libs.filter (fun l => !dead l.lm) }, .unit)

def Abs.run (env : Env) : List Op → Abs → Abs × List Obs
  | [], A => (A, [])
  | op :: ops, A =>
    let r := A.step env op
    let r2 := Abs.run env ops r.1
    (r2.1, r.2 :: r2.2)

/-- Before the first use of GOTCHA. -/
def Abs.start (libs : List Lib) : Abs :=
  { inited := false, mainWrapped := false, prio := fun _ => none, stack := fun _ => [],
    real := fun _ => none, libs, vdso := none }

end Gotcha.Spec
