import Verif.Model.Threads
import Verif.Spec.History
/-
What several threads ask GOTCHA for, and the serial histories their calls are compared with.
-/
namespace Gotcha.Spec

/-- What a thread does: `gotcha_wrap` with a table, or `dlopen` of an object that the loader then loads
(with whatever it needs). -/
inductive Job where
  | wrap (table : List UBinding) (tool : Option Name)
  | dlopen (ld : Load)

/-- The thread before its call. -/
def Job.thread : Job → Thread
  | .wrap table tool => .call table tool
  | .dlopen ld => .dlcall ld

/-- The call as an event of a serial history. -/
def Job.op : Job → Op
  | .wrap table tool => .wrap table tool
  | .dlopen ld => .dlopen ld

def Job.table : Job → List UBinding
  | .wrap table _ => table
  | .dlopen _ => []

def Job.loads : Job → List Load
  | .wrap _ _ => []
  | .dlopen ld => [ld]

/-- The objects it loads. -/
def Job.objects (j : Job) : List Lib := j.loads.flatMap Load.libs

/-- A dlopen that loads nothing: the object is there already. -/
def reopen : Op := .dlopen ⟨[], fun _ => none, fun _ => none⟩

/-- What a job comes down to when others may come in between, as a list of events: each binding is passed
to `gotcha_wrap` in a table of its own; the loader loads the object, and then it is opened. -/
def Job.parts : Job → List Op
  | .wrap table tool => table.map (fun u => .wrap [u] tool)
  | .dlopen ld => [.load ld, reopen]

/-- Of a log of events, each with the number of its thread: those of thread `i`. -/
def part (i : Nat) (log : List (Nat × Op)) : List Op :=
  (log.filter (fun e => e.1 == i)).map (fun e => e.2)

/-- The log as a serial history. -/
def asOps (log : List (Nat × Op)) : List Op := log.map (fun e => e.2)

/-- The thread is back. -/
def Back : Thread → Prop
  | .ret _ => True
  | .dlret => True
  | _ => False

/-- Whatever the order in which the threads load their objects after `ops`, the loader treats the process
as in every history. -/
def AnyOrder (p : Process) (ops : List Op) (jobs : List Job) : Prop :=
  ∀ lds : List Load, lds.Perm (jobs.flatMap Job.loads) → Events p False (ops ++ lds.map Op.load)

end Gotcha.Spec
