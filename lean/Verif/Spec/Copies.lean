import Verif.Spec.Calls
import Verif.Spec.Effects
/-
Any number of copies of GOTCHA in one process, used in any interleaving.  Every copy has its own
variables; memory, page protections and link map are those of the process.
-/
namespace Gotcha.Spec

variable {ι : Type} [DecidableEq ι]

/-- A process with a copy of GOTCHA for every `i`; `env i` is the code and the own handle variables of
that copy. -/
structure Copies (ι : Type) where
  env : ι → Env
  U : Lib → Prop
  P : Addr → Option HAddr
  libs : List Lib
  mem : Addr → Addr
  wr : Addr → Bool

/-- The process as copy `i` finds it. -/
def Copies.proc (c : Copies ι) (i : ι) : Process :=
  { env := c.env i, U := c.U, P := c.P, libs := c.libs, mem := c.mem, wr := c.wr }

/-- The variables of a copy (src/tool.c:21-22, src/library_filters.c:20, src/gotcha_utils.c:51-52), in the
process another copy has left in `t`. -/
def share (t s : State) : State := { s with linkMap := t.linkMap, mem := t.mem, wr := t.wr }

/-- One event of one copy.  `dlopen` of copy `i` is a dlopen that reaches the wrapper of copy `i`; `load`
and `unload` reach none. -/
def stepAll (env : ι → Env) (e : ι × Op) (S : ι → State) : Except Fault (ι → State) :=
  match stepOp (env e.1) e.2 (S e.1) with
  | .error f => .error f
  | .ok (s, _) => .ok fun k => if k = e.1 then s else share s (S k)

/-- Events in any interleaving. -/
def runAll (env : ι → Env) : List (ι × Op) → (ι → State) → Except Fault (ι → State)
  | [], S => .ok S
  | e :: es, S =>
    match stepAll env e S with
    | .error f => .error f
    | .ok S => runAll env es S

/-- What an event of another copy is for a copy: objects come and go without it seeing that. -/
def asSeen : Op → List Op
  | .dlopen ld => [.load ld]
  | .load ld => [.load ld]
  | .unload dead => [.unload dead]
  | _ => []

/-- The history of copy `i`. -/
def viewOf (i : ι) (evs : List (ι × Op)) : List Op :=
  evs.flatMap fun e => if e.1 = i then [e.2] else asSeen e.2

/-- No other copy ever patches a slot of an object in `good`: the filters the others have in force keep
them off (slots are compared by address). -/
def LeaveAlone (c : Copies ι) (i : ι) (good : Lib → Prop) (evs : List (ι × Op)) : Prop :=
  ∀ pre j op post, evs = pre ++ (j, op) :: post → j ≠ i → ∀ l, c.U l →
    Admitted (filterAfter (viewOf j (pre ++ [(j, op)]))) (libsAfter c.libs (viewOf j (pre ++ [(j, op)]))) l →
    ∀ q ∈ rlOf l, ∀ l', c.U l' → good l' → ∀ q' ∈ rlOf l', l'.addr + q'.1 ≠ l.addr + q.1

/-- `CallsOf P own S a path`: as `Calls`, where `own` tells which copy a handle variable was filled in by. -/
inductive CallsOf (P : Addr → Option HAddr) (own : HAddr → ι) (S : ι → State) : Addr → List Addr → Prop
  | stop {a} : P a = none → CallsOf P own S a [a]
  | cont {a h a' path} : P a = some h → (S (own h)).getWrappee h = .ok a' → CallsOf P own S a' path →
      CallsOf P own S a (a :: path)

theorem CallsOf.det {P : Addr → Option HAddr} {own : HAddr → ι} {S : ι → State} {a p1 p2}
    (h1 : CallsOf P own S a p1) (h2 : CallsOf P own S a p2) : p1 = p2 := by
  induction h1 generalizing p2 with
  | stop h =>
    cases h2 with
    | stop _ => rfl
    | cont h' _ _ => rw [h] at h'; cases h'
  | cont h hw _ ih =>
    cases h2 with
    | stop h' => rw [h] at h'; cases h'
    | cont h' hw' hc =>
      rw [h] at h'; cases h'
      rw [hw] at hw'; cases hw'
      rw [ih hc]

/-- A call that meets wrappers of one copy only. -/
theorem CallsOf.one {P : Addr → Option HAddr} {own : HAddr → ι} {S : ι → State} {i : ι} {a path}
    (hc : Calls P (S i) a path) (hp : ∀ b ∈ path, ∀ h, P b = some h → own h = i) :
    CallsOf P own S a path := by
  induction hc with
  | stop h => exact .stop h
  | cont h hw _ ih =>
    refine .cont h ?_ (ih fun b hb => hp b (List.mem_cons_of_mem _ hb))
    rw [hp _ (List.mem_cons_self ..) _ h]
    exact hw

end Gotcha.Spec
