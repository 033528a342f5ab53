import Verif.Spec.Calls
import Verif.Spec.Effects
/-
Two copies of GOTCHA in one process: two tools that each bring GOTCHA along, linked statically or under
different library names.  Every copy has its own variables; memory, page protections and link map are
those of the process.
-/
namespace Gotcha.Spec

/-- The process as a second copy of GOTCHA finds it when the first copy is in state `s`: its code and
handle variables are `env2`, its variables (src/tool.c:21-22, src/library_filters.c:20,
src/gotcha_utils.c:51-52 and the tables of src/tool.c) are untouched. -/
def Process.second (p : Process) (env2 : Env) (s : State) : Process :=
  { env := env2, U := p.U, P := p.P, libs := s.linkMap, mem := s.mem, wr := s.wr }

/-- The handle variables of the clients of a copy and its own. -/
def handlesOf (env : Env) (ops : List Op) : List HAddr :=
  (ops.flatMap tableOf).map UBinding.handle ++ [env.hDlopen, env.hDlsym, env.hLibcMain, env.hMain]

/-- The wrappers of the clients of a copy and its own. -/
def wrappersOf (env : Env) (ops : List Op) : List Addr :=
  (ops.flatMap tableOf).map UBinding.wrapper ++ (ownTable env).map UBinding.wrapper

/-- Two copies that belong to one process: page size and the kernel's answers are the same, and no
handle variable belongs to both. -/
structure Twins (env env2 : Env) (ops ops2 : List Op) : Prop where
  page : env2.page = env.page
  mprotect : env2.mprotect = env.mprotect
  apart : ∀ h ∈ handlesOf env ops, h ∉ handlesOf env2 ops2

/-- `Calls2 P H1 s1 s2 a path`: as `Calls`, with two copies in states `s1` and `s2`: a handle variable
in `H1` was filled in by the first copy and points to one of its bindings, any other to one of the
second copy's. -/
inductive Calls2 (P : Addr → Option HAddr) (H1 : List HAddr) (s1 s2 : State) : Addr → List Addr → Prop
  | stop {a} : P a = none → Calls2 P H1 s1 s2 a [a]
  | first {a h a' path} : P a = some h → h ∈ H1 → s1.getWrappee h = .ok a' → Calls2 P H1 s1 s2 a' path →
      Calls2 P H1 s1 s2 a (a :: path)
  | second {a h a' path} : P a = some h → h ∉ H1 → s2.getWrappee h = .ok a' → Calls2 P H1 s1 s2 a' path →
      Calls2 P H1 s1 s2 a (a :: path)

theorem Calls2.det {P H1 s1 s2 a p1 p2} (h1 : Calls2 P H1 s1 s2 a p1) (h2 : Calls2 P H1 s1 s2 a p2) :
    p1 = p2 := by
  induction h1 generalizing p2 with
  | stop h =>
    cases h2 with
    | stop _ => rfl
    | first h' _ _ _ => rw [h] at h'; cases h'
    | second h' _ _ _ => rw [h] at h'; cases h'
  | first h hH hw _ ih =>
    cases h2 with
    | stop h' => rw [h] at h'; cases h'
    | first h' _ hw' hc =>
      rw [h] at h'; cases h'
      rw [hw] at hw'; cases hw'
      rw [ih hc]
    | second h' hH' _ _ => rw [h] at h'; cases h'; exact absurd hH hH'
  | second h hH hw _ ih =>
    cases h2 with
    | stop h' => rw [h] at h'; cases h'
    | first h' hH' _ _ => rw [h] at h'; cases h'; exact absurd hH' hH
    | second h' _ hw' hc =>
      rw [h] at h'; cases h'
      rw [hw] at hw'; cases hw'
      rw [ih hc]

/-- A call that only meets wrappers of the first copy. -/
theorem Calls.first {P : Addr → Option HAddr} {H1 : List HAddr} {s1 s2 : State} {a path}
    (hc : Calls P s1 a path) (hp : ∀ b ∈ path, ∀ h, P b = some h → h ∈ H1) :
    Calls2 P H1 s1 s2 a path := by
  induction hc with
  | stop h => exact .stop h
  | cont h hw _ ih =>
    exact .first h (hp _ (List.mem_cons_self ..) _ h) hw (ih fun b hb => hp b (List.mem_cons_of_mem _ hb))

theorem Calls.second {P : Addr → Option HAddr} {H1 : List HAddr} {s1 s2 : State} {a path}
    (hc : Calls P s2 a path) (hp : ∀ b ∈ path, ∀ h, P b = some h → h ∉ H1) :
    Calls2 P H1 s1 s2 a path := by
  induction hc with
  | stop h => exact .stop h
  | cont h hw _ ih =>
    exact .second h (hp _ (List.mem_cons_self ..) _ h) hw (ih fun b hb => hp b (List.mem_cons_of_mem _ hb))

end Gotcha.Spec
