import Verif.Model.Threads
/-
The first calls of `gotcha_wrap`, made by several threads at the same time: `gotcha_init` tests and sets
`gotcha_initialized` without a lock.

Simplification: a thread is interrupted only between the parts of `gotcha_init` named here and those of
`gotcha_wrap` (Model/Threads).  `debug_init` (src/gotcha_utils.c:113) only reads the environment.  The
three tables are created in one part.
-/
namespace Gotcha

/-- Where a thread is in its call of `gotcha_wrap` (src/gotcha.c:402-491) with respect to `gotcha_init`
(src/gotcha_utils.c:107-116, called at src/gotcha.c:409): before it, past the test of
`gotcha_initialized` (:109), past `gotcha_initialized = 1` (:112), in the `gotcha_wrap` of `handle_libdl`
(src/gotcha_dl.c:190), or past `gotcha_init`. -/
inductive InitThread where
  | enter (table : List UBinding) (tool : Option Name)
  | checked (table : List UBinding) (tool : Option Name)
  | marked (table : List UBinding) (tool : Option Name)
  | libdl (th : Thread) (table : List UBinding) (tool : Option Name)
  | go (th : Thread)

/-- src/gotcha_utils.c:65-72 `setup_hash_tables`.  Whatever was in the three tables is lost. -/
def setupTables (env : Env) (s : State) : Except Fault State := do
  let lt ← HTable.create env.page 128
  let ft ← HTable.create env.page 4096
  let nt ← HTable.create env.page 128
  .ok { s with libTab := lt, funTab := ft, notFound := nt }

/-- src/gotcha_utils.c:107-116 `gotcha_init` inside `gotcha_wrap` (src/gotcha.c:402-491), the next part. -/
def stepInit (env : Env) : InitThread → State → Except Fault (State × InitThread)
  | .enter table tool, s =>
    if s.inited then .ok (s, .go (.call table tool)) else .ok (s, .checked table tool)
  | .checked table tool, s => .ok ({ s with inited := true }, .marked table tool)
  | .marked table tool, s => do
    let s ← setupTables env s
    .ok (s, .libdl (.call (dlTable env) (some (nm "gotcha"))) table tool)
  | .libdl (.ret _) table tool, s => .ok (s, .go (.call table tool))
  | .libdl th table tool, s => do
    let (s, th) ← stepThread env th s
    .ok (s, .libdl th table tool)
  | .go th, s => do
    let (s, th) ← stepThread env th s
    .ok (s, .go th)

/-- A schedule (src/gotcha_utils.c:107-116 and src/gotcha.c:402-491 in several threads): the number in the
list says which thread goes on. -/
def runInit (env : Env) : List Nat → List InitThread → State → Except Fault (State × List InitThread)
  | [], ts, s => .ok (s, ts)
  | i :: is, ts, s =>
    match ts[i]? with
    | none => runInit env is ts s
    | some t => do
      let (s, t) ← stepInit env t s
      runInit env is (ts.set i t) s

end Gotcha
