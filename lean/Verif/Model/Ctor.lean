import Verif.Model.Core
/-
dlopen calls whose new objects have constructors that use GOTCHA, or dlopen, themselves.
-/
namespace Gotcha

/-- An event, or a call of dlopen during which the constructors of the new objects cause events. -/
inductive Ev where
  | op (o : Op)
  | dlopen (ld : Load) (ctors : List Ev)

mutual
/-- src/gotcha_dl.c:137-152 `dlopen_wrapper`: the real dlopen (:142) puts the new objects on the link
map, relocates them and then runs their constructors; `per_binding` and `update_all_library_gots` come
after it.  Before GOTCHA is initialised the call goes straight to the loader.  Simplification: all
objects are relocated before the first constructor runs, as glibc does. -/
def stepEv (env : Env) : Ev → State → Except Fault State
  | .op o, s => do
    let r ← stepOp env o s
    .ok r.1
  | .dlopen ld ctors, s =>
    if s.inited then do
      let _ ← s.getWrappee env.hDlopen
      let s ← runEvs env ctors (s.load ld)
      s.afterDlopen env
    else runEvs env ctors (s.load ld)

/-- A history of such events (cf. `run`; src/gotcha_dl.c:137-152). -/
def runEvs (env : Env) : List Ev → State → Except Fault State
  | [], s => .ok s
  | e :: es, s => do
    let s ← stepEv env e s
    runEvs env es s
end

end Gotcha
