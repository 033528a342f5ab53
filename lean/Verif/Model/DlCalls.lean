import Verif.Model.Core
/-
The calls of the real dlopen and dlsym that GOTCHA's dlsym makes.
-/
namespace Gotcha

/-- A call of the real dlsym with its result (0 is NULL), or of the real dlopen with its result.
GOTCHA makes no call of dlclose. -/
inductive RealCall where
  | dlsym (h : DlHandle) (name : Name) (val : Addr)
  | dlopen (name : Option Name) (h : DlHandle)
  deriving DecidableEq, Repr

/-- src/gotcha_dl.c:154-185 `dlsym_wrapper`, as `dlsymWrapper`, with the calls it makes of the real
functions (:161, :177, :178), in order. -/
def dlsymCalls (env : Env) (real : RealDl) (h : DlHandle) (name : Name) (who : Addr)
    (s : State) : Except Fault (State × Addr × List RealCall) := do
  let _ ← s.getWrappee env.hDlopen
  let _ ← s.getWrappee env.hDlsym
  let val := real.dlsym h name
  let first := RealCall.dlsym h name val
  let other : Except Fault (State × Addr × List RealCall) :=
    match h with
    | .next => do
      let (s, l) ← rtldNextLookup env name who s
      match l with
      | some l =>
        let hl := real.dlopen l.name
        let v := real.dlsym hl name
        .ok (s, v, [first, .dlopen l.name hl, .dlsym hl name v])
      | none => .ok (s, 0, [first])
    | .other _ => .ok (s, val, [first])
  match ← nameLookup s.funTab name with
  | none => other
  | some b =>
    let x ← s.bind b
    if val = 0 then
      match s.handles x.user.handle with
      | none => .error .nullDeref
      | some _ => .ok (s, x.user.wrapper, [first])
    else
      let w ← s.getWrappee x.user.handle
      if w = val then .ok (s, x.user.wrapper, [first]) else other

/-- Calls of dlsym with RTLD_NEXT one after the other, from these addresses
(src/gotcha_dl.c:154-185). -/
def nextCalls (env : Env) (real : RealDl) : List (Name × Addr) → State →
    Except Fault (State × List RealCall)
  | [], s => .ok (s, [])
  | (name, who) :: reqs, s => do
    let (s, _, c) ← dlsymCalls env real .next name who s
    let (s, cs) ← nextCalls env real reqs s
    .ok (s, c ++ cs)

end Gotcha
