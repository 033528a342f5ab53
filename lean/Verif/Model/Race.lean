import Verif.Model.Threads
/-
Several threads inside `gotcha_wrap`, which may also be interrupted inside `rewrite_wrapper_orders`, between
the lookup of the function and what is done with the result.
-/
namespace Gotcha

/-- src/gotcha.c:145-168: the first half of `rewrite_wrapper_orders`, up to and including
`lookup_hashtable`. -/
def findHead (onMain : State → Except Fault State) (s : State) (b : BId) :
    Except Fault (State × Option BId) := do
  let xb ← s.bind b
  let _ ← s.bindPriority b
  let s ← if xb.user.name = nm "main" then onMain s else .ok s
  let r ← nameLookup s.funTab xb.user.name
  .ok (s, r)

/-- src/gotcha.c:169-207: the second half of `rewrite_wrapper_orders`, `r` being the result of the lookup.
Simplification: `insert_priority` is read again here; no thread changes a priority. -/
def placeAt (s : State) (b : BId) (r : Option BId) : Except Fault (State × RWO) := do
  let xb ← s.bind b
  let p ← s.bindPriority b
  match r with
  | none =>
    let t ← s.funTab.addto xb.user.name b (strhash xb.user.name)
    .ok ({ s with funTab := t }, ⟨true, true⟩)
  | some head =>
    let hp ← s.bindPriority head
    if hp < p then
      let s ← s.insertAtHead b head
      .ok (s, ⟨false, true⟩)
    else
      match ← findPos s p xb.user.wrapper (s.binds.length + 1) head with
      | none => .ok (s, ⟨false, false⟩)
      | some pos =>
        let s ← s.insertAfter b pos
        .ok (s, ⟨false, false⟩)

/-- src/gotcha.c:451-477: the rest of an iteration of the loop of `gotcha_wrap`, after
`rewrite_wrapper_orders` has returned `r`; `name` is `binding->user_binding->name`. -/
def afterPlace (env : Env) (n : Nat) (name : Name) (b : BId) (nb : Option (HTable Name BId)) (nf : Nat)
    (s : State) (r : RWO) : Except Fault (State × Option (HTable Name BId) × Nat) := do
  let (s, nf) ←
    if r.lookup then do
      let (s, ok) ← s.prepareSymbol env b
      if ok then .ok (s, nf)
      else do
        let t ← s.notFound.addto name b (strhash name)
        .ok ({ s with notFound := t }, nf + 1)
    else .ok (s, nf)
  let nb ← if r.binding then addNew env n nb name b else .ok nb
  .ok (s, nb, nf)

/-- Where a thread is: at one of the places of `Thread`, or in `rewrite_wrapper_orders` (src/gotcha.c:168)
for binding `b`, with the result of the lookup. -/
inductive Fine where
  | at (t : Thread)
  | found (n : Nat) (b : BId) (todo : List BId) (nb : Option (HTable Name BId)) (nf : Nat) (r : Option BId)

/-- src/gotcha.c:402-491 `gotcha_wrap` and src/gotcha_dl.c:137-152 `dlopen_wrapper`, the next part. -/
def stepFine (env : Env) : Fine → State → Except Fault (State × Fine)
  | .found n b bs nb nf r, s => do
    let xb ← s.bind b
    let (s, w) ← placeAt s b r
    let (s, nb, nf) ← afterPlace env n xb.user.name b nb nf s w
    .ok (s, .at (.bind n bs nb nf))
  | .at (.bind n (b :: bs) nb nf), s => do
    let (s, r) ← findHead (onMainReal env) s b
    .ok (s, .found n b bs nb nf r)
  | .at t, s => do
    let (s, t) ← stepThread env t s
    .ok (s, .at t)

/-- A schedule (src/gotcha.c:402-491 and src/gotcha_dl.c:137-152 in several threads): the number in the
list says which thread goes on. -/
def runFine (env : Env) : List Nat → List Fine → State → Except Fault (State × List Fine)
  | [], ts, s => .ok (s, ts)
  | i :: is, ts, s =>
    match ts[i]? with
    | none => runFine env is ts s
    | some t => do
      let (s, t) ← stepFine env t s
      runFine env is (ts.set i t) s

end Gotcha
