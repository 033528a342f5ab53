import Verif.Model.Core
/-
Several threads inside `gotcha_wrap` or the intercepted `dlopen` at the same time.  GOTCHA takes no lock.

Simplification: a thread is interrupted only between the parts into which the function falls.  For
`gotcha_wrap` these are the preparation of the table (src/gotcha.c:423-446), each iteration of the loop
over the bindings (:448-477) and each library of `update_all_library_gots` (:393-400).  For
`dlopen_wrapper` they are the real dlopen (src/gotcha_dl.c:138-142), the search for pending functions
(:146) and each library of `update_all_library_gots`.  Inside these parts there are more places where two
threads can get into each other's way.  GOTCHA is initialised, and the link map only gets longer
(new objects come last).
-/
namespace Gotcha

/-- Where a thread is in `gotcha_wrap` (src/gotcha.c:402-491): before the call, in the loop over the
bindings (size of the table, bindings still to do, the table `new_bindings`, `not_found`), in
`update_all_library_gots` (position on the link map), or back.  Or where it is in `dlopen_wrapper`
(src/gotcha_dl.c:137-152): before the call (with what the real dlopen is going to load), after the real
dlopen, in `update_all_library_gots`, or back. -/
inductive Thread where
  | call (table : List UBinding) (tool : Option Name)
  | bind (n : Nat) (todo : List BId) (nb : Option (HTable Name BId)) (nf : Nat)
  | write (t : HTable Name BId) (pos : Nat) (nf : Nat)
  | ret (c : RetCode)
  | dlcall (ld : Load)
  | dlscan
  | dlwrite (pos : Nat)
  | dlret

/-- src/gotcha.c:484-490: the result. -/
def retOf (nf : Nat) : RetCode := if nf > 0 then .functionNotFound else .success

/-- src/gotcha.c:402-491 `gotcha_wrap` and src/gotcha_dl.c:137-152 `dlopen_wrapper`, the next part.  The
table passed to `update_all_library_gots` by `dlopen_wrapper` is the global `function_hash_table`, as it
is when a library is updated. -/
def stepThread (env : Env) : Thread → State → Except Fault (State × Thread)
  | .call table tool, s => do
    let s := table.foldl (fun s u => s.setHandle u.handle none) s
    let (ts, tid) ← s.tools.getOrCreate (tool.getD (nm "[UNSPECIFIED]"))
    let s := { s with tools := ts, gen := s.gen + 1 }
    let base := s.binds.length
    .ok (addBindings tid table s,
      .bind table.length (List.range' base table.length) none 0)
  | .bind n (b :: bs) nb nf, s => do
    let (s, nb, nf) ← processBindings env (onMainReal env) n [b] s nb nf
    .ok (s, .bind n bs nb nf)
  | .bind _ [] nb nf, s =>
    match nb with
    | none => .ok (s, .ret (retOf nf))
    | some t => .ok (s, .write t 0 nf)
  | .write t i nf, s =>
    match s.linkMap.drop i with
    | [] => .ok (s, .ret (retOf nf))
    | l :: ls => do
      let s ← s.updateLib env t l (!ls.isEmpty)
      .ok (s, .write t (i + 1) nf)
  | .ret c, s => .ok (s, .ret c)
  | .dlcall ld, s => do
    let _ ← s.getWrappee env.hDlopen
    .ok (s.load ld, .dlscan)
  | .dlscan, s => do
    let s ← foreachEntry State.notFound (perBinding env) s.notFound.slots.length s.notFound.head s
    .ok (s, .dlwrite 0)
  | .dlwrite i, s =>
    match s.linkMap.drop i with
    | [] => .ok (s, .dlret)
    | l :: ls => do
      let s ← s.updateLib env s.funTab l (!ls.isEmpty)
      .ok (s, .dlwrite (i + 1))
  | .dlret, s => .ok (s, .dlret)

/-- A schedule (src/gotcha.c:402-491 and src/gotcha_dl.c:137-152 in several threads): the number in the
list says which thread goes on. -/
def runThreads (env : Env) : List Nat → List Thread → State → Except Fault (State × List Thread)
  | [], ts, s => .ok (s, ts)
  | i :: is, ts, s =>
    match ts[i]? with
    | none => runThreads env is ts s
    | some t => do
      let (s, t) ← stepThread env t s
      runThreads env is (ts.set i t) s

end Gotcha
