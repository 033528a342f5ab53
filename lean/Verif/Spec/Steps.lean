import Verif.Spec.Program
/-
The programs of `Spec/Program` step by step, in several threads, for runs that need not end.  GOTCHA's own
functions, dlopen and dlclose are one step each.
-/
namespace Gotcha.Spec
open Gotcha

/-- A thread: what is left to do in the function it is in, and what its callers go on with. -/
structure Thr (V : Type) where
  todo : List (V → Prog V)
  now : Prog V

/-- One step of a thread, and what it writes. -/
inductive Turn {S V : Type} (M : Sem S) (code : Addr → V → Prog V) : S → Thr V → List V → S → Thr V → Prop
  | ret {s k K v} : Turn M code s ⟨k :: K, .ret v⟩ [] s ⟨K, k v⟩
  | out {s K x k} : Turn M code s ⟨K, .out x k⟩ [x] s ⟨K, k⟩
  | null {s K h k k'} : M.goto s (.next h) 0 → Turn M code s ⟨K, .test h k k'⟩ [] s ⟨K, k⟩
  | other {s K h k k' a} : M.goto s (.next h) a → a ≠ 0 → Turn M code s ⟨K, .test h k k'⟩ [] s ⟨K, k'⟩
  | call {s K c arg k a} : M.goto s c a → Turn M code s ⟨K, .call c arg k⟩ [] s ⟨k :: K, code a arg⟩
  | look {s K c k a} : M.goto s c a → Turn M code s ⟨K, .look c k⟩ [] s ⟨K, k a⟩
  | event {s K op k o s1} : M.step s op o s1 → Turn M code s ⟨K, .event op k⟩ [] s1 ⟨K, k o⟩

/-- The threads `ts`, scheduled as `σ` says; what is written is noted with the number of the thread. -/
inductive Sched {S V : Type} (M : Sem S) (code : Addr → V → Prog V) :
    S → List (Thr V) → List Nat → List (Nat × V) → S → List (Thr V) → Prop
  | nil {s ts} : Sched M code s ts [] [] s ts
  | cons {s ts i t o s1 t1 σ w s2 ts2} : ts[i]? = some t → Turn M code s t o s1 t1 →
      Sched M code s1 (ts.set i t1) σ w s2 ts2 →
      Sched M code s ts (i :: σ) (o.map (fun v => (i, v)) ++ w) s2 ts2

/-- Thread `i` of `ts` cannot go on: it has ended, does something undefined, or nothing is said about where
its call goes or about what its event returns. -/
def StuckAt {S V : Type} (M : Sem S) (code : Addr → V → Prog V) (s : S) (ts : List (Thr V)) (i : Nat) : Prop :=
  ∀ t, ts[i]? = some t → ∀ o s1 t1, ¬ Turn M code s t o s1 t1

/-- A run without end: states, threads, who runs, and what is written at each step. -/
structure Run {S V : Type} (M : Sem S) (code : Addr → V → Prog V) (st : Nat → S) (ts : Nat → List (Thr V))
    (who : Nat → Nat) (wrote : Nat → List V) : Prop where
  next : ∀ n, ∃ t t1, (ts n)[who n]? = some t ∧ Turn M code (st n) t (wrote n) (st (n + 1)) t1 ∧
    ts (n + 1) = (ts n).set (who n) t1

end Gotcha.Spec
