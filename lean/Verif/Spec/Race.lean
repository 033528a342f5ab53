import Verif.Model.Race
import Verif.Spec.Threads
/-
Lookups that are out of date when they are used.
-/
namespace Gotcha.Spec

/-- What the thread has looked up is still so. -/
def UpToDate (s : State) : Fine → Prop
  | .at _ => True
  | .found _ b _ _ _ r => ∃ x, s.bind b = .ok x ∧ nameLookup s.funTab x.user.name = .ok r

/-- Along a schedule no thread goes on with a lookup that is out of date. -/
def NeverStale (env : Env) : List Nat → List Fine → State → Prop
  | [], _, _ => True
  | i :: is, ts, s =>
    match ts[i]? with
    | none => NeverStale env is ts s
    | some t => UpToDate s t ∧ ∀ s' t', stepFine env t s = .ok (s', t') → NeverStale env is (ts.set i t') s'

/-- The place a thread is at when lookups are not a place of their own. -/
def coarse : Fine → Thread
  | .at t => t
  | .found n b bs nb nf _ => .bind n (b :: bs) nb nf

/-- What a new outermost wrapper of `f` has to continue with: the outermost wrapper so far, or the first
definition of the function. -/
def Under (s : State) (f : Name) (a : Addr) : Prop :=
  (nameLookup s.funTab f = .ok none ∧ ∃ v, s.vdso = some v ∧ firstDef v s.linkMap f = some a) ∨
  ∃ top y, nameLookup s.funTab f = .ok (some top) ∧ s.bind top = .ok y ∧ y.user.wrapper = a

/-- The tool of binding `b` has a higher priority than that of the outermost wrapper of `f`, if there is
one. -/
def Outranks (s : State) (f : Name) (b : BId) : Prop :=
  ∀ top p q, nameLookup s.funTab f = .ok (some top) → s.bindPriority top = .ok p → s.bindPriority b = .ok q →
    p < q

end Gotcha.Spec
