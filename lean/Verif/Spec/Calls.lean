import Verif.Spec.Real
/-
Calls as a user sees them: jump to an address; a wrapper continues with gotcha_get_wrappee of the
handle variable it reads.
-/
namespace Gotcha.Spec

/-- `Calls P s a path`: a call that jumps to `a` runs the functions `path`, in this order, and gets to
a function that is not a wrapper. -/
inductive Calls (P : Addr → Option HAddr) (s : State) : Addr → List Addr → Prop
  | stop {a} : P a = none → Calls P s a [a]
  | cont {a h a' path} : P a = some h → s.getWrappee h = .ok a' → Calls P s a' path →
      Calls P s a (a :: path)

theorem Calls.det {P s a p1 p2} (h1 : Calls P s a p1) (h2 : Calls P s a p2) : p1 = p2 := by
  induction h1 generalizing p2 with
  | stop h =>
    cases h2 with
    | stop _ => rfl
    | cont h' _ _ => rw [h] at h'; cases h'
  | cont h hw _ ih =>
    cases h2 with
    | stop h' => rw [h] at h'; cases h'
    | cont h' hw' hc =>
      rw [h] at h'; cases h'
      rw [hw] at hw'; cases hw'
      rw [ih hc]

theorem Calls.inv {P s a path h} (hc : Calls P s a path) (hp : P a = some h) :
    ∃ a' path', path = a :: path' ∧ s.getWrappee h = .ok a' ∧ Calls P s a' path' := by
  cases hc with
  | stop h' => rw [hp] at h'; cases h'
  | cont h' hw hc' => rw [hp] at h'; cases h'; exact ⟨_, _, rfl, hw, hc'⟩

/-- The order of calls on the stack of a function: its wrappers outermost first. -/
def wrappers (order : List Frame) : List Addr := order.map Frame.wrapper

/-- The handles of a stack: each wrapper continues with the next one, the innermost with the real
function, or with an indeterminate pointer as long as the real function is unknown. -/
structure Linked (s : State) (order : List Frame) (real : Option Addr) : Prop where
  next : ∀ (i : Nat) (fr g : Frame), order[i]? = some fr → order[i + 1]? = some g →
    s.getWrappee fr.handle = .ok g.wrapper
  last : ∀ fr, order.getLast? = some fr → s.getWrappee fr.handle =
    match real with
    | some r => .ok r
    | none => .error .uninit

/-- Everything is intercepted: after the history `ops`, in state `s`, a call of a wrapped and resolved
function through any GOT slot of any loaded library runs all its wrappers, then the function. -/
def Wired (p : Process) (ops : List Op) (s : State) : Prop :=
  ∀ f r, registered p.env ops f ≠ [] → realAfter p.env p.libs ops f = some r → p.P r = none →
    ∀ l ∈ libsAfter p.libs ops, ∀ off, (off, f) ∈ rlOf l →
    ∃ order, order.Perm (registered p.env ops f) ∧
      Calls p.P s (s.mem (l.addr + off)) (wrappers order ++ [r])

/-- One slot that leads straight to something that is not a wrapper spoils it. -/
theorem not_wired {p : Process} {ops : List Op} {s : State} {f : Name} {r : Addr} {l : Lib} {off}
    (hreg : registered p.env ops f ≠ []) (hreal : realAfter p.env p.libs ops f = some r)
    (hr : p.P r = none) (hl : l ∈ libsAfter p.libs ops) (hoff : (off, f) ∈ rlOf l)
    (hbad : p.P (s.mem (l.addr + off)) = none) : ¬ Wired p ops s := by
  intro hw
  obtain ⟨order, h1, h2⟩ := hw f r hreg hreal hr l hl off hoff
  have := (Calls.stop (s := s) hbad).det h2
  have hlen := congrArg List.length this
  simp only [List.length_singleton, List.length_append, wrappers, List.length_map, h1.length_eq]
    at hlen
  exact hreg (List.length_eq_zero_iff.1 (by omega))

/-- dlopen and dlsym have been found by the time dlsym is called. -/
def HasDl (p : Process) (ops : List Op) : Prop :=
  realAfter p.env p.libs ops (nm "dlopen") ≠ none ∧ realAfter p.env p.libs ops (nm "dlsym") ≠ none

/-- `who` is inside a loadable segment of the object. -/
def Contains (o : Lib) (who : Addr) : Prop :=
  ∃ q ∈ o.phdrs, q.type = 1 ∧ o.addr + q.vaddr ≤ who ∧ who < o.addr + q.vaddr + q.memsz

end Gotcha.Spec
