import Verif.Spec.Trace
/-
Memory as another processor sees it.  A thread inside GOTCHA takes memory through a list of states (`Model/Trace`); a
caller of a wrapped function on another processor may see its stores late (x86: in order, through a store buffer), or
in another order (ARM, POWER: plain stores to different places).  None of this changes what the thread inside GOTCHA
computes: it sees its own stores.
-/
namespace Gotcha.Spec
open Gotcha

/-- The places that a call of a wrapped function reads: words of the GOTs, handle variables and the wrappee pointers of
the internal bindings. -/
inductive Place where
  | word (a : Addr)
  | handle (h : HAddr)
  | ptr (b : BId)
  deriving DecidableEq

/-- What they hold: an address or a pointer to a binding. -/
inductive Content where
  | addr (a : Addr)
  | bind (b : BId)
  deriving DecidableEq

/-- Memory; `none` is NULL or not initialised. -/
abbrev Mem := Place → Option Content

/-- Memory in a state of the process. -/
def view (s : State) : Mem
  | .word a => some (.addr (s.mem a))
  | .handle h => (s.handles h).map .bind
  | .ptr b => ((s.binds[b]?).bind IBinding.wrappee).map .addr

/-- The place a caller reads next. -/
def reads (P : Addr → Option HAddr) : Pos → Option Place
  | .slot a => some (.word a)
  | .jump a _ => (P a).map .handle
  | .got b _ => some (.ptr b)
  | .done _ => none

/-- One step of a caller that obtains `v` from the place it reads; `none` is a fault. -/
def advance (P : Addr → Option HAddr) (v : Option Content) : Pos → Option Pos
  | .slot _ => match v with
    | some (.addr w) => some (.jump w [])
    | _ => none
  | .jump a ran => match P a with
    | none => some (.done (ran ++ [a]))
    | some _ => match v with
      | some (.bind b) => some (.got b (ran ++ [a]))
      | _ => none
  | .got _ ran => match v with
    | some (.addr a) => some (.jump a ran)
    | _ => none
  | .done ran => some (.done ran)

/-- One step of a caller in memory `m`. -/
def step (P : Addr → Option HAddr) (m : Mem) (pos : Pos) : Option Pos :=
  advance P ((reads P pos).bind m) pos

/-! ### x86: stores become visible late, but in order -/

/-- A store: new contents for some places. -/
abbrev Store := Place → Option (Option Content)

/-- A store of a single place (or of one that no caller reads). -/
def Store.Single (x : Store) : Prop := ∃ p, ∀ q, x q ≠ none → q = p

/-- Memory after a store. -/
def put (m : Mem) (x : Store) : Mem := fun p => (x p).getD (m p)

/-- The states are those after each of the stores. -/
def Does : Mem → List Store → List State → Prop
  | _, [], [] => True
  | m, x :: xs, σ :: tr => view σ = put m x ∧ Does (view σ) xs tr
  | _, _, _ => False

/-- A processor that executes stores: those to come, those in its store buffer (oldest first), and memory as other
processors see it. -/
structure Cpu where
  todo : List Store
  buffer : List Store
  mem : Mem

/-- Execute the next store, or let the oldest store in the buffer take effect. -/
inductive Cpu.Step : Cpu → Cpu → Prop
  | issue {x xs buf m} : Step ⟨x :: xs, buf, m⟩ ⟨xs, buf ++ [x], m⟩
  | drain {xs x buf m} : Step ⟨xs, x :: buf, m⟩ ⟨xs, buf, put m x⟩

/-- Any number of steps. -/
inductive Cpu.Steps : Cpu → Cpu → Prop
  | refl {c} : Steps c c
  | step {c c' c''} : Cpu.Step c c' → Steps c' c'' → Steps c c''

/-- A caller on another processor, whose reads happen at any times between the steps of the processor `c`, always
finishes, without reading anything invalid, and the functions it runs satisfy `Q`. -/
inductive SafeBuffered (P : Addr → Option HAddr) (Q : List Addr → Prop) : Cpu → Pos → Prop
  | done {c ran} : Q ran → SafeBuffered P Q c (.done ran)
  | step {c pos} : (∀ c', Cpu.Steps c c' → Spec.step P c'.mem pos ≠ none) →
      (∀ c' pos', Cpu.Steps c c' → Spec.step P c'.mem pos = some pos' → SafeBuffered P Q c' pos') →
      SafeBuffered P Q c pos

/-! ### release stores and acquire loads -/

/-- Stores with release semantics, loads with acquire semantics: a caller that reads a value also sees, in its later
reads, all that was stored before it.  `n` is the index of the newest state in `tr` the caller is known to have seen.  A read gives the
contents of its place in some state `i` that is not older; if these were stored by the step to state `j` and are still
there in state `i`, then the caller has now seen state `j` (but not necessarily state `i`: stores to other places may
be late). -/
inductive SafeReleased (P : Addr → Option HAddr) (Q : List Addr → Prop) (tr : List State) : Nat → Pos → Prop
  | done {n ran} : Q ran → SafeReleased P Q tr n (.done ran)
  | step {n pos} :
      (∀ i σ, n ≤ i → tr[i]? = some σ → Spec.step P (view σ) pos ≠ none) →
      (∀ i j σ pos', n ≤ i → j ≤ i → tr[i]? = some σ →
        (∀ k σ', j ≤ k → k ≤ i → tr[k]? = some σ' → ∀ p, reads P pos = some p → view σ' p = view σ p) →
        Spec.step P (view σ) pos = some pos' → SafeReleased P Q tr (max n j) pos') →
      SafeReleased P Q tr n pos

/-! ### plain stores on a processor that may reorder them -/

/-- Stores to different places become visible in any order; a read of a place gives its contents in some state, not an
older one than the caller has seen of this place (`c`). -/
inductive Reordered (P : Addr → Option HAddr) (tr : List State) : (Place → Nat) → Pos → (Place → Nat) → Pos → Prop
  | refl {c pos} : Reordered P tr c pos c pos
  | read {c pos p i σ pos' c' pos''} : reads P pos = some p → c p ≤ i → tr[i]? = some σ →
      advance P (view σ p) pos = some pos' →
      Reordered P tr (fun q => if q = p then i else c q) pos' c' pos'' → Reordered P tr c pos c' pos''

/-- Some execution of a caller at `pos` faults. -/
def MayFault (P : Addr → Option HAddr) (tr : List State) (pos : Pos) : Prop :=
  ∃ c pos' p i σ, Reordered P tr (fun _ => 0) pos c pos' ∧ reads P pos' = some p ∧ c p ≤ i ∧ tr[i]? = some σ ∧
    advance P (view σ p) pos' = none

end Gotcha.Spec
