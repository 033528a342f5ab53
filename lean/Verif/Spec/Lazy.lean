import Verif.Spec.Steps
/-
Lazy binding.  Unless told otherwise the dynamic linker leaves a slot for a function pointing to a stub
of the library, and looks the function up and writes its address into the slot only when the slot is first
called through.
-/
namespace Gotcha.Spec
open Gotcha

/-- What the dynamic linker makes of slots: `plt a v = some r` if `v` is the stub for the slot at `a` of
some library, and looking its function up leads to `r`. -/
abbrev Plt := Addr → Addr → Option Addr

/-- Where a call through the slot at `a` ends up: at once, or by way of the stub. -/
def Plt.target (plt : Plt) (mem : Addr → Addr) (a : Addr) : Addr := (plt a (mem a)).getD (mem a)

/-- Of two processes, the first with lazy binding, what they hold at `a`: the same, or the first has a stub
where the second has the function. -/
def Plt.Lag (plt : Plt) (a v w : Addr) : Prop := v = w ∨ plt a v = some w

/-- The states are the same but for slots that are not bound yet in the first. -/
structure Plt.Lags (plt : Plt) (s e : State) : Prop where
  same : s = { e with mem := s.mem }
  lag : ∀ a, plt.Lag a (s.mem a) (e.mem a)

/-- The dynamic linker binds some slots, or none, of those that hold stubs. -/
structure Plt.Binds (plt : Plt) (s s' : State) : Prop where
  same : s' = { s with mem := s'.mem }
  bind : ∀ a, s'.mem a = s.mem a ∨ plt a (s.mem a) = some (s'.mem a)

/-- The first loads what the second loads, with lazy binding. -/
structure Plt.LagLoad (plt : Plt) (ld ld' : Load) : Prop where
  libs : ld.libs = ld'.libs
  wr : ld.wr = ld'.wr
  mem : ∀ a, (ld.mem a = none ∧ ld'.mem a = none) ∨
    ∃ v w, ld.mem a = some v ∧ ld'.mem a = some w ∧ plt.Lag a v w

/-- The same event, with lazy binding. -/
inductive Plt.LagOp (plt : Plt) : Op → Op → Prop
  | same {op} : Plt.LagOp plt op op
  | dlopen {ld ld'} : plt.LagLoad ld ld' → Plt.LagOp plt (.dlopen ld) (.dlopen ld')
  | load {ld ld'} : plt.LagLoad ld ld' → Plt.LagOp plt (.load ld) (.load ld')

/-- A history with lazy binding: between the events, any slots are bound. -/
inductive LazyRun (plt : Plt) (env : Env) : List Op → State → List Obs → State → Prop
  | nil {s s'} : plt.Binds s s' → LazyRun plt env [] s [] s'
  | cons {s s1 op s2 o ops os s'} : plt.Binds s s1 → stepOp env op s1 = .ok (s2, o) →
      LazyRun plt env ops s2 os s' → LazyRun plt env (op :: ops) s (o :: os) s'

/-- No word a process starts with, none that the loader writes (without lazy binding), and no wrapper, is
a stub. -/
structure NoStubs (plt : Plt) (p : Process) (ops : List Op) : Prop where
  start : ∀ a, plt a (p.mem a) = none
  loads : ∀ op ∈ ops, ∀ ld, op = .dlopen ld ∨ op = .load ld → ∀ a v, ld.mem a = some v → plt a v = none
  wrappers : ∀ u, u ∈ ownTable p.env ∨ u ∈ ops.flatMap tableOf → ∀ a, plt a u.wrapper = none

/-- The machine with lazy binding; `lz` makes of the loads of events ones with lazy binding. -/
def lazyMachine (plt : Plt) (lz : Op → Op) (env : Env) : Sem State where
  goto s
    | .slot l off, a => a = plt.target s.mem (l.addr + off)
    | .next h, a => s.getWrappee h = .ok a
    | .sym dl hnd f who, a =>
      if s.inited then dlsymWrapper env (dl s.linkMap) hnd f who s = .ok (s, a)
      else a = (dl s.linkMap).dlsym hnd f
    | .fixed b, a => a = b
  step s op o s' := stepOp env (lz op) s = .ok (s', o)

/-- Threads on a machine with lazy binding: between the steps, any slots are bound. -/
inductive LazySched {V : Type} (plt : Plt) (M : Sem State) (code : Addr → V → Prog V) :
    State → List (Thr V) → List Nat → List (Nat × V) → State → List (Thr V) → Prop
  | nil {s s' ts} : plt.Binds s s' → LazySched plt M code s ts [] [] s' ts
  | cons {s s0 ts i t o s1 t1 σ w s2 ts2} : plt.Binds s s0 → ts[i]? = some t → Turn M code s0 t o s1 t1 →
      LazySched plt M code s1 (ts.set i t1) σ w s2 ts2 →
      LazySched plt M code s ts (i :: σ) (o.map (fun v => (i, v)) ++ w) s2 ts2

end Gotcha.Spec
