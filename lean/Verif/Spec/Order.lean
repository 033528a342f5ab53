import Verif.Spec.History
/-
The order in which wrappers are registered, and when priorities count as settled.
-/
namespace Gotcha.Spec

/-- A frame of a binding of a table. -/
def frame (tool : Name) (u : UBinding) : Frame := ⟨tool, u.wrapper, u.handle⟩

/-- GOTCHA's own bindings. -/
def ownTable (env : Env) : List UBinding := dlTable env ++ libcMainTable env ++ mainTable env

/-- Registrations (tool, binding) caused by a table, in order: the first time "main" occurs in the
process, GOTCHA registers `__libc_start_main` and "main" itself. -/
def expand (env : Env) (tool : Name) : Bool → List UBinding → List (Name × UBinding)
  | _, [] => []
  | mw, u :: us =>
    (if u.name = nm "main" ∧ mw = false
      then (libcMainTable env ++ mainTable env).map (fun v => (nm "gotcha", v)) else []) ++
    (tool, u) :: expand env tool (mw || decide (u.name = nm "main")) us

/-- Registrations caused by an event: `ini` tells whether GOTCHA is in use already, `mw` whether
"main" has occurred. -/
def opRegs (env : Env) (ini mw : Bool) (op : Op) : List (Name × UBinding) :=
  (if isApi op = true ∧ ini = false then (dlTable env).map (fun v => (nm "gotcha", v)) else []) ++
  match op with
  | .wrap tbl tool => expand env (toolName tool) mw tbl
  | _ => []

/-- Registrations caused by a history. -/
def regs (env : Env) : Bool → Bool → List Op → List (Name × UBinding)
  | _, _, [] => []
  | ini, mw, op :: ops =>
    opRegs env ini mw op ++
      regs env (ini || isApi op) (mw || (tableOf op).any (fun u => u.name = nm "main")) ops

/-- The registrations of one function, as frames. -/
def framesIn (rs : List (Name × UBinding)) (f : Name) : List Frame :=
  (rs.filter (fun r => r.2.name = f)).map (fun r => frame r.1 r.2)

/-- All wrappers ever registered for `f`, oldest first. -/
def registered (env : Env) (ops : List Op) (f : Name) : List Frame :=
  framesIn (regs env false false ops) f

/-- The bindings of `f` in the tables passed to gotcha_wrap, oldest first. -/
def clientFrames (ops : List Op) (f : Name) : List Frame :=
  ops.flatMap (fun
    | .wrap tbl tool => (tbl.filter (fun u => u.name = f)).map (frame (toolName tool))
    | _ => [])

/-- No priority changes once the tool has wrapped something: every gotcha_set_priority names a tool
(other than GOTCHA's own) not used in a gotcha_wrap before, or repeats the current value. -/
def Settled (ops : List Op) : Prop :=
  ∀ pre t v post, ops = pre ++ .setPriority t v :: post →
    (t ≠ nm "gotcha" ∧ ∀ tbl tool, Op.wrap tbl tool ∈ pre → toolName tool ≠ t) ∨ v = prioOr t pre

/-- Names of the functions GOTCHA wraps for itself. -/
def ownNames : List Name := [nm "dlopen", nm "dlsym", nm "__libc_start_main", nm "main"]

theorem framesIn_append (a b : List (Name × UBinding)) (f : Name) :
    framesIn (a ++ b) f = framesIn a f ++ framesIn b f := by simp [framesIn]

theorem framesIn_own {L : List UBinding} {f : Name} (t : Name) (h : ∀ u ∈ L, u.name ≠ f) :
    framesIn (L.map (fun v => (t, v))) f = [] := by
  simp only [framesIn, List.map_eq_nil_iff, List.filter_eq_nil_iff]
  intro r hr
  obtain ⟨u, hu, rfl⟩ := List.mem_map.1 hr
  simpa using h u hu

theorem expand_client (env : Env) (tool : Name) {f : Name} (hf : f ∉ ownNames)
    (us : List UBinding) : ∀ mw, framesIn (expand env tool mw us) f =
      (us.filter (fun u => u.name = f)).map (frame tool) := by
  induction us with
  | nil => intro mw; rfl
  | cons u us ih =>
    intro mw
    rw [expand, framesIn_append]
    have : framesIn (if u.name = nm "main" ∧ mw = false
        then (libcMainTable env ++ mainTable env).map (fun v => (nm "gotcha", v)) else []) f = [] := by
      split
      · apply framesIn_own
        intro v hv hc
        simp only [libcMainTable, mainTable, List.mem_append, List.mem_singleton] at hv
        apply hf
        rcases hv with rfl | rfl <;> simp [ownNames, ← hc]
      · rfl
    rw [this, List.nil_append, show (tool, u) :: expand env tool _ us = [(tool, u)] ++ _ from rfl,
      framesIn_append, ih]
    by_cases e : u.name = f
    · simp [framesIn, e]
    · simp [framesIn, e]

/-- For a function GOTCHA does not wrap for itself only the clients' tables count. -/
theorem registered_client (env : Env) (ops : List Op) {f : Name} (hf : f ∉ ownNames) :
    registered env ops f = clientFrames ops f := by
  have : ∀ ops ini mw, framesIn (regs env ini mw ops) f = clientFrames ops f := by
    intro ops
    induction ops with
    | nil => intro ini mw; rfl
    | cons op ops ih =>
      intro ini mw
      rw [regs, framesIn_append, ih]
      unfold clientFrames
      rw [List.flatMap_cons]
      congr 1
      unfold opRegs
      rw [framesIn_append]
      have h1 : framesIn (if isApi op = true ∧ ini = false then
          (dlTable env).map (fun v => (nm "gotcha", v)) else []) f = [] := by
        split
        · apply framesIn_own
          intro v hv hc
          simp only [dlTable, List.mem_cons, List.not_mem_nil, or_false] at hv
          apply hf
          rcases hv with rfl | rfl <;> simp [ownNames, ← hc]
        · rfl
      rw [h1, List.nil_append]
      cases op with
      | wrap tbl tool => exact expand_client env _ hf tbl mw
      | _ => rfl
  exact this ops false false

end Gotcha.Spec
