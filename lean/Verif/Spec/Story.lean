import Verif.Spec.Order
/-
What one function's stack of wrappers is made of: the registrations of this function and the priorities
of the tools, in the order of time; nothing else of the history.
-/
namespace Gotcha.Spec

/-- What matters for the stack of a function. -/
inductive Ev where
  | reg (fr : Frame)
  | prio (t : Name) (v : Int)
  deriving DecidableEq, Repr

/-- The part of an event that matters for the function `f`, when `T` are the tools that matter. -/
def tell (T : List Name) (f : Name) : Op → List Ev
  | .wrap tbl tool => (tbl.filter (fun u => u.name = f)).map (fun u => .reg (frame (toolName tool) u))
  | .setPriority t v => if t ∈ T then [.prio t v] else []
  | _ => []

/-- The part of a history that matters for the function `f`. -/
def story (T : List Name) (f : Name) (ops : List Op) : List Ev := ops.flatMap (tell T f)

/-- Every tool that registers a wrapper for `f` is in `T`. -/
def Told (T : List Name) (f : Name) (ops : List Op) : Prop := ∀ fr ∈ clientFrames ops f, fr.tool ∈ T

instance (T : List Name) (f : Name) (ops : List Op) : Decidable (Told T f ops) := by
  unfold Told; infer_instance

/-- A new wrapper goes below those of higher or equal priority; priorities count as they are at that
moment. -/
def evStep : (Name → Int) × List Frame → Ev → (Name → Int) × List Frame
  | (pr, st), .reg fr => (pr, insertBefore (fun g => pr g.tool < pr fr.tool) fr st)
  | (pr, st), .prio t v => (upd pr t v, st)

/-- Priorities and stack at the end of a story; all tools start with priority −1. -/
def endOf (evs : List Ev) : (Name → Int) × List Frame := evs.foldl evStep (fun _ => -1, [])

end Gotcha.Spec
