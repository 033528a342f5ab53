import Verif.Spec.History
/-
Page protection: the process in which every page is writable and every mprotect succeeds.
-/
namespace Gotcha

/-- The environment in which every mprotect succeeds. -/
def Env.open (env : Env) : Env := { env with mprotect := fun _ => true }

/-- The same loader activity with every page writable. -/
def Load.open (ld : Load) : Load := { ld with wr := fun _ => some true }

/-- The same event with every page the loader sets up writable. -/
def Op.open : Op → Op
  | .dlopen ld => .dlopen ld.open
  | .load ld => .load ld.open
  | op => op

/-- The state with other page protections. -/
def State.w (s : State) (w : Addr → Bool) : State := { s with wr := w }

/-- The state in which GOTCHA starts to work in an event: after the loader has done its part. -/
def entered : Op → State → State
  | .dlopen ld, s => s.load ld
  | .load ld, s => s.load ld
  | .unload dead, s => s.unload dead
  | _, s => s

namespace Spec

/-- The same process with every page writable and every mprotect successful. -/
def Process.open (p : Process) : Process := { p with env := p.env.open, wr := fun _ => true }

/-- As `Process.Ok`, but with nothing said about page protection. -/
structure Process.OkButPages (p : Process) : Prop where
  world : World p.env p.U
  objs : ∀ l ∈ p.libs, p.U l
  nd : (p.libs.map (·.lm)).Nodup
  placed : Placed p.libs
  ne : p.libs ≠ []

end Spec
end Gotcha
