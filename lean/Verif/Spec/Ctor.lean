import Verif.Model.Ctor
import Verif.Spec.Calls
/-
Events inside dlopen calls, put in one row.
-/
namespace Gotcha.Spec

/-- Nothing is loaded. -/
def nothing : Load := ⟨[], fun _ => none, fun _ => none⟩

mutual
/-- The events in the order in which they happen, `inited` telling whether GOTCHA is in use: a dlopen
loads its objects, then come the events in their constructors, then, if the call went through GOTCHA,
GOTCHA's part of it. -/
def flat : Bool → Ev → List Op
  | _, .op o => [o]
  | inited, .dlopen ld ctors =>
    .load ld :: (flats inited ctors ++ if inited then [.dlopen nothing] else [])

def flats : Bool → List Ev → List Op
  | _, [] => []
  | inited, e :: es => flat inited e ++ flats (inited || (flat inited e).any isApi) es
end

/-- Once GOTCHA is in use, no gotcha_wrap and no dlclose comes between the loading of an object and the
next time a call of dlopen that GOTCHA sees returns, and there is such a return. -/
def Calm : (inited pending : Bool) → List Op → Prop
  | _, pending, [] => pending = false
  | inited, _, .load _ :: ops => Calm inited inited ops
  | inited, _, .dlopen _ :: ops => Calm inited false ops
  | _, pending, .wrap _ _ :: ops => pending = false ∧ Calm true false ops
  | inited, pending, .unload _ :: ops => pending = false ∧ Calm inited false ops
  | inited, pending, .setFilter _ :: ops => Calm inited pending ops
  | _, pending, .setPriority _ _ :: ops => Calm true pending ops
  | _, pending, .getPriority _ :: ops => Calm true pending ops

/-- GOTCHA takes notice of the loading of objects. -/
def noticed : Op → Op
  | .load ld => .dlopen ld
  | op => op

end Gotcha.Spec
