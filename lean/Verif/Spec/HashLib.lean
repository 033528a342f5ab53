import Verif.Spec.Map
/-
Any number of bags of associations that come and go, as observed by a client.
-/
namespace Gotcha.Spec

variable {K D : Type}

/-- What a client does with its tables, numbered: create one with an initial size, use one, destroy one. -/
inductive HlOp (K D : Type) where
  | create (i initial : Nat)
  | use (i : Nat) (op : MapOp K D)
  | destroy (i : Nat)

/-- What it observes; `skipped`: it has no such table (or has one already), so it does nothing. -/
inductive HlObs (D : Type) where
  | created (ok : Bool)
  | did (ob : MapObs D)
  | destroyed
  | skipped
  deriving DecidableEq

/-- A table of the client. -/
inductive Life (K D : Type) where
  | fresh
  | has (bag : List (K × D))
  | gone

/-- Another value at one place. -/
def putAt {α : Type} (f : Nat → α) (i : Nat) (x : α) : Nat → α := fun j => if j = i then x else f j

/-- A client that creates a table only when it does not have it, uses only what it has and destroys only what it has
created once.  Each table answers like a bag of its own; creating may fail, and then nothing has happened. -/
inductive HlRun : (Nat → Life K D) → List (HlOp K D) → List (HlObs D) → (Nat → Life K D) → Prop
  | nil {c} : HlRun c [] [] c
  | made {c i n ops obs c'} : (∀ b, c i ≠ .has b) → HlRun (putAt c i (.has [])) ops obs c' →
      HlRun c (.create i n :: ops) (.created true :: obs) c'
  | failed {c i n ops obs c'} : (∀ b, c i ≠ .has b) → HlRun c ops obs c' →
      HlRun c (.create i n :: ops) (.created false :: obs) c'
  | already {c i n b ops obs c'} : c i = .has b → HlRun c ops obs c' →
      HlRun c (.create i n :: ops) (.skipped :: obs) c'
  | used {c i b op ob b' ops obs c'} : c i = .has b → BagRun b [op] [ob] b' →
      HlRun (putAt c i (.has b')) ops obs c' → HlRun c (.use i op :: ops) (.did ob :: obs) c'
  | unused {c i op ops obs c'} : (∀ b, c i ≠ .has b) → HlRun c ops obs c' →
      HlRun c (.use i op :: ops) (.skipped :: obs) c'
  | destroyed {c i ops obs c'} : c i ≠ .fresh → HlRun (putAt c i .gone) ops obs c' →
      HlRun c (.destroy i :: ops) (.destroyed :: obs) c'
  | nothing {c i ops obs c'} : c i = .fresh → HlRun c ops obs c' →
      HlRun c (.destroy i :: ops) (.skipped :: obs) c'

end Gotcha.Spec
