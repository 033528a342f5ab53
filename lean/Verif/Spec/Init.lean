import Verif.Model.Init
/-
Where threads stand in their first calls of GOTCHA.
-/
namespace Gotcha.Spec

/-- The thread is not past `setup_hash_tables`. -/
def Early : InitThread → Prop
  | .enter _ _ => True
  | .checked _ _ => True
  | .marked _ _ => True
  | _ => False

/-- The thread is not going to enter `f`: neither a table still to be passed to GOTCHA nor the bindings
still to be done name it. -/
def NotFor (f : Name) (s : State) : Thread → Prop
  | .call table _ => f ∉ table.map UBinding.name
  | .bind _ todo _ _ => ∀ b ∈ todo, ∃ x, s.binds[b]? = some x ∧ x.user.name ≠ f
  | _ => True

/-- Likewise for a thread that may still be before or in `gotcha_init`. -/
def NotForInit (f : Name) (s : State) : InitThread → Prop
  | .enter table _ => f ∉ table.map UBinding.name
  | .checked table _ => f ∉ table.map UBinding.name
  | .marked table _ => f ∉ table.map UBinding.name
  | .libdl th table _ => NotFor f s th ∧ f ∉ table.map UBinding.name
  | .go th => NotFor f s th

end Gotcha.Spec
