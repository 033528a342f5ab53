import Verif.Spec.Healed
/-
C132: programs that call gotcha_wrap with an empty table before each dlopen.
-/
namespace Gotcha.Spec

/-- Each dlopen comes directly after a gotcha_wrap of an empty table that is not the first use of GOTCHA; objects are
loaded in no other way, and the filters set let the objects in `good` pass. -/
structure Careful (good : Lib → Prop) (ops : List Op) : Prop where
  before : ∀ pre ld post, ops = pre ++ .dlopen ld :: post →
    ∃ pre' tool, pre = pre' ++ [.wrap [] tool] ∧ pre'.any isApi = true
  seen : ∀ ld, Op.load ld ∉ ops
  filter : ∀ f, Op.setFilter f ∈ ops → ∀ l, good l → Passes f l

end Gotcha.Spec
