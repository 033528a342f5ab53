import Verif.Model.Version
/-
Property of the version macros (C58).
-/
namespace Gotcha.Props
open Gotcha.Version

/-- Lexicographic order of version triples. -/
def Older (a b : Nat × Nat × Nat) : Prop :=
  a.1 < b.1 ∨ (a.1 = b.1 ∧ (a.2.1 < b.2.1 ∨ (a.2.1 = b.2.1 ∧ a.2.2 < b.2.2)))

/-- A version whose minor and patch numbers fit into the encoding. -/
def InRange (a : Nat × Nat × Nat) : Prop := a.2.1 < 1000 ∧ a.2.2 < 100

/-- Older versions have smaller numbers, and only those. -/
theorem C58_monotone {a b : Nat × Nat × Nat} (ha : InRange a) (hb : InRange b) :
    getVersion a.1 a.2.1 a.2.2 < getVersion b.1 b.2.1 b.2.2 ↔ Older a b := by
  obtain ⟨a1, a2⟩ := ha
  obtain ⟨b1, b2⟩ := hb
  unfold getVersion Older
  omega

/-- The components of a version number. -/
theorem C58_components {a : Nat × Nat × Nat} (ha : InRange a) :
    majorOf (getVersion a.1 a.2.1 a.2.2) = a.1 ∧ minorOf (getVersion a.1 a.2.1 a.2.2) = a.2.1 ∧
    patchOf (getVersion a.1 a.2.1 a.2.2) = a.2.2 := by
  obtain ⟨a1, a2⟩ := ha
  unfold getVersion majorOf minorOf patchOf
  omega

/-- The bounds are needed: versions 1.0.100 and 1.1.0 have the same number, and so have 1.1000.0 and
2.0.0. -/
theorem C58_bounds_needed : getVersion 1 0 100 = getVersion 1 1 0 ∧ getVersion 1 1000 0 = getVersion 2 0 0 := by
  decide

example : InRange (1, 0, 7) ∧ InRange (1, 1, 0) ∧ Older (1, 0, 7) (1, 1, 0) ∧ version = 100007 :=
  ⟨⟨by decide, by decide⟩, ⟨by decide, by decide⟩, Or.inr ⟨rfl, Or.inl (by decide)⟩, by decide⟩

example : getVersion 1 0 7 < getVersion 1 1 0 ∧ minorOf (getVersion 1 1 0) = 1 :=
  ⟨(C58_monotone (a := (1, 0, 7)) (b := (1, 1, 0)) (by unfold InRange; decide) (by unfold InRange; decide)).2
    (by unfold Older; decide), (C58_components (a := (1, 1, 0)) (by unfold InRange; decide)).2.1⟩

end Gotcha.Props
