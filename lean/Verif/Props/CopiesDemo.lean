import Verif.Demo.Copies
/-
C124: the theorems of Props/Copies at work.
-/
namespace Gotcha
open Spec

/-- C124 at work: foo called from the application runs the first copy's wrapper, foo called from the
plugin the second copy's. -/
theorem C124_example : ∃ S, runAll Demo.copies.env Demo.evsTwo (fun i => (Demo.copies.proc i).start) = .ok S ∧
    ∀ j, CallsOf Demo.P Demo.ownTwo S ((S j).mem (Demo.app.addr + 0x18)) [0x50a, 0x20004000] ∧
      CallsOf Demo.P Demo.ownTwo S ((S j).mem (Demo.plug.addr + 0x18)) [0x530, 0x20004000] := by
  obtain ⟨S, hr, -⟩ := C124_copies_run Demo.copies_ok (evs := Demo.evsTwo)
    (fun i => ⟨EventsFor.weak (Demo.copies_history i).toEventsFor, (Demo.copies_history i).honest⟩)
  refine ⟨S, hr, fun j => ⟨?_, ?_⟩⟩
  · have hreg : registered (Demo.copies.env false) (viewOf false Demo.evsTwo) (nm "foo") =
        [⟨Demo.B, 0x50a, 10⟩] := by
      rw [Demo.view_false]; decide +kernel
    obtain ⟨order, h1, h2⟩ := C124_filters_by_name_keep_copies_apart Demo.copies_ok Demo.filters_first
      Demo.filters_only Demo.slots_apart Demo.copies_history Demo.ownTwo_ok hr false (nm "foo")
      (r := 0x20004000) (by rw [hreg]; simp) (by rw [Demo.view_false]; decide +kernel) (by decide)
    rw [hreg] at h1
    have := List.perm_singleton.1 h1
    subst this
    exact (h2 Demo.app (by show Demo.app ∈ [Demo.app, Demo.libc, Demo.plug]; simp)
      ⟨_, rfl, (occursIn_iff _ _).1 (by decide +kernel)⟩ _ Demo.slot_app j _).2 rfl
  · have hreg : registered (Demo.copies.env true) (viewOf true Demo.evsTwo) (nm "foo") =
        [⟨Demo.A, 0x530, 0x30⟩] := by
      rw [Demo.view_true]; decide +kernel
    obtain ⟨order, h1, h2⟩ := C124_filters_by_name_keep_copies_apart Demo.copies_ok Demo.filters_first
      Demo.filters_only Demo.slots_apart Demo.copies_history Demo.ownTwo_ok hr true (nm "foo")
      (r := 0x20004000) (by rw [hreg]; simp) (by rw [Demo.view_true]; decide +kernel) (by decide)
    rw [hreg] at h1
    have := List.perm_singleton.1 h1
    subst this
    exact (h2 Demo.plug (by show Demo.plug ∈ [Demo.app, Demo.libc, Demo.plug]; simp)
      ⟨_, rfl, (occursIn_iff _ _).1 (by decide +kernel)⟩ _ Demo.slot_plug j _).2 rfl

end Gotcha
