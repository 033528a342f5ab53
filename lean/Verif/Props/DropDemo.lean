import Verif.Props.Drop
/-
C126: the plugin of Demo/Bad is closed and opened again, twice.
-/
namespace Gotcha
open Spec

/-- The events of `Demo.opsReload`, after which the engine as it is no longer intercepts the plugin. -/
def Demo.evReload : List DropEv := Demo.opsReload.map .op

/-- The plugin comes back twice; in between the records of the application and the plugin are removed. -/
def Demo.evTwice : List DropEv :=
  Demo.evReload ++ [.remove [Demo.app, Demo.plug], .op (.unload Demo.deadPlug), .op (.dlopen Demo.reload)]

theorem Demo.evReload_ok : DropHistory Demo.proc Demo.evReload where
  loader := ⟨⟨fun _ => Demo.dlopen_def, trivial⟩, ⟨Demo.loadPlug_ok True, trivial⟩, ⟨Or.inl rfl, trivial⟩,
    ⟨reload_ok True, trivial⟩, trivial⟩
  cons := Demo.cons Demo.proc_ok.objs
  filter := by intro f hf; simp [Demo.evReload, Demo.opsReload, opsOf] at hf
  main := Demo.mainAlone_of ⟨fun h => absurd h (Demo.notMain (by decide +kernel)), trivial,
    trivial, trivial, trivial⟩
  short := by decide
  honest := ⟨by decide +kernel, by
    intro u hu
    simp only [Demo.evReload, Demo.opsReload, opsOf, List.map, List.flatMap_cons, List.flatMap_nil,
      tableOf, List.append_nil, List.mem_cons, List.not_mem_nil, or_false] at hu
    rcases hu with rfl <;> decide, Demo.envOk⟩

theorem Demo.evTwice_ok : DropHistory Demo.proc Demo.evTwice where
  loader := ⟨⟨fun _ => Demo.dlopen_def, trivial⟩, ⟨Demo.loadPlug_ok True, trivial⟩, ⟨Or.inl rfl, trivial⟩,
    ⟨reload_ok True, trivial⟩, rfl, by
      intro l hl
      simp only [List.mem_cons, List.not_mem_nil, or_false] at hl
      show l ∈ [Demo.app, Demo.libc, Demo.plug]
      rcases hl with rfl | rfl <;> simp,
    ⟨Or.inl rfl, trivial⟩, ⟨reload_ok True, trivial⟩, trivial⟩
  cons := Demo.cons Demo.proc_ok.objs
  filter := by intro f hf; simp [Demo.evTwice, Demo.evReload, Demo.opsReload, opsOf] at hf
  main := Demo.mainAlone_of ⟨fun h => absurd h (Demo.notMain (by decide +kernel)), trivial,
    trivial, trivial, trivial, trivial, trivial⟩
  short := by decide
  honest := ⟨by decide +kernel, by
    intro u hu
    simp only [Demo.evTwice, Demo.evReload, Demo.opsReload, opsOf, List.map, List.cons_append,
      List.nil_append, List.flatMap_cons, List.flatMap_nil,
      tableOf, List.append_nil, List.mem_cons, List.not_mem_nil, or_false] at hu
    rcases hu with rfl <;> decide, Demo.envOk⟩

/-- C126.  The history that defeats the engine as it is (C15): with `remove_library` at dlclose every
library is intercepted in the end. -/
theorem C126_repairs_C15 :
    (∃ s os, run Demo.proc.env Demo.opsReload Demo.proc.start = .ok (s, os) ∧
      ¬ Wired Demo.proc Demo.opsReload s) ∧
    (∃ s os, runDrop Demo.proc.env (Demo.opsReload.map .op) Demo.proc.start = .ok (s, os) ∧
      Wired Demo.proc Demo.opsReload s) := by
  constructor
  · obtain ⟨s, os, hr, hq⟩ := Demo.after_run Demo.reload_run
    refine ⟨s, os, hr, ?_⟩
    refine not_wired (f := nm "foo") (r := 0x20004000) (l := Demo.plug) (off := 0x18) ?_
      Demo.reload_real (by decide) (by show _ ∈ [Demo.app, Demo.libc, Demo.plug]; simp)
      Demo.slot_plug ?_
    · exact fun h => List.cons_ne_nil _ _ (Demo.reload_reg.symm.trans h)
    · rw [show Demo.plug.addr + 0x18 = 0x30000018 from rfl, of_decide_eq_true hq]
      decide
  · obtain ⟨s, os, hr, -⟩ := C126_no_fault Demo.proc_ok Demo.evReload_ok
    exact ⟨s, os, hr, C126_wired Demo.proc_ok Demo.evReload_ok hr⟩

/-- With the plugin back twice and records removed under way: foo called from the plugin runs the wrapper,
then libc's foo; the table has three records at most. -/
example : ∃ s os, runDrop Demo.proc.env Demo.evTwice Demo.proc.start = .ok (s, os) ∧
    Calls Demo.proc.P s (s.mem 0x30000018) [0x50a, 0x20004000] ∧ s.libTab.count ≤ 3 := by
  obtain ⟨s, os, hr, -⟩ := C126_no_fault Demo.proc_ok Demo.evTwice_ok
  obtain ⟨order, h1, h2⟩ := C126_calls_run_the_whole_stack Demo.proc_ok Demo.evTwice_ok hr (nm "foo")
    (r := 0x20004000) (by decide +kernel) (by decide)
  have hreg : registered Demo.proc.env (opsOf Demo.evTwice) (nm "foo") = [⟨Demo.B, 0x50a, 10⟩] := by
    decide +kernel
  have h3 := h2 Demo.plug (by show _ ∈ [Demo.app, Demo.libc, Demo.plug]; simp) 0x18 Demo.slot_plug
    (by rw [hreg]; simp) [0x50a, 0x20004000]
  rw [hreg] at h1
  rw [List.perm_singleton.1 h1] at h3
  exact ⟨s, os, hr, h3.2 rfl, (C126_no_stale_records Demo.proc_ok Demo.evTwice_ok hr (by decide)).2⟩

/-- A history without reloading: same results with and without `remove_library`. -/
example : ∃ s s' os, run Demo.proc.env (Demo.opsReload.take 3) Demo.proc.start = .ok (s, os) ∧
    runDrop Demo.proc.env ((Demo.opsReload.take 3).map .op) Demo.proc.start = .ok (s', os) :=
  C126_same_results Demo.proc_ok (unload_history True)

end Gotcha
