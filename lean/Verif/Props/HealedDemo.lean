import Verif.Props.Healed
import Verif.Props.RepairDemo
/-
C131: the plugin of C15, which is closed and opened again, with a gotcha_wrap of an empty table before it comes back,
and a program that goes on wrapping.
-/
namespace Gotcha
open Spec

namespace Demo

/-- foo is wrapped, the plugin opened and closed. -/
def opsClosed : List Op := [ .wrap [⟨nm "foo", 0x50a, 10⟩] (some B), .dlopen loadPlug, .unload deadPlug ]

/-- Then bar is wrapped, and its tool gets another priority. -/
def opsOn : List Op := [ .wrap [⟨nm "bar", 0x50b, 11⟩] (some A), .setPriority A 3 ]

theorem closed_rough : Rough proc (opsClosed ++ [.wrap [] none, .dlopen reloadW]) where
  loader := ⟨fun _ => dlopen_def, rough_of (loadPlug_ok True), Or.inl rfl, fun h => (by cases h), reloadW_rough, trivial⟩
  cons := fun _ => (history True).cons trivial
  filter := fun _ _ _ _ h => h.elim
  main := fun _ => mainAlone_of ⟨fun h => absurd h (notMain (by decide +kernel)), trivial, trivial,
    fun ⟨_, hu, _⟩ => absurd hu (by simp), trivial, trivial⟩
  short := fun _ => by decide
  honest := ⟨by decide +kernel, by
    intro u hu
    simp only [opsClosed, List.cons_append, List.flatMap_cons, List.flatMap_nil, tableOf, List.append_nil,
      List.nil_append, List.mem_cons, List.not_mem_nil, or_false] at hu
    rcases hu with rfl <;> decide, envOk⟩

theorem closed_treats : Treats proc (fun _ => True) (opsClosed ++ [.wrap [] none, .dlopen reloadW]) opsOn where
  now := fun _ _ => trivial
  filter := by
    intro f hf
    simp [opsOn] at hf
  loader := ⟨fun h => (by cases h), fun h => (by cases h), trivial⟩
  main := mainAlone_of ⟨fun h => absurd h (notMain (by decide +kernel)), trivial, trivial,
    fun ⟨_, hu, _⟩ => absurd hu (by simp), trivial, fun h => absurd h (notMain (by decide +kernel)), trivial,
    trivial⟩
  honest := ⟨by decide +kernel, by
    intro u hu
    simp only [opsClosed, opsOn, List.cons_append, List.flatMap_cons, List.flatMap_nil, tableOf, List.append_nil,
      List.nil_append, List.mem_cons, List.not_mem_nil, or_false] at hu
    rcases hu with rfl | rfl <;> decide, envOk⟩
  short := by decide

/-- Without the gotcha_wrap of an empty table. -/
theorem closed_without : after proc.env (opsClosed ++ [.dlopen reloadW] ++ opsOn) proc.start
    (fun s => decide (s.mem 0x30000018 = 0x20004000)) = true := by
  decide +kernel

end Demo

/-- The plugin that has come back calls foo through its wrapper, also after bar has been wrapped. -/
example : ∃ s os, run Demo.proc.env (Demo.opsClosed ++ [.wrap [] none, .dlopen Demo.reloadW] ++ Demo.opsOn)
      Demo.proc.start = .ok (s, os) ∧ Calls Demo.proc.P s (s.mem 0x30000018) [0x50a, 0x20004000] := by
  obtain ⟨s, os, e1, e2⟩ := C131_healed Demo.proc_ok Demo.closed_rough (by decide) Demo.closed_treats
  refine ⟨s, os, e1, ?_⟩
  have hreg : registered Demo.proc.env (Demo.opsClosed ++ [.wrap [] none, .dlopen Demo.reloadW] ++ Demo.opsOn)
    (nm "foo") = [⟨Demo.B, 0x50a, 10⟩] := by decide +kernel
  obtain ⟨order, ho, hc⟩ := e2 (nm "foo") 0x20004000 (by rw [hreg]; simp) (by decide +kernel) (by decide) Demo.plug
    (by show _ ∈ [Demo.app, Demo.libc, Demo.plug]; simp) trivial _ Demo.slot_plug
  rw [hreg] at ho
  rw [List.perm_singleton.1 ho] at hc
  exact hc

/-- C131, the limits: without the gotcha_wrap of an empty table the plugin stays as it is (C15), and wrapping another
function later does not change that. -/
theorem C131_without_wrap_refuted :
    ¬ ∀ (p : Process), p.Ok → ∀ (ops more : List Op) (ld : Load), Rough p (ops ++ [.dlopen ld]) →
      ops.any isApi = true → Treats p (fun _ => True) (ops ++ [.dlopen ld]) more →
      ∀ s os, run p.env (ops ++ [.dlopen ld] ++ more) p.start = .ok (s, os) →
      WiredFor p (fun _ => True) (ops ++ [.dlopen ld] ++ more) s := by
  intro hall
  obtain ⟨s, os, hr, hq⟩ := Demo.after_run Demo.closed_without
  have ht : Treats Demo.proc (fun _ => True) (Demo.opsClosed ++ [.dlopen Demo.reloadW]) Demo.opsOn := by
    refine ⟨fun _ _ => trivial, Demo.closed_treats.filter, ⟨fun h => (by cases h), fun h => (by cases h), trivial⟩,
      Demo.mainAlone_of ⟨fun h => absurd h (Demo.notMain (by decide +kernel)), trivial, trivial, trivial,
        fun h => absurd h (Demo.notMain (by decide +kernel)), trivial, trivial⟩,
      ⟨by decide +kernel, Demo.closed_treats.honest.prog, Demo.envOk⟩, by decide⟩
  have hw := hall Demo.proc Demo.proc_ok Demo.opsClosed Demo.opsOn Demo.reloadW Demo.reloadW_is_rough (by decide) ht s os hr
  refine not_wired (p := Demo.proc) (ops := Demo.opsClosed ++ [.dlopen Demo.reloadW] ++ Demo.opsOn) (s := s)
    (f := nm "foo") (r := 0x20004000) (l := Demo.plug) (off := 0x18) ?_ (by decide +kernel) (by decide)
    (by show _ ∈ [Demo.app, Demo.libc, Demo.plug]; simp) Demo.slot_plug ?_ ?_
  · have hreg : registered Demo.proc.env (Demo.opsClosed ++ [.dlopen Demo.reloadW] ++ Demo.opsOn) (nm "foo") =
        [⟨Demo.B, 0x50a, 10⟩] := by decide +kernel
    rw [hreg]
    simp
  · rw [show Demo.plug.addr + 0x18 = 0x30000018 from rfl, of_decide_eq_true hq]
    decide
  · exact fun f r h1 h2 h3 l hl off hoff => hw f r h1 h2 h3 l hl trivial off hoff

end Gotcha
