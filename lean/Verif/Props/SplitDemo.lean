import Verif.Props.Split
/-
C127: witnesses, and why the conditions are there.
-/
namespace Gotcha
open Spec

/-- A table of two functions, the library loaded afterwards. -/
def Demo.opsPair : List Op :=
  [ .wrap [⟨nm "foo", 0x50a, 10⟩, ⟨nm "bar", 0x50b, 11⟩] (some Demo.B), .dlopen Demo.loadPlug ]

theorem Demo.pair_noMain : ¬ hasMain [⟨nm "foo", 0x50a, 10⟩, ⟨nm "bar", 0x50b, 11⟩] := by
  rintro ⟨u, hu, e⟩
  simp only [List.mem_cons, List.not_mem_nil, or_false] at hu
  rcases hu with rfl | rfl <;> exact absurd e (by decide +kernel)

theorem Demo.pair_history (strict : Prop) : History Demo.proc strict Demo.opsPair where
  honest := ⟨by decide +kernel, by
    intro u hu
    simp only [Demo.opsPair, List.flatMap_cons, List.flatMap_nil, tableOf,
      List.append_nil, List.mem_cons, List.not_mem_nil, or_false] at hu
    rcases hu with rfl | rfl <;> decide, Demo.envOk⟩
  loader := ⟨fun _ => Demo.dlopen_def, Demo.loadPlug_ok strict, trivial⟩
  cons := fun _ => Demo.cons Demo.proc_ok.objs
  filter := by intro _ f hf; simp [Demo.opsPair] at hf
  main := fun _ => Demo.mainAlone_of ⟨fun h => absurd h Demo.pair_noMain, trivial, trivial⟩
  short := fun _ => by decide

/-- Both functions in two calls: the plugin's call site of foo holds the same wrapper, and its calls run
the same functions. -/
example : ∃ s s' o o', run Demo.proc.env Demo.opsPair Demo.proc.start = .ok (s, o) ∧
    run Demo.proc.env [.wrap [⟨nm "foo", 0x50a, 10⟩] (some Demo.B), .wrap [⟨nm "bar", 0x50b, 11⟩] (some Demo.B),
      .dlopen Demo.loadPlug] Demo.proc.start = .ok (s', o') ∧
    s'.mem 0x30000018 = s.mem 0x30000018 ∧ s'.getWrappee 10 = s.getWrappee 10 := by
  obtain ⟨-, s, s', o1, c, c1, c2, o2, r1, r2, -, -, ha⟩ := C127_split (p := Demo.proc) Demo.proc_ok
    (strict := True) (tool := some Demo.B) (T1 := [⟨nm "foo", 0x50a, 10⟩]) (T2 := [⟨nm "bar", 0x50b, 11⟩])
    (pre := []) (post := [.dlopen Demo.loadPlug]) Demo.pair_noMain
    (Demo.pair_history True) (fun _ => by decide)
  obtain ⟨-, hl, -⟩ := history_view Demo.proc_ok (Demo.pair_history True) r1
  have hreg : registered Demo.proc.env Demo.opsPair (nm "foo") = [⟨Demo.B, 0x50a, 10⟩] := by decide +kernel
  refine ⟨s, s', _, _, r1, r2, ?_, ?_⟩
  · exact ha.sites trivial Demo.plug (by rw [hl]; show _ ∈ [Demo.app, Demo.libc, Demo.plug]; simp) 0x18
      (nm "foo") Demo.slot_plug (fun e => List.cons_ne_nil _ _ (hreg.symm.trans e))
  · exact ha.handles ⟨nm "foo", 0x50a, 10⟩ (by simp [tableOf])

/-- The table the other way round. -/
example : ∃ s s' os, run Demo.proc.env Demo.opsPair Demo.proc.start = .ok (s, os) ∧
    run Demo.proc.env [.wrap [⟨nm "bar", 0x50b, 11⟩, ⟨nm "foo", 0x50a, 10⟩] (some Demo.B),
      .dlopen Demo.loadPlug] Demo.proc.start = .ok (s', os) ∧
    s'.getWrappee 10 = s.getWrappee 10 := by
  obtain ⟨-, s, s', os, r1, r2, ha⟩ := C127_rearranged (p := Demo.proc) Demo.proc_ok (strict := True)
    (tool := some Demo.B) (T := [⟨nm "foo", 0x50a, 10⟩, ⟨nm "bar", 0x50b, 11⟩])
    (T' := [⟨nm "bar", 0x50b, 11⟩, ⟨nm "foo", 0x50a, 10⟩]) (pre := []) (post := [.dlopen Demo.loadPlug])
    Demo.pair_noMain (by decide +kernel) (List.Perm.swap ..) (Demo.pair_history True)
  exact ⟨s, s', os, r1, r2, ha.handles ⟨nm "foo", 0x50a, 10⟩ (by simp [tableOf])⟩

/-- C127: with "main" in the table it does matter: in one table with main, foo is not intercepted (C14); in
a call of its own it is. -/
theorem C127_main_refuted :
    ¬ ∀ (p : Process), p.Ok → ∀ T1 T2 tool s os s' os',
      run p.env [.wrap (T1 ++ T2) tool] p.start = .ok (s, os) →
      run p.env [.wrap T1 tool, .wrap T2 tool] p.start = .ok (s', os') →
      ∀ l ∈ p.libs, ∀ off f, (off, f) ∈ rlOf l → s'.mem (l.addr + off) = s.mem (l.addr + off) := by
  intro hd
  obtain ⟨s, os, hr, hq⟩ := Demo.after_run Demo.main_run
  obtain ⟨s', os', hr', hq'⟩ := Demo.after_run (env := Demo.env) (s0 := Demo.proc.start)
    (ops := [.wrap [⟨nm "main", 0x50d, 13⟩] (some Demo.M), .wrap [⟨nm "foo", 0x50a, 10⟩] (some Demo.M)])
    (q := fun s => decide (s.mem 0x10000018 = 0x50a)) (by decide +kernel)
  have := hd Demo.proc Demo.proc_ok [⟨nm "main", 0x50d, 13⟩] [⟨nm "foo", 0x50a, 10⟩] (some Demo.M) s os s' os'
    hr hr' Demo.app (by show _ ∈ [Demo.app, Demo.libc]; simp) 0x18 (nm "foo") Demo.slot_app
  rw [show Demo.app.addr + 0x18 = 0x10000018 from rfl, of_decide_eq_true hq, of_decide_eq_true hq'] at this
  exact absurd this (by decide)

/-- C127: two bindings of one function in the other order are called in the other order. -/
theorem C127_same_function_refuted :
    ¬ ∀ (p : Process), p.Ok → ∀ T T' : List UBinding, T.Perm T' → ∀ tool s os s' os',
      run p.env [.wrap T tool] p.start = .ok (s, os) →
      run p.env [.wrap T' tool] p.start = .ok (s', os') →
      ∀ l ∈ p.libs, ∀ off f, (off, f) ∈ rlOf l → s'.mem (l.addr + off) = s.mem (l.addr + off) := by
  intro hd
  obtain ⟨s, os, hr, hq⟩ := Demo.after_run (env := Demo.env) (s0 := Demo.proc.start)
    (ops := [.wrap [⟨nm "foo", 0x50a, 10⟩, ⟨nm "foo", 0x50c, 12⟩] (some Demo.B)])
    (q := fun s => decide (s.mem 0x10000018 = 0x50a)) (by decide +kernel)
  obtain ⟨s', os', hr', hq'⟩ := Demo.after_run (env := Demo.env) (s0 := Demo.proc.start)
    (ops := [.wrap [⟨nm "foo", 0x50c, 12⟩, ⟨nm "foo", 0x50a, 10⟩] (some Demo.B)])
    (q := fun s => decide (s.mem 0x10000018 = 0x50c)) (by decide +kernel)
  have := hd Demo.proc Demo.proc_ok _ _ (List.Perm.swap ..) (some Demo.B) s os s' os'
    hr hr' Demo.app (by show _ ∈ [Demo.app, Demo.libc]; simp) 0x18 (nm "foo") Demo.slot_app
  rw [show Demo.app.addr + 0x18 = 0x10000018 from rfl, of_decide_eq_true hq, of_decide_eq_true hq'] at this
  exact absurd this (by decide)

end Gotcha
