import Verif.Demo.Twin
/-
C123: the theorems of Props/Twin at work, and what is not true of two copies.
-/
namespace Gotcha
open Spec

/-- Both copies have wrapped foo: only the second copy's wrapper runs. -/
theorem C123_example_both {s os} (hr : run Demo.proc.env Demo.opsFirst Demo.proc.start = .ok (s, os))
    {s2 os2} (hr2 : run Demo.envTwin Demo.opsFooTwin (Demo.proc.second Demo.envTwin s).start = .ok (s2, os2)) :
    Calls2 Demo.P (handlesOf Demo.env Demo.opsFirst) s s2 (s2.mem (Demo.app.addr + 0x18))
      [0x530, 0x20004000] := by
  have hreg : registered Demo.envTwin Demo.opsFooTwin (nm "foo") = [⟨Demo.A, 0x530, 0x30⟩] := by decide +kernel
  obtain ⟨order, h1, -, h2⟩ := C123_second_copy_takes_over Demo.proc_ok (Demo.firstCopy_history True) hr
    Demo.twinsFoo (fun h => by cases h) (good := fun _ => True) (Demo.foo_history hr True).for hr2
    (nm "foo") (r := 0x20004000) (by rw [hreg]; simp) (by decide +kernel) (by decide)
  rw [hreg] at h1
  have := List.perm_singleton.1 h1
  subst this
  exact (h2 Demo.app (by show Demo.app ∈ [Demo.app, Demo.libc]; simp) trivial 0x18 Demo.slot_app _).2 rfl

/-- Only the first copy has wrapped foo, and the second copy's clients loaded the plugin: foo called from
the application still runs the first copy's wrapper, foo called from the plugin does not. -/
theorem C123_example_split {s os} (hr : run Demo.proc.env Demo.opsFirst Demo.proc.start = .ok (s, os))
    {s2 os2} (hr2 : run Demo.envTwin Demo.opsBar (Demo.proc.second Demo.envTwin s).start = .ok (s2, os2)) :
    Calls2 Demo.P (handlesOf Demo.env Demo.opsFirst) s s2 (s2.mem (Demo.app.addr + 0x18))
      [0x50a, 0x20004000] ∧
    Calls2 Demo.P (handlesOf Demo.env Demo.opsFirst) s s2 (s2.mem (Demo.plug.addr + 0x18))
      [0x20004000] := by
  have hf : ∀ u, u ∈ ownTable Demo.envTwin ∨ u ∈ Demo.opsBar.flatMap tableOf → u.name ≠ nm "foo" := by
    have : ∀ u ∈ ownTable Demo.envTwin ++ Demo.opsBar.flatMap tableOf, u.name ≠ nm "foo" := by
      decide +kernel
    exact fun u hu => this u (List.mem_append.2 hu)
  constructor
  · have hreg : registered Demo.env Demo.opsFirst (nm "foo") = [⟨Demo.B, 0x50a, 10⟩] := by decide +kernel
    obtain ⟨order, h1, h2⟩ := C123_first_copy_keeps_the_rest Demo.proc_ok (good1 := fun _ => True)
      (Demo.firstCopy_history True).for hr Demo.twinsBar (fun h => by cases h)
      (Demo.bar_history hr True).toEvents hr2 (nm "foo") (r := 0x20004000)
      (by show registered Demo.env _ _ ≠ []; rw [hreg]; simp) (by decide +kernel) (by decide) hf
    replace h1 : order.Perm (registered Demo.env Demo.opsFirst (nm "foo")) := h1
    rw [hreg] at h1
    have := List.perm_singleton.1 h1
    subst this
    refine (h2 Demo.app (by show Demo.app ∈ [Demo.app, Demo.libc]; simp) trivial 0x18 Demo.slot_app
      (Demo.foo_slot (Or.inl rfl)) ?_ _).2 rfl
    intro op hop v
    simp only [Demo.opsBar, List.mem_cons, List.not_mem_nil, or_false] at hop
    rcases hop with rfl | rfl
    · rfl
    · have : Demo.loadBound.mem (Demo.app.addr + 0x18) = none := by decide
      simp only [loaderWord, this, Option.getD_none]
  · refine (C123_later_libraries_are_missed Demo.proc_ok (Demo.firstCopy_history True).toEvents hr Demo.twinsBar
      (fun h => by cases h) (Demo.bar_history hr True).toEvents hr2 hf (l := Demo.plug) (off := 0x18)
      (Demo.foo_slot (Or.inr rfl)) ?_ (by decide) _).2 rfl
    have : Demo.loadBound.mem (Demo.plug.addr + 0x18) = some 0x20004000 := by decide
    simp only [Demo.opsBar, loaderMem, List.foldl_cons, List.foldl_nil, loaderWord, this, Option.getD_some]

/-- C123: what two tools sharing one copy can rely on is false of two copies: it is not so that a call of
a function both have wrapped runs the wrappers of both. -/
theorem C123_both_run_refuted :
    ¬ ∀ (p : Process) (_ : p.Ok) (env2 : Env) (ops ops2 : List Op) (_ : History p True ops)
        (s : State) (os : List Obs) (_ : run p.env ops p.start = .ok (s, os)) (_ : Twins p.env env2 ops ops2)
        (_ : History (p.second env2 s) True ops2) (s2 : State) (os2 : List Obs)
        (_ : run env2 ops2 (p.second env2 s).start = .ok (s2, os2)) (f : Name),
        ∀ l ∈ s2.linkMap, ∀ off, (off, f) ∈ rlOf l → ∀ path,
          Calls2 p.P (handlesOf p.env ops) s s2 (s2.mem (l.addr + off)) path →
          ∀ fr ∈ registered p.env ops f ++ registered env2 ops2 f, fr.wrapper ∈ path := by
  intro h
  obtain ⟨s, os, hr⟩ := Demo.firstCopy_run
  obtain ⟨s2, os2, hr2⟩ := Demo.foo_run hr
  have hl2 : s2.linkMap = [Demo.app, Demo.libc] := by
    rw [(events_env (Demo.second_ok hr) _ (Demo.foo_history hr True).toEvents hr2).1]
    show s.linkMap = _
    exact Demo.second_libs hr
  have := h Demo.proc Demo.proc_ok Demo.envTwin Demo.opsFirst Demo.opsFooTwin (Demo.firstCopy_history True) s os hr
    Demo.twinsFoo (Demo.foo_history hr True) s2 os2 hr2 (nm "foo") Demo.app (by rw [hl2]; simp) 0x18
    Demo.slot_app _ (C123_example_both hr hr2) ⟨Demo.B, 0x50a, 10⟩ (by
      have : registered Demo.proc.env Demo.opsFirst (nm "foo") = [⟨Demo.B, 0x50a, 10⟩] := by decide +kernel
      rw [this]; simp)
  revert this
  decide

/-- The runs of the two examples exist. -/
example : ∃ s os s2 os2 s3 os3, run Demo.proc.env Demo.opsFirst Demo.proc.start = .ok (s, os) ∧
    run Demo.envTwin Demo.opsFooTwin (Demo.proc.second Demo.envTwin s).start = .ok (s2, os2) ∧
    run Demo.envTwin Demo.opsBar (Demo.proc.second Demo.envTwin s).start = .ok (s3, os3) := by
  obtain ⟨s, os, hr⟩ := Demo.firstCopy_run
  obtain ⟨s2, os2, hr2⟩ := Demo.foo_run hr
  obtain ⟨s3, os3, hr3⟩ := Demo.bar_run hr
  exact ⟨s, os, s2, os2, s3, os3, hr, hr2, hr3⟩

/-- The first copy misses the dlopen of the application. -/
example {s os} (hr : run Demo.proc.env Demo.opsFirst Demo.proc.start = .ok (s, os)) {s2 os2}
    (hr2 : run Demo.envTwin Demo.opsFooTwin (Demo.proc.second Demo.envTwin s).start = .ok (s2, os2)) :
    ∃ path, Calls2 Demo.P (handlesOf Demo.env Demo.opsFirst) s s2 (s2.mem (Demo.app.addr + 0x28)) path ∧
      Demo.env.dlopenW ∉ path :=
  C123_first_copy_misses_dlopen Demo.proc_ok (Demo.firstCopy_history True) hr Demo.twinsFoo
    (fun h => by cases h) (good := fun _ => True) (Demo.foo_history hr True).for hr2
    (r := (realAfter Demo.envTwin [Demo.app, Demo.libc] Demo.opsFooTwin (nm "dlopen")).getD 0)
    (by decide +kernel) (by decide +kernel) (by decide +kernel) Demo.app
    (by show Demo.app ∈ [Demo.app, Demo.libc]; simp) trivial 0x28 (by rw [Demo.rl_app]; simp)

end Gotcha
