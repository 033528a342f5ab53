import Verif.Demo.Facts
import Verif.Props.Twin
/-
Two copies of GOTCHA in the process of Demo/World.
-/
namespace Gotcha.Demo
open Spec

/-- The second copy's code and handle variables. -/
def envTwin : Env :=
  { env with dlopenW := 0x521, dlsymW := 0x522, libcMainW := 0x523, mainW := 0x524,
             hDlopen := 0x21, hDlsym := 0x22, hLibcMain := 0x23, hMain := 0x24 }

/-- The first copy's history: tool B wraps foo. -/
def opsFirst : List Op := [.wrap [⟨nm "foo", 0x50a, 10⟩] (some B)]

/-- The second copy's history: tool A wraps foo as well. -/
def opsFooTwin : List Op := [.wrap [⟨nm "foo", 0x530, 0x30⟩] (some A)]

/-- The loader binds the plugin's slot for foo to libc's foo. -/
def loadBound : Load :=
  { libs := [plug], mem := fun a => if a = plug.addr + 0x18 then some 0x20004000 else none, wr := fun _ => none }

/-- Another history of the second copy: tool A wraps bar, and the plugin gets loaded. -/
def opsBar : List Op := [.wrap [⟨nm "bar", 0x531, 0x31⟩] (some A), .dlopen loadBound]

theorem firstCopy_history (strict : Prop) : History proc strict opsFirst where
  honest :=
    { nodup := by decide +kernel
      prog := by
        intro u hu
        simp only [opsFirst, List.flatMap_cons, List.flatMap_nil, tableOf, List.append_nil, List.mem_singleton]
          at hu
        subst hu
        decide
      own := envOk }
  loader := ⟨fun _ => dlopen_def, trivial⟩
  cons := fun _ => cons proc_ok.objs
  filter := by
    intro _ f hf
    simp [opsFirst] at hf
  main := fun _ => mainAlone_of ⟨fun h => absurd h (notMain (by decide +kernel)), trivial⟩
  short := fun _ => by decide

theorem firstCopy_run : ∃ s os, run proc.env opsFirst proc.start = .ok (s, os) := by
  obtain ⟨s, h, -⟩ := history_run proc_ok (firstCopy_history True)
  exact ⟨s, _, h⟩

theorem envTwinOk : EnvOk envTwin P := ⟨by decide, by decide, by decide, by decide, by decide⟩

theorem twinsFoo : Twins proc.env envTwin opsFirst opsFooTwin := ⟨rfl, rfl, by decide +kernel⟩
theorem twinsBar : Twins proc.env envTwin opsFirst opsBar := ⟨rfl, rfl, by decide +kernel⟩

variable {s : State} {os : List Obs}

theorem second_libs (hr : run proc.env opsFirst proc.start = .ok (s, os)) : s.linkMap = [app, libc] :=
  (events_env proc_ok _ (firstCopy_history True).toEvents hr).1

theorem second_ok (hr : run proc.env opsFirst proc.start = .ok (s, os)) : (proc.second envTwin s).Ok :=
  C123_second_process_ok proc_ok (firstCopy_history True).toEvents hr rfl rfl (fun h => by cases h)

theorem foo_history (hr : run proc.env opsFirst proc.start = .ok (s, os)) (strict : Prop) :
    History (proc.second envTwin s) strict opsFooTwin where
  honest :=
    { nodup := show (handlesOf envTwin opsFooTwin).Nodup by decide +kernel
      prog := by
        intro u hu
        simp only [opsFooTwin, List.flatMap_cons, List.flatMap_nil, tableOf, List.append_nil, List.mem_singleton]
          at hu
        subst hu
        show Demo.P 0x530 = some 0x30
        decide
      own := envTwinOk }
  loader := by
    refine ⟨fun _ => ?_, trivial⟩
    show firstDef (env.vdsoOf s.linkMap) s.linkMap (nm "dlopen") ≠ none
    rw [second_libs hr]
    exact dlopen_def
  cons := fun _ => cons (second_ok hr).objs
  filter := by
    intro _ f hf
    simp [opsFooTwin] at hf
  main := fun _ => mainAlone_of ⟨fun h => absurd h (notMain (by decide +kernel)), trivial⟩
  short := fun _ => by decide

theorem loadBound_ok (hr : run proc.env opsFirst proc.start = .ok (s, os)) (strict : Prop) :
    LoadsOk (proc.second envTwin s) strict (proc.second envTwin s).seen s.linkMap loadBound := by
  have h := loadPlug_ok strict
  have hl := second_libs hr
  refine ⟨h.objs, by rw [hl]; exact h.nd, ?_, by rw [hl]; exact h.placed, by intro l _ s _; simp [loadBound],
    ?_, fun hs => by rw [hl]; exact h.cons hs, ?_⟩
  · intro l hl' hs
    refine absurd hs ?_
    intro hs
    replace hs : l ∈ s.linkMap := hs
    rw [hl] at hs
    simp only [loadBound, List.mem_singleton] at hl'
    subst hl'
    simp only [List.mem_cons, List.not_mem_nil, or_false] at hs
    rcases hs with hs | hs <;> exact absurd (congrArg Lib.lm hs) (by decide)
  · intro l hl' x hx
    simp only [loadBound, List.mem_singleton] at hl'
    subst hl'
    exact Or.inr (cover_plug x hx)
  · intro _ l hl' x hx
    rw [hl] at hl'
    simp only [List.mem_cons, List.not_mem_nil, or_false] at hl'
    rcases hl' with rfl | rfl
    · rw [rl_app] at hx
      simp only [List.mem_cons, List.not_mem_nil, or_false] at hx
      rcases hx with rfl | rfl | rfl | rfl <;> decide
    · rw [rl_libc] at hx; cases hx

theorem bar_history (hr : run proc.env opsFirst proc.start = .ok (s, os)) (strict : Prop) :
    History (proc.second envTwin s) strict opsBar where
  honest :=
    { nodup := show (handlesOf envTwin opsBar).Nodup by decide +kernel
      prog := by
        intro u hu
        simp only [opsBar, List.flatMap_cons, List.flatMap_nil, tableOf, List.append_nil, List.mem_singleton]
          at hu
        subst hu
        show Demo.P 0x531 = some 0x31
        decide
      own := envTwinOk }
  loader := by
    refine ⟨fun _ => ?_, loadBound_ok hr strict, trivial⟩
    show firstDef (env.vdsoOf s.linkMap) s.linkMap (nm "dlopen") ≠ none
    rw [second_libs hr]
    exact dlopen_def
  cons := fun _ => cons (second_ok hr).objs
  filter := by
    intro _ f hf
    simp [opsBar] at hf
  main := fun _ => mainAlone_of ⟨fun h => absurd h (notMain (by decide +kernel)), trivial, trivial⟩
  short := fun _ => by decide

theorem foo_run (hr : run proc.env opsFirst proc.start = .ok (s, os)) :
    ∃ s2 os2, run envTwin opsFooTwin (proc.second envTwin s).start = .ok (s2, os2) := by
  obtain ⟨s2, h, -⟩ := history_run (second_ok hr) (foo_history hr True)
  exact ⟨s2, _, h⟩

theorem bar_run (hr : run proc.env opsFirst proc.start = .ok (s, os)) :
    ∃ s2 os2, run envTwin opsBar (proc.second envTwin s).start = .ok (s2, os2) := by
  obtain ⟨s2, h, -⟩ := history_run (second_ok hr) (bar_history hr True)
  exact ⟨s2, _, h⟩

/-- A slot for foo is a slot of no other function. -/
theorem foo_slot {a : Addr} (h : a = app.addr + 0x18 ∨ a = plug.addr + 0x18) :
    ∀ l, U l → ∀ x ∈ rlOf l, a = l.addr + x.1 → x.2 = nm "foo" := by
  intro l hl x hx e
  rcases hl with rfl | rfl | rfl
  · rw [rl_app] at hx
    simp only [List.mem_cons, List.not_mem_nil, or_false] at hx
    rcases hx with rfl | rfl | rfl | rfl
    · rfl
    all_goals rcases h with rfl | rfl <;> exact absurd e (by decide)
  · rw [rl_libc] at hx; cases hx
  · rw [rl_plug] at hx
    rw [List.mem_singleton] at hx
    subst hx
    rfl

end Gotcha.Demo
