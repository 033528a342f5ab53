import Verif.Demo.Facts
/-
Histories of the demo process on which expected properties fail, evaluated by the kernel.
-/
namespace Gotcha.Demo
open Spec

/-- Evaluate a condition on the state after a history. -/
def after (env : Env) (ops : List Op) (s0 : State) (q : State → Bool) : Bool :=
  match run env ops s0 with
  | .ok (s, _) => q s
  | .error _ => false

theorem after_run {env ops s0 q} (h : after env ops s0 q = true) :
    ∃ s os, run env ops s0 = .ok (s, os) ∧ q s = true := by
  unfold after at h
  cases hr : run env ops s0 with
  | error e => simp [hr] at h
  | ok x => exact ⟨x.1, x.2, rfl, by simpa [hr] using h⟩

/-- A dlopen of something already there. -/
def noLoad : Load := ⟨[], fun _ => none, fun _ => none⟩

theorem noLoad_ok {L : List Lib} (hU : ∀ l ∈ L, U l) (strict : Prop) (seen : Lib → Prop)
    (hnd : (L.map (·.lm)).Nodup := by decide) : LoadsOk proc strict seen L noLoad where
  objs := by intro l hl; cases hl
  nd := by rw [show L ++ noLoad.libs = L by simp [noLoad]]; exact hnd
  again := by intro l hl; cases hl
  placed := by rw [show L ++ noLoad.libs = L by simp [noLoad]]; exact placed hU
  old := by intro l _ s _; simp [noLoad]
  cover := by intro l hl; cases hl
  cons := by intro _; rw [show L ++ noLoad.libs = L by simp [noLoad]]; exact cons hU
  keep := by intro _ l _ s _; rfl

theorem libs2_U : ∀ l ∈ [app, libc], U l := proc_ok.objs

/-! the same table twice (C05) -/

def opsTwice : List Op :=
  [ .wrap [⟨nm "foo", 0x50a, 10⟩] (some B), .wrap [⟨nm "foo", 0x50a, 10⟩] (some B) ]

theorem twice_run : after env opsTwice proc.start (fun s =>
    match s.getWrappee 10 with
    | .ok a => decide (a = 0x50a) && decide (s.mem 0x10000018 = 0x50a)
    | .error _ => false) = true := by decide +kernel

/-! a filter that is lifted (C12) -/

def opsFilter : List Op :=
  [ .setFilter (.byName (some (nm "nothing"))),
    .wrap [⟨nm "foo", 0x50a, 10⟩] (some B),
    .setFilter .all,
    .wrap [⟨nm "bar", 0x50b, 11⟩] (some A),
    .dlopen noLoad ]

theorem filter_run : after env opsFilter proc.start (fun s =>
    decide (s.mem 0x10000018 = 0)) = true := by decide +kernel
theorem filter_reg : registered env opsFilter (nm "foo") = [⟨B, 0x50a, 10⟩] := by decide +kernel
theorem filter_real : realAfter env [app, libc] opsFilter (nm "foo") = some 0x20004000 := by
  decide +kernel

/-! main together with another function (C14) -/

def opsMain : List Op :=
  [ .wrap [⟨nm "main", 0x50d, 13⟩, ⟨nm "foo", 0x50a, 10⟩] (some M) ]

theorem main_run : after env opsMain proc.start (fun s =>
    decide (s.mem 0x10000018 = 0)) = true := by decide +kernel
theorem main_reg : registered env opsMain (nm "foo") = [⟨M, 0x50a, 10⟩] := by decide +kernel
theorem main_real : realAfter env [app, libc] opsMain (nm "foo") = some 0x20004000 := by
  decide +kernel

/-! an object loaded behind GOTCHA's back (C16) -/

def opsSilent : List Op :=
  [ .wrap [⟨nm "foo", 0x50a, 10⟩] (some B),
    .load loadPlug,
    .wrap [⟨nm "bar", 0x50b, 11⟩] (some A),
    .dlopen noLoad ]

theorem silent_run : after env opsSilent proc.start (fun s =>
    decide (s.mem 0x30000018 = 0)) = true := by decide +kernel
theorem silent_reg : registered env opsSilent (nm "foo") = [⟨B, 0x50a, 10⟩] := by decide +kernel
theorem silent_real : realAfter env [app, libc] opsSilent (nm "foo") = some 0x20004000 := by
  decide +kernel

/-! dlclose and dlopen again (C15, C23) -/

def deadPlug (a : Addr) : Bool := decide (a = 0x3000)

/-- The plugin is loaded again at the same place; the loader binds its slot for foo to libc's foo and
its pages are read-only after relocation. -/
def reload : Load :=
  { libs := [plug]
    mem := fun a => if a = 0x30000018 then some 0x20004000 else none
    wr := fun a => if a = 0x30000018 then some false else none }

def opsReload : List Op :=
  [ .wrap [⟨nm "foo", 0x50a, 10⟩] (some B), .dlopen loadPlug, .unload deadPlug, .dlopen reload ]

theorem reload_run : after env opsReload proc.start (fun s =>
    decide (s.mem 0x30000018 = 0x20004000)) = true := by decide +kernel
theorem reload_reg : registered env opsReload (nm "foo") = [⟨B, 0x50a, 10⟩] := by decide +kernel
theorem reload_real : realAfter env [app, libc] opsReload (nm "foo") = some 0x20004000 := by
  decide +kernel

/-- With another gotcha_wrap in between, the stale record is of an old generation, so the plugin is
processed, but its pages are believed to be writable. -/
def opsCrash : List Op :=
  [ .wrap [⟨nm "foo", 0x50a, 10⟩] (some B), .dlopen loadPlug, .unload deadPlug,
    .wrap [⟨nm "bar", 0x50b, 11⟩] (some A), .dlopen reload ]

theorem crash_run : (match run env opsCrash proc.start with
    | .error .segv => true
    | _ => false) = true := by decide +kernel

end Gotcha.Demo
