import Verif.Props.Dlsym
/-
C83–C86: pointers to wrapped functions that outlive the state they were read in, dlsym as a probe for
optional functions, RTLD_NEXT for wrapped functions, and the place of GOTCHA's own wrappers.
-/
namespace Gotcha
open Spec

theorem stackOf_sublist (p : Process) (ops ops' : List Op) (f : Name) :
    (stackOf p ops f).Sublist (stackOf p (ops ++ ops') f) := by
  unfold stackOf
  rw [run_append]
  exact (run_grow p.env ops' _).sub f

theorem stackOf_ne {p : Process} {ops : List Op} {f : Name} (h : registered p.env ops f ≠ []) :
    ∃ fr st, stackOf p ops f = fr :: st := by
  cases hst : stackOf p ops f with
  | nil =>
    have := stackOf_perm p ops f
    rw [hst] at this
    exact absurd (List.nil_perm.1 this) h
  | cons fr st => exact ⟨fr, st, rfl⟩

/-- A list that starts inside another one: what comes before its head, and the rest. -/
theorem sublist_split {α : Type} {a : α} {st L : List α} (h : (a :: st).Sublist L) :
    ∃ X Y, L = X ++ a :: Y ∧ st.Sublist Y := by
  induction L with
  | nil => cases h
  | cons b L ih =>
    cases h with
    | cons _ h =>
      obtain ⟨X, Y, rfl, h2⟩ := ih h
      exact ⟨b :: X, Y, rfl, h2⟩
    | cons_cons _ h => exact ⟨[], L, rfl, h⟩

/-- C83.  A pointer to a wrapped function `f`, read from a GOT slot after the history `ops` and called
after any continuation `ops'`: a direct call then runs the wrappers `outer`, `inner` and the real
function; the pointer runs exactly `inner` and the real function.  Every wrapper registered when the
pointer was read is still run, in the same order; `outer` consists of wrappers registered later. -/
theorem C83_pointer_keeps_its_wrappers {p : Process} (ok : p.Ok) {ops ops' : List Op}
    (h : History p True (ops ++ ops')) {s os s' os'} (hr : run p.env ops p.start = .ok (s, os))
    (hr' : run p.env (ops ++ ops') p.start = .ok (s', os')) {f : Name}
    (hreg : registered p.env ops f ≠ []) {r : Addr}
    (hreal : realAfter p.env p.libs (ops ++ ops') f = some r) (hprog : p.P r = none)
    {l : Lib} {off : Addr} (hl : l ∈ libsAfter p.libs ops) (hoff : (off, f) ∈ rlOf l) :
    ∃ outer inner order : List Frame,
      (outer ++ inner).Perm (registered p.env (ops ++ ops') f) ∧
      (∀ l' ∈ libsAfter p.libs (ops ++ ops'), ∀ off', (off', f) ∈ rlOf l' →
        Calls p.P s' (s'.mem (l'.addr + off')) (wrappers outer ++ wrappers inner ++ [r])) ∧
      (∀ path, Calls p.P s' (s.mem (l.addr + off)) path ↔ path = wrappers inner ++ [r]) ∧
      order.Perm (registered p.env ops f) ∧ order.Sublist inner ∧
      (∀ r0, realAfter p.env p.libs ops f = some r0 → r0 = r ∧
        Calls p.P s (s.mem (l.addr + off)) (wrappers order ++ [r])) ∧
      ∀ g ∈ outer, g ∉ registered p.env ops f := by
  obtain ⟨hv, hlm, -⟩ := history_view ok h.prefix hr
  obtain ⟨hv', hlm', -⟩ := history_view ok h hr'
  obtain ⟨fr, st, hst⟩ := stackOf_ne hreg
  have hsub := stackOf_sublist p ops ops' f
  rw [hst] at hsub
  obtain ⟨X, Y, hXY, hY⟩ := sublist_split hsub
  have hslot : s.mem (l.addr + off) = fr.wrapper :=
    hv.slots trivial l (by rw [hlm]; exact hl) trivial (off, f) hoff fr st hst
  have hR' : (Abs.run p.env (ops ++ ops') p.abs).1.real f = some r := by rw [real_run]; exact hreal
  have hin := view_calls hv' hR' hprog (fr :: Y) X hXY fr Y rfl
  have hwhole : ∀ g gs, X ++ fr :: Y = g :: gs →
      Calls p.P s' g.wrapper (wrappers X ++ wrappers (fr :: Y) ++ [r]) := by
    intro g gs e
    have := view_calls hv' hR' hprog (X ++ fr :: Y) [] hXY g gs e
    simpa [wrappers] using this
  refine ⟨X, fr :: Y, fr :: st, ?_, ?_, ?_, ?_, hY.cons_cons fr, ?_, ?_⟩
  · rw [← hXY]; exact stackOf_perm p (ops ++ ops') f
  · intro l' hl' off' hoff'
    cases hXe : X ++ fr :: Y with
    | nil => simp at hXe
    | cons g gs =>
      have : s'.mem (l'.addr + off') = g.wrapper :=
        hv'.slots trivial l' (by rw [hlm']; exact hl') trivial (off', f) hoff' g gs (hXY.trans hXe)
      rw [this]
      exact hwhole g gs hXe
  · intro path
    rw [hslot]
    exact ⟨fun hc => hc.det hin, fun e => e ▸ hin⟩
  · rw [← hst]; exact stackOf_perm p ops f
  · intro r0 hr0
    have hR : (Abs.run p.env ops p.abs).1.real f = some r0 := by rw [real_run]; exact hr0
    have e : r0 = r := by
      have hg := (run_grow p.env ops' (Abs.run p.env ops p.abs).1).real f r0
        (by rw [show (Abs.run p.env ops p.abs).1.stack f = _ from hst]; simp) hR
      rw [run_append] at hR'
      exact Option.some.inj (hg.symm.trans hR')
    subst e
    refine ⟨rfl, ?_⟩
    rw [hslot]
    exact view_calls hv hR hprog (fr :: st) [] hst fr st rfl
  · intro g hg hc
    have hmem : g ∈ fr :: st := by rw [← hst]; exact (stackOf_perm p ops f).mem_iff.2 hc
    have hmem' : g ∈ fr :: Y := (hY.cons_cons fr).subset hmem
    have hn := (view_nodup hv' f).1
    rw [show (Abs.run p.env (ops ++ ops') p.abs).1.stack f = _ from hXY, List.map_append,
      List.nodup_append] at hn
    exact hn.2.2 g.handle (List.mem_map_of_mem hg) g.handle (List.mem_map_of_mem hmem') rfl

/-- C83: a function pointer created after wrapping should be wrapped by every tool. -/
theorem C83_later_outer_tool_refuted :
    ¬ ∀ (p : Process), p.Ok → ∀ ops ops', History p True (ops ++ ops') → ∀ s os s' os',
      run p.env ops p.start = .ok (s, os) → run p.env (ops ++ ops') p.start = .ok (s', os') →
      ∀ f r, registered p.env ops f ≠ [] → realAfter p.env p.libs (ops ++ ops') f = some r →
      p.P r = none → ∀ l ∈ libsAfter p.libs ops, ∀ off, (off, f) ∈ rlOf l →
      ∀ path, Calls p.P s' (s.mem (l.addr + off)) path →
      ∀ g ∈ registered p.env (ops ++ ops') f, g.wrapper ∈ path := by
  intro hdoc
  obtain ⟨s, os, hr⟩ := Demo.prefix_run 2
  obtain ⟨s', os', hr'⟩ := Demo.demo_run
  have hh : History Demo.proc True (Demo.ops.take 2 ++ Demo.ops.drop 2) := Demo.history True
  have hrun : run Demo.proc.env (Demo.ops.take 2 ++ Demo.ops.drop 2) Demo.proc.start =
    .ok (s', os') := hr'
  have hreg : registered Demo.proc.env (Demo.ops.take 2) (nm "foo") = [⟨Demo.B, 0x50a, 10⟩] := by
    decide +kernel
  have hreal : realAfter Demo.proc.env Demo.proc.libs (Demo.ops.take 2 ++ Demo.ops.drop 2)
    (nm "foo") = some 0x20004000 := Demo.real_foo
  have hne : registered Demo.proc.env (Demo.ops.take 2) (nm "foo") ≠ [] := by rw [hreg]; simp
  have hall : registered Demo.proc.env (Demo.ops.take 2 ++ Demo.ops.drop 2) (nm "foo") =
    [⟨Demo.B, 0x50a, 10⟩, ⟨Demo.A, 0x50c, 12⟩] := Demo.reg_foo
  have hl : Demo.app ∈ libsAfter Demo.proc.libs (Demo.ops.take 2) := by
    show Demo.app ∈ [Demo.app, Demo.libc]; simp
  obtain ⟨hv, hlm, -⟩ := history_view Demo.proc_ok hh.prefix hr
  obtain ⟨hv', hlm', -⟩ := history_view Demo.proc_ok hh hrun
  have hst : stackOf Demo.proc (Demo.ops.take 2) (nm "foo") = [⟨Demo.B, 0x50a, 10⟩] := by
    decide +kernel
  have hst' : stackOf Demo.proc (Demo.ops.take 2 ++ Demo.ops.drop 2) (nm "foo") =
    [⟨Demo.A, 0x50c, 12⟩] ++ [⟨Demo.B, 0x50a, 10⟩] := by decide +kernel
  have hslot : s.mem (Demo.app.addr + 0x18) = 0x50a :=
    hv.slots trivial Demo.app (by rw [hlm]; exact hl) trivial _ Demo.slot_app ⟨Demo.B, 0x50a, 10⟩ [] hst
  have hc := view_calls hv' (by rw [real_run]; exact hreal) (show Demo.proc.P 0x20004000 = none by decide)
    [⟨Demo.B, 0x50a, 10⟩] [⟨Demo.A, 0x50c, 12⟩] hst' ⟨Demo.B, 0x50a, 10⟩ [] rfl
  have := hdoc Demo.proc Demo.proc_ok (Demo.ops.take 2) (Demo.ops.drop 2) hh s os s' os' hr hrun
    (nm "foo") 0x20004000 hne hreal (by decide) Demo.app hl 0x18 Demo.slot_app _
    (by rw [hslot]; exact hc) ⟨Demo.A, 0x50c, 12⟩ (by rw [hall]; simp)
  revert this
  decide

/-- In the demo history a pointer to foo taken after the first gotcha_wrap still runs tool B's wrapper
at the end, although tool A has come outside it. -/
example : ∃ s os s' os', run Demo.proc.env (Demo.ops.take 2) Demo.proc.start = .ok (s, os) ∧
    run Demo.proc.env Demo.ops Demo.proc.start = .ok (s', os') ∧
    ∃ path, Calls Demo.P s' (s.mem (Demo.app.addr + 0x18)) path ∧ 0x50a ∈ path ∧
      path.getLast? = some 0x20004000 := by
  obtain ⟨s, os, hr⟩ := Demo.prefix_run 2
  obtain ⟨s', os', hr'⟩ := Demo.demo_run
  have hreg : registered Demo.proc.env (Demo.ops.take 2) (nm "foo") = [⟨Demo.B, 0x50a, 10⟩] := by
    decide +kernel
  obtain ⟨X, Y, o, -, -, h3, h4, h5, -, -⟩ := C83_pointer_keeps_its_wrappers Demo.proc_ok
    (ops := Demo.ops.take 2) (ops' := Demo.ops.drop 2) (Demo.history True) hr hr' (f := nm "foo")
    (by rw [hreg]; simp) Demo.real_foo (by decide)
    (show Demo.app ∈ [Demo.app, Demo.libc] by simp) Demo.slot_app
  refine ⟨s, os, s', os', hr, hr', _, (h3 _).2 rfl, ?_, by simp⟩
  rw [hreg] at h4
  have : (⟨Demo.B, 0x50a, 10⟩ : Frame) ∈ Y := h5.subset (h4.mem_iff.2 (by simp))
  exact List.mem_append_left _ (List.mem_map_of_mem (f := Frame.wrapper) this)

/-! ### dlsym as a probe -/

/-- `Stray P s a path`: a call that jumps to `a` runs the wrappers `path`, in this order, and the last
of them is handed an indeterminate pointer by gotcha_get_wrappee. -/
inductive Stray (P : Addr → Option HAddr) (s : State) : Addr → List Addr → Prop
  | here {a h} : P a = some h → s.getWrappee h = .error .uninit → Stray P s a [a]
  | next {a h a' path} : P a = some h → s.getWrappee h = .ok a' → Stray P s a' path →
      Stray P s a (a :: path)

theorem Stray.no_call {P s a path} (h : Stray P s a path) : ∀ path', ¬ Calls P s a path' := by
  induction h with
  | here h1 h2 =>
    intro path' hc
    obtain ⟨_, _, -, h3, -⟩ := hc.inv h1
    rw [h2] at h3; cases h3
  | next h1 h2 _ ih =>
    intro path' hc
    obtain ⟨_, p', -, h3, h4⟩ := hc.inv h1
    rw [h2] at h3; cases h3
    exact ih p' h4

theorem view_stray {P strict s A} (hv : View P strict s A) {f : Name} (hreal : A.real f = none) :
    ∀ (st pre : List Frame), A.stack f = pre ++ st → ∀ fr st', st = fr :: st' →
      Stray P s fr.wrapper (wrappers st) := by
  intro st
  induction st with
  | nil => intro pre _ fr st' e; cases e
  | cons g st ih =>
    intro pre he fr st' e
    cases e
    have hg : (A.stack f)[pre.length]? = some g := by rw [he]; simp
    have hw := hv.wrappee f pre.length g hg
    have hp := hv.prog f g (List.mem_of_getElem? hg)
    cases st with
    | nil =>
      have hn : nextOf (A.stack f) (A.real f) pre.length = none := by
        unfold nextOf
        rw [he]
        simp [hreal]
      rw [hn] at hw
      exact Stray.here hp hw
    | cons g' st =>
      have hn : nextOf (A.stack f) (A.real f) pre.length = some g'.wrapper := by
        unfold nextOf
        rw [he]
        simp
      rw [hn] at hw
      exact Stray.next hp hw (ih (pre ++ [g]) (by rw [he]; simp) g' st rfl)

/-- C84.  For a function that some tool asked for and that no library has, an intercepted dlsym returns
the address of a wrapper where the real dlsym returns NULL, with every handle.  Calling what it
returns runs all the wrappers of the function, each once, and the innermost one is handed an
indeterminate pointer; the call reaches no function. -/
theorem C84_probe_finds_a_missing_function {p : Process} (ok : p.Ok) {strict : Prop} {ops : List Op}
    (h : History p strict ops) {s os} (hr : run p.env ops p.start = .ok (s, os))
    (hd : HasDl p ops) {f : Name} (hreg : registered p.env ops f ≠ [])
    (hreal : realAfter p.env p.libs ops f = none) (real : RealDl) (hnd : DlHandle)
    (hnull : real.dlsym hnd f = 0) (who : Addr) :
    ∃ a order, dlsymWrapper p.env real hnd f who s = .ok (s, a) ∧
      order.Perm (registered p.env ops f) ∧ p.P a ≠ none ∧
      Stray p.P s a (wrappers order) ∧ ∀ path, ¬ Calls p.P s a path := by
  obtain ⟨hv, -, -⟩ := history_view ok h hr
  obtain ⟨fr, st, hst⟩ := stackOf_ne hreg
  have hs := view_stray hv (by rw [real_run]; exact hreal) (fr :: st) [] hst fr st rfl
  refine ⟨fr.wrapper, fr :: st, (dlsym_wrapped ok h hr hd hst real hnd who).1 hnull, ?_, ?_, hs,
    hs.no_call⟩
  · rw [← hst]; exact stackOf_perm p ops f
  · rw [hv.prog f fr (by rw [show (Abs.run p.env ops p.abs).1.stack f = _ from hst]; simp)]
    simp

/-- Before the plugin is there, probing for bar succeeds and calling the result goes astray. -/
example : ∃ s os, run Demo.proc.env (Demo.ops.take 3) Demo.proc.start = .ok (s, os) ∧
    ∃ a order, dlsymWrapper Demo.proc.env ⟨fun _ _ => 0, fun _ => .other 0⟩ (.other 7) (nm "bar") 0 s
      = .ok (s, a) ∧ Stray Demo.P s a (wrappers order) := by
  obtain ⟨s, os, hr⟩ := Demo.prefix_run 3
  obtain ⟨a, order, h1, -, -, h2, -⟩ := C84_probe_finds_a_missing_function Demo.proc_ok
    (Demo.prefix_history True 3) hr ⟨by decide +kernel, by decide +kernel⟩ (f := nm "bar")
    (by rw [show registered Demo.proc.env _ _ = _ from Demo.reg_bar3]; simp) Demo.real_bar3
    ⟨fun _ _ => 0, fun _ => .other 0⟩ (.other 7) rfl 0
  exact ⟨s, os, hr, a, order, h1, h2⟩

/-- C84: a program that finds a function with dlsym should be able to call it. -/
theorem C84_found_means_callable_refuted :
    ¬ ∀ (p : Process), p.Ok → ∀ ops, History p True ops → HasDl p ops → ∀ s os,
      run p.env ops p.start = .ok (s, os) → ∀ (real : RealDl) n f who,
      (real.dlsym (.other n) f = 0 ∨ p.P (real.dlsym (.other n) f) = none) →
      ∀ s' a, dlsymWrapper p.env real (.other n) f who s = .ok (s', a) → a = 0 ∨
        ∃ path, Calls p.P s' a path := by
  intro hdoc
  obtain ⟨s, os, hr⟩ := Demo.prefix_run 3
  have hd : HasDl Demo.proc (Demo.ops.take 3) := ⟨by decide +kernel, by decide +kernel⟩
  obtain ⟨a, order, h1, -, h3, -, h5⟩ := C84_probe_finds_a_missing_function Demo.proc_ok
    (Demo.prefix_history True 3) hr hd (f := nm "bar")
    (by rw [show registered Demo.proc.env _ _ = _ from Demo.reg_bar3]; simp) Demo.real_bar3
    ⟨fun _ _ => 0, fun _ => .other 0⟩ (.other 7) rfl 0
  rcases hdoc Demo.proc Demo.proc_ok _ (Demo.prefix_history True 3) hd s os hr
    ⟨fun _ _ => 0, fun _ => .other 0⟩ 7 (nm "bar") 0 (Or.inl rfl) s a h1 with h | ⟨path, h⟩
  · subst h
    exact h3 (by show Demo.P 0 = none; decide)
  · exact h5 path h

/-- C84, the other way round: if the real dlsym does find a function of that name (in a library GOTCHA
has not looked at), and one tool asked for it, the intercepted dlsym compares the address with an
indeterminate pointer. -/
theorem C84_probe_compares_an_indeterminate_pointer {p : Process} (ok : p.Ok) {strict : Prop}
    {ops : List Op} (h : History p strict ops) {s os} (hr : run p.env ops p.start = .ok (s, os))
    (hd : HasDl p ops) {f : Name} {fr : Frame} (hone : registered p.env ops f = [fr])
    (hreal : realAfter p.env p.libs ops f = none) (real : RealDl) (hnd : DlHandle)
    (hfound : real.dlsym hnd f ≠ 0) (who : Addr) :
    dlsymWrapper p.env real hnd f who s = .error .uninit := by
  have hp := stackOf_perm p ops f
  rw [hone] at hp
  have hl := history_linked ok h hr f
  rw [List.perm_singleton.1 hp, hreal] at hl
  exact (dlsym_wrapped ok h hr hd (List.perm_singleton.1 hp) real hnd who).2.2.2.2 hfound
    (hl.last fr rfl)

example : ∃ s os, run Demo.proc.env (Demo.ops.take 3) Demo.proc.start = .ok (s, os) ∧
    dlsymWrapper Demo.proc.env ⟨fun _ _ => 0x77, fun _ => .other 0⟩ (.other 7) (nm "bar") 0 s =
      .error .uninit := by
  obtain ⟨s, os, hr⟩ := Demo.prefix_run 3
  exact ⟨s, os, hr, C84_probe_compares_an_indeterminate_pointer Demo.proc_ok
    (Demo.prefix_history True 3) hr ⟨by decide +kernel, by decide +kernel⟩ Demo.reg_bar3
    Demo.real_bar3 ⟨fun _ _ => 0x77, fun _ => .other 0⟩ (.other 7)
    (by show (0x77 : Addr) ≠ 0; decide) 0⟩

/-! ### RTLD_NEXT for a wrapped function -/

/-- C85.  For a function wrapped by one tool and resolved to `r`: if the real dlsym(RTLD_NEXT), which is
called from GOTCHA's own code, finds `r` or nothing, then dlsym(RTLD_NEXT) returns the wrapper to every
caller, and calling it runs the wrapper and then `r`, wherever `r` and the caller are. -/
theorem C85_next_ignores_the_caller {p : Process} (ok : p.Ok) {strict : Prop} {ops : List Op}
    (h : History p strict ops) {s os} (hr : run p.env ops p.start = .ok (s, os))
    (hd : HasDl p ops) {f : Name} {fr : Frame} (hone : registered p.env ops f = [fr]) {r : Addr}
    (hreal : realAfter p.env p.libs ops f = some r) (hprog : p.P r = none) (real : RealDl)
    (hnext : real.dlsym .next f = 0 ∨ real.dlsym .next f = r) (who : Addr) :
    dlsymWrapper p.env real .next f who s = .ok (s, fr.wrapper) ∧
      ∀ path, Calls p.P s fr.wrapper path ↔ path = [fr.wrapper, r] := by
  refine ⟨(C17_dlsym_one_tool ok h hr hd hone hreal real who).1 .next hnext, ?_⟩
  obtain ⟨hv, -, -⟩ := history_view ok h hr
  have hp := stackOf_perm p ops f
  rw [hone] at hp
  have hst := List.perm_singleton.1 hp
  have hc := view_calls hv (by rw [real_run]; exact hreal) hprog [fr] [] hst fr [] rfl
  exact fun path => ⟨fun h => h.det hc, fun e => e ▸ hc⟩

/-- C85, the other case: the real dlsym(RTLD_NEXT) finds some function that is not the wrapped one (or
two tools wrapped it).  Then the caller counts, and the wrappers are bypassed: the result is what the
real dlsym finds in the first library after the caller's that exports `f`. -/
theorem C85_next_otherwise_bypasses {p : Process} (ok : p.Ok) {strict : Prop} {ops : List Op}
    (h : History p strict ops) {s os} (hr : run p.env ops p.start = .ok (s, os))
    (hd : HasDl p ops) {f : Name} (hreg : registered p.env ops f ≠ []) {r : Addr}
    (hreal : realAfter p.env p.libs ops f = some r) (real : RealDl)
    (h0 : real.dlsym .next f ≠ 0) (hraw : p.P (real.dlsym .next f) = none)
    (hne : real.dlsym .next f = r → 2 ≤ (registered p.env ops f).length)
    (who : Addr) {X Y : List Lib} {c : Lib}
    (hlibs : libsAfter p.libs ops = X ++ c :: Y) (hc : Contains c who)
    (hfirst : ∀ o ∈ X, ¬ Contains o who) :
    dlsymWrapper p.env real .next f who s = .ok (s,
      match Y.find? (fun l => decide (vdsoAfter p.env p.libs ops ≠ some l.lm) &&
          (exportsAt l f).isSome) with
      | some l => real.dlsym (real.dlopen l.name) f
      | none => 0) := by
  obtain ⟨hv, -, hini⟩ := history_view ok h hr
  have hi : s.inited = true := by rw [hini]; exact inited_of_registered hreg
  obtain ⟨fr, st, hst⟩ := stackOf_ne hreg
  have hl := history_linked ok h hr f
  rw [hst, hreal] at hl
  have hN := rtldNext_spec ok h hr hi f who hlibs hc hfirst
  have hlen := (stackOf_perm p ops f).length_eq
  rw [hst] at hlen
  cases st with
  | nil =>
    refine (dlsym_wrapped ok h hr hd hst real .next who).2.2.2.1 r _ (hl.last fr rfl) h0 ?_ hN
    intro e
    have := hne e
    simp only [List.length_singleton] at hlen
    omega
  | cons b st =>
    refine (dlsym_wrapped ok h hr hd hst real .next who).2.2.2.1 b.wrapper _
      (hl.next 0 fr b rfl rfl) h0 ?_ hN
    intro e
    have := hv.prog f b (by
      show b ∈ stackOf p ops f
      rw [hst]; simp)
    rw [← e, hraw] at this
    cases this

/-- The real dlsym(RTLD_NEXT) called from code in the object `g`: the first definition after `g`. -/
def NextFrom (real : RealDl) (v : Option Addr) (libs : List Lib) (g : Lib) : Prop :=
  ∃ X Y, libs = X ++ g :: Y ∧ ∀ f, real.dlsym .next f = (firstDef v Y f).getD 0

theorem reg_foo_take2 : registered Demo.proc.env (Demo.ops.take 2) (nm "foo") =
    [⟨Demo.B, 0x50a, 10⟩] := by decide +kernel

theorem real_foo_take2 : realAfter Demo.proc.env Demo.proc.libs (Demo.ops.take 2) (nm "foo") =
    some 0x20004000 := by decide +kernel

/-- The real dlsym of the demo process, called from the application (GOTCHA linked into it). -/
def nextDl : RealDl :=
  ⟨fun _ f => (firstDef none [Demo.libc] f).getD 0, fun _ => .other 0⟩

theorem nextDl_from : NextFrom nextDl none [Demo.app, Demo.libc] Demo.app :=
  ⟨[], [Demo.libc], rfl, fun _ => rfl⟩

theorem nextDl_foo : nextDl.dlsym .next (nm "foo") = 0x20004000 := by decide +kernel

/-- C85: what dlsym(RTLD_NEXT, f) returns should lead to a library after the caller's; a library that
defines `f` and forwards to the next `f` would otherwise call itself. -/
theorem C85_next_leads_past_the_caller_refuted :
    ¬ ∀ (p : Process), p.Ok → ∀ ops, History p True ops → HasDl p ops → ∀ s os,
      run p.env ops p.start = .ok (s, os) → ∀ (real : RealDl) (g : Lib),
      NextFrom real (vdsoAfter p.env p.libs ops) (libsAfter p.libs ops) g →
      ∀ f who X c Y, libsAfter p.libs ops = X ++ c :: Y → Contains c who →
      (∀ o ∈ X, ¬ Contains o who) →
      ∀ a, dlsymWrapper p.env real .next f who s = .ok (s, a) → a ≠ 0 →
      ∀ path r, Calls p.P s a path → path.getLast? = some r → ∃ l ∈ Y, exportsAt l f = some r := by
  intro hdoc
  obtain ⟨s, os, hr⟩ := Demo.prefix_run 2
  have hd : HasDl Demo.proc (Demo.ops.take 2) := ⟨by decide +kernel, by decide +kernel⟩
  obtain ⟨h1, h2⟩ := C85_next_ignores_the_caller Demo.proc_ok (Demo.prefix_history True 2) hr hd
    reg_foo_take2 real_foo_take2 (by decide) nextDl (Or.inr nextDl_foo) 0x20000100
  have := hdoc Demo.proc Demo.proc_ok _ (Demo.prefix_history True 2) hd s os hr nextDl Demo.app
    nextDl_from (nm "foo") 0x20000100 [Demo.app] Demo.libc [] rfl
    (by unfold Contains; decide) (by
      intro o ho
      rw [List.mem_singleton] at ho
      subst ho
      unfold Contains
      decide) _ h1 (by show (0x50a : Addr) ≠ 0; decide) _ 0x20004000 ((h2 _).2 rfl) rfl
  obtain ⟨l, hl, -⟩ := this
  cases hl

/-- Code in libc that asks for the next foo gets a wrapper that leads back to libc's foo. -/
example : exportsAt Demo.libc (nm "foo") = some 0x20004000 := by decide +kernel

/-- The bypassing case: with two tools on foo, RTLD_NEXT from the application gives libc's foo. -/
example : ∃ s os, run Demo.proc.env Demo.ops2 Demo.proc.start = .ok (s, os) ∧
    dlsymWrapper Demo.proc.env nextDl .next (nm "foo") 0x10000100 s = .ok (s, 0x20004000) := by
  obtain ⟨s, os, hr⟩ := Demo.demo_run2
  refine ⟨s, os, hr, ?_⟩
  have hreg : registered Demo.proc.env Demo.ops2 (nm "foo") =
    [⟨Demo.B, 0x50a, 10⟩, ⟨Demo.A, 0x50c, 12⟩] := Demo.reg_foo2
  rw [C85_next_otherwise_bypasses Demo.proc_ok (Demo.history2 True) hr demo_dl (f := nm "foo")
    (by rw [hreg]; simp) Demo.real_foo2 nextDl (by rw [nextDl_foo]; decide)
    (by rw [nextDl_foo]; decide) (fun _ => by rw [hreg]; simp) 0x10000100 (X := [])
    (c := Demo.app) (Y := [Demo.libc]) rfl (by unfold Contains; decide) (by simp)]
  rw [show List.find? _ [Demo.libc] = some Demo.libc by
    rw [List.find?_cons_of_pos]; decide +kernel]
  exact congrArg (fun a => Except.ok (s, a)) nextDl_foo

/-! ### where GOTCHA's own wrappers are -/

/-- The two functions GOTCHA wraps for itself from the start, with its own frames. -/
def ownDl (env : Env) : List (Name × Frame) :=
  [(nm "dlopen", ⟨nm "gotcha", env.dlopenW, env.hDlopen⟩),
    (nm "dlsym", ⟨nm "gotcha", env.dlsymW, env.hDlsym⟩)]

theorem own_frames {env : Env} {f : Name} {g : Frame} (h : (f, g) ∈ ownDl env) :
    framesIn ((dlTable env).map (fun v => (nm "gotcha", v))) f = [g] ∧
      ∀ u ∈ libcMainTable env ++ mainTable env, u.name ≠ f := by
  simp only [ownDl, List.mem_cons, Prod.mk.injEq, List.not_mem_nil, or_false] at h
  have h1 : nm "dlopen" ≠ nm "dlsym" := by decide +kernel
  have h2 : nm "__libc_start_main" ≠ nm "dlopen" := by decide +kernel
  have h3 : nm "main" ≠ nm "dlopen" := by decide +kernel
  have h4 : nm "__libc_start_main" ≠ nm "dlsym" := by decide +kernel
  have h5 : nm "main" ≠ nm "dlsym" := by decide +kernel
  rcases h with ⟨rfl, rfl⟩ | ⟨rfl, rfl⟩ <;>
    refine ⟨by simp [dlTable, framesIn, frame, h1, h1.symm], ?_⟩ <;>
    intro u hu <;>
    simp only [libcMainTable, mainTable, List.mem_append, List.mem_singleton] at hu <;>
    rcases hu with rfl | rfl <;> assumption

theorem expand_other (env : Env) (tool : Name) {f : Name}
    (hf : ∀ u ∈ libcMainTable env ++ mainTable env, u.name ≠ f)
    (us : List UBinding) : ∀ mw, framesIn (expand env tool mw us) f =
      (us.filter (fun u => u.name = f)).map (frame tool) := by
  induction us with
  | nil => intro mw; rfl
  | cons u us ih =>
    intro mw
    rw [expand, framesIn_append]
    have : framesIn (if u.name = nm "main" ∧ mw = false
        then (libcMainTable env ++ mainTable env).map (fun v => (nm "gotcha", v)) else []) f = [] := by
      split
      · exact framesIn_own _ hf
      · rfl
    rw [this, List.nil_append, show (tool, u) :: expand env tool _ us = [(tool, u)] ++ _ from rfl,
      framesIn_append, ih]
    by_cases e : u.name = f <;> simp [framesIn, e]

/-- GOTCHA's frame is the first one registered; all others are the clients'. -/
theorem registered_dl {env : Env} {f : Name} {g : Frame} (hg : (f, g) ∈ ownDl env) :
    ∀ {ops : List Op}, ops.any isApi = true → registered env ops f = g :: clientFrames ops f := by
  obtain ⟨h1, h2⟩ := own_frames hg
  have later : ∀ (ops : List Op) mw, framesIn (regs env true mw ops) f = clientFrames ops f := by
    intro ops
    induction ops with
    | nil => intro mw; rfl
    | cons op ops ih =>
      intro mw
      rw [regs, framesIn_append, Bool.true_or, ih]
      unfold clientFrames
      rw [List.flatMap_cons]
      congr 1
      cases op with
      | wrap tbl tool => simpa [opRegs] using expand_other env (toolName tool) h2 tbl mw
      | _ => simp [opRegs, framesIn]
  have first : ∀ (ops : List Op) mw, ops.any isApi = true →
      framesIn (regs env false mw ops) f = g :: clientFrames ops f := by
    intro ops
    induction ops with
    | nil => intro mw h; cases h
    | cons op ops ih =>
      intro mw h
      rw [regs, framesIn_append]
      cases hop : isApi op with
      | false =>
        rw [List.any_cons, hop, Bool.false_or] at h
        rw [Bool.or_false, ih _ h]
        cases op <;> simp_all [opRegs, isApi, framesIn, clientFrames]
      | true =>
        unfold opRegs
        rw [Bool.or_true, later, framesIn_append, if_pos ⟨hop, rfl⟩, h1]
        unfold clientFrames
        rw [List.flatMap_cons, List.singleton_append, List.cons_append]
        congr 2
        cases op with
        | wrap tbl tool => exact expand_other env (toolName tool) h2 tbl mw
        | _ => simp [framesIn]
  intro ops h
  exact first ops false h

/-- C86.  A call of dlopen or dlsym through a GOT slot runs the wrappers of the clients' tools of higher
priority than GOTCHA's own tool, then GOTCHA's wrapper, then those of the tools of equal or lower
priority, then the real function. -/
theorem C86_place_of_gotchas_wrapper {p : Process} (ok : p.Ok) {ops : List Op}
    (h : History p True ops) (hset : Settled ops) {s os}
    (hr : run p.env ops p.start = .ok (s, os)) (hapi : ops.any isApi = true)
    {f : Name} {g : Frame} (hg : (f, g) ∈ ownDl p.env) {r : Addr}
    (hreal : realAfter p.env p.libs ops f = some r) (hprog : p.P r = none) :
    ∃ outer inner : List Frame, (outer ++ inner).Perm (clientFrames ops f) ∧
      (∀ a ∈ outer, prioOr (nm "gotcha") ops < prioOr a.tool ops) ∧
      (∀ a ∈ inner, prioOr a.tool ops ≤ prioOr (nm "gotcha") ops) ∧
      ∀ l ∈ libsAfter p.libs ops, ∀ off, (off, f) ∈ rlOf l →
        ∀ path, Calls p.P s (s.mem (l.addr + off)) path ↔
          path = wrappers outer ++ g.wrapper :: wrappers inner ++ [r] := by
  obtain ⟨hv, hlm, -⟩ := history_view ok h hr
  have hreg := registered_dl hg hapi
  have hgt : g.tool = nm "gotcha" := by
    simp only [ownDl, List.mem_cons, Prod.mk.injEq, List.not_mem_nil, or_false] at hg
    rcases hg with ⟨-, rfl⟩ | ⟨-, rfl⟩ <;> rfl
  have hperm := stackOf_perm p ops f
  rw [hreg] at hperm
  have hmem : g ∈ stackOf p ops f := hperm.mem_iff.2 (by simp)
  obtain ⟨outer, inner, hst, hout⟩ := List.eq_append_cons_of_mem hmem
  have hsort := stackOf_sorted p hset f
  have hstab := stackOf_stable p hset f (prioOr (nm "gotcha") ops)
  rw [hst] at hsort hperm
  rw [hst, hreg, List.filter_append, List.filter_cons_of_pos (by simp [hgt]),
    List.filter_cons_of_pos (by simp [hgt])] at hstab
  rw [List.pairwise_append, List.pairwise_cons] at hsort
  refine ⟨outer, inner, ?_, ?_, ?_, ?_⟩
  · exact (List.perm_cons g).1 (List.perm_middle.symm.trans hperm)
  · intro a ha
    have hle : prioOr g.tool ops ≤ prioOr a.tool ops := hsort.2.2 a ha g (by simp)
    rw [hgt] at hle
    rcases Int.lt_or_eq_of_le hle with hlt | heq
    · exact hlt
    · exfalso
      have ha' : a ∈ outer.filter (fun a => prioOr a.tool ops = prioOr (nm "gotcha") ops) :=
        List.mem_filter.2 ⟨ha, by simp [heq]⟩
      cases hf : outer.filter (fun a => prioOr a.tool ops = prioOr (nm "gotcha") ops) with
      | nil => rw [hf] at ha'; cases ha'
      | cons b bs =>
        rw [hf, List.cons_append] at hstab
        have hb : b = g := (List.cons.inj hstab).1
        have : b ∈ outer := (List.mem_filter.1 (by rw [hf]; simp :
          b ∈ outer.filter (fun a => prioOr a.tool ops = prioOr (nm "gotcha") ops))).1
        exact hout (hb ▸ this)
  · intro a ha
    have := hsort.2.1.1 a ha
    rwa [hgt] at this
  · intro l hl off hoff path
    have hR : (Abs.run p.env ops p.abs).1.real f = some r := by rw [real_run]; exact hreal
    cases hc : stackOf p ops f with
    | nil => rw [hc] at hmem; cases hmem
    | cons fr st =>
      have hslot : s.mem (l.addr + off) = fr.wrapper :=
        hv.slots trivial l (by rw [hlm]; exact hl) trivial (off, f) hoff fr st hc
      have hcall := view_calls hv hR hprog (fr :: st) [] hc fr st rfl
      rw [← hc, hst] at hcall
      have e : wrappers (outer ++ g :: inner) ++ [r] =
          wrappers outer ++ g.wrapper :: wrappers inner ++ [r] := by simp [wrappers]
      rw [e] at hcall
      rw [hslot]
      exact ⟨fun h => h.det hcall, fun e => e ▸ hcall⟩

/-- Tool B wraps dlopen with the default priority, tool A with priority 10. -/
def opsDl : List Op :=
  [ .setPriority Demo.A 10,
    .wrap [⟨nm "dlopen", 0x50a, 10⟩] (some Demo.B),
    .wrap [⟨nm "dlopen", 0x50c, 12⟩] (some Demo.A) ]

theorem dl_history : History Demo.proc True opsDl where
  honest := by
    refine ⟨by decide +kernel, ?_, Demo.envOk⟩
    intro u hu
    simp only [opsDl, List.flatMap_cons, List.flatMap_nil, tableOf, List.nil_append, List.append_nil,
      List.cons_append, List.mem_cons, List.not_mem_nil, or_false] at hu
    rcases hu with rfl | rfl <;> decide
  loader := ⟨fun _ => Demo.dlopen_def, fun h => (by cases h), fun h => (by cases h), trivial⟩
  cons := fun _ => Demo.cons Demo.proc_ok.objs
  filter := by
    intro _ f hf
    simp [opsDl] at hf
  main := by
    intro _
    refine Demo.mainAlone_of ⟨trivial, ?_, ?_, trivial⟩
    · intro h
      exact absurd h (Demo.notMain (by decide +kernel))
    · intro h
      exact absurd h (Demo.notMain (by decide +kernel))
  short := fun _ => by decide

theorem dl_settled : Settled opsDl := by
  refine Demo.settled_of ⟨Or.inl ⟨by decide +kernel, ?_⟩, trivial, trivial, trivial⟩
  intro tbl tool h
  cases h

theorem dl_run : ∃ s os, run Demo.proc.env opsDl Demo.proc.start = .ok (s, os) := by
  obtain ⟨s, h, -⟩ := history_run Demo.proc_ok dl_history
  exact ⟨s, _, h⟩

theorem dl_real : realAfter Demo.proc.env Demo.proc.libs opsDl (nm "dlopen") = some 0x20005000 := by
  decide +kernel

theorem dl_slot : (0x28, nm "dlopen") ∈ rlOf Demo.app := by rw [Demo.rl_app]; simp

/-- The application's call of dlopen runs tool A, GOTCHA, tool B and libc's dlopen. -/
theorem dl_path : ∃ s os, run Demo.proc.env opsDl Demo.proc.start = .ok (s, os) ∧
    Calls Demo.proc.P s (s.mem (Demo.app.addr + 0x28)) [0x50c, 0x501, 0x50a, 0x20005000] := by
  obtain ⟨s, os, hr⟩ := dl_run
  refine ⟨s, os, hr, ?_⟩
  have hst : stackOf Demo.proc opsDl (nm "dlopen") =
    [⟨Demo.A, 0x50c, 12⟩, ⟨nm "gotcha", 0x501, 1⟩, ⟨Demo.B, 0x50a, 10⟩] := by decide +kernel
  obtain ⟨hv, hlm, -⟩ := history_view Demo.proc_ok dl_history hr
  have hslot : s.mem (Demo.app.addr + 0x28) = 0x50c :=
    hv.slots trivial Demo.app (by rw [hlm]; show _ ∈ [Demo.app, Demo.libc]; simp) trivial _ dl_slot _ _ hst
  rw [hslot]
  exact view_calls hv (by rw [real_run]; exact dl_real) (show Demo.proc.P 0x20005000 = none by decide)
    _ [] hst _ _ rfl

example : ∃ s os, run Demo.proc.env opsDl Demo.proc.start = .ok (s, os) ∧
    ∃ outer inner : List Frame, (outer ++ inner).Perm (clientFrames opsDl (nm "dlopen")) ∧
      Calls Demo.P s (s.mem (Demo.app.addr + 0x28))
        (wrappers outer ++ 0x501 :: wrappers inner ++ [0x20005000]) := by
  obtain ⟨s, os, hr⟩ := dl_run
  obtain ⟨outer, inner, h1, -, -, h4⟩ := C86_place_of_gotchas_wrapper Demo.proc_ok dl_history
    dl_settled hr rfl (f := nm "dlopen") (g := ⟨nm "gotcha", 0x501, 1⟩)
    (by show _ ∈ ownDl Demo.env; simp [ownDl, Demo.env]) dl_real (by decide)
  exact ⟨s, os, hr, outer, inner, h1, (h4 Demo.app (by show _ ∈ [Demo.app, Demo.libc]; simp) _ dl_slot _).2 rfl⟩

/-- C86: the GOTCHA layer should be the lowest one, right above the system's function. -/
theorem C86_gotcha_is_innermost_refuted :
    ¬ ∀ (p : Process), p.Ok → ∀ ops, History p True ops → Settled ops → ∀ s os,
      run p.env ops p.start = .ok (s, os) → ∀ f g, (f, g) ∈ ownDl p.env → ∀ r,
      realAfter p.env p.libs ops f = some r → p.P r = none →
      ∀ l ∈ libsAfter p.libs ops, ∀ off, (off, f) ∈ rlOf l →
      ∀ path, Calls p.P s (s.mem (l.addr + off)) path → [g.wrapper, r] <:+ path := by
  intro hdoc
  obtain ⟨s, os, hr, hc⟩ := dl_path
  have := hdoc Demo.proc Demo.proc_ok opsDl dl_history dl_settled s os hr (nm "dlopen")
    ⟨nm "gotcha", 0x501, 1⟩ (by show _ ∈ ownDl Demo.env; simp [ownDl, Demo.env]) _ dl_real
    (by decide) Demo.app (by show _ ∈ [Demo.app, Demo.libc]; simp) _ dl_slot _ hc
  revert this
  decide

end Gotcha
