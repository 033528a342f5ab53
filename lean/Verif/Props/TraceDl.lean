import Verif.Proof.TraceDl
import Verif.Props.Trace
/-
C80: calls of a wrapped function from another thread while the intercepted dlopen is running.
-/
namespace Gotcha
open Spec Tr

/-- C80.  At the end of any history in which GOTCHA has been used, the program calls dlopen, which loads
`ld`.  The states are those of memory when the loader is done and after each store of GOTCHA's dlopen
wrapper, in order.  `f` is any function that is not wrapped, or whose real function is known once the
wrapper is done, and the caller goes through any GOT slot of `f`: one of a new object, or one of an old
object for which the real function was known before.  Then another thread calling `f`, each of its
loads happening at any time during the wrapper or after it, always completes, and it runs either
exactly what a call made when the loader was done (`old`) or exactly what a call made after the wrapper
(`new`) runs.  In particular no caller gets through a new GOT to a wrapper that cannot go on. -/
theorem C80_dlopen_is_atomic {p : Process} (ok : p.Ok) {ops : List Op} {ld : Load}
    (h : History p True (ops ++ [.dlopen ld])) (hapi : ops.any isApi = true) {s os}
    (hrun : run p.env ops p.start = .ok (s, os)) {f : Name} {r : Addr}
    (hr : registered p.env ops f = [] ∨ realAfter p.env p.libs (ops ++ [.dlopen ld]) f = some r)
    (hPr : p.P r = none) {l : Lib} {off : Addr} (hl : l ∈ libsAfter p.libs ops ++ ld.libs)
    (hoff : (off, f) ∈ rlOf l)
    (hPv : p.P ((s.load ld).mem (l.addr + off)) = none ∨ (l ∈ libsAfter p.libs ops ∧
      registered p.env ops f ≠ [] ∧ realAfter p.env p.libs ops f = some r)) :
    ∃ tr s' old new, dlopenWrapperT p.env ld s = .ok (s.load ld :: tr, s') ∧
      dlopenWrapper p.env ld s = .ok s' ∧
      Calls p.P (s.load ld) ((s.load ld).mem (l.addr + off)) old ∧
      Calls p.P s' (s'.mem (l.addr + off)) new ∧
      Safe p.P (fun path => path = old ∨ path = new) (s.load ld :: tr) (.slot (l.addr + off)) :=
  history_dlopen ok h hapi hrun hr hPr hl hoff hPv

/-- The demo history: the plugin is loaded after tools A and B have wrapped foo; its slot of foo starts
out as 0.  A concurrent call of foo through that slot goes where the loader has put it, or runs both
wrappers and libc's foo. -/
example : ∃ s os tr s', run Demo.env (Demo.ops.take 3) Demo.proc.start = .ok (s, os) ∧
    dlopenWrapperT Demo.env Demo.loadPlug s = .ok (s.load Demo.loadPlug :: tr, s') ∧
    ∃ new : List Frame, new.Perm [⟨Demo.B, 0x50a, 10⟩, ⟨Demo.A, 0x50c, 12⟩] ∧
    Safe Demo.P (fun path => path = [0] ∨ path = wrappers new ++ [0x20004000])
      (s.load Demo.loadPlug :: tr) (.slot (Demo.plug.addr + 0x18)) := by
  have hq : Demo.after Demo.env (Demo.ops.take 3) Demo.proc.start
      (fun s => decide ((s.load Demo.loadPlug).mem 0x30000018 = 0)) = true := by decide +kernel
  obtain ⟨s, os, hr, hq⟩ := Demo.after_run hq
  replace hr : run Demo.proc.env (Demo.ops.take 3) Demo.proc.start = .ok (s, os) := hr
  have hm : (s.load Demo.loadPlug).mem (Demo.plug.addr + 0x18) = 0 := of_decide_eq_true hq
  have h4 : History Demo.proc True (Demo.ops.take 3 ++ [.dlopen Demo.loadPlug]) :=
    Demo.prefix_history True 4
  have hreal4 : realAfter Demo.proc.env Demo.proc.libs (Demo.ops.take 4) (nm "foo") =
    some 0x20004000 := by decide +kernel
  have hreg4 : registered Demo.proc.env (Demo.ops.take 4) (nm "foo") =
    [⟨Demo.B, 0x50a, 10⟩, ⟨Demo.A, 0x50c, 12⟩] := by decide +kernel
  obtain ⟨tr, s', old, new, e1, e2, e3, e4, e5⟩ := C80_dlopen_is_atomic Demo.proc_ok h4 rfl hr
    (f := nm "foo") (r := 0x20004000) (Or.inr hreal4) (by decide) (l := Demo.plug) (off := 0x18)
    (by show _ ∈ [Demo.app, Demo.libc, Demo.plug]; simp) Demo.slot_plug (Or.inl (by rw [hm]; decide))
  have hr4 : ∃ o, run Demo.proc.env (Demo.ops.take 4) Demo.proc.start = .ok (s', o) := by
    show ∃ o, run Demo.proc.env (Demo.ops.take 3 ++ [.dlopen Demo.loadPlug]) Demo.proc.start =
      .ok (s', o)
    have hi : s.inited = true := (history_view Demo.proc_ok h4.prefix hr).2.2
    rw [run_append_model, hr]
    simp only [bind, Except.bind, run, stepOp, hi, e2, if_true]
    exact ⟨_, rfl⟩
  obtain ⟨os4, hr4⟩ := hr4
  obtain ⟨o4, p4, c4⟩ := C01_calls_run_the_whole_stack Demo.proc_ok (Demo.prefix_history True 4) hr4
    (nm "foo") hreal4 (by decide)
  have hnew := (c4 Demo.plug (by show _ ∈ [Demo.app, Demo.libc, Demo.plug]; simp) _ Demo.slot_plug
    (by rw [hreg4]; simp) _).1 e4
  have hold : old = [0] := e3.det (by rw [hm]; exact .stop (by decide))
  refine ⟨s, os, tr, s', hr, e1, o4, by rw [← hreg4]; exact p4, ?_⟩
  rw [← hold, ← hnew]
  exact e5

end Gotcha
