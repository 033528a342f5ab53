import Verif.Proof.TraceTop
import Verif.Props.Stack
import Verif.Demo.Bad
/-
C25: calls of a wrapped function from another thread while `gotcha_wrap` is running.
-/
namespace Gotcha
open Spec Tr

/-- C25.  At the end of any history, a client calls `gotcha_wrap` with a table that lists the function
`f` at most once; the table does not make GOTCHA wrap `main` or (by being the first use of GOTCHA)
`dlopen` and `dlsym` for the first time, if `f` is one of these.  `s :: tr` are the states of memory
before the call and after each of its stores, in order.  Then another thread calling `f` through a GOT
slot, each of its loads happening at any time during the call or after it, always completes, and it
runs either exactly what a call made before (`old`) or exactly what a call made after (`new`)
runs. -/
theorem C25_insertion_is_atomic {p : Process} (ok : p.Ok) {ops : List Op} {tbl : List UBinding}
    {tool : Option Name} (h : History p True (ops ++ [.wrap tbl tool])) {s os}
    (hrun : run p.env ops p.start = .ok (s, os)) {f : Name} {r : Addr}
    (hmain : (∀ u ∈ tbl, u.name ≠ nm "main") ∨ ∃ o ∈ ops, hasMain (tableOf o))
    (hdl : ops.any isApi = true ∨ (f ≠ nm "dlopen" ∧ f ≠ nm "dlsym"))
    (honce : (tbl.map UBinding.name).count f ≤ 1)
    (hr : registered p.env (ops ++ [.wrap tbl tool]) f = [] ∨
      realAfter p.env p.libs (ops ++ [.wrap tbl tool]) f = some r)
    (hPr : p.P r = none) {l : Lib} {off : Addr} (hl : l ∈ libsAfter p.libs ops)
    (hoff : (off, f) ∈ rlOf l)
    (hPv : registered p.env ops f = [] → p.P (s.mem (l.addr + off)) = none) :
    ∃ tr s' c old new, gotchaWrapT p.env tbl tool s = .ok (tr, (s', c)) ∧
      gotchaWrap p.env tbl tool s = .ok (s', c) ∧
      Calls p.P s (s.mem (l.addr + off)) old ∧ Calls p.P s' (s'.mem (l.addr + off)) new ∧
      Safe p.P (fun path => path = old ∨ path = new) (s :: tr) (.slot (l.addr + off)) :=
  history_trace ok h hrun hmain hdl honce hr hPr hl hoff hPv

/-- What `Safe` says about a whole call made between two stores. -/
theorem safe_calls {P : Addr → Option HAddr} {Q : List Addr → Prop} {tr : List State} {a : Addr}
    (h : Safe P Q tr (.slot a)) {σ : State} (hσ : σ ∈ tr) :
    ∃ path, Calls P σ (σ.mem a) path ∧ Q path := by
  obtain ⟨X, Y, hXY⟩ := List.append_of_mem hσ
  exact safe_finish h (tr' := Y) ⟨X, hXY.symm⟩

/-- The demo history: tool A, of higher priority, wraps foo after tool B.  A concurrent call of foo from
the application runs B's wrapper and libc's foo, or both wrappers and libc's foo. -/
example : ∃ s os tr s' c, run Demo.env (Demo.ops.take 2) Demo.proc.start = .ok (s, os) ∧
    gotchaWrapT Demo.env [⟨nm "foo", 0x50c, 12⟩] (some Demo.A) s = .ok (tr, (s', c)) ∧
    ∃ old new : List Frame, old.Perm [⟨Demo.B, 0x50a, 10⟩] ∧
      new.Perm [⟨Demo.B, 0x50a, 10⟩, ⟨Demo.A, 0x50c, 12⟩] ∧
    Safe Demo.P (fun path => path = wrappers old ++ [0x20004000] ∨
      path = wrappers new ++ [0x20004000]) (s :: tr) (.slot (Demo.app.addr + 0x18)) := by
  obtain ⟨s, os, hr⟩ := Demo.prefix_run 2
  have h3 : History Demo.proc True (Demo.ops.take 2 ++ [.wrap [⟨nm "foo", 0x50c, 12⟩] (some Demo.A)]) :=
    Demo.prefix_history True 3
  have hreal2 : realAfter Demo.proc.env Demo.proc.libs (Demo.ops.take 2) (nm "foo") =
    some 0x20004000 := by decide +kernel
  have hreal3 : realAfter Demo.proc.env Demo.proc.libs (Demo.ops.take 3) (nm "foo") =
    some 0x20004000 := by decide +kernel
  have hreg2 : registered Demo.proc.env (Demo.ops.take 2) (nm "foo") =
    [⟨Demo.B, 0x50a, 10⟩] := by decide +kernel
  obtain ⟨tr, s', c, old, new, e1, e2, e3, e4, e5⟩ := C25_insertion_is_atomic Demo.proc_ok h3 hr
    (f := nm "foo") (r := 0x20004000)
    (Or.inl (by
      intro u hu
      rw [List.mem_singleton] at hu
      subst hu
      show nm "foo" ≠ nm "main"
      decide +kernel))
    (Or.inl rfl) (by simp) (Or.inr hreal3) (by decide) (l := Demo.app)
    (off := 0x18) (by show _ ∈ [Demo.app, Demo.libc]; simp) Demo.slot_app
    (by rw [hreg2]; intro hc; cases hc)
  have hr3 : ∃ o, run Demo.proc.env (Demo.ops.take 3) Demo.proc.start = .ok (s', o) := by
    show ∃ o, run Demo.proc.env (Demo.ops.take 2 ++ [.wrap [⟨nm "foo", 0x50c, 12⟩] (some Demo.A)])
      Demo.proc.start = .ok (s', o)
    rw [run_append_model, hr]
    simp only [bind, Except.bind, run, stepOp, e2]
    exact ⟨_, rfl⟩
  obtain ⟨os3, hr3⟩ := hr3
  obtain ⟨o2, p2, c2⟩ := C01_calls_run_the_whole_stack Demo.proc_ok (Demo.prefix_history True 2) hr
    (nm "foo") hreal2 (by decide)
  obtain ⟨o3, p3, c3⟩ := C01_calls_run_the_whole_stack Demo.proc_ok (Demo.prefix_history True 3) hr3
    (nm "foo") hreal3 (by decide)
  have hreg3 : registered Demo.proc.env (Demo.ops.take 3) (nm "foo") =
    [⟨Demo.B, 0x50a, 10⟩, ⟨Demo.A, 0x50c, 12⟩] := Demo.reg_foo3
  have hold := (c2 Demo.app (by show _ ∈ [Demo.app, Demo.libc]; simp) _ Demo.slot_app
    (by rw [hreg2]; simp) _).1 e3
  have hnew := (c3 Demo.app (by show _ ∈ [Demo.app, Demo.libc]; simp) _ Demo.slot_app
    (by rw [hreg3]; simp) _).1 e4
  refine ⟨s, os, tr, s', c, hr, e1, o2, o3, by rw [← hreg2]; exact p2, by rw [← hreg3]; exact p3, ?_⟩
  rw [← hold, ← hnew]
  exact e5

/-- C25, a client that passes the same table twice: while the second call runs, a thread that has
already jumped to the wrapper reads a handle variable that `gotcha_wrap` has set to NULL and
dereferences it.  This is so in any state, for any table, whatever the call goes on to do. -/
theorem C25_rewrap_not_atomic (env : Env) (P : Addr → Option HAddr) (Q : List Addr → Prop)
    {s : State} (hin : s.inited = true) {u : UBinding} {us : List UBinding} {tool : Option Name}
    {a : Addr} (hP : P (s.mem a) = some u.handle) {tr res}
    (he : gotchaWrapT env (u :: us) tool s = .ok (tr, res)) :
    ¬ Safe P Q (s :: tr) (.slot a) := by
  obtain ⟨t1, s1, t2, f1, f2, rfl⟩ := ok_bind he
  rw [gotchaInitT, if_pos hin] at f1
  cases f1
  obtain ⟨t3, s2, t4, f3, f4, rfl⟩ := ok_bind f2
  obtain ⟨t5, s3, t6, f5, f6, rfl⟩ := ok_bind f3
  cases f5
  intro hs
  cases hs with
  | step _ h2 =>
    have h3 := h2 s _ (.jump (s.mem a) []) (List.suffix_refl _) rfl
    cases h3 with
    | step h4 _ =>
      refine h4 (s.setHandle u.handle none) (t6 ++ t4) ⟨[s], rfl⟩ ?_
      simp [next, hP, State.setHandle, upd]

/-- Tool B of the demo passes its table for foo twice. -/
example : ∃ s os tr res,
    run Demo.env [.wrap [⟨nm "foo", 0x50a, 10⟩] (some Demo.B)] Demo.proc.start = .ok (s, os) ∧
    gotchaWrapT Demo.env [⟨nm "foo", 0x50a, 10⟩] (some Demo.B) s = .ok (tr, res) ∧
    ¬ Safe Demo.P (fun _ => True) (s :: tr) (.slot (Demo.app.addr + 0x18)) := by
  have hq : Demo.after Demo.env [.wrap [⟨nm "foo", 0x50a, 10⟩] (some Demo.B)] Demo.proc.start
      (fun s => s.inited && decide (s.mem 0x10000018 = 0x50a) &&
        match gotchaWrap Demo.env [⟨nm "foo", 0x50a, 10⟩] (some Demo.B) s with
        | .ok _ => true
        | .error _ => false) = true := by decide +kernel
  obtain ⟨s, os, hr, hq⟩ := Demo.after_run hq
  simp only [Bool.and_eq_true, decide_eq_true_eq] at hq
  obtain ⟨⟨h1, h2⟩, h3⟩ := hq
  cases hw : gotchaWrap Demo.env [⟨nm "foo", 0x50a, 10⟩] (some Demo.B) s with
  | error e => rw [hw] at h3; cases h3
  | ok res =>
    obtain ⟨tr, htr⟩ := erase_ok ((erase_gotchaWrap Demo.env _ _ s).trans hw)
    refine ⟨s, os, tr, res, hr, htr, C25_rewrap_not_atomic Demo.env Demo.P _ h1 ?_ htr⟩
    rw [show Demo.app.addr + 0x18 = 0x10000018 from rfl, h2]
    decide

end Gotcha
