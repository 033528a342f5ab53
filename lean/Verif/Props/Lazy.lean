import Verif.Proof.Lazy
import Verif.Props.Forever
import Verif.Props.Stack
import Verif.Demo.Bad
/-
C110: lazy binding.
-/
namespace Gotcha
open Spec

/-- C110: GOTCHA never reads the words it overwrites.  Whatever else memory holds at the start and after
each load, word by word (`L` tells which pairs of words are allowed at an address), each event has the
same outcome, and the states after it differ in memory only, and there in allowed pairs. -/
theorem C110_never_reads_slots {L : Addr → Addr → Addr → Prop} (hL : ∀ a v, L a v v) (env : Env)
    (s : State) (m : Addr → Addr) (hm : ∀ a, L a (m a) (s.mem a)) (op : Op) :
    (∀ f, stepOp env op { s with mem := m } = .error f ↔ stepOp env op s = .error f) ∧
    ∀ s' o, stepOp env op s = .ok (s', o) → ∃ m', stepOp env op { s with mem := m } =
      .ok ({ s' with mem := m' }, o) ∧ ∀ a, L a (m' a) (s'.mem a) := by
  have h := near_step hL env (s := { s with mem := m }) (e := s) ⟨rfl, hm⟩ (.same (op := op))
  generalize stepOp env op { s with mem := m } = x at h
  generalize stepOp env op s = y at h
  cases h with
  | err => exact ⟨fun _ => Iff.rfl, fun _ _ h => by cases h⟩
  | @ok x y h =>
    obtain ⟨s1, o1⟩ := x
    obtain ⟨s2, o2⟩ := y
    obtain ⟨h1, h2⟩ := h
    simp only at h1 h2
    subst h2
    refine ⟨fun f => by simp, fun s' o h => ?_⟩
    cases h
    refine ⟨s1.mem, ?_, h1.mem⟩
    rw [← h1.same]

/-- Not vacuous: two memories. -/
example : ∃ s o, stepOp Demo.env (.setPriority Demo.A 10) Demo.proc.start = .ok (s, o) ∧
    ∃ m', stepOp Demo.env (.setPriority Demo.A 10) { Demo.proc.start with mem := fun _ => 7 } =
      .ok ({ s with mem := m' }, o) := by
  obtain ⟨s, os, hr⟩ := Demo.prefix_run 1
  obtain ⟨s0, os0, o, h0, h1, -⟩ := run_last (ops := []) hr
  cases h0
  obtain ⟨m', h2, -⟩ := (C110_never_reads_slots (L := fun _ _ _ => True) (fun _ _ => trivial) Demo.env
    Demo.proc.start (fun _ => 7) (fun _ => trivial) (.setPriority Demo.A 10)).2 _ _ h1
  exact ⟨s, o, h1, m', h2⟩

/-- C110.  Take any history of a process, and the same process with lazy binding: it starts with, and
objects are loaded with, stubs in place of functions in any slots, and at any time between the events the
dynamic linker binds slots that still hold their stubs.  Then the events return the same, never
fault where they did not, all of GOTCHA's records, handles and wrappees are the same, and a call through
any slot ends up in the same place, by way of the stub or not; it goes there directly if no stub of that
slot leads there, as when it holds a wrapper. -/
theorem C110_lazy_binding_makes_no_difference {p : Process} (ok : p.Ok) {strict : Prop} {ops : List Op}
    (h : Events p strict ops) {plt : Plt} (hn : NoStubs plt p ops) {lops : List Op}
    (hl : List.Forall₂ plt.LagOp lops ops) {m0 : Addr → Addr} (h0 : ∀ a, plt.Lag a (m0 a) (p.mem a)) :
    (∀ os s', LazyRun plt p.env lops { p.start with mem := m0 } os s' →
      ∃ e, run p.env ops p.start = .ok (e, os) ∧ s' = { e with mem := s'.mem } ∧
        ∀ a, plt.target s'.mem a = e.mem a ∧ ((∀ v, plt a v ≠ some (e.mem a)) → s'.mem a = e.mem a)) ∧
    ∀ e os, run p.env ops p.start = .ok (e, os) →
      ∀ l1 op l2 os1 s1, lops = l1 ++ op :: l2 → LazyRun plt p.env l1 { p.start with mem := m0 } os1 s1 →
        ∃ s2 o, stepOp p.env op s1 = .ok (s2, o) := by
  have hs : plt.Lags { p.start with mem := m0 } p.start := ⟨rfl, h0⟩
  refine ⟨fun os s' hr => ?_, ?_⟩
  · obtain ⟨e, r, n⟩ := lazy_run ok ops h hn hl hs hr
    refine ⟨e, r, n.same, fun a => ⟨lags_target (no_stub ok ops h hn r) n a, fun hv => ?_⟩⟩
    rcases n.lag a with e1 | e1
    · exact e1
    · exact absurd e1 (hv _)
  · intro e os hr l1 op l2 os1 s1 hsplit hr1
    subst hsplit
    have hlen := hl.length_eq
    obtain ⟨o1, oc, o2, rfl, hl1, hop⟩ : ∃ o1 oc o2, ops = o1 ++ oc :: o2 ∧
        List.Forall₂ plt.LagOp l1 o1 ∧ plt.LagOp op oc := by
      have f1 := List.forall₂_take_append ops l1 (op :: l2) hl.flip
      have f2 := List.forall₂_drop_append ops l1 (op :: l2) hl.flip
      obtain ⟨oc, o2, hoc, -, e2⟩ := List.forall₂_cons_right_iff.1 f2
      exact ⟨_, oc, o2, by rw [← e2, List.take_append_drop], f1.flip, hoc⟩
    have hsp : o1 ++ oc :: o2 = (o1 ++ [oc]) ++ o2 := by simp
    rw [hsp] at h hn hr
    obtain ⟨e1, r1, n1⟩ := lazy_run ok o1 h.prefix.prefix (NoStubs.pre (NoStubs.pre hn)) hl1 hs hr1
    rw [run_append_model] at hr
    cases hr2 : run p.env (o1 ++ [oc]) p.start with
    | error f => rw [hr2] at hr; cases hr
    | ok y =>
      obtain ⟨e2, os2⟩ := y
      obtain ⟨e1', os1', o, r1', hst, -⟩ := run_last hr2
      rw [r1] at r1'
      cases r1'
      have hst' := lags_step p.env n1 hop
      rw [hst] at hst'
      generalize stepOp p.env op s1 = x at hst'
      cases hst' with
      | @ok x _ _ => exact ⟨x.1, x.2, rfl⟩

/-- C110, C01 with lazy binding: every call of a wrapped function runs the whole stack of wrappers and then
the function, no matter which slots have been bound when. -/
theorem C110_calls_run_the_whole_stack {p : Process} (ok : p.Ok) {ops : List Op} (h : History p True ops)
    {plt : Plt} (hn : NoStubs plt p ops) {lops : List Op} (hl : List.Forall₂ plt.LagOp lops ops)
    {m0 : Addr → Addr} (h0 : ∀ a, plt.Lag a (m0 a) (p.mem a)) {os s}
    (hr : LazyRun plt p.env lops { p.start with mem := m0 } os s) (f : Name) {r : Addr}
    (hreal : realAfter p.env p.libs ops f = some r) (hprog : p.P r = none) :
    ∃ order : List Frame, order.Perm (registered p.env ops f) ∧
      ∀ l ∈ libsAfter p.libs ops, ∀ off, (off, f) ∈ rlOf l → registered p.env ops f ≠ [] →
        ∀ path, Calls p.P s (plt.target s.mem (l.addr + off)) path ↔ path = wrappers order ++ [r] := by
  obtain ⟨e, r1, hs, ht⟩ := (C110_lazy_binding_makes_no_difference ok h.toEvents hn hl h0).1 _ _ hr
  obtain ⟨order, h1, h2⟩ := C01_calls_run_the_whole_stack ok h r1 f hreal hprog
  refine ⟨order, h1, fun l hl off hoff hne path => ?_⟩
  rw [(ht _).1, ← h2 l hl off hoff hne path]
  have hg : ∀ x, s.getWrappee x = e.getWrappee x := fun x => by rw [hs]; rfl
  have one : ∀ {s s' : State}, (∀ x, s.getWrappee x = s'.getWrappee x) → ∀ {a path}, Calls p.P s a path →
      Calls p.P s' a path := by
    intro s s' hg a path hc
    induction hc with
    | stop h => exact .stop h
    | cont h1 h2 _ ih => exact .cont h1 (by rw [← hg]; exact h2) ih
  exact ⟨one hg, one fun x => (hg x).symm⟩

/-- C110, C109 with lazy binding: whatever threads do when run by names over stacks of wrappers, they do on
a machine with lazy binding, no matter when slots are bound, and nothing else. -/
theorem C110_programs {p : Process} (ok : p.Ok) (good : Lib → Prop) :
    ∃ order : List Op → Name → List Frame,
      (∀ ops f, (order ops f).Perm (registered p.env ops f)) ∧
      (∀ ops, Settled ops → ∀ f,
        (order ops f).Pairwise (fun a b => prioOr b.tool ops ≤ prioOr a.tool ops)) ∧
      ∀ {V : Type} (code : Addr → V → Prog V) (plt : Plt) (lz : Op → Op), (∀ op, plt.LagOp (lz op) op) →
        ∀ (ts : List (Thr V)) (σ : List Nat) (w : List (Nat × V)) (ops' : List Op) (ts' : List (Thr V)),
        Sched (ideal p good order) code [] ts σ w ops' ts' → HistoryFor p True good ops' →
        NoStubs plt p ops' → ∀ m0 : Addr → Addr, (∀ a, plt.Lag a (m0 a) (p.mem a)) →
        (∃ s', LazySched plt (lazyMachine plt lz p.env) code { p.start with mem := m0 } ts σ w s' ts') ∧
        ∀ w' s' ts'', LazySched plt (lazyMachine plt lz p.env) code { p.start with mem := m0 } ts σ w' s' ts'' →
          w' = w ∧ ts'' = ts' ∧ ∃ e os, run p.env ops' p.start = .ok (e, os) ∧
            s' = { e with mem := s'.mem } ∧ ∀ a, plt.target s'.mem a = e.mem a := by
  refine ⟨stackOf p, stackOf_perm p, fun ops hs f => stackOf_sorted p hs f, ?_⟩
  intro V code plt lz hlz ts σ w ops' ts' he hh hn m0 h0
  obtain ⟨h1, h2⟩ := lazy_sched ok hlz he hh hn (e := p.start) (os := []) (s := { p.start with mem := m0 }) rfl
    ⟨rfl, h0⟩
  refine ⟨h1, fun w' s' ts'' hs => ?_⟩
  obtain ⟨e1, e2, e, os, r, n⟩ := h2 w' s' ts'' hs
  exact ⟨e1, e2, e, os, r, n.same,
    fun a => lags_target (no_stub ok _ (EventsFor.weak hh.toEventsFor) hn r) n a⟩

/-- The dynamic linker writes the slot at `a`. -/
def State.bound (s : State) (a v : Addr) : State :=
  { s with mem := fun x => if x = a then v else s.mem x }

namespace Demo

/-- The demo process with the application's slot for foo unbound. -/
def procS : Process := { proc with mem := fun a => if a = 0x10000018 then 0x10000500 else 0 }

theorem procS_ok : procS.Ok :=
  ⟨proc_ok.world, proc_ok.objs, proc_ok.nd, proc_ok.placed, proc_ok.cover, proc_ok.ne⟩

/-- The conditions on the loader do not depend on what memory holds at the start. -/
theorem loader_mem (p : Process) (m : Addr → Addr) (strict : Prop) (ops : List Op) :
    ∀ seen libs b, LoaderOk p strict seen libs b ops →
      LoaderOk { p with mem := m } strict seen libs b ops := by
  have hl : ∀ {seen libs ld}, LoadsOk p strict seen libs ld → LoadsOk { p with mem := m } strict seen libs ld :=
    fun h => ⟨h.objs, h.nd, h.again, h.placed, h.old, h.cover, h.cons, h.keep⟩
  induction ops with
  | nil => intro _ _ _ _; trivial
  | cons op ops ih =>
    intro seen libs b h
    cases op with
    | dlopen ld => exact ⟨hl h.1, ih _ _ _ h.2⟩
    | load ld => exact ⟨hl h.1, h.2.1, ih _ _ _ h.2.2⟩
    | unload dead => exact ⟨h.1, ih _ _ _ h.2⟩
    | setFilter f => exact ih _ _ _ h
    | _ => exact ⟨h.1, ih _ _ _ h.2⟩

theorem historyS : History procS True ([] ++ ops.take 3 ++ [.dlopen loadPlug]) :=
  have hd : History proc True ([] ++ ops.take 3 ++ [.dlopen loadPlug]) := prefix_history True 4
  ⟨⟨loader_mem _ _ _ _ _ _ _ hd.loader, hd.cons, hd.filter, hd.main, hd.short⟩, hd.honest⟩

/-- Its stub. -/
def pltS : Plt := fun a v => if a = 0x10000018 ∧ v = 0x10000500 then some 0x20004000 else none

theorem runS : after env (ops.take 3) procS.start (fun s =>
    after env [.dlopen loadPlug] (s.bound 0x10000018 0x20004000)
      (fun s => s.mem 0x10000018 = 0x20004000)) = true := by decide +kernel

theorem regS : registered env ([] ++ ops.take 3) (nm "foo") ≠ [] := by decide +kernel

theorem regS' : registered env ([] ++ ops.take 3 ++ [.dlopen loadPlug]) (nm "foo") =
    [⟨B, 0x50a, 10⟩, ⟨A, 0x50c, 12⟩] := by decide +kernel

end Demo

/-- C110, refutation: binding that overlaps gotcha_wrap.  A call through a slot that still holds its stub
makes the dynamic linker look the function up and then write the slot.  If another thread wraps the function
in between, then the wrapper's address in the slot is overwritten, the wrapper lost for that library, and a
later dlopen does not bring it back. -/
theorem C110_overlapping_binding_refuted :
    ¬ ∀ (p : Process), p.Ok → ∀ (plt : Plt) (pre mid post : List Op), History p True (pre ++ mid ++ post) →
      ∀ l ∈ p.libs, ∀ off f r s0 os0 s1 os1 s2 os2, (off, f) ∈ rlOf l →
      run p.env pre p.start = .ok (s0, os0) → plt (l.addr + off) (s0.mem (l.addr + off)) = some r →
      run p.env mid s0 = .ok (s1, os1) → run p.env post (s1.bound (l.addr + off) r) = .ok (s2, os2) →
      registered p.env (pre ++ mid) f ≠ [] →
      ∃ fr ∈ registered p.env (pre ++ mid ++ post) f, s2.mem (l.addr + off) = fr.wrapper := by
  intro hc
  obtain ⟨s, os, h1, h2⟩ := Demo.after_run Demo.runS
  obtain ⟨s2, os2, h3, h4⟩ := Demo.after_run h2
  have hslot : Demo.pltS (Demo.app.addr + 0x18) (Demo.procS.start.mem (Demo.app.addr + 0x18)) =
      some 0x20004000 := by decide +kernel
  obtain ⟨fr, hf, e⟩ := hc Demo.procS Demo.procS_ok Demo.pltS [] (Demo.ops.take 3) [.dlopen Demo.loadPlug]
    Demo.historyS Demo.app (by show _ ∈ [Demo.app, Demo.libc]; simp) 0x18 (nm "foo") 0x20004000
    Demo.procS.start [] s os s2 os2 Demo.slot_app rfl hslot h1 h3 Demo.regS
  have e' : s2.mem 0x10000018 = fr.wrapper := e
  rw [of_decide_eq_true h4] at e'
  rw [show registered Demo.procS.env _ _ = _ from Demo.regS'] at hf
  simp only [List.mem_cons, List.not_mem_nil, or_false] at hf
  rcases hf with rfl | rfl <;> exact absurd e' (by decide)

namespace Demo

/-- Stubs for foo and bar in the application. -/
def pltB : Plt := fun a v =>
  if a = 0x10000018 ∧ v = 0x10000500 then some 0
  else if a = 0x10000020 ∧ v = 0x10000510 then some 0x20009000
  else none

theorem pltB_none {v : Addr} (h1 : v ≠ 0x10000500) (h2 : v ≠ 0x10000510) (a : Addr) : pltB a v = none := by
  unfold pltB
  rw [if_neg (fun h => h1 h.2), if_neg (fun h => h2 h.2)]

theorem noStubsB : NoStubs pltB procB opsFoo where
  start a := by
    show pltB a (if a = 0x10000020 then 0x20009000 else 0) = none
    split
    · exact pltB_none (by decide) (by decide) a
    · exact pltB_none (by decide) (by decide) a
  loads op ho ld hld := by
    simp only [opsFoo, List.mem_cons, List.not_mem_nil, or_false] at ho
    rcases ho with rfl | rfl | rfl <;> rcases hld with h | h <;> cases h
  wrappers u hu a := by
    have hw : ∀ u ∈ ownTable env ++ opsFoo.flatMap tableOf,
        u.wrapper ≠ 0x10000500 ∧ u.wrapper ≠ 0x10000510 := by decide +kernel
    obtain ⟨h1, h2⟩ := hw u (List.mem_append.2 hu)
    exact pltB_none h1 h2 a

/-- The application starts with both slots unbound. -/
def memL (a : Addr) : Addr := if a = 0x10000018 then 0x10000500 else if a = 0x10000020 then 0x10000510 else 0

theorem lagL (a : Addr) : pltB.Lag a (memL a) (procB.mem a) := by
  simp only [Plt.Lag, memL, procB]
  split
  · rename_i h; subst h; right; rfl
  · split
    · rename_i h; subst h; right; rfl
    · left; rfl

/-- A history with lazy binding: bar is never called, its slot holds its stub to the end, from which the
dynamic linker would get to bar; foo is called by its wrappers' address. -/
example : ∃ os s, LazyRun pltB env opsFoo { procB.start with mem := memL } os s ∧
    s.mem 0x10000020 = 0x10000510 ∧ pltB.target s.mem 0x10000020 = 0x20009000 ∧ s.mem 0x10000018 = 0x50c := by
  have key : after env opsFoo { procB.start with mem := memL } (fun s =>
      s.mem 0x10000020 = 0x10000510 ∧ s.mem 0x10000018 = 0x50c) = true := by decide +kernel
  obtain ⟨s, os, h1, h2⟩ := after_run key
  have h2 := of_decide_eq_true h2
  have lz : ∀ (ops : List Op) (s0 s : State) os, run env ops s0 = .ok (s, os) →
      LazyRun pltB env ops s0 os s := by
    intro ops
    induction ops with
    | nil => intro s0 s os hr; cases hr; exact .nil (.refl _)
    | cons op ops ih =>
      intro s0 s os hr
      simp only [run] at hr
      cases hx : stepOp env op s0 with
      | error f => rw [hx] at hr; cases hr
      | ok x =>
        rw [hx] at hr
        simp only [bind, Except.bind] at hr
        cases hy : run env ops x.1 with
        | error f => rw [hy] at hr; cases hr
        | ok y =>
          rw [hy] at hr
          cases hr
          exact .cons (.refl _) hx (ih _ _ _ hy)
  refine ⟨os, s, lz _ _ _ _ h1, h2.1, ?_, h2.2⟩
  simp only [Plt.target, h2.1]
  rfl

/-- And whatever is bound when, the calls are those of C01. -/
example {os s} (hr : LazyRun pltB env opsFoo { procB.start with mem := memL } os s) : ∃ e,
    run env opsFoo procB.start = .ok (e, os) ∧ pltB.target s.mem 0x10000020 = e.mem 0x10000020 := by
  obtain ⟨e, h1, -, h2⟩ := (C110_lazy_binding_makes_no_difference procB_ok historyB.toEvents noStubsB
    (List.forall₂_same.2 fun _ _ => .same) lagL).1 os s hr
  exact ⟨e, h1, (h2 _).1⟩

/-- A program with lazy binding: two threads as in C109, one of them calling bar through its stub. -/
example (x : Int) : ∃ s' ts', LazySched pltB (lazyMachine pltB id env) (codeB false)
    { procB.start with mem := memL } [⟨[], .call (.slot app 0x20) x .ret⟩] [0, 0] [(0, x)] s' ts' := by
  obtain ⟨order, hp, hso, ho⟩ := C110_programs procB_ok (fun _ => True)
  have hbar : order [] (nm "bar") = [] := List.perm_nil.1 ((hp _ (nm "bar")).trans (by decide +kernel))
  have happ : app ∈ libsAfter procB.libs [] ∧ True := ⟨by show _ ∈ [app, libc]; simp, trivial⟩
  have e0 : codeB false 0x20009000 x = .out x (.ret 0) := rfl
  obtain ⟨⟨s', h⟩, -⟩ := ho (codeB false) pltB id (fun _ => .same) [⟨[], .call (.slot app 0x20) x .ret⟩] [0, 0]
    [(0, x)] [] [⟨[.ret], .ret 0⟩] (by
      refine .cons (o := []) (s1 := []) rfl (.call (a := 0x20009000)
        (.plain happ slot_bar hbar (.start (by show _ ∈ [app, libc]; simp) (by simp) bar_own))) ?_
      rw [e0]
      exact .cons (o := [x]) (w := []) (s1 := []) rfl .out .nil)
    (HistoryFor.prefix (post := opsFoo) historyB.for) (NoStubs.pre (a := []) noStubsB) memL lagL
  exact ⟨s', _, h⟩

/-- An object loaded with lazy binding. -/
example : Plt.LagLoad (fun a v => if a = 0x30000018 ∧ v = 0x30000500 then some 0x20004000 else none)
    ⟨[plug], fun a => if a = 0x30000018 then some 0x30000500 else none, fun _ => none⟩
    ⟨[plug], fun a => if a = 0x30000018 then some 0x20004000 else none, fun _ => none⟩ where
  libs := rfl
  wr := rfl
  mem a := by
    by_cases h : a = 0x30000018
    · subst h; exact .inr ⟨_, _, rfl, rfl, .inr rfl⟩
    · left; exact ⟨if_neg h, if_neg h⟩

end Demo

end Gotcha
