import Verif.Proof.Protect
import Verif.Proof.Calls
import Verif.Props.Stack
/-
C88: page protection.  What GOTCHA does when mprotect is refused.
-/
namespace Gotcha
open Spec Prot

/-- C88, in any process and for any events, clients and images.  Whatever the protections of the pages
and whichever mprotect calls fail: compared with the same events in a process in which every page is
writable, either GOTCHA writes to a page that is not writable and the process gets SIGSEGV, or the
outcome is the same in everything but the protections, including memory and return codes (and the
other faults).  So a refused mprotect never goes by with a call site left unpatched. -/
theorem C88_refused_mprotect_crashes_or_changes_nothing (env : Env) (libs : List Lib)
    (mem : Addr → Addr) (wr : Addr → Bool) (ops : List Op) :
    match run env.open (ops.map Op.open) (State.start libs mem (fun _ => true)) with
    | .ok (t, os) => run env ops (State.start libs mem wr) = .error .segv ∨
        ∃ w, run env ops (State.start libs mem wr) = .ok ({ t with wr := w }, os)
    | .error e => run env ops (State.start libs mem wr) = .error .segv ∨
        run env ops (State.start libs mem wr) = .error e := by
  have h := run_sim (env := env) ops (s := State.start libs mem wr)
    (t := State.start libs mem (fun _ => true)) ⟨fun _ => true, rfl, fun _ _ => rfl⟩
  cases hx : run env ops (State.start libs mem wr) with
  | error e =>
    rw [hx] at h
    rcases h with rfl | h
    · split
      · exact Or.inl rfl
      · exact Or.inl rfl
    · rw [h]; exact Or.inr rfl
  | ok x =>
    rw [hx] at h
    obtain ⟨⟨t, os'⟩, e, ⟨w, ht, -⟩, hos⟩ := h
    obtain ⟨s, os⟩ := x
    dsimp only at ht hos
    subst hos
    rw [e]
    refine Or.inr ⟨s.wr, ?_⟩
    rw [ht]
    rfl

theorem open_world {p : Process} (ok : p.OkButPages) : p.open.Ok where
  world := ⟨ok.world.page48, ok.world.page64, ok.world.ident, ok.world.named, ok.world.exp,
    ok.world.rel⟩
  objs := ok.objs
  nd := ok.nd
  placed := ok.placed
  cover := fun _ _ _ _ => Or.inl rfl
  ne := ok.ne

theorem open_step (env : Env) (op : Op) (A : Abs) : A.step env.open op.open = A.step env op := by
  cases op <;> rfl

theorem open_run (env : Env) (ops : List Op) : ∀ A : Abs,
    Abs.run env.open (ops.map Op.open) A = Abs.run env ops A := by
  induction ops with
  | nil => intro A; rfl
  | cons op ops ih =>
    intro A
    rw [List.map_cons, Abs.run, Abs.run, open_step, ih]

theorem open_stack (p : Process) (ops : List Op) (f : Name) :
    stackOf p.open (ops.map Op.open) f = stackOf p ops f := by
  unfold stackOf
  show (Abs.run p.env.open _ p.abs).1.stack f = _
  rw [open_run]

theorem open_real (p : Process) (ops : List Op) (f : Name) :
    realAfter p.open.env p.open.libs (ops.map Op.open) f = realAfter p.env p.libs ops f := by
  rw [← real_run p.open, ← real_run p]
  show (Abs.run p.env.open _ p.abs).1.real f = _
  rw [open_run]

theorem open_libs (libs : List Lib) (ops : List Op) :
    libsAfter libs (ops.map Op.open) = libsAfter libs ops := by
  unfold libsAfter
  induction ops generalizing libs with
  | nil => rfl
  | cons op ops ih =>
    rw [List.map_cons, List.foldl_cons, List.foldl_cons, ih]
    congr 1
    cases op <;> rfl

theorem calls_w {P : Addr → Option HAddr} {s : State} {w a path} (h : Calls P (s.w w) a path) :
    Calls P s a path := by
  induction h with
  | stop h => exact .stop h
  | cont h1 h2 _ ih => exact .cont h1 h2 ih

/-- C88, with C01: a process about whose page protections nothing is known (nor about which mprotect
calls succeed).  As long as the events return, every call through any GOT slot of any loaded library
runs the whole stack of wrappers.  `History p.open` are the conditions of C01 on loader and clients
other than those on protection. -/
theorem C88_returned_means_intercepted {p : Process} (ok : p.OkButPages) {ops : List Op}
    (h : History p.open True (ops.map Op.open)) {s os} (hr : run p.env ops p.start = .ok (s, os))
    (f : Name) {r : Addr} (hreal : realAfter p.env p.libs ops f = some r) (hprog : p.P r = none) :
    ∃ order : List Frame, order.Perm (registered p.env ops f) ∧
      ∀ l ∈ libsAfter p.libs ops, ∀ off, (off, f) ∈ rlOf l → registered p.env ops f ≠ [] →
        ∀ path, Calls p.P s (s.mem (l.addr + off)) path ↔ path = wrappers order ++ [r] := by
  have hs := run_sim (env := p.env) ops (s := p.start) (t := p.open.start)
    ⟨fun _ => true, rfl, fun _ _ => rfl⟩
  rw [hr] at hs
  obtain ⟨⟨t, os'⟩, e, ⟨w, ht, -⟩, -⟩ := hs
  dsimp only at ht
  subst ht
  obtain ⟨hv, hl, -⟩ := history_view (open_world ok) h e
  refine ⟨stackOf p ops f, stackOf_perm p ops f, ?_⟩
  intro l hl' off hoff hne path
  cases hst : stackOf p ops f with
  | nil =>
    have := stackOf_perm p ops f
    rw [hst] at this
    exact absurd (List.nil_perm.1 this) hne
  | cons fr st =>
    have hst' : stackOf p.open (ops.map Op.open) f = fr :: st := by rw [open_stack, hst]
    have hslot : s.mem (l.addr + off) = fr.wrapper :=
      hv.slots trivial l (by rw [hl, open_libs]; exact hl') trivial (off, f) hoff fr st hst'
    have hc := view_calls hv (by rw [real_run, open_real]; exact hreal) hprog
      (stackOf p.open (ops.map Op.open) f) [] rfl fr st hst'
    rw [hslot]
    rw [hst'] at hc
    have hc := calls_w hc
    exact ⟨fun h => h.det hc, fun e => e ▸ hc⟩

/-- C88, the crash.  Let a slot for `f` not be writable, let no successful mprotect call cover it, and
let it not hold a wrapper of `f`.  An event that leaves `f` wrapped (gotcha_wrap of `f`, or an
intercepted dlopen that loads the object while `f` is wrapped) does not fail or return an error: it
ends the process with SIGSEGV. -/
theorem C88_read_only_slot_crashes {p : Process} (ok : p.OkButPages) {ops : List Op} {op : Op}
    (h : History p.open True ((ops ++ [op]).map Op.open)) {s os}
    (hr : run p.env ops p.start = .ok (s, os)) {f : Name}
    (hreg : registered p.env (ops ++ [op]) f ≠ []) {l : Lib}
    (hl : l ∈ libsAfter p.libs (ops ++ [op])) {off} (hoff : (off, f) ∈ rlOf l)
    (hro : (entered op s).wr (l.addr + off) = false)
    (hbare : ∀ l' ∈ (entered op s).linkMap, ∀ rs,
      Got.markCalls (BitVec.ofNat 64 p.env.page) (entered op s).linkMap l' = .ok rs →
      ∀ r ∈ rs, p.env.mprotect r = true → ¬ Got.inRange (l.addr + off) r)
    (hval : ∀ fr ∈ registered p.env (ops ++ [op]) f, (entered op s).mem (l.addr + off) ≠ fr.wrapper) :
    stepOp p.env op s = .error .segv := by
  have hs := run_sim (env := p.env) (ops ++ [op]) (s := p.start) (t := p.open.start)
    ⟨fun _ => true, rfl, fun _ _ => rfl⟩
  obtain ⟨t, ht, -⟩ := history_run (open_world ok) h
  have hrun : run p.env (ops ++ [op]) p.start = (do
      let (s', o) ← stepOp p.env op s
      .ok (s', os ++ [o])) := by
    rw [run_append_model, hr]
    show (do let x ← (do let x ← stepOp p.env op s; let y ← run p.env [] x.1; _); _) = _
    cases stepOp p.env op s with
    | error e => rfl
    | ok x => rfl
  cases hst : stepOp p.env op s with
  | error e =>
    rw [hrun, hst] at hs
    rcases hs with rfl | hs
    · rfl
    · rw [show run p.env.open _ p.open.start = _ from ht] at hs
      cases hs
  | ok x =>
    exfalso
    obtain ⟨s', o⟩ := x
    have hmem : s'.mem (l.addr + off) = (entered op s).mem (l.addr + off) :=
      step_st hbare hro _ hst
    rw [hst] at hrun
    have hrun' : run p.env (ops ++ [op]) p.start = .ok (s', os ++ [o]) := hrun
    rw [hrun'] at hs
    obtain ⟨⟨t', os'⟩, e, ⟨w, ht', -⟩, -⟩ := hs
    dsimp only at ht'
    subst ht'
    obtain ⟨hv, hlm, -⟩ := history_view (open_world ok) h e
    cases hk : stackOf p (ops ++ [op]) f with
    | nil =>
      have := stackOf_perm p (ops ++ [op]) f
      rw [hk] at this
      exact hreg (List.nil_perm.1 this)
    | cons fr st =>
      have hk' : stackOf p.open ((ops ++ [op]).map Op.open) f = fr :: st := by rw [open_stack, hk]
      have hslot : s'.mem (l.addr + off) = fr.wrapper :=
        hv.slots trivial l (by rw [hlm, open_libs]; exact hl) trivial (off, f) hoff fr st hk'
      refine hval fr ?_ (hmem.symm.trans hslot)
      refine (stackOf_perm p (ops ++ [op]) f).mem_iff.1 ?_
      rw [hk]
      exact List.mem_cons_self

/-! ### the conditions of C01 without those on protection -/

theorem Spec.LoadsOk.open {p : Process} {strict : Prop} {seen : Lib → Prop} {libs : List Lib} {ld : Load}
    (h : LoadsOk p strict seen libs ld) : LoadsOk p.open strict seen libs ld.open where
  objs := h.objs
  nd := h.nd
  again := fun l hl hs => ⟨(h.again l hl hs).1, fun _ _ => rfl⟩
  placed := h.placed
  old := fun _ _ _ _ e => by cases e
  cover := fun _ _ _ _ => Or.inl rfl
  cons := h.cons
  keep := h.keep

theorem Spec.LoaderOk.open {p : Process} {strict : Prop} (ops : List Op) : ∀ {seen libs ini},
    LoaderOk p strict seen libs ini ops → LoaderOk p.open strict seen libs ini (ops.map Op.open) := by
  induction ops with
  | nil => intro seen libs ini _; trivial
  | cons op ops ih =>
    intro seen libs ini h
    cases op with
    | dlopen ld => exact ⟨h.1.open, ih h.2⟩
    | load ld => exact ⟨h.1.open, h.2.1, ih h.2.2⟩
    | unload dead => exact ⟨h.1, ih h.2⟩
    | setFilter f => exact ih h
    | wrap tbl tool => exact ⟨h.1, ih h.2⟩
    | setPriority t v => exact ⟨h.1, ih h.2⟩
    | getPriority t => exact ⟨h.1, ih h.2⟩

theorem open_table (op : Op) : tableOf op.open = tableOf op := by cases op <;> rfl

theorem open_tables (ops : List Op) : (ops.map Op.open).flatMap tableOf = ops.flatMap tableOf := by
  rw [List.flatMap_map]
  simp only [open_table]

theorem open_prio (t : Name) (ops : List Op) : prioOr t (ops.map Op.open) = prioOr t ops := by
  have h1 : lastSet t (ops.map Op.open) = lastSet t ops := by
    induction ops with
    | nil => rfl
    | cons op ops ih => cases op <;> simp only [List.map_cons, Op.open, lastSet, ih]
  have h2 : (ops.map Op.open).any (names t) = ops.any (names t) := by
    rw [List.any_map]
    congr 1
    funext op
    cases op <;> rfl
  unfold prioOr prioAfter
  rw [h1, h2]

theorem Spec.History.open {p : Process} {strict : Prop} {ops : List Op} (h : History p strict ops) :
    History p.open strict (ops.map Op.open) where
  loader := LoaderOk.open _ h.loader
  cons := h.cons
  filter := by
    intro hs f hf
    obtain ⟨op, ho, e⟩ := List.mem_map.1 hf
    cases op with
    | setFilter g => cases e; exact h.filter hs f ho
    | _ => cases e
  main := by
    intro hs pre tbl tool post e hm hpre
    obtain ⟨pre', rest, rfl, rfl, e2⟩ := List.map_eq_append_iff.1 e
    obtain ⟨op, post', rfl, e3, rfl⟩ := List.map_eq_cons_iff.1 e2
    cases op with
    | wrap tbl' tool' =>
      cases e3
      have := h.main hs pre' tbl tool post' rfl hm (fun o ho => by
        have := hpre o.open (List.mem_map_of_mem ho)
        rwa [open_table] at this)
      rw [open_prio, open_prio]
      exact this
    | _ => cases e3
  short := fun hs => by rw [List.length_map]; exact h.short hs
  honest := by
    refine ⟨?_, ?_, ?_⟩
    · rw [open_tables]; exact h.honest.nodup
    · rw [open_tables]; exact h.honest.prog
    · exact ⟨h.honest.own.1, h.honest.own.2, h.honest.own.3, h.honest.own.4, h.honest.own.5⟩

namespace Demo

/-- A policy refuses to make the pages of the plugin writable. -/
def hardEnv : Env := { env with mprotect := fun r => decide (r.1 ≠ 0x30000000) }

def hardProc : Process := { proc with env := hardEnv }

theorem hard_ok : hardProc.OkButPages :=
  ⟨⟨world.page48, world.page64, world.ident, world.named, world.exp, world.rel⟩, proc_ok.objs,
    proc_ok.nd, proc_ok.placed, proc_ok.ne⟩

theorem hard_history (n : Nat) : History hardProc.open True ((ops.take n).map Op.open) :=
  (prefix_history True n).open

theorem hard_marks : ([app, libc, plug].all fun l' =>
    match Got.markCalls (BitVec.ofNat 64 env.page) [app, libc, plug] l' with
    | .ok rs => rs.all fun r => decide (hardEnv.mprotect r = true → ¬ Got.inRange (plug.addr + 0x18) r)
    | .error _ => true) = true := by decide +kernel

theorem hard_state : ∃ s os, run hardProc.env (ops.take 3) hardProc.start = .ok (s, os) ∧
    s.linkMap = [app, libc] ∧ s.wr (plug.addr + 0x18) = false ∧ s.mem (plug.addr + 0x18) = 0 := by
  have hk : (match run hardProc.env (ops.take 3) hardProc.start with
    | .ok (s, _) => decide (s.wr (plug.addr + 0x18) = false) &&
        decide (s.mem (plug.addr + 0x18) = 0)
    | .error _ => false) = true := by decide +kernel
  split at hk
  · rename_i s os hr
    simp only [Bool.and_eq_true, decide_eq_true_eq] at hk
    refine ⟨s, os, hr, ?_, hk.1, hk.2⟩
    have hs := run_sim (env := hardProc.env) (ops.take 3) (s := hardProc.start)
      (t := hardProc.open.start) ⟨fun _ => true, rfl, fun _ _ => rfl⟩
    rw [hr] at hs
    obtain ⟨⟨t, os'⟩, e, ⟨w, ht, -⟩, -⟩ := hs
    dsimp only at ht
    subst ht
    obtain ⟨-, hl, -⟩ := history_view (open_world hard_ok) (hard_history 3) e
    exact hl
  · cases hk

end Demo

/-- The wrappers of tools A and B are in place although the policy would refuse the plugin's pages. -/
example : ∃ s os, run Demo.hardProc.env (Demo.ops.take 3) Demo.hardProc.start = .ok (s, os) ∧
    ∃ order : List Frame, order.Perm [⟨Demo.B, 0x50a, 10⟩, ⟨Demo.A, 0x50c, 12⟩] ∧
      Calls Demo.P s (s.mem (Demo.app.addr + 0x18)) (wrappers order ++ [0x20004000]) := by
  obtain ⟨s, os, hr, -⟩ := Demo.hard_state
  have hreg : registered Demo.hardProc.env (Demo.ops.take 3) (nm "foo") =
      [⟨Demo.B, 0x50a, 10⟩, ⟨Demo.A, 0x50c, 12⟩] := by decide +kernel
  obtain ⟨order, h1, h2⟩ := C88_returned_means_intercepted Demo.hard_ok (Demo.hard_history 3) hr
    (nm "foo") (r := 0x20004000) (by decide +kernel) (by decide)
  rw [hreg] at h1
  exact ⟨s, os, hr, order, h1, (h2 Demo.app (by show _ ∈ [Demo.app, Demo.libc]; simp) _ Demo.slot_app
    (by rw [hreg]; simp) _).2 rfl⟩

/-- Loading the plugin then ends the process: its slot for foo is read-only. -/
example : ∃ s os, run Demo.hardProc.env (Demo.ops.take 3) Demo.hardProc.start = .ok (s, os) ∧
    stepOp Demo.hardProc.env (.dlopen Demo.loadPlug) s = .error .segv := by
  obtain ⟨s, os, hr, hl, hw, hm⟩ := Demo.hard_state
  have hreg : registered Demo.hardProc.env (Demo.ops.take 3 ++ [.dlopen Demo.loadPlug]) (nm "foo") =
      [⟨Demo.B, 0x50a, 10⟩, ⟨Demo.A, 0x50c, 12⟩] := by decide +kernel
  refine ⟨s, os, hr, C88_read_only_slot_crashes Demo.hard_ok (Demo.hard_history 4) hr (f := nm "foo")
    (by rw [hreg]; simp) (l := Demo.plug) (off := 0x18) ?_ (by rw [Demo.rl_plug]; simp) hw ?_ ?_⟩
  · show _ ∈ [Demo.app, Demo.libc, Demo.plug]; simp
  · intro l' hl' rs hrs r hr' hp
    have hmap : (entered (.dlopen Demo.loadPlug) s).linkMap = [Demo.app, Demo.libc, Demo.plug] := by
      show s.linkMap ++ [Demo.plug] = _
      rw [hl]; rfl
    rw [hmap] at hl' hrs
    have := List.all_eq_true.1 Demo.hard_marks l' hl'
    rw [show Got.markCalls (BitVec.ofNat 64 Demo.env.page) _ l' = .ok rs from hrs] at this
    simpa using of_decide_eq_true (List.all_eq_true.1 this r hr') hp
  · rw [hreg]
    intro fr hfr
    rw [show (entered (.dlopen Demo.loadPlug) s).mem (Demo.plug.addr + 0x18) = _ from hm]
    simp only [List.mem_cons, List.not_mem_nil, or_false] at hfr
    rcases hfr with rfl | rfl <;> decide

end Gotcha
