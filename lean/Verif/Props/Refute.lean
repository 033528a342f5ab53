import Verif.Demo.Bad
import Verif.Demo.Reuse
import Verif.Props.Stack
import Verif.Proof.Rewrap
/-
C05, C12, C14, C15, C16, C23: expectations that the code does not meet, each refuted by a history of
a concrete process.  C01 says that everything is intercepted (`Wired`) after a strict history; here
one condition of strictness at a time is dropped.
-/
namespace Gotcha
open Spec

/-- What C01 says, in one word. -/
theorem C01_wired {p : Process} (ok : p.Ok) {ops : List Op} (h : History p True ops) {s os}
    (hr : run p.env ops p.start = .ok (s, os)) : Wired p ops s := by
  intro f r hreg hreal hprog l hl off hoff
  obtain ⟨order, h1, h2⟩ := C01_calls_run_the_whole_stack ok h hr f hreal hprog
  exact ⟨order, h1, (h2 l hl off hoff hreg _).2 rfl⟩

/-- C05: wrapping the same table twice should leave the handles pointing past the wrappers. -/
theorem C05_rewrap_harmless_refuted :
    ¬ ∀ (p : Process), p.Ok → ∀ tbl tool, History p True [.wrap tbl tool] →
      ∀ s os, run p.env [.wrap tbl tool, .wrap tbl tool] p.start = .ok (s, os) →
      ∀ u ∈ tbl, s.getWrappee u.handle ≠ .ok u.wrapper := by
  intro hdoc
  obtain ⟨s, os, hr, hq⟩ := Demo.after_run Demo.twice_run
  have h2 : History Demo.proc True ([.wrap [⟨nm "foo", 0x50a, 10⟩] (some Demo.B)] ++
    [.wrap [⟨nm "foo", 0x50c, 12⟩] (some Demo.A)]) := Demo.history2 True
  have := hdoc Demo.proc Demo.proc_ok [⟨nm "foo", 0x50a, 10⟩] (some Demo.B) h2.prefix s os hr
    ⟨nm "foo", 0x50a, 10⟩ (by simp)
  cases hw : s.getWrappee 10 with
  | error e => simp [hw] at hq
  | ok a =>
    simp only [hw, Bool.and_eq_true, decide_eq_true_eq] at hq
    exact this (by rw [show (UBinding.mk (nm "foo") 0x50a 10).handle = 10 from rfl, hw, hq.1])

/-- C05, the consequence: the application's next call of the function never gets anywhere. -/
theorem C05_rewrap_loops_forever :
    ∃ s os, run Demo.env [.wrap [⟨nm "foo", 0x50a, 10⟩] (some Demo.B),
        .wrap [⟨nm "foo", 0x50a, 10⟩] (some Demo.B)] Demo.proc.start = .ok (s, os) ∧
      ∀ path, ¬ Calls Demo.P s (s.mem (Demo.app.addr + 0x18)) path := by
  obtain ⟨s, os, hr, hq⟩ := Demo.after_run Demo.twice_run
  refine ⟨s, os, hr, ?_⟩
  cases hw : s.getWrappee 10 with
  | error e => simp [hw] at hq
  | ok a =>
    simp only [hw, Bool.and_eq_true, decide_eq_true_eq] at hq
    rw [show Demo.app.addr + 0x18 = 0x10000018 from rfl, hq.2]
    intro path
    induction path with
    | nil => intro h; cases h
    | cons x path ih =>
      intro h
      obtain ⟨a', path', e, h1, h2⟩ := h.inv (h := 10) (by decide)
      rw [hw] at h1
      cases h1
      rw [hq.1] at h2
      cases e
      exact ih h2

/-- C05 in general: after any history of well-behaved clients, passing bindings to gotcha_wrap that
some earlier table already contained (all of that table or a part of it, under any tool and whatever
happened to the priorities in between) succeeds, and from then on no call of one of these wrappers
ever gets to a function that is not a wrapper: it runs in circles or continues with an indeterminate
pointer.  In strict histories (everything intercepted so far) the same goes for calls of the wrapped
function through any GOT slot of any loaded library. -/
theorem C05_rewrapped_calls_never_return {p : Process} (ok : p.Ok) {strict : Prop} {ops : List Op}
    (h : History p strict ops) {tbl : List UBinding} {tool : Option Name}
    (hne : tbl ≠ []) (hnn : (tbl.map UBinding.name).Nodup)
    (hold : ∀ u ∈ tbl, ∃ tbl0 tool0, Op.wrap tbl0 tool0 ∈ ops ∧ u ∈ tbl0) :
    ∃ s os, run p.env (ops ++ [.wrap tbl tool]) p.start = .ok (s, os) ∧
      ∀ u ∈ tbl, ∀ path, ¬ Calls p.P s u.wrapper path ∧
        (strict → ∀ l ∈ libsAfter p.libs ops, ∀ off, (off, u.name) ∈ rlOf l →
          ¬ Calls p.P s (s.mem (l.addr + off)) path) := by
  obtain ⟨s, hr, hT⟩ := history_run ok h
  obtain ⟨hv, hlm, hini⟩ := history_view ok h hr
  have hapi : ops.any isApi = true := by
    cases tbl with
    | nil => exact absurd rfl hne
    | cons u us =>
      obtain ⟨t0, l0, h0, -⟩ := hold u (by simp)
      exact List.any_eq_true.2 ⟨_, h0, rfl⟩
  rw [hapi] at hini
  rcases hT with hpre | ⟨v, G, hT⟩
  · rw [hpre.st] at hini; cases hini
  have hmain : ∀ u ∈ tbl, u.name = nm "main" → s.mainWrapped = true := by
    intro u hu hn
    obtain ⟨t0, l0, h0, h1⟩ := hold u hu
    rw [← hT.inv.mainW]
    exact (run_mainW p.env p.libs ops).2 ⟨_, h0, u, h1, hn⟩
  have hreg : ∀ u ∈ tbl, ∃ b t, btu s.binds b = some (t, u) := by
    intro u hu
    obtain ⟨t0, l0, h0, h1⟩ := hold u hu
    have hfr := (stackOf_perm p ops u.name).mem_iff.2 (wrap_registered (env := p.env) h0 h1)
    unfold stackOf at hfr
    rw [hT.inv.stack trivial, List.mem_map] at hfr
    obtain ⟨b, hb, he⟩ := hfr
    obtain ⟨t, u', hbu, hn⟩ := hT.inv.bind.named hb
    rw [frameOf_eq hbu] at he
    refine ⟨b, t, ?_⟩
    rw [hbu]
    obtain ⟨n1, w1, d1⟩ := u
    obtain ⟨n2, w2, d2⟩ := u'
    simp only [frame, Frame.mk.injEq] at he
    obtain ⟨-, rfl, rfl⟩ := he
    cases hn
    rfl
  obtain ⟨s', c, hw, hl', hall⟩ := wrapCore_again (C := (p.ctx True strict).at v) ok.world hT.inv
    trivial hT.pend tbl tool hnn hreg hmain
  have hstep : stepOp p.env (.wrap tbl tool) s = .ok (s', .ret c) := by
    simp only [stepOp, gotchaWrap, gotchaInit, hini, if_true, bind, Except.bind, wrapBody]
    rw [show wrapCore p.env (onMainReal p.env) tbl tool s = _ from hw]
  refine ⟨s', (Abs.run p.env ops p.abs).2 ++ [.ret c], ?_, ?_⟩
  · rw [run_append_model, hr]
    simp only [bind, Except.bind, run, hstep]
  · intro u hu path
    obtain ⟨T, hT1, hT2, hT3, hT4⟩ := hall u hu
    refine ⟨hT3.calls path _ hT1, ?_⟩
    intro hs l hl off hoff
    rw [← hlm] at hl
    refine hT3.calls path _ ?_
    have hS := hT.inv.slots hs
    rcases hT4 (l.addr + off) with e | ⟨l', hl', q, hq, e, w, hw1, hw2, hw3⟩
    · rw [e]
      obtain ⟨b, t, hb⟩ := hreg u hu
      have hne : G.ch u.name ≠ [] := by
        intro hc
        rcases hT.inv.onch trivial b (btu_lt hb) with hp | ⟨f, hf⟩
        · exact hT.pend b hp
        · obtain ⟨t', u', hb', rfl⟩ := hT.inv.bind.named hf
          rw [hb] at hb'
          cases hb'
          rw [hc] at hf; cases hf
      cases hch : G.ch u.name with
      | nil => exact absurd hch hne
      | cons hd L =>
        obtain ⟨a, ha, hba⟩ := hT2 hd (by rw [hch]; rfl)
        have := hS.slot l hl trivial (off, u.name) hoff (hT.dirty _) hd (by show (G.ch u.name).head? = _; rw [hch]; rfl)
        rw [hba] at this
        cases this
        exact ha
    · have hn : u.name = q.2 := hS.cons l hl l' hl' (off, u.name) hoff q hq e
      have : w = u := List.inj_on_of_nodup_map hnn hw1 hu (hw2.trans hn.symm)
      rw [hw3, this]
      exact hT1

/-- Two tools wrapped foo; one of them passes its table again, under another tool name: calls of foo
from the application are lost. -/
example : ∃ s os, run Demo.env (Demo.ops2 ++ [.wrap [⟨nm "foo", 0x50c, 12⟩] (some Demo.B)])
      Demo.proc.start = .ok (s, os) ∧
    ∀ path, ¬ Calls Demo.P s (s.mem (Demo.app.addr + 0x18)) path := by
  obtain ⟨s, os, hr, hc⟩ := C05_rewrapped_calls_never_return Demo.proc_ok (Demo.history2 True)
    (tbl := [⟨nm "foo", 0x50c, 12⟩]) (tool := some Demo.B) (by simp) (by simp)
    (by intro u hu; exact ⟨[⟨nm "foo", 0x50c, 12⟩], some Demo.A, by simp [Demo.ops2], hu⟩)
  exact ⟨s, os, hr, fun path => ((hc ⟨nm "foo", 0x50c, 12⟩ (by simp)) path).2 trivial Demo.app
    (by show _ ∈ [Demo.app, Demo.libc]; simp) 0x18 Demo.slot_app⟩

/-- C12: with the filter lifted, a later intercepted dlopen should bring every library up to date. -/
theorem C12_lifted_filter_refuted :
    ¬ ∀ (p : Process), p.Ok → ∀ ops ld,
      LoaderOk p True p.seen p.libs false (ops ++ [.dlopen ld]) → SlotCons p.libs →
      MainAlone (ops ++ [.dlopen ld]) → (ops ++ [Op.dlopen ld]).length + 3 < 2 ^ 32 →
      Honest p.env p.P (ops ++ [.dlopen ld]) →
      (∃ pre post, ops = pre ++ .setFilter .all :: post ∧ (∀ g, Op.setFilter g ∉ post)) →
      ∀ s os, run p.env (ops ++ [.dlopen ld]) p.start = .ok (s, os) →
      Wired p (ops ++ [.dlopen ld]) s := by
  intro hdoc
  obtain ⟨s, os, hr, hq⟩ := Demo.after_run Demo.filter_run
  have hw := hdoc Demo.proc Demo.proc_ok (Demo.opsFilter.take 4) Demo.noLoad
    ⟨fun _ => Demo.dlopen_def, fun h => (by cases h), Demo.noLoad_ok Demo.libs2_U _ _, trivial⟩
    (Demo.cons Demo.proc_ok.objs)
    (Demo.mainAlone_of ⟨trivial, fun h => absurd h (Demo.notMain (by decide +kernel)), trivial,
      fun h => absurd h (Demo.notMain (by decide +kernel)), trivial, trivial⟩)
    (by decide) ⟨by decide +kernel, by
      intro u hu
      simp only [Demo.opsFilter, List.take, List.cons_append, List.nil_append, List.flatMap_cons,
        List.flatMap_nil, tableOf, List.append_nil, List.mem_cons, List.not_mem_nil, or_false] at hu
      rcases hu with rfl | rfl <;> decide, Demo.envOk⟩
    ⟨Demo.opsFilter.take 2, [.wrap [⟨nm "bar", 0x50b, 11⟩] (some Demo.A)], rfl, by intro g; simp⟩
    s os hr
  refine not_wired (f := nm "foo") (r := 0x20004000) (l := Demo.app) (off := 0x18) ?_
    Demo.filter_real (by decide) (by show _ ∈ [Demo.app, Demo.libc]; simp) Demo.slot_app ?_ hw
  · exact fun h => List.cons_ne_nil _ _ (Demo.filter_reg.symm.trans h)
  · rw [show Demo.app.addr + 0x18 = 0x10000018 from rfl, of_decide_eq_true hq]
    decide

/-- C14: a table with main and another function should intercept that function as well. -/
theorem C14_main_with_others_refuted :
    ¬ ∀ (p : Process), p.Ok → ∀ ops,
      LoaderOk p True p.seen p.libs false ops → SlotCons p.libs → ops.length + 3 < 2 ^ 32 →
      Honest p.env p.P ops → (∀ g, Op.setFilter g ∉ ops) →
      ∀ s os, run p.env ops p.start = .ok (s, os) → Wired p ops s := by
  intro hdoc
  obtain ⟨s, os, hr, hq⟩ := Demo.after_run Demo.main_run
  have hw := hdoc Demo.proc Demo.proc_ok Demo.opsMain ⟨fun _ => Demo.dlopen_def, trivial⟩
    (Demo.cons Demo.proc_ok.objs) (by decide) ⟨by decide +kernel, by
      intro u hu
      simp only [Demo.opsMain, List.flatMap_cons, List.flatMap_nil, tableOf, List.append_nil,
        List.mem_cons, List.not_mem_nil, or_false] at hu
      rcases hu with rfl | rfl <;> decide, Demo.envOk⟩
    (by intro g; simp [Demo.opsMain]) s os hr
  refine not_wired (f := nm "foo") (r := 0x20004000) (l := Demo.app) (off := 0x18) ?_
    Demo.main_real (by decide) (by show _ ∈ [Demo.app, Demo.libc]; simp) Demo.slot_app ?_ hw
  · exact fun h => List.cons_ne_nil _ _ (Demo.main_reg.symm.trans h)
  · rw [show Demo.app.addr + 0x18 = 0x10000018 from rfl, of_decide_eq_true hq]
    decide

/-- C16: after an intercepted dlopen, objects that came in without GOTCHA noticing should be
intercepted too. -/
theorem C16_silent_load_refuted :
    ¬ ∀ (p : Process), p.Ok → ∀ ops ld,
      LoaderOk p False p.seen p.libs false (ops ++ [.dlopen ld]) →
      SlotCons (libsAfter p.libs (ops ++ [.dlopen ld])) →
      MainAlone (ops ++ [.dlopen ld]) → (ops ++ [Op.dlopen ld]).length + 3 < 2 ^ 32 →
      Honest p.env p.P (ops ++ [.dlopen ld]) → (∀ g, Op.setFilter g ∉ ops) →
      (∀ d, Op.unload d ∉ ops) →
      ∀ s os, run p.env (ops ++ [.dlopen ld]) p.start = .ok (s, os) →
      Wired p (ops ++ [.dlopen ld]) s := by
  intro hdoc
  obtain ⟨s, os, hr, hq⟩ := Demo.after_run Demo.silent_run
  have hw := hdoc Demo.proc Demo.proc_ok (Demo.opsSilent.take 3) Demo.noLoad
    ⟨fun _ => Demo.dlopen_def, Demo.loadPlug_ok False, fun _ => id, fun h => (by cases h),
      Demo.noLoad_ok Demo.libs_U _ _, trivial⟩
    (Demo.cons Demo.libs_U)
    (Demo.mainAlone_of ⟨fun h => absurd h (Demo.notMain (by decide +kernel)), trivial,
      fun h => absurd h (Demo.notMain (by decide +kernel)), trivial, trivial⟩)
    (by decide) ⟨by decide +kernel, by
      intro u hu
      simp only [Demo.opsSilent, List.take, List.cons_append, List.nil_append, List.flatMap_cons,
        List.flatMap_nil, tableOf, List.append_nil, List.mem_cons, List.not_mem_nil, or_false] at hu
      rcases hu with rfl | rfl <;> decide, Demo.envOk⟩
    (by intro g; simp [Demo.opsSilent]) (by intro g; simp [Demo.opsSilent]) s os hr
  refine not_wired (f := nm "foo") (r := 0x20004000) (l := Demo.plug) (off := 0x18) ?_
    Demo.silent_real (by decide) (by show _ ∈ [Demo.app, Demo.libc, Demo.plug]; simp)
    Demo.slot_plug ?_ hw
  · exact fun h => List.cons_ne_nil _ _ (Demo.silent_reg.symm.trans h)
  · rw [show Demo.plug.addr + 0x18 = 0x30000018 from rfl, of_decide_eq_true hq]
    decide

/-- The plugin may be loaded again once it is gone: it is not one of the objects loaded then. -/
theorem reload_ok (strict : Prop) : LoadsOk Demo.proc strict
    (fun l => l ∈ [Demo.app, Demo.libc]) [Demo.app, Demo.libc] Demo.reload where
  objs := by
    intro l hl
    simp only [Demo.reload, List.mem_singleton] at hl
    subst hl
    exact Or.inr (Or.inr rfl)
  nd := by
    show [Demo.app.lm, Demo.libc.lm, Demo.plug.lm].Nodup
    decide
  again := by
    intro l hl
    simp only [Demo.reload, List.mem_singleton] at hl
    subst hl
    intro hl
    simp only [List.mem_cons, List.not_mem_nil, or_false] at hl
    rcases hl with hl | hl <;> exact absurd (congrArg Lib.lm hl) (by decide)
  placed := Demo.placed Demo.libs_U
  old := by
    intro l hl s hs
    simp only [List.mem_cons, List.not_mem_nil, or_false] at hl
    rcases hl with rfl | rfl
    · rw [Demo.rl_app] at hs
      simp only [List.mem_cons, List.not_mem_nil, or_false] at hs
      rcases hs with rfl | rfl | rfl | rfl <;> decide
    · rw [Demo.rl_libc] at hs; cases hs
  cover := by
    intro l hl s hs
    simp only [Demo.reload, List.mem_singleton] at hl
    subst hl
    exact Or.inr (Demo.cover_plug s hs)
  cons := fun _ => Demo.cons Demo.libs_U
  keep := by
    intro _ l hl s hs
    simp only [List.mem_cons, List.not_mem_nil, or_false] at hl
    rcases hl with rfl | rfl
    · rw [Demo.rl_app] at hs
      simp only [List.mem_cons, List.not_mem_nil, or_false] at hs
      rcases hs with rfl | rfl | rfl | rfl <;> decide
    · rw [Demo.rl_libc] at hs; cases hs

theorem deadPlug_libs : libsAfter [Demo.app, Demo.libc]
    (Demo.opsReload.take 3) = [Demo.app, Demo.libc] := rfl

theorem unload_history (strict : Prop) : History Demo.proc strict (Demo.opsReload.take 3) where
  honest := ⟨by decide +kernel, by
    intro u hu
    simp only [Demo.opsReload, List.take, List.flatMap_cons, List.flatMap_nil, tableOf,
      List.append_nil, List.mem_cons, List.not_mem_nil, or_false] at hu
    rcases hu with rfl <;> decide, Demo.envOk⟩
  loader := ⟨fun _ => Demo.dlopen_def, Demo.loadPlug_ok strict, Or.inl rfl, trivial⟩
  cons := fun _ => Demo.cons Demo.proc_ok.objs
  filter := by intro _ f hf; simp [Demo.opsReload] at hf
  main := fun _ => Demo.mainAlone_of ⟨fun h => absurd h (Demo.notMain (by decide +kernel)), trivial,
    trivial, trivial⟩
  short := fun _ => by decide

/-- C15: a library that is unloaded and then loaded again by an intercepted dlopen should be
intercepted as before. -/
theorem C15_dlclose_and_dlopen_refuted :
    ¬ ∀ (p : Process), p.Ok → ∀ ops ld, History p True ops →
      LoadsOk p True (fun l => l ∈ libsAfter p.libs ops) (libsAfter p.libs ops) ld →
      ∀ s os, run p.env (ops ++ [.dlopen ld]) p.start = .ok (s, os) →
      Wired p (ops ++ [.dlopen ld]) s := by
  intro hdoc
  obtain ⟨s, os, hr, hq⟩ := Demo.after_run Demo.reload_run
  have hw := hdoc Demo.proc Demo.proc_ok (Demo.opsReload.take 3) Demo.reload (unload_history True)
    (reload_ok True) s os hr
  refine not_wired (f := nm "foo") (r := 0x20004000) (l := Demo.plug) (off := 0x18) ?_
    Demo.reload_real (by decide) (by show _ ∈ [Demo.app, Demo.libc, Demo.plug]; simp)
    Demo.slot_plug ?_ hw
  · exact fun h => List.cons_ne_nil _ _ (Demo.reload_reg.symm.trans h)
  · rw [show Demo.plug.addr + 0x18 = 0x30000018 from rfl, of_decide_eq_true hq]
    decide

/-- C15, what holds: an object loaded by an intercepted dlopen that has not been loaded before is
intercepted like everything else, also when the loader gives it the link_map address of an object that
has been unloaded. -/
theorem C15_new_object_is_intercepted {p : Process} (ok : p.Ok) {ops : List Op} {ld : Load}
    (h : History p True (ops ++ [.dlopen ld])) {s os}
    (hr : run p.env (ops ++ [.dlopen ld]) p.start = .ok (s, os)) :
    Wired p (ops ++ [.dlopen ld]) s := C01_wired ok h hr

/-- The second plugin of Demo/Reuse has the link_map address of the first one, which was unloaded; its
calls of foo are intercepted. -/
example : Demo.plug2.lm = Demo.plug.lm ∧ ∃ s os, run Demo.proc2.env Demo.opsReuse Demo.proc2.start =
    .ok (s, os) ∧ Calls Demo.proc2.P s (s.mem 0x40000018) [0x50a, 0x20004000] := by
  refine ⟨rfl, ?_⟩
  obtain ⟨s, hr, -⟩ := history_run Demo.proc2_ok (Demo.history_reuse True)
  obtain ⟨order, h1, h2⟩ := C15_new_object_is_intercepted (ops := Demo.opsReuse.take 3)
    (ld := Demo.loadPlug2) Demo.proc2_ok (Demo.history_reuse True) hr (nm "foo") 0x20004000
    (fun h => List.cons_ne_nil _ _ (Demo.reg_reuse.symm.trans h)) Demo.real_reuse (by decide)
    Demo.plug2 (by show _ ∈ [Demo.app, Demo.libc, Demo.plug2]; simp) 0x18 Demo.slot_plug2
  refine ⟨s, _, hr, ?_⟩
  rw [show registered Demo.proc2.env (Demo.opsReuse.take 3 ++ [.dlopen Demo.loadPlug2]) (nm "foo") = _
    from Demo.reg_reuse] at h1
  rw [List.perm_singleton.1 h1] at h2
  exact h2

theorem crash_history : History Demo.proc True (Demo.opsCrash.take 4) := by
  refine ⟨⟨⟨fun _ => Demo.dlopen_def, Demo.loadPlug_ok True, Or.inl rfl, fun h => (by cases h),
    trivial⟩, fun _ => Demo.cons Demo.proc_ok.objs, ?_, fun _ => Demo.mainAlone_of
      ⟨fun h => absurd h (Demo.notMain (by decide +kernel)), trivial, trivial,
        fun h => absurd h (Demo.notMain (by decide +kernel)), trivial⟩, fun _ => by decide⟩,
    ⟨by decide +kernel, ?_, Demo.envOk⟩⟩
  · intro _ f hf; simp [Demo.opsCrash] at hf
  · intro u hu
    simp only [Demo.opsCrash, List.take, List.flatMap_cons, List.flatMap_nil, tableOf,
      List.append_nil, List.nil_append, List.cons_append, List.mem_cons, List.not_mem_nil,
      or_false] at hu
    rcases hu with rfl | rfl <;> decide

/-- C23: an unloaded library loaded again at the same place can make GOTCHA write to a read-only page. -/
theorem C23_reload_crash_refuted :
    ¬ ∀ (p : Process), p.Ok → ∀ ops ld, History p True ops →
      LoadsOk p True (fun l => l ∈ libsAfter p.libs ops) (libsAfter p.libs ops) ld →
      ∃ s os, run p.env (ops ++ [.dlopen ld]) p.start = .ok (s, os) := by
  intro hdoc
  obtain ⟨s, os, hr⟩ := hdoc Demo.proc Demo.proc_ok (Demo.opsCrash.take 4) Demo.reload crash_history
    (reload_ok True)
  have := Demo.crash_run
  rw [show run Demo.env Demo.opsCrash Demo.proc.start = _ from hr] at this
  cases this

end Gotcha
