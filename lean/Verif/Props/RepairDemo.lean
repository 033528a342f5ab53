import Verif.Props.Repair
import Verif.Props.Skip
/-
C128: the example process, and what one of the two calls alone does not do.  C129: a plugin that is loaded behind
GOTCHA's back, with a filter that leaves the application out, closed and loaded again.
-/
namespace Gotcha
open Spec

namespace Demo

theorem jobs_cons : SlotCons (libsAfter proc.libs (ops.take 1) ++ jobs.flatMap Job.objects) := by
  show SlotCons ([app, libc] ++ [])
  rw [List.append_nil]
  exact (history True).cons trivial

/-- The two threads of C93, and then the two calls. -/
theorem threads_repaired : after proc.env (ops.take 1) proc.start (fun s =>
    match runThreads proc.env [0, 1, 0, 0, 0, 0, 0, 1, 1, 1, 1, 1] (jobs.map Job.thread) s with
    | .ok (s1, _) => decide (s1.mem 0x10000018 ≠ 0x50a) &&
        (after proc.env [.wrap [] none, reopen] s1 (fun s2 => decide (s2.mem 0x10000018 = 0x50a)) &&
        (after proc.env [reopen] s1 (fun s2 => decide (s2.mem 0x10000018 ≠ 0x50a)) &&
        (after proc.env [reopen, .wrap [] none] s1 (fun s2 => decide (s2.mem 0x10000018 ≠ 0x50a)) &&
        after proc.env [.wrap [] none] s1 (fun s2 => decide (s2.mem 0x10000018 ≠ 0x50a)))))
    | .error _ => false) = true := by
  decide +kernel

end Demo

/-- The hypotheses of C128 hold in the example process, in which C93 has left a slot of `foo` unwritten; after the
two calls it holds the wrapper. -/
example : ∃ s os s1 ts1 s2 os2, run Demo.proc.env (Demo.ops.take 1) Demo.proc.start = .ok (s, os) ∧
    runThreads Demo.proc.env [0, 1, 0, 0, 0, 0, 0, 1, 1, 1, 1, 1] (Demo.jobs.map Job.thread) s = .ok (s1, ts1) ∧
    s1.mem 0x10000018 ≠ 0x50a ∧ run Demo.proc.env [.wrap [] none, reopen] s1 = .ok (s2, os2) ∧
    s2.mem 0x10000018 = 0x50a ∧ ∃ log, Wired Demo.proc (Demo.ops.take 1 ++ asOps log ++ [reopen]) s2 := by
  obtain ⟨s, os, hr, hq⟩ := Demo.after_run Demo.threads_repaired
  cases h1 : runThreads Demo.proc.env [0, 1, 0, 0, 0, 0, 0, 1, 1, 1, 1, 1] (Demo.jobs.map Job.thread) s with
  | error e => simp [h1] at hq
  | ok r =>
    obtain ⟨s1, ts1⟩ := r
    rw [h1] at hq
    simp only [Bool.and_eq_true, decide_eq_true_eq] at hq
    obtain ⟨s2, os2, hr2, hq2⟩ := Demo.after_run hq.2.1
    obtain ⟨s2', log, e1, -, e3, -⟩ := C128_repair Demo.proc_ok (Demo.prefix_history True 1) (by decide +kernel) hr
      Demo.jobs_honest Demo.jobs_order Demo.jobs_main (by decide +kernel) h1 Demo.jobs_cons none
    have : s2' = s2 := by
      change run Demo.proc.env _ _ = _ at hr2
      rw [hr2] at e1
      cases e1
      rfl
    subst this
    exact ⟨s, os, s1, ts1, s2', os2, hr, h1, hq.1, hr2, by simpa using hq2, log, e3⟩

/-- C128, the limits: a dlopen alone does not put it right, nor does a gotcha_wrap alone, nor the two in the other
order. -/
theorem C128_one_call_refuted (fix : List Op) (hfix : fix ∈ [[reopen], [.wrap [] none], [reopen, .wrap [] none]]) :
    ¬ ∀ (p : Process), p.Ok → ∀ (ops : List Op), History p True ops → ops.any isApi = true →
      ∀ s os, run p.env ops p.start = .ok (s, os) → ∀ jobs : List Job,
      Honest p.env p.P (ops ++ jobs.map Job.op) → AnyOrder p ops jobs →
      (∀ j ∈ jobs, ∀ u ∈ j.table, u.name ≠ nm "main") →
      SlotCons (libsAfter p.libs ops ++ jobs.flatMap Job.objects) → ∀ σ s1 ts1,
      runThreads p.env σ (jobs.map Job.thread) s = .ok (s1, ts1) → ∀ s2 os2,
      run p.env fix s1 = .ok (s2, os2) →
      ∀ l ∈ libsAfter p.libs ops, ∀ q ∈ rlOf l, q.2 = nm "foo" → s2.mem (l.addr + q.1) = 0x50a := by
  intro hall
  obtain ⟨s, os, hr, hq⟩ := Demo.after_run Demo.threads_repaired
  cases h1 : runThreads Demo.proc.env [0, 1, 0, 0, 0, 0, 0, 1, 1, 1, 1, 1] (Demo.jobs.map Job.thread) s with
  | error e => simp [h1] at hq
  | ok r =>
    obtain ⟨s1, ts1⟩ := r
    rw [h1] at hq
    simp only [Bool.and_eq_true, decide_eq_true_eq] at hq
    have key : ∀ {s2 os2}, run Demo.proc.env fix s1 = .ok (s2, os2) → s2.mem 0x10000018 = 0x50a := by
      intro s2 os2 h2
      exact hall Demo.proc Demo.proc_ok (Demo.ops.take 1) (Demo.prefix_history True 1) (by decide +kernel) s os hr
        Demo.jobs Demo.jobs_honest Demo.jobs_order Demo.jobs_main Demo.jobs_cons _ s1 ts1 h1 s2 os2 h2 Demo.app
        (by show _ ∈ [Demo.app, Demo.libc]; simp) _ Demo.slot_app rfl
    simp only [List.mem_cons, List.not_mem_nil, or_false] at hfix
    rcases hfix with rfl | rfl | rfl
    · obtain ⟨s2, os2, hr2, hq2⟩ := Demo.after_run hq.2.2.1
      exact absurd (key hr2) (by simpa using hq2)
    · obtain ⟨s2, os2, hr2, hq2⟩ := Demo.after_run hq.2.2.2.2
      exact absurd (key hr2) (by simpa using hq2)
    · obtain ⟨s2, os2, hr2, hq2⟩ := Demo.after_run hq.2.2.2.1
      exact absurd (key hr2) (by simpa using hq2)

namespace Demo

theorem rough_of {seen libs ld} (h : LoadsOk proc True seen libs ld) :
    LoadsFor proc True (fun _ => False) seen libs ld :=
  ⟨h.objs, h.nd, fun l hl hs => absurd trivial (h.again l hl hs).1, h.placed, h.old, h.cover, h.cons,
    fun hs l hl _ => h.keep hs l hl⟩

theorem reloadW_rough : LoadsFor proc True (fun _ => False) (seenWith proc.seen loadPlug.libs) [app, libc] reloadW :=
  ⟨reloadW_ok.objs, reloadW_ok.nd, fun l hl hs => ⟨fun _ h => h, (reloadW_ok.again l hl hs).2⟩, reloadW_ok.placed,
    reloadW_ok.old, reloadW_ok.cover, fun _ => (loadPlug_ok True).cons trivial, fun _ _ _ h => h.elim⟩

/-- GOTCHA works on the last library only, does not see the plugin being loaded, and the plugin is closed and opened
again. -/
def opsRough : List Op :=
  [ .setFilter .last, .wrap [⟨nm "foo", 0x50a, 10⟩] (some B), .load loadPlug, .unload deadPlug, .dlopen reloadW ]

theorem rough_ok : Rough proc opsRough where
  loader := ⟨fun _ => dlopen_def, rough_of (loadPlug_ok True), fun _ _ _ _ h => h, Or.inl rfl, reloadW_rough, trivial⟩
  cons := fun _ => (history True).cons trivial
  filter := fun _ _ _ _ h => h.elim
  main := fun _ => mainAlone_of ⟨trivial, fun h => absurd h (notMain (by decide +kernel)), trivial, trivial, trivial, trivial⟩
  short := fun _ => by decide
  honest := ⟨by decide +kernel, by
    intro u hu
    simp only [opsRough, List.flatMap_cons, List.flatMap_nil, tableOf, List.append_nil, List.nil_append,
      List.mem_cons, List.not_mem_nil, or_false] at hu
    rcases hu with rfl <;> decide, envOk⟩

theorem reloadW_is_rough : Rough proc opsReloadW where
  loader := ⟨fun _ => dlopen_def, rough_of (loadPlug_ok True), Or.inl rfl, reloadW_rough, trivial⟩
  cons := fun _ => (history True).cons trivial
  filter := fun _ _ _ _ h => h.elim
  main := fun _ => mainAlone_of ⟨fun h => absurd h (notMain (by decide +kernel)), trivial, trivial, trivial, trivial⟩
  short := fun _ => by decide
  honest := ⟨by decide +kernel, by
    intro u hu
    simp only [opsReloadW, List.flatMap_cons, List.flatMap_nil, tableOf, List.append_nil, List.nil_append,
      List.mem_cons, List.not_mem_nil, or_false] at hu
    rcases hu with rfl <;> decide, envOk⟩

theorem rough_run : after proc.env opsRough proc.start (fun s => decide (s.mem 0x10000018 = 0)) = true := by
  decide +kernel

theorem reloadW_slot : after proc.env opsReloadW proc.start (fun s => decide (s.mem 0x30000018 = 0x20004000)) = true := by
  decide +kernel

/-- What a dlopen alone, a gotcha_wrap alone and the two in the other order do not do. -/
theorem reloadW_alone (fix : List Op) (hfix : fix ∈ [[reopen], [.wrap [] none], [reopen, .wrap [] none]]) :
    after proc.env (opsReloadW ++ fix) proc.start (fun s => decide (s.mem 0x30000018 = 0x20004000)) = true := by
  simp only [List.mem_cons, List.not_mem_nil, or_false] at hfix
  rcases hfix with rfl | rfl | rfl <;> decide +kernel

end Demo

/-- The application calls foo directly after `opsRough`; with the filter back, a gotcha_wrap and a dlopen it runs the
wrapper and then libc's foo. -/
example : ∃ s os s' os', run Demo.proc.env Demo.opsRough Demo.proc.start = .ok (s, os) ∧ s.mem 0x10000018 = 0 ∧
    run Demo.proc.env (Demo.opsRough ++ [.setFilter .all, .wrap [] none, reopen]) Demo.proc.start = .ok (s', os') ∧
    Calls Demo.proc.P s' (s'.mem 0x10000018) [0x50a, 0x20004000] := by
  obtain ⟨s, os, hr, hq⟩ := Demo.after_run Demo.rough_run
  obtain ⟨s', e1, e2⟩ := C129_everything_back Demo.proc_ok Demo.rough_ok (by decide) hr (by decide) none
  refine ⟨s, os, s', _, hr, of_decide_eq_true hq, e1, ?_⟩
  have hreg : registered Demo.proc.env (Demo.opsRough ++ [.setFilter .all, .wrap [] none, reopen]) (nm "foo") =
    [⟨Demo.B, 0x50a, 10⟩] := by decide +kernel
  obtain ⟨order, ho, hc⟩ := e2 (nm "foo") 0x20004000 (by rw [hreg]; simp) (by decide +kernel) (by decide) Demo.app
    (by show _ ∈ [Demo.app, Demo.libc, Demo.plug]; simp) _ Demo.slot_app
  rw [hreg] at ho
  rw [List.perm_singleton.1 ho] at hc
  exact hc

/-- The plugin that has come back calls foo directly (C15); after a gotcha_wrap and a dlopen it runs the wrapper and
then libc's foo. -/
theorem C129_repairs_C15 : ∃ s os s' os', run Demo.proc.env Demo.opsReloadW Demo.proc.start = .ok (s, os) ∧
    s.mem 0x30000018 = 0x20004000 ∧
    run Demo.proc.env (Demo.opsReloadW ++ [.wrap [] none, reopen]) Demo.proc.start = .ok (s', os') ∧
    Calls Demo.proc.P s' (s'.mem 0x30000018) [0x50a, 0x20004000] := by
  obtain ⟨s, os, hr, hq⟩ := Demo.after_run Demo.reloadW_slot
  obtain ⟨s', e1, e2⟩ := C129_self_healing Demo.proc_ok Demo.reloadW_is_rough (by decide) hr (by decide) none
  refine ⟨s, os, s', _, hr, of_decide_eq_true hq, e1, ?_⟩
  have hreg : registered Demo.proc.env (Demo.opsReloadW ++ [.wrap [] none, reopen]) (nm "foo") =
    [⟨Demo.B, 0x50a, 10⟩] := by decide +kernel
  obtain ⟨order, ho, hc⟩ := e2 (nm "foo") 0x20004000 (by rw [hreg]; simp) (by decide +kernel) (by decide) Demo.plug
    (by show _ ∈ [Demo.app, Demo.libc, Demo.plug]; simp) trivial _ Demo.slot_plug
  rw [hreg] at ho
  rw [List.perm_singleton.1 ho] at hc
  exact hc

/-- C129, the limits: a dlopen alone does not put it right, nor does a gotcha_wrap alone, nor the two in the other
order. -/
theorem C129_one_call_refuted (fix : List Op) (hfix : fix ∈ [[reopen], [.wrap [] none], [reopen, .wrap [] none]]) :
    ¬ ∀ (p : Process), p.Ok → ∀ ops : List Op, Rough p ops → ops.any isApi = true →
      ∀ s os, run p.env (ops ++ fix) p.start = .ok (s, os) → WiredFor p (Passes (filterAfter ops)) (ops ++ fix) s := by
  intro hall
  obtain ⟨s, os, hr, hq⟩ := Demo.after_run (Demo.reloadW_alone fix hfix)
  have hreg : registered Demo.proc.env (Demo.opsReloadW ++ fix) (nm "foo") = [⟨Demo.B, 0x50a, 10⟩] := by
    simp only [List.mem_cons, List.not_mem_nil, or_false] at hfix
    rcases hfix with rfl | rfl | rfl <;> decide +kernel
  have hreal : realAfter Demo.proc.env Demo.proc.libs (Demo.opsReloadW ++ fix) (nm "foo") = some 0x20004000 := by
    simp only [List.mem_cons, List.not_mem_nil, or_false] at hfix
    rcases hfix with rfl | rfl | rfl <;> decide +kernel
  have hlib : Demo.plug ∈ libsAfter Demo.proc.libs (Demo.opsReloadW ++ fix) := by
    simp only [List.mem_cons, List.not_mem_nil, or_false] at hfix
    rcases hfix with rfl | rfl | rfl <;> (show _ ∈ [Demo.app, Demo.libc, Demo.plug]; simp)
  refine not_wired (p := Demo.proc) (s := s) (r := 0x20004000) (by rw [hreg]; simp) hreal (by decide) hlib Demo.slot_plug ?_ ?_
  · rw [show Demo.plug.addr + 0x18 = 0x30000018 from rfl, of_decide_eq_true hq]
    decide
  · exact fun f r h1 h2 h3 l hl off hoff =>
      hall Demo.proc Demo.proc_ok _ Demo.reloadW_is_rough (by decide) s os hr f r h1 h2 h3 l hl trivial off hoff

namespace Demo

/-- As `opsReloadW`; then bar is wrapped, for the first time. -/
def opsNewFun : List Op := opsReloadW ++ [.wrap [⟨nm "bar", 0x50b, 11⟩] (some A)]

theorem newFun_rough : Rough proc opsNewFun where
  loader := ⟨fun _ => dlopen_def, rough_of (loadPlug_ok True), Or.inl rfl, reloadW_rough, fun h => (by cases h), trivial⟩
  cons := fun _ => (history True).cons trivial
  filter := fun _ _ _ _ h => h.elim
  main := fun _ => mainAlone_of ⟨fun h => absurd h (notMain (by decide +kernel)), trivial, trivial, trivial,
    fun h => absurd h (notMain (by decide +kernel)), trivial⟩
  short := fun _ => by decide
  honest := ⟨by decide +kernel, by
    intro u hu
    simp only [opsNewFun, opsReloadW, List.cons_append, List.flatMap_cons, List.flatMap_nil, tableOf, List.append_nil,
      List.nil_append, List.mem_cons, List.not_mem_nil, or_false] at hu
    rcases hu with rfl | rfl <;> decide, envOk⟩

theorem newFun_run : after proc.env (opsNewFun ++ [reopen]) proc.start
    (fun s => decide (s.mem 0x30000018 = 0x20004000)) = true := by
  decide +kernel

end Demo

/-- C129, the limits: the table has to be empty.  A gotcha_wrap of a function not wrapped before marks every library as
up to date although only the slots of that function have been looked at, and the dlopen after it puts nothing right. -/
theorem C129_new_function_refuted :
    ¬ ∀ (p : Process), p.Ok → ∀ (ops : List Op) (tbl : List UBinding) (tool : Option Name),
      Rough p (ops ++ [.wrap tbl tool]) → ops.any isApi = true →
      ∀ s os, run p.env (ops ++ [.wrap tbl tool, reopen]) p.start = .ok (s, os) →
      WiredFor p (Passes (filterAfter ops)) (ops ++ [.wrap tbl tool, reopen]) s := by
  intro hall
  obtain ⟨s, os, hr, hq⟩ := Demo.after_run Demo.newFun_run
  have hw := hall Demo.proc Demo.proc_ok Demo.opsReloadW [⟨nm "bar", 0x50b, 11⟩] (some Demo.A) Demo.newFun_rough
    (by decide) s os hr
  refine not_wired (p := Demo.proc) (ops := Demo.opsNewFun ++ [reopen]) (s := s) (f := nm "foo") (r := 0x20004000)
    (l := Demo.plug) (off := 0x18) ?_ (by decide +kernel) (by decide)
    (by show _ ∈ [Demo.app, Demo.libc, Demo.plug]; simp) Demo.slot_plug ?_ ?_
  · have hreg : registered Demo.proc.env (Demo.opsNewFun ++ [reopen]) (nm "foo") = [⟨Demo.B, 0x50a, 10⟩] := by
      decide +kernel
    rw [hreg]
    simp
  · rw [show Demo.plug.addr + 0x18 = 0x30000018 from rfl, of_decide_eq_true hq]
    decide
  · exact fun f r h1 h2 h3 l hl off hoff => hw f r h1 h2 h3 l hl trivial off hoff

end Gotcha
