import Verif.Props.Threads
/-
C94: gotcha_wrap in one thread and dlopen in another.
-/
namespace Gotcha
open Spec

/-- C94.  No table names `main`.  All threads have started after `σ1`; thread `i` is then at the beginning of
`update_all_library_gots`.  After `σ2` it is back, and no `dlopen` has come to its own
`update_all_library_gots`, which would put the wrappers into the slots of the new objects.

Then it never will: whatever happens afterwards (`σ3`), the slots of a function that is in none of the
tables keep the values of the moment after `σ1`, in the new objects too, although the function may have
been wrapped before and all calls may return. -/
theorem C94_new_object_missed {p : Process} (ok : p.Ok) {ops : List Op} (h : History p False ops)
    (hapi : ops.any isApi = true) {s os} (hrun : run p.env ops p.start = .ok (s, os))
    {jobs : List Job} (hj : Honest p.env p.P (ops ++ jobs.map Job.op)) (hl : AnyOrder p ops jobs)
    (hmain : ∀ j ∈ jobs, ∀ u ∈ j.table, u.name ≠ nm "main") {σ1 σ2 σ3 : List Nat}
    {s1 ts1 s2 ts2 s3 ts3} (h1 : runThreads p.env σ1 (jobs.map Job.thread) s = .ok (s1, ts1))
    (h2 : runThreads p.env σ2 ts1 s1 = .ok (s2, ts2)) (h3 : runThreads p.env σ3 ts2 s2 = .ok (s3, ts3))
    (hstart : ∀ t ∈ ts1, (∀ tbl tool, t ≠ .call tbl tool) ∧ ∀ ld, t ≠ .dlcall ld) {i : Nat} {t nf c}
    (hi1 : ts1[i]? = some (.write t 0 nf)) (hi2 : ts2[i]? = some (.ret c))
    (hdl : ∀ t ∈ ts2, (∀ k, t ≠ .dlwrite k) ∧ t ≠ .dlret) {f : Name} {a : Addr}
    (hf : ∀ j ∈ jobs, f ∉ j.table.map UBinding.name)
    (ha : ∀ l ∈ s1.linkMap, ∀ q ∈ rlOf l, a = l.addr + q.1 → q.2 = f) : s3.mem a = s1.mem a := by
  rw [(C93_update_lost ok h hapi hrun hj hl hmain h1 h2 h3 hstart hi1 (Or.inl ⟨t, nf, rfl⟩) hi2
    trivial).1]
  obtain ⟨v, G, hT, hJ⟩ := start_threads ok h hapi hrun hj hl
  have henv : ((p.ctx True False).at v).hon → EnvOk p.env p.P := fun _ => h.honest.own
  obtain ⟨s1', ts1', G1, A1, log1, x1, x2⟩ := run_all ok.world henv trivial id hJ σ1 hT
  rw [show ((p.ctx True False).at v).env = p.env from rfl, h1] at x1
  cases x1
  have hc1 : ∀ t ∈ ts1, ¬ isCall t := by
    intro t ht hc
    cases t with
    | call tbl tool => exact (hstart _ ht).1 tbl tool rfl
    | dlcall ld => exact (hstart _ ht).2 ld rfl
    | _ => exact hc
  exact run_others ok.world henv trivial id hJ hmain hf σ2 x2 hc1 ha h2 hdl

namespace Demo

/-- Thread 0 wraps `foo`, thread 1 loads the plugin. -/
def wrapDl : List Job := [.wrap [⟨nm "foo", 0x50a, 10⟩] (some B), .dlopen loadPlug]

/-- Thread 0 loads the plugin, thread 1 wraps `__libc_start_main`. -/
def dlWrap : List Job := [.dlopen loadPlug, .wrap [⟨nm "__libc_start_main", 0x50e, 14⟩] (some A)]

theorem wrapDl_honest : Honest proc.env proc.P (ops.take 1 ++ wrapDl.map Job.op) := by
  refine ⟨by decide +kernel, ?_, envOk⟩
  intro u hu
  simp only [ops, wrapDl, Job.op, List.take_succ_cons, List.take_zero, List.map_cons, List.map_nil,
    List.cons_append, List.nil_append, List.flatMap_cons, List.flatMap_nil, tableOf, List.append_nil,
    List.mem_cons, List.not_mem_nil, or_false] at hu
  rcases hu with rfl <;> rfl

theorem dlWrap_honest : Honest proc.env proc.P (ops.take 3 ++ dlWrap.map Job.op) := by
  refine ⟨by decide +kernel, ?_, envOk⟩
  intro u hu
  simp only [ops, dlWrap, Job.op, List.take_succ_cons, List.take_zero, List.map_cons, List.map_nil,
    List.cons_append, List.nil_append, List.flatMap_cons, List.flatMap_nil, tableOf, List.append_nil,
    List.mem_cons, List.not_mem_nil, or_false] at hu
  rcases hu with rfl | rfl | rfl | rfl <;> rfl

theorem noMain_of {jobs : List Job} (h : ∀ j ∈ jobs, ∀ u ∈ j.table, (u.name == nm "main") = false) :
    ∀ j ∈ jobs, ∀ u ∈ j.table, u.name ≠ nm "main" := by
  intro j hj u hu e
  have := h j hj u hu
  rw [e] at this
  simp at this

theorem wrapDl_order : AnyOrder proc (ops.take 1) wrapDl := by
  intro lds hp
  have : lds = [loadPlug] := List.perm_singleton.1 hp
  subst this
  exact ⟨⟨fun _ => dlopen_def, loadPlug_ok False, fun _ => id, trivial⟩, fun h => h.elim,
    fun h => h.elim, fun h => h.elim, fun h => h.elim⟩

theorem dlWrap_order : AnyOrder proc (ops.take 3) dlWrap := by
  intro lds hp
  have : lds = [loadPlug] := List.perm_singleton.1 hp
  subst this
  exact ⟨⟨fun _ => dlopen_def, fun h => (by cases h), fun h => (by cases h), loadPlug_ok False, fun _ => id,
    trivial⟩, fun h => h.elim, fun h => h.elim, fun h => h.elim, fun h => h.elim⟩

/-- Did the thread succeed? -/
def done : Thread → Bool
  | .ret .success => true
  | .dlret => true
  | _ => false

theorem done_eq {t} (h : done t = true) : t = .ret .success ∨ t = .dlret := by
  unfold done at h
  split at h
  · exact Or.inl rfl
  · exact Or.inr rfl
  · cases h

theorem wrap_lost : after proc.env (ops.take 1) proc.start (fun s =>
    match runThreads proc.env [0, 1, 1, 1, 1, 1, 1, 0, 0, 0, 0, 0, 0] (wrapDl.map Job.thread) s with
    | .ok (s', ts') => ts'.all done && decide (s'.mem 0x10000018 ≠ 0x50a)
    | .error _ => false) = true := by
  decide +kernel

theorem plug_lost : after proc.env (ops.take 3) proc.start (fun s =>
    match runThreads proc.env [1, 0, 1, 1, 1, 1, 1, 1, 0, 0, 0, 0, 0] (dlWrap.map Job.thread) s with
    | .ok (s', ts') => ts'.all done && (decide (s'.mem 0x30000018 ≠ 0x50a) &&
        decide (s'.mem 0x30000018 ≠ 0x50c))
    | .error _ => false) = true := by
  decide +kernel

end Demo

/-- C94.  It is not true that a `gotcha_wrap` that has returned success has its functions intercepted when
another thread was in `dlopen` at the same time: thread 0 is interrupted before it has entered `foo`, the
`dlopen` marks all libraries as up to date, and the executable's slot of `foo` is never written. -/
theorem C94_wrap_beside_dlopen_refuted :
    ¬ ∀ (p : Process), p.Ok → ∀ (ops : List Op), History p True ops → ops.any isApi = true →
      ∀ s os, run p.env ops p.start = .ok (s, os) → ∀ (table : List UBinding) (tool : Option Name) (ld : Load),
      Honest p.env p.P (ops ++ [.wrap table tool, .dlopen ld]) →
      AnyOrder p ops [.wrap table tool, .dlopen ld] → (∀ u ∈ table, u.name ≠ nm "main") → ∀ σ s' ts',
      runThreads p.env σ [.call table tool, .dlcall ld] s = .ok (s', ts') →
      (∀ t ∈ ts', t = .ret .success ∨ t = .dlret) →
      ∀ u ∈ table, ∀ l ∈ libsAfter p.libs ops, ∀ q ∈ rlOf l, q.2 = u.name →
        ∃ fr ∈ clientFrames (ops ++ [.wrap table tool]) u.name, s'.mem (l.addr + q.1) = fr.wrapper := by
  intro hall
  obtain ⟨s, os, hrun, hq⟩ := Demo.after_run Demo.wrap_lost
  cases hσ : runThreads Demo.proc.env [0, 1, 1, 1, 1, 1, 1, 0, 0, 0, 0, 0, 0] (Demo.wrapDl.map Job.thread) s with
  | error e => rw [hσ] at hq; cases hq
  | ok r =>
    obtain ⟨s', ts'⟩ := r
    rw [hσ] at hq
    simp only [Bool.and_eq_true, decide_eq_true_eq, List.all_eq_true] at hq
    obtain ⟨h0, h3⟩ := hq
    obtain ⟨fr, hfr, hm⟩ := hall Demo.proc Demo.proc_ok _ (Demo.prefix_history True 1) rfl s os hrun
      _ _ _ Demo.wrapDl_honest Demo.wrapDl_order
      (Demo.noMain_of (jobs := Demo.wrapDl) (by decide +kernel) _ (List.mem_cons_self ..)) _ s' ts' hσ
      (fun t ht => Demo.done_eq (h0 t ht))
      ⟨nm "foo", 0x50a, 10⟩ (by simp) Demo.app (by simp [Demo.ops, libsAfter, loadStep, Demo.proc]) _
      Demo.slot_app rfl
    have hcl : clientFrames (Demo.ops.take 1 ++ [.wrap [⟨nm "foo", 0x50a, 10⟩] (some Demo.B)]) (nm "foo") =
        [⟨Demo.B, 0x50a, 10⟩] := by decide +kernel
    rw [hcl, List.mem_singleton] at hfr
    subst hfr
    exact h3 hm

/-- C94.  Nor that a function wrapped long before is intercepted in an object loaded with `dlopen` while
another thread was in `gotcha_wrap`: thread 1, wrapping something else, marks the new object as up to
date, and `dlopen` then leaves it out; `foo` is called from the plugin without its wrappers. -/
theorem C94_dlopen_beside_wrap_refuted :
    ¬ ∀ (p : Process), p.Ok → ∀ (ops : List Op), History p True ops → ops.any isApi = true →
      ∀ s os, run p.env ops p.start = .ok (s, os) → ∀ (table : List UBinding) (tool : Option Name) (ld : Load),
      Honest p.env p.P (ops ++ [.dlopen ld, .wrap table tool]) →
      AnyOrder p ops [.dlopen ld, .wrap table tool] → (∀ u ∈ table, u.name ≠ nm "main") → ∀ σ s' ts',
      runThreads p.env σ [.dlcall ld, .call table tool] s = .ok (s', ts') →
      (∀ t ∈ ts', t = .ret .success ∨ t = .dlret) →
      ∀ f, clientFrames ops f ≠ [] → f ∉ table.map UBinding.name → ∀ l ∈ ld.libs, ∀ q ∈ rlOf l, q.2 = f →
        ∃ fr ∈ clientFrames ops f, s'.mem (l.addr + q.1) = fr.wrapper := by
  intro hall
  obtain ⟨s, os, hrun, hq⟩ := Demo.after_run Demo.plug_lost
  cases hσ : runThreads Demo.proc.env [1, 0, 1, 1, 1, 1, 1, 1, 0, 0, 0, 0, 0] (Demo.dlWrap.map Job.thread) s with
  | error e => rw [hσ] at hq; cases hq
  | ok r =>
    obtain ⟨s', ts'⟩ := r
    rw [hσ] at hq
    simp only [Bool.and_eq_true, decide_eq_true_eq, List.all_eq_true] at hq
    obtain ⟨h0, h3, h4⟩ := hq
    have hcl : clientFrames (Demo.ops.take 3) (nm "foo") =
        [⟨Demo.B, 0x50a, 10⟩, ⟨Demo.A, 0x50c, 12⟩] := by decide +kernel
    obtain ⟨fr, hfr, hm⟩ := hall Demo.proc Demo.proc_ok _ (Demo.prefix_history True 3) rfl s os hrun
      _ _ _ Demo.dlWrap_honest Demo.dlWrap_order
      (Demo.noMain_of (jobs := Demo.dlWrap) (by decide +kernel) (.wrap _ _)
        (List.mem_cons_of_mem _ (List.mem_cons_self ..))) _ s' ts' hσ
      (fun t ht => Demo.done_eq (h0 t ht)) (nm "foo") (by rw [hcl]; simp) (by decide +kernel)
      Demo.plug (by simp [Demo.loadPlug]) _ Demo.slot_plug rfl
    rw [hcl] at hfr
    simp only [List.mem_cons, List.not_mem_nil, or_false] at hfr
    rcases hfr with rfl | rfl
    · exact h3 hm
    · exact h4 hm

/-- The same history meets the hypotheses of `C94_new_object_missed`. -/
example : ∃ s os s1 ts1 s2 ts2 t nf, run Demo.proc.env (Demo.ops.take 3) Demo.proc.start = .ok (s, os) ∧
    runThreads Demo.proc.env [1, 0, 1, 1] (Demo.dlWrap.map Job.thread) s = .ok (s1, ts1) ∧
    runThreads Demo.proc.env [1, 1, 1, 1] ts1 s1 = .ok (s2, ts2) ∧
    (∀ t ∈ ts1, (∀ tbl tool, t ≠ .call tbl tool) ∧ ∀ ld, t ≠ .dlcall ld) ∧
    ts1[1]? = some (.write t 0 nf) ∧ ts2[1]? = some (.ret .success) ∧
    (∀ t ∈ ts2, (∀ k, t ≠ .dlwrite k) ∧ t ≠ .dlret) ∧
    (∀ j ∈ Demo.dlWrap, nm "foo" ∉ j.table.map UBinding.name) := by
  have h : Demo.after Demo.proc.env (Demo.ops.take 3) Demo.proc.start (fun s =>
    match runThreads Demo.proc.env [1, 0, 1, 1] (Demo.dlWrap.map Job.thread) s with
    | .ok (s', [.dlscan, .write t 0 nf]) =>
      match runThreads Demo.proc.env [1, 1, 1, 1] [.dlscan, .write t 0 nf] s' with
      | .ok (_, [.dlscan, .ret .success]) => true
      | _ => false
    | _ => false) = true := by decide +kernel
  obtain ⟨s, os, hrun, hq⟩ := Demo.after_run h
  split at hq
  · rename_i s1 t nf h1
    split at hq
    · rename_i s2 h2
      refine ⟨s, os, s1, _, s2, _, t, nf, hrun, h1, h2, ?_, rfl, rfl, ?_, by decide +kernel⟩
      · intro t ht
        simp only [List.mem_cons, List.not_mem_nil, or_false] at ht
        rcases ht with rfl | rfl <;> exact ⟨fun _ _ e => (by cases e), fun _ e => (by cases e)⟩
      · intro t ht
        simp only [List.mem_cons, List.not_mem_nil, or_false] at ht
        rcases ht with rfl | rfl <;> exact ⟨fun _ e => (by cases e), fun e => (by cases e)⟩
    · cases hq
  · cases hq

end Gotcha
