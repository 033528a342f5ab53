import Verif.Props.Threads
/-
C115: GOTCHA called by a signal handler while GOTCHA is running.
-/
namespace Gotcha
open Spec

theorem replicate_split (i a b : Nat) : List.replicate (a + b) i = List.replicate a i ++ List.replicate b i :=
  (List.replicate_append_replicate).symm

theorem run_ret {env : Env} {i c} (b : Nat) : ∀ {ts : List Thread} {s s2 ts2}, ts[i]? = some (.ret c) →
    runThreads env (List.replicate b i) ts s = .ok (s2, ts2) → s2 = s := by
  induction b with
  | zero => intro ts s s2 ts2 _ h; cases h; rfl
  | succ b ih =>
    intro ts s s2 ts2 hi h
    rw [List.replicate_succ] at h
    simp only [runThreads, hi, stepThread, bind, Except.bind] at h
    refine ih ?_ h
    rw [List.getElem?_set_self (List.getElem?_eq_some_iff.1 hi).1]

theorem others_keep {env : Env} {i j : Nat} (b : Nat) (hne : j ≠ i) : ∀ {ts : List Thread} {s s2 ts2},
    runThreads env (List.replicate b i) ts s = .ok (s2, ts2) → ts2[j]? = ts[j]? := by
  induction b with
  | zero => intro ts s s2 ts2 h; cases h; rfl
  | succ b ih =>
    intro ts s s2 ts2 h
    rw [List.replicate_succ] at h
    simp only [runThreads] at h
    split at h
    · exact ih h
    · simp only [bind, Except.bind] at h
      split at h
      · cases h
      · rw [ih h, List.getElem?_set_ne (Ne.symm hne)]

/-- The thread has still to enter its bindings. -/
def entering : Thread → Prop
  | .call _ _ => True
  | .bind _ _ _ _ => True
  | _ => False

/-- A call of gotcha_wrap that nothing interrupts gets to `update_all_library_gots`, or it writes nothing. -/
theorem wrap_pass {C : Ctx} (w : World C.env C.U) (henv : C.hon → EnvOk C.env C.P) (hh : C.hon)
    (hs : ¬ C.sl) {jobs B} (hj : JobsOk C jobs) (hm : ∀ j ∈ jobs, noMain j) {i : Nat} (b : Nat) :
    ∀ {log ts s G A t s2 ts2 t2}, TInv C jobs B log ts s G A → ts[i]? = some t → entering t →
      runThreads C.env (List.replicate b i) ts s = .ok (s2, ts2) → ts2[i]? = some t2 → Back t2 →
      (∃ k b' s' ts' T nf, b = k + b' ∧ runThreads C.env (List.replicate k i) ts s = .ok (s', ts') ∧
        ts'[i]? = some (.write T 0 nf) ∧ ∀ j, j ≠ i → ts'[j]? = ts[j]?) ∨ s2.mem = s.mem := by
  induction b with
  | zero =>
    intro log ts s G A t s2 ts2 t2 _ hi he h hi2 hb
    cases h
    rw [hi] at hi2
    cases hi2
    cases t <;> first | exact hb.elim | exact he.elim
  | succ b ih =>
    intro log ts s G A t s2 ts2 t2 hT hi he h hi2 hb
    have hlen := (List.getElem?_eq_some_iff.1 hi).1
    have hlj : i < jobs.length := hT.len ▸ hlen
    have hji := List.getElem?_eq_getElem hlj
    obtain ⟨s1, t1, G1, A1, log1, e1, e2, e3, -, -⟩ := step_all w henv hh hs hj hT hi hji
    have hmem : s1.mem = s.mem := by
      funext a
      rcases e3.mem (hm _ (List.mem_of_getElem? hji)) a with e | ⟨l, -, -, q, -, -, hw⟩ | ⟨ld, rfl, -⟩
      · exact e
      · cases t <;> first | exact hw.elim | exact he.elim
      · exact he.elim
    rw [List.replicate_succ] at h
    simp only [runThreads, hi, e1, bind, Except.bind] at h
    have hset : (ts.set i t1)[i]? = some t1 := List.getElem?_set_self hlen
    have hoth : ∀ j, j ≠ i → (ts.set i t1)[j]? = ts[j]? := fun j hj => List.getElem?_set_ne (Ne.symm hj)
    by_cases he1 : entering t1
    · rcases ih e2 hset he1 h hi2 hb with ⟨k, b', s', ts', T, nf, x1, x2, x3, x4⟩ | x
      · refine Or.inl ⟨k + 1, b', s', ts', T, nf, by omega, ?_, x3, fun j hj => (x4 j hj).trans (hoth j hj)⟩
        rw [List.replicate_succ]
        simp only [runThreads, hi, e1, bind, Except.bind]
        exact x2
      · exact Or.inr (x.trans hmem)
    · have hcase : (∃ T nf, t1 = .write T 0 nf) ∨ ∃ c, t1 = .ret c := by
        cases t with
        | call tbl tool =>
          exfalso
          apply he1
          simp only [stepThread, bind, Except.bind] at e1
          split at e1
          · cases e1
          · cases e1; trivial
        | bind n todo nb nf =>
          cases todo with
          | cons x xs =>
            exfalso
            apply he1
            simp only [stepThread, bind, Except.bind] at e1
            split at e1
            · cases e1
            · cases e1; trivial
          | nil =>
            cases nb with
            | none => simp only [stepThread] at e1; cases e1; exact Or.inr ⟨_, rfl⟩
            | some T => simp only [stepThread] at e1; cases e1; exact Or.inl ⟨_, _, rfl⟩
        | _ => exact he.elim
      rcases hcase with ⟨T, nf, rfl⟩ | ⟨c, rfl⟩
      · refine Or.inl ⟨1, b, s1, _, T, nf, by omega, ?_, hset, hoth⟩
        simp only [List.replicate_one, runThreads, hi, e1, bind, Except.bind]
      · refine Or.inr ?_
        rw [run_ret b hset h, hmem]

/-- A call of dlopen that nothing interrupts gets to `update_all_library_gots`. -/
theorem dlopen_pass {env : Env} {i : Nat} {ld : Load} {b : Nat} {ts : List Thread} {s s2 ts2 t2}
    (hi : ts[i]? = some (.dlcall ld)) (h : runThreads env (List.replicate b i) ts s = .ok (s2, ts2))
    (hi2 : ts2[i]? = some t2) (hb : Back t2) :
    ∃ k b' s' ts', b = k + b' ∧ runThreads env (List.replicate k i) ts s = .ok (s', ts') ∧
        ts'[i]? = some (.dlwrite 0) ∧ ∀ j, j ≠ i → ts'[j]? = ts[j]? := by
  have hlen := (List.getElem?_eq_some_iff.1 hi).1
  match b with
  | 0 =>
    cases h
    rw [hi] at hi2
    cases hi2
    exact hb.elim
  | b + 1 =>
    have h' := h
    rw [List.replicate_succ] at h'
    simp only [runThreads, hi, bind, Except.bind] at h'
    cases e1 : stepThread env (.dlcall ld) s with
    | error e => rw [e1] at h'; cases h'
    | ok r =>
      obtain ⟨s1, t1⟩ := r
      rw [e1] at h'
      have ht1 : t1 = .dlscan := by
        simp only [stepThread, bind, Except.bind] at e1
        split at e1
        · cases e1
        · cases e1; rfl
      subst ht1
      have hset : (ts.set i .dlscan)[i]? = some .dlscan := List.getElem?_set_self hlen
      match b with
      | 0 =>
        cases h'
        rw [hset] at hi2
        cases hi2
        exact hb.elim
      | b + 1 =>
        rw [List.replicate_succ] at h'
        simp only [runThreads, hset, bind, Except.bind] at h'
        cases e2 : stepThread env .dlscan s1 with
        | error e => rw [e2] at h'; cases h'
        | ok r =>
          obtain ⟨s3, t3⟩ := r
          have ht3 : t3 = .dlwrite 0 := by
            simp only [stepThread, bind, Except.bind] at e2
            split at e2
            · cases e2
            · cases e2; rfl
          subst ht3
          refine ⟨2, b, s3, (ts.set i .dlscan).set i (.dlwrite 0), by omega, ?_, ?_, ?_⟩
          · simp only [List.replicate_succ, List.replicate_zero, runThreads, hi, hset, e1, e2, bind, Except.bind]
          · exact List.getElem?_set_self (by simpa using hlen)
          · intro j hj
            rw [List.getElem?_set_ne (Ne.symm hj), List.getElem?_set_ne (Ne.symm hj)]

/-- C115.  Some calls of gotcha_wrap and dlopen have begun and not all are done (after `σ1`, in any threads, or one
inside the other); then call `i` is made from beginning to end, as by a signal handler that interrupts one of them.
If it is a dlopen, or a gotcha_wrap that writes any word, nothing is written after it: the calls that were
interrupted go on and return, but whatever they had still to write they do not.  In particular the functions that
only gotcha_wrap `j` wraps, if that was interrupted before it had entered all its bindings, are not intercepted
anywhere. -/
theorem C115_interrupted_calls_write_no_more {p : Process} (ok : p.Ok) {ops : List Op} (h : History p False ops)
    (hapi : ops.any isApi = true) {s os} (hrun : run p.env ops p.start = .ok (s, os))
    {jobs : List Job} (hj : Honest p.env p.P (ops ++ jobs.map Job.op)) (hl : AnyOrder p ops jobs)
    (hmain : ∀ j ∈ jobs, ∀ u ∈ j.table, u.name ≠ nm "main") {σ1 σ3 : List Nat} {b : Nat}
    {s1 ts1 s2 ts2 s3 ts3} (h1 : runThreads p.env σ1 (jobs.map Job.thread) s = .ok (s1, ts1)) {i : Nat}
    (h2 : runThreads p.env (List.replicate b i) ts1 s1 = .ok (s2, ts2))
    (h3 : runThreads p.env σ3 ts2 s2 = .ok (s3, ts3)) {t t2 : Thread} (hi : ts1[i]? = some t)
    (hstart : ∀ k, k ≠ i → ∀ t, ts1[k]? = some t → (∀ tbl tool, t ≠ .call tbl tool) ∧ ∀ ld, t ≠ .dlcall ld)
    (hi2 : ts2[i]? = some t2) (hb : Back t2)
    (hw : (∃ ld, t = .dlcall ld) ∨ (∃ tbl tool, t = .call tbl tool) ∧ s2.mem ≠ s1.mem) :
    s3.mem = s2.mem ∧
      ∀ (j n : Nat) todo nb nf, ts1[j]? = some (.bind n todo nb nf) → ∀ (f : Name) (a : Addr),
        (∀ (k : Nat) jk, jobs[k]? = some jk → ∃ tbl tool, jk = .wrap tbl tool ∧
          (k ≠ j → f ∉ tbl.map UBinding.name)) →
        (∀ l ∈ libsAfter p.libs ops, ∀ q ∈ rlOf l, a = l.addr + q.1 → q.2 = f) →
        s3.mem a = s.mem a := by
  have key : ∃ k b' s' ts' t', b = k + b' ∧ runThreads p.env (List.replicate k i) ts1 s1 = .ok (s', ts') ∧
      ts'[i]? = some t' ∧ ((∃ T nf, t' = .write T 0 nf) ∨ t' = .dlwrite 0) ∧ ∀ j, j ≠ i → ts'[j]? = ts1[j]? := by
    rcases hw with ⟨ld, rfl⟩ | ⟨⟨tbl, tool, rfl⟩, hne⟩
    · obtain ⟨k, b', s', ts', x1, x2, x3, x4⟩ := dlopen_pass hi h2 hi2 hb
      exact ⟨k, b', s', ts', _, x1, x2, x3, Or.inr rfl, x4⟩
    · obtain ⟨v, G, hT, hJ⟩ := start_threads ok h hapi hrun hj hl
      have henv : ((p.ctx True False).at v).hon → EnvOk p.env p.P := fun _ => h.honest.own
      obtain ⟨s1', ts1', G1, A1, log1, x1, x2⟩ := run_all ok.world henv trivial id hJ σ1 hT
      rw [show ((p.ctx True False).at v).env = p.env from rfl, h1] at x1
      cases x1
      rcases wrap_pass ok.world henv trivial id hJ hmain b x2 hi trivial h2 hi2 hb with
        ⟨k, b', s', ts', T, nf, y1, y2, y3, y4⟩ | y
      · exact ⟨k, b', s', ts', _, y1, y2, y3, Or.inl ⟨T, nf, rfl⟩, y4⟩
      · exact absurd y hne
  obtain ⟨k, b', s', ts', t', rfl, x2, x3, x4, x5⟩ := key
  rw [replicate_split, runThreads_append] at h2
  simp only [x2, Except.bind] at h2
  have h12 : runThreads p.env (σ1 ++ List.replicate k i) (jobs.map Job.thread) s = .ok (s', ts') := by
    rw [runThreads_append]
    simp only [h1, Except.bind]
    exact x2
  have hst : ∀ t ∈ ts', (∀ tbl tool, t ≠ .call tbl tool) ∧ ∀ ld, t ≠ .dlcall ld := by
    intro t ht
    obtain ⟨n, hn⟩ := List.getElem?_of_mem ht
    by_cases e : n = i
    · subst e
      rw [x3] at hn
      cases hn
      rcases x4 with ⟨T, nf, rfl⟩ | rfl
      · exact ⟨fun _ _ e => Thread.noConfusion e, fun _ e => Thread.noConfusion e⟩
      · exact ⟨fun _ _ e => Thread.noConfusion e, fun _ e => Thread.noConfusion e⟩
    · rw [x5 n e] at hn
      exact hstart n e t hn
  obtain ⟨z1, -, z3⟩ := C93_update_lost ok h hapi hrun hj hl hmain h12 h2 h3 hst x3 x4 hi2 hb
  refine ⟨z1, ?_⟩
  intro j n todo nb nf hjn
  refine z3 j n todo nb nf ?_
  have hne : j ≠ i := by
    rintro rfl
    rw [hi] at hjn
    cases hjn
    rcases hw with ⟨ld, e⟩ | ⟨⟨tbl, tool, e⟩, -⟩ <;> cases e
  rw [others_keep b' hne h2, x5 j hne]
  exact hjn

namespace Demo

/-- The call of gotcha_wrap for `foo` (1) has found the tool; then a signal handler wraps `__libc_start_main` (0);
then the first call goes on. -/
theorem handler_lost : after proc.env (ops.take 1) proc.start (fun s =>
    match runThreads proc.env [1] (jobs.map Job.thread) s with
    | .ok (s1, [.call tbl tool, .bind n todo nb nf]) =>
      match runThreads proc.env (List.replicate 6 0) [.call tbl tool, .bind n todo nb nf] s1 with
      | .ok (s2, ts2) =>
        match runThreads proc.env (List.replicate 5 1) ts2 s2 with
        | .ok (_, [.ret .success, .ret .success]) =>
          retIs .success ts2[0]? && decide (s2.mem 0x10000030 ≠ s1.mem 0x10000030)
        | _ => false
      | _ => false
    | _ => false) = true := by
  decide +kernel

end Demo

/-- C115.  Both calls return success, the handler's function is intercepted, and that of the interrupted call is
not. -/
theorem C115_handler_defeats_wrap : ∃ s os s1 ts1 s2 ts2 s3,
    run Demo.proc.env (Demo.ops.take 1) Demo.proc.start = .ok (s, os) ∧
    runThreads Demo.proc.env [1] (Demo.jobs.map Job.thread) s = .ok (s1, ts1) ∧
    runThreads Demo.proc.env (List.replicate 6 0) ts1 s1 = .ok (s2, ts2) ∧ ts2[0]? = some (.ret .success) ∧
    runThreads Demo.proc.env (List.replicate 5 1) ts2 s2 = .ok (s3, [.ret .success, .ret .success]) ∧
    s3.mem = s2.mem ∧ s2.mem ≠ s1.mem ∧ s3.mem 0x10000018 = s.mem 0x10000018 := by
  obtain ⟨s, os, hrun, hq⟩ := Demo.after_run Demo.handler_lost
  split at hq
  · rename_i s1 tbl tool n todo nb nf h1
    split at hq
    · rename_i s2 ts2 h2
      split at hq
      · rename_i s3 h3
        simp only [Bool.and_eq_true, decide_eq_true_eq] at hq
        have hne : s2.mem ≠ s1.mem := fun e => hq.2 (by rw [e])
        obtain ⟨z1, z2⟩ := C115_interrupted_calls_write_no_more Demo.proc_ok (Demo.prefix_history False 1) rfl hrun
          Demo.jobs_honest Demo.jobs_order Demo.jobs_main h1 (i := 0) h2 h3 rfl (by
            intro k hk t ht
            match k, hk, ht with
            | 1, _, ht => cases ht; exact ⟨fun _ _ e => Thread.noConfusion e, fun _ e => Thread.noConfusion e⟩)
          (Demo.retIs_eq hq.1) trivial (Or.inr ⟨⟨tbl, tool, rfl⟩, hne⟩)
        refine ⟨s, os, s1, _, s2, ts2, s3, hrun, h1, h2, Demo.retIs_eq hq.1, h3, z1, hne, ?_⟩
        refine z2 1 n todo nb nf rfl (nm "foo") _ ?_ ?_
        · intro k jk hk
          match k, hk with
          | 0, hk => cases hk; exact ⟨_, _, rfl, fun _ => by decide +kernel⟩
          | 1, hk => cases hk; exact ⟨_, _, rfl, fun h => absurd rfl h⟩
        · intro l hl q hq' e
          revert q
          revert l
          decide +kernel
      · cases hq
    · cases hq
  · cases hq

end Gotcha
