import Verif.Proof.Race
import Verif.Props.Threads
/-
C98: threads interrupted between the lookup of a function and its use.
-/
namespace Gotcha
open Spec HTable

/-- C98: as long as no thread goes on with an out-of-date lookup, nothing can happen that could not happen if
lookup and insertion were one: no thread crashes, and the state is one that a schedule of the coarser machine
of C93 leads to. -/
theorem C98_up_to_date {p : Process} (ok : p.Ok) {ops : List Op} (h : History p False ops)
    (hapi : ops.any isApi = true) {s os} (hrun : run p.env ops p.start = .ok (s, os))
    {jobs : List Job} (hj : Honest p.env p.P (ops ++ jobs.map Job.op)) (hl : AnyOrder p ops jobs)
    (hmain : ∀ j ∈ jobs, ∀ u ∈ j.table, u.name ≠ nm "main") {σ : List Nat}
    (hσ : NeverStale p.env σ (jobs.map (fun j => .at j.thread)) s) :
    ∃ s' ts' σ', runFine p.env σ (jobs.map (fun j => .at j.thread)) s = .ok (s', ts') ∧
      runThreads p.env σ' (jobs.map Job.thread) s = .ok (s', ts'.map coarse) := by
  obtain ⟨v, G, hT, hJ⟩ := start_threads ok h hapi hrun hj hl
  have hc : jobs.map Job.thread = (jobs.map (fun j => Fine.at j.thread)).map coarse := by
    rw [List.map_map]; rfl
  rw [hc] at hT
  obtain ⟨σ', s', ts', e1, e2⟩ := fine_run ok.world (fun _ => h.honest.own) trivial id hJ hmain σ hT hσ
  exact ⟨s', ts', σ', e1, by rw [hc]; exact e2⟩

/-- C98: two threads about to register wrappers of the same function, each to become the outermost one, both
look it up before either goes on.  Then both wrappers continue with what was outermost before (the real function
if there was no wrapper): a call that gets to one of them does not get to the other. -/
theorem C98_stale {p : Process} (ok : p.Ok) {ops : List Op} (h : History p False ops)
    (hapi : ops.any isApi = true) {s os} (hrun : run p.env ops p.start = .ok (s, os))
    {jobs : List Job} (hj : Honest p.env p.P (ops ++ jobs.map Job.op)) (hl : AnyOrder p ops jobs)
    (hmain : ∀ j ∈ jobs, ∀ u ∈ j.table, u.name ≠ nm "main") {σ : List Nat} {s1 ts1}
    (hσ : runThreads p.env σ (jobs.map Job.thread) s = .ok (s1, ts1))
    {i k : Nat} (hik : i ≠ k) {n n' : Nat} {b b' : BId} {bs bs' nb nb' nf nf'}
    (hi : ts1[i]? = some (.bind n (b :: bs) nb nf)) (hk : ts1[k]? = some (.bind n' (b' :: bs') nb' nf'))
    {x x'} (hx : s1.bind b = .ok x) (hx' : s1.bind b' = .ok x') (hn : x'.user.name = x.user.name)
    (ho : Outranks s1 x.user.name b) (ho' : Outranks s1 x.user.name b') {s' ts'}
    (hf : runFine p.env [i, k, i, k] (ts1.map .at) s1 = .ok (s', ts'))
    {a path} (hu : Under s1 x.user.name a) (hc : Calls p.P s1 a path) :
    Calls p.P s' x.user.wrapper (x.user.wrapper :: path) ∧
    Calls p.P s' x'.user.wrapper (x'.user.wrapper :: path) ∧
    x'.user.wrapper ∉ x.user.wrapper :: path ∧ x.user.wrapper ∉ x'.user.wrapper :: path := by
  obtain ⟨v, G, hT, hJ⟩ := start_threads ok h hapi hrun hj hl
  obtain ⟨s0, ts0, G1, A1, log1, e1, hT1⟩ := run_all ok.world (fun _ => h.honest.own) trivial id hJ σ hT
  rw [show runThreads p.env σ (jobs.map Job.thread) s = _ from e1] at hσ
  cases hσ
  have hI := hT1.inv
  have hH := hI.hon trivial
  obtain ⟨y, pb, r, hy, hpb, hr, hrG, hpend, j, hjm, hju⟩ := hT1.next hi
  rw [hx] at hy
  cases hy
  obtain ⟨y, pb', r', hy, hpb', hr', hrG', hpend', j', hjm', hju'⟩ := hT1.next hk
  rw [hx'] at hy
  cases hy
  rw [hn, hr] at hr'
  cases hr'
  have hm1 := hmain j hjm _ hju
  have hm2 := hmain j' hjm' _ hju'
  have hbb : b ≠ b' := by
    intro e
    exact hT1.disj i k _ _ hik hi hk b (by simp [todoOf]) (by simp [todoOf, e])
  have hown : ∀ {c y}, s1.bind c = .ok y → s1.handles y.user.handle = some c ∧
      p.P y.user.wrapper = some y.user.handle := by
    intro c y hy
    unfold State.bind at hy
    split at hy
    · cases hy
    · rename_i z hz
      cases hy
      have : btu s1.binds c = some (y.tool, y.user) := by simp [btu, hz]
      exact ⟨hH.own this, hH.prog this⟩
  obtain ⟨hh, hP⟩ := hown hx
  obtain ⟨hh', hP'⟩ := hown hx'
  -- a pending binding continues nowhere yet
  have hnone : ∀ {c hd}, G1.pend c → s1.handles hd = some c → s1.getWrappee hd = .error .uninit :=
    fun hp hd => getWrappee_uninit hd (hH.pend hp)
  -- the first two steps change nothing, the others use the same lookup
  have hat : ∀ {m : Nat} {t}, ts1[m]? = some t → (ts1.map Fine.at)[m]? = some (.at t) := by
    intro m t hmt; rw [List.getElem?_map, hmt]; rfl
  have l1 := (List.getElem?_eq_some_iff.1 hi).1
  have l2 := (List.getElem?_eq_some_iff.1 hk).1
  rw [runFine, hat hi] at hf
  simp only at hf
  rw [find_eq hx hpb hm1 hr] at hf
  simp only [bind, Except.bind] at hf
  rw [runFine, List.getElem?_set_ne hik, hat hk] at hf
  simp only at hf
  rw [find_eq hx' hpb' hm2 (hn ▸ hr)] at hf
  simp only [bind, Except.bind] at hf
  rw [runFine, List.getElem?_set_ne (Ne.symm hik), List.getElem?_set_self (by simpa using l1)] at hf
  simp only at hf
  obtain ⟨⟨s2, t2⟩, f1, hf⟩ := ebind hf
  rw [runFine, List.getElem?_set_ne hik, List.getElem?_set_self (by simpa using l2)] at hf
  simp only at hf
  obtain ⟨⟨s3, t3⟩, f2, hf⟩ := ebind hf
  cases hf
  have key : Placed1 s1 s2 b a ∧ Placed1 s2 s3 b' a := by
    rcases hu with ⟨hl0, v', hv', hfd⟩ | ⟨top, y, hl0, hy, rfl⟩
    · rw [hr] at hl0
      cases hl0
      rw [hT1.vd] at hv'
      cases hv'
      obtain ⟨q1, ⟨lm', q2⟩, q3⟩ := placed_none ok.world hx hh hI.lib hI.vd hI.objs hfd f1
      have hx2 : s2.bind b' = .ok x' := by rw [q1.bind (Ne.symm hbb)]; exact hx'
      obtain ⟨q4, -, -⟩ := placed_none ok.world hx2 (by rw [q1.handles]; exact hh') q2 q3
        (by rw [q1.linkMap]; exact hI.objs) (by rw [q1.linkMap, hn]; exact hfd) f2
      exact ⟨q1, q4⟩
    · rw [hr] at hl0
      cases hl0
      have htop : top ∈ G1.ch x.user.name := List.mem_of_mem_head? (by rw [← hrG]; rfl)
      have h1 : top ≠ b := fun e => hI.bind.pendc hpend (e ▸ htop)
      have h2 : top ≠ b' := fun e => hI.bind.pendc hpend' (e ▸ htop)
      obtain ⟨tt, u, hbt, -⟩ := hI.bind.named htop
      have hpt := bindPriority_ok hbt (hI.bind.okt hbt)
      have q1 := placed_head hx hh hy h1 hpt hpb (ho _ _ _ hr hpt hpb) f1
      have hx2 : s2.bind b' = .ok x' := by rw [q1.bind (Ne.symm hbb)]; exact hx'
      have q2 := placed_head hx2 (by rw [q1.handles]; exact hh') (by rw [q1.bind h1]; exact hy) h2
        (by rw [q1.priority h1]; exact hpt) (by rw [q1.priority (Ne.symm hbb)]; exact hpb')
        (ho' _ _ _ hr hpt hpb') f2
      exact ⟨q1, q2⟩
  obtain ⟨k1, k2⟩ := key
  have hkeep : ∀ hd c, s1.getWrappee hd = .ok c → s3.getWrappee hd = .ok c := by
    intro hd c hg
    have g1 : s1.handles hd ≠ some b := by
      intro e; rw [hnone hpend e] at hg; cases hg
    have g2 : s1.handles hd ≠ some b' := by
      intro e; rw [hnone hpend' e] at hg; cases hg
    rw [k2.other (by rw [k1.handles]; exact g2), k1.other g1, hg]
  have hw : s3.getWrappee x.user.handle = .ok a := by
    rw [k2.other (by rw [k1.handles, hh]; intro e; cases e; exact hbb rfl)]
    exact k1.wrappee hh
  have hw' : s3.getWrappee x'.user.handle = .ok a := k2.wrappee (by rw [k1.handles]; exact hh')
  have hnw : x.user.wrapper ≠ x'.user.wrapper := by
    intro e
    rw [e, hP'] at hP
    have hP := Option.some.inj hP
    rw [← hP, hh'] at hh
    exact hbb (Option.some.inj hh).symm
  have hout : ∀ {c y}, s1.bind c = .ok y → G1.pend c → y.user.wrapper ∉ path := by
    intro c y hy hp hm
    obtain ⟨q, hq⟩ := hc.mem _ hm
    obtain ⟨g1, g2⟩ := hown hy
    obtain ⟨a', q', -, hg, -⟩ := hq.inv g2
    rw [hnone hp g1] at hg
    cases hg
  refine ⟨.cont hP hw (hc.mono hkeep), .cont hP' hw' (hc.mono hkeep), ?_, ?_⟩
  · rw [List.mem_cons]
    rintro (e | e)
    · exact hnw e.symm
    · exact hout hx' hpend' e
  · rw [List.mem_cons]
    rintro (e | e)
    · exact hnw e
    · exact hout hx hpend e

/-! ### the example process -/

namespace Demo

/-- Two threads wrap `foo`. -/
def fooJobs : List Job :=
  [.wrap [⟨nm "foo", 0x50a, 10⟩] (some B), .wrap [⟨nm "foo", 0x50c, 12⟩] (some A)]

theorem fooJobs_honest : Honest proc.env proc.P (ops.take 1 ++ fooJobs.map Job.op) := by
  refine ⟨by decide +kernel, ?_, envOk⟩
  intro u hu
  simp only [ops, fooJobs, Job.op, List.take_succ_cons, List.take_zero, List.map_cons, List.map_nil,
    List.cons_append, List.nil_append, List.flatMap_cons, List.flatMap_nil, tableOf, List.append_nil,
    List.mem_cons, List.not_mem_nil, or_false] at hu
  rcases hu with rfl | rfl <;> rfl

theorem fooJobs_main : ∀ j ∈ fooJobs, ∀ u ∈ j.table, u.name ≠ nm "main" := by
  have : ∀ j ∈ fooJobs, ∀ u ∈ j.table, (u.name == nm "main") = false := by decide +kernel
  intro j hj u hu e
  have := this j hj u hu
  rw [e] at this
  simp at this

theorem fooJobs_order : AnyOrder proc (ops.take 1) fooJobs := by
  intro lds hp
  have : lds = [] := List.perm_nil.1 hp
  subst this
  rw [List.map_nil, List.append_nil]
  exact (prefix_history False 1).toEvents

def fineRetIs (c : RetCode) : Option Fine → Bool
  | some (.at t) => retIs c (some t)
  | _ => false

theorem fineRetIs_eq {c t} (h : fineRetIs c t = true) : t = some (.at (.ret c)) := by
  unfold fineRetIs at h
  split at h
  · have := retIs_eq h
    cases this
    rfl
  · cases h

def wrappeeIs (s : State) (h : HAddr) (a : Addr) : Bool :=
  match s.getWrappee h with
  | .ok a' => a' == a
  | .error _ => false

theorem wrappeeIs_eq {s h a} (e : wrappeeIs s h a = true) : s.getWrappee h = .ok a := by
  unfold wrappeeIs at e
  split at e
  · rename_i a' ha
    rw [ha, eq_of_beq e]
  · cases e

/-- Both look `foo` up, then both enter it, then both update the GOTs. -/
theorem foo_race : after proc.env (ops.take 1) proc.start (fun s =>
    match runFine proc.env [0, 1, 0, 1, 0, 1, 0, 1, 0, 0, 0, 1, 1, 1] (fooJobs.map (fun j => .at j.thread)) s with
    | .ok (s', ts') => fineRetIs .success ts'[0]? && (fineRetIs .success ts'[1]? && (decide (ts'.length = 2) &&
        (wrappeeIs s' 10 0x20004000 && wrappeeIs s' 12 0x20004000)))
    | .error _ => false) = true := by
  decide +kernel

end Demo

/-- C98.  It is not true that two threads which have both returned success from `gotcha_wrap` are both on
the stack of the function: the claim that the wrappers of all threads are called one after the other, which
C93 proves when lookup and insertion are one, fails when a thread can be interrupted in between. -/
theorem C98_no_registration_lost_refuted :
    ¬ ∀ (p : Process), p.Ok → ∀ (ops : List Op), History p True ops → ops.any isApi = true →
      ∀ s os, run p.env ops p.start = .ok (s, os) → ∀ jobs : List Job,
      Honest p.env p.P (ops ++ jobs.map Job.op) → AnyOrder p ops jobs →
      (∀ j ∈ jobs, ∀ u ∈ j.table, u.name ≠ nm "main") → ∀ σ s' ts',
      runFine p.env σ (jobs.map (fun j => .at j.thread)) s = .ok (s', ts') →
      (∀ t ∈ ts', t = .at (.ret .success)) → ∀ f, clientFrames (ops ++ jobs.map Job.op) f ≠ [] →
        ∃ st fr r, st.Perm (clientFrames (ops ++ jobs.map Job.op) f) ∧ st.head? = some fr ∧
          Calls p.P s' fr.wrapper (wrappers st ++ [r]) := by
  intro hall
  obtain ⟨s, os, hrun, hq⟩ := Demo.after_run Demo.foo_race
  cases hσ : runFine Demo.proc.env [0, 1, 0, 1, 0, 1, 0, 1, 0, 0, 0, 1, 1, 1]
      (Demo.fooJobs.map (fun j => .at j.thread)) s with
  | error e => rw [hσ] at hq; cases hq
  | ok r =>
    obtain ⟨s', ts'⟩ := r
    rw [hσ] at hq
    simp only [Bool.and_eq_true, decide_eq_true_eq] at hq
    obtain ⟨q1, q2, q3, q4, q5⟩ := hq
    have q1 := Demo.fineRetIs_eq q1
    have q2 := Demo.fineRetIs_eq q2
    have q4 := Demo.wrappeeIs_eq q4
    have q5 := Demo.wrappeeIs_eq q5
    have hts : ∀ t ∈ ts', t = .at (.ret .success) := by
      intro t ht
      obtain ⟨m, hm, rfl⟩ := List.getElem_of_mem ht
      have : m = 0 ∨ m = 1 := by omega
      rcases this with rfl | rfl
      · exact (List.getElem?_eq_some_iff.1 q1).2
      · exact (List.getElem?_eq_some_iff.1 q2).2
    have hcl : clientFrames (Demo.ops.take 1 ++ Demo.fooJobs.map Job.op) (nm "foo") =
        [⟨Demo.B, 0x50a, 10⟩, ⟨Demo.A, 0x50c, 12⟩] := by decide +kernel
    obtain ⟨st, fr, r, h1, h2, h3⟩ := hall Demo.proc Demo.proc_ok (Demo.ops.take 1) (Demo.prefix_history True 1)
      (by decide +kernel) s os hrun Demo.fooJobs Demo.fooJobs_honest Demo.fooJobs_order Demo.fooJobs_main _ s' ts'
      hσ hts (nm "foo") (by rw [hcl]; simp)
    rw [hcl] at h1
    have hP : Demo.proc.P 0x20004000 = none := by decide
    have c1 : Calls Demo.proc.P s' 0x50a [0x50a, 0x20004000] := .cont (h := 10) (by decide) q4 (.stop hP)
    have c2 : Calls Demo.proc.P s' 0x50c [0x50c, 0x20004000] := .cont (h := 12) (by decide) q5 (.stop hP)
    have hlen : (wrappers st ++ [r]).length = 3 := by
      simp [wrappers, h1.length_eq]
    have hfr : fr ∈ st := List.mem_of_mem_head? h2
    have hfr := h1.subset hfr
    simp only [List.mem_cons, List.not_mem_nil, or_false] at hfr
    rcases hfr with rfl | rfl
    · rw [h3.det c1] at hlen; simp at hlen
    · rw [h3.det c2] at hlen; simp at hlen

/-- Both about to enter `foo`, nobody has wrapped it: the situation of `C98_stale`. -/
example : Demo.after Demo.proc.env (Demo.ops.take 1) Demo.proc.start (fun s =>
    match runThreads Demo.proc.env [0, 1] (Demo.fooJobs.map Job.thread) s with
    | .ok (s1, [.bind n [b] none 0, .bind n' [b'] none 0]) =>
      match nameLookup s1.funTab (nm "foo"),
        runFine Demo.proc.env [0, 1, 0, 1] [.at (.bind n [b] none 0), .at (.bind n' [b'] none 0)] s1 with
      | .ok none, .ok _ => s1.vdso == some none
      | _, _ => false
    | _ => false) = true := by
  decide +kernel

namespace Demo

def upToDateB (s : State) : Fine → Bool
  | .at _ => true
  | .found _ b _ _ _ r =>
    match s.bind b with
    | .ok x =>
      match nameLookup s.funTab x.user.name with
      | .ok r' => r' == r
      | .error _ => false
    | .error _ => false

def neverStaleB (env : Env) : List Nat → List Fine → State → Bool
  | [], _, _ => true
  | i :: is, ts, s =>
    match ts[i]? with
    | none => neverStaleB env is ts s
    | some t => upToDateB s t &&
      match stepFine env t s with
      | .ok (s', t') => neverStaleB env is (ts.set i t') s'
      | .error _ => true

theorem upToDateB_sound {s t} (h : upToDateB s t = true) : UpToDate s t := by
  cases t with
  | «at» t => trivial
  | found n b todo nb nf r =>
    simp only [upToDateB] at h
    split at h
    · rename_i x hx
      split at h
      · rename_i r' hr
        exact ⟨x, hx, by rw [hr, eq_of_beq h]⟩
      · cases h
    · cases h

theorem neverStaleB_sound {env} : ∀ {σ ts s}, neverStaleB env σ ts s = true → NeverStale env σ ts s
  | [], _, _, _ => trivial
  | i :: is, ts, s, h => by
    rw [neverStaleB] at h
    rw [NeverStale]
    split
    · rename_i hi
      rw [hi] at h
      exact neverStaleB_sound h
    · rename_i t hi
      rw [hi] at h
      simp only [Bool.and_eq_true] at h
      refine ⟨upToDateB_sound h.1, fun s' t' e => ?_⟩
      rw [e] at h
      exact neverStaleB_sound h.2

end Demo

/-- A schedule on which no lookup is out of date although the calls overlap: first one thread enters `foo`,
then the other, then both update the GOTs. -/
example : ∃ s os, run Demo.proc.env (Demo.ops.take 1) Demo.proc.start = .ok (s, os) ∧
    NeverStale Demo.proc.env [0, 1, 0, 0, 1, 1, 0, 1, 0, 0, 0, 1, 1, 1]
      (Demo.fooJobs.map (fun j => .at j.thread)) s ∧
    ∃ s' ts', runFine Demo.proc.env [0, 1, 0, 0, 1, 1, 0, 1, 0, 0, 0, 1, 1, 1]
      (Demo.fooJobs.map (fun j => .at j.thread)) s = .ok (s', ts') ∧ s'.getWrappee 12 = .ok 0x50a := by
  have h : Demo.after Demo.proc.env (Demo.ops.take 1) Demo.proc.start (fun s =>
      Demo.neverStaleB Demo.proc.env [0, 1, 0, 0, 1, 1, 0, 1, 0, 0, 0, 1, 1, 1]
        (Demo.fooJobs.map (fun j => .at j.thread)) s &&
      match runFine Demo.proc.env [0, 1, 0, 0, 1, 1, 0, 1, 0, 0, 0, 1, 1, 1]
        (Demo.fooJobs.map (fun j => .at j.thread)) s with
      | .ok (s', _) => Demo.wrappeeIs s' 12 0x50a
      | .error _ => false) = true := by decide +kernel
  obtain ⟨s, os, hrun, hq⟩ := Demo.after_run h
  rw [Bool.and_eq_true] at hq
  refine ⟨s, os, hrun, Demo.neverStaleB_sound hq.1, ?_⟩
  have hq := hq.2
  split at hq
  · rename_i s' ts' e
    exact ⟨s', ts', e, Demo.wrappeeIs_eq hq⟩
  · cases hq

/-- Not vacuous: `C98_up_to_date` on that schedule. -/
example : ∃ s os s' ts' σ', run Demo.proc.env (Demo.ops.take 1) Demo.proc.start = .ok (s, os) ∧
    runFine Demo.proc.env [0, 1, 0, 0, 1, 1, 0, 1, 0, 0, 0, 1, 1, 1]
      (Demo.fooJobs.map (fun j => .at j.thread)) s = .ok (s', ts') ∧
    runThreads Demo.proc.env σ' (Demo.fooJobs.map Job.thread) s = .ok (s', ts'.map coarse) := by
  have h : Demo.after Demo.proc.env (Demo.ops.take 1) Demo.proc.start (fun s =>
      Demo.neverStaleB Demo.proc.env [0, 1, 0, 0, 1, 1, 0, 1, 0, 0, 0, 1, 1, 1]
        (Demo.fooJobs.map (fun j => .at j.thread)) s) = true := by decide +kernel
  obtain ⟨s, os, hrun, hq⟩ := Demo.after_run h
  obtain ⟨s', ts', σ', h1, h2⟩ := C98_up_to_date Demo.proc_ok (Demo.prefix_history False 1) rfl hrun
    Demo.fooJobs_honest Demo.fooJobs_order Demo.fooJobs_main (Demo.neverStaleB_sound hq)
  exact ⟨s, os, s', ts', σ', hrun, h1, h2⟩

end Gotcha
