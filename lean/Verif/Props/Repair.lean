import Verif.Props.Threads
import Verif.Props.Only
import Verif.Proof.Frozen
import Verif.Spec.Repair
/-
C128: what threads that got in each other's way have left unwritten can be written later.
-/
namespace Gotcha
open Spec

/-! ### generations -/

/-- Calls that have not begun. -/
def callsLeft : List Thread → Nat
  | [] => 0
  | .call _ _ :: ts => callsLeft ts + 1
  | .dlcall _ :: ts => callsLeft ts + 1
  | _ :: ts => callsLeft ts

theorem callsLeft_append (X Y : List Thread) : callsLeft (X ++ Y) = callsLeft X + callsLeft Y := by
  induction X with
  | nil => simp [callsLeft]
  | cons t X ih => cases t <;> simp [callsLeft, ih] <;> omega

theorem callsLeft_one (t : Thread) (Y : List Thread) :
    (isCall t → callsLeft (t :: Y) = callsLeft Y + 1) ∧ (¬ isCall t → callsLeft (t :: Y) = callsLeft Y) := by
  cases t <;> simp [isCall, callsLeft]

theorem callsLeft_le (ts : List Thread) : callsLeft ts ≤ ts.length := by
  induction ts with
  | nil => simp [callsLeft]
  | cons t ts ih => cases t <;> simp [callsLeft] <;> omega

/-- No library has a generation from the future. -/
def GensLe (s : State) (G : Gh) : Prop := ∀ a, (genAt s.libs G.lm a).toNat ≤ s.gen.toNat

theorem run_gens {C : Ctx} (w : World C.env C.U) (henv : C.hon → EnvOk C.env C.P) (hh : C.hon)
    (hs : ¬ C.sl) {jobs B} (hj : JobsOk C jobs) (hm : ∀ j ∈ jobs, noMain j) (σ : List Nat) :
    ∀ {log ts s G A}, TInv C jobs B log ts s G A → GensLe s G → s.gen.toNat + callsLeft ts < 2 ^ 32 →
      ∃ s' ts' G' A' log', runThreads C.env σ ts s = .ok (s', ts') ∧ TInv C jobs B log' ts' s' G' A' ∧
        GensLe s' G' ∧ s'.gen.toNat + callsLeft ts' ≤ s.gen.toNat + callsLeft ts ∧ s'.filter = s.filter := by
  induction σ with
  | nil => intro log ts s G A h hg _; exact ⟨s, ts, G, A, log, rfl, h, hg, Nat.le_refl _, rfl⟩
  | cons i σ ih =>
    intro log ts s G A h hg hn
    cases hi : ts[i]? with
    | none =>
      obtain ⟨s', ts', G', A', log', e1, e2⟩ := ih h hg hn
      exact ⟨s', ts', G', A', log', by simp only [runThreads, hi]; exact e1, e2⟩
    | some t =>
      have hl := (List.getElem?_eq_some_iff.1 hi).1
      rw [h.len] at hl
      have hji := List.getElem?_eq_getElem hl
      obtain ⟨s1, t1, G1, A1, log1, e1, e2, e3, e4, -⟩ := step_all w henv hh hs hj h hi hji
      have hmj := hm _ (List.mem_of_getElem? hji)
      obtain ⟨X, Y, hXY, hset⟩ := split_at hi
      have hc : callsLeft ts = callsLeft X + callsLeft (t :: Y) := by rw [hXY, callsLeft_append]
      have hc1 : callsLeft (ts.set i t1) = callsLeft X + callsLeft Y := by
        rw [hset, callsLeft_append, (callsLeft_one t1 Y).2 e4]
      have hkey : s.gen.toNat ≤ s1.gen.toNat ∧
          s1.gen.toNat + callsLeft (ts.set i t1) ≤ s.gen.toNat + callsLeft ts := by
        by_cases hct : isCall t
        · rw [(callsLeft_one t Y).1 hct] at hc
          rcases e3.calls hct with e | e
          · have : (s.gen + 1).toNat = s.gen.toNat + 1 := by
              rw [BitVec.toNat_add]
              exact Nat.mod_eq_of_lt (by show s.gen.toNat + 1 < 2 ^ 32; omega)
            rw [e, this]; omega
          · rw [e]; omega
        · rw [(callsLeft_one t Y).2 hct] at hc
          rw [e3.gen hmj hct]; omega
      have hg1 : GensLe s1 G1 := by
        intro a
        rcases e3.recs hmj a with e | e
        · rw [e]; exact Nat.le_trans (hg a) hkey.1
        · rw [e]; exact hkey.1
      obtain ⟨s', ts', G', A', log', f1, f2, f3, f4, f5⟩ := ih e2 hg1 (by omega)
      exact ⟨s', ts', G', A', log', by simp only [runThreads, hi, e1, bind, Except.bind]; exact f1, f2, f3,
        by omega, f5.trans e3.filter⟩

/-! ### a dlopen when every library is behind -/

/-- If every library has an older generation, a dlopen brings all slots up to date, whatever they hold. -/
theorem dlopen_repairs {C : Ctx} (w : World C.env C.U) (hs : ¬ C.sl) {s G A} (h : Inv C s G A)
    (hv : s.vdso = some C.v) (hw : ∃ a, s.getWrappee C.env.hDlopen = .ok a) {good : Lib → Prop}
    (hadm : Admits s.filter good) (hcons : SlotCons s.linkMap) (hg : GensLe s G)
    (hold : ∀ a, genAt s.libs G.lm a ≠ s.gen) :
    ∃ s' G', dlopenWrapper C.env ⟨[], fun _ => none, fun _ => none⟩ s = .ok s' ∧
      Inv { C with sl := True, good := good } s' G' (A.dlopen []) ∧ (∀ f, ¬ G'.dirty f) ∧
      s'.linkMap = s.linkMap := by
  have hld : LoadOk C G.seen s.linkMap ⟨[], fun _ => none, fun _ => none⟩ := by
    refine ⟨by simp, by simpa using h.nd, by simp, by simpa using h.placed, ?_, by simp,
      fun hx => absurd hx hs, fun hx => absurd hx hs⟩
    intro l _ p _ e
    cases e
  obtain ⟨s1, G1, e1, e2, e3⟩ := foreach_pending w (load_inv h hld hv)
  obtain ⟨⟨tl, libs, vd, binds, nft, rfl⟩, ⟨rl, nf, lm, rfl⟩, htu, hext, hvd⟩ := e3
  have hlm : (s.load ⟨[], fun _ => none, fun _ => none⟩).linkMap = s.linkMap := List.append_nil _
  have hga : ∀ a, genAt libs lm a = genAt s.libs G.lm a := genAt_ext hext
  obtain ⟨tl', libs', lm', wr', mem', f1, f2, -⟩ := pass_inv (C := { C with sl := True, good := good }) w
    { e2 with
      slots := fun _ => ⟨hadm, by
        show SlotCons (s.linkMap ++ [])
        rw [List.append_nil]; exact hcons, fun l => by
        show (genAt libs lm l).toNat ≤ s.gen.toNat
        rw [hga]; exact hg l, fun _ _ _ _ _ hd => absurd trivial hd⟩ } (t := s.funTab)
    (m := fun f => (G.ch f).head?) (D := fun _ => False) h.fn
    (fun f b hb => List.mem_of_mem_head? (by simp only [Option.mem_def]; exact hb))
    (fun _ f b hb => hb)
    (fun _ l _ _ p _ _ b hb => Or.inl ⟨hb, by
      show genAt libs lm l ≠ s.gen
      rw [hga]; exact hold l⟩)
  obtain ⟨a, ha⟩ := hw
  refine ⟨_, _, ?_, f2, fun _ hx => hx, hlm⟩
  simp only [dlopenWrapper, ha, bind, Except.bind, State.afterDlopen, e1]
  exact f1

/-! ### the objects that can be there -/

theorem log_libs (libs : List Lib) (jobs : List Job) (L : List Op)
    (h : ∀ op ∈ L, ∃ j ∈ jobs, op ∈ j.parts) {l : Lib} : ∀ X, (∀ x ∈ X, x ∈ libs ++ jobs.flatMap Job.objects) →
      l ∈ libsAfter X L → l ∈ libs ++ jobs.flatMap Job.objects := by
  induction L with
  | nil => intro X hX hl; exact hX l hl
  | cons op L ih =>
    intro X hX hl
    refine ih (fun o ho => h o (List.mem_cons_of_mem _ ho)) (loadStep X op) ?_ hl
    obtain ⟨j, hj, hop⟩ := h op (by simp)
    intro x hx
    cases j with
    | wrap tbl tool =>
      obtain ⟨u, -, rfl⟩ := List.mem_map.1 hop
      exact hX x hx
    | dlopen ld =>
      simp only [Job.parts, List.mem_cons, List.not_mem_nil, or_false] at hop
      rcases hop with rfl | rfl
      · rcases List.mem_append.1 hx with hx | hx
        · exact hX x hx
        · exact List.mem_append_right _ (List.mem_flatMap.2 ⟨_, hj, by simpa [Job.objects, Job.loads] using hx⟩)
      · simp only [loadStep, reopen, List.append_nil] at hx
        exact hX x hx

theorem historyFor_post {p : Process} (ok : p.Ok) {strict : Prop} {good : Lib → Prop} {ops : List Op}
    (h : HistoryFor p strict good ops) (hapi : ops.any isApi = true) {s os}
    (hrun : run p.env ops p.start = .ok (s, os)) :
    ∃ v G, Post ((p.ctx True strict good).at v) (seenRun p.seen ops) (3 + ops.length) s G
      (Abs.run p.env ops p.abs).1 := by
  obtain ⟨s0, h1, h2⟩ := historyFor_run ok h
  rw [hrun] at h1
  cases h1
  rcases h2 with h2 | h2
  · exfalso
    have : (Abs.run p.env ops p.abs).1.inited = true := by
      rw [abs_start, (run_prio p.env p.libs _).2]; exact hapi
    rw [h2.abs] at this
    cases this
  · exact h2

theorem repair_core {p : Process} (ok : p.Ok) {ops : List Op} {good0} (h : HistoryFor p True good0 ops)
    (hapi : ops.any isApi = true) {s os} (hrun : run p.env ops p.start = .ok (s, os))
    {jobs : List Job} (hj : Honest p.env p.P (ops ++ jobs.map Job.op)) (hl : AnyOrder p ops jobs)
    (hmain : ∀ j ∈ jobs, ∀ u ∈ j.table, u.name ≠ nm "main") (hshort : ops.length + jobs.length + 4 < 2 ^ 32)
    {σ : List Nat} {s1 ts1} (h1 : runThreads p.env σ (jobs.map Job.thread) s = .ok (s1, ts1))
    (hcons : SlotCons (libsAfter p.libs ops ++ jobs.flatMap Job.objects)) (tool : Option Name) :
    ∃ (s2 : State) (log : List (Nat × Op)),
      run p.env [.wrap [] tool, reopen] s1 = .ok (s2, [.ret .success, .unit]) ∧
      s2.linkMap = s1.linkMap ∧ WiredFor p (Passes s.filter) (ops ++ asOps log ++ [reopen]) s2 ∧
      s1.linkMap = libsAfter p.libs (ops ++ asOps log ++ [reopen]) ∧
      (∀ e ∈ log, e.1 < jobs.length) ∧
      (∀ (i : Nat) j, jobs[i]? = some j → part i log <+: j.parts) ∧
      (∀ (i : Nat) j t, jobs[i]? = some j → ts1[i]? = some t → Back t → part i log = j.parts) := by
  have hw : History p False ops := ⟨EventsFor.weak h.toEventsFor, h.honest⟩
  obtain ⟨v, G, hpost⟩ := historyFor_post ok h hapi hrun
  have hpost' : Post ((p.ctx True False).at v) (seenRun p.seen ops) (3 + ops.length) s G
      (Abs.run p.env ops p.abs).1 :=
    ⟨{ hpost.inv with slots := fun hx => hx.elim }, hpost.pend, hpost.dirty, hpost.seen, hpost.vd,
      fun hx => hx.elim, fun hx => hx.elim, hpost.dlb⟩
  obtain ⟨hT, hJ⟩ := start_threads_of hw hpost' hj hl
  have hS := hpost.inv.slots trivial
  have hpot : s.gen.toNat ≤ 3 + ops.length := by
    have := hpost.pot trivial
    unfold pot at this
    omega
  have hleft : callsLeft (jobs.map Job.thread) ≤ jobs.length := by
    have := callsLeft_le (jobs.map Job.thread)
    simpa using this
  have henv : ((p.ctx True False).at v).hon → EnvOk p.env p.P := fun _ => h.honest.own
  obtain ⟨s1', ts1', G1, A1, log, x1, x2, x3, x4, x5⟩ := run_gens ok.world henv trivial id hJ hmain σ hT
    hS.gens (by omega)
  rw [show ((p.ctx True False).at v).env = p.env from rfl, h1] at x1
  cases x1
  replace hcons : SlotCons s1.linkMap := by
    have hsub : ∀ x ∈ s1.linkMap, x ∈ libsAfter p.libs ops ++ jobs.flatMap Job.objects := by
      intro x hx
      refine log_libs _ jobs (asOps log) ?_ (libsAfter p.libs ops) (fun y hy => List.mem_append_left _ hy) ?_
      · intro op hop
        obtain ⟨e, he, rfl⟩ := List.mem_map.1 hop
        have hlt := x2.ids e he
        refine ⟨jobs[e.1], List.getElem_mem hlt, (x2.prefix (List.getElem?_eq_getElem hlt)).subset ?_⟩
        exact List.mem_map_of_mem (List.mem_filter.2 ⟨he, by simp⟩)
      · rw [← x2.inv.libs, x2.like.libs] at hx
        rw [show libsAfter (libsAfter p.libs ops) (asOps log) = libsAfter p.libs (ops ++ asOps log) from
          (List.foldl_append ..).symm, ← libs_run, Spec.run_append]
        exact hx
    exact fun l hl l' hl' => hcons l (hsub l hl) l' (hsub l' hl')
  -- the gotcha_wrap
  obtain ⟨s2, t2, G2, A2, new, y1, y2, y3, y4, y5, y6, -⟩ := step_thread (job := .wrap [] tool) (done := [])
    (t := .call [] tool) ok.world henv trivial id x2.inv ⟨rfl, rfl, fun _ _ _ _ => by simp [Job.table]⟩
    (by simp [Job.table]) (by simp [Job.table]) (by simp [Job.table]) x2.vd (fun _ e => by cases e)
    (x2.wrappee trivial)
  have hshape : ∃ ts, s2 = { s1 with tools := ts, gen := s1.gen + 1 } ∧ t2 = .bind 0 [] none 0 ∧
      gotchaWrap p.env [] tool s1 = .ok (s2, .success) := by
    have hin : s1.inited = true := x2.inv.init
    change stepThread p.env (.call [] tool) s1 = _ at y1
    simp only [stepThread, List.foldl_nil, bind, Except.bind] at y1
    cases hg : s1.tools.getOrCreate (tool.getD (nm "[UNSPECIFIED]")) with
    | error e => rw [hg] at y1; cases y1
    | ok r =>
      rw [hg] at y1
      obtain ⟨ts, tid⟩ := r
      simp only [Except.ok.injEq, Prod.mk.injEq] at y1
      obtain ⟨rfl, rfl⟩ := y1
      refine ⟨ts, rfl, rfl, ?_⟩
      simp only [gotchaWrap, gotchaInit, hin, if_true, wrapBody, wrapCore, List.foldl_nil, hg, bind, Except.bind]
      rfl
  obtain ⟨tls, hs2, rfl, hwrap⟩ := hshape
  have hnew : new = [] := by
    obtain ⟨tbl, tool', tid, pr, dn, us, m, e1, e2, e3, -⟩ := y3
    cases e1
    have : dn = [] := (List.append_eq_nil_iff.1 e3).1
    rw [this] at e2
    simpa using e2
  subst hnew
  have hgen : s2.gen.toNat = s1.gen.toNat + 1 := by
    rw [hs2]
    show (s1.gen + 1).toNat = _
    rw [BitVec.toNat_add]
    exact Nat.mod_eq_of_lt (by show s1.gen.toNat + 1 < 2 ^ 32; omega)
  have hlt : ∀ a, (genAt s2.libs G2.lm a).toNat < s2.gen.toNat := by
    intro a
    rw [hgen]
    rcases y5.recs (by intro u hu; simp [Job.table] at hu) a with e | e
    · rw [e]; have := x3 a; omega
    · rw [e]; omega
  have hlike := y6 _ (run_inited_keep p.env (asOps log) x2.init) x2.like
  have hdl : ∃ a, s2.getWrappee p.env.hDlopen = .ok a := by
    refine (x2.on.carry y4.carry).wrappee y2 trivial ?_
    rw [hlike.real]
    obtain ⟨r, hr⟩ := Option.ne_none_iff_exists'.1 x2.dl.2
    change (Abs.run p.env (asOps log) (Abs.run p.env ops p.abs).1).1.real _ ≠ none
    rw [(run_grow p.env (asOps log) (Abs.run p.env ops p.abs).1).real _ r x2.dl.1 hr]
    exact fun e => by cases e
  -- the dlopen
  obtain ⟨s3, G3, z1, z2, z3, z4⟩ := dlopen_repairs (good := Passes s.filter) ok.world id y2
    (by rw [hs2]; exact x2.vd) hdl (by rw [hs2]; show Admits s1.filter _; rw [x5]; exact passes_admits fun _ hx => hx)
    (by rw [hs2]; exact hcons) (fun a => Nat.le_of_lt (hlt a))
    (fun a e => by have := hlt a; rw [e] at this; omega)
  have hlm : s2.linkMap = s1.linkMap := by rw [hs2]
  have hv : View p.P True s3 (A2.dlopen []) (Passes s.filter) :=
    inv_view (p := p) (v := v) (strict := True) (good := Passes s.filter) z2 z3
  have hal : Alike (A2.dlopen []) (Abs.run p.env (ops ++ asOps log ++ [reopen]) p.abs).1 := by
    have := hlike.reopen p.env (run_inited_keep p.env (asOps log) x2.init)
    rw [Spec.run_append, Spec.run_append]
    exact this
  have hL : s1.linkMap = libsAfter p.libs (ops ++ asOps log ++ [reopen]) := by
    rw [← libs_run, ← show _ = (Abs.run p.env (ops ++ asOps log ++ [reopen]) p.abs).1.libs from hal.libs]
    show _ = A2.libs ++ []
    rw [List.append_nil, y2.libs, hlm]
  have hin2 : s2.inited = true := y2.init
  refine ⟨s3, log, ?_, z4.trans hlm, ?_, hL, x2.ids, fun i j hij => x2.prefix hij,
    fun i j t hij ht hb => x2.back hij ht hb⟩
  · change dlopenWrapper p.env _ _ = _ at z1
    simp only [run, stepOp, reopen, hwrap, hin2, if_true, z1, bind, Except.bind]
  · intro f r hreg hreal hprog l hl hpass off hoff
    refine ⟨stackOf p (ops ++ asOps log ++ [reopen]) f, stackOf_perm p _ f, ?_⟩
    have hse : (A2.dlopen []).stack f = stackOf p (ops ++ asOps log ++ [reopen]) f := congrFun hal.stack f
    cases hst : stackOf p (ops ++ asOps log ++ [reopen]) f with
    | nil =>
      have := stackOf_perm p (ops ++ asOps log ++ [reopen]) f
      rw [hst] at this
      exact absurd (List.nil_perm.1 this) hreg
    | cons fr st =>
      rw [hst] at hse
      have hslot : s3.mem (l.addr + off) = fr.wrapper :=
        hv.slots trivial l (by rw [z4, hlm, hL]; exact hl) hpass (off, f) hoff fr st hse
      have hc := view_calls hv.weaken (by rw [congrFun hal.real f, real_run]; exact hreal) hprog
        ((A2.dlopen []).stack f) [] rfl fr st hse
      rw [hslot]
      rw [hse] at hc
      exact hc

theorem filterAfter_all {ops : List Op} (h : ∀ f, Op.setFilter f ∈ ops → f = .all) : filterAfter ops = .all := by
  unfold filterAfter
  induction ops using List.reverseRecOn with
  | nil => rfl
  | append_singleton ops op ih =>
    rw [List.foldl_append, ih fun f hf => h f (List.mem_append_left _ hf)]
    cases op with
    | setFilter f => exact h f (by simp)
    | _ => rfl

/-- C128.  A process has used GOTCHA, all calls of wrapped functions are intercepted.  Then threads call gotcha_wrap
and dlopen at the same time, and they get as far as they get (`σ`): some are back, some have been killed or have been
left behind by a fork, and slots that should have been written have not been (C93, C94, C115).

Whatever they have done, two calls put it right: a gotcha_wrap of an empty table, and after it a dlopen of an object
that is there already.  After that every
function that any of the threads has wrapped (`log`: the bindings entered, in the order in which they were entered;
it contains everything that the threads that are back have asked for) is intercepted everywhere. -/
theorem C128_repair {p : Process} (ok : p.Ok) {ops : List Op} (h : History p True ops)
    (hapi : ops.any isApi = true) {s os} (hrun : run p.env ops p.start = .ok (s, os))
    {jobs : List Job} (hj : Honest p.env p.P (ops ++ jobs.map Job.op)) (hl : AnyOrder p ops jobs)
    (hmain : ∀ j ∈ jobs, ∀ u ∈ j.table, u.name ≠ nm "main") (hshort : ops.length + jobs.length + 4 < 2 ^ 32)
    {σ : List Nat} {s1 ts1} (h1 : runThreads p.env σ (jobs.map Job.thread) s = .ok (s1, ts1))
    (hcons : SlotCons (libsAfter p.libs ops ++ jobs.flatMap Job.objects)) (tool : Option Name) :
    ∃ s2 log, run p.env [.wrap [] tool, reopen] s1 = .ok (s2, [.ret .success, .unit]) ∧
      s2.linkMap = s1.linkMap ∧ Wired p (ops ++ asOps log ++ [reopen]) s2 ∧
      s1.linkMap = libsAfter p.libs (ops ++ asOps log ++ [reopen]) ∧
      (∀ e ∈ log, e.1 < jobs.length) ∧
      (∀ (i : Nat) j, jobs[i]? = some j → part i log <+: j.parts) ∧
      (∀ (i : Nat) j t, jobs[i]? = some j → ts1[i]? = some t → Back t → part i log = j.parts) := by
  obtain ⟨s2, log, e1, e2, e3, e4⟩ := repair_core ok h.for hapi hrun hj hl hmain hshort h1 hcons tool
  refine ⟨s2, log, e1, e2, ?_, e4⟩
  intro f r hreg hreal hprog l hl off hoff
  refine e3 f r hreg hreal hprog l hl ?_ off hoff
  rw [(events_env ok ops h.toEvents hrun).2, filterAfter_all (h.filter trivial)]
  trivial

theorem registered_idle {env : Env} {ops : List Op} (hapi : ops.any isApi = true) (op : Op) (ht : tableOf op = [])
    (f : Name) : registered env (ops ++ [op]) f = registered env ops f := by
  unfold registered
  rw [regs_snoc, hapi]
  have : ∀ m, opRegs env (false || true) m op = [] := by
    intro m
    cases op <;> simp_all [opRegs, tableOf, expand]
  rw [this, List.append_nil]

theorem loaderFor_snoc {p : Process} {strict : Prop} {good : Lib → Prop} {f : Filter} {ops : List Op} :
    ∀ {seen libs inited}, LoaderFor p strict good seen libs inited ops →
      LoaderFor p strict good seen libs inited (ops ++ [.setFilter f]) := by
  induction ops with
  | nil => intro _ _ _ _; trivial
  | cons op ops ih =>
    intro seen libs inited h
    cases op with
    | dlopen ld => exact ⟨h.1, ih h.2⟩
    | load ld => exact ⟨h.1, h.2.1, ih h.2.2⟩
    | unload d => exact ⟨h.1, ih h.2⟩
    | setFilter g => exact ih h
    | _ => exact ⟨h.1, ih h.2⟩

/-- C129.  Anything may have happened before that makes GOTCHA miss slots: filters that leave objects out, objects
loaded behind GOTCHA's back, unloaded and loaded again, slots overwritten by the loader, in any order and any number.
A gotcha_wrap of an empty table, followed by a dlopen of an object that is there already, succeed and
put everything right: in every object that passes the filter now, every call of a wrapped function runs all its
wrappers and then the function. -/
theorem C129_self_healing {p : Process} (ok : p.Ok) {ops : List Op} (h : Rough p ops)
    (hapi : ops.any isApi = true) {s os} (hrun : run p.env ops p.start = .ok (s, os))
    (hshort : ops.length + 4 < 2 ^ 32) (tool : Option Name) :
    ∃ s', run p.env (ops ++ [.wrap [] tool, reopen]) p.start = .ok (s', os ++ [.ret .success, .unit]) ∧
      WiredFor p (Passes (filterAfter ops)) (ops ++ [.wrap [] tool, reopen]) s' := by
  have hw : Events p False ops := EventsFor.weak h.toEventsFor
  obtain ⟨s2, log, e1, -, e3, -, e5, -⟩ := repair_core (jobs := []) (σ := []) (s1 := s) (ts1 := []) ok h hapi hrun
    (by simpa using h.honest)
    (fun lds hp => by
      have : lds = [] := List.perm_nil.1 hp
      subst this
      rw [List.map_nil, List.append_nil]
      exact hw)
    (by simp) (by simpa using hshort) rfl
    (by simpa using loaderFor_cons ops h.loader (h.cons trivial)) tool
  have hlog : log = [] := List.eq_nil_iff_forall_not_mem.2 fun e he => by simpa using e5 e he
  subst hlog
  refine ⟨s2, ?_, ?_⟩
  · rw [run_append_model, hrun]
    simp only [bind, Except.bind, e1]
  · rw [(events_env ok ops hw hrun).2] at e3
    have hnil : asOps [] = [] := rfl
    have hr0 := registered_idle (env := p.env) hapi
    have hreg : ∀ f, registered p.env (ops ++ [.wrap [] tool, reopen]) f =
        registered p.env (ops ++ asOps [] ++ [reopen]) f := by
      intro f
      rw [hnil, List.append_nil, hr0 reopen rfl f, show ops ++ [.wrap [] tool, reopen] =
        (ops ++ [.wrap [] tool]) ++ [reopen] by simp, registered_idle (by simp [hapi]) reopen rfl f, hr0 _ rfl f]
    have hreal : ∀ f, realAfter p.env p.libs (ops ++ [.wrap [] tool, reopen]) f =
        realAfter p.env p.libs (ops ++ asOps [] ++ [reopen]) f := by
      intro f
      rw [hnil, List.append_nil]
      unfold realAfter
      rw [tries_append, tries_append, vdsoAfter_append _ _ _ _ hapi, vdsoAfter_append _ _ _ _ hapi]
      congr 2
      simp [tries, isTry, reopen, hr0 (.wrap [] tool) rfl f, libsAfter, loadStep]
    have hlibs : libsAfter p.libs (ops ++ [.wrap [] tool, reopen]) =
        libsAfter p.libs (ops ++ asOps [] ++ [reopen]) := by
      simp [libsAfter, asOps, loadStep]
    intro f r h1 h2 h3 l hl hp off hoff
    rw [hreg] at h1 ⊢
    rw [hreal] at h2
    rw [hlibs] at hl
    exact e3 f r h1 h2 h3 l hl hp off hoff

/-- C129, for programs that want everything intercepted: setting the filter back to all libraries, a gotcha_wrap and
a dlopen. -/
theorem C129_everything_back {p : Process} (ok : p.Ok) {ops : List Op} (h : Rough p ops)
    (hapi : ops.any isApi = true) {s os} (hrun : run p.env ops p.start = .ok (s, os))
    (hshort : ops.length + 5 < 2 ^ 32) (tool : Option Name) :
    ∃ s', run p.env (ops ++ [.setFilter .all, .wrap [] tool, reopen]) p.start =
        .ok (s', os ++ [.unit, .ret .success, .unit]) ∧
      Wired p (ops ++ [.setFilter .all, .wrap [] tool, reopen]) s' := by
  have hb : Rough p (ops ++ [.setFilter .all]) := by
    refine ⟨⟨loaderFor_snoc h.loader, h.cons, fun _ _ _ _ hx => hx.elim, fun _ => ?_, fun _ => ?_⟩,
      ⟨by simpa [tableOf] using h.honest.nodup, by simpa [tableOf] using h.honest.prog, h.honest.own⟩⟩
    · intro pre tbl tool' post e
      rcases List.eq_nil_or_concat post with rfl | ⟨post', o, rfl⟩
      · have := congrArg List.getLast? e
        simp at this
      · refine h.main trivial pre tbl tool' post' ?_
        rw [List.concat_eq_append, ← List.cons_append, ← List.append_assoc] at e
        exact (List.append_inj' e rfl).1
    · simpa using by omega
  have hrun' : run p.env (ops ++ [.setFilter .all]) p.start = .ok ({ s with filter := .all }, os ++ [.unit]) := by
    rw [run_append_model, hrun]
    rfl
  obtain ⟨s', e1, e2⟩ := C129_self_healing ok hb (by simp [hapi]) hrun' (by simpa using by omega) tool
  have e : ops ++ [.setFilter .all] ++ [.wrap [] tool, reopen] = ops ++ [.setFilter .all, .wrap [] tool, reopen] := by
    simp
  rw [e] at e1 e2
  refine ⟨s', by rw [e1]; simp, fun f r h1 h2 h3 l hl off hoff => e2 f r h1 h2 h3 l hl ?_ off hoff⟩
  rw [show filterAfter (ops ++ [.setFilter .all]) = .all from by simp [filterAfter, List.foldl_append, filterStep]]
  trivial

end Gotcha
