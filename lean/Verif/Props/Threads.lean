import Verif.Proof.Threads
import Verif.Proof.SkipMain
import Verif.Demo.Facts
import Verif.Demo.Bad
/-
C93: several threads call gotcha_wrap and dlopen at the same time.
-/
namespace Gotcha
open Spec

/-! ### the parts are gotcha_wrap and dlopen -/

theorem runThreads_append (env : Env) (σ τ : List Nat) : ∀ (ts : List Thread) (s : State),
    runThreads env (σ ++ τ) ts s = (runThreads env σ ts s).bind (fun r => runThreads env τ r.2 r.1) := by
  induction σ with
  | nil => intro ts s; rfl
  | cons i σ ih =>
    intro ts s
    simp only [List.cons_append, runThreads]
    cases ts[i]? with
    | none => exact ih ts s
    | some t =>
      simp only [bind, Except.bind]
      cases stepThread env t s with
      | error e => rfl
      | ok r => exact ih _ _

theorem processBindings_split (env : Env) (om : State → Except Fault State) (n : Nat) (b : BId)
    (bs : List BId) (s : State) (nb : Option (HTable Name BId)) (nf : Nat) :
    processBindings env om n (b :: bs) s nb nf =
      (processBindings env om n [b] s nb nf).bind (fun r =>
        processBindings env om n bs r.1 r.2.1 r.2.2) := by
  simp only [processBindings, bind, Except.bind]
  repeat' (first | rfl | split)

theorem run_bind_serial (env : Env) (n : Nat) (bs : List BId) : ∀ (s : State) nb nf,
    runThreads env (List.replicate bs.length 0) [.bind n bs nb nf] s =
      (processBindings env (onMainReal env) n bs s nb nf).map
        (fun r => (r.1, [.bind n [] r.2.1 r.2.2])) := by
  induction bs with
  | nil => intro s nb nf; rfl
  | cons b bs ih =>
    intro s nb nf
    rw [processBindings_split]
    simp only [List.length_cons, List.replicate_succ, runThreads, List.getElem?_cons_zero, stepThread,
      bind, Except.bind, List.set_cons_zero]
    cases processBindings env (onMainReal env) n [b] s nb nf with
    | error e => rfl
    | ok r => exact ih _ _ _

theorem write_frame {s s' : State} {a v} (e : s.write a v = .ok s') :
    s'.linkMap = s.linkMap ∧ s'.funTab = s.funTab := by
  unfold State.write at e
  split at e
  · cases e; exact ⟨rfl, rfl⟩
  · cases e

theorem writeRelocs_frame {t : HTable Name BId} {base} (rl : List (Addr × Name)) :
    ∀ {s s' : State}, writeRelocs t base rl s = .ok s' →
      s'.linkMap = s.linkMap ∧ s'.funTab = s.funTab := by
  induction rl with
  | nil => intro s s' e; cases e; exact ⟨rfl, rfl⟩
  | cons q rl ih =>
    intro s s' e
    obtain ⟨off, name⟩ := q
    unfold writeRelocs at e
    obtain ⟨o, -, e⟩ := ebind e
    cases o with
    | none => exact ih e
    | some b =>
      obtain ⟨x, -, e⟩ := ebind e
      obtain ⟨s1, h1, e⟩ := ebind e
      exact ⟨(ih e).1.trans (write_frame h1).1, (ih e).2.trans (write_frame h1).2⟩

theorem markGotWritable_frame {env : Env} {s s' : State} {l} (e : s.markGotWritable env l = .ok s') :
    s'.linkMap = s.linkMap ∧ s'.funTab = s.funTab := by
  unfold State.markGotWritable at e
  split at e
  · cases e
  · rename_i rs _
    cases e
    have : ∀ (rs : List (Addr × Addr)) (s : State), (rs.foldl (State.unprotect env) s).linkMap = s.linkMap ∧
        (rs.foldl (State.unprotect env) s).funTab = s.funTab := by
      intro rs
      induction rs with
      | nil => intro s; exact ⟨rfl, rfl⟩
      | cons r rs ih =>
        intro s
        have h := ih (State.unprotect env s r)
        have h0 : (State.unprotect env s r).linkMap = s.linkMap ∧
            (State.unprotect env s r).funTab = s.funTab := by
          unfold State.unprotect
          split <;> exact ⟨rfl, rfl⟩
        exact ⟨h.1.trans h0.1, h.2.trans h0.2⟩
    exact this rs s

theorem updateLib_frame {env : Env} {t : HTable Name BId} {s s' : State} {l b}
    (e : s.updateLib env t l b = .ok s') : s'.linkMap = s.linkMap ∧ s'.funTab = s.funTab := by
  unfold State.updateLib at e
  obtain ⟨⟨s1, r⟩, h1, e⟩ := ebind e
  have f1 : s1.linkMap = s.linkMap ∧ s1.funTab = s.funTab := by
    unfold State.ensureLib at h1
    obtain ⟨o, -, h2⟩ := ebind h1
    cases o with
    | some x => cases h2; exact ⟨rfl, rfl⟩
    | none =>
      obtain ⟨t, -, h4⟩ := ebind h2
      cases h4; exact ⟨rfl, rfl⟩
  obtain ⟨acc, -, e⟩ := ebind e
  rw [← f1.1, ← f1.2]
  split at e
  · cases e; exact ⟨rfl, rfl⟩
  · split at e
    · cases e
    · split at e
      · cases e; exact ⟨rfl, rfl⟩
      · have rest : ∀ {s2 : State}, (do
            match ← Elf.relocs l.img with
            | none => Except.ok s2
            | some rl =>
              let s ← writeRelocs t l.addr rl s2
              Except.ok { s with libs := s.libs.modify r (fun x => { x with gen := s.gen }) }) = .ok s' →
            s'.linkMap = s2.linkMap ∧ s'.funTab = s2.funTab := by
          intro s2 e
          obtain ⟨o, -, e⟩ := ebind e
          cases o with
          | none => cases e; exact ⟨rfl, rfl⟩
          | some rl =>
            obtain ⟨s3, h3, e⟩ := ebind e
            have h4 := writeRelocs_frame _ h3
            cases e
            exact h4
        split at e
        · obtain ⟨s2, h2, e⟩ := ebind e
          cases h2
          exact rest e
        · obtain ⟨s2, h2, e⟩ := ebind e
          obtain ⟨s3, h3, e⟩ := ebind e
          have f2 := markGotWritable_frame h2
          cases h3
          rw [← f2.1, ← f2.2]
          exact rest (s2 := { s2 with libs := s2.libs.modify r (fun x => { x with writable := true }) }) e

theorem run_write_serial (env : Env) (t : HTable Name BId) (nf : Nat) (ls : List Lib) : ∀ {i} {s : State},
    s.linkMap.drop i = ls →
    runThreads env (List.replicate (ls.length + 1) 0) [.write t i nf] s =
      (updateLibs env t ls s).map (fun s' => (s', [.ret (retOf nf)])) := by
  induction ls with
  | nil =>
    intro i s hd
    simp [List.replicate_succ, runThreads, stepThread, hd, bind, Except.bind, updateLibs, Except.map]
  | cons l ls ih =>
    intro i s hd
    rw [List.length_cons, List.replicate_succ]
    simp only [runThreads, List.getElem?_cons_zero, stepThread, hd, bind, Except.bind,
      List.set_cons_zero, updateLibs]
    cases h1 : s.updateLib env t l (!ls.isEmpty) with
    | error e => rfl
    | ok s1 =>
      exact ih (i := i + 1) (by rw [(updateLib_frame h1).1, ← List.drop_drop, hd]; rfl)

theorem run_dlwrite_serial (env : Env) (t : HTable Name BId) (ls : List Lib) : ∀ {i} {s : State},
    s.funTab = t → s.linkMap.drop i = ls →
    runThreads env (List.replicate (ls.length + 1) 0) [.dlwrite i] s =
      (updateLibs env t ls s).map (fun s' => (s', [.dlret])) := by
  induction ls with
  | nil =>
    intro i s _ hd
    simp [List.replicate_succ, runThreads, stepThread, hd, bind, Except.bind, updateLibs, Except.map]
  | cons l ls ih =>
    intro i s ht hd
    rw [List.length_cons, List.replicate_succ]
    simp only [runThreads, List.getElem?_cons_zero, stepThread, hd, ht, bind, Except.bind,
      List.set_cons_zero, updateLibs]
    cases h1 : s.updateLib env t l (!ls.isEmpty) with
    | error e => rfl
    | ok s1 =>
      exact ih (i := i + 1) ((updateLib_frame h1).2.trans ht)
        (by rw [(updateLib_frame h1).1, ← List.drop_drop, hd]; rfl)

/-- C93.  A thread that is not disturbed runs `gotcha_wrap`: scheduled often enough it ends with the
state and the result of the function, or crashes like it. -/
theorem C93_undisturbed (env : Env) (table : List UBinding) (tool : Option Name) (s : State) :
    ∃ k, runThreads env (List.replicate k 0) [(Job.wrap table tool).thread] s =
      (wrapBody env table tool s).map (fun r => (r.1, [.ret r.2])) := by
  unfold wrapBody wrapCore
  simp only [bind, Except.bind]
  split
  · rename_i e he
    refine ⟨1, ?_⟩
    simp only [List.replicate_succ, runThreads, List.getElem?_cons_zero, Job.thread, stepThread, he, bind,
      Except.bind]
    rfl
  rename_i r hgc
  have h1 := run_bind_serial env table.length (List.range' (List.foldl (fun s u =>
    s.setHandle u.handle none) s table).binds.length table.length)
    (addBindings r.2 table { (List.foldl (fun s u => s.setHandle u.handle none) s table) with
      tools := r.1, gen := (List.foldl (fun s u => s.setHandle u.handle none) s table).gen + 1 }) none 0
  rw [List.length_range'] at h1
  split
  · rename_i e he
    refine ⟨table.length + 1, ?_⟩
    rw [List.replicate_succ, runThreads]
    simp only [List.getElem?_cons_zero, Job.thread, stepThread, hgc, bind, Except.bind,
      List.set_cons_zero]
    rw [h1, he]
    rfl
  rename_i r2 hpb
  obtain ⟨s2, nb, nf⟩ := r2
  rw [hpb] at h1
  cases nb with
  | none =>
    refine ⟨table.length + 1 + 1, ?_⟩
    rw [List.replicate_succ, runThreads]
    simp only [List.getElem?_cons_zero, Job.thread, stepThread, hgc, bind, Except.bind,
      List.set_cons_zero]
    rw [List.replicate_add, runThreads_append, h1]
    rfl
  | some t =>
    refine ⟨(table.length + (1 + (s2.linkMap.length + 1))) + 1, ?_⟩
    rw [List.replicate_succ, runThreads]
    simp only [List.getElem?_cons_zero, Job.thread, stepThread, hgc, bind, Except.bind,
      List.set_cons_zero]
    rw [List.replicate_add, runThreads_append, h1, List.replicate_add]
    refine (run_write_serial env t nf s2.linkMap rfl).trans ?_
    unfold State.updateAll
    cases updateLibs env t s2.linkMap s2 <;> rfl

/-- C93.  Likewise for `dlopen`. -/
theorem C93_undisturbed_dlopen (env : Env) (ld : Load) (s : State) :
    ∃ k, runThreads env (List.replicate k 0) [(Job.dlopen ld).thread] s =
      (dlopenWrapper env ld s).map (fun s' => (s', [.dlret])) := by
  unfold dlopenWrapper State.afterDlopen
  cases ha : s.getWrappee env.hDlopen with
  | error e =>
    refine ⟨1, ?_⟩
    simp only [List.replicate_succ, runThreads, List.getElem?_cons_zero, Job.thread, stepThread, ha, bind,
      Except.bind]
    rfl
  | ok a =>
    cases h1 : foreachEntry State.notFound (perBinding env) (s.load ld).notFound.slots.length
        (s.load ld).notFound.head (s.load ld) with
    | error e =>
      refine ⟨2, ?_⟩
      simp only [List.replicate_succ, runThreads, List.getElem?_cons_zero, Job.thread, stepThread, ha, h1,
        bind, Except.bind, List.set_cons_zero]
      rfl
    | ok s1 =>
      refine ⟨(s1.linkMap.length + 1) + 1 + 1, ?_⟩
      rw [List.replicate_succ, runThreads]
      simp only [List.getElem?_cons_zero, Job.thread, stepThread, ha, bind, Except.bind, List.set_cons_zero]
      rw [List.replicate_succ, runThreads]
      simp only [List.getElem?_cons_zero, stepThread, h1, bind, Except.bind, List.set_cons_zero]
      exact run_dlwrite_serial env _ s1.linkMap rfl rfl

/-! ### what the threads have done, as a serial history -/

theorem flatMap_sublist {α β : Type} (g : α → List β) {a b : List α} (h : a.Sublist b) :
    (a.flatMap g).Sublist (b.flatMap g) := by
  induction h with
  | slnil => exact List.Sublist.refl _
  | cons x _ ih => rw [List.flatMap_cons]; exact ih.trans (List.sublist_append_right _ _)
  | cons_cons x _ ih =>
    rw [List.flatMap_cons, List.flatMap_cons]; exact (List.Sublist.refl _).append ih

theorem Spec.Honest.sub {env : Env} {P} {a b c : List Op} (h : Honest env P (a ++ b))
    (hs : c.Sublist b) : Honest env P (a ++ c) := by
  have hf : ((a ++ c).flatMap tableOf).Sublist ((a ++ b).flatMap tableOf) := by
    simp only [List.flatMap_append]
    exact List.Sublist.append (List.Sublist.refl _) (flatMap_sublist _ hs)
  exact ⟨h.nodup.sublist ((hf.map _).append (List.Sublist.refl _)), fun u hu => h.prog u (hf.subset hu),
    h.own⟩

theorem tableOf_op (j : Job) : tableOf j.op = j.table := by cases j <;> rfl

theorem jobsOk_of {p : Process} {ops : List Op} {jobs : List Job} {strict good v}
    (h : Honest p.env p.P (ops ++ jobs.map Job.op)) :
    JobsOk ((p.ctx True strict good).at v) jobs := by
  have hone : ∀ j ∈ jobs, HonA p.env p.P ((Abs.run p.env ops p.abs).1.init p.env) j.table := by
    intro j hj
    have h1 : Honest p.env p.P (ops ++ [j.op]) := by
      refine h.sub ?_
      rw [List.singleton_sublist]
      exact List.mem_map_of_mem hj
    cases j with
    | wrap tbl tool => exact honA_of (post := []) h1
    | dlopen ld => exact ⟨List.nodup_nil, by simp [Job.table], by simp [Job.table], by simp [Job.table]⟩
  refine ⟨fun j hj => (hone j hj).nodup, ?_, fun j hj => (hone j hj).prog, fun j hj => (hone j hj).own⟩
  have hd : ∀ (i k : Nat) (j j' : Job), i < k → jobs[i]? = some j → jobs[k]? = some j' →
      ∀ u ∈ j.table, ∀ u' ∈ j'.table, u.handle ≠ u'.handle := by
    intro i k j j' hik hi hk u hu u' hu' e
    have hs : [j, j'].Sublist jobs := by
      obtain ⟨hil, rfl⟩ := List.getElem?_eq_some_iff.1 hi
      obtain ⟨hkl, rfl⟩ := List.getElem?_eq_some_iff.1 hk
      have h2 : [jobs[i]].Sublist (jobs.take k) := by
        rw [List.singleton_sublist, List.mem_take_iff_getElem]
        exact ⟨i, by omega, rfl⟩
      have h3 : [jobs[k]].Sublist (jobs.drop k) := by
        rw [List.singleton_sublist, List.mem_drop_iff_getElem]
        exact ⟨0, by omega, by simp⟩
      have := h2.append h3
      rwa [List.take_append_drop] at this
    have hn := (h.sub (hs.map Job.op)).nodup
    simp only [List.flatMap_append, List.map_append, List.map_cons, List.map_nil, List.flatMap_cons,
      List.flatMap_nil, List.append_nil, tableOf_op, List.append_assoc] at hn
    rw [List.nodup_append] at hn
    have hn2 := hn.2.1
    rw [List.nodup_append] at hn2
    exact hn2.2.2 _ (List.mem_map_of_mem hu) _
      (List.mem_append_left _ (List.mem_map_of_mem hu')) e
  intro i k j j' hne hi hk u hu hc
  obtain ⟨u', hu', e⟩ := List.mem_map.1 hc
  rcases Nat.lt_or_gt_of_ne hne with hlt | hlt
  · exact hd i k j j' hlt hi hk u hu u' hu' e.symm
  · exact hd k i j' j hlt hk hi u' hu' u hu e

theorem dlres_of {p : Process} {strict : Prop} (ops : List Op) :
    ∀ {pre libs inited seen}, LoaderOk p strict seen libs inited ops →
    (Abs.run p.env pre p.abs).1.libs = libs → (Abs.run p.env pre p.abs).1.inited = inited →
    DlRes (Abs.run p.env pre p.abs).1 → DlRes (Abs.run p.env (pre ++ ops) p.abs).1 := by
  induction ops with
  | nil => intro pre libs inited seen _ _ _ hd; rw [List.append_nil]; exact hd
  | cons op ops ih =>
    intro pre libs inited seen hl h1 h2 hd
    rw [List.append_cons]
    have hini : (inited = false → firstDef (p.env.vdsoOf libs) libs (nm "dlopen") ≠ none) →
        DlRes ((Abs.run p.env pre p.abs).1.init p.env) := by
      intro hx
      refine init_dlres p.env hd ?_
      rw [h1, h2]; exact hx
    cases op with
    | wrap tbl tool =>
      have hd' := hini hl.1
      refine ih hl.2 ?_ ?_ ?_ <;> rw [run_snoc]
      · show (Abs.wrap _ _ _ _).1.libs = _
        rw [(wrap_same (onMain_same p.env) _ _ _).libs, init_libs, h1]
      · show (Abs.wrap _ _ _ _).1.inited = _
        rw [(wrap_same (onMain_same p.env) _ _ _).inited, init_inited]
      · refine hd'.grow (wrap_grow (onMain_grow p.env) _ _ _)
          (wrap_same (onMain_same p.env) _ _ _).inited ?_
        intro hc; rw [init_inited] at hc; cases hc
    | setPriority t v =>
      have hd' := hini hl.1
      refine ih hl.2 ?_ ?_ ?_ <;> rw [run_snoc]
      · show (Abs.init _ _).libs = _
        rw [init_libs, h1]
      · show (Abs.init _ _).inited = _
        rw [init_inited]
      · exact ⟨hd'.before, hd'.after⟩
    | getPriority t =>
      have hd' := hini hl.1
      refine ih hl.2 ?_ ?_ ?_ <;> rw [run_snoc]
      · show (Abs.init _ _).libs = _
        rw [init_libs, h1]
      · show (Abs.init _ _).inited = _
        rw [init_inited]
      · exact hd'
    | setFilter f =>
      refine ih hl ?_ ?_ ?_ <;> rw [run_snoc]
      · exact h1
      · exact h2
      · exact hd
    | dlopen ld =>
      refine ih hl.2 ?_ ?_ ?_ <;> rw [run_snoc]
      · rw [step_dlopen]; split <;> simp [Abs.dlopen, h1]
      · rw [step_dlopen]; split <;> simp [Abs.dlopen, h2]
      · refine hd.grow (step_grow _ _ _) ?_ ?_
        · rw [step_dlopen]; split <;> simp [Abs.dlopen]
        · intro _; rw [step_dlopen]; split <;> simp [Abs.dlopen]
    | load ld =>
      refine ih hl.2.2 ?_ ?_ ?_ <;> rw [run_snoc]
      · show Abs.libs _ ++ _ = _
        rw [h1]
      · exact h2
      · exact hd.grow (step_grow _ _ _) rfl (fun _ => rfl)
    | unload dead =>
      refine ih hl.2 ?_ ?_ ?_ <;> rw [run_snoc]
      · show List.filter _ (Abs.libs _) = _
        rw [h1]
      · exact h2
      · exact hd.grow (step_grow _ _ _) rfl (fun _ => rfl)

theorem valid_tail {C : Ctx} (a b : List Op) : ∀ {seen A}, Valid C seen A (a ++ b) →
    Valid C (seenRun seen a) (Abs.run C.env a A).1 b := by
  induction a with
  | nil => intro seen A h; exact h
  | cons op a ih => intro seen A h; exact ih h.2

theorem loadChain_of {p : Process} {v} (lds : List Load) : ∀ {seen} {A : Abs},
    Valid (p.ctx False False) seen A (lds.map Op.load) →
    LoadChain ((p.ctx True False).at v) seen A.libs lds := by
  induction lds with
  | nil => intro seen A _; trivial
  | cons ld lds ih =>
    intro seen A h
    have h1 := h.1.1
    exact ⟨⟨h1.objs, h1.nd, h1.again, h1.placed, h1.old, h1.cover, h1.cons, h1.keep⟩, ih h.2⟩

theorem thLoads_jobs (jobs : List Job) : thLoads (jobs.map Job.thread) = jobs.flatMap Job.loads := by
  induction jobs with
  | nil => rfl
  | cons j jobs ih => cases j <;> simp [Job.thread, thLoads, Job.loads, ih]

theorem start_threads_of {p : Process} {ops : List Op} (h : History p False ops) {s : State} {v G}
    (hpost : Post ((p.ctx True False).at v) (seenRun p.seen ops) (3 + ops.length) s G
      (Abs.run p.env ops p.abs).1)
    {jobs : List Job} (hj : Honest p.env p.P (ops ++ jobs.map Job.op)) (hl : AnyOrder p ops jobs) :
    TInv ((p.ctx True False).at v) jobs (Abs.run p.env ops p.abs).1 [] (jobs.map Job.thread) s
      G (Abs.run p.env ops p.abs).1 ∧ JobsOk ((p.ctx True False).at v) jobs := by
  have hini : (Abs.run p.env ops p.abs).1.inited = true := hpost.inv.init'
  have hdr : DlRes (Abs.run p.env ops p.abs).1 :=
    dlres_of (pre := []) ops h.loader rfl rfl ⟨fun _ _ => rfl, fun hc => by cases hc⟩
  refine ⟨⟨hpost.inv, by simp, ?_, ?_, by simp, hini, hdr.after hini, Alike.refl _, hpost.vd, ?_, ?_⟩,
    jobsOk_of hj⟩
  · intro i t j hi hji
    rw [List.getElem?_map, hji] at hi
    cases hi
    have h1 : Honest p.env p.P (ops ++ [j.op]) := hj.sub (by
      rw [List.singleton_sublist]
      exact List.mem_map_of_mem (List.mem_of_getElem? hji))
    cases j with
    | wrap tbl tool =>
      refine ⟨rfl, rfl, ?_⟩
      have h2 := honA_of (post := []) h1
      rw [show (Abs.run p.env ops p.abs).1.init p.env = (Abs.run p.env ops p.abs).1 by
        simp [Abs.init, hini]] at h2
      exact (hpost.honT trivial h2).unused
    | dlopen ld => exact ⟨rfl, rfl⟩
  · intro i k t t' _ hi _ b hb
    rw [List.getElem?_map] at hi
    cases hx : jobs[i]? with
    | none => rw [hx] at hi; cases hi
    | some j =>
      rw [hx] at hi; cases hi
      cases j <;> simp [Job.thread, todoOf] at hb
  · obtain ⟨b, t, hb⟩ := hpost.dlb ⟨nm "dlopen", p.env.dlopenW, p.env.hDlopen⟩ (by simp [dlTable, Ctx.at, Process.ctx])
    refine ⟨b, t, hb, ?_⟩
    rcases hpost.inv.onch trivial b (btu_lt hb) with hx | ⟨f, hf⟩
    · exact absurd hx (hpost.pend b)
    · obtain ⟨t', u', hb', hn⟩ := hpost.inv.bind.named hf
      rw [hb] at hb'
      cases hb'
      rw [show nm "dlopen" = f from hn]
      exact hf
  · intro lds hp
    rw [thLoads_jobs] at hp
    have hv := start_valid (hon := False) (hl lds hp) (fun hc => hc.elim)
    have := loadChain_of (v := v) lds (valid_tail ops _ hv)
    rw [hpost.seen, ← hpost.inv.libs]
    exact this

theorem start_threads {p : Process} (ok : p.Ok) {ops : List Op} (h : History p False ops)
    (hapi : ops.any isApi = true) {s os} (hrun : run p.env ops p.start = .ok (s, os))
    {jobs : List Job} (hj : Honest p.env p.P (ops ++ jobs.map Job.op)) (hl : AnyOrder p ops jobs) :
    ∃ v G, TInv ((p.ctx True False).at v) jobs (Abs.run p.env ops p.abs).1 [] (jobs.map Job.thread) s
      G (Abs.run p.env ops p.abs).1 ∧ JobsOk ((p.ctx True False).at v) jobs := by
  obtain ⟨v, G, hpost⟩ := history_post ok h hapi hrun
  exact ⟨v, G, start_threads_of h hpost hj hl⟩

theorem Spec.View.alike {P s A B} (h : View P False s A) (hl : Alike A B) : View P False s B := by
  refine ⟨?_, ?_, ?_, ?_, ?_, fun hx => hx.elim⟩
  · rw [← hl.stack, ← hl.real]; exact h.wrappee
  · rw [← hl.stack]; exact h.prog
  · rw [← hl.stack]; exact h.uniq
  · rw [← hl.stack, ← hl.inited]; exact h.look
  · rw [← hl.stack]; exact h.binds

/-- The log has of every thread the first parts. -/
theorem TInv.prefix {C : Ctx} {jobs B log ts s G A} (h : TInv C jobs B log ts s G A) {i : Nat} {j : Job}
    (hij : jobs[i]? = some j) : part i log <+: j.parts := by
  have hl : i < ts.length := by rw [h.len]; exact (List.getElem?_eq_some_iff.1 hij).1
  have := h.ok i _ j (List.getElem?_eq_getElem hl) hij
  cases ht : ts[i] with
  | call tbl tool => rw [ht] at this; rw [this.2.1]; exact List.nil_prefix
  | bind n todo nb nf =>
    rw [ht] at this
    obtain ⟨tbl, tool, tid, p, dn, us, m, rfl, x2, rfl, -⟩ := this
    rw [x2]
    exact (List.prefix_append dn us).map _
  | write t todo nf =>
    rw [ht] at this
    obtain ⟨tbl, tool, -, x, -⟩ := this
    rw [x]; exact List.prefix_refl _
  | ret c => rw [ht] at this; rw [this.2]; exact List.prefix_refl _
  | dlcall ld => rw [ht] at this; rw [this.2]; exact List.nil_prefix
  | dlscan =>
    rw [ht] at this
    obtain ⟨ld, rfl, x⟩ := this
    rw [x]
    exact ⟨[reopen], rfl⟩
  | dlwrite k => rw [ht] at this; rw [this.2]; exact List.prefix_refl _
  | dlret => rw [ht] at this; rw [this.2]; exact List.prefix_refl _

theorem TInv.back {C : Ctx} {jobs B log ts s G A} (h : TInv C jobs B log ts s G A) {i : Nat} {j : Job} {t : Thread}
    (hij : jobs[i]? = some j) (ht : ts[i]? = some t) (hb : Back t) : part i log = j.parts := by
  have := h.ok i t j ht hij
  cases t with
  | ret c => exact this.2
  | dlret => exact this.2
  | _ => exact hb.elim

/-- C93.  A process has used GOTCHA (`ops`).  Any number of threads then call `gotcha_wrap`, each with a
table of its own, or `dlopen`; they go on in any order (`σ`), each stopping between two parts of the
function.  Every binding in every table has its own handle, as always.

No thread crashes.  And at every moment the stacks, the handles and the table of wrapped functions are
those of a process in which things happened one after the other, in some order (`log`): the calls of
`gotcha_wrap` one binding at a time, for `dlopen` first the loading and then the rest.  This order respects
the order in each thread, and contains everything that a thread that is back was asked to do. -/
theorem C93_some_serial_order {p : Process} (ok : p.Ok) {ops : List Op} (h : History p False ops)
    (hapi : ops.any isApi = true) {s os} (hrun : run p.env ops p.start = .ok (s, os))
    {jobs : List Job} (hj : Honest p.env p.P (ops ++ jobs.map Job.op)) (hl : AnyOrder p ops jobs)
    (σ : List Nat) :
    ∃ s' ts' log, runThreads p.env σ (jobs.map Job.thread) s = .ok (s', ts') ∧
      ts'.length = jobs.length ∧
      View p.P False s' (Abs.run p.env (ops ++ asOps log) p.abs).1 ∧
      s'.linkMap = libsAfter p.libs (ops ++ asOps log) ∧
      (∀ e ∈ log, e.1 < jobs.length) ∧
      (∀ (i : Nat) j, jobs[i]? = some j → part i log <+: j.parts) ∧
      (∀ (i : Nat) j t, jobs[i]? = some j → ts'[i]? = some t → Back t → part i log = j.parts) := by
  obtain ⟨v, G, hT, hJ⟩ := start_threads ok h hapi hrun hj hl
  obtain ⟨s', ts', G', A', log, e1, e2⟩ := run_all ok.world (fun _ => h.honest.own) trivial id hJ σ hT
  refine ⟨s', ts', log, e1, e2.len, ?_, ?_, e2.ids, ?_, ?_⟩
  · rw [Spec.run_append]
    exact (inv_view (good := fun _ => True) (inv_dirty id e2.inv (fun _ => False)) (fun _ => id)).alike
      e2.like
  · rw [← libs_run, Spec.run_append, ← e2.inv.libs]
    exact e2.like.libs
  · exact fun i j hij => e2.prefix hij
  · exact fun i j t hij ht hb => e2.back hij ht hb

/-! ### nothing is lost -/

theorem perm_parts {α : Type} (log : List (Nat × α)) (n : Nat) :
    (log.filter (fun e => decide (e.1 < n))).Perm
      ((List.range n).flatMap (fun i => log.filter (fun e => e.1 == i))) := by
  induction n with
  | zero => simp
  | succ n ih =>
    rw [List.range_succ, List.flatMap_append, List.flatMap_cons, List.flatMap_nil, List.append_nil]
    refine List.Perm.trans ?_ (ih.append_right _)
    have := (List.filter_append_perm (fun e : Nat × α => decide (e.1 < n))
      (log.filter (fun e => decide (e.1 < n + 1)))).symm
    rw [List.filter_filter, List.filter_filter] at this
    refine this.trans ?_
    rw [show (fun e : Nat × α => decide (e.1 < n) && decide (e.1 < n + 1)) =
      (fun e => decide (e.1 < n)) from funext fun e => by
        by_cases h : e.1 < n <;> simp [h]; omega,
      show (fun e : Nat × α => !decide (e.1 < n) && decide (e.1 < n + 1)) =
      (fun e => e.1 == n) from funext fun e => by
        by_cases h : e.1 = n
        · simp [h]
        · have : (e.1 == n) = false := by simpa using h
          rw [this]
          simp
          omega]

theorem flatMap_range {α β : Type} (g : α → List β) (L : List α) :
    L.flatMap g = (List.range L.length).flatMap (fun i => (L[i]?).elim [] g) := by
  induction L with
  | nil => rfl
  | cons a L ih =>
    rw [List.flatMap_cons, List.length_cons, List.range_succ_eq_map, List.flatMap_cons,
      List.flatMap_map, ih]
    rfl

theorem parts_frames (j : Job) (f : Name) : clientFrames j.parts f = clientFrames [j.op] f := by
  cases j with
  | dlopen ld => rfl
  | wrap tbl tool =>
    show clientFrames (tbl.map _) f = clientFrames [.wrap tbl tool] f
    unfold clientFrames
    rw [List.flatMap_map, List.flatMap_cons, List.flatMap_nil, List.append_nil]
    induction tbl with
    | nil => rfl
    | cons u tbl ih =>
      rw [List.flatMap_cons, ih]
      by_cases hn : u.name = f
      · simp [hn]
      · simp [hn]

theorem client_perm {jobs : List Job} {log : List (Nat × Op)} (hid : ∀ e ∈ log, e.1 < jobs.length)
    (hp : ∀ (i : Nat) j, jobs[i]? = some j → part i log = j.parts) (f : Name) :
    (clientFrames (asOps log) f).Perm (clientFrames (jobs.map Job.op) f) := by
  have hc : ∀ (L : List Op), clientFrames L f = L.flatMap (fun op => clientFrames [op] f) := by
    intro L
    simp [clientFrames]
  rw [hc (asOps log), hc (jobs.map Job.op), List.flatMap_map, asOps, List.flatMap_map,
    flatMap_range _ jobs]
  have h3 := perm_parts log jobs.length
  rw [List.filter_eq_self.2 (by intro e he; simpa using hid e he)] at h3
  refine (h3.flatMap_right _).trans ?_
  rw [List.flatMap_assoc]
  refine List.Perm.of_eq (List.flatMap_congr ?_)
  intro i hi
  simp only [List.mem_range] at hi
  have hji := List.getElem?_eq_getElem hi
  rw [hji]
  show _ = clientFrames [(jobs[i]).op] f
  rw [← parts_frames, hc, ← hp i _ hji, part, List.flatMap_map]

/-- C93.  When all threads are back, every function `f` (other than the four GOTCHA wraps itself) has
exactly the wrappers it would have had if the calls had been made one after the other: `st` is a
permutation of all bindings of `f` in all tables.  A call that enters any wrapper of `f` continues with
the wrappers below it on `st` and ends in the real function. -/
theorem C93_no_registration_lost {p : Process} (ok : p.Ok) {ops : List Op} (h : History p False ops)
    (hapi : ops.any isApi = true) {s os} (hrun : run p.env ops p.start = .ok (s, os))
    {jobs : List Job} (hj : Honest p.env p.P (ops ++ jobs.map Job.op)) (hl : AnyOrder p ops jobs)
    {σ : List Nat} {s' ts'}
    (hσ : runThreads p.env σ (jobs.map Job.thread) s = .ok (s', ts')) (hb : ∀ t ∈ ts', Back t)
    {f : Name} (hf : f ∉ ownNames) :
    ∃ log st, st.Perm (clientFrames (ops ++ jobs.map Job.op) f) ∧ st = stackOf p (ops ++ asOps log) f ∧
      ∀ r, realAfter p.env p.libs (ops ++ asOps log) f = some r → p.P r = none →
        ∀ above fr below, st = above ++ fr :: below →
          Calls p.P s' fr.wrapper (wrappers (fr :: below) ++ [r]) := by
  obtain ⟨s1, ts1, log, e1, hlen, e2, -, e3, e4, e5⟩ := C93_some_serial_order ok h hapi hrun hj hl σ
  rw [hσ] at e1
  cases e1
  have hall : ∀ (i : Nat) j, jobs[i]? = some j → part i log = j.parts := by
    intro i j hij
    have hl : i < ts'.length := by rw [hlen]; exact (List.getElem?_eq_some_iff.1 hij).1
    exact e5 i j _ hij (List.getElem?_eq_getElem hl) (hb _ (List.getElem_mem hl))
  refine ⟨log, _, ?_, rfl, ?_⟩
  · refine (stackOf_perm p _ f).trans ?_
    rw [registered_client _ _ hf]
    have : ∀ a b, clientFrames (a ++ b) f = clientFrames a f ++ clientFrames b f := by
      intro a b; simp [clientFrames]
    rw [this, this]
    exact (client_perm e3 hall f).append_left _
  · intro r hr hP above fr below he
    exact view_calls e2 (by rw [real_run]; exact hr) hP (fr :: below) above he fr below rfl

/-! ### an update is lost -/

/-- C93.  No table names `main`.  All threads have started (after `σ1`); thread `i` is at the beginning of
`update_all_library_gots`, in `gotcha_wrap` or in `dlopen`, and is back after `σ2`.

Then nothing at all is written after that (`σ3`), although other threads have still to enter their bindings
and to run `update_all_library_gots`: every library is already marked with the current generation.

So the GOT slots of a function that is registered only after `σ2` still have the values from before the
calls (if the loader has not put anything there), although its registration may end with success.  And if
all threads are in `gotcha_wrap` and thread `j` is still in the loop over its bindings after `σ2`, the
same holds for the functions that only thread `j` wraps. -/
theorem C93_update_lost {p : Process} (ok : p.Ok) {ops : List Op} (h : History p False ops)
    (hapi : ops.any isApi = true) {s os} (hrun : run p.env ops p.start = .ok (s, os))
    {jobs : List Job} (hj : Honest p.env p.P (ops ++ jobs.map Job.op)) (hl : AnyOrder p ops jobs)
    (hmain : ∀ j ∈ jobs, ∀ u ∈ j.table, u.name ≠ nm "main") {σ1 σ2 σ3 : List Nat}
    {s1 ts1 s2 ts2 s3 ts3} (h1 : runThreads p.env σ1 (jobs.map Job.thread) s = .ok (s1, ts1))
    (h2 : runThreads p.env σ2 ts1 s1 = .ok (s2, ts2)) (h3 : runThreads p.env σ3 ts2 s2 = .ok (s3, ts3))
    (hstart : ∀ t ∈ ts1, (∀ tbl tool, t ≠ .call tbl tool) ∧ ∀ ld, t ≠ .dlcall ld) {i : Nat} {t1 t2}
    (hi1 : ts1[i]? = some t1) (hw : (∃ t nf, t1 = .write t 0 nf) ∨ t1 = .dlwrite 0)
    (hi2 : ts2[i]? = some t2) (hb : Back t2) :
    s3.mem = s2.mem ∧
      (∀ (f : Name) (a : Addr), nameLookup s2.funTab f = .ok none →
        (∀ l ∈ s2.linkMap, ∀ q ∈ rlOf l, a = l.addr + q.1 → q.2 = f) →
        (∀ j ∈ jobs, ∀ ld ∈ j.loads, ld.mem a = none) → s3.mem a = s.mem a) ∧
      ∀ (j n : Nat) todo nb nf, ts2[j]? = some (.bind n todo nb nf) → ∀ (f : Name) (a : Addr),
        (∀ (k : Nat) jk, jobs[k]? = some jk → ∃ tbl tool, jk = .wrap tbl tool ∧
          (k ≠ j → f ∉ tbl.map UBinding.name)) →
        (∀ l ∈ libsAfter p.libs ops, ∀ q ∈ rlOf l, a = l.addr + q.1 → q.2 = f) →
        s3.mem a = s.mem a := by
  obtain ⟨v, G, hT, hJ⟩ := start_threads ok h hapi hrun hj hl
  have henv : ((p.ctx True False).at v).hon → EnvOk p.env p.P := fun _ => h.honest.own
  have hm : ∀ j ∈ jobs, noMain j := hmain
  obtain ⟨s1', ts1', G1, A1, log1, x1, x2⟩ := run_all ok.world henv trivial id hJ σ1 hT
  rw [show ((p.ctx True False).at v).env = p.env from rfl, h1] at x1
  cases x1
  have hc1 : ∀ t ∈ ts1, ¬ isCall t := by
    intro t ht hc
    cases t with
    | call tbl tool => exact (hstart _ ht).1 tbl tool rfl
    | dlcall ld => exact (hstart _ ht).2 ld rfl
    | _ => exact hc
  have hM0 : MarkedTo s1 G1 0 := fun X l Y _ hlt => absurd hlt (Nat.not_lt_zero _)
  obtain ⟨G2, A2, log2, y1, y2, ti, y3, y4⟩ := run_marking ok.world henv trivial id hJ hm (i := i) σ2 x2
    hc1 ⟨_, hi1, by
      rcases hw with ⟨t, nf, rfl⟩ | rfl
      · exact hM0
      · exact hM0⟩ h2
  rw [hi2] at y3
  cases y3
  have hall : AllMarked s2 G2 := by
    cases t2 with
    | ret c => exact y4
    | dlret => exact y4
    | _ => exact hb.elim
  have hmem := run_marked ok.world henv trivial id hJ hm σ3 y1 y2 hall h3
  have h12 : runThreads ((p.ctx True False).at v).env (σ1 ++ σ2) (jobs.map Job.thread) s =
      .ok (s2, ts2) := by
    rw [runThreads_append]
    show (runThreads p.env σ1 _ s).bind _ = _
    rw [h1]
    exact h2
  refine ⟨hmem, ?_, ?_⟩
  · intro f a hf ha hld
    rw [hmem]
    obtain ⟨G', A', log', z1, z2, z3, z4⟩ := run_unregistered ok.world henv trivial id hJ hm (f := f)
      (a := a) hld (σ1 ++ σ2) hT h12
    refine z4 ?_ ha
    exact (ch_nil_iff z1.inv f).1 hf
  · intro j n todo nb nf' hj2 f a hf ha
    rw [hmem]
    refine run_slots ok.world henv trivial id hJ hm (j := j) (f := f) (a := a) hf (σ1 ++ σ2) hT ?_ h12
      ⟨_, hj2, trivial⟩
    rw [(history_view ok h hrun).2.1]
    exact ha

/-! ### two threads -/

namespace Demo

/-- Thread 0 wraps `__libc_start_main`, thread 1 wraps `foo`. -/
def jobs : List Job :=
  [.wrap [⟨nm "__libc_start_main", 0x50e, 14⟩] (some A), .wrap [⟨nm "foo", 0x50a, 10⟩] (some B)]

theorem jobs_honest : Honest proc.env proc.P (ops.take 1 ++ jobs.map Job.op) := by
  refine ⟨by decide +kernel, ?_, envOk⟩
  intro u hu
  simp only [ops, jobs, Job.op, List.take_succ_cons, List.take_zero, List.map_cons, List.map_nil, List.cons_append,
    List.nil_append, List.flatMap_cons, List.flatMap_nil, tableOf, List.append_nil, List.mem_cons,
    List.not_mem_nil, or_false] at hu
  rcases hu with rfl | rfl <;> rfl

theorem jobs_main : ∀ j ∈ jobs, ∀ u ∈ j.table, u.name ≠ nm "main" := by
  have : ∀ j ∈ jobs, ∀ u ∈ j.table, (u.name == nm "main") = false := by decide +kernel
  intro j hj u hu e
  have := this j hj u hu
  rw [e] at this
  simp at this

theorem jobs_order : AnyOrder proc (ops.take 1) jobs := by
  intro lds hp
  have : lds = [] := List.perm_nil.1 hp
  subst this
  rw [List.map_nil, List.append_nil]
  exact (prefix_history False 1).toEvents

def retIs (c : RetCode) : Option Thread → Bool
  | some (.ret c') => c == c'
  | _ => false

/-- Thread 1 enters the function before thread 0 updates the GOTs, and goes on afterwards. -/
theorem threads_lost : after proc.env (ops.take 1) proc.start (fun s =>
    match runThreads proc.env [0, 1, 0, 0, 0, 0, 0, 1, 1, 1, 1, 1] (jobs.map Job.thread) s with
    | .ok (s', ts') => retIs .success ts'[0]? && (retIs .success ts'[1]? &&
        (decide (s'.mem 0x10000030 = 0x50e) && decide (s'.mem 0x10000018 ≠ 0x50a)))
    | .error _ => false) = true := by
  decide +kernel

theorem retIs_eq {c t} (h : retIs c t = true) : t = some (.ret c) := by
  unfold retIs at h
  split at h
  · rename_i c'
    cases c <;> cases c' <;> first | rfl | exact absurd h (by decide)
  · cases h

end Demo

/-- C93.  It is not true that a `gotcha_wrap` that has returned success has its functions intercepted
when another thread was in `gotcha_wrap` at the same time: with two threads in the example process both
calls succeed, yet the executable's slot of `foo` holds no wrapper of `foo`. -/
theorem C93_success_means_intercepted_refuted :
    ¬ ∀ (p : Process), p.Ok → ∀ (ops : List Op), History p True ops → ops.any isApi = true →
      ∀ s os, run p.env ops p.start = .ok (s, os) → ∀ jobs : List Job,
      Honest p.env p.P (ops ++ jobs.map Job.op) → AnyOrder p ops jobs →
      (∀ j ∈ jobs, ∀ u ∈ j.table, u.name ≠ nm "main") → ∀ σ s' ts',
      runThreads p.env σ (jobs.map Job.thread) s = .ok (s', ts') → (∀ t ∈ ts', t = .ret .success) →
      ∀ j ∈ jobs, ∀ u ∈ j.table, ∀ l ∈ libsAfter p.libs ops, ∀ q ∈ rlOf l, q.2 = u.name →
        ∃ fr ∈ clientFrames (ops ++ jobs.map Job.op) u.name, s'.mem (l.addr + q.1) = fr.wrapper := by
  intro hall
  obtain ⟨s, os, hrun, hq⟩ := Demo.after_run Demo.threads_lost
  cases hσ : runThreads Demo.proc.env [0, 1, 0, 0, 0, 0, 0, 1, 1, 1, 1, 1] (Demo.jobs.map Job.thread) s with
  | error e => rw [hσ] at hq; cases hq
  | ok r =>
    obtain ⟨s', ts'⟩ := r
    rw [hσ] at hq
    simp only [Bool.and_eq_true, decide_eq_true_eq] at hq
    obtain ⟨h0, h1, -, h3⟩ := hq
    have hlen : ts'.length = 2 := by
      obtain ⟨v, G, hT, hJ⟩ := start_threads Demo.proc_ok (Demo.prefix_history False 1) rfl hrun
        Demo.jobs_honest Demo.jobs_order
      obtain ⟨s2, ts2, G2, A2, log2, x1, x2⟩ := run_all Demo.proc_ok.world
        (fun _ => Demo.envOk) trivial id hJ [0, 1, 0, 0, 0, 0, 0, 1, 1, 1, 1, 1] hT
      rw [show ((Demo.proc.ctx True False).at v).env = Demo.proc.env from rfl, hσ] at x1
      cases x1
      exact x2.len
    have hb : ∀ t ∈ ts', t = .ret .success := by
      have h0 := Demo.retIs_eq h0
      have h1 := Demo.retIs_eq h1
      match ts', hlen, h0, h1 with
      | [a, b], _, h0, h1 =>
        simp only [List.getElem?_cons_zero, List.getElem?_cons_succ, Option.some.injEq] at h0 h1
        subst h0 h1
        intro t ht
        simpa using ht
    obtain ⟨fr, hfr, hm⟩ := hall Demo.proc Demo.proc_ok _ (Demo.prefix_history True 1) rfl s os hrun
      Demo.jobs Demo.jobs_honest Demo.jobs_order Demo.jobs_main _ s' ts' hσ hb
      (.wrap [⟨nm "foo", 0x50a, 10⟩] (some Demo.B)) (by simp [Demo.jobs]) ⟨nm "foo", 0x50a, 10⟩
      (by simp [Job.table])
      Demo.app (by simp [Demo.ops, libsAfter, loadStep, Demo.proc]) _ Demo.slot_app rfl
    have hcl : clientFrames (Demo.ops.take 1 ++ Demo.jobs.map Job.op) (nm "foo") =
        [⟨Demo.B, 0x50a, 10⟩] := by decide +kernel
    rw [hcl, List.mem_singleton] at hfr
    subst hfr
    exact h3 hm

/-- The same history meets the hypotheses of `C93_update_lost`. -/
example : ∃ s os σ1 σ2 s1 ts1 s2 ts2 t nf n todo nb nf', run Demo.proc.env (Demo.ops.take 1) Demo.proc.start = .ok (s, os) ∧
    runThreads Demo.proc.env σ1 (Demo.jobs.map Job.thread) s = .ok (s1, ts1) ∧
    runThreads Demo.proc.env σ2 ts1 s1 = .ok (s2, ts2) ∧
    (∀ t ∈ ts1, ∀ tbl tool, t ≠ .call tbl tool) ∧
    ts1[0]? = some (.write t 0 nf) ∧ ts2[0]? = some (.ret .success) ∧
    ts2[1]? = some (.bind n todo nb nf') := by
  have h : Demo.after Demo.proc.env (Demo.ops.take 1) Demo.proc.start (fun s =>
    match runThreads Demo.proc.env [0, 1, 0] (Demo.jobs.map Job.thread) s with
    | .ok (s', [.bind n [] (some t) nf, .bind n' todo nb nf']) =>
      match runThreads Demo.proc.env [0, 0, 0] [.write t 0 nf, .bind n' todo nb nf'] s' with
      | .ok (_, [.ret .success, .bind _ _ _ _]) => true
      | _ => false
    | _ => false) = true := by decide +kernel
  obtain ⟨s, os, hrun, hq⟩ := Demo.after_run h
  split at hq
  · rename_i s1 n t nf n' todo nb nf' h1
    split at hq
    · rename_i s2 a b c d h2
      refine ⟨s, os, [0, 1, 0] ++ [0], [0, 0, 0], s1, _, s2, _, t, nf, a, b, c, d, hrun, ?_, h2, ?_, rfl, rfl, rfl⟩
      · rw [runThreads_append, h1]
        rfl
      · intro t ht tbl tool e
        subst e
        simp at ht
    · cases hq
  · cases hq

/-- And all threads can come back. -/
example : ∃ s os s' ts', run Demo.proc.env (Demo.ops.take 1) Demo.proc.start = .ok (s, os) ∧
    runThreads Demo.proc.env [1, 0, 0, 1, 0, 1, 1, 0, 0, 1, 1, 0] (Demo.jobs.map Job.thread) s =
      .ok (s', ts') ∧ ts'.all (fun t => match t with | .ret _ => true | _ => false) = true := by
  have h : Demo.after Demo.proc.env (Demo.ops.take 1) Demo.proc.start (fun s =>
    match runThreads Demo.proc.env [1, 0, 0, 1, 0, 1, 1, 0, 0, 1, 1, 0] (Demo.jobs.map Job.thread) s with
    | .ok (_, ts') => ts'.all (fun t => match t with | .ret _ => true | _ => false)
    | _ => false) = true := by decide +kernel
  obtain ⟨s, os, hrun, hq⟩ := Demo.after_run h
  split at hq
  · rename_i s' ts' h1
    exact ⟨s, os, s', ts', hrun, h1, hq⟩
  · cases hq

/-- Not vacuous: `C93_no_registration_lost` for `foo`, with both threads interleaved. -/
example : ∃ s os s' ts' log, run Demo.proc.env (Demo.ops.take 1) Demo.proc.start = .ok (s, os) ∧
    runThreads Demo.proc.env [1, 0, 0, 1, 0, 1, 1, 0, 0, 1, 1, 0] (Demo.jobs.map Job.thread) s = .ok (s', ts') ∧
    stackOf Demo.proc (Demo.ops.take 1 ++ asOps log) (nm "foo") = [⟨Demo.B, 0x50a, 10⟩] := by
  have h : Demo.after Demo.proc.env (Demo.ops.take 1) Demo.proc.start (fun s =>
    match runThreads Demo.proc.env [1, 0, 0, 1, 0, 1, 1, 0, 0, 1, 1, 0] (Demo.jobs.map Job.thread) s with
    | .ok (_, ts') => ts'.all (fun t => match t with | .ret _ => true | _ => false)
    | _ => false) = true := by decide +kernel
  obtain ⟨s, os, hrun, hq⟩ := Demo.after_run h
  split at hq
  · rename_i s' ts' h1
    obtain ⟨log, st, hp, e, -⟩ := C93_no_registration_lost Demo.proc_ok (Demo.prefix_history False 1) rfl hrun
      Demo.jobs_honest Demo.jobs_order h1 (by
        intro t ht
        have := List.all_eq_true.1 hq t ht
        cases t <;> first | trivial | cases this) (f := nm "foo") (by decide +kernel)
    have hcl : clientFrames (Demo.ops.take 1 ++ Demo.jobs.map Job.op) (nm "foo") =
        [⟨Demo.B, 0x50a, 10⟩] := by decide +kernel
    rw [hcl] at hp
    exact ⟨s, os, s', ts', log, hrun, h1, by rw [← e]; exact List.perm_singleton.1 hp⟩
  · cases hq

end Gotcha
