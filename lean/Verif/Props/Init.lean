import Verif.Spec.Init
import Verif.Proof.Forget
import Verif.Props.ThreadsDl
/-
C95: the first calls of GOTCHA, made by several threads at the same time.
-/
namespace Gotcha
open Spec Prot Forget

/-! ### the parts are gotcha_wrap with gotcha_init -/

theorem runInit_append (env : Env) (σ τ : List Nat) : ∀ (ts : List InitThread) (s : State),
    runInit env (σ ++ τ) ts s = (runInit env σ ts s).bind (fun r => runInit env τ r.2 r.1) := by
  induction σ with
  | nil => intro ts s; rfl
  | cons i σ ih =>
    intro ts s
    simp only [List.cons_append, runInit]
    cases ts[i]? with
    | none => exact ih ts s
    | some t =>
      simp only [bind, Except.bind]
      cases stepInit env t s with
      | error e => rfl
      | ok r => exact ih _ _

theorem runInit_one (env : Env) (k : Nat) (t : InitThread) (s : State) :
    runInit env (List.replicate (k + 1) 0) [t] s =
      (stepInit env t s).bind (fun r => runInit env (List.replicate k 0) [r.2] r.1) := by
  simp only [List.replicate_succ, runInit, List.getElem?_cons_zero, List.set_cons_zero]
  cases stepInit env t s <;> rfl

theorem runThreads_one (env : Env) (k : Nat) (t : Thread) (s : State) :
    runThreads env (List.replicate (k + 1) 0) [t] s =
      (stepThread env t s).bind (fun r => runThreads env (List.replicate k 0) [r.2] r.1) := by
  simp only [List.replicate_succ, runThreads, List.getElem?_cons_zero, List.set_cons_zero]
  cases stepThread env t s <;> rfl

theorem runInit_go (env : Env) (k : Nat) : ∀ (t : Thread) (s : State),
    runInit env (List.replicate k 0) [.go t] s =
      (runThreads env (List.replicate k 0) [t] s).map (fun r => (r.1, r.2.map .go)) := by
  induction k with
  | zero => intro t s; rfl
  | succ k ih =>
    intro t s
    rw [runInit_one, runThreads_one]
    simp only [stepInit]
    cases stepThread env t s with
    | error e => rfl
    | ok r => exact ih _ _

theorem runInit_libdl_ok (env : Env) (table tool) (k : Nat) : ∀ {t : Thread} {s s' : State} {c},
    runThreads env (List.replicate k 0) [t] s = .ok (s', [.ret c]) →
    ∃ j, runInit env (List.replicate j 0) [.libdl t table tool] s =
      .ok (s', [.go (.call table tool)]) := by
  induction k with
  | zero => intro t s s' c h; cases h; exact ⟨1, rfl⟩
  | succ k ih =>
    intro t s s' c h
    by_cases hr : ∃ d, t = .ret d
    · obtain ⟨d, rfl⟩ := hr
      rw [runThreads_one] at h
      exact ih (t := .ret d) h
    · rw [runThreads_one] at h
      cases hs : stepThread env t s with
      | error e => rw [hs] at h; cases h
      | ok r =>
        rw [hs] at h
        obtain ⟨j, hj⟩ := ih h
        refine ⟨j + 1, ?_⟩
        rw [runInit_one]
        have : stepInit env (.libdl t table tool) s = .ok (r.1, .libdl r.2 table tool) := by
          cases t with
          | ret d => exact absurd ⟨d, rfl⟩ hr
          | _ => simp only [stepInit, hs, bind, Except.bind]
        rw [this]
        exact hj

theorem runInit_libdl_err (env : Env) (table tool) (k : Nat) : ∀ {t : Thread} {s : State} {e},
    runThreads env (List.replicate k 0) [t] s = .error e →
    ∃ j, runInit env (List.replicate j 0) [.libdl t table tool] s = .error e := by
  induction k with
  | zero => intro t s e h; cases h
  | succ k ih =>
    intro t s e h
    by_cases hr : ∃ d, t = .ret d
    · obtain ⟨d, rfl⟩ := hr
      rw [runThreads_one] at h
      exact ih (t := .ret d) h
    · rw [runThreads_one] at h
      cases hs : stepThread env t s with
      | error e' =>
        rw [hs] at h
        cases h
        refine ⟨1, ?_⟩
        rw [runInit_one]
        have : stepInit env (.libdl t table tool) s = .error e := by
          cases t with
          | ret d => exact absurd ⟨d, rfl⟩ hr
          | _ => simp only [stepInit, hs, bind, Except.bind]
        rw [this]
        rfl
      | ok r =>
        rw [hs] at h
        obtain ⟨j, hj⟩ := ih h
        refine ⟨j + 1, ?_⟩
        rw [runInit_one]
        have : stepInit env (.libdl t table tool) s = .ok (r.1, .libdl r.2 table tool) := by
          cases t with
          | ret d => exact absurd ⟨d, rfl⟩ hr
          | _ => simp only [stepInit, hs, bind, Except.bind]
        rw [this]
        exact hj

theorem gotchaInit_parts (env : Env) {s : State} (hi : s.inited = false) :
    gotchaInit env s = (setupTables env { s with inited := true }).bind
      (fun s1 => (wrapBody env (dlTable env) (some (nm "gotcha")) s1).map Prod.fst) := by
  unfold gotchaInit setupTables
  simp only [hi, Bool.false_eq_true, if_false, bind, Except.bind]
  cases HTable.create env.page 128 with
  | error e => rfl
  | ok lt =>
    cases HTable.create env.page 4096 with
    | error e => rfl
    | ok ft =>
      cases HTable.create env.page 128 with
      | error e => rfl
      | ok nt =>
        simp only
        cases wrapBody env (dlTable env) (some (nm "gotcha"))
          { s with inited := true, libTab := lt, funTab := ft, notFound := nt } <;> rfl

/-- C95.  A thread that is not disturbed runs `gotcha_wrap`, initialisation included: scheduled often
enough it ends with the state and the result of the function, or crashes like it. -/
theorem C95_undisturbed (env : Env) (table : List UBinding) (tool : Option Name) (s : State) :
    ∃ k, runInit env (List.replicate k 0) [.enter table tool] s =
      (gotchaWrap env table tool s).map (fun r => (r.1, [.go (.ret r.2)])) := by
  have rest : ∀ s1 : State, ∃ k, runInit env (List.replicate k 0) [.go (.call table tool)] s1 =
      (wrapBody env table tool s1).map (fun r => (r.1, [.go (.ret r.2)])) := by
    intro s1
    obtain ⟨k, hk⟩ := C93_undisturbed env table tool s1
    refine ⟨k, ?_⟩
    rw [runInit_go, show Thread.call table tool = (Job.wrap table tool).thread from rfl, hk]
    cases wrapBody env table tool s1 <;> rfl
  unfold gotchaWrap
  cases hi : s.inited with
  | true =>
    obtain ⟨k, hk⟩ := rest s
    refine ⟨k + 1, ?_⟩
    rw [runInit_one]
    simp only [stepInit, hi, if_true, gotchaInit]
    exact hk
  | false =>
    rw [gotchaInit_parts env hi]
    have three : ∀ j, runInit env (List.replicate (j + 3) 0) [.enter table tool] s =
        (setupTables env { s with inited := true }).bind (fun s1 => runInit env (List.replicate j 0)
          [.libdl (.call (dlTable env) (some (nm "gotcha"))) table tool] s1) := by
      intro j
      rw [show j + 3 = (j + 2) + 1 from rfl, runInit_one]
      simp only [stepInit, hi, Bool.false_eq_true, if_false, Except.bind]
      rw [show j + 2 = (j + 1) + 1 from rfl, runInit_one]
      simp only [stepInit, Except.bind]
      rw [runInit_one]
      simp only [stepInit]
      cases setupTables env { s with inited := true } <;> rfl
    cases hs : setupTables env { s with inited := true } with
    | error e => exact ⟨3, by rw [three 0, hs]; rfl⟩
    | ok s1 =>
      obtain ⟨k1, hk1⟩ := C93_undisturbed env (dlTable env) (some (nm "gotcha")) s1
      cases hw : wrapBody env (dlTable env) (some (nm "gotcha")) s1 with
      | error e =>
        rw [hw] at hk1
        obtain ⟨j, hj⟩ := runInit_libdl_err env table tool k1 hk1
        refine ⟨j + 3, ?_⟩
        rw [three, hs]
        simp only [Except.bind, hw]
        exact hj
      | ok r =>
        rw [hw] at hk1
        obtain ⟨j, hj⟩ := runInit_libdl_ok env table tool k1 hk1
        obtain ⟨k, hk⟩ := rest r.1
        refine ⟨j + k + 3, ?_⟩
        rw [three, hs, List.replicate_add]
        simp only [Except.bind, hw]
        have hj' : runInit env (List.replicate j 0)
            [.libdl (.call (dlTable env) (some (nm "gotcha"))) table tool] s1 =
          .ok (r.1, [.go (.call table tool)]) := hj
        rw [runInit_append, hj']
        exact hk

/-! ### between the flag and the tables -/

theorem stepInit_early {env : Env} {t t' : InitThread} {s s' : State}
    (h : stepInit env t s = .ok (s', t')) (ht : Early t') : Early t ∧ s'.funTab = s.funTab := by
  cases t with
  | enter tbl tool =>
    simp only [stepInit] at h
    split at h <;> cases h
    · exact ⟨trivial, rfl⟩
    · exact ⟨trivial, rfl⟩
  | checked tbl tool => cases h; exact ⟨trivial, rfl⟩
  | marked tbl tool =>
    obtain ⟨s1, -, h⟩ := ebind h
    cases h
    exact ht.elim
  | go th =>
    obtain ⟨⟨s1, th1⟩, -, h⟩ := ebind h
    cases h
    exact ht.elim
  | libdl th tbl tool =>
    have other : (do
        let (s, th) ← stepThread env th s
        .ok (s, InitThread.libdl th tbl tool)) = .ok (s', t') → False := by
      intro h
      obtain ⟨⟨s1, th1⟩, -, h⟩ := ebind h
      cases h
      exact ht.elim
    cases th with
    | ret c => cases h; exact ht.elim
    | _ => exact (other h).elim

theorem runInit_early {env : Env} (σ : List Nat) : ∀ {ts ts' : List InitThread} {s s' : State},
    runInit env σ ts s = .ok (s', ts') → (∀ t ∈ ts', Early t) →
    (∀ t ∈ ts, Early t) ∧ s'.funTab = s.funTab := by
  induction σ with
  | nil => intro ts ts' s s' h he; cases h; exact ⟨he, rfl⟩
  | cons i σ ih =>
    intro ts ts' s s' h he
    unfold runInit at h
    split at h
    · exact ih h he
    · rename_i t ht
      obtain ⟨⟨s1, t1⟩, h1, h⟩ := ebind h
      obtain ⟨h2, h3⟩ := ih h he
      have hl : i < ts.length := (List.getElem?_eq_some_iff.1 ht).1
      obtain ⟨h4, h5⟩ := stepInit_early h1 (h2 t1 (by
        exact List.mem_of_getElem? (i := i) (by rw [List.getElem?_set_self hl])))
      refine ⟨fun t' ht' => ?_, h3.trans h5⟩
      obtain ⟨j, hj⟩ := List.getElem?_of_mem ht'
      by_cases hij : i = j
      · subst hij
        rw [ht] at hj
        cases hj
        exact h4
      · exact h2 t' (List.mem_of_getElem? (i := j) (by rw [List.getElem?_set_ne hij]; exact hj))

/-- No name can be looked up in a table without room. -/
theorem nameLookup_empty {t : HTable Name BId} (h : t.slots = []) (n : Name) :
    nameLookup t n = .error .divZero := by
  have : t.size = 0 := by unfold HTable.size; rw [h]; rfl
  unfold nameLookup HTable.lookup HTable.lookupEntry
  rw [if_pos this]

/-- The block for "main" does not make room. -/
def OmNo (om : State → Except Fault State) : Prop :=
  ∀ {s : State}, s.funTab.slots = [] → Ret (fun s' => s'.funTab.slots = []) (om s)

theorem rewriteOrders_no {om} (ho : OmNo om) {s : State} (h : s.funTab.slots = []) (b) :
    Ret (fun _ => False) (rewriteOrders om s b) := by
  refine Ret.any (fun xb => Ret.any (fun p => ?_))
  have key : ∀ (s1 : State), s1.funTab.slots = [] → Ret (fun _ => False) (do
      match ← nameLookup s1.funTab xb.user.name with
      | none =>
        let t ← s1.funTab.addto xb.user.name b (strhash xb.user.name)
        Except.ok ({ s1 with funTab := t }, (⟨true, true⟩ : RWO))
      | some head =>
        let hp ← s1.bindPriority head
        if hp < p then
          let s ← s1.insertAtHead b head
          .ok (s, ⟨false, true⟩)
        else
          match ← findPos s1 p xb.user.wrapper (s1.binds.length + 1) head with
          | none => .ok (s1, ⟨false, false⟩)
          | some pos =>
            let s ← s1.insertAfter b pos
            .ok (s, ⟨false, false⟩)) := by
    intro s1 h1
    rw [nameLookup_empty h1]
    exact Ret.err
  exact Ret.ite (Ret.bind (ho h) key) (key s h)

theorem processBindings_no {env : Env} {om} (ho : OmNo om) {n b bs} {s : State} {nb nf}
    (h : s.funTab.slots = []) : Ret (fun _ => False) (processBindings env om n (b :: bs) s nb nf) :=
  Ret.any (fun _ => Ret.bind (rewriteOrders_no ho h b) (fun _ hf => hf.elim))

theorem wrapCore_no {env : Env} {om} (ho : OmNo om) {u tbl tool} {s : State} (h : s.funTab.slots = []) :
    Ret (fun _ => False) (wrapCore env om (u :: tbl) tool s) := by
  unfold wrapCore
  dsimp only
  refine Ret.any ?_
  rintro ⟨ts, tid⟩
  dsimp only
  rw [List.length_cons, List.range'_succ]
  refine Ret.bind (processBindings_no ho ?_) (fun _ hf => hf.elim)
  rw [addBindings_tab]
  show (List.foldl (fun s u => s.setHandle u.handle none) s (u :: tbl)).funTab.slots = []
  rw [setHandles_tab]
  exact h

theorem onMain_no (env : Env) : OmNo (onMainReal env) := by
  intro s h
  unfold onMainReal
  exact Ret.ite (Ret.ok h) (Ret.bind (wrapCore_no (fun h => Ret.ok h) (s := { s with mainWrapped := true }) h)
    (fun _ hf => hf.elim))

theorem call_no {env : Env} {u us tool} {s : State} (h : s.funTab.slots = []) :
    Ret (fun x => ∃ n b bs nb nf, x.2 = .go (.bind n (b :: bs) nb nf) ∧ x.1.funTab.slots = [])
      (stepInit env (.go (.call (u :: us) tool)) s) := by
  simp only [stepInit, stepThread]
  refine Ret.bind (Q := fun x => ∃ n b bs nb nf, x.2 = .bind n (b :: bs) nb nf ∧ x.1.funTab.slots = [])
    (Ret.any ?_) ?_
  · rintro ⟨ts, tid⟩
    refine Ret.ok ⟨_, _, _, _, _, by rw [List.length_cons, List.range'_succ], ?_⟩
    rw [addBindings_tab]
    show (List.foldl (fun s u => s.setHandle u.handle none) s (u :: us)).funTab.slots = []
    rw [setHandles_tab]
    exact h
  · rintro ⟨s1, th1⟩ ⟨n, b, bs, nb, nf, h1, h2⟩
    exact Ret.ok ⟨n, b, bs, nb, nf, by rw [show th1 = _ from h1], h2⟩

theorem bind_no {env : Env} {n b bs nb nf} {s : State} (h : s.funTab.slots = []) :
    Ret (fun _ => False) (stepInit env (.go (.bind n (b :: bs) nb nf)) s) := by
  simp only [stepInit, stepThread]
  exact Ret.bind (Ret.bind (processBindings_no (onMain_no env) h) (fun _ hf => hf.elim))
    (fun _ (hf : False) => hf.elim)

/-- C95.  Several threads make the first calls of `gotcha_wrap`.  After the schedule `σ` the flag
`gotcha_initialized` is set, and no thread is past the creation of the tables.  A thread that now enters
`gotcha_wrap` with a table that is not empty, and is not interrupted, crashes. -/
theorem C95_crash {p : Process} {ts : List InitThread} {σ : List Nat} {s ts'}
    (hσ : runInit p.env σ ts p.start = .ok (s, ts')) (he : ∀ t ∈ ts', Early t) (hs : s.inited = true)
    {i : Nat} {table tool} (hi : ts'[i]? = some (.enter table tool)) (ht : table ≠ []) :
    ∃ e, runInit p.env (σ ++ [i, i, i]) ts p.start = .error e := by
  have h0 : s.funTab.slots = [] := by rw [(runInit_early σ hσ he).2]; rfl
  have hl : i < ts'.length := (List.getElem?_eq_some_iff.1 hi).1
  cases table with
  | nil => exact absurd rfl ht
  | cons u us =>
  suffices hx : Ret (fun _ => False) (runInit p.env (σ ++ [i, i, i]) ts p.start) by
    cases hr : runInit p.env (σ ++ [i, i, i]) ts p.start with
    | error e => exact ⟨e, rfl⟩
    | ok r => exact (hx r hr).elim
  rw [runInit_append, hσ]
  simp only [Except.bind, runInit, hi]
  rw [show stepInit p.env (.enter (u :: us) tool) s = .ok (s, .go (.call (u :: us) tool)) by
    simp only [stepInit, hs, if_true]]
  refine Ret.bind (Q := fun x => x = (s, .go (.call (u :: us) tool))) (Ret.ok rfl) ?_
  rintro ⟨s1, t1⟩ h1
  cases h1
  simp only [List.getElem?_set_self hl]
  refine Ret.bind (call_no h0) ?_
  rintro ⟨s2, t2⟩ ⟨n, b, bs, nb, nf, h2, h3⟩
  simp only at h2 h3
  subst h2
  simp only [List.set_set, List.getElem?_set_self hl]
  exact Ret.bind (bind_no h3) (fun _ hf => hf.elim)

/-! ### after the second creation -/

theorem notFor_oth {f : Name} {s : State} {t : Thread} (h : NotFor f s t) : ThOth f (users s) t := by
  cases t with
  | call tbl tool => exact h
  | bind n todo nb nf =>
    intro b hb
    obtain ⟨x, h1, h2⟩ := h b hb
    exact ⟨x.user, by rw [users, List.getElem?_map, h1]; rfl, h2⟩
  | _ => trivial

theorem notForInit_oth {f : Name} {s : State} {t : InitThread} (h : NotForInit f s t) :
    ItOth f (users s) t := by
  cases t with
  | libdl th tbl tool => exact ⟨notFor_oth h.1, h.2⟩
  | go th => exact notFor_oth h
  | _ => exact h

theorem setupTables_users {env : Env} {s s' : State} (e : setupTables env s = .ok s') :
    users s' = users s := by
  obtain ⟨lt, -, e⟩ := ebind e
  obtain ⟨ft, -, e⟩ := ebind e
  obtain ⟨nt, -, e⟩ := ebind e
  cases e
  rfl

/-- C95.  Thread `i` has found GOTCHA uninitialised and is about to create the tables.  In the meantime
anything may have happened: another thread may have done the same, and functions may have been wrapped.
When `i` goes on, and then whatever schedule `σ` is followed: a function `f` that nobody enters any more
(none of GOTCHA's own) is not in the table.  A later `dlopen` leaves its slots alone, those of the new
objects included, however often it had been wrapped. -/
theorem C95_forgotten {env : Env} (hpg : 48 ≤ env.page) {s s' : State} {ts ts' : List InitThread}
    {i : Nat} {table tool} (hi : ts[i]? = some (.marked table tool)) {f : Name}
    (hf : f ∉ [nm "dlopen", nm "dlsym", nm "__libc_start_main", nm "main"])
    (hts : ∀ t ∈ ts, NotForInit f s t) {σ : List Nat} (h : runInit env (i :: σ) ts s = .ok (s', ts')) :
    nameLookup s'.funTab f = .ok none ∧ ∀ {ld s''}, dlopenWrapper env ld s' = .ok s'' →
      ∀ {a}, (∀ l ∈ s'.linkMap ++ ld.libs, ∀ q ∈ rlOf l, a = l.addr + q.1 → q.2 = f) →
        s''.mem a = (s'.load ld).mem a := by
  simp only [List.mem_cons, List.not_mem_nil, or_false, not_or] at hf
  obtain ⟨f1, f2, f3, f4⟩ := hf
  have h0 : nameLookup s'.funTab f = .ok none := by
    simp only [runInit, hi] at h
    obtain ⟨⟨s1, t1⟩, h1, h⟩ := ebind h
    obtain ⟨s2, h2, h1⟩ := ebind h1
    cases h1
    have hu := setupTables_users h2
    have hg := setupTables_fg (f := f) hpg (List.prefix_refl _) _ h2
    obtain ⟨m, hm, hmf⟩ := runInit_fg (onMain_fg f3 f4) hpg f1 f2 σ hg (by
      intro t ht
      rcases List.mem_or_eq_of_mem_set ht with ht | rfl
      · exact notForInit_oth (hts t ht)
      · exact ⟨dlTable_oth f1 f2, hts _ (List.mem_of_getElem? hi)⟩) _ h
    rw [nameLookup_tab hm, hmf]
  refine ⟨h0, fun {ld s''} hd {a} ha => dlopenWrapper_mem h0 (fun l hl rl hrl => ?_) hd⟩
  have := ha l hl
  unfold rlOf at this
  rw [hrl] at this
  exact this

namespace Demo

/-- Two first calls: thread 0 wraps `__libc_start_main`, thread 1 wraps `foo`. -/
def firstCalls : List InitThread :=
  [.enter [⟨nm "__libc_start_main", 0x50e, 14⟩] (some A), .enter [⟨nm "foo", 0x50a, 10⟩] (some B)]

def firstOps : List Op := [.wrap [⟨nm "__libc_start_main", 0x50e, 14⟩] (some A),
  .wrap [⟨nm "foo", 0x50a, 10⟩] (some B), .dlopen loadPlug]

theorem first_history (strict : Prop) : History proc strict firstOps where
  honest := ⟨by decide +kernel, by
    intro u hu
    simp only [firstOps, List.flatMap_cons, List.flatMap_nil, tableOf, List.append_nil,
      List.cons_append, List.nil_append, List.mem_cons, List.not_mem_nil, or_false] at hu
    rcases hu with rfl | rfl <;> rfl, envOk⟩
  loader := ⟨fun _ => dlopen_def, fun h => (by cases h), loadPlug_ok strict, trivial⟩
  cons := fun _ => cons proc_ok.objs
  filter := by intro _ f hf; simp [firstOps] at hf
  main := fun _ => mainAlone_of ⟨fun h => absurd h (notMain (by decide +kernel)),
    fun h => absurd h (notMain (by decide +kernel)), trivial, trivial⟩
  short := fun _ => by decide

/-- Did the thread succeed? -/
def doneInit : InitThread → Bool
  | .go (.ret .success) => true
  | _ => false

theorem doneInit_eq {t} (h : doneInit t = true) : t = .go (.ret .success) := by
  unfold doneInit at h
  split at h
  · rfl
  · cases h

/-- Thread 0 passes the test of the flag, thread 1 runs to its end, then thread 0 does. -/
def firstSchedule : List Nat := 0 :: (List.replicate 20 1 ++ List.replicate 20 0)

theorem first_lost : (match runInit proc.env firstSchedule firstCalls proc.start with
    | .ok (s, ts) => ts.all doneInit && (match dlopenWrapper proc.env loadPlug s with
      | .ok s' => decide (s'.mem 0x30000018 ≠ 0x50a)
      | .error _ => false)
    | .error _ => false) = true := by
  decide +kernel

end Demo

/-- C95.  It is not true that functions wrapped with success are intercepted in objects loaded later when
the first calls of two threads overlapped: thread 1 wraps `foo` and returns success, thread 0 then creates
the tables a second time, and `foo` is called from the plugin without its wrapper. -/
theorem C95_first_calls_refuted :
    ¬ ∀ (p : Process), p.Ok → ∀ (t1 t2 : List UBinding) (n1 n2 : Option Name) (ld : Load),
      History p True [.wrap t1 n1, .wrap t2 n2, .dlopen ld] → (∀ u ∈ t1 ++ t2, u.name ≠ nm "main") →
      ∀ σ s ts, runInit p.env σ [.enter t1 n1, .enter t2 n2] p.start = .ok (s, ts) →
      (∀ t ∈ ts, t = .go (.ret .success)) → ∀ s', dlopenWrapper p.env ld s = .ok s' →
      ∀ u ∈ t2, ∀ l ∈ ld.libs, ∀ q ∈ rlOf l, q.2 = u.name →
        ∃ fr ∈ clientFrames [.wrap t1 n1, .wrap t2 n2] u.name, s'.mem (l.addr + q.1) = fr.wrapper := by
  intro hall
  have hq := Demo.first_lost
  cases hσ : runInit Demo.proc.env Demo.firstSchedule Demo.firstCalls Demo.proc.start with
  | error e => rw [hσ] at hq; cases hq
  | ok r =>
    obtain ⟨s, ts⟩ := r
    rw [hσ] at hq
    simp only [Bool.and_eq_true, List.all_eq_true] at hq
    obtain ⟨h0, hq⟩ := hq
    cases hd : dlopenWrapper Demo.proc.env Demo.loadPlug s with
    | error e => rw [hd] at hq; cases hq
    | ok s' =>
      rw [hd] at hq
      simp only [decide_eq_true_eq] at hq
      obtain ⟨fr, hfr, hm⟩ := hall Demo.proc Demo.proc_ok _ _ _ _ _ (Demo.first_history True) (by
        intro u hu e
        have : ([⟨nm "__libc_start_main", 0x50e, 14⟩, ⟨nm "foo", 0x50a, 10⟩] : List UBinding).all
          (fun u => !(u.name == nm "main")) = true := by decide +kernel
        have := List.all_eq_true.1 this u hu
        rw [e] at this
        simp at this) _ s ts hσ
        (fun t ht => Demo.doneInit_eq (h0 t ht)) s' hd
        ⟨nm "foo", 0x50a, 10⟩ (by simp) Demo.plug (by simp [Demo.loadPlug]) _ Demo.slot_plug rfl
      have hcl : clientFrames [.wrap [⟨nm "__libc_start_main", 0x50e, 14⟩] (some Demo.A),
          .wrap [⟨nm "foo", 0x50a, 10⟩] (some Demo.B)] (nm "foo") = [⟨Demo.B, 0x50a, 10⟩] := by
        decide +kernel
      rw [hcl, List.mem_singleton] at hfr
      subst hfr
      exact hq hm

/-- The same schedule meets the hypotheses of `C95_forgotten`. -/
example : ∃ s s' ts', runInit Demo.proc.env (0 :: (List.replicate 20 1 ++ [0])) Demo.firstCalls
      Demo.proc.start = .ok (s, [.marked [⟨nm "__libc_start_main", 0x50e, 14⟩] (some Demo.A),
        .go (.ret .success)]) ∧
    (∀ t ∈ [.marked [⟨nm "__libc_start_main", 0x50e, 14⟩] (some Demo.A), .go (.ret .success)],
      NotForInit (nm "foo") s t) ∧
    nm "foo" ∉ [nm "dlopen", nm "dlsym", nm "__libc_start_main", nm "main"] ∧
    runInit Demo.proc.env (0 :: List.replicate 20 0) [.marked [⟨nm "__libc_start_main", 0x50e, 14⟩] (some Demo.A),
        .go (.ret .success)] s = .ok (s', ts') := by
  have h : (match runInit Demo.proc.env (0 :: (List.replicate 20 1 ++ [0])) Demo.firstCalls
      Demo.proc.start with
    | .ok (s, [.marked tbl (some tool), .go (.ret .success)]) =>
      decide (tbl = [⟨nm "__libc_start_main", 0x50e, 14⟩] ∧ tool = Demo.A) &&
      (match runInit Demo.proc.env (0 :: List.replicate 20 0) [.marked tbl (some tool), .go (.ret .success)] s with
        | .ok _ => true
        | .error _ => false)
    | _ => false) = true := by decide +kernel
  split at h
  · rename_i s tbl tool hr
    simp only [Bool.and_eq_true, decide_eq_true_eq] at h
    obtain ⟨⟨rfl, rfl⟩, h⟩ := h
    split at h
    · rename_i r hr2
      refine ⟨s, r.1, r.2, hr, ?_, by decide +kernel, hr2⟩
      intro t ht
      simp only [List.mem_cons, List.not_mem_nil, or_false] at ht
      rcases ht with rfl | rfl
      · show nm "foo" ∉ [nm "__libc_start_main"]
        decide +kernel
      · trivial
    · cases h
  · cases h

/-- A schedule that meets the hypotheses of `C95_crash`. -/
example : ∃ s ts', runInit Demo.proc.env [0, 0] Demo.firstCalls Demo.proc.start = .ok (s, ts') ∧
    (∀ t ∈ ts', Early t) ∧ s.inited = true ∧
    ts'[1]? = some (.enter [⟨nm "foo", 0x50a, 10⟩] (some Demo.B)) := by
  refine ⟨_, [.marked _ _, .enter _ _], rfl, ?_, rfl, rfl⟩
  intro t ht
  simp only [List.mem_cons, List.not_mem_nil, or_false] at ht
  rcases ht with rfl | rfl <;> trivial

end Gotcha
