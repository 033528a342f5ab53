import Verif.Spec.Ctor
import Verif.Proof.Skip
import Verif.Props.Effects
/-
Nested dlopen calls run like the row of their events; loads without a gotcha_wrap before the dlopen
that takes them up run like one dlopen.
-/
namespace Gotcha.Spec

theorem run_step {env : Env} {done : List Op} {op : Op} {s0 s s' : State} {os o}
    (h : run env done s0 = .ok (s, os)) (h1 : stepOp env op s = .ok (s', o)) :
    run env (done ++ [op]) s0 = .ok (s', os ++ [o]) := by
  rw [run_append_model, h]
  simp only [bind, Except.bind, run, h1]

theorem run_split {env : Env} {pre post : List Op} {s0 s s' : State} {os os'}
    (h : run env pre s0 = .ok (s, os)) (h' : run env (pre ++ post) s0 = .ok (s', os')) :
    ∃ os'', run env post s = .ok (s', os'') := by
  rw [run_append_model, h] at h'
  simp only [bind, Except.bind] at h'
  cases hx : run env post s with
  | error e => simp [hx] at h'
  | ok x =>
    simp only [hx, Except.ok.injEq, Prod.mk.injEq] at h'
    exact ⟨x.2, by rw [← h'.1]⟩

/-- In a history the handle of dlopen is good once GOTCHA is in use. -/
theorem orig_dlopen {p : Process} (ok : p.Ok) {strict : Prop} {done post : List Op} {ld : Load}
    (h : History p strict (done ++ .dlopen ld :: post)) {s os}
    (hr : run p.env done p.start = .ok (s, os)) (hi : s.inited = true) :
    ∃ a, s.getWrappee p.env.hDlopen = .ok a := by
  have e : done ++ .dlopen ld :: post = (done ++ [.dlopen ld]) ++ post := by simp
  rw [e] at h
  obtain ⟨s', h1, -⟩ := history_run ok h.prefix
  obtain ⟨s1, os1, o, h2, h3, -⟩ := run_last h1
  rw [hr] at h2
  cases h2
  simp only [stepOp, hi, if_true, dlopenWrapper, bind, Except.bind] at h3
  cases hg : s.getWrappee p.env.hDlopen with
  | error e => simp [hg] at h3
  | ok a => exact ⟨a, rfl⟩

theorem LoaderOk.split {p : Process} {strict : Prop} {op op' : Op} {post post' : List Op}
    (hop : ∀ {seen libs inited}, LoaderOk p strict seen libs inited (op :: post) →
      LoaderOk p strict seen libs inited (op' :: post')) (pre : List Op) :
    ∀ {seen libs inited}, LoaderOk p strict seen libs inited (pre ++ op :: post) →
      LoaderOk p strict seen libs inited (pre ++ op' :: post') := by
  induction pre with
  | nil => intro seen libs inited h; exact hop h
  | cons o pre ih =>
    intro seen libs inited h
    cases o <;> simp only [List.cons_append, LoaderOk] at h ⊢
    · exact ⟨h.1, ih h.2⟩
    · exact ⟨h.1, ih h.2⟩
    · exact ⟨h.1, ih h.2⟩
    · exact ih h
    · exact ⟨h.1, ih h.2⟩
    · exact ⟨h.1, h.2.1, ih h.2.2⟩
    · exact ⟨h.1, ih h.2⟩

/-- A load may be made a dlopen, outside of the strict case. -/
theorem load_to_dlopen {p : Process} {done post : List Op} {ld : Load}
    (h : History p False (done ++ .load ld :: post)) : History p False (done ++ [.dlopen ld]) where
  loader := LoaderOk.split (op := .load ld) (op' := .dlopen ld) (post' := [])
    (fun hh => ⟨hh.1, trivial⟩) done h.loader
  cons := False.elim
  filter := False.elim
  main := False.elim
  short := False.elim
  honest := by
    have e : (done ++ [Op.dlopen ld]).flatMap tableOf = (done ++ [Op.load ld]).flatMap tableOf := by
      simp [tableOf]
    have := (History.prefix (pre := done ++ [.load ld]) (post := post) (by simpa using h)).honest
    exact ⟨by rw [e]; exact this.nodup, by rw [e]; exact this.prog, this.own⟩

mutual
/-- One event with all that happens inside it. -/
theorem stepEv_flat {p : Process} (ok : p.Ok) (e : Ev) : ∀ {done : List Op} {b : Bool} {s s' os os'},
    done.any isApi = b → History p False (done ++ flat b e) →
    run p.env done p.start = .ok (s, os) →
    run p.env (done ++ flat b e) p.start = .ok (s', os') → stepEv p.env e s = .ok s' := by
  cases e with
  | op o =>
    intro done b s s' os os' hb h hr hr'
    rw [flat] at hr'
    obtain ⟨s1, os1, o1, h1, h2, -⟩ := run_last hr'
    rw [hr] at h1
    cases h1
    rw [stepEv, h2]
    rfl
  | dlopen ld ctors =>
    intro done b s s' os os' hb h hr hr'
    rw [flat] at h hr'
    have hs : s.inited = b := by rw [run_inited ok h.prefix.toEvents hr, hb]
    have hr1 : run p.env (done ++ [.load ld]) p.start = .ok (s.load ld, os ++ [.unit]) :=
      run_step hr rfl
    have hb1 : (done ++ [Op.load ld]).any isApi = b := by simp [hb, isApi]
    cases b with
    | false =>
      have hF : (false = true) = False := by simp
      simp only [hF, if_false, List.append_nil] at h hr'
      rw [show done ++ .load ld :: flats false ctors = (done ++ [.load ld]) ++ flats false ctors by
        simp] at h hr'
      rw [stepEv, if_neg (by rw [hs]; simp)]
      exact runEvs_flat ok ctors hb1 h hr1 hr'
    | true =>
      simp only [if_true] at h hr'
      obtain ⟨a, ha⟩ := orig_dlopen ok (post := []) (load_to_dlopen h) hr hs
      rw [show done ++ .load ld :: (flats true ctors ++ [.dlopen nothing]) =
        ((done ++ [.load ld]) ++ flats true ctors) ++ [.dlopen nothing] by simp] at h hr'
      obtain ⟨s2, os2, o2, h2, h3, -⟩ := run_last hr'
      have hc := runEvs_flat ok ctors hb1 h.prefix hr1 h2
      have hi2 : s2.inited = true := by
        rw [run_inited ok h.prefix.toEvents h2, List.any_append, hb1]; rfl
      rw [stepEv, if_pos hs, ha]
      simp only [bind, Except.bind, hc]
      simp only [stepOp, hi2, if_true, dlopenWrapper, bind, Except.bind] at h3
      have e0 : s2.load nothing = s2 := by
        simp [State.load, nothing]
      rw [e0] at h3
      cases hg : s2.getWrappee p.env.hDlopen with
      | error e => simp [hg] at h3
      | ok a =>
        simp only [hg] at h3
        cases hx : s2.afterDlopen p.env with
        | error e => simp [hx] at h3
        | ok s3 =>
          simp only [hx, Except.ok.injEq, Prod.mk.injEq] at h3
          rw [h3.1]

theorem runEvs_flat {p : Process} (ok : p.Ok) (es : List Ev) :
    ∀ {done : List Op} {b : Bool} {s s' os os'},
    done.any isApi = b → History p False (done ++ flats b es) →
    run p.env done p.start = .ok (s, os) →
    run p.env (done ++ flats b es) p.start = .ok (s', os') → runEvs p.env es s = .ok s' := by
  cases es with
  | nil =>
    intro done b s s' os os' hb h hr hr'
    rw [flats, List.append_nil, hr] at hr'
    cases hr'
    rw [runEvs]
  | cons e es =>
    intro done b s s' os os' hb h hr hr'
    rw [flats, ← List.append_assoc] at h hr'
    obtain ⟨s1, os1, h1⟩ := run_prefix _ _ hr'
    have he := stepEv_flat ok e hb h.prefix hr h1
    rw [runEvs, he]
    exact runEvs_flat ok es (by rw [List.any_append, hb]) h h1 hr'
end

/-! ### one dlopen for several loads -/

/-- Two loads in one. -/
def both (a b : Load) : Load :=
  ⟨a.libs ++ b.libs, fun x => (b.mem x).or (a.mem x), fun x => (b.wr x).or (a.wr x)⟩

theorem load_both (s : State) (a b : Load) : (s.load a).load b = s.load (both a b) := by
  simp only [State.load, both, List.append_assoc]
  congr 1
  · funext x; cases b.mem x <;> rfl
  · funext x; cases b.wr x <;> rfl

theorem both_nothing (ld : Load) : both nothing ld = ld := by
  simp [both, nothing]

theorem load_nothing (s : State) : s.load nothing = s := by simp [State.load, nothing]

/-- Every load once GOTCHA is in use is left to the next dlopen. -/
def settle : Bool → Load → List Op → List Op
  | _, _, [] => []
  | true, pd, .load ld :: ops => settle true (both pd ld) ops
  | false, pd, .load ld :: ops => .load ld :: settle false pd ops
  | b, pd, .dlopen ld :: ops => .dlopen (both pd ld) :: settle b nothing ops
  | b, pd, .setFilter f :: ops => .setFilter f :: settle b pd ops
  | b, pd, .unload d :: ops => .unload d :: settle b pd ops
  | _, pd, .wrap t n :: ops => .wrap t n :: settle true pd ops
  | _, pd, .setPriority t v :: ops => .setPriority t v :: settle true pd ops
  | _, pd, .getPriority t :: ops => .getPriority t :: settle true pd ops

/-- The events that are neither loads nor dlopens. -/
def isCore : Op → Bool
  | .load _ => false
  | .dlopen _ => false
  | .wrap _ _ => true
  | .setPriority _ _ => true
  | .getPriority _ => true
  | .setFilter _ => true
  | .unload _ => true

theorem core_settle (ops : List Op) : ∀ b pd, (settle b pd ops).filter isCore = ops.filter isCore := by
  induction ops with
  | nil => intro b pd; cases b <;> rfl
  | cons op ops ih => intro b pd; cases op <;> cases b <;> simp [settle, isCore, List.filter_cons, ih]

theorem core_noticed (ops : List Op) : (ops.map noticed).filter isCore = ops.filter isCore := by
  induction ops with
  | nil => rfl
  | cons op ops ih => cases op <;> simp [noticed, isCore, List.filter_cons, ih]

theorem core_tables (ops : List Op) : (ops.filter isCore).flatMap tableOf = ops.flatMap tableOf := by
  induction ops with
  | nil => rfl
  | cons op ops ih => cases op <;> simp [isCore, List.filter_cons, ih, tableOf]

theorem core_regs (env : Env) (ops : List Op) : ∀ i m,
    regs env i m (ops.filter isCore) = regs env i m ops := by
  induction ops with
  | nil => intro i m; rfl
  | cons op ops ih => intro i m; cases op <;> simp [isCore, List.filter_cons, regs, ih, opRegs, isApi, tableOf]

theorem core_registered (env : Env) (ops : List Op) (f : Name) :
    registered env (ops.filter isCore) f = registered env ops f := by
  unfold registered; rw [core_regs]

theorem core_lastSet (t : Name) (ops : List Op) : lastSet t (ops.filter isCore) = lastSet t ops := by
  induction ops with
  | nil => rfl
  | cons op ops ih => cases op <;> simp [isCore, List.filter_cons, lastSet, ih]

theorem core_names (t : Name) (ops : List Op) :
    (ops.filter isCore).any (names t) = ops.any (names t) := by
  induction ops with
  | nil => rfl
  | cons op ops ih => cases op <;> simp only [isCore, List.filter_cons, if_true, List.any_cons, names, ih,
    Bool.false_or, Bool.false_eq_true, if_false]

theorem core_prio (t : Name) (ops : List Op) : prioOr t (ops.filter isCore) = prioOr t ops := by
  unfold prioOr prioAfter; rw [core_lastSet, core_names]

theorem mainAlone_core (ops : List Op) : MainAlone (ops.filter isCore) ↔ MainAlone ops := by
  constructor
  · intro h pre tbl tool post e hm hpre
    rw [← core_prio _ pre, ← core_prio _ pre]
    refine h (pre.filter isCore) tbl tool (post.filter isCore) (by rw [e]; simp [isCore, List.filter_cons]) hm ?_
    intro o ho
    exact hpre o (List.mem_filter.1 ho).1
  · intro h pre tbl tool post e hm hpre
    obtain ⟨l1, l2, e1, e2, e3⟩ := List.filter_eq_append_iff.1 e
    obtain ⟨l3, l4, e4, e5, e6, e7⟩ := List.filter_eq_cons_iff.1 e3
    have hl3 : ∀ o ∈ l1 ++ l3, ¬ hasMain (tableOf o) := by
      intro o ho
      rcases List.mem_append.1 ho with ho | ho
      · cases hc : isCore o with
        | true => exact hpre o (by rw [← e2]; exact List.mem_filter.2 ⟨ho, hc⟩)
        | false =>
          cases o <;> simp [isCore] at hc <;> (rintro ⟨u, hu, -⟩; cases hu)
      · have := e5 o ho
        cases o <;> simp [isCore] at this <;> (rintro ⟨u, hu, -⟩; cases hu)
    obtain ⟨g1, g2⟩ := h (l1 ++ l3) tbl tool l4 (by rw [e1, e4]; simp) hm hl3
    have e8 : (l1 ++ l3).filter isCore = pre := by
      rw [List.filter_append, e2, List.filter_eq_nil_iff.2 e5, List.append_nil]
    rw [← core_prio _ (l1 ++ l3), ← core_prio _ (l1 ++ l3), e8] at g2
    exact ⟨g1, g2⟩

theorem settle_length (ops : List Op) : ∀ b pd, (settle b pd ops).length ≤ ops.length := by
  induction ops with
  | nil => intro b pd; cases b <;> simp [settle]
  | cons op ops ih =>
    intro b pd
    cases op <;> cases b <;> simp only [settle, List.length_cons] <;>
      first | exact Nat.succ_le_succ (ih _ _) | exact Nat.le_succ_of_le (ih _ _)

/-- Loads left together satisfy what each of them satisfies. -/
theorem loads_both {p : Process} {seen : Lib → Prop} {libs : List Lib} {a b : Load}
    (ha : LoadsOk p True seen libs a) (hb : LoadsOk p True (seenWith seen a.libs) (libs ++ a.libs) b) :
    LoadsOk p True seen libs (both a b) where
  objs := by
    intro l hl
    rcases List.mem_append.1 hl with hl | hl
    · exact ha.objs l hl
    · exact hb.objs l hl
  nd := by have := hb.nd; rwa [List.append_assoc] at this
  again := by
    intro l hl hs
    rcases List.mem_append.1 hl with hl | hl
    · exact absurd trivial (ha.again l hl hs).1
    · exact absurd trivial (hb.again l hl (Or.inl hs)).1
  placed := by have := hb.placed; rwa [List.append_assoc] at this
  old := by
    intro l hl q hq
    have h1 := ha.old l hl q hq
    have h2 := hb.old l (List.mem_append_left _ hl) q hq
    simp only [both]
    cases hx : b.wr (l.addr + q.1) with
    | none => simpa using h1
    | some v => rw [hx] at h2; simpa using h2
  cover := by
    intro l hl q hq
    simp only [both]
    rcases List.mem_append.1 hl with hl | hl
    · rcases ha.cover l hl q hq with h | h
      · have h2 := hb.old l (List.mem_append_right _ hl) q hq
        cases hx : b.wr (l.addr + q.1) with
        | none => left; simpa using h
        | some v =>
          rw [hx] at h2
          cases v with
          | true => left; simp
          | false => exact absurd rfl h2
      · exact Or.inr h
    · rcases hb.cover l hl q hq with h | h
      · left; rw [h]; rfl
      · exact Or.inr h
  cons := by intro h; have := hb.cons h; rwa [List.append_assoc] at this
  keep := by
    intro h l hl q hq
    simp only [both]
    rw [ha.keep h l hl q hq, hb.keep h l (List.mem_append_left _ hl) q hq]
    rfl

theorem seenWith_both (seen : Lib → Prop) (a b : Load) :
    seenWith (seenWith seen a.libs) b.libs = seenWith seen (both a b).libs := by
  funext l
  simp only [seenWith, both, List.mem_append, or_assoc]

theorem seenWith_nothing (seen : Lib → Prop) : seenWith seen nothing.libs = seen := by
  funext l
  simp [seenWith, nothing]

theorem settle_loader {p : Process} (ops : List Op) : ∀ {seen libs b q pd},
    (q = false → pd = nothing) → (q = true → b = true ∧ LoadsOk p True seen libs pd) →
    Calm b q ops →
    LoaderOk p True (seenWith seen pd.libs) (libs ++ pd.libs) b (ops.map noticed) →
    LoaderOk p True seen libs b (settle b pd ops) := by
  induction ops with
  | nil => intro seen libs b q pd _ _ _ _; cases b <;> exact trivial
  | cons op ops ih =>
    intro seen libs b q pd h1 h2 hc h
    have hnil : q = false → LoaderOk p True seen libs b ((op :: ops).map noticed) := by
      intro hq
      have := h
      rw [h1 hq, seenWith_nothing] at this
      simpa [nothing] using this
    cases op with
    | load ld =>
      cases b with
      | true =>
        simp only [List.map_cons, noticed, LoaderOk] at h
        rw [settle]
        rw [Calm] at hc
        refine ih (q := true) (by simp) (fun _ => ⟨rfl, ?_⟩) hc ?_
        · cases q with
          | true => exact loads_both (h2 rfl).2 h.1
          | false =>
            rw [h1 rfl, both_nothing]
            exact (hnil rfl).1
        · rw [← seenWith_both, show libs ++ (both pd ld).libs = libs ++ pd.libs ++ ld.libs by
            simp [both]]
          exact h.2
      | false =>
        have hq : q = false := by
          cases q with
          | false => rfl
          | true => exact absurd (h2 rfl).1 (by simp)
        have hn := hnil hq
        simp only [List.map_cons, noticed, LoaderOk] at hn
        rw [settle, LoaderOk]
        rw [Calm] at hc
        refine ⟨hn.1, by simp, ih (q := false) (fun _ => h1 hq) (by simp) hc ?_⟩
        rw [h1 hq, seenWith_nothing]
        simpa [nothing] using hn.2
    | dlopen ld =>
      rw [Calm] at hc
      have hl : LoadsOk p True seen libs (both pd ld) := by
        cases q with
        | true => exact loads_both (h2 rfl).2 h.1
        | false =>
          rw [h1 rfl, both_nothing]
          exact (hnil rfl).1
      rw [settle.eq_def]
      cases b <;>
      · refine ⟨hl, ih (q := false) (fun _ => rfl) (by simp) hc ?_⟩
        rw [seenWith_nothing, ← seenWith_both,
          show libs ++ (both pd ld).libs ++ nothing.libs = libs ++ pd.libs ++ ld.libs by
            simp [both, nothing]]
        exact h.2
    | setFilter f =>
      rw [Calm] at hc
      cases b <;> exact ih (q := q) h1 h2 hc h
    | unload d =>
      obtain ⟨hq, hc⟩ := hc
      have hn := hnil hq
      have := h1 hq
      subst this
      cases b <;>
      · refine ⟨hn.1, ih (q := false) (fun _ => rfl) (by simp) hc ?_⟩
        rw [seenWith_nothing]
        simpa [nothing] using hn.2
    | wrap t n =>
      obtain ⟨hq, hc⟩ := hc
      have hn := hnil hq
      have := h1 hq
      subst this
      cases b <;>
      · refine ⟨hn.1, ih (q := false) (fun _ => rfl) (by simp) hc ?_⟩
        rw [seenWith_nothing]
        simpa [nothing] using hn.2
    | setPriority t v =>
      rw [Calm] at hc
      cases q with
      | true =>
        obtain ⟨rfl, h2'⟩ := h2 rfl
        exact ⟨fun hx => (by cases hx), ih (q := true) h1 (fun _ => ⟨rfl, h2'⟩) hc h.2⟩
      | false =>
        have hn := hnil rfl
        have := h1 rfl
        subst this
        cases b <;>
        · refine ⟨hn.1, ih (q := false) (fun _ => rfl) (by simp) hc ?_⟩
          rw [seenWith_nothing]
          simpa [nothing] using hn.2
    | getPriority t =>
      rw [Calm] at hc
      cases q with
      | true =>
        obtain ⟨rfl, h2'⟩ := h2 rfl
        exact ⟨fun hx => (by cases hx), ih (q := true) h1 (fun _ => ⟨rfl, h2'⟩) hc h.2⟩
      | false =>
        have hn := hnil rfl
        have := h1 rfl
        subst this
        cases b <;>
        · refine ⟨hn.1, ih (q := false) (fun _ => rfl) (by simp) hc ?_⟩
          rw [seenWith_nothing]
          simpa [nothing] using hn.2

/-- The strict assumptions carry over to the row in which loads are left to dlopens. -/
theorem settle_history {p : Process} {ops : List Op} (h : History p True (ops.map noticed))
    (hc : Calm false false ops) : History p True (settle false nothing ops) where
  loader := by
    refine settle_loader (q := false) ops (fun _ => rfl) (by simp) hc ?_
    rw [seenWith_nothing]
    simpa [nothing] using h.loader
  cons := h.cons
  filter := by
    intro hs f hf
    refine h.filter hs f ?_
    have : Op.setFilter f ∈ (settle false nothing ops).filter isCore :=
      List.mem_filter.2 ⟨hf, rfl⟩
    rw [core_settle, ← core_noticed] at this
    exact (List.mem_filter.1 this).1
  main := by
    intro hs
    rw [← mainAlone_core, core_settle, ← core_noticed, mainAlone_core]
    exact h.main hs
  short := by
    intro hs
    have := h.short hs
    have h2 := settle_length ops false nothing
    rw [List.length_map] at this
    omega
  honest := by
    have e : (settle false nothing ops).flatMap tableOf = (ops.map noticed).flatMap tableOf := by
      rw [← core_tables, core_settle, ← core_noticed, core_tables]
    exact ⟨by rw [e]; exact h.honest.nodup, by rw [e]; exact h.honest.prog, h.honest.own⟩

/-- Without the strict case, a load is as good as a dlopen. -/
theorem noticed_weak {p : Process} {ops : List Op} (h : History p True (ops.map noticed)) :
    History p False ops where
  loader := by
    have : ∀ (ops : List Op) {seen libs b}, LoaderOk p True seen libs b (ops.map noticed) →
        LoaderOk p False seen libs b ops := by
      intro ops
      induction ops with
      | nil => intros; trivial
      | cons op ops ih =>
        intro seen libs b h
        have hld : ∀ {ld}, LoadsOk p True seen libs ld → LoadsOk p False seen libs ld :=
          fun h => ⟨h.objs, h.nd, fun l hl hs => absurd trivial (h.again l hl hs).1, h.placed, h.old,
            h.cover, False.elim, False.elim⟩
        cases op <;> simp only [List.map_cons, noticed, LoaderOk] at h ⊢
        · exact ⟨h.1, ih h.2⟩
        · exact ⟨h.1, ih h.2⟩
        · exact ⟨h.1, ih h.2⟩
        · exact ih h
        · exact ⟨hld h.1, ih h.2⟩
        · exact ⟨hld h.1, fun _ => id, ih h.2⟩
        · exact ⟨h.1, ih h.2⟩
    exact this ops h.loader
  cons := False.elim
  filter := False.elim
  main := False.elim
  short := False.elim
  honest := by
    have e : ops.flatMap tableOf = (ops.map noticed).flatMap tableOf := by
      rw [← core_tables, ← core_noticed, core_tables]
    exact ⟨by rw [e]; exact h.honest.nodup, by rw [e]; exact h.honest.prog, h.honest.own⟩

/-- The two rows of events run alike. -/
theorem settle_run {p : Process} (ok : p.Ok) (ops : List Op) : ∀ {done : List Op} {b q pd s os s' os'},
    done.any isApi = b → (q = false → pd = nothing) → (q = true → b = true) → Calm b q ops →
    History p True (done ++ settle b pd ops) → run p.env done p.start = .ok (s, os) →
    run p.env (done ++ settle b pd ops) p.start = .ok (s', os') →
    (∃ os'', run p.env ops (s.load pd) = .ok (s', os'')) ∧
      (Abs.run p.env ops { (Abs.run p.env done p.abs).1 with
        libs := (Abs.run p.env done p.abs).1.libs ++ pd.libs }).1 =
      (Abs.run p.env (done ++ settle b pd ops) p.abs).1 := by
  induction ops with
  | nil =>
    intro done b q pd s os s' os' hb h1 h2 hc h hr hr'
    rw [Calm] at hc
    have := h1 hc
    subst this
    have e : settle b nothing [] = [] := by cases b <;> rfl
    rw [e, List.append_nil] at hr' ⊢
    rw [hr] at hr'
    cases hr'
    refine ⟨⟨[], by rw [load_nothing]; rfl⟩, ?_⟩
    simp [Abs.run, nothing]
  | cons op ops ih =>
    intro done b q pd s os s' os' hb h1 h2 hc h hr hr'
    have hs : s.inited = b := by rw [run_inited ok h.prefix.toEvents hr, hb]
    have hA : (Abs.run p.env done p.abs).1.inited = b := by
      rw [abs_start, (run_prio p.env p.libs done).2, hb]
    -- an event that comes first in both rows
    have hsame : ∀ {b' q' pd'}, settle b pd (op :: ops) = op :: settle b' pd' ops →
        (done ++ [op]).any isApi = b' → (q' = false → pd' = nothing) → (q' = true → b' = true) →
        Calm b' q' ops →
        (∀ s1 o, stepOp p.env op s = .ok (s1, o) →
          stepOp p.env op (s.load pd) = .ok (s1.load pd', o)) →
        (Abs.step p.env op { (Abs.run p.env done p.abs).1 with
            libs := (Abs.run p.env done p.abs).1.libs ++ pd.libs }).1 =
          { (Abs.run p.env (done ++ [op]) p.abs).1 with
            libs := (Abs.run p.env (done ++ [op]) p.abs).1.libs ++ pd'.libs } →
        (∃ os'', run p.env (op :: ops) (s.load pd) = .ok (s', os'')) ∧
          (Abs.run p.env (op :: ops) { (Abs.run p.env done p.abs).1 with
            libs := (Abs.run p.env done p.abs).1.libs ++ pd.libs }).1 =
          (Abs.run p.env (done ++ settle b pd (op :: ops)) p.abs).1 := by
      intro b' q' pd' e g1 g2 g3 g4 g5 g6
      rw [e, show done ++ op :: settle b' pd' ops = (done ++ [op]) ++ settle b' pd' ops by simp]
        at h hr' ⊢
      obtain ⟨s1, os1, k1⟩ := run_prefix _ _ hr'
      obtain ⟨s0, os0, o, k2, k3, -⟩ := run_last k1
      rw [hr] at k2
      cases k2
      obtain ⟨⟨os2, i1⟩, i2⟩ := ih g1 g2 g3 g4 h k1 hr'
      refine ⟨⟨o :: os2, ?_⟩, ?_⟩
      · simp only [run, g5 _ _ k3, bind, Except.bind, i1]
      · rw [← i2, Abs.run, g6]
    cases op with
    | load ld =>
      rw [Calm] at hc
      cases b with
      | true =>
        rw [settle] at h hr' ⊢
        obtain ⟨⟨os2, i1⟩, i2⟩ := ih (q := true) hb (by simp) (by simp) hc h hr hr'
        refine ⟨⟨.unit :: os2, ?_⟩, ?_⟩
        · simp only [run, stepOp, bind, Except.bind, load_both, i1]
        · rw [← i2]
          simp only [Abs.run, Abs.step, both, List.append_assoc]
      | false =>
        have hq : q = false := by
          cases q with
          | false => rfl
          | true => exact absurd (h2 rfl) (by simp)
        have := h1 hq
        subst this
        refine hsame (b' := false) (q' := false) (pd' := nothing) rfl (by simp [hb, isApi])
          (fun _ => rfl) (by simp) hc ?_ ?_
        · intro s1 o k; rw [load_nothing, load_nothing]; exact k
        · rw [run_append]; simp [Abs.run, Abs.step, nothing]
    | dlopen ld =>
      rw [Calm] at hc
      have e : settle b pd (.dlopen ld :: ops) = .dlopen (both pd ld) :: settle b nothing ops := by
        cases b <;> rfl
      rw [e, show done ++ .dlopen (both pd ld) :: settle b nothing ops =
        (done ++ [.dlopen (both pd ld)]) ++ settle b nothing ops by simp] at h hr' ⊢
      obtain ⟨s1, os1, k1⟩ := run_prefix _ _ hr'
      obtain ⟨s0, os0, o, k2, k3, -⟩ := run_last k1
      rw [hr] at k2
      cases k2
      obtain ⟨⟨os2, i1⟩, i2⟩ := ih (q := false) (b := b) (by simp [hb, isApi]) (fun _ => rfl) (by simp)
        hc h k1 hr'
      refine ⟨⟨o :: os2, ?_⟩, ?_⟩
      · rw [load_nothing] at i1
        have : stepOp p.env (.dlopen ld) (s.load pd) = .ok (s1, o) := by
          rw [← k3]
          simp only [stepOp, dlopenWrapper, load_both]
          rfl
        simp only [run, this, bind, Except.bind, i1]
      · rw [← i2]
        have e3 : (Abs.step p.env (.dlopen ld) { (Abs.run p.env done p.abs).1 with
              libs := (Abs.run p.env done p.abs).1.libs ++ pd.libs }).1 =
            { (Abs.run p.env (done ++ [.dlopen (both pd ld)]) p.abs).1 with
              libs := (Abs.run p.env (done ++ [.dlopen (both pd ld)]) p.abs).1.libs ++
                nothing.libs } := by
          rw [run_snoc]
          simp only [Abs.step, hA]
          cases b <;> simp [both, nothing, Abs.dlopen, Abs.resolve, hA]
        rw [← e3]
        rfl
    | setFilter f =>
      rw [Calm] at hc
      refine hsame (b' := b) (q' := q) (pd' := pd) (by cases b <;> rfl) (by simp [hb, isApi]) h1 h2 hc
        ?_ ?_
      · intro s1 o k
        cases k
        rfl
      · rw [run_append]; simp [Abs.run, Abs.step]
    | unload d =>
      obtain ⟨hq, hc⟩ := hc
      have := h1 hq
      subst this
      refine hsame (b' := b) (q' := false) (pd' := nothing) (by cases b <;> rfl)
        (by simp [hb, isApi]) (fun _ => rfl) (by simp) hc ?_ ?_
      · intro s1 o k; rw [load_nothing, load_nothing]; exact k
      · rw [run_append]; simp [Abs.run, Abs.step, nothing]
    | wrap t n =>
      obtain ⟨hq, hc⟩ := hc
      have := h1 hq
      subst this
      refine hsame (b' := true) (q' := false) (pd' := nothing) (by cases b <;> rfl)
        (by simp [isApi]) (fun _ => rfl) (by simp) hc ?_ ?_
      · intro s1 o k; rw [load_nothing, load_nothing]; exact k
      · rw [run_append]; simp [Abs.run, Abs.step, nothing]
    | setPriority t v =>
      rw [Calm] at hc
      refine hsame (b' := true) (q' := q) (pd' := pd) (by cases b <;> rfl) (by simp [isApi]) h1
        (fun _ => rfl) hc ?_ ?_
      · intro s1 o k
        cases q with
        | false => rw [h1 rfl, load_nothing, load_nothing]; exact k
        | true =>
          have hb' := h2 rfl
          have hi : s.inited = true := by rw [hs, hb']
          have hi' : (s.load pd).inited = true := hi
          simp only [stepOp, gotchaSetPriority, gotchaInit, hi, hi', if_true, bind, Except.bind] at k ⊢
          rw [show (s.load pd).tools = s.tools from rfl]
          cases hx : s.tools.setPriority t v with
          | error e => simp [hx] at k
          | ok ts =>
            simp only [hx, Except.ok.injEq, Prod.mk.injEq] at k ⊢
            rw [← k.1]
            exact ⟨rfl, k.2⟩
      · rw [run_append]
        cases q with
        | false => rw [h1 rfl]; simp [Abs.run, Abs.step, nothing]
        | true =>
          have hb' := h2 rfl
          rw [hb'] at hA
          simp [Abs.run, Abs.step, Abs.init, hA]
    | getPriority t =>
      rw [Calm] at hc
      refine hsame (b' := true) (q' := q) (pd' := pd) (by cases b <;> rfl) (by simp [isApi]) h1
        (fun _ => rfl) hc ?_ ?_
      · intro s1 o k
        cases q with
        | false => rw [h1 rfl, load_nothing, load_nothing]; exact k
        | true =>
          have hb' := h2 rfl
          have hi : s.inited = true := by rw [hs, hb']
          have hi' : (s.load pd).inited = true := hi
          simp only [stepOp, gotchaGetPriority, gotchaInit, hi, hi', if_true, bind, Except.bind] at k ⊢
          rw [show (s.load pd).tools = s.tools from rfl]
          cases hx : s.tools.getPriority t with
          | error e => simp [hx] at k
          | ok ts =>
            simp only [hx, Except.ok.injEq, Prod.mk.injEq] at k ⊢
            rw [← k.1]
            exact ⟨rfl, k.2⟩
      · rw [run_append]
        cases q with
        | false => rw [h1 rfl]; simp [Abs.run, Abs.step, nothing]
        | true =>
          have hb' := h2 rfl
          rw [hb'] at hA
          simp [Abs.run, Abs.step, Abs.init, hA]

end Gotcha.Spec
