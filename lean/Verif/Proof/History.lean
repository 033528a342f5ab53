import Verif.Proof.AbsFacts
/-
From the assumptions of Spec/History to whole runs.
-/
namespace Gotcha.Spec
open Gotcha

/-- Start of a process, in the specification. -/
abbrev Process.abs (p : Process) : Abs := Abs.start p.libs

/-- Dlopen is resolved as soon as GOTCHA is in use. -/
structure DlRes (A : Abs) : Prop where
  before : A.inited = false → ∀ f, A.stack f = []
  after : A.inited = true → A.stack (nm "dlopen") ≠ [] ∧ A.real (nm "dlopen") ≠ none

theorem init_dlres (env : Env) {A : Abs} (h : DlRes A)
    (hd : A.inited = false → firstDef (env.vdsoOf A.libs) A.libs (nm "dlopen") ≠ none) :
    DlRes (A.init env) := by
  refine ⟨fun hc => ?_, fun _ => ?_⟩
  · rw [init_inited] at hc; cases hc
  · by_cases hi : A.inited = true
    · have : A.init env = A := by simp [Abs.init, hi]
      rw [this]; exact h.after hi
    · simp only [Bool.not_eq_true] at hi
      obtain ⟨r, hr⟩ := Option.ne_none_iff_exists'.1 (hd hi)
      have hs := h.before hi (nm "dlopen")
      unfold Abs.init Abs.wrap dlTable
      simp only [hi, Bool.false_eq_true, if_false, Abs.pushAll]
      rw [if_neg (show nm "dlopen" ≠ nm "main" by decide +kernel),
        if_neg (show nm "dlsym" ≠ nm "main" by decide +kernel)]
      generalize hA1 : Abs.touch _ _ = A1
      have h1 : A1.stack (nm "dlopen") = [] := by rw [← hA1]; exact hs
      have h2 : A1.resolve (nm "dlopen") = some r := by rw [← hA1]; exact hr
      have h3 : ∀ t p u, u.name = nm "dlopen" →
          (A1.push t p u).1.stack (nm "dlopen") ≠ [] ∧
          (A1.push t p u).1.real (nm "dlopen") = some r := by
        intro t p u hu
        unfold Abs.push
        rw [hu, h1]
        simp [h2]
      have h4 := h3 (Option.getD (some (nm "gotcha")) (nm "[UNSPECIFIED]"))
        (A1.prioOf ((some (nm "gotcha")).getD (nm "[UNSPECIFIED]")))
        ⟨nm "dlopen", env.dlopenW, env.hDlopen⟩ rfl
      refine ⟨(push_grow _ _ _ _).ne h4.1, ?_⟩
      rw [(push_grow _ _ _ _).real _ _ h4.1 h4.2]
      simp

theorem DlRes.grow {A A' : Abs} (h : DlRes A) (hg : Grow A A') (hi : A'.inited = A.inited)
    (hb : A.inited = false → A'.stack = A.stack) : DlRes A' := by
  refine ⟨fun hf f => ?_, fun ht => ?_⟩
  · rw [hi] at hf; rw [hb hf]; exact h.before hf f
  · rw [hi] at ht
    obtain ⟨h1, h2⟩ := h.after ht
    obtain ⟨r, hr⟩ := Option.ne_none_iff_exists'.1 h2
    refine ⟨hg.ne h1, ?_⟩
    rw [hg.real _ _ h1 hr]; simp

theorem prio_init_run (env : Env) (libs : List Lib) (ops : List Op) (t : Name) :
    ((Abs.run env ops (Abs.start libs)).1.init env).prioOf t = prioOr t ops := by
  unfold prioOr Abs.prioOf
  rw [init_prio]
  split
  · rw [(run_prio env libs ops).1]
  · show (upd _ _ _ t : Option Int).getD (-1) = _
    by_cases e : t = nm "gotcha"
    · subst e
      rw [upd_self]
      unfold Abs.prioOf
      rw [(run_prio env libs ops).1]
      rfl
    · rw [upd_ne _ _ e, (run_prio env libs ops).1]

theorem own_handle {env : Env} {f fr} (h : FromOwn env f fr) :
    fr.handle ∈ [env.hDlopen, env.hDlsym, env.hLibcMain, env.hMain] := by
  obtain ⟨u, hu, -, rfl⟩ := h
  simp only [ownTable, dlTable, libcMainTable, mainTable, List.mem_append, List.mem_cons,
    List.not_mem_nil, or_false] at hu
  rcases hu with ((rfl | rfl) | rfl) | rfl <;> simp [frame]

/-- The context of a process. -/
def Process.ctx (p : Process) (hon strict : Prop) (good : Lib → Prop := fun _ => True) : Ctx :=
  ⟨p.env, p.U, p.P, hon, strict, good, none⟩

theorem honA_of {p : Process} {pre post tbl tool}
    (h : Honest p.env p.P (pre ++ .wrap tbl tool :: post)) :
    HonA p.env p.P ((Abs.run p.env pre p.abs).1.init p.env) tbl := by
  have hn := h.nodup
  rw [List.nodup_append] at hn
  obtain ⟨h1, h2, h3⟩ := hn
  simp only [List.flatMap_append, List.flatMap_cons, List.map_append] at h1 h3
  rw [List.nodup_append] at h1
  obtain ⟨h11, h12, h13⟩ := h1
  rw [List.nodup_append] at h12
  have hu : ∀ u ∈ tbl, u.handle ∈ List.map UBinding.handle (tableOf (Op.wrap tbl tool)) ++
      List.map UBinding.handle (List.flatMap tableOf post) := by
    intro u hu
    exact List.mem_append_left _ (List.mem_map_of_mem hu)
  refine ⟨h12.1, ?_, ?_, ?_⟩
  · intro u hu
    refine h.prog u ?_
    simp [tableOf, hu]
  · intro u hut f fr hfr
    rcases init_mem _ _ _ _ hfr with hfr | hfr
    · rcases run_mem _ _ _ _ _ hfr with hfr | ⟨op, hop, tb, tl, v, rfl, hv, -, rfl⟩
      · intro e
        exact h3 u.handle (by rw [List.mem_append]; exact Or.inr (hu u hut)) fr.handle
          (own_handle hfr) e.symm
      · refine h13 v.handle ?_ u.handle (hu u hut)
        exact List.mem_map_of_mem (List.mem_flatMap.2 ⟨_, hop, hv⟩)
    · intro e
      exact h3 u.handle (by rw [List.mem_append]; exact Or.inr (hu u hut)) fr.handle
        (own_handle hfr) e.symm
  · intro u hut
    have := h3 u.handle (by rw [List.mem_append]; exact Or.inr (hu u hut))
    exact ⟨this _ (by simp), this _ (by simp)⟩

theorem mainOk_of {p : Process} {pre post tbl tool}
    (h : MainAlone (pre ++ .wrap tbl tool :: post)) :
    MainOk ((Abs.run p.env pre p.abs).1.init p.env) tbl tool := by
  by_cases hm : hasMain tbl
  · by_cases hp : ∃ o ∈ pre, hasMain (tableOf o)
    · right; left
      rw [init_mainW, run_mainW]; exact hp
    · right; right
      obtain ⟨⟨u, hu⟩, hpr⟩ := h pre tbl tool post rfl hm (fun o ho hc => hp ⟨o, ho, hc⟩)
      refine ⟨u, hu, ?_, ?_⟩
      · obtain ⟨v, hv, e⟩ := hm
        rw [hu] at hv
        rw [List.mem_singleton] at hv
        rw [← hv]; exact e
      · rw [prio_init_run, prio_init_run]; exact hpr
  · left
    intro u hu hc
    exact hm ⟨u, hu, hc⟩

theorem LoadsFor.ok {p : Process} {hon strict good seen libs ld}
    (h : LoadsFor p strict good seen libs ld) : LoadOk (p.ctx hon strict good) seen libs ld :=
  ⟨h.objs, h.nd, h.again, h.placed, h.old, h.cover, h.cons, h.keep⟩

theorem LoadsOk.for {p : Process} {strict seen libs ld} (h : LoadsOk p strict seen libs ld) :
    LoadsFor p strict (fun _ => True) seen libs ld :=
  ⟨h.objs, h.nd, fun l hl hs => ⟨fun hx => absurd hx (h.again l hl hs).1, (h.again l hl hs).2⟩,
    h.placed, h.old, h.cover, h.cons, fun hs l hl _ => h.keep hs l hl⟩

theorem LoadsOk.ok {p : Process} {hon strict seen libs ld} (h : LoadsOk p strict seen libs ld) :
    LoadOk (p.ctx hon strict) seen libs ld :=
  h.for.ok

theorem LoaderOk.for {p : Process} {strict : Prop} (ops : List Op) : ∀ {seen libs inited},
    LoaderOk p strict seen libs inited ops →
    LoaderFor p strict (fun _ => True) seen libs inited ops := by
  induction ops with
  | nil => intros; trivial
  | cons op ops ih =>
    intro seen libs inited h
    cases op <;> simp only [LoaderOk, LoaderFor] at h ⊢
    · exact ⟨h.1, ih h.2⟩
    · exact ⟨h.1, ih h.2⟩
    · exact ⟨h.1, ih h.2⟩
    · exact ih h
    · exact ⟨h.1.for, ih h.2⟩
    · exact ⟨h.1.for, fun hi hs => absurd hs (h.2.1 hi), ih h.2.2⟩
    · exact ⟨h.1, ih h.2⟩

theorem occursIn_iff (f n : Name) : occursIn f n = true ↔ f <:+: n := by
  induction n with
  | nil => simp [occursIn]
  | cons c n ih =>
    simp only [occursIn, Bool.or_eq_true, ih, List.isPrefixOf_iff_prefix, List.infix_cons_iff]

theorem passes_admits {good : Lib → Prop} {f : Filter} (h : ∀ l, good l → Passes f l) :
    Admits f good := by
  intro l hl b
  have := h l hl
  cases f with
  | all => rfl
  | byName o =>
    cases o with
    | none => exact this.elim
    | some t =>
      obtain ⟨n, h1, h2⟩ := this
      simp only [Filter.accepts, h1]
      congr 1
      exact (occursIn_iff _ _).2 h2
  | last => exact this.elim
  | custom g => exact congrArg Except.ok (this b)

theorem Events.for {p : Process} {strict : Prop} {ops : List Op} (h : Events p strict ops) :
    EventsFor p strict (fun _ => True) ops :=
  ⟨h.loader.for, h.cons, fun hs f hf l _ => by rw [h.filter hs f hf]; trivial, h.main, h.short⟩

theorem History.for {p : Process} {strict : Prop} {ops : List Op} (h : History p strict ops) :
    HistoryFor p strict (fun _ => True) ops :=
  ⟨h.toEvents.for, h.honest⟩

/-- The assumptions of Spec/History are those needed along the run. -/
theorem valid_of {p : Process} {hon strict : Prop} {good : Lib → Prop} (ops : List Op) :
    ∀ {pre libs inited seen}, (hon → Honest p.env p.P (pre ++ ops)) →
    (strict → MainAlone (pre ++ ops)) →
    (strict → ∀ f, Op.setFilter f ∈ ops → ∀ l, good l → Passes f l) →
    LoaderFor p strict good seen libs inited ops →
    (Abs.run p.env pre p.abs).1.libs = libs → (Abs.run p.env pre p.abs).1.inited = inited →
    DlRes (Abs.run p.env pre p.abs).1 →
    Valid (p.ctx hon strict good) seen (Abs.run p.env pre p.abs).1 ops := by
  induction ops with
  | nil => intros; trivial
  | cons op ops ih =>
    intro pre libs inited seen hh hm hf hl h1 h2 hd
    have key : ∀ {libs' inited'} {seen'},
        LoaderFor p strict good seen' libs' inited' ops →
        ((Abs.run p.env pre p.abs).1.step p.env op).1.libs = libs' →
        ((Abs.run p.env pre p.abs).1.step p.env op).1.inited = inited' →
        DlRes ((Abs.run p.env pre p.abs).1.step p.env op).1 →
        Valid (p.ctx hon strict good) seen' ((Abs.run p.env pre p.abs).1.step p.env op).1 ops := by
      intro libs' inited' seen' hl e1 e2 e3
      rw [← run_snoc] at e1 e2 e3 ⊢
      refine ih ?_ ?_ (fun hs f hf' => hf hs f (List.mem_cons_of_mem _ hf')) hl e1 e2 e3
      · intro h; have := hh h; rwa [List.append_cons] at this
      · intro h; have := hm h; rwa [List.append_cons] at this
    have hini : (inited = false → firstDef (p.env.vdsoOf libs) libs (nm "dlopen") ≠ none) →
        DlRes ((Abs.run p.env pre p.abs).1.init p.env) := by
      intro hx
      refine init_dlres p.env hd ?_
      rw [h1, h2]; exact hx
    cases op with
    | wrap tbl tool =>
      have hd' := hini hl.1
      refine ⟨⟨fun h => honA_of (hh h), fun h => mainOk_of (hm h)⟩, key hl.2 ?_ ?_ ?_⟩
      · show (Abs.wrap _ _ _ _).1.libs = _
        rw [(wrap_same (onMain_same p.env) _ _ _).libs, init_libs, h1]
      · show (Abs.wrap _ _ _ _).1.inited = _
        rw [(wrap_same (onMain_same p.env) _ _ _).inited, init_inited]
      · refine hd'.grow (wrap_grow (onMain_grow p.env) _ _ _)
          (wrap_same (onMain_same p.env) _ _ _).inited ?_
        intro hc; rw [init_inited] at hc; cases hc
    | setPriority t v =>
      have hd' := hini hl.1
      refine ⟨trivial, key hl.2 ?_ ?_ ?_⟩
      · show (Abs.init _ _).libs = _
        rw [init_libs, h1]
      · show (Abs.init _ _).inited = _
        rw [init_inited]
      · exact ⟨hd'.before, hd'.after⟩
    | getPriority t =>
      have hd' := hini hl.1
      refine ⟨trivial, key hl.2 ?_ ?_ hd'⟩
      · show (Abs.init _ _).libs = _
        rw [init_libs, h1]
      · show (Abs.init _ _).inited = _
        rw [init_inited]
    | setFilter f =>
      exact ⟨fun h => passes_admits (hf h f (by simp)), key hl h1 h2 hd⟩
    | dlopen ld =>
      refine ⟨⟨?_, fun _ hi => (hd.after hi).2⟩, key hl.2 ?_ ?_ ?_⟩
      · rw [h1]; exact hl.1.ok
      · rw [step_dlopen]; split <;> simp [Abs.dlopen, h1]
      · rw [step_dlopen]; split <;> simp [Abs.dlopen, h2]
      · refine hd.grow (step_grow _ _ _) ?_ ?_
        · rw [step_dlopen]; split <;> simp [Abs.dlopen]
        · intro _; rw [step_dlopen]; split <;> simp [Abs.dlopen]
    | load ld =>
      refine ⟨⟨?_, ?_⟩, key hl.2.2 ?_ h2 (hd.grow (step_grow _ _ _) rfl (fun _ => rfl))⟩
      · rw [h1]; exact hl.1.ok
      · rw [h2]; exact hl.2.1
      · show Abs.libs _ ++ _ = _
        rw [h1]
    | unload dead =>
      refine ⟨?_, key hl.2 ?_ h2 (hd.grow (step_grow _ _ _) rfl (fun _ => rfl))⟩
      · show _ ∨ _
        rw [h1, h2]; exact hl.1
      · show List.filter _ (Abs.libs _) = _
        rw [h1]

theorem start_topFor {p : Process} (ok : p.Ok) {hon strict : Prop} {good : Lib → Prop}
    (hc : strict → SlotCons p.libs) : Top (p.ctx hon strict good) p.seen 3 p.start p.abs :=
  Or.inl ⟨rfl, rfl, fun l hl => ⟨ok.objs l hl, hl⟩, ok.nd, ok.placed, ok.cover, ok.ne,
    fun hs => ⟨fun _ _ _ => rfl, hc hs⟩⟩

theorem start_top {p : Process} (ok : p.Ok) {hon strict : Prop}
    (hc : strict → SlotCons p.libs) : Top (p.ctx hon strict) p.seen 3 p.start p.abs :=
  start_topFor ok hc

theorem start_validFor {p : Process} {hon strict : Prop} {good : Lib → Prop} {ops : List Op}
    (h : EventsFor p strict good ops) (hh : hon → Honest p.env p.P ops) :
    Valid (p.ctx hon strict good) p.seen p.abs ops :=
  valid_of (pre := []) ops hh h.main h.filter h.loader rfl rfl
    ⟨fun _ _ => rfl, fun hc => by cases hc⟩

theorem start_valid {p : Process} {hon strict : Prop} {ops : List Op} (h : Events p strict ops)
    (hh : hon → Honest p.env p.P ops) : Valid (p.ctx hon strict) p.seen p.abs ops :=
  start_validFor h.for hh

/-- Whole histories of well-behaved clients, with a claim about the objects in `good` only. -/
theorem historyFor_run {p : Process} (ok : p.Ok) {strict : Prop} {good : Lib → Prop} {ops : List Op}
    (h : HistoryFor p strict good ops) :
    ∃ s, run p.env ops p.start = .ok (s, (Abs.run p.env ops p.abs).2) ∧
      Top (p.ctx True strict good) (seenRun p.seen ops) (3 + ops.length) s
        (Abs.run p.env ops p.abs).1 :=
  run_spec (C := p.ctx True strict good) ok.world h.honest.own trivial ops (Nat.le_refl 3)
    (start_topFor ok h.cons) (start_validFor h.toEventsFor fun _ => h.honest)
    (fun hs => by have := h.short hs; omega)

/-- Whole histories of well-behaved clients. -/
theorem history_run {p : Process} (ok : p.Ok) {strict : Prop} {ops : List Op}
    (h : History p strict ops) :
    ∃ s, run p.env ops p.start = .ok (s, (Abs.run p.env ops p.abs).2) ∧
      Top (p.ctx True strict) (seenRun p.seen ops) (3 + ops.length) s
        (Abs.run p.env ops p.abs).1 :=
  run_spec (C := p.ctx True strict) ok.world h.honest.own trivial ops (Nat.le_refl 3)
    (start_top ok h.cons) (start_valid h.toEvents fun _ => h.honest)
    (fun hs => by have := h.short hs; omega)

/-- Whole histories of arbitrary clients. -/
theorem events_run {p : Process} (ok : p.Ok) {strict : Prop} {ops : List Op}
    (h : Events p strict ops) {s os} (hr : run p.env ops p.start = .ok (s, os)) :
    Top (p.ctx False strict) (seenRun p.seen ops) (3 + ops.length) s
        (Abs.run p.env ops p.abs).1 :=
  run_inv (C := p.ctx False strict) ok.world id ops (Nat.le_refl 3)
    (start_top ok h.cons) (start_valid h fun hc => absurd hc id)
    (fun hs => by have := h.short hs; omega) hr

end Gotcha.Spec
