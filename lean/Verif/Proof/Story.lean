import Verif.Spec.Story
import Verif.Proof.Calls
/-
The stack of a function follows its story.
-/
namespace Gotcha.Spec

/-- One binding. -/
theorem push_stack (A : Abs) (tool : Name) (u : UBinding) (f : Name) :
    (A.push tool (A.prioOf tool) u).1.stack f =
      if u.name = f then insertBefore (fun g => A.prioOf g.tool < A.prioOf tool) (frame tool u) (A.stack f)
      else A.stack f := by
  unfold Abs.push
  by_cases e : u.name = f
  · subst e
    rw [if_pos rfl]
    cases h : A.stack u.name with
    | nil => simp [upd, insertBefore, frame]
    | cons x st => simp [upd, frame]
  · rw [if_neg e]
    cases h : A.stack u.name with
    | nil => simp [upd, Ne.symm e]
    | cons x st => simp [upd, Ne.symm e]

/-- A table: the bindings of `f` in it are put on the stack one after the other. -/
theorem pushAll_stack {om : Abs → Abs} (hp : ∀ A n, (om A).prioOf n = A.prioOf n) {f : Name}
    (hs : ∀ A, (om A).stack f = A.stack f) (tool : Name) (pr : Name → Int) :
    ∀ (tbl : List UBinding) (A : Abs), A.prioOf tool = pr tool →
      (∀ g ∈ A.stack f, A.prioOf g.tool = pr g.tool) →
      (Abs.pushAll om tool tbl A).1.stack f =
        (((tbl.filter (fun u => u.name = f)).map (fun u => Ev.reg (frame tool u))).foldl evStep
          (pr, A.stack f)).2 ∧
      ((Abs.pushAll om tool tbl A).1.stack f).Perm
        (A.stack f ++ (tbl.filter (fun u => u.name = f)).map (frame tool)) := by
  intro tbl
  induction tbl with
  | nil => intro A _ _; simp [Abs.pushAll]
  | cons u us ih =>
    intro A h1 h2
    simp only [Abs.pushAll]
    set A1 := if u.name = nm "main" then om A else A with hA1
    have p1 : ∀ n, A1.prioOf n = A.prioOf n := by intro n; rw [hA1]; split <;> simp [hp]
    have s1 : A1.stack f = A.stack f := by rw [hA1]; split <;> simp [hs]
    have hst := push_stack A1 tool u f
    rw [p1 tool] at hst
    set A2 := (A1.push tool (A.prioOf tool) u).1 with hA2
    have p2 : ∀ n, A2.prioOf n = A.prioOf n := by
      intro n
      show A2.prioOf n = _
      rw [hA2, push_prioOf, p1]
    have hins : insertBefore (fun g => A1.prioOf g.tool < A.prioOf tool) (frame tool u) (A1.stack f) =
        insertBefore (fun g => pr g.tool < pr tool) (frame tool u) (A.stack f) := by
      rw [s1]
      have : ∀ (L : List Frame), (∀ g ∈ L, A.prioOf g.tool = pr g.tool) →
          insertBefore (fun g => A1.prioOf g.tool < A.prioOf tool) (frame tool u) L =
          insertBefore (fun g => pr g.tool < pr tool) (frame tool u) L := by
        intro L
        induction L with
        | nil => intro _; rfl
        | cons g L ihL =>
          intro h
          simp only [insertBefore, p1, h g (by simp), h1, decide_eq_true_eq]
          have := ihL (fun x hx => h x (by simp [hx]))
          simp only [p1, h1] at this
          rw [this]
      exact this _ h2
    by_cases e : u.name = f
    · rw [if_pos e, hins] at hst
      have hperm := insertBefore_perm (fun g : Frame => decide (pr g.tool < pr tool)) (frame tool u) (A.stack f)
      obtain ⟨i1, i2⟩ := ih A2 (by rw [p2]; exact h1) (by
        intro g hg
        rw [p2]
        rw [hst] at hg
        rcases List.mem_cons.1 (hperm.subset hg) with rfl | hg
        · exact h1
        · exact h2 g hg)
      rw [hst] at i1 i2
      refine ⟨?_, ?_⟩
      · rw [i1]
        simp only [List.filter_cons, e, decide_true, if_true, List.map_cons, List.foldl_cons]
        rfl
      · simp only [List.filter_cons, e, decide_true, if_true, List.map_cons]
        refine i2.trans ?_
        refine (hperm.append_right _).trans ?_
        simp only [List.cons_append]
        exact List.perm_middle.symm
    · rw [if_neg e, s1] at hst
      obtain ⟨i1, i2⟩ := ih A2 (by rw [p2]; exact h1) (by rw [hst]; intro g hg; rw [p2]; exact h2 g hg)
      rw [hst] at i1 i2
      refine ⟨?_, ?_⟩
      · rw [i1]; simp [List.filter_cons, e]
      · simpa [List.filter_cons, e] using i2

/-- A table without `f` leaves its stack alone. -/
theorem wrap_stack_other {om : Abs → Abs} (hp : ∀ A n, (om A).prioOf n = A.prioOf n) {f : Name}
    (hs : ∀ A, (om A).stack f = A.stack f) {tbl : List UBinding} (h : ∀ u ∈ tbl, u.name ≠ f)
    (tool : Option Name) (A : Abs) : (Abs.wrap om tbl tool A).1.stack f = A.stack f := by
  have e : tbl.filter (fun u => u.name = f) = [] := by
    rw [List.filter_eq_nil_iff]; intro u hu; simpa using h u hu
  have := (pushAll_stack hp hs (toolName tool) (A.touch (toolName tool)).prioOf tbl
    (A.touch (toolName tool)) rfl (fun _ _ => rfl)).1
  rw [e] at this
  exact this

theorem own_ne {env : Env} {f : Name} (hf : f ∉ ownNames) : ∀ u ∈ ownTable env, u.name ≠ f := by
  intro v hv hc
  simp only [ownTable, dlTable, libcMainTable, mainTable, List.mem_append, List.mem_singleton,
    List.mem_cons, List.not_mem_nil, or_false] at hv
  apply hf
  rcases hv with ((rfl | rfl) | rfl) | rfl <;> simp [ownNames, ← hc]

theorem onMain_stack_other (env : Env) {f : Name} (hf : f ∉ ownNames) (A : Abs) :
    (A.onMain env).stack f = A.stack f := by
  unfold Abs.onMain
  split
  · rfl
  · dsimp only
    rw [wrap_stack_other (om := id) (fun _ _ => rfl) (fun _ => rfl)
        (fun u hu => own_ne (env := env) hf u (by simp [ownTable, hu])),
      wrap_stack_other (om := id) (fun _ _ => rfl) (fun _ => rfl)
        (fun u hu => own_ne (env := env) hf u (by simp [ownTable, hu]))]

theorem init_stack_other (env : Env) {f : Name} (hf : f ∉ ownNames) (A : Abs) :
    (A.init env).stack f = A.stack f := by
  unfold Abs.init
  split
  · rfl
  · rw [wrap_stack_other (onMain_prioOf env) (onMain_stack_other env hf)
      (fun u hu => own_ne (env := env) hf u (by simp [ownTable, hu]))]

theorem init_prioOf' (env : Env) (A : Abs) (n : Name) : (A.init env).prioOf n = A.prioOf n := by
  unfold Abs.init
  split
  · rfl
  · rw [wrap_prioOf (onMain_prioOf env)]; rfl

theorem regs_fst (evs : List Frame) : ∀ s, ((evs.map Ev.reg).foldl evStep s).1 = s.1 := by
  induction evs with
  | nil => intro s; rfl
  | cons e evs ih => intro s; rw [List.map_cons, List.foldl_cons, ih]; rfl

/-- The abstract state follows the story of `f`. -/
theorem run_story (env : Env) (libs : List Lib) {T : List Name} {f : Name} (hf : f ∉ ownNames)
    (ops : List Op) (hT : Told T f ops) :
    (Abs.run env ops (Abs.start libs)).1.stack f = (endOf (story T f ops)).2 ∧
    (∀ t ∈ T, (Abs.run env ops (Abs.start libs)).1.prioOf t = (endOf (story T f ops)).1 t) ∧
    (∀ g ∈ (Abs.run env ops (Abs.start libs)).1.stack f, g.tool ∈ T) := by
  induction ops using List.reverseRecOn with
  | nil => exact ⟨rfl, fun _ _ => rfl, fun g hg => by cases hg⟩
  | append_singleton ops op ih =>
    obtain ⟨i1, i2, i3⟩ := ih (fun fr hfr => hT fr (by
      unfold clientFrames at *; rw [List.flatMap_append]; exact List.mem_append_left _ hfr))
    rw [run_snoc]
    have hst : endOf (story T f (ops ++ [op])) = (tell T f op).foldl evStep (endOf (story T f ops)) := by
      simp [endOf, story, List.flatMap_append, List.foldl_append]
    rw [hst]
    generalize (Abs.run env ops (Abs.start libs)).1 = A at *
    generalize endOf (story T f ops) = e at *
    cases op with
    | wrap tbl tool =>
      have hTt : ∀ u ∈ tbl.filter (fun u => u.name = f), toolName tool ∈ T := by
        intro u hu
        apply hT (frame (toolName tool) u)
        unfold clientFrames
        rw [List.flatMap_append]
        apply List.mem_append_right
        simp only [List.flatMap_cons, List.flatMap_nil, List.append_nil]
        exact List.mem_map_of_mem hu
      set A0 := (A.init env).touch (toolName tool) with hA0
      have p0 : ∀ n, A0.prioOf n = A.prioOf n := by
        intro n; rw [hA0, touch_prioOf, init_prioOf']
      have s0 : A0.stack f = A.stack f := init_stack_other env hf A
      obtain ⟨q1, q2⟩ := pushAll_stack (onMain_prioOf env) (onMain_stack_other env hf) (toolName tool)
        A0.prioOf tbl A0 rfl (fun _ _ => rfl)
      have hres : (A.step env (.wrap tbl tool)).1 =
        (Abs.pushAll (Abs.onMain env) (toolName tool) tbl A0).1 := rfl
      rw [hres]
      refine ⟨?_, ?_, ?_⟩
      · cases hfl : tbl.filter (fun u => u.name = f) with
        | nil =>
          rw [hfl] at q1
          rw [q1]
          simp only [tell, hfl, List.map_nil, List.foldl_nil]
          rw [s0, i1]
        | cons u us =>
          have ht : toolName tool ∈ T := hTt u (by rw [hfl]; simp)
          have := (pushAll_stack (onMain_prioOf env) (onMain_stack_other env hf) (toolName tool)
            e.1 tbl A0 (by rw [p0, i2 _ ht]) (by
              intro g hg
              rw [s0] at hg
              rw [p0, i2 _ (i3 g hg)])).1
          rw [this, s0, i1]
          rfl
      · intro t ht
        rw [pushAll_prioOf (onMain_prioOf env), p0, i2 t ht]
        have := regs_fst ((tbl.filter (fun u => u.name = f)).map (frame (toolName tool))) e
        rw [List.map_map] at this
        exact (congrFun this t).symm
      · intro g hg
        have := q2.subset hg
        rw [s0] at this
        rcases List.mem_append.1 this with h | h
        · exact i3 g h
        · obtain ⟨u, hu, rfl⟩ := List.mem_map.1 h
          exact hTt u hu
    | setPriority t v =>
      have hS : (A.step env (.setPriority t v)).1.stack f = A.stack f := init_stack_other env hf A
      have hP : ∀ n, (A.step env (.setPriority t v)).1.prioOf n = if n = t then v else A.prioOf n := by
        intro n
        show (upd _ _ _ _ : Option Int).getD _ = _
        by_cases c : n = t
        · subst c; simp
        · rw [upd_ne _ _ c, if_neg c]; exact init_prioOf' env A n
      rw [hS]
      refine ⟨?_, ?_, i3⟩
      · rw [i1, tell]; split <;> rfl
      · intro n hn
        rw [hP n, tell]
        by_cases c : n = t
        · subst c
          simp [hn, evStep]
        · rw [if_neg c, i2 n hn]
          split
          · show _ = upd e.1 t v n
            rw [upd_ne _ _ c]
          · rfl
    | getPriority t =>
      have hS : (A.step env (.getPriority t)).1.stack f = A.stack f := init_stack_other env hf A
      rw [hS]
      exact ⟨i1, fun n hn => (init_prioOf' env A n).trans (i2 n hn), i3⟩
    | setFilter x => exact ⟨i1, i2, i3⟩
    | dlopen ld => rw [step_dlopen]; split <;> exact ⟨i1, i2, i3⟩
    | load ld => exact ⟨i1, i2, i3⟩
    | unload d => exact ⟨i1, i2, i3⟩

end Gotcha.Spec
