import Verif.Spec.Split
import Verif.Proof.Calls
import Verif.Proof.Story
import Verif.Proof.Rewrap
/-
C127: the abstract state after a row of gotcha_wrap calls depends on the bindings of each function only.
-/
namespace Gotcha.Spec
open Gotcha

/-- The stack of one function after pushing bindings for it. -/
def pushesOn (pr : Name → Int) (t : Name) (us : List UBinding) (st : List Frame) : List Frame :=
  us.foldl (fun st u => insertBefore (fun g => pr g.tool < pr t) (frame t u) st) st

theorem push_real (A : Abs) (tool : Name) (p : Int) (u : UBinding) (f : Name) :
    (A.push tool p u).1.real f =
      if u.name = f ∧ A.stack f = [] then A.resolve f else A.real f := by
  unfold Abs.push
  by_cases e : u.name = f
  · subst e
    cases hs : A.stack u.name with
    | nil => simp
    | cons g st => simp
  · have e' : f ≠ u.name := fun c => e c.symm
    cases hs : A.stack u.name with
    | nil => simp [e, upd_ne _ _ e']
    | cons g st => simp [e]

theorem push_flag (A : Abs) (tool : Name) (p : Int) (u : UBinding) :
    (A.push tool p u).2 = true ↔ A.stack u.name = [] ∧ A.resolve u.name = none := by
  unfold Abs.push
  cases hs : A.stack u.name with
  | nil => simp
  | cons g st => simp

/-- A table without "main", function by function. -/
theorem pushAll_each (om : Abs → Abs) (t : Name) (us : List UBinding)
    (hm : ∀ u ∈ us, u.name ≠ nm "main") : ∀ A : Abs,
    (∀ f, (Abs.pushAll om t us A).1.stack f =
      pushesOn A.prioOf t (us.filter (fun u => u.name = f)) (A.stack f)) ∧
    (∀ f, (Abs.pushAll om t us A).1.real f =
      if us.filter (fun u => u.name = f) ≠ [] ∧ A.stack f = [] then A.resolve f else A.real f) ∧
    (Abs.pushAll om t us A).1.prio = A.prio ∧ (Abs.pushAll om t us A).1.inited = A.inited ∧
    (Abs.pushAll om t us A).1.mainWrapped = A.mainWrapped ∧
    (Abs.pushAll om t us A).1.libs = A.libs ∧ (Abs.pushAll om t us A).1.vdso = A.vdso ∧
    (0 < (Abs.pushAll om t us A).2 ↔
      ∃ f, us.filter (fun u => u.name = f) ≠ [] ∧ A.stack f = [] ∧ A.resolve f = none) := by
  induction us with
  | nil =>
    intro A
    refine ⟨fun f => rfl, fun f => by simp [Abs.pushAll], rfl, rfl, rfl, rfl, rfl, ?_⟩
    simp [Abs.pushAll]
  | cons u us ih =>
    intro A
    have hu : u.name ≠ nm "main" := hm u (by simp)
    obtain ⟨h1, h2, h3, h4, h5, h6, h7, h8⟩ :=
      ih (fun v hv => hm v (List.mem_cons_of_mem _ hv)) (A.push t (A.prioOf t) u).1
    have hp := push_prio A t (A.prioOf t) u
    have hpo : (A.push t (A.prioOf t) u).1.prioOf = A.prioOf := by
      funext n; exact push_prioOf A t (A.prioOf t) u n
    have hs := push_same A t (A.prioOf t) u
    have hst := push_stack A t u
    have hre := push_real A t (A.prioOf t) u
    have hres : ∀ f, (A.push t (A.prioOf t) u).1.resolve f = A.resolve f := by
      intro f; unfold Abs.resolve; rw [hs.vdso, hs.libs]
    have hmw : (A.push t (A.prioOf t) u).1.mainWrapped = A.mainWrapped := by
      unfold Abs.push; split <;> rfl
    simp only [Abs.pushAll, if_neg hu]
    refine ⟨?_, ?_, h3.trans hp, h4.trans hs.inited, h5.trans hmw, h6.trans hs.libs, h7.trans hs.vdso, ?_⟩
    · intro f
      rw [h1, hst, hpo]
      by_cases e : u.name = f
      · simp [e, pushesOn]
      · simp [e]
    · intro f
      rw [h2, hres, hst, hre]
      by_cases e : u.name = f
      · have : insertBefore (fun g => decide (A.prioOf g.tool < A.prioOf t)) (frame t u) (A.stack f) ≠ [] :=
          insertBefore_ne _ _ _
        simp [e, this]
      · simp [e]
    · have key : (0 < (Abs.pushAll om t us (A.push t (A.prioOf t) u).1).2 +
          if (A.push t (A.prioOf t) u).2 = true then 1 else 0) ↔
          0 < (Abs.pushAll om t us (A.push t (A.prioOf t) u).1).2 ∨
            (A.push t (A.prioOf t) u).2 = true := by
        split
        · rename_i hh; simp [hh]
        · rename_i hh; simp [hh]
      rw [key, h8, push_flag]
      constructor
      · rintro (⟨f, g1, g2, g3⟩ | ⟨g2, g3⟩)
        · rw [hst] at g2
          rw [hres] at g3
          by_cases e : u.name = f
          · rw [if_pos e] at g2; exact absurd g2 (insertBefore_ne _ _ _)
          · rw [if_neg e] at g2
            exact ⟨f, by simp [e, g1], g2, g3⟩
        · exact ⟨u.name, by simp, g2, g3⟩
      · rintro ⟨f, g1, g2, g3⟩
        by_cases e : u.name = f
        · subst e; exact Or.inr ⟨g2, g3⟩
        · left
          refine ⟨f, by simpa [e] using g1, ?_, by rw [hres]; exact g3⟩
          rw [hst, if_neg e]; exact g2

theorem abs_ext {A B : Abs} (h1 : A.inited = B.inited) (h2 : A.mainWrapped = B.mainWrapped)
    (h3 : A.prio = B.prio) (h4 : A.stack = B.stack) (h5 : A.real = B.real) (h6 : A.libs = B.libs)
    (h7 : A.vdso = B.vdso) : A = B := by
  cases A; cases B; simp_all

/-- Only the bindings of each function matter. -/
theorem pushAll_alike (om : Abs → Abs) (t : Name) {us vs : List UBinding}
    (hu : ∀ u ∈ us, u.name ≠ nm "main") (hv : ∀ u ∈ vs, u.name ≠ nm "main")
    (h : ∀ f, us.filter (fun u => u.name = f) = vs.filter (fun u => u.name = f)) (A : Abs) :
    (Abs.pushAll om t us A).1 = (Abs.pushAll om t vs A).1 ∧
      (0 < (Abs.pushAll om t us A).2 ↔ 0 < (Abs.pushAll om t vs A).2) := by
  obtain ⟨a1, a2, a3, a4, a5, a6, a7, a8⟩ := pushAll_each om t us hu A
  obtain ⟨b1, b2, b3, b4, b5, b6, b7, b8⟩ := pushAll_each om t vs hv A
  refine ⟨abs_ext (a4.trans b4.symm) (a5.trans b5.symm) (a3.trans b3.symm) ?_ ?_ (a6.trans b6.symm)
    (a7.trans b7.symm), ?_⟩
  · funext f; rw [a1, b1, h]
  · funext f; rw [a2, b2, h]
  · rw [a8, b8]; simp only [h]

theorem pushAll_append (om : Abs → Abs) (t : Name) (us vs : List UBinding) : ∀ A : Abs,
    Abs.pushAll om t (us ++ vs) A =
      ((Abs.pushAll om t vs (Abs.pushAll om t us A).1).1,
        (Abs.pushAll om t us A).2 + (Abs.pushAll om t vs (Abs.pushAll om t us A).1).2) := by
  induction us with
  | nil => intro A; simp [Abs.pushAll]
  | cons u us ih =>
    intro A
    simp only [List.cons_append, Abs.pushAll, ih]
    refine Prod.ext rfl ?_
    show _ + _ + _ = _ + _ + _
    omega

theorem touch_known {A : Abs} {t : Name} (h : (A.prio t).isSome = true) : A.touch t = A := by
  obtain ⟨v, hv⟩ := Option.isSome_iff_exists.1 h
  have : upd A.prio t (some (A.prioOf t)) = A.prio := by
    funext n
    by_cases e : n = t
    · subst e; simp [Abs.prioOf, hv]
    · rw [upd_ne _ _ e]
  unfold Abs.touch
  rw [this]

/-- A row of calls is one call with all the bindings. -/
theorem block_run (env : Env) {tool : Option Name} (X : List Op)
    (hX : ∀ o ∈ X, ∃ tbl, o = .wrap tbl tool ∧ ¬ hasMain tbl) : ∀ A : Abs, A.inited = true →
    (A.prio (toolName tool)).isSome = true →
    (Abs.run env X A).1 = (Abs.pushAll (Abs.onMain env) (toolName tool) (X.flatMap tableOf) A).1 ∧
      (Obs.ret .functionNotFound ∈ (Abs.run env X A).2 ↔
        0 < (Abs.pushAll (Abs.onMain env) (toolName tool) (X.flatMap tableOf) A).2) := by
  induction X with
  | nil => intro A _ _; exact ⟨rfl, by simp [Abs.run, Abs.pushAll]⟩
  | cons o X ih =>
    intro A hi hp
    obtain ⟨tbl, rfl, hm⟩ := hX o (by simp)
    have hm' : ∀ u ∈ tbl, u.name ≠ nm "main" := fun u hu e => hm ⟨u, hu, e⟩
    obtain ⟨-, -, a3, a4, -⟩ := pushAll_each (Abs.onMain env) (toolName tool) tbl hm' A
    have hstep : A.step env (.wrap tbl tool) =
        ((Abs.pushAll (Abs.onMain env) (toolName tool) tbl A).1,
          .ret (if (Abs.pushAll (Abs.onMain env) (toolName tool) tbl A).2 > 0 then .functionNotFound
            else .success)) := by
      show (_, _) = _
      have e1 : A.init env = A := by simp [Abs.init, hi]
      have e2 : A.touch (toolName tool) = A := touch_known hp
      simp only [Abs.wrap, e1]
      rw [show tool.getD (nm "[UNSPECIFIED]") = toolName tool from rfl, e2]
    obtain ⟨i1, i2⟩ := ih (fun o ho => hX o (List.mem_cons_of_mem _ ho))
      (Abs.pushAll (Abs.onMain env) (toolName tool) tbl A).1 (a4.trans hi) (by rw [a3]; exact hp)
    simp only [Abs.run, hstep, List.flatMap_cons, tableOf]
    rw [pushAll_append]
    refine ⟨i1, ?_⟩
    rw [List.mem_cons, i2]
    show _ ↔ 0 < _ + _
    constructor
    · rintro (g | g)
      · split at g
        · omega
        · cases g
      · omega
    · intro g
      by_cases c : (Abs.pushAll (Abs.onMain env) (toolName tool) tbl A).2 > 0
      · left; rw [if_pos c]
      · right; omega

/-- The first call of a row: GOTCHA is initialised and the tool is known after it; so it makes no
difference to have that done before. -/
theorem block_first (env : Env) {tool : Option Name} {X : List Op} (hX : WrapRow tool X) (A : Abs) :
    Abs.run env X A = Abs.run env X ((A.init env).touch (toolName tool)) := by
  obtain ⟨hne, hX⟩ := hX
  cases X with
  | nil => exact absurd rfl hne
  | cons o X =>
    obtain ⟨tbl, rfl, -⟩ := hX o (by simp)
    have e1 : ((A.init env).touch (toolName tool)).init env = (A.init env).touch (toolName tool) := by
      have : ((A.init env).touch (toolName tool)).inited = true := init_inited ..
      rw [Abs.init, if_pos this]
    have e2 : ((A.init env).touch (toolName tool)).touch (toolName tool) =
        (A.init env).touch (toolName tool) := touch_known (by simp [Abs.touch])
    have : A.step env (.wrap tbl tool) = ((A.init env).touch (toolName tool)).step env (.wrap tbl tool) := by
      show (_, _) = (_, _)
      simp only [Abs.wrap, e1]
      rw [show tool.getD (nm "[UNSPECIFIED]") = toolName tool from rfl, e2]
    simp only [Abs.run, this]

theorem block_same (env : Env) {tool : Option Name} {X Y : List Op} (hX : WrapRow tool X)
    (hY : WrapRow tool Y) (h : SameBindings X Y) (A : Abs) :
    (Abs.run env X A).1 = (Abs.run env Y A).1 ∧
      (Obs.ret .functionNotFound ∈ (Abs.run env X A).2 ↔
        Obs.ret .functionNotFound ∈ (Abs.run env Y A).2) := by
  have nomain : ∀ {Z : List Op}, WrapRow tool Z → ∀ u ∈ Z.flatMap tableOf, u.name ≠ nm "main" := by
    intro Z hZ u hu e
    obtain ⟨o, ho, hu⟩ := List.mem_flatMap.1 hu
    obtain ⟨tbl, rfl, hm⟩ := hZ.2 o ho
    exact hm ⟨u, hu, e⟩
  rw [block_first env hX, block_first env hY]
  have hi : ((A.init env).touch (toolName tool)).inited = true := init_inited ..
  have hp : (((A.init env).touch (toolName tool)).prio (toolName tool)).isSome = true := by
    simp [Abs.touch]
  obtain ⟨x1, x2⟩ := block_run env X hX.2 _ hi hp
  obtain ⟨y1, y2⟩ := block_run env Y hY.2 _ hi hp
  obtain ⟨s1, s2⟩ := pushAll_alike (Abs.onMain env) (toolName tool) (nomain hX) (nomain hY) h
    ((A.init env).touch (toolName tool))
  exact ⟨by rw [x1, y1, s1], by rw [x2, y2, s2]⟩

/-! ### the assumptions carry over -/

theorem block_loader {p : Process} {strict : Prop} {tool : Option Name} {X : List Op}
    (hX : WrapRow tool X) {seen libs inited post} :
    LoaderOk p strict seen libs inited (X ++ post) ↔
      ((inited = false → firstDef (p.env.vdsoOf libs) libs (nm "dlopen") ≠ none) ∧
        LoaderOk p strict seen libs true post) := by
  obtain ⟨hne, hX⟩ := hX
  have rest : ∀ X : List Op, (∀ o ∈ X, ∃ tbl, o = .wrap tbl tool ∧ ¬ hasMain tbl) →
      (LoaderOk p strict seen libs true (X ++ post) ↔ LoaderOk p strict seen libs true post) := by
    intro X
    induction X with
    | nil => intro _; exact Iff.rfl
    | cons o X ih =>
      intro hX
      obtain ⟨tbl, rfl, -⟩ := hX o (by simp)
      simp only [List.cons_append, LoaderOk]
      rw [ih (fun o ho => hX o (List.mem_cons_of_mem _ ho))]
      simp
  cases X with
  | nil => exact absurd rfl hne
  | cons o X =>
    obtain ⟨tbl, rfl, -⟩ := hX o (by simp)
    simp only [List.cons_append, LoaderOk]
    rw [rest X (fun o ho => hX o (List.mem_cons_of_mem _ ho))]

theorem swap_loader {p : Process} {strict : Prop} {tool : Option Name} {X Y : List Op}
    (hX : WrapRow tool X) (hY : WrapRow tool Y) (post pre : List Op) : ∀ {seen libs inited},
    LoaderOk p strict seen libs inited (pre ++ (X ++ post)) →
    LoaderOk p strict seen libs inited (pre ++ (Y ++ post)) := by
  induction pre with
  | nil =>
    intro seen libs inited h
    rw [List.nil_append] at h ⊢
    exact (block_loader hY).2 ((block_loader hX).1 h)
  | cons o pre ih =>
    intro seen libs inited h
    cases o <;> simp only [List.cons_append, LoaderOk] at h ⊢
    · exact ⟨h.1, ih h.2⟩
    · exact ⟨h.1, ih h.2⟩
    · exact ⟨h.1, ih h.2⟩
    · exact ih h
    · exact ⟨h.1, ih h.2⟩
    · exact ⟨h.1, h.2.1, ih h.2.2⟩
    · exact ⟨h.1, ih h.2⟩

theorem same_perm {X Y : List Op} (h : SameBindings X Y) :
    (X.flatMap tableOf).Perm (Y.flatMap tableOf) := by
  rw [List.perm_iff_count]
  intro u
  have key : ∀ l : List UBinding, l.count u = (l.filter (fun v => v.name = u.name)).count u := by
    intro l
    rw [List.count_filter (by simp)]
  rw [key (X.flatMap tableOf), key (Y.flatMap tableOf)]
  exact congrArg _ (h u.name)

theorem swap_honest {env : Env} {P} {X Y : List Op} (h : SameBindings X Y) {pre post : List Op}
    (hh : Honest env P (pre ++ (X ++ post))) : Honest env P (pre ++ (Y ++ post)) := by
  have hp : ((pre ++ (X ++ post)).flatMap tableOf).Perm ((pre ++ (Y ++ post)).flatMap tableOf) := by
    simp only [List.flatMap_append]
    exact ((same_perm h).append_right _).append_left _
  refine ⟨?_, fun u hu => hh.prog u (hp.mem_iff.2 hu), hh.own⟩
  exact (((hp.map _).append_right _).nodup_iff).1 hh.nodup

theorem lastSet_app (t : Name) (a b : List Op) :
    lastSet t (a ++ b) = (lastSet t b).or (lastSet t a) := by
  induction a with
  | nil => cases h : lastSet t b <;> simp [lastSet, h]
  | cons o a ih =>
    cases o <;> simp only [List.cons_append, lastSet, ih]
    rw [Option.or_assoc]

theorem block_lastSet {tool : Option Name} {X : List Op} (hX : WrapRow tool X) (t : Name) :
    lastSet t X = none := by
  obtain ⟨-, hX⟩ := hX
  induction X with
  | nil => rfl
  | cons o X ih =>
    obtain ⟨tbl, rfl, -⟩ := hX o (by simp)
    simp only [lastSet]
    exact ih (fun o ho => hX o (List.mem_cons_of_mem _ ho))

theorem block_names {tool : Option Name} {X : List Op} (hX : WrapRow tool X) (t : Name) :
    X.any (names t) = (decide (toolName tool = t) || decide (t = nm "gotcha")) := by
  obtain ⟨hne, hX⟩ := hX
  cases hb : (decide (toolName tool = t) || decide (t = nm "gotcha")) with
  | true =>
    cases X with
    | nil => exact absurd rfl hne
    | cons o X =>
      obtain ⟨tbl, rfl, -⟩ := hX o (by simp)
      simp only [List.any_cons, names, hb, Bool.true_or]
  | false =>
    rw [List.any_eq_false]
    intro o ho
    obtain ⟨tbl, rfl, -⟩ := hX o ho
    simp only [names, hb]; simp

theorem swap_prio {tool : Option Name} {X Y : List Op} (hX : WrapRow tool X) (hY : WrapRow tool Y)
    (t : Name) (pre post : List Op) :
    prioOr t (pre ++ (X ++ post)) = prioOr t (pre ++ (Y ++ post)) := by
  unfold prioOr prioAfter
  simp only [lastSet_app, block_lastSet hX, block_lastSet hY, List.any_append, block_names hX,
    block_names hY]

theorem swap_main {tool : Option Name} {X Y : List Op} (hX : WrapRow tool X) (hY : WrapRow tool Y)
    {pre post : List Op} (h : MainAlone (pre ++ (X ++ post))) : MainAlone (pre ++ (Y ++ post)) := by
  intro a tbl tl b e hm hno
  have nomain : ∀ {Z : List Op}, WrapRow tool Z → ∀ o ∈ Z, ¬ hasMain (tableOf o) := by
    intro Z hZ o ho
    obtain ⟨tbl, rfl, hm⟩ := hZ.2 o ho
    exact hm
  have main_at : ∀ {o}, o = Op.wrap tbl tl → hasMain (tableOf o) := by rintro o rfl; exact hm
  rw [List.append_eq_append_iff] at e
  rcases e with ⟨a', rfl, e⟩ | ⟨c, e1, e2⟩
  · -- behind `pre`
    rw [List.append_eq_append_iff] at e
    rcases e with ⟨a'', rfl, e⟩ | ⟨c, e1, e2⟩
    · -- in `post`
      obtain ⟨g1, g2⟩ := h (pre ++ (X ++ a'')) tbl tl b (by rw [e]; simp) hm (by
        intro o ho
        simp only [List.mem_append] at ho
        rcases ho with ho | ho | ho
        · exact hno o (by simp [ho])
        · exact nomain hX o ho
        · exact hno o (by simp [ho]))
      refine ⟨g1, ?_⟩
      rw [swap_prio hY hX, swap_prio hY hX]; exact g2
    · cases c with
      | nil =>
        simp only [List.append_nil, List.nil_append] at e1 e2
        obtain ⟨g1, g2⟩ := h (pre ++ (X ++ [])) tbl tl b (by rw [← e2]; simp) hm (by
          intro o ho
          simp only [List.mem_append, List.append_nil] at ho
          rcases ho with ho | ho
          · exact hno o (by simp [ho])
          · exact nomain hX o ho)
        refine ⟨g1, ?_⟩
        rw [show pre ++ a' = pre ++ (Y ++ []) by rw [← e1]; simp, swap_prio hY hX, swap_prio hY hX]
        exact g2
      | cons o c =>
        simp only [List.cons_append, List.cons.injEq] at e2
        exact absurd (main_at e2.1.symm) (nomain hY o (by rw [e1]; simp))
  · cases c with
    | nil =>
      simp only [List.append_nil, List.nil_append] at e1 e2
      cases Y with
      | nil => exact absurd rfl hY.1
      | cons o Y =>
        simp only [List.cons_append, List.cons.injEq] at e2
        exact absurd (main_at e2.1.symm) (nomain hY o (by simp))
    | cons o c =>
      simp only [List.cons_append, List.cons.injEq] at e2
      refine h a tbl tl (c ++ (X ++ post)) ?_ hm hno
      rw [e1, ← e2.1]; simp

theorem swap_history {p : Process} {strict : Prop} {tool : Option Name} {X Y : List Op}
    (hX : WrapRow tool X) (hY : WrapRow tool Y) (hs : SameBindings X Y) {pre post : List Op}
    (hlen : strict → (pre ++ (Y ++ post)).length + 3 < 2 ^ 32)
    (h : History p strict (pre ++ (X ++ post))) : History p strict (pre ++ (Y ++ post)) where
  loader := swap_loader hX hY post pre h.loader
  cons := h.cons
  filter := by
    intro hst f hf
    refine h.filter hst f ?_
    simp only [List.mem_append] at hf ⊢
    rcases hf with hf | hf | hf
    · exact Or.inl hf
    · obtain ⟨tbl, e, -⟩ := hY.2 _ hf; cases e
    · exact Or.inr (Or.inr hf)
  main := fun hst => swap_main hX hY (h.main hst)
  short := hlen
  honest := swap_honest hs h.honest

theorem abs_run_length (env : Env) (ops : List Op) : ∀ A : Abs,
    (Abs.run env ops A).2.length = ops.length := by
  induction ops with
  | nil => intro A; rfl
  | cons o ops ih => intro A; simp [Abs.run, ih]

theorem swap_run (env : Env) {tool : Option Name} {X Y : List Op} (hX : WrapRow tool X)
    (hY : WrapRow tool Y) (hs : SameBindings X Y) (pre post : List Op) (A : Abs) :
    ∃ o1 oX oY o2, (Abs.run env (pre ++ (X ++ post)) A).2 = o1 ++ (oX ++ o2) ∧
      (Abs.run env (pre ++ (Y ++ post)) A).2 = o1 ++ (oY ++ o2) ∧ o1.length = pre.length ∧
      o2.length = post.length ∧ oX.length = X.length ∧ oY.length = Y.length ∧
      (Obs.ret .functionNotFound ∈ oX ↔ Obs.ret .functionNotFound ∈ oY) ∧
      (Abs.run env (pre ++ (X ++ post)) A).1 = (Abs.run env (pre ++ (Y ++ post)) A).1 := by
  obtain ⟨b1, b2⟩ := block_same env hX hY hs (Abs.run env pre A).1
  refine ⟨(Abs.run env pre A).2, (Abs.run env X (Abs.run env pre A).1).2,
    (Abs.run env Y (Abs.run env pre A).1).2,
    (Abs.run env post (Abs.run env X (Abs.run env pre A).1).1).2, ?_, ?_,
    abs_run_length .., abs_run_length .., abs_run_length .., abs_run_length .., b2, ?_⟩
  · rw [run_append, run_append]
  · rw [run_append, run_append, b1]
  · rw [run_append, run_append, run_append, run_append, b1]

end Gotcha.Spec
