import Verif.Spec.Order
/-
Facts about the specification of the interception engine (no model involved).
-/
namespace Gotcha.Spec

/-! ### stacks only grow, resolved functions stay -/

structure Grow (A A' : Abs) : Prop where
  sub : ∀ f, (A.stack f).Sublist (A'.stack f)
  real : ∀ f r, A.stack f ≠ [] → A.real f = some r → A'.real f = some r

theorem Grow.refl (A : Abs) : Grow A A := ⟨fun _ => List.Sublist.refl _, fun _ _ _ h => h⟩

theorem Grow.ne {A A'} (h : Grow A A') {f} (hf : A.stack f ≠ []) : A'.stack f ≠ [] := by
  intro hc
  have := h.sub f
  rw [hc] at this
  exact hf (List.sublist_nil.1 this)

theorem Grow.trans {A B D} (h1 : Grow A B) (h2 : Grow B D) : Grow A D :=
  ⟨fun f => (h1.sub f).trans (h2.sub f), fun f r hs hr => h2.real f r (h1.ne hs) (h1.real f r hs hr)⟩

theorem insertBefore_sublist {α : Type} (q : α → Bool) (x : α) (L : List α) :
    L.Sublist (insertBefore q x L) := by
  induction L with
  | nil => exact List.nil_sublist _
  | cons y L ih =>
    unfold insertBefore
    split
    · exact List.sublist_cons_self _ _
    · exact ih.cons_cons y

theorem push_grow (A : Abs) (tool p u) : Grow A (A.push tool p u).1 := by
  unfold Abs.push
  cases hs : A.stack u.name with
  | nil =>
    refine ⟨fun f => ?_, fun f r hf hr => ?_⟩
    · by_cases e : f = u.name
      · subst e; rw [hs]; exact List.nil_sublist _
      · simp [upd_ne _ _ e]
    · have e : f ≠ u.name := fun e => hf (by rw [e]; exact hs)
      simp [upd_ne _ _ e, hr]
  | cons g gs =>
    refine ⟨fun f => ?_, fun f r hf hr => hr⟩
    by_cases e : f = u.name
    · subst e; simp only [upd_self]; rw [hs]; exact insertBefore_sublist _ _ _
    · simp [upd_ne _ _ e]

theorem pushAll_grow {om : Abs → Abs} (hom : ∀ A, Grow A (om A)) (tool : Name)
    (us : List UBinding) : ∀ A : Abs, Grow A (Abs.pushAll om tool us A).1 := by
  induction us with
  | nil => intro A; exact Grow.refl A
  | cons u us ih =>
    intro A
    rw [Abs.pushAll]
    dsimp only
    refine Grow.trans ?_ (ih _)
    split
    · exact (hom A).trans (push_grow _ _ _ _)
    · exact push_grow _ _ _ _

theorem wrap_grow {om : Abs → Abs} (hom : ∀ A, Grow A (om A)) (tbl tool) (A : Abs) :
    Grow A (Abs.wrap om tbl tool A).1 := by
  unfold Abs.wrap
  exact Grow.trans (B := A.touch _) ⟨fun _ => List.Sublist.refl _, fun _ _ _ h => h⟩
    (pushAll_grow hom _ _ _)

theorem onMain_grow (env : Env) (A : Abs) : Grow A (A.onMain env) := by
  unfold Abs.onMain
  split
  · exact Grow.refl A
  · exact Grow.trans (B := { A with mainWrapped := true })
      ⟨fun _ => List.Sublist.refl _, fun _ _ _ h => h⟩
      ((wrap_grow Grow.refl _ _ _).trans (wrap_grow Grow.refl _ _ _))

theorem init_grow (env : Env) (A : Abs) : Grow A (A.init env) := by
  unfold Abs.init
  split
  · exact Grow.refl A
  · exact Grow.trans (B := { A with inited := true, vdso := env.vdsoOf A.libs })
      ⟨fun _ => List.Sublist.refl _, fun _ _ _ h => h⟩ (wrap_grow (onMain_grow env) _ _ _)

theorem step_dlopen (env : Env) (ld : Load) (A : Abs) : (A.step env (.dlopen ld)).1 =
    if A.inited = true then A.dlopen ld.libs else { A with libs := A.libs ++ ld.libs } := by
  show (if A.inited = true then (A.dlopen ld.libs, Obs.unit) else _ : Abs × Obs).1 = _
  split <;> rfl

theorem step_grow (env : Env) (op : Op) (A : Abs) : Grow A (A.step env op).1 := by
  cases op with
  | wrap tbl tool => exact (init_grow env A).trans (wrap_grow (onMain_grow env) _ _ _)
  | setPriority t v => exact ⟨(init_grow env A).sub, (init_grow env A).real⟩
  | getPriority t => exact init_grow env A
  | setFilter f => exact Grow.refl A
  | dlopen ld =>
    rw [step_dlopen]
    split
    · refine ⟨fun _ => List.Sublist.refl _, fun f r hs hr => ?_⟩
      simp [Abs.dlopen, hr]
    · exact ⟨fun _ => List.Sublist.refl _, fun _ _ _ h => h⟩
  | load ld => exact ⟨fun _ => List.Sublist.refl _, fun _ _ _ h => h⟩
  | unload dead => exact ⟨fun _ => List.Sublist.refl _, fun _ _ _ h => h⟩

theorem run_append (env : Env) (ops ops' : List Op) : ∀ A : Abs,
    Abs.run env (ops ++ ops') A =
      ((Abs.run env ops' (Abs.run env ops A).1).1,
        (Abs.run env ops A).2 ++ (Abs.run env ops' (Abs.run env ops A).1).2) := by
  induction ops with
  | nil => intro A; rfl
  | cons op ops ih => intro A; simp [Abs.run, ih]

theorem run_snoc (env : Env) (ops : List Op) (op : Op) (A : Abs) :
    (Abs.run env (ops ++ [op]) A).1 = ((Abs.run env ops A).1.step env op).1 := by
  rw [run_append]; rfl

theorem run_grow (env : Env) (ops : List Op) : ∀ A : Abs, Grow A (Abs.run env ops A).1 := by
  induction ops with
  | nil => intro A; exact Grow.refl A
  | cons op ops ih => intro A; exact (step_grow env op A).trans (ih _)

/-! ### what the operations leave alone -/

structure Same (A A' : Abs) : Prop where
  libs : A'.libs = A.libs
  vdso : A'.vdso = A.vdso
  inited : A'.inited = A.inited

theorem Same.refl (A : Abs) : Same A A := ⟨rfl, rfl, rfl⟩
theorem Same.trans {A B D} (h1 : Same A B) (h2 : Same B D) : Same A D :=
  ⟨h2.libs.trans h1.libs, h2.vdso.trans h1.vdso, h2.inited.trans h1.inited⟩

theorem push_same (A : Abs) (tool p u) : Same A (A.push tool p u).1 := by
  unfold Abs.push; split <;> exact ⟨rfl, rfl, rfl⟩

theorem pushAll_same {om : Abs → Abs} (hom : ∀ A, Same A (om A)) (tool : Name)
    (us : List UBinding) : ∀ A : Abs, Same A (Abs.pushAll om tool us A).1 := by
  induction us with
  | nil => intro A; exact Same.refl A
  | cons u us ih =>
    intro A
    rw [Abs.pushAll]
    dsimp only
    refine Same.trans ?_ (ih _)
    split
    · exact (hom A).trans (push_same _ _ _ _)
    · exact push_same _ _ _ _

theorem wrap_same {om : Abs → Abs} (hom : ∀ A, Same A (om A)) (tbl tool) (A : Abs) :
    Same A (Abs.wrap om tbl tool A).1 := by
  unfold Abs.wrap
  exact Same.trans (B := A.touch _) ⟨rfl, rfl, rfl⟩ (pushAll_same hom _ _ _)

theorem onMain_same (env : Env) (A : Abs) : Same A (A.onMain env) := by
  unfold Abs.onMain
  split
  · exact Same.refl A
  · exact Same.trans (B := { A with mainWrapped := true }) ⟨rfl, rfl, rfl⟩
      ((wrap_same Same.refl _ _ _).trans (wrap_same Same.refl _ _ _))

theorem init_libs (env : Env) (A : Abs) : (A.init env).libs = A.libs := by
  unfold Abs.init
  split
  · rfl
  · exact (wrap_same (onMain_same env) _ _ _).libs

theorem init_inited (env : Env) (A : Abs) : (A.init env).inited = true := by
  unfold Abs.init
  split
  · assumption
  · exact (wrap_same (onMain_same env) _ _ _).inited

theorem init_vdso (env : Env) (A : Abs) :
    (A.init env).vdso = if A.inited then A.vdso else env.vdsoOf A.libs := by
  unfold Abs.init
  split
  · rfl
  · exact (wrap_same (onMain_same env) _ _ _).vdso

/-! ### "main" -/

theorem push_mainW (A : Abs) (tool p u) :
    (A.push tool p u).1.mainWrapped = A.mainWrapped := by
  unfold Abs.push; split <;> rfl

theorem pushAll_mainW {om : Abs → Abs} (hom : ∀ A, (om A).mainWrapped = true) (tool : Name)
    (us : List UBinding) : ∀ A : Abs,
    (Abs.pushAll om tool us A).1.mainWrapped = true ↔ A.mainWrapped = true ∨ hasMain us := by
  induction us with
  | nil => intro A; simp [Abs.pushAll, hasMain]
  | cons u us ih =>
    intro A
    rw [Abs.pushAll]
    dsimp only
    rw [ih, push_mainW]
    by_cases e : u.name = nm "main"
    · rw [if_pos e, hom]; simp [hasMain, e]
    · rw [if_neg e]; simp [hasMain, e]

theorem pushAll_id_mainW (tool : Name) (us : List UBinding) : ∀ A : Abs,
    (Abs.pushAll id tool us A).1.mainWrapped = A.mainWrapped := by
  induction us with
  | nil => intro A; rfl
  | cons u us ih =>
    intro A
    rw [Abs.pushAll]
    dsimp only
    rw [ih, push_mainW]
    split <;> rfl

theorem onMain_mainW (env : Env) (A : Abs) : (A.onMain env).mainWrapped = true := by
  unfold Abs.onMain
  split
  · assumption
  · dsimp only [Abs.wrap]
    rw [pushAll_id_mainW]
    show (Abs.pushAll _ _ _ _).1.mainWrapped = true
    rw [pushAll_id_mainW]
    rfl

theorem wrap_mainW (env : Env) (tbl tool) (A : Abs) :
    (Abs.wrap (Abs.onMain env) tbl tool A).1.mainWrapped = true ↔
      A.mainWrapped = true ∨ hasMain tbl := by
  unfold Abs.wrap
  dsimp only
  rw [pushAll_mainW (onMain_mainW env)]
  rfl

theorem init_mainW (env : Env) (A : Abs) : (A.init env).mainWrapped = A.mainWrapped := by
  unfold Abs.init
  split
  · rfl
  · rw [Bool.eq_iff_iff, wrap_mainW]
    simp only [hasMain, dlTable, List.mem_cons, List.not_mem_nil, or_false]
    constructor
    · rintro (h | ⟨u, rfl | rfl, h⟩)
      · exact h
      · exact absurd h (by show nm "dlopen" ≠ nm "main"; decide +kernel)
      · exact absurd h (by show nm "dlsym" ≠ nm "main"; decide +kernel)
    · exact Or.inl

theorem step_mainW (env : Env) (op : Op) (A : Abs) :
    (A.step env op).1.mainWrapped = true ↔ A.mainWrapped = true ∨ hasMain (tableOf op) := by
  cases op with
  | wrap tbl tool =>
    show (Abs.wrap _ _ _ _).1.mainWrapped = true ↔ _
    rw [wrap_mainW, init_mainW]; rfl
  | setPriority t v =>
    show (A.init env).mainWrapped = true ↔ _
    rw [init_mainW]; simp [tableOf, hasMain]
  | getPriority t =>
    show (A.init env).mainWrapped = true ↔ _
    rw [init_mainW]; simp [tableOf, hasMain]
  | setFilter f => simp [Abs.step, tableOf, hasMain]
  | dlopen ld => rw [step_dlopen]; split <;> simp [tableOf, hasMain, Abs.dlopen]
  | load ld => simp [Abs.step, tableOf, hasMain]
  | unload dead => simp [Abs.step, tableOf, hasMain]

theorem run_mainW (env : Env) (libs : List Lib) (ops : List Op) :
    (Abs.run env ops (Abs.start libs)).1.mainWrapped = true ↔
      ∃ o ∈ ops, hasMain (tableOf o) := by
  induction ops using List.reverseRecOn with
  | nil => simp [Abs.run, Abs.start]
  | append_singleton ops op ih =>
    rw [run_snoc, step_mainW, ih]
    simp only [List.mem_append, List.mem_singleton]
    constructor
    · rintro (⟨o, h1, h2⟩ | h)
      · exact ⟨o, Or.inl h1, h2⟩
      · exact ⟨op, Or.inr rfl, h⟩
    · rintro ⟨o, h1 | rfl, h2⟩
      · exact Or.inl ⟨o, h1, h2⟩
      · exact Or.inr h2

/-! ### where frames come from -/

def FromOwn (env : Env) (f : Name) (fr : Frame) : Prop :=
  ∃ u ∈ ownTable env, u.name = f ∧ fr = frame (nm "gotcha") u

def FromOp (op : Op) (f : Name) (fr : Frame) : Prop :=
  ∃ tbl tool u, op = .wrap tbl tool ∧ u ∈ tbl ∧ u.name = f ∧ fr = frame (toolName tool) u

theorem push_mem (A : Abs) (tool p u) (f fr) :
    fr ∈ (A.push tool p u).1.stack f ↔
      fr ∈ A.stack f ∨ (u.name = f ∧ fr = frame tool u) := by
  unfold Abs.push
  by_cases e : f = u.name
  · subst e
    cases hs : A.stack u.name with
    | nil => simp [frame]
    | cons g gs => simp [insertBefore_mem, frame]
  · have e' : u.name ≠ f := fun h => e h.symm
    cases hs : A.stack u.name with
    | nil => simp [upd_ne _ _ e, e']
    | cons g gs => simp [upd_ne _ _ e, e']

theorem pushAll_mem {om : Abs → Abs} {Q : Name → Frame → Prop}
    (hom : ∀ A f fr, fr ∈ (om A).stack f → fr ∈ A.stack f ∨ Q f fr) (tool : Name)
    (us : List UBinding) : ∀ (A : Abs) (f fr), fr ∈ (Abs.pushAll om tool us A).1.stack f →
    fr ∈ A.stack f ∨ Q f fr ∨ ∃ u ∈ us, u.name = f ∧ fr = frame tool u := by
  induction us with
  | nil => intro A f fr h; exact Or.inl h
  | cons u us ih =>
    intro A f fr h
    rw [Abs.pushAll] at h
    dsimp only at h
    rcases ih _ f fr h with h | h | ⟨v, hv, h1, h2⟩
    · rw [push_mem] at h
      rcases h with h | ⟨h1, h2⟩
      · split at h
        · rcases hom A f fr h with h | h
          · exact Or.inl h
          · exact Or.inr (Or.inl h)
        · exact Or.inl h
      · exact Or.inr (Or.inr ⟨u, by simp, h1, h2⟩)
    · exact Or.inr (Or.inl h)
    · exact Or.inr (Or.inr ⟨v, List.mem_cons_of_mem _ hv, h1, h2⟩)

theorem wrap_mem {om : Abs → Abs} {Q : Name → Frame → Prop}
    (hom : ∀ A f fr, fr ∈ (om A).stack f → fr ∈ A.stack f ∨ Q f fr) (tbl tool) (A : Abs) (f fr)
    (h : fr ∈ (Abs.wrap om tbl tool A).1.stack f) :
    fr ∈ A.stack f ∨ Q f fr ∨ ∃ u ∈ tbl, u.name = f ∧ fr = frame (toolName tool) u :=
  pushAll_mem hom _ _ (A.touch _) f fr h

theorem onMain_mem (env : Env) (A : Abs) (f fr) (h : fr ∈ (A.onMain env).stack f) :
    fr ∈ A.stack f ∨ FromOwn env f fr := by
  unfold Abs.onMain at h
  split at h
  · exact Or.inl h
  · dsimp only at h
    rcases wrap_mem (Q := fun _ _ => False) (fun A f fr h => Or.inl h) _ _ _ f fr h with
      h | h | ⟨u, hu, h1, h2⟩
    · rcases wrap_mem (Q := fun _ _ => False) (fun A f fr h => Or.inl h) _ _ _ f fr h with
        h | h | ⟨u, hu, h1, h2⟩
      · exact Or.inl h
      · exact absurd h id
      · exact Or.inr ⟨u, by simp [ownTable, hu], h1, h2⟩
    · exact absurd h id
    · exact Or.inr ⟨u, by simp [ownTable, hu], h1, h2⟩

theorem init_mem (env : Env) (A : Abs) (f fr) (h : fr ∈ (A.init env).stack f) :
    fr ∈ A.stack f ∨ FromOwn env f fr := by
  unfold Abs.init at h
  split at h
  · exact Or.inl h
  · rcases wrap_mem (onMain_mem env) _ _ _ f fr h with h | h | ⟨u, hu, h1, h2⟩
    · exact Or.inl h
    · exact Or.inr h
    · exact Or.inr ⟨u, by simp [ownTable, hu], h1, h2⟩

theorem step_mem (env : Env) (op : Op) (A : Abs) (f fr) (h : fr ∈ (A.step env op).1.stack f) :
    fr ∈ A.stack f ∨ FromOwn env f fr ∨ FromOp op f fr := by
  cases op with
  | wrap tbl tool =>
    rcases wrap_mem (onMain_mem env) _ _ _ f fr h with h | h | ⟨u, hu, h1, h2⟩
    · rcases init_mem env A f fr h with h | h
      · exact Or.inl h
      · exact Or.inr (Or.inl h)
    · exact Or.inr (Or.inl h)
    · exact Or.inr (Or.inr ⟨tbl, tool, u, rfl, hu, h1, h2⟩)
  | setPriority t v =>
    rcases init_mem env A f fr h with h | h
    · exact Or.inl h
    · exact Or.inr (Or.inl h)
  | getPriority t =>
    rcases init_mem env A f fr h with h | h
    · exact Or.inl h
    · exact Or.inr (Or.inl h)
  | setFilter f => exact Or.inl h
  | dlopen ld =>
    rw [step_dlopen] at h
    split at h <;> exact Or.inl h
  | load ld => exact Or.inl h
  | unload dead => exact Or.inl h

/-- Every frame belongs to a binding of a table passed to gotcha_wrap, under the tool it was passed
for, or is one of GOTCHA's own. -/
theorem run_mem (env : Env) (libs : List Lib) (ops : List Op) (f fr)
    (h : fr ∈ (Abs.run env ops (Abs.start libs)).1.stack f) :
    FromOwn env f fr ∨ ∃ op ∈ ops, FromOp op f fr := by
  induction ops using List.reverseRecOn generalizing f fr with
  | nil => simp [Abs.run, Abs.start] at h
  | append_singleton ops op ih =>
    rw [run_snoc] at h
    rcases step_mem env op _ f fr h with h | h | h
    · rcases ih f fr h with h | ⟨o, ho, h⟩
      · exact Or.inl h
      · exact Or.inr ⟨o, by simp [ho], h⟩
    · exact Or.inl h
    · exact Or.inr ⟨op, by simp, h⟩

/-! ### priorities -/

theorem touch_prio_self (A : Abs) (t : Name) (h : A.prio t ≠ none) : (A.touch t).prio = A.prio := by
  funext n
  unfold Abs.touch Abs.prioOf
  by_cases e : n = t
  · subst e
    cases hp : A.prio n with
    | none => exact absurd hp h
    | some v => simp
  · simp [upd_ne _ _ e]

theorem pushAll_prio {om : Abs → Abs}
    (hom : ∀ A : Abs, A.prio (nm "gotcha") ≠ none → (om A).prio = A.prio) (tool : Name)
    (us : List UBinding) : ∀ A : Abs, A.prio (nm "gotcha") ≠ none →
    (Abs.pushAll om tool us A).1.prio = A.prio := by
  induction us with
  | nil => intro A _; rfl
  | cons u us ih =>
    intro A hA
    rw [Abs.pushAll]
    dsimp only
    have h1 : (if u.name = nm "main" then om A else A).prio = A.prio := by
      split
      · exact hom A hA
      · rfl
    rw [ih _ (by rw [push_prio, h1]; exact hA), push_prio, h1]

theorem wrap_prio {om : Abs → Abs}
    (hom : ∀ A : Abs, A.prio (nm "gotcha") ≠ none → (om A).prio = A.prio) (tbl tool) (A : Abs)
    (hA : (A.touch (toolName tool)).prio (nm "gotcha") ≠ none) :
    (Abs.wrap om tbl tool A).1.prio = (A.touch (toolName tool)).prio :=
  pushAll_prio hom _ _ _ hA

theorem onMain_prio (env : Env) (A : Abs) (hA : A.prio (nm "gotcha") ≠ none) :
    (A.onMain env).prio = A.prio := by
  unfold Abs.onMain
  split
  · rfl
  · dsimp only
    have h1 : (Abs.wrap id (libcMainTable env) (some (nm "gotcha"))
        { A with mainWrapped := true }).1.prio = A.prio := by
      have ht : (Abs.touch { A with mainWrapped := true } (toolName (some (nm "gotcha")))).prio =
          A.prio := touch_prio_self { A with mainWrapped := true } _ hA
      rw [wrap_prio (om := id) (fun _ _ => rfl) _ _ _ (by rw [ht]; exact hA), ht]
    have ht := touch_prio_self (Abs.wrap id (libcMainTable env) (some (nm "gotcha"))
        { A with mainWrapped := true }).1 (nm "gotcha") (by rw [h1]; exact hA)
    rw [wrap_prio (om := id) (fun _ _ => rfl) _ _ _ (by
      show (Abs.touch _ (nm "gotcha")).prio _ ≠ none
      rw [ht, h1]; exact hA)]
    show (Abs.touch _ (nm "gotcha")).prio = _
    rw [ht, h1]

theorem touch_gotcha (A : Abs) (t : Name) (h : A.prio (nm "gotcha") ≠ none ∨ t = nm "gotcha") :
    (A.touch t).prio (nm "gotcha") ≠ none := by
  unfold Abs.touch
  by_cases e : nm "gotcha" = t
  · rw [← e]; simp
  · show upd A.prio t _ (nm "gotcha") ≠ none
    rw [upd_ne _ _ e]
    rcases h with h | h
    · exact h
    · exact absurd h.symm e

theorem init_prio (env : Env) (A : Abs) :
    (A.init env).prio = if A.inited then A.prio else (A.touch (nm "gotcha")).prio := by
  unfold Abs.init
  split
  · rfl
  · exact wrap_prio (onMain_prio env) _ (some (nm "gotcha")) _ (touch_gotcha _ _ (Or.inr rfl))

theorem lastSet_snoc (t : Name) (ops : List Op) (op : Op) :
    lastSet t (ops ++ [op]) = (lastSet t [op]).or (lastSet t ops) := by
  induction ops with
  | nil => simp [lastSet]
  | cons o ops ih =>
    cases o <;> simp only [List.cons_append, lastSet, ih]
    rw [Option.or_assoc]

/-- The priorities in the specification are those determined by the history alone, and a process
using GOTCHA is one that made an API call. -/
theorem run_prio (env : Env) (libs : List Lib) (ops : List Op) :
    (∀ t, (Abs.run env ops (Abs.start libs)).1.prio t = prioAfter t ops) ∧
      ((Abs.run env ops (Abs.start libs)).1.inited = ops.any isApi) := by
  induction ops using List.reverseRecOn with
  | nil => exact ⟨fun t => rfl, rfl⟩
  | append_singleton ops op ih =>
    obtain ⟨ih1, ih2⟩ := ih
    rw [run_snoc]
    generalize hA : (Abs.run env ops (Abs.start libs)).1 = A at *
    have hgot : ∀ t, (A.init env).prio t =
        if t = nm "gotcha" ∧ prioAfter t ops = none then some (-1) else prioAfter t ops := by
      intro t
      rw [init_prio]
      by_cases hi : A.inited = true
      · rw [if_pos hi, ih1]
        rw [if_neg]
        rintro ⟨rfl, hn⟩
        unfold prioAfter at hn
        split at hn
        · cases hn
        · rw [if_pos] at hn
          · cases hn
          · rw [ih2] at hi
            rw [List.any_eq_true] at hi ⊢
            obtain ⟨o, ho, h⟩ := hi
            refine ⟨o, ho, ?_⟩
            cases o <;> simp_all [isApi, names]
      · rw [if_neg hi]
        unfold Abs.touch Abs.prioOf
        by_cases e : t = nm "gotcha"
        · subst e
          show upd A.prio _ _ _ = _
          rw [upd_self, ih1]
          cases hp : prioAfter (nm "gotcha") ops <;> simp
        · show upd A.prio _ _ _ = _
          rw [upd_ne _ _ e, ih1]
          simp [e]
    have hgne : (A.init env).prio (nm "gotcha") ≠ none := by
      rw [hgot]
      split
      · simp
      · rename_i hc
        intro hn
        exact hc ⟨rfl, hn⟩
    have hsnoc : ∀ t, prioAfter t (ops ++ [op]) =
        match lastSet t [op] with
        | some v => some v
        | none => match prioAfter t ops with
          | some v => some v
          | none => if names t op then some (-1) else none := by
      intro t
      unfold prioAfter
      rw [lastSet_snoc]
      cases h1 : lastSet t [op] with
      | some v => rfl
      | none =>
        simp only [Option.none_or]
        cases h2 : lastSet t ops with
        | some v => rfl
        | none =>
          simp only [List.any_append, List.any_cons, List.any_nil, Bool.or_false, Bool.or_eq_true]
          by_cases h3 : ops.any (names t) = true
          · simp [h3]
          · simp only [h3, false_or, if_false, Bool.false_eq_true]
    have hl0 : ∀ t, (∀ t' v, op ≠ .setPriority t' v) → lastSet t [op] = none := by
      intro t h
      cases op <;> simp [lastSet]
      exact absurd rfl (h _ _)
    cases op with
    | wrap tbl tool =>
      constructor
      · intro t
        show (Abs.wrap _ _ _ _).1.prio t = _
        rw [wrap_prio (onMain_prio env) _ _ _ (touch_gotcha _ _ (Or.inl hgne)), hsnoc,
          hl0 t (by simp)]
        simp only [names]
        unfold Abs.touch Abs.prioOf
        by_cases e : t = toolName tool
        · subst e
          show upd _ _ _ _ = _
          rw [upd_self, hgot]
          cases hp : prioAfter (toolName tool) ops with
          | some v => simp
          | none =>
            by_cases e' : toolName tool = nm "gotcha"
            · simp [e']
            · simp [e']
        · show upd _ _ _ _ = _
          rw [upd_ne _ _ e, hgot]
          have e'' : toolName tool ≠ t := fun h => e h.symm
          cases hp : prioAfter t ops with
          | some v => simp
          | none => simp [e'']
      · show (Abs.wrap _ _ _ _).1.inited = _
        rw [(wrap_same (onMain_same env) _ _ _).inited, init_inited]
        simp [isApi]
    | setPriority t' v =>
      constructor
      · intro t
        show upd _ _ _ _ = _
        rw [hsnoc]
        by_cases e : t = t'
        · subst e; simp [lastSet]
        · have e' : t' ≠ t := fun h => e h.symm
          rw [upd_ne _ _ e, hgot]
          simp only [lastSet, e', if_false, Option.or_none, names]
          cases hp : prioAfter t ops with
          | some v => simp
          | none => simp [e']
      · show (A.init env).inited = _
        rw [init_inited]; simp [isApi]
    | getPriority t' =>
      constructor
      · intro t
        show (A.init env).prio t = _
        rw [hsnoc, hgot, hl0 t (by simp)]
        simp only [names]
        cases hp : prioAfter t ops with
        | some v => simp
        | none => simp
      · show (A.init env).inited = _
        rw [init_inited]; simp [isApi]
    | setFilter f =>
      refine ⟨fun t => ?_, by simp [isApi, ← ih2, Abs.step]⟩
      rw [hsnoc, hl0 t (by simp)]
      show A.prio t = _
      rw [ih1]
      cases prioAfter t ops <;> simp [names]
    | dlopen ld =>
      refine ⟨fun t => ?_, ?_⟩
      · rw [hsnoc, hl0 t (by simp)]
        have : (A.step env (.dlopen ld)).1.prio t = A.prio t := by
          rw [step_dlopen]; split <;> rfl
        rw [this, ih1]
        cases prioAfter t ops <;> simp [names]
      · have : (A.step env (.dlopen ld)).1.inited = A.inited := by
          rw [step_dlopen]
          split
          · simp [Abs.dlopen]
          · rfl
        rw [this, ih2]; simp [isApi]
    | load ld =>
      refine ⟨fun t => ?_, by simp [isApi, ← ih2, Abs.step]⟩
      rw [hsnoc, hl0 t (by simp)]
      show A.prio t = _
      rw [ih1]
      cases prioAfter t ops <;> simp [names]
    | unload dead =>
      refine ⟨fun t => ?_, by simp [isApi, ← ih2, Abs.step]⟩
      rw [hsnoc, hl0 t (by simp)]
      show A.prio t = _
      rw [ih1]
      cases prioAfter t ops <;> simp [names]

end Gotcha.Spec
