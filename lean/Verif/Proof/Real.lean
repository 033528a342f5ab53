import Verif.Spec.Real
import Verif.Proof.Order
/-
The real functions of the specification are those determined by the link maps of the history.
-/
namespace Gotcha.Spec

theorem libsAfter_snoc (libs : List Lib) (ops : List Op) (op : Op) :
    libsAfter libs (ops ++ [op]) = loadStep (libsAfter libs ops) op := by
  simp [libsAfter]

theorem tries_snoc (env : Env) (libs : List Lib) (f : Name) (rest : List Op) (op : Op) :
    ∀ done, tries env libs f done (rest ++ [op]) = tries env libs f done rest ++
      if isTry env f (done ++ rest) op then [libsAfter libs (done ++ rest ++ [op])] else [] := by
  induction rest with
  | nil => intro done; simp [tries]
  | cons o rest ih => intro done; simp [tries, ih]

theorem vdsoAfter_snoc (env : Env) (op : Op) (ops : List Op) : ∀ libs,
    vdsoAfter env libs (ops ++ [op]) =
      if ops.any isApi then vdsoAfter env libs ops
      else if isApi op then env.vdsoOf (libsAfter libs ops) else none := by
  induction ops with
  | nil => intro libs; simp [vdsoAfter, libsAfter]
  | cons o ops ih =>
    intro libs
    simp only [List.cons_append, vdsoAfter, List.any_cons]
    by_cases ho : isApi o = true
    · simp [ho]
    · simp [ho, ih, libsAfter]

/-- Registering resolves a function the first time and never again. -/
structure Res (A A' : Abs) : Prop where
  same : Same A A'
  keep : ∀ f, A.stack f ≠ [] → A'.stack f ≠ [] ∧ A'.real f = A.real f
  new : ∀ f, A.stack f = [] → A'.stack f = [] ∧ A'.real f = A.real f ∨
    A'.stack f ≠ [] ∧ A'.real f = firstDef A.vdso A.libs f

theorem Res.refl (A : Abs) : Res A A :=
  ⟨Same.refl A, fun _ h => ⟨h, rfl⟩, fun _ h => Or.inl ⟨h, rfl⟩⟩

theorem Res.trans {A B D} (h1 : Res A B) (h2 : Res B D) : Res A D := by
  refine ⟨h1.same.trans h2.same, fun f hf => ?_, fun f hf => ?_⟩
  · obtain ⟨a, b⟩ := h1.keep f hf
    obtain ⟨c, d⟩ := h2.keep f a
    exact ⟨c, d.trans b⟩
  · rcases h1.new f hf with ⟨a, b⟩ | ⟨a, b⟩
    · rcases h2.new f a with ⟨c, d⟩ | ⟨c, d⟩
      · exact Or.inl ⟨c, d.trans b⟩
      · rw [h1.same.vdso, h1.same.libs] at d
        exact Or.inr ⟨c, d⟩
    · obtain ⟨c, d⟩ := h2.keep f a
      exact Or.inr ⟨c, d.trans b⟩

theorem insertBefore_ne {α : Type} (q : α → Bool) (x : α) (L : List α) :
    insertBefore q x L ≠ [] := by
  cases L <;> simp only [insertBefore]
  · simp
  · split <;> simp

theorem push_res (A : Abs) (tool p u) : Res A (A.push tool p u).1 := by
  refine ⟨push_same A tool p u, fun f hf => ⟨(push_grow A tool p u).ne hf, ?_⟩, fun f hf => ?_⟩
  · unfold Abs.push
    cases hs : A.stack u.name with
    | nil =>
      have e : f ≠ u.name := fun e => hf (by rw [e]; exact hs)
      simp [upd_ne _ _ e]
    | cons g gs => rfl
  · unfold Abs.push
    cases hs : A.stack u.name with
    | nil =>
      by_cases e : f = u.name
      · subst e; right; simp [Abs.resolve]
      · left; simp [upd_ne _ _ e, hf]
    | cons g gs =>
      have e : f ≠ u.name := fun e => by rw [e, hs] at hf; cases hf
      left; simp [upd_ne _ _ e, hf]

theorem pushAll_res {om : Abs → Abs} (hom : ∀ A, Res A (om A)) (tool : Name)
    (us : List UBinding) : ∀ A : Abs, Res A (Abs.pushAll om tool us A).1 := by
  induction us with
  | nil => intro A; exact Res.refl A
  | cons u us ih =>
    intro A
    rw [Abs.pushAll]
    dsimp only
    refine Res.trans ?_ (ih _)
    split
    · exact (hom A).trans (push_res _ _ _ _)
    · exact push_res _ _ _ _

theorem wrap_res {om : Abs → Abs} (hom : ∀ A, Res A (om A)) (tbl tool) (A : Abs) :
    Res A (Abs.wrap om tbl tool A).1 := by
  unfold Abs.wrap
  exact Res.trans (B := A.touch _)
    ⟨⟨rfl, rfl, rfl⟩, fun _ h => ⟨h, rfl⟩, fun _ h => Or.inl ⟨h, rfl⟩⟩ (pushAll_res hom _ _ _)

theorem onMain_res (env : Env) (A : Abs) : Res A (A.onMain env) := by
  unfold Abs.onMain
  split
  · exact Res.refl A
  · exact Res.trans (B := { A with mainWrapped := true })
      ⟨⟨rfl, rfl, rfl⟩, fun _ h => ⟨h, rfl⟩, fun _ h => Or.inl ⟨h, rfl⟩⟩
      ((wrap_res Res.refl _ _ _).trans (wrap_res Res.refl _ _ _))

/-- `A` with GOTCHA in use and the vdso looked for. -/
def Abs.ready (env : Env) (A : Abs) : Abs :=
  if A.inited then A else { A with inited := true, vdso := env.vdsoOf A.libs }

theorem init_res (env : Env) (A : Abs) : Res (A.ready env) (A.init env) := by
  unfold Abs.init Abs.ready
  split
  · exact Res.refl A
  · exact wrap_res (onMain_res env) _ _ _

theorem ready_stack (env : Env) (A : Abs) : (A.ready env).stack = A.stack := by
  unfold Abs.ready; split <;> rfl
theorem ready_real (env : Env) (A : Abs) : (A.ready env).real = A.real := by
  unfold Abs.ready; split <;> rfl
theorem ready_libs (env : Env) (A : Abs) : (A.ready env).libs = A.libs := by
  unfold Abs.ready; split <;> rfl
theorem ready_inited (env : Env) (A : Abs) : (A.ready env).inited = true := by
  unfold Abs.ready; split
  · assumption
  · rfl

/-- API calls. -/
theorem api_res (env : Env) (A : Abs) (op : Op) (h : isApi op = true) :
    Res (A.ready env) (A.step env op).1 := by
  cases op with
  | wrap tbl tool => exact (init_res env A).trans (wrap_res (onMain_res env) _ _ _)
  | setPriority t v =>
    exact (init_res env A).trans
      ⟨⟨rfl, rfl, rfl⟩, fun _ h => ⟨h, rfl⟩, fun _ h => Or.inl ⟨h, rfl⟩⟩
  | getPriority t => exact init_res env A
  | setFilter f => cases h
  | dlopen ld => cases h
  | load ld => cases h
  | unload d => cases h

theorem perm_empty {α : Type} {L M : List α} (h : L.Perm M) : L = [] ↔ M.isEmpty = true := by
  rw [List.isEmpty_iff]
  constructor
  · rintro rfl; exact List.nil_perm.1 h
  · rintro rfl; exact List.perm_nil.1 h

theorem run_stack_nil (env : Env) (libs : List Lib) (ops : List Op) (f : Name) :
    (Abs.run env ops (Abs.start libs)).1.stack f = [] ↔ (registered env ops f).isEmpty = true :=
  perm_empty ((run_ordered env libs ops).perm f)

/-- What is loaded, the vdso and the real functions, from the history alone. -/
theorem run_real (env : Env) (libs : List Lib) (ops : List Op) :
    (Abs.run env ops (Abs.start libs)).1.libs = libsAfter libs ops ∧
    (Abs.run env ops (Abs.start libs)).1.vdso = vdsoAfter env libs ops ∧
    ∀ f, (Abs.run env ops (Abs.start libs)).1.real f = realAfter env libs ops f := by
  induction ops using List.reverseRecOn with
  | nil => exact ⟨rfl, rfl, fun f => rfl⟩
  | append_singleton ops op ih =>
    obtain ⟨il, iv, ir⟩ := ih
    have hini := (run_prio env libs ops).2
    have hst := run_stack_nil env libs ops
    have hst' := run_stack_nil env libs (ops ++ [op])
    rw [run_snoc] at hst' ⊢
    generalize (Abs.run env ops (Abs.start libs)).1 = A at *
    -- before the first API call nothing is registered
    have hnone : ops.any isApi = false → ∀ f, registered env ops f = [] := by
      intro h f
      have key : ∀ ops mw, ops.any isApi = false → regs env false mw ops = [] := by
        intro ops
        induction ops with
        | nil => intros; rfl
        | cons o ops ih =>
          intro mw h
          simp only [List.any_cons, Bool.or_eq_false_iff] at h
          rw [regs, h.1, Bool.or_false, ih _ h.2]
          cases o <;> simp_all [opRegs, isApi]
      simp [registered, key ops false h, framesIn]
    -- the vdso does not matter before the first API call
    have htr : ops.any isApi = false → ∀ f, tries env libs f [] ops = [] := by
      intro h f
      have key : ∀ rest done, (done ++ rest).any isApi = false →
          tries env libs f done rest = [] := by
        intro rest
        induction rest with
        | nil => intros; rfl
        | cons o rest ih =>
          intro done h
          rw [tries, ih (done ++ [o]) (by simpa using h), List.append_nil]
          rw [if_neg]
          have hd : ∀ l : List Op, l.any isApi = false → registered env l f = [] := by
            intro l hl
            have key : ∀ ops mw, ops.any isApi = false → regs env false mw ops = [] := by
              intro ops
              induction ops with
              | nil => intros; rfl
              | cons o ops ih =>
                intro mw h
                simp only [List.any_cons, Bool.or_eq_false_iff] at h
                rw [regs, h.1, Bool.or_false, ih _ h.2]
                cases o <;> simp_all [opRegs, isApi]
            simp [registered, key l false hl, framesIn]
          simp only [List.any_append, List.any_cons, Bool.or_eq_false_iff] at h
          unfold isTry
          rw [hd done h.1]
          split
          · simp
          · rw [hd (done ++ [o]) (by simp [h.1, h.2.1])]; simp
      exact key ops [] (by simpa using h)
    have hreal : ∀ f, realAfter env libs (ops ++ [op]) f =
        (realAfter env libs ops f).or (if isTry env f ops op then
          firstDef (vdsoAfter env libs (ops ++ [op])) (libsAfter libs (ops ++ [op])) f else none) := by
      intro f
      unfold realAfter
      rw [tries_snoc, List.findSome?_append, List.nil_append]
      congr 1
      · cases ha : ops.any isApi with
        | true => rw [vdsoAfter_snoc, ha]; simp
        | false => rw [htr ha f]; rfl
      · split <;> simp
    rw [libsAfter_snoc, vdsoAfter_snoc]
    by_cases hapi : isApi op = true
    · have hres := api_res env A op hapi
      have hls : loadStep (libsAfter libs ops) op = libsAfter libs ops := by
        cases op <;> first | rfl | cases hapi
      have hvd : (A.ready env).vdso = vdsoAfter env libs (ops ++ [op]) := by
        rw [vdsoAfter_snoc, ← hini, hapi, ← il]
        unfold Abs.ready
        cases hA : A.inited with
        | true => simp only [if_true]; exact iv
        | false => simp
      refine ⟨?_, ?_, ?_⟩
      · rw [hres.same.libs, ready_libs, il, hls]
      · rw [hres.same.vdso, hvd, vdsoAfter_snoc]
      · intro f
        rw [hreal]
        have hty : isTry env f ops op = ((registered env ops f).isEmpty &&
            !(registered env (ops ++ [op]) f).isEmpty) := by
          cases op <;> first | rfl | cases hapi
        rw [hty]
        by_cases hs : A.stack f = []
        · have e1 := (hst f).1 hs
          -- not resolved before it was registered
          have hn : realAfter env libs ops f = none := by
            unfold realAfter
            have key : ∀ rest done, registered env (done ++ rest) f = [] →
                tries env libs f done rest = [] := by
              intro rest
              induction rest with
              | nil => intros; rfl
              | cons o rest ih =>
                intro done h
                have hpre : ∀ a b, registered env (a ++ b) f = [] → registered env a f = [] := by
                  intro a b
                  induction b using List.reverseRecOn with
                  | nil => intro h; simpa using h
                  | append_singleton b x ih =>
                    intro h
                    apply ih
                    rw [← List.append_assoc] at h
                    unfold registered at h
                    rw [regs_snoc, framesIn_append] at h
                    exact (List.append_eq_nil_iff.1 h).1
                rw [tries, ih (done ++ [o]) (by simpa using h), List.append_nil, if_neg]
                have h1 := hpre done (o :: rest) h
                have h2 := hpre (done ++ [o]) rest (by simpa using h)
                unfold isTry
                rw [h1, h2]
                split <;> simp
            rw [key ops [] (by simpa [List.isEmpty_iff] using e1)]
            rfl
          rw [hn, Option.none_or, e1]
          rcases hres.new f (by rw [ready_stack]; exact hs) with ⟨a, b⟩ | ⟨a, b⟩
          · have e2 := (hst' f).1 a
            rw [e2, b, ready_real, ir, hn]; rfl
          · have e2 : (registered env (ops ++ [op]) f).isEmpty = false := by
              rw [Bool.eq_false_iff]; intro hc; exact a ((hst' f).2 hc)
            rw [e2, b, hvd, ready_libs, il, libsAfter_snoc, hls]; rfl
        · have e1 : (registered env ops f).isEmpty = false := by
            rw [Bool.eq_false_iff]; intro hc; exact hs ((hst f).2 hc)
          obtain ⟨-, b⟩ := hres.keep f (by rw [ready_stack]; exact hs)
          rw [b, ready_real, ir, e1]
          simp
    · simp only [Bool.not_eq_true] at hapi
      have hvd : (A.step env op).1.vdso = A.vdso := by
        cases op <;> first | rfl | cases hapi | skip
        rw [step_dlopen]; split <;> rfl
      have hv0 : vdsoAfter env libs (ops ++ [op]) = vdsoAfter env libs ops := by
        rw [vdsoAfter_snoc, hapi]
        cases ha : ops.any isApi with
        | true => rfl
        | false =>
          have key : ∀ ops libs, ops.any isApi = false → vdsoAfter env libs ops = none := by
            intro ops
            induction ops with
            | nil => intros; rfl
            | cons o ops ih =>
              intro libs h
              simp only [List.any_cons, Bool.or_eq_false_iff] at h
              rw [vdsoAfter, h.1]
              exact ih _ h.2
          rw [key ops libs ha]; rfl
      have hregs : ∀ f, registered env (ops ++ [op]) f = registered env ops f := by
        intro f
        unfold registered
        rw [regs_snoc]
        have : ∀ i m, opRegs env i m op = [] := by
          intro i m
          cases op <;> cases hapi <;> simp [opRegs, isApi]
        rw [this, List.append_nil]
      refine ⟨?_, ?_, ?_⟩
      · cases op with
        | dlopen ld =>
          rw [step_dlopen, ← il]
          split <;> rfl
        | load ld => rw [← il]; rfl
        | unload d => rw [← il]; rfl
        | setFilter f => exact il
        | _ => cases hapi
      · rw [hvd, iv, ← vdsoAfter_snoc, hv0]
      · intro f
        rw [hreal, hv0]
        cases op with
        | dlopen ld =>
          rw [step_dlopen]
          show _ = Option.or _ (if (!(registered env ops f).isEmpty) = true then _ else none)
          by_cases hs : A.stack f = []
          · rw [(hst f).1 hs, ← ir]
            split <;> simp [Abs.dlopen, hs]
          · have e1 : (registered env ops f).isEmpty = false := by
              rw [Bool.eq_false_iff]; intro hc; exact hs ((hst f).2 hc)
            have hi : A.inited = true := by
              rw [hini]
              by_contra hc
              rw [Bool.not_eq_true] at hc
              rw [hnone hc f] at e1; cases e1
            rw [if_pos hi, e1, ← ir, ← iv, libsAfter_snoc, ← il]
            cases hr : A.real f with
            | some r => simp [Abs.dlopen, hr]
            | none => simp [Abs.dlopen, hr, hs, Abs.resolve, loadStep]
        | load ld =>
          show A.real f = _
          have : isTry env f ops (.load ld) = false := by
            unfold isTry; rw [hregs]; simp
          rw [this, ir]; simp
        | unload d =>
          show A.real f = _
          have : isTry env f ops (.unload d) = false := by
            unfold isTry; rw [hregs]; simp
          rw [this, ir]; simp
        | setFilter g =>
          show A.real f = _
          have : isTry env f ops (.setFilter g) = false := by
            unfold isTry; rw [hregs]; simp
          rw [this, ir]; simp
        | _ => cases hapi

end Gotcha.Spec
