import Verif.Proof.Tests
/-
The real function once found is the real function in every continuation.
-/
namespace Gotcha.Spec

theorem registered_quiet (env : Env) (f : Name) {l : List Op} (hl : l.any isApi = false) :
    registered env l f = [] := by
  have key : ∀ ops mw, ops.any isApi = false → regs env false mw ops = [] := by
    intro ops
    induction ops with
    | nil => intros; rfl
    | cons o ops ih =>
      intro mw h
      simp only [List.any_cons, Bool.or_eq_false_iff] at h
      rw [regs, h.1, Bool.or_false, ih _ h.2]
      cases o <;> simp_all [opRegs, isApi]
  simp [registered, key l false hl, framesIn]

theorem tries_quiet (env : Env) (libs : List Lib) (f : Name) (rest : List Op) :
    ∀ done, (done ++ rest).any isApi = false → tries env libs f done rest = [] := by
  induction rest with
  | nil => intros; rfl
  | cons o rest ih =>
    intro done h
    rw [tries, ih (done ++ [o]) (by simpa using h), List.append_nil, if_neg]
    simp only [List.any_append, List.any_cons, Bool.or_eq_false_iff] at h
    unfold isTry
    rw [registered_quiet env f h.1]
    split
    · simp
    · rw [registered_quiet env f (l := done ++ [o]) (by simp [h.1, h.2.1])]; simp

theorem vdsoAfter_append (env : Env) (more ops : List Op) : ∀ libs, ops.any isApi = true →
    vdsoAfter env libs (ops ++ more) = vdsoAfter env libs ops := by
  induction ops with
  | nil => intro libs h; simp at h
  | cons o ops ih =>
    intro libs h
    simp only [List.cons_append, vdsoAfter]
    by_cases ho : isApi o = true
    · simp [ho]
    · simp only [ho, Bool.false_eq_true, if_false]
      exact ih _ (by simpa [ho] using h)

/-- The real function stays. -/
theorem realAfter_append {env : Env} {libs : List Lib} {ops : List Op} {f : Name} {r : Addr}
    (h : realAfter env libs ops f = some r) (more : List Op) :
    realAfter env libs (ops ++ more) f = some r := by
  cases ha : ops.any isApi with
  | false =>
    unfold realAfter at h
    rw [tries_quiet env libs f ops [] (by simpa using ha)] at h
    simp at h
  | true =>
    unfold realAfter at h ⊢
    rw [tries_append, vdsoAfter_append env more ops libs ha, List.findSome?_append, h]
    rfl

theorem tries_mem {env : Env} {libs : List Lib} {f : Name} {L : List Lib} (rest : List Op) :
    ∀ {done}, L ∈ tries env libs f done rest →
      ∃ pre post, rest = pre ++ post ∧ L = libsAfter libs (done ++ pre) := by
  induction rest with
  | nil => intro done h; simp [tries] at h
  | cons o rest ih =>
    intro done h
    rw [tries, List.mem_append] at h
    rcases h with h | h
    · split at h
      · exact ⟨[o], rest, rfl, by simpa using h⟩
      · simp at h
    · obtain ⟨pre, post, e, e'⟩ := ih h
      exact ⟨o :: pre, post, by rw [e]; rfl, by rw [e']; simp⟩

/-- It was the definition of some object loaded at the time. -/
theorem realAfter_from {env : Env} {libs : List Lib} {ops : List Op} {f : Name} {r : Addr}
    (h : realAfter env libs ops f = some r) :
    ∃ pre post d, ops = pre ++ post ∧ d ∈ libsAfter libs pre ∧ exportsAt d f = some r := by
  unfold realAfter at h
  obtain ⟨L, hL, hd⟩ := List.exists_of_findSome?_eq_some h
  obtain ⟨pre, post, e, e'⟩ := tries_mem ops hL
  obtain ⟨l1, l, l2, e2, -, hx, -⟩ := (firstDef_iff _ _ _ _).1 hd
  refine ⟨pre, post, l, e, ?_, hx⟩
  rw [List.nil_append] at e'
  rw [← e', e2]; simp

/-- An object that no dlclose takes away is still loaded. -/
theorem libsAfter_stays {d : Lib} (libs : List Lib) (post : List Op) : ∀ {pre : List Op},
    d ∈ libsAfter libs pre →
    (∀ a dead b, post = a ++ .unload dead :: b → d ∈ libsAfter libs (pre ++ a) → dead d.lm = false) →
    d ∈ libsAfter libs (pre ++ post) := by
  induction post with
  | nil => intro pre h _; simpa using h
  | cons o post ih =>
    intro pre h hk
    have h1 : d ∈ libsAfter libs (pre ++ [o]) := by
      rw [libsAfter_snoc]
      cases o with
      | unload dead =>
        have := hk [] dead post rfl (by simpa using h)
        simp [loadStep, h, this]
      | dlopen ld => exact List.mem_append_left _ h
      | load ld => exact List.mem_append_left _ h
      | _ => exact h
    have := ih h1 (fun a dead b e hd => hk (o :: a) dead b (by rw [e]; rfl) (by simpa using hd))
    simpa using this

end Gotcha.Spec
