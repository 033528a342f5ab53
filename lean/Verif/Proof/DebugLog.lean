import Verif.Proof.Debug
import Verif.Proof.AbsFacts
import Verif.Proof.View
import Verif.Proof.Calls
/-
Facts about the abstract log.
-/
namespace Gotcha.Spec
open Gotcha

theorem pushAllLog_symbol {oml : Abs → List Msg} {om : Abs → Abs} (hom : ∀ A, Same A (om A))
    (homl : ∀ A f, Msg.symbol f ∈ oml A → A.resolve f = none) (tool : Name) (us : List UBinding) :
    ∀ (A : Abs) (f : Name), Msg.symbol f ∈ pushAllLog oml om tool us A → A.resolve f = none := by
  induction us with
  | nil => intro A f h; cases h
  | cons u us ih =>
    intro A f h
    have h1 : Same A (if u.name = nm "main" then om A else A) := by
      split
      · exact hom A
      · exact Same.refl A
    have hres : ∀ {A B : Abs}, Same A B → ∀ g, B.resolve g = A.resolve g := by
      intro A B h g; simp only [Abs.resolve, h.libs, h.vdso]
    simp only [pushAllLog, List.mem_append] at h
    rcases h with h | h | h
    · by_cases e : u.name = nm "main"
      · rw [if_pos e] at h; exact homl A f h
      · rw [if_neg e] at h; cases h
    · rw [← hres h1]
      generalize (if u.name = nm "main" then om A else A) = B at h ⊢
      by_cases hr : (B.push tool (A.prioOf tool) u).2 = true
      · rw [if_pos hr] at h
        simp only [List.mem_singleton, Msg.symbol.injEq] at h
        subst h
        unfold Abs.push at hr
        dsimp only at hr
        split at hr
        · simpa using hr
        · cases hr
      · rw [if_neg hr] at h; cases h
    · have h2 : Same (if u.name = nm "main" then om A else A)
          ((if u.name = nm "main" then om A else A).push tool (A.prioOf tool) u).1 := by
        generalize (if u.name = nm "main" then om A else A) = B
        unfold Abs.push
        dsimp only
        split <;> exact ⟨rfl, rfl, rfl⟩
      rw [← hres (h1.trans h2)]
      exact ih _ f h

theorem wrapLog_symbol {oml : Abs → List Msg} {om : Abs → Abs} (hom : ∀ A, Same A (om A))
    (homl : ∀ A f, Msg.symbol f ∈ oml A → A.resolve f = none) (tbl tool) (A : Abs) (f : Name)
    (h : Msg.symbol f ∈ wrapLog oml om tbl tool A) : A.resolve f = none := by
  unfold wrapLog toolLog doneMsg at h
  dsimp only at h
  simp only [List.mem_append, List.mem_singleton, reduceCtorEq, false_or] at h
  rcases h with h | h | h
  · split at h <;> simp at h
  · exact (pushAllLog_symbol hom homl _ tbl _ f h :)
  · split at h <;> cases h

theorem onMainLog_symbol (env : Env) (A : Abs) (f : Name) (h : Msg.symbol f ∈ onMainLog env A) :
    A.resolve f = none := by
  unfold onMainLog at h
  split at h
  · cases h
  · rcases List.mem_append.1 h with h | h
    · exact (wrapLog_symbol Same.refl (by simp) _ _ _ f h :)
    · have := wrapLog_symbol Same.refl (by simp) _ _ _ f h
      have hs := wrap_same (om := id) Same.refl (libcMainTable env) (some (nm "gotcha"))
        { A with mainWrapped := true }
      unfold Abs.resolve at this ⊢
      rw [hs.libs, hs.vdso] at this
      exact this

theorem initLog_symbol (env : Env) (A : Abs) (f : Name) (h : Msg.symbol f ∈ initLog env A) :
    (A.init env).resolve f = none := by
  unfold initLog at h
  split at h
  · cases h
  · rename_i hi
    have := wrapLog_symbol (onMain_same env) (onMainLog_symbol env) _ _ _ f h
    simp only [Abs.resolve, init_vdso, if_neg hi, init_libs]
    exact this

/-- A table without "main". -/
theorem pushAllLog_missing (oml om) (tool : Name) (us : List UBinding)
    (hm : ∀ u ∈ us, u.name ≠ nm "main") : ∀ (A : Abs) (reg found : Name → Bool),
    (∀ f, reg f = true ↔ A.stack f ≠ []) → (∀ f, found f = (A.resolve f).isSome) →
    pushAllLog oml om tool us A = (missing reg found us).map Msg.symbol ∧
      (Abs.pushAll om tool us A).2 = (missing reg found us).length := by
  induction us with
  | nil => intro A reg found _ _; exact ⟨rfl, rfl⟩
  | cons u us ih =>
    intro A reg found hreg hfound
    have hne := hm u (by simp)
    have hpush : (∀ f, (reg f || decide (f = u.name)) = true ↔
          (A.push tool (A.prioOf tool) u).1.stack f ≠ []) ∧
        (∀ f, found f = ((A.push tool (A.prioOf tool) u).1.resolve f).isSome) ∧
        ((A.push tool (A.prioOf tool) u).2 = true ↔ reg u.name = false ∧ found u.name = false) := by
      unfold Abs.push
      dsimp only
      split
      · next hs =>
        refine ⟨?_, hfound, ?_⟩
        · intro f
          by_cases e : f = u.name
          · simp [e]
          · dsimp only; rw [upd_ne _ _ e, ← hreg f]; simp [e]
        · have : reg u.name = false := by
            rw [← Bool.not_eq_true, hreg, hs]; simp
          rw [this, hfound]
          cases A.resolve u.name <;> simp
      · next hs =>
        refine ⟨?_, hfound, ?_⟩
        · intro f
          by_cases e : f = u.name
          · subst e
            simp only [decide_true, Bool.or_true, upd_self, true_iff]
            cases hst : A.stack u.name with
            | nil => exact absurd hst hs
            | cons y ys =>
              unfold insertBefore
              split <;> simp
          · dsimp only; rw [upd_ne _ _ e, ← hreg f]; simp [e]
        · have : reg u.name = true := (hreg _).2 hs
          simp [this]
    obtain ⟨p1, p2, p3⟩ := hpush
    obtain ⟨i1, i2⟩ := ih (fun v hv => hm v (by simp [hv])) _ _ found p1 p2
    rw [pushAllLog, Abs.pushAll, missing]
    dsimp only
    rw [if_neg hne, if_neg hne]
    refine ⟨?_, ?_⟩
    · rw [i1, List.map_append]
      by_cases hr : (A.push tool (A.prioOf tool) u).2 = true
      · rw [if_pos hr]
        obtain ⟨q1, q2⟩ := p3.1 hr
        simp [q1, q2]
      · rw [if_neg hr]
        have : (reg u.name || found u.name) = true := by
          by_contra hc
          apply hr; rw [p3]
          simpa using hc
        simp [this]
    · rw [i2, List.length_append]
      by_cases hr : (A.push tool (A.prioOf tool) u).2 = true
      · rw [if_pos hr]
        obtain ⟨q1, q2⟩ := p3.1 hr
        simp [q1, q2]; omega
      · rw [if_neg hr]
        have : (reg u.name || found u.name) = true := by
          by_contra hc
          apply hr; rw [p3]
          simpa using hc
        simp [this]

/-- The state after `ops`, and what gotcha_wrap prints then, from the abstract log. -/
theorem wrap_callLog {p : Process} (ok : p.Ok) {ops : List Op} {tbl tool}
    (h : History p False (ops ++ [.wrap tbl tool])) {s os}
    (hr : run p.env ops p.start = .ok (s, os)) :
    ∃ s' c, gotchaWrap p.env tbl tool s = .ok (s', c) ∧
      Lg.gotchaWrap p.env tbl tool s =
        .ok (callLog p.env tbl tool (Abs.run p.env ops p.abs).1, (s', c)) := by
  obtain ⟨s0, s1, e1, e2, e3, e4, e5, e6⟩ := history_step ok h
  rw [hr] at e1
  cases e1
  have hw : ∃ s' c, gotchaWrap p.env tbl tool s = .ok (s', c) := by
    simp only [stepOp, bind, Except.bind] at e2
    cases hg : gotchaWrap p.env tbl tool s with
    | error e => simp [hg] at e2
    | ok z => exact ⟨z.1, z.2, rfl⟩
  obtain ⟨s', c, hw⟩ := hw
  obtain ⟨lg, hlg⟩ := Lg.erase_ok ((Lg.erase_gotchaWrap p.env tbl tool s).trans hw)
  refine ⟨s', c, hw, ?_⟩
  rw [hlg, gotchaWrap_log (C := p.ctx True False) ok.world trivial (fun h => h) h.honest.own
    (by omega) e4 (honA_of (post := []) h.honest) hlg]
  rfl

end Gotcha.Spec
