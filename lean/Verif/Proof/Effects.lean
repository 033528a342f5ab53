import Verif.Spec.Effects
import Verif.Proof.Users
import Verif.Proof.Calls
/-
What GOTCHA did to memory during one event and during a history, for arbitrary clients.
-/
namespace Gotcha.Spec
open Gotcha HTable

theorem accepts_lets {flt : Filter} {l : Lib} {n : Bool} (h : flt.accepts l n = .ok true) :
    lets flt l n := by
  cases flt with
  | all => trivial
  | byName f =>
    cases f with
    | none => cases h
    | some f =>
      simp only [Filter.accepts] at h
      cases hn : l.name with
      | none => simp [hn] at h
      | some m =>
        simp only [hn, Except.ok.injEq] at h
        exact ⟨m, hn, (occursIn_iff f m).1 h⟩
  | last => simpa [Filter.accepts, lets] using h
  | custom f => simpa [Filter.accepts, lets] using h

theorem accepted_admitted {flt libs l} (h : Accepted flt libs l) : Admitted flt libs l := by
  obtain ⟨X, Y, e, h⟩ := h
  exact ⟨X, Y, e, accepts_lets h⟩

theorem loaderPart_mem (s : State) (op : Op) (a : Addr) :
    (loaderPart s op).mem a = loaderWord op a (s.mem a) := by
  cases op <;> rfl

theorem loaderPart_linkMap (s : State) (op : Op) :
    (loaderPart s op).linkMap = loadStep s.linkMap op := by
  cases op <;> rfl

theorem loaderPart_filter (s : State) (op : Op) :
    (loaderPart s op).filter = filterStep s.filter op := by
  cases op <;> rfl

/-- The last event of a run. -/
theorem run_last {env : Env} {ops : List Op} {op : Op} {s0 s' : State} {os'}
    (h : run env (ops ++ [op]) s0 = .ok (s', os')) :
    ∃ s os o, run env ops s0 = .ok (s, os) ∧ stepOp env op s = .ok (s', o) ∧ os' = os ++ [o] := by
  rw [run_append_model] at h
  cases h1 : run env ops s0 with
  | error e => simp [h1, bind, Except.bind] at h
  | ok x =>
    obtain ⟨s, os⟩ := x
    simp only [h1, bind, Except.bind, run] at h
    cases h2 : stepOp env op s with
    | error e => simp [h2] at h
    | ok y =>
      obtain ⟨s1, o⟩ := y
      simp only [h2, Except.ok.injEq, Prod.mk.injEq] at h
      exact ⟨s, os, o, rfl, by rw [h2, h.1], h.2.symm⟩

/-- Link map and filter of a run of arbitrary clients. -/
theorem events_env {p : Process} (ok : p.Ok) {strict : Prop} (ops : List Op)
    (h : Events p strict ops) : ∀ {s os}, run p.env ops p.start = .ok (s, os) →
    s.linkMap = libsAfter p.libs ops ∧ s.filter = filterAfter ops := by
  induction ops using List.reverseRecOn with
  | nil => intro s os hr; cases hr; exact ⟨rfl, rfl⟩
  | append_singleton ops op ih =>
    intro s' os' hr
    obtain ⟨s, os, o, h1, h2, -⟩ := run_last hr
    obtain ⟨e1, e2⟩ := ih h.prefix h1
    obtain ⟨-, -, e⟩ := events_step ok h h1 h2
    refine ⟨?_, ?_⟩
    · rw [e.linkMap, loaderPart_linkMap, e1, libsAfter_snoc]
    · rw [e.filter, loaderPart_filter, e2, filterAfter, filterAfter, List.foldl_append]
      rfl

/-- Memory after one event of arbitrary clients. -/
theorem events_mem {p : Process} (ok : p.Ok) {strict : Prop} {ops : List Op} {op : Op}
    (h : Events p strict (ops ++ [op])) {s os s' os'} (hr : run p.env ops p.start = .ok (s, os))
    (hr' : run p.env (ops ++ [op]) p.start = .ok (s', os')) (a : Addr) :
    s'.mem a = loaderWord op a (s.mem a) ∨
      ∃ l off f u, Admitted (filterAfter (ops ++ [op])) (libsAfter p.libs (ops ++ [op])) l ∧
        (off, f) ∈ rlOf l ∧ a = l.addr + off ∧
        (u ∈ ownTable p.env ∨ u ∈ (ops ++ [op]).flatMap tableOf) ∧ u.name = f ∧
        u.wrapper = s'.mem a := by
  obtain ⟨s1, os1, o, h1, h2, -⟩ := run_last hr'
  rw [hr] at h1
  cases h1
  obtain ⟨-, -, e⟩ := events_step ok h hr h2
  obtain ⟨e1, e2⟩ := events_env ok _ h hr'
  rcases e.mem a with hm | ⟨l, q, ha, hq, rfl, x, hx, hxn, hxw⟩
  · left; rw [hm, loaderPart_mem]
  · right
    rw [← e.linkMap, ← e.filter, e1, e2] at ha
    refine ⟨l, q.1, q.2, x.user, accepted_admitted ha, hq, rfl, ?_, hxn, hxw⟩
    have := run_users _ hr' x.user (List.mem_map.2 ⟨x, hx, rfl⟩)
    rcases this with h | h | h
    · cases h
    · exact Or.inl h
    · exact Or.inr h

end Gotcha.Spec
