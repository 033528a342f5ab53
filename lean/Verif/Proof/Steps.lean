import Verif.Spec.Steps
import Verif.Proof.Program
/-
Machine and ideal in lockstep.
-/
namespace Gotcha
open Spec

section
variable {S V : Type} {M : Sem S} {code : Addr → V → Prog V}

theorem Spec.Sched.append {s ts σ w s1 ts1 σ' w' s2 ts2} (h : Sched M code s ts σ w s1 ts1)
    (h' : Sched M code s1 ts1 σ' w' s2 ts2) : Sched M code s ts (σ ++ σ') (w ++ w') s2 ts2 := by
  induction h with
  | nil => exact h'
  | cons h1 h2 _ ih =>
    rw [List.append_assoc]
    exact .cons h1 h2 (ih h')

/-- One step of the only thread. -/
theorem Spec.Sched.one {s t o s1 t1 σ w s2 ts2} (h : Turn M code s t o s1 t1)
    (h' : Sched M code s1 [t1] σ w s2 ts2) :
    Sched M code s [t] (0 :: σ) (o.map (fun v => (0, v)) ++ w) s2 ts2 :=
  .cons rfl h h'

/-- Running a body to its end is running it step by step. -/
theorem eval_sched {s k t v s'} (he : Eval M code s k t v s') : ∀ K, ∃ n,
    Sched M code s [⟨K, k⟩] (List.replicate n 0) (t.map (fun v => (0, v))) s' [⟨K, .ret v⟩] := by
  induction he with
  | ret => intro K; exact ⟨0, .nil⟩
  | out _ ih =>
    intro K
    obtain ⟨n, h⟩ := ih K
    exact ⟨n + 1, .one .out h⟩
  | null h1 _ ih =>
    intro K
    obtain ⟨n, h⟩ := ih K
    exact ⟨n + 1, .one (.null h1) h⟩
  | other h1 h2 _ ih =>
    intro K
    obtain ⟨n, h⟩ := ih K
    exact ⟨n + 1, .one (.other h1 h2) h⟩
  | call h1 _ _ ih1 ih2 =>
    intro K
    obtain ⟨n1, e1⟩ := ih1 (_ :: K)
    obtain ⟨n2, e2⟩ := ih2 K
    refine ⟨n1 + (n2 + 1) + 1, .one (.call h1) ?_⟩
    rw [List.replicate_add, List.map_append]
    exact e1.append (.one .ret e2)
  | look h1 _ ih =>
    intro K
    obtain ⟨n, h⟩ := ih K
    exact ⟨n + 1, .one (.look h1) h⟩
  | event h1 _ ih =>
    intro K
    obtain ⟨n, h⟩ := ih K
    exact ⟨n + 1, .one (.event h1) h⟩

/-- The body and then what the callers go on with. -/
def EvalK (M : Sem S) (code : Addr → V → Prog V) : S → List (V → Prog V) → Prog V → List V → V → S → Prop
  | s, [], k, t, v, s' => Eval M code s k t v s'
  | s, k1 :: K, k, t, v, s' => ∃ t1 w s1 t2, Eval M code s k t1 w s1 ∧ EvalK M code s1 K (k1 w) t2 v s' ∧
      t = t1 ++ t2

theorem evalK_back {s K k t v s'} {s0 : S} {k0 : Prog V} {o : List V}
    (hk : ∀ {t v s'}, Eval M code s k t v s' → Eval M code s0 k0 (o ++ t) v s')
    (h : EvalK M code s K k t v s') : EvalK M code s0 K k0 (o ++ t) v s' := by
  cases K with
  | nil => exact hk h
  | cons k1 K =>
    obtain ⟨t1, w, s1, t2, h1, h2, rfl⟩ := h
    exact ⟨o ++ t1, w, s1, t2, hk h1, h2, (List.append_assoc ..).symm⟩

theorem turn_back {s : S} {t : Thr V} {o s1 t1} (h : Turn M code s t o s1 t1) {x v s'}
    (he : EvalK M code s1 t1.todo t1.now x v s') : EvalK M code s t.todo t.now (o ++ x) v s' := by
  cases h with
  | ret => exact ⟨[], _, _, x, .ret, he, rfl⟩
  | out => exact evalK_back (fun h => .out h) he
  | null h1 => exact evalK_back (fun h => .null h1 h) he
  | other h1 h2 => exact evalK_back (fun h => .other h1 h2 h) he
  | @call _ _ _ k _ h1 =>
    obtain ⟨t1, w, s2, t2, e1, e2, rfl⟩ := he
    rw [List.nil_append]
    exact evalK_back (k := k w) (fun h => .call h1 e1 h) e2
  | look h1 => exact evalK_back (fun h => .look h1 h) he
  | event h1 => exact evalK_back (fun h => .event h1 h) he

theorem sched_back {s : S} {ts : List (Thr V)} {σ w s' ts'} (h : Sched M code s ts σ w s' ts') :
    ∀ {K k}, ts = [⟨K, k⟩] → ∀ {v}, ts' = [⟨[], .ret v⟩] →
      EvalK M code s K k (w.map Prod.snd) v s' := by
  induction h with
  | nil =>
    intro K k h1 v h2
    rw [h1] at h2
    cases h2
    exact .ret
  | @cons s ts i t o s1 t1 σ w s2 ts2 h1 h2 _ ih =>
    intro K k h3 v h4
    subst h3
    have hi : i = 0 := by
      rcases i with _ | i
      · rfl
      · simp at h1
    subst hi
    simp only [List.getElem?_cons_zero, Option.some.injEq] at h1
    subst h1
    obtain ⟨K1, k1⟩ := t1
    have := turn_back h2 (ih rfl h4)
    simpa [List.map_append, List.map_map, Function.comp_def] using this

/-- Threads run for ever, or up to some step. -/
theorem run_sched {st : Nat → S} {ts : Nat → List (Thr V)} {who : Nat → Nat} {wrote : Nat → List V} :
    Run M code st ts who wrote → ∀ n, Sched M code (st 0) (ts 0) ((List.range n).map who)
        ((List.range n).flatMap (fun i => (wrote i).map (fun v => (who i, v)))) (st n) (ts n) := by
  intro h n
  induction n with
  | zero => exact .nil
  | succ n ih =>
    obtain ⟨t, t1, h1, h2, h3⟩ := h.next n
    rw [List.range_succ, List.map_append, List.flatMap_append]
    refine ih.append ?_
    rw [h3]
    simpa using Sched.cons h1 h2 (.nil (M := M))

/-- A run without end from an invariant under which whoever is scheduled can go on. -/
theorem run_of_inv (P : S → List (Thr V) → Prop) (who : Nat → Nat)
    (step : ∀ n s ts, P s ts → ∃ t o s1 t1, ts[who n]? = some t ∧ Turn M code s t o s1 t1 ∧
      P s1 (ts.set (who n) t1)) {s ts} (h : P s ts) :
    ∃ st tss wrote, Run M code st tss who wrote ∧ st 0 = s ∧ tss 0 = ts ∧ ∀ n, P (st n) (tss n) := by
  haveI : Nonempty (Thr V) := ⟨⟨[], .undef⟩⟩
  choose! ft fo fs ft1 h1 h2 h3 using step
  let f : Nat → S × List (Thr V) := fun n => Nat.rec (s, ts)
    (fun n c => (fs n c.1 c.2, c.2.set (who n) (ft1 n c.1 c.2))) n
  have hP : ∀ n, P (f n).1 (f n).2 := by
    intro n
    induction n with
    | zero => exact h
    | succ n ih => exact h3 n _ _ ih
  exact ⟨fun n => (f n).1, fun n => (f n).2, fun n => fo n (f n).1 (f n).2,
    ⟨fun n => ⟨_, _, h1 n _ _ (hP n), h2 n _ _ (hP n), rfl⟩⟩, rfl, rfl, hP⟩

end

section
variable {V : Type} {code : Addr → V → Prog V}

theorem turn_det {env : Env} {s : State} {t : Thr V} {o s1 t1 o' s1' t1'}
    (h : Turn (machine env) code s t o s1 t1) (h' : Turn (machine env) code s t o' s1' t1') :
    o' = o ∧ s1' = s1 ∧ t1' = t1 := by
  cases h with
  | ret => cases h'; exact ⟨rfl, rfl, rfl⟩
  | out => cases h'; exact ⟨rfl, rfl, rfl⟩
  | null h1 =>
    cases h' with
    | null h2 => exact ⟨rfl, rfl, rfl⟩
    | other h2 h3 => exact absurd (machine_goto_det h2 h1) h3
  | other h1 h2 =>
    cases h' with
    | null h3 => exact absurd (machine_goto_det h1 h3) h2
    | other h3 h4 => exact ⟨rfl, rfl, rfl⟩
  | call h1 =>
    cases h' with
    | call h2 => cases machine_goto_det h1 h2; exact ⟨rfl, rfl, rfl⟩
  | look h1 =>
    cases h' with
    | look h2 => cases machine_goto_det h1 h2; exact ⟨rfl, rfl, rfl⟩
  | event h1 =>
    cases h' with
    | event h2 =>
      simp only [machine] at h1 h2
      rw [h1] at h2
      cases h2
      exact ⟨rfl, rfl, rfl⟩

theorem sched_det {env : Env} {s : State} {ts : List (Thr V)} {σ w s1 ts1}
    (h : Sched (machine env) code s ts σ w s1 ts1) : ∀ {w' s1' ts1'},
      Sched (machine env) code s ts σ w' s1' ts1' → w' = w ∧ s1' = s1 ∧ ts1' = ts1 := by
  induction h with
  | nil => intro _ _ _ h'; cases h'; exact ⟨rfl, rfl, rfl⟩
  | cons h1 h2 _ ih =>
    intro _ _ _ h'
    cases h' with
    | cons h3 h4 h5 =>
      rw [h1] at h3
      cases h3
      obtain ⟨rfl, rfl, rfl⟩ := turn_det h2 h4
      obtain ⟨rfl, rfl, rfl⟩ := ih h5
      exact ⟨rfl, rfl, rfl⟩

variable {p : Process} {good : Lib → Prop}

theorem turn_prefix {order : List Op → Name → List Frame} {ops : List Op} {t : Thr V} {o ops1 t1}
    (h : Turn (ideal p good order) code ops t o ops1 t1) : ops <+: ops1 := by
  cases h with
  | event h1 => exact h1.2 ▸ List.prefix_append _ _
  | _ => exact List.prefix_refl _

theorem sched_prefix {order : List Op → Name → List Frame} {ops : List Op} {ts : List (Thr V)} {σ w ops1 ts1}
    (h : Sched (ideal p good order) code ops ts σ w ops1 ts1) : ops <+: ops1 := by
  induction h with
  | nil => exact List.prefix_refl _
  | cons _ h1 _ ih => exact (turn_prefix h1).trans ih

theorem history_prefix {a b : List Op} (h : a <+: b) (hb : HistoryFor p True good b) :
    HistoryFor p True good a := by
  obtain ⟨c, rfl⟩ := h
  exact hb.prefix

theorem ideal_turn (ok : p.Ok) {ops : List Op} {t : Thr V} {o ops1 t1}
    (h : Turn (ideal p good (stackOf p)) code ops t o ops1 t1) (hh : HistoryFor p True good ops1)
    {s os} (hr : run p.env ops p.start = .ok (s, os)) : ∃ s1 os1,
      run p.env ops1 p.start = .ok (s1, os1) ∧ Turn (machine p.env) code s t o s1 t1 := by
  cases h with
  | ret => exact ⟨s, os, hr, .ret⟩
  | out => exact ⟨s, os, hr, .out⟩
  | null h1 => exact ⟨s, os, hr, .null (ideal_machine ok hh hr _ _ h1)⟩
  | other h1 h2 => exact ⟨s, os, hr, .other (ideal_machine ok hh hr _ _ h1) h2⟩
  | call h1 => exact ⟨s, os, hr, .call (ideal_machine ok hh hr _ _ h1)⟩
  | look h1 => exact ⟨s, os, hr, .look (ideal_machine ok hh hr _ _ h1)⟩
  | @event K op k o _ h1 =>
    obtain ⟨ha, rfl⟩ := h1
    obtain ⟨s1, hr1, -⟩ := historyFor_run ok hh
    obtain ⟨s0, os0, o', e1, e2, e3⟩ := run_last hr1
    rw [hr] at e1
    cases e1
    have ho : o' = o := by
      obtain ⟨s0', hr0, -⟩ := historyFor_run ok hh.prefix
      rw [hr] at hr0
      cases hr0
      rw [run_append, ← answered_eq ok hh ha] at *
      simpa [Abs.run] using e3.symm
    subst ho
    exact ⟨s1, _, hr1, .event e2⟩

theorem ideal_sched (ok : p.Ok) {ops : List Op} {ts : List (Thr V)} {σ w ops1 ts1}
    (h : Sched (ideal p good (stackOf p)) code ops ts σ w ops1 ts1) (hh : HistoryFor p True good ops1) :
    ∀ {s os}, run p.env ops p.start = .ok (s, os) → ∃ s1 os1,
      run p.env ops1 p.start = .ok (s1, os1) ∧ Sched (machine p.env) code s ts σ w s1 ts1 := by
  induction h with
  | nil => intro s os hr; exact ⟨s, os, hr, .nil⟩
  | cons h1 h2 h3 ih =>
    intro s os hr
    obtain ⟨s1, os1, e1, e2⟩ := ideal_turn ok h2 (history_prefix (sched_prefix h3) hh) hr
    obtain ⟨s2, os2, e3, e4⟩ := ih hh e1
    exact ⟨s2, os2, e3, .cons h1 e2 e4⟩

end

end Gotcha
