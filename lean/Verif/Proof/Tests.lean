import Verif.Model.Tests
import Verif.Props.Program
import Verif.Props.Compose
import Verif.Proof.Loader
/-
What the programs of the test suite have in common.
-/
namespace Gotcha
open Spec

/-- From a run on the ideal that starts where the process does to all runs on the machine. -/
theorem test_run {p : Process} (ok : p.Ok) {good : Lib → Prop} {V : Type} {code : Addr → V → Prog V}
    {k : Prog V} {t : List V} {v : V} {ops : List Op} (h : HistoryFor p True good ops)
    (he : Eval (ideal p good (stackOf p)) code [] k t v ops) :
    ∃ s', ∀ t' v' s'', Eval (machine p.env) code p.start k t' v' s'' ↔ t' = t ∧ v' = v ∧ s'' = s' := by
  obtain ⟨s', os', -, hm⟩ := ideal_eval ok he h (s := p.start) (os := []) rfl
  exact ⟨s', fun t' v' s'' => ⟨fun h' => machine_det hm h', fun e => by rw [e.1, e.2.1, e.2.2]; exact hm⟩⟩

theorem tries_append (env : Env) (libs : List Lib) (f : Name) (b : List Op) :
    ∀ (a done : List Op), tries env libs f done (a ++ b) =
      tries env libs f done a ++ tries env libs f (done ++ a) b := by
  intro a
  induction a with
  | nil => intro done; simp [tries]
  | cons o a ih => intro done; simp [tries, ih]

theorem libsAfter_quiet {libs : List Lib} {ops : List Op} (hq : ∀ op ∈ ops, ∀ L, loadStep L op = L) :
    libsAfter libs ops = libs := by
  induction ops with
  | nil => rfl
  | cons o ops ih =>
    show libsAfter (loadStep libs o) ops = libs
    rw [hq o (by simp)]
    exact ih fun op h => hq op (List.mem_cons_of_mem _ h)

/-- A function that is exported when it is first wrapped. -/
theorem real_first {env : Env} {libs : List Lib} {f : Name} (hf : f ∉ ownNames) {ops : List Op}
    (hq : ∀ op ∈ ops, ∀ L, loadStep L op = L) (hne : clientFrames ops f ≠ []) (more : List Op) {r : Addr}
    (h : firstDef (vdsoAfter env libs (ops ++ more)) libs f = some r) :
    realAfter env libs (ops ++ more) f = some r := by
  obtain ⟨pre, post, m, e, ht⟩ := tries_head env libs hf ops [] rfl hne
  rw [List.nil_append] at e
  have hpre : libsAfter libs pre = libs := libsAfter_quiet fun op ho => hq op (by rw [e]; simp [ho])
  rw [hpre] at ht
  unfold realAfter
  rw [tries_append, ht, List.cons_append, List.findSome?_cons, h]

theorem found_of {p : Process} {ops : List Op} {tbl : List UBinding} {tool : Option Name}
    (h : ∀ u ∈ tbl, firstDef (vdsoAfter p.env p.libs (ops ++ [.wrap tbl tool])) (libsAfter p.libs ops) u.name ≠ none) :
    Answered p ops (.wrap tbl tool) (.ret .success) := by
  refine .found ?_
  rintro ⟨l1, u, l2, rfl, -, -, h3⟩
  exact h u (by simp) ((firstDef_none _ _ _).2 h3)

/-- The stack of a function that only clients wrap, in the order of the story. -/
theorem stackOf_two (p : Process) {f : Name} (hf : f ∉ ownNames) {t1 t2 : Name} {w1 w2 : Addr} {h1 h2 : HAddr} :
    stackOf p [.wrap [⟨f, w1, h1⟩] (some t1), .wrap [⟨f, w2, h2⟩] (some t2)] f =
      [⟨t1, w1, h1⟩, ⟨t2, w2, h2⟩] := by
  rw [stackOf_story p (T := [t1, t2]) hf]
  · simp [story, tell, endOf, evStep, frame, insertBefore, toolName]
  · intro fr hfr
    simp only [clientFrames, frame, toolName, List.flatMap_cons, List.flatMap_nil, List.append_nil,
      List.filter_cons, decide_true, if_true, List.filter_nil, List.map_cons, List.map_nil, List.cons_append,
      List.nil_append, List.mem_cons, List.not_mem_nil, or_false] at hfr
    rcases hfr with rfl | rfl <;> simp

theorem stackOf_one {p : Process} {ops : List Op} {f : Name} (hf : f ∉ ownNames) {fr : Frame}
    (h : clientFrames ops f = [fr]) : stackOf p ops f = [fr] :=
  List.perm_singleton.1 ((stackOf_perm p ops f).trans (by rw [registered_client _ _ hf, h]))

theorem stackOf_none {p : Process} {ops : List Op} {f : Name} (hf : f ∉ ownNames)
    (h : clientFrames ops f = []) : stackOf p ops f = [] :=
  List.perm_nil.1 ((stackOf_perm p ops f).trans (by rw [registered_client _ _ hf, h]))

end Gotcha
