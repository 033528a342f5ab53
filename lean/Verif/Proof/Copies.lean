import Verif.Spec.Copies
import Verif.Proof.Effects
import Verif.Props.Only
/-
Copies of GOTCHA in one process: for each of them the others are a loader that writes words.
-/
namespace Gotcha
open Spec

variable {ι : Type} [DecidableEq ι]

theorem top_nd {C : Ctx} {seen n s A} (h : Top C seen n s A) : (s.linkMap.map (·.lm)).Nodup := by
  rcases h with h | ⟨v, G, h⟩
  · exact h.nd
  · exact h.inv.nd

theorem top_placed {C : Ctx} {seen n s A} (h : Top C seen n s A) : Placed s.linkMap := by
  rcases h with h | ⟨v, G, h⟩
  · exact h.placed
  · exact h.inv.placed

theorem top_cons {C : Ctx} {seen n s A} (h : Top C seen n s A) (hs : C.sl) : SlotCons s.linkMap := by
  rcases h with h | ⟨v, G, h⟩
  · exact (h.slots hs).2
  · exact (h.inv.slots hs).cons

theorem top_objs {C : Ctx} {seen n s A} (h : Top C seen n s A) : ∀ l ∈ s.linkMap, C.U l := by
  rcases h with h | ⟨v, G, h⟩
  · exact fun l hl => (h.objs l hl).1
  · exact fun l hl => (h.inv.objs l hl).1

/-- Someone else writes words and makes pages writable. -/
theorem top_share {C : Ctx} {seen n s A} (h : Top C seen n s A) {t : State} (hl : t.linkMap = s.linkMap)
    (hw : ∀ a, s.wr a = true → t.wr a = true)
    (hm : C.sl → ∀ l ∈ s.linkMap, C.good l → ∀ p ∈ rlOf l, t.mem (l.addr + p.1) = s.mem (l.addr + p.1)) :
    Top C seen n (share t s) A := by
  classical
  let ld : Load := { libs := [], mem := fun a => if t.mem a = s.mem a then none else some (t.mem a),
                     wr := fun a => if t.wr a = true then some true else none }
  have hload : s.load ld = share t s := by
    unfold State.load share
    have e1 : (fun a => (ld.mem a).getD (s.mem a)) = t.mem := by
      funext a
      show (if t.mem a = s.mem a then none else some (t.mem a)).getD (s.mem a) = t.mem a
      by_cases e : t.mem a = s.mem a
      · rw [if_pos e, e]; rfl
      · rw [if_neg e]; rfl
    have e2 : (fun a => (ld.wr a).getD (s.wr a)) = t.wr := by
      funext a
      show (if t.wr a = true then some true else none).getD (s.wr a) = t.wr a
      by_cases e : t.wr a = true
      · rw [if_pos e, e]; rfl
      · rw [if_neg e]
        have : s.wr a ≠ true := fun hc => e (hw a hc)
        rw [Bool.not_eq_true] at e
        rw [e, (Bool.not_eq_true _).mp this]; rfl
    rw [e1, e2, hl]
    show ({ s with linkMap := s.linkMap ++ [], mem := t.mem, wr := t.wr } : State) = _
    rw [List.append_nil]
  have hok : LoadOk C seen s.linkMap ld :=
    { objs := fun l hl => by cases hl
      nd := by rw [List.append_nil]; exact top_nd h
      again := fun l hl => by cases hl
      placed := by rw [List.append_nil]; exact top_placed h
      old := by
        intro l _ p _
        show (if t.wr _ = true then some true else none) ≠ some false
        split <;> simp
      cover := fun l hl => by cases hl
      cons := fun hs => by rw [List.append_nil]; exact top_cons h hs
      keep := by
        intro hs l hl hg p hp
        show (if t.mem _ = s.mem _ then none else some _) = none
        rw [if_pos (hm hs l hl hg p hp)] }
  have hseen : seenWith seen ([] : List Lib) = seen := by
    funext l; simp [seenWith]
  have hA : ({ A with libs := A.libs ++ ld.libs } : Abs) = A := by
    show ({ A with libs := A.libs ++ [] } : Abs) = A
    rw [List.append_nil]
  rcases h with h | ⟨v, G, h⟩
  · left
    have := pre_load h hok
    rw [hload, hA, show seenWith seen ld.libs = seen from hseen] at this
    exact this
  · right
    have := load_post (C := C.at v) h (hok.at v) (fun _ l hl => by cases hl)
    rw [hload, hA, show seenWith seen ld.libs = seen from hseen] at this
    exact ⟨v, _, this⟩

theorem viewOf_append (i : ι) (a b : List (ι × Op)) : viewOf i (a ++ b) = viewOf i a ++ viewOf i b := by
  simp [viewOf]

theorem viewOf_own (i : ι) (op : Op) : viewOf i [(i, op)] = [op] := by simp [viewOf]

theorem viewOf_other {i j : ι} (h : j ≠ i) (op : Op) : viewOf i [(j, op)] = asSeen op := by
  simp [viewOf, h]

/-- What holds between events: `pre` is the past, `post` the future. -/
structure Lock (c : Copies ι) (strict : ι → Prop) (good : ι → Lib → Prop) (pre post : List (ι × Op))
    (S : ι → State) : Prop where
  top : ∀ i, ∃ seen n, 3 ≤ n ∧ Top ((c.proc i).ctx True (strict i) (good i)) seen n (S i)
      (Abs.run (c.env i) (viewOf i pre) (c.proc i).abs).1 ∧
    Valid ((c.proc i).ctx True (strict i) (good i)) seen
      (Abs.run (c.env i) (viewOf i pre) (c.proc i).abs).1 (viewOf i post) ∧
    (strict i → n + (viewOf i post).length < 2 ^ 32)
  same : ∀ i j, (S i).linkMap = (S j).linkMap ∧ (S i).mem = (S j).mem ∧ (S i).wr = (S j).wr
  flt : ∀ i, (S i).filter = filterAfter (viewOf i pre)

theorem lock_libs {c : Copies ι} {strict good pre post S} (h : Lock c strict good pre post S) (i : ι) :
    (S i).linkMap = libsAfter c.libs (viewOf i pre) := by
  obtain ⟨seen, n, -, ht, -⟩ := h.top i
  rw [← top_libs ht]
  exact libs_run (c.proc i) _

/-- What a loader event leaves in the parts all copies share. -/
theorem loaderPart_share {s t : State} (op op' : Op) (ho : asSeen op = [op'])
    (hs : s.linkMap = t.linkMap ∧ s.mem = t.mem ∧ s.wr = t.wr) :
    (loaderPart s op').linkMap = (loaderPart t op).linkMap ∧ (loaderPart s op').mem = (loaderPart t op).mem ∧
      (loaderPart s op').wr = (loaderPart t op).wr := by
  obtain ⟨h1, h2, h3⟩ := hs
  cases op <;> simp only [asSeen, List.cons.injEq, and_true, reduceCtorEq] at ho
  all_goals
    subst ho
    simp [loaderPart, State.load, State.unload, h1, h2, h3]

theorem loaderPart_quiet {t : State} (op : Op) (ho : asSeen op = []) :
    (loaderPart t op).linkMap = t.linkMap ∧ (loaderPart t op).mem = t.mem ∧ (loaderPart t op).wr = t.wr := by
  cases op <;> first | exact ⟨rfl, rfl, rfl⟩ | (simp [asSeen] at ho)

theorem loaderPart_silent {s : State} {op op' : Op} (ho : asSeen op = [op']) (u : State) :
    share u (loaderPart s op') = share u s := by
  cases op <;> simp only [asSeen, List.cons.injEq, and_true, reduceCtorEq] at ho
  all_goals
    subst ho
    rfl

theorem stepOp_silent {env : Env} {s : State} {op op' : Op} (ho : asSeen op = [op']) :
    stepOp env op' s = .ok (loaderPart s op', .unit) := by
  cases op <;> simp only [asSeen, List.cons.injEq, and_true, reduceCtorEq] at ho
  all_goals
    subst ho
    rfl

theorem filter_silent {op op' : Op} (ho : asSeen op = [op']) (f : Filter) : filterStep f op' = f := by
  cases op <;> simp only [asSeen, List.cons.injEq, and_true, reduceCtorEq] at ho
  all_goals
    subst ho
    rfl

theorem asSeen_cases (op : Op) : asSeen op = [] ∨ ∃ op', asSeen op = [op'] := by
  cases op <;> simp [asSeen]

/-- One event. -/
theorem lock_step {c : Copies ι} (ok : ∀ i, (c.proc i).Ok) (henv : ∀ i, EnvOk (c.env i) c.P)
    {strict : ι → Prop} {good : ι → Lib → Prop} {evs pre post : List (ι × Op)} {j : ι} {op : Op}
    (he : evs = pre ++ (j, op) :: post) (hal : ∀ i, strict i → LeaveAlone c i (good i) evs) {S : ι → State}
    (h : Lock c strict good pre ((j, op) :: post) S) :
    ∃ S', stepAll c.env (j, op) S = .ok S' ∧ Lock c strict good (pre ++ [(j, op)]) post S' ∧
      ∃ s', S' j = s' ∧ Eff (loaderPart (S j) op) s' := by
  obtain ⟨seen, n, hn, ht, hv, hlen⟩ := h.top j
  have e1 : viewOf j ((j, op) :: post) = op :: viewOf j post := by
    rw [show (j, op) :: post = [(j, op)] ++ post from rfl, viewOf_append, viewOf_own]; rfl
  rw [e1] at hv hlen
  obtain ⟨s', o, f1, f2, -, f4⟩ := step_spec (C := (c.proc j).ctx True (strict j) (good j)) (ok j).world
    (fun _ => henv j) hn ht hv.1 (fun hs => by have := hlen hs; simp only [List.length_cons] at this; omega)
    (fun hc => absurd trivial hc)
  replace f1 : stepOp (c.env j) op (S j) = .ok (s', o) := f1
  have hA : (Abs.run (c.env j) (viewOf j (pre ++ [(j, op)])) (c.proc j).abs).1 =
      ((Abs.run (c.env j) (viewOf j pre) (c.proc j).abs).1.step (c.env j) op).1 := by
    rw [viewOf_append, viewOf_own, run_snoc]
  have hlink : (loaderPart (S j) op).linkMap = libsAfter c.libs (viewOf j (pre ++ [(j, op)])) := by
    rw [loaderPart_linkMap, lock_libs h j, viewOf_append, viewOf_own, libsAfter_snoc]
  have hflt : (loaderPart (S j) op).filter = filterAfter (viewOf j (pre ++ [(j, op)])) := by
    rw [loaderPart_filter, h.flt j, viewOf_append, viewOf_own, filterAfter, filterAfter, List.foldl_append]
    rfl
  -- words of objects another copy takes care of
  have hobjs : ∀ l ∈ (loaderPart (S j) op).linkMap, c.U l := by
    intro l hl
    rw [← f4.linkMap] at hl
    exact top_objs f2 l hl
  have hwords : ∀ k, k ≠ j → strict k → ∀ l, c.U l → good k l → ∀ p ∈ rlOf l,
      s'.mem (l.addr + p.1) = (loaderPart (S j) op).mem (l.addr + p.1) := by
    intro k hk hs l hU hg p hp
    rcases f4.mem (l.addr + p.1) with e | ⟨l', q, ha, hq, e, -⟩
    · exact e
    · have hadm := accepted_admitted ha
      have hU' : c.U l' := by
        obtain ⟨X, Y, hX, -⟩ := hadm
        exact hobjs l' (by rw [hX]; simp)
      rw [hlink, hflt] at hadm
      exact absurd e (hal k hs pre j op post he (fun e => hk e.symm) l' hU' hadm q hq l hU hg p hp)
  refine ⟨fun k => if k = j then s' else share s' (S k), ?_, ⟨?_, ?_, ?_⟩, s', if_pos rfl, f4⟩
  · show (match stepOp (c.env j) op (S j) with | .error f => _ | .ok (s, _) => _) = _
    rw [f1]
  · intro k
    by_cases hk : k = j
    · subst hk
      rw [if_pos rfl, hA]
      refine ⟨_, n + 1, by omega, f2, hv.2, ?_⟩
      intro hs
      have := hlen hs
      simp only [List.length_cons] at this
      omega
    · rw [if_neg hk]
      obtain ⟨seenk, m, hm, htk, hvk, hlk⟩ := h.top k
      have e2 : viewOf k ((j, op) :: post) = asSeen op ++ viewOf k post := by
        rw [show (j, op) :: post = [(j, op)] ++ post from rfl, viewOf_append,
          viewOf_other (fun e => hk e.symm)]
      have e3 : viewOf k (pre ++ [(j, op)]) = viewOf k pre ++ asSeen op := by
        rw [viewOf_append, viewOf_other (fun e => hk e.symm)]
      rw [e2] at hvk hlk
      rw [e3]
      rcases asSeen_cases op with ho | ⟨op', ho⟩
      · rw [ho] at hvk hlk ⊢
        rw [List.append_nil]
        obtain ⟨q1, q2, q3⟩ := loaderPart_quiet (t := S j) op ho
        obtain ⟨g1, g2, g3⟩ := h.same k j
        refine ⟨seenk, m, hm, top_share htk ?_ ?_ ?_, hvk, hlk⟩
        · rw [f4.linkMap, q1, g1]
        · intro a ha
          refine f4.wr a ?_
          rw [q3, ← g3]; exact ha
        · intro hs l hl hg p hp
          rw [hwords k hk hs l (top_objs htk l hl) hg p hp, q2, g2]
      · rw [ho] at hvk hlk ⊢
        obtain ⟨q1, q2, q3⟩ := loaderPart_share op op' ho (h.same k j)
        obtain ⟨s1, o1, k1, k2, -, -⟩ := step_spec (C := (c.proc k).ctx True (strict k) (good k)) (ok k).world
          (fun _ => henv k) hm htk hvk.1
          (fun hs => by have := hlk hs; simp only [List.length_append, List.length_cons, List.length_nil] at this; omega)
          (fun hc => absurd trivial hc)
        rw [stepOp_silent ho] at k1
        cases k1
        have hsh := top_share k2 (t := s') (by rw [f4.linkMap, q1])
          (fun a ha => f4.wr a (by rw [← q3]; exact ha))
          (fun hs l hl hg p hp => by rw [hwords k hk hs l (top_objs k2 l hl) hg p hp, q2])
        rw [loaderPart_silent ho] at hsh
        rw [run_snoc]
        refine ⟨_, m + 1, by omega, hsh, hvk.2, ?_⟩
        intro hs
        have := hlk hs
        simp only [List.length_append, List.length_cons, List.length_nil] at this
        omega
  · have key : ∀ k, (if k = j then s' else share s' (S k)).linkMap = s'.linkMap ∧
        (if k = j then s' else share s' (S k)).mem = s'.mem ∧
        (if k = j then s' else share s' (S k)).wr = s'.wr := by
      intro k
      by_cases hk : k = j
      · rw [if_pos hk]; exact ⟨rfl, rfl, rfl⟩
      · rw [if_neg hk]; exact ⟨rfl, rfl, rfl⟩
    intro a b
    obtain ⟨a1, a2, a3⟩ := key a
    obtain ⟨b1, b2, b3⟩ := key b
    exact ⟨a1.trans b1.symm, a2.trans b2.symm, a3.trans b3.symm⟩
  · intro k
    by_cases hk : k = j
    · subst hk
      show (if _ then _ else _ : State).filter = _
      rw [if_pos rfl, f4.filter, hflt]
    · show (if _ then _ else _ : State).filter = _
      rw [if_neg hk]
      show (S k).filter = _
      rw [h.flt k, viewOf_append, viewOf_other (fun e => hk e.symm)]
      rcases asSeen_cases op with ho | ⟨op', ho⟩
      · rw [ho, List.append_nil]
      · rw [ho, filterAfter, filterAfter, List.foldl_append]
        show _ = filterStep _ op'
        rw [filter_silent ho]

theorem lock_run {c : Copies ι} (ok : ∀ i, (c.proc i).Ok) (henv : ∀ i, EnvOk (c.env i) c.P)
    {strict : ι → Prop} {good : ι → Lib → Prop} {evs : List (ι × Op)}
    (hal : ∀ i, strict i → LeaveAlone c i (good i) evs) (post : List (ι × Op)) :
    ∀ pre, evs = pre ++ post → ∀ {S : ι → State}, Lock c strict good pre post S →
    ∃ S', runAll c.env post S = .ok S' ∧ Lock c strict good evs [] S' := by
  induction post with
  | nil =>
    intro pre he S h
    rw [List.append_nil] at he
    subst he
    exact ⟨S, rfl, h⟩
  | cons e post ih =>
    intro pre he S h
    obtain ⟨j, op⟩ := e
    obtain ⟨S1, h1, h2, -⟩ := lock_step ok henv he hal h
    obtain ⟨S2, h3, h4⟩ := ih (pre ++ [(j, op)]) (by rw [he]; simp) h2
    refine ⟨S2, ?_, h4⟩
    simp only [runAll, h1]
    exact h3

theorem lock_start {c : Copies ι} (ok : ∀ i, (c.proc i).Ok) {strict : ι → Prop} {good : ι → Lib → Prop}
    {evs : List (ι × Op)} (h : ∀ i, HistoryFor (c.proc i) (strict i) (good i) (viewOf i evs)) :
    Lock c strict good [] evs (fun i => (c.proc i).start) where
  top := fun i => ⟨_, 3, Nat.le_refl 3, start_topFor (ok i) (h i).cons,
    start_validFor (h i).toEventsFor (fun _ => (h i).honest),
    fun hs => by have := (h i).short hs; omega⟩
  same := fun _ _ => ⟨rfl, rfl, rfl⟩
  flt := fun _ => rfl

end Gotcha
