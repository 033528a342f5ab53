import Verif.Proof.Split
import Verif.Demo.Bad
/-
C127: it does not matter how a tool's bindings are distributed over tables and gotcha_wrap calls.
-/
namespace Gotcha
open Spec

/-- C127.  In any history, a row of gotcha_wrap calls of one tool is replaced by another row with the same
bindings, those of one function in the same order (no table names "main").  The new history is as good as
the old one; every other call returns what it returned before; the new row reports a function not found
if the old one does; and in the end no client can tell the difference. -/
theorem C127_distribution {p : Process} (ok : p.Ok) {strict : Prop} {tool : Option Name} {X Y : List Op}
    (hX : WrapRow tool X) (hY : WrapRow tool Y) (hs : SameBindings X Y) {pre post : List Op}
    (h : History p strict (pre ++ (X ++ post)))
    (hlen : strict → (pre ++ (Y ++ post)).length + 3 < 2 ^ 32) :
    History p strict (pre ++ (Y ++ post)) ∧
    ∃ s s' o1 oX oY o2, run p.env (pre ++ (X ++ post)) p.start = .ok (s, o1 ++ (oX ++ o2)) ∧
      run p.env (pre ++ (Y ++ post)) p.start = .ok (s', o1 ++ (oY ++ o2)) ∧
      o1.length = pre.length ∧ o2.length = post.length ∧ oX.length = X.length ∧ oY.length = Y.length ∧
      (Obs.ret .functionNotFound ∈ oX ↔ Obs.ret .functionNotFound ∈ oY) ∧
      Indistinct p strict (pre ++ (X ++ post)) s s' := by
  have h' := swap_history hX hY hs hlen h
  obtain ⟨s, r1, t1⟩ := history_run ok h
  obtain ⟨s', r2, t2⟩ := history_run ok h'
  obtain ⟨o1, oX, oY, o2, e1, e2, e3, e4, e7, e8, e5, e6⟩ := swap_run p.env hX hY hs pre post p.abs
  refine ⟨h', s, s', o1, oX, oY, o2, by rw [r1, e1], by rw [r2, e2], e3, e4, e7, e8, e5, ?_⟩
  rw [← e6] at t2
  have v1 := top_view t1
  have v2 := top_view t2
  have hl1 := top_libs t1
  have hl2 := top_libs t2
  have stack_ne : ∀ {f}, registered p.env (pre ++ (X ++ post)) f ≠ [] →
      ∃ fr st, (Abs.run p.env (pre ++ (X ++ post)) p.abs).1.stack f = fr :: st := by
    intro f hne
    cases hst : (Abs.run p.env (pre ++ (X ++ post)) p.abs).1.stack f with
    | nil =>
      have := stackOf_perm p (pre ++ (X ++ post)) f
      unfold stackOf at this
      rw [hst] at this
      exact absurd (List.nil_perm.1 this) hne
    | cons fr st => exact ⟨fr, st, rfl⟩
  refine ⟨by rw [← hl1, ← hl2], ?_, ?_, ?_⟩
  · intro u hu
    obtain ⟨o, ho, hu⟩ := List.mem_flatMap.1 hu
    cases o with
    | wrap tbl tl =>
      have hreg := wrap_registered (env := p.env) (u := u) ho hu
      have hmem := ((stackOf_perm p _ u.name).mem_iff).2 hreg
      obtain ⟨i, hi⟩ := List.mem_iff_getElem?.1 hmem
      have w1 := v1.wrappee u.name i _ hi
      have w2 := v2.wrappee u.name i _ hi
      exact w2.trans w1.symm
    | _ => cases hu
  · intro hst l hl off f hoff hne
    obtain ⟨fr, st, hfr⟩ := stack_ne hne
    have m1 := v1.slots hst l hl trivial (off, f) hoff fr st hfr
    have m2 := v2.slots hst l (by rw [← hl2, hl1]; exact hl) trivial (off, f) hoff fr st hfr
    exact m2.trans m1.symm
  · intro hst l hl off f hoff hne r hr hP
    obtain ⟨fr, st, hfr⟩ := stack_ne hne
    have m1 := v1.slots hst l hl trivial (off, f) hoff fr st hfr
    have m2 := v2.slots hst l (by rw [← hl2, hl1]; exact hl) trivial (off, f) hoff fr st hfr
    have hreal : (Abs.run p.env (pre ++ (X ++ post)) p.abs).1.real f = some r := by
      rw [real_run]; exact hr
    have c1 := view_calls v1 hreal hP _ [] rfl fr st hfr
    have c2 := view_calls v2 hreal hP _ [] rfl fr st hfr
    refine ⟨_, fun x => ⟨fun hx => hx.det (m1 ▸ c1), ?_⟩, fun x => ⟨fun hx => hx.det (m2 ▸ c2), ?_⟩⟩
    · rintro rfl; rw [show s.mem (l.addr + off) = fr.wrapper from m1]; exact c1
    · rintro rfl; rw [show s'.mem (l.addr + off) = fr.wrapper from m2]; exact c2

/-- One table, or its two parts in two calls. -/
theorem split_same (T1 T2 : List UBinding) (tool : Option Name) :
    SameBindings [.wrap (T1 ++ T2) tool] [.wrap T1 tool, .wrap T2 tool] := by
  intro f
  simp [bindingsOf, tableOf]

theorem split_blocks {T1 T2 : List UBinding} (hm : ¬ hasMain (T1 ++ T2)) (tool : Option Name) :
    WrapRow tool [.wrap (T1 ++ T2) tool] ∧ WrapRow tool [.wrap T1 tool, .wrap T2 tool] := by
  refine ⟨⟨by simp, ?_⟩, by simp, ?_⟩
  · intro o ho
    rw [List.mem_singleton] at ho
    exact ⟨_, ho, hm⟩
  · intro o ho
    simp only [List.mem_cons, List.not_mem_nil, or_false] at ho
    rcases ho with rfl | rfl
    · exact ⟨_, rfl, fun ⟨u, hu, e⟩ => hm ⟨u, List.mem_append_left _ hu, e⟩⟩
    · exact ⟨_, rfl, fun ⟨u, hu, e⟩ => hm ⟨u, List.mem_append_right _ hu, e⟩⟩

/-- C127.  Splitting a table into two calls. -/
theorem C127_split {p : Process} (ok : p.Ok) {strict : Prop} {tool : Option Name} {T1 T2 : List UBinding}
    (hm : ¬ hasMain (T1 ++ T2)) {pre post : List Op}
    (h : History p strict (pre ++ .wrap (T1 ++ T2) tool :: post))
    (hlen : strict → pre.length + post.length + 5 < 2 ^ 32) :
    History p strict (pre ++ .wrap T1 tool :: .wrap T2 tool :: post) ∧
    ∃ s s' o1 c c1 c2 o2, run p.env (pre ++ .wrap (T1 ++ T2) tool :: post) p.start =
        .ok (s, o1 ++ c :: o2) ∧
      run p.env (pre ++ .wrap T1 tool :: .wrap T2 tool :: post) p.start =
        .ok (s', o1 ++ c1 :: c2 :: o2) ∧ o1.length = pre.length ∧
      (c = .ret .functionNotFound ↔ c1 = .ret .functionNotFound ∨ c2 = .ret .functionNotFound) ∧
      Indistinct p strict (pre ++ .wrap (T1 ++ T2) tool :: post) s s' := by
  obtain ⟨b1, b2⟩ := split_blocks hm tool
  obtain ⟨h', s, s', o1, oX, oY, o2, r1, r2, l1, l2, n1, n2, hc, ha⟩ :=
    C127_distribution ok b1 b2 (split_same T1 T2 tool) h (fun hs => by
      have := hlen hs
      simp only [List.length_append, List.length_cons, List.length_nil]
      omega)
  obtain ⟨c, rfl⟩ := List.length_eq_one_iff.1 n1
  obtain ⟨c1, c2, rfl⟩ := List.length_eq_two.1 n2
  refine ⟨h', s, s', o1, c, c1, c2, o2, r1, r2, l1, ?_, ha⟩
  simp only [List.mem_cons, List.not_mem_nil, or_false] at hc
  constructor
  · intro e
    rcases hc.1 e.symm with e | e
    · exact Or.inl e.symm
    · exact Or.inr e.symm
  · rintro (e | e)
    · exact (hc.2 (Or.inl e.symm)).symm
    · exact (hc.2 (Or.inr e.symm)).symm

/-- C127.  The order of the bindings in a table of different functions does not matter. -/
theorem C127_rearranged {p : Process} (ok : p.Ok) {strict : Prop} {tool : Option Name}
    {T T' : List UBinding} (hm : ¬ hasMain T) (hn : (T.map UBinding.name).Nodup) (hp : T.Perm T')
    {pre post : List Op} (h : History p strict (pre ++ .wrap T tool :: post)) :
    History p strict (pre ++ .wrap T' tool :: post) ∧
    ∃ s s' os, run p.env (pre ++ .wrap T tool :: post) p.start = .ok (s, os) ∧
      run p.env (pre ++ .wrap T' tool :: post) p.start = .ok (s', os) ∧
      Indistinct p strict (pre ++ .wrap T tool :: post) s s' := by
  have b1 : WrapRow tool [.wrap T tool] := ⟨by simp, fun o ho => ⟨_, List.mem_singleton.1 ho, hm⟩⟩
  have b2 : WrapRow tool [.wrap T' tool] := ⟨by simp, fun o ho => ⟨_, List.mem_singleton.1 ho,
    fun ⟨u, hu, e⟩ => hm ⟨u, hp.mem_iff.2 hu, e⟩⟩⟩
  have hsame : SameBindings [.wrap T tool] [.wrap T' tool] := by
    intro f
    simp only [bindingsOf, tableOf, List.flatMap_cons, List.flatMap_nil, List.append_nil]
    have hp' := hp.filter (fun u => decide (u.name = f))
    have hlen : (T.filter (fun u => decide (u.name = f))).length ≤ 1 := by
      have h1 : ((T.filter (fun u => decide (u.name = f))).map UBinding.name).Nodup :=
        (List.filter_sublist.map _).nodup hn
      have h2 : (T.filter (fun u => decide (u.name = f))).map UBinding.name =
          List.replicate (T.filter (fun u => decide (u.name = f))).length f := by
        rw [List.eq_replicate_iff]
        refine ⟨by simp, ?_⟩
        intro x hx
        obtain ⟨u, hu, rfl⟩ := List.mem_map.1 hx
        simpa using (List.mem_filter.1 hu).2
      rw [h2] at h1
      exact List.nodup_replicate.1 h1
    generalize T.filter (fun u => decide (u.name = f)) = a at hp' hlen ⊢
    match a, hlen with
    | [], _ => exact (List.nil_perm.1 hp').symm
    | [u], _ => exact (List.perm_singleton.1 hp'.symm).symm
    | _ :: _ :: _, hlen => simp at hlen
  obtain ⟨h', s, s', o1, oX, oY, o2, r1, r2, l1, l2, n1, n2, hc, ha⟩ :=
    C127_distribution ok b1 b2 hsame (post := post) h (fun hs => by
      have := h.short hs
      simp only [List.length_append, List.length_cons, List.length_nil] at this ⊢
      omega)
  obtain ⟨c, rfl⟩ := List.length_eq_one_iff.1 n1
  obtain ⟨c', rfl⟩ := List.length_eq_one_iff.1 n2
  have : c = c' := by
    have k : ∀ {T : List UBinding} {A : Abs} {x}, (A.step p.env (.wrap T tool)).2 = x →
        x = .ret .functionNotFound ∨ x = .ret .success := by
      rintro T A x rfl
      simp only [Abs.step, Abs.wrap]
      split
      · exact Or.inl rfl
      · exact Or.inr rfl
    have obs : ∀ {T : List UBinding} {st : State} {o},
        History p strict (pre ++ .wrap T tool :: post) →
        run p.env (pre ++ .wrap T tool :: post) p.start = .ok (st, o1 ++ (o :: o2)) →
        (Abs.step p.env (.wrap T tool) (Abs.run p.env pre p.abs).1).2 = o := by
      intro T st o hh hr
      obtain ⟨s2, hr2, -⟩ := history_run ok hh
      rw [hr] at hr2
      have e := congrArg Prod.snd (Except.ok.inj hr2)
      simp only at e
      rw [run_append] at e
      have hl : (Abs.run p.env pre p.abs).2.length = o1.length := by
        rw [l1, abs_run_length]
      exact (List.cons.inj (List.append_inj e hl.symm).2).1.symm
    have k1 := k (obs h r1)
    have k2 := k (obs h' r2)
    simp only [List.mem_singleton] at hc
    rcases k1 with k1 | k1 <;> rcases k2 with k2 | k2
    · rw [k1, k2]
    · exact absurd (hc.1 k1.symm) (by rw [k2]; decide)
    · exact absurd (hc.2 k2.symm) (by rw [k1]; decide)
    · rw [k1, k2]
  subst this
  exact ⟨h', s, s', _, r1, r2, ha⟩

end Gotcha
