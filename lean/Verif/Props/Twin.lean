import Verif.Spec.Twin
import Verif.Props.Only
/-
C123: two copies of GOTCHA in one process.
-/
namespace Gotcha
open Spec

theorem own_sub (env : Env) (u : UBinding) (h : u ∈ libcMainTable env ++ mainTable env ∨ u ∈ dlTable env) :
    u ∈ ownTable env := by
  unfold ownTable
  rcases h with h | h
  · rw [List.append_assoc]; exact List.mem_append_right _ h
  · exact List.mem_append_left _ (List.mem_append_left _ h)

theorem expand_from (env : Env) (tool : Name) (us : List UBinding) : ∀ mw x, x ∈ expand env tool mw us →
    x.2 ∈ ownTable env ∨ x.2 ∈ us := by
  induction us with
  | nil => intro mw x h; cases h
  | cons u us ih =>
    intro mw x h
    rw [expand] at h
    rcases List.mem_append.1 h with h | h
    · split at h
      · obtain ⟨v, hv, rfl⟩ := List.mem_map.1 h
        exact Or.inl (own_sub env v (Or.inl hv))
      · cases h
    · rcases List.mem_cons.1 h with rfl | h
      · exact Or.inr (List.mem_cons_self ..)
      · exact (ih _ _ h).imp id (List.mem_cons_of_mem _)

theorem regs_from (env : Env) (ops : List Op) : ∀ ini mw x, x ∈ regs env ini mw ops →
    x.2 ∈ ownTable env ∨ x.2 ∈ ops.flatMap tableOf := by
  induction ops with
  | nil => intro ini mw x h; cases h
  | cons op ops ih =>
    intro ini mw x h
    rw [regs] at h
    rw [List.flatMap_cons]
    rcases List.mem_append.1 h with h | h
    · unfold opRegs at h
      rcases List.mem_append.1 h with h | h
      · split at h
        · obtain ⟨v, hv, rfl⟩ := List.mem_map.1 h
          exact Or.inl (own_sub env v (Or.inr hv))
        · cases h
      · cases op with
        | wrap tbl tool => exact (expand_from env _ _ _ _ h).imp id (fun h => List.mem_append_left _ h)
        | _ => cases h
    · exact (ih _ _ _ h).imp id (fun h => List.mem_append_right _ h)

theorem registered_from {env : Env} {ops : List Op} {f : Name} {fr : Frame}
    (h : fr ∈ registered env ops f) :
    ∃ u, (u ∈ ownTable env ∨ u ∈ ops.flatMap tableOf) ∧ u.name = f ∧ fr.wrapper = u.wrapper ∧
      fr.handle = u.handle := by
  unfold registered framesIn at h
  obtain ⟨x, hx, rfl⟩ := List.mem_map.1 h
  obtain ⟨h1, h2⟩ := List.mem_filter.1 hx
  exact ⟨x.2, regs_from env ops _ _ x h1, by simpa using h2, rfl, rfl⟩

/-- Every wrapper a copy knows of reads one of the handle variables of that copy. -/
theorem honest_reads {env : Env} {P : Addr → Option HAddr} {ops : List Op} (h : Honest env P ops)
    {u : UBinding} (hu : u ∈ ownTable env ∨ u ∈ ops.flatMap tableOf) :
    P u.wrapper = some u.handle ∧ u.handle ∈ handlesOf env ops := by
  rcases hu with hu | hu
  · simp only [ownTable, dlTable, libcMainTable, mainTable, List.cons_append, List.nil_append,
      List.mem_cons, List.not_mem_nil, or_false] at hu
    unfold handlesOf
    rcases hu with rfl | rfl | rfl | rfl
    · exact ⟨h.own.dlopen, by simp⟩
    · exact ⟨h.own.dlsym, by simp⟩
    · exact ⟨h.own.libcMain, by simp⟩
    · exact ⟨h.own.main, by simp⟩
  · exact ⟨h.prog u hu, List.mem_append_left _ (List.mem_map_of_mem hu)⟩

theorem wrappersOf_reads {env : Env} {P : Addr → Option HAddr} {ops : List Op} (h : Honest env P ops)
    {w : Addr} (hw : w ∈ wrappersOf env ops) : ∃ hd, P w = some hd ∧ hd ∈ handlesOf env ops := by
  rcases List.mem_append.1 hw with hw | hw
  · obtain ⟨u, hu, rfl⟩ := List.mem_map.1 hw
    exact ⟨_, honest_reads h (Or.inr hu)⟩
  · obtain ⟨u, hu, rfl⟩ := List.mem_map.1 hw
    exact ⟨_, honest_reads h (Or.inl hu)⟩

/-- Functions run on a stack of one copy read handle variables of that copy. -/
theorem path_reads {env : Env} {P : Addr → Option HAddr} {ops : List Op} (h : Honest env P ops)
    {f : Name} {order : List Frame} (ho : order.Perm (registered env ops f)) {r : Addr} (hr : P r = none) :
    ∀ b ∈ wrappers order ++ [r], ∀ hd, P b = some hd → hd ∈ handlesOf env ops := by
  intro b hb hd hp
  rcases List.mem_append.1 hb with hb | hb
  · obtain ⟨fr, hfr, rfl⟩ := List.mem_map.1 hb
    obtain ⟨u, hu, -, e1, -⟩ := registered_from (ho.mem_iff.1 hfr)
    obtain ⟨h1, h2⟩ := honest_reads h hu
    rw [e1, h1] at hp
    cases hp
    exact h2
  · rw [List.mem_singleton] at hb
    subst hb
    rw [hr] at hp
    cases hp

/-- The process a second copy finds is as well-formed as the one the first copy found. -/
theorem C123_second_process_ok {p : Process} (ok : p.Ok) {strict : Prop} {ops : List Op}
    (h : Events p strict ops) {s os} (hr : run p.env ops p.start = .ok (s, os)) {env2 : Env}
    (hpage : env2.page = p.env.page) (hmp : env2.mprotect = p.env.mprotect)
    (hne : libsAfter p.libs ops ≠ []) : (p.second env2 s).Ok := by
  have hl := (events_env ok ops h hr).1
  have hmark : ∀ l a, markedBy p.env l a → markedBy env2 l a := by
    intro l a ⟨r, h1, h2, h3⟩
    refine ⟨r, ?_, ?_, h3⟩
    · unfold marksOf at h1 ⊢; rw [hpage]; exact h1
    · rw [hmp]; exact h2
  have hw : World env2 p.U := ⟨by rw [hpage]; exact ok.world.page48, by rw [hpage]; exact ok.world.page64,
    ok.world.ident, ok.world.named, ok.world.exp, ok.world.rel⟩
  rcases events_run ok h hr with ht | ⟨v, G, ht⟩
  · exact ⟨hw, fun l hl => (ht.objs l hl).1, ht.nd, ht.placed,
      fun l hl q hq => (ht.cover l hl q hq).imp id (hmark _ _), by rw [← hl] at hne; exact hne⟩
  · exact ⟨hw, fun l hl => (ht.inv.objs l hl).1, ht.inv.nd, ht.inv.placed,
      fun l hl q hq => (ht.inv.wr.cover l hl q hq).imp id (hmark _ _), by rw [← hl] at hne; exact hne⟩

variable {p : Process} {env2 : Env} {ops ops2 : List Op} {s s2 : State}

/-- C123.  A copy of GOTCHA has any history, then a second copy has any history.  A function the second
copy has wrapped is intercepted by the second copy alone: calls run the second copy's wrappers and
then the function, and no wrapper of the first copy, whatever the priorities. -/
theorem C123_second_copy_takes_over (ok : p.Ok) {strict : Prop} (h : History p strict ops) {os}
    (hr : run p.env ops p.start = .ok (s, os)) (tw : Twins p.env env2 ops ops2)
    (hne : libsAfter p.libs ops ≠ []) {good : Lib → Prop}
    (h2 : HistoryFor (p.second env2 s) True good ops2) {os2}
    (hr2 : run env2 ops2 (p.second env2 s).start = .ok (s2, os2)) (f : Name) {r : Addr}
    (hreg : registered env2 ops2 f ≠ [])
    (hreal : realAfter env2 (libsAfter p.libs ops) ops2 f = some r) (hprog : p.P r = none) :
    ∃ order : List Frame, order.Perm (registered env2 ops2 f) ∧
      (∀ w ∈ wrappersOf p.env ops, w ∉ wrappers order ++ [r]) ∧
      ∀ l ∈ libsAfter (libsAfter p.libs ops) ops2, good l → ∀ off, (off, f) ∈ rlOf l →
        ∀ path, Calls2 p.P (handlesOf p.env ops) s s2 (s2.mem (l.addr + off)) path ↔
          path = wrappers order ++ [r] := by
  have ok2 := C123_second_process_ok ok h.toEvents hr tw.page tw.mprotect hne
  have hl : (p.second env2 s).libs = libsAfter p.libs ops := (events_env ok ops h.toEvents hr).1
  obtain ⟨order, e1, -, e2⟩ := C87_admitted_libraries_are_intercepted ok2 h2 hr2 f
    (by rw [hl]; exact hreal) hprog
  rw [hl] at e2
  have hread := path_reads h2.honest e1 hprog
  refine ⟨order, e1, fun w hw hin => ?_, ?_⟩
  · obtain ⟨hd, k1, k2⟩ := wrappersOf_reads h.honest hw
    exact tw.apart _ k2 (hread w hin hd k1)
  intro l hl' hg off hoff path
  have hc := (e2 l hl' hg off hoff hreg _).2 rfl
  have hc2 : Calls2 p.P (handlesOf p.env ops) s s2 (s2.mem (l.addr + off)) (wrappers order ++ [r]) :=
    hc.second fun b hb hd hp hin => tw.apart _ hin (hread b hb hd hp)
  exact ⟨fun h => h.det hc2, fun e => e ▸ hc2⟩

/-- C123, dlopen: once the second copy is in use, dlopen of the program is the second copy's; the first
copy does not get to know of libraries loaded from then on. -/
theorem C123_first_copy_misses_dlopen (ok : p.Ok) {strict : Prop} (h : History p strict ops) {os}
    (hr : run p.env ops p.start = .ok (s, os)) (tw : Twins p.env env2 ops ops2)
    (hne : libsAfter p.libs ops ≠ []) {good : Lib → Prop}
    (h2 : HistoryFor (p.second env2 s) True good ops2) {os2}
    (hr2 : run env2 ops2 (p.second env2 s).start = .ok (s2, os2)) {r : Addr}
    (hreg : registered env2 ops2 (nm "dlopen") ≠ [])
    (hreal : realAfter env2 (libsAfter p.libs ops) ops2 (nm "dlopen") = some r) (hprog : p.P r = none) :
    ∀ l ∈ libsAfter (libsAfter p.libs ops) ops2, good l → ∀ off, (off, nm "dlopen") ∈ rlOf l →
      ∃ path, Calls2 p.P (handlesOf p.env ops) s s2 (s2.mem (l.addr + off)) path ∧ p.env.dlopenW ∉ path := by
  obtain ⟨order, -, e1, e2⟩ := C123_second_copy_takes_over ok h hr tw hne h2 hr2 (nm "dlopen") hreg hreal hprog
  intro l hl hg off hoff
  refine ⟨_, (e2 l hl hg off hoff _).2 rfl, e1 _ ?_⟩
  exact List.mem_append_right _ (by simp [ownTable, dlTable])

/-- Words that are no slot of a function wrapped by the second copy hold what the loader puts there. -/
theorem other_words {q : Process} (ok : q.Ok) {strict : Prop} {ops : List Op} (h : Events q strict ops)
    {s : State} {os} (hr : run q.env ops q.start = .ok (s, os)) {f : Name} {a : Addr}
    (hslot : ∀ l, q.U l → ∀ x ∈ rlOf l, a = l.addr + x.1 → x.2 = f)
    (hf : ∀ u, u ∈ ownTable q.env ∨ u ∈ ops.flatMap tableOf → u.name ≠ f) :
    s.mem a = loaderMem q.mem ops a := by
  induction ops using List.reverseRecOn generalizing s os with
  | nil => cases hr; rfl
  | append_singleton ops op ih =>
    obtain ⟨s1, os1, o, h1, -, -⟩ := run_last hr
    have := ih h.prefix h1 (fun u hu => hf u (hu.imp id (fun hu => by simp [hu])))
    rw [loaderMem, List.foldl_append]
    show _ = loaderWord op a (loaderMem q.mem ops a)
    rw [← this]
    rcases C10_only_slots_of_wrapped_functions ok h h1 hr a with e | ⟨l, off, g, u, e1, e2, e3, e4, e5, -⟩
    · exact e
    · obtain ⟨X, Y, e, -⟩ := e1
      have hU : q.U l := events_objs ok h hr l (by rw [e]; simp)
      exact absurd (e5.trans (hslot l hU (off, g) e2 e3)) (hf u e4)

/-- C123, functions only the first copy has wrapped: in libraries that were there when the second copy
came, calls still run the first copy's wrappers. -/
theorem C123_first_copy_keeps_the_rest (ok : p.Ok) {good1 : Lib → Prop} (h : HistoryFor p True good1 ops)
    {os} (hr : run p.env ops p.start = .ok (s, os)) (tw : Twins p.env env2 ops ops2)
    (hne : libsAfter p.libs ops ≠ []) {strict2 : Prop}
    (h2 : Events (p.second env2 s) strict2 ops2) {os2}
    (hr2 : run env2 ops2 (p.second env2 s).start = .ok (s2, os2)) (f : Name) {r : Addr}
    (hreg : registered p.env ops f ≠ [])
    (hreal : realAfter p.env p.libs ops f = some r) (hprog : p.P r = none)
    (hf : ∀ u, u ∈ ownTable env2 ∨ u ∈ ops2.flatMap tableOf → u.name ≠ f) :
    ∃ order : List Frame, order.Perm (registered p.env ops f) ∧
      ∀ l ∈ libsAfter p.libs ops, good1 l → ∀ off, (off, f) ∈ rlOf l →
        (∀ l', p.U l' → ∀ x ∈ rlOf l', l.addr + off = l'.addr + x.1 → x.2 = f) →
        (∀ op ∈ ops2, ∀ v, loaderWord op (l.addr + off) v = v) →
        ∀ path, Calls2 p.P (handlesOf p.env ops) s s2 (s2.mem (l.addr + off)) path ↔
          path = wrappers order ++ [r] := by
  have ok2 := C123_second_process_ok ok (EventsFor.weak h.toEventsFor) hr tw.page tw.mprotect hne
  obtain ⟨order, e1, -, e2⟩ := C87_admitted_libraries_are_intercepted ok h hr f hreal hprog
  refine ⟨order, e1, ?_⟩
  intro l hl hg off hoff hslot hld path
  have hm : s2.mem (l.addr + off) = s.mem (l.addr + off) := by
    rw [other_words ok2 h2 hr2 hslot hf]
    have : ∀ (L : List Op) v, (∀ op ∈ L, ∀ v, loaderWord op (l.addr + off) v = v) →
        L.foldl (fun v op => loaderWord op (l.addr + off) v) v = v := by
      intro L
      induction L with
      | nil => intros; rfl
      | cons op L ih =>
        intro v hL
        rw [List.foldl_cons, hL op (List.mem_cons_self ..) v]
        exact ih v fun o ho => hL o (List.mem_cons_of_mem _ ho)
    exact this ops2 _ hld
  have hc : Calls2 p.P (handlesOf p.env ops) s s2 (s2.mem (l.addr + off)) (wrappers order ++ [r]) := by
    rw [hm]
    exact ((e2 l hl hg off hoff hreg _).2 rfl).first (path_reads h.honest e1 hprog)
  exact ⟨fun h => h.det hc, fun e => e ▸ hc⟩

/-- C123, libraries loaded after that: calls of a function only the first copy has wrapped go where the
loader bound them, past the first copy's wrappers. -/
theorem C123_later_libraries_are_missed (ok : p.Ok) {strict : Prop} (h : Events p strict ops)
    {os} (hr : run p.env ops p.start = .ok (s, os)) (tw : Twins p.env env2 ops ops2)
    (hne : libsAfter p.libs ops ≠ []) {strict2 : Prop}
    (h2 : Events (p.second env2 s) strict2 ops2) {os2}
    (hr2 : run env2 ops2 (p.second env2 s).start = .ok (s2, os2)) {f : Name} {r : Addr}
    (hf : ∀ u, u ∈ ownTable env2 ∨ u ∈ ops2.flatMap tableOf → u.name ≠ f) {l : Lib} {off : Addr}
    (hslot : ∀ l', p.U l' → ∀ x ∈ rlOf l', l.addr + off = l'.addr + x.1 → x.2 = f)
    (hbound : loaderMem s.mem ops2 (l.addr + off) = r) (hprog : p.P r = none) (path : List Addr) :
    Calls2 p.P (handlesOf p.env ops) s s2 (s2.mem (l.addr + off)) path ↔ path = [r] := by
  have ok2 := C123_second_process_ok ok h hr tw.page tw.mprotect hne
  rw [other_words ok2 h2 hr2 hslot hf]
  have hc : Calls2 p.P (handlesOf p.env ops) s s2 (loaderMem s.mem ops2 (l.addr + off)) [r] := by
    rw [hbound]; exact .stop hprog
  exact ⟨fun h => h.det hc, fun e => e ▸ hc⟩

end Gotcha
