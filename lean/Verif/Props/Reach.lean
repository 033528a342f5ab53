import Verif.Proof.Reach
import Verif.Props.Only
import Verif.Props.Skip
/-
C99: the filter in force when gotcha_wrap or dlopen is called decides which libraries it reaches.
-/
namespace Gotcha
open Spec

theorem LoaderFor.pre {p : Process} {strict : Prop} {good : Lib → Prop} (pre post : List Op) :
    ∀ {seen libs inited}, LoaderFor p strict good seen libs inited (pre ++ post) →
    LoaderFor p strict good seen libs inited pre := by
  induction pre with
  | nil => intros; trivial
  | cons op pre ih =>
    intro seen libs inited h
    cases op <;> simp only [List.cons_append, LoaderFor] at h ⊢
    · exact ⟨h.1, ih h.2⟩
    · exact ⟨h.1, ih h.2⟩
    · exact ⟨h.1, ih h.2⟩
    · exact ih h
    · exact ⟨h.1, ih h.2⟩
    · exact ⟨h.1, h.2.1, ih h.2.2⟩
    · exact ⟨h.1, ih h.2⟩

theorem Spec.HistoryFor.prefix {p : Process} {strict : Prop} {good : Lib → Prop} {pre post : List Op}
    (h : HistoryFor p strict good (pre ++ post)) : HistoryFor p strict good pre :=
  ⟨⟨LoaderFor.pre _ _ h.loader, h.cons, fun hs f hf => h.filter hs f (List.mem_append_left _ hf),
    fun hs => (h.main hs).prefix, fun hs => by
      have := h.short hs; rw [List.length_append] at this; omega⟩, h.honest.prefix⟩

/-- A history without any assumption on the filters set and on how libraries come and go, but that all
relocations for one word name one function, that the first table with "main" is alone, that the
generation counter does not wrap around, and that clients are well-behaved. -/
abbrev AnyFilter (p : Process) (ops : List Op) : Prop := HistoryFor p True (fun _ => False) ops

theorem bwr_of_bindsTo {s : State} {f fr b} (h : BindsTo s f fr b) : bwr s.binds b = some fr.wrapper := by
  obtain ⟨x, t, h1, h2, -⟩ := h.bind
  unfold State.bind at h1
  cases hx : s.binds[b]? with
  | none => simp [hx] at h1
  | some y =>
    simp only [hx, Except.ok.injEq] at h1
    subst h1
    simp [bwr, btu, hx, h2]

theorem btu_of_bindsTo {s : State} {f fr b} (h : BindsTo s f fr b) :
    ∃ t, btu s.binds b = some (t, ⟨f, fr.wrapper, fr.handle⟩) := by
  obtain ⟨x, t, h1, h2, -⟩ := h.bind
  unfold State.bind at h1
  cases hx : s.binds[b]? with
  | none => simp [hx] at h1
  | some y =>
    simp only [hx, Except.ok.injEq] at h1
    subst h1
    exact ⟨y.tool, by simp [btu, hx, h2]⟩

/-- A slot that holds the outermost wrapper runs the whole stack. -/
theorem calls_of_slot {p : Process} (ok : p.Ok) {strict good} {ops : List Op}
    (h : HistoryFor p strict good ops) {s os} (hr : run p.env ops p.start = .ok (s, os)) {f : Name}
    {r : Addr} (hreal : realAfter p.env p.libs ops f = some r) (hprog : p.P r = none) {fr st}
    (hst : stackOf p ops f = fr :: st) {a : Addr} (ha : a = fr.wrapper) (path : List Addr) :
    Calls p.P s a path ↔ path = wrappers (stackOf p ops f) ++ [r] := by
  obtain ⟨hv, -⟩ := historyFor_view ok h hr
  have hc := view_calls hv.weaken (by rw [real_run]; exact hreal) hprog (stackOf p ops f) [] rfl fr st hst
  subst ha
  exact ⟨fun h => h.det hc, fun e => e ▸ hc⟩

theorem reach_wrap {p : Process} (ok : p.Ok) {pre : List Op} {tbl : List UBinding} {tool : Option Name}
    (h : AnyFilter p (pre ++ [.wrap tbl tool])) (hm : ¬ hasMain tbl) {s os}
    (hr : run p.env (pre ++ [.wrap tbl tool]) p.start = .ok (s, os)) {l : Lib}
    (hl : Admitted (filterAfter pre) (libsAfter p.libs pre) l) {off f} (hoff : (off, f) ∈ rlOf l) {fr st}
    (hst : stackOf p (pre ++ [.wrap tbl tool]) f = fr :: st)
    (hu : (⟨f, fr.wrapper, fr.handle⟩ : UBinding) ∈ tbl) : s.mem (l.addr + off) = fr.wrapper := by
  obtain ⟨s0, os0, o, h1, h2, -⟩ := run_last hr
  have hw := EventsFor.weak h.prefix.toEventsFor
  obtain ⟨eL, eF⟩ := events_env ok pre hw h1
  obtain ⟨s1, v, G, i1, i2, i3⟩ := top_init (C := p.ctx False False) ok.world (fun hc => absurd hc id)
    (by omega) (events_run ok hw h1)
  obtain ⟨s0', j0, j0'⟩ := historyFor_run ok h.prefix
  rw [h1] at j0
  cases j0
  obtain ⟨s1', v', G', j1, j2, -⟩ := top_init (C := p.ctx True True fun _ => False) ok.world
    (fun _ => h.honest.own) (by omega) j0'
  have i1' : gotchaInit p.env s0 = .ok s1 := i1
  have j1' : gotchaInit p.env s0 = .ok s1' := j1
  rw [i1'] at j1'
  cases j1'
  have hlU : p.U l := by
    apply events_objs ok hw h1
    obtain ⟨X, Y, e, -⟩ := hl
    rw [e]; simp
  have hacc : Accepted s1.filter s1.linkMap l := by
    rw [i3.filter, i3.linkMap, eL, eF]
    exact admitted_accepted (env := p.env) (U := p.U) ok.world (events_objs ok hw h1) hl
  have hS := j2.inv.slots trivial
  have hgen : genAt s1.libs G.lm l ≠ s1.gen + 1 := by
    rw [← genOf_eq (env := p.env) (U := p.U) ok.world i2.inv.lib hlU,
      genOf_eq (env := p.env) (U := p.U) ok.world j2.inv.lib hlU]
    have hg := hS.gens l
    have hp := j2.pot trivial
    have hsh := h.short trivial
    rw [List.length_append, List.length_singleton] at hsh
    have hlt : s1.gen.toNat < 2 ^ 32 - 1 := by
      unfold pot at hp
      omega
    intro hc
    rw [hc, BitVec.toNat_add] at hg
    have : (1 : BitVec 32).toNat = 1 := rfl
    rw [this, Nat.mod_eq_of_lt (by omega)] at hg
    omega
  obtain ⟨s2, c, k1, k2, k3⟩ := wrap_slots (C := (p.ctx False False).at v) ok.world
    (onMainReal_spec ok.world (fun hc => absurd hc id)) i2.inv id id tbl tool
    (Or.inl fun u hu e => hm ⟨u, hu, e⟩)
  have k1' : wrapCore p.env (onMainReal p.env) tbl tool s1 = .ok (s2, c) := k1
  simp only [stepOp, gotchaWrap, i1', bind, Except.bind, wrapBody, k1', Except.ok.injEq,
    Prod.mk.injEq] at h2
  obtain ⟨rfl, -⟩ := h2
  obtain ⟨hv, -⟩ := historyFor_view ok h hr
  have hin : (Abs.run p.env (pre ++ [.wrap tbl tool]) p.abs).1.inited = true := by
    rw [abs_start, (run_prio p.env p.libs _).2]; simp [isApi]
  obtain ⟨o', hlo, hcase⟩ := hv.look hin f
  rcases hcase with ⟨e, -⟩ | ⟨fr', st', b, e, rfl, hb⟩
  · rw [stackOf, e] at hst; cases hst
  rw [stackOf, e] at hst
  cases hst
  have hnot : nameLookup s1.funTab f ≠ .ok (some b) := by
    intro hc
    have hv1 := post_view j2
    obtain ⟨o1, hlo1, hcase1⟩ := hv1.look j2.inv.init' f
    rw [hc] at hlo1
    cases hlo1
    rcases hcase1 with ⟨-, e1⟩ | ⟨fr1, st1, b1, e1, e2, hb1⟩
    · cases e1
    cases e2
    obtain ⟨t1, ht1⟩ := btu_of_bindsTo hb1
    obtain ⟨t2, ht2⟩ := btu_of_bindsTo hb
    have := k2 ht1
    rw [this] at ht2
    have hh : fr1.handle = fr.handle := by
      have := congrArg UBinding.handle (Prod.ext_iff.1 (Option.some.inj ht2)).2
      exact this
    exact (honA_of (post := []) h.honest).unused _ hu f fr1 (by
      show fr1 ∈ ((Abs.run p.env pre p.abs).1.init p.env).stack f
      have : (((Abs.run p.env pre p.abs).1).init (p.ctx True True fun _ => False).env).stack f = fr1 :: st1 := e1
      have e3 : (((Abs.run p.env pre p.abs).1).init p.env).stack f = fr1 :: st1 := this
      rw [e3]; simp) hh
  have := k3 (hS.cons) l hacc hgen (off, f) hoff b hlo hnot
  rw [bwr_of_bindsTo hb] at this
  exact (Option.some.inj this).symm

/-- The object has been on the link map at some time. -/
theorem seenRun_loaded {p : Process} {pre : List Op} {l : Lib} (h : seenRun p.seen pre l) :
    ∃ pre1 pre2, pre = pre1 ++ pre2 ∧ l ∈ libsAfter p.libs pre1 := by
  induction pre using List.reverseRecOn with
  | nil => exact ⟨[], [], rfl, h⟩
  | append_singleton pre op ih =>
    rw [seenRun_snoc] at h
    have old : seenRun p.seen pre l → ∃ pre1 pre2, pre ++ [op] = pre1 ++ pre2 ∧ l ∈ libsAfter p.libs pre1 := by
      intro h
      obtain ⟨a, b, e, hl⟩ := ih h
      exact ⟨a, b ++ [op], by rw [e]; simp, hl⟩
    have new : ∀ ld : Load, l ∈ ld.libs → (op = .dlopen ld ∨ op = .load ld) →
        ∃ pre1 pre2, pre ++ [op] = pre1 ++ pre2 ∧ l ∈ libsAfter p.libs pre1 := by
      intro ld hl e
      refine ⟨pre ++ [op], [], by simp, ?_⟩
      rw [libsAfter, List.foldl_append]
      rcases e with rfl | rfl <;> exact List.mem_append_right _ hl
    cases op with
    | dlopen ld =>
      rcases h with h | h
      · exact old h
      · exact new ld h (Or.inl rfl)
    | load ld =>
      rcases h with h | h
      · exact old h
      · exact new ld h (Or.inr rfl)
    | wrap _ _ => exact old h
    | setPriority _ _ => exact old h
    | getPriority _ => exact old h
    | setFilter _ => exact old h
    | unload _ => exact old h

theorem reach_dlopen {p : Process} (ok : p.Ok) {pre : List Op} {ld : Load}
    (h : AnyFilter p (pre ++ [.dlopen ld])) (hi : pre.any isApi = true) {s os}
    (hr : run p.env (pre ++ [.dlopen ld]) p.start = .ok (s, os)) {l : Lib}
    (hfirst : ∀ pre1 pre2, pre = pre1 ++ pre2 → l ∉ libsAfter p.libs pre1)
    (hl : Admitted (filterAfter pre) (libsAfter p.libs (pre ++ [.dlopen ld])) l) {off f}
    (hoff : (off, f) ∈ rlOf l) {fr st} (hst : stackOf p (pre ++ [.dlopen ld]) f = fr :: st) :
    s.mem (l.addr + off) = fr.wrapper := by
  obtain ⟨s0, os0, o, h1, h2, -⟩ := run_last hr
  have hwd := EventsFor.weak h.toEventsFor
  have hw := EventsFor.weak h.prefix.toEventsFor
  obtain ⟨eL, eF⟩ := events_env ok pre hw h1
  obtain ⟨v, G, hP⟩ := run_post ok hw h1 hi
  have hin : s0.inited = true := hP.inv.init
  obtain ⟨s0', j0, j0'⟩ := historyFor_run ok h.prefix
  rw [h1] at j0
  cases j0
  obtain ⟨s1', v', G', j1, j2, -⟩ := top_init (C := p.ctx True True fun _ => False) ok.world
    (fun _ => h.honest.own) (by omega) j0'
  have j1' : gotchaInit p.env s0 = .ok s1' := j1
  simp only [gotchaInit, hin, if_true, Except.ok.injEq] at j1'
  subst j1'
  have hL : libsAfter p.libs (pre ++ [.dlopen ld]) = s0.linkMap ++ ld.libs := by
    rw [eL, libsAfter, libsAfter, List.foldl_append]
    rfl
  have hlU : ∀ k ∈ libsAfter p.libs (pre ++ [.dlopen ld]), p.U k := events_objs ok hwd hr
  have hacc : Accepted s0.filter (s0.linkMap ++ ld.libs) l := by
    rw [eF, ← hL]
    exact admitted_accepted (env := p.env) (U := p.U) ok.world hlU hl
  obtain ⟨-, hv⟩ := valid_snoc pre _ (start_valid (hon := False) hwd fun hc => absurd hc id)
  have hA : (Abs.run (p.ctx False False).env pre p.abs).1.libs = s0.linkMap := hP.inv.libs
  have hlo : LoadOk ((p.ctx False False).at v) (seenRun p.seen pre) s0.linkMap ld := by
    rw [← hA]; exact ⟨hv.1.objs, hv.1.nd, hv.1.again, hv.1.placed, hv.1.old, hv.1.cover, hv.1.cons, hv.1.keep⟩
  obtain ⟨-, hvs⟩ := valid_snoc pre _ (start_validFor (hon := True) h.toEventsFor fun _ => h.honest)
  have hA' : (Abs.run (p.ctx True True fun _ => False).env pre p.abs).1.libs = s0.linkMap := by
    have : (Abs.run (p.ctx True True fun _ => False).env pre p.abs).1.libs = s0.linkMap := hP.inv.libs
    exact this
  have hcons : SlotCons (s0.linkMap ++ ld.libs) := by rw [← hA']; exact hvs.1.cons trivial
  have hgen : genAt s0.libs G.lm l ≠ s0.gen := by
    have hnone : G.lm l = none := by
      cases hx : G.lm l with
      | none => rfl
      | some r =>
        exfalso
        have := hP.inv.lib.seen hx
        rw [hP.seen] at this
        obtain ⟨a, b, e, hl'⟩ := seenRun_loaded this
        exact hfirst a b e hl'
    have h0 : genAt s0.libs G.lm l = 0 := by simp [genAt, recAt, hnone]
    rw [h0]
    intro hc
    have := j2.gen trivial
    rw [← hc] at this
    exact absurd this (by decide)
  simp only [stepOp, hin, if_true, bind, Except.bind] at h2
  have hwp : ∃ a, s0.getWrappee p.env.hDlopen = .ok a := by
    cases hx : s0.getWrappee p.env.hDlopen with
    | error e => simp [dlopenWrapper, hx, bind, Except.bind] at h2
    | ok a => exact ⟨a, rfl⟩
  obtain ⟨s2, k1, k2, k3⟩ := dlopen_slots (C := (p.ctx False False).at v) ok.world hP hlo hwp
  have k1' : dlopenWrapper p.env ld s0 = .ok s2 := k1
  rw [k1'] at h2
  simp only [Except.ok.injEq, Prod.mk.injEq] at h2
  obtain ⟨rfl, -⟩ := h2
  obtain ⟨hvw, -⟩ := historyFor_view ok h hr
  have hin' : (Abs.run p.env (pre ++ [.dlopen ld]) p.abs).1.inited = true := by
    rw [abs_start, (run_prio p.env p.libs _).2]; simp [hi]
  obtain ⟨o', hlk, hcase⟩ := hvw.look hin' f
  rcases hcase with ⟨e, -⟩ | ⟨fr', st', b, e, rfl, hb⟩
  · rw [stackOf, e] at hst; cases hst
  rw [stackOf, e] at hst
  cases hst
  rw [k2] at hlk
  have := k3 hcons l hacc hgen (off, f) hoff b hlk
  rw [bwr_of_bindsTo hb] at this
  exact (Option.some.inj this).symm

/-- C99, gotcha_wrap.  Whatever filters were set before and however libraries have come and gone: when a
wrapper of the table becomes the outermost one of its function, every call of the function from a library
that the filter in force lets through runs the whole stack. -/
theorem C99_wrap_reaches_what_the_filter_lets_through {p : Process} (ok : p.Ok) {pre : List Op}
    {tbl : List UBinding} {tool : Option Name} (h : AnyFilter p (pre ++ [.wrap tbl tool]))
    (hm : ¬ hasMain tbl) {s os} (hr : run p.env (pre ++ [.wrap tbl tool]) p.start = .ok (s, os)) (f : Name)
    {r : Addr} (hreal : realAfter p.env p.libs (pre ++ [.wrap tbl tool]) f = some r)
    (hprog : p.P r = none) :
    ∃ order : List Frame, order.Perm (registered p.env (pre ++ [.wrap tbl tool]) f) ∧
      (Settled (pre ++ [.wrap tbl tool]) → order.Pairwise fun a b =>
        prioOr b.tool (pre ++ [.wrap tbl tool]) ≤ prioOr a.tool (pre ++ [.wrap tbl tool])) ∧
      ∀ fr st, order = fr :: st → (⟨f, fr.wrapper, fr.handle⟩ : UBinding) ∈ tbl →
        ∀ l, Admitted (filterAfter pre) (libsAfter p.libs pre) l → ∀ off, (off, f) ∈ rlOf l →
          ∀ path, Calls p.P s (s.mem (l.addr + off)) path ↔ path = wrappers order ++ [r] := by
  refine ⟨stackOf p (pre ++ [.wrap tbl tool]) f, stackOf_perm p _ f, fun hset => stackOf_sorted p hset f, ?_⟩
  intro fr st hst hu l hl off hoff path
  exact calls_of_slot ok h hr hreal hprog hst (reach_wrap ok h hm hr hl hoff hst hu) path

/-- C99, a function wrapped for the first time, and once in the table: its wrapper gets into every library
that the filter in force lets through. -/
theorem C99_first_wrap {p : Process} (ok : p.Ok) {pre : List Op} {tbl : List UBinding}
    {tool : Option Name} (h : AnyFilter p (pre ++ [.wrap tbl tool])) (hm : ¬ hasMain tbl) {s os}
    (hr : run p.env (pre ++ [.wrap tbl tool]) p.start = .ok (s, os)) {u : UBinding}
    (hreg : registered p.env (pre ++ [.wrap tbl tool]) u.name = [⟨toolName tool, u.wrapper, u.handle⟩])
    (hu : u ∈ tbl) {l : Lib} (hl : Admitted (filterAfter pre) (libsAfter p.libs pre) l) {off}
    (hoff : (off, u.name) ∈ rlOf l) : s.mem (l.addr + off) = u.wrapper := by
  have hp := stackOf_perm p (pre ++ [.wrap tbl tool]) u.name
  rw [hreg] at hp
  exact reach_wrap ok h hm hr hl hoff (List.perm_singleton.1 hp) hu

/-- C99, dlopen.  Whatever filters were set before: every call of a wrapped function from a library that is
loaded for the first time, by a dlopen GOTCHA sees, and that the filter in force lets through, runs the
whole stack. -/
theorem C99_dlopen_reaches_what_the_filter_lets_through {p : Process} (ok : p.Ok) {pre : List Op}
    {ld : Load} (h : AnyFilter p (pre ++ [.dlopen ld])) (hi : pre.any isApi = true) {s os}
    (hr : run p.env (pre ++ [.dlopen ld]) p.start = .ok (s, os)) (f : Name) {r : Addr}
    (hreal : realAfter p.env p.libs (pre ++ [.dlopen ld]) f = some r) (hprog : p.P r = none) :
    ∃ order : List Frame, order.Perm (registered p.env (pre ++ [.dlopen ld]) f) ∧
      (Settled (pre ++ [.dlopen ld]) → order.Pairwise fun a b =>
        prioOr b.tool (pre ++ [.dlopen ld]) ≤ prioOr a.tool (pre ++ [.dlopen ld])) ∧
      ∀ l, (∀ pre1 pre2, pre = pre1 ++ pre2 → l ∉ libsAfter p.libs pre1) →
        Admitted (filterAfter pre) (libsAfter p.libs (pre ++ [.dlopen ld])) l → ∀ off, (off, f) ∈ rlOf l →
          registered p.env (pre ++ [.dlopen ld]) f ≠ [] →
          ∀ path, Calls p.P s (s.mem (l.addr + off)) path ↔ path = wrappers order ++ [r] := by
  refine ⟨stackOf p (pre ++ [.dlopen ld]) f, stackOf_perm p _ f, fun hset => stackOf_sorted p hset f, ?_⟩
  intro l hfirst hl off hoff hne path
  cases hst : stackOf p (pre ++ [.dlopen ld]) f with
  | nil =>
    have := stackOf_perm p (pre ++ [.dlopen ld]) f
    rw [hst] at this
    exact absurd (List.nil_perm.1 this) hne
  | cons fr st =>
    rw [← hst]
    exact calls_of_slot ok h hr hreal hprog hst (reach_dlopen ok h hi hr hfirst hl hoff hst) path

/-- C99, gotcha_only_filter_last.  As long as it is in force, each event leaves every word as the loader
made it that is not a slot of the object which is last on the link map after it. -/
theorem C99_only_last_is_written {p : Process} (ok : p.Ok) {strict : Prop} {pre : List Op} {op : Op}
    (h : Events p strict (pre ++ [op])) (hflt : filterAfter (pre ++ [op]) = .last) {s0 os0 s os}
    (hr0 : run p.env pre p.start = .ok (s0, os0)) (hr : run p.env (pre ++ [op]) p.start = .ok (s, os))
    {a : Addr} (ha : ∀ l, (libsAfter p.libs (pre ++ [op])).getLast? = some l →
      ∀ q ∈ rlOf l, a ≠ l.addr + q.1) :
    s.mem a = loaderWord op a (s0.mem a) := by
  rcases C10_only_slots_of_wrapped_functions ok h hr0 hr a with e | ⟨l, off, f, u, ⟨X, Y, e, hl⟩, h2, h3, -⟩
  · exact e
  · rw [hflt] at hl
    have hY : Y = [] := by
      cases Y with
      | nil => rfl
      | cons y Y => cases hl
    subst hY
    exact absurd h3 (ha l (by rw [e]; simp) (off, f) h2)

/-- C99, gotcha_only_filter_last and dlopen.  The dlopened object is followed on the link map by the
objects it depends on that were not there yet.  Only the last of all these is intercepted. -/
theorem C99_only_last_and_dlopen {p : Process} (ok : p.Ok) {pre : List Op} {ld : Load} {new : List Lib}
    {k : Lib} (hld : ld.libs = new ++ [k]) (h : AnyFilter p (pre ++ [.dlopen ld]))
    (hflt : filterAfter pre = .last) (hi : pre.any isApi = true)
    (hfirst : ∀ pre1 pre2, pre = pre1 ++ pre2 → k ∉ libsAfter p.libs pre1) {s0 os0 s os}
    (hr0 : run p.env pre p.start = .ok (s0, os0))
    (hr : run p.env (pre ++ [.dlopen ld]) p.start = .ok (s, os)) :
    (∀ off f, (off, f) ∈ rlOf k → ∀ r, realAfter p.env p.libs (pre ++ [.dlopen ld]) f = some r →
      p.P r = none → registered p.env (pre ++ [.dlopen ld]) f ≠ [] →
      ∃ order : List Frame, order.Perm (registered p.env (pre ++ [.dlopen ld]) f) ∧
        ∀ path, Calls p.P s (s.mem (k.addr + off)) path ↔ path = wrappers order ++ [r]) ∧
    ∀ a, (∀ q ∈ rlOf k, a ≠ k.addr + q.1) → s.mem a = (ld.mem a).getD (s0.mem a) := by
  have hL : libsAfter p.libs (pre ++ [.dlopen ld]) = libsAfter p.libs pre ++ new ++ [k] := by
    rw [libsAfter, libsAfter, List.foldl_append, List.append_assoc, ← hld]
    rfl
  refine ⟨?_, ?_⟩
  · intro off f hoff r hreal hprog hne
    obtain ⟨order, h1, -, h2⟩ := C99_dlopen_reaches_what_the_filter_lets_through ok h hi hr f hreal hprog
    refine ⟨order, h1, h2 k hfirst ?_ off hoff hne⟩
    rw [hflt, hL]
    exact ⟨_, [], rfl, rfl⟩
  · intro a ha
    refine C99_only_last_is_written ok (EventsFor.weak h.toEventsFor) ?_ hr0 hr ?_
    · rw [filterAfter, List.foldl_append]; exact hflt
    · intro l hl
      rw [hL] at hl
      simp only [List.getLast?_append, List.getLast?_singleton, Option.some_or, Option.some.injEq] at hl
      subst hl
      exact ha

namespace Demo

/-- An object the plugin depends on. -/
def dep : Lib := obj 0x4000 "/lib/dep.so" 0x50000000 [] []

def procDep : Process := { proc with U := fun l => U l ∨ l = dep }

theorem rl_dep : rlOf dep = [] := rlOf_obj (by decide)

theorem hash_dep : ∀ l, U l → linkMapHash l ≠ linkMapHash dep := by
  rintro l (rfl | rfl | rfl) <;> decide +kernel

theorem name_dep : ∀ l, U l → l.name ≠ dep.name := by
  rintro l (rfl | rfl | rfl) <;> decide +kernel

theorem procDep_ok : procDep.Ok where
  world :=
    { page48 := world.page48
      page64 := world.page64
      ident := by
        rintro l l' (hl | rfl) (hl' | rfl) h
        · exact world.ident hl hl' h
        · exact absurd h (hash_dep l hl)
        · exact absurd h.symm (hash_dep l' hl')
        · rfl
      named := by
        rintro l (hl | rfl)
        · exact world.named hl
        · rfl
      exp := by
        rintro l (hl | rfl) n
        · exact world.exp hl n
        · exact ⟨_, exported_img (by decide) _ _⟩
      rel := by
        rintro l (hl | rfl)
        · exact world.rel hl
        · exact ⟨_, relocs_img (by decide)⟩ }
  objs := fun l hl => Or.inl (proc_ok.objs l hl)
  nd := proc_ok.nd
  placed := proc_ok.placed
  cover := proc_ok.cover
  ne := proc_ok.ne

/-- The plugin is loaded, and behind it what it depends on; the loader has bound the plugin's slot. -/
def loadDep : Load :=
  { libs := [plug, dep]
    mem := fun a => if a = 0x30000018 then some 0x20004000 else none
    wr := fun _ => none }

theorem loadDep_ok : LoadsFor procDep True (fun _ => False) procDep.seen [app, libc] loadDep where
  objs := by
    intro l hl
    simp only [loadDep, List.mem_cons, List.not_mem_nil, or_false] at hl
    rcases hl with rfl | rfl
    · exact Or.inl (Or.inr (Or.inr rfl))
    · exact Or.inr rfl
  nd := by
    show [app.lm, libc.lm, plug.lm, dep.lm].Nodup
    decide
  again := by
    intro l hl hs
    simp only [loadDep, List.mem_cons, List.not_mem_nil, or_false] at hl
    rcases hl with rfl | rfl
    · simp only [Process.seen, procDep, proc, List.mem_cons, List.not_mem_nil, or_false] at hs
      rcases hs with hs | hs <;> exact absurd (congrArg Lib.lm hs) (by decide)
    · exact absurd rfl (name_dep _ (proc_ok.objs _ hs))
  placed := by
    have key : ∀ l ∈ [app, libc] ++ loadDep.libs, U l ∨ l = dep := by
      intro l hl
      simp only [loadDep, List.cons_append, List.nil_append, List.mem_cons, List.not_mem_nil, or_false] at hl
      rcases hl with rfl | rfl | rfl | rfl
      · exact Or.inl (Or.inl rfl)
      · exact Or.inl (Or.inr (Or.inl rfl))
      · exact Or.inl (Or.inr (Or.inr rfl))
      · exact Or.inr rfl
    intro l hl o ho h1 h2
    rcases key l hl with hl | rfl <;> rcases key o ho with ho | rfl
    · exact placed (L := [l, o]) (by
        intro x hx
        simp only [List.mem_cons, List.not_mem_nil, or_false] at hx
        rcases hx with rfl | rfl <;> assumption) l (by simp) o (by simp) h1 h2
    · exact absurd h1 (name_dep l hl)
    · exact absurd h1.symm (name_dep o ho)
    · rfl
  old := by intro l _ s _; simp [loadDep]
  cover := by
    intro l hl s hs
    simp only [loadDep, List.mem_cons, List.not_mem_nil, or_false] at hl
    rcases hl with rfl | rfl
    · exact Or.inr (cover_plug s hs)
    · rw [rl_dep] at hs; cases hs
  cons := by
    intro _ l hl l' hl' q hq q' hq' e
    have key : ∀ l ∈ [app, libc] ++ loadDep.libs, U l ∨ rlOf l = [] := by
      intro l hl
      simp only [loadDep, List.cons_append, List.nil_append, List.mem_cons, List.not_mem_nil, or_false] at hl
      rcases hl with rfl | rfl | rfl | rfl
      · exact Or.inl (Or.inl rfl)
      · exact Or.inl (Or.inr (Or.inl rfl))
      · exact Or.inl (Or.inr (Or.inr rfl))
      · exact Or.inr rl_dep
    rcases key l hl with h1 | h1 <;> rcases key l' hl' with h2 | h2
    · exact cons (L := [l, l']) (by
        intro x hx
        simp only [List.mem_cons, List.not_mem_nil, or_false] at hx
        rcases hx with rfl | rfl <;> assumption) l (by simp) l' (by simp) q hq q' hq' e
    · rw [h2] at hq'; cases hq'
    · rw [h1] at hq; cases hq
    · rw [h1] at hq; cases hq
  keep := fun _ _ _ h => h.elim

/-- foo is wrapped; gotcha_only_filter_last is called. -/
def preLast : List Op := [.wrap [⟨nm "foo", 0x50a, 10⟩] (some B), .setFilter .last]

theorem honest_last (ld : Load) : Honest env P (preLast ++ [.dlopen ld]) where
  nodup := by
    show (([⟨nm "foo", 0x50a, 10⟩] : List UBinding).map UBinding.handle ++ _).Nodup
    decide
  prog := by
    intro u hu
    have : u ∈ ([⟨nm "foo", 0x50a, 10⟩] : List UBinding) := hu
    rw [List.mem_singleton] at this
    subst this
    decide
  own := envOk

theorem main_last (ld : Load) : MainAlone (preLast ++ [.dlopen ld]) :=
  mainAlone_of ⟨fun h => absurd h (notMain (by decide +kernel)), trivial, trivial, trivial⟩

theorem anyFilter_dep : AnyFilter procDep (preLast ++ [.dlopen loadDep]) where
  honest := honest_last _
  loader := ⟨fun _ => dlopen_def, loadDep_ok, trivial⟩
  cons := fun _ => cons proc_ok.objs
  filter := fun _ _ _ _ h => h.elim
  main := fun _ => main_last _
  short := fun _ => by show 3 + 3 < 2 ^ 32; decide

theorem loads_any {p : Process} {seen libs ld} (h : LoadsOk p True seen libs ld) :
    LoadsFor p True (fun _ => False) seen libs ld :=
  ⟨h.objs, h.nd, fun l hl hs => ⟨fun _ => id, (h.again l hl hs).2⟩, h.placed, h.old, h.cover, h.cons,
    fun _ _ _ hc => hc.elim⟩

theorem anyFilter_plug : AnyFilter proc (preLast ++ [.dlopen loadPlug]) where
  honest := honest_last _
  loader := ⟨fun _ => dlopen_def, loads_any (loadPlug_ok True), trivial⟩
  cons := fun _ => cons proc_ok.objs
  filter := fun _ _ _ _ h => h.elim
  main := fun _ => main_last _
  short := fun _ => by show 3 + 3 < 2 ^ 32; decide

theorem libs_last {pre1 pre2} (e : preLast = pre1 ++ pre2) : libsAfter [app, libc] pre1 = [app, libc] := by
  match pre1, e with
  | [], _ => rfl
  | [_], e => cases e; rfl
  | [_, _], e => cases e; rfl
  | _ :: _ :: _ :: _, e => simp [preLast] at e

theorem plug_new {pre1 pre2} (e : preLast = pre1 ++ pre2) : plug ∉ libsAfter proc.libs pre1 := by
  rw [show libsAfter proc.libs pre1 = _ from libs_last e]
  intro hc
  simp only [List.mem_cons, List.not_mem_nil, or_false] at hc
  rcases hc with hc | hc <;> exact absurd (congrArg Lib.lm hc) (by decide)

theorem dep_new {pre1 pre2} (e : preLast = pre1 ++ pre2) : dep ∉ libsAfter procDep.libs pre1 := by
  rw [show libsAfter procDep.libs pre1 = _ from libs_last e]
  intro hc
  simp only [List.mem_cons, List.not_mem_nil, or_false] at hc
  rcases hc with hc | hc <;> exact absurd (congrArg Lib.lm hc) (by decide)

/-- The plugin, alone, is last when it is dlopened: its calls of foo run the wrapper. -/
example : ∃ s os, run env (preLast ++ [.dlopen loadPlug]) proc.start = .ok (s, os) ∧
    Calls P s (s.mem (plug.addr + 0x18)) [0x50a, 0x20004000] := by
  obtain ⟨s, hr, -⟩ := historyFor_run proc_ok anyFilter_plug
  obtain ⟨s0, os0, o, hr0, -⟩ := run_last hr
  refine ⟨s, _, hr, ?_⟩
  have hreg : registered proc.env (preLast ++ [.dlopen loadPlug]) (nm "foo") = [⟨B, 0x50a, 10⟩] := by
    decide +kernel
  obtain ⟨order, h1, h2⟩ := (C99_only_last_and_dlopen proc_ok (new := []) (k := plug) rfl anyFilter_plug rfl
    rfl (fun _ _ => plug_new) hr0 hr).1 0x18 (nm "foo") slot_plug 0x20004000 (by decide +kernel)
    (by decide) (by rw [hreg]; simp)
  rw [hreg] at h1
  rw [List.perm_singleton.1 h1] at h2
  exact (h2 _).2 rfl

/-- A filter that rejects everything, then the default: the wrapper of the second tool, which has the higher
priority, gets into the application, and with it that of the first. -/
def opsOpen : List Op :=
  [ .setPriority A 10, .setFilter (.byName (some (nm "nothing"))),
    .wrap [⟨nm "foo", 0x50a, 10⟩] (some B), .setFilter .all ]

theorem anyFilter_open : AnyFilter proc (opsOpen ++ [.wrap [⟨nm "foo", 0x50c, 12⟩] (some A)]) where
  honest := by
    refine ⟨by decide +kernel, ?_, envOk⟩
    intro u hu
    have : u ∈ ([⟨nm "foo", 0x50a, 10⟩, ⟨nm "foo", 0x50c, 12⟩] : List UBinding) := hu
    simp only [List.mem_cons, List.not_mem_nil, or_false] at this
    rcases this with rfl | rfl <;> decide
  loader := ⟨fun _ => dlopen_def, fun h => (by cases h), fun h => (by cases h), trivial⟩
  cons := fun _ => cons proc_ok.objs
  filter := fun _ _ _ _ h => h.elim
  main := fun _ => mainAlone_of ⟨trivial, trivial, fun h => absurd h (notMain (by decide +kernel)), trivial,
    fun h => absurd h (notMain (by decide +kernel)), trivial⟩
  short := fun _ => by decide

example : ∃ s os, run env (opsOpen ++ [.wrap [⟨nm "foo", 0x50c, 12⟩] (some A)]) proc.start = .ok (s, os) ∧
    Calls P s (s.mem (app.addr + 0x18)) [0x50c, 0x50a, 0x20004000] := by
  obtain ⟨s, hr, -⟩ := historyFor_run proc_ok anyFilter_open
  refine ⟨s, _, hr, ?_⟩
  have hreg : registered proc.env (opsOpen ++ [.wrap [⟨nm "foo", 0x50c, 12⟩] (some A)]) (nm "foo") =
      [⟨B, 0x50a, 10⟩, ⟨A, 0x50c, 12⟩] := by decide +kernel
  obtain ⟨order, h1, h2, h3⟩ := C99_wrap_reaches_what_the_filter_lets_through proc_ok anyFilter_open
    (notMain (by decide +kernel)) hr (nm "foo") (r := 0x20004000) (by decide +kernel) (by decide)
  have hset : Settled (opsOpen ++ [.wrap [⟨nm "foo", 0x50c, 12⟩] (some A)]) :=
    settled_of ⟨Or.inl ⟨by decide +kernel, fun _ _ h => by cases h⟩, trivial, trivial, trivial, trivial, trivial⟩
  have hord : order = [⟨A, 0x50c, 12⟩, ⟨B, 0x50a, 10⟩] := by
    have h2 := h2 hset
    rw [hreg] at h1
    have hlt : ¬ prioOr A (opsOpen ++ [.wrap [⟨nm "foo", 0x50c, 12⟩] (some A)]) ≤
        prioOr B (opsOpen ++ [.wrap [⟨nm "foo", 0x50c, 12⟩] (some A)]) := by decide +kernel
    match order, h1.length_eq with
    | [x, y], _ =>
      have hx := h1.subset (List.mem_cons_self : x ∈ [x, y])
      have hy := h1.subset (by simp : y ∈ [x, y])
      have hnd : [x, y].Nodup := h1.nodup_iff.2 (by simp)
      simp only [List.mem_cons, List.not_mem_nil, or_false] at hx hy
      rcases hx with rfl | rfl <;> rcases hy with rfl | rfl
      · simp at hnd
      · simp only [List.pairwise_cons, List.mem_singleton, forall_eq] at h2
        exact absurd h2.1 hlt
      · rfl
      · simp at hnd
  rw [hord] at h3
  exact (h3 _ _ rfl (by simp) app ⟨[], [libc], rfl, trivial⟩ 0x18 slot_app _).2 rfl

/-- Only the libraries whose name contains "app", then a first registration. -/
def opsApp : List Op := [.setFilter (.byName (some (nm "app")))]

theorem anyFilter_app : AnyFilter proc (opsApp ++ [.wrap [⟨nm "foo", 0x50a, 10⟩] (some B)]) where
  honest := by
    refine ⟨by decide +kernel, ?_, envOk⟩
    intro u hu
    have : u ∈ ([⟨nm "foo", 0x50a, 10⟩] : List UBinding) := hu
    simp only [List.mem_cons, List.not_mem_nil, or_false] at this
    subst this
    decide
  loader := ⟨fun _ => dlopen_def, trivial⟩
  cons := fun _ => cons proc_ok.objs
  filter := fun _ _ _ _ h => h.elim
  main := fun _ => mainAlone_of ⟨trivial, fun h => absurd h (notMain (by decide +kernel)), trivial⟩
  short := fun _ => by decide

/-- Not vacuous: `C99_first_wrap`. -/
example : ∃ s os, run env (opsApp ++ [.wrap [⟨nm "foo", 0x50a, 10⟩] (some B)]) proc.start = .ok (s, os) ∧
    s.mem (app.addr + 0x18) = 0x50a := by
  obtain ⟨s, hr, -⟩ := historyFor_run proc_ok anyFilter_app
  have hadm : Admitted (filterAfter opsApp) (libsAfter proc.libs opsApp) app :=
    ⟨[], [libc], rfl, nm "/bin/app", rfl, nm "/bin/", [], by decide +kernel⟩
  exact ⟨s, _, hr, C99_first_wrap proc_ok anyFilter_app (notMain (by decide +kernel)) hr
    (u := ⟨nm "foo", 0x50a, 10⟩) (by decide +kernel) (by simp) hadm slot_app⟩

end Demo

/-- C99, refuted.  gotcha_only_filter_last does not select "the library that has just been dlopened": when
the library brings others with it, one of those is last and the library itself is not intercepted. -/
theorem C99_only_last_takes_the_dlopened_object_refuted :
    ¬ ∀ (p : Process), p.Ok → ∀ (pre : List Op) (ld : Load) (l : Lib) (rest : List Lib),
      ld.libs = l :: rest → AnyFilter p (pre ++ [.dlopen ld]) → filterAfter pre = .last →
      pre.any isApi = true → (∀ pre1 pre2, pre = pre1 ++ pre2 → l ∉ libsAfter p.libs pre1) →
      ∀ s os, run p.env (pre ++ [.dlopen ld]) p.start = .ok (s, os) →
      ∀ off f, (off, f) ∈ rlOf l → registered p.env (pre ++ [.dlopen ld]) f ≠ [] →
        ∃ fr ∈ registered p.env (pre ++ [.dlopen ld]) f, s.mem (l.addr + off) = fr.wrapper := by
  intro hc
  obtain ⟨s, hr, -⟩ := historyFor_run Demo.procDep_ok Demo.anyFilter_dep
  obtain ⟨s0, os0, o, hr0, -⟩ := run_last hr
  have hreg : registered Demo.procDep.env (Demo.preLast ++ [.dlopen Demo.loadDep]) (nm "foo") =
      [⟨Demo.B, 0x50a, 10⟩] := by decide +kernel
  obtain ⟨fr, h1, h2⟩ := hc Demo.procDep Demo.procDep_ok Demo.preLast Demo.loadDep Demo.plug [Demo.dep] rfl
    Demo.anyFilter_dep rfl rfl (fun _ _ => Demo.plug_new) s _ hr 0x18 (nm "foo") Demo.slot_plug
    (by rw [hreg]; simp)
  rw [hreg, List.mem_singleton] at h1
  have := (C99_only_last_and_dlopen Demo.procDep_ok (new := [Demo.plug]) (k := Demo.dep) rfl
    Demo.anyFilter_dep rfl rfl (fun _ _ => Demo.dep_new) hr0 hr).2 (Demo.plug.addr + 0x18) (by
      intro q hq; rw [Demo.rl_dep] at hq; cases hq)
  rw [this, h1] at h2
  have h3 : (0x20004000 : Addr) = 0x50a := h2
  exact absurd h3 (by decide)

end Gotcha
