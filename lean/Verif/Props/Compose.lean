import Verif.Proof.Story
import Verif.Props.Only
import Verif.Props.Reach
import Verif.Demo.Bad
/-
C100: what a call of a function runs depends on the registrations of that function and on the priorities
of the tools that made them, and on nothing else.
-/
namespace Gotcha
open Spec

theorem stackOf_story (p : Process) {T : List Name} {f : Name} (hf : f ∉ ownNames) {ops : List Op}
    (hT : Told T f ops) : stackOf p ops f = (endOf (story T f ops)).2 := by
  unfold stackOf
  rw [abs_start]
  exact (run_story p.env p.libs hf ops hT).1

/-- Calls from a well-treated library run the stack. -/
theorem calls_stack {p : Process} (ok : p.Ok) {good : Lib → Prop} {ops : List Op}
    (h : HistoryFor p True good ops) {s os} (hr : run p.env ops p.start = .ok (s, os)) {f : Name}
    {r : Addr} (hreal : realAfter p.env p.libs ops f = some r) (hprog : p.P r = none)
    (hne : stackOf p ops f ≠ []) {l : Lib} (hl' : l ∈ libsAfter p.libs ops) (hg : good l) {off : Addr}
    (hoff : (off, f) ∈ rlOf l) (path : List Addr) :
    Calls p.P s (s.mem (l.addr + off)) path ↔ path = wrappers (stackOf p ops f) ++ [r] := by
  obtain ⟨hv, hl⟩ := historyFor_view ok h hr
  cases hst : stackOf p ops f with
  | nil => exact absurd hst hne
  | cons fr st =>
    have hslot : s.mem (l.addr + off) = fr.wrapper :=
      hv.slots trivial l (by rw [hl]; exact hl') hg (off, f) hoff fr st hst
    rw [← hst]
    exact calls_of_slot ok h hr hreal hprog hst hslot path

theorem stackOf_client_ne {p : Process} {ops : List Op} {f : Name} (hf : f ∉ ownNames)
    (hne : clientFrames ops f ≠ []) : stackOf p ops f ≠ [] := by
  intro hc
  have := stackOf_perm p ops f
  rw [hc, registered_client _ _ hf] at this
  exact hne (List.nil_perm.1 this)

/-- C100.  Priorities may change at any time.  What a call of `f` (a function GOTCHA does not wrap for
itself) runs is told by the story of `f`: the registrations of `f` and the gotcha_set_priority calls for
the tools that made them, in the order of time, each new wrapper going below those whose tools have at
that moment a priority at least as high. -/
theorem C100_calls_follow_the_story {p : Process} (ok : p.Ok) {good : Lib → Prop} {ops : List Op}
    (h : HistoryFor p True good ops) {s os} (hr : run p.env ops p.start = .ok (s, os)) {f : Name}
    (hf : f ∉ ownNames) {T : List Name} (hT : Told T f ops) (hne : clientFrames ops f ≠ []) {r : Addr}
    (hreal : realAfter p.env p.libs ops f = some r) (hprog : p.P r = none) :
    ∀ l ∈ libsAfter p.libs ops, good l → ∀ off, (off, f) ∈ rlOf l → ∀ path,
      Calls p.P s (s.mem (l.addr + off)) path ↔ path = wrappers (endOf (story T f ops)).2 ++ [r] := by
  intro l hl hg off hoff path
  rw [← stackOf_story p hf hT]
  exact calls_stack ok h hr hreal hprog (stackOf_client_ne hf hne) hl hg hoff path

/-- C100: events that are not part of the story of `f`: gotcha_wrap for other functions,
gotcha_set_priority for other tools, gotcha_get_priority, filters, and the loading and unloading of
libraries. -/
theorem C100_events_outside_the_story (T : List Name) (f : Name) (pre post : List Op) (op : Op)
    (h : match op with
      | .wrap tbl _ => ∀ u ∈ tbl, u.name ≠ f
      | .setPriority t _ => t ∉ T
      | _ => True) : story T f (pre ++ op :: post) = story T f (pre ++ post) := by
  have : tell T f op = [] := by
    cases op <;> simp_all [tell]
  simp [story, this]

example : story [Demo.A] (nm "foo") (Demo.ops.take 3 ++ .setPriority Demo.B 4 :: Demo.ops.drop 3) =
    story [Demo.A] (nm "foo") (Demo.ops.take 3 ++ Demo.ops.drop 3) :=
  C100_events_outside_the_story _ _ _ _ _ (by decide +kernel)

/-- C100: nothing else matters.  Take two histories, of the same or of different processes, in which the
story of `f` is the same.  Then calls of `f` run the same wrappers in the same order. -/
theorem C100_nothing_else_matters {p q : Process} (okp : p.Ok) (okq : q.Ok) {good good' : Lib → Prop}
    {ops ops' : List Op} (h : HistoryFor p True good ops) (h' : HistoryFor q True good' ops') {s os s' os'}
    (hr : run p.env ops p.start = .ok (s, os)) (hr' : run q.env ops' q.start = .ok (s', os')) {f : Name}
    (hf : f ∉ ownNames) {T : List Name} (hT : Told T f ops) (hT' : Told T f ops')
    (hne : clientFrames ops f ≠ []) (same : story T f ops = story T f ops') {r r' : Addr}
    (hreal : realAfter p.env p.libs ops f = some r) (hprog : p.P r = none)
    (hreal' : realAfter q.env q.libs ops' f = some r') (hprog' : q.P r' = none) :
    ∃ ws : List Addr, ws.Perm (wrappers (clientFrames ops f)) ∧
      (∀ l ∈ libsAfter p.libs ops, good l → ∀ off, (off, f) ∈ rlOf l → ∀ path,
        Calls p.P s (s.mem (l.addr + off)) path ↔ path = ws ++ [r]) ∧
      (∀ l ∈ libsAfter q.libs ops', good' l → ∀ off, (off, f) ∈ rlOf l → ∀ path,
        Calls q.P s' (s'.mem (l.addr + off)) path ↔ path = ws ++ [r']) := by
  have e : stackOf q ops' f = stackOf p ops f := by
    rw [stackOf_story p hf hT, stackOf_story q hf hT', same]
  refine ⟨wrappers (stackOf p ops f), ?_, ?_, ?_⟩
  · have := stackOf_perm p ops f
    rw [registered_client _ _ hf] at this
    exact this.map _
  · intro l hl hg off hoff path
    exact calls_stack okp h hr hreal hprog (stackOf_client_ne hf hne) hl hg hoff path
  · intro l hl hg off hoff path
    rw [← e]
    exact calls_stack okq h' hr' hreal' hprog' (by rw [e]; exact stackOf_client_ne hf hne) hl hg hoff path

/-- C100: the order in which tools come does not matter.  Two histories register the same wrappers for
`f`, in any order; no priority changes once the tool has wrapped something; the tools end up with the
same priorities, and those of different wrappers of `f` differ.  Then calls of `f` run the same wrappers
in the same order. -/
theorem C100_order_of_tools_does_not_matter {p q : Process} (okp : p.Ok) (okq : q.Ok)
    {good good' : Lib → Prop} {ops ops' : List Op} (h : HistoryFor p True good ops)
    (h' : HistoryFor q True good' ops') {s os s' os'}
    (hr : run p.env ops p.start = .ok (s, os)) (hr' : run q.env ops' q.start = .ok (s', os')) {f : Name}
    (hf : f ∉ ownNames) (hset : Settled ops) (hset' : Settled ops') (hne : clientFrames ops f ≠ [])
    (same : (clientFrames ops f).Perm (clientFrames ops' f))
    (prio : ∀ fr ∈ clientFrames ops f, prioOr fr.tool ops = prioOr fr.tool ops')
    (diff : ((clientFrames ops f).map (fun fr => prioOr fr.tool ops)).Nodup) {r r' : Addr}
    (hreal : realAfter p.env p.libs ops f = some r) (hprog : p.P r = none)
    (hreal' : realAfter q.env q.libs ops' f = some r') (hprog' : q.P r' = none) :
    ∃ ws : List Addr, ws.Perm (wrappers (clientFrames ops f)) ∧
      (∀ l ∈ libsAfter p.libs ops, good l → ∀ off, (off, f) ∈ rlOf l → ∀ path,
        Calls p.P s (s.mem (l.addr + off)) path ↔ path = ws ++ [r]) ∧
      (∀ l ∈ libsAfter q.libs ops', good' l → ∀ off, (off, f) ∈ rlOf l → ∀ path,
        Calls q.P s' (s'.mem (l.addr + off)) path ↔ path = ws ++ [r']) := by
  have p1 := stackOf_perm p ops f
  have p2 := stackOf_perm q ops' f
  rw [registered_client _ _ hf] at p1 p2
  have pp : (stackOf p ops f).Perm (stackOf q ops' f) := (p1.trans same).trans p2.symm
  have e : stackOf p ops f = stackOf q ops' f := by
    refine List.Perm.eq_of_pairwise (le := fun a b : Frame => prioOr b.tool ops ≤ prioOr a.tool ops) ?_
      (stackOf_sorted p hset f) ?_ pp
    · intro a b ha hb h1 h2
      exact List.inj_on_of_nodup_map diff (p1.subset ha) (p1.subset (pp.symm.subset hb)) (by omega)
    · refine (stackOf_sorted q hset' f).imp_of_mem ?_
      intro a b ha hb hab
      rw [prio a (p1.subset (pp.symm.subset ha)), prio b (p1.subset (pp.symm.subset hb))]
      exact hab
  refine ⟨wrappers (stackOf p ops f), p1.map _, ?_, ?_⟩
  · intro l hl hg off hoff path
    exact calls_stack okp h hr hreal hprog (stackOf_client_ne hf hne) hl hg hoff path
  · intro l hl hg off hoff path
    rw [e]
    exact calls_stack okq h' hr' hreal' hprog' (by rw [← e]; exact stackOf_client_ne hf hne) hl hg hoff path

namespace Demo

/-- Histories of the demo process that only wrap foo and set priorities. -/
theorem history_fooOnly {ops : List Op} (hs : ∀ o ∈ ops, (∃ tbl t, o = .wrap tbl t ∧ ∀ u ∈ tbl, u.name = nm "foo") ∨
      ∃ t v, o = .setPriority t v) (hh : Honest env P ops) (hlen : ops.length + 3 < 2 ^ 32) :
    History proc True ops where
  honest := hh
  loader := by
    have : ∀ (ops : List Op) (ini : Bool) (seen : Lib → Prop),
        (∀ o ∈ ops, (∃ tbl t, o = .wrap tbl t ∧ ∀ u ∈ tbl, u.name = nm "foo") ∨
          ∃ t v, o = .setPriority t v) → LoaderOk proc True seen [app, libc] ini ops := by
      intro ops
      induction ops with
      | nil => intros; trivial
      | cons o ops ih =>
        intro ini seen h
        rcases h o (by simp) with ⟨tbl, t, rfl, -⟩ | ⟨t, v, rfl⟩
        · exact ⟨fun _ => dlopen_def, ih _ _ (fun o ho => h o (by simp [ho]))⟩
        · exact ⟨fun _ => dlopen_def, ih _ _ (fun o ho => h o (by simp [ho]))⟩
    exact this ops false _ hs
  cons := fun _ => cons proc_ok.objs
  filter := by
    intro _ f hf
    rcases hs _ hf with ⟨tbl, t, e, -⟩ | ⟨t, v, e⟩ <;> cases e
  main := by
    rintro - pre tbl tool post rfl ⟨u, hu, hm⟩ -
    rcases hs (.wrap tbl tool) (by simp) with ⟨tbl', t, e, h⟩ | ⟨t, v, e⟩
    · cases e
      rw [h u hu] at hm
      exact absurd hm (by decide +kernel)
    · cases e
  short := fun _ => hlen

/-- Priorities that change all the time. -/
def opsFlip : List Op :=
  [ .wrap [⟨nm "foo", 0x50a, 10⟩] (some B), .setPriority B 20, .wrap [⟨nm "foo", 0x50c, 12⟩] (some A),
    .setPriority A 30, .setPriority M 25, .wrap [⟨nm "foo", 0x50e, 14⟩] (some M) ]

theorem history_flip : History proc True opsFlip :=
  history_fooOnly (by
    intro o ho
    simp only [opsFlip, List.mem_cons, List.not_mem_nil, or_false] at ho
    rcases ho with rfl | rfl | rfl | rfl | rfl | rfl <;> simp)
    ⟨by decide +kernel, by
      intro u hu
      simp only [opsFlip, List.flatMap_cons, List.flatMap_nil, tableOf, List.nil_append, List.append_nil,
        List.cons_append, List.mem_cons, List.not_mem_nil, or_false] at hu
      rcases hu with rfl | rfl | rfl <;> decide, envOk⟩ (by decide)

/-- Tool M (25) comes before tool B (20), tool A (30 in the end, −1 when it came) is called last. -/
example : ∃ s os, run proc.env opsFlip proc.start = .ok (s, os) ∧ ∀ path,
    Calls P s (s.mem (app.addr + 0x18)) path ↔ path = [0x50e, 0x50a, 0x50c, 0x20004000] := by
  obtain ⟨s, h, -⟩ := history_run proc_ok history_flip
  refine ⟨s, _, h, fun path => ?_⟩
  have := C100_calls_follow_the_story proc_ok history_flip.for h foo_own (T := [A, B, M])
    (by decide +kernel) (by decide +kernel) (r := 0x20004000) (by decide +kernel) (by decide)
    app (by show _ ∈ [app, libc]; simp) trivial _ slot_app path
  rwa [show wrappers (endOf (story [A, B, M] (nm "foo") opsFlip)).2 ++ [0x20004000] =
    [0x50e, 0x50a, 0x50c, 0x20004000] by decide +kernel] at this

/-- The part of the demo history that is about foo. -/
def opsFoo : List Op :=
  [ .setPriority A 10, .wrap [⟨nm "foo", 0x50a, 10⟩] (some B), .wrap [⟨nm "foo", 0x50c, 12⟩] (some A) ]

/-- The same with the tools in the other order. -/
def opsOof : List Op :=
  [ .setPriority A 10, .wrap [⟨nm "foo", 0x50c, 12⟩] (some A), .wrap [⟨nm "foo", 0x50a, 10⟩] (some B) ]

theorem history_foo : History proc True opsFoo :=
  history_fooOnly (by
    intro o ho
    simp only [opsFoo, List.mem_cons, List.not_mem_nil, or_false] at ho
    rcases ho with rfl | rfl | rfl <;> simp)
    ⟨by decide +kernel, by
      intro u hu
      simp only [opsFoo, List.flatMap_cons, List.flatMap_nil, tableOf, List.nil_append, List.append_nil,
        List.cons_append, List.mem_cons, List.not_mem_nil, or_false] at hu
      rcases hu with rfl | rfl <;> decide, envOk⟩ (by decide)

theorem history_oof : History proc True opsOof :=
  history_fooOnly (by
    intro o ho
    simp only [opsOof, List.mem_cons, List.not_mem_nil, or_false] at ho
    rcases ho with rfl | rfl | rfl <;> simp)
    ⟨by decide +kernel, by
      intro u hu
      simp only [opsOof, List.flatMap_cons, List.flatMap_nil, tableOf, List.nil_append, List.append_nil,
        List.cons_append, List.mem_cons, List.not_mem_nil, or_false] at hu
      rcases hu with rfl | rfl <;> decide, envOk⟩ (by decide)

/-- The rest of the demo history (bar, main, the plugin) makes no difference to foo. -/
example : ∃ s os s' os' ws, run proc.env ops proc.start = .ok (s, os) ∧
    run proc.env opsFoo proc.start = .ok (s', os') ∧
    (∀ path, Calls P s (s.mem (app.addr + 0x18)) path ↔ path = ws ++ [0x20004000]) ∧
    (∀ path, Calls P s' (s'.mem (app.addr + 0x18)) path ↔ path = ws ++ [0x20004000]) := by
  obtain ⟨s, os, h⟩ := demo_run
  obtain ⟨s', h', -⟩ := history_run proc_ok history_foo
  obtain ⟨ws, -, h1, h2⟩ := C100_nothing_else_matters proc_ok proc_ok (history True).for history_foo.for h
    h' foo_own (T := [A, B]) (by decide +kernel) (by decide +kernel) (by decide +kernel)
    (by decide +kernel) real_foo (by decide) (r' := 0x20004000) (by decide +kernel) (by decide)
  exact ⟨s, os, s', _, ws, h, h', h1 app (by show _ ∈ [app, libc, plug]; simp) trivial _ slot_app,
    h2 app (by show _ ∈ [app, libc]; simp) trivial _ slot_app⟩

theorem settled_foo : Settled opsFoo :=
  settled_of ⟨Or.inl ⟨by decide +kernel, by simp⟩, trivial, trivial, trivial⟩

theorem settled_oof : Settled opsOof :=
  settled_of ⟨Or.inl ⟨by decide +kernel, by simp⟩, trivial, trivial, trivial⟩

/-- Whichever of the two tools comes first. -/
example : ∃ s os s' os' ws, run proc.env opsFoo proc.start = .ok (s, os) ∧
    run proc.env opsOof proc.start = .ok (s', os') ∧
    (∀ path, Calls P s (s.mem (app.addr + 0x18)) path ↔ path = ws ++ [0x20004000]) ∧
    (∀ path, Calls P s' (s'.mem (app.addr + 0x18)) path ↔ path = ws ++ [0x20004000]) := by
  obtain ⟨s, h, -⟩ := history_run proc_ok history_foo
  obtain ⟨s', h', -⟩ := history_run proc_ok history_oof
  obtain ⟨ws, -, h1, h2⟩ := C100_order_of_tools_does_not_matter proc_ok proc_ok history_foo.for
    history_oof.for h h' foo_own settled_foo settled_oof (by decide +kernel) (by decide +kernel)
    (by decide +kernel) (by decide +kernel) (r := 0x20004000) (by decide +kernel) (by decide)
    (r' := 0x20004000) (by decide +kernel) (by decide)
  exact ⟨s, _, s', _, ws, h, h', h1 app (by show _ ∈ [app, libc]; simp) trivial _ slot_app,
    h2 app (by show _ ∈ [app, libc]; simp) trivial _ slot_app⟩

def ops2r : List Op :=
  [ .wrap [⟨nm "foo", 0x50c, 12⟩] (some A), .wrap [⟨nm "foo", 0x50a, 10⟩] (some B) ]

theorem history2r : History proc True ops2r :=
  history_fooOnly (by
    intro o ho
    simp only [ops2r, List.mem_cons, List.not_mem_nil, or_false] at ho
    rcases ho with rfl | rfl <;> simp)
    ⟨by decide +kernel, by
      intro u hu
      simp only [ops2r, List.flatMap_cons, List.flatMap_nil, tableOf, List.nil_append, List.append_nil,
        List.cons_append, List.mem_cons, List.not_mem_nil, or_false] at hu
      rcases hu with rfl | rfl <;> decide, envOk⟩ (by decide)

end Demo

/-- C100: between tools of equal priority the order in which they come does matter. -/
theorem C100_ties_depend_on_the_order_refuted :
    ¬ ∀ (p : Process), p.Ok → ∀ (ops ops' : List Op), History p True ops → History p True ops' →
      ∀ s os s' os', run p.env ops p.start = .ok (s, os) → run p.env ops' p.start = .ok (s', os') →
      ∀ f : Name, f ∉ ownNames → Settled ops → Settled ops' →
      (clientFrames ops f).Perm (clientFrames ops' f) →
      (∀ fr ∈ clientFrames ops f, prioOr fr.tool ops = prioOr fr.tool ops') →
      ∀ r : Addr, realAfter p.env p.libs ops f = some r → realAfter p.env p.libs ops' f = some r →
      p.P r = none → ∀ l ∈ libsAfter p.libs ops, l ∈ libsAfter p.libs ops' →
      ∀ off, (off, f) ∈ rlOf l → ∀ path,
        Calls p.P s (s.mem (l.addr + off)) path ↔ Calls p.P s' (s'.mem (l.addr + off)) path := by
  intro hall
  obtain ⟨s, os, h⟩ := Demo.demo_run2
  obtain ⟨s', h', -⟩ := history_run Demo.proc_ok Demo.history2r
  have hl : Demo.app ∈ libsAfter Demo.proc.libs Demo.ops2 := by
    show _ ∈ [Demo.app, Demo.libc]; simp
  have hl' : Demo.app ∈ libsAfter Demo.proc.libs Demo.ops2r := by
    show _ ∈ [Demo.app, Demo.libc]; simp
  have key := hall Demo.proc Demo.proc_ok Demo.ops2 Demo.ops2r (Demo.history2 True) Demo.history2r s os s' _
    h h' (nm "foo") Demo.foo_own Demo.settled2 (Demo.settled_of ⟨trivial, trivial, trivial⟩)
    (by decide +kernel) (by decide +kernel) 0x20004000 Demo.real_foo2 (by decide +kernel) (by decide)
    Demo.app hl hl' _ Demo.slot_app
  have h1 := C100_calls_follow_the_story Demo.proc_ok (Demo.history2 True).for h Demo.foo_own
    (T := [Demo.A, Demo.B]) (by decide +kernel) (by decide +kernel) Demo.real_foo2 (by decide)
    Demo.app hl trivial _ Demo.slot_app [0x50a, 0x50c, 0x20004000]
  have h2 := C100_calls_follow_the_story Demo.proc_ok Demo.history2r.for h' Demo.foo_own
    (T := [Demo.A, Demo.B]) (by decide +kernel) (by decide +kernel) (r := 0x20004000) (by decide +kernel)
    (by decide) Demo.app hl' trivial _ Demo.slot_app [0x50a, 0x50c, 0x20004000]
  have h3 := h2.1 ((key _).1 (h1.2 (by decide +kernel)))
  exact absurd h3 (by decide +kernel)

end Gotcha
