import Verif.Proof.Calls
import Verif.Demo.Facts
/-
C07–C09, C13, C22, C24: unresolved functions, dlopen, main, attribution to tools.
-/
namespace Gotcha
open Spec

/-- C07.  gotcha_wrap returns GOTCHA_FUNCTION_NOT_FOUND exactly when its table has an entry for a
function, other than main, that was not registered by anything before that entry (earlier calls,
earlier entries of the table, GOTCHA's own bindings) and that no loaded object exports; otherwise
it returns GOTCHA_SUCCESS. -/
theorem C07_return_code {p : Process} (ok : p.Ok) {strict : Prop} {ops : List Op} {tbl tool}
    (h : History p strict (ops ++ [.wrap tbl tool])) {s os}
    (hr : run p.env (ops ++ [.wrap tbl tool]) p.start = .ok (s, os)) :
    ∃ c, os.getLast? = some (.ret c) ∧ (c = .functionNotFound ∨ c = .success) ∧
      (c = .functionNotFound ↔ ∃ l1 u l2, tbl = l1 ++ u :: l2 ∧ u.name ≠ nm "main" ∧
        registered p.env (ops ++ [.wrap l1 tool]) u.name = [] ∧
        ∀ l ∈ libsAfter p.libs ops,
          vdsoAfter p.env p.libs (ops ++ [.wrap tbl tool]) = some l.lm ∨
            exportsAt l u.name = none) := by
  obtain ⟨s', h1, -⟩ := history_run ok h
  rw [hr] at h1
  cases h1
  rw [run_append]
  refine ⟨_, List.getLast?_concat, ?_, ?_⟩
  · show (Abs.wrap _ _ _ _).2 = _ ∨ (Abs.wrap _ _ _ _).2 = _
    unfold Abs.wrap
    dsimp only
    split
    · exact Or.inl rfl
    · exact Or.inr rfl
  · show (Abs.wrap _ _ _ _).2 = _ ↔ _
    have hm := init_mainReg p.env _ (run_mainReg p.env p.libs ops)
    rw [← abs_start] at hm
    have hc := pushAll_count p.env (toolName tool) tbl
      (((Abs.run p.env ops p.abs).1.init p.env).touch (toolName tool)) hm
    have hret : (Abs.wrap (Abs.onMain p.env) tbl tool ((Abs.run p.env ops p.abs).1.init p.env)).2 =
        .functionNotFound ↔ (Abs.pushAll (Abs.onMain p.env) (toolName tool) tbl
          (((Abs.run p.env ops p.abs).1.init p.env).touch (toolName tool))).2 > 0 := by
      unfold Abs.wrap toolName
      dsimp only
      split <;> simp_all
    rw [hret, hc]
    have hst : ∀ l1 f, (Abs.pushAll (Abs.onMain p.env) (toolName tool) l1
        (((Abs.run p.env ops p.abs).1.init p.env).touch (toolName tool))).1.stack f = [] ↔
        registered p.env (ops ++ [.wrap l1 tool]) f = [] := by
      intro l1 f
      have := run_stack_nil p.env p.libs (ops ++ [.wrap l1 tool]) f
      rw [run_snoc, List.isEmpty_iff] at this
      exact this
    have hlibs : (((Abs.run p.env ops p.abs).1.init p.env).touch (toolName tool)).libs =
        libsAfter p.libs ops := by
      show ((Abs.run p.env ops p.abs).1.init p.env).libs = _
      rw [init_libs, libs_run]
    have hvd : (((Abs.run p.env ops p.abs).1.init p.env).touch (toolName tool)).vdso =
        vdsoAfter p.env p.libs (ops ++ [.wrap tbl tool]) := by
      have := (run_real p.env p.libs (ops ++ [.wrap tbl tool])).2.1
      rw [run_snoc] at this
      rw [← this]
      exact (wrap_same (onMain_same p.env) tbl tool ((Abs.run p.env ops p.abs).1.init p.env)).vdso.symm
    simp only [hst, hlibs, hvd, firstDef_none]

/-- Tool B's table has bar, which nothing exports yet: the call returns GOTCHA_FUNCTION_NOT_FOUND. -/
example : ∃ s os, run Demo.env (Demo.ops.take 2) Demo.proc.start = .ok (s, os) ∧
    os.getLast? = some (.ret .functionNotFound) := by
  obtain ⟨s, os, hr⟩ := Demo.prefix_run 2
  obtain ⟨c, h1, -, h2⟩ := C07_return_code (ops := [.setPriority Demo.A 10]) Demo.proc_ok
    (Demo.prefix_history True 2) hr
  have hc : c = .functionNotFound := by
    refine h2.2 ⟨[⟨nm "foo", 0x50a, 10⟩], ⟨nm "bar", 0x50b, 11⟩, [], rfl, by decide +kernel,
      by decide +kernel, ?_⟩
    intro l hl
    have hl : l ∈ [Demo.app, Demo.libc] := hl
    simp only [List.mem_cons, List.not_mem_nil, or_false] at hl
    rcases hl with rfl | rfl <;> exact Or.inr (by decide +kernel)
  rw [hc] at h1
  exact ⟨s, os, hr, h1⟩

/-- C08.  A function pending before an intercepted dlopen is looked for in the link map extended by what
was loaded: the innermost wrapper gets the first definition if there is one (its handle was
indeterminate before), and stays pending otherwise; the rest of its stack is as before. -/
theorem C08_pending_resolved_by_dlopen {p : Process} (ok : p.Ok) {strict : Prop} {ops : List Op} {ld}
    (h : History p strict (ops ++ [.dlopen ld])) {s os s' os'}
    (hr : run p.env ops p.start = .ok (s, os))
    (hr' : run p.env (ops ++ [.dlopen ld]) p.start = .ok (s', os')) {f : Name}
    (hreg : registered p.env ops f ≠ []) (hpend : realAfter p.env p.libs ops f = none) :
    ∃ order, order.Perm (registered p.env ops f) ∧ Linked s order none ∧
      Linked s' order
        (firstDef (vdsoAfter p.env p.libs ops) (libsAfter p.libs ops ++ ld.libs) f) ∧
      realAfter p.env p.libs (ops ++ [.dlopen ld]) f =
        firstDef (vdsoAfter p.env p.libs ops) (libsAfter p.libs ops ++ ld.libs) f := by
  have h1 := history_linked ok h.prefix hr f
  have h2 := history_linked ok h hr' f
  have hini : (Abs.run p.env ops p.abs).1.inited = true := by
    rw [abs_start, (run_prio p.env p.libs ops).2]
    by_contra hc
    rw [Bool.not_eq_true] at hc
    have hn : (Abs.run p.env ops p.abs).1.inited = false := by
      rw [abs_start, (run_prio p.env p.libs ops).2]; exact hc
    have : ∀ ops mw, ops.any isApi = false → regs p.env false mw ops = [] := by
      intro ops
      induction ops with
      | nil => intros; rfl
      | cons o ops ih =>
        intro mw h
        simp only [List.any_cons, Bool.or_eq_false_iff] at h
        rw [regs, h.1, Bool.or_false, ih _ h.2]
        cases o <;> simp_all [opRegs, isApi]
    exact hreg (by simp [registered, this ops false hc, framesIn])
  have hA : (Abs.run p.env (ops ++ [.dlopen ld]) p.abs).1 =
      (Abs.run p.env ops p.abs).1.dlopen ld.libs := by
    rw [run_snoc, step_dlopen, if_pos hini]
  have hs : stackOf p (ops ++ [.dlopen ld]) f = stackOf p ops f := by
    unfold stackOf; rw [hA]; rfl
  have hne : stackOf p ops f ≠ [] := by
    intro hc
    have := stackOf_perm p ops f
    rw [hc] at this
    exact hreg (List.nil_perm.1 this)
  have hreal : realAfter p.env p.libs (ops ++ [.dlopen ld]) f =
      firstDef (vdsoAfter p.env p.libs ops) (libsAfter p.libs ops ++ ld.libs) f := by
    rw [← real_run, hA, ← libs_run, ← (run_real p.env p.libs ops).2.1]
    have hpn : (Abs.run p.env ops p.abs).1.real f = none := by rw [real_run]; exact hpend
    show (if (Abs.run p.env ops p.abs).1.stack f ≠ [] ∧ (Abs.run p.env ops p.abs).1.real f = none
      then _ else _) = _
    rw [if_pos ⟨hne, hpn⟩]
    rfl
  rw [hs, hreal] at h2
  rw [hpend] at h1
  exact ⟨stackOf p ops f, stackOf_perm p ops f, h1, h2, hreal⟩

/-- bar is pending after three events of the demo history and resolved by the dlopen of the plugin. -/
example : ∃ s os s' os' order, run Demo.env (Demo.ops.take 3) Demo.proc.start = .ok (s, os) ∧
    run Demo.env (Demo.ops.take 4) Demo.proc.start = .ok (s', os') ∧
    order.Perm [⟨Demo.B, 0x50b, 11⟩] ∧ Linked s order none ∧ Linked s' order (some 0x30004000) := by
  obtain ⟨s, os, hr⟩ := Demo.prefix_run 3
  obtain ⟨s', os', hr'⟩ := Demo.prefix_run 4
  obtain ⟨order, h1, h2, h3, h4⟩ := C08_pending_resolved_by_dlopen (ops := Demo.ops.take 3)
    (ld := Demo.loadPlug) (f := nm "bar") Demo.proc_ok (Demo.prefix_history True 4) hr hr'
    (by rw [show registered Demo.proc.env _ _ = _ from Demo.reg_bar3]; simp) Demo.real_bar3
  refine ⟨s, os, s', os', order, hr, hr', by rw [← Demo.reg_bar3]; exact h1, h2, ?_⟩
  rw [← h4] at h3
  rw [← Demo.real_bar4]
  exact h3

/-- C08, nothing is resolved twice: a resolved function keeps its definition in every event. -/
theorem C08_resolved_stays {p : Process} (ok : p.Ok) {strict : Prop} {ops : List Op} {op : Op}
    (h : History p strict (ops ++ [op])) {s' os'}
    (hr' : run p.env (ops ++ [op]) p.start = .ok (s', os')) {f : Name}
    {r : Addr} (hres : realAfter p.env p.libs ops f = some r) :
    realAfter p.env p.libs (ops ++ [op]) f = some r ∧
      ∃ order, order.Perm (registered p.env (ops ++ [op]) f) ∧ Linked s' order (some r) := by
  have hreal : realAfter p.env p.libs (ops ++ [op]) f = some r := by
    rw [← real_run, run_snoc]
    have hst : (Abs.run p.env ops p.abs).1.stack f ≠ [] := by
      intro hc
      have h0 := (run_stack_nil p.env p.libs ops f).1 hc
      rw [List.isEmpty_iff] at h0
      -- without registration there was no attempt
      have key : ∀ rest done, registered p.env (done ++ rest) f = [] →
          tries p.env p.libs f done rest = [] := by
        intro rest
        induction rest with
        | nil => intros; rfl
        | cons o rest ih =>
          intro done h
          have hpre : ∀ a b, registered p.env (a ++ b) f = [] → registered p.env a f = [] := by
            intro a b
            induction b using List.reverseRecOn with
            | nil => intro h; simpa using h
            | append_singleton b x ih =>
              intro h
              apply ih
              rw [← List.append_assoc] at h
              unfold registered at h
              rw [regs_snoc, framesIn_append] at h
              exact (List.append_eq_nil_iff.1 h).1
          rw [tries, ih (done ++ [o]) (by simpa using h), List.append_nil, if_neg]
          have h1 := hpre done (o :: rest) h
          have h2 := hpre (done ++ [o]) rest (by simpa using h)
          unfold isTry
          rw [h1, h2]
          split <;> simp
      unfold realAfter at hres
      rw [key ops [] (by simpa using h0)] at hres
      cases hres
    exact (step_grow p.env op _).real f r hst (by rw [real_run]; exact hres)
  refine ⟨hreal, stackOf p (ops ++ [op]) f, stackOf_perm p _ f, ?_⟩
  have := history_linked ok h hr' f
  rw [hreal] at this
  exact this

example : ∃ s os order, run Demo.env Demo.ops Demo.proc.start = .ok (s, os) ∧
    order.Perm [⟨Demo.B, 0x50b, 11⟩] ∧ Linked s order (some 0x30004000) := by
  obtain ⟨s, os, hr⟩ := Demo.demo_run
  obtain ⟨-, order, h1, h2⟩ := C08_resolved_stays (ops := Demo.ops.take 5)
    (op := .getPriority Demo.A) (f := nm "bar") Demo.proc_ok (Demo.history True) hr
    (r := 0x30004000) (by decide +kernel)
  exact ⟨s, os, order, hr, by rw [← Demo.reg_bar]; exact h1, h2⟩

/-- C09.  When an intercepted dlopen returns, every GOT slot of every loaded library, old or new, that is
for a wrapped function holds the outermost wrapper. -/
theorem C09_dlopen_rewires_everything {p : Process} (ok : p.Ok) {ops : List Op} {ld}
    (h : History p True (ops ++ [.dlopen ld])) {s' os'}
    (hr' : run p.env (ops ++ [.dlopen ld]) p.start = .ok (s', os')) (f : Name) :
    ∃ order, order.Perm (registered p.env ops f) ∧
      Linked s' order (realAfter p.env p.libs (ops ++ [.dlopen ld]) f) ∧
      ∀ l ∈ libsAfter p.libs ops ++ ld.libs, ∀ off, (off, f) ∈ rlOf l →
        ∀ fr, order.head? = some fr → s'.mem (l.addr + off) = fr.wrapper := by
  obtain ⟨hv, hlm, -⟩ := history_view ok h hr'
  have hs : stackOf p (ops ++ [.dlopen ld]) f = stackOf p ops f := by
    unfold stackOf
    rw [run_snoc, step_dlopen]
    split <;> rfl
  refine ⟨stackOf p ops f, stackOf_perm p ops f, ?_, ?_⟩
  · rw [← hs]; exact history_linked ok h hr' f
  · intro l hl off hoff fr hfr
    cases hst : stackOf p ops f with
    | nil => rw [hst] at hfr; cases hfr
    | cons g st =>
      rw [hst] at hfr
      cases hfr
      rw [← hs] at hst
      refine hv.slots trivial l ?_ trivial (off, f) hoff _ st hst
      rw [hlm, libsAfter_snoc]
      exact hl

/-- The plugin's slot for foo holds tool A's wrapper when the dlopen has returned. -/
example : ∃ s os, ∃ order : List Frame, run Demo.env (Demo.ops.take 4) Demo.proc.start = .ok (s, os) ∧
    order.Perm [⟨Demo.B, 0x50a, 10⟩, ⟨Demo.A, 0x50c, 12⟩] ∧
    ∀ fr : Frame, order.head? = some fr → s.mem (Demo.plug.addr + 0x18) = fr.wrapper ∧
      s.mem (Demo.app.addr + 0x18) = fr.wrapper := by
  obtain ⟨s, os, hr⟩ := Demo.prefix_run 4
  obtain ⟨order, h1, -, h2⟩ := C09_dlopen_rewires_everything (ops := Demo.ops.take 3)
    (ld := Demo.loadPlug) Demo.proc_ok (Demo.prefix_history True 4) hr (nm "foo")
  refine ⟨s, os, order, hr, by rw [← Demo.reg_foo3]; exact h1, fun fr hfr => ⟨?_, ?_⟩⟩
  · exact h2 Demo.plug (by show _ ∈ [Demo.app, Demo.libc, Demo.plug]; simp) _ Demo.slot_plug fr hfr
  · exact h2 Demo.app (by show _ ∈ [Demo.app, Demo.libc, Demo.plug]; simp) _ Demo.slot_app fr hfr

/-- C13.  When no tool that wraps main has a priority above GOTCHA's own (-1 by default), the main
function handed to the C runtime by the intercepted `__libc_start_main` runs the main wrappers of
all tools that wrapped main, in stack order, and then the program's own main. -/
theorem C13_main_through_libc_start_main {p : Process} (ok : p.Ok) {strict : Prop} {ops : List Op}
    (h : History p strict ops) (hset : Settled ops) {s os}
    (hr : run p.env ops p.start = .ok (s, os))
    (hmain : clientFrames ops (nm "main") ≠ [])
    (hprio : ∀ fr ∈ clientFrames ops (nm "main"), prioOr fr.tool ops ≤ prioOr (nm "gotcha") ops)
    {r : Addr} (hreal : realAfter p.env p.libs ops (nm "main") = some r) (hprog : p.P r = none) :
    ∃ order, order.Perm (clientFrames ops (nm "main")) ∧
      order.Pairwise (fun a b => prioOr b.tool ops ≤ prioOr a.tool ops) ∧
      ∃ a, libcStartMainArg p.env s = .ok a ∧ Calls p.P s a (wrappers order ++ [r]) := by
  obtain ⟨hv, -, -⟩ := history_view ok h hr
  have hex : ∃ o ∈ ops, hasMain (tableOf o) := by
    obtain ⟨fr, hfr⟩ := List.exists_mem_of_ne_nil _ hmain
    obtain ⟨o, ho, hx⟩ := List.mem_flatMap.1 hfr
    cases o with
    | wrap tbl tool =>
      obtain ⟨u, hu, -⟩ := List.mem_map.1 hx
      obtain ⟨hu, hn⟩ := List.mem_filter.1 hu
      exact ⟨_, ho, u, hu, by simpa using hn⟩
    | _ => cases hx
  set own := frame (nm "gotcha") ⟨nm "main", p.env.mainW, p.env.hMain⟩ with hown
  have hreg : registered p.env ops (nm "main") = own :: clientFrames ops (nm "main") := by
    rw [registered_main, if_pos hex]; rfl
  have hperm := stackOf_perm p ops (nm "main")
  have hsort := stackOf_sorted p hset (nm "main")
  have hot : own.tool = nm "gotcha" := rfl
  obtain ⟨rest, hst⟩ := sorted_head (fun a => prioOr a.tool ops) (L := stackOf p ops (nm "main"))
    (x := own) hsort (hperm.mem_iff.2 (by rw [hreg]; simp)) (by
      intro y hy
      have := hperm.mem_iff.1 hy
      rw [hreg] at this
      rcases List.mem_cons.1 this with rfl | hy
      · exact Int.le_refl _
      · rw [hot]; exact hprio y hy)
    (M := (clientFrames ops (nm "main")).filter
      (fun a => decide (prioOr a.tool ops = prioOr own.tool ops))) (by
      have := stackOf_stable p hset (nm "main") (prioOr own.tool ops)
      rw [hreg, List.filter_cons, if_pos (by simp)] at this
      exact this)
  have hrest : rest.Perm (clientFrames ops (nm "main")) := by
    rw [hst, hreg] at hperm
    exact hperm.cons_inv
  have hc := view_calls hv (by rw [real_run]; exact hreal) hprog (stackOf p ops (nm "main")) [] rfl
    own rest hst
  rw [hst] at hsort
  refine ⟨rest, hrest, (List.pairwise_cons.1 hsort).2, ?_⟩
  rw [hst] at hc
  have hPo : p.P own.wrapper = some own.handle :=
    hv.prog (nm "main") own (by
      show own ∈ stackOf p ops (nm "main")
      rw [hst]; simp)
  obtain ⟨a, path, e, h2, h3⟩ := hc.inv hPo
  cases e
  exact ⟨a, h2, h3⟩

example : ∃ s os a, run Demo.env Demo.ops Demo.proc.start = .ok (s, os) ∧
    libcStartMainArg Demo.env s = .ok a ∧ Calls Demo.P s a [0x50d, 0x10004000] := by
  obtain ⟨s, os, hr⟩ := Demo.demo_run
  obtain ⟨order, h1, -, a, h2, h3⟩ := C13_main_through_libc_start_main Demo.proc_ok
    (Demo.history True) Demo.settled hr (by rw [Demo.cl_main]; simp) (by
      rw [Demo.cl_main]
      intro fr hfr
      rw [List.mem_singleton.1 hfr]
      decide +kernel) Demo.real_main (by decide)
  rw [Demo.cl_main] at h1
  rw [List.perm_singleton.1 h1] at h3
  exact ⟨s, os, a, hr, h2, h3⟩

/-- C22.  The bindings of a table belong to the tool of the given name (or "[UNSPECIFIED]"): the
binding each handle points to is the table's entry, attached to a tool record of exactly that name,
which there is only one of, and whose priority is the one last set for that name, or -1. -/
theorem C22_attribution {p : Process} (ok : p.Ok) {strict : Prop} {ops : List Op}
    (h : History p strict ops) {s os} (hr : run p.env ops p.start = .ok (s, os))
    {tbl : List UBinding} {tool : Option Name} (hop : Op.wrap tbl tool ∈ ops) {u : UBinding}
    (hu : u ∈ tbl) :
    ∃ b x t, s.handles u.handle = some b ∧ s.bind b = .ok x ∧ x.user = u ∧
      s.tools.store[x.tool]? = some t ∧ t.name = tool.getD (nm "[UNSPECIFIED]") ∧
      t.priority = prioOr (tool.getD (nm "[UNSPECIFIED]")) ops ∧
      ∀ (i : Nat) (t' : Tool), s.tools.store[i]? = some t' → t'.name = t.name → i = x.tool := by
  obtain ⟨s', h1, h2⟩ := history_run ok h
  rw [hr] at h1
  cases h1
  have hv := top_view h2
  -- the frame is registered
  have hreg : frame (toolName tool) u ∈ registered p.env ops u.name := by
    obtain ⟨pre, post, e⟩ := List.append_of_mem hop
    have hex : ∀ us mw, u ∈ us → frame (toolName tool) u ∈
        framesIn (expand p.env (toolName tool) mw us) u.name := by
      intro us
      induction us with
      | nil => intro mw hu; cases hu
      | cons v us ih =>
        intro mw hu
        rw [expand, framesIn_append, show (toolName tool, v) :: expand p.env (toolName tool) _ us =
          [(toolName tool, v)] ++ _ from rfl, framesIn_append]
        rcases List.mem_cons.1 hu with rfl | hu
        · apply List.mem_append_right
          apply List.mem_append_left
          simp [framesIn]
        · exact List.mem_append_right _ (List.mem_append_right _ (ih _ hu))
    unfold registered
    rw [e, show pre ++ Op.wrap tbl tool :: post = (pre ++ [Op.wrap tbl tool]) ++ post by simp]
    have hmono : ∀ post pre ini mw, ∀ fr ∈ framesIn (regs p.env ini mw pre) u.name,
        fr ∈ framesIn (regs p.env ini mw (pre ++ post)) u.name := by
      intro post
      induction post using List.reverseRecOn with
      | nil => intro pre ini mw fr hfr; simpa using hfr
      | append_singleton post o ih =>
        intro pre ini mw fr hfr
        rw [← List.append_assoc, regs_snoc, framesIn_append]
        exact List.mem_append_left _ (ih pre ini mw fr hfr)
    apply hmono
    rw [regs_snoc, framesIn_append]
    apply List.mem_append_right
    unfold opRegs
    rw [framesIn_append]
    exact List.mem_append_right _ (hex tbl _ hu)
  have hmem := (stackOf_perm p ops u.name).mem_iff.2 hreg
  obtain ⟨b, hb⟩ := hv.binds u.name _ hmem
  obtain ⟨x, t, hx, hxu, ht, hn⟩ := hb.bind
  have hn' : t.name = toolName tool := hn
  have hinv : ∃ L, Tools.Ok s.tools L ∧ ∀ n v, (Abs.run p.env ops p.abs).1.prio n = some v ↔
      (n, v) ∈ Tools.np s.tools.store := by
    rcases h2 with hpre | ⟨v, G, hpost⟩
    · exfalso
      have := hmem
      unfold stackOf at this
      rw [hpre.abs] at this
      cases this
    · obtain ⟨L, hL⟩ := hpost.inv.tools
      exact ⟨L, hL, hpost.inv.prio⟩
  obtain ⟨L, hL, hprio⟩ := hinv
  refine ⟨b, x, t, hb.handle, hx, hxu, ht, hn', ?_, ?_⟩
  · have : (Abs.run p.env ops p.abs).1.prio t.name = some t.priority :=
      (hprio _ _).2 (List.mem_map.2 ⟨t, List.mem_of_getElem? ht, rfl⟩)
    rw [hn', abs_start, (run_prio p.env p.libs ops).1] at this
    show _ = prioOr (toolName tool) ops
    unfold prioOr
    rw [this]; rfl
  · intro i t' ht' he
    exact Tools.names_inj hL.names ht' ht he

example : ∃ s os b x t, run Demo.env Demo.ops Demo.proc.start = .ok (s, os) ∧
    s.handles 12 = some b ∧ s.bind b = .ok x ∧ s.tools.store[x.tool]? = some t ∧ t.name = Demo.A ∧
    t.priority = prioOr Demo.A Demo.ops := by
  obtain ⟨s, os, hr⟩ := Demo.demo_run
  obtain ⟨b, x, t, h1, h2, -, h3, h4, h5, -⟩ := C22_attribution Demo.proc_ok (Demo.history True) hr
    (tbl := [⟨nm "foo", 0x50c, 12⟩]) (tool := some Demo.A) (by simp [Demo.ops])
    (u := ⟨nm "foo", 0x50c, 12⟩) (by simp)
  exact ⟨s, os, b, x, t, hr, h1, h2, h3, h4, h5⟩

/-- C24, what holds: gotcha_get_wrappee of a registered binding yields an indeterminate pointer only
for the innermost binding of a function no loaded object has exported so far; every other handle
yields the next function inward. -/
theorem C24_indeterminate_only_when_unresolved {p : Process} (ok : p.Ok) {strict : Prop}
    {ops : List Op} (h : History p strict ops) {s os} (hr : run p.env ops p.start = .ok (s, os))
    {f : Name} {fr : Frame} (hfr : fr ∈ registered p.env ops f) :
    (∃ a, s.getWrappee fr.handle = .ok a) ∨
      (s.getWrappee fr.handle = .error .uninit ∧ realAfter p.env p.libs ops f = none ∧
        ∀ g ∈ registered p.env ops f, g ≠ fr → ∃ a, s.getWrappee g.handle = .ok a) := by
  have hl := history_linked ok h hr f
  have hperm := stackOf_perm p ops f
  obtain ⟨hv, -, -⟩ := history_view ok h hr
  -- a frame that is not the last has a next one
  have hnotlast : ∀ g ∈ stackOf p ops f, (stackOf p ops f).getLast? ≠ some g →
      ∃ a, s.getWrappee g.handle = .ok a := by
    intro g hg hne
    obtain ⟨i, hi⟩ := List.mem_iff_getElem?.1 hg
    obtain ⟨hlt, -⟩ := List.getElem?_eq_some_iff.1 hi
    have hlt' : i + 1 < (stackOf p ops f).length := by
      rcases Nat.lt_or_ge (i + 1) (stackOf p ops f).length with h | h
      · exact h
      · exfalso
        apply hne
        rw [List.getLast?_eq_getElem?, show (stackOf p ops f).length - 1 = i by omega]
        exact hi
    exact ⟨_, hl.next i g _ hi (List.getElem?_eq_getElem hlt')⟩
  have hmem := hperm.mem_iff.2 hfr
  by_cases hlast : (stackOf p ops f).getLast? = some fr
  · have := hl.last fr hlast
    cases hre : realAfter p.env p.libs ops f with
    | some r => rw [hre] at this; exact Or.inl ⟨r, this⟩
    | none =>
      rw [hre] at this
      refine Or.inr ⟨this, rfl, ?_⟩
      intro g hg hgf
      refine hnotlast g (hperm.mem_iff.2 hg) ?_
      rw [hlast]
      intro hc
      exact hgf (Option.some.inj hc).symm
  · exact Or.inl (hnotlast fr hmem hlast)

/-- Before the plugin arrives tool B's handle for bar is indeterminate. -/
example : ∃ s os, run Demo.env (Demo.ops.take 3) Demo.proc.start = .ok (s, os) ∧
    ((∃ a, s.getWrappee 11 = .ok a) ∨ s.getWrappee 11 = .error .uninit) := by
  obtain ⟨s, os, hr⟩ := Demo.prefix_run 3
  refine ⟨s, os, hr, ?_⟩
  rcases C24_indeterminate_only_when_unresolved (f := nm "bar") (fr := ⟨Demo.B, 0x50b, 11⟩)
    Demo.proc_ok (Demo.prefix_history True 3) hr
    (by rw [show registered Demo.proc.env _ _ = _ from Demo.reg_bar3]; simp) with h | h
  · exact Or.inl h
  · exact Or.inr h.1

/-- C24, exactly which handles are indeterminate: none when the function has been resolved, and
exactly one of its handles otherwise. -/
theorem C24_which_handle_is_indeterminate {p : Process} (ok : p.Ok) {strict : Prop}
    {ops : List Op} (h : History p strict ops) {s os} (hr : run p.env ops p.start = .ok (s, os))
    (f : Name) :
    (∀ r, realAfter p.env p.libs ops f = some r →
      ∀ fr ∈ registered p.env ops f, ∃ a, s.getWrappee fr.handle = .ok a) ∧
    (realAfter p.env p.libs ops f = none → registered p.env ops f ≠ [] →
      ∃ fr ∈ registered p.env ops f, s.getWrappee fr.handle = .error .uninit ∧
        ∀ g ∈ registered p.env ops f, g ≠ fr → ∃ a, s.getWrappee g.handle = .ok a) := by
  constructor
  · intro r hreal fr hfr
    rcases C24_indeterminate_only_when_unresolved ok h hr hfr with h1 | ⟨-, h1, -⟩
    · exact h1
    · rw [hreal] at h1; cases h1
  · intro hnone hne
    have hl := history_linked ok h hr f
    have hperm := stackOf_perm p ops f
    have hne' : stackOf p ops f ≠ [] := by
      intro hc
      rw [hc] at hperm
      exact hne (List.nil_perm.1 hperm)
    have hlast := List.getLast?_eq_some_getLast hne'
    have hun := hl.last _ hlast
    rw [hnone] at hun
    have hmem := hperm.mem_iff.1 (List.getLast_mem hne')
    refine ⟨_, hmem, hun, ?_⟩
    rcases C24_indeterminate_only_when_unresolved ok h hr hmem with ⟨a, ha⟩ | ⟨-, -, h1⟩
    · rw [ha] at hun; cases hun
    · exact h1

/-- Before the plugin arrives exactly one handle for bar is indeterminate. -/
example : ∃ s os, run Demo.env (Demo.ops.take 3) Demo.proc.start = .ok (s, os) ∧
    ∃ fr ∈ registered Demo.env (Demo.ops.take 3) (nm "bar"),
      s.getWrappee fr.handle = .error .uninit := by
  obtain ⟨s, os, hr⟩ := Demo.prefix_run 3
  obtain ⟨fr, h1, h2, -⟩ := (C24_which_handle_is_indeterminate Demo.proc_ok
    (Demo.prefix_history True 3) hr (nm "bar")).2 Demo.real_bar3
    (by rw [show registered Demo.proc.env _ _ = _ from Demo.reg_bar3]; simp)
  exact ⟨s, os, hr, fr, h1, h2⟩

/-- C24: the promise that gotcha_get_wrappee always returns a function pointer is broken by a binding
that was not found: the value read is uninitialised heap memory. -/
theorem C24_wrappee_always_set_refuted :
    ¬ ∀ (p : Process), p.Ok → ∀ (ops : List Op), History p True ops →
      ∀ s os, run p.env ops p.start = .ok (s, os) → ∀ (f : Name),
      ∀ fr ∈ registered p.env ops f, ∃ a, s.getWrappee fr.handle = .ok a := by
  intro hdoc
  obtain ⟨s, os, hr⟩ := Demo.prefix_run 3
  have hreg : registered Demo.proc.env (Demo.ops.take 3) (nm "bar") = [⟨Demo.B, 0x50b, 11⟩] :=
    Demo.reg_bar3
  obtain ⟨a, ha⟩ := hdoc Demo.proc Demo.proc_ok _ (Demo.prefix_history True 3) s os hr (nm "bar")
    ⟨Demo.B, 0x50b, 11⟩ (by rw [hreg]; simp)
  have hl := history_linked Demo.proc_ok (Demo.prefix_history True 3) hr (nm "bar")
  have hp := stackOf_perm Demo.proc (Demo.ops.take 3) (nm "bar")
  rw [hreg] at hp
  rw [List.perm_singleton.1 hp, show realAfter Demo.proc.env Demo.proc.libs _ _ = _ from
    Demo.real_bar3] at hl
  have := hl.last ⟨Demo.B, 0x50b, 11⟩ rfl
  rw [ha] at this
  cases this

end Gotcha
