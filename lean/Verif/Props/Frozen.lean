import Verif.Proof.Frozen
import Verif.Demo.Frozen
import Verif.Proof.Rewrap
import Verif.Props.Only
/-
C121: what calls of a wrapped function end in.  The definition found first is the one for every caller
and for good: it is not looked up again when its library is unloaded, when another definition is
loaded, or for callers the loader had bound to another definition.
-/
namespace Gotcha.Spec

/-- Calls through the slot run wrappers and then what they would have run without GOTCHA. -/
def Transparent (p : Process) (ops : List Op) (s : State) (slot : Addr) : Prop :=
  ∃ ws, Calls p.P s (s.mem slot) (ws ++ [loaderMem p.mem ops slot])

/-- C121: the real function found at some time is what calls from all open libraries end in, whatever
happens afterwards: libraries come and go, other definitions get loaded, more tools wrap. -/
theorem C121_fixed_for_good {p : Process} (ok : p.Ok) {good : Lib → Prop} {ops more : List Op}
    (h : HistoryFor p True good (ops ++ more)) {s os}
    (hr : run p.env (ops ++ more) p.start = .ok (s, os)) (f : Name) {r : Addr}
    (hreal : realAfter p.env p.libs ops f = some r) (hprog : p.P r = none) :
    ∃ order : List Frame, order.Perm (registered p.env (ops ++ more) f) ∧
      ∀ l ∈ libsAfter p.libs (ops ++ more), good l → ∀ off, (off, f) ∈ rlOf l →
        registered p.env (ops ++ more) f ≠ [] →
        ∀ path, Calls p.P s (s.mem (l.addr + off)) path ↔ path = wrappers order ++ [r] := by
  obtain ⟨order, h1, -, h2⟩ := C87_admitted_libraries_are_intercepted ok h hr f
    (realAfter_append hreal more) hprog
  exact ⟨order, h1, h2⟩

/-- C121: it is code of a loaded object as long as no dlclose takes away an object that defines it
there. -/
theorem C121_loaded_while_definer_stays {env : Env} {libs : List Lib} {ops : List Op} {f : Name}
    {r : Addr} (hreal : realAfter env libs ops f = some r)
    (hstay : ∀ pre dead post, ops = pre ++ .unload dead :: post → ∀ d ∈ libsAfter libs pre,
      exportsAt d f = some r → dead d.lm = false) :
    ∃ d ∈ libsAfter libs ops, exportsAt d f = some r := by
  obtain ⟨pre, post, d, rfl, hd, hx⟩ := realAfter_from hreal
  refine ⟨d, libsAfter_stays libs post hd ?_, hx⟩
  intro a dead b e hm
  exact hstay (pre ++ a) dead b (by rw [e]; simp) d hm hx

/-- C121: once the object holding the real function is gone, all open callers jump to where nothing is
loaded, for as long as nothing else is mapped there. -/
theorem C121_dangling {p : Process} (ok : p.Ok) {good : Lib → Prop} {ops more : List Op}
    (h : HistoryFor p True good (ops ++ more)) {s os}
    (hr : run p.env (ops ++ more) p.start = .ok (s, os)) (f : Name) {r : Addr} {d : Lib}
    (hreal : realAfter p.env p.libs ops f = some r) (hprog : p.P r = none)
    (hin : ∀ o ∈ libsAfter p.libs (ops ++ more), Contains o r → o = d)
    (hgone : d ∉ libsAfter p.libs (ops ++ more)) :
    ∀ l ∈ libsAfter p.libs (ops ++ more), good l → ∀ off, (off, f) ∈ rlOf l →
      registered p.env (ops ++ more) f ≠ [] →
      ∃ path e, Calls p.P s (s.mem (l.addr + off)) path ∧ path.getLast? = some e ∧
        ∀ o ∈ libsAfter p.libs (ops ++ more), ¬ Contains o e := by
  intro l hl hg off hoff hne
  obtain ⟨order, -, h2⟩ := C121_fixed_for_good ok h hr f hreal hprog
  refine ⟨wrappers order ++ [r], r, (h2 l hl hg off hoff hne _).2 rfl, by simp, ?_⟩
  intro o ho hc
  exact hgone (hin o ho hc ▸ ho)

/-- C121: a caller keeps the function it would have called without GOTCHA exactly when that is the
real function. -/
theorem C121_transparent_iff {p : Process} (ok : p.Ok) {good : Lib → Prop} {ops : List Op}
    (h : HistoryFor p True good ops) {s os} (hr : run p.env ops p.start = .ok (s, os)) (f : Name)
    {r : Addr} (hreal : realAfter p.env p.libs ops f = some r) (hprog : p.P r = none)
    {l : Lib} (hl : l ∈ libsAfter p.libs ops) (hg : good l) {off : Addr} (hoff : (off, f) ∈ rlOf l)
    (hne : registered p.env ops f ≠ []) :
    Transparent p ops s (l.addr + off) ↔ loaderMem p.mem ops (l.addr + off) = r := by
  obtain ⟨order, -, -, h2⟩ := C87_admitted_libraries_are_intercepted ok h hr f hreal hprog
  constructor
  · rintro ⟨ws, hc⟩
    have := (h2 l hl hg off hoff hne _).1 hc
    have := congrArg List.getLast? this
    simpa using this
  · intro e
    exact ⟨wrappers order, (h2 l hl hg off hoff hne _).2 (by rw [e])⟩

/-- C121: of two callers that the loader has bound to different definitions, one loses its own. -/
theorem C121_not_both {p : Process} (ok : p.Ok) {good : Lib → Prop} {ops : List Op}
    (h : HistoryFor p True good ops) {s os} (hr : run p.env ops p.start = .ok (s, os)) (f : Name)
    {r : Addr} (hreal : realAfter p.env p.libs ops f = some r) (hprog : p.P r = none)
    (hne : registered p.env ops f ≠ [])
    {l l' : Lib} (hl : l ∈ libsAfter p.libs ops) (hl' : l' ∈ libsAfter p.libs ops) (hg : good l)
    (hg' : good l') {off off' : Addr} (hoff : (off, f) ∈ rlOf l) (hoff' : (off', f) ∈ rlOf l')
    (hdiff : loaderMem p.mem ops (l.addr + off) ≠ loaderMem p.mem ops (l'.addr + off')) :
    ¬ (Transparent p ops s (l.addr + off) ∧ Transparent p ops s (l'.addr + off')) := by
  rintro ⟨h1, h2⟩
  rw [C121_transparent_iff ok h hr f hreal hprog hl hg hoff hne] at h1
  rw [C121_transparent_iff ok h hr f hreal hprog hl' hg' hoff' hne] at h2
  exact hdiff (h1.trans h2.symm)

/-- C121: wrappers are for good as well: there is no way to take one away, and every call from an open
library runs it after every continuation, whether or not its code is still loaded. -/
theorem C121_wrappers_for_good {p : Process} (ok : p.Ok) {good : Lib → Prop} {ops : List Op}
    (h : HistoryFor p True good ops) {s os} (hr : run p.env ops p.start = .ok (s, os))
    {tbl : List UBinding} {tool : Option Name} {u : UBinding} (hw : Op.wrap tbl tool ∈ ops)
    (hu : u ∈ tbl) {r : Addr} (hreal : realAfter p.env p.libs ops u.name = some r)
    (hprog : p.P r = none) :
    ∀ l ∈ libsAfter p.libs ops, good l → ∀ off, (off, u.name) ∈ rlOf l →
      (∃ path, Calls p.P s (s.mem (l.addr + off)) path) ∧
      ∀ path, Calls p.P s (s.mem (l.addr + off)) path → u.wrapper ∈ path := by
  intro l hl hg off hoff
  have hreg := wrap_registered (env := p.env) hw hu
  obtain ⟨order, h1, -, h2⟩ := C87_admitted_libraries_are_intercepted ok h hr u.name hreal hprog
  have h3 := h2 l hl hg off hoff (List.ne_nil_of_mem hreg)
  refine ⟨⟨_, (h3 _).2 rfl⟩, fun path hc => ?_⟩
  rw [(h3 path).1 hc, List.mem_append]
  exact Or.inl (List.mem_map.2 ⟨_, h1.mem_iff.2 hreg, rfl⟩)

/-! ### the two plugins of Demo/Frozen -/

/-- The second plugin's calls of its own bar end in the first plugin's bar, and still do so after the
first plugin has been unloaded. -/
theorem C121_example : ∃ s os s' os',
    run Demo.procL.env Demo.opsL Demo.procL.start = .ok (s, os) ∧
    run Demo.procL.env (Demo.opsL ++ [.unload Demo.deadPlug]) Demo.procL.start = .ok (s', os') ∧
    Calls Demo.P s (s.mem (Demo.plugL.addr + 0x18)) [0x50b, 0x30004000] ∧
    Calls Demo.P s' (s'.mem (Demo.plugL.addr + 0x18)) [0x50b, 0x30004000] := by
  obtain ⟨s, hr, -⟩ := historyFor_run Demo.procL_ok (Demo.history_local True).for
  obtain ⟨s', hr', -⟩ := historyFor_run Demo.procL_ok (Demo.history_gone True).for
  refine ⟨s, _, s', _, hr, hr', ?_, ?_⟩
  · obtain ⟨order, h1, h2⟩ := C121_fixed_for_good (more := []) Demo.procL_ok
      (by rw [List.append_nil]; exact (Demo.history_local True).for)
      (by rw [List.append_nil]; exact hr) (nm "bar") (r := 0x30004000) Demo.real_local (by decide)
    rw [List.append_nil] at h1 h2
    have hreg : registered Demo.procL.env Demo.opsL (nm "bar") = [⟨Demo.B, 0x50b, 11⟩] := Demo.reg_local
    rw [hreg] at h1
    refine (h2 Demo.plugL (by rw [show libsAfter Demo.procL.libs _ = _ from Demo.libs_local]; simp)
      trivial _ Demo.slot_plugL (by rw [hreg]; simp) _).2 ?_
    rw [List.perm_singleton.1 h1]; rfl
  · obtain ⟨order, h1, h2⟩ := C121_fixed_for_good Demo.procL_ok (Demo.history_gone True).for hr'
      (nm "bar") (r := 0x30004000) Demo.real_local (by decide)
    have hreg : registered Demo.procL.env (Demo.opsL ++ [.unload Demo.deadPlug]) (nm "bar") =
        [⟨Demo.B, 0x50b, 11⟩] := Demo.reg_gone
    rw [hreg] at h1
    refine (h2 Demo.plugL (by rw [show libsAfter Demo.procL.libs _ = _ from Demo.libs_gone]; simp)
      trivial _ Demo.slot_plugL (by rw [hreg]; simp) _).2 ?_
    rw [List.perm_singleton.1 h1]; rfl

theorem loaderL : loaderMem Demo.procL.mem Demo.opsL (Demo.plugL.addr + 0x18) = 0x40004000 := by
  decide +kernel
theorem loaderGone : loaderMem Demo.procL.mem (Demo.opsL ++ [.unload Demo.deadPlug])
    (Demo.plugL.addr + 0x18) = 0x40004000 := by decide +kernel
theorem barL : exportsAt Demo.plugL (nm "bar") = some 0x40004000 := by decide +kernel

theorem gone_from (e : Addr) (he : e = 0x30004000) : ∀ o ∈ [Demo.app, Demo.libc, Demo.plugL],
    ¬ Contains o e := by
  subst he
  rintro o ho ⟨q, hq, -, h1, h2⟩
  simp only [List.mem_cons, List.not_mem_nil, or_false] at ho
  rcases ho with rfl | rfl | rfl <;>
    (simp only [Demo.app, Demo.libc, Demo.plugL, Demo.obj, List.mem_singleton] at hq
     subst hq
     revert h1 h2
     decide)

/-- C121: a library whose calls the loader had bound to its own definition should keep it (below the
wrappers). -/
theorem C121_own_definition_refuted : ¬ ∀ (p : Process), p.Ok → ∀ ops, History p True ops →
    ∀ s os, run p.env ops p.start = .ok (s, os) → ∀ f, registered p.env ops f ≠ [] →
    ∀ r, realAfter p.env p.libs ops f = some r → p.P r = none →
    ∀ l ∈ libsAfter p.libs ops, ∀ off, (off, f) ∈ rlOf l →
      exportsAt l f = some (loaderMem p.mem ops (l.addr + off)) →
      Transparent p ops s (l.addr + off) := by
  intro hdoc
  obtain ⟨s, hr, -⟩ := historyFor_run Demo.procL_ok (Demo.history_local True).for
  have hne : registered Demo.procL.env Demo.opsL (nm "bar") ≠ [] := by
    rw [show registered Demo.procL.env Demo.opsL (nm "bar") = _ from Demo.reg_local]; simp
  have hl : Demo.plugL ∈ libsAfter Demo.procL.libs Demo.opsL := by
    rw [show libsAfter Demo.procL.libs _ = _ from Demo.libs_local]; simp
  have ht := hdoc Demo.procL Demo.procL_ok Demo.opsL (Demo.history_local True) s _ hr (nm "bar") hne
    0x30004000 Demo.real_local (by decide) Demo.plugL hl _ Demo.slot_plugL
    (by rw [loaderL]; exact barL)
  rw [C121_transparent_iff Demo.procL_ok (Demo.history_local True).for hr (nm "bar")
    Demo.real_local (by decide) hl trivial Demo.slot_plugL hne, loaderL] at ht
  exact absurd ht (by decide)

/-- C121: calls that without GOTCHA would run code of a loaded library should end in code of a loaded
library. -/
theorem C121_ends_in_loaded_code_refuted : ¬ ∀ (p : Process), p.Ok → ∀ ops, History p True ops →
    ∀ s os, run p.env ops p.start = .ok (s, os) → ∀ f, registered p.env ops f ≠ [] →
    ∀ r, realAfter p.env p.libs ops f = some r → p.P r = none →
    ∀ l ∈ libsAfter p.libs ops, ∀ off, (off, f) ∈ rlOf l →
      (∃ o ∈ libsAfter p.libs ops, Contains o (loaderMem p.mem ops (l.addr + off))) →
      ∀ path e, Calls p.P s (s.mem (l.addr + off)) path → path.getLast? = some e →
        ∃ o ∈ libsAfter p.libs ops, Contains o e := by
  intro hdoc
  obtain ⟨-, -, s, os, -, hr, -, hc⟩ := C121_example
  have hlibs : libsAfter Demo.procL.libs (Demo.opsL ++ [.unload Demo.deadPlug]) = _ := Demo.libs_gone
  have hne : registered Demo.procL.env (Demo.opsL ++ [.unload Demo.deadPlug]) (nm "bar") ≠ [] := by
    rw [show registered Demo.procL.env _ (nm "bar") = _ from Demo.reg_gone]; simp
  obtain ⟨o, ho, hcon⟩ := hdoc Demo.procL Demo.procL_ok _ (Demo.history_gone True) s os hr (nm "bar")
    hne 0x30004000 (realAfter_append Demo.real_local _) (by decide) Demo.plugL
    (by rw [hlibs]; simp) _ Demo.slot_plugL
    ⟨Demo.plugL, by rw [hlibs]; simp, ⟨Got.PT_LOAD, 0, 0x100000⟩, by simp [Demo.plugL, Demo.obj],
      rfl, by rw [loaderGone]; decide, by rw [loaderGone]; decide⟩ _ 0x30004000 hc rfl
  rw [hlibs] at ho
  exact gone_from _ rfl o ho hcon

/-- C121: if all wrappers were code of loaded libraries when they were passed to gotcha_wrap, calls
should run loaded code only. -/
theorem C121_unloaded_tool_refuted : ¬ ∀ (p : Process), p.Ok → ∀ ops, History p True ops →
    (∀ pre tbl tool post, ops = pre ++ .wrap tbl tool :: post → ∀ u ∈ tbl,
      ∃ o ∈ libsAfter p.libs pre, Contains o u.wrapper) →
    ∀ s os, run p.env ops p.start = .ok (s, os) → ∀ f, registered p.env ops f ≠ [] →
    ∀ r, realAfter p.env p.libs ops f = some r → p.P r = none →
    (∃ o ∈ libsAfter p.libs ops, Contains o r) →
    ∀ l ∈ libsAfter p.libs ops, ∀ off, (off, f) ∈ rlOf l →
      ∀ path, Calls p.P s (s.mem (l.addr + off)) path → ∀ e ∈ path,
        ∃ o ∈ libsAfter p.libs ops, Contains o e := by
  intro hdoc
  obtain ⟨s, hr, -⟩ := historyFor_run Demo.procTool_ok (Demo.history_tool True).for
  have hlibs : libsAfter Demo.procTool.libs Demo.opsTool = _ := Demo.libs_tool
  have hl : Demo.app ∈ libsAfter Demo.procTool.libs Demo.opsTool := by rw [hlibs]; simp
  obtain ⟨⟨path, hc⟩, hin⟩ := C121_wrappers_for_good Demo.procTool_ok (Demo.history_tool True).for hr
    (tbl := [⟨nm "foo", 0x50a, 10⟩]) (tool := some Demo.B) (u := ⟨nm "foo", 0x50a, 10⟩)
    (by simp [Demo.opsTool]) (by simp) Demo.real_tool (by decide) Demo.app hl trivial 0x18
    Demo.slot_app
  obtain ⟨o, ho, hcon⟩ := hdoc Demo.procTool Demo.procTool_ok Demo.opsTool (Demo.history_tool True) (by
      intro pre tbl tool post e u hu
      match pre, e with
      | [o], e =>
        simp only [Demo.opsTool, List.cons_append, List.nil_append, List.cons.injEq,
          Op.wrap.injEq] at e
        obtain ⟨rfl, ⟨rfl, rfl⟩, -⟩ := e
        simp only [List.mem_singleton] at hu
        subst hu
        exact ⟨Demo.toolLib, by show _ ∈ [Demo.app, Demo.libc, Demo.toolLib]; simp,
          ⟨Got.PT_LOAD, 0, 0x100000⟩, by simp [Demo.toolLib, Demo.obj], rfl, by decide, by decide⟩
      | [], e => simp [Demo.opsTool] at e
      | [_, _], e => simp [Demo.opsTool] at e
      | _ :: _ :: _ :: pre, e =>
        have := congrArg List.length e
        simp [Demo.opsTool] at this)
    s _ hr (nm "foo")
    (by rw [show registered Demo.procTool.env Demo.opsTool (nm "foo") = _ from Demo.reg_tool]; simp)
    0x20004000 Demo.real_tool (by decide)
    ⟨Demo.libc, by rw [hlibs]; simp, ⟨Got.PT_LOAD, 0, 0x100000⟩, by simp [Demo.libc, Demo.obj], rfl,
      by decide, by decide⟩
    Demo.app hl 0x18 Demo.slot_app path hc 0x50a (hin path hc)
  rw [hlibs] at ho
  obtain ⟨q, hq, -, g1, g2⟩ := hcon
  simp only [List.mem_cons, List.not_mem_nil, or_false] at ho
  rcases ho with rfl | rfl <;>
    (simp only [Demo.app, Demo.libc, Demo.obj, List.mem_singleton] at hq
     subst hq
     revert g1 g2
     decide)

/-- The hypotheses of C121_dangling are met. -/
example : ∃ s os, run Demo.procL.env (Demo.opsL ++ [.unload Demo.deadPlug]) Demo.procL.start =
      .ok (s, os) ∧
    ∃ path e, Calls Demo.P s (s.mem (Demo.app.addr + 0x20)) path ∧ path.getLast? = some e ∧
      ∀ o ∈ libsAfter Demo.procL.libs (Demo.opsL ++ [.unload Demo.deadPlug]), ¬ Contains o e := by
  obtain ⟨s, hr, -⟩ := historyFor_run Demo.procL_ok (Demo.history_gone True).for
  have hlibs : libsAfter Demo.procL.libs (Demo.opsL ++ [.unload Demo.deadPlug]) = _ := Demo.libs_gone
  refine ⟨s, _, hr, C121_dangling (d := Demo.plug) Demo.procL_ok (Demo.history_gone True).for hr
    (nm "bar") Demo.real_local (by decide) ?_ ?_ Demo.app (by rw [hlibs]; simp) trivial _ Demo.slot_bar
    (by rw [show registered Demo.procL.env _ (nm "bar") = _ from Demo.reg_gone]; simp)⟩
  · intro o ho hc
    rw [hlibs] at ho
    exact absurd hc (gone_from _ rfl o ho)
  · rw [hlibs]
    intro hm
    simp only [List.mem_cons, List.not_mem_nil, or_false] at hm
    rcases hm with hm | hm | hm <;> exact absurd (congrArg Lib.lm hm) (by decide)

/-- Before the dlclose bar is plugin code that is loaded. -/
example : ∃ d ∈ libsAfter [Demo.app, Demo.libc] Demo.opsL, exportsAt d (nm "bar") = some 0x30004000 :=
  C121_loaded_while_definer_stays Demo.real_local (by
    intro pre dead post e
    have : Op.unload dead ∈ Demo.opsL := by rw [e]; simp
    simp [Demo.opsL] at this)

end Gotcha.Spec
