import Verif.Proof.Calls
import Verif.Demo.Facts
/-
C01–C04, C06–C09, C13, C22, C24: the stacks of wrappers.
-/
namespace Gotcha
open Spec

/-- C01.  After a history of API calls and intercepted dlopens (accept-all filter, the first table with
"main" of its own, every binding its own handle), there is for every function `f` one order of all
the bindings ever registered for it such that a call through any GOT slot for `f` of any loaded
library runs exactly the wrappers in that order and then the real `f`. -/
theorem C01_calls_run_the_whole_stack {p : Process} (ok : p.Ok) {ops : List Op}
    (h : History p True ops) {s os} (hr : run p.env ops p.start = .ok (s, os)) (f : Name)
    {r : Addr} (hreal : realAfter p.env p.libs ops f = some r) (hprog : p.P r = none) :
    ∃ order : List Frame, order.Perm (registered p.env ops f) ∧
      ∀ l ∈ libsAfter p.libs ops, ∀ off, (off, f) ∈ rlOf l → registered p.env ops f ≠ [] →
        ∀ path, Calls p.P s (s.mem (l.addr + off)) path ↔ path = wrappers order ++ [r] := by
  obtain ⟨hv, hl, -⟩ := history_view ok h hr
  refine ⟨stackOf p ops f, stackOf_perm p ops f, ?_⟩
  intro l hl' off hoff hne path
  cases hst : stackOf p ops f with
  | nil =>
    have := stackOf_perm p ops f
    rw [hst] at this
    exact absurd (List.nil_perm.1 this) hne
  | cons fr st =>
    have hslot : s.mem (l.addr + off) = fr.wrapper :=
      hv.slots trivial l (by rw [hl]; exact hl') trivial (off, f) hoff fr st hst
    have hc := view_calls hv (by rw [real_run]; exact hreal) hprog (stackOf p ops f) [] rfl fr st hst
    rw [hslot]
    rw [hst] at hc
    exact ⟨fun h => h.det hc, fun e => e ▸ hc⟩

/-- The demo history: a call of foo from the application runs tool A (priority 10), tool B, libc's foo. -/
example : ∃ s os order, run Demo.env Demo.ops Demo.proc.start = .ok (s, os) ∧
    order.Perm [⟨Demo.B, 0x50a, 10⟩, ⟨Demo.A, 0x50c, 12⟩] ∧
    Calls Demo.P s (s.mem (Demo.app.addr + 0x18)) (wrappers order ++ [0x20004000]) ∧
    Calls Demo.P s (s.mem (Demo.plug.addr + 0x18)) (wrappers order ++ [0x20004000]) := by
  obtain ⟨s, os, hr⟩ := Demo.demo_run
  obtain ⟨order, h1, h2⟩ := C01_calls_run_the_whole_stack Demo.proc_ok (Demo.history True) hr
    (nm "foo") Demo.real_foo (by decide)
  have hne : registered Demo.proc.env Demo.ops (nm "foo") ≠ [] := by
    rw [show registered Demo.proc.env _ _ = _ from Demo.reg_foo]; simp
  exact ⟨s, os, order, hr, by rw [← Demo.reg_foo]; exact h1,
    (h2 Demo.app (by show _ ∈ [Demo.app, Demo.libc, Demo.plug]; simp) _ Demo.slot_app hne _).2 rfl,
    (h2 Demo.plug (by show _ ∈ [Demo.app, Demo.libc, Demo.plug]; simp) _ Demo.slot_plug hne _).2 rfl⟩

/-- C01, for a function GOTCHA does not wrap for itself: the wrappers run are exactly those of the
clients' tables, each once. -/
theorem C01_client_functions {p : Process} (ok : p.Ok) {ops : List Op} (h : History p True ops)
    {s os} (hr : run p.env ops p.start = .ok (s, os)) {f : Name} (hf : f ∉ ownNames) {r : Addr}
    (hreal : realAfter p.env p.libs ops f = some r) (hprog : p.P r = none) :
    ∃ order : List Frame, order.Perm (clientFrames ops f) ∧ (wrappers order).Nodup ∧
      ∀ l ∈ libsAfter p.libs ops, ∀ off, (off, f) ∈ rlOf l → clientFrames ops f ≠ [] →
        ∀ path, Calls p.P s (s.mem (l.addr + off)) path ↔ path = wrappers order ++ [r] := by
  obtain ⟨order, h1, h2⟩ := C01_calls_run_the_whole_stack ok h hr f hreal hprog
  rw [registered_client _ _ hf] at h1 h2
  refine ⟨order, h1, ?_, h2⟩
  obtain ⟨hv, -, -⟩ := history_view ok h hr
  have hn := (view_nodup hv f).2
  have hp := stackOf_perm p ops f
  rw [registered_client _ _ hf] at hp
  exact ((h1.trans hp.symm).map Frame.wrapper).nodup_iff.2 hn

example : ∃ order : List Frame, order.Perm (clientFrames Demo.ops (nm "foo")) ∧
    (wrappers order).Nodup := by
  obtain ⟨s, os, hr⟩ := Demo.demo_run
  obtain ⟨order, h1, h2, -⟩ := C01_client_functions Demo.proc_ok (Demo.history True) hr
    Demo.foo_own Demo.real_foo (by decide)
  exact ⟨order, h1, h2⟩

/-- C02.  If no priority changes after the tool has wrapped something, wrappers run in non-increasing
order of priority. -/
theorem C02_priority_order {p : Process} (ok : p.Ok) {ops : List Op} (h : History p True ops)
    (hset : Settled ops) {s os} (hr : run p.env ops p.start = .ok (s, os)) (f : Name)
    {r : Addr} (hreal : realAfter p.env p.libs ops f = some r) (hprog : p.P r = none)
    {l off} (hl : l ∈ libsAfter p.libs ops) (hoff : (off, f) ∈ rlOf l)
    (hne : registered p.env ops f ≠ []) :
    ∃ order : List Frame, order.Perm (registered p.env ops f) ∧
      order.Pairwise (fun a b => prioOr b.tool ops ≤ prioOr a.tool ops) ∧
      ∀ path, Calls p.P s (s.mem (l.addr + off)) path ↔ path = wrappers order ++ [r] := by
  obtain ⟨hv, hlm, -⟩ := history_view ok h hr
  refine ⟨stackOf p ops f, stackOf_perm p ops f, stackOf_sorted p hset f, ?_⟩
  intro path
  cases hst : stackOf p ops f with
  | nil =>
    have := stackOf_perm p ops f
    rw [hst] at this
    exact absurd (List.nil_perm.1 this) hne
  | cons fr st =>
    have hslot : s.mem (l.addr + off) = fr.wrapper :=
      hv.slots trivial l (by rw [hlm]; exact hl) trivial (off, f) hoff fr st hst
    have hc := view_calls hv (by rw [real_run]; exact hreal) hprog (stackOf p ops f) [] rfl fr st hst
    rw [hslot]
    rw [hst] at hc
    exact ⟨fun h => h.det hc, fun e => e ▸ hc⟩

example : ∃ s os order, run Demo.env Demo.ops Demo.proc.start = .ok (s, os) ∧
    order.Pairwise (fun a b : Frame => prioOr b.tool Demo.ops ≤ prioOr a.tool Demo.ops) ∧
    Calls Demo.P s (s.mem (Demo.app.addr + 0x18)) (wrappers order ++ [0x20004000]) := by
  obtain ⟨s, os, hr⟩ := Demo.demo_run
  have hne : registered Demo.proc.env Demo.ops (nm "foo") ≠ [] := by
    rw [show registered Demo.proc.env _ _ = _ from Demo.reg_foo]; simp
  obtain ⟨order, -, h2, h3⟩ := C02_priority_order Demo.proc_ok (Demo.history True) Demo.settled hr
    (nm "foo") Demo.real_foo (by decide) (l := Demo.app)
    (by show _ ∈ [Demo.app, Demo.libc, Demo.plug]; simp) Demo.slot_app hne
  exact ⟨s, os, order, hr, h2, (h3 _).2 rfl⟩

/-- C02, second half: a later gotcha_set_priority does not touch what calls do. -/
theorem C02_set_priority_does_not_reorder {p : Process} (ok : p.Ok) {ops : List Op} {t : Name}
    {v : Int} (h : History p True (ops ++ [.setPriority t v])) (hini : ops.any isApi = true)
    {s os s' os'} (hr : run p.env ops p.start = .ok (s, os))
    (hr' : run p.env (ops ++ [.setPriority t v]) p.start = .ok (s', os')) :
    s'.mem = s.mem ∧ ∀ hd, s'.getWrappee hd = s.getWrappee hd := by
  obtain ⟨hv, hlm, hi⟩ := history_view ok h.prefix hr
  rw [run_append_model, hr] at hr'
  simp only [bind, Except.bind, run, stepOp, gotchaSetPriority, gotchaInit, hi, hini, if_true] at hr'
  cases hs : s.tools.setPriority t v with
  | error e => simp [hs] at hr'
  | ok ts =>
    simp only [hs] at hr'
    cases hr'
    exact ⟨rfl, fun hd => rfl⟩

/-- The demo history continued by raising tool B above tool A. -/
example : History Demo.proc True (Demo.ops2 ++ [.setPriority Demo.B 20]) := by
  have h := Demo.history2 True
  refine ⟨⟨⟨fun _ => Demo.dlopen_def, fun h => (by cases h), fun h => (by cases h), trivial⟩,
    h.cons, ?_, fun _ => ?_, fun _ => by decide⟩, ⟨?_, ?_, h.honest.own⟩⟩
  · intro _ f hf; simp [Demo.ops2] at hf
  · exact Demo.mainAlone_of ⟨fun h => absurd h (Demo.notMain (by decide +kernel)),
      fun h => absurd h (Demo.notMain (by decide +kernel)), trivial, trivial⟩
  · decide +kernel
  · intro u hu; exact h.honest.prog u (by simpa [tableOf] using hu)

/-- C03.  Among tools of equal priority the one that wrapped first is called first (it stays outermost);
each later one goes inside it. -/
theorem C03_equal_priority_first_is_outermost {p : Process} (ok : p.Ok) {ops : List Op}
    (h : History p True ops) (hset : Settled ops) {s os}
    (hr : run p.env ops p.start = .ok (s, os)) (f : Name) {r : Addr}
    (hreal : realAfter p.env p.libs ops f = some r) (hprog : p.P r = none)
    {a b : Frame} (hab : [a, b].Sublist (registered p.env ops f))
    (heq : prioOr a.tool ops = prioOr b.tool ops)
    {l off} (hl : l ∈ libsAfter p.libs ops) (hoff : (off, f) ∈ rlOf l) :
    ∃ path, Calls p.P s (s.mem (l.addr + off)) path ∧ path.Nodup ∧
      [a.wrapper, b.wrapper].Sublist path := by
  obtain ⟨hv, hlm, -⟩ := history_view ok h hr
  have hst2 : [a, b].Sublist (stackOf p ops f) := by
    have h1 : [a, b].Sublist ((registered p.env ops f).filter
        (fun x => prioOr x.tool ops = prioOr a.tool ops)) := by
      have := hab.filter (fun x => decide (prioOr x.tool ops = prioOr a.tool ops))
      simpa [heq] using this
    rw [← stackOf_stable p hset f] at h1
    exact h1.trans List.filter_sublist
  cases hst : stackOf p ops f with
  | nil => rw [hst] at hst2; cases hst2
  | cons fr st =>
    have hslot : s.mem (l.addr + off) = fr.wrapper :=
      hv.slots trivial l (by rw [hlm]; exact hl) trivial (off, f) hoff fr st hst
    have hc := view_calls hv (by rw [real_run]; exact hreal) hprog (stackOf p ops f) [] rfl fr st hst
    refine ⟨_, by rw [hslot]; exact hc, ?_, ?_⟩
    · rw [List.nodup_append]
      refine ⟨(view_nodup hv f).2, by simp, ?_⟩
      intro x hx y hy e
      simp only [List.mem_singleton] at hy
      subst hy; subst e
      obtain ⟨g, hg, rfl⟩ := List.mem_map.1 hx
      have := hv.prog f g hg
      rw [hprog] at this; cases this
    · exact (hst2.map Frame.wrapper).trans (List.sublist_append_left _ _)

example : ∃ s os path, run Demo.env Demo.ops2 Demo.proc.start = .ok (s, os) ∧
    Calls Demo.P s (s.mem (Demo.app.addr + 0x18)) path ∧ path.Nodup ∧
    [(0x50a : Addr), 0x50c].Sublist path := by
  obtain ⟨s, os, hr⟩ := Demo.demo_run2
  obtain ⟨path, h1, h2, h3⟩ := C03_equal_priority_first_is_outermost Demo.proc_ok
    (Demo.history2 True) Demo.settled2 hr (nm "foo") Demo.real_foo2 (by decide)
    (a := ⟨Demo.B, 0x50a, 10⟩) (b := ⟨Demo.A, 0x50c, 12⟩)
    (by rw [show registered Demo.proc.env _ _ = _ from Demo.reg_foo2])
    (by decide +kernel) (l := Demo.app) (by show _ ∈ [Demo.app, Demo.libc]; simp) Demo.slot_app
  exact ⟨s, os, path, hr, h1, h2, h3⟩

theorem two_orders {α : Type} {a b : α} {L : List α} (hn : L.Nodup) (h1 : [a, b].Sublist L)
    (h2 : [b, a].Sublist L) : False := by
  induction L with
  | nil => cases h1
  | cons x L ih =>
    rw [List.nodup_cons] at hn
    cases h1 with
    | cons _ h1 =>
      cases h2 with
      | cons _ h2 => exact ih hn.2 h1 h2
      | cons_cons _ h2 => exact hn.1 (h1.subset (by simp))
    | cons_cons _ h1 =>
      cases h2 with
      | cons _ h2 => exact hn.1 (h2.subset (by simp))
      | cons_cons _ h2 => exact hn.1 (h1.subset (by simp))

/-- C03: the order promised in docs/api.rst ("tools of equal priority are wrapped FIFO with the first
tool innermost", so that the later tool is called first) is not what happens. -/
theorem C03_documented_fifo_refuted :
    ¬ ∀ (p : Process), p.Ok → ∀ (ops : List Op), History p True ops → Settled ops →
      ∀ s os, run p.env ops p.start = .ok (s, os) → ∀ (f : Name) (r : Addr),
      realAfter p.env p.libs ops f = some r → p.P r = none →
      ∀ a b : Frame, [a, b].Sublist (registered p.env ops f) → prioOr a.tool ops = prioOr b.tool ops →
      ∀ l ∈ libsAfter p.libs ops, ∀ off, (off, f) ∈ rlOf l →
      ∀ path, Calls p.P s (s.mem (l.addr + off)) path →
        [b.wrapper, a.wrapper].Sublist path := by
  intro hdoc
  obtain ⟨s, os, hr⟩ := Demo.demo_run2
  have hsub : [(⟨Demo.B, 0x50a, 10⟩ : Frame), ⟨Demo.A, 0x50c, 12⟩].Sublist
      (registered Demo.proc.env Demo.ops2 (nm "foo")) := by
    rw [show registered Demo.proc.env _ _ = _ from Demo.reg_foo2]
  have hp : prioOr Demo.B Demo.ops2 = prioOr Demo.A Demo.ops2 := by decide +kernel
  have hl : Demo.app ∈ libsAfter Demo.proc.libs Demo.ops2 := by
    show _ ∈ [Demo.app, Demo.libc]; simp
  obtain ⟨path, h1, h2, h3⟩ := C03_equal_priority_first_is_outermost Demo.proc_ok
    (Demo.history2 True) Demo.settled2 hr (nm "foo") Demo.real_foo2 (by decide) hsub hp hl
    Demo.slot_app
  exact two_orders h2 h3 (hdoc Demo.proc Demo.proc_ok Demo.ops2 (Demo.history2 True) Demo.settled2 s
    os hr (nm "foo") _ Demo.real_foo2 (by decide) _ _ hsub hp _ hl _ Demo.slot_app path h1)

/-- C04.  gotcha_get_wrappee of the binding at position `i` of its stack is the wrapper at position
`i + 1`, or the real function for the innermost one, and never the binding's own wrapper. -/
theorem C04_wrappee_is_next {p : Process} (ok : p.Ok) {strict : Prop} {ops : List Op}
    (h : History p strict ops) {s os} (hr : run p.env ops p.start = .ok (s, os)) (f : Name) :
    ∃ order : List Frame, order.Perm (registered p.env ops f) ∧
      (order.map Frame.handle).Nodup ∧ (wrappers order).Nodup ∧
      (∀ (i : Nat) (fr g : Frame), order[i]? = some fr → order[i + 1]? = some g →
        s.getWrappee fr.handle = .ok g.wrapper ∧ g.wrapper ≠ fr.wrapper) ∧
      (∀ fr, order.getLast? = some fr → ∀ r, realAfter p.env p.libs ops f = some r →
        s.getWrappee fr.handle = .ok r ∧ (p.P r = none → r ≠ fr.wrapper)) := by
  obtain ⟨hv, -, -⟩ := history_view ok h hr
  have hn := view_nodup hv f
  refine ⟨stackOf p ops f, stackOf_perm p ops f, hn.1, hn.2, ?_, ?_⟩
  · intro i fr g h1 h2
    have hw := hv.wrappee f i fr h1
    have : nextOf ((Abs.run p.env ops p.abs).1.stack f) ((Abs.run p.env ops p.abs).1.real f) i =
        some g.wrapper := by
      unfold nextOf
      rw [show ((Abs.run p.env ops p.abs).1.stack f)[i + 1]? = some g from h2]
    rw [this] at hw
    refine ⟨hw, fun e => ?_⟩
    have p1 := hv.prog f fr (List.mem_of_getElem? h1)
    have p2 := hv.prog f g (List.mem_of_getElem? h2)
    rw [e, p1] at p2
    have := (hv.uniq f f i (i + 1) fr g h1 h2 (Option.some.inj p2)).2
    omega
  · intro fr hlast r hreal
    rw [List.getLast?_eq_getElem?] at hlast
    have hw := hv.wrappee f _ fr hlast
    have hlen : 0 < (stackOf p ops f).length := by
      rcases Nat.eq_zero_or_pos (stackOf p ops f).length with h | h
      · rw [List.length_eq_zero_iff.1 h] at hlast; simp at hlast
      · exact h
    have : nextOf ((Abs.run p.env ops p.abs).1.stack f) ((Abs.run p.env ops p.abs).1.real f)
        ((stackOf p ops f).length - 1) = some r := by
      unfold nextOf
      rw [List.getElem?_eq_none (by show (stackOf p ops f).length ≤ _; omega), real_run]
      exact hreal
    rw [this] at hw
    refine ⟨hw, fun hp e => ?_⟩
    have p1 := hv.prog f fr (List.mem_of_getElem? hlast)
    rw [← e, hp] at p1
    cases p1

example : ∃ s os, ∃ order : List Frame, run Demo.env Demo.ops Demo.proc.start = .ok (s, os) ∧
    order.Perm [⟨Demo.B, 0x50a, 10⟩, ⟨Demo.A, 0x50c, 12⟩] ∧ (wrappers order).Nodup := by
  obtain ⟨s, os, hr⟩ := Demo.demo_run
  obtain ⟨order, h1, -, h2, -⟩ := C04_wrappee_is_next Demo.proc_ok (Demo.history True) hr (nm "foo")
  exact ⟨s, os, order, hr, by rw [← Demo.reg_foo]; exact h1, h2⟩

/-- C04, no cycles: following gotcha_get_wrappee from any binding of a resolved function visits
different functions and ends at the real one. -/
theorem C04_no_cycles {p : Process} (ok : p.Ok) {strict : Prop} {ops : List Op}
    (h : History p strict ops) {s os} (hr : run p.env ops p.start = .ok (s, os)) {f : Name}
    {fr : Frame} (hfr : fr ∈ registered p.env ops f) {r : Addr}
    (hreal : realAfter p.env p.libs ops f = some r) (hprog : p.P r = none) :
    ∃ path, Calls p.P s fr.wrapper path ∧ path.Nodup ∧ path.getLast? = some r := by
  obtain ⟨hv, -, -⟩ := history_view ok h hr
  have hmem : fr ∈ stackOf p ops f := (stackOf_perm p ops f).mem_iff.2 hfr
  obtain ⟨pre, post, e⟩ := List.append_of_mem hmem
  have hc := view_calls hv (by rw [real_run]; exact hreal) hprog (fr :: post) pre e fr post rfl
  refine ⟨_, hc, ?_, by simp⟩
  rw [List.nodup_append]
  refine ⟨?_, by simp, ?_⟩
  · have := (view_nodup hv f).2
    rw [show (Abs.run p.env ops p.abs).1.stack f = pre ++ fr :: post from e] at this
    unfold wrappers at this ⊢
    rw [List.map_append] at this
    exact (List.nodup_append.1 this).2.1
  · intro x hx y hy e'
    simp only [List.mem_singleton] at hy
    subst hy; subst e'
    obtain ⟨g, hg, rfl⟩ := List.mem_map.1 hx
    have := hv.prog f g (by
      rw [show (Abs.run p.env ops p.abs).1.stack f = pre ++ fr :: post from e]
      exact List.mem_append_right _ hg)
    rw [hprog] at this; cases this

example : ∃ s os path, run Demo.env Demo.ops Demo.proc.start = .ok (s, os) ∧
    Calls Demo.P s 0x50c path ∧ path.Nodup ∧ path.getLast? = some 0x20004000 := by
  obtain ⟨s, os, hr⟩ := Demo.demo_run
  obtain ⟨path, h⟩ := C04_no_cycles Demo.proc_ok (Demo.history True) hr (f := nm "foo")
    (fr := ⟨Demo.A, 0x50c, 12⟩)
    (by rw [show registered Demo.proc.env _ _ = _ from Demo.reg_foo]; simp) Demo.real_foo (by decide)
  exact ⟨s, os, path, hr, h⟩

/-- C06.  The wrappers of `f` form a chain in which each is given the next; the function given to the
last, the innermost, is the one defined by the first object, in
link-map order and not counting the vdso, that exports it — on the link map of the first event at
which the function was looked for and there was one. -/
theorem C06_real_is_first_definition {p : Process} (ok : p.Ok) {strict : Prop} {ops : List Op}
    (h : History p strict ops) {s os} (hr : run p.env ops p.start = .ok (s, os)) {f : Name}
    (hne : registered p.env ops f ≠ []) :
    ∃ (order : List Frame) (fr : Frame), order.Perm (registered p.env ops f) ∧
      order.getLast? = some fr ∧
      (∀ (i : Nat) (g g' : Frame), order[i]? = some g → order[i + 1]? = some g' →
        s.getWrappee g.handle = .ok g'.wrapper) ∧
      (∀ a, s.getWrappee fr.handle = .ok a ↔
        ∃ ts1 ls ts2, tries p.env p.libs f [] ops = ts1 ++ ls :: ts2 ∧
          (∀ ls' ∈ ts1, ∀ l ∈ ls', vdsoAfter p.env p.libs ops = some l.lm ∨ exportsAt l f = none) ∧
          ∃ l1 l l2, ls = l1 ++ l :: l2 ∧ vdsoAfter p.env p.libs ops ≠ some l.lm ∧
            exportsAt l f = some a ∧
            ∀ l' ∈ l1, vdsoAfter p.env p.libs ops = some l'.lm ∨ exportsAt l' f = none) := by
  obtain ⟨hv, -, -⟩ := history_view ok h hr
  have hperm := stackOf_perm p ops f
  have hsn : stackOf p ops f ≠ [] := by
    intro hc; rw [hc] at hperm; exact hne (List.nil_perm.1 hperm)
  obtain ⟨fr, hlast⟩ : ∃ fr, (stackOf p ops f).getLast? = some fr := by
    rw [List.getLast?_eq_getLast_of_ne_nil hsn]; exact ⟨_, rfl⟩
  refine ⟨stackOf p ops f, fr, hperm, hlast, ?_, ?_⟩
  · intro i g g' h1 h2
    have hw := hv.wrappee f i g h1
    unfold nextOf at hw
    rw [show ((Abs.run p.env ops p.abs).1.stack f)[i + 1]? = some g' from h2] at hw
    exact hw
  intro a
  rw [List.getLast?_eq_getElem?] at hlast
  have hw := hv.wrappee f _ fr hlast
  have hlen : 0 < (stackOf p ops f).length := List.length_pos_of_ne_nil hsn
  have hnx : nextOf ((Abs.run p.env ops p.abs).1.stack f) ((Abs.run p.env ops p.abs).1.real f)
      ((stackOf p ops f).length - 1) = realAfter p.env p.libs ops f := by
    unfold nextOf
    rw [List.getElem?_eq_none (by show (stackOf p ops f).length ≤ _; omega), real_run]
  rw [hnx] at hw
  have hkey : s.getWrappee fr.handle = .ok a ↔ realAfter p.env p.libs ops f = some a := by
    rw [hw]
    cases realAfter p.env p.libs ops f <;> simp
  rw [hkey]
  unfold realAfter
  rw [List.findSome?_eq_some_iff]
  constructor
  · rintro ⟨l1, ls, l2, e, h1, h2⟩
    refine ⟨l1, ls, l2, e, ?_, (firstDef_iff _ _ _ _).1 h1⟩
    intro ls' hls'
    exact (firstDef_none _ _ _).1 (h2 ls' hls')
  · rintro ⟨l1, ls, l2, e, h2, h1⟩
    exact ⟨l1, ls, l2, e, (firstDef_iff _ _ _ _).2 h1,
      fun ls' hls' => (firstDef_none _ _ _).2 (h2 ls' hls')⟩

/-- In the demo history bar is looked for when it is wrapped (nothing exports it) and again when the
plugin has been loaded. -/
example : tries Demo.env [Demo.app, Demo.libc] (nm "bar") [] Demo.ops =
    [[Demo.app, Demo.libc], [Demo.app, Demo.libc, Demo.plug]] := Demo.tries_bar

example : ∃ s os, run Demo.env Demo.ops Demo.proc.start = .ok (s, os) ∧
    ∃ fr ∈ registered Demo.env Demo.ops (nm "bar"), s.getWrappee fr.handle = .ok 0x30004000 := by
  obtain ⟨s, os, hr⟩ := Demo.demo_run
  obtain ⟨order, fr, h0, hl, -, h2⟩ := C06_real_is_first_definition Demo.proc_ok (Demo.history True) hr
    (f := nm "bar") (by rw [show registered Demo.proc.env _ _ = _ from Demo.reg_bar]; simp)
  refine ⟨s, os, hr, fr, h0.mem_iff.1 (List.mem_of_getLast? hl), (h2 _).2 ⟨[[Demo.app, Demo.libc]], _, [], Demo.tries_bar, ?_,
    [Demo.app, Demo.libc], Demo.plug, [], rfl, ?_, ?_, ?_⟩⟩
  · intro ls hls l hl
    simp only [List.mem_singleton] at hls
    subst hls
    simp only [List.mem_cons, List.not_mem_nil, or_false] at hl
    rcases hl with rfl | rfl <;> exact Or.inr (by decide +kernel)
  · decide +kernel
  · decide +kernel
  · intro l hl
    simp only [List.mem_cons, List.not_mem_nil, or_false] at hl
    rcases hl with rfl | rfl <;> exact Or.inr (by decide +kernel)

end Gotcha
