import Verif.Props.Effects
import Verif.Demo.Facts
/-
C87: the interception of a library does not depend on what happens to other libraries.
-/
namespace Gotcha
open Spec

theorem historyFor_view {p : Process} (ok : p.Ok) {strict : Prop} {good : Lib → Prop} {ops : List Op}
    (h : HistoryFor p strict good ops) {s os} (hr : run p.env ops p.start = .ok (s, os)) :
    View p.P strict s (Abs.run p.env ops p.abs).1 good ∧ s.linkMap = libsAfter p.libs ops := by
  obtain ⟨s', h1, h2⟩ := historyFor_run ok h
  rw [hr] at h1
  cases h1
  exact ⟨top_view h2, by rw [← top_libs h2, libs_run]⟩

/-- C87.  Take any set of libraries that every filter ever set lets pass, that are loaded before GOTCHA
is used or by a dlopen GOTCHA sees, and that are not loaded twice.  Calls from those libraries run
the whole stack, in one order for all of them, whatever becomes of all the other libraries: these
may be filtered out at some times and not at others, may be loaded behind GOTCHA's back, and may be
unloaded and loaded again. -/
theorem C87_admitted_libraries_are_intercepted {p : Process} (ok : p.Ok) {good : Lib → Prop}
    {ops : List Op} (h : HistoryFor p True good ops) {s os}
    (hr : run p.env ops p.start = .ok (s, os)) (f : Name) {r : Addr}
    (hreal : realAfter p.env p.libs ops f = some r) (hprog : p.P r = none) :
    ∃ order : List Frame, order.Perm (registered p.env ops f) ∧
      (Settled ops → order.Pairwise (fun a b => prioOr b.tool ops ≤ prioOr a.tool ops)) ∧
      ∀ l ∈ libsAfter p.libs ops, good l → ∀ off, (off, f) ∈ rlOf l → registered p.env ops f ≠ [] →
        ∀ path, Calls p.P s (s.mem (l.addr + off)) path ↔ path = wrappers order ++ [r] := by
  obtain ⟨hv, hl⟩ := historyFor_view ok h hr
  refine ⟨stackOf p ops f, stackOf_perm p ops f, fun hset => stackOf_sorted p hset f, ?_⟩
  intro l hl' hg off hoff hne path
  cases hst : stackOf p ops f with
  | nil =>
    have := stackOf_perm p ops f
    rw [hst] at this
    exact absurd (List.nil_perm.1 this) hne
  | cons fr st =>
    have hslot : s.mem (l.addr + off) = fr.wrapper :=
      hv.slots trivial l (by rw [hl]; exact hl') hg (off, f) hoff fr st hst
    have hc := view_calls hv.weaken (by rw [real_run]; exact hreal) hprog (stackOf p ops f) [] rfl
      fr st hst
    rw [hslot]
    rw [hst] at hc
    exact ⟨fun h => h.det hc, fun e => e ▸ hc⟩

theorem LoaderFor.weak {p : Process} {strict : Prop} {good : Lib → Prop} (ops : List Op) :
    ∀ {seen libs inited}, LoaderFor p strict good seen libs inited ops →
    LoaderOk p False seen libs inited ops := by
  induction ops with
  | nil => intros; trivial
  | cons op ops ih =>
    intro seen libs inited h
    have hld : ∀ {ld}, LoadsFor p strict good seen libs ld → LoadsOk p False seen libs ld :=
      fun h => ⟨h.objs, h.nd, fun l hl hs => ⟨id, (h.again l hl hs).2⟩, h.placed, h.old, h.cover,
        False.elim, False.elim⟩
    cases op <;> simp only [LoaderOk, LoaderFor] at h ⊢
    · exact ⟨h.1, ih h.2⟩
    · exact ⟨h.1, ih h.2⟩
    · exact ⟨h.1, ih h.2⟩
    · exact ih h
    · exact ⟨hld h.1, ih h.2⟩
    · exact ⟨hld h.1, fun _ => id, ih h.2.2⟩
    · exact ⟨h.1, ih h.2⟩

theorem EventsFor.weak {p : Process} {strict : Prop} {good : Lib → Prop} {ops : List Op}
    (h : EventsFor p strict good ops) : Events p False ops :=
  ⟨LoaderFor.weak ops h.loader, False.elim, False.elim, False.elim, False.elim⟩

/-- The libraries whose name contains the text. -/
def Named (t : Name) (l : Lib) : Prop := ∃ n, l.name = some n ∧ t <:+: n

/-- C87 and C11 for gotcha_filter_libraries_by_name called first: the libraries whose name contains
the text are intercepted in full, the words of any other library stay as the loader left them. -/
theorem C87_filter_by_name_splits {p : Process} (ok : p.Ok) {t : Name} {ops rest : List Op}
    (hops : ops = .setFilter (.byName (some t)) :: rest) (hf : ∀ g, Op.setFilter g ∉ rest)
    (h : HistoryFor p True (Named t) ops) {s os} (hr : run p.env ops p.start = .ok (s, os)) :
    (∀ (f : Name) {r : Addr}, realAfter p.env p.libs ops f = some r → p.P r = none →
      ∃ order : List Frame, order.Perm (registered p.env ops f) ∧
        ∀ l ∈ libsAfter p.libs ops, Named t l → ∀ off, (off, f) ∈ rlOf l →
          registered p.env ops f ≠ [] → ∀ path,
          Calls p.P s (s.mem (l.addr + off)) path ↔ path = wrappers order ++ [r]) ∧
    (∀ l0, ¬ Named t l0 → ∀ R : Addr → Prop,
      (∀ l, p.U l → l ≠ l0 → ∀ q ∈ rlOf l, ¬ R (l.addr + q.1)) →
      ∀ a, R a → s.mem a = loaderMem p.mem ops a) := by
  refine ⟨?_, ?_⟩
  · intro f r hreal hprog
    obtain ⟨order, h1, -, h2⟩ := C87_admitted_libraries_are_intercepted ok h hr f (r := r) hreal hprog
    exact ⟨order, h1, h2⟩
  · intro l0 hn R hR
    subst hops
    exact C11_filter_by_name ok hf (EventsFor.weak h.toEventsFor) hr
      (fun n h1 h2 => hn ⟨n, h1, h2⟩) hR

/-- Only the plugin is open to GOTCHA. -/
theorem Demo.only_plugin87 : HistoryFor Demo.proc True (Named (nm "plugin")) Demo.ops3 where
  honest := Demo.history3.honest
  loader := by
    refine ⟨fun _ => Demo.dlopen_def, ?_, trivial⟩
    have h := Demo.loadPlug_ok True
    exact ⟨h.objs, h.nd, fun l hl hs => absurd trivial (h.again l hl hs).1, h.placed, h.old,
      h.cover, h.cons, fun _ l hl _ => h.keep trivial l hl⟩
  cons := fun _ => Demo.cons Demo.proc_ok.objs
  filter := by
    intro _ f hf l hl
    simp only [Demo.ops3, List.mem_cons, Op.setFilter.injEq, reduceCtorEq, List.not_mem_nil,
      or_false] at hf
    subst hf
    exact hl
  main := fun _ => Demo.mainAlone_of ⟨trivial, fun h => absurd h (Demo.notMain (by decide +kernel)),
    trivial, trivial⟩
  short := fun _ => by decide

/-- The plugin's calls of foo run tool B, the application's slot stays as it was. -/
example : ∃ s os, run Demo.proc.env Demo.ops3 Demo.proc.start = .ok (s, os) ∧
    Calls Demo.P s (s.mem (Demo.plug.addr + 0x18)) [0x50a, 0x20004000] ∧
    s.mem (Demo.app.addr + 0x18) = 0 := by
  obtain ⟨s, os, hr⟩ := Demo.demo_run3
  obtain ⟨h1, h2⟩ := C87_filter_by_name_splits Demo.proc_ok (ops := Demo.ops3) rfl (by intro g; simp) Demo.only_plugin87 hr
  have hreg : registered Demo.proc.env Demo.ops3 (nm "foo") = [⟨Demo.B, 0x50a, 10⟩] := by
    decide +kernel
  obtain ⟨order, h3, h4⟩ := h1 (nm "foo") (r := 0x20004000) (by decide +kernel) (by decide)
  have hord : order = [⟨Demo.B, 0x50a, 10⟩] := List.perm_singleton.1 (h3.trans (by
    rw [show registered Demo.proc.env _ _ = _ from hreg]))
  refine ⟨s, os, hr, ?_, ?_⟩
  · refine (h4 Demo.plug (by show _ ∈ [Demo.app, Demo.libc, Demo.plug]; simp)
      ⟨_, rfl, (occursIn_iff _ _).1 (by decide +kernel)⟩ _ Demo.slot_plug ?_ _).2 ?_
    · rw [show registered Demo.proc.env _ _ = _ from hreg]; simp
    · rw [hord]; rfl
  · refine h2 Demo.app ?_ (fun a => a = Demo.app.addr + 0x18) ?_ _ rfl
    · rintro ⟨n, ⟨⟩, hn⟩
      rw [← occursIn_iff] at hn
      revert hn
      decide +kernel
    · rintro l (rfl | rfl | rfl) hne q hq
      · exact absurd rfl hne
      · rw [Demo.rl_libc] at hq; cases hq
      · rw [Demo.rl_plug, List.mem_singleton] at hq
        subst hq
        decide

/-- The plugin is loaded behind GOTCHA's back and kept out by a filter of the user's afterwards. -/
def Demo.opsBehind : List Op :=
  [ .wrap [⟨nm "foo", 0x50a, 10⟩] (some Demo.B),
    .load Demo.loadPlug,
    .setFilter (.custom fun l _ => decide (l.lm = Demo.app.lm)),
    .wrap [⟨nm "foo", 0x50c, 12⟩] (some Demo.A) ]

theorem Demo.only_app87 : HistoryFor Demo.proc True (fun l => l = Demo.app) Demo.opsBehind where
  honest := by
    refine ⟨by decide +kernel, ?_, Demo.envOk⟩
    intro u hu
    simp only [Demo.opsBehind, List.flatMap_cons, List.flatMap_nil, tableOf, List.nil_append,
      List.append_nil, List.cons_append, List.mem_cons, List.not_mem_nil, or_false] at hu
    rcases hu with rfl | rfl <;> decide
  loader := by
    have h := Demo.loadPlug_ok True
    refine ⟨fun _ => Demo.dlopen_def, ⟨h.objs, h.nd, fun l hl hs => absurd trivial (h.again l hl hs).1,
      h.placed, h.old, h.cover, h.cons, fun _ l hl _ => h.keep trivial l hl⟩, ?_,
      (fun h => (by cases h)), trivial⟩
    intro _ _ l hl e
    simp only [Demo.loadPlug, List.mem_singleton] at hl
    exact absurd (congrArg Lib.lm (hl.symm.trans e)) (by decide)
  cons := fun _ => Demo.cons Demo.proc_ok.objs
  filter := by
    intro _ f hf l hl
    simp only [Demo.opsBehind, List.mem_cons, Op.setFilter.injEq, reduceCtorEq, List.not_mem_nil,
      or_false, false_or] at hf
    subst hf
    subst hl
    intro b
    exact decide_eq_true rfl
  main := fun _ => Demo.mainAlone_of ⟨fun h => absurd h (Demo.notMain (by decide +kernel)), trivial,
    trivial, fun h => absurd h (Demo.notMain (by decide +kernel)), trivial⟩
  short := fun _ => by decide

/-- The application's calls of foo still run both tools. -/
example : ∃ s os order, run Demo.proc.env Demo.opsBehind Demo.proc.start = .ok (s, os) ∧
    order.Perm [⟨Demo.B, 0x50a, 10⟩, ⟨Demo.A, 0x50c, 12⟩] ∧
    Calls Demo.P s (s.mem (Demo.app.addr + 0x18)) (wrappers order ++ [0x20004000]) := by
  obtain ⟨s, hr, -⟩ := historyFor_run Demo.proc_ok Demo.only_app87
  have hreg : registered Demo.proc.env Demo.opsBehind (nm "foo") =
      [⟨Demo.B, 0x50a, 10⟩, ⟨Demo.A, 0x50c, 12⟩] := by decide +kernel
  obtain ⟨order, h1, -, h2⟩ := C87_admitted_libraries_are_intercepted Demo.proc_ok Demo.only_app87 hr
    (nm "foo") (r := 0x20004000) (by decide +kernel) (by decide)
  refine ⟨s, _, order, hr, by rw [← hreg]; exact h1, ?_⟩
  refine (h2 Demo.app (by show _ ∈ [Demo.app, Demo.libc, Demo.plug]; simp) rfl _ Demo.slot_app ?_ _).2
    rfl
  rw [hreg]; simp

end Gotcha
