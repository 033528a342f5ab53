import Verif.Props.HealedDemo
import Verif.Spec.Careful
/-
C132: programs that call gotcha_wrap with an empty table before each dlopen never lose a plugin.
-/
namespace Gotcha
open Spec

theorem LoaderFor.post {p : Process} {strict : Prop} {good : Lib → Prop} (pre post : List Op) :
    ∀ {seen libs inited}, LoaderFor p strict good seen libs inited (pre ++ post) →
    LoaderFor p strict good (seenRun seen pre) (libsAfter libs pre) (inited || pre.any isApi) post := by
  induction pre with
  | nil => intro seen libs inited h; simpa [seenRun, libsAfter] using h
  | cons op pre ih =>
    intro seen libs inited h
    have hi : (inited || (op :: pre).any isApi) = ((inited || isApi op) || pre.any isApi) := by
      rw [List.any_cons, Bool.or_assoc]
    rw [hi]
    cases op <;> simp only [List.cons_append, LoaderFor] at h
    · have := ih h.2; simpa [isApi, seenRun, seenAfter, libsAfter, loadStep] using this
    · have := ih h.2; simpa [isApi, seenRun, seenAfter, libsAfter, loadStep] using this
    · have := ih h.2; simpa [isApi, seenRun, seenAfter, libsAfter, loadStep] using this
    · have := ih h; simpa [isApi, seenRun, seenAfter, libsAfter, loadStep] using this
    · have := ih h.2; simpa [isApi, seenRun, seenAfter, libsAfter, loadStep] using this
    · have := ih h.2.2; simpa [isApi, seenRun, seenAfter, libsAfter, loadStep] using this
    · have := ih h.2; simpa [isApi, seenRun, seenAfter, libsAfter, loadStep] using this

/-- Where nothing is loaded, it does not matter which objects the claim is about. -/
theorem loaderFor_any {p : Process} {strict strict' : Prop} {good good' : Lib → Prop} (ops : List Op) :
    ∀ {seen seen' libs inited}, (∀ ld, Op.load ld ∉ ops) → (∀ ld, Op.dlopen ld ∉ ops) →
    LoaderFor p strict good seen libs inited ops → LoaderFor p strict' good' seen' libs inited ops := by
  induction ops with
  | nil => intros; trivial
  | cons op ops ih =>
    intro seen seen' libs inited h1 h2 h
    have h1' : ∀ ld, Op.load ld ∉ ops := fun ld hx => h1 ld (List.mem_cons_of_mem _ hx)
    have h2' : ∀ ld, Op.dlopen ld ∉ ops := fun ld hx => h2 ld (List.mem_cons_of_mem _ hx)
    cases op with
    | dlopen ld => exact absurd (List.mem_cons_self ..) (h2 ld)
    | load ld => exact absurd (List.mem_cons_self ..) (h1 ld)
    | setFilter f => exact ih h1' h2' h
    | _ => exact ⟨h.1, ih h1' h2' h.2⟩

theorem last_dlopen (ops : List Op) : (∀ ld, Op.dlopen ld ∉ ops) ∨
    ∃ pre ld post, ops = pre ++ .dlopen ld :: post ∧ ∀ ld', Op.dlopen ld' ∉ post := by
  induction ops with
  | nil => left; simp
  | cons op ops ih =>
    rcases ih with ih | ⟨pre, ld, post, rfl, hp⟩
    · cases op with
      | dlopen ld => exact Or.inr ⟨[], ld, ops, rfl, ih⟩
      | _ => left; simpa using ih
    · exact Or.inr ⟨op :: pre, ld, post, rfl, hp⟩

theorem filterAfter_passes {ops : List Op} {l : Lib} (h : ∀ f, Op.setFilter f ∈ ops → Passes f l) :
    Passes (filterAfter ops) l := by
  unfold filterAfter
  induction ops using List.reverseRecOn with
  | nil => trivial
  | append_singleton ops op ih =>
    rw [List.foldl_append]
    have hi := ih fun f hf => h f (List.mem_append_left _ hf)
    cases op with
    | setFilter f => exact h f (by simp)
    | _ => exact hi

/-- C132.  A program that calls gotcha_wrap with an empty table before each dlopen (and otherwise wraps what it likes,
sets priorities and filters, opens and closes plugins, and opens them again as often as it likes) gets its calls
intercepted: nothing faults, and in every loaded object that its filters let pass every call of every wrapped function
runs all its wrappers and then the function.  Contrast C15: without the empty tables the calls of plugins that come
back are lost. -/
theorem C132_careful {p : Process} (ok : p.Ok) {ops : List Op} (h : Rough p ops) {good : Lib → Prop}
    (hc : Careful good ops) :
    ∃ s os, run p.env ops p.start = .ok (s, os) ∧ WiredFor p good ops s := by
  rcases last_dlopen ops with hno | ⟨pre, ld, post, heq, hpost⟩
  · have hH : HistoryFor p True good ops :=
      ⟨⟨loaderFor_any ops hc.seen hno h.loader, h.cons, fun _ => hc.filter, h.main, h.short⟩, h.honest⟩
    obtain ⟨s, e1, e2⟩ := historyFor_run ok hH
    have hlm := top_libs e2
    rw [libs_run] at hlm
    exact ⟨s, _, e1, view_wiredFor (top_view e2) hlm.symm⟩
  · obtain ⟨pre', tool, rfl, hpre⟩ := hc.before pre ld post heq
    have heq' : ops = (pre' ++ [.wrap [] tool, .dlopen ld]) ++ post := by rw [heq]; simp
    clear heq
    subst heq'
    have hl := LoaderFor.post (pre' ++ [.wrap [] tool, .dlopen ld]) post h.loader
    rw [seenRun_eq, show (false || (pre' ++ [Op.wrap [] tool, .dlopen ld]).any isApi) = true by simp [hpre]] at hl
    refine C131_healed ok (HistoryFor.prefix h) hpre ⟨?_, ?_, ?_, h.main trivial, h.honest, h.short trivial⟩
    · intro l hg
      exact filterAfter_passes fun f hf => hc.filter f (List.mem_append_left _ hf) l hg
    · exact fun f hf => hc.filter f (List.mem_append_right _ hf)
    · exact loaderFor_any post (fun ld' hx => hc.seen ld' (List.mem_append_right _ hx)) hpost hl

/-- C132 for programs that leave the default filter in force: everything is intercepted. -/
theorem C132_everything {p : Process} (ok : p.Ok) {ops : List Op} (h : Rough p ops)
    (hc : Careful (fun _ => True) ops) : ∃ s os, run p.env ops p.start = .ok (s, os) ∧ Wired p ops s := by
  obtain ⟨s, os, e1, e2⟩ := C132_careful ok h hc
  exact ⟨s, os, e1, fun f r h1 h2 h3 l hl off hoff => e2 f r h1 h2 h3 l hl trivial off hoff⟩

namespace Demo

theorem careful_ops : Careful (fun _ => True) ([ .wrap [⟨nm "foo", 0x50a, 10⟩] (some B), .wrap [] none, .dlopen loadPlug,
    .unload deadPlug, .wrap [] none, .dlopen reloadW ] : List Op) where
  before := by
    intro pre ld post e
    rcases pre with _ | ⟨a, _ | ⟨b, _ | ⟨c, _ | ⟨d, _ | ⟨x, _ | ⟨y, pre⟩⟩⟩⟩⟩⟩
    all_goals simp at e
    · obtain ⟨rfl, rfl, -⟩ := e
      exact ⟨[_], none, rfl, rfl⟩
    · obtain ⟨rfl, rfl, rfl, rfl, rfl, -⟩ := e
      exact ⟨[_, _, _, _], none, rfl, rfl⟩
  seen := by simp
  filter := by simp

theorem careful_rough : Rough proc [ .wrap [⟨nm "foo", 0x50a, 10⟩] (some B), .wrap [] none, .dlopen loadPlug,
    .unload deadPlug, .wrap [] none, .dlopen reloadW ] where
  loader := ⟨fun _ => dlopen_def, fun h => (by cases h), rough_of (loadPlug_ok True), Or.inl rfl,
    fun h => (by cases h), reloadW_rough, trivial⟩
  cons := fun _ => (history True).cons trivial
  filter := fun _ _ _ _ h => h.elim
  main := fun _ => mainAlone_of ⟨fun h => absurd h (notMain (by decide +kernel)),
    fun ⟨_, hu, _⟩ => absurd hu (by simp), trivial, trivial, fun ⟨_, hu, _⟩ => absurd hu (by simp), trivial, trivial⟩
  short := fun _ => by decide
  honest := ⟨by decide +kernel, closed_rough.honest.prog, envOk⟩

end Demo

/-- The plugin of C15, opened, closed and opened again: its call of foo runs the wrapper and then libc's foo. -/
example : ∃ s os, run Demo.proc.env [ .wrap [⟨nm "foo", 0x50a, 10⟩] (some Demo.B), .wrap [] none, .dlopen Demo.loadPlug,
    .unload Demo.deadPlug, .wrap [] none, .dlopen Demo.reloadW ] Demo.proc.start = .ok (s, os) ∧
    Calls Demo.proc.P s (s.mem 0x30000018) [0x50a, 0x20004000] := by
  obtain ⟨s, os, e1, e2⟩ := C132_everything Demo.proc_ok Demo.careful_rough Demo.careful_ops
  refine ⟨s, os, e1, ?_⟩
  have hreg : registered Demo.proc.env [ .wrap [⟨nm "foo", 0x50a, 10⟩] (some Demo.B), .wrap [] none,
    .dlopen Demo.loadPlug, .unload Demo.deadPlug, .wrap [] none, .dlopen Demo.reloadW ] (nm "foo") =
    [⟨Demo.B, 0x50a, 10⟩] := by decide +kernel
  obtain ⟨order, ho, hc⟩ := e2 (nm "foo") 0x20004000 (by rw [hreg]; simp) (by decide +kernel) (by decide) Demo.plug
    (by show _ ∈ [Demo.app, Demo.libc, Demo.plug]; simp) _ Demo.slot_plug
  rw [hreg] at ho
  rw [List.perm_singleton.1 ho] at hc
  exact hc

/-- C132, the limits: without the empty tables it is false (C15). -/
theorem C132_careless_refuted :
    ¬ ∀ (p : Process), p.Ok → ∀ ops : List Op, Rough p ops → (∀ ld, Op.load ld ∉ ops) →
      (∀ f, Op.setFilter f ∈ ops → f = .all) → ops.any isApi = true →
      ∃ s os, run p.env ops p.start = .ok (s, os) ∧ Wired p ops s := by
  intro hall
  obtain ⟨s, os, hr, hq⟩ := Demo.after_run Demo.reloadW_slot
  obtain ⟨s', os', e1, e2⟩ := hall Demo.proc Demo.proc_ok Demo.opsReloadW Demo.reloadW_is_rough
    (by simp [Demo.opsReloadW]) (by simp [Demo.opsReloadW]) rfl
  change run Demo.proc.env _ _ = _ at hr
  rw [hr] at e1
  cases e1
  refine not_wired (p := Demo.proc) (ops := Demo.opsReloadW) (s := s) (f := nm "foo") (r := 0x20004000)
    (l := Demo.plug) (off := 0x18) ?_ (by decide +kernel) (by decide)
    (by show _ ∈ [Demo.app, Demo.libc, Demo.plug]; simp) Demo.slot_plug ?_ e2
  · have hreg : registered Demo.proc.env Demo.opsReloadW (nm "foo") = [⟨Demo.B, 0x50a, 10⟩] := by decide +kernel
    rw [hreg]
    simp
  · rw [show Demo.plug.addr + 0x18 = 0x30000018 from rfl, of_decide_eq_true hq]
    decide

end Gotcha
