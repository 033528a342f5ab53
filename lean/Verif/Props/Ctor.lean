import Verif.Proof.Ctor
import Verif.Props.Skip
import Verif.Props.Only
import Verif.Props.Refute
/-
C90: constructors of dlopened objects that use GOTCHA while dlopen is running.
-/
namespace Gotcha
open Spec

/-- C90.  dlopen calls whose constructors call GOTCHA or dlopen, to any depth, run like their events in
a row: GOTCHA's part of a dlopen comes after all that the constructors did. -/
theorem C90_events_in_a_row {p : Process} (ok : p.Ok) {evs : List Ev}
    (h : History p False (flats false evs)) :
    ∃ s os, run p.env (flats false evs) p.start = .ok (s, os) ∧ runEvs p.env evs p.start = .ok s := by
  obtain ⟨s, hr, -⟩ := history_run ok h
  exact ⟨s, _, hr, runEvs_flat ok evs (done := []) rfl h rfl hr⟩

/-- C90, what holds.  As long as no gotcha_wrap and no dlclose comes between the loading of an object and
the next return of a dlopen, calls from all objects, those loaded by the dlopen calls included, run the
whole stack afterwards.  The constructors may set and read priorities and dlopen further objects. -/
theorem C90_calm_constructors {p : Process} (ok : p.Ok) {evs : List Ev}
    (h : History p True ((flats false evs).map noticed)) (hc : Calm false false (flats false evs)) :
    ∃ s, runEvs p.env evs p.start = .ok s ∧ Wired p (flats false evs) s := by
  obtain ⟨s, os, hr, hn⟩ := C90_events_in_a_row ok (noticed_weak h)
  refine ⟨s, hn, ?_⟩
  have hset := settle_history h hc
  obtain ⟨s', hr', -⟩ := history_run ok hset
  obtain ⟨⟨os2, e1⟩, e2⟩ := settle_run ok (flats false evs) (done := []) (q := false) rfl (fun _ => rfl)
    (by simp) hc hset rfl hr'
  rw [load_nothing, hr] at e1
  cases e1
  have e2' : (Abs.run p.env (flats false evs) p.abs).1 =
      (Abs.run p.env (settle false nothing (flats false evs)) p.abs).1 := by
    refine Eq.trans ?_ e2
    simp [Abs.run, nothing]
  intro f r hreg hreal hprog l hl off hoff
  have hw := C01_wired ok hset hr' f r
  rw [← core_registered, core_settle, core_registered, ← real_run, ← e2', real_run, ← libs_run,
    ← e2', libs_run] at hw
  exact hw hreg hreal hprog l hl off hoff

theorem flats_append (a c : List Ev) : ∀ b, flats b (a ++ c) =
    flats b a ++ flats (b || (flats b a).any isApi) c := by
  induction a with
  | nil => intro b; simp [flats]
  | cons e a ih =>
    intro b
    rw [List.cons_append, flats, flats, ih, List.append_assoc, List.any_append, Bool.or_assoc]

/-- C90, the rule that is broken.  A constructor that calls gotcha_wrap for some function that is new to
GOTCHA takes its own object (and every other one that came with the same dlopen) out of the
interception of all functions wrapped before, other than those in its table: GOTCHA's part of dlopen
finds the object up to date.  The slots keep what the loader stored, until the next gotcha_wrap. -/
theorem C90_constructor_wrap_escapes {p : Process} (ok : p.Ok) {before ctors1 ctors2 rest : List Ev}
    {ld : Load} {tbl : List UBinding} {tool : Option Name} {evs : List Ev}
    (he : evs = before ++ .dlopen ld (ctors1 ++ .op (.wrap tbl tool) :: ctors2) :: rest)
    (h : History p False (flats false evs)) (hi : (flats false before).any isApi = true)
    (hm : ¬ hasMain tbl)
    (hnew : NamesNew p (flats false before ++ .load ld :: flats true ctors1) tbl)
    (hgw : ∀ t n, Op.wrap t n ∉ flats true ctors1) (hgd : ∀ ld, Op.dlopen ld ∉ flats true ctors1)
    (hpost2 : ∀ t n, Op.wrap t n ∉ flats true ctors2) (hpost : ∀ t n, Op.wrap t n ∉ flats true rest)
    {l : Lib} (hfirst : ∀ pre1 pre2, flats false before = pre1 ++ pre2 → l ∉ libsAfter p.libs pre1)
    (hl : Admitted (filterAfter (flats false before ++ .load ld :: flats true ctors1))
      (libsAfter p.libs (flats false before ++ .load ld :: flats true ctors1)) l)
    {off f} (hoff : (off, f) ∈ rlOf l) (hf : f ∉ tbl.map UBinding.name)
    (hown : OnlySlot p l f (l.addr + off)) :
    ∃ s, runEvs p.env evs p.start = .ok s ∧
      s.mem (l.addr + off) = loaderMem p.mem (flats false evs) (l.addr + off) := by
  obtain ⟨s, os, hr, hn⟩ := C90_events_in_a_row ok h
  refine ⟨s, hn, ?_⟩
  have e : flats false evs = flats false before ++ .load ld :: flats true ctors1 ++
      .wrap tbl tool :: (flats true ctors2 ++ .dlopen nothing :: flats true rest) := by
    subst he
    rw [flats_append, hi]
    show flats false before ++ flats true _ = _
    rw [flats, flat, flats_append, Bool.true_or, Bool.true_or, flats, flat, Bool.true_or]
    simp
  rw [e] at h hr ⊢
  exact C16_silently_loaded_stays_unwrapped ok h.toEvents hi hm hnew hgw hgd
    (by intro t n; simp [hpost2, hpost]) hr hfirst hl hoff hf hown

/-- C90, the others.  Whatever constructors do, the objects that were there before or came with a dlopen
GOTCHA saw from beginning to end (`good`) stay intercepted. -/
theorem C90_others_stay_intercepted {p : Process} (ok : p.Ok) {good : Lib → Prop} {evs : List Ev}
    (h : HistoryFor p True good (flats false evs)) :
    ∃ s, runEvs p.env evs p.start = .ok s ∧
      ∀ (f : Name) {r : Addr}, realAfter p.env p.libs (flats false evs) f = some r → p.P r = none →
        ∃ order : List Frame, order.Perm (registered p.env (flats false evs) f) ∧
          ∀ l ∈ libsAfter p.libs (flats false evs), good l → ∀ off, (off, f) ∈ rlOf l →
            registered p.env (flats false evs) f ≠ [] →
            ∀ path, Calls p.P s (s.mem (l.addr + off)) path ↔ path = wrappers order ++ [r] := by
  have hw : History p False (flats false evs) := ⟨EventsFor.weak h.toEventsFor, h.honest⟩
  obtain ⟨s, os, hr, hn⟩ := C90_events_in_a_row ok hw
  refine ⟨s, hn, fun f r hreal hprog => ?_⟩
  obtain ⟨order, h1, -, h2⟩ := C87_admitted_libraries_are_intercepted ok h hr f hreal hprog
  exact ⟨order, h1, h2⟩

namespace Demo

/-- foo is wrapped; the constructor of the plugin wraps bar. -/
def evsBad : List Ev :=
  [ .op (.wrap [⟨nm "foo", 0x50a, 10⟩] (some B)),
    .dlopen loadPlug [.op (.wrap [⟨nm "bar", 0x50b, 11⟩] (some A))] ]

/-- foo is wrapped; the constructor of the plugin sets a priority and dlopens something that is there. -/
def evsGood : List Ev :=
  [ .op (.wrap [⟨nm "foo", 0x50a, 10⟩] (some B)),
    .dlopen loadPlug [.op (.setPriority A 10), .dlopen nothing []] ]

theorem flat_bad : flats false evsBad = opsSilent := rfl

theorem flat_good : flats false evsGood =
    [ .wrap [⟨nm "foo", 0x50a, 10⟩] (some B), .load loadPlug, .setPriority A 10, .load nothing,
      .dlopen nothing, .dlopen nothing ] := rfl

theorem noticed_bad : History proc True ((flats false evsBad).map noticed) where
  honest := ⟨by decide +kernel, by
    intro u hu
    simp only [flat_bad, opsSilent, List.map_cons, List.map_nil, noticed, List.flatMap_cons,
      List.flatMap_nil, tableOf, List.append_nil, List.nil_append, List.cons_append, List.mem_cons,
      List.not_mem_nil, or_false] at hu
    rcases hu with rfl | rfl <;> decide, envOk⟩
  loader := ⟨fun _ => dlopen_def, loadPlug_ok True, fun h => (by cases h), noLoad_ok libs_U _ _, trivial⟩
  cons := fun _ => cons proc_ok.objs
  filter := by intro _ f hf; simp [flat_bad, opsSilent, noticed] at hf
  main := fun _ => mainAlone_of ⟨fun h => absurd h (notMain (by decide +kernel)), trivial,
    fun h => absurd h (notMain (by decide +kernel)), trivial, trivial⟩
  short := fun _ => by decide

theorem noticed_good : History proc True ((flats false evsGood).map noticed) where
  honest := ⟨by decide +kernel, by
    intro u hu
    simp only [flat_good, List.map_cons, List.map_nil, noticed, List.flatMap_cons,
      List.flatMap_nil, tableOf, List.append_nil, List.nil_append, List.cons_append, List.mem_cons,
      List.not_mem_nil, or_false] at hu
    rcases hu with rfl
    decide, envOk⟩
  loader := ⟨fun _ => dlopen_def, loadPlug_ok True, fun h => (by cases h), noLoad_ok libs_U _ _,
    noLoad_ok libs_U _ _, noLoad_ok libs_U _ _, trivial⟩
  cons := fun _ => cons proc_ok.objs
  filter := by intro _ f hf; simp [flat_good, noticed] at hf
  main := fun _ => mainAlone_of ⟨fun h => absurd h (notMain (by decide +kernel)), trivial, trivial,
    trivial, trivial, trivial, trivial⟩
  short := fun _ => by decide

theorem calm_good : Calm false false (flats false evsGood) := ⟨rfl, rfl⟩

/-- The plugin's calls of foo are intercepted after a dlopen with harmless constructors. -/
example : ∃ s, runEvs env evsGood proc.start = .ok s ∧
    Calls P s (s.mem (plug.addr + 0x18)) [0x50a, 0x20004000] := by
  obtain ⟨s, h1, h2⟩ := C90_calm_constructors proc_ok noticed_good calm_good
  refine ⟨s, h1, ?_⟩
  have hreg : registered proc.env (flats false evsGood) (nm "foo") = [⟨B, 0x50a, 10⟩] := by
    decide +kernel
  obtain ⟨order, h3, h4⟩ := h2 (nm "foo") 0x20004000 (by rw [hreg]; simp) (by decide +kernel)
    (by decide) plug (by show _ ∈ [app, libc, plug]; simp) 0x18 slot_plug
  rw [hreg] at h3
  rw [List.perm_singleton.1 h3] at h4
  exact h4

/-- The plugin's constructor wraps bar: the plugin's slot for foo stays as the loader left it. -/
example : ∃ s, runEvs env evsBad proc.start = .ok s ∧ s.mem 0x30000018 = 0 := by
  obtain ⟨s, h1, h2⟩ := C90_constructor_wrap_escapes proc_ok (evs := evsBad)
    (before := [.op (.wrap [⟨nm "foo", 0x50a, 10⟩] (some B))]) (ctors1 := []) (ctors2 := [])
    (rest := []) (ld := loadPlug) (tbl := [⟨nm "bar", 0x50b, 11⟩]) (tool := some A) rfl
    (noticed_weak noticed_bad) rfl (notMain (by decide +kernel)) ⟨nm "bar", by simp, by decide +kernel⟩
    (by simp [flats]) (by simp [flats]) (by simp [flats]) (by simp [flats]) (l := plug) (by
      rintro pre1 pre2 e
      have : libsAfter proc.libs pre1 = [app, libc] := by
        match pre1, e with
        | [], _ => rfl
        | [_], e => cases e; rfl
        | _ :: _ :: _, e => simp [flats, flat] at e
      rw [this]
      intro hc
      simp only [List.mem_cons, List.not_mem_nil, or_false] at hc
      rcases hc with hc | hc <;> exact absurd (congrArg Lib.lm hc) (by decide))
    ⟨[app, libc], [], rfl, trivial⟩ slot_plug (by decide +kernel) only_plug
  exact ⟨s, h1, h2⟩

/-- The application stays intercepted. -/
example : HistoryFor proc True (fun l => l ≠ plug) (flats false evsBad) where
  honest := (noticed_weak noticed_bad).honest
  loader := by
    have hw : ∀ {seen libs ld}, LoadsOk proc True seen libs ld →
        LoadsFor proc True (fun l => l ≠ plug) seen libs ld := fun h =>
      ⟨h.objs, h.nd, fun l hl hs => absurd trivial (h.again l hl hs).1, h.placed, h.old, h.cover,
        h.cons, fun hs l hl _ => h.keep hs l hl⟩
    refine ⟨fun _ => dlopen_def, hw (loadPlug_ok True), ?_, fun h => (by cases h),
      hw (noLoad_ok libs_U _ _), trivial⟩
    intro _ _ l hl hn
    simp only [loadPlug, List.mem_singleton] at hl
    exact hn hl
  cons := noticed_bad.cons
  filter := by intro _ f hf; simp [flat_bad, opsSilent] at hf
  main := by
    intro hs
    have := noticed_bad.main hs
    rwa [← mainAlone_core, core_noticed, mainAlone_core] at this
  short := fun _ => by decide

end Demo

/-- C90: constructors that call gotcha_wrap should not keep the objects loaded from being
intercepted. -/
theorem C90_constructor_wrap_refuted :
    ¬ ∀ (p : Process), p.Ok → ∀ evs : List Ev, History p True ((flats false evs).map noticed) →
      ∀ s, runEvs p.env evs p.start = .ok s → Wired p (flats false evs) s := by
  intro hdoc
  obtain ⟨s, os, hr, hq⟩ := Demo.after_run Demo.silent_run
  obtain ⟨s', os', hr', hn⟩ := C90_events_in_a_row Demo.proc_ok (noticed_weak Demo.noticed_bad)
  rw [Demo.flat_bad] at hr'
  have : run Demo.proc.env Demo.opsSilent Demo.proc.start = .ok (s, os) := hr
  rw [this] at hr'
  cases hr'
  refine not_wired (f := nm "foo") (r := 0x20004000) (l := Demo.plug) (off := 0x18) ?_
    Demo.silent_real (by decide) (by show _ ∈ [Demo.app, Demo.libc, Demo.plug]; simp)
    Demo.slot_plug ?_ (hdoc Demo.proc Demo.proc_ok Demo.evsBad Demo.noticed_bad s hn)
  · exact fun h => List.cons_ne_nil _ _ (Demo.silent_reg.symm.trans h)
  · rw [show Demo.plug.addr + 0x18 = 0x30000018 from rfl, of_decide_eq_true hq]
    decide

end Gotcha
