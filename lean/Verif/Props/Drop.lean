import Verif.Proof.Drop
import Verif.Props.Refute
/-
C126: with `remove_library` called at dlclose, libraries can be loaded again.
-/
namespace Gotcha
open Spec

theorem drop_view {p : Process} (ok : p.Ok) {es : List DropEv} (h : DropHistory p es) {s os}
    (hr : runDrop p.env es p.start = .ok (s, os)) :
    TopL (p.ctx True True) (3 + (opsOf es).length) s (Abs.run p.env (opsOf es) p.abs).1 ∧
      os = dropObs p.env es p.abs := by
  obtain ⟨s', h1, h2⟩ := drop_run ok h
  rw [hr] at h1
  cases h1
  exact ⟨h2, rfl⟩

/-- C126.  No event of such a history faults (compare C23_reload_crash_refuted). -/
theorem C126_no_fault {p : Process} (ok : p.Ok) {es : List DropEv} (h : DropHistory p es) :
    ∃ s os, runDrop p.env es p.start = .ok (s, os) ∧ s.linkMap = libsAfter p.libs (opsOf es) := by
  obtain ⟨s, h1, h2⟩ := drop_run ok h
  exact ⟨s, _, h1, by rw [← top_libs h2, libs_run]⟩

/-- C126.  Libraries may be unloaded and loaded again, any number of times, and records of loaded
libraries may be removed: a call through any GOT slot for `f` of any library loaded in the end runs
exactly the wrappers of all bindings registered for `f`, in one order, and then the real `f`. -/
theorem C126_calls_run_the_whole_stack {p : Process} (ok : p.Ok) {es : List DropEv}
    (h : DropHistory p es) {s os} (hr : runDrop p.env es p.start = .ok (s, os)) (f : Name) {r : Addr}
    (hreal : realAfter p.env p.libs (opsOf es) f = some r) (hprog : p.P r = none) :
    ∃ order : List Frame, order.Perm (registered p.env (opsOf es) f) ∧
      ∀ l ∈ libsAfter p.libs (opsOf es), ∀ off, (off, f) ∈ rlOf l →
        registered p.env (opsOf es) f ≠ [] →
        ∀ path, Calls p.P s (s.mem (l.addr + off)) path ↔ path = wrappers order ++ [r] := by
  obtain ⟨ht, -⟩ := drop_view ok h hr
  have hv := top_view ht
  have hl : s.linkMap = libsAfter p.libs (opsOf es) := by rw [← top_libs ht, libs_run]
  refine ⟨stackOf p (opsOf es) f, stackOf_perm p _ f, ?_⟩
  intro l hl' off hoff hne path
  cases hst : stackOf p (opsOf es) f with
  | nil =>
    have := stackOf_perm p (opsOf es) f
    rw [hst] at this
    exact absurd (List.nil_perm.1 this) hne
  | cons fr st =>
    have hslot : s.mem (l.addr + off) = fr.wrapper :=
      hv.slots trivial l (by rw [hl]; exact hl') trivial (off, f) hoff fr st hst
    have hc := view_calls hv (by rw [real_run]; exact hreal) hprog (stackOf p _ f) [] rfl fr st hst
    rw [hslot]
    rw [hst] at hc
    exact ⟨fun h => h.det hc, fun e => e ▸ hc⟩

theorem C126_wired {p : Process} (ok : p.Ok) {es : List DropEv} (h : DropHistory p es) {s os}
    (hr : runDrop p.env es p.start = .ok (s, os)) : Wired p (opsOf es) s := by
  intro f r hreg hreal hprog l hl off hoff
  obtain ⟨order, h1, h2⟩ := C126_calls_run_the_whole_stack ok h hr f hreal hprog
  exact ⟨order, h1, (h2 l hl off hoff hreg _).2 rfl⟩

/-- C126.  The table has no record of a library that is not loaded and no more records than there are
loaded libraries: it does not grow with the number of dlopens. -/
theorem C126_no_stale_records {p : Process} (ok : p.Ok) {es : List DropEv} (h : DropHistory p es)
    {s os} (hr : runDrop p.env es p.start = .ok (s, os)) (hi : (opsOf es).any isApi = true) :
    (∀ l, p.U l → l ∉ libsAfter p.libs (opsOf es) →
      s.libTab.lookup (linkMapHash l) (linkMapEq l.lm) = .ok none) ∧
    s.libTab.count ≤ (libsAfter p.libs (opsOf es)).length := by
  obtain ⟨ht, -⟩ := drop_view ok h hr
  rw [← libs_run]
  have hinit : (Abs.run p.env (opsOf es) p.abs).1.inited = true := by
    rw [abs_start, (run_prio p.env p.libs _).2]; exact hi
  rcases ht with ht | ⟨v, G, ht⟩
  · rw [ht.abs] at hinit; cases hinit
  · have hs : ∀ {a r}, G.lm a = some r → a ∈ (Abs.run p.env (opsOf es) p.abs).1.libs := by
      intro a r ha
      have := ht.inv.lib.seen ha
      rw [ht.seen] at this
      exact this
    constructor
    · intro l hu hl
      rw [lookup_lib (env := p.env) ok.world ht.inv.lib.tab hu]
      cases hg : G.lm l with
      | none => rfl
      | some r => exact absurd (hs hg) hl
    · obtain ⟨L, items, hrep, hk, hm, hnd⟩ := ht.inv.lib.tab
      have hlen : items.length = s.libTab.count := by
        have := congrArg List.length hrep.items
        rw [List.length_map, List.length_map] at this
        rw [hrep.count, this]
      rw [← hlen, ← List.length_map (f := (·.1)),
        ← List.length_map (as := (Abs.run p.env (opsOf es) p.abs).1.libs) (f := linkMapHash)]
      refine (List.subperm_of_subset hnd ?_).length_le
      intro x hx
      obtain ⟨it, hit, rfl⟩ := List.mem_map.1 hx
      obtain ⟨l', hl', e1, e2⟩ := hk it hit
      refine List.mem_map.2 ⟨l', hs ((hm l' it.2.2).2 ⟨hl', ?_⟩), e1.symm⟩
      rw [← e1, ← e2]; exact hit

theorem opsOf_map (ops : List Op) : opsOf (ops.map .op) = ops := by
  induction ops with
  | nil => rfl
  | cons o ops ih => simp only [List.map_cons, opsOf, ih]

theorem Spec.LoadsOk.now {p : Process} {seen libs ld} (h : LoadsOk p True seen libs ld) :
    LoadsOk p True (fun l => l ∈ libs) libs ld := by
  refine { h with again := ?_ }
  intro l hl hl'
  have := h.nd
  rw [List.map_append, List.nodup_append] at this
  exact absurd rfl (this.2.2 _ (List.mem_map_of_mem hl') _ (List.mem_map_of_mem hl))

theorem drop_loader {p : Process} (ops : List Op) : ∀ {seen libs inited},
    LoaderOk p True seen libs inited ops → DropLoader p libs inited (ops.map .op) := by
  induction ops with
  | nil => intros; trivial
  | cons o ops ih =>
    intro seen libs inited h
    cases o <;> simp only [LoaderOk] at h <;>
      simp only [List.map_cons, DropLoader, LoaderOk, and_true, loadStep, isApi, Bool.or_true,
        Bool.or_false]
    · exact ⟨h.1, ih h.2⟩
    · exact ⟨h.1, ih h.2⟩
    · exact ⟨h.1, ih h.2⟩
    · exact ⟨trivial, ih h⟩
    · exact ⟨h.1.now, ih h.2⟩
    · exact ⟨⟨h.1.now, h.2.1⟩, ih h.2.2⟩
    · exact ⟨h.1, ih h.2⟩

/-- The histories of C01 are among those of C126. -/
theorem drop_history {p : Process} {ops : List Op} (h : History p True ops) :
    DropHistory p (ops.map .op) where
  loader := drop_loader ops h.loader
  cons := h.cons trivial
  filter := by rw [opsOf_map]; exact h.filter trivial
  main := by rw [opsOf_map]; exact h.main trivial
  short := by rw [opsOf_map]; exact h.short trivial
  honest := by rw [opsOf_map]; exact h.honest

/-- C126.  Where the engine as it is already does what it should (no library comes back), clients see the
same results of all calls. -/
theorem C126_same_results {p : Process} (ok : p.Ok) {ops : List Op} (h : History p True ops) :
    ∃ s s' os, run p.env ops p.start = .ok (s, os) ∧
      runDrop p.env (ops.map .op) p.start = .ok (s', os) := by
  obtain ⟨s, h1, -⟩ := history_run ok h
  obtain ⟨s', h2, -⟩ := drop_run ok (drop_history h)
  refine ⟨s, s', _, h1, ?_⟩
  rw [h2]
  have : ∀ (ops : List Op) (A : Abs), dropObs p.env (ops.map .op) A = (Abs.run p.env ops A).2 := by
    intro ops
    induction ops with
    | nil => intro A; rfl
    | cons o ops ih =>
      intro A
      simp only [List.map_cons, dropObs, Abs.run, ih]
  rw [this]

end Gotcha
