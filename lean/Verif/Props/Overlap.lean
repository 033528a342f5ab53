import Verif.Proof.TraceMany
import Verif.Props.Trace
/-
C89: a call from another thread that overlaps any number of operations.
-/
namespace Gotcha
open Spec Tr

/-- C89.  GOTCHA has been used (`ops`); one thread goes on with any events `ops'`: further
`gotcha_wrap`s, priority calls, dlopens and dlcloses.  `s :: tr` are the states of memory before them,
after each of their stores and after each event, in order.  Another thread calls `f` through a GOT slot
of an object `l` that stays loaded, each of its loads at any time during all this: its call may start
during one event and end several events later.  At the end of each event `f` is not wrapped, or its real
function `r` is known.  No table lists `f` twice, and none makes GOTCHA wrap `main` for the first time.

Then the call always completes.  It runs wrappers in the order of a call made after all events (`new`),
leaving out only wrappers that a call made before them (`old`) does not run, and then the real function;
if `f` was not wrapped before, it may also run just what `old` does. -/
theorem C89_overlapping_calls {p : Process} (ok : p.Ok) {ops ops' : List Op}
    (h : History p True (ops ++ ops')) (hapi : ops.any isApi = true) {s os}
    (hrun : run p.env ops p.start = .ok (s, os)) {f : Name} {r : Addr}
    (hmain : ∀ op ∈ ops', hasMain (tableOf op) → ∃ o ∈ ops, hasMain (tableOf o))
    (honce : ∀ op ∈ ops', ((tableOf op).map UBinding.name).count f ≤ 1) (hPr : p.P r = none)
    {l : Lib} {off : Addr} (hoff : (off, f) ∈ rlOf l)
    (hpre : ∀ pre, pre <+: ops' → (registered p.env (ops ++ pre) f = [] ∨
      realAfter p.env p.libs (ops ++ pre) f = some r) ∧ l ∈ libsAfter p.libs (ops ++ pre))
    (hPv : registered p.env ops f = [] → p.P (s.mem (l.addr + off)) = none) :
    ∃ tr s' os' old new, runT p.env ops' s = .ok (tr, (s', os')) ∧
      run p.env ops' s = .ok (s', os') ∧
      Calls p.P s (s.mem (l.addr + off)) old ∧ Calls p.P s' (s'.mem (l.addr + off)) new ∧
      Safe p.P (fun path => (registered p.env ops f = [] ∧ path = old) ∨
        (path.Sublist new ∧ path.getLast? = some r ∧ (registered p.env ops f ≠ [] → old.Sublist path)))
        (s :: tr) (.slot (l.addr + off)) := by
  set a := l.addr + off with ha
  obtain ⟨v, G, hpost⟩ := history_post ok h.prefix hapi hrun
  obtain ⟨hv, hlm, -⟩ := history_view ok h.prefix hrun
  have hp0 := hpre [] (by simp)
  rw [List.append_nil] at hp0
  have hA0 : stackOf p ops f = [] ∨ (Abs.run p.env ops p.abs).1.real f = some r := by
    rcases hp0.1 with hr0 | hr0
    · exact Or.inl ((stackOf_nil_iff _ _ _).2 hr0)
    · exact Or.inr (by rw [real_run]; exact hr0)
  have hlk := lk_of_inv (bid := fun x => (s.handles x).getD 0) hpost.inv trivial
    (fun hx => bid_getD s.handles hx) hA0
  obtain ⟨tr, s', os', e1, e2, e0, e3⟩ := run_evo ok hoff (v0 := s.mem a) ops' h hapi hrun
    (fun op hop u hu hn => hmain op hop ⟨u, hu, hn⟩) honce hpre hlk (List.Sublist.refl _)
    (fun _ => rfl)
  have hrun' : run p.env (ops ++ ops') p.start = .ok (s', os ++ os') := by
    rw [run_append_model, hrun]
    simp only [bind, Except.bind, e2]
  have hapi' : (ops ++ ops').any isApi = true := by simp [hapi]
  obtain ⟨v', G', hpost'⟩ := history_post ok h hapi' hrun'
  obtain ⟨hv', hlm', -⟩ := history_view ok h hrun'
  have hp1 := hpre ops' (List.prefix_refl _)
  have hold : Calls p.P s (s.mem a) (pathOf (s.mem a) r (stackOf p ops f)) := by
    cases hD : stackOf p ops f with
    | nil => exact Calls.stop (hPv ((stackOf_nil_iff _ _ _).1 hD))
    | cons fr D =>
      have hne : stackOf p ops f ≠ [] := by rw [hD]; simp
      rw [show s.mem a = hdW r (stackOf p ops f) from
        post_slot hpost trivial trivial (by rw [hlm]; exact hp0.2) trivial hoff hne, hD]
      exact view_calls hv (hA0.resolve_left hne) hPr (fr :: D) [] hD fr D rfl
  have hnew : Calls p.P s' (s'.mem a) (pathOf (s.mem a) r (stackOf p (ops ++ ops') f)) := by
    cases hD : stackOf p (ops ++ ops') f with
    | nil =>
      have hs := e3.sub
      rw [hD] at hs
      rw [e0 hD]
      exact Calls.stop (hPv ((stackOf_nil_iff _ _ _).1 (List.sublist_nil.1 hs)))
    | cons fr D =>
      have hne : stackOf p (ops ++ ops') f ≠ [] := by rw [hD]; simp
      rw [show s'.mem a = hdW r (stackOf p (ops ++ ops') f) from
        post_slot hpost' trivial trivial (by rw [hlm']; exact hp1.2) trivial hoff hne, hD]
      exact view_calls hv' (by
        rw [real_run]
        exact hp1.1.resolve_left (fun hx => hne ((stackOf_nil_iff _ _ _).2 hx))) hPr (fr :: D) []
        hD fr D rfl
  refine ⟨tr, s', os', _, _, e1, e2, hold, hnew, ?_⟩
  refine (evo_safe hPr (fun hS => hPv ((stackOf_nil_iff _ _ _).1 hS)) _ (Nat.le_refl _)
    (pos := .slot a) rfl e3).mono ?_
  rintro path (⟨hS, -, rfl⟩ | ⟨E, hE, g1, g2, rfl⟩)
  · left
    refine ⟨(stackOf_nil_iff _ _ _).1 hS, ?_⟩
    rw [hS]; rfl
  · right
    have hDn : stackOf p (ops ++ ops') f ≠ [] := by
      intro hc
      rw [hc] at g2
      exact hE (List.sublist_nil.1 g2)
    have hpath : ∀ {D : List Frame} {w : Addr}, D ≠ [] → pathOf w r D = wrappers D ++ [r] := by
      intro D w hD
      cases D with
      | nil => exact absurd rfl hD
      | cons d D => rfl
    refine ⟨?_, by simp, fun hne => ?_⟩
    · rw [hpath hDn]
      exact (g2.map _).append (List.Sublist.refl _)
    · rw [hpath (fun hx => hne ((stackOf_nil_iff _ _ _).1 hx))]
      exact (g1.map _).append (List.Sublist.refl _)

/-- C89 for a function that is wrapped already, with its real function known: whatever happens during the
call, it runs at least the wrappers that were there at the beginning, at most those that are there at the
end, in this order, and then the real function. -/
theorem C89_wrapped_before {p : Process} (ok : p.Ok) {ops ops' : List Op}
    (h : History p True (ops ++ ops')) (hapi : ops.any isApi = true) {s os}
    (hrun : run p.env ops p.start = .ok (s, os)) {f : Name} {r : Addr}
    (hmain : ∀ op ∈ ops', hasMain (tableOf op) → ∃ o ∈ ops, hasMain (tableOf o))
    (honce : ∀ op ∈ ops', ((tableOf op).map UBinding.name).count f ≤ 1) (hPr : p.P r = none)
    {l : Lib} {off : Addr} (hoff : (off, f) ∈ rlOf l) (hl : l ∈ libsAfter p.libs ops)
    (hstay : ∀ dead, .unload dead ∈ ops' → dead l.lm = false)
    (hreg : registered p.env ops f ≠ []) (hreal : realAfter p.env p.libs ops f = some r) :
    ∃ tr s' os' old new, runT p.env ops' s = .ok (tr, (s', os')) ∧
      run p.env ops' s = .ok (s', os') ∧
      Calls p.P s (s.mem (l.addr + off)) old ∧ Calls p.P s' (s'.mem (l.addr + off)) new ∧
      Safe p.P (fun path => old.Sublist path ∧ path.Sublist new ∧ path.getLast? = some r) (s :: tr)
        (.slot (l.addr + off)) := by
  have hpre : ∀ pre, pre <+: ops' → (registered p.env (ops ++ pre) f = [] ∨
      realAfter p.env p.libs (ops ++ pre) f = some r) ∧ l ∈ libsAfter p.libs (ops ++ pre) := by
    intro pre hpr
    constructor
    · right
      rw [← real_run, run_append]
      refine (run_grow p.env pre _).real f r ?_ ?_
      · exact fun hc => hreg ((stackOf_nil_iff p ops f).1 hc)
      · rw [real_run]; exact hreal
    · have key : ∀ (pre : List Op), (∀ dead, .unload dead ∈ pre → dead l.lm = false) →
          ∀ libs : List Lib, l ∈ libs → l ∈ libsAfter libs pre := by
        intro pre
        induction pre with
        | nil => intro _ libs hl; exact hl
        | cons op pre ih =>
          intro hd libs hl
          refine ih (fun dead hx => hd dead (by simp [hx])) _ ?_
          cases op with
          | unload dead =>
            have := hd dead (by simp)
            simp [loadStep, hl, this]
          | dlopen ld => simp [loadStep, hl]
          | load ld => simp [loadStep, hl]
          | _ => exact hl
      unfold libsAfter
      rw [List.foldl_append]
      exact key pre (fun dead hx => hstay dead (hpr.subset hx)) _ hl
  obtain ⟨tr, s', os', old, new, e1, e2, e3, e4, e5⟩ := C89_overlapping_calls ok h hapi hrun hmain honce
    hPr hoff hpre (fun hc => absurd hc hreg)
  refine ⟨tr, s', os', old, new, e1, e2, e3, e4, e5.mono ?_⟩
  rintro path (⟨hc, -⟩ | ⟨g1, g2, g3⟩)
  · exact absurd hc hreg
  · exact ⟨g3 hreg, g1, g2⟩

/-- A call, computed. -/
def walk (P : Addr → Option HAddr) (s : State) : Nat → Addr → Option (List Addr)
  | 0, _ => none
  | n + 1, a =>
    match P a with
    | none => some [a]
    | some h =>
      match s.getWrappee h with
      | .ok a' => (walk P s n a').map (a :: ·)
      | .error _ => none

theorem walk_calls {P : Addr → Option HAddr} {s : State} : ∀ {n a path}, walk P s n a = some path →
    Calls P s a path := by
  intro n
  induction n with
  | zero => intro a path h; cases h
  | succ n ih =>
    intro a path h
    rw [walk] at h
    cases hp : P a with
    | none =>
      simp only [hp] at h
      cases h
      exact .stop hp
    | some x =>
      simp only [hp] at h
      cases hw : s.getWrappee x with
      | error e => simp [hw] at h
      | ok a' =>
        simp only [hw, Option.map_eq_some_iff] at h
        obtain ⟨path', h1, rfl⟩ := h
        exact .cont hp hw (ih h1)

theorem calls_walk {P : Addr → Option HAddr} {s : State} {a path} (h : Calls P s a path) :
    ∀ {n}, path.length ≤ n → walk P s n a = some path := by
  induction h with
  | @stop a hp =>
    intro n hn
    cases n with
    | zero => simp at hn
    | succ n => simp [walk, hp]
  | @cont a x a' path hp hw _ ih =>
    intro n hn
    cases n with
    | zero => simp at hn
    | succ n =>
      simp only [List.length_cons] at hn
      simp [walk, hp, hw, ih (n := n) (by omega)]

/-- The demo history: after tool B has wrapped foo, tool A wraps it too and the plugin is loaded.  A call
of foo from the application that overlaps both runs B's wrapper and libc's foo, possibly after A's. -/
example : ∃ s os tr s' os', run Demo.env (Demo.ops.take 2) Demo.proc.start = .ok (s, os) ∧
    runT Demo.env [.wrap [⟨nm "foo", 0x50c, 12⟩] (some Demo.A), .dlopen Demo.loadPlug] s =
      .ok (tr, (s', os')) ∧
    Safe Demo.P (fun path => path = [0x50a, 0x20004000] ∨ path = [0x50c, 0x50a, 0x20004000]) (s :: tr)
      (.slot (Demo.app.addr + 0x18)) := by
  have hq : Demo.after Demo.env (Demo.ops.take 2) Demo.proc.start
      (fun s => decide (walk Demo.P s 5 (s.mem 0x10000018) = some [0x50a, 0x20004000])) = true := by
    decide +kernel
  have hq' : Demo.after Demo.env (Demo.ops.take 4) Demo.proc.start
      (fun s => decide (walk Demo.P s 5 (s.mem 0x10000018) = some [0x50c, 0x50a, 0x20004000])) =
        true := by
    decide +kernel
  obtain ⟨s, os, hr, hq⟩ := Demo.after_run hq
  obtain ⟨s4, os4, hr4, hq4⟩ := Demo.after_run hq'
  replace hr : run Demo.proc.env (Demo.ops.take 2) Demo.proc.start = .ok (s, os) := hr
  have h4 : History Demo.proc True (Demo.ops.take 2 ++
      [.wrap [⟨nm "foo", 0x50c, 12⟩] (some Demo.A), .dlopen Demo.loadPlug]) :=
    Demo.prefix_history True 4
  have hreal2 : realAfter Demo.proc.env Demo.proc.libs (Demo.ops.take 2) (nm "foo") =
    some 0x20004000 := by decide +kernel
  have hreg2 : registered Demo.proc.env (Demo.ops.take 2) (nm "foo") =
    [⟨Demo.B, 0x50a, 10⟩] := by decide +kernel
  have hnm : nm "foo" ≠ nm "main" := by decide +kernel
  obtain ⟨tr, s', os', old, new, e1, e2, e3, e4, e5⟩ := C89_wrapped_before Demo.proc_ok h4 rfl hr
    (f := nm "foo") (r := 0x20004000)
    (by
      intro op hop hm
      simp only [List.mem_cons, List.not_mem_nil, or_false] at hop
      rcases hop with rfl | rfl
      · obtain ⟨u, hu, hn⟩ := hm
        simp only [tableOf, List.mem_singleton] at hu
        subst hu
        exact absurd hn hnm
      · obtain ⟨u, hu, hn⟩ := hm
        cases hu)
    (by
      intro op hop
      simp only [List.mem_cons, List.not_mem_nil, or_false] at hop
      rcases hop with rfl | rfl <;> simp [tableOf])
    (by decide) (l := Demo.app) (off := 0x18) Demo.slot_app
    (by show _ ∈ [Demo.app, Demo.libc]; simp) (by simp) (by rw [hreg2]; simp) hreal2
  have hs' : s' = s4 := by
    have : run Demo.proc.env (Demo.ops.take 2 ++
        [.wrap [⟨nm "foo", 0x50c, 12⟩] (some Demo.A), .dlopen Demo.loadPlug]) Demo.proc.start =
        .ok (s', os ++ os') := by
      rw [run_append_model, hr]
      simp only [bind, Except.bind, e2]
    exact congrArg Prod.fst (Except.ok.inj (this.symm.trans hr4))
  have hold : old = [0x50a, 0x20004000] := e3.det (walk_calls (of_decide_eq_true hq))
  have hnew : new = [0x50c, 0x50a, 0x20004000] := e4.det (by
    rw [hs']; exact walk_calls (of_decide_eq_true hq4))
  subst hold hnew
  refine ⟨s, os, tr, s', os', hr, e1, e5.mono ?_⟩
  rintro path ⟨g1, g2, -⟩
  have l1 := g1.length_le
  have l2 := g2.length_le
  simp only [List.length_cons, List.length_nil] at l1 l2
  by_cases hlen : path.length = 2
  · exact Or.inl (g1.eq_of_length (by simp [hlen])).symm
  · exact Or.inr (g2.eq_of_length (by simp only [List.length_cons, List.length_nil]; omega))

/-- The state at the end of a history is recorded last. -/
theorem runT_last {env : Env} (ops : List Op) : ∀ {s tr s' os}, ops ≠ [] →
    runT env ops s = .ok (tr, (s', os)) → [s'] <:+ tr := by
  induction ops with
  | nil => intro s tr s' os h; exact absurd rfl h
  | cons op ops ih =>
    intro s tr s' os _ h
    obtain ⟨t1, ⟨s1, o⟩, t2, c1, c2, rfl⟩ := ok_bind h
    obtain ⟨t3, _, t4, c3, c4, rfl⟩ := ok_bind c2
    obtain rfl := ok_tell c3
    obtain ⟨t5, ⟨s2, os2⟩, t6, c5, c6, rfl⟩ := ok_bind c4
    obtain ⟨rfl, c7⟩ := ok_pure c6
    simp only [Prod.mk.injEq] at c7
    obtain ⟨rfl, -⟩ := c7
    cases ops with
    | nil =>
      cases c5
      exact ⟨t1, by simp⟩
    | cons op2 ops =>
      obtain ⟨X, hX⟩ := ih (by simp) c5
      exact ⟨t1 ++ [s1] ++ X, by simp [← hX]⟩

/-- C89: more cannot be said.  Tool B has wrapped foo; then tool A, of higher priority, and tool M, of the
same priority as B, wrap it.  The calls made at any one moment of this run B, or A and B, or A, B and M.
A call that overlaps both may run B and M without A: it reads the GOT before A, and B's wrappee after M. -/
theorem C89_mixture : ∃ s os tr s' os',
    run Demo.env [.setPriority Demo.A 10, .wrap [⟨nm "foo", 0x50a, 10⟩] (some Demo.B)]
      Demo.proc.start = .ok (s, os) ∧
    runT Demo.env [.wrap [⟨nm "foo", 0x50c, 12⟩] (some Demo.A),
      .wrap [⟨nm "foo", 0x50d, 13⟩] (some Demo.M)] s = .ok (tr, (s', os')) ∧
    (∀ σ ∈ s :: tr, ¬ Calls Demo.P σ (σ.mem (Demo.app.addr + 0x18)) [0x50a, 0x50d, 0x20004000]) ∧
    ¬ Safe Demo.P (fun path => path ≠ [0x50a, 0x50d, 0x20004000]) (s :: tr)
      (.slot (Demo.app.addr + 0x18)) := by
  have hq : Demo.after Demo.env
      [.setPriority Demo.A 10, .wrap [⟨nm "foo", 0x50a, 10⟩] (some Demo.B)] Demo.proc.start
      (fun s => decide (s.mem 0x10000018 = 0x50a) &&
        match runT Demo.env [.wrap [⟨nm "foo", 0x50c, 12⟩] (some Demo.A),
          .wrap [⟨nm "foo", 0x50d, 13⟩] (some Demo.M)] s with
        | .ok (tr, (s', _)) => (s :: tr).all (fun σ =>
            decide (walk Demo.P σ 5 (σ.mem 0x10000018) ≠ some [0x50a, 0x50d, 0x20004000])) &&
            decide (walk Demo.P s' 5 0x50a = some [0x50a, 0x50d, 0x20004000])
        | .error _ => false) = true := by decide +kernel
  obtain ⟨s, os, hr, hq⟩ := Demo.after_run hq
  cases hw : runT Demo.env [.wrap [⟨nm "foo", 0x50c, 12⟩] (some Demo.A),
      .wrap [⟨nm "foo", 0x50d, 13⟩] (some Demo.M)] s with
  | error e => rw [hw] at hq; simp at hq
  | ok x =>
    obtain ⟨tr, s', os'⟩ := x
    rw [hw] at hq
    simp only [Bool.and_eq_true, decide_eq_true_eq, List.all_eq_true] at hq
    obtain ⟨h1, h2, h3⟩ := hq
    refine ⟨s, os, tr, s', os', hr, hw, ?_, ?_⟩
    · intro σ hσ hc
      exact h2 σ hσ (calls_walk hc (by decide))
    · intro hs
      cases hs with
      | step _ g =>
        have g1 := g s tr (.jump (s.mem (Demo.app.addr + 0x18)) []) (List.suffix_refl _) rfl
        rw [show s.mem (Demo.app.addr + 0x18) = 0x50a from h1] at g1
        obtain ⟨path, c1, c2⟩ := safe_finish g1 (σ := s') (tr' := [])
          ((runT_last _ (by simp) hw).trans (List.suffix_cons _ _))
        exact c2 (c1.det (walk_calls h3))

end Gotcha
