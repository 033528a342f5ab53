import Verif.Proof.Steps
import Verif.Props.Program
/-
C109: threads, and programs that run for ever.
-/
namespace Gotcha
open Spec

/-- C109: running a program to its end (C102) is running it step by step until it is about to return with
no caller left. -/
theorem C109_to_the_end {S V : Type} {M : Sem S} {code : Addr → V → Prog V} (s : S) (k : Prog V) (t : List V)
    (v : V) (s' : S) : Eval M code s k t v s' ↔ ∃ n,
      Sched M code s [⟨[], k⟩] (List.replicate n 0) (t.map (fun v => (0, v))) s' [⟨[], .ret v⟩] := by
  constructor
  · intro h
    exact eval_sched h []
  · rintro ⟨n, h⟩
    have := sched_back h rfl rfl
    simpa [List.map_map, Function.comp_def, EvalK] using this

/-- C109.  Take any number of threads, each in the midst of any program, and any schedule, finite but as
long as one likes.  If the threads, run by names over stacks of wrappers, get somewhere under that
schedule, then on the machine they get to the same place under it, with the same output in the same order,
whatever wrappers are added, libraries opened and closed by any of them meanwhile; and they get nowhere
else. -/
theorem C109_lockstep {p : Process} (ok : p.Ok) (good : Lib → Prop) :
    ∃ order : List Op → Name → List Frame,
      (∀ ops f, (order ops f).Perm (registered p.env ops f)) ∧
      (∀ ops, Settled ops → ∀ f,
        (order ops f).Pairwise (fun a b => prioOr b.tool ops ≤ prioOr a.tool ops)) ∧
      ∀ {V : Type} (code : Addr → V → Prog V) (ops : List Op) (ts : List (Thr V)) (σ : List Nat)
        (w : List (Nat × V)) (ops' : List Op) (ts' : List (Thr V)),
        Sched (ideal p good order) code ops ts σ w ops' ts' → HistoryFor p True good ops' →
        ∃ s os s' os', run p.env ops p.start = .ok (s, os) ∧ run p.env ops' p.start = .ok (s', os') ∧
          ∀ w' s'' ts'', Sched (machine p.env) code s ts σ w' s'' ts'' ↔ w' = w ∧ s'' = s' ∧ ts'' = ts' := by
  refine ⟨stackOf p, stackOf_perm p, fun ops hs f => stackOf_sorted p hs f, ?_⟩
  intro V code ops ts σ w ops' ts' he h'
  obtain ⟨s, hr, -⟩ := historyFor_run ok (history_prefix (sched_prefix he) h')
  obtain ⟨s', os', hr', hm⟩ := ideal_sched ok he h' hr
  exact ⟨s, _, s', os', hr, hr', fun w' s'' ts'' =>
    ⟨fun h' => sched_det hm h', fun e => by rw [e.1, e.2.1, e.2.2]; exact hm⟩⟩

/-- C109: runs without end.  If the threads, run by names over stacks of wrappers, go on for ever under
some schedule, then so they do on the machine, each step writing the same, and with the same in hand; the
states are those of the history so far.  A single thread that so goes on never ends. -/
theorem C109_never_ends {p : Process} (ok : p.Ok) (good : Lib → Prop) :
    ∃ order : List Op → Name → List Frame,
      (∀ ops f, (order ops f).Perm (registered p.env ops f)) ∧
      (∀ ops, Settled ops → ∀ f,
        (order ops f).Pairwise (fun a b => prioOr b.tool ops ≤ prioOr a.tool ops)) ∧
      ∀ {V : Type} (code : Addr → V → Prog V) (ops : Nat → List Op) (ts : Nat → List (Thr V))
        (who : Nat → Nat) (wrote : Nat → List V), Run (ideal p good order) code ops ts who wrote →
        (∀ n, HistoryFor p True good (ops n)) →
        ∃ st : Nat → State, (∀ n, ∃ os, run p.env (ops n) p.start = .ok (st n, os)) ∧
          Run (machine p.env) code st ts who wrote ∧
          ∀ k, ts 0 = [⟨[], k⟩] → ∀ t v s', ¬ Eval (machine p.env) code (st 0) k t v s' := by
  refine ⟨stackOf p, stackOf_perm p, fun ops hs f => stackOf_sorted p hs f, ?_⟩
  intro V code ops ts who wrote hi hh
  have hrun : ∀ n, ∃ s os, run p.env (ops n) p.start = .ok (s, os) := fun n => by
    obtain ⟨s, hr, -⟩ := historyFor_run ok (hh n)
    exact ⟨s, _, hr⟩
  choose st os hr using hrun
  have hm : Run (machine p.env) code st ts who wrote := ⟨fun n => by
    obtain ⟨t, t1, h1, h2, h3⟩ := hi.next n
    obtain ⟨s1, os1, e1, e2⟩ := ideal_turn ok h2 (hh (n + 1)) (hr n)
    rw [hr (n + 1)] at e1
    cases e1
    exact ⟨t, t1, h1, e2, h3⟩⟩
  refine ⟨st, fun n => ⟨os n, hr n⟩, hm, ?_⟩
  intro k hk t v s' he
  have hz : ∀ n, (ts n).length = 1 := by
    intro n
    induction n with
    | zero => rw [hk]; rfl
    | succ n ih =>
      obtain ⟨t, t1, -, -, h3⟩ := hm.next n
      rw [h3, List.length_set, ih]
  have hw : ∀ n, who n = 0 := by
    intro n
    obtain ⟨t, t1, h1, -, -⟩ := hm.next n
    have := (List.getElem?_eq_some_iff.1 h1).1
    have := hz n
    omega
  obtain ⟨n, hn⟩ := eval_sched he []
  have hs := run_sched hm n
  rw [hk, show (List.range n).map who = List.replicate n 0 by
    rw [List.eq_replicate_iff]
    simp [hw]] at hs
  obtain ⟨-, -, e⟩ := sched_det hn hs
  obtain ⟨t, t1, h1, h2, -⟩ := hm.next n
  rw [e, hw n] at h1
  cases h1
  cases h2

/-- C109: and the other way round.  Whatever the threads do on the machine under a schedule they do when
run by names over stacks of wrappers, up to the first step (if any) about which that says nothing, because
of a call through a slot or a handle it does not cover, or after which the events are no longer such a
history. -/
theorem C109_and_back {p : Process} (ok : p.Ok) (good : Lib → Prop) :
    ∃ order : List Op → Name → List Frame,
      (∀ ops f, (order ops f).Perm (registered p.env ops f)) ∧
      (∀ ops, Settled ops → ∀ f,
        (order ops f).Pairwise (fun a b => prioOr b.tool ops ≤ prioOr a.tool ops)) ∧
      ∀ {V : Type} (code : Addr → V → Prog V) (ops : List Op) (ts : List (Thr V)) (σ : List Nat)
        (w : List (Nat × V)) (s s' : State) (os : List Obs) (ts' : List (Thr V)),
        run p.env ops p.start = .ok (s, os) → Sched (machine p.env) code s ts σ w s' ts' →
        HistoryFor p True good ops →
        (∃ ops' os', Sched (ideal p good order) code ops ts σ w ops' ts' ∧ HistoryFor p True good ops' ∧
          run p.env ops' p.start = .ok (s', os')) ∨
        ∃ σ1 i σ2 w1 w2 ops1 ts1, σ = σ1 ++ i :: σ2 ∧ w = w1 ++ w2 ∧
          Sched (ideal p good order) code ops ts σ1 w1 ops1 ts1 ∧ HistoryFor p True good ops1 ∧
          (StuckAt (ideal p good order) code ops1 ts1 i ∨
            ∃ t o ops2 t1, ts1[i]? = some t ∧ Turn (ideal p good order) code ops1 t o ops2 t1 ∧
              ¬ HistoryFor p True good ops2) := by
  refine ⟨stackOf p, stackOf_perm p, fun ops hs f => stackOf_sorted p hs f, ?_⟩
  intro V code ops ts σ w s s' os ts' hr hm hh
  induction hm generalizing ops os with
  | nil => exact .inl ⟨ops, os, .nil, hh, hr⟩
  | @cons s ts i t o s1 t1 σ w s2 ts2 h1 h2 h3 ih =>
    by_cases hst : StuckAt (ideal p good (stackOf p)) code ops ts i
    · exact .inr ⟨[], i, σ, [], _, ops, ts, rfl, rfl, .nil, hh, .inl hst⟩
    · simp only [StuckAt, not_forall, not_not] at hst
      obtain ⟨t', ht', o', ops1, t1', hturn⟩ := hst
      rw [h1] at ht'
      cases ht'
      by_cases hh1 : HistoryFor p True good ops1
      · obtain ⟨s1', os1, e1, e2⟩ := ideal_turn ok hturn hh1 hr
        obtain ⟨rfl, rfl, rfl⟩ := turn_det h2 e2
        rcases ih ops1 os1 e1 hh1 with ⟨ops', os', g1, g2, g3⟩ |
          ⟨σ1, j, σ2, w1, w2, ops2, ts2, rfl, rfl, g1, g2, g3⟩
        · exact .inl ⟨ops', os', .cons h1 hturn g1, g2, g3⟩
        · exact .inr ⟨i :: σ1, j, σ2, _, w2, ops2, ts2, rfl, (List.append_assoc ..).symm,
            .cons h1 hturn g1, g2, g3⟩
      · exact .inr ⟨[], i, σ, [], _, ops, ts, rfl, rfl, .nil, hh, .inr ⟨t, o', ops1, t1', h1, hturn, hh1⟩⟩

namespace Demo

theorem order_foo {order : List Op → Name → List Frame}
    (hp : ∀ ops f, (order ops f).Perm (registered procB.env ops f))
    (hso : ∀ ops, Settled ops → ∀ f,
      (order ops f).Pairwise (fun a b => prioOr b.tool ops ≤ prioOr a.tool ops)) :
    order opsFoo (nm "foo") = [⟨A, 0x50c, 12⟩, ⟨B, 0x50a, 10⟩] := by
  have h1 : (order opsFoo (nm "foo")).Perm [⟨A, 0x50c, 12⟩, ⟨B, 0x50a, 10⟩] :=
    (hp _ (nm "foo")).trans (by rw [← stackB]; exact (stackOf_perm procB opsFoo (nm "foo")).symm)
  refine List.Perm.eq_of_pairwise (le := fun a b : Frame => prioOr b.tool opsFoo ≤ prioOr a.tool opsFoo)
    ?_ (hso _ settled_foo (nm "foo")) (by decide +kernel) h1
  intro a b ha hb h3 h4
  have ha' := h1.mem_iff.1 ha
  simp only [List.mem_cons, List.not_mem_nil, or_false] at ha' hb
  rcases ha' with rfl | rfl <;> rcases hb with rfl | rfl
  · rfl
  · exact absurd h4 (by decide +kernel)
  · exact absurd h3 (by decide +kernel)
  · rfl

/-- The priority of A, and foo wrapped by tool B. -/
def opsB : List Op := [.setPriority A 10, .wrap [⟨nm "foo", 0x50a, 10⟩] (some B)]

/-- Two threads: one calls foo(x) and writes the result, the other makes tool A wrap foo. -/
def twoThreads (x : Int) : List (Thr Int) :=
  [⟨[], .call (.slot app 0x18) x fun y => .out y (.ret y)⟩, ⟨[], .event wrapA fun _ => .ret 7⟩]

/-- The second thread wraps foo while the first is in the wrapper of B: that call goes on below it. -/
example (x : Int) : ∃ s os s' os', run env opsB procB.start = .ok (s, os) ∧
    run env opsFoo procB.start = .ok (s', os') ∧
    ∀ w s'' ts'', Sched (machine env) (codeB false) s (twoThreads x) [0, 1, 0, 0, 0, 0, 0, 0, 0] w s'' ts'' ↔
      w = [(0, x), (0, (x + 1) * (x + 1))] ∧ s'' = s' ∧
        ts'' = [⟨[], .ret ((x + 1) * (x + 1))⟩, ⟨[], .ret 7⟩] := by
  obtain ⟨order, hp, hso, ho⟩ := C109_lockstep procB_ok (fun _ => True)
  have hfoo := order_foo hp hso
  have hfoo2 : order opsB (nm "foo") = [⟨B, 0x50a, 10⟩] :=
    List.perm_singleton.1 ((hp _ (nm "foo")).trans (by decide +kernel))
  have hbar : order opsFoo (nm "bar") = [] := List.perm_nil.1 ((hp _ (nm "bar")).trans (by decide +kernel))
  have happ2 : app ∈ libsAfter procB.libs opsB ∧ True := ⟨by show _ ∈ [app, libc]; simp, trivial⟩
  have happ : app ∈ libsAfter procB.libs opsFoo ∧ True := ⟨by show _ ∈ [app, libc]; simp, trivial⟩
  have e0 : codeB false 0x20009000 x = .out x (.ret 0) := rfl
  have eB : codeB false 0x50a x = .call (.slot app 0x20) x fun _ => .call (.next 10) (x + 1) fun y =>
    if false = true ∧ x = 0 then .event wrapA fun _ => .ret y else .ret y := rfl
  have eF : codeB false 0x20004000 (x + 1) = .ret ((x + 1) * (x + 1)) := rfl
  refine ho (codeB false) opsB (twoThreads x) _ _ opsFoo _ ?_ historyB.for
  refine .cons (o := []) (s1 := opsB) rfl (.call (a := 0x50a) (.wrapped happ2 slot_app hfoo2)) ?_
  refine .cons (o := []) (s1 := opsFoo) rfl (.event ⟨foundB _ rfl _ _ _ (by decide +kernel), rfl⟩) ?_
  rw [eB]
  refine .cons (o := []) (s1 := opsFoo) rfl (.call (a := 0x20009000)
    (.plain happ slot_bar hbar (.start (by show _ ∈ [app, libc]; simp) (by simp [opsFoo]) bar_own))) ?_
  rw [e0]
  refine .cons (o := [x]) (s1 := opsFoo) rfl .out ?_
  refine .cons (o := []) (s1 := opsFoo) rfl .ret ?_
  refine .cons (o := []) (s1 := opsFoo) rfl (.call (a := 0x20004000)
    (.last (pre := [⟨A, 0x50c, 12⟩]) hfoo (by decide +kernel))) ?_
  rw [eF]
  refine .cons (o := []) (s1 := opsFoo) rfl .ret ?_
  rw [if_neg (by simp)]
  refine .cons (o := []) (s1 := opsFoo) rfl .ret ?_
  exact .cons (o := [(x + 1) * (x + 1)]) (w := []) (s1 := opsFoo) rfl .out .nil

/-- As `codeB`, and at 0x600 a loop that calls foo, writes the result and goes on with it. -/
def codeL (a : Addr) (x : Int) : Prog Int :=
  if a = 0x600 then .call (.slot app 0x18) x fun y => .out y (.call (.fixed 0x600) y .ret)
  else codeB false a x

/-- Where the loop can be. -/
inductive InLoop : Thr Int → Prop
  | start {K x} : InLoop ⟨K, codeL 0x600 x⟩
  | inA {K x} : InLoop ⟨(fun y => .out y (.call (.fixed 0x600) y .ret)) :: K, codeL 0x50c x⟩
  | inB {K x} : InLoop ⟨(fun y => .ret (2 * y)) :: (fun y => .out y (.call (.fixed 0x600) y .ret)) :: K,
      codeL 0x50a x⟩
  | bar {K} {x : Int} {z} : InLoop ⟨(fun _ => .call (.next 10) (x + 1) fun y =>
      if false = true ∧ x = 0 then .event wrapA fun _ => .ret y else .ret y) :: (fun y => .ret (2 * y)) ::
      (fun y => .out y (.call (.fixed 0x600) y .ret)) :: K, codeL 0x20009000 z⟩
  | bar' {K} {x : Int} {z} : InLoop ⟨(fun _ => .call (.next 10) (x + 1) fun y =>
      if false = true ∧ x = 0 then .event wrapA fun _ => .ret y else .ret y) :: (fun y => .ret (2 * y)) ::
      (fun y => .out y (.call (.fixed 0x600) y .ret)) :: K, .ret z⟩
  | inB' {K} {x : Int} : InLoop ⟨(fun y => .ret (2 * y)) :: (fun y => .out y (.call (.fixed 0x600) y .ret)) :: K,
      .call (.next 10) (x + 1) fun y =>
        if false = true ∧ x = 0 then .event wrapA fun _ => .ret y else .ret y⟩
  | foo {K} {x : Int} {z} : InLoop ⟨(fun y =>
      if false = true ∧ x = 0 then .event wrapA fun _ => .ret y else .ret y) :: (fun y => .ret (2 * y)) ::
      (fun y => .out y (.call (.fixed 0x600) y .ret)) :: K, .ret z⟩
  | inB'' {K z} : InLoop ⟨(fun y => .ret (2 * y)) :: (fun y => .out y (.call (.fixed 0x600) y .ret)) :: K,
      .ret z⟩
  | inA' {K z} : InLoop ⟨(fun y => .out y (.call (.fixed 0x600) y .ret)) :: K, .ret z⟩
  | out {K y} : InLoop ⟨K, .out y (.call (.fixed 0x600) y .ret)⟩
  | again {K y} : InLoop ⟨K, .call (.fixed 0x600) y .ret⟩

/-- Two threads that call foo for ever, under any schedule. -/
theorem loops {order : List Op → Name → List Frame}
    (hp : ∀ ops f, (order ops f).Perm (registered procB.env ops f))
    (hso : ∀ ops, Settled ops → ∀ f,
      (order ops f).Pairwise (fun a b => prioOr b.tool ops ≤ prioOr a.tool ops))
    {t : Thr Int} (ht : InLoop t) : ∃ o t1,
      Turn (ideal procB (fun _ => True) order) codeL opsFoo t o opsFoo t1 ∧ InLoop t1 := by
  have hfoo := order_foo hp hso
  have hbar : order opsFoo (nm "bar") = [] := List.perm_nil.1 ((hp _ (nm "bar")).trans (by decide +kernel))
  have happ : app ∈ libsAfter procB.libs opsFoo ∧ True := ⟨by show _ ∈ [app, libc]; simp, trivial⟩
  cases ht with
  | start => exact ⟨[], _, .call (a := 0x50c) (.wrapped happ slot_app hfoo), .inA⟩
  | inA => exact ⟨[], _, .call (a := 0x50a) (.next (pre := []) hfoo), .inB⟩
  | inB => exact ⟨[], _, .call (a := 0x20009000)
      (.plain happ slot_bar hbar (.start (by show _ ∈ [app, libc]; simp) (by simp [opsFoo]) bar_own)), .bar⟩
  | bar => exact ⟨_, _, .out, .bar'⟩
  | bar' => exact ⟨_, _, .ret, .inB'⟩
  | inB' => exact ⟨_, _, .call (a := 0x20004000)
      (.last (pre := [⟨A, 0x50c, 12⟩]) hfoo (by decide +kernel)), .foo⟩
  | foo => exact ⟨_, _, .ret, by rw [if_neg (by simp)]; exact .inB''⟩
  | inB'' => exact ⟨_, _, .ret, .inA'⟩
  | inA' => exact ⟨_, _, .ret, .out⟩
  | out => exact ⟨_, _, .out, .again⟩
  | again => exact ⟨_, _, .call .fixed, .start⟩

/-- Two threads that call foo for ever, on the machine, under any schedule; and one alone never ends. -/
example (who : Nat → Nat) (hw : ∀ n, who n < 2) (x y : Int) : ∃ st ts wrote, run env opsFoo procB.start =
      .ok (st 0, (Abs.run env opsFoo procB.abs).2) ∧
    ts 0 = [⟨[], codeL 0x600 x⟩, ⟨[], codeL 0x600 y⟩] ∧ Run (machine env) codeL st ts who wrote := by
  obtain ⟨order, hp, hso, ho⟩ := C109_never_ends procB_ok (fun _ => True)
  obtain ⟨ops, ts, wrote, h1, h2, h3, h4⟩ := run_of_inv (M := ideal procB (fun _ => True) order)
    (code := codeL) (fun s ts => s = opsFoo ∧ ts.length = 2 ∧ ∀ t ∈ ts, InLoop t) who (by
      rintro n s ts ⟨rfl, hl, hin⟩
      have hlt : who n < ts.length := by rw [hl]; exact hw n
      obtain ⟨o, t1, g1, g2⟩ := loops hp hso (hin _ (List.getElem_mem hlt))
      refine ⟨_, o, _, t1, List.getElem?_eq_getElem hlt, g1, rfl, by simpa using hl, ?_⟩
      intro t ht
      rcases List.mem_or_eq_of_mem_set ht with h | rfl
      · exact hin t h
      · exact g2)
    (s := opsFoo) (ts := [⟨[], codeL 0x600 x⟩, ⟨[], codeL 0x600 y⟩])
    ⟨rfl, rfl, by
      intro t ht
      simp only [List.mem_cons, List.not_mem_nil, or_false] at ht
      rcases ht with rfl | rfl
      · exact .start
      · exact .start⟩
  obtain ⟨st, g1, g2, -⟩ := ho codeL ops ts who wrote h1 (fun n => by rw [(h4 n).1]; exact historyB.for)
  obtain ⟨os, g0⟩ := g1 0
  rw [h2] at g0
  obtain ⟨s, hs, -⟩ := historyFor_run procB_ok historyB.for
  rw [hs] at g0
  cases g0
  exact ⟨st, ts, wrote, hs, h3, g2⟩

example (x : Int) : ∃ s os, run env opsFoo procB.start = .ok (s, os) ∧
    ∀ t v s', ¬ Eval (machine env) codeL s (codeL 0x600 x) t v s' := by
  obtain ⟨order, hp, hso, ho⟩ := C109_never_ends procB_ok (fun _ => True)
  obtain ⟨ops, ts, wrote, h1, h2, h3, h4⟩ := run_of_inv (M := ideal procB (fun _ => True) order)
    (code := codeL) (fun s ts => s = opsFoo ∧ ∃ t, ts = [t] ∧ InLoop t) (fun _ => 0) (by
      rintro n s ts ⟨rfl, t, rfl, hin⟩
      obtain ⟨o, t1, g1, g2⟩ := loops hp hso hin
      exact ⟨t, o, _, t1, rfl, g1, rfl, t1, rfl, g2⟩)
    (s := opsFoo) (ts := [⟨[], codeL 0x600 x⟩]) ⟨rfl, _, rfl, .start⟩
  obtain ⟨st, g1, -, g3⟩ := ho codeL ops ts _ wrote h1 (fun n => by rw [(h4 n).1]; exact historyB.for)
  obtain ⟨os, g0⟩ := g1 0
  rw [h2] at g0
  exact ⟨st 0, os, g0, g3 _ h3⟩

/-- The other way round, for the two threads: the run on the machine is one over stacks of wrappers. -/
example (x : Int) : ∃ s os, run env opsFoo procB.start = .ok (s, os) ∧
    Sched (machine env) (codeB false) s [⟨[], .out x (.ret 0)⟩] [0] [(0, x)] s [⟨[], .ret 0⟩] ∧
    HistoryFor procB True (fun _ => True) opsFoo := by
  obtain ⟨s, hs, -⟩ := historyFor_run procB_ok historyB.for
  exact ⟨s, _, hs, .cons (o := [x]) (w := []) rfl .out .nil, historyB.for⟩

end Demo

end Gotcha
