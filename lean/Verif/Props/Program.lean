import Verif.Proof.Program
import Verif.Model.Minimal
import Verif.Demo.Minimal
import Verif.Demo.Versions
/-
C102: what programs compute.
-/
namespace Gotcha
open Spec

/-- C102.  Take any history and any program, whatever the functions and wrappers in it do: it may call
functions through the slots of the loaded libraries (wrapped ones and others), wrappers may call the
function they wrap any number of times, with other arguments, or not at all, call other functions that
are wrapped, and themselves; and any of them may use GOTCHA and open and close libraries.  If the program,
run by names over stacks of wrappers, ends with some output and result, then on the machine it does so,
with no other output or result, and the state it leaves is that of the history with the program's events.
The stacks of a history are its registrations, in order of priority once priorities are settled. -/
theorem C102_programs_see_the_stacks {p : Process} (ok : p.Ok) (good : Lib → Prop) :
    ∃ order : List Op → Name → List Frame,
      (∀ ops f, (order ops f).Perm (registered p.env ops f)) ∧
      (∀ ops, Settled ops → ∀ f,
        (order ops f).Pairwise (fun a b => prioOr b.tool ops ≤ prioOr a.tool ops)) ∧
      ∀ {V : Type} (code : Addr → V → Prog V) (ops : List Op) (k : Prog V) (t : List V) (v : V)
        (ops' : List Op), Eval (ideal p good order) code ops k t v ops' → HistoryFor p True good ops' →
        ∃ s os s' os', run p.env ops p.start = .ok (s, os) ∧ run p.env ops' p.start = .ok (s', os') ∧
          ∀ t' v' s'', Eval (machine p.env) code s k t' v' s'' ↔ t' = t ∧ v' = v ∧ s'' = s' := by
  refine ⟨stackOf p, stackOf_perm p, fun ops hs f => stackOf_sorted p hs f, ?_⟩
  intro V code ops k t v ops' he h'
  have h : HistoryFor p True good ops := by
    obtain ⟨c, rfl⟩ := ideal_prefix he
    exact h'.prefix
  obtain ⟨s, hr, -⟩ := historyFor_run ok h
  obtain ⟨s', os', hr', hm⟩ := ideal_eval ok he h' hr
  exact ⟨s, _, s', os', hr, hr', fun t' v' s'' =>
    ⟨fun h' => machine_det hm h', fun e => by rw [e.1, e.2.1, e.2.2]; exact hm⟩⟩

/-- C102: wrappers compose.  If the function computes `g` and each wrapper of it turns what it wraps, call
it `g'`, into `W g'`, then what a call through a slot computes is the wrappers, outermost first, applied
to `g`. -/
theorem C102_wrappers_compose {p : Process} (ok : p.Ok) {good : Lib → Prop} {ops : List Op}
    (h : HistoryFor p True good ops) {s os} (hr : run p.env ops p.start = .ok (s, os)) {f : Name}
    (hne : registered p.env ops f ≠ []) {r : Addr} (hreal : realAfter p.env p.libs ops f = some r)
    (hr0 : r ≠ 0) (hw0 : ∀ fr ∈ registered p.env ops f, fr.wrapper ≠ 0) :
    ∃ order : List Frame, order.Perm (registered p.env ops f) ∧
      (Settled ops → order.Pairwise (fun a b => prioOr b.tool ops ≤ prioOr a.tool ops)) ∧
      ∀ l ∈ libsAfter p.libs ops, good l → ∀ off, (off, f) ∈ rlOf l →
      ∀ {V : Type} (code : Addr → V → Prog V) (W : Frame → (V → V) → V → V) (g : V → V),
        (∀ fr ∈ order, Turns (machine p.env) code s fr (W fr)) → Computes (machine p.env) code s r g →
        Computes (machine p.env) code s (s.mem (l.addr + off)) (order.foldr W g) := by
  refine ⟨stackOf p ops f, stackOf_perm p ops f, fun hs => stackOf_sorted p hs f, ?_⟩
  intro l hl hg off hoff V code W g hW hC
  have hp := stackOf_perm p ops f
  obtain ⟨fr, st, e⟩ : ∃ fr st, stackOf p ops f = fr :: st := by
    cases e : stackOf p ops f with
    | nil => rw [e] at hp; exact absurd (List.nil_perm.1 hp) hne
    | cons fr st => exact ⟨fr, st, rfl⟩
  have him := ideal_machine ok h hr
  have hs : (machine p.env).goto s (.slot l off) fr.wrapper := him _ _ (.wrapped ⟨hl, hg⟩ hoff e)
  simp only [machine] at hs
  rw [← hs]
  have key : ∀ (st pre : List Frame) (fr : Frame), stackOf p ops f = pre ++ fr :: st →
      Computes (machine p.env) code s fr.wrapper ((fr :: st).foldr W g) := by
    intro st
    induction st with
    | nil =>
      intro pre fr e
      exact hW fr (by rw [e]; simp) r g hr0 (him _ _ (.last e hreal)) hC
    | cons fr' st ih =>
      intro pre fr e
      refine hW fr (by rw [e]; simp) fr'.wrapper _ ?_ (him _ _ (.next e)) ?_
      · exact hw0 fr' (hp.mem_iff.1 (by rw [e]; simp))
      · exact ih (pre ++ [fr]) fr' (by rw [e]; simp)
  rw [e]
  exact key st [] fr e

/-- The stack of `retX` in the minimal example. -/
theorem minimal_stack {p : Process} {ops : List Op} {dog : Addr} {hd : HAddr}
    (hi : Minimal.sampleInit dog hd ∈ ops) (hone : (clientFrames ops (nm "retX")).length = 1) :
    stackOf p ops (nm "retX") = [⟨nm "gotcha_internal_sample_tool", dog, hd⟩] := by
  have hown : nm "retX" ∉ ownNames := by decide +kernel
  have hfr : clientFrames ops (nm "retX") =
      [⟨nm "gotcha_internal_sample_tool", dog, hd⟩] := by
    have hm : (⟨nm "gotcha_internal_sample_tool", dog, hd⟩ : Frame) ∈ clientFrames ops (nm "retX") := by
      refine List.mem_flatMap.2 ⟨_, hi, ?_⟩
      simp [Minimal.sampleInit, Minimal.bindings, frame, toolName]
    obtain ⟨a, e⟩ := List.length_eq_one_iff.1 hone
    rw [e] at hm ⊢
    rw [List.mem_singleton.1 hm]
  have := stackOf_perm p ops (nm "retX")
  rw [registered_client _ _ hown, hfr] at this
  exact List.perm_singleton.1 this

/-- C102: the minimal example.  Once sample_init has wrapped retX and nobody else wraps it, a call of retX
through a slot writes its argument and returns one more, whatever the int, but for INT_MAX, where the
wrapper does something undefined. -/
theorem C102_minimal_example {p : Process} (ok : p.Ok) {good : Lib → Prop} {ops : List Op}
    (h : HistoryFor p True good ops) {s os} (hr : run p.env ops p.start = .ok (s, os)) {dog : Addr}
    {hd : HAddr} (hi : Minimal.sampleInit dog hd ∈ ops)
    (hone : (clientFrames ops (nm "retX")).length = 1) {r : Addr}
    (hreal : realAfter p.env p.libs ops (nm "retX") = some r) (hr0 : r ≠ 0)
    {code : Addr → Int → Prog Int} (hcr : code r = Minimal.retX) (hcd : code dog = Minimal.dogRetX hd)
    {l : Lib} (hl : l ∈ libsAfter p.libs ops) (hg : good l) {off : Addr}
    (hoff : (off, nm "retX") ∈ rlOf l) :
    (∀ x : Int, x < 2147483647 → ∀ t v s',
      Eval (machine p.env) code s (code (s.mem (l.addr + off)) x) t v s' ↔
        t = [x] ∧ v = x + 1 ∧ s' = s) ∧
    ∀ t v s', ¬ Eval (machine p.env) code s (code (s.mem (l.addr + off)) 2147483647) t v s' := by
  have hst := minimal_stack (p := p) hi hone
  have him := ideal_machine ok h hr
  have hs : (machine p.env).goto s (.slot l off) dog := him _ _ (.wrapped ⟨hl, hg⟩ hoff hst)
  have hn : (machine p.env).goto s (.next hd) r := him _ _ (.last (pre := []) hst hreal)
  have hmem : s.mem (l.addr + off) = dog := hs.symm
  have one : ∀ x : Int, x < 2147483647 → Eval (machine p.env) code s (code dog x) [x] (x + 1) s := by
    intro x hx
    rw [hcd]
    refine .out (.other hn hr0 ?_)
    have := Eval.call (code := code) (arg := x) (k := fun y => if y < 2147483647 then .ret (y + 1) else .undef)
      (t1 := []) (w := x) (t2 := []) (v := x + 1) hn (by rw [hcr]; exact .ret)
      (by simp only [if_pos hx]; exact .ret)
    exact this
  rw [hmem]
  refine ⟨fun x hx t v s' => ⟨fun he => machine_det (one x hx) he, ?_⟩, ?_⟩
  · rintro ⟨rfl, rfl, rfl⟩; exact one x hx
  · intro t v s' he
    rw [hcd] at he
    cases he with
    | out he =>
      cases he with
      | null h1 _ => exact hr0 (machine_goto_det hn h1)
      | other _ _ he =>
        cases he with
        | call h1 h2 h3 =>
          obtain rfl := machine_goto_det hn h1
          rw [hcr] at h2
          cases h2
          simp only [Int.lt_irrefl, if_false] at h3
          cases h3

/-- C102: the wrapper of the minimal example when the function it wraps is NULL, in any state: it does not call it,
writes its argument and returns 0. -/
theorem C102_minimal_null_wrappee (env : Env) {s : State} {hd : HAddr} (hn : s.getWrappee hd = .ok 0)
    (code : Addr → Int → Prog Int) (x : Int) (t : List Int) (v : Int) (s' : State) :
    Eval (machine env) code s (Minimal.dogRetX hd x) t v s' ↔ t = [x] ∧ v = 0 ∧ s' = s := by
  have one : Eval (machine env) code s (Minimal.dogRetX hd x) [x] 0 s := .out (.null hn .ret)
  refine ⟨fun he => machine_det one he, ?_⟩
  rintro ⟨rfl, rfl, rfl⟩
  exact one

/-- Not vacuous: a binding whose wrappee is NULL. -/
example : ({ Demo.proc.start with
    binds := [⟨0, ⟨nm "retX", 0x50a, 10⟩, none, some 0⟩]
    handles := fun h => if h = 10 then some 0 else none } : State).getWrappee 10 = .ok 0 := by decide +kernel

/-- C102: the program of the minimal example, in whatever process and after whatever went before, writes 9
and ends with 0, its assert passes. -/
theorem C102_minimal_main {p : Process} (ok : p.Ok) {good : Lib → Prop} {ops : List Op} {dog : Addr}
    {hd : HAddr} (h : HistoryFor p True good (ops ++ [Minimal.sampleInit dog hd]))
    {s os} (hr : run p.env ops p.start = .ok (s, os)) (hone : clientFrames ops (nm "retX") = []) {r : Addr}
    (hreal : realAfter p.env p.libs (ops ++ [Minimal.sampleInit dog hd]) (nm "retX") = some r) (hr0 : r ≠ 0)
    {code : Addr → Int → Prog Int} (hcr : code r = Minimal.retX) (hcd : code dog = Minimal.dogRetX hd)
    {l : Lib} (hl : l ∈ libsAfter p.libs ops) (hg : good l) {off : Addr}
    (hoff : (off, nm "retX") ∈ rlOf l) :
    ∃ s', ∀ t v s'', Eval (machine p.env) code s (Minimal.main dog hd l off) t v s'' ↔
      t = [9] ∧ v = 0 ∧ s'' = s' := by
  obtain ⟨s', hr', -⟩ := historyFor_run ok h
  obtain ⟨s0, os0, o, e1, e2, -⟩ := run_last hr'
  rw [hr] at e1
  cases e1
  have h9 := (C102_minimal_example ok h hr' (dog := dog) (hd := hd) (by simp)
    (by
      have : clientFrames (ops ++ [Minimal.sampleInit dog hd]) (nm "retX") =
          clientFrames ops (nm "retX") ++ clientFrames [Minimal.sampleInit dog hd] (nm "retX") := by
        simp [clientFrames]
      rw [this, hone]
      simp [clientFrames, Minimal.sampleInit, Minimal.bindings])
    hreal hr0 hcr hcd (l := l) (by rw [libsAfter_snoc]; exact hl) hg hoff).1 9 (by omega)
  have := (h9 [9] 10 s').2 ⟨rfl, rfl, rfl⟩
  have main : Eval (machine p.env) code s (Minimal.main dog hd l off) ([9] ++ []) 0 s' :=
    .event e2 (.call rfl this (by rw [if_pos rfl]; exact .ret))
  exact ⟨s', fun t v s'' => ⟨fun he => machine_det main he, fun e => by rw [e.1, e.2.1, e.2.2]; exact main⟩⟩

namespace Demo

/-- The minimal example, in a process of three objects. -/
example : ∀ code : Addr → Int → Prog Int,
    code 0x50004000 = Minimal.retX → code 0x50a = Minimal.dogRetX 10 →
    ∃ s', ∀ t v s'', Eval (machine env) code procM.start (Minimal.main 0x50a 10 mprog 0x18) t v s'' ↔
      t = [9] ∧ v = 0 ∧ s'' = s' := by
  intro code h1 h2
  exact C102_minimal_main procM_ok (ops := []) historyM.for (s := procM.start) (os := []) rfl rfl
    (r := 0x50004000) (by decide +kernel) (by decide) h1 h2 (l := mprog)
    (by show _ ∈ [mprog, msample, libc]; simp) trivial (by rw [rl_mprog]; simp)

/-- The demo process with bar of the application bound to 0x20009000. -/
def procB : Process := { proc with mem := fun a => if a = 0x10000020 then 0x20009000 else 0 }

theorem procB_ok : procB.Ok :=
  ⟨proc_ok.world, proc_ok.objs, proc_ok.nd, proc_ok.placed, proc_ok.cover, proc_ok.ne⟩

theorem historyB : History procB True opsFoo :=
  ⟨⟨history_foo.loader, history_foo.cons, history_foo.filter, history_foo.main, history_foo.short⟩,
    history_foo.honest⟩

/-- The table of tool A. -/
def wrapA : Op := .wrap [⟨nm "foo", 0x50c, 12⟩] (some A)

/-- foo squares; the wrapper of tool A doubles, the one of tool B, below it, passes on one more than its
argument, and if `late` then it makes tool A wrap foo when its argument is 0; bar, which nobody wraps,
writes its argument. -/
def codeB (late : Bool) (a : Addr) (x : Int) : Prog Int :=
  if a = 0x20004000 then .ret (x * x)
  else if a = 0x50c then .call (.next 12) x fun y => .ret (2 * y)
  else if a = 0x50a then .call (.slot app 0x20) x fun _ => .call (.next 10) (x + 1) fun y =>
    if late = true ∧ x = 0 then .event wrapA fun _ => .ret y else .ret y
  else if a = 0x20009000 then .out x (.ret 0)
  else .undef

/-- Sets the priority of A, wraps foo as tool B, and when told that this went well calls foo(0), and then
foo(x). -/
def progB (x : Int) : Prog Int :=
  .event (.setPriority A 10) fun _ => .event (.wrap [⟨nm "foo", 0x50a, 10⟩] (some B)) fun o =>
    match o with
    | .ret .success => .call (.slot app 0x18) 0 fun y => .call (.slot app 0x18) x fun z => .ret (y + z)
    | _ => .undef

theorem stackB : stackOf procB opsFoo (nm "foo") = [⟨A, 0x50c, 12⟩, ⟨B, 0x50a, 10⟩] := by decide +kernel

theorem foundB (ops : List Op) (hl : libsAfter procB.libs ops = [app, libc]) (w : Addr) (h : HAddr)
    (t : Name) (hv : vdsoAfter env procB.libs (ops ++ [.wrap [⟨nm "foo", w, h⟩] (some t)]) ≠ some libc.lm) :
    Answered procB ops (.wrap [⟨nm "foo", w, h⟩] (some t)) (.ret .success) := by
  refine .found ?_
  rintro ⟨l1, u, l2, e, -, -, h3⟩
  have hu : u = ⟨nm "foo", w, h⟩ := by
    have : u ∈ [(⟨nm "foo", w, h⟩ : UBinding)] := by rw [e]; simp
    simpa using this
  subst hu
  rcases h3 libc (by rw [hl]; simp) with h4 | h4
  · exact hv h4
  · exact absurd h4 (show exportsAt libc (nm "foo") ≠ none by decide +kernel)

/-- progB writes 0 and x, and its result is 1 + 2 * (x + 1)²: the second call finds the wrapper of A above
the one of B. -/
example (x : Int) (hx : x ≠ 0) : ∃ s', ∀ t v s'',
    Eval (machine env) (codeB true) procB.start (progB x) t v s'' ↔
      t = [0, x] ∧ v = 1 + 2 * ((x + 1) * (x + 1)) ∧ s'' = s' := by
  obtain ⟨order, hp, hso, ho⟩ := C102_programs_see_the_stacks procB_ok (fun _ => True)
  have hfoo : order opsFoo (nm "foo") = [⟨A, 0x50c, 12⟩, ⟨B, 0x50a, 10⟩] := by
    have h1 : (order opsFoo (nm "foo")).Perm [⟨A, 0x50c, 12⟩, ⟨B, 0x50a, 10⟩] :=
      (hp _ (nm "foo")).trans (by rw [← stackB]; exact (stackOf_perm procB opsFoo (nm "foo")).symm)
    have h2 := hso _ settled_foo (nm "foo")
    refine List.Perm.eq_of_pairwise (le := fun a b : Frame => prioOr b.tool opsFoo ≤ prioOr a.tool opsFoo)
      ?_ h2 (by decide +kernel) h1
    intro a b ha hb h3 h4
    have ha' := h1.mem_iff.1 ha
    simp only [List.mem_cons, List.not_mem_nil, or_false] at ha' hb
    rcases ha' with rfl | rfl <;> rcases hb with rfl | rfl
    · rfl
    · exact absurd h4 (by decide +kernel)
    · exact absurd h3 (by decide +kernel)
    · rfl
  let ops2 : List Op := [.setPriority A 10, .wrap [⟨nm "foo", 0x50a, 10⟩] (some B)]
  have hfoo2 : order ops2 (nm "foo") = [⟨B, 0x50a, 10⟩] :=
    List.perm_singleton.1 ((hp _ (nm "foo")).trans (by decide +kernel))
  have hbar2 : order ops2 (nm "bar") = [] := List.perm_nil.1 ((hp _ (nm "bar")).trans (by decide +kernel))
  have hbar : order opsFoo (nm "bar") = [] := List.perm_nil.1 ((hp _ (nm "bar")).trans (by decide +kernel))
  have happ2 : app ∈ libsAfter procB.libs ops2 ∧ True := ⟨by show _ ∈ [app, libc]; simp, trivial⟩
  have happ : app ∈ libsAfter procB.libs opsFoo ∧ True := ⟨by show _ ∈ [app, libc]; simp, trivial⟩
  have e0 : ∀ x, codeB true 0x20009000 x = .out x (.ret 0) := fun _ => rfl
  have eB : ∀ x, codeB true 0x50a x = .call (.slot app 0x20) x fun _ => .call (.next 10) (x + 1) fun y =>
    if true = true ∧ x = 0 then .event wrapA fun _ => .ret y else .ret y := fun _ => rfl
  have eA : codeB true 0x50c x = .call (.next 12) x fun y => .ret (2 * y) := rfl
  have eF : ∀ x, codeB true 0x20004000 x = .ret (x * x) := fun _ => rfl
  obtain ⟨s, os, s', os', hr, -, hm⟩ := ho (codeB true) [] (progB x) [0, x] (1 + 2 * ((x + 1) * (x + 1)))
    opsFoo (by
      refine .event ⟨.set, rfl⟩ (.event ⟨foundB _ rfl _ _ _ (by decide +kernel), rfl⟩ ?_)
      refine Eval.call (t1 := [0]) (t2 := [x]) (a := 0x50a) (w := 1) (s1 := opsFoo)
        (.wrapped happ2 slot_app hfoo2) ?_ ?_
      · rw [eB]
        refine Eval.call (t1 := [0]) (t2 := []) (a := 0x20009000) (w := 0) (s1 := ops2)
          (.plain happ2 slot_bar hbar2 (.start (by show _ ∈ [app, libc]; simp) (by simp) bar_own)) ?_ ?_
        · rw [e0]; exact .out .ret
        · refine Eval.call (t1 := []) (t2 := []) (a := 0x20004000) (w := 1) (s1 := ops2)
            (.last (pre := []) (r := 0x20004000) hfoo2 (by decide +kernel)) ?_ ?_
          · rw [eF]; exact .ret
          · rw [if_pos ⟨rfl, rfl⟩]
            exact .event ⟨foundB _ rfl _ _ _ (by decide +kernel), rfl⟩ .ret
      refine Eval.call (t1 := [x]) (t2 := []) (a := 0x50c) (w := 2 * ((x + 1) * (x + 1))) (s1 := opsFoo)
        (.wrapped happ slot_app hfoo) ?_ .ret
      rw [eA]
      refine Eval.call (t1 := [x]) (t2 := []) (a := 0x50a) (.next (pre := []) hfoo) ?_ .ret
      rw [eB]
      refine Eval.call (t1 := [x]) (t2 := []) (a := 0x20009000) (w := 0) (s1 := opsFoo)
        (.plain happ slot_bar hbar (.start (by show _ ∈ [app, libc]; simp) (by simp [opsFoo]) bar_own)) ?_ ?_
      · rw [e0]; exact .out .ret
      · refine Eval.call (t1 := []) (t2 := []) (a := 0x20004000) (w := (x + 1) * (x + 1)) (s1 := opsFoo)
          (.last (pre := [⟨A, 0x50c, 12⟩]) (r := 0x20004000) hfoo (by decide +kernel)) ?_ ?_
        · rw [eF]; exact .ret
        · rw [if_neg (fun h => hx h.2)]; exact .ret) historyB.for
  cases hr
  exact ⟨s', hm⟩

/-- What a call of foo computes, by composition. -/
example : ∃ s os, run env opsFoo procB.start = .ok (s, os) ∧
    Computes (machine env) (codeB false) s (s.mem (app.addr + 0x18)) (fun x => 2 * ((x + 1) * (x + 1))) := by
  obtain ⟨s, h, -⟩ := history_run procB_ok historyB
  refine ⟨s, _, h, ?_⟩
  have him := ideal_machine procB_ok historyB.for h
  obtain ⟨order, hp, hso, ho⟩ := C102_wrappers_compose procB_ok historyB.for h (f := nm "foo")
    (by decide +kernel) (r := 0x20004000) (by decide +kernel) (by decide) (by decide +kernel)
  have hfoo : order = [⟨A, 0x50c, 12⟩, ⟨B, 0x50a, 10⟩] := by
    have h1 : order.Perm [⟨A, 0x50c, 12⟩, ⟨B, 0x50a, 10⟩] :=
      hp.trans (by rw [← stackB]; exact (stackOf_perm procB opsFoo (nm "foo")).symm)
    refine List.Perm.eq_of_pairwise (le := fun a b : Frame => prioOr b.tool opsFoo ≤ prioOr a.tool opsFoo)
      ?_ (hso settled_foo) (by decide +kernel) h1
    intro a b ha hb h3 h4
    have ha' := h1.mem_iff.1 ha
    simp only [List.mem_cons, List.not_mem_nil, or_false] at ha' hb
    rcases ha' with rfl | rfl <;> rcases hb with rfl | rfl
    · rfl
    · exact absurd h4 (by decide +kernel)
    · exact absurd h3 (by decide +kernel)
    · rfl
  subst hfoo
  have hbar : (machine env).goto s (.slot app 0x20) 0x20009000 := by
    refine him _ _ (.plain ⟨by show _ ∈ [app, libc]; simp, trivial⟩ slot_bar ?_
      (.start (by show _ ∈ [app, libc]; simp) (by simp [opsFoo]) bar_own))
    exact List.perm_nil.1 ((stackOf_perm procB opsFoo (nm "bar")).trans (by decide +kernel))
  have e : (fun x : Int => 2 * ((x + 1) * (x + 1))) = [(⟨A, 0x50c, 12⟩ : Frame), ⟨B, 0x50a, 10⟩].foldr
      (fun fr g x => if fr.tool = A then 2 * g x else g (x + 1)) (fun x => x * x) := by
    funext x
    rw [List.foldr_cons, List.foldr_cons, List.foldr_nil, if_pos rfl, if_neg (by decide +kernel)]
  rw [e]
  refine ho app (by show _ ∈ [app, libc]; simp) trivial _ slot_app (codeB false) _ _ ?_ ?_
  · intro fr hfr a g _ hn hg x
    simp only [List.mem_cons, List.not_mem_nil, or_false] at hfr
    rcases hfr with rfl | rfl
    · obtain ⟨t, ht⟩ := hg x
      refine ⟨t ++ [], ?_⟩
      beta_reduce
      rw [if_pos rfl]
      exact Eval.call hn ht .ret
    · obtain ⟨t, ht⟩ := hg (x + 1)
      refine ⟨[x] ++ (t ++ []), ?_⟩
      beta_reduce
      rw [if_neg (by decide +kernel)]
      exact Eval.call hbar (w := 0) (.out .ret) (Eval.call hn ht .ret)
  · intro x
    exact ⟨[], .ret⟩

end Demo

end Gotcha
