import Verif.Props.Program
import Verif.Props.Pointers
/-
C112: programs that keep function pointers and use dlsym.
-/
namespace Gotcha
open Spec

/-- What entering a stack of wrappers in the middle computes. -/
theorem inner_computes {p : Process} (ok : p.Ok) {good : Lib → Prop} {ops : List Op}
    (h : HistoryFor p True good ops) {s os} (hr : run p.env ops p.start = .ok (s, os)) {f : Name} {r : Addr}
    (hreal : realAfter p.env p.libs ops f = some r) (hr0 : r ≠ 0)
    (hw0 : ∀ fr ∈ registered p.env ops f, fr.wrapper ≠ 0) {V : Type} {code : Addr → V → Prog V}
    {W : Frame → (V → V) → V → V} {g : V → V} (hC : Computes (machine p.env) code s r g) (st : List Frame) :
    ∀ (pre : List Frame) (fr : Frame), stackOf p ops f = pre ++ fr :: st →
      (∀ x ∈ fr :: st, Turns (machine p.env) code s x (W x)) →
      Computes (machine p.env) code s fr.wrapper ((fr :: st).foldr W g) := by
  have him := ideal_machine ok h hr
  have hp := stackOf_perm p ops f
  induction st with
  | nil =>
    intro pre fr e hW
    exact hW fr (by simp) r g hr0 (him _ _ (.last e hreal)) hC
  | cons fr' st ih =>
    intro pre fr e hW
    refine hW fr (by simp) fr'.wrapper _ ?_ (him _ _ (.next e)) ?_
    · exact hw0 fr' (hp.mem_iff.1 (by rw [e]; simp))
    · exact ih (pre ++ [fr]) fr' (by rw [e]; simp) (fun x hx => hW x (List.mem_cons_of_mem _ hx))

/-- C112.  What a call through a pointer computes that was read from a slot for `f` after the history `ops` and is
called after any continuation.  A call of `f` through a slot then runs the wrappers `outer`, `top` and `inner`;
the pointer computes `top` and `inner`, outermost first, applied to the function, whatever the wrappers turn what
they wrap into.  `top` and `old` are the wrappers there were when the pointer was read, and `top` was the
outermost one; those of `old` are in `inner`, in the same order.  The object the pointer was read from may be
gone. -/
theorem C112_pointers_compute {p : Process} (ok : p.Ok) {good : Lib → Prop} {ops more : List Op}
    (h : HistoryFor p True good (ops ++ more)) {s os s' os'} (hr : run p.env ops p.start = .ok (s, os))
    (hr' : run p.env (ops ++ more) p.start = .ok (s', os')) {f : Name} (hne : registered p.env ops f ≠ [])
    {r : Addr} (hreal : realAfter p.env p.libs (ops ++ more) f = some r) (hr0 : r ≠ 0)
    (hw0 : ∀ fr ∈ registered p.env (ops ++ more) f, fr.wrapper ≠ 0) :
    ∃ (outer inner old : List Frame) (top : Frame),
      (outer ++ top :: inner).Perm (registered p.env (ops ++ more) f) ∧
      (Settled (ops ++ more) → (outer ++ top :: inner).Pairwise
        (fun a b => prioOr b.tool (ops ++ more) ≤ prioOr a.tool (ops ++ more))) ∧
      (top :: old).Perm (registered p.env ops f) ∧ old.Sublist inner ∧
      (Settled ops → ∀ b ∈ old, prioOr b.tool ops ≤ prioOr top.tool ops) ∧
      ∀ {V : Type} (code : Addr → V → Prog V) (W : Frame → (V → V) → V → V) (g : V → V),
        Computes (machine p.env) code s' r g →
        (∀ x ∈ top :: inner, Turns (machine p.env) code s' x (W x)) →
        (∀ l ∈ libsAfter p.libs ops, good l → ∀ off, (off, f) ∈ rlOf l →
          Computes (machine p.env) code s' (s.mem (l.addr + off)) ((top :: inner).foldr W g)) ∧
        ((∀ x ∈ outer, Turns (machine p.env) code s' x (W x)) →
          ∀ l ∈ libsAfter p.libs (ops ++ more), good l → ∀ off, (off, f) ∈ rlOf l →
          Computes (machine p.env) code s' (s'.mem (l.addr + off)) ((outer ++ top :: inner).foldr W g)) := by
  obtain ⟨fr, st, hst⟩ := stackOf_ne hne
  have hsub := stackOf_sublist p ops more f
  rw [hst] at hsub
  obtain ⟨X, Y, hXY, hY⟩ := sublist_split hsub
  refine ⟨X, Y, st, fr, ?_, ?_, ?_, hY, ?_, ?_⟩
  · rw [← hXY]; exact stackOf_perm p _ f
  · intro hs; rw [← hXY]; exact stackOf_sorted p hs f
  · rw [← hst]; exact stackOf_perm p ops f
  · intro hs
    have := stackOf_sorted p hs f
    rw [hst] at this
    exact (List.pairwise_cons.1 this).1
  · intro V code W g hC hW
    constructor
    · intro l hl hg off hoff
      have hs : (machine p.env).goto s (.slot l off) fr.wrapper :=
        ideal_machine ok h.prefix hr _ _ (.wrapped ⟨hl, hg⟩ hoff hst)
      simp only [machine] at hs
      rw [← hs]
      exact inner_computes ok h hr' hreal hr0 hw0 hC Y X fr hXY hW
    · intro hX l hl hg off hoff
      have hall : ∀ x ∈ X ++ fr :: Y, Turns (machine p.env) code s' x (W x) := by
        intro x hx
        rcases List.mem_append.1 hx with hx | hx
        · exact hX x hx
        · exact hW x hx
      cases e : X ++ fr :: Y with
      | nil => simp at e
      | cons a as =>
        have hs : (machine p.env).goto s' (.slot l off) a.wrapper :=
          ideal_machine ok h hr' _ _ (.wrapped ⟨hl, hg⟩ hoff (hXY.trans e))
        simp only [machine] at hs
        rw [← hs]
        exact inner_computes ok h hr' hreal hr0 hw0 hC as [] a (hXY.trans e) (by rw [← e]; exact hall)

/-! ### dlsym -/

theorem look_call {env : Env} {V : Type} {code : Addr → V → Prog V} {s : State} {c : Callee} {a : Addr}
    (hc : (machine env).goto s c a) (x : V) (k : V → Prog V) (t v s') :
    Eval (machine env) code s (.look c fun b => .call (.fixed b) x k) t v s' ↔
      Eval (machine env) code s (.call (.fixed a) x k) t v s' := by
  constructor
  · intro he
    cases he with
    | look h1 h2 =>
      cases machine_goto_det hc h1
      exact h2
  · exact fun he => .look hc he

theorem call_fixed {env : Env} {V : Type} {code : Addr → V → Prog V} {s : State} {c : Callee} {a : Addr}
    (hc : (machine env).goto s c a) (x : V) (k : V → Prog V) (t v s') :
    Eval (machine env) code s (.call c x k) t v s' ↔
      Eval (machine env) code s (.call (.fixed a) x k) t v s' := by
  constructor
  · intro he
    cases he with
    | call h1 h2 h3 =>
      cases machine_goto_det hc h1
      exact .call rfl h2 h3
  · intro he
    cases he with
    | call h1 h2 h3 => cases h1; exact .call hc h2 h3

/-- C112: dlsym for a function that one tool wraps.  If the C library finds the function that the tool wraps, or
nothing, then calling what dlsym returns is the same as calling `f` through a slot, for every program. -/
theorem C112_dlsym_like_a_slot {p : Process} (ok : p.Ok) {good : Lib → Prop} {ops : List Op}
    (h : HistoryFor p True good ops) {s os} (hr : run p.env ops p.start = .ok (s, os)) (hd : HasDl p ops)
    {f : Name} {fr : Frame} (hone : registered p.env ops f = [fr]) {r : Addr}
    (hreal : realAfter p.env p.libs ops f = some r) (dl : List Lib → RealDl) (hnd : DlHandle) (who : Addr)
    (hfind : (dl (libsAfter p.libs ops)).dlsym hnd f = r ∨ (dl (libsAfter p.libs ops)).dlsym hnd f = 0)
    {l : Lib} (hl : l ∈ libsAfter p.libs ops) (hg : good l) {off : Addr} (hoff : (off, f) ∈ rlOf l)
    {V : Type} (code : Addr → V → Prog V) (x : V) (k : V → Prog V) (t v s') :
    Eval (machine p.env) code s (.look (.sym dl hnd f who) fun a => .call (.fixed a) x k) t v s' ↔
      Eval (machine p.env) code s (.call (.slot l off) x k) t v s' := by
  have hst : stackOf p ops f = [fr] := List.perm_singleton.1 (hone ▸ stackOf_perm p ops f)
  have h1 : (machine p.env).goto s (.sym dl hnd f who) fr.wrapper := by
    refine ideal_machine ok h hr _ _ (.sym ?_)
    rcases hfind with e | e
    · exact .sole hd hst (by rw [e]; exact hreal)
    · exact .missing hd hst e
  have h2 : (machine p.env).goto s (.slot l off) fr.wrapper :=
    ideal_machine ok h hr _ _ (.wrapped ⟨hl, hg⟩ hoff hst)
  rw [look_call h1, call_fixed h2]

/-- C112: dlsym for a function that two or more tools wrap.  If the C library finds the function itself, then
calling what dlsym returns is calling the function without any wrapper, for every program. -/
theorem C112_dlsym_past_the_wrappers {p : Process} (ok : p.Ok) {good : Lib → Prop} {ops : List Op}
    (h : HistoryFor p True good ops) {s os} (hr : run p.env ops p.start = .ok (s, os)) (hd : HasDl p ops)
    {f : Name} (htwo : 2 ≤ (registered p.env ops f).length) (dl : List Lib → RealDl) (n : Nat) (who : Addr)
    {r : Addr} (hfind : (dl (libsAfter p.libs ops)).dlsym (.other n) f = r) (hr0 : r ≠ 0)
    (hw : ∀ fr ∈ registered p.env ops f, fr.wrapper ≠ r)
    {V : Type} (code : Addr → V → Prog V) (x : V) (k : V → Prog V) (t v s') :
    Eval (machine p.env) code s (.look (.sym dl (.other n) f who) fun a => .call (.fixed a) x k) t v s' ↔
      Eval (machine p.env) code s (.call (.fixed r) x k) t v s' := by
  have hp := stackOf_perm p ops f
  obtain ⟨a, b, st, hst⟩ : ∃ a b st, stackOf p ops f = a :: b :: st := by
    rw [← hp.length_eq] at htwo
    match stackOf p ops f, htwo with
    | a :: b :: st, _ => exact ⟨a, b, st, rfl⟩
  refine look_call (ideal_machine ok h hr _ _ (.sym ?_)) x k t v s'
  subst hfind
  exact .notSecond hd hst hr0 (fun e => hw b (hp.mem_iff.1 (by rw [hst]; simp)) e.symm)

/-- C112: dlsym for a function nobody wraps, with an ordinary handle: what the C library finds. -/
theorem C112_dlsym_unwrapped {p : Process} (ok : p.Ok) {good : Lib → Prop} {ops : List Op}
    (h : HistoryFor p True good ops) {s os} (hr : run p.env ops p.start = .ok (s, os))
    (hd : ops.any isApi = true → HasDl p ops) {f : Name} (hnone : registered p.env ops f = [])
    (dl : List Lib → RealDl) (n : Nat) (who : Addr)
    {V : Type} (code : Addr → V → Prog V) (k : Addr → Prog V) (t v s') :
    Eval (machine p.env) code s (.look (.sym dl (.other n) f who) k) t v s' ↔
      Eval (machine p.env) code s (k ((dl (libsAfter p.libs ops)).dlsym (.other n) f)) t v s' := by
  have hst : stackOf p ops f = [] := List.perm_nil.1 (hnone ▸ stackOf_perm p ops f)
  have h1 : (machine p.env).goto s (.sym dl (.other n) f who)
      ((dl (libsAfter p.libs ops)).dlsym (.other n) f) := by
    refine ideal_machine ok h hr _ _ (.sym ?_)
    cases e : ops.any isApi with
    | false => exact .early e
    | true => exact .plain (hd e) e hst
  constructor
  · intro he
    cases he with
    | look h2 h3 => cases machine_goto_det h1 h2; exact h3
  · exact fun he => .look h1 he

namespace Demo

/-- The plugin, with its slot for foo bound when it is loaded. -/
def loadP : Load :=
  { libs := [plug], mem := fun a => if a = 0x30000018 then some 0x20004000 else none, wr := fun _ => none }

theorem loadP_ok : LoadsOk procB True procB.seen [app, libc] loadP where
  objs := (loadPlug_ok True).objs
  nd := (loadPlug_ok True).nd
  again := (loadPlug_ok True).again
  placed := (loadPlug_ok True).placed
  old := (loadPlug_ok True).old
  cover := (loadPlug_ok True).cover
  cons := (loadPlug_ok True).cons
  keep := by
    intro _ l hl s hs
    simp only [List.mem_cons, List.not_mem_nil, or_false] at hl
    rcases hl with rfl | rfl
    · rw [rl_app] at hs
      simp only [List.mem_cons, List.not_mem_nil, or_false] at hs
      rcases hs with rfl | rfl | rfl | rfl <;> decide +kernel
    · rw [rl_libc] at hs; cases hs

/-- The plugin is loaded, and then tool B wraps foo. -/
def opsP : List Op := [.dlopen loadP, .setPriority A 10, .wrap [⟨nm "foo", 0x50a, 10⟩] (some B)]

theorem dlopen_def3 : firstDef (env.vdsoOf [app, libc, plug]) [app, libc, plug] (nm "dlopen") ≠ none := by
  decide +kernel

theorem historyP : History procB True opsP where
  honest :=
    { nodup := by decide +kernel
      prog := by
        intro u hu
        simp only [opsP, List.flatMap_cons, List.flatMap_nil, tableOf, List.nil_append, List.append_nil,
          List.mem_cons, List.not_mem_nil, or_false] at hu
        rcases hu with rfl
        decide
      own := envOk }
  loader := ⟨loadP_ok, fun _ => dlopen_def3, fun h => (by cases h), trivial⟩
  cons := fun _ => cons proc_ok.objs
  filter := by intro _ f hf; simp [opsP] at hf
  main := by
    intro _
    refine mainAlone_of ⟨trivial, trivial, ?_, trivial⟩
    intro h
    exact absurd h (notMain (by decide +kernel))
  short := fun _ => by decide

/-- The C library's dlsym finds libc's foo. -/
def dlP (_ : List Lib) : RealDl := ⟨fun _ _ => 0x20004000, fun _ => .other 0⟩

/-- Loads the plugin and keeps a pointer to foo read from its slot, wraps foo as tool B, asks dlsym for foo, and
calls foo(x) through the old pointer and then through the new one. -/
def progP (x : Int) : Prog Int :=
  .event (.dlopen loadP) fun _ => .look (.slot plug 0x18) fun early => .event (.setPriority A 10) fun _ =>
    .event (.wrap [⟨nm "foo", 0x50a, 10⟩] (some B)) fun _ => .look (.sym dlP (.other 1) (nm "foo") 0) fun late =>
      .call (.fixed early) x fun y => .call (.fixed late) x fun z => .ret (z - y)

theorem foundP : Answered procB [.dlopen loadP, .setPriority A 10] (.wrap [⟨nm "foo", 0x50a, 10⟩] (some B))
    (.ret .success) := by
  refine .found ?_
  rintro ⟨l1, u, l2, e, -, -, h3⟩
  have hu : u = ⟨nm "foo", 0x50a, 10⟩ := by
    have : u ∈ [(⟨nm "foo", 0x50a, 10⟩ : UBinding)] := by rw [e]; simp
    simpa using this
  subst hu
  rcases h3 libc (by show _ ∈ [app, libc, plug]; simp) with h4 | h4
  · exact absurd h4 (by decide +kernel)
  · exact absurd h4 (show exportsAt libc (nm "foo") ≠ none by decide +kernel)

theorem hasDlP : HasDl procB opsP := ⟨by decide +kernel, by decide +kernel⟩

/-- The old pointer runs foo alone, the new one runs the wrapper: progP writes x and its result is
(x + 1)² - x². -/
example (x : Int) : ∃ s', ∀ t v s'', Eval (machine env) (codeB false) procB.start (progP x) t v s'' ↔
    t = [x] ∧ v = (x + 1) * (x + 1) - x * x ∧ s'' = s' := by
  obtain ⟨order, hp, hso, ho⟩ := C102_programs_see_the_stacks procB_ok (fun _ => True)
  have hfoo0 : order [.dlopen loadP] (nm "foo") = [] :=
    List.perm_nil.1 ((hp _ (nm "foo")).trans (by decide +kernel))
  have hfoo : order opsP (nm "foo") = [⟨B, 0x50a, 10⟩] :=
    List.perm_singleton.1 ((hp _ (nm "foo")).trans (by decide +kernel))
  have hbar : order opsP (nm "bar") = [] := List.perm_nil.1 ((hp _ (nm "bar")).trans (by decide +kernel))
  have happ : app ∈ libsAfter procB.libs opsP ∧ True := ⟨by show _ ∈ [app, libc, plug]; simp, trivial⟩
  have hplug : plug ∈ libsAfter procB.libs [.dlopen loadP] ∧ True :=
    ⟨by show _ ∈ [app, libc, plug]; simp, trivial⟩
  have e0 : ∀ x, codeB false 0x20009000 x = .out x (.ret 0) := fun _ => rfl
  have eB : ∀ x, codeB false 0x50a x = .call (.slot app 0x20) x fun _ => .call (.next 10) (x + 1) fun y =>
    if false = true ∧ x = 0 then .event wrapA fun _ => .ret y else .ret y := fun _ => rfl
  have eF : ∀ x, codeB false 0x20004000 x = .ret (x * x) := fun _ => rfl
  obtain ⟨s, os, s', os', hr, -, hm⟩ := ho (codeB false) [] (progP x) [x] ((x + 1) * (x + 1) - x * x) opsP (by
    refine .event ⟨.dlopen, rfl⟩ (.look (a := 0x20004000) (.plain hplug slot_plug hfoo0
      (.loaded (pre := []) (.inl rfl) (by simp [loadP]) rfl (by simp) foo_own)) ?_)
    refine .event ⟨.set, rfl⟩ (.event ⟨foundP, rfl⟩ (.look (a := 0x50a)
      (.sym (.sole hasDlP hfoo (by decide +kernel))) ?_))
    refine Eval.call (t1 := []) (t2 := [x]) (a := 0x20004000) (w := x * x) (s1 := opsP) .fixed ?_ ?_
    · rw [eF]; exact .ret
    refine Eval.call (t1 := [x]) (t2 := []) (a := 0x50a) (w := (x + 1) * (x + 1)) (s1 := opsP) .fixed ?_ .ret
    rw [eB]
    refine Eval.call (t1 := [x]) (t2 := []) (a := 0x20009000) (w := 0) (s1 := opsP)
      (.plain happ slot_bar hbar (.start (by show _ ∈ [app, libc]; simp) (by simp [opsP]) bar_own)) ?_ ?_
    · rw [e0]; exact .out .ret
    refine Eval.call (t1 := []) (t2 := []) (a := 0x20004000) (w := (x + 1) * (x + 1)) (s1 := opsP)
      (.last (pre := []) (r := 0x20004000) hfoo (by decide +kernel)) ?_ ?_
    · rw [eF]; exact .ret
    · rw [if_neg (by simp)]; exact .ret) historyP.for
  cases hr
  exact ⟨s', hm⟩

/-- With one tool on foo, for every program. -/
example : ∃ s os, run env opsP procB.start = .ok (s, os) ∧ ∀ (x : Int) (k : Int → Prog Int) t v s',
    Eval (machine env) (codeB false) s (.look (.sym dlP .next (nm "foo") 0) fun a => .call (.fixed a) x k) t v s' ↔
      Eval (machine env) (codeB false) s (.call (.slot plug 0x18) x k) t v s' := by
  obtain ⟨s, h, -⟩ := history_run procB_ok historyP
  exact ⟨s, _, h, fun x k t v s' => C112_dlsym_like_a_slot procB_ok historyP.for h hasDlP
    (fr := ⟨B, 0x50a, 10⟩) (by decide +kernel) (r := 0x20004000) (by decide +kernel) dlP _ _ (.inl rfl)
    (l := plug) (by show _ ∈ [app, libc, plug]; simp) trivial slot_plug (codeB false) x k t v s'⟩

/-- With two tools on foo, for every program. -/
example : ∃ s os, run env opsFoo procB.start = .ok (s, os) ∧ ∀ (x : Int) (k : Int → Prog Int) t v s',
    Eval (machine env) (codeB false) s (.look (.sym dlP (.other 1) (nm "foo") 0) fun a => .call (.fixed a) x k)
        t v s' ↔
      Eval (machine env) (codeB false) s (.call (.fixed 0x20004000) x k) t v s' := by
  obtain ⟨s, h, -⟩ := history_run procB_ok historyB
  exact ⟨s, _, h, fun x k t v s' => C112_dlsym_past_the_wrappers procB_ok historyB.for h
    ⟨by decide +kernel, by decide +kernel⟩ (by decide +kernel) dlP 1 0 rfl (by decide) (by decide +kernel)
    (codeB false) x k t v s'⟩

/-- A name that nobody wraps, before GOTCHA is used and after. -/
example : ∀ ops ∈ [[], opsP], ∃ s os, run env ops procB.start = .ok (s, os) ∧ ∀ (k : Addr → Prog Int) t v s',
    Eval (machine env) (codeB false) s (.look (.sym dlP (.other 1) (nm "baz") 0) k) t v s' ↔
      Eval (machine env) (codeB false) s (k 0x20004000) t v s' := by
  intro ops ho
  have hh : History procB True ops := by
    simp only [List.mem_cons, List.not_mem_nil, or_false] at ho
    rcases ho with rfl | rfl
    · exact History.prefix (post := opsP) historyP
    · exact historyP
  obtain ⟨s, h, -⟩ := history_run procB_ok hh
  refine ⟨s, _, h, fun k t v s' => C112_dlsym_unwrapped procB_ok hh.for h ?_ ?_ dlP 1 0 (codeB false) k t v s'⟩
  all_goals
    simp only [List.mem_cons, List.not_mem_nil, or_false] at ho
    rcases ho with rfl | rfl
  · exact fun e => absurd e (by decide)
  · exact fun _ => hasDlP
  · decide +kernel
  · decide +kernel

/-- A pointer to foo read when only tool B had wrapped it. -/
example : ∃ s os s' os', run env [.setPriority A 10, .wrap [⟨nm "foo", 0x50a, 10⟩] (some B)] procB.start = .ok (s, os) ∧
    run env opsFoo procB.start = .ok (s', os') ∧
    Computes (machine env) (codeB false) s' (s.mem (app.addr + 0x18)) (fun x => (x + 1) * (x + 1)) := by
  have hh : History procB True ([.setPriority A 10, .wrap [⟨nm "foo", 0x50a, 10⟩] (some B)] ++ [wrapA]) := historyB
  obtain ⟨s, h, -⟩ := history_run procB_ok hh.prefix
  obtain ⟨s', h', -⟩ := history_run procB_ok hh
  refine ⟨s, _, s', _, h, h', ?_⟩
  obtain ⟨outer, inner, old, top, h1, h2, h3, -, -, h4⟩ := C112_pointers_compute procB_ok hh.for h h'
    (f := nm "foo") (by decide +kernel) (r := 0x20004000) (by decide +kernel) (by decide) (by decide +kernel)
  have h3' := List.perm_singleton.1 (h3.trans (l₃ := [⟨B, 0x50a, 10⟩]) (by decide +kernel))
  obtain ⟨rfl, rfl⟩ := List.cons.inj h3'
  have hord : outer ++ (⟨B, 0x50a, 10⟩ : Frame) :: inner = [⟨A, 0x50c, 12⟩, ⟨B, 0x50a, 10⟩] := by
    have g1 : (outer ++ (⟨B, 0x50a, 10⟩ : Frame) :: inner).Perm [⟨A, 0x50c, 12⟩, ⟨B, 0x50a, 10⟩] :=
      h1.trans (by rw [← stackB]; exact (stackOf_perm procB opsFoo (nm "foo")).symm)
    refine List.Perm.eq_of_pairwise (le := fun a b : Frame => prioOr b.tool opsFoo ≤ prioOr a.tool opsFoo)
      ?_ (h2 settled_foo) (by decide +kernel) g1
    intro a b ha hb g3 g4
    have ha' := g1.mem_iff.1 ha
    simp only [List.mem_cons, List.not_mem_nil, or_false] at ha' hb
    rcases ha' with rfl | rfl <;> rcases hb with rfl | rfl
    · rfl
    · exact absurd g4 (by decide +kernel)
    · exact absurd g3 (by decide +kernel)
    · rfl
  have hin : inner = [] := by
    cases outer with
    | nil => exact absurd (List.cons.inj hord).1 (by decide +kernel)
    | cons a as =>
      have := (List.cons.inj hord).2
      cases as with
      | nil => exact (List.cons.inj this).2
      | cons b bs => exact absurd (List.cons.inj this).2 (by simp)
  subst hin
  have him := ideal_machine procB_ok hh.for h'
  have hbar : (machine env).goto s' (.slot app 0x20) 0x20009000 := by
    refine him _ _ (.plain ⟨by show _ ∈ [app, libc]; simp, trivial⟩ slot_bar ?_
      (.start (by show _ ∈ [app, libc]; simp) (by simp [wrapA]) bar_own))
    exact List.perm_nil.1 ((stackOf_perm procB opsFoo (nm "bar")).trans (by decide +kernel))
  refine (h4 (codeB false) (fun _ g x => g (x + 1)) (fun x => x * x) ?_ ?_).1 app
    (by show _ ∈ [app, libc]; simp) trivial _ slot_app
  · intro x; exact ⟨[], .ret⟩
  · intro fr hfr a g _ hn hg x
    simp only [List.mem_cons, List.not_mem_nil, or_false] at hfr
    subst hfr
    obtain ⟨t, ht⟩ := hg (x + 1)
    refine ⟨[x] ++ (t ++ []), ?_⟩
    exact Eval.call hbar (.out .ret) (Eval.call hn ht (by rw [if_neg (by simp)]; exact .ret))

end Demo

/-- C112: once a function is wrapped, a program that calls it through a pointer it has had all along should get
what it gets through a slot. -/
theorem C112_early_pointer_refuted :
    ¬ ∀ (p : Process), p.Ok → ∀ ops more, History p True (ops ++ more) → ∀ s os s' os',
      run p.env ops p.start = .ok (s, os) → run p.env (ops ++ more) p.start = .ok (s', os') →
      ∀ f r, registered p.env (ops ++ more) f ≠ [] → realAfter p.env p.libs (ops ++ more) f = some r →
      ∀ l ∈ libsAfter p.libs ops, l ∈ libsAfter p.libs (ops ++ more) → ∀ off, (off, f) ∈ rlOf l →
      ∀ (code : Addr → Int → Prog Int) x t v,
        Eval (machine p.env) code s' (.call (.slot l off) x .ret) t v s' →
        Eval (machine p.env) code s' (.call (.fixed (s.mem (l.addr + off))) x .ret) t v s' := by
  intro hc
  have hh : History Demo.procB True ([.dlopen Demo.loadP] ++
      [.setPriority Demo.A 10, .wrap [⟨nm "foo", 0x50a, 10⟩] (some Demo.B)]) := Demo.historyP
  obtain ⟨s, h, -⟩ := history_run Demo.procB_ok hh.prefix
  obtain ⟨s', h', -⟩ := history_run Demo.procB_ok hh
  have him := ideal_machine Demo.procB_ok hh.for h'
  have him0 := ideal_machine Demo.procB_ok hh.prefix.for h
  have hst : stackOf Demo.procB Demo.opsP (nm "foo") = [⟨Demo.B, 0x50a, 10⟩] := by decide +kernel
  have hplug : Demo.plug ∈ libsAfter Demo.procB.libs Demo.opsP ∧ True :=
    ⟨by show _ ∈ [Demo.app, Demo.libc, Demo.plug]; simp, trivial⟩
  have g1 : (machine Demo.env).goto s' (.slot Demo.plug 0x18) 0x50a :=
    him _ _ (.wrapped hplug Demo.slot_plug hst)
  have g2 : (machine Demo.env).goto s' (.next 10) 0x20004000 := him _ _ (.last (pre := []) hst (by decide +kernel))
  have g0 : (machine Demo.env).goto s (.slot Demo.plug 0x18) 0x20004000 :=
    him0 _ _ (.plain ⟨by show _ ∈ [Demo.app, Demo.libc, Demo.plug]; simp, trivial⟩ Demo.slot_plug
      (by decide +kernel) (.loaded (pre := []) (.inl rfl) (by simp [Demo.loadP]) rfl (by simp) Demo.foo_own))
  let code : Addr → Int → Prog Int := fun a x =>
    if a = 0x50a then .call (.next 10) (x + 1) .ret else if a = 0x20004000 then .ret (x * x) else .undef
  have key := hc Demo.procB Demo.procB_ok _ _ hh s _ s' _ h h' (nm "foo") 0x20004000 (by decide +kernel)
    (by decide +kernel) Demo.plug (by show _ ∈ [Demo.app, Demo.libc, Demo.plug]; simp) hplug.1 0x18
    Demo.slot_plug code 0 [] 1
    (Eval.call (t1 := []) (t2 := []) (w := 1) g1 (Eval.call (t1 := []) (t2 := []) (w := 1) g2 .ret .ret) .ret)
  have e : s.mem (Demo.plug.addr + 0x18) = 0x20004000 := Eq.symm g0
  rw [e] at key
  have k2 : Eval (machine Demo.procB.env) code s' (.call (.fixed 0x20004000) 0 .ret) ([] ++ []) 0 s' :=
    Eval.call rfl .ret .ret
  have := (machine_det k2 key).2.1
  exact absurd this (by decide)

end Gotcha
