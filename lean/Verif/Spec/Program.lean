import Verif.Spec.Calls
import Verif.Spec.Real
import Verif.Spec.Effects
/-
Programs that compute: functions with arguments, results and output, which call other functions through
the slots of their library, through gotcha_get_wrappee, and directly, and which use GOTCHA while they run.
What they compute is defined twice over the same rules: on the machine, where calls go to the address found
in memory and GOTCHA's code runs, and ideally, where calls go to functions by name, wrappers are stacked,
and the state is the list of events so far.
-/
namespace Gotcha.Spec
open Gotcha

/-- What is called: the function a slot (`off` in library `l`) refers to, the function
gotcha_get_wrappee(*h) returns, the function dlsym(hnd, f) returns when called from the address `who` (`dl` is
what the C library's own dlsym and dlopen return, depending on what is loaded), or a fixed function. -/
inductive Callee where
  | slot (l : Lib) (off : Addr)
  | next (h : HAddr)
  | sym (dl : List Lib → RealDl) (hnd : DlHandle) (f : Name) (who : Addr)
  | fixed (a : Addr)

/-- The body of a function: it returns a value, writes output, tests whether gotcha_get_wrappee(*h) is
NULL, calls something and goes on with the result, takes the address of something and goes on with that (to
call it at any later time, or to pass it on), calls GOTCHA or dlopen or dlclose, or does something undefined. -/
inductive Prog (V : Type) where
  | ret (v : V)
  | out (v : V) (k : Prog V)
  | test (h : HAddr) (null other : Prog V)
  | call (c : Callee) (arg : V) (k : V → Prog V)
  | look (c : Callee) (k : Addr → Prog V)
  | event (op : Op) (k : Obs → Prog V)
  | undef

/-- Going on with `c` instead of returning. -/
def Prog.andThen {V : Type} (c : V → Prog V) : Prog V → Prog V
  | .ret v => c v
  | .out v k => .out v (k.andThen c)
  | .test h k k' => .test h (k.andThen c) (k'.andThen c)
  | .call f x k => .call f x fun v => (k v).andThen c
  | .look f k => .look f fun a => (k a).andThen c
  | .event op k => .event op fun o => (k o).andThen c
  | .undef => .undef

/-- Where calls go in a state, and what an event returns and does. -/
structure Sem (S : Type) where
  goto : S → Callee → Addr → Prop
  step : S → Op → Obs → S → Prop

/-- Running a body to its end: output, result and state.  `code` is what the function at an address does. -/
inductive Eval {S V : Type} (M : Sem S) (code : Addr → V → Prog V) : S → Prog V → List V → V → S → Prop
  | ret {s v} : Eval M code s (.ret v) [] v s
  | out {s x k t v s'} : Eval M code s k t v s' → Eval M code s (.out x k) (x :: t) v s'
  | null {s h k k' t v s'} : M.goto s (.next h) 0 → Eval M code s k t v s' →
      Eval M code s (.test h k k') t v s'
  | other {s h k k' t v s' a} : M.goto s (.next h) a → a ≠ 0 → Eval M code s k' t v s' →
      Eval M code s (.test h k k') t v s'
  | call {s c arg k a t1 w s1 t2 v s2} : M.goto s c a → Eval M code s (code a arg) t1 w s1 →
      Eval M code s1 (k w) t2 v s2 → Eval M code s (.call c arg k) (t1 ++ t2) v s2
  | look {s c k a t v s'} : M.goto s c a → Eval M code s (k a) t v s' → Eval M code s (.look c k) t v s'
  | event {s op k o s1 t v s2} : M.step s op o s1 → Eval M code s1 (k o) t v s2 →
      Eval M code s (.event op k) t v s2

/-- The machine: calls go where memory and the handles say, events are GOTCHA's code and the loader.  Simplified:
dlsym is GOTCHA's once GOTCHA has been used, without looking at the slot it is called through (which C01 is
about). -/
def machine (env : Env) : Sem State where
  goto s
    | .slot l off, a => a = s.mem (l.addr + off)
    | .next h, a => s.getWrappee h = .ok a
    | .sym dl hnd f who, a =>
      if s.inited then dlsymWrapper env (dl s.linkMap) hnd f who s = .ok (s, a)
      else a = (dl s.linkMap).dlsym hnd f
    | .fixed b, a => a = b
  step s op o s' := stepOp env op s = .ok (s', o)

/-- Ideal targets: `order f` are the wrappers of `f`, outermost first, `real f` the function itself, and
`bound l off f` what the loader has bound a slot for `f` to.  A call through a slot for a function that is
wrapped goes to the outermost wrapper; one for a function that is not goes where the loader says; from a
wrapper gotcha_get_wrappee leads to the next wrapper, and from the innermost one to the function.  `sym` is
what dlsym finds, and `kept` tells about slots GOTCHA has not touched lately. -/
inductive Ideal (libs : Lib → Prop) (order : Name → List Frame) (real : Name → Option Addr)
    (bound : Lib → Addr → Name → Addr → Prop) (sym : RealDl → DlHandle → Name → Addr → Addr → Prop)
    (dlibs : List Lib) (kept : Lib → Addr → Addr → Prop) : Callee → Addr → Prop
  | wrapped {l off f fr st} : libs l → (off, f) ∈ rlOf l → order f = fr :: st →
      Ideal libs order real bound sym dlibs kept (.slot l off) fr.wrapper
  | plain {l off f a} : libs l → (off, f) ∈ rlOf l → order f = [] → bound l off f a →
      Ideal libs order real bound sym dlibs kept (.slot l off) a
  | kept {l off a} : kept l off a → Ideal libs order real bound sym dlibs kept (.slot l off) a
  | next {f pre fr fr' post} : order f = pre ++ fr :: fr' :: post →
      Ideal libs order real bound sym dlibs kept (.next fr.handle) fr'.wrapper
  | last {f pre fr r} : order f = pre ++ [fr] → real f = some r →
      Ideal libs order real bound sym dlibs kept (.next fr.handle) r
  | sym {dl hnd f who a} : sym (dl dlibs) hnd f who a →
      Ideal libs order real bound sym dlibs kept (.sym dl hnd f who) a
  | fixed {a} : Ideal libs order real bound sym dlibs kept (.fixed a) a

/-- What the loader has bound a slot to, for a function GOTCHA does not wrap itself: the word that was there at
the start, if the object was, or that was written when it was loaded, as long as it is not unloaded. -/
inductive BoundTo (p : Process) : List Op → Lib → Addr → Name → Addr → Prop
  | start {ops l off f} : l ∈ p.libs → (∀ dead, Op.unload dead ∈ ops → dead l.lm = false) → f ∉ ownNames →
      BoundTo p ops l off f (p.mem (l.addr + off))
  | loaded {pre op ld post l off f a} : op = .dlopen ld ∨ op = .load ld → l ∈ ld.libs →
      ld.mem (l.addr + off) = some a → (∀ dead, Op.unload dead ∈ post → dead l.lm = false) → f ∉ ownNames →
      BoundTo p (pre ++ op :: post) l off f a

/-- From the events `pre` on, in `post`, the word at `a` is a slot of no object that the filter in force lets
through, and loading does not write it. -/
def LeftAlone (p : Process) (pre post : List Op) (a : Addr) : Prop :=
  ∀ m1 op m2, post = m1 ++ op :: m2 →
    (∀ l, Admitted (filterAfter (pre ++ m1 ++ [op])) (libsAfter p.libs (pre ++ m1 ++ [op])) l →
      ∀ q ∈ rlOf l, a ≠ l.addr + q.1) ∧
    ∀ ld, op = .dlopen ld ∨ op = .load ld → ld.mem a = none

/-- Slots of an object that was treated well (the filters let it pass, GOTCHA saw it loaded) up to some event
and has been kept out by filters since then: a call goes where it went then, to the wrapper that was outermost
at that time, or if there was none, where the loader had bound it. -/
inductive Kept (p : Process) (order : List Op → Name → List Frame) (ops : List Op) : Lib → Addr → Addr → Prop
  | wrapped {good pre post l off f fr st} : ops = pre ++ post → HistoryFor p True good pre →
      l ∈ libsAfter p.libs pre → good l → (off, f) ∈ rlOf l → order pre f = fr :: st →
      LeftAlone p pre post (l.addr + off) → Kept p order ops l off fr.wrapper
  | plain {good pre post l off f a} : ops = pre ++ post → HistoryFor p True good pre →
      l ∈ libsAfter p.libs pre → good l → (off, f) ∈ rlOf l → order pre f = [] → BoundTo p pre l off f a →
      LeftAlone p pre post (l.addr + off) → Kept p order ops l off a

/-- What dlsym finds, called from `who` after the events `ops`; `real` is the C library's own dlsym (and dlopen).
Before GOTCHA is used that is it.  A function with wrappers is replaced by its outermost wrapper if the C
library finds nothing, or if it finds what that wrapper wraps; otherwise what the C library finds is returned,
which with more than one wrapper is the function itself (C17).  For a function without wrappers GOTCHA adds
nothing, except that it does the search of RTLD_NEXT itself (C19). -/
inductive Found (p : Process) (ops : List Op) (order : Name → List Frame) (real : RealDl) :
    DlHandle → Name → Addr → Addr → Prop
  | early {h f who} : ops.any isApi = false → Found p ops order real h f who (real.dlsym h f)
  | missing {h f who fr st} : HasDl p ops → order f = fr :: st → real.dlsym h f = 0 →
      Found p ops order real h f who fr.wrapper
  | sole {h f who fr} : HasDl p ops → order f = [fr] → realAfter p.env p.libs ops f = some (real.dlsym h f) →
      Found p ops order real h f who fr.wrapper
  | second {h f who fr fr' st} : HasDl p ops → order f = fr :: fr' :: st → real.dlsym h f = fr'.wrapper →
      Found p ops order real h f who fr.wrapper
  | notSole {n f who fr r} : HasDl p ops → order f = [fr] → realAfter p.env p.libs ops f = some r →
      real.dlsym (.other n) f ≠ 0 → real.dlsym (.other n) f ≠ r →
      Found p ops order real (.other n) f who (real.dlsym (.other n) f)
  | notSecond {n f who fr fr' st} : HasDl p ops → order f = fr :: fr' :: st → real.dlsym (.other n) f ≠ 0 →
      real.dlsym (.other n) f ≠ fr'.wrapper → Found p ops order real (.other n) f who (real.dlsym (.other n) f)
  | plain {n f who} : HasDl p ops → ops.any isApi = true → order f = [] →
      Found p ops order real (.other n) f who (real.dlsym (.other n) f)
  | next {f who X c Y l Z} : HasDl p ops → ops.any isApi = true → order f = [] →
      libsAfter p.libs ops = X ++ c :: (Y ++ l :: Z) → Contains c who → (∀ o ∈ X, ¬ Contains o who) →
      vdsoAfter p.env p.libs ops ≠ some l.lm → exportsAt l f ≠ none →
      (∀ o ∈ Y, vdsoAfter p.env p.libs ops = some o.lm ∨ exportsAt o f = none) →
      Found p ops order real .next f who (real.dlsym (real.dlopen l.name) f)
  | nowhere {f who X c Y} : HasDl p ops → ops.any isApi = true → order f = [] →
      libsAfter p.libs ops = X ++ c :: Y → Contains c who → (∀ o ∈ X, ¬ Contains o who) →
      (∀ o ∈ Y, vdsoAfter p.env p.libs ops = some o.lm ∨ exportsAt o f = none) →
      Found p ops order real .next f who 0

/-- The table has an entry for a function, other than main, that nothing before it has registered and that
no loaded object exports. -/
def Unresolved (p : Process) (ops : List Op) (tbl : List UBinding) (tool : Option Name) : Prop :=
  ∃ l1 u l2, tbl = l1 ++ u :: l2 ∧ u.name ≠ nm "main" ∧
    registered p.env (ops ++ [.wrap l1 tool]) u.name = [] ∧
    ∀ l ∈ libsAfter p.libs ops, vdsoAfter p.env p.libs (ops ++ [.wrap tbl tool]) = some l.lm ∨
      exportsAt l u.name = none

/-- What the caller of an event is told, after the events `ops`. -/
inductive Answered (p : Process) (ops : List Op) : Op → Obs → Prop
  | found {tbl tool} : ¬ Unresolved p ops tbl tool → Answered p ops (.wrap tbl tool) (.ret .success)
  | missing {tbl tool} : Unresolved p ops tbl tool → Answered p ops (.wrap tbl tool) (.ret .functionNotFound)
  | set {t v} : Answered p ops (.setPriority t v) .unit
  | get {t} : Answered p ops (.getPriority t) (.prio (prioAfter t (ops ++ [.getPriority t])))
  | filter {f} : Answered p ops (.setFilter f) .unit
  | dlopen {ld} : Answered p ops (.dlopen ld) .unit
  | load {ld} : Answered p ops (.load ld) .unit
  | unload {d} : Answered p ops (.unload d) .unit

/-- The ideal: the state is the list of events. -/
def ideal (p : Process) (good : Lib → Prop) (order : List Op → Name → List Frame) : Sem (List Op) where
  goto ops := Ideal (fun l => l ∈ libsAfter p.libs ops ∧ good l) (order ops) (realAfter p.env p.libs ops)
    (BoundTo p ops) (Found p ops (order ops)) (libsAfter p.libs ops) (Kept p order ops)
  step ops op o ops' := Answered p ops op o ∧ ops' = ops ++ [op]

/-- In state `s` the function at `a` computes `g` (and leaves GOTCHA alone). -/
def Computes {S V : Type} (M : Sem S) (code : Addr → V → Prog V) (s : S) (a : Addr) (g : V → V) : Prop :=
  ∀ x, ∃ t, Eval M code s (code a x) t (g x) s

/-- In state `s` the wrapper `fr` turns the function it wraps, whatever that is, into `W` of it. -/
def Turns {S V : Type} (M : Sem S) (code : Addr → V → Prog V) (s : S) (fr : Frame) (W : (V → V) → V → V) :
    Prop :=
  ∀ (a : Addr) (g : V → V), a ≠ 0 → M.goto s (.next fr.handle) a → Computes M code s a g →
    Computes M code s fr.wrapper (W g)

end Gotcha.Spec
