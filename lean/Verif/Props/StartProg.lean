import Verif.Model.StartTest
import Verif.Proof.Tests
import Verif.Props.Main
import Verif.Props.Transparent
/-
C116: programs whose main function is wrapped, from their start, and the tests wrap_main and symver.
-/
namespace Gotcha
open Spec Tests

/-! ### calls -/

/-- A function that ends with the result of a call. -/
theorem eval_tail {S V : Type} {M : Sem S} {code : Addr → V → Prog V} {s : S} {c : Callee} {x : V} {t v s'} :
    Eval M code s (.call c x .ret) t v s' ↔ ∃ a, M.goto s c a ∧ Eval M code s (code a x) t v s' := by
  constructor
  · intro h
    cases h with
    | call h1 h2 h3 =>
      cases h3
      rw [List.append_nil]
      exact ⟨_, h1, h2⟩
  · rintro ⟨a, h1, h2⟩
    have := Eval.call (k := .ret) h1 h2 .ret
    rwa [List.append_nil] at this

theorem eval_look {env : Env} {V : Type} {code : Addr → V → Prog V} {s : State} {c : Callee} {k : Addr → Prog V}
    {a : Addr} (h : (machine env).goto s c a) {t v s'} :
    Eval (machine env) code s (.look c k) t v s' ↔ Eval (machine env) code s (k a) t v s' := by
  constructor
  · intro h'
    cases h' with
    | look h1 h2 =>
      obtain rfl := machine_goto_det h h1
      exact h2
  · exact .look h

/-! ### the wrappers of main -/

/-- The wrappers of main: those that run at the start are behind GOTCHA's own. -/
theorem main_stack {p : Process} {ops : List Op} (hset : Settled ops) (hmain : clientFrames ops (nm "main") ≠ []) :
    ∃ pre rest, stackOf p ops (nm "main") = pre ++ ownMain p.env :: rest ∧
      (∀ fr ∈ pre, prioOr (nm "gotcha") ops < prioOr fr.tool ops) ∧
      rest.Perm ((clientFrames ops (nm "main")).filter
        (fun fr => decide (prioOr fr.tool ops ≤ prioOr (nm "gotcha") ops))) := by
  have hreg := registered_main_of (env := p.env) hmain
  have hperm := stackOf_perm p ops (nm "main")
  rw [hreg] at hperm
  exact sorted_split (fun a : Frame => prioOr a.tool ops)
    (stackOf_sorted p hset (nm "main")) hperm
    (K := (clientFrames ops (nm "main")).filter
      (fun a => decide (prioOr a.tool ops = prioOr (ownMain p.env).tool ops))) (by
      have := stackOf_stable p hset (nm "main") (prioOr (ownMain p.env).tool ops)
      rw [hreg, List.filter_cons, if_pos (by simp)] at this
      exact this)

/-- GOTCHA's own wrapper of `__libc_start_main`. -/
def ownStart (env : Env) : Frame :=
  frame (nm "gotcha") ⟨nm "__libc_start_main", env.libcMainW, env.hLibcMain⟩

theorem expand_start_eq (env : Env) (tool : Name) (us : List UBinding)
    (hno : ∀ u ∈ us, u.name ≠ nm "__libc_start_main") : ∀ mw,
    framesIn (expand env tool mw us) (nm "__libc_start_main") =
      if mw = false ∧ us.any (fun u => u.name = nm "main") = true then [ownStart env] else [] := by
  have hne : nm "main" ≠ nm "__libc_start_main" := by decide +kernel
  induction us with
  | nil => intro mw; simp [expand, framesIn]
  | cons u us ih =>
    intro mw
    have hu := hno u (by simp)
    rw [expand, framesIn_append, show (tool, u) :: expand env tool _ us = [(tool, u)] ++ _ from rfl,
      framesIn_append, ih (fun v hv => hno v (by simp [hv]))]
    by_cases e : u.name = nm "main"
    · cases mw with
      | true => simp [framesIn, e, hne]
      | false => simp [framesIn, e, hne, libcMainTable, mainTable, ownStart]
    · cases mw <;> simp [framesIn, e, hu]

theorem regs_start_eq (env : Env) (ops : List Op) (hcl : clientFrames ops (nm "__libc_start_main") = []) :
    ∀ ini mw, framesIn (regs env ini mw ops) (nm "__libc_start_main") =
      if mw = false ∧ ops.any (fun o => (tableOf o).any (fun u => u.name = nm "main")) = true
        then [ownStart env] else [] := by
  induction ops with
  | nil => intro ini mw; simp [regs, framesIn]
  | cons op ops ih =>
    intro ini mw
    have hcl' : clientFrames [op] (nm "__libc_start_main") = [] ∧
        clientFrames ops (nm "__libc_start_main") = [] := by
      have : clientFrames (op :: ops) (nm "__libc_start_main") =
          clientFrames [op] (nm "__libc_start_main") ++ clientFrames ops (nm "__libc_start_main") := by
        simp [clientFrames]
      rw [this] at hcl
      exact List.append_eq_nil_iff.1 hcl
    rw [regs, framesIn_append, ih hcl'.2]
    have hop : framesIn (opRegs env ini mw op) (nm "__libc_start_main") =
        if mw = false ∧ (tableOf op).any (fun u => u.name = nm "main") = true then [ownStart env] else [] := by
      unfold opRegs
      rw [framesIn_append]
      have h1 : framesIn (if isApi op = true ∧ ini = false then
          (dlTable env).map (fun v => (nm "gotcha", v)) else []) (nm "__libc_start_main") = [] := by
        split
        · apply framesIn_own
          intro v hv
          simp only [dlTable, List.mem_cons, List.not_mem_nil, or_false] at hv
          rcases hv with rfl | rfl
          · show nm "dlopen" ≠ _; decide +kernel
          · show nm "dlsym" ≠ _; decide +kernel
        · rfl
      rw [h1, List.nil_append]
      cases op with
      | wrap tbl tool =>
        have := hcl'.1
        simp only [clientFrames, List.flatMap_cons, List.flatMap_nil, List.append_nil,
          List.map_eq_nil_iff, List.filter_eq_nil_iff, decide_eq_true_eq] at this
        exact expand_start_eq env _ tbl this mw
      | _ => simp [framesIn, tableOf]
    rw [hop, List.any_cons]
    cases mw <;> cases (tableOf op).any (fun u => decide (u.name = nm "main")) <;> simp

/-- If no tool wraps `__libc_start_main` but some tool main, GOTCHA's own is its only wrapper. -/
theorem start_stack {p : Process} {ops : List Op} (hmain : clientFrames ops (nm "main") ≠ [])
    (hcl : clientFrames ops (nm "__libc_start_main") = []) :
    stackOf p ops (nm "__libc_start_main") = [ownStart p.env] := by
  have h := stackOf_perm p ops (nm "__libc_start_main")
  rw [registered, regs_start_eq _ _ hcl, if_pos] at h
  · exact List.perm_singleton.1 h
  · obtain ⟨o, ho, hm⟩ := hasMain_of_frames hmain
    exact ⟨rfl, List.any_eq_true.2 ⟨o, ho, (hasMain_any _).2 hm⟩⟩

/-! ### the start of a program -/

/-- C116.  Tools have wrapped main, and none has wrapped `__libc_start_main`.  When the start-up code of any
library that GOTCHA treats calls `__libc_start_main`, with whatever main function, the outcome is that of a call,
with the same arguments, of the outermost wrapper of main among those of the tools whose priority is at most
GOTCHA's own; if there is none, of main.  From there the other wrappers of that kind and main are called. -/
theorem C116_program_start {p : Process} (ok : p.Ok) {good : Lib → Prop} {ops : List Op}
    (h : HistoryFor p True good ops) (hset : Settled ops) {s os}
    (hr : run p.env ops p.start = .ok (s, os))
    (hmain : clientFrames ops (nm "main") ≠ []) (hcl : clientFrames ops (nm "__libc_start_main") = [])
    {r q : Addr} (hreal : realAfter p.env p.libs ops (nm "main") = some r) (hprog : p.P r = none)
    (hreal' : realAfter p.env p.libs ops (nm "__libc_start_main") = some q) :
    ∃ order m, order.Perm ((clientFrames ops (nm "main")).filter
        (fun fr => decide (prioOr fr.tool ops ≤ prioOr (nm "gotcha") ops))) ∧
      order.Pairwise (fun a b => prioOr b.tool ops ≤ prioOr a.tool ops) ∧
      (wrappers order ++ [r]).head? = some m ∧
      (∀ path, Calls p.P s m path ↔ path = wrappers order ++ [r]) ∧
      ∀ {V A : Type} (code : Addr → V → Prog V) (pack : Addr → A → V) (arg : A → V),
        (∀ m a, code p.env.libcMainW (pack m a) = startMain p.env pack a) →
        (∀ m a, code q (pack m a) = libcStart arg m a) →
        ∀ l ∈ libsAfter p.libs ops, good l → ∀ off, (off, nm "__libc_start_main") ∈ rlOf l →
        ∀ m0 a t v s', Eval (machine p.env) code s (.call (.slot l off) (pack m0 a) .ret) t v s' ↔
          Eval (machine p.env) code s (code m (arg a)) t v s' := by
  obtain ⟨hv, -⟩ := historyFor_view ok h hr
  obtain ⟨pre, rest, hst, -, hrest⟩ := main_stack (p := p) hset hmain
  have hsl := start_stack (p := p) hmain hcl
  have him := ideal_machine ok h hr
  have hm : ∃ m, (wrappers rest ++ [r]).head? = some m ∧
      (machine p.env).goto s (.next (ownMain p.env).handle) m := by
    cases rest with
    | nil => exact ⟨r, rfl, him _ _ (.last hst hreal)⟩
    | cons fr st => exact ⟨fr.wrapper, rfl, him _ _ (.next (post := st) hst)⟩
  obtain ⟨m, h1, h2⟩ := hm
  have hc := view_calls hv.weaken (by rw [real_run]; exact hreal) hprog (ownMain p.env :: rest) pre hst _ _ rfl
  have hPo : p.P (ownMain p.env).wrapper = some (ownMain p.env).handle :=
    hv.prog (nm "main") _ (by
      show _ ∈ stackOf p ops (nm "main")
      rw [hst]; simp)
  obtain ⟨m', path, e, h3, h4⟩ := hc.inv hPo
  cases e
  have h2' : s.getWrappee (ownMain p.env).handle = .ok m := h2
  rw [h2'] at h3
  cases h3
  have hsort : rest.Pairwise (fun a b => prioOr b.tool ops ≤ prioOr a.tool ops) := by
    have := stackOf_sorted p hset (nm "main")
    rw [hst] at this
    exact (List.pairwise_cons.1 (List.pairwise_append.1 this).2.1).2
  refine ⟨rest, m, hrest, hsort, h1, fun path => ⟨fun h5 => h5.det h4, fun e => e ▸ h4⟩, ?_⟩
  intro V A code pack arg hw hq l hl hg off hoff m0 a t v s'
  have hslot : (machine p.env).goto s (.slot l off) p.env.libcMainW := him _ _ (.wrapped ⟨hl, hg⟩ hoff hsl)
  have hnext : (machine p.env).goto s (.next p.env.hLibcMain) q := him _ _ (.last (pre := []) hsl hreal')
  have h2'' : (machine p.env).goto s (.next p.env.hMain) m := h2
  rw [eval_tail]
  constructor
  · rintro ⟨b, hb, h5⟩
    obtain rfl := machine_goto_det hslot hb
    rw [hw, startMain, eval_look hnext, eval_look h2'', eval_tail] at h5
    obtain ⟨b, hb, h5⟩ := h5
    cases hb
    rw [hq, libcStart, eval_tail] at h5
    obtain ⟨b, hb, h5⟩ := h5
    cases hb
    exact h5
  · intro h5
    refine ⟨_, hslot, ?_⟩
    rw [hw, startMain, eval_look hnext, eval_look h2'', eval_tail]
    refine ⟨q, rfl, ?_⟩
    rw [hq, libcStart, eval_tail]
    exact ⟨m, rfl, h5⟩

/-! ### test/wrap_main -/

theorem wrapMain_real {p : Process} {w : Addr} {h : HAddr} {f : Name} {r : Addr}
    (hreg : registered p.env [mainWrap w h] f ≠ [])
    (hr : firstDef (p.env.vdsoOf p.libs) p.libs f = some r) :
    realAfter p.env p.libs [mainWrap w h] f = some r := by
  have h0 : registered p.env [] f = [] := rfl
  have ht : isTry p.env f [] (mainWrap w h) = true := by
    have : ¬ (registered p.env [mainWrap w h] f).isEmpty = true := fun e => hreg (List.isEmpty_iff.1 e)
    simp only [isTry, mainWrap, h0, List.nil_append] at this ⊢
    simp [this]
  unfold realAfter
  rw [tries, if_pos ht]
  simp only [tries, List.nil_append, List.append_nil, List.findSome?_cons]
  have : firstDef (vdsoAfter p.env p.libs [mainWrap w h]) (libsAfter p.libs [mainWrap w h]) f = some r := hr
  rw [this]

/-- The lines of test/wrap_main/lib.c:13-15. -/
def argLines (i : Nat) : List Name → List SVal
  | [] => []
  | s :: ss => .line (.arg i s) :: argLines (i + 1) ss

theorem printArgs_eval {S : Type} {M : Sem S} {code : Addr → SVal → Prog SVal} {s s' : S} {k : Prog SVal} {t v}
    (h : Eval M code s k t v s') : ∀ (av : List Name) (i : Nat),
      Eval M code s (printArgs i av k) (argLines i av ++ t) v s'
  | [], _ => h
  | _ :: av, i => .out (printArgs_eval h av (i + 1))

/-- C116: test/wrap_main.  The constructor wraps main.  The program then runs the wrapper, which prints the
arguments, and main, which gets 1 from getX; it ends with 0. -/
theorem C116_wrap_main {p : Process} (ok : p.Ok) {good : Lib → Prop} {w : Addr} {hd : HAddr}
    (h : HistoryFor p True good [mainWrap w hd]) {r q : Addr}
    (hr : firstDef (p.env.vdsoOf p.libs) p.libs (nm "main") = some r)
    (hq : firstDef (p.env.vdsoOf p.libs) p.libs (nm "__libc_start_main") = some q)
    {l : Lib} (hl : l ∈ p.libs) (hg : good l) {o off : Addr} (ho : (o, nm "__libc_start_main") ∈ rlOf l)
    {g : Name} (hown : g ∉ ownNames) (hoff : (off, g) ∈ rlOf l) {x : Addr} (hx : p.mem (l.addr + off) = x)
    {code : Addr → SVal → Prog SVal} (cr : code r = appMain l off) (cw : code w = betterMain hd)
    (cx : code x = getX) (cs : ∀ m av, code p.env.libcMainW (.start m av) = startMain p.env .start av)
    (cq : ∀ m av, code q (.start m av) = libcStart .argv m av) (m0 : Addr) (av : List Name) :
    ∃ s', ∀ t v s'', Eval (machine p.env) code p.start (wrapMainStart w hd l o m0 av) t v s'' ↔
      t = [.line .constructor, .line .wrapperMain] ++ argLines 0 av ++ [.line .mainMain, .line (.returning 0)] ∧
        v = .int 0 ∧ s'' = s' := by
  have hcm : clientFrames [mainWrap w hd] (nm "main") = [⟨nm "test_tool", w, hd⟩] := by
    simp [clientFrames, mainWrap, frame, toolName]
  have hcs : clientFrames [mainWrap w hd] (nm "__libc_start_main") = [] := by
    have : nm "main" ≠ nm "__libc_start_main" := by decide +kernel
    simp [clientFrames, mainWrap, this]
  have hcg : clientFrames [mainWrap w hd] g = [] := by
    have : nm "main" ≠ g := fun e => hown (e ▸ by simp [ownNames])
    simp [clientFrames, mainWrap, this]
  have hset : Settled [mainWrap w hd] := by
    intro pre t v post e
    cases pre with
    | nil => simp [mainWrap] at e
    | cons a pre => simp at e
  have hst : stackOf p [mainWrap w hd] (nm "main") = [ownMain p.env, ⟨nm "test_tool", w, hd⟩] := by
    obtain ⟨pre, rest, e, h1, h2⟩ := main_stack (p := p) hset (by rw [hcm]; simp)
    have hp : rest = [⟨nm "test_tool", w, hd⟩] := by
      rw [hcm, List.filter_cons_of_pos (by
        simp only [decide_eq_true_eq]
        rw [show prioOr (nm "test_tool") [mainWrap w hd] = prioOr (nm "gotcha") [mainWrap w hd] by
          simp [prioOr, prioAfter, lastSet, Spec.names, toolName, mainWrap]])] at h2
      exact List.perm_singleton.1 h2
    have hlen := (stackOf_perm p [mainWrap w hd] (nm "main")).length_eq
    rw [registered_main_of (by rw [hcm]; simp), hcm, e, hp] at hlen
    have : pre = [] := List.eq_nil_of_length_eq_zero (by simpa using hlen)
    rw [e, hp, this]
    rfl
  have hss := start_stack (p := p) (ops := [mainWrap w hd]) (by rw [hcm]; simp) hcs
  have hrm : realAfter p.env p.libs [mainWrap w hd] (nm "main") = some r :=
    wrapMain_real (by rw [registered_main_of (by rw [hcm]; simp)]; simp) hr
  have hrs : realAfter p.env p.libs [mainWrap w hd] (nm "__libc_start_main") = some q := by
    refine wrapMain_real (fun e => ?_) hq
    have := stackOf_perm p [mainWrap w hd] (nm "__libc_start_main")
    rw [e, hss] at this
    exact absurd (List.perm_nil.1 this) (by simp)
  refine test_run ok h ?_
  rw [List.append_assoc, List.cons_append, List.cons_append, List.nil_append]
  refine .out (.event (o := .ret .success) ⟨.found ?_, rfl⟩ ?_)
  · rintro ⟨l1, u, l2, e, h1, -⟩
    cases l1 with
    | nil =>
      simp only [List.nil_append, List.cons.injEq] at e
      exact h1 (by rw [← e.1])
    | cons a l1 => simp at e
  refine eval_tail.2 ⟨p.env.libcMainW, .wrapped ⟨hl, hg⟩ ho hss, ?_⟩
  rw [cs]
  refine .look (a := q) (.last (pre := []) hss hrs) (.look (a := w) (.next (pre := []) (post := []) hst)
    (eval_tail.2 ⟨q, .fixed, ?_⟩))
  rw [cq]
  refine eval_tail.2 ⟨w, .fixed, ?_⟩
  rw [cw]
  refine .out (.look (a := r) (.last (pre := [ownMain p.env]) hst hrm) ?_)
  refine printArgs_eval ?_ av 0
  refine Eval.call (M := ideal p good (stackOf p)) (code := code) (s := [mainWrap w hd]) (a := r)
    (t1 := [.line .mainMain]) (t2 := [.line (.returning 0)]) (w := .int 1) .fixed ?_ (.out .ret)
  rw [cr]
  refine .out (eval_tail.2 ⟨x, ?_, ?_⟩)
  · refine .plain (f := g) ⟨hl, hg⟩ hoff (stackOf_none hown hcg) ?_
    rw [← hx]
    exact .start hl (by intro dead hd; simp [mainWrap] at hd) hown
  · rw [cx]
    exact .ret

/-! ### test/symver -/

/-- C116: test/symver.  `l0` is the first object with a symbol `f` (retX) of a size other than 0, and its symbol
with the highest version index is retX_new; other versions may be anything.  The program ends with 0, whichever
version its slot was bound to.  Without gotcha_wrap it calls the version that the slot was bound to. -/
theorem C116_symver {p : Process} (ok : p.Ok) {good : Lib → Prop} {f : Name} (hf : f ∉ ownNames) (ha : Ascii f)
    {w : Addr} {hd : HAddr} (h : HistoryFor p True good [symverWrap f w hd])
    {view : Lib → ObjView} {l1 l2 : List Lib} {l0 : Lib}
    (hsc : scope (p.env.vdsoOf p.libs) p.libs = l1 ++ l0 :: l2)
    (hof : ∀ l ∈ l1 ++ [l0], (view l).Of l)
    (none1 : ∀ l ∈ l1, ∀ i x, (view l).Named f i → (view l).syms[i]? = some x → x.size = 0)
    {i : Nat} {x : DynSym} (hw : (view l0).Named f i) (hx : (view l0).syms[i]? = some x) (hsz : x.size ≠ 0)
    (hashed : (view l0).d.gnuHash ≠ 0 → (view l0).off ≤ i)
    (exported : (view l0).d.versym ≠ 0 → verAt (view l0).syms i ≠ 0)
    (highest : ∀ j, (view l0).Named f j → j ≠ i →
      (view l0).d.versym ≠ 0 ∧ verAt (view l0).syms j < verAt (view l0).syms i)
    (hx0 : x.value + l0.addr ≠ 0)
    {l : Lib} (hl : l ∈ p.libs) (hg : good l) {off : Addr} (hoff : (off, f) ∈ rlOf l)
    {code : Addr → Int → Prog Int} (cn : code (x.value + l0.addr) = retXNew) (cw : code w = dogRetX hd) :
    (∃ s', ∀ t v s'', Eval (machine p.env) code p.start (symverMain f w hd l off) t v s'' ↔
      t = [9] ∧ v = 0 ∧ s'' = s') ∧
    ∀ t v s'', Eval (machine p.env) code p.start (.call (.slot l off) 9 .ret) t v s'' ↔
      Eval (machine p.env) code p.start (code (p.mem (l.addr + off)) 9) t v s'' := by
  have hfd := firstDef_highest ha hsc hof none1 hw hx hsz hashed exported highest
  generalize hre : x.value + l0.addr = r at hfd cn hx0
  refine ⟨test_run ok h ?_, ?_⟩
  · have hst : stackOf p [symverWrap f w hd] f = [⟨nm "symbol_version_test", w, hd⟩] :=
      stackOf_one hf (by simp [clientFrames, symverWrap, frame, toolName])
    refine .event (o := .ret .success) ⟨found_of ?_, rfl⟩ ?_
    · intro u hu
      rw [List.mem_singleton.1 hu]
      exact fun e => absurd (hfd.symm.trans e) (by simp)
    refine Eval.call (t1 := [9]) (t2 := []) (w := 10) (.wrapped ⟨hl, hg⟩ hoff hst) ?_ (by
      rw [if_pos rfl]; exact .ret)
    show Eval _ _ _ (code w 9) _ _ _
    rw [cw]
    refine .look (a := r) (.last (pre := []) hst ?_) (.out ?_)
    · exact real_first hf (ops := [symverWrap f w hd])
        (by intro op ho L; rw [List.mem_singleton.1 ho]; rfl) (by simp [clientFrames, symverWrap]) [] hfd
    rw [if_pos hx0]
    refine Eval.call (t1 := []) (t2 := []) (w := 9) .fixed ?_ .ret
    rw [cn]
    exact .ret
  · intro t v s''
    rw [eval_tail]
    constructor
    · rintro ⟨a, e, h⟩
      have e : a = p.mem (l.addr + off) := e
      rwa [e] at h
    · exact fun h => ⟨_, rfl, h⟩

/-! ### the hypotheses can be met -/

namespace Demo

/-- A tool of the default priority and one of priority 5 wrap main. -/
def ops5 : List Op :=
  [ .setPriority M 5,
    .wrap [⟨nm "main", 0x50e, 14⟩] (some B),
    .wrap [⟨nm "main", 0x50d, 13⟩] (some M) ]

theorem history5 : History proc True ops5 where
  honest := by
    refine ⟨by decide +kernel, ?_, envOk⟩
    intro u hu
    simp only [ops5, List.flatMap_cons, List.flatMap_nil, tableOf, List.nil_append, List.append_nil,
      List.cons_append, List.mem_cons, List.not_mem_nil, or_false] at hu
    rcases hu with rfl | rfl <;> decide
  loader := ⟨fun _ => dlopen_def, fun h => (by cases h), fun h => (by cases h), trivial⟩
  cons := fun _ => cons proc_ok.objs
  filter := by
    intro _ f hf
    simp [ops5] at hf
  main := by
    intro _
    refine mainAlone_of ⟨trivial, fun _ _ => ⟨⟨_, rfl⟩, by decide +kernel⟩, fun _ h => ?_, trivial⟩
    exact absurd ⟨⟨nm "main", 0x50e, 14⟩, by simp [tableOf], rfl⟩ (h (.wrap [⟨nm "main", 0x50e, 14⟩] (some B)) (by simp))
  short := fun _ => by decide

theorem settled5 : Settled ops5 :=
  settled_of ⟨Or.inl ⟨by decide +kernel, fun _ _ h => by cases h⟩, trivial, trivial, trivial⟩

/-- C116, `C116_program_start`: the program starts with the wrapper of the tool of default priority. -/
example : ∃ s os, run proc.env ops5 proc.start = .ok (s, os) ∧
    Calls P s 0x50e [0x50e, 0x10004000] ∧
    ∀ code : Addr → SVal → Prog SVal,
      (∀ m a, code env.libcMainW (.start m a) = startMain env .start a) →
      (∀ m a, code 0x20007000 (.start m a) = libcStart .argv m a) →
      ∀ m0 a t v s', Eval (machine env) code s (.call (.slot app 0x30) (.start m0 a) .ret) t v s' ↔
        Eval (machine env) code s (code 0x50e (.argv a)) t v s' := by
  obtain ⟨s, hr, -⟩ := history_run proc_ok history5
  obtain ⟨order, m, h1, -, h3, h4, h5⟩ := C116_program_start proc_ok history5.for settled5 hr
    (by decide +kernel) (by decide +kernel) (r := 0x10004000) (q := 0x20007000) (by decide +kernel) (by decide)
    (by decide +kernel)
  have e : (clientFrames ops5 (nm "main")).filter
      (fun fr => decide (prioOr fr.tool ops5 ≤ prioOr (nm "gotcha") ops5)) = [⟨B, 0x50e, 14⟩] := by
    decide +kernel
  rw [e] at h1
  obtain rfl := List.perm_singleton.1 h1
  cases h3
  refine ⟨s, _, hr, (h4 _).2 rfl, fun code c1 c2 => ?_⟩
  exact h5 code _ _ c1 c2 app (by show _ ∈ [app, libc]; simp) trivial 0x30 (by rw [rl_app]; simp)

/-- The process of test/wrap_main: foo stands for getX. -/
def procW : Process := { proc with mem := fun a => if a = 0x10000018 then 0x20004000 else 0 }

theorem procW_ok : procW.Ok := ⟨proc_ok.world, proc_ok.objs, proc_ok.nd, proc_ok.placed, proc_ok.cover, proc_ok.ne⟩

theorem historyW : History procW True [mainWrap 0x50d 13] where
  honest := by
    refine ⟨by decide +kernel, ?_, envOk⟩
    intro u hu
    rw [show u = ⟨nm "main", 0x50d, 13⟩ by simpa [mainWrap, tableOf] using hu]
    decide
  loader := ⟨fun _ => dlopen_def, trivial⟩
  cons := fun _ => cons proc_ok.objs
  filter := by
    intro _ f hf
    simp [mainWrap] at hf
  main := fun _ => mainAlone_of ⟨fun _ _ => ⟨⟨_, rfl⟩, by decide +kernel⟩, trivial⟩
  short := fun _ => by decide

def codeM (a : Addr) : SVal → Prog SVal :=
  if a = 0x10004000 then appMain app 0x18
  else if a = 0x50d then betterMain 13
  else if a = 0x20004000 then getX
  else if a = 0x503 then fun | .start _ av => startMain env .start av | _ => .undef
  else if a = 0x20007000 then fun | .start m av => libcStart .argv m av | _ => .undef
  else fun _ => .undef

/-- C116, `C116_wrap_main`. -/
example : ∃ s', Eval (machine env) codeM procW.start
    (wrapMainStart 0x50d 13 app 0x30 0x10004000 [nm "/bin/app", nm "x"])
    [.line .constructor, .line .wrapperMain, .line (.arg 0 (nm "/bin/app")), .line (.arg 1 (nm "x")),
      .line .mainMain, .line (.returning 0)] (.int 0) s' := by
  obtain ⟨s', h⟩ := C116_wrap_main procW_ok historyW.for (r := 0x10004000) (q := 0x20007000)
    (by decide +kernel) (by decide +kernel)
    (l := app) (by show _ ∈ [app, libc]; simp) trivial (o := 0x30) (by rw [rl_app]; simp) (off := 0x18)
    foo_own (by rw [rl_app]; simp) (x := 0x20004000) (by decide +kernel)
    (code := codeM) rfl rfl rfl (fun _ _ => rfl) (fun _ _ => rfl) 0x10004000 [nm "/bin/app", nm "x"]
  exact ⟨s', (h _ _ _).2 ⟨rfl, rfl, rfl⟩⟩

theorem historySv : History (procV 0) True [symverWrap (nm "foo") 0x50a 10] where
  honest := by
    refine ⟨by decide +kernel, ?_, envOk⟩
    intro u hu
    rw [show u = ⟨nm "foo", 0x50a, 10⟩ by simpa [symverWrap, tableOf] using hu]
    show P 0x50a = some 10
    decide
  loader := ⟨fun _ => by show firstDef none [app, libv, libc] (nm "dlopen") ≠ none; decide +kernel, trivial⟩
  cons := (historyV 0).cons
  filter := by
    intro _ f hf
    simp [symverWrap] at hf
  main := fun _ => mainAlone_of ⟨fun h => absurd h (notMain (by decide +kernel)), trivial⟩
  short := fun _ => by decide

def codeSv (a : Addr) : Int → Prog Int :=
  if a = 0x50002000 then retXNew else if a = 0x50001000 then retXOld
  else if a = 0x50a then dogRetX 10 else fun _ => .undef

/-- C116, `C116_symver`: the application is bound to the old version of foo, which turns 9 into -9; with
gotcha_wrap the program ends with 0. -/
example : (∃ s', Eval (machine env) codeSv (procV 0).start (symverMain (nm "foo") 0x50a 10 app 0x18) [9] 0 s') ∧
    Eval (machine env) codeSv (procV 0).start (.call (.slot app 0x18) 9 .ret) [] (-9) (procV 0).start := by
  obtain ⟨⟨s', h1⟩, h2⟩ := C116_symver (procV_ok 0) foo_own (by decide +kernel) historySv.for
    (view := viewV none) (l1 := [app]) (l0 := libv) (l2 := [libc]) rfl
    (fun l hl => viewV_of none l (by simp at hl ⊢; rcases hl with hl | hl <;> simp [hl]))
    (by
      intro l hl i x hi
      rw [List.mem_singleton] at hl
      subst hl
      exact absurd hi (app_named none (by decide +kernel) i))
    (i := 2) (x := ⟨nm "foo", 3, 0x2000, 8⟩)
    (by rw [viewV_libv]; exact ⟨by decide, by show 2 < 5; decide, rfl⟩) (by rw [viewV_libv]; rfl) (by decide)
    (by rw [viewV_libv]; exact fun _ => by show 1 ≤ 2; decide)
    (by rw [viewV_libv]; exact fun _ => by show (3 : Nat) ≠ 0; decide)
    (by
      intro j hj hne
      have hj1 : j = 1 := by
        rcases libv_named hj with ⟨e, -⟩ | ⟨e, -⟩ | ⟨-, e⟩ | ⟨-, e⟩
        · exact e
        · exact absurd e hne
        · exact absurd e (by decide +kernel)
        · exact absurd e foo_ne_bar
      subst hj1
      rw [viewV_libv]
      exact ⟨by show gV ≠ 0; decide, by show 2 < 3; decide⟩)
    (by decide +kernel) (l := app) (by show _ ∈ [app, libv, libc]; simp) trivial slot_app
    (code := codeSv) rfl rfl
  refine ⟨⟨s', (h1 _ _ _).2 ⟨rfl, rfl, rfl⟩⟩, (h2 _ _ _).2 ?_⟩
  exact Eval.ret

end Demo
end Gotcha
