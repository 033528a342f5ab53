import Verif.Proof.Tests
import Verif.Demo.Tests
/-
C113: programs of the project's own test suite, in every process in which what they say about it holds.
-/
namespace Gotcha
open Spec Tests

theorem retX_own : nm "retX" ∉ ownNames := by decide +kernel
theorem four_own : nm "return_four" ∉ ownNames := by decide +kernel

/-- C113: test/stack.  The program writes the address of the wrapper of tool2 and that of retX, which the two
wrappers find, and 13, and ends with 0. -/
theorem C113_stack {p : Process} (ok : p.Ok) {good : Lib → Prop} {w1 w2 : Addr} {h1 h2 : HAddr}
    (h : HistoryFor p True good [initTool "tool1" w1 h1, initTool "tool2" w2 h2]) {r : Addr}
    (hr : firstDef (p.env.vdsoOf p.libs) p.libs (nm "retX") = some r) (hr0 : r ≠ 0) (hw2 : w2 ≠ 0)
    {l : Lib} (hl : l ∈ p.libs) (hg : good l) {off : Addr} (hoff : (off, nm "retX") ∈ rlOf l)
    {code : Addr → Int → Prog Int} (cr : code r = retX) (c1 : code w1 = retXWrapper h1 1)
    (c2 : code w2 = retXWrapper h2 2) :
    ∃ s', ∀ t v s'', Eval (machine p.env) code p.start (stackMain w1 w2 h1 h2 l off) t v s'' ↔
      t = [(w2.toNat : Int), (r.toNat : Int), 13] ∧ v = 0 ∧ s'' = s' := by
  have hst := stackOf_two p retX_own (t1 := nm "tool1") (t2 := nm "tool2") (w1 := w1) (w2 := w2) (h1 := h1)
    (h2 := h2)
  refine test_run ok h ?_
  refine .event ⟨found_of ?_, rfl⟩ (.event ⟨found_of ?_, rfl⟩ ?_)
  · intro u hu
    rw [List.mem_singleton.1 hu]
    exact fun e => absurd (hr.symm.trans e) (by simp)
  · intro u hu
    rw [List.mem_singleton.1 hu]
    exact fun e => absurd (hr.symm.trans e) (by simp)
  rw [if_neg (by simp [initResult])]
  refine Eval.call (t1 := [(w2.toNat : Int), (r.toNat : Int)]) (t2 := [13]) (w := 13)
    (.wrapped ⟨hl, hg⟩ hoff hst) ?_ (.out (by rw [if_pos rfl]; exact .ret))
  show Eval _ _ _ (code w1 10) _ _ _
  rw [c1]
  refine .look (a := w2) (.next (pre := []) hst) (.out ?_)
  rw [if_pos hw2]
  refine Eval.call (t1 := [(r.toNat : Int)]) (t2 := []) (w := 12) .fixed ?_ (by rw [if_pos (by decide)]; exact .ret)
  rw [c2]
  refine .look (a := r) (.last (pre := [⟨nm "tool1", w1, h1⟩]) hst ?_) (.out ?_)
  · exact real_first retX_own (ops := [initTool "tool1" w1 h1])
      (by intro op ho L; rw [List.mem_singleton.1 ho]; rfl) (by simp [clientFrames, initTool]) _ hr
  rw [if_pos hr0]
  refine Eval.call (t1 := []) (t2 := []) (w := 10) .fixed ?_ (by rw [if_pos (by decide)]; exact .ret)
  rw [cr]
  exact .ret

/-- C113: test/ppc_stress_multi_module. -/
theorem C113_stress {p : Process} (ok : p.Ok) {good : Lib → Prop} {w : Addr} {hd : HAddr}
    (h : HistoryFor p True good [initTool "tool1" w hd]) {r : Addr}
    (hr : firstDef (p.env.vdsoOf p.libs) p.libs (nm "retX") = some r) (hr0 : r ≠ 0)
    {l : Lib} (hl : l ∈ p.libs) (hg : good l) {off : Addr} (hoff : (off, nm "retX") ∈ rlOf l)
    {code : Addr → Int → Prog Int} (cr : code r = retX) (c1 : code w = retXWrapper hd 15) :
    ∃ s', ∀ t v s'', Eval (machine p.env) code p.start (stressMain w hd l off) t v s'' ↔
      t = [(r.toNat : Int), 25] ∧ v = 0 ∧ s'' = s' := by
  have hst : stackOf p [initTool "tool1" w hd] (nm "retX") = [⟨nm "tool1", w, hd⟩] :=
    stackOf_one retX_own (by simp [clientFrames, initTool, frame, toolName])
  refine test_run ok h ?_
  refine .event ⟨found_of ?_, rfl⟩ ?_
  · intro u hu
    rw [List.mem_singleton.1 hu]
    exact fun e => absurd (hr.symm.trans e) (by simp)
  rw [if_neg (by simp [initResult])]
  refine Eval.call (t1 := [(r.toNat : Int)]) (t2 := [25]) (w := 25)
    (.wrapped ⟨hl, hg⟩ hoff hst) ?_ (.out (by rw [if_pos rfl]; exact .ret))
  show Eval _ _ _ (code w 10) _ _ _
  rw [c1]
  refine .look (a := r) (.last (pre := []) hst ?_) (.out ?_)
  · exact real_first retX_own (ops := [initTool "tool1" w hd])
      (by intro op ho L; rw [List.mem_singleton.1 ho]; rfl) (by simp [clientFrames, initTool]) [] hr
  rw [if_pos hr0]
  refine Eval.call (t1 := []) (t2 := []) (w := 10) .fixed ?_ (by rw [if_pos (by decide)]; exact .ret)
  rw [cr]
  exact .ret

/-- C113: test/function_ptr.  The pointer read before gotcha_wrap calls return_four, the one read after it the
wrapper; the program ends with 0. -/
theorem C113_function_ptr {p : Process} (ok : p.Ok) {good : Lib → Prop} {w : Addr} {hd : HAddr}
    (h : HistoryFor p True good [ptrWrap w hd]) {r : Addr}
    (hr : firstDef (p.env.vdsoOf p.libs) p.libs (nm "return_four") = some r)
    {l : Lib} (hl : l ∈ p.libs) (hg : good l) {off : Addr} (hoff : (off, nm "return_four") ∈ rlOf l)
    (hm : p.mem (l.addr + off) = r)
    {code : Addr → Int → Prog Int} (cr : code r = returnFour) (c1 : code w = correctFour) :
    ∃ s', ∀ t v s'', Eval (machine p.env) code p.start (ptrMain w hd l off) t v s'' ↔
      t = [] ∧ v = 0 ∧ s'' = s' := by
  have hst : stackOf p [ptrWrap w hd] (nm "return_four") = [⟨nm "dlopen_test", w, hd⟩] :=
    stackOf_one four_own (by simp [clientFrames, ptrWrap, frame, toolName])
  refine test_run ok h ?_
  refine .look (a := r) (.plain ⟨hl, hg⟩ hoff (stackOf_none four_own rfl) ?_) ?_
  · rw [← hm]; exact .start hl (by simp) four_own
  refine Eval.call (t1 := []) (t2 := []) (w := 3) .fixed (by rw [cr]; exact .ret) ?_
  rw [if_neg (by decide)]
  refine .event ⟨found_of ?_, rfl⟩ ?_
  · intro u hu
    rw [List.mem_singleton.1 hu]
    exact fun e => absurd (hr.symm.trans e) (by simp)
  refine .look (.wrapped ⟨hl, hg⟩ hoff hst) ?_
  refine Eval.call (t1 := []) (t2 := []) (w := 4) .fixed ?_ (by rw [if_neg (by decide)]; exact .ret)
  show Eval _ _ _ (code w 0) _ _ _
  rw [c1]; exact .ret

/-! ### priority -/

/-- The events of test/priority. -/
def prioOps (p1 p2 p3 : Int) (w1 w2 w3 : Addr) (h1 h2 h3 : HAddr) : List Op :=
  [.setPriority (nm "tool1") p1, .setPriority (nm "tool2") p2, .setPriority (nm "tool3") p3,
    initTool "tool1" w1 h1, initTool "tool2" w2 h2, initTool "tool3" w3 h3]

theorem tools_ne : nm "tool1" ≠ nm "tool2" ∧ nm "tool1" ≠ nm "tool3" ∧ nm "tool2" ≠ nm "tool3" := by
  decide +kernel

theorem prio_stack (p : Process) (p1 p2 p3 : Int) (w1 w2 w3 : Addr) (h1 h2 h3 : HAddr) :
    stackOf p (prioOps p1 p2 p3 w1 w2 w3 h1 h2 h3) (nm "retX") =
      let F1 : Frame := ⟨nm "tool1", w1, h1⟩
      let F2 : Frame := ⟨nm "tool2", w2, h2⟩
      let F3 : Frame := ⟨nm "tool3", w3, h3⟩
      if p1 < p2 then
        if p2 < p3 then [F3, F2, F1] else if p1 < p3 then [F2, F3, F1] else [F2, F1, F3]
      else if p1 < p3 then [F3, F1, F2] else if p2 < p3 then [F1, F3, F2] else [F1, F2, F3] := by
  rw [stackOf_story p (T := [nm "tool1", nm "tool2", nm "tool3"]) retX_own]
  · obtain ⟨n12, n13, n23⟩ := tools_ne
    simp only [story, prioOps, initTool, tell, endOf, evStep, frame, insertBefore, toolName, upd,
      List.flatMap_cons, List.flatMap_nil, List.mem_cons, true_or, or_true, if_true, List.append_nil,
      List.filter_cons, decide_true, List.filter_nil, List.map_cons, List.map_nil, List.cons_append,
      List.nil_append, List.foldl_cons, List.foldl_nil, Option.getD_some, n12, n13, n23, n12.symm, n13.symm,
      n23.symm, if_false, decide_eq_true_eq]
    split <;> simp only [insertBefore, n12, n13, n23, n12.symm, n13.symm, n23.symm, if_true, if_false,
      decide_eq_true_eq] <;> (repeat' split) <;> first | rfl | omega
  · intro fr hfr
    simp only [prioOps, initTool, clientFrames, frame, toolName, List.flatMap_cons, List.flatMap_nil, List.append_nil,
      List.filter_cons, decide_true, if_true, List.filter_nil, List.map_cons, List.map_nil, List.cons_append,
      List.nil_append, List.mem_cons, List.not_mem_nil, or_false] at hfr
    rcases hfr with rfl | rfl | rfl <;> simp

theorem buf_run {p : Process} {good : Lib → Prop} {ops : List Op} {f : Name} {a b c : Frame} {i j k : Nat}
    {r : Addr} {code : Addr → Val → Prog Val} (hst : stackOf p ops f = [a, b, c])
    (hr : realAfter p.env p.libs ops f = some r) (hr0 : r ≠ 0) (cr : code r = retBuf)
    (ca : code a.wrapper = bufWrapper a.handle i) (cb : code b.wrapper = bufWrapper b.handle j)
    (cc : code c.wrapper = bufWrapper c.handle k) (hb : b.wrapper ≠ 0) (hc : c.wrapper ≠ 0) :
    Eval (ideal p good (stackOf p)) code ops (code a.wrapper (.buf [])) [] (.buf (tag i ++ tag j ++ tag k)) ops := by
  rw [ca]
  refine .look (a := b.wrapper) (.next (pre := []) hst) ?_
  rw [if_pos (by decide), if_pos hb]
  refine Eval.call (t1 := []) (t2 := []) .fixed ?_ .ret
  rw [cb]
  refine .look (a := c.wrapper) (.next (pre := [a]) hst) ?_
  rw [if_pos (show ([] ++ tag i : List Char).length + 4 < 15 by simp [tag]), if_pos hc]
  refine Eval.call (t1 := []) (t2 := []) .fixed ?_ .ret
  rw [cc]
  refine .look (a := r) (.last (pre := [a, b]) hst hr) ?_
  rw [if_pos (show ([] ++ tag i ++ tag j : List Char).length + 4 < 15 by simp [tag]), if_pos hr0]
  refine Eval.call (t1 := []) (t2 := []) .fixed ?_ .ret
  rw [cr]
  exact .ret

/-- C113: test/priority, for all priorities.  The program ends with 0, that is the wrappers run in the order it
expects, if and only if the three priorities are all different or all the same, or the two that are the same are
above the third and that is not the one of tool3.  Otherwise its bubble sort turns round tools of the same
priority, which GOTCHA keeps in the order of their gotcha_wrap calls (C03), and it ends with a failure. -/
theorem C113_priority {p : Process} (ok : p.Ok) {good : Lib → Prop} {p1 p2 p3 : Int} {w1 w2 w3 : Addr}
    {h1 h2 h3 : HAddr} (h : HistoryFor p True good (prioOps p1 p2 p3 w1 w2 w3 h1 h2 h3)) {r : Addr}
    (hr : firstDef (p.env.vdsoOf p.libs) p.libs (nm "retX") = some r) (hr0 : r ≠ 0)
    (hw1 : w1 ≠ 0) (hw2 : w2 ≠ 0) (hw3 : w3 ≠ 0)
    {l : Lib} (hl : l ∈ p.libs) (hg : good l) {off : Addr} (hoff : (off, nm "retX") ∈ rlOf l)
    {code : Addr → Val → Prog Val} (cr : code r = retBuf) (c1 : code w1 = bufWrapper h1 1)
    (c2 : code w2 = bufWrapper h2 2) (c3 : code w3 = bufWrapper h3 3) :
    ∃ s', ∀ t v s'', Eval (machine p.env) code p.start (prioMain p1 p2 p3 w1 w2 w3 h1 h2 h3 l off) t v s'' ↔
      t = [] ∧ v = .int (if (p1 ≠ p2 ∧ p1 ≠ p3 ∧ p2 ≠ p3) ∨ (p1 = p2 ∧ p2 = p3) ∨ (p1 = p3 ∧ p2 < p1) ∨
        (p2 = p3 ∧ p1 < p2) then 0 else 1) ∧ s'' = s' := by
  have hst := prio_stack p p1 p2 p3 w1 w2 w3 h1 h2 h3
  have hreal : realAfter p.env p.libs (prioOps p1 p2 p3 w1 w2 w3 h1 h2 h3) (nm "retX") = some r := by
    have := real_first (env := p.env) (libs := p.libs) retX_own (ops := prioOps p1 p2 p3 w1 w2 w3 h1 h2 h3)
      (by
        intro op ho L
        simp only [prioOps, List.mem_cons, List.not_mem_nil, or_false] at ho
        rcases ho with rfl | rfl | rfl | rfl | rfl | rfl <;> rfl)
      (by simp [clientFrames, prioOps, initTool]) [] hr
    rwa [List.append_nil] at this
  have found : ∀ {ops : List Op} {w : Addr} {hd : HAddr} {tool : Option Name},
      libsAfter p.libs ops = p.libs → vdsoAfter p.env p.libs (ops ++ [.wrap [⟨nm "retX", w, hd⟩] tool]) = p.env.vdsoOf p.libs →
      Answered p ops (.wrap [⟨nm "retX", w, hd⟩] tool) (.ret .success) := by
    intro ops w hd tool e1 e2
    refine found_of ?_
    intro u hu
    rw [List.mem_singleton.1 hu, e1, e2]
    exact fun e => absurd (hr.symm.trans e) (by simp)
  refine test_run ok h ?_
  refine .event ⟨.set, rfl⟩ (.event ⟨.set, rfl⟩ (.event ⟨.set, rfl⟩ (.event ⟨found rfl rfl, rfl⟩
    (.event ⟨found rfl rfl, rfl⟩ (.event ⟨found rfl rfl, rfl⟩ ?_)))))
  rw [if_neg (by simp [initResult])]
  have fin : ∀ {a b c : Frame} {i j k : Nat} {d : Int},
      stackOf p (prioOps p1 p2 p3 w1 w2 w3 h1 h2 h3) (nm "retX") = [a, b, c] →
      code a.wrapper = bufWrapper a.handle i → code b.wrapper = bufWrapper b.handle j →
      code c.wrapper = bufWrapper c.handle k → b.wrapper ≠ 0 → c.wrapper ≠ 0 →
      (if Val.buf (tag i ++ tag j ++ tag k) = .buf (expected p1 p2 p3) then 0 else 1) = d →
      Eval (ideal p good (stackOf p)) code (prioOps p1 p2 p3 w1 w2 w3 h1 h2 h3)
        (.call (.slot l off) (.buf []) fun str =>
          if str = .buf (expected p1 p2 p3) then .ret (.int 0) else .ret (.int 1)) [] (.int d)
        (prioOps p1 p2 p3 w1 w2 w3 h1 h2 h3) := by
    intro a b c i j k d hs ca cb cc hb hc hd
    refine Eval.call (t1 := []) (t2 := []) (.wrapped ⟨hl, hg⟩ hoff hs)
      (buf_run hs hreal hr0 cr ca cb cc hb hc) ?_
    subst hd
    split <;> exact .ret
  simp only at hst
  show Eval _ _ (prioOps p1 p2 p3 w1 w2 w3 h1 h2 h3) _ _ _ _
  have q12 : p1 ≤ p2 ↔ ¬ p2 < p1 := by omega
  have q13 : p1 ≤ p3 ↔ ¬ p3 < p1 := by omega
  have q23 : p2 ≤ p3 ↔ ¬ p3 < p2 := by omega
  have q21 : p2 ≤ p1 ↔ ¬ p1 < p2 := by omega
  have q31 : p3 ≤ p1 ↔ ¬ p1 < p3 := by omega
  have q32 : p3 ≤ p2 ↔ ¬ p2 < p3 := by omega
  have d12 : p1 = p2 ↔ ¬ p1 < p2 ∧ ¬ p2 < p1 := by omega
  have d13 : p1 = p3 ↔ ¬ p1 < p3 ∧ ¬ p3 < p1 := by omega
  have d23 : p2 = p3 ↔ ¬ p2 < p3 ∧ ¬ p3 < p2 := by omega
  by_cases l12 : p1 < p2 <;> by_cases l21 : p2 < p1 <;> by_cases l13 : p1 < p3 <;> by_cases l31 : p3 < p1 <;>
    by_cases l23 : p2 < p3 <;> by_cases l32 : p3 < p2 <;> first
    | omega
    | (simp only [l12, l13, l23, if_true, if_false] at hst
       first
       | exact fin hst c1 c2 c3 hw2 hw3 (by
           simp [expected, bubble, exch, q12, q13, q23, q21, q31, q32, d12, d13, d23, l12, l21, l13, l31, l23, l32,
             tag, digit])
       | exact fin hst c1 c3 c2 hw3 hw2 (by
           simp [expected, bubble, exch, q12, q13, q23, q21, q31, q32, d12, d13, d23, l12, l21, l13, l31, l23, l32,
             tag, digit])
       | exact fin hst c2 c1 c3 hw1 hw3 (by
           simp [expected, bubble, exch, q12, q13, q23, q21, q31, q32, d12, d13, d23, l12, l21, l13, l31, l23, l32,
             tag, digit])
       | exact fin hst c2 c3 c1 hw3 hw1 (by
           simp [expected, bubble, exch, q12, q13, q23, q21, q31, q32, d12, d13, d23, l12, l21, l13, l31, l23, l32,
             tag, digit])
       | exact fin hst c3 c1 c2 hw1 hw2 (by
           simp [expected, bubble, exch, q12, q13, q23, q21, q31, q32, d12, d13, d23, l12, l21, l13, l31, l23, l32,
             tag, digit])
       | exact fin hst c3 c2 c1 hw2 hw1 (by
           simp [expected, bubble, exch, q12, q13, q23, q21, q31, q32, d12, d13, d23, l12, l21, l13, l31, l23, l32,
             tag, digit]))

/-! ### dispatcher -/

theorem foo_bar_own : nm "foo" ∉ ownNames ∧ nm "bar" ∉ ownNames := by decide +kernel
theorem foo_bar_ne : nm "foo" ≠ nm "bar" ∧ nm "bar" ≠ nm "foo" := by decide +kernel

theorem cl_disp_foo (wf wb : Addr) (hf hb : HAddr) (ld : Load) :
    clientFrames [dispWrap wf wb hf hb, .dlopen ld] (nm "foo") = [⟨nm "test", wf, hf⟩] := by
  simp [clientFrames, dispWrap, frame, toolName, foo_bar_ne.2]

theorem cl_disp_bar (wf wb : Addr) (hf hb : HAddr) (ld : Load) :
    clientFrames [dispWrap wf wb hf hb, .dlopen ld] (nm "bar") = [⟨nm "test", wb, hb⟩] := by
  simp [clientFrames, dispWrap, frame, toolName, foo_bar_ne.1]

/-- C113: test/dispatcher.  The library whose foo is wrapped loads another that exports foo and bar, too, and asks
dlsym for them.  It gets the functions of the library it loaded and not the wrappers, which would call it again;
the program writes 65 and ends with 0. -/
theorem C113_dispatcher {p : Process} (ok : p.Ok) {good : Lib → Prop} {wf wb : Addr} {hf hb : HAddr} {ld : Load}
    (h : HistoryFor p True good [dispWrap wf wb hf hb, .dlopen ld])
    (hd : HasDl p [dispWrap wf wb hf hb, .dlopen ld]) {rf rb : Addr}
    (hrf : firstDef (p.env.vdsoOf p.libs) p.libs (nm "foo") = some rf)
    (hrb : firstDef (p.env.vdsoOf p.libs) p.libs (nm "bar") = some rb)
    {l : Lib} (hl : l ∈ p.libs) (hg : good l) {off : Addr} (hoff : (off, nm "foo") ∈ rlOf l)
    {dl : List Lib → RealDl} {n : Nat} {fi bi who : Addr}
    (hfi : (dl (p.libs ++ ld.libs)).dlsym (.other n) (nm "foo") = fi)
    (hbi : (dl (p.libs ++ ld.libs)).dlsym (.other n) (nm "bar") = bi)
    (hf0 : fi ≠ 0) (hb0 : bi ≠ 0) (hff : fi ≠ rf) (hbb : bi ≠ rb)
    {code : Addr → Int → Prog Int} (cr : code rf = dispFoo dl ld n who) (cw : code wf = doIt hf)
    (cf : code fi = implFoo) (cb : code bi = implBar) :
    ∃ s', ∀ t v s'', Eval (machine p.env) code p.start (dispMain wf wb hf hb l off) t v s'' ↔
      t = [65] ∧ v = 0 ∧ s'' = s' := by
  have hst1 : stackOf p [dispWrap wf wb hf hb] (nm "foo") = [⟨nm "test", wf, hf⟩] :=
    stackOf_one foo_bar_own.1 (by simp [clientFrames, dispWrap, frame, toolName, foo_bar_ne.2])
  have hstf : stackOf p [dispWrap wf wb hf hb, .dlopen ld] (nm "foo") = [⟨nm "test", wf, hf⟩] :=
    stackOf_one foo_bar_own.1 (cl_disp_foo ..)
  have hstb : stackOf p [dispWrap wf wb hf hb, .dlopen ld] (nm "bar") = [⟨nm "test", wb, hb⟩] :=
    stackOf_one foo_bar_own.2 (cl_disp_bar ..)
  have hq : ∀ op ∈ [dispWrap wf wb hf hb], ∀ L, loadStep L op = L := by
    intro op ho L; rw [List.mem_singleton.1 ho]; rfl
  have hrf1 : ∀ more, realAfter p.env p.libs ([dispWrap wf wb hf hb] ++ more) (nm "foo") = some rf := fun more =>
    real_first foo_bar_own.1 hq (by simp [clientFrames, dispWrap]) more hrf
  have hrb1 : ∀ more, realAfter p.env p.libs ([dispWrap wf wb hf hb] ++ more) (nm "bar") = some rb := fun more =>
    real_first foo_bar_own.2 hq (by simp [clientFrames, dispWrap]) more hrb
  refine test_run ok h ?_
  refine .event ⟨found_of ?_, rfl⟩ ?_
  · intro u hu
    simp only [List.mem_cons, List.not_mem_nil, or_false] at hu
    rcases hu with rfl | rfl
    · exact fun e => absurd (hrf.symm.trans e) (by simp)
    · exact fun e => absurd (hrb.symm.trans e) (by simp)
  refine Eval.call (t1 := []) (t2 := [65]) (w := 65) (s1 := [dispWrap wf wb hf hb, .dlopen ld])
    (.wrapped ⟨hl, hg⟩ hoff hst1) ?_ (.out .ret)
  show Eval _ _ _ (code wf 0) _ _ _
  rw [cw]
  refine .look (a := rf) (.last (pre := []) hst1 (hrf1 [])) ?_
  refine Eval.call (t1 := []) (t2 := []) .fixed ?_ .ret
  rw [cr]
  refine .event ⟨.dlopen, rfl⟩ ?_
  refine .look (a := fi) (.sym ?_) ?_
  · have := Found.notSole (p := p) (who := who) (n := n) (real := dl (p.libs ++ ld.libs)) hd hstf (hrf1 [.dlopen ld])
      (by rw [hfi]; exact hf0) (by rw [hfi]; exact hff)
    rw [hfi] at this
    exact this
  rw [if_neg hf0]
  refine .look (a := bi) (.sym ?_) ?_
  · have := Found.notSole (p := p) (who := who) (n := n) (real := dl (p.libs ++ ld.libs)) hd hstb (hrb1 [.dlopen ld])
      (by rw [hbi]; exact hb0) (by rw [hbi]; exact hbb)
    rw [hbi] at this
    exact this
  rw [if_neg hb0]
  have eb : ∀ x, Eval (ideal p good (stackOf p)) code [dispWrap wf wb hf hb, .dlopen ld] (code bi x) [] 23
    [dispWrap wf wb hf hb, .dlopen ld] := fun x => by rw [cb]; exact .ret
  have ef : ∀ x, Eval (ideal p good (stackOf p)) code [dispWrap wf wb hf hb, .dlopen ld] (code fi x) [] 42
    [dispWrap wf wb hf hb, .dlopen ld] := fun x => by rw [cf]; exact .ret
  exact Eval.call (t1 := []) (t2 := []) .fixed (eb _) (Eval.call (t1 := []) (t2 := []) .fixed (eb _)
    (Eval.call (t1 := []) (t2 := []) .fixed (ef _) .ret))

/-! ### dlopen -/

/-- What test/dlopen relies on.  `prog` is the program, `num` is libnum.so; `r4` and `r6` are the functions
return_four and return_six of libnum.so and libnum2.so, `five` is test_return_five. -/
structure DlTest (p : Process) (good : Lib → Prop) (dl : List Lib → RealDl) (ld1 ld2 : Load) (n0 n1 n2 : Nat)
    (who r4 r6 five : Addr) (num : Lib) (off : Addr) : Prop where
  /-- Nothing that is loaded at the start exports return_four, and nothing exports return_six before libnum2.so is
  loaded.  -/
  no4 : firstDef (p.env.vdsoOf p.libs) p.libs (nm "return_four") = none
  no6 : firstDef (p.env.vdsoOf p.libs) (p.libs ++ ld1.libs) (nm "return_six") = none
  def4 : firstDef (p.env.vdsoOf p.libs) (p.libs ++ ld1.libs) (nm "return_four") = some r4
  def6 : firstDef (p.env.vdsoOf p.libs) (p.libs ++ ld1.libs ++ ld2.libs) (nm "return_six") = some r6
  /-- libnum.so calls return_five through its slot `off`. -/
  slot : num ∈ ld1.libs ∧ good num ∧ (off, nm "return_five") ∈ rlOf num
  /-- The C library finds what is asked for in the library given. -/
  sym4 : (dl (p.libs ++ ld1.libs)).dlsym (.other n1) (nm "return_four") = r4
  sym5 : (dl (p.libs ++ ld1.libs)).dlsym (.other n1) (nm "test_return_five") = five
  sym6 : (dl (p.libs ++ ld1.libs ++ ld2.libs)).dlsym (.other n2) (nm "return_six") = r6
  /-- With RTLD_DEFAULT it does not find what only these libraries export; it would do no harm if it found the two
  functions that are wrapped. -/
  def4' : (dl (p.libs ++ ld1.libs ++ ld2.libs)).dlsym (.other n0) (nm "return_four") = 0 ∨
    (dl (p.libs ++ ld1.libs ++ ld2.libs)).dlsym (.other n0) (nm "return_four") = r4
  def5' : (dl (p.libs ++ ld1.libs ++ ld2.libs)).dlsym (.other n0) (nm "test_return_five") = 0
  def6' : (dl (p.libs ++ ld1.libs ++ ld2.libs)).dlsym (.other n0) (nm "return_six") = 0 ∨
    (dl (p.libs ++ ld1.libs ++ ld2.libs)).dlsym (.other n0) (nm "return_six") = r6
  dummy' : (dl (p.libs ++ ld1.libs ++ ld2.libs)).dlsym (.other n0) (nm "return_dummy") = 0
  /-- The program is the first object on the list, test_return_five is exported by libnum.so and by none between
  the two; return_dummy by none. -/
  next : ∃ prog rest Y Z, p.libs = prog :: rest ∧ Contains prog who ∧ rest ++ ld1.libs ++ ld2.libs = Y ++ num :: Z ∧
    p.env.vdsoOf p.libs ≠ some num.lm ∧ exportsAt num (nm "test_return_five") ≠ none ∧
    (∀ o ∈ Y, p.env.vdsoOf p.libs = some o.lm ∨ exportsAt o (nm "test_return_five") = none) ∧
    ∀ o ∈ rest ++ ld1.libs ++ ld2.libs, p.env.vdsoOf p.libs = some o.lm ∨ exportsAt o (nm "return_dummy") = none
  next5 : (dl (p.libs ++ ld1.libs ++ ld2.libs)).dlsym ((dl (p.libs ++ ld1.libs ++ ld2.libs)).dlopen num.name)
    (nm "test_return_five") = five

theorem dl_own : nm "return_four" ∉ ownNames ∧ nm "return_five" ∉ ownNames ∧ nm "return_six" ∉ ownNames ∧
    nm "test_return_five" ∉ ownNames ∧ nm "return_dummy" ∉ ownNames := by decide +kernel

section
variable (w4 w5 w6 : Addr) (h4 h5 h6 : HAddr)

theorem cl_dl4 : clientFrames [dlWrap w4 w5 w6 h4 h5 h6] (nm "return_four") = [⟨nm "dlopen_test", w4, h4⟩] := by
  have h1 : nm "return_five" ≠ nm "return_four" := by decide +kernel
  have h2 : nm "return_six" ≠ nm "return_four" := by decide +kernel
  simp [clientFrames, dlWrap, frame, toolName, h1, h2]

theorem cl_dl5 : clientFrames [dlWrap w4 w5 w6 h4 h5 h6] (nm "return_five") = [⟨nm "dlopen_test", w5, h5⟩] := by
  have h1 : nm "return_four" ≠ nm "return_five" := by decide +kernel
  have h2 : nm "return_six" ≠ nm "return_five" := by decide +kernel
  simp [clientFrames, dlWrap, frame, toolName, h1, h2]

theorem cl_dl6 : clientFrames [dlWrap w4 w5 w6 h4 h5 h6] (nm "return_six") = [⟨nm "dlopen_test", w6, h6⟩] := by
  have h1 : nm "return_four" ≠ nm "return_six" := by decide +kernel
  have h2 : nm "return_five" ≠ nm "return_six" := by decide +kernel
  simp [clientFrames, dlWrap, frame, toolName, h1, h2]

theorem cl_dlt : clientFrames [dlWrap w4 w5 w6 h4 h5 h6] (nm "test_return_five") = [] := by
  have h1 : nm "return_four" ≠ nm "test_return_five" := by decide +kernel
  have h2 : nm "return_five" ≠ nm "test_return_five" := by decide +kernel
  have h3 : nm "return_six" ≠ nm "test_return_five" := by decide +kernel
  simp [clientFrames, dlWrap, h1, h2, h3]

theorem cl_dld : clientFrames [dlWrap w4 w5 w6 h4 h5 h6] (nm "return_dummy") = [] := by
  have h1 : nm "return_four" ≠ nm "return_dummy" := by decide +kernel
  have h2 : nm "return_five" ≠ nm "return_dummy" := by decide +kernel
  have h3 : nm "return_six" ≠ nm "return_dummy" := by decide +kernel
  simp [clientFrames, dlWrap, h1, h2, h3]

theorem cl_more (W : Op) (ld1 ld2 : Load) (f : Name) :
    clientFrames [W, .dlopen ld1] f = clientFrames [W] f ∧
    clientFrames [W, .dlopen ld1, .dlopen ld2] f = clientFrames [W] f := by
  simp [clientFrames]
end

/-- The link maps on which a function of the table is looked for. -/
theorem tries_dl {env : Env} {libs : List Lib} {W : Op} {tbl tool} (hW : W = .wrap tbl tool) {f : Name}
    (hf : f ∉ ownNames) (hc : clientFrames [W] f ≠ []) (ld1 ld2 : Load) :
    tries env libs f [] [W, .dlopen ld1] = [libs, libs ++ ld1.libs] ∧
    tries env libs f [] [W, .dlopen ld1, .dlopen ld2] =
      [libs, libs ++ ld1.libs, libs ++ ld1.libs ++ ld2.libs] := by
  obtain ⟨e1, -⟩ := cl_more W ld1 ld2 f
  have h0 : registered env [] f = [] := registered_client env [] hf
  have h1 : registered env [W] f ≠ [] := by rw [registered_client _ _ hf]; exact hc
  have h2 : registered env [W, .dlopen ld1] f ≠ [] := by rw [registered_client _ _ hf, e1]; exact hc
  have t1 : isTry env f [] W = true := by
    subst hW
    simp [isTry, h0, h1]
  have t2 : isTry env f [W] (.dlopen ld1) = true := by simp [isTry, h1]
  have t3 : isTry env f [W, .dlopen ld1] (.dlopen ld2) = true := by simp [isTry, h2]
  subst hW
  simp [tries, t1, t2, t3, libsAfter, loadStep]

theorem finds_ok {p : Process} {good : Lib → Prop} {order : List Op → Name → List Frame}
    {code : Addr → Int → Prog Int} {s s' : List Op} {dl hnd f who want err} {k : Int → Prog Int} {t v} {a : Addr}
    (hs : (ideal p good order).goto s (.sym dl hnd (nm f) who) a) (ha : a ≠ 0)
    (hc : Eval (ideal p good order) code s (code a 0) [] want s)
    (hk : Eval (ideal p good order) code s (k err) t v s') :
    Eval (ideal p good order) code s (finds dl hnd f who want err k) t v s' := by
  refine .look hs ?_
  rw [if_neg ha]
  refine Eval.call (t1 := []) (t2 := t) .fixed hc ?_
  rw [if_neg (by simp)]
  exact hk

theorem calls_ok {p : Process} {good : Lib → Prop} {order : List Op → Name → List Frame}
    {code : Addr → Int → Prog Int} {s s' : List Op} {dl hnd f who want err} {k : Int → Prog Int} {t v} {a : Addr}
    (hs : (ideal p good order).goto s (.sym dl hnd (nm f) who) a) (ha : a ≠ 0)
    (hc : Eval (ideal p good order) code s (code a 0) [] want s)
    (hk : Eval (ideal p good order) code s (k err) t v s') :
    Eval (ideal p good order) code s (calls dl hnd f who want err k) t v s' := by
  refine .look hs ?_
  rw [if_neg ha]
  refine Eval.call (t1 := []) (t2 := t) .fixed hc ?_
  rw [if_neg (by simp)]
  exact hk

theorem lacks_ok {p : Process} {good : Lib → Prop} {order : List Op → Name → List Frame}
    {code : Addr → Int → Prog Int} {s s' : List Op} {dl hnd f who err} {k : Int → Prog Int} {t v}
    (hs : (ideal p good order).goto s (.sym dl hnd (nm f) who) 0)
    (hk : Eval (ideal p good order) code s (k err) t v s') :
    Eval (ideal p good order) code s (lacks dl hnd f who err k) t v s' := by
  refine .look hs ?_
  rw [if_neg (by simp)]
  exact hk

/-- C113: test/dlopen.  gotcha_wrap reports that a function is missing; then the functions arrive with the libraries,
and what the program gets from dlsym and the calls in the libraries are the wrappers.  Every check passes and the
program ends with 0. -/
theorem C113_dlopen {p : Process} (ok : p.Ok) {good : Lib → Prop} {w4 w5 w6 : Addr} {h4 h5 h6 : HAddr}
    {dl : List Lib → RealDl} {ld1 ld2 : Load} {n0 n1 n2 : Nat} {who r4 r6 five : Addr} {num : Lib} {off : Addr}
    (h : HistoryFor p True good [dlWrap w4 w5 w6 h4 h5 h6, .dlopen ld1, .dlopen ld2])
    (hd1 : HasDl p [dlWrap w4 w5 w6 h4 h5 h6, .dlopen ld1])
    (hd2 : HasDl p [dlWrap w4 w5 w6 h4 h5 h6, .dlopen ld1, .dlopen ld2])
    (T : DlTest p good dl ld1 ld2 n0 n1 n2 who r4 r6 five num off)
    (hw4 : w4 ≠ 0) (hw6 : w6 ≠ 0) (h50 : five ≠ 0)
    {code : Addr → Int → Prog Int} (c4 : code w4 = correctFour) (c5 : code w5 = correctFive)
    (c6 : code w6 = correctSix) (ct : code five = testFive num off) :
    ∃ s', ∀ t v s'', Eval (machine p.env) code p.start
        (dlMain w4 w5 w6 h4 h5 h6 dl ld1 ld2 n0 n1 n2 who) t v s'' ↔ t = [] ∧ v = 0 ∧ s'' = s' := by
  obtain ⟨o4, o5, o6, ot, od⟩ := dl_own
  generalize hW : dlWrap w4 w5 w6 h4 h5 h6 = W at *
  have k4 := cl_dl4 w4 w5 w6 h4 h5 h6
  have k5 := cl_dl5 w4 w5 w6 h4 h5 h6
  have k6 := cl_dl6 w4 w5 w6 h4 h5 h6
  have kt := cl_dlt w4 w5 w6 h4 h5 h6
  have kd := cl_dld w4 w5 w6 h4 h5 h6
  have st : ∀ f {fr}, f ∉ ownNames → clientFrames [W] f = [fr] → stackOf p [W, .dlopen ld1] f = [fr] ∧
      stackOf p [W, .dlopen ld1, .dlopen ld2] f = [fr] := fun f fr hf hc =>
    ⟨stackOf_one hf ((cl_more W ld1 ld2 f).1.trans hc), stackOf_one hf ((cl_more W ld1 ld2 f).2.trans hc)⟩
  have sn : ∀ f, f ∉ ownNames → clientFrames [W] f = [] → stackOf p [W, .dlopen ld1] f = [] ∧
      stackOf p [W, .dlopen ld1, .dlopen ld2] f = [] := fun f hf hc =>
    ⟨stackOf_none hf ((cl_more W ld1 ld2 f).1.trans hc), stackOf_none hf ((cl_more W ld1 ld2 f).2.trans hc)⟩
  rw [hW] at k4 k5 k6 kt kd
  have v1 : vdsoAfter p.env p.libs [W, .dlopen ld1] = p.env.vdsoOf p.libs := by rw [← hW]; rfl
  have v2 : vdsoAfter p.env p.libs [W, .dlopen ld1, .dlopen ld2] = p.env.vdsoOf p.libs := by rw [← hW]; rfl
  have L1 : libsAfter p.libs [W, .dlopen ld1] = p.libs ++ ld1.libs := by rw [← hW]; rfl
  have L2 : libsAfter p.libs [W, .dlopen ld1, .dlopen ld2] = p.libs ++ ld1.libs ++ ld2.libs := by rw [← hW]; rfl
  have a2 : [W, Op.dlopen ld1, .dlopen ld2].any isApi = true := by rw [← hW]; rfl
  have a1 : [W, Op.dlopen ld1].any isApi = true := by rw [← hW]; rfl
  have no6' : firstDef (p.env.vdsoOf p.libs) p.libs (nm "return_six") = none :=
    (firstDef_none _ _ _).2 fun l hl => (firstDef_none _ _ _).1 T.no6 l (by simp [hl])
  have t4 := tries_dl (env := p.env) (libs := p.libs) hW.symm o4 (by rw [k4]; simp) ld1 ld2
  have t6 := tries_dl (env := p.env) (libs := p.libs) hW.symm o6 (by rw [k6]; simp) ld1 ld2
  have r41 : realAfter p.env p.libs [W, .dlopen ld1] (nm "return_four") = some r4 := by
    simp [realAfter, t4.1, v1, T.no4, T.def4]
  have r42 : realAfter p.env p.libs [W, .dlopen ld1, .dlopen ld2] (nm "return_four") = some r4 := by
    simp [realAfter, t4.2, v2, T.no4, T.def4]
  have r62 : realAfter p.env p.libs [W, .dlopen ld1, .dlopen ld2] (nm "return_six") = some r6 := by
    have := T.def6
    rw [List.append_assoc] at this
    simp [realAfter, t6.2, v2, no6', T.no6, this]
  refine test_run ok h ?_
  rw [← hW]
  refine .event (o := .ret .functionNotFound) ⟨.missing ⟨[], _, _, rfl, ?_, ?_, ?_⟩, rfl⟩ ?_
  · show nm "return_four" ≠ nm "main"
    decide +kernel
  · rw [registered_client _ _ o4]; rfl
  · exact (firstDef_none _ _ _).1 T.no4
  rw [hW]
  refine .event ⟨.dlopen, rfl⟩ ?_
  have e4 : ∀ ops, Eval (ideal p good (stackOf p)) code ops (code w4 0) [] 4 ops := fun ops => by
    rw [c4]; exact .ret
  have e6 : ∀ ops, Eval (ideal p good (stackOf p)) code ops (code w6 0) [] 6 ops := fun ops => by
    rw [c6]; exact .ret
  have e5 : ∀ ops, num ∈ libsAfter p.libs ops → stackOf p ops (nm "return_five") = [⟨nm "dlopen_test", w5, h5⟩] →
      Eval (ideal p good (stackOf p)) code ops (code five 0) [] 5 ops := fun ops hn hs => by
    rw [ct]
    refine Eval.call (t1 := []) (t2 := []) (.wrapped ⟨hn, T.slot.2.1⟩ T.slot.2.2 hs) ?_ .ret
    show Eval _ _ _ (code w5 0) _ _ _
    rw [c5]; exact .ret
  refine finds_ok (a := w4) (.sym ?_) hw4 (e4 _) ?_
  · refine Found.sole hd1 (st _ o4 k4).1 ?_
    show realAfter p.env p.libs [W, .dlopen ld1] _ = some ((dl (libsAfter p.libs [W, .dlopen ld1])).dlsym _ _)
    rw [r41, L1, T.sym4]
  refine calls_ok (a := five) (.sym ?_) h50 (e5 _ ?_ (st _ o5 k5).1) ?_
  · have := Found.plain (p := p) (ops := [W, .dlopen ld1]) (n := n1) (who := who)
      (real := dl (libsAfter p.libs [W, .dlopen ld1])) hd1 a1 (sn _ ot kt).1
    rw [L1, T.sym5] at this
    show Found p [W, .dlopen ld1] _ (dl (libsAfter p.libs [W, .dlopen ld1])) _ _ _ _
    rw [L1]
    exact this
  · show num ∈ libsAfter p.libs [W, .dlopen ld1]
    rw [L1]; simp [T.slot.1]
  refine .event ⟨.dlopen, rfl⟩ ?_
  show Eval _ _ [W, .dlopen ld1, .dlopen ld2] _ _ _ _
  have G : ∀ {hnd f a}, Found p [W, .dlopen ld1, .dlopen ld2] (stackOf p [W, .dlopen ld1, .dlopen ld2])
      (dl (p.libs ++ ld1.libs ++ ld2.libs)) hnd f who a →
      (ideal p good (stackOf p)).goto [W, .dlopen ld1, .dlopen ld2] (.sym dl hnd f who) a := fun hf => by
    refine .sym ?_
    rw [L2]
    exact hf
  refine finds_ok (a := w6) (G ?_) hw6 (e6 _) ?_
  · refine Found.sole hd2 (st _ o6 k6).2 ?_
    rw [r62, T.sym6]
  refine finds_ok (a := w4) (G ?_) hw4 (e4 _) ?_
  · rcases T.def4' with e | e
    · exact Found.missing hd2 (st _ o4 k4).2 e
    · refine Found.sole hd2 (st _ o4 k4).2 ?_
      rw [r42, e]
  refine lacks_ok (G ?_) ?_
  · have := Found.plain (p := p) (n := n0) (who := who) (real := dl (p.libs ++ ld1.libs ++ ld2.libs)) hd2 a2
      (sn _ ot kt).2
    rwa [T.def5'] at this
  refine finds_ok (a := w6) (G ?_) hw6 (e6 _) ?_
  · rcases T.def6' with e | e
    · exact Found.missing hd2 (st _ o6 k6).2 e
    · refine Found.sole hd2 (st _ o6 k6).2 ?_
      rw [r62, e]
  refine lacks_ok (G ?_) ?_
  · have := Found.plain (p := p) (n := n0) (who := who) (real := dl (p.libs ++ ld1.libs ++ ld2.libs)) hd2 a2
      (sn _ od kd).2
    rwa [T.dummy'] at this
  obtain ⟨prog, rest, Y, Z, eL, hcon, eY, hv, hex, hY, hdum⟩ := T.next
  refine finds_ok (a := five) (G ?_) h50 (e5 _ ?_ (st _ o5 k5).2) ?_
  · have := Found.next (p := p) (who := who) (real := dl (p.libs ++ ld1.libs ++ ld2.libs)) (X := []) (c := prog)
      (Y := Y) (l := num) (Z := Z) hd2 a2 (sn _ ot kt).2
      (by rw [L2, eL, List.nil_append, ← eY]; simp) hcon (by simp) (by rw [v2]; exact hv) hex
      (by rw [v2]; exact hY)
    rwa [T.next5] at this
  · rw [L2]; simp [T.slot.1]
  refine lacks_ok (G ?_) .ret
  exact Found.nowhere (X := []) (c := prog) (Y := rest ++ ld1.libs ++ ld2.libs) hd2 a2 (sn _ od kd).2
    (by rw [L2, eL]; simp) hcon (by simp) (by rw [v2]; exact hdum)

/-! ### the tests in concrete processes -/

namespace Demo

theorem retX_T : firstDef (procT.env.vdsoOf procT.libs) procT.libs (nm "retX") = some 0x50004000 := by decide +kernel
theorem tprog_T : tprog ∈ procT.libs := by show _ ∈ [tprog, tlib, libc]; simp
theorem slot_retX : (0x18, nm "retX") ∈ rlOf tprog := by rw [rl_tprog]; simp
theorem retX_main : nm "retX" ≠ nm "main" := by decide +kernel

theorem histStack : History procT True [initTool "tool1" 0x50a 10, initTool "tool2" 0x50b 11] :=
  historyT (by decide) (by
      intro u hu
      simp only [initTool, List.flatMap_cons, List.flatMap_nil, tableOf, List.append_nil, List.cons_append,
        List.nil_append, List.mem_cons, List.not_mem_nil, or_false] at hu
      rcases hu with rfl | rfl <;> decide)
    (by simp [initTool]) (by
      intro u hu
      simp only [initTool, List.flatMap_cons, List.flatMap_nil, tableOf, List.append_nil, List.cons_append,
        List.nil_append, List.mem_cons, List.not_mem_nil, or_false] at hu
      rcases hu with rfl | rfl <;> exact retX_main)
    ⟨fun _ => dlopenT, fun h => (by cases h), trivial⟩ (by decide)

/-- test/stack in a process of three objects. -/
example (code : Addr → Int → Prog Int) (cr : code 0x50004000 = retX) (c1 : code 0x50a = retXWrapper 10 1)
    (c2 : code 0x50b = retXWrapper 11 2) :
    ∃ s', ∀ t v s'', Eval (machine env) code procT.start (stackMain 0x50a 0x50b 10 11 tprog 0x18) t v s'' ↔
      t = [0x50b, 0x50004000, 13] ∧ v = 0 ∧ s'' = s' :=
  C113_stack procT_ok histStack.for retX_T (by decide) (by decide) tprog_T trivial slot_retX cr c1 c2

/-- test/ppc_stress_multi_module. -/
example (code : Addr → Int → Prog Int) (cr : code 0x50004000 = retX) (c1 : code 0x50a = retXWrapper 10 15) :
    ∃ s', ∀ t v s'', Eval (machine env) code procT.start (stressMain 0x50a 10 tprog 0x18) t v s'' ↔
      t = [0x50004000, 25] ∧ v = 0 ∧ s'' = s' :=
  C113_stress procT_ok (History.prefix (pre := [initTool "tool1" 0x50a 10]) (post := [initTool "tool2" 0x50b 11])
    histStack).for retX_T (by decide) tprog_T
    trivial slot_retX cr c1

theorem histPtr : History procT True [ptrWrap 0x50a 10] :=
  historyT (by decide) (by
      intro u hu
      rw [show u = _ from List.mem_singleton.1 hu]
      decide)
    (by simp [ptrWrap]) (by
      intro u hu
      rw [show u = _ from List.mem_singleton.1 hu]
      show nm "return_four" ≠ nm "main"
      decide +kernel)
    ⟨fun _ => dlopenT, trivial⟩ (by decide)

/-- test/function_ptr. -/
example (code : Addr → Int → Prog Int) (cr : code 0x50005000 = returnFour) (c1 : code 0x50a = correctFour) :
    ∃ s', ∀ t v s'', Eval (machine env) code procT.start (ptrMain 0x50a 10 tprog 0x20) t v s'' ↔
      t = [] ∧ v = 0 ∧ s'' = s' :=
  C113_function_ptr procT_ok histPtr.for (by decide +kernel) tprog_T trivial (by rw [rl_tprog]; simp) rfl cr c1

theorem histPrio (p1 p2 p3 : Int) : History procT True (prioOps p1 p2 p3 0x50a 0x50b 0x50c 10 11 12) :=
  historyT (by show ([10, 11, 12] ++ [1, 2, 3, 4] : List HAddr).Nodup; decide) (by
      intro u hu
      simp only [prioOps, initTool, List.flatMap_cons, List.flatMap_nil, tableOf, List.append_nil, List.cons_append,
        List.nil_append, List.mem_cons, List.not_mem_nil, or_false] at hu
      rcases hu with rfl | rfl | rfl <;> decide)
    (by simp [prioOps, initTool]) (by
      intro u hu
      simp only [prioOps, initTool, List.flatMap_cons, List.flatMap_nil, tableOf, List.append_nil, List.cons_append,
        List.nil_append, List.mem_cons, List.not_mem_nil, or_false] at hu
      rcases hu with rfl | rfl | rfl <;> exact retX_main)
    ⟨fun _ => dlopenT, fun h => (by cases h), fun h => (by cases h), fun h => (by cases h), fun h => (by cases h),
      fun h => (by cases h), trivial⟩ (by show 6 + 3 < 2 ^ 32; decide)

/-- test/priority, for all priorities. -/
theorem prioRun (p1 p2 p3 : Int) (code : Addr → Val → Prog Val) (cr : code 0x50004000 = retBuf)
    (c1 : code 0x50a = bufWrapper 10 1) (c2 : code 0x50b = bufWrapper 11 2) (c3 : code 0x50c = bufWrapper 12 3) :
    ∃ s', ∀ t v s'', Eval (machine env) code procT.start
        (prioMain p1 p2 p3 0x50a 0x50b 0x50c 10 11 12 tprog 0x18) t v s'' ↔
      t = [] ∧ v = .int (if (p1 ≠ p2 ∧ p1 ≠ p3 ∧ p2 ≠ p3) ∨ (p1 = p2 ∧ p2 = p3) ∨ (p1 = p3 ∧ p2 < p1) ∨
        (p2 = p3 ∧ p1 < p2) then 0 else 1) ∧ s'' = s' :=
  C113_priority procT_ok (histPrio p1 p2 p3).for retX_T (by decide) (by decide) (by decide) (by decide) tprog_T
    trivial slot_retX cr c1 c2 c3

/-- The priorities of test/priority/CMakeLists.txt: the seven that are enabled succeed, and so does 1 2 2, which is
commented out; 2 2 1, the other one that is commented out, fails. -/
example (code : Addr → Val → Prog Val) (cr : code 0x50004000 = retBuf)
    (c1 : code 0x50a = bufWrapper 10 1) (c2 : code 0x50b = bufWrapper 11 2) (c3 : code 0x50c = bufWrapper 12 3) :
    (∀ q ∈ [((1, 2, 3) : Int × Int × Int), (1, 3, 2), (2, 1, 3), (2, 3, 1), (3, 1, 2), (3, 2, 1), (2, 1, 2), (1, 2, 2)],
      ∃ s', ∀ t v s'', Eval (machine env) code procT.start
        (prioMain q.1 q.2.1 q.2.2 0x50a 0x50b 0x50c 10 11 12 tprog 0x18) t v s'' ↔
        t = [] ∧ v = .int 0 ∧ s'' = s') ∧
    ∃ s', ∀ t v s'', Eval (machine env) code procT.start (prioMain 2 2 1 0x50a 0x50b 0x50c 10 11 12 tprog 0x18) t v s'' ↔
        t = [] ∧ v = .int 1 ∧ s'' = s' := by
  constructor
  · intro q hq
    obtain ⟨s', h⟩ := prioRun q.1 q.2.1 q.2.2 code cr c1 c2 c3
    refine ⟨s', fun t v s'' => ?_⟩
    rw [h]
    simp only [List.mem_cons, List.not_mem_nil, or_false] at hq
    rcases hq with rfl | rfl | rfl | rfl | rfl | rfl | rfl | rfl <;> simp
  · obtain ⟨s', h⟩ := prioRun 2 2 1 code cr c1 c2 c3
    refine ⟨s', fun t v s'' => ?_⟩
    rw [h]
    simp

def opsT : List Op := [dispWrap 0x50a 0x50b 10 11, .dlopen loadT]

theorem histDisp : History procT True opsT :=
  historyT (by decide) (by
      intro u hu
      simp only [opsT, dispWrap, List.flatMap_cons, List.flatMap_nil, tableOf, List.append_nil,
        List.mem_cons, List.not_mem_nil, or_false] at hu
      rcases hu with rfl | rfl <;> decide)
    (by simp [opsT, dispWrap]) (by
      intro u hu
      simp only [opsT, dispWrap, List.flatMap_cons, List.flatMap_nil, tableOf, List.append_nil,
        List.mem_cons, List.not_mem_nil, or_false] at hu
      rcases hu with rfl | rfl
      · show nm "foo" ≠ nm "main"; decide +kernel
      · show nm "bar" ≠ nm "main"; decide +kernel)
    ⟨fun _ => dlopenT, loadT_ok, trivial⟩ (by decide)

/-- The C library's dlsym, for the handle of libimpl. -/
def dlT (_ : List Lib) : RealDl :=
  ⟨fun _ f => if f = nm "foo" then 0x60004000 else if f = nm "bar" then 0x60005000 else 0, fun _ => .other 0⟩

/-- test/dispatcher. -/
example (code : Addr → Int → Prog Int) (cr : code 0x50006000 = dispFoo dlT loadT 1 0x50006010)
    (cw : code 0x50a = doIt 10) (cf : code 0x60004000 = implFoo) (cb : code 0x60005000 = implBar) :
    ∃ s', ∀ t v s'', Eval (machine env) code procT.start (dispMain 0x50a 0x50b 10 11 tprog 0x28) t v s'' ↔
      t = [65] ∧ v = 0 ∧ s'' = s' :=
  C113_dispatcher procT_ok histDisp.for ⟨by decide +kernel, by decide +kernel⟩ (rf := 0x50006000) (rb := 0x50007000)
    (by decide +kernel) (by decide +kernel) tprog_T trivial (by rw [rl_tprog]; simp)
    (by decide +kernel) (by decide +kernel) (by decide) (by decide) (by decide) (by decide) cr cw cf cb

/-- The C library's dlsym for the program test_dlopen; 1 and 2 are the handles of the two libraries and 0 is
RTLD_DEFAULT. -/
def dlD (_ : List Lib) : RealDl where
  dlsym
    | .other 1, f => if f = nm "return_four" then 0x70004000 else if f = nm "test_return_five" then 0x70005000 else 0
    | .other 2, f => if f = nm "return_four" then 0x80004000 else if f = nm "return_six" then 0x80005000 else 0
    | _, _ => 0
  dlopen n := if n = some (nm "/lib/libnum.so") then .other 1 else .other 2

theorem dlTest : DlTest procD (fun _ => True) dlD loadD1 loadD2 0 1 2 0x10004100 0x70004000 0x80005000 0x70005000
    dnum 0x18 where
  no4 := by decide +kernel
  no6 := by decide +kernel
  def4 := by decide +kernel
  def6 := by decide +kernel
  slot := ⟨by simp [loadD1], trivial, by rw [rl_dnum]; simp⟩
  sym4 := by decide +kernel
  sym5 := by decide +kernel
  sym6 := by decide +kernel
  def4' := Or.inl rfl
  def5' := rfl
  def6' := Or.inl rfl
  dummy' := rfl
  next := by
    refine ⟨dprog, [libc], [libc], [dnum2], rfl, ?_, rfl, by decide +kernel, by decide +kernel, ?_, ?_⟩
    · exact ⟨⟨Got.PT_LOAD, 0, 0x100000⟩, by simp [dprog, obj], rfl, by decide, by decide⟩
    · intro o ho
      rw [List.mem_singleton.1 ho]
      exact Or.inr (by decide +kernel)
    · intro o ho
      have ho' : o ∈ [libc, dnum, dnum2] := ho
      simp only [List.mem_cons, List.not_mem_nil, or_false] at ho'
      rcases ho' with rfl | rfl | rfl <;> exact Or.inr (by decide +kernel)
  next5 := by decide +kernel

/-- test/dlopen. -/
example (code : Addr → Int → Prog Int) (c4 : code 0x50a = correctFour) (c5 : code 0x50b = correctFive)
    (c6 : code 0x50c = correctSix) (ct : code 0x70005000 = testFive dnum 0x18) :
    ∃ s', ∀ t v s'', Eval (machine env) code procD.start
        (dlMain 0x50a 0x50b 0x50c 10 11 12 dlD loadD1 loadD2 0 1 2 0x10004100) t v s'' ↔
      t = [] ∧ v = 0 ∧ s'' = s' :=
  C113_dlopen procD_ok historyD.for ⟨by decide +kernel, by decide +kernel⟩ ⟨by decide +kernel, by decide +kernel⟩
    dlTest (by decide) (by decide) (by decide) c4 c5 c6 ct

end Demo

end Gotcha
