import Verif.Proof.DebugLog
import Verif.Proof.DebugPrint
import Verif.Proof.Calls
import Verif.Proof.View
import Verif.Props.Printf
import Verif.Demo.Facts
import Verif.Demo.Bad
/-
C81 and C82: what GOTCHA reports at debug level 1, and that reporting changes nothing.
-/
namespace Gotcha
open Spec

/-! ### C81: the reports -/

/-- C81.  What gotcha_wrap reports at debug level 1, for a table without "main" after GOTCHA has been
used: the call; that the tool is new; the functions that are registered for the first time and that no
loaded object exports, in the order of the table, each once; and success or their number. -/
theorem C81_wrap {p : Process} (ok : p.Ok) {ops : List Op} {tbl tool}
    (h : History p False (ops ++ [.wrap tbl tool])) (hapi : ops.any isApi = true)
    (hmain : ¬ hasMain tbl) {s os} (hr : run p.env ops p.start = .ok (s, os)) :
    ∃ s' c, gotchaWrap p.env tbl tool s = .ok (s', c) ∧
      Lg.gotchaWrap p.env tbl tool s = .ok (wrapReport (prioAfter (toolName tool) ops).isNone
        (fun f => !(registered p.env ops f).isEmpty)
        (fun f => (firstDef (vdsoAfter p.env p.libs ops) (libsAfter p.libs ops) f).isSome)
        tbl tool, (s', c)) := by
  obtain ⟨s', c, h1, h2⟩ := wrap_callLog ok h hr
  refine ⟨s', c, h1, ?_⟩
  rw [h2]
  congr 2
  have hA := run_real p.env p.libs ops
  have hP := run_prio p.env p.libs ops
  have hS := run_stack_nil p.env p.libs ops
  rw [← abs_start] at hA hP hS
  generalize (Abs.run p.env ops p.abs).1 = A at hA hP hS
  have hin : A.inited = true := hP.2.trans hapi
  have hinit : A.init p.env = A := by unfold Abs.init; rw [if_pos hin]
  unfold callLog initLog
  rw [if_pos hin, hinit, List.nil_append]
  obtain ⟨q1, q2⟩ := pushAllLog_missing (onMainLog p.env) (Abs.onMain p.env) (toolName tool) tbl
    (fun u hu e => hmain ⟨u, hu, e⟩) (A.touch (toolName tool))
    (fun f => !(registered p.env ops f).isEmpty)
    (fun f => (firstDef (vdsoAfter p.env p.libs ops) (libsAfter p.libs ops) f).isSome)
    (by
      intro f
      show _ ↔ A.stack f ≠ []
      rw [Ne, hS f]; simp)
    (by
      intro f
      show _ = (firstDef A.vdso A.libs f).isSome
      rw [hA.1, hA.2.1])
  unfold wrapLog wrapReport
  unfold toolName at q1 q2 ⊢
  dsimp only
  rw [q1, q2]
  unfold toolLog doneMsg
  rw [hP.1]
  simp only [List.singleton_append, List.cons_append, List.nil_append, List.cons.injEq, true_and,
    gt_iff_lt, List.length_pos_iff, ne_eq, ite_not]
  congr 1
  cases prioAfter (tool.getD (nm "[UNSPECIFIED]")) ops <;> simp

/-- Tool B's first table: foo is found, bar is not. -/
example : ∃ s os, run Demo.proc.env (Demo.ops.take 1) Demo.proc.start = .ok (s, os) ∧
    ∃ r, Lg.gotchaWrap Demo.proc.env [⟨nm "foo", 0x50a, 10⟩, ⟨nm "bar", 0x50b, 11⟩] (some Demo.B) s =
      .ok ([.wrapCalled (some Demo.B) 2, .noTool Demo.B, .newTool Demo.B, .symbol (nm "bar"),
        .couldNot 1 2], r) := by
  obtain ⟨s, os, hr⟩ := Demo.prefix_run 1
  obtain ⟨s', c, -, h⟩ := C81_wrap Demo.proc_ok (ops := Demo.ops.take 1) (Demo.prefix_history False 2)
    (by decide) (by
      rintro ⟨u, hu, he⟩
      simp only [List.mem_cons, List.not_mem_nil, or_false] at hu
      rcases hu with rfl | rfl <;> revert he <;> decide +kernel) hr
  refine ⟨s, os, hr, (s', c), ?_⟩
  rw [h]
  congr 2
  decide +kernel

/-- C81, in all cases (also the first use of GOTCHA, and tables with "main"): the symbols that gotcha_wrap
reports with "Symbol %s was found in program" are never found: no loaded object exports them. -/
theorem C81_symbol_refuted {p : Process} (ok : p.Ok) {ops : List Op} {tbl tool}
    (h : History p False (ops ++ [.wrap tbl tool])) {s os}
    (hr : run p.env ops p.start = .ok (s, os)) :
    ∃ lg s' c, Lg.gotchaWrap p.env tbl tool s = .ok (lg, (s', c)) ∧ ∀ f, Msg.symbol f ∈ lg →
      ∀ l ∈ libsAfter p.libs ops,
        vdsoAfter p.env p.libs (ops ++ [.wrap tbl tool]) = some l.lm ∨ exportsAt l f = none := by
  obtain ⟨s', c, h1, h2⟩ := wrap_callLog ok h hr
  refine ⟨_, s', c, h2, ?_⟩
  intro f hf
  have hres : ((Abs.run p.env ops p.abs).1.init p.env).resolve f = none := by
    unfold callLog at hf
    rcases List.mem_append.1 hf with hf | hf
    · exact initLog_symbol p.env _ f hf
    · exact wrapLog_symbol (onMain_same p.env) (onMainLog_symbol p.env) _ _ _ f hf
  have hlibs : ((Abs.run p.env ops p.abs).1.init p.env).libs = libsAfter p.libs ops := by
    rw [init_libs, libs_run]
  have hvd : ((Abs.run p.env ops p.abs).1.init p.env).vdso =
      vdsoAfter p.env p.libs (ops ++ [.wrap tbl tool]) := by
    have := (run_real p.env p.libs (ops ++ [.wrap tbl tool])).2.1
    rw [run_snoc] at this
    rw [← this]
    exact (wrap_same (onMain_same p.env) tbl tool ((Abs.run p.env ops p.abs).1.init p.env)).vdso.symm
  unfold Abs.resolve at hres
  rw [hlibs, hvd] at hres
  exact (firstDef_none _ _ _).1 hres

/-- bar is reported as found although neither of the two objects exports it. -/
example : ∃ s os, run Demo.proc.env (Demo.ops.take 1) Demo.proc.start = .ok (s, os) ∧
    ∃ lg r, Lg.gotchaWrap Demo.proc.env [⟨nm "foo", 0x50a, 10⟩, ⟨nm "bar", 0x50b, 11⟩] (some Demo.B) s =
      .ok (lg, r) ∧ Msg.symbol (nm "bar") ∈ lg ∧ Msg.symbol (nm "foo") ∉ lg ∧
      exportsAt Demo.libc (nm "foo") ≠ none := by
  have h : Demo.after Demo.proc.env (Demo.ops.take 1) Demo.proc.start (fun s =>
      match Lg.gotchaWrap Demo.proc.env [⟨nm "foo", 0x50a, 10⟩, ⟨nm "bar", 0x50b, 11⟩] (some Demo.B) s with
      | .ok (lg, _) => decide (Msg.symbol (nm "bar") ∈ lg ∧ Msg.symbol (nm "foo") ∉ lg)
      | .error _ => false) = true := by decide +kernel
  obtain ⟨s, os, hr, h⟩ := Demo.after_run h
  refine ⟨s, os, hr, ?_⟩
  cases hl : Lg.gotchaWrap Demo.proc.env [⟨nm "foo", 0x50a, 10⟩, ⟨nm "bar", 0x50b, 11⟩]
      (some Demo.B) s with
  | error e => rw [hl] at h; cases h
  | ok x =>
    obtain ⟨lg, r⟩ := x
    simp only [hl, decide_eq_true_eq] at h
    exact ⟨lg, r, rfl, h.1, h.2, by decide +kernel⟩

/-- C81: gotcha_set_priority reports the call and, once, that the tool is new (after GOTCHA has been
used). -/
theorem C81_priority {p : Process} (ok : p.Ok) {ops : List Op} {tool v}
    (h : History p False (ops ++ [.setPriority tool v])) (hapi : ops.any isApi = true) {s os}
    (hr : run p.env ops p.start = .ok (s, os)) :
    ∃ s', gotchaSetPriority p.env tool v s = .ok s' ∧
      Lg.gotchaSetPriority p.env tool v s = .ok (.setPriority tool v ::
        (if (prioAfter tool ops).isNone then [.noTool tool, .newTool tool] else []), s') := by
  obtain ⟨s0, s1, e1, e2, e3, e4, e5, e6⟩ := history_step ok h
  rw [hr] at e1
  cases e1
  have hw : ∃ s', gotchaSetPriority p.env tool v s = .ok s' := by
    simp only [stepOp, bind, Except.bind] at e2
    cases hg : gotchaSetPriority p.env tool v s with
    | error e => simp [hg] at e2
    | ok z => exact ⟨z, rfl⟩
  obtain ⟨s', hw⟩ := hw
  obtain ⟨lg, hlg⟩ := Lg.erase_ok ((Lg.erase_gotchaSetPriority p.env tool v s).trans hw)
  refine ⟨s', hw, ?_⟩
  rw [hlg, gotchaSetPriority_log (C := p.ctx True False) ok.world trivial (fun h => h) h.honest.own
    (by omega) e4 hlg]
  have hP := run_prio p.env p.libs ops
  rw [← abs_start] at hP
  show Except.ok (prioLog p.env tool v (Abs.run p.env ops p.abs).1, s') = _
  generalize (Abs.run p.env ops p.abs).1 = A at hP
  have hin : A.inited = true := hP.2.trans hapi
  have hinit : A.init p.env = A := by unfold Abs.init; rw [if_pos hin]
  unfold prioLog initLog
  rw [if_pos hin, hinit, List.nil_append]
  unfold toolLog
  rw [hP.1]
  cases prioAfter tool ops <;> simp

/-- A new tool after tool B's first table. -/
example : ∃ s os s', run Demo.proc.env (Demo.ops.take 1) Demo.proc.start = .ok (s, os) ∧
    Lg.gotchaSetPriority Demo.proc.env (nm "x") 3 s =
      .ok ([.setPriority (nm "x") 3, .noTool (nm "x"), .newTool (nm "x")], s') := by
  have h : Demo.after Demo.proc.env (Demo.ops.take 1) Demo.proc.start (fun s =>
      match Lg.gotchaSetPriority Demo.proc.env (nm "x") 3 s with
      | .ok (lg, _) => decide (lg = [.setPriority (nm "x") 3, .noTool (nm "x"), .newTool (nm "x")])
      | .error _ => false) = true := by decide +kernel
  obtain ⟨s, os, hr, h⟩ := Demo.after_run h
  cases hl : Lg.gotchaSetPriority Demo.proc.env (nm "x") 3 s with
  | error e => rw [hl] at h; cases h
  | ok x =>
    simp only [hl, decide_eq_true_eq] at h
    obtain ⟨lg, s'⟩ := x
    dsimp only at h
    subst h
    exact ⟨s, os, s', hr, hl⟩

/-- C81: an intercepted dlopen reports the call and then, each once, the wrapped functions of which the
real one is unknown and that no loaded object exports, the new ones included — with the same text
"Symbol %s was found in program". -/
theorem C81_dlopen {p : Process} (ok : p.Ok) {ops : List Op} {ld : Load}
    (h : History p False (ops ++ [.dlopen ld])) (hapi : ops.any isApi = true) {s os}
    (hr : run p.env ops p.start = .ok (s, os)) (file : Option Name) (flags : BitVec 32) :
    ∃ (s' : State) (fs : List Name), dlopenWrapper p.env ld s = .ok s' ∧ Lg.dlopenWrapper p.env file flags ld s =
        .ok (.dlopenCalled file flags :: fs.map Msg.symbol, s') ∧ fs.Nodup ∧
      ∀ f, f ∈ fs ↔ registered p.env ops f ≠ [] ∧ realAfter p.env p.libs ops f = none ∧
        ∀ l ∈ libsAfter p.libs ops ++ ld.libs,
          vdsoAfter p.env p.libs ops = some l.lm ∨ exportsAt l f = none := by
  obtain ⟨s0, s', e1, e2, e3, e4, e5, e6⟩ := history_step ok h
  rw [hr] at e1
  cases e1
  obtain ⟨-, hop⟩ := valid_snoc ops _ (start_valid (hon := True) h.toEvents fun _ => h.honest)
  have hinit : s.inited = true := by
    rw [(history_view ok h.prefix hr).2.2]; exact hapi
  have hw : dlopenWrapper p.env ld s = .ok s' := by
    simp only [stepOp, if_pos hinit, bind, Except.bind] at e2
    cases hg : dlopenWrapper p.env ld s with
    | error e => simp [hg] at e2
    | ok z =>
      simp only [hg, Except.ok.injEq, Prod.mk.injEq] at e2
      rw [← e2.1]
  obtain ⟨lg, hlg⟩ := Lg.erase_ok ((Lg.erase_dlopenWrapper p.env file flags ld s).trans hw)
  have hA := run_real p.env p.libs ops
  have hP := run_prio p.env p.libs ops
  have hS := run_stack_nil p.env p.libs ops
  rw [← abs_start] at hA hP hS
  have hpost : ∃ v G, Post ((p.ctx True False).at v) (seenRun p.seen ops)
      (3 + ops.length) s G (Abs.run p.env ops p.abs).1 := by
    rcases e4 with e4 | e4
    · exfalso
      have := hP.2.trans hapi
      rw [e4.abs] at this
      cases this
    · exact e4
  obtain ⟨v, G, hpost⟩ := hpost
  have hld : LoadOk (p.ctx True False) (seenRun p.seen ops) (Abs.run p.env ops p.abs).1.libs ld :=
    hop.1
  rw [show (Abs.run p.env ops p.abs).1.libs = s.linkMap from top_libs e4] at hld
  obtain ⟨fs, f1, f2, f3⟩ := dlopen_log (C := (p.ctx True False).at v) ok.world trivial hpost
    (ld := ld) (hld.at v) hlg
  refine ⟨s', fs, hw, by rw [hlg, f1], f2, ?_⟩
  intro f
  rw [f3]
  unfold Abs.resolve
  dsimp only
  rw [hA.1, hA.2.1, hA.2.2, firstDef_none, Ne, hS f, List.isEmpty_iff]

/-- A dlopen that does not bring bar: bar is reported again (and "found"). -/
example : ∃ s os s', run Demo.proc.env (Demo.ops.take 3) Demo.proc.start = .ok (s, os) ∧
    Lg.dlopenWrapper Demo.proc.env (some (nm "x.so")) 2 Demo.noLoad s =
      .ok ([.dlopenCalled (some (nm "x.so")) 2, .symbol (nm "bar")], s') := by
  have h : Demo.after Demo.proc.env (Demo.ops.take 3) Demo.proc.start (fun s =>
      match Lg.dlopenWrapper Demo.proc.env (some (nm "x.so")) 2 Demo.noLoad s with
      | .ok (lg, _) => decide (lg = [.dlopenCalled (some (nm "x.so")) 2, .symbol (nm "bar")])
      | .error _ => false) = true := by decide +kernel
  obtain ⟨s, os, hr, h⟩ := Demo.after_run h
  cases hl : Lg.dlopenWrapper Demo.proc.env (some (nm "x.so")) 2 Demo.noLoad s with
  | error e => rw [hl] at h; cases h
  | ok x =>
    simp only [hl, decide_eq_true_eq] at h
    obtain ⟨lg, s'⟩ := x
    dsimp only at h
    subst h
    exact ⟨s, os, s', hr, hl⟩

/-- The plugin of the demo brings bar: only the call is reported. -/
example : ∃ s os s', run Demo.proc.env (Demo.ops.take 3) Demo.proc.start = .ok (s, os) ∧
    Lg.dlopenWrapper Demo.proc.env (some (nm "plug.so")) 2 Demo.loadPlug s =
      .ok ([.dlopenCalled (some (nm "plug.so")) 2], s') := by
  have h : Demo.after Demo.proc.env (Demo.ops.take 3) Demo.proc.start (fun s =>
      match Lg.dlopenWrapper Demo.proc.env (some (nm "plug.so")) 2 Demo.loadPlug s with
      | .ok (lg, _) => decide (lg = [.dlopenCalled (some (nm "plug.so")) 2])
      | .error _ => false) = true := by decide +kernel
  obtain ⟨s, os, hr, h⟩ := Demo.after_run h
  obtain ⟨s', fs, -, h1, -, -⟩ := C81_dlopen Demo.proc_ok (ops := Demo.ops.take 3)
    (Demo.prefix_history False 4) (by decide) hr (some (nm "plug.so")) 2
  rw [h1] at h
  have h := of_decide_eq_true h
  rw [h] at h1
  exact ⟨s, os, s', hr, h1⟩

/-! ### C82: reporting changes nothing -/

/-- C82.  With messages, gotcha_wrap, gotcha_set_priority and the intercepted dlopen compute what they
compute without; in particular they fault in the same states. -/
theorem C82_silent (env : Env) (s : State) :
    (∀ tbl tool, Lg.erase (Lg.gotchaWrap env tbl tool s) = gotchaWrap env tbl tool s) ∧
    (∀ tool v, Lg.erase (Lg.gotchaSetPriority env tool v s) = gotchaSetPriority env tool v s) ∧
    (∀ file flags ld, Lg.erase (Lg.dlopenWrapper env file flags ld s) = dlopenWrapper env ld s) :=
  ⟨fun tbl tool => Lg.erase_gotchaWrap env tbl tool s,
    fun tool v => Lg.erase_gotchaSetPriority env tool v s,
    fun file flags ld => Lg.erase_dlopenWrapper env file flags ld s⟩

/-- C82.  Every message whose strings are not NULL is printed: exactly one line, with thread, process,
place and text (up to 4096 characters; for longer lines see C46). -/
theorem C82_prints {junk : Name → List UInt8} (hj : ∀ f, (junk f).length = 64) {buf : List UInt8}
    (hb : buf.length = 4096) (tid pid : BitVec 32) {m : Msg} (hn : m.hasNull = false) (hf : m.Fits)
    (hl : (m.line tid pid).length ≤ 4096) : m.print junk buf tid pid = .ok (m.line tid pid) := by
  have hps : ∀ q ∈ prefixPieces tid pid m.place.1 m.place.2 ++ m.pieces, q.Ok := by
    intro q hq
    rcases List.mem_append.1 hq with hq | hq
    · exact prefix_ok _ _ _ _ q hq
    · exact pieces_ok m q hq
  have h := Printf.C45_printf hj hb (prefixPieces tid pid m.place.1 m.place.2 ++ m.pieces) hps []
    (by rw [prefix_render tid pid m hf]; exact hl)
  rw [prefix_render tid pid m hf, format_append, prefix_format, pieces_format, args_append,
    pieces_args hn, List.append_nil] at h
  unfold Msg.print
  rw [show [Printf.Arg.int (tid.setWidth 64), .int (pid.setWidth 64), .str m.place.1,
    .int (BitVec.ofNat 64 m.place.2)] = Spec.Printf.args (prefixPieces tid pid m.place.1 m.place.2) from rfl, h]

/-- C82, refuted: without libc, a message with a NULL string is not printed; the process reads through
the NULL pointer.  These are `gotcha_wrap(table, n, NULL)`, where the documented default "[UNSPECIFIED]"
is put in only after the message, and `dlopen(NULL, flags)`, which is legal. -/
theorem C82_null_refuted {junk : Name → List UInt8} (hj : ∀ f, (junk f).length = 64) {buf : List UInt8}
    (hb : buf.length = 4096) (tid pid : BitVec 32) {m : Msg} (hn : m.hasNull = true) :
    m.print junk buf tid pid = .error .nullDeref := by
  cases m with
  | wrapCalled t n =>
    cases t with
    | some t => cases hn
    | none =>
      exact print_null hj hb tid pid (txt := nm "User called gotcha_wrap for tool ")
        (tail := nm " with %d bindings\n") (by
          show Msg.fmt (.wrapCalled none 0) = _
          decide +kernel) (by decide +kernel) rfl (by decide +kernel)
  | dlopenCalled t n =>
    cases t with
    | some t => cases hn
    | none =>
      exact print_null hj hb tid pid (txt := nm "User called dlopen(")
        (tail := nm ", 0x%x)\n") (by
          show Msg.fmt (.dlopenCalled none 0) = _
          decide +kernel) (by decide +kernel) rfl (by decide +kernel)
  | _ => cases hn

/-- C82, for a whole log. -/
theorem C82_prints_all {junk : Name → List UInt8} (hj : ∀ f, (junk f).length = 64) {buf : List UInt8}
    (hb : buf.length = 4096) (tid pid : BitVec 32) (lg : List Msg)
    (h : ∀ m ∈ lg, m.hasNull = false ∧ m.Fits ∧ (m.line tid pid).length ≤ 4096) :
    printAll junk buf tid pid lg = .ok (lg.flatMap (Msg.line tid pid)) := by
  induction lg with
  | nil => rfl
  | cons m lg ih =>
    obtain ⟨h1, h2, h3⟩ := h m (by simp)
    rw [printAll, C82_prints hj hb tid pid h1 h2 h3, ih (fun m' hm' => h m' (by simp [hm']))]
    rfl

/-- C82, refuted: with GOTCHA_DEBUG set and without libc, every call of gotcha_wrap with a NULL tool name,
in any state GOTCHA can be in, crashes when it prints its first message. -/
theorem C82_wrap_null_refuted {p : Process} (ok : p.Ok) {ops : List Op} {tbl}
    (h : History p False (ops ++ [.wrap tbl none])) (hapi : ops.any isApi = true) {s os}
    (hr : run p.env ops p.start = .ok (s, os)) {junk : Name → List UInt8}
    (hj : ∀ f, (junk f).length = 64) {buf : List UInt8} (hb : buf.length = 4096)
    (tid pid : BitVec 32) :
    ∃ lg r, gotchaWrap p.env tbl none s = .ok r ∧ Lg.gotchaWrap p.env tbl none s = .ok (lg, r) ∧
      printAll junk buf tid pid lg = .error .nullDeref := by
  obtain ⟨s', c, h1, h2⟩ := wrap_callLog ok h hr
  refine ⟨_, _, h1, h2, ?_⟩
  have hP := run_prio p.env p.libs ops
  rw [← abs_start] at hP
  generalize (Abs.run p.env ops p.abs).1 = A at hP
  have hin : A.inited = true := hP.2.trans hapi
  unfold callLog initLog
  rw [if_pos hin, List.nil_append]
  unfold wrapLog
  dsimp only
  rw [List.singleton_append, printAll, C82_null_refuted hj hb tid pid rfl]

/-- The call of the demo, printed. -/
example : printAll (fun _ => List.replicate 64 7) (List.replicate 4096 7) 12 34
    [.symbol (nm "bar"), .wrapDone] =
    .ok (nm "[12/34][gotcha.c:117] - Symbol bar was found in program\n" ++
      nm "[12/34][gotcha.c:489] - Gotcha wrap completed successfully\n") := by
  decide +kernel

/-- The NULL tool name. -/
example : (Msg.wrapCalled none 2).print (fun _ => List.replicate 64 7) (List.replicate 4096 7) 12 34 =
    .error .nullDeref :=
  C82_null_refuted (by simp) List.length_replicate 12 34 rfl

/-- Not vacuous: two messages that meet the conditions of `C82_prints_all`. -/
example : ∀ m ∈ [Msg.symbol (nm "bar"), .wrapDone], m.hasNull = false ∧ m.Fits ∧ (m.line 12 34).length ≤ 4096 := by
  simp only [List.forall_mem_cons]
  and_intros
  all_goals first
    | rfl
    | trivial
    | decide +kernel
    | (intro q hq; cases hq)

end Gotcha
