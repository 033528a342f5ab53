import Verif.Props.Dlsym
import Verif.Props.Skip
/-
C79: gotcha_wrap keeps the caller's table by reference.
-/
namespace Gotcha
open Spec HTable

/-- The caller writes `w` into the `wrapper_pointer` of the row of their table that binding `b` was made
from.  src/tool.c:107 stores the address of the row, not its contents (`internal_bindings[i].user_binding
= &user_binding[i]`), so what GOTCHA reads through `user_binding` afterwards is the new value. -/
def State.rewriteRow (s : State) (b : BId) (w : Addr) : State :=
  { s with binds := s.binds.modify b (fun x => { x with user := { x.user with wrapper := w } }) }

namespace TableRef

theorem btu_row {binds : List IBinding} {b c : BId} {w : Addr} {t u}
    (h : btu (binds.modify b (fun x => { x with user := { x.user with wrapper := w } })) c =
      some (t, u)) : ∃ u', btu binds c = some (t, u') ∧ u'.name = u.name ∧ u'.handle = u.handle := by
  simp only [btu, List.getElem?_modify] at h ⊢
  cases hx : binds[c]? with
  | none => simp [hx] at h
  | some x =>
    simp only [hx, Option.map_some] at h ⊢
    split at h <;> (cases h; exact ⟨_, rfl, rfl, rfl⟩)

theorem btu_row' {binds : List IBinding} {b c : BId} {w : Addr} {t u}
    (h : btu binds c = some (t, u)) :
    ∃ u', btu (binds.modify b (fun x => { x with user := { x.user with wrapper := w } })) c =
      some (t, u') ∧ u'.name = u.name ∧ u'.handle = u.handle := by
  simp only [btu, List.getElem?_modify] at h ⊢
  cases hx : binds[c]? with
  | none => simp [hx] at h
  | some x =>
    simp only [hx, Option.map_some] at h ⊢
    cases h
    split <;> exact ⟨_, rfl, rfl, rfl⟩

theorem bnx_row {binds : List IBinding} {b : BId} {w : Addr} :
    bnx (binds.modify b (fun x => { x with user := { x.user with wrapper := w } })) = bnx binds := by
  funext i
  simp only [bnx, List.getElem?_modify]
  cases binds[i]? with
  | none => rfl
  | some x => simp only [Option.map_some]; split <;> rfl

theorem row_inv {C : Ctx} (hh : ¬ C.hon) (hs : ¬ C.sl) {s : State} {G : Gh} {A : Abs}
    (h : Inv C s G A) (b : BId) (w : Addr) : Inv C (s.rewriteRow b w) G A where
  tools := h.tools
  bind := by
    refine ⟨fun f => ?_, fun hb => ?_, fun hb => ?_, fun hb => ?_, fun hb => ?_, fun hb => ?_,
      h.bind.pendc⟩
    · show Seg (bnx (s.binds.modify ..)) _ _ _
      rw [bnx_row]
      exact h.bind.chain f
    · obtain ⟨t, u, e, hn⟩ := h.bind.named hb
      obtain ⟨u', e', h1, -⟩ := btu_row' (b := b) (w := w) e
      exact ⟨t, u', e', h1.trans hn⟩
    · obtain ⟨u', e, -⟩ := btu_row hb
      exact h.bind.okt e
    · obtain ⟨u', e, -, h2⟩ := btu_row hb
      obtain ⟨b', e1, e2⟩ := h.bind.okh e
      rw [h2] at e1
      exact ⟨b', e1, by simpa [State.rewriteRow] using e2⟩
    · simpa [State.rewriteRow] using h.bind.pendb hb
    · show bnx (s.binds.modify ..) _ = _
      rw [bnx_row]
      exact h.bind.pendn hb
  fn := h.fn
  nf := h.nf
  nfm := h.nfm
  lib := h.lib
  wr := h.wr
  objs := h.objs
  nd := h.nd
  placed := h.placed
  vd := h.vd
  hon := fun hc => absurd hc hh
  nfr := fun hc => absurd hc hh
  fresh := fun hc => absurd hc hh
  onch := fun hc => absurd hc hh
  slots := fun hc => absurd hc hs
  prio := h.prio
  stack := fun hc => absurd hc hh
  real := fun hc => absurd hc hh
  libs := h.libs
  vdso := h.vdso
  mainW := h.mainW
  init := h.init
  init' := h.init'

theorem mem_procList {flt : Filter} {g : BitVec 32} {R : Lib → Option LibRec} {l : Lib}
    (hR : ((R l).getD ⟨0, false, 0⟩).gen ≠ g) :
    ∀ {ls : List Lib}, Accepted flt ls l → l ∈ procList flt g R ls := by
  intro ls
  induction ls with
  | nil => rintro ⟨X, Y, e, -⟩; simp at e
  | cons k ls ih =>
    rintro ⟨X, Y, e, ha⟩
    rw [procList]
    cases X with
    | nil =>
      simp only [List.nil_append, List.cons.injEq] at e
      obtain ⟨rfl, rfl⟩ := e
      rw [if_pos (by simp only [processed, ha, Bool.true_and, Bool.not_eq_true', decide_eq_false_iff_not]; exact hR)]
      simp
    | cons x X =>
      simp only [List.cons_append, List.cons.injEq] at e
      have := ih ⟨X, Y, e.2, ha⟩
      split
      · exact List.mem_cons_of_mem _ this
      · exact this

/-- What an intercepted dlopen writes into a library that is not up to date: the wrapper pointer in the
row of the outermost binding. -/
theorem dlopen_writes {C : Ctx} (w : World C.env C.U) {s : State} {G : Gh} {A : Abs}
    (h : Inv C s G A) (hvd : s.vdso = some C.v) {ld : Load} (hld : LoadOk C G.seen s.linkMap ld)
    (hw : ∃ a, s.getWrappee C.env.hDlopen = .ok a) {l : Lib} {off : Addr} {f : Name} {b : BId}
    {x : IBinding} (hacc : Accepted s.filter (s.linkMap ++ ld.libs) l)
    (hst : genAt s.libs G.lm l ≠ s.gen) (hoff : (off, f) ∈ rlOf l) (hb : (G.ch f).head? = some b)
    (hx : s.binds[b]? = some x)
    (hown : ∀ l', C.U l' → ∀ q ∈ rlOf l', l'.addr + q.1 = l.addr + off → l' = l ∧ q.2 = f) :
    ∃ s', dlopenWrapper C.env ld s = .ok s' ∧ s'.mem (l.addr + off) = x.user.wrapper := by
  have hI := load_inv h hld hvd
  obtain ⟨s1, G1, e1, e2, e3⟩ := foreach_pending w hI
  obtain ⟨⟨tl, libs, vd, binds, nft, rfl⟩, ⟨rl, nf, lm, rfl⟩, htu, hext, -⟩ := e3
  have hbd : ∀ f' b', (G.ch f').head? = some b' → b' < binds.length := by
    intro f' b' hb'
    obtain ⟨t, u, e, -⟩ := e2.bind.named (List.mem_of_mem_head? (by
      simp only [Option.mem_def]; exact hb'))
    exact btu_lt e
  obtain ⟨tl', libs', lm', wr', mem', -, -, -, -, -, hmem, he⟩ :=
    updateLibs_spec w (t := s.funTab) (m := fun f => (G.ch f).head?) h.fn (s.linkMap ++ ld.libs) e2.nd
      e2.lib e2.wr e2.objs e2.placed hbd (fun l hl => hl)
  obtain ⟨a, ha⟩ := hw
  refine ⟨{ s.load ld with
    libTab := tl'
    libs := libs'
    vdso := vd
    binds := binds
    notFound := nft
    wr := wr'
    mem := mem' }, ?_, ?_⟩
  · simp only [dlopenWrapper, ha, bind, Except.bind, State.afterDlopen, e1]
    exact he
  · show mem' (l.addr + off) = _
    have hmem' : mem' = passMem (wOf binds fun f => (G.ch f).head?)
      (procList s.filter s.gen (recAt libs lm) (s.linkMap ++ ld.libs)) (s.load ld).mem := hmem
    have hin : l ∈ procList s.filter s.gen (recAt libs lm) (s.linkMap ++ ld.libs) := by
      refine mem_procList ?_ hacc
      show genAt libs lm l ≠ s.gen
      rw [genAt_ext hext]
      exact hst
    have hwf : wOf binds (fun f => (G.ch f).head?) f = some x.user.wrapper := by
      have e := congrFun htu b
      simp only [btu] at e
      have hx' : (s.load ld).binds[b]? = some x := hx
      rw [hx'] at e
      simp only [wOf, hb, Option.bind_some, wrapperOf]
      cases hy : binds[b]? with
      | none => rw [hy] at e; cases e
      | some y =>
        rw [hy] at e
        simp only [Option.map_some, Option.some.injEq, Prod.mk.injEq] at e
        simp [e.2]
    obtain ⟨l', hl', q, hq, ea, hv⟩ := passMem_written (wOf binds fun f => (G.ch f).head?) _
      (s.load ld).mem hin hoff (by rw [hwf]; rfl)
    obtain ⟨X, Y, e, -⟩ := procList_mem hl'
    have hU : C.U l' := (e2.objs l' (by
      show l' ∈ s.linkMap ++ ld.libs
      rw [e]; simp)).1
    obtain ⟨-, hqf⟩ := hown l' hU q hq ea.symm
    rw [hqf, hwf, ← hmem'] at hv
    exact (Option.some.inj hv).symm

theorem getWrappee_row {s : State} {b : BId} {w : Addr} {h : HAddr} {a} (e : s.getWrappee h = .ok a) :
    (s.rewriteRow b w).getWrappee h = .ok a := by
  unfold State.getWrappee at e ⊢
  show (match s.handles h with | none => _ | some c => _) = _
  cases hx : s.handles h with
  | none => rw [hx] at e; cases e
  | some c =>
    rw [hx] at e
    simp only [State.bind, State.rewriteRow, List.getElem?_modify] at e ⊢
    cases hy : s.binds[c]? with
    | none => rw [hy] at e; cases e
    | some y =>
      rw [hy] at e
      by_cases hbc : b = c
      · simpa [hbc, bind, Except.bind] using e
      · simpa [hbc, bind, Except.bind] using e

end TableRef

open TableRef in
/-- C79.  After any history, let `b` be the outermost binding of `f`, made from row `x.user` of some
table.  The next intercepted dlopen redirects the calls of `f` in a new library to the wrapper in that
row; if the caller has put something else into the row in between (the table was a local variable, was
freed or is reused), it redirects them to that. -/
theorem C79_table_kept_by_reference {p : Process} (ok : p.Ok) {ops : List Op} {ld : Load}
    (h : Events p False (ops ++ [.dlopen ld])) (hi : ops.any isApi = true) {s os s1 os1}
    (hr : run p.env ops p.start = .ok (s, os))
    (hr1 : run p.env (ops ++ [.dlopen ld]) p.start = .ok (s1, os1)) {l : Lib} {off : Addr} {f : Name}
    (hl : Admitted (filterAfter ops) (libsAfter p.libs (ops ++ [.dlopen ld])) l)
    (hst : genOf s l ≠ s.gen) (hoff : (off, f) ∈ rlOf l) (hown : OnlySlot p l f (l.addr + off))
    {b : BId} {x : IBinding} (hb : nameLookup s.funTab f = .ok (some b)) (hx : s.binds[b]? = some x)
    (w : Addr) :
    s1.mem (l.addr + off) = x.user.wrapper ∧
      ∃ s2, stepOp p.env (.dlopen ld) (s.rewriteRow b w) = .ok (s2, .unit) ∧
        s2.mem (l.addr + off) = w := by
  obtain ⟨v, G, hP⟩ := run_post ok h.prefix hr hi
  have hin : s.inited = true := hP.inv.init
  obtain ⟨s', os', o, h1, h2, -⟩ := run_last hr1
  rw [hr] at h1
  cases h1
  obtain ⟨-, hv⟩ := valid_snoc ops _ (start_valid (hon := False) h fun hc => absurd hc id)
  have hA : (Abs.run (p.ctx False False).env ops p.abs).1.libs = s.linkMap := hP.inv.libs
  have hlo : LoadOk ((p.ctx False False).at v) G.seen s.linkMap ld := by
    rw [← hA, hP.seen]
    exact ⟨hv.1.objs, hv.1.nd, hv.1.again, hv.1.placed, hv.1.old, hv.1.cover, hv.1.cons, hv.1.keep⟩
  simp only [stepOp, hin, if_true, bind, Except.bind] at h2
  have hw : ∃ a, s.getWrappee p.env.hDlopen = .ok a := by
    cases hx : s.getWrappee p.env.hDlopen with
    | error e => simp [dlopenWrapper, hx, bind, Except.bind] at h2
    | ok a => exact ⟨a, rfl⟩
  obtain ⟨en1, en2⟩ := events_env ok ops h.prefix hr
  have el : libsAfter p.libs (ops ++ [.dlopen ld]) = s.linkMap ++ ld.libs := by
    rw [libsAfter, List.foldl_append, en1]
    rfl
  rw [el, ← en2] at hl
  have hU : ∀ l ∈ s.linkMap ++ ld.libs, p.U l := by
    intro l hl
    rcases List.mem_append.1 hl with hl | hl
    · exact (hP.inv.objs l hl).1
    · exact hlo.objs l hl
  have hlU : p.U l := by
    obtain ⟨X, Y, e, -⟩ := hl
    exact hU l (by rw [e]; simp)
  have hacc := admitted_accepted (env := p.env) ok.world hU hl
  rw [genOf_eq (env := p.env) (U := p.U) ok.world hP.inv.lib hlU] at hst
  have hch : (G.ch f).head? = some b := by
    have e := lookup_tab hP.inv.fn (k := f) (eq := fun k => k = f) name_eq
    have hb' : s.funTab.lookup (strhash f) (fun k => k = f) = .ok (some b) := hb
    rw [e] at hb'
    simpa using hb'
  constructor
  · obtain ⟨s3, e3, e4⟩ := dlopen_writes (C := (p.ctx False False).at v) ok.world hP.inv hP.vd hlo hw
      hacc hst hoff hch hx hown
    have e3' : dlopenWrapper p.env ld s = .ok s3 := e3
    rw [e3'] at h2
    cases h2
    exact e4
  · obtain ⟨a, ha⟩ := hw
    obtain ⟨s3, e3, e4⟩ := dlopen_writes (C := (p.ctx False False).at v) ok.world
      (row_inv id id hP.inv b w) hP.vd hlo ⟨a, getWrappee_row ha⟩ hacc hst hoff hch
      (x := { x with user := { x.user with wrapper := w } })
      (by show (s.binds.modify b _)[b]? = _
          rw [List.getElem?_modify, hx]; simp) hown
    have e3' : dlopenWrapper p.env ld (s.rewriteRow b w) = .ok s3 := e3
    refine ⟨s3, ?_, e4⟩
    have hin' : (s.rewriteRow b w).inited = true := hin
    simp only [stepOp, hin', if_true, bind, Except.bind, e3']

/-! ### The process of Demo/World: tool A's row for foo is overwritten before the plugin is loaded -/

namespace Demo

theorem row_key : (match run env (ops.take 3) proc.start with
    | .ok (s, _) =>
      (match nameLookup s.funTab (nm "foo") with
        | .ok (some b) => (match s.binds[b]? with
          | some x => decide (x.user.wrapper = 0x50c)
          | none => false)
        | _ => false) &&
      decide (genOf s plug ≠ s.gen) &&
      (match run env (ops.take 3 ++ [.dlopen loadPlug]) proc.start with
        | .ok _ => true
        | _ => false)
    | _ => false) = true := by decide +kernel

end Demo

example : ∃ s os b s2, run Demo.env (Demo.ops.take 3) Demo.proc.start = .ok (s, os) ∧
    stepOp Demo.env (.dlopen Demo.loadPlug) (s.rewriteRow b 0xdead) = .ok (s2, .unit) ∧
    s2.mem 0x30000018 = 0xdead := by
  have hk := Demo.row_key
  split at hk
  · rename_i s os h1
    simp only [Bool.and_eq_true, decide_eq_true_eq] at hk
    obtain ⟨⟨hb, hg⟩, h2⟩ := hk
    split at hb
    · rename_i b hb'
      split at hb
      · rename_i x hx
        split at h2
        · rename_i r h3
          have hev : Events Demo.proc False (Demo.ops.take 3 ++ [.dlopen Demo.loadPlug]) :=
            Events.prefix (post := [.wrap [⟨nm "main", 0x50d, 13⟩] (some Demo.M),
              .getPriority Demo.A]) (Demo.history False).toEvents
          have := (C79_table_kept_by_reference (p := Demo.proc) Demo.proc_ok hev rfl h1 h3
            (l := Demo.plug) (off := 0x18) (f := nm "foo") ⟨[Demo.app, Demo.libc], [], rfl, trivial⟩ hg
            (by rw [Demo.rl_plug]; simp) (by
              rintro l' (rfl | rfl | rfl) q hq e
              · rw [Demo.rl_app] at hq
                simp only [List.mem_cons, List.not_mem_nil, or_false] at hq
                rcases hq with rfl | rfl | rfl | rfl <;> exact absurd e (by decide)
              · rw [Demo.rl_libc] at hq; cases hq
              · rw [Demo.rl_plug, List.mem_singleton] at hq
                exact ⟨rfl, by rw [hq]⟩) hb' hx 0xdead).2
          obtain ⟨s2, e1, e2⟩ := this
          exact ⟨s, os, b, s2, h1, e1, e2⟩
        · cases h2
      · cases hb
    · cases hb
  · cases hk

/-! ### Tool names -/

/-- The caller overwrites the buffer that held the name of tool `i`.  src/tool.c:72 keeps the address of
the name (`newtool->tool_name = tool_name`), so the tool is called `n` from then on. -/
def Tools.rewriteName (ts : Tools) (i : Nat) (n : Name) : Tools :=
  { ts with store := ts.store.modify i (fun t => { t with name := n }) }

theorem TableRef.rename_ok {ts : Tools} {L : List Nat} (h : Tools.Ok ts L) (i : Nat) {n : Name}
    (hn : n ∉ ts.store.map Tool.name) : Tools.Ok (ts.rewriteName i n) L where
  linked := by
    have : Tools.tnx (ts.rewriteName i n).store = Tools.tnx ts.store := by
      funext j
      simp only [Tools.tnx, Tools.rewriteName, List.getElem?_modify]
      cases ts.store[j]? with
      | none => rfl
      | some x => simp only [Option.map_some]; split <;> rfl
    rw [this]
    exact h.linked
  cover := by simpa [Tools.rewriteName] using h.cover
  names := by
    have : ((ts.rewriteName i n).store.map Tool.name) = (ts.store.map Tool.name).set i n := by
      apply List.ext_getElem?
      intro j
      simp only [Tools.rewriteName, List.getElem?_map, List.getElem?_modify, List.getElem?_set,
        List.length_map]
      by_cases hij : i = j
      · subst hij
        by_cases hl : i < ts.store.length
        · simp [hl]
        · simp [hl]
      · simp [hij]
    rw [this]
    exact h.names.set hn
  sorted := by
    have : Tools.prio (ts.rewriteName i n).store = Tools.prio ts.store := by
      funext j
      simp only [Tools.prio, Tools.npAt, Tools.rewriteName, List.getElem?_modify]
      cases ts.store[j]? with
      | none => rfl
      | some x => by_cases hij : i = j <;> simp [hij]
    rw [this]
    exact h.sorted

open TableRef in
/-- C79 for tool names.  After any history, when the buffer with a tool's name is reused for a name not
in use, GOTCHA has no tool of the old name any more; a tool of the new name is not created but is the
old one, with its bindings and its priority. -/
theorem C79_tool_name_kept_by_reference {p : Process} (ok : p.Ok) {ops : List Op}
    (h : Events p False ops) (hi : ops.any isApi = true) {s os}
    (hr : run p.env ops p.start = .ok (s, os)) {i : Nat} {t : Tool} (ht : s.tools.store[i]? = some t)
    {n : Name} (hn : n ∉ s.tools.store.map Tool.name) :
    (s.tools.rewriteName i n).getPriority t.name = .ok none ∧
      (s.tools.rewriteName i n).getOrCreate n = .ok (s.tools.rewriteName i n, i) ∧
      (s.tools.rewriteName i n).getPriority n = .ok (some t.priority) := by
  obtain ⟨v, G, hP⟩ := run_post ok h hr hi
  obtain ⟨L, hL⟩ := hP.inv.tools
  have hR := rename_ok hL i hn
  have hget : (s.tools.rewriteName i n).store[i]? = some { t with name := n } := by
    simp [Tools.rewriteName, List.getElem?_modify, ht]
  have hfind := Tools.getTool_of_mem hR hget
  simp only at hfind
  refine ⟨?_, ?_, ?_⟩
  · rcases Tools.getTool_spec hR t.name with ⟨j, u, h1, h2, h3⟩ | ⟨h1, -⟩
    · exfalso
      simp only [Tools.rewriteName, List.getElem?_modify] at h2
      by_cases hij : i = j
      · subst hij
        rw [ht] at h2
        simp at h2
        subst h2
        simp only at h3
        exact hn (h3 ▸ List.mem_map.2 ⟨t, List.mem_of_getElem? ht, rfl⟩)
      · simp [hij] at h2
        exact hij (Tools.names_inj hL.names ht h2 h3.symm)
    · simp [Tools.getPriority, h1]
  · simp [Tools.getOrCreate, hfind]
  · simp only [Tools.getPriority, hfind, hget]
    split
    · rfl
    · rename_i hc; rw [not_not.1 hc]

/-- Tool B of the demo, whose buffer is reused for the name "toolC". -/
example : ∃ s os i, run Demo.env Demo.ops Demo.proc.start = .ok (s, os) ∧
    s.tools.getPriority Demo.B = .ok (some (-1)) ∧
    (s.tools.rewriteName i (nm "toolC")).getPriority Demo.B = .ok none ∧
    (s.tools.rewriteName i (nm "toolC")).getPriority (nm "toolC") = .ok (some (-1)) := by
  have hk : (match run Demo.env Demo.ops Demo.proc.start with
    | .ok (s, _) => decide (s.tools.store.map Tool.name =
        [nm "gotcha", Demo.A, Demo.B, Demo.M]) && decide (s.tools.store[2]?.map Tool.priority = some (-1)) &&
        decide (s.tools.getPriority Demo.B = .ok (some (-1)))
    | _ => false) = true := by decide +kernel
  split at hk
  · rename_i s os h1
    simp only [Bool.and_eq_true, decide_eq_true_eq] at hk
    obtain ⟨⟨h2, h3⟩, h4⟩ := hk
    cases ht : s.tools.store[2]? with
    | none => rw [ht] at h3; cases h3
    | some t =>
      rw [ht] at h3
      have hp : t.priority = -1 := by simpa using h3
      have hnm : t.name = Demo.B := by
        have := congrArg (·[2]?) h2
        simpa [ht] using this
      have := C79_tool_name_kept_by_reference (p := Demo.proc) Demo.proc_ok (Demo.history False).toEvents
        rfl h1 ht (n := nm "toolC") (by rw [h2]; decide +kernel)
      rw [hnm, hp] at this
      exact ⟨s, os, 2, h1, h4, this.1, this.2.2⟩
  · cases hk

end Gotcha
