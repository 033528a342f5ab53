import Verif.Demo.Bad
import Verif.Proof.Effects
/-
C20, C21: priorities and the tool list.  C23: no fault.  All for arbitrary clients: tables may share
handles, be wrapped twice, or name functions GOTCHA wraps itself.
-/
namespace Gotcha
open Spec

namespace Spec

/-- One more event, with the specification of the tool priorities. -/
theorem getPriority_step {p : Process} (ok : p.Ok) {strict : Prop} {ops : List Op} {t : Name}
    (h : Events p strict (ops ++ [.getPriority t])) {s os}
    (hr : run p.env ops p.start = .ok (s, os)) :
    ∃ s', stepOp p.env (.getPriority t) s =
      .ok (s', .prio (prioAfter t (ops ++ [.getPriority t]))) := by
  have h2 := events_run ok h.prefix hr
  obtain ⟨s1, v, G1, e1, e2, -⟩ := top_init (C := p.ctx False strict) ok.world
    (fun hc => absurd hc id) (by omega) h2
  have f1 := getPriority_post e2 t
  refine ⟨s1, ?_⟩
  have hp := (run_prio p.env p.libs (ops ++ [.getPriority t])).1 t
  rw [run_snoc] at hp
  have hp' : ((Abs.run p.env ops p.abs).1.init p.env).prio t =
      prioAfter t (ops ++ [.getPriority t]) := hp
  have e1' : gotchaInit p.env s = .ok s1 := e1
  have f1' : s1.tools.getPriority t = .ok (((Abs.run p.env ops p.abs).1.init p.env).prio t) := f1
  simp only [stepOp, gotchaGetPriority, e1', bind, Except.bind, f1', hp']

theorem lastSet_append (t : Name) (a b : List Op) :
    lastSet t (a ++ b) = (lastSet t b).or (lastSet t a) := by
  induction a with
  | nil => simp [lastSet]
  | cons op a ih => cases op <;> simp [lastSet, ih, Option.or_assoc]

theorem lastSet_none {t : Name} {ops : List Op} (h : ∀ v, Op.setPriority t v ∉ ops) :
    lastSet t ops = none := by
  induction ops with
  | nil => rfl
  | cons op ops ih =>
    have ih := ih (fun v hv => h v (List.mem_cons_of_mem _ hv))
    cases op with
    | setPriority t' v =>
      by_cases e : t' = t
      · subst e; exact absurd (List.mem_cons_self ..) (h v)
      · simp [lastSet, ih, e]
    | _ => simpa [lastSet] using ih

end Spec

/-- C20: what was set last is what is read, whatever happened in between. -/
theorem C20_set_then_get {p : Process} (ok : p.Ok) {strict : Prop} {pre post : List Op} {t : Name}
    {v : Int} (h : Events p strict ((pre ++ .setPriority t v :: post) ++ [.getPriority t]))
    (hpost : ∀ v', Op.setPriority t v' ∉ post) {s os}
    (hr : run p.env (pre ++ .setPriority t v :: post) p.start = .ok (s, os)) :
    ∃ s', stepOp p.env (.getPriority t) s = .ok (s', .prio (some v)) := by
  obtain ⟨s', hs⟩ := getPriority_step ok h hr
  refine ⟨s', ?_⟩
  rw [hs]
  have : lastSet t (pre ++ .setPriority t v :: post ++ [.getPriority t]) = some v := by
    rw [lastSet_append, lastSet_append, lastSet, lastSet_none hpost]
    simp [lastSet]
  rw [prioAfter, this]

/-- C20: a tool that never set a priority but wrapped something has the default one. -/
theorem C20_default {p : Process} (ok : p.Ok) {strict : Prop} {ops : List Op} {t : Name}
    (h : Events p strict (ops ++ [.getPriority t])) (hset : ∀ v, Op.setPriority t v ∉ ops)
    {tbl} (hw : Op.wrap tbl (some t) ∈ ops) {s os} (hr : run p.env ops p.start = .ok (s, os)) :
    ∃ s', stepOp p.env (.getPriority t) s = .ok (s', .prio (some (-1))) := by
  obtain ⟨s', hs⟩ := getPriority_step ok h hr
  refine ⟨s', ?_⟩
  rw [hs]
  have h1 : lastSet t (ops ++ [.getPriority t]) = none := by
    refine lastSet_none fun v hv => ?_
    rcases List.mem_append.1 hv with hv | hv
    · exact hset v hv
    · simp at hv
  have h2 : (ops ++ [Op.getPriority t]).any (names t) = true := by
    rw [List.any_eq_true]
    exact ⟨_, List.mem_append_left _ hw, by simp [names, toolName]⟩
  simp only [prioAfter, h1, h2, if_true]

/-- C20: a name never used is not a tool. -/
theorem C20_unknown {p : Process} (ok : p.Ok) {strict : Prop} {ops : List Op} {t : Name}
    (h : Events p strict (ops ++ [.getPriority t])) (hset : ∀ v, Op.setPriority t v ∉ ops)
    (hw : ∀ tbl tool, Op.wrap tbl tool ∈ ops → tool.getD (nm "[UNSPECIFIED]") ≠ t)
    (hg : t ≠ nm "gotcha") {s os} (hr : run p.env ops p.start = .ok (s, os)) :
    ∃ s', stepOp p.env (.getPriority t) s = .ok (s', .prio none) := by
  obtain ⟨s', hs⟩ := getPriority_step ok h hr
  refine ⟨s', ?_⟩
  rw [hs]
  have h1 : lastSet t (ops ++ [.getPriority t]) = none := by
    refine lastSet_none fun v hv => ?_
    rcases List.mem_append.1 hv with hv | hv
    · exact hset v hv
    · simp at hv
  have h2 : (ops ++ [Op.getPriority t]).any (names t) = false := by
    rw [List.any_eq_false]
    intro op hop
    rcases List.mem_append.1 hop with hop | hop
    · cases op with
      | wrap tbl tool =>
        have := hw tbl tool hop
        simp [names, hg, toolName, this]
      | setPriority t' v =>
        have : t' ≠ t := fun e => hset v (by rw [← e]; exact hop)
        simp [names, hg, this]
      | _ => simp [names, hg]
    · simp only [List.mem_singleton] at hop
      subst hop
      simp [names, hg]
  simp only [prioAfter, h1, h2, Bool.false_eq_true, if_false]

namespace Tools

theorem walk_spec {store : List Tool} {L : List Nat} : ∀ {fuel p}, Seg (tnx store) p L none →
    L.length ≤ fuel → walk store fuel p = .ok L := by
  induction L with
  | nil => intro fuel p hs _; simp only [Seg] at hs; subst hs; cases fuel <;> rfl
  | cons i L ih =>
    intro fuel p hs hf
    obtain ⟨rfl, n, hn, h2⟩ := hs
    cases fuel with
    | zero => simp at hf
    | succ fuel =>
      simp only [tnx, Option.map_eq_some_iff] at hn
      obtain ⟨t, ht, rfl⟩ := hn
      simp only [walk, ht, ih h2 (by simpa using hf)]

end Tools

/-- C21: following the list from its head ends, and gives tools in non-decreasing order of priority,
each name once, exactly the names in use, each with the priority that is to be reported for it. -/
theorem C21_tool_list {p : Process} (ok : p.Ok) {strict : Prop} {ops : List Op}
    (h : Events p strict ops) {s os} (hr : run p.env ops p.start = .ok (s, os)) :
    ∃ L, Tools.walk s.tools.store s.tools.store.length s.tools.head = .ok L ∧
      ∃ ts : List Tool, ts.map some = L.map (s.tools.store[·]?) ∧
        (ts.map Tool.name).Nodup ∧
        ts.Pairwise (fun a b => a.priority ≤ b.priority) ∧
        ∀ n v, (∃ t ∈ ts, t.name = n ∧ t.priority = v) ↔ prioAfter n ops = some v := by
  have hT := events_run ok h hr
  have hprio := (run_prio p.env p.libs ops).1
  rcases hT with hT | ⟨v, G, hT⟩
  · refine ⟨[], ?_, [], rfl, by simp, by simp, fun n v => ?_⟩
    · rw [hT.st]; rfl
    · have : (Abs.run p.env ops p.abs).1.prio n = none := by rw [hT.abs]; rfl
      rw [← hprio n, this]
      simp
  · obtain ⟨L, hok⟩ := hT.inv.tools
    refine ⟨L, Tools.walk_spec hok.linked hok.length, ?_⟩
    have hget : ∀ i ∈ L, ∃ t, s.tools.store[i]? = some t := fun i hi =>
      ⟨_, List.getElem?_eq_getElem ((hok.cover i).1 hi)⟩
    have hts : ∀ L' : List Nat, (∀ i ∈ L', ∃ t, s.tools.store[i]? = some t) →
        ∃ ts : List Tool, ts.map some = L'.map (s.tools.store[·]?) := by
      intro L'
      induction L' with
      | nil => intro _; exact ⟨[], rfl⟩
      | cons i L' ih =>
        intro h
        obtain ⟨t, ht⟩ := h i (List.mem_cons_self ..)
        obtain ⟨ts, hts⟩ := ih fun j hj => h j (List.mem_cons_of_mem _ hj)
        exact ⟨t :: ts, by simp [ht, hts]⟩
    obtain ⟨ts, hts⟩ := hts L hget
    have hlen : ts.length = L.length := by simpa using congrArg List.length hts
    have hat : ∀ i (hi : i < ts.length), s.tools.store[L[i]'(hlen ▸ hi)]? = some ts[i] := by
      intro i hi
      have := congrArg (fun l => l[i]?) hts
      simp only [List.getElem?_map, List.getElem?_eq_getElem hi, Option.map_some,
        List.getElem?_eq_getElem (hlen ▸ hi)] at this
      exact (Option.some.inj this).symm
    refine ⟨ts, hts, ?_, ?_, ?_⟩
    · rw [List.nodup_iff_injective_getElem]
      rintro ⟨i, hi⟩ ⟨j, hj⟩ e
      simp only [List.length_map] at hi hj
      simp only [List.getElem_map] at e
      have := Tools.names_inj hok.names (hat i hi) (hat j hj) e
      have := (List.Nodup.getElem_inj_iff hok.linked.nodup).1 this
      exact Fin.ext this
    · rw [List.pairwise_iff_getElem]
      intro i j hi hj hij
      have := (List.pairwise_iff_getElem.1 hok.sorted) i j (by simpa [← hlen] using hi)
        (by simpa [← hlen] using hj) hij
      simpa [Tools.prio, Tools.npAt, hat i hi, hat j hj] using this
    · intro n w
      rw [← hprio n, hT.inv.prio n w]
      constructor
      · rintro ⟨t, ht, rfl, rfl⟩
        have : some t ∈ ts.map some := List.mem_map_of_mem ht
        rw [hts] at this
        obtain ⟨i, -, hi⟩ := List.mem_map.1 this
        exact List.mem_map.2 ⟨t, List.mem_of_getElem? hi, rfl⟩
      · intro hm
        obtain ⟨t, ht, e⟩ := List.mem_map.1 hm
        obtain ⟨i, hi⟩ := List.getElem?_of_mem ht
        have hiL : i ∈ L := (hok.cover i).2 (List.getElem?_eq_some_iff.1 hi).1
        have : some t ∈ L.map (s.tools.store[·]?) := List.mem_map.2 ⟨i, hiL, hi⟩
        rw [← hts] at this
        obtain ⟨t', h1, h2⟩ := List.mem_map.1 this
        cases h2
        simp only [Prod.mk.injEq] at e
        exact ⟨t, h1, e.1, e.2⟩

/-- C23, well-behaved clients: no event of a history faults or loops.  Filters, loads behind
GOTCHA's back, dlclose, loading the same object again at the same address and wrapping main are all
included (`strict` is arbitrary).  An object loaded again must have writable slots: see
`C23_reload_crashes`. -/
theorem C23_no_fault {p : Process} (ok : p.Ok) {strict : Prop} {ops : List Op}
    (h : History p strict ops) : ∃ s os, run p.env ops p.start = .ok (s, os) := by
  obtain ⟨s, hs, -⟩ := history_run ok h
  exact ⟨s, _, hs⟩

/-- Not vacuous: the demo process with all its events. -/
example : ∃ s os, run Demo.env Demo.ops Demo.proc.start = .ok (s, os) :=
  C23_no_fault Demo.proc_ok (Demo.prefix_history True 6)

/-- C23, arbitrary clients: the only way GOTCHA's own code faults is an intercepted dlopen that finds
no function to forward to. -/
theorem C23_only_dlopen_faults {p : Process} (ok : p.Ok) {strict : Prop} {ops : List Op} {op : Op}
    (h : Events p strict (ops ++ [op])) {s os} (hr : run p.env ops p.start = .ok (s, os)) {e}
    (he : stepOp p.env op s = .error e) :
    (∃ ld, op = .dlopen ld) ∧ s.inited = true ∧ s.getWrappee p.env.hDlopen = .error e := by
  by_contra hcon
  have h2 := events_run ok h.prefix hr
  obtain ⟨-, hv⟩ := valid_snoc ops op (start_valid (hon := False) h fun hc => absurd hc id)
  obtain ⟨s1, o1, e1, -⟩ := step_spec (C := p.ctx False strict) ok.world
    (fun hc => absurd hc id) (by omega) h2 hv (fun hs => by
      have := h.short hs; rw [List.length_append] at this
      simp only [List.length_singleton] at this
      omega) (by
        rintro - ⟨ld, rfl⟩ hin
        cases hg : s.getWrappee p.env.hDlopen with
        | ok a => exact ⟨a, hg⟩
        | error e' =>
          simp only [stepOp, hin, if_true, dlopenWrapper, bind, Except.bind, hg] at he
          cases he
          exact absurd ⟨⟨ld, rfl⟩, hin, hg⟩ hcon)
  have e1' : stepOp p.env op s = .ok (s1, o1) := e1
  rw [he] at e1'
  cases e1'

/-- C23, arbitrary clients that do not use dlopen: nothing faults. -/
theorem C23_no_fault_without_dlopen {p : Process} (ok : p.Ok) {strict : Prop} (ops : List Op)
    (h : Events p strict ops) (hd : ∀ ld, Op.dlopen ld ∉ ops) :
    ∃ s os, run p.env ops p.start = .ok (s, os) := by
  induction ops using List.reverseRecOn with
  | nil => exact ⟨_, _, rfl⟩
  | append_singleton ops op ih =>
    obtain ⟨s, os, hr⟩ := ih h.prefix fun ld hm => hd ld (List.mem_append_left _ hm)
    cases hs : stepOp p.env op s with
    | error e =>
      obtain ⟨⟨ld, rfl⟩, -⟩ := C23_only_dlopen_faults ok h hr hs
      exact absurd (by simp) (hd ld)
    | ok y =>
      refine ⟨y.1, os ++ [y.2], ?_⟩
      rw [run_append_model, hr]
      simp [bind, Except.bind, run, hs]

/-- The demo history: A's priority 10, set first, is still reported after wraps of two tools, a
dlopen and a wrap of main; C20's other cases on prefixes of it; its tool list. -/
example : ∃ s os, run Demo.env (Demo.ops.take 5) Demo.proc.start = .ok (s, os) ∧
    ∃ s', stepOp Demo.env (.getPriority Demo.A) s = .ok (s', .prio (some 10)) := by
  obtain ⟨s, os, hr⟩ := Demo.prefix_run 5
  refine ⟨s, os, hr, C20_set_then_get (p := Demo.proc) (pre := []) (post := (Demo.ops.take 5).tail)
    Demo.proc_ok (Demo.history True).toEvents ?_ hr⟩
  intro v' hv
  simp [Demo.ops] at hv

theorem Demo.events_get (strict : Prop) (t : Name) :
    Events Demo.proc strict (Demo.ops2 ++ [.getPriority t]) := by
  have h := (Demo.history2 strict).toEvents
  refine ⟨⟨h.loader.1, fun hf => absurd hf (by decide), fun hf => absurd hf (by decide), trivial⟩,
    h.cons, ?_, ?_, fun _ => by simp [Demo.ops2]⟩
  · intro hs f hf
    simp [Demo.ops2] at hf
  · intro hs
    exact Demo.mainAlone_of ⟨fun h => absurd h (Demo.notMain (by decide +kernel)),
      fun h => absurd h (Demo.notMain (by decide +kernel)), trivial, trivial⟩

example : ∃ s os, run Demo.env Demo.ops2 Demo.proc.start = .ok (s, os) ∧
    (∃ s', stepOp Demo.env (.getPriority Demo.A) s = .ok (s', .prio (some (-1)))) ∧
    (∃ s', stepOp Demo.env (.getPriority (nm "nobody")) s = .ok (s', .prio none)) := by
  obtain ⟨s, os, hr⟩ := Demo.demo_run2
  refine ⟨s, os, hr,
    C20_default (p := Demo.proc) (tbl := [⟨nm "foo", 0x50c, 12⟩]) Demo.proc_ok
      (Demo.events_get True _) (by intro v hv; simp [Demo.ops2] at hv) (by simp [Demo.ops2]) hr,
    C20_unknown (p := Demo.proc) Demo.proc_ok (Demo.events_get True _)
      (by intro v hv; simp [Demo.ops2] at hv) ?_ (by decide +kernel) hr⟩
  intro tbl tool ht
  simp only [Demo.ops2, List.mem_cons, Op.wrap.injEq, List.not_mem_nil, or_false] at ht
  rcases ht with ⟨-, rfl⟩ | ⟨-, rfl⟩ <;> decide +kernel

example : ∃ s os, run Demo.env Demo.ops Demo.proc.start = .ok (s, os) ∧
    ∃ L, Tools.walk s.tools.store s.tools.store.length s.tools.head = .ok L ∧
      ∃ ts : List Tool, ts.map some = L.map (s.tools.store[·]?) ∧
        ∃ t ∈ ts, t.name = Demo.A ∧ t.priority = 10 := by
  obtain ⟨s, os, hr⟩ := Demo.demo_run
  obtain ⟨L, h1, ts, h2, -, -, h3⟩ := C21_tool_list Demo.proc_ok (Demo.history True).toEvents hr
  exact ⟨s, os, hr, L, h1, ts, h2, (h3 _ _).2 (by decide +kernel)⟩

/-- Clients that are not well behaved: the same table wrapped twice. -/
example : ∃ s os, run Demo.env Demo.opsTwice Demo.proc.start = .ok (s, os) :=
  C23_no_fault_without_dlopen Demo.proc_ok (strict := False) Demo.opsTwice
    ⟨⟨(Demo.history2 False).loader.1, fun hf => absurd hf (by decide), trivial⟩, fun h => h.elim,
      fun h => h.elim, fun h => h.elim, fun h => h.elim⟩
    (by intro ld hld; simp [Demo.opsTwice] at hld)

end Gotcha
