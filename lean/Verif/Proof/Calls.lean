import Verif.Spec.Calls
import Verif.Proof.Real
/-
From the invariant to calls.
-/
namespace Gotcha.Spec
open Gotcha

/-- The stack after a history, outermost first. -/
def stackOf (p : Process) (ops : List Op) (f : Name) : List Frame :=
  (Abs.run p.env ops p.abs).1.stack f

theorem abs_start (p : Process) : p.abs = Abs.start p.libs := rfl

theorem stackOf_perm (p : Process) (ops : List Op) (f : Name) :
    (stackOf p ops f).Perm (registered p.env ops f) := (run_ordered p.env p.libs ops).perm f

theorem prioOf_run (p : Process) (ops : List Op) (t : Name) :
    (Abs.run p.env ops p.abs).1.prioOf t = prioOr t ops := by
  unfold Abs.prioOf prioOr
  rw [abs_start, (run_prio p.env p.libs ops).1]

theorem stackOf_sorted (p : Process) {ops : List Op} (h : Settled ops) (f : Name) :
    (stackOf p ops f).Pairwise (fun a b => prioOr b.tool ops ≤ prioOr a.tool ops) := by
  have := (run_ordered p.env p.libs ops).sorted h f
  simp only [← abs_start, prioOf_run] at this
  exact this

theorem stackOf_stable (p : Process) {ops : List Op} (h : Settled ops) (f : Name) (v : Int) :
    (stackOf p ops f).filter (fun a => prioOr a.tool ops = v) =
      (registered p.env ops f).filter (fun a => prioOr a.tool ops = v) := by
  have := (run_ordered p.env p.libs ops).stable h f v
  simp only [← abs_start, prioOf_run] at this
  exact this

theorem real_run (p : Process) (ops : List Op) (f : Name) :
    (Abs.run p.env ops p.abs).1.real f = realAfter p.env p.libs ops f :=
  (run_real p.env p.libs ops).2.2 f

theorem libs_run (p : Process) (ops : List Op) :
    (Abs.run p.env ops p.abs).1.libs = libsAfter p.libs ops :=
  (run_real p.env p.libs ops).1

/-- Everything the invariant gives about the state after a history. -/
theorem history_view {p : Process} (ok : p.Ok) {strict : Prop} {ops : List Op}
    (h : History p strict ops) {s os} (hr : run p.env ops p.start = .ok (s, os)) :
    View p.P strict s (Abs.run p.env ops p.abs).1 ∧ s.linkMap = libsAfter p.libs ops ∧
      s.inited = ops.any isApi := by
  obtain ⟨s', h1, h2⟩ := history_run ok h
  rw [hr] at h1
  cases h1
  refine ⟨top_view h2, ?_, ?_⟩
  · rw [← top_libs h2, libs_run]
  · rw [← top_inited h2, abs_start, (run_prio p.env p.libs ops).2]

theorem view_calls {P strict s A} (hv : View P strict s A) {f : Name} {r : Addr}
    (hreal : A.real f = some r) (hr : P r = none) :
    ∀ (st pre : List Frame), A.stack f = pre ++ st → ∀ fr st', st = fr :: st' →
      Calls P s fr.wrapper (wrappers st ++ [r]) := by
  intro st
  induction st with
  | nil => intro pre _ fr st' e; cases e
  | cons g st ih =>
    intro pre he fr st' e
    cases e
    have hg : (A.stack f)[pre.length]? = some g := by rw [he]; simp
    have hw := hv.wrappee f pre.length g hg
    have hp := hv.prog f g (List.mem_of_getElem? hg)
    cases st with
    | nil =>
      have hn : nextOf (A.stack f) (A.real f) pre.length = some r := by
        unfold nextOf
        rw [he]
        simp [hreal]
      rw [hn] at hw
      exact Calls.cont hp hw (Calls.stop hr)
    | cons g' st =>
      have hn : nextOf (A.stack f) (A.real f) pre.length = some g'.wrapper := by
        unfold nextOf
        rw [he]
        simp
      rw [hn] at hw
      exact Calls.cont hp hw (ih (pre ++ [g]) (by rw [he]; simp) g' st rfl)

/-- All frames of a stack have different handles and wrappers. -/
theorem view_nodup {P strict s A} (hv : View P strict s A) (f : Name) :
    ((A.stack f).map Frame.handle).Nodup ∧ (wrappers (A.stack f)).Nodup := by
  have h1 : ((A.stack f).map Frame.handle).Nodup := by
    rw [List.nodup_iff_injective_getElem]
    rintro ⟨i, hi⟩ ⟨j, hj⟩ e
    simp only [List.length_map] at hi hj
    simp only [List.getElem_map] at e
    have := hv.uniq f f i j _ _ (List.getElem?_eq_getElem hi) (List.getElem?_eq_getElem hj) e
    simp [this.2]
  refine ⟨h1, ?_⟩
  have e : (wrappers (A.stack f)).map P = ((A.stack f).map Frame.handle).map some := by
    unfold wrappers
    rw [List.map_map, List.map_map]
    apply List.map_congr_left
    intro fr hfr
    exact hv.prog f fr hfr
  apply List.Nodup.of_map P
  rw [e]
  exact h1.map (fun a b h => Option.some.inj h)

theorem view_linked {P strict s A} (hv : View P strict s A) (f : Name) :
    Linked s (A.stack f) (A.real f) := by
  constructor
  · intro i fr g h1 h2
    have hw := hv.wrappee f i fr h1
    unfold nextOf at hw
    rw [h2] at hw
    exact hw
  · intro fr hlast
    rw [List.getLast?_eq_getElem?] at hlast
    have hw := hv.wrappee f _ fr hlast
    have hlen : 0 < (A.stack f).length := by
      rcases Nat.eq_zero_or_pos (A.stack f).length with h | h
      · rw [List.length_eq_zero_iff.1 h] at hlast; simp at hlast
      · exact h
    unfold nextOf at hw
    rw [List.getElem?_eq_none (by omega)] at hw
    exact hw

theorem history_linked {p : Process} (ok : p.Ok) {strict : Prop} {ops : List Op}
    (h : History p strict ops) {s os} (hr : run p.env ops p.start = .ok (s, os)) (f : Name) :
    Linked s (stackOf p ops f) (realAfter p.env p.libs ops f) := by
  have := view_linked (history_view ok h hr).1 f
  rw [real_run] at this
  exact this

/-! ### unresolved functions of a table -/

/-- Once "main" has been seen it is on a stack. -/
def MainReg (A : Abs) : Prop := A.mainWrapped = true → A.stack (nm "main") ≠ []

theorem push_stack_ne (A : Abs) (tool p u) : (A.push tool p u).1.stack u.name ≠ [] := by
  unfold Abs.push
  cases A.stack u.name with
  | nil => simp
  | cons g gs => simpa using insertBefore_ne _ _ _

theorem onMain_stack (env : Env) (A : Abs) (h : MainReg A) :
    (A.onMain env).stack (nm "main") ≠ [] := by
  unfold Abs.onMain
  split
  · rename_i hm; exact h hm
  · exact push_stack_ne _ _ _ ⟨nm "main", env.mainW, env.hMain⟩

theorem pushAll_mainReg (env : Env) (tool : Name) (us : List UBinding) : ∀ A : Abs, MainReg A →
    MainReg (Abs.pushAll (Abs.onMain env) tool us A).1 := by
  induction us with
  | nil => intro A h; exact h
  | cons u us ih =>
    intro A h
    rw [Abs.pushAll]
    dsimp only
    apply ih
    intro hm
    by_cases e : u.name = nm "main"
    · rw [if_pos e]
      exact (push_grow _ _ _ _).ne (onMain_stack env A h)
    · rw [if_neg e, push_mainW] at hm
      rw [if_neg e]
      exact (push_grow _ _ _ _).ne (h hm)

theorem wrap_mainReg (env : Env) (tbl tool) (A : Abs) (h : MainReg A) :
    MainReg (Abs.wrap (Abs.onMain env) tbl tool A).1 := pushAll_mainReg env _ _ _ h

theorem init_mainReg (env : Env) (A : Abs) (h : MainReg A) : MainReg (A.init env) := by
  unfold Abs.init
  split
  · exact h
  · exact wrap_mainReg env _ _ _ h

theorem run_mainReg (env : Env) (libs : List Lib) (ops : List Op) :
    MainReg (Abs.run env ops (Abs.start libs)).1 := by
  induction ops using List.reverseRecOn with
  | nil => intro h; cases h
  | append_singleton ops op ih =>
    rw [run_snoc]
    cases op with
    | wrap tbl tool => exact wrap_mainReg env _ _ _ (init_mainReg env _ ih)
    | setPriority t v => exact init_mainReg env _ ih
    | getPriority t => exact init_mainReg env _ ih
    | setFilter f => exact ih
    | dlopen ld => rw [step_dlopen]; split <;> exact ih
    | load ld => exact ih
    | unload d => exact ih

theorem pushAll_count (env : Env) (tool : Name) (us : List UBinding) : ∀ A : Abs, MainReg A →
    ((Abs.pushAll (Abs.onMain env) tool us A).2 > 0 ↔ ∃ l1 u l2, us = l1 ++ u :: l2 ∧
      u.name ≠ nm "main" ∧ (Abs.pushAll (Abs.onMain env) tool l1 A).1.stack u.name = [] ∧
      firstDef A.vdso A.libs u.name = none) := by
  induction us with
  | nil =>
    intro A _
    constructor
    · intro h; simp [Abs.pushAll] at h
    · rintro ⟨l1, u, l2, e, -⟩; simp at e
  | cons u us ih =>
    intro A hm
    have hrw : (Abs.pushAll (Abs.onMain env) tool (u :: us) A).2 =
        (Abs.pushAll (Abs.onMain env) tool us
          (Abs.pushAll (Abs.onMain env) tool [u] A).1).2 +
        if ((if u.name = nm "main" then A.onMain env else A).push tool (A.prioOf tool) u).2
          then 1 else 0 := rfl
    have h1 : ∀ l, (Abs.pushAll (Abs.onMain env) tool (u :: l) A).1 =
        (Abs.pushAll (Abs.onMain env) tool l (Abs.pushAll (Abs.onMain env) tool [u] A).1).1 :=
      fun l => rfl
    have hsame := pushAll_same (onMain_same env) tool [u] A
    have hmr := pushAll_mainReg env tool [u] A hm
    have hflag : ((if u.name = nm "main" then A.onMain env else A).push tool
        (A.prioOf tool) u).2 = true ↔ u.name ≠ nm "main" ∧ A.stack u.name = [] ∧
          firstDef A.vdso A.libs u.name = none := by
      by_cases e : u.name = nm "main"
      · rw [if_pos e]
        have := onMain_stack env A hm
        rw [← e] at this
        unfold Abs.push
        cases hs : (A.onMain env).stack u.name with
        | nil => exact absurd hs this
        | cons g gs => simp [e]
      · rw [if_neg e]
        unfold Abs.push
        cases hs : A.stack u.name with
        | nil => simp [e, Abs.resolve]
        | cons g gs => simp
    rw [hrw]
    have hih := ih _ hmr
    rw [hsame.vdso, hsame.libs] at hih
    constructor
    · intro h
      by_cases hc : (Abs.pushAll (Abs.onMain env) tool us
          (Abs.pushAll (Abs.onMain env) tool [u] A).1).2 > 0
      · obtain ⟨l1, w, l2, e1, e2, e3, e4⟩ := hih.1 hc
        exact ⟨u :: l1, w, l2, by rw [e1]; rfl, e2, by rw [h1]; exact e3, e4⟩
      · have hf : ((if u.name = nm "main" then A.onMain env else A).push tool
            (A.prioOf tool) u).2 = true := by
          by_contra hn
          rw [if_neg hn] at h
          omega
        obtain ⟨a, b, c⟩ := hflag.1 hf
        exact ⟨[], u, us, rfl, a, b, c⟩
    · rintro ⟨l1, w, l2, e1, e2, e3, e4⟩
      cases l1 with
      | nil =>
        simp only [List.nil_append, List.cons.injEq] at e1
        obtain ⟨rfl, rfl⟩ := e1
        rw [hflag.2 ⟨e2, e3, e4⟩]
        simp
      | cons v l1 =>
        simp only [List.cons_append, List.cons.injEq] at e1
        obtain ⟨rfl, rfl⟩ := e1
        rw [h1] at e3
        have := hih.2 ⟨l1, w, l2, rfl, e2, e3, e4⟩
        omega

/-! ### "main" -/

theorem framesIn_nil (f : Name) : framesIn [] f = [] := rfl

open Classical in
theorem expand_main (env : Env) (tool : Name) (us : List UBinding) : ∀ mw,
    framesIn (expand env tool mw us) (nm "main") =
      (if mw = false ∧ hasMain us then [frame (nm "gotcha") ⟨nm "main", env.mainW, env.hMain⟩]
        else []) ++ (us.filter (fun u => u.name = nm "main")).map (frame tool) := by
  have hne : nm "__libc_start_main" ≠ nm "main" := by decide +kernel
  induction us with
  | nil => intro mw; simp [expand, framesIn, hasMain]
  | cons u us ih =>
    intro mw
    rw [expand, framesIn_append, show (tool, u) :: expand env tool _ us = [(tool, u)] ++ _ from rfl,
      framesIn_append, ih]
    by_cases e : u.name = nm "main"
    · have hm : hasMain (u :: us) := ⟨u, by simp, e⟩
      cases mw with
      | true => simp [framesIn, e]
      | false => simp [framesIn, e, hm, libcMainTable, mainTable, hne]
    · have hm : hasMain (u :: us) ↔ hasMain us := by simp [hasMain, e]
      simp [framesIn, e, hm]

open Classical in
theorem registered_main (env : Env) (ops : List Op) :
    registered env ops (nm "main") =
      (if ∃ o ∈ ops, hasMain (tableOf o)
        then [frame (nm "gotcha") ⟨nm "main", env.mainW, env.hMain⟩] else []) ++
      clientFrames ops (nm "main") := by
  have key : ∀ ops ini mw, framesIn (regs env ini mw ops) (nm "main") =
      (if mw = false ∧ ∃ o ∈ ops, hasMain (tableOf o)
        then [frame (nm "gotcha") ⟨nm "main", env.mainW, env.hMain⟩] else []) ++
      clientFrames ops (nm "main") := by
    intro ops
    induction ops with
    | nil => intro ini mw; simp [regs, framesIn, clientFrames]
    | cons op ops ih =>
      intro ini mw
      rw [regs, framesIn_append, ih]
      have hcl : clientFrames (op :: ops) (nm "main") =
          clientFrames [op] (nm "main") ++ clientFrames ops (nm "main") := by
        simp [clientFrames]
      have hop : framesIn (opRegs env ini mw op) (nm "main") =
          (if mw = false ∧ hasMain (tableOf op)
            then [frame (nm "gotcha") ⟨nm "main", env.mainW, env.hMain⟩] else []) ++
          clientFrames [op] (nm "main") := by
        unfold opRegs
        rw [framesIn_append]
        have h1 : framesIn (if isApi op = true ∧ ini = false then
            (dlTable env).map (fun v => (nm "gotcha", v)) else []) (nm "main") = [] := by
          split
          · apply framesIn_own
            intro v hv
            simp only [dlTable, List.mem_cons, List.not_mem_nil, or_false] at hv
            rcases hv with rfl | rfl
            · show nm "dlopen" ≠ _; decide +kernel
            · show nm "dlsym" ≠ _; decide +kernel
          · rfl
        rw [h1, List.nil_append]
        cases op with
        | wrap tbl tool =>
          rw [expand_main]
          simp only [clientFrames, tableOf, List.flatMap_cons, List.flatMap_nil, List.append_nil]
          congr
        | _ => simp [framesIn, tableOf, hasMain, clientFrames]
      rw [hop, hcl]
      -- no client frame of an event without "main"
      have hno : ¬ hasMain (tableOf op) → clientFrames [op] (nm "main") = [] := by
        intro h
        cases op with
        | wrap tbl tool =>
          simp only [clientFrames, List.flatMap_cons, List.flatMap_nil, List.append_nil,
            List.map_eq_nil_iff, List.filter_eq_nil_iff]
          intro u hu e
          exact h ⟨u, hu, by simpa using e⟩
        | _ => rfl
      have hany : (tableOf op).any (fun u => decide (u.name = nm "main")) = true ↔
          hasMain (tableOf op) := hasMain_any _
      by_cases hm : hasMain (tableOf op)
      · rw [hany.2 hm, Bool.or_true]
        cases mw <;> simp [hm]
      · have : (tableOf op).any (fun u => decide (u.name = nm "main")) = false := by
          rw [Bool.eq_false_iff]; intro hc; exact hm (hany.1 hc)
        rw [this, Bool.or_false, hno hm]
        cases mw <;> simp [hm]
  have := key ops false false
  simpa [registered] using this

/-- A list sorted by non-increasing rank that contains its maximum `x`, first among its equals, starts
with `x`. -/
theorem sorted_head {α : Type} (q : α → Int) {L M : List α} {x : α}
    (hs : L.Pairwise (fun a b => q b ≤ q a)) (hx : x ∈ L) (hmax : ∀ y ∈ L, q y ≤ q x)
    (hf : L.filter (fun a => decide (q a = q x)) = x :: M) : ∃ L', L = x :: L' := by
  cases L with
  | nil => cases hx
  | cons y L =>
    have : q y = q x := by
      have h1 := hmax y (by simp)
      rcases List.mem_cons.1 hx with rfl | h
      · rfl
      · have h2 := (List.pairwise_cons.1 hs).1 x h
        omega
    rw [List.filter_cons, if_pos (by simpa using this)] at hf
    exact ⟨L, by rw [(List.cons.inj hf).1]⟩

end Gotcha.Spec
