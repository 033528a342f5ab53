import Verif.Proof.Oom
import Verif.Demo.World
/-
C75, C76, C77: the engine when allocations fail.
-/
namespace Gotcha.Props
open Gotcha HTable

/-- Which allocations succeed. -/
abbrev Oracle := Nat → Bool

/-- All allocations but one succeed. -/
def failAt (n : Nat) : Oracle := fun i => i != n

/-- The process of `Demo/World` after tool B has wrapped foo and the absent bar. -/
def started : State :=
  match gotchaWrap Demo.env [⟨nm "foo", 0x50a, 10⟩, ⟨nm "bar", 0x50b, 11⟩] (some Demo.B)
    Demo.proc.start with
  | .ok (s, _) => s
  | .error _ => Demo.proc.start

/-- C75, success: in an initialised process, if `gotcha_wrap` of a table without a binding for "main"
returns something other than GOTCHA_INTERNAL, whichever allocations failed on the way, it has done all
that it does when none fails. -/
theorem C75_complete (env : Env) (o : Oracle) (k k' : Nat) (table : List UBinding)
    (tool : Option Name) (s s' : State) (c : RetCode) (hi : s.inited = true)
    (hn : ∀ u ∈ table, u.name ≠ nm "main")
    (h : Oom.gotchaWrap env table tool s o k = .ok ((s', some c), k')) :
    gotchaWrap env table tool s = .ok (s', c) := by
  obtain ⟨s1, k1, h1, h⟩ := Oom.mbind_ok h
  unfold Oom.gotchaInit at h1
  rw [if_pos hi] at h1
  cases h1
  have := Oom.wrapCore_part (om' := onMainReal env) hn h
  unfold gotchaWrap gotchaInit
  rw [if_pos hi]
  exact this

/-- Non-vacuity: a wrap during which an allocation (that of `child_tools`) fails and which succeeds. -/
example : ∃ s' k', started.inited = true ∧ (failAt 1) 1 = false ∧
    Oom.gotchaWrap Demo.env [⟨nm "foo", 0x50c, 12⟩] (some Demo.A) started (failAt 1) 0 =
      .ok ((s', some .success), k') ∧ 1 < k' := by
  have key : ∀ {r : Except Fault ((State × Option RetCode) × Nat)},
      (match r with
        | .ok ((_, some .success), k) => decide (1 < k)
        | _ => false) = true → ∃ s k, r = .ok ((s, some .success), k) ∧ 1 < k := by
    intro r h
    split at h
    · rename_i s k; exact ⟨s, k, rfl, of_decide_eq_true h⟩
    · cases h
  obtain ⟨s, k, h, hk⟩ := key (r := Oom.gotchaWrap Demo.env [⟨nm "foo", 0x50c, 12⟩] (some Demo.A)
    started (failAt 1) 0) (by decide +kernel)
  exact ⟨s, k, by decide +kernel, rfl, h, hk⟩

/-- C75, failure: if it returns GOTCHA_INTERNAL nothing has been intercepted: memory and its protection,
the stacks of wrappers, the unresolved names and the library records are as before, every earlier
binding is as before, and so is what every handle outside the table leads to. -/
theorem C75_internal (env : Env) (o : Oracle) (k k' : Nat) (table : List UBinding)
    (tool : Option Name) (s s' : State) (hi : s.inited = true)
    (h : Oom.gotchaWrap env table tool s o k = .ok ((s', none), k')) :
    s'.mem = s.mem ∧ s'.wr = s.wr ∧ s'.linkMap = s.linkMap ∧ s'.funTab = s.funTab ∧
    s'.notFound = s.notFound ∧ s'.libTab = s.libTab ∧ s'.libs = s.libs ∧ s'.filter = s.filter ∧
    s'.mainWrapped = s.mainWrapped ∧ (∃ new, s'.binds = s.binds ++ new) ∧
    ∀ hd, hd ∉ table.map (·.handle) → (∀ b, s.handles hd = some b → b < s.binds.length) →
      s'.getWrappee hd = s.getWrappee hd := by
  obtain ⟨s1, k1, h1, h⟩ := Oom.mbind_ok h
  unfold Oom.gotchaInit at h1
  rw [if_pos hi] at h1
  cases h1
  -- clearing the handles
  have clr : ∀ (us : List UBinding) (s : State),
      us.foldl (fun s u => s.setHandle u.handle none) s =
        { s with handles := (us.foldl (fun s u => s.setHandle u.handle none) s).handles } := by
    intro us
    induction us with
    | nil => intro s; rfl
    | cons u us ih => intro s; rw [List.foldl_cons, ih]; rfl
  have clrH : ∀ (us : List UBinding) (s : State) (hd : HAddr), hd ∉ us.map (·.handle) →
      (us.foldl (fun s u => s.setHandle u.handle none) s).handles hd = s.handles hd := by
    intro us
    induction us with
    | nil => intro s hd _; rfl
    | cons u us ih =>
      intro s hd hh
      simp only [List.map_cons, List.mem_cons, not_or] at hh
      rw [List.foldl_cons, ih _ _ hh.2]
      exact if_neg hh.1
  have add : ∀ (tid : Nat) (us : List UBinding) (s : State), ∃ new,
      addBindings tid us s = { s with handles := (addBindings tid us s).handles
                                      binds := s.binds ++ new } := by
    intro tid us
    induction us with
    | nil => intro s; exact ⟨[], by simp [addBindings]⟩
    | cons u us ih =>
      intro s
      obtain ⟨new, e⟩ := ih (State.setHandle
        { s with binds := s.binds ++ [{ tool := tid, user := u, next := none, wrappee := none }] }
        u.handle (some s.binds.length))
      refine ⟨[{ tool := tid, user := u, next := none, wrappee := none }] ++ new, ?_⟩
      rw [addBindings]
      rw [e]
      simp [State.setHandle]
  have addH : ∀ (tid : Nat) (us : List UBinding) (s : State) (hd : HAddr), hd ∉ us.map (·.handle) →
      (addBindings tid us s).handles hd = s.handles hd := by
    intro tid us
    induction us with
    | nil => intro s hd _; rfl
    | cons u us ih =>
      intro s hd hh
      simp only [List.map_cons, List.mem_cons, not_or] at hh
      rw [addBindings, ih _ _ hh.2]
      exact if_neg hh.1
  have wrp : ∀ {s s' : State} {hd : HAddr} {new}, s'.binds = s.binds ++ new →
      s'.handles hd = s.handles hd → (∀ b, s.handles hd = some b → b < s.binds.length) →
      s'.getWrappee hd = s.getWrappee hd := by
    intro s s' hd new eb eh hb
    unfold State.getWrappee State.bind
    rw [eh]
    cases hx : s.handles hd with
    | none => rfl
    | some b =>
      simp only
      rw [eb, List.getElem?_append_left (hb b hx)]
  rcases Oom.wrapCore_internal h with e | ⟨ts, tid, e⟩
  · have e' := e
    rw [clr] at e
    have eb : s'.binds = s.binds ++ [] := by rw [e]; simp
    refine ⟨by rw [e], by rw [e], by rw [e], by rw [e], by rw [e], by rw [e], by rw [e], by rw [e],
      by rw [e], ⟨[], eb⟩, fun hd hh hb => wrp eb ?_ hb⟩
    rw [e']
    exact clrH _ _ _ hh
  · have e' := e
    obtain ⟨new, e2⟩ := add tid table
      { (table.foldl (fun s u => s.setHandle u.handle none) s) with
        tools := ts
        gen := (table.foldl (fun s u => s.setHandle u.handle none) s).gen + 1 }
    rw [e2] at e
    have ec := clr table s
    have eb : s'.binds = s.binds ++ new := by rw [e]; simp only; rw [ec]
    refine ⟨?_, ?_, ?_, ?_, ?_, ?_, ?_, ?_, ?_, ⟨new, eb⟩, fun hd hh hb => wrp eb ?_ hb⟩
    all_goals first
      | (rw [e]; simp only; rw [ec]; done)
      | (rw [e', addH _ _ _ _ hh]; exact clrH _ _ _ hh)

/-- Non-vacuity: both ways of getting GOTCHA_INTERNAL, the tool (allocation 0) and the table of its
bindings (allocation 4). -/
example : ∀ n ∈ [0, 4], ∃ s' k', Oom.gotchaWrap Demo.env [⟨nm "foo", 0x50c, 12⟩] (some Demo.A) started
    (failAt n) 0 = .ok ((s', none), k') := by
  have key : ∀ {r : Except Fault ((State × Option RetCode) × Nat)},
      (match r with
        | .ok ((_, none), _) => true
        | _ => false) = true → ∃ s k, r = .ok ((s, none), k) := by
    intro r h
    split at h
    · rename_i s k; exact ⟨s, k, rfl⟩
    · cases h
  intro n hn
  simp only [List.mem_cons, List.not_mem_nil, or_false] at hn
  rcases hn with rfl | rfl
  · exact key (by decide +kernel)
  · exact key (by decide +kernel)

/-- C75: an intercepted dlopen that returns has done all that it does when no allocation fails. -/
theorem C75_dlopen (env : Env) (o : Oracle) (k k' : Nat) (ld : Load) (s s' : State)
    (h : Oom.dlopenWrapper env ld s o k = .ok (s', k')) : dlopenWrapper env ld s = .ok s' :=
  (Oom.dlopenWrapper_sim env ld s).part h

/-- Non-vacuity: the plugin is loaded; one allocation, its record. -/
example : ∃ s', Oom.dlopenWrapper Demo.env Demo.loadPlug started (failAt 1) 0 = .ok (s', 1) ∧
    s'.mem (Demo.plug.addr + 0x18) = 0x50a := by
  have key : ∀ {r : Except Fault (State × Nat)},
      (match r with
        | .ok (s, k) => decide (k = 1 ∧ s.mem (Demo.plug.addr + 0x18) = 0x50a)
        | _ => false) = true → ∃ s, r = .ok (s, 1) ∧ s.mem (Demo.plug.addr + 0x18) = 0x50a := by
    intro r h
    split at h
    · rename_i s k
      obtain ⟨rfl, h'⟩ := of_decide_eq_true h
      exact ⟨s, rfl, h'⟩
    · cases h
  exact key (by decide +kernel)

/-- C75: with enough memory GOTCHA_INTERNAL is not returned and the results are those of the engine
without allocation failures, faults included, from any state (the first call too). -/
theorem C75_enough (env : Env) (k : Nat) (table : List UBinding) (tool : Option Name) (s : State) :
    (Oom.gotchaWrap env table tool s (fun _ => true) k).map (·.1) =
      (gotchaWrap env table tool s).map (fun x => (x.1, some x.2)) :=
  (Oom.gotchaWrap_full env table tool s).run k fun _ => rfl

/-- C75: likewise for `gotcha_set_priority`, `gotcha_get_priority` and the intercepted dlopen. -/
theorem C75_enough_others (env : Env) (k : Nat) (tool : Name) (v : Int) (ld : Load) (s : State) :
    (Oom.gotchaSetPriority env tool v s (fun _ => true) k).map (·.1) = gotchaSetPriority env tool v s ∧
    (Oom.gotchaGetPriority env tool s (fun _ => true) k).map (·.1) = gotchaGetPriority env tool s ∧
    (Oom.dlopenWrapper env ld s (fun _ => true) k).map (·.1) = dlopenWrapper env ld s :=
  ⟨(Oom.gotchaSetPriority_full env tool v s).run k fun _ => rfl,
    (Oom.gotchaGetPriority_full env tool s).run k fun _ => rfl,
    (Oom.dlopenWrapper_sim env ld s).toFull.run k fun _ => rfl⟩

/-- C75: in an initialised process, a `gotcha_set_priority` or `gotcha_get_priority` that returns has done
all that it does when no allocation fails. -/
theorem C75_priorities (env : Env) (o : Oracle) (k : Nat) (tool : Name) (v : Int) (s : State)
    (hi : s.inited = true) :
    (∀ s' k', Oom.gotchaSetPriority env tool v s o k = .ok (s', k') →
      gotchaSetPriority env tool v s = .ok s') ∧
    (∀ r k', Oom.gotchaGetPriority env tool s o k = .ok (r, k') → gotchaGetPriority env tool s = .ok r) := by
  constructor
  · intro s' k' h
    obtain ⟨s1, k1, h1, h⟩ := Oom.mbind_ok h
    unfold Oom.gotchaInit at h1
    rw [if_pos hi] at h1
    cases h1
    unfold gotchaSetPriority gotchaInit
    rw [if_pos hi]
    exact (Oom.setPriority_sim s tool v).part h
  · intro r k' h
    obtain ⟨s1, k1, h1, h⟩ := Oom.mbind_ok h
    unfold Oom.gotchaInit at h1
    rw [if_pos hi] at h1
    cases h1
    unfold gotchaGetPriority gotchaInit
    rw [if_pos hi]
    exact ((Oom.sim_lift (s.tools.getPriority tool)).bind fun v => Oom.sim_ret (s, v)).part h

/-- Non-vacuity: a new tool is given a priority; two allocations, of which the
second (that of `child_tools`) fails. -/
example : started.inited = true ∧ (match Oom.gotchaSetPriority Demo.env Demo.A 7 started (failAt 1) 0 with
    | .ok (s, k) => (match s.tools.getPriority Demo.A with
      | .ok (some w) => w == 7 && k == 2
      | _ => false)
    | _ => false) = true := ⟨by decide +kernel, by decide +kernel⟩

/-- C76: the memory of `add_binding_to_tool` is used unchecked: when the first allocation of
`gotcha_wrap` for an existing tool fails, GOTCHA crashes instead of returning GOTCHA_INTERNAL. -/
theorem C76_wrap_crash (env : Env) (o : Oracle) (k : Nat) (table : List UBinding) (tool : Option Name)
    (s : State) (i : Nat) (hi : s.inited = true)
    (ht : s.tools.getTool (tool.getD (nm "[UNSPECIFIED]")) = .ok (some i)) (ho : o k = false) :
    Oom.gotchaWrap env table tool s o k = .error .nullDeref := by
  have e : ∀ (us : List UBinding) (s : State),
      (us.foldl (fun s u => s.setHandle u.handle none) s).tools = s.tools := by
    intro us
    induction us with
    | nil => intro s; rfl
    | cons u us ih => intro s; rw [List.foldl_cons, ih]; rfl
  unfold Oom.gotchaWrap Oom.gotchaInit
  rw [if_pos hi, Oom.mbind]
  show Oom.wrapCore env _ table tool s o k = _
  unfold Oom.wrapCore
  rw [Oom.mbind]
  simp only [e]
  have h1 : Oom.getOrCreate s.tools (tool.getD (nm "[UNSPECIFIED]")) o k =
      .ok (some (s.tools, i), k) := by
    unfold Oom.getOrCreate
    rw [Oom.mbind, ht]
    rfl
  rw [h1]
  simp only
  rw [Oom.mbind]
  have h2 : ∀ s1 : State, Oom.addBindingToTool i table s1 o k = .error .nullDeref := by
    intro s1
    unfold Oom.addBindingToTool Oom.need
    simp only [Oom.mbind, Oom.alloc, ho]
    rfl
  rw [h2]

example : started.inited = true ∧ (∃ i, started.tools.getTool Demo.B = .ok (some i)) :=
  ⟨by decide +kernel, 1, by decide +kernel⟩

/-- C76: `gotcha_set_priority` for a tool not seen before uses the tool unchecked. -/
theorem C76_set_priority_crash (env : Env) (o : Oracle) (k : Nat) (tool : Name) (v : Int) (s : State)
    (hi : s.inited = true) (ht : s.tools.getTool tool = .ok none) (ho : o k = false) :
    Oom.gotchaSetPriority env tool v s o k = .error .nullDeref := by
  unfold Oom.gotchaSetPriority Oom.gotchaInit
  rw [if_pos hi, Oom.mbind]
  show (Oom.getOrCreate s.tools tool >>= _) o k = _
  rw [Oom.mbind]
  unfold Oom.getOrCreate
  rw [Oom.mbind, ht]
  simp only [Oom.lift]
  unfold Oom.createTool
  rw [Oom.mbind]
  simp only [Oom.alloc, ho]
  rfl

example : started.inited = true ∧ started.tools.getTool Demo.A = .ok none :=
  ⟨by decide +kernel, by decide +kernel⟩

/-- C76: the one failure that is reported: a tool that cannot be created. -/
theorem C76_tool_reported (env : Env) (o : Oracle) (k : Nat) (table : List UBinding) (tool : Option Name)
    (s : State) (hi : s.inited = true)
    (ht : s.tools.getTool (tool.getD (nm "[UNSPECIFIED]")) = .ok none) (ho : o k = false) :
    ∃ s', Oom.gotchaWrap env table tool s o k = .ok ((s', none), k + 1) := by
  have e : ∀ (us : List UBinding) (s : State),
      (us.foldl (fun s u => s.setHandle u.handle none) s).tools = s.tools := by
    intro us
    induction us with
    | nil => intro s; rfl
    | cons u us ih => intro s; rw [List.foldl_cons, ih]; rfl
  refine ⟨table.foldl (fun s u => s.setHandle u.handle none) s, ?_⟩
  unfold Oom.gotchaWrap Oom.gotchaInit
  rw [if_pos hi, Oom.mbind]
  show Oom.wrapCore env _ table tool s o k = _
  unfold Oom.wrapCore
  rw [Oom.mbind]
  simp only [e]
  have h1 : Oom.getOrCreate s.tools (tool.getD (nm "[UNSPECIFIED]")) o k = .ok (none, k + 1) := by
    unfold Oom.getOrCreate
    rw [Oom.mbind, ht]
    simp only [Oom.lift]
    unfold Oom.createTool
    rw [Oom.mbind]
    simp only [Oom.alloc, ho]
    rfl
  rw [h1]
  rfl

example : ∃ s', Oom.gotchaWrap Demo.env [⟨nm "foo", 0x50c, 12⟩] (some Demo.A) started (failAt 0) 0 = .ok ((s', none), 1) :=
  C76_tool_reported Demo.env (failAt 0) 0 _ (some Demo.A) started (by decide +kernel) (by decide +kernel) rfl

/-- C77: if the allocation of GOTCHA's own tool fails during initialisation, initialisation counts as
done, but nothing was wrapped: memory is as before and the table of wrapped functions is new and empty.
Later calls do not try again. -/
theorem C77_init_lost (env : Env) (o : Oracle) (k : Nat) (s : State) (hi : s.inited = false)
    (ht : s.tools.getTool (nm "gotcha") = .ok none) (lt : HTable Addr Nat) (ft nt : HTable Name Nat)
    (h1 : HTable.create env.page 128 = .ok lt) (h2 : HTable.create env.page 4096 = .ok ft)
    (h3 : HTable.create env.page 128 = .ok nt) (o0 : o k = true) (o1 : o (k + 1) = true)
    (o2 : o (k + 2) = true) (o3 : o (k + 3) = false) :
    ∃ s', Oom.gotchaInit env s o k = .ok (s', k + 4) ∧ s'.inited = true ∧ s'.mem = s.mem ∧
      s'.funTab = ft ∧ s'.binds = s.binds ∧ s'.handles env.hDlopen = none ∧
      ∀ o' k', Oom.gotchaInit env s' o' k' = .ok (s', k') := by
  have e : ∀ (us : List UBinding) (s : State),
      (us.foldl (fun s u => s.setHandle u.handle none) s).tools = s.tools := by
    intro us
    induction us with
    | nil => intro s; rfl
    | cons u us ih => intro s; rw [List.foldl_cons, ih]; rfl
  refine ⟨(dlTable env).foldl (fun s u => s.setHandle u.handle none)
    { s with inited := true, libTab := lt, funTab := ft, notFound := nt }, ?_, rfl, rfl, rfl, rfl, ?_, ?_⟩
  · have cr : ∀ {K D : Type} (n j : Nat) (t : HTable K D), HTable.create env.page n = .ok t →
        o j = true → Oom.create env.page n o j = .ok (some t, j + 1) := by
      intro K D n j t ht hj
      unfold Oom.create
      rw [Oom.mbind, ht]
      simp only [Oom.lift]
      rw [Oom.mbind]
      simp only [Oom.alloc, hj]
      rfl
    unfold Oom.gotchaInit
    simp only [hi, Bool.false_eq_true, if_false]
    rw [Oom.mbind, cr _ _ _ h1 o0]
    simp only
    rw [Oom.mbind, cr _ _ _ h2 o1]
    simp only
    rw [Oom.mbind, cr _ _ _ h3 o2]
    simp only [Option.getD]
    rw [Oom.mbind]
    have hw : Oom.wrapBody env (dlTable env) (some (nm "gotcha"))
        { s with inited := true, libTab := lt, funTab := ft, notFound := nt } o (k + 3) =
        .ok (((dlTable env).foldl (fun s u => s.setHandle u.handle none)
          { s with inited := true, libTab := lt, funTab := ft, notFound := nt }, none), k + 4) := by
      unfold Oom.wrapBody Oom.wrapCore
      rw [Oom.mbind]
      have hg : Oom.getOrCreate s.tools (nm "gotcha") o (k + 3) = .ok (none, k + 4) := by
        unfold Oom.getOrCreate
        rw [Oom.mbind, ht]
        simp only [Oom.lift]
        unfold Oom.createTool
        rw [Oom.mbind]
        simp only [Oom.alloc, o3]
        rfl
      simp only [e, Option.getD, hg]
      rfl
    rw [hw]
    rfl
  · simp only [dlTable, List.foldl_cons, List.foldl_nil, State.setHandle]
    split <;> simp
  · intro o' k'
    unfold Oom.gotchaInit
    exact if_pos rfl ▸ rfl

example : Demo.proc.start.inited = false ∧ Demo.proc.start.tools.getTool (nm "gotcha") = .ok none ∧
    (∃ lt : HTable Addr Nat, HTable.create Demo.env.page 128 = .ok lt) ∧
    (∃ ft : HTable Name Nat, HTable.create Demo.env.page 4096 = .ok ft) :=
  ⟨rfl, rfl, ⟨_, rfl⟩, ⟨_, rfl⟩⟩

/-- C77, refuted: the first `gotcha_wrap` of the process returns GOTCHA_SUCCESS, its wrapper is in
place, and dlopen is not intercepted although it is with enough memory: the plugin then loaded calls
the wrapped function directly. -/
theorem C77_refuted :
    (∃ s k, Oom.gotchaWrap Demo.env [⟨nm "foo", 0x50a, 10⟩] (some Demo.B) Demo.proc.start (failAt 3) 0 =
        .ok ((s, some .success), k) ∧
      s.mem (Demo.app.addr + 0x18) = 0x50a ∧
      s.mem (Demo.app.addr + 0x28) = Demo.proc.start.mem (Demo.app.addr + 0x28)) ∧
    (∃ s k, Oom.gotchaWrap Demo.env [⟨nm "foo", 0x50a, 10⟩] (some Demo.B) Demo.proc.start
        (fun _ => true) 0 = .ok ((s, some .success), k) ∧
      s.mem (Demo.app.addr + 0x18) = 0x50a ∧ s.mem (Demo.app.addr + 0x28) = Demo.env.dlopenW) := by
  have key : ∀ {r : Except Fault ((State × Option RetCode) × Nat)} {a b : Addr},
      (match r with
        | .ok ((s, some .success), _) => decide (s.mem (Demo.app.addr + 0x18) = a ∧
            s.mem (Demo.app.addr + 0x28) = b)
        | _ => false) = true →
      ∃ s k, r = .ok ((s, some .success), k) ∧ s.mem (Demo.app.addr + 0x18) = a ∧
        s.mem (Demo.app.addr + 0x28) = b := by
    intro r a b h
    split at h
    · rename_i s k
      exact ⟨s, k, rfl, of_decide_eq_true h⟩
    · cases h
  exact ⟨key (by decide +kernel), key (by decide +kernel)⟩

end Gotcha.Props
