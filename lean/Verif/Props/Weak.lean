import Verif.Proof.Weak
import Verif.Props.Overlap
import Verif.Props.TraceDl
/-
C106: calls of wrapped functions on another processor, when memory is not sequentially consistent.
-/
namespace Gotcha
open Spec Tr

/-- C106.  GOTCHA changes memory one place at a time, as far as callers of wrapped functions read it: in every
`gotcha_wrap`, and in every intercepted dlopen once the loader is done. -/
theorem C106_one_store_at_a_time (env : Env) (s : State) :
    (∀ tbl tool tr res, gotchaWrapT env tbl tool s = .ok (tr, res) →
      ∃ xs, Does (view s) xs tr ∧ ∀ x ∈ xs, x.Single) ∧
    (∀ ld tr s', dlopenWrapperT env ld s = .ok (tr, s') → ∃ tr', tr = s.load ld :: tr' ∧
      ∃ xs, Does (view (s.load ld)) xs tr' ∧ ∀ x ∈ xs, x.Single) := by
  refine ⟨fun tbl tool tr res h => (ones_gotchaWrap env tbl tool s tr res h).does, fun ld tr s' h => ?_⟩
  unfold dlopenWrapperT at h
  obtain ⟨t1, a, t2, e1, e2, rfl⟩ := ok_bind h
  obtain ⟨rfl, -⟩ := ok_lift e1
  obtain ⟨t3, b, t4, e3, e4, rfl⟩ := ok_bind e2
  cases e3
  exact ⟨t4, rfl, (ones_afterDlopen env _ t4 s' e4).does⟩

/-- C106.  C25 on processors that make stores visible late but in order, through a store buffer (x86), and on any
processor if GOTCHA's stores had release semantics and the loads of the caller acquire semantics: a call of `f` on another processor completes and runs exactly what
a call before or a call after the `gotcha_wrap` runs. -/
theorem C106_insertion_in_order {p : Process} (ok : p.Ok) {ops : List Op} {tbl : List UBinding}
    {tool : Option Name} (h : History p True (ops ++ [.wrap tbl tool])) {s os}
    (hrun : run p.env ops p.start = .ok (s, os)) {f : Name} {r : Addr}
    (hmain : (∀ u ∈ tbl, u.name ≠ nm "main") ∨ ∃ o ∈ ops, hasMain (tableOf o))
    (hdl : ops.any isApi = true ∨ (f ≠ nm "dlopen" ∧ f ≠ nm "dlsym"))
    (honce : (tbl.map UBinding.name).count f ≤ 1)
    (hr : registered p.env (ops ++ [.wrap tbl tool]) f = [] ∨
      realAfter p.env p.libs (ops ++ [.wrap tbl tool]) f = some r)
    (hPr : p.P r = none) {l : Lib} {off : Addr} (hl : l ∈ libsAfter p.libs ops)
    (hoff : (off, f) ∈ rlOf l)
    (hPv : registered p.env ops f = [] → p.P (s.mem (l.addr + off)) = none) :
    ∃ tr s' c old new, gotchaWrapT p.env tbl tool s = .ok (tr, (s', c)) ∧
      gotchaWrap p.env tbl tool s = .ok (s', c) ∧
      Calls p.P s (s.mem (l.addr + off)) old ∧ Calls p.P s' (s'.mem (l.addr + off)) new ∧
      (∀ xs, Does (view s) xs tr →
        SafeBuffered p.P (fun path => path = old ∨ path = new) ⟨xs, [], view s⟩ (.slot (l.addr + off))) ∧
      SafeReleased p.P (fun path => path = old ∨ path = new) (s :: tr) 0 (.slot (l.addr + off)) := by
  obtain ⟨tr, s', c, old, new, h1, h2, h3, h4, h5⟩ := C25_insertion_is_atomic ok h hrun hmain hdl honce hr hPr hl hoff hPv
  exact ⟨tr, s', c, old, new, h1, h2, h3, h4, fun xs hx => safe_buffered h5 hx, safe_released h5 rfl⟩

/-- C106.  The same for C80: a call on another processor during an intercepted dlopen. -/
theorem C106_dlopen_in_order {p : Process} (ok : p.Ok) {ops : List Op} {ld : Load}
    (h : History p True (ops ++ [.dlopen ld])) (hapi : ops.any isApi = true) {s os}
    (hrun : run p.env ops p.start = .ok (s, os)) {f : Name} {r : Addr}
    (hr : registered p.env ops f = [] ∨ realAfter p.env p.libs (ops ++ [.dlopen ld]) f = some r)
    (hPr : p.P r = none) {l : Lib} {off : Addr} (hl : l ∈ libsAfter p.libs ops ++ ld.libs)
    (hoff : (off, f) ∈ rlOf l)
    (hPv : p.P ((s.load ld).mem (l.addr + off)) = none ∨ (l ∈ libsAfter p.libs ops ∧
      registered p.env ops f ≠ [] ∧ realAfter p.env p.libs ops f = some r)) :
    ∃ tr s' old new, dlopenWrapperT p.env ld s = .ok (s.load ld :: tr, s') ∧
      dlopenWrapper p.env ld s = .ok s' ∧
      Calls p.P (s.load ld) ((s.load ld).mem (l.addr + off)) old ∧
      Calls p.P s' (s'.mem (l.addr + off)) new ∧
      (∀ xs, Does (view (s.load ld)) xs tr →
        SafeBuffered p.P (fun path => path = old ∨ path = new) ⟨xs, [], view (s.load ld)⟩ (.slot (l.addr + off))) ∧
      SafeReleased p.P (fun path => path = old ∨ path = new) (s.load ld :: tr) 0 (.slot (l.addr + off)) := by
  obtain ⟨tr, s', old, new, h1, h2, h3, h4, h5⟩ := C80_dlopen_is_atomic ok h hapi hrun hr hPr hl hoff hPv
  exact ⟨tr, s', old, new, h1, h2, h3, h4, fun xs hx => safe_buffered h5 hx, safe_released h5 rfl⟩

/-- C106.  The same for C89: a call on another processor that overlaps any number of events. -/
theorem C106_overlapping_in_order {p : Process} (ok : p.Ok) {ops ops' : List Op}
    (h : History p True (ops ++ ops')) (hapi : ops.any isApi = true) {s os}
    (hrun : run p.env ops p.start = .ok (s, os)) {f : Name} {r : Addr}
    (hmain : ∀ op ∈ ops', hasMain (tableOf op) → ∃ o ∈ ops, hasMain (tableOf o))
    (honce : ∀ op ∈ ops', ((tableOf op).map UBinding.name).count f ≤ 1) (hPr : p.P r = none)
    {l : Lib} {off : Addr} (hoff : (off, f) ∈ rlOf l)
    (hpre : ∀ pre, pre <+: ops' → (registered p.env (ops ++ pre) f = [] ∨
      realAfter p.env p.libs (ops ++ pre) f = some r) ∧ l ∈ libsAfter p.libs (ops ++ pre))
    (hPv : registered p.env ops f = [] → p.P (s.mem (l.addr + off)) = none) :
    ∃ tr s' os' old new Q, runT p.env ops' s = .ok (tr, (s', os')) ∧
      run p.env ops' s = .ok (s', os') ∧
      Calls p.P s (s.mem (l.addr + off)) old ∧ Calls p.P s' (s'.mem (l.addr + off)) new ∧
      (∀ path, Q path ↔ (registered p.env ops f = [] ∧ path = old) ∨
        (path.Sublist new ∧ path.getLast? = some r ∧ (registered p.env ops f ≠ [] → old.Sublist path))) ∧
      (∃ xs, Does (view s) xs tr) ∧
      (∀ xs, Does (view s) xs tr → SafeBuffered p.P Q ⟨xs, [], view s⟩ (.slot (l.addr + off))) ∧
      SafeReleased p.P Q (s :: tr) 0 (.slot (l.addr + off)) := by
  obtain ⟨tr, s', os', old, new, h1, h2, h3, h4, h5⟩ := C89_overlapping_calls ok h hapi hrun hmain honce hPr hoff hpre hPv
  exact ⟨tr, s', os', old, new, _, h1, h2, h3, h4, fun _ => Iff.rfl, does_any tr _, fun xs hx => safe_buffered h5 hx,
    safe_released h5 rfl⟩

/-- C106, refuted for processors that may reorder plain stores to different places (ARM, POWER): in any state, whenever
a `gotcha_wrap` puts a wrapper of its table into the GOT word at `a`, a caller of `a` on another processor can see the
new word before the handle variable and dereference NULL. -/
theorem C106_reordered_refuted (env : Env) (P : Addr → Option HAddr) {tbl : List UBinding} {tool : Option Name}
    {s s' : State} {tr : List State} {c : RetCode} (he : gotchaWrapT env tbl tool s = .ok (tr, (s', c)))
    {u : UBinding} (hu : u ∈ tbl) (hP : P u.wrapper = some u.handle) {a : Addr} (ha : s'.mem a = u.wrapper) :
    MayFault P (s :: tr) (.slot a) := by
  obtain ⟨σ, hσ, hv⟩ := (ones_gotchaWrap env tbl tool s tr _ he).last
  obtain ⟨τ, hτ, hn⟩ := wrap_null he hu
  obtain ⟨i, hi⟩ := List.mem_iff_getElem?.1 hσ
  obtain ⟨j, hj⟩ := List.mem_iff_getElem?.1 hτ
  have hw : view σ (.word a) = some (.addr u.wrapper) := by
    rw [hv]; simp only [view, ha]
  refine ⟨_, .jump u.wrapper [], .handle u.handle, j, τ,
    .read (p := .word a) (i := i) (σ := σ) rfl (Nat.zero_le _) hi (by rw [hw]; rfl) .refl, ?_, ?_, hj, ?_⟩
  · simp only [reads, hP, Option.map_some]
  · rw [if_neg (by simp)]; exact Nat.zero_le _
  · simp only [advance, hP, view, hn, Option.map_none]

/-- Not vacuous: the third event of the example process.  Another processor calls `foo` from the application while
GOTCHA inserts a second wrapper.  If the stores become visible in order, it runs one wrapper or both; if they do not, it
may dereference NULL. -/
example : ∃ s os tr s' c, run Demo.env (Demo.ops.take 2) Demo.proc.start = .ok (s, os) ∧
    gotchaWrapT Demo.env [⟨nm "foo", 0x50c, 12⟩] (some Demo.A) s = .ok (tr, (s', c)) ∧
    (∃ xs, Does (view s) xs tr ∧ SafeBuffered Demo.P
      (fun path => path = [0x50a, 0x20004000] ∨ path = [0x50c, 0x50a, 0x20004000])
      ⟨xs, [], view s⟩ (.slot (Demo.app.addr + 0x18))) ∧
    SafeReleased Demo.P (fun path => path = [0x50a, 0x20004000] ∨ path = [0x50c, 0x50a, 0x20004000])
      (s :: tr) 0 (.slot (Demo.app.addr + 0x18)) ∧
    MayFault Demo.P (s :: tr) (.slot (Demo.app.addr + 0x18)) := by
  have hq : Demo.after Demo.env (Demo.ops.take 2) Demo.proc.start
      (fun s => decide (walk Demo.P s 5 (s.mem 0x10000018) = some [0x50a, 0x20004000])) = true := by
    decide +kernel
  have hq' : Demo.after Demo.env (Demo.ops.take 3) Demo.proc.start
      (fun s => decide (walk Demo.P s 5 (s.mem 0x10000018) = some [0x50c, 0x50a, 0x20004000] ∧
        s.mem 0x10000018 = 0x50c)) = true := by
    decide +kernel
  obtain ⟨s, os, hr, hq⟩ := Demo.after_run hq
  obtain ⟨s3, os3, hr3, hq3⟩ := Demo.after_run hq'
  replace hr : run Demo.proc.env (Demo.ops.take 2) Demo.proc.start = .ok (s, os) := hr
  have h3 : History Demo.proc True (Demo.ops.take 2 ++ [.wrap [⟨nm "foo", 0x50c, 12⟩] (some Demo.A)]) :=
    Demo.prefix_history True 3
  have hreal3 : realAfter Demo.proc.env Demo.proc.libs (Demo.ops.take 3) (nm "foo") =
    some 0x20004000 := by decide +kernel
  have hreg2 : registered Demo.proc.env (Demo.ops.take 2) (nm "foo") =
    [⟨Demo.B, 0x50a, 10⟩] := by decide +kernel
  obtain ⟨tr, s', c, old, new, e1, e2, e3, e4, e5, e6⟩ := C106_insertion_in_order Demo.proc_ok h3 hr
    (f := nm "foo") (r := 0x20004000)
    (Or.inl (by
      intro u hu
      rw [List.mem_singleton] at hu
      subst hu
      show nm "foo" ≠ nm "main"
      decide +kernel))
    (Or.inl rfl) (by simp) (Or.inr hreal3) (by decide) (l := Demo.app)
    (off := 0x18) (by show _ ∈ [Demo.app, Demo.libc]; simp) Demo.slot_app
    (by rw [hreg2]; intro hc; cases hc)
  have hs : s3 = s' := by
    have hr3' : run Demo.env (Demo.ops.take 2 ++ [.wrap [⟨nm "foo", 0x50c, 12⟩] (some Demo.A)])
      Demo.proc.start = .ok (s3, os3) := hr3
    replace e2 : gotchaWrap Demo.env _ _ s = _ := e2
    replace hr : run Demo.env _ _ = _ := hr
    rw [run_append_model, hr] at hr3'
    simp only [bind, Except.bind, run, stepOp, e2] at hr3'
    cases hr3'
    rfl
  subst hs
  have w2 := of_decide_eq_true hq
  obtain ⟨w3, w4⟩ := of_decide_eq_true hq3
  have ho : old = [0x50a, 0x20004000] := e3.det (walk_calls w2)
  have hn : new = [0x50c, 0x50a, 0x20004000] := e4.det (walk_calls w3)
  subst ho hn
  obtain ⟨xs, hx, -⟩ := (C106_one_store_at_a_time Demo.env s).1 _ _ _ _ e1
  exact ⟨s, os, tr, s3, c, hr, e1, ⟨xs, hx, e5 xs hx⟩, e6,
    C106_reordered_refuted Demo.env Demo.P e1 (List.mem_singleton.2 rfl) (by decide) w4⟩

/-- Not vacuous: the dlopen of the example process, seen from the plugin's slot of `foo`. -/
example : ∃ s os tr s' old new, run Demo.env (Demo.ops.take 3) Demo.proc.start = .ok (s, os) ∧
    dlopenWrapperT Demo.env Demo.loadPlug s = .ok (s.load Demo.loadPlug :: tr, s') ∧
    Calls Demo.P s' (s'.mem (Demo.plug.addr + 0x18)) new ∧
    SafeReleased Demo.P (fun path => path = old ∨ path = new) (s.load Demo.loadPlug :: tr) 0
      (.slot (Demo.plug.addr + 0x18)) := by
  have hq : Demo.after Demo.env (Demo.ops.take 3) Demo.proc.start
      (fun s => decide ((s.load Demo.loadPlug).mem 0x30000018 = 0)) = true := by decide +kernel
  obtain ⟨s, os, hr, hq⟩ := Demo.after_run hq
  replace hr : run Demo.proc.env (Demo.ops.take 3) Demo.proc.start = .ok (s, os) := hr
  have hm : (s.load Demo.loadPlug).mem (Demo.plug.addr + 0x18) = 0 := of_decide_eq_true hq
  have h4 : History Demo.proc True (Demo.ops.take 3 ++ [.dlopen Demo.loadPlug]) :=
    Demo.prefix_history True 4
  have hreal4 : realAfter Demo.proc.env Demo.proc.libs (Demo.ops.take 4) (nm "foo") =
    some 0x20004000 := by decide +kernel
  obtain ⟨tr, s', old, new, e1, -, -, e4, -, e6⟩ := C106_dlopen_in_order Demo.proc_ok h4 rfl hr
    (f := nm "foo") (r := 0x20004000) (Or.inr hreal4) (by decide) (l := Demo.plug) (off := 0x18)
    (by show _ ∈ [Demo.app, Demo.libc, Demo.plug]; simp) Demo.slot_plug (Or.inl (by rw [hm]; decide))
  exact ⟨s, os, tr, s', old, new, hr, e1, e4, e6⟩

/-- Not vacuous: a registration and then the dlopen, seen from the application's slot of `foo`, which has a wrapper
already. -/
example : ∃ s os tr s' os' old new Q, run Demo.env (Demo.ops.take 2) Demo.proc.start = .ok (s, os) ∧
    runT Demo.env [.wrap [⟨nm "foo", 0x50c, 12⟩] (some Demo.A), .dlopen Demo.loadPlug] s = .ok (tr, (s', os')) ∧
    Calls Demo.P s (s.mem (Demo.app.addr + 0x18)) old ∧ Calls Demo.P s' (s'.mem (Demo.app.addr + 0x18)) new ∧
    (∀ path, Q path → old.Sublist path ∧ path.Sublist new) ∧
    SafeReleased Demo.P Q (s :: tr) 0 (.slot (Demo.app.addr + 0x18)) := by
  obtain ⟨s, os, hr⟩ := Demo.prefix_run 2
  have h4 : History Demo.proc True (Demo.ops.take 2 ++
      [.wrap [⟨nm "foo", 0x50c, 12⟩] (some Demo.A), .dlopen Demo.loadPlug]) :=
    Demo.prefix_history True 4
  have hreg2 : registered Demo.proc.env (Demo.ops.take 2) (nm "foo") =
    [⟨Demo.B, 0x50a, 10⟩] := by decide +kernel
  have hnm : nm "foo" ≠ nm "main" := by decide +kernel
  obtain ⟨tr, s', os', old, new, Q, e1, -, e3, e4, e5, -, -, e6⟩ := C106_overlapping_in_order Demo.proc_ok h4 rfl hr
    (f := nm "foo") (r := 0x20004000)
    (by
      intro op hop hm
      simp only [List.mem_cons, List.not_mem_nil, or_false] at hop
      rcases hop with rfl | rfl
      · obtain ⟨u, hu, hn⟩ := hm
        simp only [tableOf, List.mem_singleton] at hu
        subst hu
        exact absurd hn hnm
      · obtain ⟨u, hu, hn⟩ := hm
        cases hu)
    (by
      intro op hop
      simp only [List.mem_cons, List.not_mem_nil, or_false] at hop
      rcases hop with rfl | rfl <;> simp [tableOf])
    (by decide) (l := Demo.app) (off := 0x18) Demo.slot_app
    (by
      intro pre hpre
      obtain ⟨n, rfl⟩ : ∃ n, pre = List.take n [.wrap [⟨nm "foo", 0x50c, 12⟩] (some Demo.A), .dlopen Demo.loadPlug] :=
        ⟨pre.length, List.prefix_iff_eq_take.1 hpre⟩
      rcases n with _ | _ | n
      · exact ⟨Or.inr (by decide +kernel), by show _ ∈ [Demo.app, Demo.libc]; simp⟩
      · exact ⟨Or.inr (by decide +kernel), by show _ ∈ [Demo.app, Demo.libc]; simp⟩
      · rw [show List.take (n + 1 + 1) [Op.wrap [⟨nm "foo", 0x50c, 12⟩] (some Demo.A), .dlopen Demo.loadPlug] =
          [.wrap [⟨nm "foo", 0x50c, 12⟩] (some Demo.A), .dlopen Demo.loadPlug] by simp]
        exact ⟨Or.inr (by decide +kernel), by show _ ∈ [Demo.app, Demo.libc, Demo.plug]; simp⟩)
    (by rw [hreg2]; intro hc; cases hc)
  refine ⟨s, os, tr, s', os', old, new, Q, hr, e1, e3, e4, fun path hp => ?_, e6⟩
  rcases (e5 path).1 hp with ⟨h, -⟩ | ⟨h1, -, h2⟩
  · rw [hreg2] at h; cases h
  · exact ⟨h2 (by rw [hreg2]; simp), h1⟩

end Gotcha
