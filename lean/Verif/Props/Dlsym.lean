import Verif.Proof.Calls
import Verif.Demo.Facts
/-
C17–C19: the intercepted dlsym, for every behaviour `real` of the real dlsym and dlopen.
-/
namespace Gotcha
open Spec

/-- The two handles `dlsym_wrapper` reads first. -/
theorem dl_handles {p : Process} (ok : p.Ok) {strict : Prop} {ops : List Op}
    (h : History p strict ops) {s os} (hr : run p.env ops p.start = .ok (s, os))
    (hi : s.inited = true) (hd : HasDl p ops) :
    (∃ a, s.getWrappee p.env.hDlopen = .ok a) ∧ (∃ a, s.getWrappee p.env.hDlsym = .ok a) := by
  obtain ⟨s', h1, h2⟩ := history_run ok h
  rw [hr] at h1
  cases h1
  rcases h2 with hpre | ⟨v, G, hpost⟩
  · rw [hpre.st] at hi; cases hi
  · refine ⟨dl_wrappee hpost trivial (u := ⟨nm "dlopen", p.env.dlopenW, p.env.hDlopen⟩)
      (by simp [dlTable, Process.ctx]) (by rw [real_run]; exact hd.1),
      dl_wrappee hpost trivial (u := ⟨nm "dlsym", p.env.dlsymW, p.env.hDlsym⟩)
      (by simp [dlTable, Process.ctx]) (by rw [real_run]; exact hd.2)⟩

theorem inited_of_registered {p : Process} {ops : List Op} {f : Name}
    (h : registered p.env ops f ≠ []) : ops.any isApi = true := by
  by_contra hc
  rw [Bool.not_eq_true] at hc
  have : ∀ ops mw, ops.any isApi = false → regs p.env false mw ops = [] := by
    intro ops
    induction ops with
    | nil => intros; rfl
    | cons o ops ih =>
      intro mw h
      simp only [List.any_cons, Bool.or_eq_false_iff] at h
      rw [regs, h.1, Bool.or_false, ih _ h.2]
      cases o <;> simp_all [opRegs, isApi]
  exact h (by simp [registered, this ops false hc, framesIn])

/-- What `dlsym_wrapper` does for a wrapped function, by its outermost frame. -/
theorem dlsym_wrapped {p : Process} (ok : p.Ok) {strict : Prop} {ops : List Op}
    (h : History p strict ops) {s os} (hr : run p.env ops p.start = .ok (s, os))
    (hd : HasDl p ops) {f : Name} {fr : Frame} {st : List Frame}
    (hst : stackOf p ops f = fr :: st) (real : RealDl) (hnd : DlHandle) (who : Addr) :
    (real.dlsym hnd f = 0 → dlsymWrapper p.env real hnd f who s = .ok (s, fr.wrapper)) ∧
    (∀ w, s.getWrappee fr.handle = .ok w → real.dlsym hnd f = w →
      dlsymWrapper p.env real hnd f who s = .ok (s, fr.wrapper)) ∧
    (∀ w n, s.getWrappee fr.handle = .ok w → real.dlsym (.other n) f ≠ 0 →
      real.dlsym (.other n) f ≠ w →
      dlsymWrapper p.env real (.other n) f who s = .ok (s, real.dlsym (.other n) f)) ∧
    (∀ w l, s.getWrappee fr.handle = .ok w → real.dlsym .next f ≠ 0 → real.dlsym .next f ≠ w →
      rtldNextLookup p.env f who s = .ok (s, l) →
      dlsymWrapper p.env real .next f who s = .ok (s,
        match l with
        | some l => real.dlsym (real.dlopen l.name) f
        | none => 0)) ∧
    (real.dlsym hnd f ≠ 0 → s.getWrappee fr.handle = .error .uninit →
      dlsymWrapper p.env real hnd f who s = .error .uninit) := by
  obtain ⟨hv, -, hini⟩ := history_view ok h hr
  have hreg : registered p.env ops f ≠ [] := by
    intro hc
    have := stackOf_perm p ops f
    rw [hc, hst] at this
    exact absurd this.length_eq (by simp)
  have hi : s.inited = true := by rw [hini]; exact inited_of_registered hreg
  obtain ⟨⟨a1, e1⟩, ⟨a2, e2⟩⟩ := dl_handles ok h hr hi hd
  have hA : (Abs.run p.env ops p.abs).1.inited = true := by
    rw [abs_start, (run_prio p.env p.libs ops).2, ← hini]; exact hi
  obtain ⟨o, ho, hcase⟩ := hv.look hA f
  rcases hcase with ⟨hc, -⟩ | ⟨fr', st', b, hc, rfl, hb⟩
  · rw [show (Abs.run p.env ops p.abs).1.stack f = _ from hst] at hc; cases hc
  · rw [show (Abs.run p.env ops p.abs).1.stack f = _ from hst] at hc
    cases hc
    obtain ⟨x, t, hx, hxu, -, -⟩ := hb.bind
    have hxw : x.user.wrapper = fr.wrapper := by rw [hxu]
    have hxh : x.user.handle = fr.handle := by rw [hxu]
    refine ⟨?_, ?_, ?_, ?_, ?_⟩
    · intro hval
      simp only [dlsymWrapper, e1, e2, ho, hx, bind, Except.bind, hval, if_true, hxh, hb.handle, hxw]
    · intro w hw hval
      simp only [dlsymWrapper, e1, e2, ho, hx, bind, Except.bind, hxh, hb.handle, hxw, hw, hval,
        if_true]
      split <;> rfl
    · intro w n hw h0 hne
      simp only [dlsymWrapper, e1, e2, ho, hx, bind, Except.bind, if_neg h0, hxh, hw,
        if_neg (Ne.symm hne)]
    · intro w l hw h0 hne hl
      simp only [dlsymWrapper, e1, e2, ho, hx, bind, Except.bind, if_neg h0, hxh, hw,
        if_neg (Ne.symm hne), hl]
      cases l <;> rfl
    · intro h0 hw
      simp only [dlsymWrapper, e1, e2, ho, hx, bind, Except.bind, if_neg h0, hxh, hw]

/-- C17.  For a function wrapped by one tool and resolved, dlsym returns that tool's wrapper when the
real dlsym would return the wrapped function or NULL; when the real dlsym finds a different
function of that name, dlsym with an ordinary handle returns that one. -/
theorem C17_dlsym_one_tool {p : Process} (ok : p.Ok) {strict : Prop} {ops : List Op}
    (h : History p strict ops) {s os} (hr : run p.env ops p.start = .ok (s, os))
    (hd : HasDl p ops) {f : Name} {fr : Frame} (hone : registered p.env ops f = [fr]) {r : Addr}
    (hreal : realAfter p.env p.libs ops f = some r) (real : RealDl) (who : Addr) :
    (∀ hnd, real.dlsym hnd f = 0 ∨ real.dlsym hnd f = r →
      dlsymWrapper p.env real hnd f who s = .ok (s, fr.wrapper)) ∧
    ∀ n, real.dlsym (.other n) f ≠ 0 → real.dlsym (.other n) f ≠ r →
      dlsymWrapper p.env real (.other n) f who s = .ok (s, real.dlsym (.other n) f) := by
  have hp := stackOf_perm p ops f
  rw [hone] at hp
  have hst := List.perm_singleton.1 hp
  have hl := history_linked ok h hr f
  rw [hst, hreal] at hl
  have hw : s.getWrappee fr.handle = .ok r := hl.last fr rfl
  refine ⟨fun hnd hcase => ?_, fun n h0 hne => ?_⟩
  · obtain ⟨g1, g2, -⟩ := dlsym_wrapped ok h hr hd hst real hnd who
    rcases hcase with e | e
    · exact g1 e
    · exact g2 r hw e
  · exact (dlsym_wrapped ok h hr hd hst real .next who).2.2.1 r n hw h0 hne

/-- C17, two or more tools: dlsym returns whatever the real dlsym finds, bypassing every wrapper, unless
the real dlsym finds nothing or a wrapper. -/
theorem C17_two_tools_bypassed {p : Process} (ok : p.Ok) {strict : Prop} {ops : List Op}
    (h : History p strict ops) {s os} (hr : run p.env ops p.start = .ok (s, os))
    (hd : HasDl p ops) {f : Name} (htwo : 2 ≤ (registered p.env ops f).length)
    (real : RealDl) (who : Addr) (n : Nat) (h0 : real.dlsym (.other n) f ≠ 0)
    (hraw : p.P (real.dlsym (.other n) f) = none) :
    dlsymWrapper p.env real (.other n) f who s = .ok (s, real.dlsym (.other n) f) := by
  have hp := stackOf_perm p ops f
  have hl := history_linked ok h hr f
  obtain ⟨hv, -, -⟩ := history_view ok h hr
  cases hst : stackOf p ops f with
  | nil => rw [hst] at hp; rw [← hp.length_eq] at htwo; simp at htwo
  | cons a st =>
    cases st with
    | nil => rw [hst] at hp; rw [← hp.length_eq] at htwo; simp at htwo
    | cons b st =>
      rw [hst] at hl
      have hw := hl.next 0 a b rfl rfl
      refine (dlsym_wrapped ok h hr hd hst real .next who).2.2.1 b.wrapper n hw h0 ?_
      intro hc
      have := hv.prog f b (by
        show b ∈ stackOf p ops f
        rw [hst]; simp)
      rw [← hc, hraw] at this
      cases this

theorem demo_dl : HasDl Demo.proc Demo.ops2 :=
  ⟨by decide +kernel, by decide +kernel⟩

theorem demo_dl' : HasDl Demo.proc Demo.ops :=
  ⟨by decide +kernel, by decide +kernel⟩

/-- bar is wrapped by tool B only; dlsym(handle, "bar") gives its wrapper. -/
example : ∃ s os, run Demo.env Demo.ops Demo.proc.start = .ok (s, os) ∧
    dlsymWrapper Demo.env ⟨fun _ _ => 0x30004000, fun _ => .other 0⟩ (.other 1) (nm "bar") 0 s =
      .ok (s, 0x50b) ∧
    dlsymWrapper Demo.env ⟨fun _ _ => 0x77, fun _ => .other 0⟩ (.other 1) (nm "bar") 0 s =
      .ok (s, 0x77) := by
  obtain ⟨s, os, hr⟩ := Demo.demo_run
  exact ⟨s, os, hr,
    (C17_dlsym_one_tool Demo.proc_ok (Demo.history True) hr demo_dl' Demo.reg_bar
      Demo.real_bar ⟨fun _ _ => 0x30004000, fun _ => .other 0⟩ 0).1 _ (Or.inr rfl),
    (C17_dlsym_one_tool Demo.proc_ok (Demo.history True) hr demo_dl' Demo.reg_bar
      Demo.real_bar ⟨fun _ _ => 0x77, fun _ => .other 0⟩ 0).2 _ (by show (0x77 : Addr) ≠ 0; decide)
        (by show (0x77 : Addr) ≠ 0x30004000; decide)⟩

/-- C17: with two tools on a function, dlsym should hand out the outermost wrapper. -/
theorem C17_outermost_wrapper_refuted :
    ¬ ∀ (p : Process), p.Ok → ∀ ops, History p True ops → HasDl p ops →
      ∀ s os, run p.env ops p.start = .ok (s, os) → ∀ f r,
      registered p.env ops f ≠ [] → realAfter p.env p.libs ops f = some r →
      ∀ (real : RealDl) n who, real.dlsym (.other n) f = r →
      ∃ fr ∈ registered p.env ops f,
        dlsymWrapper p.env real (.other n) f who s = .ok (s, fr.wrapper) := by
  intro hdoc
  obtain ⟨s, os, hr⟩ := Demo.demo_run2
  have hreg : registered Demo.proc.env Demo.ops2 (nm "foo") =
    [⟨Demo.B, 0x50a, 10⟩, ⟨Demo.A, 0x50c, 12⟩] := Demo.reg_foo2
  obtain ⟨fr, h1, h2⟩ := hdoc Demo.proc Demo.proc_ok Demo.ops2 (Demo.history2 True) demo_dl s os hr
    (nm "foo") 0x20004000 (by rw [hreg]; simp) Demo.real_foo2
    ⟨fun _ _ => 0x20004000, fun _ => .other 0⟩ 0 0 rfl
  have h3 := C17_two_tools_bypassed Demo.proc_ok (Demo.history2 True) hr demo_dl (f := nm "foo")
    (by rw [hreg]; simp) ⟨fun _ _ => 0x20004000, fun _ => .other 0⟩ 0 0
    (by show (0x20004000 : Addr) ≠ 0; decide) (by show Demo.P 0x20004000 = none; decide)
  rw [h2] at h3
  have h4 : fr.wrapper = 0x20004000 := congrArg Prod.snd (Except.ok.inj h3)
  rw [hreg] at h1
  simp only [List.mem_cons, List.not_mem_nil, or_false] at h1
  rcases h1 with rfl | rfl <;> revert h4 <;> decide

/-- The lookup of an unwrapped name. -/
theorem dlsym_unwrapped {p : Process} (ok : p.Ok) {strict : Prop} {ops : List Op}
    (h : History p strict ops) {s os} (hr : run p.env ops p.start = .ok (s, os))
    (hi : s.inited = true) {f : Name} (hnone : registered p.env ops f = []) :
    nameLookup s.funTab f = .ok none := by
  obtain ⟨hv, -, hini⟩ := history_view ok h hr
  have hA : (Abs.run p.env ops p.abs).1.inited = true := by
    rw [abs_start, (run_prio p.env p.libs ops).2, ← hini]; exact hi
  obtain ⟨o, ho, hcase⟩ := hv.look hA f
  rcases hcase with ⟨-, rfl⟩ | ⟨fr', st', b, hc, -, -⟩
  · exact ho
  · exfalso
    have := stackOf_perm p ops f
    rw [hnone, show stackOf p ops f = _ from hc] at this
    exact absurd this.length_eq (by simp)

/-- C18.  For a name nobody wrapped and an ordinary handle, dlsym returns what the real dlsym returns and
changes nothing. -/
theorem C18_dlsym_transparent {p : Process} (ok : p.Ok) {strict : Prop} {ops : List Op}
    (h : History p strict ops) {s os} (hr : run p.env ops p.start = .ok (s, os))
    (hi : s.inited = true) (hd : HasDl p ops) {f : Name} (hnone : registered p.env ops f = [])
    (real : RealDl) (n : Nat) (who : Addr) :
    dlsymWrapper p.env real (.other n) f who s = .ok (s, real.dlsym (.other n) f) := by
  obtain ⟨⟨a1, e1⟩, ⟨a2, e2⟩⟩ := dl_handles ok h hr hi hd
  simp only [dlsymWrapper, e1, e2, dlsym_unwrapped ok h hr hi hnone, bind, Except.bind]

theorem firstExporting_spec {env : Env} {U : Lib → Prop} (w : World env U) {v : Option Addr}
    (f : Name) (ls : List Lib) : ∀ {s : State}, s.vdso = some v → (∀ l ∈ ls, U l) →
    firstExporting env f ls s = .ok (s, ls.find? (fun l =>
      decide (v ≠ some l.lm) && (exportsAt l f).isSome)) := by
  induction ls with
  | nil => intros; rfl
  | cons l ls ih =>
    intro s hv hU
    rw [firstExporting, lookupExported_spec w (hU l (by simp)) f (Or.inl hv)]
    have hs : ({ s with vdso := some v } : State) = s := by rw [← hv]
    simp only [bind, Except.bind, hs, List.find?_cons]
    by_cases hc : v = some l.lm
    · simp only [hc, if_true, ne_eq, not_true, decide_false, Bool.false_and]
      rw [← hc]
      exact ih hv (fun l hl => hU l (List.mem_cons_of_mem _ hl))
    · simp only [if_neg hc, ne_eq, hc, not_false_eq_true, decide_true, Bool.true_and]
      cases he : exportsAt l f with
      | some a => rfl
      | none => exact ih hv (fun l hl => hU l (List.mem_cons_of_mem _ hl))

theorem header_none {L : List Lib} {who : Addr} {o : Lib} (h : ¬ Contains o who) :
    headerCallback L who o = none := by
  unfold headerCallback
  rw [if_neg]
  intro hc
  rw [List.any_eq_true] at hc
  obtain ⟨q, hq, hc⟩ := hc
  simp only [decide_eq_true_eq] at hc
  exact h ⟨q, hq, hc.1, hc.2.1, hc.2.2⟩

theorem dropWhile_placed {X Y : List Lib} {c : Lib} (hpl : Placed (X ++ c :: Y))
    (hnd : ((X ++ c :: Y).map (·.lm)).Nodup) :
    (X ++ c :: Y).dropWhile (fun l => !decide (l.name = c.name ∧ c.addr = l.addr)) = c :: Y := by
  have hx : ∀ x ∈ X, x ≠ c := by
    rintro x hx rfl
    rw [List.map_append, List.map_cons, List.nodup_append] at hnd
    exact hnd.2.2 x.lm (List.mem_map.2 ⟨x, hx, rfl⟩) x.lm (by simp) rfl
  rw [List.dropWhile_append_of_pos]
  · simp
  · intro x hx'
    simp only [Bool.not_eq_true', decide_eq_false_iff_not]
    rintro ⟨h1, h2⟩
    exact hx x hx' (hpl c (by simp) x (by simp [hx']) h1.symm h2)

/-- The lookup for RTLD_NEXT, for a caller inside the library `c`. -/
theorem rtldNext_spec {p : Process} (ok : p.Ok) {strict : Prop} {ops : List Op}
    (h : History p strict ops) {s os} (hr : run p.env ops p.start = .ok (s, os))
    (hi : s.inited = true) (f : Name) (who : Addr) {X Y : List Lib} {c : Lib}
    (hlibs : libsAfter p.libs ops = X ++ c :: Y) (hc : Contains c who)
    (hfirst : ∀ o ∈ X, ¬ Contains o who) :
    rtldNextLookup p.env f who s =
      .ok (s, Y.find? (fun l => decide (vdsoAfter p.env p.libs ops ≠ some l.lm) &&
        (exportsAt l f).isSome)) := by
  obtain ⟨s', h1, h2⟩ := history_run ok h
  rw [hr] at h1
  cases h1
  have hlm : s.linkMap = libsAfter p.libs ops := (history_view ok h hr).2.1
  rcases h2 with hpre | ⟨v, G, hpost⟩
  · rw [hpre.st] at hi; cases hi
  have hv : v = vdsoAfter p.env p.libs ops := by
    have h1 := hpost.inv.vdso
    have h2 := (run_real p.env p.libs ops).2.1
    rw [← abs_start] at h2
    exact h1.symm.trans h2
  have hfind : s.linkMap.findSome? (headerCallback s.linkMap who) = some (c :: Y) := by
    rw [hlm, hlibs, List.findSome?_append, List.findSome?_cons]
    rw [List.findSome?_eq_none_iff.2 (fun o ho => header_none (hfirst o ho))]
    have hpl := hpost.inv.placed
    have hnd := hpost.inv.nd
    rw [hlm, hlibs] at hpl hnd
    have hcb : headerCallback (X ++ c :: Y) who c = some (c :: Y) := by
      unfold headerCallback
      rw [if_pos, dropWhile_placed hpl hnd]
      obtain ⟨q, hq, h1, h2, h3⟩ := hc
      rw [List.any_eq_true]
      exact ⟨q, hq, by simpa [Got.PT_LOAD] using ⟨h1, h2, h3⟩⟩
    simp [hcb]
  have hU : ∀ l ∈ Y, p.U l := by
    intro l hl
    refine (hpost.inv.objs l ?_).1
    rw [hlm, hlibs]; simp [hl]
  have hfe := firstExporting_spec ok.world (v := v) f Y (s := s) hpost.vd hU
  simp only [rtldNextLookup, hfind, hfe, hv]

/-- C19.  For a name nobody wrapped, dlsym(RTLD_NEXT, f) called from an address inside a loadable segment
of the library `c` returns the real dlsym's answer for the first library after `c` in link-map
order (vdso excluded) that exports `f`, and NULL if there is none. -/
theorem C19_rtld_next {p : Process} (ok : p.Ok) {strict : Prop} {ops : List Op}
    (h : History p strict ops) {s os} (hr : run p.env ops p.start = .ok (s, os))
    (hi : s.inited = true) (hd : HasDl p ops) {f : Name} (hnone : registered p.env ops f = [])
    (real : RealDl) (who : Addr) {X Y : List Lib} {c : Lib}
    (hlibs : libsAfter p.libs ops = X ++ c :: Y) (hc : Contains c who)
    (hfirst : ∀ o ∈ X, ¬ Contains o who) :
    dlsymWrapper p.env real .next f who s =
      match Y.find? (fun l => decide (vdsoAfter p.env p.libs ops ≠ some l.lm) &&
          (exportsAt l f).isSome) with
      | some l => .ok (s, real.dlsym (real.dlopen l.name) f)
      | none => .ok (s, 0) := by
  obtain ⟨⟨a1, e1⟩, ⟨a2, e2⟩⟩ := dl_handles ok h hr hi hd
  simp only [dlsymWrapper, e1, e2, dlsym_unwrapped ok h hr hi hnone, bind, Except.bind,
    rtldNext_spec ok h hr hi f who hlibs hc hfirst]
  cases Y.find? (fun l => decide (vdsoAfter p.env p.libs ops ≠ some l.lm) &&
    (exportsAt l f).isSome) <;> rfl

/-- C19, a caller outside every loaded object: the process exits. -/
theorem C19_unknown_caller_exits {p : Process} (ok : p.Ok) {strict : Prop} {ops : List Op}
    (h : History p strict ops) {s os} (hr : run p.env ops p.start = .ok (s, os))
    (hi : s.inited = true) (hd : HasDl p ops) {f : Name} (hnone : registered p.env ops f = [])
    (real : RealDl) (who : Addr) (hc : ∀ o ∈ libsAfter p.libs ops, ¬ Contains o who) :
    dlsymWrapper p.env real .next f who s = .error .exit := by
  obtain ⟨⟨a1, e1⟩, ⟨a2, e2⟩⟩ := dl_handles ok h hr hi hd
  have hlm : s.linkMap = libsAfter p.libs ops := (history_view ok h hr).2.1
  have hfind : s.linkMap.findSome? (headerCallback s.linkMap who) = none := by
    rw [hlm]
    exact List.findSome?_eq_none_iff.2 (fun o ho => header_none (hc o ho))
  simp only [dlsymWrapper, e1, e2, dlsym_unwrapped ok h hr hi hnone, bind, Except.bind,
    rtldNextLookup, hfind]

theorem reg_lsm : registered Demo.proc.env Demo.ops2 (nm "__libc_start_main") = [] := by
  decide +kernel

/-- From the application, RTLD_NEXT finds libc's `__libc_start_main`; plain dlsym is transparent. -/
example : ∃ s os, run Demo.env Demo.ops2 Demo.proc.start = .ok (s, os) ∧
    dlsymWrapper Demo.env ⟨fun _ _ => 0x20007000, fun _ => .other 0⟩ .next (nm "__libc_start_main")
      0x10000100 s = .ok (s, 0x20007000) ∧
    dlsymWrapper Demo.env ⟨fun _ _ => 0x77, fun _ => .other 0⟩ (.other 3) (nm "__libc_start_main")
      0x10000100 s = .ok (s, 0x77) := by
  obtain ⟨s, os, hr⟩ := Demo.demo_run2
  have hi : s.inited = true := by
    rw [(history_view Demo.proc_ok (Demo.history2 True) hr).2.2]; rfl
  refine ⟨s, os, hr, ?_, C18_dlsym_transparent Demo.proc_ok (Demo.history2 True) hr hi demo_dl
    reg_lsm ⟨fun _ _ => 0x77, fun _ => .other 0⟩ 3 0x10000100⟩
  have := C19_rtld_next Demo.proc_ok (Demo.history2 True) hr hi demo_dl reg_lsm
    ⟨fun _ _ => 0x20007000, fun _ => .other 0⟩ 0x10000100 (X := []) (c := Demo.app)
    (Y := [Demo.libc]) rfl (by
      unfold Contains
      decide) (by simp)
  rw [show Demo.env = Demo.proc.env from rfl, this]
  rw [show List.find? _ [Demo.libc] = some Demo.libc by
    rw [List.find?_cons_of_pos]; decide +kernel]

end Gotcha
