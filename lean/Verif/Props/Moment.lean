import Verif.Proof.Weak
import Verif.Props.Overlap
import Verif.Props.TraceDl
/-
C107: the moment at which a wrapper takes effect.
-/
namespace Gotcha
open Spec Tr

/-- C107.  In the situation of C25 there is one moment at which a call site changes over: the states of memory during
the `gotcha_wrap` fall into `X` and then `Y`, a call all of whose reads happen in states of `X` runs `old`, a call that
begins in a state of `Y` runs `new`, and a call that begins in `X` and ends in `Y` runs one of the two.  So calls
through this call site happen, each at some time between its first and its last read, before or after the change.  In
particular a call that GOTCHA itself makes during the `gotcha_wrap` (its own library is one of those it patches), or
that a signal handler makes, runs `old` up to that moment and `new` from then on. -/
theorem C107_wrap_has_one_moment {p : Process} (ok : p.Ok) {ops : List Op} {tbl : List UBinding}
    {tool : Option Name} (h : History p True (ops ++ [.wrap tbl tool])) {s os}
    (hrun : run p.env ops p.start = .ok (s, os)) {f : Name} {r : Addr}
    (hmain : (∀ u ∈ tbl, u.name ≠ nm "main") ∨ ∃ o ∈ ops, hasMain (tableOf o))
    (hdl : ops.any isApi = true ∨ (f ≠ nm "dlopen" ∧ f ≠ nm "dlsym"))
    (honce : (tbl.map UBinding.name).count f ≤ 1)
    (hr : registered p.env (ops ++ [.wrap tbl tool]) f = [] ∨
      realAfter p.env p.libs (ops ++ [.wrap tbl tool]) f = some r)
    (hPr : p.P r = none) {l : Lib} {off : Addr} (hl : l ∈ libsAfter p.libs ops)
    (hoff : (off, f) ∈ rlOf l)
    (hPv : registered p.env ops f = [] → p.P (s.mem (l.addr + off)) = none) :
    ∃ tr s' c old new, gotchaWrapT p.env tbl tool s = .ok (tr, (s', c)) ∧
      gotchaWrap p.env tbl tool s = .ok (s', c) ∧
      Calls p.P s (s.mem (l.addr + off)) old ∧ Calls p.P s' (s'.mem (l.addr + off)) new ∧
      ∃ X Y, s :: tr = X ++ Y ∧
        Safe p.P (fun path => path = old) X (.slot (l.addr + off)) ∧
        Safe p.P (fun path => path = new) Y (.slot (l.addr + off)) ∧
        Safe p.P (fun path => path = old ∨ path = new) (X ++ Y) (.slot (l.addr + off)) ∧
        (∀ σ ∈ X, Calls p.P σ (σ.mem (l.addr + off)) old) ∧ ∀ σ ∈ Y, Calls p.P σ (σ.mem (l.addr + off)) new := by
  obtain ⟨tr, s', c, old, new, h1, h2, h3, h4, h5, X, Y, h6, h7, h8⟩ :=
    history_moment ok h hrun hmain hdl honce hr hPr hl hoff hPv
  refine ⟨tr, s', c, old, new, h1, h2, h3, h4, X, Y, h6, h7, h8, h6 ▸ h5, fun σ hσ => ?_, fun σ hσ => ?_⟩
  · obtain ⟨_, g, rfl⟩ := safe_calls h7 hσ; exact g
  · obtain ⟨_, g, rfl⟩ := safe_calls h8 hσ; exact g

/-- C107, the same for an intercepted dlopen, in the situation of C80. -/
theorem C107_dlopen_has_one_moment {p : Process} (ok : p.Ok) {ops : List Op} {ld : Load}
    (h : History p True (ops ++ [.dlopen ld])) (hapi : ops.any isApi = true) {s os}
    (hrun : run p.env ops p.start = .ok (s, os)) {f : Name} {r : Addr}
    (hr : registered p.env ops f = [] ∨ realAfter p.env p.libs (ops ++ [.dlopen ld]) f = some r)
    (hPr : p.P r = none) {l : Lib} {off : Addr} (hl : l ∈ libsAfter p.libs ops ++ ld.libs)
    (hoff : (off, f) ∈ rlOf l)
    (hPv : p.P ((s.load ld).mem (l.addr + off)) = none ∨ (l ∈ libsAfter p.libs ops ∧
      registered p.env ops f ≠ [] ∧ realAfter p.env p.libs ops f = some r)) :
    ∃ tr s' old new, dlopenWrapperT p.env ld s = .ok (s.load ld :: tr, s') ∧
      dlopenWrapper p.env ld s = .ok s' ∧
      Calls p.P (s.load ld) ((s.load ld).mem (l.addr + off)) old ∧
      Calls p.P s' (s'.mem (l.addr + off)) new ∧
      ∃ X Y, s.load ld :: tr = X ++ Y ∧
        Safe p.P (fun path => path = old) X (.slot (l.addr + off)) ∧
        Safe p.P (fun path => path = new) Y (.slot (l.addr + off)) ∧
        Safe p.P (fun path => path = old ∨ path = new) (X ++ Y) (.slot (l.addr + off)) ∧
        (∀ σ ∈ X, Calls p.P σ (σ.mem (l.addr + off)) old) ∧ ∀ σ ∈ Y, Calls p.P σ (σ.mem (l.addr + off)) new := by
  obtain ⟨tr, s', old, new, h1, h2, h3, h4, h5, X, Y, h6, h7, h8⟩ :=
    history_dlopen_moment ok h hapi hrun hr hPr hl hoff hPv
  refine ⟨tr, s', old, new, h1, h2, h3, h4, X, Y, h6, h7, h8, h6 ▸ h5, fun σ hσ => ?_, fun σ hσ => ?_⟩
  · obtain ⟨_, g, rfl⟩ := safe_calls h7 hσ; exact g
  · obtain ⟨_, g, rfl⟩ := safe_calls h8 hσ; exact g

/-- C107, refuted for several call sites together: in any state, if a `gotcha_wrap` changes two GOT words, then there is
a time during it when one is new and the other still old.  Two call sites of one function, or of two functions of one
table, do not change over at the same moment. -/
theorem C107_not_all_at_once (env : Env) {tbl : List UBinding} {tool : Option Name} {s s' : State} {tr : List State}
    {c : RetCode} (he : gotchaWrapT env tbl tool s = .ok (tr, (s', c))) {a b : Addr} (hab : a ≠ b)
    (ha : s'.mem a ≠ s.mem a) (hb : s'.mem b ≠ s.mem b) :
    ∃ σ ∈ tr, (σ.mem a ≠ s.mem a ∧ σ.mem b = s.mem b) ∨ (σ.mem a = s.mem a ∧ σ.mem b ≠ s.mem b) :=
  links_apart (ones_gotchaWrap env tbl tool s tr _ he) hab ha hb

/-- Not vacuous: the third event of the example process.  At some moment the calls of `foo` in the application change
over from one wrapper to two, and each of the two happens. -/
example : ∃ s os tr s' c, run Demo.env (Demo.ops.take 2) Demo.proc.start = .ok (s, os) ∧
    gotchaWrapT Demo.env [⟨nm "foo", 0x50c, 12⟩] (some Demo.A) s = .ok (tr, (s', c)) ∧
    ∃ X Y, s :: tr = X ++ Y ∧ s ∈ X ∧ Y ≠ [] ∧
      Safe Demo.P (fun path => path = [0x50a, 0x20004000]) X (.slot (Demo.app.addr + 0x18)) ∧
      Safe Demo.P (fun path => path = [0x50c, 0x50a, 0x20004000]) Y (.slot (Demo.app.addr + 0x18)) := by
  have hq : Demo.after Demo.env (Demo.ops.take 2) Demo.proc.start
      (fun s => decide (walk Demo.P s 5 (s.mem 0x10000018) = some [0x50a, 0x20004000])) = true := by
    decide +kernel
  have hq' : Demo.after Demo.env (Demo.ops.take 3) Demo.proc.start
      (fun s => decide (walk Demo.P s 5 (s.mem 0x10000018) = some [0x50c, 0x50a, 0x20004000] ∧
        s.mem 0x10000018 = 0x50c)) = true := by
    decide +kernel
  obtain ⟨s, os, hr, hq⟩ := Demo.after_run hq
  obtain ⟨s3, os3, hr3, hq3⟩ := Demo.after_run hq'
  replace hr : run Demo.proc.env (Demo.ops.take 2) Demo.proc.start = .ok (s, os) := hr
  have h3 : History Demo.proc True (Demo.ops.take 2 ++ [.wrap [⟨nm "foo", 0x50c, 12⟩] (some Demo.A)]) :=
    Demo.prefix_history True 3
  have hreal3 : realAfter Demo.proc.env Demo.proc.libs (Demo.ops.take 3) (nm "foo") =
    some 0x20004000 := by decide +kernel
  have hreg2 : registered Demo.proc.env (Demo.ops.take 2) (nm "foo") =
    [⟨Demo.B, 0x50a, 10⟩] := by decide +kernel
  obtain ⟨tr, s', c, old, new, e1, e2, e3, e4, X, Y, e5, e6, e7, -, e8, e9⟩ :=
    C107_wrap_has_one_moment Demo.proc_ok h3 hr
    (f := nm "foo") (r := 0x20004000)
    (Or.inl (by
      intro u hu
      rw [List.mem_singleton] at hu
      subst hu
      show nm "foo" ≠ nm "main"
      decide +kernel))
    (Or.inl rfl) (by simp) (Or.inr hreal3) (by decide) (l := Demo.app)
    (off := 0x18) (by show _ ∈ [Demo.app, Demo.libc]; simp) Demo.slot_app
    (by rw [hreg2]; intro hc; cases hc)
  have hs : s3 = s' := by
    have hr3' : run Demo.env (Demo.ops.take 2 ++ [.wrap [⟨nm "foo", 0x50c, 12⟩] (some Demo.A)])
      Demo.proc.start = .ok (s3, os3) := hr3
    replace e2 : gotchaWrap Demo.env _ _ s = _ := e2
    replace hr : run Demo.env _ _ = _ := hr
    rw [run_append_model, hr] at hr3'
    simp only [bind, Except.bind, run, stepOp, e2] at hr3'
    cases hr3'
    rfl
  subst hs
  have w2 := of_decide_eq_true hq
  obtain ⟨w3, w4⟩ := of_decide_eq_true hq3
  have ho : old = [0x50a, 0x20004000] := e3.det (walk_calls w2)
  have hn : new = [0x50c, 0x50a, 0x20004000] := e4.det (walk_calls w3)
  subst ho hn
  refine ⟨s, os, tr, s3, c, hr, e1, X, Y, e5, ?_, ?_, e6, e7⟩
  · have hm : s ∈ X ++ Y := by rw [← e5]; simp
    refine (List.mem_append.1 hm).resolve_right (fun hY => ?_)
    have := (e9 s hY).det e3
    simp at this
  · intro hY
    obtain ⟨σ, hσ, hv⟩ := (ones_gotchaWrap Demo.env _ _ s tr _ e1).last
    rw [e5, hY, List.append_nil] at hσ
    have hm := congrFun hv (.word (Demo.app.addr + 0x18))
    simp only [view, Option.some.injEq, Content.addr.injEq] at hm
    have hc := e8 σ hσ
    rw [hm, show s3.mem (Demo.app.addr + 0x18) = 0x50c from w4] at hc
    cases hc

/-- Not vacuous: the second event of the example process changes the words of `foo` and `bar` in the application. -/
example : ∃ s os tr s' c, run Demo.env (Demo.ops.take 1) Demo.proc.start = .ok (s, os) ∧
    gotchaWrapT Demo.env [⟨nm "foo", 0x50a, 10⟩, ⟨nm "bar", 0x50b, 11⟩] (some Demo.B) s = .ok (tr, (s', c)) ∧
    ∃ σ ∈ tr, (σ.mem 0x10000018 ≠ s.mem 0x10000018 ∧ σ.mem 0x10000020 = s.mem 0x10000020) ∨
      (σ.mem 0x10000018 = s.mem 0x10000018 ∧ σ.mem 0x10000020 ≠ s.mem 0x10000020) := by
  have hq : Demo.after Demo.env (Demo.ops.take 1) Demo.proc.start (fun s =>
      match gotchaWrap Demo.env [⟨nm "foo", 0x50a, 10⟩, ⟨nm "bar", 0x50b, 11⟩] (some Demo.B) s with
      | .ok (s', _) => decide (s'.mem 0x10000018 ≠ s.mem 0x10000018 ∧ s'.mem 0x10000020 ≠ s.mem 0x10000020)
      | .error _ => false) = true := by
    decide +kernel
  obtain ⟨s, os, hr, hq⟩ := Demo.after_run hq
  cases hw : gotchaWrap Demo.env [⟨nm "foo", 0x50a, 10⟩, ⟨nm "bar", 0x50b, 11⟩] (some Demo.B) s with
  | error e => rw [hw] at hq; cases hq
  | ok x =>
    obtain ⟨s', c⟩ := x
    rw [hw] at hq
    obtain ⟨h1, h2⟩ := of_decide_eq_true hq
    obtain ⟨tr, he⟩ := erase_ok ((erase_gotchaWrap Demo.env _ _ s).trans hw)
    exact ⟨s, os, tr, s', c, hr, he, C107_not_all_at_once Demo.env he (by decide) h1 h2⟩

/-- Not vacuous: the dlopen of the example process, seen from the plugin's slot of `foo`. -/
example : ∃ s os tr s' new, run Demo.env (Demo.ops.take 3) Demo.proc.start = .ok (s, os) ∧
    dlopenWrapperT Demo.env Demo.loadPlug s = .ok (s.load Demo.loadPlug :: tr, s') ∧
    ∃ X Y, s.load Demo.loadPlug :: tr = X ++ Y ∧
      Safe Demo.P (fun path => path = [0]) X (.slot (Demo.plug.addr + 0x18)) ∧
      Safe Demo.P (fun path => path = new) Y (.slot (Demo.plug.addr + 0x18)) := by
  have hq : Demo.after Demo.env (Demo.ops.take 3) Demo.proc.start
      (fun s => decide ((s.load Demo.loadPlug).mem 0x30000018 = 0)) = true := by decide +kernel
  obtain ⟨s, os, hr, hq⟩ := Demo.after_run hq
  replace hr : run Demo.proc.env (Demo.ops.take 3) Demo.proc.start = .ok (s, os) := hr
  have hm : (s.load Demo.loadPlug).mem (Demo.plug.addr + 0x18) = 0 := of_decide_eq_true hq
  have h4 : History Demo.proc True (Demo.ops.take 3 ++ [.dlopen Demo.loadPlug]) :=
    Demo.prefix_history True 4
  have hreal4 : realAfter Demo.proc.env Demo.proc.libs (Demo.ops.take 4) (nm "foo") =
    some 0x20004000 := by decide +kernel
  obtain ⟨tr, s', old, new, e1, -, e3, e4, X, Y, e5, e6, e7, -⟩ := C107_dlopen_has_one_moment Demo.proc_ok h4 rfl hr
    (f := nm "foo") (r := 0x20004000) (Or.inr hreal4) (by decide) (l := Demo.plug) (off := 0x18)
    (by show _ ∈ [Demo.app, Demo.libc, Demo.plug]; simp) Demo.slot_plug (Or.inl (by rw [hm]; decide))
  have hold : old = [0] := e3.det (by rw [hm]; exact .stop (by decide))
  subst hold
  exact ⟨s, os, tr, s', new, hr, e1, X, Y, e5, e6, e7⟩

end Gotcha
