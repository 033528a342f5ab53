import Verif.Props.Repair
import Verif.Props.Reach
import Verif.Spec.Healed
/-
C131: what has been put right stays right.
-/
namespace Gotcha
open Spec

theorem seenRun_eq (ops : List Op) : ∀ seen : Lib → Prop, seenRun seen ops = fun l => seen l ∨ loadedIn ops l := by
  induction ops with
  | nil => intro seen; funext l; simp [seenRun, loadedIn]
  | cons op ops ih =>
    intro seen
    funext l
    rw [seenRun, ih]
    cases op <;> simp [seenAfter, seenWith, loadedIn, or_and_right, exists_or] <;>
      grind

/-- If every library has an older generation, a dlopen brings all slots up to date, whatever they hold and whatever
it loads. -/
theorem dlopen_heals {C : Ctx} (w : World C.env C.U) {seen n s G A} (h : Post C seen n s G A) {good : Lib → Prop}
    {ld : Load} (hld : LoadOk C seen s.linkMap ld) (hw : ∃ a, s.getWrappee C.env.hDlopen = .ok a)
    (hadm : Admits s.filter good) (hcons : SlotCons (s.linkMap ++ ld.libs)) (hg : GensLe s G)
    (hold : ∀ a, genAt s.libs G.lm a ≠ s.gen) (hpot : pot s ≤ n) (hgen : 1 ≤ s.gen.toNat) :
    ∃ s' G', dlopenWrapper C.env ld s = .ok s' ∧
      Post { C with sl := True, good := good } (seenWith seen ld.libs) n s' G' (A.dlopen ld.libs) := by
  have hs := h.seen
  have hI := load_inv h.inv (by rw [hs]; exact hld) h.vd
  obtain ⟨s1, G1, e1, e2, e3⟩ := foreach_pending w hI
  obtain ⟨⟨tl, libs, vd, binds, nft, rfl⟩, ⟨rl, nf, lm, rfl⟩, htu, hext, hvd⟩ := e3
  have hga : ∀ a, genAt libs lm a = genAt s.libs G.lm a := genAt_ext hext
  obtain ⟨tl', libs', lm', wr', mem', f1, f2, -⟩ := pass_inv (C := { C with sl := True, good := good }) w
    { e2 with
      slots := fun _ => ⟨hadm, hcons, fun l => by
        show (genAt libs lm l).toNat ≤ s.gen.toNat
        rw [hga]; exact hg l, fun _ _ _ _ _ hd => absurd trivial hd⟩ } (t := s.funTab)
    (m := fun f => (G.ch f).head?) (D := fun _ => False) h.inv.fn
    (fun f b hb => List.mem_of_mem_head? (by simp only [Option.mem_def]; exact hb))
    (fun _ f b hb => hb)
    (fun _ l _ _ p _ _ b hb => Or.inl ⟨hb, by
      show genAt libs lm l ≠ s.gen
      rw [hga]; exact hold l⟩)
  obtain ⟨a, ha⟩ := hw
  refine ⟨_, _, ?_, ⟨f2, h.pend, fun _ hx => hx, ?_, ?_, fun _ => hpot, fun _ => hgen, ?_⟩⟩
  · simp only [dlopenWrapper, ha, bind, Except.bind, State.afterDlopen, e1]
    exact f1
  · show seenWith G.seen ld.libs = _; rw [hs]
  · show vd = some C.v
    have := hvd (by show s.vdso ≠ none; rw [h.vd]; simp)
    exact this.trans h.vd
  · intro u hu
    obtain ⟨b, t, hb⟩ := h.dlb u hu
    exact ⟨b, t, by show btu binds b = _; exact (congrFun htu b).trans hb⟩

/-- A gotcha_wrap of an empty table leaves every library behind. -/
theorem empty_wrap {C : Ctx} {seen n s G A} (h : Post C seen n s G A) (hsl : C.sl) (tool : Option Name)
    (hn : n + 1 < 2 ^ 32) :
    ∃ s' G', gotchaWrap C.env [] tool s = .ok (s', .success) ∧ Post C seen (n + 1) s' G' (A.touch (toolName tool)) ∧
      (∀ a, (genAt s'.libs G'.lm a).toNat < s'.gen.toNat) ∧ s'.filter = s.filter ∧ s'.linkMap = s.linkMap := by
  have hS := h.inv.slots hsl
  have hpot := h.pot hsl
  have hlt : s.gen.toNat + 1 < 2 ^ 32 := by unfold pot at hpot; omega
  have hgen : (s.gen + 1).toNat = s.gen.toNat + 1 := by
    rw [BitVec.toNat_add]
    exact Nat.mod_eq_of_lt hlt
  obtain ⟨ts, tid, pr, H, hgc, hnp, hadd, hI, -⟩ := setup_inv h.inv (toolName tool) []
    (fun _ => ⟨by simp, by simp, by simp, by simp⟩) (fun _ => hlt)
  have hin : s.inited = true := h.inv.init
  refine ⟨_, _, ?_, ⟨hI, ?_, h.dirty, h.seen, h.vd, fun _ => ?_, fun _ => ?_, ?_⟩, ?_, rfl, rfl⟩
  · rw [← hadd]
    simp only [gotchaWrap, gotchaInit, hin, if_true, wrapBody, wrapCore, List.foldl_nil, bind, Except.bind]
    rw [show tool.getD (nm "[UNSPECIFIED]") = toolName tool from rfl, hgc]
    rfl
  · rintro b (hb | hb)
    · exact h.pend b hb
    · simp at hb
  · unfold pot at hpot ⊢
    show (s.gen + 1).toNat + _ ≤ _
    rw [hgen]
    show _ + 1 + (if s.mainWrapped = true then 0 else 2) ≤ _
    omega
  · show 1 ≤ (s.gen + 1).toNat
    rw [hgen]; omega
  · intro u hu
    obtain ⟨b, t, hb⟩ := h.dlb u hu
    exact ⟨b, t, by simpa using hb⟩
  · intro a
    show (genAt s.libs G.lm a).toNat < (s.gen + 1).toNat
    rw [hgen]
    have := hS.gens a
    omega

theorem view_wiredFor {p : Process} {good : Lib → Prop} {ops : List Op} {s : State}
    (hv : View p.P True s (Abs.run p.env ops p.abs).1 good) (hlm : s.linkMap = libsAfter p.libs ops) :
    WiredFor p good ops s := by
  intro f r hreg hreal hprog l hl hpass off hoff
  refine ⟨stackOf p ops f, stackOf_perm p _ f, ?_⟩
  cases hst : stackOf p ops f with
  | nil =>
    have := stackOf_perm p ops f
    rw [hst] at this
    exact absurd (List.nil_perm.1 this) hreg
  | cons fr st =>
    have hslot : s.mem (l.addr + off) = fr.wrapper :=
      hv.slots trivial l (by rw [hlm]; exact hl) hpass (off, f) hoff fr st hst
    have hc := view_calls hv.weaken (by rw [real_run]; exact hreal) hprog (stackOf p ops f) [] rfl fr st hst
    rw [hslot]
    rw [hst] at hc
    exact hc

/-- C131.  Anything may have happened before that makes GOTCHA miss slots (C129).  After a gotcha_wrap of an empty
table and any dlopen, whatever it loads, the program goes on as it likes (`more`): it wraps further functions, sets
priorities, loads and unloads objects.  For the objects in `good`, which pass the filter and are treated well from
then on (filters let them pass, they are not loaded behind GOTCHA's back), every call of every wrapped function runs
all its wrappers and then the function, at the end of `more` and so (taking shorter ones) at every moment.  What
happened to them before does not matter. -/
theorem C131_healed {p : Process} (ok : p.Ok) {ops more : List Op} {tool : Option Name} {ld : Load}
    (h : Rough p (ops ++ [.wrap [] tool, .dlopen ld])) (hapi : ops.any isApi = true) {good : Lib → Prop}
    (hm : Treats p good (ops ++ [.wrap [] tool, .dlopen ld]) more) :
    ∃ s os, run p.env (ops ++ [.wrap [] tool, .dlopen ld] ++ more) p.start = .ok (s, os) ∧
      WiredFor p good (ops ++ [.wrap [] tool, .dlopen ld] ++ more) s := by
  have hlen := hm.short
  simp only [List.length_append, List.length_cons, List.length_nil] at hlen
  have hR : Rough p ops := HistoryFor.prefix (pre := ops) h
  obtain ⟨s, hrun, -⟩ := historyFor_run ok hR
  obtain ⟨v, G, hpost⟩ := historyFor_post ok hR hapi hrun
  obtain ⟨s1, G1, hwr, hpost1, hlt, hf1, hl1⟩ := empty_wrap hpost trivial tool (by omega)
  change gotchaWrap p.env [] tool s = _ at hwr
  have hA1 : (Abs.run p.env (ops ++ [.wrap [] tool]) p.abs).1 =
      (Abs.run p.env ops p.abs).1.touch (toolName tool) := by
    rw [run_snoc]
    have hi : (Abs.run p.env ops p.abs).1.inited = true := hpost.inv.init'
    show (Abs.wrap (Abs.onMain p.env) [] tool ((Abs.run p.env ops p.abs).1.init p.env)).1 = _
    rw [show (Abs.run p.env ops p.abs).1.init p.env = (Abs.run p.env ops p.abs).1 by simp [Abs.init, hi]]
    rfl
  rw [← hA1] at hpost1
  have heq : ops ++ [.wrap [] tool, .dlopen ld] = (ops ++ [.wrap [] tool]) ++ [.dlopen ld] := by simp
  have h' := h
  unfold Rough at h'
  rw [heq] at h'
  obtain ⟨-, hop⟩ := valid_snoc (C := p.ctx True True fun _ => False) _ _
    (start_validFor h'.toEventsFor fun _ => h'.honest)
  have hseen1 : seenRun p.seen (ops ++ [.wrap [] tool]) = seenRun p.seen ops := by
    rw [seenRun_eq, seenRun_eq]
    funext l
    simp [loadedIn]
  obtain ⟨hld, hreal⟩ := hop
  rw [hseen1, show (Abs.run (p.ctx True True fun _ => False).env (ops ++ [.wrap [] tool]) p.abs).1.libs = s1.linkMap
    from hpost1.inv.libs] at hld
  have hi1 : (Abs.run p.env (ops ++ [.wrap [] tool]) p.abs).1.inited = true := hpost1.inv.init'
  have hfil : s.filter = filterAfter ops := (events_env ok ops (EventsFor.weak hR.toEventsFor) hrun).2
  obtain ⟨s2, G2, hdl, hpost2⟩ := dlopen_heals (good := good) ok.world hpost1 (hld.at v)
    (dl_wrappee hpost1 trivial (u := ⟨nm "dlopen", p.env.dlopenW, p.env.hDlopen⟩) (List.mem_cons_self ..)
      (hreal trivial hi1))
    (by rw [hf1, hfil]
        have := hm.now
        rw [heq, filterAfter, List.foldl_append, List.foldl_append] at this
        exact passes_admits this)
    (hld.cons trivial) (fun a => Nat.le_of_lt (hlt a)) (fun a e => by have := hlt a; rw [e] at this; omega)
    (hpost1.pot trivial) (hpost1.gen trivial)
  have hA2 : (Abs.run p.env (ops ++ [.wrap [] tool, .dlopen ld]) p.abs).1 =
      (Abs.run p.env (ops ++ [.wrap [] tool]) p.abs).1.dlopen ld.libs := by
    rw [heq, run_snoc, step_dlopen, if_pos hi1]
  have hrun2 : ∃ os, run p.env (ops ++ [.wrap [] tool, .dlopen ld]) p.start = .ok (s2, os) := by
    refine ⟨(Abs.run p.env ops p.abs).2 ++ [.ret .success, .unit], ?_⟩
    rw [run_append_model, hrun]
    have hin1 : s1.inited = true := hpost1.inv.init
    change dlopenWrapper p.env _ _ = _ at hdl
    simp only [run, stepOp, hwr, hin1, if_true, hdl, bind, Except.bind]
  obtain ⟨os2, hrun2⟩ := hrun2
  rw [← hA2] at hpost2
  have htop : Top (p.ctx True True good) (seenRun p.seen (ops ++ [.wrap [] tool, .dlopen ld])) (3 + ops.length + 1) s2
      (Abs.run p.env (ops ++ [.wrap [] tool, .dlopen ld]) p.abs).1 := by
    refine Or.inr ⟨v, G2, ?_⟩
    have : seenRun p.seen (ops ++ [.wrap [] tool, .dlopen ld]) = seenWith (seenRun p.seen ops) ld.libs := by
      rw [seenRun_eq, seenRun_eq]
      funext l
      simp [loadedIn, seenWith, or_and_right, exists_or]
      grind
    rw [this]
    exact hpost2
  have hvalid : Valid (p.ctx True True good) (seenRun p.seen (ops ++ [.wrap [] tool, .dlopen ld]))
      (Abs.run p.env (ops ++ [.wrap [] tool, .dlopen ld]) p.abs).1 more := by
    refine valid_of more (fun _ => hm.honest) (fun _ => hm.main) (fun _ => hm.filter) ?_ (libs_run ..) hpost2.inv.init' ?_
    · rw [seenRun_eq]; exact hm.loader
    · exact dlres_of (pre := []) _ (EventsFor.weak h.toEventsFor).loader rfl rfl
        ⟨fun _ _ => rfl, fun hc => by cases hc⟩
  obtain ⟨s3, hrun3, htop3⟩ := run_spec (C := p.ctx True True good) ok.world h.honest.own trivial more
    (by omega) htop hvalid (fun _ => by omega)
  refine ⟨s3, os2 ++ (Abs.run p.env more (Abs.run p.env (ops ++ [.wrap [] tool, .dlopen ld]) p.abs).1).2, ?_, ?_⟩
  · rw [run_append_model, hrun2]
    change run p.env more s2 = _ at hrun3
    simp only [bind, Except.bind, hrun3]
    rfl
  · have hA3 : (Abs.run p.env more (Abs.run p.env (ops ++ [.wrap [] tool, .dlopen ld]) p.abs).1).1 =
        (Abs.run p.env (ops ++ [.wrap [] tool, .dlopen ld] ++ more) p.abs).1 := by
      rw [Spec.run_append p.env _ more]
    change Top _ _ _ _ (Abs.run p.env more _).1 at htop3
    rw [hA3] at htop3
    have hlm := top_libs htop3
    rw [libs_run] at hlm
    rcases htop3 with hp | ⟨v', G3, hp⟩
    · exfalso
      have : (Abs.run p.env (ops ++ [.wrap [] tool, .dlopen ld] ++ more) p.abs).1.inited = true := by
        rw [abs_start, (run_prio p.env p.libs _).2]
        simp [hapi]
      rw [hp.abs] at this
      cases this
    · exact view_wiredFor (inv_view hp.inv hp.dirty) hlm.symm

end Gotcha
