import Verif.Props.Walk
import Verif.Demo.Reuse
/-
C125: the theorems of Props/Walk at work.
-/
namespace Gotcha
open Spec

namespace Demo

/-- foo is wrapped, the plugin is loaded. -/
def opsWalk : List Op := [ .wrap [⟨nm "foo", 0x50a, 10⟩] (some B), .dlopen loadPlug ]

/-- The walk has been to the application when the plugin is unloaded and another one is loaded, at the same
address. -/
def evsWalk : List WalkEv :=
  [.step, .step, .unload deadPlug, .load loadPlug2, .step, .step, .step]

theorem history_walk (strict : Prop) : History proc2 strict opsWalk where
  honest := ⟨by decide +kernel, by
    intro u hu
    simp only [opsWalk, List.flatMap_cons, List.flatMap_nil, tableOf,
      List.append_nil, List.mem_cons, List.not_mem_nil, or_false] at hu
    subst hu; decide, envOk⟩
  loader := ⟨fun _ => dlopen_def, loadPlug_ok2 strict, trivial⟩
  cons := fun _ => cons proc_ok.objs
  filter := by intro _ f hf; simp [opsWalk] at hf
  main := fun _ => mainAlone_of ⟨fun h => absurd h (notMain (by decide +kernel)), trivial, trivial⟩
  short := fun _ => by decide

theorem events_walk : Events proc2 False (opsWalk ++ evsWalk.filterMap loaderOp) where
  loader := ⟨fun _ => dlopen_def, loadPlug_ok2 False, Or.inl rfl, loadPlug2_ok False, fun _ h => h, trivial⟩
  cons := fun h => h.elim
  filter := fun h => h.elim
  main := fun h => h.elim
  short := fun h => h.elim

theorem walk_run : ∃ s os, run proc2.env opsWalk proc2.start = .ok (s, os) ∧
    s.linkMap = [app, libc, plug] ∧ s.gen ≠ 0 := by
  obtain ⟨s, h, -⟩ := history_run proc2_ok (history_walk True)
  obtain ⟨v, G, hP⟩ := history_post proc2_ok (history_walk True) (by decide) h
  refine ⟨s, _, h, (events_env proc2_ok _ (history_walk True).toEvents h).1, ?_⟩
  intro e
  have := hP.gen trivial
  rw [e] at this
  simp at this

end Demo

theorem walkStep_upd {env : Env} {t : Option (HTable Name BId)} {w w' : Walk} {s s' : State} {a : Addr}
    (hp : w.pos = .upd a) (h : walkStep env t w s = .ok (s', w')) : w'.pos = .next a := by
  unfold walkStep at h
  rw [hp] at h
  simp only at h
  split at h
  · cases h
  · obtain ⟨s1, -, h2⟩ := ebind h
    cases h2
    rfl

theorem walkStep_next {env : Env} {t : Option (HTable Name BId)} {w w' : Walk} {s s' : State} {a : Addr}
    {l nx} (hp : w.pos = .next a) (hn : nodeAt s.linkMap a = some (l, nx))
    (h : walkStep env t w s = .ok (s', w')) : w'.pos = .ofPtr nx := by
  unfold walkStep at h
  rw [hp] at h
  simp only [hn] at h
  cases h
  rfl

theorem Demo.walk_spares {s : State} (hl : s.linkMap = [Demo.app, Demo.libc, Demo.plug]) :
    Spares Demo.proc2.env none Demo.evsWalk s (Walk.start s) := by
  have h0 : (Walk.start s).pos = .upd Demo.app.lm := by simp only [Walk.start, hl]; rfl
  intro s1 w1 e1
  have h1 := walkStep_upd h0 e1
  intro s2 w2 e2
  have h2 : w2.pos = .upd Demo.libc.lm :=
    walkStep_next (l := Demo.app) (nx := some Demo.libc.lm) h1 (by rw [walkStep_linkMap e1, hl]; rfl) e2
  refine ⟨?_, fun _ _ _ _ _ _ _ _ _ => trivial⟩
  intro a ha
  rw [h2] at ha
  cases ha
  decide

/-- C125: the walk of the example.  It goes over the application and libc; in the meantime the plugin is
replaced by another one.  The walk does not crash, and if it has come to its end, it has been to the new
plugin too. -/
theorem C125_example : ∃ s os s' w', run Demo.proc2.env Demo.opsWalk Demo.proc2.start = .ok (s, os) ∧
    runWalk Demo.proc2.env none Demo.evsWalk s (Walk.start s) = .ok (s', w') ∧
    s'.linkMap = [Demo.app, Demo.libc, Demo.plug2] ∧ w'.seen = [Demo.plug2, Demo.libc, Demo.app] ∧
    w'.pos = .next Demo.plug2.lm ∧ (Passes s'.filter Demo.plug2 → Current s' Demo.plug2) := by
  obtain ⟨s, os, hr, hl, hg⟩ := Demo.walk_run
  obtain ⟨s', w', h1, -, h3, -⟩ := C125_walk_safe Demo.proc2_ok (Demo.history_walk False) (by decide) hr
    Demo.events_walk (Demo.walk_spares hl) hg
  have key : s'.linkMap = [Demo.app, Demo.libc, Demo.plug2] ∧
      w' = ⟨.next Demo.plug2.lm, [Demo.plug2, Demo.libc, Demo.app]⟩ := by
    have h := h1
    have hst : Walk.start s = ⟨.upd Demo.app.lm, []⟩ := by simp only [Walk.start, hl]; rfl
    rw [hst] at h
    have upd : ∀ {s s' : State} {a : Addr} {seen : List Lib} {w' : Walk} {l nx},
        nodeAt s.linkMap a = some (l, nx) →
        walkStep Demo.proc2.env none ⟨.upd a, seen⟩ s = .ok (s', w') → w' = ⟨.next a, l :: seen⟩ := by
      intro s s' a seen w' l nx hn h
      simp only [walkStep, hn] at h
      obtain ⟨s1, -, h2⟩ := ebind h
      cases h2; rfl
    have nxt : ∀ {s s' : State} {a : Addr} {seen : List Lib} {w' : Walk} {l nx},
        nodeAt s.linkMap a = some (l, nx) →
        walkStep Demo.proc2.env none ⟨.next a, seen⟩ s = .ok (s', w') → w' = ⟨.ofPtr nx, seen⟩ := by
      intro s s' a seen w' l nx hn h
      simp only [walkStep, hn] at h
      cases h; rfl
    unfold Demo.evsWalk at h
    obtain ⟨⟨s1, w1⟩, a1, h⟩ := ebind h
    have l1 := (walkStep_linkMap a1).trans hl
    obtain rfl := upd (l := Demo.app) (nx := some Demo.libc.lm) (by rw [hl]; rfl) a1
    obtain ⟨⟨s2, w2⟩, a2, h⟩ := ebind h
    have l2 := (walkStep_linkMap a2).trans l1
    obtain rfl := nxt (l := Demo.app) (nx := some Demo.libc.lm) (by rw [l1]; rfl) a2
    simp only [runWalk] at h
    have l3 : ((s2.unload Demo.deadPlug).load Demo.loadPlug2).linkMap =
        [Demo.app, Demo.libc, Demo.plug2] := by
      show s2.linkMap.filter _ ++ _ = _
      rw [l2]; rfl
    obtain ⟨⟨s4, w4⟩, a4, h⟩ := ebind h
    have l4 := (walkStep_linkMap a4).trans l3
    obtain rfl := upd (l := Demo.libc) (nx := some Demo.plug2.lm) (by rw [l3]; rfl) a4
    obtain ⟨⟨s5, w5⟩, a5, h⟩ := ebind h
    have l5 := (walkStep_linkMap a5).trans l4
    obtain rfl := nxt (l := Demo.libc) (nx := some Demo.plug2.lm) (by rw [l4]; rfl) a5
    obtain ⟨⟨s6, w6⟩, a6, h⟩ := ebind h
    have l6 := (walkStep_linkMap a6).trans l5
    obtain rfl := upd (l := Demo.plug2) (nx := none) (by rw [l5]; rfl) a6
    cases h
    exact ⟨l6, rfl⟩
  obtain ⟨k1, rfl⟩ := key
  exact ⟨s, os, s', _, hr, h1, k1, rfl, rfl, fun hp =>
    h3 Demo.plug2 (by simp) (by rw [k1]; simp) hp (hasRel_of_mem Demo.slot_plug2)⟩

/-- C125: in the same process, the plugin is unloaded when the walk stands on it. -/
example (s : State) (seen : List Lib) :
    runWalk Demo.env none [.unload Demo.deadPlug, .load ⟨[Demo.libc], fun _ => none, fun _ => none⟩, .step] s
      ⟨.next Demo.plug.lm, seen⟩ = .error .outOfBounds :=
  C125_use_after_free Demo.env none s ⟨.next Demo.plug.lm, seen⟩ (a := Demo.plug.lm) rfl
    (dead := Demo.deadPlug) (by decide) (es := [.load ⟨[Demo.libc], fun _ => none, fun _ => none⟩])
    ⟨by intro l hl; simp only [List.mem_singleton] at hl; subst hl; decide, trivial⟩

/-- C125: libc's place is taken by another object while the walk stands on it: the plugin behind is never
visited. -/
example : ∃ s : State, s.linkMap = [Demo.app, Demo.libc, Demo.plug] ∧
    ∃ s', runWalk Demo.env none [.unload (fun a => a = Demo.libc.lm),
        .load ⟨[{ Demo.plug2 with lm := Demo.libc.lm }], fun _ => none, fun _ => none⟩, .step] s
        ⟨.next Demo.libc.lm, [Demo.libc, Demo.app]⟩ = .ok (s', ⟨.fin, [Demo.libc, Demo.app]⟩) ∧
      Demo.plug ∈ s'.linkMap ∧ s'.libs = s.libs := by
  obtain ⟨s, os, hr, hl, -⟩ := Demo.walk_run
  obtain ⟨s', h1, h2, h3, -⟩ := C125_reuse_skips Demo.env none s (X := [Demo.app]) (Y := [Demo.plug])
    (b := Demo.libc) (d := { Demo.plug2 with lm := Demo.libc.lm }) (seen := [Demo.libc, Demo.app])
    hl (by rw [hl]; show [Demo.app.lm, Demo.libc.lm, Demo.plug.lm].Nodup; decide) rfl
    (fun _ => none) (fun _ => none)
  exact ⟨s, hl, s', h1, by rw [h2]; simp, h3⟩

/-- C125: the undisturbed walk. -/
example : ∃ s : State, s.linkMap = [Demo.app, Demo.libc, Demo.plug] ∧
    runWalk Demo.env (some s.funTab) (List.replicate 6 .step) s (Walk.start s) =
      (s.updateAll Demo.env s.funTab).map (fun s' => (s', ⟨.fin, [Demo.plug, Demo.libc, Demo.app]⟩)) := by
  obtain ⟨s, os, hr, hl, -⟩ := Demo.walk_run
  refine ⟨s, hl, ?_⟩
  have := C125_undisturbed Demo.env s.funTab s
    (by rw [hl]; show [Demo.app.lm, Demo.libc.lm, Demo.plug.lm].Nodup; decide)
  rw [hl] at this
  exact this

end Gotcha
