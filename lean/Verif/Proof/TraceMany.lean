import Verif.Proof.TraceEvo
/-
The states of memory during a history, as seen by a caller of one function.
-/
namespace Gotcha
open Spec Tr

theorem bind_ok {α β : Type} {x : Tr α} {f : α → Tr β} {t1 t2 a b} (h1 : x = .ok (t1, a))
    (h2 : f a = .ok (t2, b)) : (x >>= f) = .ok (t1 ++ t2, b) := by
  rw [bind_eq, h1]
  unfold andThen
  dsimp only
  rw [h2]

theorem erase_stepOp (env : Env) (op : Op) (s : State) : erase (stepOpT env op s) = stepOp env op s := by
  cases op with
  | wrap tbl tool =>
    simp only [stepOpT, stepOp, erase_bind, erase_gotchaWrap]
    rfl
  | setPriority tool v =>
    simp only [stepOpT, stepOp, gotchaSetPriority, erase_bind, erase_gotchaInit, erase_lift]
    cases gotchaInit env s with
    | error e => rfl
    | ok s =>
      simp only [bind, Except.bind]
      cases s.tools.setPriority tool v <;> rfl
  | getPriority tool =>
    simp only [stepOpT, stepOp, gotchaGetPriority, erase_bind, erase_gotchaInit, erase_lift]
    cases gotchaInit env s with
    | error e => rfl
    | ok s =>
      simp only [bind, Except.bind]
      cases s.tools.getPriority tool <;> rfl
  | setFilter f => rfl
  | dlopen ld =>
    simp only [stepOpT, stepOp, erase_ite, erase_bind, erase_dlopenWrapper]
    rfl
  | load ld => rfl
  | unload dead => rfl

theorem erase_run (env : Env) (ops : List Op) : ∀ s, erase (runT env ops s) = run env ops s := by
  induction ops with
  | nil => intro s; rfl
  | cons op ops ih =>
    intro s
    simp only [runT, run, erase_bind, erase_stepOp]
    cases stepOp env op s with
    | error e => rfl
    | ok x =>
      simp only [bind, Except.bind, erase_tell]
      rw [ih]
      rfl

end Gotcha

namespace Gotcha.Spec
open Gotcha Tr

theorem stackOf_nil_iff (p : Process) (ops : List Op) (g : Name) :
    stackOf p ops g = [] ↔ registered p.env ops g = [] := by
  have := stackOf_perm p ops g
  constructor
  · intro hx; rw [hx] at this; exact List.Perm.nil_eq this ▸ rfl
  · intro hx; rw [hx] at this; exact this.eq_nil

/-- GOTCHA in use at the end of a history. -/
theorem history_post {p : Process} (ok : p.Ok) {strict : Prop} {ops : List Op} (h : History p strict ops)
    (hapi : ops.any isApi = true) {s os} (hrun : run p.env ops p.start = .ok (s, os)) :
    ∃ v G, Post ((p.ctx True strict).at v) (seenRun p.seen ops) (3 + ops.length) s G
      (Abs.run p.env ops p.abs).1 := by
  obtain ⟨s0, h1, h2⟩ := history_run ok h
  rw [hrun] at h1
  cases h1
  rcases h2 with h2 | h2
  · exfalso
    have : (Abs.run p.env ops p.abs).1.inited = true := by
      rw [abs_start, (run_prio p.env p.libs _).2]; exact hapi
    rw [h2.abs] at this
    cases this
  · exact h2

/-- One event after GOTCHA has been used. -/
theorem step_phases {p : Process} (ok : p.Ok) {ops : List Op} {op : Op}
    (h : History p True (ops ++ [op])) (hapi : ops.any isApi = true) {s os}
    (hrun : run p.env ops p.start = .ok (s, os)) {f : Name} {r : Addr}
    (hq : (∀ u ∈ tableOf op, u.name ≠ nm "main") ∨ ∃ o ∈ ops, hasMain (tableOf o))
    (honce : ((tableOf op).map UBinding.name).count f ≤ 1)
    (hr0 : registered p.env ops f = [] ∨ realAfter p.env p.libs ops f = some r)
    (hr1 : registered p.env (ops ++ [op]) f = [] ∨ realAfter p.env p.libs (ops ++ [op]) f = some r)
    {l : Lib} {off : Addr} (hl : l ∈ libsAfter p.libs ops)
    (hl1 : l ∈ libsAfter p.libs (ops ++ [op])) (hoff : (off, f) ∈ rlOf l) :
    ∃ T0 T1 s' o bid, stepOpT p.env op s = .ok (T0 ++ T1, (s', o)) ∧
      stepOp p.env op s = .ok (s', o) ∧
      run p.env (ops ++ [op]) p.start = .ok (s', (Abs.run p.env (ops ++ [op]) p.abs).2) ∧
      Phases p.P bid r (l.addr + off) (s.mem (l.addr + off)) (stackOf p ops f)
        (stackOf p (ops ++ [op]) f) (s :: T0) T1 ∧
      Lk p.P bid r s' (stackOf p (ops ++ [op]) f) ∧
      (stackOf p ops f ≠ [] → s.mem (l.addr + off) = hdW r (stackOf p ops f)) ∧
      (stackOf p (ops ++ [op]) f ≠ [] → s'.mem (l.addr + off) = hdW r (stackOf p (ops ++ [op]) f)) ∧
      (stackOf p (ops ++ [op]) f = [] → s'.mem (l.addr + off) = s.mem (l.addr + off)) := by
  set a := l.addr + off with ha
  obtain ⟨s0, s', e1, e2, e3, e4, e5, e6⟩ := history_step ok h
  rw [hrun] at e1
  cases e1
  obtain ⟨-, hop⟩ := valid_snoc ops _ (start_valid (hon := True) h.toEvents fun _ => h.honest)
  obtain ⟨v, G, hpost⟩ := history_post ok h.prefix hapi hrun
  obtain ⟨v', G', hpost'⟩ := history_post ok h (by simp [hapi]) e3
  have hlm : l ∈ s.linkMap := by rw [← top_libs e4, libs_run]; exact hl
  have hlm1 : l ∈ s'.linkMap := by rw [← top_libs e5, libs_run]; exact hl1
  have hlibs : (Abs.run p.env ops p.abs).1.libs = s.linkMap := top_libs e4
  have hsnoc := run_snoc p.env ops op p.abs
  have hst' : (((Abs.run p.env ops p.abs).1.step p.env op).1).stack f = stackOf p (ops ++ [op]) f := by
    unfold stackOf; rw [hsnoc]
  have hA0 : stackOf p ops f = [] ∨ (Abs.run p.env ops p.abs).1.real f = some r := by
    rcases hr0 with hr0 | hr0
    · exact Or.inl ((stackOf_nil_iff _ _ _).2 hr0)
    · exact Or.inr (by rw [real_run]; exact hr0)
  have hA1 : stackOf p (ops ++ [op]) f = [] ∨
      (Abs.run p.env (ops ++ [op]) p.abs).1.real f = some r := by
    rcases hr1 with hr1 | hr1
    · exact Or.inl ((stackOf_nil_iff _ _ _).2 hr1)
    · exact Or.inr (by rw [real_run]; exact hr1)
  have hslot : stackOf p ops f ≠ [] → s.mem a = hdW r (stackOf p ops f) := fun hne =>
    post_slot hpost trivial trivial hlm trivial hoff hne
  have hslot1 : stackOf p (ops ++ [op]) f ≠ [] → s'.mem a = hdW r (stackOf p (ops ++ [op]) f) :=
    fun hne => post_slot hpost' trivial trivial hlm1 trivial hoff hne
  have hload : (loaderPart s op).mem a = s.mem a := by
    have key : ∀ ld : Load, LoadOk (p.ctx True True) (seenRun p.seen ops)
        (Abs.run p.env ops p.abs).1.libs ld → (s.load ld).mem a = s.mem a := by
      intro ld hld
      have := hld.keep trivial l (hlibs ▸ hlm : l ∈ (Abs.run p.env ops p.abs).1.libs) trivial
        (off, f) hoff
      show (ld.mem a).getD (s.mem a) = s.mem a
      rw [show ld.mem a = none from this]; rfl
    cases op with
    | dlopen ld => exact key ld hop.1
    | load ld => exact key ld hop.1
    | _ => rfl
  have hsame : stackOf p (ops ++ [op]) f = [] → s'.mem a = s.mem a := by
    intro hD
    rcases e6.mem a with hx | ⟨l', q, ⟨X, Y, hX, -⟩, hq', ha', x, hx, hn, -⟩
    · exact hx.trans hload
    · exfalso
      have hl' : l' ∈ s'.linkMap := by rw [e6.linkMap, hX]; simp
      have := (hpost'.inv.slots trivial).cons l hlm1 l' hl' (off, f) hoff q hq' ha'
      have hb := post_bound hpost' trivial hx
      rw [hn, ← this] at hb
      exact hb hD
  have hinit : s.inited = true := by
    rw [(history_view ok h.prefix hrun).2.2]; exact hapi
  obtain ⟨tr, htr⟩ := erase_ok ((erase_stepOp p.env op s).trans e2)
  -- an event that leaves bindings, handles and slots alone
  have quiet : tr = [] → s'.handles = s.handles → stackOf p (ops ++ [op]) f = stackOf p ops f →
      ∃ T0 T1 bid, tr = T0 ++ T1 ∧ Phases p.P bid r a (s.mem a) (stackOf p ops f)
        (stackOf p (ops ++ [op]) f) (s :: T0) T1 ∧ Lk p.P bid r s' (stackOf p (ops ++ [op]) f) := by
    rintro rfl hh hD
    have hbid : ∀ {x b}, s.handles x = some b → (fun x => (s.handles x).getD 0) x = b :=
      fun hx => bid_getD s.handles hx
    refine ⟨[], [], fun x => (s.handles x).getD 0, rfl, ⟨Or.inl hD, ?_, (by simp), (by simp), (by simp), .nil⟩, ?_⟩
    · intro σ hσ
      rw [List.mem_singleton] at hσ
      subst hσ
      exact lk_of_inv hpost.inv trivial hbid hA0
    · exact lk_of_inv hpost'.inv trivial (fun hx => hbid (by rw [hh] at hx; exact hx)) hA1
  have main : ∃ T0 T1 bid, tr = T0 ++ T1 ∧ Phases p.P bid r a (s.mem a) (stackOf p ops f)
        (stackOf p (ops ++ [op]) f) (s :: T0) T1 ∧ Lk p.P bid r s' (stackOf p (ops ++ [op]) f) := by
    have hAin : (Abs.run p.env ops p.abs).1.inited = true := by
      rw [abs_start, (run_prio p.env p.libs _).2]; exact hapi
    cases op with
    | wrap tbl tool =>
      obtain ⟨t1, ⟨s1, c⟩, t2, c1, c2, rfl⟩ := ok_bind htr
      obtain ⟨rfl, c2⟩ := ok_pure c2
      cases c2
      have hlen : ops.length + 1 + 3 < 2 ^ 32 := by
        have := h.short trivial
        rwa [List.length_append] at this
      obtain ⟨bid, T0, T1, rfl, ph, -, hb⟩ := gotchaWrapT_trace (C := p.ctx True True) ok.world
        h.honest.own trivial trivial e4 (by omega) (by omega) tbl tool (hop.1 trivial)
        (hq.imp id (fun hx => by rw [abs_start]; exact (run_mainW _ _ _).2 hx)) (f := f) (r := r)
        (Or.inl hinit) honce
        (by
          rcases hA1 with hA1 | hA1
          · exact Or.inl (hst'.trans hA1)
          · rw [hsnoc] at hA1
            exact Or.inr hA1) c1 hlm hoff
      rw [show (Abs.step (p.ctx True True).env _ _).1.stack f = _ from hst'] at ph
      exact ⟨T0, T1, bid, by simp, ph, lk_of_inv hpost'.inv trivial (fun hx => hb _ _ hx) hA1⟩
    | setPriority t x =>
      obtain ⟨t1, s1, t2, c1, c2, rfl⟩ := ok_bind htr
      rw [gotchaInitT, if_pos hinit] at c1
      cases c1
      obtain ⟨t3, ts, t4, c3, c4, rfl⟩ := ok_bind c2
      obtain ⟨rfl, c3⟩ := ok_lift c3
      cases c4
      refine quiet rfl rfl ?_
      rw [← hst']
      simp [Abs.step, Abs.init, hAin, stackOf]
    | getPriority t =>
      obtain ⟨t1, s1, t2, c1, c2, rfl⟩ := ok_bind htr
      rw [gotchaInitT, if_pos hinit] at c1
      cases c1
      obtain ⟨t3, ts, t4, c3, c4, rfl⟩ := ok_bind c2
      obtain ⟨rfl, c3⟩ := ok_lift c3
      cases c4
      refine quiet rfl rfl ?_
      rw [← hst']
      simp [Abs.step, Abs.init, hAin, stackOf]
    | setFilter flt =>
      cases htr
      exact quiet rfl rfl (by rw [← hst']; rfl)
    | load ld =>
      cases htr
      exact quiet rfl rfl (by rw [← hst']; rfl)
    | unload dead =>
      cases htr
      exact quiet rfl rfl (by rw [← hst']; rfl)
    | dlopen ld =>
      have hstep : ((Abs.run p.env ops p.abs).1.step p.env (.dlopen ld)).1 =
          (Abs.run p.env ops p.abs).1.dlopen ld.libs := by
        simp [Abs.step, hAin]
      have hD : stackOf p (ops ++ [.dlopen ld]) f = stackOf p ops f := by
        rw [← hst', hstep]; rfl
      simp only [stepOpT, if_pos hinit] at htr
      obtain ⟨t1, s1, t2, c1, c2, rfl⟩ := ok_bind htr
      obtain ⟨rfl, c3⟩ := ok_pure c2
      obtain rfl : s1 = s' := (Prod.mk.inj c3).1
      obtain ⟨bid, T0, T1, rfl, g0, gb, g1, g2, g3, g4⟩ := dlopenT_trace (C := (p.ctx True True).at v)
        ok.world trivial trivial hpost (by
          have : LoadOk (p.ctx True True) (seenRun p.seen ops) (Abs.run p.env ops p.abs).1.libs ld :=
            hop.1
          rw [hlibs] at this
          exact this.at v) c1 (f := f) (r := r) (by
            rcases hA1 with hA1 | hA1
            · exact Or.inl (hD.symm.trans hA1)
            · rw [hsnoc, hstep] at hA1
              exact Or.inr hA1) (l := l) (off := off) (by simp [hlm]) hoff
      rw [show (s.load ld).mem (l.addr + off) = s.mem a from hload] at g1 g3 g4
      refine ⟨s.load ld :: T0, T1, bid, by simp, ⟨Or.inl hD, ?_, ?_, ?_, ?_, g4⟩, ?_⟩
      · intro σ hσ
        rcases List.mem_cons.1 hσ with rfl | hσ
        · exact lk_of_inv hpost.inv trivial gb hA0
        · exact g2 hA0 σ hσ
      · intro σ hσ
        rw [hD]
        exact (g3 σ hσ).1
      · intro σ hσ
        rcases List.mem_cons.1 hσ with rfl | hσ
        · rfl
        · exact g1 σ hσ
      · intro σ hσ
        rw [hD]
        exact (g3 σ hσ).2
      · exact lk_of_inv hpost'.inv trivial (fun hx => gb (by rw [g0] at hx; exact hx)) hA1
  obtain ⟨T0, T1, bid, rfl, hph, hlk⟩ := main
  exact ⟨T0, T1, s', _, bid, htr, e2, e3, hph, hlk, hslot, hslot1, hsame⟩

theorem lk_agree {P : Addr → Option HAddr} {bid bid' : HAddr → BId} {r σ} {D : List Frame}
    (h : Lk P bid r σ D) (h' : Lk P bid' r σ D) : ∀ fr ∈ D, bid' fr.handle = bid fr.handle := by
  induction D with
  | nil => simp
  | cons d D ih =>
    intro fr hfr
    rcases List.mem_cons.1 hfr with rfl | hfr
    · have := h.2.1
      rw [h'.2.1] at this
      exact Option.some.inj this
    · exact ih h.2.2.2 h'.2.2.2 fr hfr

/-- Any number of events after GOTCHA has been used. -/
theorem run_evo {p : Process} (ok : p.Ok) {f : Name} {r v0 : Addr} {S0 : List Frame} {l : Lib}
    {off : Addr} (hoff : (off, f) ∈ rlOf l) (ops' : List Op) : ∀ {ops : List Op} {s : State} {os bid},
    History p True (ops ++ ops') → ops.any isApi = true → run p.env ops p.start = .ok (s, os) →
    (∀ op ∈ ops', ∀ u ∈ tableOf op, u.name = nm "main" → ∃ o ∈ ops, hasMain (tableOf o)) →
    (∀ op ∈ ops', ((tableOf op).map UBinding.name).count f ≤ 1) →
    (∀ pre, pre <+: ops' → (registered p.env (ops ++ pre) f = [] ∨
      realAfter p.env p.libs (ops ++ pre) f = some r) ∧ l ∈ libsAfter p.libs (ops ++ pre)) →
    Lk p.P bid r s (stackOf p ops f) →
    S0.Sublist (stackOf p ops f) → (stackOf p ops f = [] → s.mem (l.addr + off) = v0) →
    ∃ tr s' os', runT p.env ops' s = .ok (tr, (s', os')) ∧ run p.env ops' s = .ok (s', os') ∧
      (stackOf p (ops ++ ops') f = [] → s'.mem (l.addr + off) = v0) ∧
      Evo p.P r (l.addr + off) v0 S0 (stackOf p (ops ++ ops') f) bid (stackOf p ops f) (s :: tr) := by
  induction ops' with
  | nil =>
    intro ops s os bid h hapi hrun _ _ hpre hlk hS hm
    obtain ⟨v, G, hpost⟩ := history_post ok (by simpa using h) hapi hrun
    obtain ⟨s0, e1, e2⟩ := history_run ok h.prefix
    rw [hrun] at e1
    cases e1
    have hlm : l ∈ s.linkMap := by
      have := (hpre [] (by simp)).2
      rw [List.append_nil] at this
      rw [← top_libs e2, libs_run]; exact this
    refine ⟨[], s, [], rfl, rfl, by simpa using hm, .cons (List.Sublist.refl _) (fun _ _ => rfl) hlk ?_ (.nil (by simp))⟩
    by_cases hD : stackOf p ops f = []
    · rw [hD] at hS
      exact Or.inl ⟨List.sublist_nil.1 hS, hm hD⟩
    · exact Or.inr ⟨_, List.suffix_refl _, hD, hS, post_slot hpost trivial trivial hlm trivial hoff hD⟩
  | cons op ops' ih =>
    intro ops s os bid h hapi hrun hmain honce hpre hlk hS hm
    have h' : History p True ((ops ++ [op]) ++ ops') := by simpa using h
    have hp0 := hpre [] (by simp)
    have hp1 := hpre [op] ⟨ops', rfl⟩
    rw [List.append_nil] at hp0
    obtain ⟨T0, T1, s1, o, bid1, f1, f2, f3, f4, f5, f6, f7, f8⟩ := step_phases ok h'.prefix hapi hrun
      (by
        by_cases hx : ∃ o ∈ ops, hasMain (tableOf o)
        · exact Or.inr hx
        · exact Or.inl fun u hu hn => hx (hmain op (by simp) u hu hn))
      (honce op (by simp)) hp0.1 hp1.1 hp0.2 hp1.2 hoff
    have hagree := lk_agree hlk (f4.lk0 s (by simp))
    have hS1 : S0.Sublist (stackOf p (ops ++ [op]) f) := hS.trans f4.ins.sub
    obtain ⟨tr, s', os', g1, g2, g0, g3⟩ := ih (ops := ops ++ [op]) h' (by simp [hapi]) f3
      (fun o' ho' u hu hn => by
        obtain ⟨o, ho, hx⟩ := hmain o' (by simp [ho']) u hu hn
        exact ⟨o, by simp [ho], hx⟩)
      (fun o' ho' => honce o' (by simp [ho']))
      (fun pre hpr => by
        have := hpre (op :: pre) (by
          obtain ⟨X, hX⟩ := hpr
          exact ⟨X, by simp [hX]⟩)
        simpa using this) f5 hS1
      (fun hD => by
        rw [f8 hD]
        refine hm ?_
        have := f4.ins.sub
        rw [hD] at this
        exact List.sublist_nil.1 this)
    refine ⟨T0 ++ T1 ++ s1 :: tr, s', o :: os', ?_, ?_, by simpa using g0, ?_⟩
    · refine bind_ok f1 (t2 := s1 :: tr) ?_
      refine bind_ok (t1 := [s1]) (a := ()) rfl (t2 := tr) ?_
      simpa using bind_ok g1 (t2 := []) (b := (s', o :: os'))
        (f := fun x => (pure (x.1, o :: x.2) : Tr (State × List Obs))) rfl
    · simp only [run, f2, bind, Except.bind, g2]
    · have hev := evo_phases (T0 := s :: T0) (S0 := S0) (v0 := v0)
        (Dn := stackOf p (ops ++ op :: ops') f) f4 hagree
        (by
          by_cases hD : stackOf p ops f = []
          · left
            refine ⟨hD, ?_, hm hD⟩
            rw [hD] at hS
            exact List.sublist_nil.1 hS
          · exact Or.inr ⟨hD, f6 hD, hS⟩) (rest := s1 :: tr) (by simpa using g3)
      simpa using hev

end Gotcha.Spec
