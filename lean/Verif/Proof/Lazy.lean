import Verif.Proof.Oblivious
import Verif.Proof.Steps
import Verif.Props.Effects
/-
Lazy binding makes no difference.
-/
namespace Gotcha
open Spec

section
variable {plt : Plt}

theorem Spec.Plt.Lag.refl (plt : Plt) (a v : Addr) : plt.Lag a v v := .inl rfl

theorem lags_near {s e : State} : plt.Lags s e ↔ Near plt.Lag s e :=
  ⟨fun h => ⟨h.same, h.lag⟩, fun h => ⟨h.same, h.mem⟩⟩

theorem lagOp_near {op op' : Op} (h : plt.LagOp op op') : NearOp plt.Lag op op' := by
  cases h with
  | same => exact .same
  | dlopen h => exact .dlopen ⟨h.libs, h.wr, h.mem⟩
  | load h => exact .load ⟨h.libs, h.wr, h.mem⟩

theorem lags_step (env : Env) {s e : State} (h : plt.Lags s e) {op op' : Op} (ho : plt.LagOp op op') :
    RelE (fun x y => plt.Lags x.1 y.1 ∧ x.2 = y.2) (stepOp env op s) (stepOp env op' e) := by
  have := near_step (Plt.Lag.refl plt) env (lags_near.1 h) (lagOp_near ho)
  generalize stepOp env op s = x at this
  generalize stepOp env op' e = y at this
  cases this with
  | err => exact .err
  | ok h => exact .ok ⟨lags_near.2 h.1, h.2⟩

theorem Spec.Plt.Binds.refl (s : State) : plt.Binds s s := ⟨rfl, fun _ => .inl rfl⟩

theorem binds_lags {s s' e : State} (hn : ∀ a, plt a (e.mem a) = none) (hb : plt.Binds s s')
    (h : plt.Lags s e) : plt.Lags s' e := by
  refine ⟨?_, fun a => ?_⟩
  · have h1 := hb.same
    rw [h.same] at h1
    exact h1
  · rcases hb.bind a with e1 | e1
    · rw [e1]; exact h.lag a
    · rcases h.lag a with e2 | e2
      · rw [e2, hn] at e1; cases e1
      · rw [e1] at e2; exact .inl (Option.some.inj e2)

theorem lags_target {s e : State} (hn : ∀ a, plt a (e.mem a) = none) (h : plt.Lags s e) (a : Addr) :
    plt.target s.mem a = e.mem a := by
  unfold Plt.target
  rcases h.lag a with e1 | e1
  · rw [e1, hn]; rfl
  · rw [e1]; rfl

theorem lags_wrappee {s e : State} (h : plt.Lags s e) (x : HAddr) : s.getWrappee x = e.getWrappee x := by
  rw [h.same]; rfl

theorem NoStubs.pre {p : Process} {a b : List Op} (h : NoStubs plt p (a ++ b)) : NoStubs plt p a :=
  ⟨h.start, fun op ho => h.loads op (List.mem_append_left _ ho), fun u hu => h.wrappers u (by
    rcases hu with hu | hu
    · exact .inl hu
    · exact .inr (by rw [List.flatMap_append]; exact List.mem_append_left _ hu))⟩

/-- Without lazy binding there are no stubs in memory. -/
theorem no_stub {p : Process} (ok : p.Ok) {strict : Prop} (ops : List Op) : Events p strict ops →
    NoStubs plt p ops → ∀ {e os}, run p.env ops p.start = .ok (e, os) → ∀ a, plt a (e.mem a) = none := by
  induction ops using List.reverseRecOn with
  | nil =>
    intro _ hn e os hr a
    cases hr
    exact hn.start a
  | append_singleton ops op ih =>
    intro h hn e os hr a
    obtain ⟨e0, os0, o, hr0, -⟩ := run_last hr
    have i0 := ih h.prefix (NoStubs.pre hn) hr0 a
    rcases C10_only_slots_of_wrapped_functions ok h hr0 hr a with e1 | ⟨l, off, f, u, -, -, -, hu, -, e1⟩
    · rw [e1]
      have key : ∀ ld, op = .dlopen ld ∨ op = .load ld → plt a ((ld.mem a).getD (e0.mem a)) = none := by
        intro ld hld
        cases hv : ld.mem a with
        | none => exact i0
        | some v => exact hn.loads op (by simp) ld hld a v hv
      cases op <;> simp only [loaderWord]
      · exact i0
      · exact i0
      · exact i0
      · exact i0
      · exact key _ (.inl rfl)
      · exact key _ (.inr rfl)
      · exact i0
    · rw [← e1]
      exact hn.wrappers u hu a

theorem lazy_snoc {env : Env} {ops : List Op} {op : Op} {s os s'} :
    LazyRun plt env (ops ++ [op]) s os s' ↔ ∃ os0 s0 o s1, LazyRun plt env ops s os0 s0 ∧
      stepOp env op s0 = .ok (s1, o) ∧ plt.Binds s1 s' ∧ os = os0 ++ [o] := by
  induction ops generalizing s os with
  | nil =>
    constructor
    · intro h
      cases h with
      | cons h1 h2 h3 =>
        cases h3 with
        | nil h4 => exact ⟨[], _, _, _, .nil h1, h2, h4, rfl⟩
    · rintro ⟨os0, s0, o, s1, h1, h2, h3, rfl⟩
      cases h1 with
      | nil h4 => exact .cons h4 h2 (.nil h3)
  | cons op' ops ih =>
    constructor
    · intro h
      cases h with
      | cons h1 h2 h3 =>
        obtain ⟨os0, s0, o, s1, g1, g2, g3, rfl⟩ := ih.1 h3
        exact ⟨_ :: os0, s0, o, s1, .cons h1 h2 g1, g2, g3, rfl⟩
    · rintro ⟨os0, s0, o, s1, h1, h2, h3, rfl⟩
      cases h1 with
      | cons g1 g2 g3 => exact .cons g1 g2 (ih.2 ⟨_, _, _, _, g3, h2, h3, rfl⟩)

/-- A history with lazy binding is one without. -/
theorem lazy_run {p : Process} (ok : p.Ok) {strict : Prop} (ops : List Op) : ∀ {lops : List Op},
    Events p strict ops → NoStubs plt p ops → List.Forall₂ plt.LagOp lops ops → ∀ {s0 : State},
    plt.Lags s0 p.start → ∀ {os s'}, LazyRun plt p.env lops s0 os s' →
    ∃ e, run p.env ops p.start = .ok (e, os) ∧ plt.Lags s' e := by
  induction ops using List.reverseRecOn with
  | nil =>
    intro lops h hn hl s0 h0 os s' hr
    cases hl
    cases hr with
    | nil hb => exact ⟨p.start, rfl, binds_lags hn.start hb h0⟩
  | append_singleton ops op ih =>
    intro lops h hn hl s0 h0 os s' hr
    have hl1 := List.forall₂_take_append lops ops [op] hl
    have hl2 := List.forall₂_drop_append lops ops [op] hl
    rw [← List.take_append_drop ops.length lops] at hr
    generalize lops.take ops.length = l1 at hl1 hr
    generalize lops.drop ops.length = l2 at hl2 hr
    obtain ⟨lop, _, hlo, hl3, rfl⟩ := List.forall₂_cons_right_iff.1 hl2
    cases hl3
    obtain ⟨os0, s1, o, s2, g1, g2, g3, rfl⟩ := lazy_snoc.1 hr
    obtain ⟨e1, r1, n1⟩ := ih h.prefix (NoStubs.pre hn) hl1 h0 g1
    have hs := lags_step p.env n1 hlo
    rw [g2] at hs
    cases hy : stepOp p.env op e1 with
    | error f => rw [hy] at hs; cases hs
    | ok y =>
      rw [hy] at hs
      obtain ⟨e2, o'⟩ := y
      cases hs with
      | ok hs =>
        obtain ⟨n2, rfl⟩ := hs
        have r2 : run p.env (ops ++ [op]) p.start = .ok (e2, os0 ++ [o]) := by
          rw [run_append_model, r1]
          simp [run, hy, bind, Except.bind]
        exact ⟨e2, r2, binds_lags (no_stub ok _ h hn r2) g3 n2⟩

/-! ### programs -/

variable {V : Type} {code : Addr → V → Prog V} {lz : Op → Op} {env : Env}

theorem lags_dlsym {s e : State} (h : plt.Lags s e) (real : RealDl) (hnd : DlHandle) (f : Name) (who a : Addr) :
    dlsymWrapper env real hnd f who s = .ok (s, a) ↔ dlsymWrapper env real hnd f who e = .ok (e, a) := by
  have := near_dlsym (L := fun x v w => v = s.mem x ∧ w = e.mem x) ⟨h.same, fun _ => ⟨rfl, rfl⟩⟩ env real hnd f who
  generalize dlsymWrapper env real hnd f who s = x at this
  generalize dlsymWrapper env real hnd f who e = y at this
  cases this with
  | err => simp
  | @ok x y h1 =>
    obtain ⟨s1, r⟩ := x
    obtain ⟨e1, r'⟩ := y
    obtain ⟨h1, h2⟩ := h1
    simp only at h1 h2
    subst h2
    have m1 : s1.mem = s.mem := funext fun x => (h1.mem x).1
    have m2 : e1.mem = e.mem := funext fun x => (h1.mem x).2
    constructor
    · intro hx
      cases hx
      have h3 := h1.same
      have : e1 = e := by
        have h4 : ({ e1 with mem := e.mem } : State) = { e with mem := e.mem } := by
          have := congrArg (fun z : State => ({ z with mem := e.mem } : State)) (h3.symm.trans h.same)
          exact this
        rw [← m2] at h4
        exact h4
      rw [this]
    · intro hx
      cases hx
      have : s1 = s := by
        have h3 := h1.same
        rw [m1] at h3
        rw [h3, ← h.same]
      rw [this]

theorem lazy_goto {s e : State} (hn : ∀ a, plt a (e.mem a) = none) (h : plt.Lags s e) (c : Callee) (a : Addr) :
    (lazyMachine plt lz env).goto s c a ↔ (machine env).goto e c a := by
  cases c <;> simp only [lazyMachine, machine]
  · rw [lags_target hn h]
  · rw [lags_wrappee h]
  · have h1 : s.inited = e.inited := by rw [h.same]
    have h2 : s.linkMap = e.linkMap := by rw [h.same]
    rw [h1, h2]
    split
    · exact lags_dlsym h _ _ _ _ _
    · rfl

/-- A step with lazy binding is one without, and conversely. -/
theorem lazy_turn (hlz : ∀ op, plt.LagOp (lz op) op) {s e : State} (hn : ∀ a, plt a (e.mem a) = none)
    (h : plt.Lags s e) {t : Thr V} {o e1 t1} (he : Turn (machine env) code e t o e1 t1) :
    (∃ s1, Turn (lazyMachine plt lz env) code s t o s1 t1) ∧
    ∀ o' s1 t1', Turn (lazyMachine plt lz env) code s t o' s1 t1' → o' = o ∧ t1' = t1 ∧ plt.Lags s1 e1 := by
  have hg := fun c a => lazy_goto (lz := lz) (env := env) hn h c a
  cases he with
  | ret => exact ⟨⟨s, .ret⟩, fun o' s1 t1' h' => by cases h'; exact ⟨rfl, rfl, h⟩⟩
  | out => exact ⟨⟨s, .out⟩, fun o' s1 t1' h' => by cases h'; exact ⟨rfl, rfl, h⟩⟩
  | null h1 =>
    refine ⟨⟨s, .null ((hg _ _).2 h1)⟩, fun o' s1 t1' h' => ?_⟩
    cases h' with
    | null _ => exact ⟨rfl, rfl, h⟩
    | other h2 h3 => exact absurd (machine_goto_det ((hg _ _).1 h2) h1) h3
  | other h1 h0 =>
    refine ⟨⟨s, .other ((hg _ _).2 h1) h0⟩, fun o' s1 t1' h' => ?_⟩
    cases h' with
    | null h2 => exact absurd (machine_goto_det h1 ((hg _ _).1 h2)) h0
    | other h2 h3 => exact ⟨rfl, rfl, h⟩
  | call h1 =>
    refine ⟨⟨s, .call ((hg _ _).2 h1)⟩, fun o' s1 t1' h' => ?_⟩
    cases h' with
    | call h2 =>
      cases machine_goto_det h1 ((hg _ _).1 h2)
      exact ⟨rfl, rfl, h⟩
  | look h1 =>
    refine ⟨⟨s, .look ((hg _ _).2 h1)⟩, fun o' s1 t1' h' => ?_⟩
    cases h' with
    | look h2 =>
      cases machine_goto_det h1 ((hg _ _).1 h2)
      exact ⟨rfl, rfl, h⟩
  | @event K op k o _ h1 =>
    have hs := lags_step env h (hlz op)
    simp only [machine] at h1
    rw [h1] at hs
    generalize hx : stepOp env (lz op) s = x at hs
    cases hs with
    | @ok x _ hs =>
      obtain ⟨s1, o1⟩ := x
      obtain ⟨n1, e2⟩ := hs
      simp only at n1 e2
      subst e2
      refine ⟨⟨s1, .event hx⟩, fun o' s1' t1' h' => ?_⟩
      cases h' with
      | event h2 =>
        simp only [lazyMachine] at h2
        rw [hx] at h2
        cases h2
        exact ⟨rfl, rfl, n1⟩

theorem lazy_sched {p : Process} (ok : p.Ok) {good : Lib → Prop} (hlz : ∀ op, plt.LagOp (lz op) op)
    {ops : List Op} {ts : List (Thr V)} {σ w ops' ts'}
    (he : Sched (ideal p good (stackOf p)) code ops ts σ w ops' ts') (hh : HistoryFor p True good ops')
    (hn : NoStubs plt p ops') : ∀ {e os s}, run p.env ops p.start = .ok (e, os) → plt.Lags s e →
      (∃ s', LazySched plt (lazyMachine plt lz p.env) code s ts σ w s' ts') ∧
      ∀ w' s' ts'', LazySched plt (lazyMachine plt lz p.env) code s ts σ w' s' ts'' →
        w' = w ∧ ts'' = ts' ∧ ∃ e' os', run p.env ops' p.start = .ok (e', os') ∧ plt.Lags s' e' := by
  have clean : ∀ {a b : List Op}, a <+: b → HistoryFor p True good b → NoStubs plt p b →
      ∀ {e os}, run p.env a p.start = .ok (e, os) → ∀ x, plt x (e.mem x) = none := by
    rintro a b ⟨c, rfl⟩ hb hnb e os hr
    exact no_stub ok a (EventsFor.weak hb.prefix.toEventsFor) (NoStubs.pre hnb) hr
  induction he with
  | nil =>
    intro e os s hr h
    refine ⟨⟨s, .nil (.refl s)⟩, fun w' s' ts'' h' => ?_⟩
    cases h' with
    | nil hb => exact ⟨rfl, rfl, e, os, hr, binds_lags (clean (List.prefix_refl _) hh hn hr) hb h⟩
  | @cons ops ts i t o ops1 t1 σ w ops2 ts2 h1 h2 h3 ih =>
    intro e os s hr h
    have hp1 := sched_prefix h3
    have c0 := clean ((turn_prefix h2).trans hp1) hh hn hr
    obtain ⟨e1, os1, r1, m1⟩ := ideal_turn ok h2 (history_prefix hp1 hh) hr
    refine ⟨?_, fun w' s' ts'' h' => ?_⟩
    · obtain ⟨⟨s1, g1⟩, g2⟩ := lazy_turn hlz c0 h m1
      obtain ⟨-, -, n1⟩ := g2 _ _ _ g1
      obtain ⟨⟨s2, g3⟩, -⟩ := ih hh hn r1 n1
      exact ⟨s2, .cons (.refl s) h1 g1 g3⟩
    · cases h' with
      | cons hb g1 g2 g3 =>
        rw [h1] at g1
        cases g1
        obtain ⟨rfl, rfl, n1⟩ := (lazy_turn hlz c0 (binds_lags c0 hb h) m1).2 _ _ _ g2
        obtain ⟨rfl, rfl, g4⟩ := (ih hh hn r1 n1).2 _ _ _ g3
        exact ⟨rfl, rfl, g4⟩

end

end Gotcha
