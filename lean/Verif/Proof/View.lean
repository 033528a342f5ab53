import Verif.Proof.History
/-
What the invariant says about a state, in terms of handles, GOT slots and stacks.
-/
namespace Gotcha.Spec
open Gotcha HTable

/-- The function a wrapper at position `i` of a stack has to continue with. -/
def nextOf (st : List Frame) (real : Option Addr) (i : Nat) : Option Addr :=
  match st[i + 1]? with
  | some g => some g.wrapper
  | none => real

/-- A binding is where the frame says. -/
structure BindsTo (s : State) (f : Name) (fr : Frame) (b : BId) : Prop where
  handle : s.handles fr.handle = some b
  bind : ∃ x t, s.bind b = .ok x ∧ x.user = ⟨f, fr.wrapper, fr.handle⟩ ∧
    s.tools.store[x.tool]? = some t ∧ t.name = fr.tool

structure View (P : Addr → Option HAddr) (strict : Prop) (s : State) (A : Abs)
    (good : Lib → Prop := fun _ => True) : Prop where
  wrappee : ∀ f i fr, (A.stack f)[i]? = some fr →
    s.getWrappee fr.handle = match nextOf (A.stack f) (A.real f) i with
      | some a => .ok a
      | none => .error .uninit
  prog : ∀ f fr, fr ∈ A.stack f → P fr.wrapper = some fr.handle
  uniq : ∀ (f g : Name) (i j : Nat) (fr fr' : Frame), (A.stack f)[i]? = some fr → (A.stack g)[j]? = some fr' →
    fr.handle = fr'.handle → f = g ∧ i = j
  look : A.inited = true → ∀ f, ∃ o, nameLookup s.funTab f = .ok o ∧
    ((A.stack f = [] ∧ o = none) ∨ ∃ fr st b, A.stack f = fr :: st ∧ o = some b ∧ BindsTo s f fr b)
  binds : ∀ f fr, fr ∈ A.stack f → ∃ b, BindsTo s f fr b
  slots : strict → ∀ l ∈ s.linkMap, good l → ∀ q ∈ rlOf l, ∀ fr st, A.stack q.2 = fr :: st →
    s.mem (l.addr + q.1) = fr.wrapper

theorem wchain_get {wr wp} {L : List BId} {r : Option Addr} (h : WChain wr wp L r) {i : Nat} {b}
    (hi : L[i]? = some b) :
    wp b = some (match L[i + 1]? with | some c => wr c | none => r) := by
  induction L generalizing i with
  | nil => simp at hi
  | cons c L ih =>
    cases i with
    | zero =>
      simp at hi
      subst hi
      rw [h.1]
      cases L <;> simp [nextVal]
    | succ i =>
      simp at hi
      simpa using ih h.2 hi

theorem frameOf_eq {binds np b t u} (h : btu binds b = some (t, u)) :
    frameOf binds np b = ⟨((np[t]?).map (·.1)).getD [], u.wrapper, u.handle⟩ := by
  simp [frameOf, h]

theorem getWrappee_uninit {s : State} {h : HAddr} {b : BId} (h1 : s.handles h = some b)
    (h2 : bwp s.binds b = some none) : s.getWrappee h = .error .uninit := by
  unfold bwp at h2
  cases hx : s.binds[b]? with
  | none => simp [hx] at h2
  | some x =>
    simp [hx] at h2
    simp [State.getWrappee, h1, State.bind, hx, h2]

theorem inv_bindsTo {p : Process} {strict : Prop} {good} {v s G A}
    (h : Inv ((p.ctx True strict good).at v) s G A) {f b} (hb : b ∈ G.ch f) :
    BindsTo s f (frameOf s.binds (Tools.np s.tools.store) b) b := by
  obtain ⟨t, u, h1, h2⟩ := h.bind.named hb
  obtain ⟨x, hx, hxt, hxu⟩ := btu_get h1
  have hlt := h.bind.okt h1
  rw [frameOf_eq h1]
  refine ⟨(h.hon trivial).own h1, x, s.tools.store[t], by simp [State.bind, hx], ?_, ?_, ?_⟩
  · rw [hxu, ← h2]
  · rw [hxt]; exact List.getElem?_eq_getElem hlt
  · simp [Tools.np, List.getElem?_eq_getElem hlt]

theorem inv_view {p : Process} {strict : Prop} {good} {v s G A}
    (h : Inv ((p.ctx True strict good).at v) s G A) (hd : ∀ f, ¬ G.dirty f) :
    View p.P strict s A good := by
  have hH := h.hon trivial
  have hst := h.stack trivial
  have hre := h.real trivial
  have hget : ∀ (f : Name) (i : Nat) (fr : Frame), (A.stack f)[i]? = some fr → ∃ b, (G.ch f)[i]? = some b ∧
      fr = frameOf s.binds (Tools.np s.tools.store) b := by
    intro f i fr hfr
    rw [hst, List.getElem?_map] at hfr
    cases hb : (G.ch f)[i]? with
    | none => simp [hb] at hfr
    | some b => simp [hb] at hfr; exact ⟨b, rfl, hfr.symm⟩
  have hwr : ∀ (f : Name) (i b : Nat), (G.ch f)[i]? = some b → bwr s.binds b =
      some (frameOf s.binds (Tools.np s.tools.store) b).wrapper := by
    intro f i b hb
    obtain ⟨t, u, h1, h2⟩ := h.bind.named (List.mem_of_getElem? hb)
    rw [frameOf_eq h1]; simp [bwr, h1]
  refine ⟨?_, ?_, ?_, ?_, ?_, ?_⟩
  · intro f i fr hfr
    obtain ⟨b, hb, rfl⟩ := hget f i fr hfr
    have hbt := inv_bindsTo h (List.mem_of_getElem? hb)
    have hw := wchain_get (hH.wch f) hb
    unfold nextOf
    rw [hst f, List.getElem?_map]
    cases hc : (G.ch f)[i + 1]? with
    | some c =>
      simp only [hc, hwr f _ c hc, Option.map_some] at hw ⊢
      exact getWrappee_of hbt.handle hw
    | none =>
      simp only [hc, Option.map_none, hre f] at hw ⊢
      cases hr : G.real f with
      | some r => rw [hr] at hw; exact getWrappee_of hbt.handle hw
      | none => rw [hr] at hw; exact getWrappee_uninit hbt.handle hw
  · intro f fr hfr
    rw [hst] at hfr
    obtain ⟨b, hb, rfl⟩ := List.mem_map.1 hfr
    obtain ⟨t, u, h1, h2⟩ := h.bind.named hb
    rw [frameOf_eq h1]
    exact hH.prog h1
  · intro f g i j fr fr' h1 h2 he
    obtain ⟨b, hb, rfl⟩ := hget f i fr h1
    obtain ⟨b', hb', rfl⟩ := hget g j fr' h2
    have e1 := (inv_bindsTo h (List.mem_of_getElem? hb)).handle
    have e2 := (inv_bindsTo h (List.mem_of_getElem? hb')).handle
    rw [he, e2] at e1
    cases e1
    obtain ⟨t, u, hx1, rfl⟩ := h.bind.named (List.mem_of_getElem? hb)
    obtain ⟨t', u', h1', rfl⟩ := h.bind.named (List.mem_of_getElem? hb')
    rw [hx1] at h1'
    cases h1'
    refine ⟨rfl, ?_⟩
    have hn := (h.bind.chain u.name).nodup
    obtain ⟨hi, e⟩ := List.getElem?_eq_some_iff.1 hb
    obtain ⟨hj, e'⟩ := List.getElem?_eq_some_iff.1 hb'
    exact (hn.getElem_inj_iff).1 (e.trans e'.symm)
  · intro _ f
    have hl := lookup_tab h.fn (k := f) (eq := fun k => k = f) (by
      intro k _
      constructor
      · rintro ⟨-, h⟩; simpa using h
      · rintro rfl; simp)
    refine ⟨_, hl, ?_⟩
    cases hc : G.ch f with
    | nil => left; rw [hst, hc]; exact ⟨rfl, rfl⟩
    | cons b L =>
      right
      rw [hst, hc]
      exact ⟨_, _, b, rfl, rfl, inv_bindsTo h (by rw [hc]; simp)⟩
  · intro f fr hfr
    rw [hst] at hfr
    obtain ⟨b, hb, rfl⟩ := List.mem_map.1 hfr
    exact ⟨b, inv_bindsTo h hb⟩
  · intro hs l hl hg q hq fr st he
    have hS := h.slots hs
    rw [hst] at he
    cases hc : G.ch q.2 with
    | nil => rw [hc] at he; cases he
    | cons b L =>
      rw [hc] at he
      simp only [List.map_cons, List.cons.injEq] at he
      have := hS.slot l hl hg q hq (hd _) b (by rw [hc]; rfl)
      rw [hwr q.2 0 b (by rw [hc]; rfl), he.1] at this
      exact (Option.some.inj this).symm

theorem post_bindsTo {p : Process} {strict : Prop} {good} {v seen n s G A}
    (h : Post ((p.ctx True strict good).at v) seen n s G A) {f b} (hb : b ∈ G.ch f) :
    BindsTo s f (frameOf s.binds (Tools.np s.tools.store) b) b := inv_bindsTo h.inv hb

theorem post_view {p : Process} {strict : Prop} {good} {v seen n s G A}
    (h : Post ((p.ctx True strict good).at v) seen n s G A) : View p.P strict s A good :=
  inv_view h.inv h.dirty

theorem pre_view {p : Process} {strict : Prop} {good} {seen s A}
    (h : Pre (p.ctx True strict good) seen s A) : View p.P strict s A good := by
  have hA : ∀ f, A.stack f = [] := by rw [h.abs]; intro f; rfl
  refine ⟨?_, ?_, ?_, ?_, ?_, ?_⟩
  · intro f i fr hfr; rw [hA] at hfr; simp at hfr
  · intro f fr hfr; rw [hA] at hfr; cases hfr
  · intro f g i j fr fr' hfr; rw [hA] at hfr; simp at hfr
  · intro hi; rw [h.abs] at hi; cases hi
  · intro f fr hfr; rw [hA] at hfr; cases hfr
  · intro _ l _ _ q _ fr st he; rw [hA] at he; cases he

theorem top_view {p : Process} {strict : Prop} {good} {seen n s A}
    (h : Top (p.ctx True strict good) seen n s A) : View p.P strict s A good := by
  rcases h with h | ⟨v, G, h⟩
  · exact pre_view h
  · exact post_view h

/-- Without the claim about the slots. -/
theorem View.weaken {P strict s A good} (h : View P strict s A good) : View P False s A :=
  ⟨h.wrappee, h.prog, h.uniq, h.look, h.binds, fun hc => hc.elim⟩

/-! ### every prefix of a history, and its last event -/

theorem LoaderOk.pre {p : Process} {strict : Prop} (pre post : List Op) :
    ∀ {seen libs inited}, LoaderOk p strict seen libs inited (pre ++ post) →
    LoaderOk p strict seen libs inited pre := by
  induction pre with
  | nil => intros; trivial
  | cons op pre ih =>
    intro seen libs inited h
    cases op <;> simp only [List.cons_append, LoaderOk] at h ⊢
    · exact ⟨h.1, ih h.2⟩
    · exact ⟨h.1, ih h.2⟩
    · exact ⟨h.1, ih h.2⟩
    · exact ih h
    · exact ⟨h.1, ih h.2⟩
    · exact ⟨h.1, h.2.1, ih h.2.2⟩
    · exact ⟨h.1, ih h.2⟩

theorem MainAlone.prefix {pre post : List Op} (h : MainAlone (pre ++ post)) : MainAlone pre := by
  intro pre' tbl tool post' e
  exact h pre' tbl tool (post' ++ post) (by rw [e]; simp)

theorem Honest.prefix {env P} {pre post : List Op} (h : Honest env P (pre ++ post)) :
    Honest env P pre := by
  refine ⟨?_, ?_, h.own⟩
  · have := h.nodup
    refine List.Sublist.nodup ?_ this
    rw [List.flatMap_append, List.map_append]
    exact List.Sublist.append (List.sublist_append_left _ _) (List.Sublist.refl _)
  · intro u hu
    exact h.prog u (by rw [List.flatMap_append]; exact List.mem_append_left _ hu)

theorem Events.prefix {p : Process} {strict : Prop} {pre post : List Op}
    (h : Events p strict (pre ++ post)) : Events p strict pre :=
  ⟨h.loader.pre _ _, h.cons, fun hs f hf => h.filter hs f (List.mem_append_left _ hf),
    fun hs => (h.main hs).prefix, fun hs => by
      have := h.short hs; rw [List.length_append] at this; omega⟩

theorem History.prefix {p : Process} {strict : Prop} {pre post : List Op}
    (h : History p strict (pre ++ post)) : History p strict pre :=
  ⟨h.toEvents.prefix, h.honest.prefix⟩

theorem run_append_model (env : Env) (a b : List Op) : ∀ s,
    run env (a ++ b) s = (do
      let (s1, o1) ← run env a s
      let (s2, o2) ← run env b s1
      .ok (s2, o1 ++ o2)) := by
  induction a with
  | nil =>
    intro s
    simp only [List.nil_append, run, bind, Except.bind]
    cases run env b s <;> rfl
  | cons op a ih =>
    intro s
    simp only [List.cons_append, run, bind, Except.bind]
    cases stepOp env op s with
    | error e => rfl
    | ok y =>
      simp only [ih, bind, Except.bind]
      cases run env a y.1 with
      | error e => rfl
      | ok z =>
        simp only
        cases run env b z.1 <;> rfl

theorem valid_snoc {C : Ctx} (ops : List Op) (op : Op) : ∀ {seen A},
    Valid C seen A (ops ++ [op]) →
    Valid C seen A ops ∧ OpOk C (seenRun seen ops) (Abs.run C.env ops A).1 op := by
  induction ops with
  | nil => intro seen A h; exact ⟨trivial, h.1⟩
  | cons o ops ih =>
    intro seen A h
    obtain ⟨h1, h2⟩ := ih h.2
    exact ⟨⟨h.1, h1⟩, h2⟩

theorem seenRun_snoc (ops : List Op) (op : Op) : ∀ seen,
    seenRun seen (ops ++ [op]) = seenAfter (seenRun seen ops) op := by
  induction ops with
  | nil => intro seen; rfl
  | cons o ops ih => intro seen; exact ih _

/-- The last event of a history. -/
theorem history_step {p : Process} (ok : p.Ok) {strict : Prop} {ops : List Op} {op : Op}
    (h : History p strict (ops ++ [op])) :
    ∃ s s', run p.env ops p.start = .ok (s, (Abs.run p.env ops p.abs).2) ∧
      stepOp p.env op s = .ok (s', ((Abs.run p.env ops p.abs).1.step p.env op).2) ∧
      run p.env (ops ++ [op]) p.start = .ok (s', (Abs.run p.env (ops ++ [op]) p.abs).2) ∧
      Top (p.ctx True strict) (seenRun p.seen ops) (3 + ops.length) s
        (Abs.run p.env ops p.abs).1 ∧
      Top (p.ctx True strict) (seenRun p.seen (ops ++ [op])) (3 + ops.length + 1) s'
        (Abs.run p.env (ops ++ [op]) p.abs).1 ∧
      Eff (loaderPart s op) s' := by
  obtain ⟨s, h1, h2⟩ := history_run ok h.prefix
  obtain ⟨-, hv⟩ := valid_snoc ops op (start_valid (hon := True) h.toEvents fun _ => h.honest)
  obtain ⟨s', o, e1, e2, e3, e4⟩ := step_spec (C := p.ctx True strict) ok.world
    (fun _ => h.honest.own) (by omega) h2 hv (fun hs => by
      have := h.short hs; rw [List.length_append] at this
      simp only [List.length_singleton] at this
      omega) (fun hc => absurd trivial hc)
  have e3' := e3 trivial
  subst e3'
  refine ⟨s, s', h1, e1, ?_, h2, ?_, e4⟩
  · rw [run_append_model, h1, run_append]
    simp only [bind, Except.bind, run]
    rw [show stepOp p.env op s = _ from e1]
    rfl
  · rw [run_snoc, seenRun_snoc]; exact e2

/-- The same for arbitrary clients, as long as the run goes on. -/
theorem events_step {p : Process} (ok : p.Ok) {strict : Prop} {ops : List Op} {op : Op}
    (h : Events p strict (ops ++ [op])) {s os s' o} (hr : run p.env ops p.start = .ok (s, os))
    (hs : stepOp p.env op s = .ok (s', o)) :
      Top (p.ctx False strict) (seenRun p.seen ops) (3 + ops.length) s
        (Abs.run p.env ops p.abs).1 ∧
      Top (p.ctx False strict) (seenRun p.seen (ops ++ [op])) (3 + ops.length + 1) s'
        (Abs.run p.env (ops ++ [op]) p.abs).1 ∧
      Eff (loaderPart s op) s' := by
  have h2 := events_run ok h.prefix hr
  obtain ⟨-, hv⟩ := valid_snoc ops op (start_valid (hon := False) h fun hc => absurd hc id)
  obtain ⟨s1, o1, e1, e2, e3, e4⟩ := step_spec (C := p.ctx False strict) ok.world
    (fun hc => absurd hc id) (by omega) h2 hv (fun hs => by
      have := h.short hs; rw [List.length_append] at this
      simp only [List.length_singleton] at this
      omega) (by
        rintro - ⟨ld, rfl⟩ hin
        simp only [stepOp, hin, if_true, dlopenWrapper, bind, Except.bind] at hs
        cases hg : s.getWrappee p.env.hDlopen with
        | error e => simp [hg] at hs
        | ok a => exact ⟨a, hg⟩)
  have : stepOp p.env op s = .ok (s1, o1) := e1
  rw [hs] at this
  cases this
  exact ⟨h2, by rw [run_snoc, seenRun_snoc]; exact e2, e4⟩

end Gotcha.Spec
