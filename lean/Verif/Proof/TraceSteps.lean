import Verif.Proof.Trace
import Verif.Proof.CoreWrap
/-
What other threads can see of the single stores of `gotcha_wrap`.
-/
namespace Gotcha
open HTable Tr

namespace Tr

theorem assoc {α β γ : Type} (x : Tr α) (f : α → Tr β) (g : β → Tr γ) :
    ((x >>= f) >>= g) = x >>= fun a => f a >>= g := by
  simp only [bind_eq]
  unfold andThen
  cases x with
  | error e => rfl
  | ok p =>
    obtain ⟨t, a⟩ := p
    dsimp only
    cases f a with
    | error e => rfl
    | ok q =>
      obtain ⟨t', b⟩ := q
      dsimp only
      cases g b with
      | error e => rfl
      | ok r => obtain ⟨t'', c⟩ := r; simp only [List.append_assoc]; rfl

theorem pure_bind {α β : Type} (a : α) (f : α → Tr β) : ((pure a : Tr α) >>= f) = f a := by
  rw [bind_eq]
  show andThen (Except.ok ([], a)) f = f a
  unfold andThen
  cases h : f a with
  | error e => simp only [h]; rfl
  | ok q => simp only [h, List.nil_append]; rfl

end Tr

/-- The wrappee stored in a binding. -/
def rd (s : State) (b : BId) : Option Addr := (s.binds[b]?).bind (·.wrappee)

theorem rd_of_bwp {s : State} {b a} (h : bwp s.binds b = some (some a)) : rd s b = some a := by
  unfold bwp at h
  unfold rd
  cases hx : s.binds[b]? with
  | none => simp [hx] at h
  | some x => simp [hx] at h; simp [h]

/-- A caller of a wrapped function sees no difference. -/
structure Same (s σ : State) : Prop where
  mem : σ.mem = s.mem
  handles : σ.handles = s.handles
  rd : ∀ c, Gotcha.rd σ c = Gotcha.rd s c

/-- A caller sees no difference unless it reads the binding `b`. -/
structure SameBut (b : BId) (s σ : State) : Prop where
  mem : σ.mem = s.mem
  handles : σ.handles = s.handles
  rd : ∀ c, c ≠ b → Gotcha.rd σ c = Gotcha.rd s c

theorem Same.refl (s : State) : Same s s := ⟨rfl, rfl, fun _ => rfl⟩
theorem Same.of (s : State) {σ : State} (h1 : σ.mem = s.mem) (h2 : σ.handles = s.handles)
    (h3 : σ.binds = s.binds) : Same s σ := ⟨h1, h2, fun _ => by unfold Gotcha.rd; rw [h3]⟩
theorem Same.symm {s σ : State} (h : Same s σ) : Same σ s :=
  ⟨h.mem.symm, h.handles.symm, fun c => (h.rd c).symm⟩
theorem Same.trans {s1 s2 s3 : State} (h : Same s1 s2) (h' : Same s2 s3) : Same s1 s3 :=
  ⟨h'.mem.trans h.mem, h'.handles.trans h.handles, fun c => (h'.rd c).trans (h.rd c)⟩
theorem Same.but {s σ : State} (h : Same s σ) (b) : SameBut b s σ :=
  ⟨h.mem, h.handles, fun c _ => h.rd c⟩
theorem SameBut.trans {b} {s1 s2 s3 : State} (h : SameBut b s1 s2) (h' : SameBut b s2 s3) :
    SameBut b s1 s3 :=
  ⟨h'.mem.trans h.mem, h'.handles.trans h.handles, fun c hc => (h'.rd c hc).trans (h.rd c hc)⟩

theorem same_next (s : State) (b : BId) (n) :
    Same s { s with binds := s.binds.modify b (fun x => { x with next := n }) } := by
  refine ⟨rfl, rfl, fun c => ?_⟩
  unfold rd
  simp only [List.getElem?_modify]
  cases s.binds[c]? with
  | none => simp
  | some x => by_cases e : b = c <;> simp [e]

theorem setInternal_but {s s' : State} {h v b} (hh : s.handles h = some b)
    (he : s.setInternal h v = .ok s') : SameBut b s s' ∧ s'.binds.length = s.binds.length ∧
      s' = { s with binds := s'.binds } := by
  unfold State.setInternal at he
  rw [hh] at he
  dsimp only at he
  split at he
  · cases he
    refine ⟨⟨rfl, rfl, fun c hc => ?_⟩, by simp, rfl⟩
    unfold rd
    simp only [List.getElem?_modify, Ne.symm hc, if_false, id_map']
  · cases he

theorem setInternalT_ok {s s' : State} {h v tr} (he : s.setInternalT h v = .ok (tr, s')) :
    tr = [s'] ∧ s.setInternal h v = .ok s' := by
  unfold State.setInternalT at he
  obtain ⟨t1, s1, t2, e1, e2, rfl⟩ := ok_bind he
  replace e1 := ok_lift e1; obtain ⟨rfl, e1⟩ := e1
  obtain ⟨t3, a, t4, e3, e4, rfl⟩ := ok_bind e2
  have := ok_tell e3
  obtain ⟨rfl, rfl⟩ := ok_pure e4
  subst this
  exact ⟨rfl, e1⟩

/-- The states recorded for one binding: `T0` before the store that makes it effective, `T1` after. -/
structure Split (b : BId) (s s' : State) (T0 T1 : List State) : Prop where
  before : ∀ σ ∈ T0, SameBut b s σ
  after : ∀ σ ∈ T1, Same s' σ
  mem : s'.mem = s.mem
  handles : s'.handles = s.handles

theorem insertAtHeadT_split {s s' : State} {b head xb tr} (hx : s.bind b = .ok xb)
    (hh : s.handles xb.user.handle = some b) (he : s.insertAtHeadT b head = .ok (tr, s')) :
    Split b s s' tr [] := by
  unfold State.insertAtHeadT at he
  obtain ⟨t1, x1, t2, e1, e2, rfl⟩ := ok_bind he
  replace e1 := ok_lift e1; obtain ⟨rfl, e1⟩ := e1
  rw [hx] at e1; cases e1
  obtain ⟨t3, xh, t4, e3, e4, rfl⟩ := ok_bind e2
  replace e3 := ok_lift e3; obtain ⟨rfl, e3⟩ := e3
  obtain ⟨t5, _, t6, e5, e6, rfl⟩ := ok_bind e4
  have := ok_tell e5
  subst this
  obtain ⟨t7, s2, t8, e7, e8, rfl⟩ := ok_bind e6
  replace e7 := setInternalT_ok e7; obtain ⟨rfl, e7⟩ := e7
  obtain ⟨t9, ⟨tb, o⟩, t10, e9, e10, rfl⟩ := ok_bind e8
  replace e9 := ok_lift e9; obtain ⟨rfl, e9⟩ := e9
  obtain ⟨t11, tb', t12, e11, e12, rfl⟩ := ok_bind e10
  replace e11 := ok_lift e11; obtain ⟨rfl, e11⟩ := e11
  obtain ⟨rfl, rfl⟩ := ok_pure e12
  have h1 := (same_next s b (some head)).but b
  have h2 := (setInternal_but (b := b) (by exact hh) e7).1
  have h12 := h1.trans h2
  refine ⟨?_, by simp, h12.mem, h12.handles⟩
  intro σ hσ
  simp only [List.nil_append, List.append_nil, List.cons_append, List.mem_cons, List.not_mem_nil, or_false] at hσ
  rcases hσ with rfl | rfl
  · exact h1
  · exact h12

theorem bind_of_same {s s' : State} {h v b} (he : s.setInternal h v = .ok s') {c : BId} {x}
    (hx : s.bind c = .ok x) (hb : s.handles h = some b) (hc : c ≠ b) : s'.bind c = .ok x := by
  unfold State.setInternal at he
  rw [hb] at he
  dsimp only at he
  split at he
  · cases he
    unfold State.bind at hx ⊢
    simp only [List.getElem?_modify, Ne.symm hc, if_false, id_map']
    cases hg : s.binds[c]? with
    | none => rw [hg] at hx; exact hx
    | some y => rw [hg] at hx; exact hx
  · cases he

theorem insertAfterT_split {s s' : State} {b pos xb tr} (hx : s.bind b = .ok xb)
    (hh : s.handles xb.user.handle = some b) (he : s.insertAfterT b pos = .ok (tr, s')) :
    ∃ T0 T1, tr = T0 ++ T1 ∧ Split b s s' T0 T1 := by
  unfold State.insertAfterT at he
  obtain ⟨t1, x1, t2, e1, e2, rfl⟩ := ok_bind he
  replace e1 := ok_lift e1; obtain ⟨rfl, e1⟩ := e1
  rw [hx] at e1; cases e1
  obtain ⟨t3, xp, t4, e3, e4, rfl⟩ := ok_bind e2
  replace e3 := ok_lift e3; obtain ⟨rfl, e3⟩ := e3
  obtain ⟨t5, s1, t6, e5, e6, rfl⟩ := ok_bind e4
  replace e5 := setInternalT_ok e5; obtain ⟨rfl, e5⟩ := e5
  obtain ⟨t7, s2, t8, e7, e8, rfl⟩ := ok_bind e6
  replace e7 := setInternalT_ok e7; obtain ⟨rfl, e7⟩ := e7
  obtain ⟨t9, xp', t10, e9, e10, rfl⟩ := ok_bind e8
  replace e9 := ok_lift e9; obtain ⟨rfl, e9⟩ := e9
  obtain ⟨t11, _, t12, e11, e12, rfl⟩ := ok_bind e10
  have := ok_tell e11
  subst this
  obtain ⟨t13, _, t14, e13, e14, rfl⟩ := ok_bind e12
  have := ok_tell e13
  subst this
  obtain ⟨rfl, rfl⟩ := ok_pure e14
  have h1 := (setInternal_but (b := b) hh e5).1
  have h3 := same_next s2 b xp'.next
  have h4 := h3.trans (same_next _ pos (some b))
  have hmh : s2.mem = s1.mem ∧ s2.handles = s1.handles := by
    unfold State.setInternal at e7
    split at e7
    · cases e7
    · split at e7
      · cases e7; exact ⟨rfl, rfl⟩
      · cases e7
  refine ⟨[s1], _, by simp; rfl, ?_, ?_, ?_, ?_⟩
  · intro σ hσ
    simp only [List.mem_singleton] at hσ
    subst hσ; exact h1
  · intro σ hσ
    simp only [List.mem_cons, List.not_mem_nil, or_false] at hσ
    rcases hσ with rfl | rfl | rfl
    · exact h4.symm
    · exact h4.symm.trans h3
    · exact Same.refl _
  · exact hmh.1.trans h1.mem
  · exact hmh.2.trans h1.handles

theorem rewriteOrdersT_split {omT : State → Tr State} {s s' : State} {b xb r tr}
    (hx : s.bind b = .ok xb) (hh : s.handles xb.user.handle = some b)
    (hm : xb.user.name = nm "main" → omT s = pure s)
    (he : rewriteOrdersT omT s b = .ok (tr, (s', r))) :
    ∃ T0 T1, tr = T0 ++ T1 ∧ Split b s s' T0 T1 ∧ (r.lookup = true → tr = [] ∧ Same s s') := by
  unfold rewriteOrdersT at he
  obtain ⟨t1, x1, t2, e1, e2, rfl⟩ := ok_bind he
  replace e1 := ok_lift e1; obtain ⟨rfl, e1⟩ := e1
  rw [hx] at e1; cases e1
  obtain ⟨t3, p, t4, e3, e4, rfl⟩ := ok_bind e2
  replace e3 := ok_lift e3; obtain ⟨rfl, e3⟩ := e3
  dsimp only at e4
  have hm' : (if xb.user.name = nm "main" then omT s else pure s) = pure s := by
    split
    · exact hm (by assumption)
    · rfl
  by_cases hmain : xb.user.name = nm "main"
  all_goals
    first
    | rw [if_pos hmain, hm hmain, Tr.pure_bind] at e4
    | rw [if_neg hmain, Tr.pure_bind] at e4
    obtain ⟨t5, o, t6, e5, e6, rfl⟩ := ok_bind e4
    replace e5 := ok_lift e5; obtain ⟨rfl, e5⟩ := e5
    cases o with
    | none =>
      obtain ⟨t7, tb, t8, e7, e8, rfl⟩ := ok_bind e6
      replace e7 := ok_lift e7; obtain ⟨rfl, e7⟩ := e7
      replace e8 := ok_pure e8; obtain ⟨rfl, e8⟩ := e8
      cases e8
      exact ⟨[], [], rfl, ⟨by simp, by simp, rfl, rfl⟩, fun _ => ⟨rfl, Same.of _ rfl rfl rfl⟩⟩
    | some head =>
      obtain ⟨t7, hp, t8, e7, e8, rfl⟩ := ok_bind e6
      replace e7 := ok_lift e7; obtain ⟨rfl, e7⟩ := e7
      by_cases hlt : hp < p
      · rw [if_pos hlt] at e8
        obtain ⟨t9, s2, t10, e9, e10, rfl⟩ := ok_bind e8
        replace e10 := ok_pure e10; obtain ⟨rfl, e10⟩ := e10
        cases e10
        exact ⟨_, [], by simp, insertAtHeadT_split hx hh e9, fun h => by cases h⟩
      · rw [if_neg hlt] at e8
        obtain ⟨t9, q, t10, e9, e10, rfl⟩ := ok_bind e8
        replace e9 := ok_lift e9; obtain ⟨rfl, e9⟩ := e9
        cases q with
        | none =>
          replace e10 := ok_pure e10; obtain ⟨rfl, e10⟩ := e10
          cases e10
          exact ⟨[], [], rfl, ⟨by simp, by simp, rfl, rfl⟩, fun h => by cases h⟩
        | some pos =>
          obtain ⟨t11, s2, t12, e11, e12, rfl⟩ := ok_bind e10
          replace e12 := ok_pure e12; obtain ⟨rfl, e12⟩ := e12
          cases e12
          obtain ⟨T0, T1, rfl, hS⟩ := insertAfterT_split hx hh e11
          exact ⟨T0, T1, by simp, hS, fun h => by cases h⟩

theorem ensureLib_same {s s' : State} {l r} (he : s.ensureLib l = .ok (s', r)) : Same s s' := by
  unfold State.ensureLib at he
  simp only [bind, Except.bind] at he
  split at he
  · cases he
  · split at he
    · cases he; exact Same.refl _
    · split at he
      · cases he
      · cases he; exact Same.of _ rfl rfl rfl

theorem lookupExported_same {env : Env} {s s' : State} {n l r}
    (he : s.lookupExported env n l = .ok (s', r)) : Same s s' := by
  unfold State.lookupExported at he
  have hv : Same s (s.isVdso env l).1 := by
    unfold State.isVdso
    split
    · exact Same.refl _
    · exact Same.of _ rfl rfl rfl
  split at he
  · rename_i s1 h1
    cases he
    rw [h1] at hv; exact hv
  · rename_i s1 h1
    rw [h1] at hv
    split at he
    · cases he
    · cases he; exact hv

theorem prepareLoopT_same {env : Env} {name : Name} {h : HAddr} (ls : List Lib) :
    ∀ {s s' : State} {ok tr}, prepareLoopT env name h ls s = .ok (tr, (s', ok)) →
      (∀ σ ∈ tr, Same s' σ) ∧ s'.mem = s.mem ∧ s'.handles = s.handles := by
  induction ls with
  | nil =>
    intro s s' ok tr he
    obtain ⟨rfl, e⟩ := ok_pure he
    cases e
    exact ⟨by simp, rfl, rfl⟩
  | cons l ls ih =>
    intro s s' ok tr he
    rw [prepareLoopT] at he
    obtain ⟨t1, ⟨s1, r1⟩, t2, e1, e2, rfl⟩ := ok_bind he
    replace e1 := ok_lift e1; obtain ⟨rfl, e1⟩ := e1
    obtain ⟨t3, ⟨s2, r⟩, t4, e3, e4, rfl⟩ := ok_bind e2
    replace e3 := ok_lift e3; obtain ⟨rfl, e3⟩ := e3
    have hs := (ensureLib_same e1).trans (lookupExported_same e3)
    cases r with
    | none =>
      obtain ⟨g1, g2, g3⟩ := ih e4
      exact ⟨by simpa using g1, g2.trans hs.mem, g3.trans hs.handles⟩
    | some a =>
      obtain ⟨t5, s3, t6, e5, e6, rfl⟩ := ok_bind e4
      replace e5 := setInternalT_ok e5; obtain ⟨rfl, e5⟩ := e5
      replace e6 := ok_pure e6; obtain ⟨rfl, e6⟩ := e6
      obtain ⟨e7, e8⟩ := Prod.mk.inj e6
      subst e7
      have hmh : s3.mem = s2.mem ∧ s3.handles = s2.handles := by
        unfold State.setInternal at e5
        split at e5
        · cases e5
        · split at e5
          · cases e5; exact ⟨rfl, rfl⟩
          · cases e5
      refine ⟨?_, hmh.1.trans hs.mem, hmh.2.trans hs.handles⟩
      intro σ hσ
      simp only [List.nil_append, List.append_nil, List.mem_singleton] at hσ
      subst hσ; exact Same.refl _

/-- One iteration of the loop of `gotcha_wrap`, recording. -/
def processOneT (env : Env) (onMain : State → Tr State) (n : Nat) (b : BId) (s : State)
    (nb : Option (HTable Name BId)) (nf : Nat) : Tr (State × Option (HTable Name BId) × Nat) := do
  let xb ← lift (s.bind b)
  let (s, r) ← rewriteOrdersT onMain s b
  let (s, nf) ←
    if r.lookup then do
      let (s, ok) ← s.prepareSymbolT env b
      if ok then pure (s, nf)
      else do
        let t ← lift (s.notFound.addto xb.user.name b (strhash xb.user.name))
        pure ({ s with notFound := t }, nf + 1)
    else pure (s, nf)
  let nb ← lift (if r.binding then addNew env n nb xb.user.name b else .ok nb)
  pure (s, nb, nf)

theorem processBindingsT_cons (env : Env) (onMain : State → Tr State) (n : Nat) (b : BId)
    (bs : List BId) (s : State) (nb : Option (HTable Name BId)) (nf : Nat) :
    processBindingsT env onMain n (b :: bs) s nb nf =
      processOneT env onMain n b s nb nf >>= fun r =>
        processBindingsT env onMain n bs r.1 r.2.1 r.2.2 := by
  rw [processBindingsT, processOneT]
  simp only [Tr.assoc]
  congr 1; funext xb
  congr 1; funext ⟨s1, r⟩
  dsimp only
  by_cases hl : r.lookup = true
  · simp only [if_pos hl, Tr.assoc]
    congr 1; funext ⟨s2, ok⟩
    dsimp only
    by_cases hk : ok = true
    · simp only [if_pos hk, Tr.assoc, Tr.pure_bind]
    · simp only [if_neg hk, Tr.assoc, Tr.pure_bind]
  · simp only [if_neg hl, Tr.assoc, Tr.pure_bind]

theorem processOneT_split {env : Env} {omT : State → Tr State} {n : Nat} {s s' : State}
    {b xb nb nb' nf nf' tr} (hx : s.bind b = .ok xb) (hh : s.handles xb.user.handle = some b)
    (hm : xb.user.name = nm "main" → omT s = pure s)
    (he : processOneT env omT n b s nb nf = .ok (tr, (s', nb', nf'))) :
    ∃ T0 T1, tr = T0 ++ T1 ∧ Split b s s' T0 T1 := by
  unfold processOneT at he
  obtain ⟨t1, x1, t2, e1, e2, rfl⟩ := ok_bind he
  replace e1 := ok_lift e1; obtain ⟨rfl, e1⟩ := e1
  rw [hx] at e1; cases e1
  obtain ⟨t3, ⟨s1, r⟩, t4, e3, e4, rfl⟩ := ok_bind e2
  obtain ⟨T0, T1, rfl, hS, hlk⟩ := rewriteOrdersT_split hx hh hm e3
  dsimp only at e4
  have fin : ∀ {s2 : State} {nf2 : Nat} {t5 : List State}, (lift (if r.binding = true then
      addNew env n nb xb.user.name b else .ok nb) >>= fun nb => pure (s2, nb, nf2)) =
        (.ok (t5, (s', nb', nf')) : Tr (State × Option (HTable Name BId) × Nat)) →
        t5 = [] ∧ s2 = s' := by
    intro s2 nf2 t5 h
    obtain ⟨t6, o, t7, e6, e7, rfl⟩ := ok_bind h
    replace e6 := ok_lift e6; obtain ⟨rfl, e6⟩ := e6
    replace e7 := ok_pure e7; obtain ⟨rfl, e7⟩ := e7
    cases e7
    exact ⟨rfl, rfl⟩
  by_cases hl : r.lookup = true
  · rw [if_pos hl] at e4
    obtain ⟨hnil, hsame⟩ := hlk hl
    rw [List.append_eq_nil_iff] at hnil
    obtain ⟨rfl, rfl⟩ := hnil
    obtain ⟨t5, ⟨s2, ok⟩, t6, e5, e6, rfl⟩ := ok_bind e4
    have hp : (∀ σ ∈ t5, Same s2 σ) ∧ s2.mem = s1.mem ∧ s2.handles = s1.handles := by
      unfold State.prepareSymbolT at e5
      obtain ⟨t7, x2, t8, e7, e8, rfl⟩ := ok_bind e5
      replace e7 := ok_lift e7; obtain ⟨rfl, e7⟩ := e7
      simpa using prepareLoopT_same _ e8
    dsimp only at e6
    by_cases hk : ok = true
    · rw [if_pos hk, Tr.pure_bind] at e6
      obtain ⟨rfl, rfl⟩ := fin e6
      exact ⟨[], t5, by simp, by simp, hp.1, hp.2.1.trans hsame.mem, hp.2.2.trans hsame.handles⟩
    · rw [if_neg hk] at e6
      obtain ⟨t7, tb, t8, e7, e8, rfl⟩ := ok_bind e6
      replace e7 := ok_lift e7; obtain ⟨rfl, e7⟩ := e7
      rw [Tr.pure_bind] at e8
      obtain ⟨rfl, rfl⟩ := fin e8
      refine ⟨[], t5, by simp, by simp, ?_, hp.2.1.trans hsame.mem, hp.2.2.trans hsame.handles⟩
      intro σ hσ
      exact (Same.of s2 (σ := { s2 with notFound := tb }) rfl rfl rfl).symm.trans (hp.1 σ hσ)
  · rw [if_neg hl, Tr.pure_bind] at e4
    obtain ⟨rfl, rfl⟩ := fin e4
    exact ⟨T0, T1, by simp, hS⟩

theorem erase_processOne (env : Env) {om : State → Except Fault State} {omT : State → Tr State}
    (hom : ∀ s, erase (omT s) = om s) (n : Nat) (b : BId) (s nb nf) :
    erase (processOneT env omT n b s nb nf) = processOne env om n b s nb nf := by
  have h1 := erase_processBindings env hom n [b] s nb nf
  rw [processBindingsT_cons, processBindings_cons] at h1
  simp only [erase_bind] at h1
  have e1 : ∀ x : Except Fault (State × Option (HTable Name BId) × Nat), (x >>= fun r =>
      processBindings env om n [] r.1 r.2.1 r.2.2) = x := by
    intro x; cases x <;> rfl
  have e2 : ∀ x : Except Fault (State × Option (HTable Name BId) × Nat), (x >>= fun r =>
      erase (processBindingsT env omT n [] r.1 r.2.1 r.2.2)) = x := by
    intro x; cases x <;> rfl
  rw [e1, e2] at h1
  exact h1

/-! ### the GOTs -/

/-- What a pass over the GOTs with the table `m` may show to others. -/
structure Passing (m : Name → Option BId) (libs : List Lib) (s σ : State) : Prop where
  handles : σ.handles = s.handles
  binds : σ.binds = s.binds
  mem : ∀ a, σ.mem a = s.mem a ∨ ∃ l ∈ libs, ∃ q ∈ rlOf l, a = l.addr + q.1 ∧
    ∃ b, m q.2 = some b ∧ bwr s.binds b = some (σ.mem a)

theorem Passing.refl (m libs) (s : State) : Passing m libs s s := ⟨rfl, rfl, fun _ => Or.inl rfl⟩

theorem Passing.trans {m libs} {s1 s2 s3 : State} (h : Passing m libs s1 s2)
    (h' : Passing m libs s2 s3) : Passing m libs s1 s3 := by
  refine ⟨h'.handles.trans h.handles, h'.binds.trans h.binds, fun a => ?_⟩
  rcases h'.mem a with e | ⟨l, hl, q, hq, e1, b, e2, e3⟩
  · rw [e]; exact h.mem a
  · right; exact ⟨l, hl, q, hq, e1, b, e2, by rw [← h.binds]; exact e3⟩

theorem Passing.of {m libs} (s : State) {σ : State} (h1 : σ.mem = s.mem)
    (h2 : σ.handles = s.handles) (h3 : σ.binds = s.binds) : Passing m libs s σ :=
  ⟨h2, h3, fun a => Or.inl (by rw [h1])⟩

/-- The states `tr` of a pass over the GOTs, from `s` to `s'`. -/
structure PassTr (m : Name → Option BId) (libs : List Lib) (s : State) (tr : List State) (s' : State) :
    Prop where
  all : ∀ σ ∈ tr, Passing m libs s σ
  last : Passing m libs s s'
  ord : (tr ++ [s']).Pairwise (Passing m libs)

theorem PassTr.nil {m libs} {s s' : State} (h : Passing m libs s s') : PassTr m libs s [] s' :=
  ⟨by simp, h, by simp⟩

theorem PassTr.one {m libs} {s s' : State} (h : Passing m libs s s') : PassTr m libs s [s'] s' :=
  ⟨by simpa using h, h, by simpa using Passing.refl m libs s'⟩

theorem PassTr.trans {m libs} {s1 s2 s3 : State} {t1 t2 : List State} (h : PassTr m libs s1 t1 s2)
    (h' : PassTr m libs s2 t2 s3) : PassTr m libs s1 (t1 ++ t2) s3 := by
  refine ⟨?_, h.last.trans h'.last, ?_⟩
  · intro σ hσ
    rcases List.mem_append.1 hσ with hσ | hσ
    · exact h.all σ hσ
    · exact h.last.trans (h'.all σ hσ)
  · obtain ⟨p1, -, p2⟩ := List.pairwise_append.1 h.ord
    rw [List.append_assoc]
    refine List.pairwise_append.2 ⟨p1, h'.ord, fun σ hσ τ hτ => ?_⟩
    refine (p2 σ hσ s2 (by simp)).trans ?_
    rcases List.mem_append.1 hτ with hτ | hτ
    · exact h'.all τ hτ
    · rw [List.mem_singleton.1 hτ]; exact h'.last

theorem ensureLib_pass {m libs} {s s' : State} {l r} (he : s.ensureLib l = .ok (s', r)) :
    Passing m libs s s' := by
  unfold State.ensureLib at he
  simp only [bind, Except.bind] at he
  split at he
  · cases he
  · split at he
    · cases he; exact Passing.refl _ _ _
    · split at he
      · cases he
      · cases he; exact Passing.of _ rfl rfl rfl

theorem markGotWritable_pass {m libs} {env : Env} {s s' : State} {l}
    (he : s.markGotWritable env l = .ok s') : Passing m libs s s' := by
  unfold State.markGotWritable at he
  split at he
  · cases he
  · rename_i rs _
    cases he
    clear * -
    induction rs generalizing s with
    | nil => exact Passing.refl _ _ _
    | cons r rs ih =>
      rw [List.foldl_cons]
      refine Passing.trans ?_ ih
      unfold State.unprotect
      split
      · exact Passing.of _ rfl rfl rfl
      · exact Passing.refl _ _ _

theorem writeRelocsT_passTr {m libs} {t : HTable Name BId} (ht : TabMap strhash t m) {l : Lib}
    (hl : l ∈ libs) (rl : List (Addr × Name)) : (∀ q ∈ rl, q ∈ rlOf l) →
    ∀ {s s' : State} {tr}, writeRelocsT t l.addr rl s = .ok (tr, s') →
      PassTr m libs s tr s' := by
  induction rl with
  | nil =>
    intro _ s s' tr he
    obtain ⟨rfl, rfl⟩ := ok_pure he
    exact .nil (Passing.refl _ _ _)
  | cons q rl ih =>
    intro hq s s' tr he
    obtain ⟨off, name⟩ := q
    rw [writeRelocsT, nameLookup_tab ht] at he
    obtain ⟨t1, o, t2, e1, e2, rfl⟩ := ok_bind he
    replace e1 := ok_lift e1; obtain ⟨rfl, e1⟩ := e1
    cases e1
    cases hm : m name with
    | none =>
      rw [hm] at e2
      exact ih (fun q hq' => hq q (List.mem_cons_of_mem _ hq')) e2
    | some b =>
      rw [hm] at e2
      dsimp only at e2
      obtain ⟨t3, x, t4, e3, e4, rfl⟩ := ok_bind e2
      replace e3 := ok_lift e3; obtain ⟨rfl, e3⟩ := e3
      obtain ⟨t5, s1, t6, e5, e6, rfl⟩ := ok_bind e4
      unfold State.writeT at e5
      obtain ⟨t7, s2, t8, e7, e8, rfl⟩ := ok_bind e5
      replace e7 := ok_lift e7; obtain ⟨rfl, e7⟩ := e7
      obtain ⟨t9, _, t10, e9, e10, rfl⟩ := ok_bind e8
      have := ok_tell e9
      subst this
      obtain ⟨rfl, rfl⟩ := ok_pure e10
      have h1 : Passing m libs s s2 := by
        unfold State.write at e7
        split at e7
        · cases e7
          refine ⟨rfl, rfl, fun a => ?_⟩
          by_cases e : a = l.addr + off
          · right
            refine ⟨l, hl, (off, name), hq _ (by simp), e, b, hm, ?_⟩
            dsimp only
            rw [if_pos e]
            unfold State.bind at e3
            cases hx : s.binds[b]? with
            | none => rw [hx] at e3; cases e3
            | some y => rw [hx] at e3; cases e3; simp [bwr, btu, hx]
          · left
            dsimp only
            rw [if_neg e]
        · cases e7
      have g := (PassTr.one h1).trans (ih (fun q hq' => hq q (List.mem_cons_of_mem _ hq')) e6)
      simpa using g

theorem updateLibT_passTr {env : Env} {m libs} {t : HTable Name BId} (ht : TabMap strhash t m)
    {l : Lib} (hl : l ∈ libs) {n : Bool} {s s' : State} {tr}
    (he : s.updateLibT env t l n = .ok (tr, s')) : PassTr m libs s tr s' := by
  unfold State.updateLibT at he
  obtain ⟨t1, ⟨s1, r⟩, t2, e1, e2, rfl⟩ := ok_bind he
  replace e1 := ok_lift e1; obtain ⟨rfl, e1⟩ := e1
  have h1 : Passing m libs s s1 := ensureLib_pass e1
  dsimp only at e2
  obtain ⟨t3, a, t4, e3, e4, rfl⟩ := ok_bind e2
  replace e3 := ok_lift e3; obtain ⟨rfl, e3⟩ := e3
  cases ha : (!a)
  · rw [ha] at e4
    rw [if_neg (by simp)] at e4
    cases hr : s1.libs[r]? with
    | none => rw [hr] at e4; cases e4
    | some rec =>
      rw [hr] at e4
      dsimp only at e4
      by_cases hg : rec.gen = s1.gen
      · rw [if_pos hg] at e4
        obtain ⟨rfl, rfl⟩ := ok_pure e4
        exact .nil h1
      · rw [if_neg hg] at e4
        have key : ∀ {s2 : State} {t5}, Passing m libs s s2 → (lift (Elf.relocs l.img) >>= fun o =>
            match o with
            | none => (pure s2 : Tr State)
            | some rl => do
              let s ← writeRelocsT t l.addr rl s2
              pure { s with libs := s.libs.modify r (fun x => { x with gen := s.gen }) }) =
              .ok (t5, s') → PassTr m libs s t5 s' := by
          intro s2 t5 h2 h
          obtain ⟨t6, o, t7, e6, e7, rfl⟩ := ok_bind h
          replace e6 := ok_lift e6; obtain ⟨rfl, e6⟩ := e6
          cases o with
          | none =>
            obtain ⟨rfl, rfl⟩ := ok_pure e7
            exact .nil h2
          | some rl =>
            obtain ⟨t8, s3, t9, e8, e9, rfl⟩ := ok_bind e7
            obtain ⟨rfl, rfl⟩ := ok_pure e9
            have hrl : rlOf l = rl := by simp [rlOf, e6]
            have g := writeRelocsT_passTr ht hl rl (fun q hq => by rw [hrl]; exact hq) e8
            simpa using ((PassTr.nil h2).trans g).trans (.nil (Passing.of s3 (σ := { s3 with
              libs := s3.libs.modify r (fun x => { x with gen := s3.gen }) }) rfl rfl rfl))
        by_cases hw : rec.writable = true
        · rw [if_pos hw, Tr.pure_bind] at e4
          simpa using key h1 e4
        · rw [if_neg hw] at e4
          obtain ⟨t5, s2, t6, e5, e6, rfl⟩ := ok_bind e4
          replace e5 := ok_lift e5; obtain ⟨rfl, e5⟩ := e5
          rw [Tr.pure_bind] at e6
          have h2 : Passing m libs s s2 := h1.trans (markGotWritable_pass e5)
          simpa using key (s2 := { s2 with
            libs := s2.libs.modify r (fun x => { x with writable := true }) })
            (h2.trans (Passing.of s2 rfl rfl rfl)) e6
  · rw [ha] at e4
    rw [if_pos rfl] at e4
    obtain ⟨rfl, rfl⟩ := ok_pure e4
    exact .nil h1

theorem updateLibsT_passTr {env : Env} {m libs} {t : HTable Name BId} (ht : TabMap strhash t m)
    (ls : List Lib) : (∀ l ∈ ls, l ∈ libs) → ∀ {s s' : State} {tr},
      updateLibsT env t ls s = .ok (tr, s') → PassTr m libs s tr s' := by
  induction ls with
  | nil =>
    intro _ s s' tr he
    obtain ⟨rfl, rfl⟩ := ok_pure he
    exact .nil (Passing.refl _ _ _)
  | cons l ls ih =>
    intro hl s s' tr he
    rw [updateLibsT] at he
    obtain ⟨t1, s1, t2, e1, e2, rfl⟩ := ok_bind he
    exact (updateLibT_passTr ht (hl l (by simp)) e1).trans
      (ih (fun k hk => hl k (List.mem_cons_of_mem _ hk)) e2)

theorem updateLibsT_pass {env : Env} {m libs} {t : HTable Name BId} (ht : TabMap strhash t m)
    (ls : List Lib) (hl : ∀ l ∈ ls, l ∈ libs) {s s' : State} {tr}
    (he : updateLibsT env t ls s = .ok (tr, s')) :
    (∀ σ ∈ tr, Passing m libs s σ) ∧ Passing m libs s s' :=
  ⟨(updateLibsT_passTr ht ls hl he).all, (updateLibsT_passTr ht ls hl he).last⟩

/-! ### handles and new bindings -/

/-- Only the handles `hs` and new bindings may look different. -/
structure Fresh (hs : List HAddr) (s σ : State) : Prop where
  mem : σ.mem = s.mem
  handles : ∀ h, h ∉ hs → σ.handles h = s.handles h
  binds : s.binds <+: σ.binds

theorem Fresh.refl (hs) (s : State) : Fresh hs s s := ⟨rfl, fun _ _ => rfl, List.prefix_refl _⟩
theorem Fresh.trans {hs} {s1 s2 s3 : State} (h : Fresh hs s1 s2) (h' : Fresh hs s2 s3) :
    Fresh hs s1 s3 :=
  ⟨h'.mem.trans h.mem, fun x hx => (h'.handles x hx).trans (h.handles x hx), h.binds.trans h'.binds⟩

theorem setHandleT_ok {s s' : State} {h v tr} (he : s.setHandleT h v = .ok (tr, s')) :
    tr = [s'] ∧ s' = s.setHandle h v := by
  unfold State.setHandleT at he
  obtain ⟨t1, _, t2, e1, e2, rfl⟩ := ok_bind he
  have := ok_tell e1
  obtain ⟨rfl, rfl⟩ := ok_pure e2
  subst this
  exact ⟨rfl, rfl⟩

theorem setHandle_fresh {hs} {h : HAddr} (hh : h ∈ hs) (s : State) (v) :
    Fresh hs s (s.setHandle h v) := by
  refine ⟨rfl, fun x hx => ?_, List.prefix_refl _⟩
  have : x ≠ h := fun e => hx (e ▸ hh)
  simp [State.setHandle, this]

theorem nullHandlesT_fresh {hs} (us : List UBinding) : (∀ u ∈ us, u.handle ∈ hs) →
    ∀ {s s' : State} {tr}, nullHandlesT us s = .ok (tr, s') →
      (∀ σ ∈ tr, Fresh hs s σ) ∧ Fresh hs s s' := by
  induction us with
  | nil =>
    intro _ s s' tr he
    obtain ⟨rfl, rfl⟩ := ok_pure he
    exact ⟨by simp, Fresh.refl _ _⟩
  | cons u us ih =>
    intro hu s s' tr he
    rw [nullHandlesT] at he
    obtain ⟨t1, s1, t2, e1, e2, rfl⟩ := ok_bind he
    obtain ⟨rfl, rfl⟩ := setHandleT_ok e1
    obtain ⟨g1, g2⟩ := ih (fun v hv => hu v (List.mem_cons_of_mem _ hv)) e2
    have h1 := setHandle_fresh (hu u (by simp)) s none
    refine ⟨?_, h1.trans g2⟩
    intro σ hσ
    simp only [List.cons_append, List.nil_append, List.mem_cons] at hσ
    rcases hσ with rfl | hσ
    · exact h1
    · exact h1.trans (g1 σ hσ)

theorem addBindingsT_fresh {hs} {tool : Nat} (us : List UBinding) : (∀ u ∈ us, u.handle ∈ hs) →
    ∀ {s s' : State} {tr}, addBindingsT tool us s = .ok (tr, s') →
      (∀ σ ∈ tr, Fresh hs s σ) ∧ Fresh hs s s' := by
  induction us with
  | nil =>
    intro _ s s' tr he
    obtain ⟨rfl, rfl⟩ := ok_pure he
    exact ⟨by simp, Fresh.refl _ _⟩
  | cons u us ih =>
    intro hu s s' tr he
    rw [addBindingsT] at he
    obtain ⟨t1, _, t2, e1, e2, rfl⟩ := ok_bind he
    have := ok_tell e1
    subst this
    obtain ⟨t3, s1, t4, e3, e4, rfl⟩ := ok_bind e2
    obtain ⟨rfl, rfl⟩ := setHandleT_ok e3
    obtain ⟨g1, g2⟩ := ih (fun v hv => hu v (List.mem_cons_of_mem _ hv)) e4
    have h0 : Fresh hs s { s with
        binds := s.binds ++ [{ tool, user := u, next := none, wrappee := none }] } :=
      ⟨rfl, fun _ _ => rfl, List.prefix_append _ _⟩
    have h1 := h0.trans (setHandle_fresh (hu u (by simp)) _ (some s.binds.length))
    refine ⟨?_, h1.trans g2⟩
    intro σ hσ
    simp only [List.cons_append, List.nil_append, List.mem_cons] at hσ
    rcases hσ with rfl | rfl | hσ
    · exact h0
    · exact h1
    · exact h1.trans (g1 σ hσ)

end Gotcha
