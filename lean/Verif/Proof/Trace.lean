import Verif.Spec.Trace
import Verif.Proof.CoreProc
/-
The recording functions compute what the plain ones do.
-/
namespace Gotcha
open HTable Tr

namespace Tr

theorem bind_eq {α β : Type} (x : Tr α) (f : α → Tr β) : (x >>= f) = andThen x f := rfl

@[simp] theorem erase_pure {α : Type} (a : α) : erase (pure a : Tr α) = .ok a := rfl
@[simp] theorem erase_lift {α : Type} (x : Except Fault α) : erase (lift x) = x := by
  cases x <;> rfl
@[simp] theorem erase_tell (s : State) : erase (tell s) = .ok () := rfl

@[simp] theorem erase_bind {α β : Type} (x : Tr α) (f : α → Tr β) :
    erase (x >>= f) = (erase x >>= fun a => erase (f a)) := by
  rw [bind_eq]
  unfold andThen
  cases x with
  | error e => rfl
  | ok p =>
    obtain ⟨t, a⟩ := p
    show erase (match f a with | .error e => .error e | .ok (t', b) => .ok (t ++ t', b)) =
      erase (f a)
    cases f a with
    | error e => rfl
    | ok q => rfl

@[simp] theorem erase_ite {α : Type} (c : Prop) [Decidable c] (x y : Tr α) :
    erase (if c then x else y) = if c then erase x else erase y := by split <;> rfl

theorem erase_ok {α : Type} {x : Tr α} {a : α} (h : erase x = .ok a) : ∃ t, x = .ok (t, a) := by
  cases x with
  | error e => cases h
  | ok p => obtain ⟨t, b⟩ := p; cases h; exact ⟨t, rfl⟩

theorem ok_bind {α β : Type} {x : Tr α} {f : α → Tr β} {tr b} (h : (x >>= f) = .ok (tr, b)) :
    ∃ t1 a t2, x = .ok (t1, a) ∧ f a = .ok (t2, b) ∧ tr = t1 ++ t2 := by
  rw [bind_eq] at h
  unfold andThen at h
  cases x with
  | error e => cases h
  | ok p =>
    obtain ⟨t, a⟩ := p
    dsimp only at h
    cases hf : f a with
    | error e => rw [hf] at h; cases h
    | ok q =>
      obtain ⟨t', b'⟩ := q
      rw [hf] at h
      cases h
      exact ⟨t, a, t', rfl, hf, rfl⟩

theorem ok_lift {α : Type} {x : Except Fault α} {tr a} (h : lift x = .ok (tr, a)) :
    tr = [] ∧ x = .ok a := by
  cases x with
  | error e => cases h
  | ok p => cases h; exact ⟨rfl, rfl⟩

theorem ok_pure {α : Type} {a b : α} {tr} (h : (pure a : Tr α) = .ok (tr, b)) :
    tr = [] ∧ a = b := by cases h; exact ⟨rfl, rfl⟩

theorem ok_tell {s : State} {tr b} (h : tell s = .ok (tr, b)) : tr = [s] := by cases h; rfl

end Tr

@[simp] theorem erase_setHandle (s : State) (h v) : erase (s.setHandleT h v) = .ok (s.setHandle h v) :=
  rfl

@[simp] theorem erase_setInternal (s : State) (h v) : erase (s.setInternalT h v) = s.setInternal h v := by
  unfold State.setInternalT
  simp only [erase_bind, erase_lift, erase_tell, erase_pure]
  cases s.setInternal h v <;> rfl

theorem erase_prepareLoop (env : Env) (name : Name) (h : HAddr) (ls : List Lib) : ∀ s,
    erase (prepareLoopT env name h ls s) = prepareLoop env name h ls s := by
  induction ls with
  | nil => intro s; rfl
  | cons l ls ih =>
    intro s
    rw [prepareLoopT, prepareLoop]
    simp only [erase_bind, erase_lift]
    congr 1; funext ⟨s1, _⟩
    congr 1; funext ⟨s2, r⟩
    cases r with
    | none => exact ih s2
    | some a => simp only [erase_bind, erase_setInternal, erase_pure]

@[simp] theorem erase_prepareSymbol (env : Env) (s : State) (b) :
    erase (s.prepareSymbolT env b) = s.prepareSymbol env b := by
  unfold State.prepareSymbolT State.prepareSymbol
  simp only [erase_bind, erase_lift, erase_prepareLoop]

@[simp] theorem erase_insertAtHead (s : State) (b head) :
    erase (s.insertAtHeadT b head) = s.insertAtHead b head := by
  unfold State.insertAtHeadT State.insertAtHead
  simp only [erase_bind, erase_lift, erase_tell, erase_setInternal, erase_pure]
  rfl

@[simp] theorem erase_insertAfter (s : State) (b pos) :
    erase (s.insertAfterT b pos) = s.insertAfter b pos := by
  unfold State.insertAfterT State.insertAfter
  simp only [erase_bind, erase_lift, erase_tell, erase_setInternal, erase_pure]
  rfl

theorem erase_rewriteOrders {om : State → Except Fault State} {omT : State → Tr State}
    (hom : ∀ s, erase (omT s) = om s) (s : State) (b) :
    erase (rewriteOrdersT omT s b) = rewriteOrders om s b := by
  unfold rewriteOrdersT rewriteOrders
  simp only [erase_bind, erase_lift, erase_ite, hom, erase_pure]
  congr 1; funext xb
  congr 1; funext p
  have key : ∀ s1 : State, ∀ o : Option BId, erase (match o with
      | none => (do
        let t ← lift (s1.funTab.addto xb.user.name b (strhash xb.user.name))
        pure ({ s1 with funTab := t }, ⟨true, true⟩) : Tr (State × RWO))
      | some head => do
        let hp ← lift (s1.bindPriority head)
        if hp < p then do
          let s ← s1.insertAtHeadT b head
          pure (s, ⟨false, true⟩)
        else
          match ← lift (findPos s1 p xb.user.wrapper (s1.binds.length + 1) head) with
          | none => pure (s1, ⟨false, false⟩)
          | some pos =>
            let s ← s1.insertAfterT b pos
            pure (s, ⟨false, false⟩)) = (match o with
      | none => (do
        let t ← (s1.funTab.addto xb.user.name b (strhash xb.user.name))
        .ok ({ s1 with funTab := t }, ⟨true, true⟩) : Except Fault (State × RWO))
      | some head => do
        let hp ← (s1.bindPriority head)
        if hp < p then do
          let s ← s1.insertAtHead b head
          .ok (s, ⟨false, true⟩)
        else
          match ← (findPos s1 p xb.user.wrapper (s1.binds.length + 1) head) with
          | none => .ok (s1, ⟨false, false⟩)
          | some pos =>
            let s ← s1.insertAfter b pos
            .ok (s, ⟨false, false⟩)) := by
    intro s1 o
    cases o with
    | none => simp only [erase_bind, erase_lift, erase_pure]
    | some head =>
      simp only [erase_bind, erase_lift, erase_pure, erase_ite, erase_insertAtHead]
      congr 1; funext hp
      congr 1
      congr 1; funext q
      cases q with
      | none => rfl
      | some pos => simp only [erase_bind, erase_pure, erase_insertAfter]
  by_cases hm : xb.user.name = nm "main"
  · simp only [if_pos hm]
    congr 1; funext s1
    congr 1; funext o
    exact key s1 o
  · simp only [if_neg hm]
    congr 1; funext s1
    congr 1; funext o
    exact key s1 o

@[simp] theorem erase_write (s : State) (a v) : erase (s.writeT a v) = s.write a v := by
  unfold State.writeT
  simp only [erase_bind, erase_lift, erase_tell, erase_pure]
  cases s.write a v <;> rfl

theorem erase_writeRelocs (t : HTable Name BId) (base : Addr) (rl : List (Addr × Name)) : ∀ s,
    erase (writeRelocsT t base rl s) = writeRelocs t base rl s := by
  induction rl with
  | nil => intro s; rfl
  | cons p rl ih =>
    intro s
    obtain ⟨off, name⟩ := p
    rw [writeRelocsT, writeRelocs]
    simp only [erase_bind, erase_lift]
    congr 1; funext o
    cases o with
    | none => exact ih s
    | some b => simp only [erase_bind, erase_lift, erase_write, ih]

@[simp] theorem erase_updateLib (env : Env) (t : HTable Name BId) (s : State) (l : Lib) (n : Bool) :
    erase (s.updateLibT env t l n) = s.updateLib env t l n := by
  unfold State.updateLibT State.updateLib
  simp only [erase_bind, erase_lift]
  congr 1; funext ⟨s1, r⟩
  dsimp only
  simp only [erase_bind, erase_lift, erase_ite, erase_pure]
  congr 1; funext a
  congr 1
  cases s1.libs[r]? with
  | none => rfl
  | some rec =>
    have key : ∀ s2 : State, ∀ o : Option (List (Addr × Name)), erase (match o with
        | none => (pure s2 : Tr State)
        | some rl => do
          let s ← writeRelocsT t l.addr rl s2
          pure { s with libs := s.libs.modify r (fun x => { x with gen := s.gen }) }) = (match o with
        | none => (.ok s2 : Except Fault State)
        | some rl => do
          let s ← writeRelocs t l.addr rl s2
          .ok { s with libs := s.libs.modify r (fun x => { x with gen := s.gen }) }) := by
      intro s2 o
      cases o with
      | none => rfl
      | some rl => simp only [erase_bind, erase_pure, erase_writeRelocs]
    simp only [erase_bind, erase_lift, erase_ite, erase_pure]
    congr 1
    by_cases hw : rec.writable = true
    · simp only [if_pos hw]
      congr 1; funext s2
      congr 1; funext o
      exact key s2 o
    · simp only [if_neg hw]
      congr 1; funext s2
      congr 1; funext s3
      congr 1; funext o
      exact key s3 o

theorem erase_updateLibs (env : Env) (t : HTable Name BId) (ls : List Lib) : ∀ s,
    erase (updateLibsT env t ls s) = updateLibs env t ls s := by
  induction ls with
  | nil => intro s; rfl
  | cons l ls ih =>
    intro s
    rw [updateLibsT, updateLibs]
    simp only [erase_bind, erase_updateLib, ih]

@[simp] theorem erase_updateAll (env : Env) (t : HTable Name BId) (s : State) :
    erase (s.updateAllT env t) = s.updateAll env t := erase_updateLibs env t _ s

@[simp] theorem erase_nullHandles (us : List UBinding) : ∀ s : State,
    erase (nullHandlesT us s) = .ok (us.foldl (fun s u => s.setHandle u.handle none) s) := by
  induction us with
  | nil => intro s; rfl
  | cons u us ih => intro s; rw [nullHandlesT]; simp only [erase_bind, erase_setHandle, ih]; rfl

@[simp] theorem erase_addBindings (tool : Nat) (us : List UBinding) : ∀ s : State,
    erase (addBindingsT tool us s) = .ok (addBindings tool us s) := by
  induction us with
  | nil => intro s; rfl
  | cons u us ih =>
    intro s
    rw [addBindingsT]
    simp only [erase_bind, erase_setHandle, erase_tell, ih]
    rfl

theorem erase_processBindings (env : Env) {om : State → Except Fault State} {omT : State → Tr State}
    (hom : ∀ s, erase (omT s) = om s) (n : Nat) (bs : List BId) : ∀ s nb nf,
    erase (processBindingsT env omT n bs s nb nf) = processBindings env om n bs s nb nf := by
  induction bs with
  | nil => intro s nb nf; rfl
  | cons b bs ih =>
    intro s nb nf
    rw [processBindingsT, processBindings]
    simp only [erase_bind, erase_lift, erase_rewriteOrders hom]
    congr 1; funext xb
    congr 1; funext ⟨s1, r⟩
    dsimp only
    simp only [erase_bind, erase_lift, erase_ite, erase_pure, erase_prepareSymbol]
    have key : ∀ y : State × Nat, ((if r.binding = true then addNew env n nb xb.user.name b
        else .ok nb) >>= fun nb' => erase (processBindingsT env omT n bs y.1 nb' y.2)) =
        (if r.binding = true then do
          let nb' ← addNew env n nb xb.user.name b
          processBindings env om n bs y.1 nb' y.2
        else do
          let nb' ← Except.ok nb
          processBindings env om n bs y.1 nb' y.2) := by
      intro y
      by_cases hb : r.binding = true
      · simp only [if_pos hb, ih]
      · simp only [if_neg hb, ih]
    by_cases hl : r.lookup = true
    · simp only [if_pos hl]
      congr 1; funext ⟨s2, ok⟩
      dsimp only
      by_cases hk : ok = true
      · simp only [if_pos hk]
        exact key (s2, nf)
      · simp only [if_neg hk]
        congr 1; funext t
        exact key (_, nf + 1)
    · simp only [if_neg hl]
      exact key (s1, nf)

theorem erase_wrapCore (env : Env) {om : State → Except Fault State} {omT : State → Tr State}
    (hom : ∀ s, erase (omT s) = om s) (tbl : List UBinding) (tool : Option Name) (s : State) :
    erase (wrapCoreT env omT tbl tool s) = wrapCore env om tbl tool s := by
  unfold wrapCoreT wrapCore
  simp only [erase_bind, erase_lift, erase_nullHandles, erase_addBindings,
    erase_processBindings env hom]
  show (Tools.getOrCreate _ _ >>= _) = (Tools.getOrCreate _ _ >>= _)
  congr 1; funext ⟨ts, tid⟩
  show (processBindings _ _ _ _ _ _ _ >>= _) = (processBindings _ _ _ _ _ _ _ >>= _)
  congr 1; funext ⟨s1, nb, nf⟩
  cases nb with
  | none => rfl
  | some t => simp only [erase_bind, erase_updateAll, erase_pure]

theorem erase_onMainReal (env : Env) (s : State) : erase (onMainRealT env s) = onMainReal env s := by
  unfold onMainRealT onMainReal wrapInner
  simp only [erase_ite, erase_pure, erase_bind]
  congr 1
  rw [erase_wrapCore env (om := fun s => .ok s) (fun s => rfl)]
  congr 1; funext ⟨s1, c⟩
  rw [erase_wrapCore env (om := fun s => .ok s) (fun s => rfl)]

theorem erase_gotchaInit (env : Env) (s : State) : erase (gotchaInitT env s) = gotchaInit env s := by
  unfold gotchaInitT gotchaInit wrapBody
  simp only [erase_ite, erase_pure, erase_bind, erase_lift,
    erase_wrapCore env (erase_onMainReal env)]

/-- Recording the stores does not change what `gotcha_wrap` does. -/
theorem erase_gotchaWrap (env : Env) (tbl : List UBinding) (tool : Option Name) (s : State) :
    erase (gotchaWrapT env tbl tool s) = gotchaWrap env tbl tool s := by
  unfold gotchaWrapT gotchaWrap wrapBody
  simp only [erase_bind, erase_gotchaInit, erase_wrapCore env (erase_onMainReal env)]

end Gotcha
