import Verif.Proof.Users
/-
What an event does to page protections, for arbitrary states.
-/
namespace Gotcha
open HTable

/-- What the protections depend on. -/
def pg (s : State) : List Lib × Filter × (Addr → Bool) × (Addr → Addr) := (s.linkMap, s.filter, s.wr, s.mem)

theorem setInternal_pg {s s' : State} {h v} (e : s.setInternal h v = .ok s') : pg s' = pg s := by
  unfold State.setInternal at e
  split at e
  · cases e
  · split at e
    · cases e; rfl
    · cases e

theorem ensureLib_pg {s : State} {l r} (e : s.ensureLib l = .ok r) : pg r.1 = pg s := by
  unfold State.ensureLib at e
  obtain ⟨o, h1, h2⟩ := ebind e
  cases o with
  | some x => cases h2; rfl
  | none =>
    obtain ⟨t, h3, h4⟩ := ebind h2
    cases h4; rfl

theorem lookupExported_pg {env : Env} {s : State} {n l r}
    (e : s.lookupExported env n l = .ok r) : pg r.1 = pg s := by
  have hv : ∀ {s : State}, pg (s.isVdso env l).1 = pg s := by
    intro s
    unfold State.isVdso
    split <;> rfl
  have h0 := hv (s := s)
  unfold State.lookupExported at e
  cases hvd : s.isVdso env l with
  | mk s1 b =>
    rw [hvd] at e h0
    cases b with
    | true => cases e; exact h0
    | false =>
      simp only at e
      split at e
      · cases e
      · cases e; exact h0

theorem prepareLoop_pg {env : Env} {n h} (ls : List Lib) : ∀ {s r},
    prepareLoop env n h ls s = .ok r → pg r.1 = pg s := by
  induction ls with
  | nil => intro s r e; cases e; rfl
  | cons l ls ih =>
    intro s r e
    obtain ⟨a, h1, e⟩ := ebind e
    obtain ⟨c, h2, e⟩ := ebind e
    have e1 := ensureLib_pg h1
    have e2 := lookupExported_pg h2
    obtain ⟨s2, o⟩ := c
    cases o with
    | some a =>
      obtain ⟨s3, h3, e⟩ := ebind e
      cases e
      exact (setInternal_pg h3).trans (e2.trans e1)
    | none => exact (ih e).trans (e2.trans e1)

theorem prepareSymbol_pg {env : Env} {s : State} {b r} (e : s.prepareSymbol env b = .ok r) :
    pg r.1 = pg s := by
  obtain ⟨x, -, e⟩ := ebind e
  exact prepareLoop_pg _ e

theorem insertAtHead_pg {s s' : State} {b h} (e : s.insertAtHead b h = .ok s') :
    pg s' = pg s := by
  obtain ⟨xb, -, e⟩ := ebind e
  obtain ⟨xh, -, e⟩ := ebind e
  obtain ⟨s1, h1, e⟩ := ebind e
  obtain ⟨t, -, e⟩ := ebind e
  obtain ⟨t', -, e⟩ := ebind e
  cases e
  show pg s1 = pg s
  rw [setInternal_pg h1]
  rfl

theorem insertAfter_pg {s s' : State} {b h} (e : s.insertAfter b h = .ok s') :
    pg s' = pg s := by
  obtain ⟨xb, -, e⟩ := ebind e
  obtain ⟨xh, -, e⟩ := ebind e
  obtain ⟨s1, h1, e⟩ := ebind e
  obtain ⟨s2, h2, e⟩ := ebind e
  obtain ⟨xp, -, e⟩ := ebind e
  cases e
  show pg s2 = pg s
  exact (setInternal_pg h2).trans (setInternal_pg h1)

/-- A set `J` of link map, filter, protections and memory that GOTCHA's stores and mprotect calls do not
leave. -/
structure Shut (env : Env) (J : List Lib × Filter × (Addr → Bool) × (Addr → Addr) → Prop) : Prop where
  /-- an mprotect call for an object the filter lets through -/
  mark : ∀ {X l Y F w m rs r}, J (X ++ l :: Y, F, w, m) → F.accepts l (!Y.isEmpty) = .ok true →
    Got.markCalls (BitVec.ofNat 64 env.page) (X ++ l :: Y) l = .ok rs → r ∈ rs → env.mprotect r = true →
    J (X ++ l :: Y, F, fun a => if Got.inRange a r then true else w a, m)
  /-- a store to a writable word -/
  store : ∀ {L F w m a v}, J (L, F, w, m) → w a = true →
    J (L, F, w, fun x => if x = a then v else m x)

variable {env : Env} {J : List Lib × Filter × (Addr → Bool) × (Addr → Addr) → Prop}

/-- `om` stays in `J`. -/
def OmJ (J : List Lib × Filter × (Addr → Bool) × (Addr → Addr) → Prop) (om : State → Except Fault State) : Prop :=
  ∀ {s s'}, om s = .ok s' → J (pg s) → J (pg s')

theorem rewriteOrders_shut {om} (ho : OmJ J om) {s : State} {b r}
    (e : rewriteOrders om s b = .ok r) (hJ : J (pg s)) : J (pg r.1) := by
  obtain ⟨xb, -, e⟩ := ebind e
  obtain ⟨p, -, e⟩ := ebind e
  have e' : ∃ s1, J (pg s1) ∧ (do
      match ← nameLookup s1.funTab xb.user.name with
      | none =>
        let t ← s1.funTab.addto xb.user.name b (strhash xb.user.name)
        .ok ({ s1 with funTab := t }, (⟨true, true⟩ : RWO))
      | some head =>
        let hp ← s1.bindPriority head
        if hp < p then
          let s ← s1.insertAtHead b head
          .ok (s, ⟨false, true⟩)
        else
          match ← findPos s1 p xb.user.wrapper (s1.binds.length + 1) head with
          | none => .ok (s1, ⟨false, false⟩)
          | some pos =>
            let s ← s1.insertAfter b pos
            .ok (s, ⟨false, false⟩)) = .ok r := by
    split at e
    · obtain ⟨s1, h1, e⟩ := ebind e
      exact ⟨s1, ho h1 hJ, e⟩
    · obtain ⟨s1, h1, e⟩ := ebind e
      cases h1
      exact ⟨s, hJ, e⟩
  clear e
  obtain ⟨s1, hs1, e⟩ := e'
  obtain ⟨o, -, e⟩ := ebind e
  cases o with
  | none =>
    obtain ⟨t, -, e⟩ := ebind e
    cases e
    exact hs1
  | some head =>
    obtain ⟨hp, -, e⟩ := ebind e
    split at e
    · obtain ⟨s2, h2, e⟩ := ebind e
      cases e
      rw [insertAtHead_pg h2]; exact hs1
    · obtain ⟨o, -, e⟩ := ebind e
      cases o with
      | none => cases e; exact hs1
      | some pos =>
        obtain ⟨s2, h2, e⟩ := ebind e
        cases e
        rw [insertAfter_pg h2]; exact hs1

theorem processBindings_shut {om} (ho : OmJ J om) {n} (bs : List BId) :
    ∀ {s nb nf r}, processBindings env om n bs s nb nf = .ok r → J (pg s) → J (pg r.1) := by
  induction bs with
  | nil => intro s nb nf r e hJ; cases e; exact hJ
  | cons b bs ih =>
    intro s nb nf r e hJ
    obtain ⟨xb, -, e⟩ := ebind e
    obtain ⟨⟨s1, rr⟩, h1, e⟩ := ebind e
    have e1 := rewriteOrders_shut ho h1 hJ
    have e' : ∃ s2 nb2 nf2, pg s2 = pg s1 ∧
        processBindings env om n bs s2 nb2 nf2 = .ok r := by
      have key : ∀ {s2 nf2}, (if rr.binding = true then do
            let nb ← addNew env n nb xb.user.name b
            processBindings env om n bs s2 nb nf2
          else do
            let nb ← Except.ok nb
            processBindings env om n bs s2 nb nf2) = .ok r →
          ∃ nb2, processBindings env om n bs s2 nb2 nf2 = .ok r := by
        intro s2 nf2 e
        split at e
        · obtain ⟨nb2, -, e⟩ := ebind e; exact ⟨nb2, e⟩
        · obtain ⟨nb2, -, e⟩ := ebind e; exact ⟨nb2, e⟩
      dsimp only at e
      split at e
      · obtain ⟨⟨s3, ok⟩, h3, e⟩ := ebind e
        have h3 := prepareSymbol_pg h3
        dsimp only at e
        split at e
        · obtain ⟨x, hx, e⟩ := ebind e
          cases hx
          obtain ⟨nb2, e⟩ := key e
          exact ⟨_, _, _, h3, e⟩
        · obtain ⟨t, -, e⟩ := ebind e
          obtain ⟨x, hx, e⟩ := ebind e
          cases hx
          obtain ⟨nb2, e⟩ := key e
          exact ⟨{ s3 with notFound := t }, _, _, h3, e⟩
      · obtain ⟨x, hx, e⟩ := ebind e
        cases hx
        obtain ⟨nb2, e⟩ := key e
        exact ⟨_, _, _, rfl, e⟩
    clear e
    obtain ⟨s2, nb2, nf2, e2, e⟩ := e'
    refine ih e ?_
    rw [e2]; exact e1

theorem writeRelocs_shut (hS : Shut env J) {t : HTable Name BId} {base} (rl : List (Addr × Name)) :
    ∀ {s s' : State}, writeRelocs t base rl s = .ok s' → J (pg s) →
      J (pg s') ∧ s'.linkMap = s.linkMap ∧ s'.filter = s.filter := by
  induction rl with
  | nil => intro s s' e hJ; cases e; exact ⟨hJ, rfl, rfl⟩
  | cons q rl ih =>
    intro s s' e hJ
    obtain ⟨off, name⟩ := q
    obtain ⟨o, -, e⟩ := ebind e
    cases o with
    | none => exact ih e hJ
    | some b =>
      obtain ⟨x, -, e⟩ := ebind e
      obtain ⟨s1, h1, e⟩ := ebind e
      unfold State.write at h1
      split at h1
      · rename_i hw
        cases h1
        have h := ih e
        exact h (hS.store hJ hw)
      · cases h1

theorem unprotect_shut (hS : Shut env J) {X : List Lib} {l : Lib} {Y : List Lib}
    {rs : List (Addr × BitVec 64)}
    (hm : Got.markCalls (BitVec.ofNat 64 env.page) (X ++ l :: Y) l = .ok rs) :
    ∀ (rs' : List (Addr × BitVec 64)), (∀ r ∈ rs', r ∈ rs) → ∀ s : State, s.linkMap = X ++ l :: Y →
      s.filter.accepts l (!Y.isEmpty) = .ok true → J (pg s) →
      J (pg (rs'.foldl (State.unprotect env) s)) ∧
        (rs'.foldl (State.unprotect env) s).linkMap = s.linkMap ∧
        (rs'.foldl (State.unprotect env) s).filter = s.filter := by
  intro rs'
  induction rs' with
  | nil => intro _ s _ _ hJ; exact ⟨hJ, rfl, rfl⟩
  | cons r rs' ih =>
    intro hsub s hlm hacc hJ
    rw [List.foldl_cons]
    by_cases hp : env.mprotect r = true
    · have e : s.unprotect env r =
          { s with wr := fun a => if Got.inRange a r then true else s.wr a } := by
        simp [State.unprotect, hp]
      rw [e]
      refine ih (fun r hr => hsub r (by simp [hr])) _ hlm hacc ?_
      have hJ' : J (X ++ l :: Y, s.filter, s.wr, s.mem) := by rw [← hlm]; exact hJ
      have := hS.mark hJ' hacc hm (hsub r (by simp)) hp
      rw [← hlm] at this
      exact this
    · have e : s.unprotect env r = s := by simp [State.unprotect, hp]
      rw [e]
      exact ih (fun r hr => hsub r (by simp [hr])) s hlm hacc hJ

theorem updateLib_shut (hS : Shut env J) {t : HTable Name BId} {s s' : State} {X l Y}
    (e : s.updateLib env t l (!Y.isEmpty) = .ok s') (hlm : s.linkMap = X ++ l :: Y) (hJ : J (pg s)) :
    J (pg s') ∧ s'.linkMap = s.linkMap ∧ s'.filter = s.filter := by
  obtain ⟨⟨s1, r⟩, h1, e⟩ := ebind e
  have e1 : pg s1 = pg s := ensureLib_pg h1
  have el : s1.linkMap = s.linkMap := congrArg (·.1) e1
  have ef : s1.filter = s.filter := congrArg (·.2.1) e1
  obtain ⟨acc, hacc, e⟩ := ebind e
  have hJ1 : J (pg s1) := by rw [e1]; exact hJ
  dsimp only at e
  split at e
  · cases e; exact ⟨hJ1, el, ef⟩
  · rename_i hna
    have hacc' : s1.filter.accepts l (!Y.isEmpty) = .ok true := by
      rw [hacc]; cases acc
      · exact absurd rfl hna
      · rfl
    split at e
    · cases e
    · split at e
      · cases e; exact ⟨hJ1, el, ef⟩
      · have tail : ∀ {s2 : State}, J (pg s2) → s2.linkMap = s.linkMap → s2.filter = s.filter → (do
            match ← Elf.relocs l.img with
            | none => Except.ok s2
            | some rl =>
              let s ← writeRelocs t l.addr rl s2
              .ok { s with libs := s.libs.modify r (fun x => { x with gen := s.gen }) }) = .ok s' →
            J (pg s') ∧ s'.linkMap = s.linkMap ∧ s'.filter = s.filter := by
          intro s2 e2 f1 f2 e
          obtain ⟨o, -, e⟩ := ebind e
          cases o with
          | none => cases e; exact ⟨e2, f1, f2⟩
          | some rl =>
            obtain ⟨s4, h4, e⟩ := ebind e
            cases e
            obtain ⟨g1, g2, g3⟩ := writeRelocs_shut hS _ h4 e2
            exact ⟨g1, g2.trans f1, g3.trans f2⟩
        split at e
        · obtain ⟨s2, h2, e⟩ := ebind e
          cases h2
          exact tail hJ1 el ef e
        · obtain ⟨s3, h3, e⟩ := ebind e
          obtain ⟨s2, h2, e⟩ := ebind e
          cases h2
          unfold State.markGotWritable at h3
          rw [el, hlm] at h3
          split at h3
          · cases h3
          · rename_i rs hm
            cases h3
            obtain ⟨g1, g2, g3⟩ := unprotect_shut hS hm rs (fun _ h => h) s1 (el.trans hlm) hacc' hJ1
            have h := fun a b c => tail a b c e
            exact h g1 (g2.trans el) (g3.trans ef)

theorem updateLibs_shut (hS : Shut env J) {t : HTable Name BId} (ls : List Lib) : ∀ {X : List Lib} {s s' : State},
    updateLibs env t ls s = .ok s' → s.linkMap = X ++ ls → J (pg s) →
      J (pg s') ∧ s'.linkMap = s.linkMap ∧ s'.filter = s.filter := by
  induction ls with
  | nil => intro X s s' e _ hJ; cases e; exact ⟨hJ, rfl, rfl⟩
  | cons l ls ih =>
    intro X s s' e hlm hJ
    obtain ⟨s1, h1, e⟩ := ebind e
    obtain ⟨g1, g2, g3⟩ := updateLib_shut hS h1 hlm hJ
    obtain ⟨k1, k2, k3⟩ := ih (X := X ++ [l]) e (by rw [g2, hlm]; simp) g1
    exact ⟨k1, k2.trans g2, k3.trans g3⟩

theorem addBindings_pg (tool : Nat) (us : List UBinding) : ∀ s : State,
    pg (addBindings tool us s) = pg s := by
  induction us with
  | nil => intro s; rfl
  | cons u us ih => intro s; rw [addBindings, ih]; rfl

theorem setHandles_pg (us : List UBinding) : ∀ s : State,
    pg (us.foldl (fun s u => s.setHandle u.handle none) s) = pg s := by
  induction us with
  | nil => intro s; rfl
  | cons u us ih => intro s; rw [List.foldl_cons, ih]; rfl

theorem wrapCore_shut (hS : Shut env J) {om} (ho : OmJ J om) {tbl tool} {s : State} {r}
    (e : wrapCore env om tbl tool s = .ok r) (hJ : J (pg s)) : J (pg r.1) := by
  obtain ⟨⟨ts, tid⟩, -, e⟩ := ebind e
  obtain ⟨⟨s1, nb, nf⟩, h1, e⟩ := ebind e
  have e1 : J (pg s1) := by
    refine processBindings_shut ho _ h1 ?_
    rw [addBindings_pg]
    show J (pg (tbl.foldl (fun s u => s.setHandle u.handle none) s))
    rw [setHandles_pg]; exact hJ
  cases nb with
  | none =>
    obtain ⟨s2, h2, e⟩ := ebind e
    cases h2; cases e; exact e1
  | some t =>
    obtain ⟨s2, h2, e⟩ := ebind e
    cases e
    exact (updateLibs_shut hS _ (X := []) h2 rfl e1).1

theorem onMainReal_shut (hS : Shut env J) : OmJ J (onMainReal env) := by
  intro s s' e hJ
  unfold onMainReal at e
  split at e
  · cases e; exact hJ
  · obtain ⟨⟨s1, c1⟩, h1, e⟩ := ebind e
    obtain ⟨⟨s2, c2⟩, h2, e⟩ := ebind e
    cases e
    have hid : OmJ J (fun s => .ok s) := by intro s s' e h; cases e; exact h
    exact wrapCore_shut hS hid h2 (wrapCore_shut hS hid h1 hJ)

theorem gotchaInit_shut (hS : Shut env J) {s s' : State} (e : gotchaInit env s = .ok s') (hJ : J (pg s)) :
    J (pg s') := by
  unfold gotchaInit at e
  split at e
  · cases e; exact hJ
  · obtain ⟨lt, -, e⟩ := ebind e
    obtain ⟨ft, -, e⟩ := ebind e
    obtain ⟨nt, -, e⟩ := ebind e
    obtain ⟨⟨s1, c⟩, h1, e⟩ := ebind e
    cases e
    exact wrapCore_shut hS (onMainReal_shut hS) h1 hJ

theorem perBinding_pg {k d} {s : State} {r} (h : perBinding env k d s = .ok r) : pg r.1 = pg s := by
  unfold perBinding at h
  split at h
  · obtain ⟨b', -, h⟩ := ebind h
    obtain ⟨⟨s2, ok⟩, h2, h⟩ := ebind h
    have e2 := prepareSymbol_pg h2
    dsimp only at h
    split at h
    · obtain ⟨t, -, h⟩ := ebind h
      cases h; exact e2
    · cases h; exact e2
  · cases h

theorem foreachEntry_pg : ∀ fuel cur {s s'},
    foreachEntry State.notFound (perBinding env) fuel cur s = .ok s' → pg s' = pg s := by
  intro fuel
  induction fuel with
  | zero =>
    intro cur s s' e
    cases cur with
    | none => cases e; rfl
    | some i => simp [foreachEntry] at e
  | succ fuel ih =>
    intro cur s s' e
    cases cur with
    | none => cases e; rfl
    | some i =>
      simp only [foreachEntry] at e
      split at e
      · cases e
      · split at e
        · cases e
        · rename_i h1
          cases e
          exact perBinding_pg h1
        · rename_i h1
          split at e
          · cases e
          · rw [ih _ e]; exact perBinding_pg h1

/-- What holds of the state with the loader's part of an event, and is shut, holds after the event. -/
theorem stepOp_shut (hS : Shut env J) {op : Op} {s : State} {r} (e : stepOp env op s = .ok r)
    (hJ : J (pg (loaderPart s op))) : J (pg r.1) := by
  cases op with
  | wrap tbl tool =>
    obtain ⟨⟨s2, c⟩, h2, e⟩ := ebind e
    cases e
    obtain ⟨s1, h1, h2⟩ := ebind h2
    exact wrapCore_shut hS (onMainReal_shut hS) h2 (gotchaInit_shut hS h1 hJ)
  | setPriority t v =>
    obtain ⟨s2, h2, e⟩ := ebind e
    cases e
    obtain ⟨s1, h1, h2⟩ := ebind h2
    obtain ⟨ts, -, h2⟩ := ebind h2
    cases h2
    have := gotchaInit_shut hS h1 hJ
    exact this
  | getPriority t =>
    obtain ⟨⟨s2, v⟩, h2, e⟩ := ebind e
    cases e
    obtain ⟨s1, h1, h2⟩ := ebind h2
    obtain ⟨ts, -, h2⟩ := ebind h2
    cases h2
    exact gotchaInit_shut hS h1 hJ
  | setFilter f => cases e; exact hJ
  | dlopen ld =>
    simp only [stepOp] at e
    split at e
    · obtain ⟨s2, h2, e⟩ := ebind e
      cases e
      obtain ⟨w, -, h2⟩ := ebind h2
      obtain ⟨s1, h1, h2⟩ := ebind h2
      have e1 := foreachEntry_pg _ _ h1
      refine (updateLibs_shut hS _ (X := []) h2 rfl ?_).1
      rw [e1]; exact hJ
    · cases e; exact hJ
  | load ld => cases e; exact hJ
  | unload d => cases e; exact hJ

end Gotcha
