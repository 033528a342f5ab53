import Verif.Proof.View
/-
The user bindings held by GOTCHA are those of the tables passed to it.
-/
namespace Gotcha
open HTable

/-- The user bindings of the internal bindings. -/
def users (s : State) : List UBinding := s.binds.map (·.user)

theorem ebind {α β : Type} {x : Except Fault α} {f : α → Except Fault β} {b : β}
    (h : (x >>= f) = .ok b) : ∃ a, x = .ok a ∧ f a = .ok b := by
  cases x with
  | error e => simp [bind, Except.bind] at h
  | ok a => exact ⟨a, rfl, h⟩

theorem eok {α : Type} {a b : α} (h : (Except.ok a : Except Fault α) = .ok b) : a = b := by
  cases h; rfl

theorem modify_users {L : List IBinding} {i : Nat} {f : IBinding → IBinding}
    (hf : ∀ x, (f x).user = x.user) : (L.modify i f).map (·.user) = L.map (·.user) := by
  apply List.ext_getElem?
  intro j
  simp only [List.getElem?_map, List.getElem?_modify]
  cases L[j]? with
  | none => rfl
  | some x => by_cases e : i = j <;> simp [e, hf]

theorem setInternal_users {s s' : State} {h v} (e : s.setInternal h v = .ok s') :
    users s' = users s := by
  unfold State.setInternal at e
  split at e
  · cases e
  · split at e
    · cases e; exact modify_users (fun _ => rfl)
    · cases e

theorem ensureLib_users {s : State} {l r} (e : s.ensureLib l = .ok r) : users r.1 = users s := by
  unfold State.ensureLib at e
  obtain ⟨o, h1, h2⟩ := ebind e
  cases o with
  | some x => cases h2; rfl
  | none =>
    obtain ⟨t, h3, h4⟩ := ebind h2
    cases h4; rfl

theorem lookupExported_users {env : Env} {s : State} {n l r}
    (e : s.lookupExported env n l = .ok r) : users r.1 = users s := by
  have hv : ∀ {s : State}, users (s.isVdso env l).1 = users s := by
    intro s
    unfold State.isVdso
    split <;> rfl
  have h0 := hv (s := s)
  unfold State.lookupExported at e
  cases hvd : s.isVdso env l with
  | mk s1 b =>
    rw [hvd] at e h0
    cases b with
    | true => cases e; exact h0
    | false =>
      simp only at e
      split at e
      · cases e
      · cases e; exact h0

theorem prepareLoop_users {env : Env} {n h} (ls : List Lib) : ∀ {s r},
    prepareLoop env n h ls s = .ok r → users r.1 = users s := by
  induction ls with
  | nil => intro s r e; cases e; rfl
  | cons l ls ih =>
    intro s r e
    obtain ⟨a, h1, e⟩ := ebind e
    obtain ⟨c, h2, e⟩ := ebind e
    have e1 := ensureLib_users h1
    have e2 := lookupExported_users h2
    obtain ⟨s2, o⟩ := c
    cases o with
    | some a =>
      obtain ⟨s3, h3, e⟩ := ebind e
      cases e
      exact (setInternal_users h3).trans (e2.trans e1)
    | none => exact (ih e).trans (e2.trans e1)

theorem prepareSymbol_users {env : Env} {s : State} {b r} (e : s.prepareSymbol env b = .ok r) :
    users r.1 = users s := by
  obtain ⟨x, -, e⟩ := ebind e
  exact prepareLoop_users _ e

theorem insertAtHead_users {s s' : State} {b h} (e : s.insertAtHead b h = .ok s') :
    users s' = users s := by
  obtain ⟨xb, -, e⟩ := ebind e
  obtain ⟨xh, -, e⟩ := ebind e
  obtain ⟨s1, h1, e⟩ := ebind e
  obtain ⟨t, -, e⟩ := ebind e
  obtain ⟨t', -, e⟩ := ebind e
  cases e
  show users s1 = users s
  rw [setInternal_users h1]
  exact modify_users (fun _ => rfl)

theorem insertAfter_users {s s' : State} {b h} (e : s.insertAfter b h = .ok s') :
    users s' = users s := by
  obtain ⟨xb, -, e⟩ := ebind e
  obtain ⟨xh, -, e⟩ := ebind e
  obtain ⟨s1, h1, e⟩ := ebind e
  obtain ⟨s2, h2, e⟩ := ebind e
  obtain ⟨xp, -, e⟩ := ebind e
  cases e
  show ((s2.binds.modify _ _).modify _ _).map _ = _
  refine (modify_users (f := fun x => { x with next := some b }) (fun _ => rfl)).trans
    ((modify_users (f := fun x => { x with next := xp.next }) (fun _ => rfl)).trans ?_)
  exact (setInternal_users h2).trans (setInternal_users h1)

/-- `om` leaves the user bindings alone except for adding some of `own`. -/
def OmU (own : UBinding → Prop) (om : State → Except Fault State) : Prop :=
  ∀ {s s'}, om s = .ok s' → ∀ u ∈ users s', u ∈ users s ∨ own u

theorem rewriteOrders_users {own om} (ho : OmU own om) {s : State} {b r}
    (e : rewriteOrders om s b = .ok r) : ∀ u ∈ users r.1, u ∈ users s ∨ own u := by
  obtain ⟨xb, -, e⟩ := ebind e
  obtain ⟨p, -, e⟩ := ebind e
  have e' : ∃ s1, (∀ u ∈ users s1, u ∈ users s ∨ own u) ∧ (do
      match ← nameLookup s1.funTab xb.user.name with
      | none =>
        let t ← s1.funTab.addto xb.user.name b (strhash xb.user.name)
        .ok ({ s1 with funTab := t }, (⟨true, true⟩ : RWO))
      | some head =>
        let hp ← s1.bindPriority head
        if hp < p then
          let s ← s1.insertAtHead b head
          .ok (s, ⟨false, true⟩)
        else
          match ← findPos s1 p xb.user.wrapper (s1.binds.length + 1) head with
          | none => .ok (s1, ⟨false, false⟩)
          | some pos =>
            let s ← s1.insertAfter b pos
            .ok (s, ⟨false, false⟩)) = .ok r := by
    split at e
    · obtain ⟨s1, h1, e⟩ := ebind e
      exact ⟨s1, ho h1, e⟩
    · obtain ⟨s1, h1, e⟩ := ebind e
      cases h1
      exact ⟨s, fun u hu => Or.inl hu, e⟩
  clear e
  obtain ⟨s1, hs1, e⟩ := e'
  obtain ⟨o, -, e⟩ := ebind e
  cases o with
  | none =>
    obtain ⟨t, -, e⟩ := ebind e
    cases e
    exact hs1
  | some head =>
    obtain ⟨hp, -, e⟩ := ebind e
    split at e
    · obtain ⟨s2, h2, e⟩ := ebind e
      cases e
      rw [insertAtHead_users h2]; exact hs1
    · obtain ⟨o, -, e⟩ := ebind e
      cases o with
      | none => cases e; exact hs1
      | some pos =>
        obtain ⟨s2, h2, e⟩ := ebind e
        cases e
        rw [insertAfter_users h2]; exact hs1

theorem processBindings_users {own om} (ho : OmU own om) {env : Env} {n} (bs : List BId) :
    ∀ {s nb nf r}, processBindings env om n bs s nb nf = .ok r →
    ∀ u ∈ users r.1, u ∈ users s ∨ own u := by
  induction bs with
  | nil => intro s nb nf r e; cases e; exact fun u hu => Or.inl hu
  | cons b bs ih =>
    intro s nb nf r e
    obtain ⟨xb, -, e⟩ := ebind e
    obtain ⟨⟨s1, rr⟩, h1, e⟩ := ebind e
    have e1 := rewriteOrders_users ho h1
    have e' : ∃ s2 nb2 nf2, users s2 = users s1 ∧
        processBindings env om n bs s2 nb2 nf2 = .ok r := by
      have key : ∀ {s2 nf2}, (if rr.binding = true then do
            let nb ← addNew env n nb xb.user.name b
            processBindings env om n bs s2 nb nf2
          else do
            let nb ← Except.ok nb
            processBindings env om n bs s2 nb nf2) = .ok r →
          ∃ nb2, processBindings env om n bs s2 nb2 nf2 = .ok r := by
        intro s2 nf2 e
        split at e
        · obtain ⟨nb2, -, e⟩ := ebind e; exact ⟨nb2, e⟩
        · obtain ⟨nb2, -, e⟩ := ebind e; exact ⟨nb2, e⟩
      dsimp only at e
      split at e
      · obtain ⟨⟨s3, ok⟩, h3, e⟩ := ebind e
        have h3 := prepareSymbol_users h3
        dsimp only at e
        split at e
        · obtain ⟨x, hx, e⟩ := ebind e
          cases hx
          obtain ⟨nb2, e⟩ := key e
          exact ⟨_, _, _, h3, e⟩
        · obtain ⟨t, -, e⟩ := ebind e
          obtain ⟨x, hx, e⟩ := ebind e
          cases hx
          obtain ⟨nb2, e⟩ := key e
          exact ⟨{ s3 with notFound := t }, _, _, h3, e⟩
      · obtain ⟨x, hx, e⟩ := ebind e
        cases hx
        obtain ⟨nb2, e⟩ := key e
        exact ⟨_, _, _, rfl, e⟩
    clear e
    obtain ⟨s2, nb2, nf2, e2, e⟩ := e'
    intro u hu
    rcases ih e u hu with h | h
    · rw [e2] at h; exact e1 u h
    · exact Or.inr h

theorem unprotect_users {env : Env} (rs : List (Addr × BitVec 64)) : ∀ s : State,
    users (rs.foldl (State.unprotect env) s) = users s := by
  induction rs with
  | nil => intro s; rfl
  | cons r rs ih =>
    intro s
    rw [List.foldl_cons, ih]
    unfold State.unprotect
    split <;> rfl

theorem writeRelocs_users {t : HTable Name BId} {base} (rl : List (Addr × Name)) :
    ∀ {s s' : State}, writeRelocs t base rl s = .ok s' → users s' = users s := by
  induction rl with
  | nil => intro s s' e; cases e; rfl
  | cons q rl ih =>
    intro s s' e
    obtain ⟨off, name⟩ := q
    obtain ⟨o, -, e⟩ := ebind e
    cases o with
    | none => exact ih e
    | some b =>
      obtain ⟨x, -, e⟩ := ebind e
      obtain ⟨s1, h1, e⟩ := ebind e
      rw [ih e]
      unfold State.write at h1
      split at h1
      · cases h1; rfl
      · cases h1

theorem updateLib_users {env : Env} {t : HTable Name BId} {s s' : State} {l n}
    (e : s.updateLib env t l n = .ok s') : users s' = users s := by
  obtain ⟨⟨s1, r⟩, h1, e⟩ := ebind e
  have e1 : users s1 = users s := ensureLib_users h1
  obtain ⟨acc, -, e⟩ := ebind e
  dsimp only at e
  split at e
  · cases e; exact e1
  · split at e
    · cases e
    · split at e
      · cases e; exact e1
      · have tail : ∀ {s2 : State}, users s2 = users s → (do
            match ← Elf.relocs l.img with
            | none => Except.ok s2
            | some rl =>
              let s ← writeRelocs t l.addr rl s2
              .ok { s with libs := s.libs.modify r (fun x => { x with gen := s.gen }) }) = .ok s' →
            users s' = users s := by
          intro s2 e2 e
          obtain ⟨o, -, e⟩ := ebind e
          cases o with
          | none => cases e; exact e2
          | some rl =>
            obtain ⟨s4, h4, e⟩ := ebind e
            cases e
            show users s4 = _
            rw [writeRelocs_users _ h4]; exact e2
        split at e
        · obtain ⟨s2, h2, e⟩ := ebind e
          cases h2
          exact tail e1 e
        · obtain ⟨s3, h3, e⟩ := ebind e
          obtain ⟨s2, h2, e⟩ := ebind e
          cases h2
          refine tail ?_ e
          show users s3 = _
          unfold State.markGotWritable at h3
          split at h3
          · cases h3
          · cases h3; exact (unprotect_users _ _).trans e1

theorem updateLibs_users {env : Env} {t : HTable Name BId} (ls : List Lib) : ∀ {s s' : State},
    updateLibs env t ls s = .ok s' → users s' = users s := by
  induction ls with
  | nil => intro s s' e; cases e; rfl
  | cons l ls ih =>
    intro s s' e
    obtain ⟨s1, h1, e⟩ := ebind e
    rw [ih e, updateLib_users h1]

theorem addBindings_users (tool : Nat) (us : List UBinding) : ∀ s : State,
    users (addBindings tool us s) = users s ++ us := by
  induction us with
  | nil => intro s; simp [addBindings]
  | cons u us ih =>
    intro s
    rw [addBindings, ih]
    simp [users, State.setHandle]

theorem setHandles_users (us : List UBinding) : ∀ s : State,
    users (us.foldl (fun s u => s.setHandle u.handle none) s) = users s := by
  induction us with
  | nil => intro s; rfl
  | cons u us ih => intro s; rw [List.foldl_cons, ih]; rfl

theorem wrapCore_users {own om} (ho : OmU own om) {env : Env} {tbl tool} {s : State} {r}
    (e : wrapCore env om tbl tool s = .ok r) :
    ∀ u ∈ users r.1, u ∈ users s ∨ own u ∨ u ∈ tbl := by
  obtain ⟨⟨ts, tid⟩, -, e⟩ := ebind e
  obtain ⟨⟨s1, nb, nf⟩, h1, e⟩ := ebind e
  have e2 : users r.1 = users s1 := by
    cases nb with
    | none =>
      obtain ⟨s2, h2, e⟩ := ebind e
      cases h2; cases e; rfl
    | some t =>
      obtain ⟨s2, h2, e⟩ := ebind e
      cases e
      exact updateLibs_users _ h2
  intro u hu
  rw [e2] at hu
  rcases processBindings_users ho _ h1 u hu with h | h
  · rw [addBindings_users] at h
    rcases List.mem_append.1 h with h | h
    · left
      have : users { (List.foldl (fun s u => s.setHandle u.handle none) s tbl) with
          tools := ts
          gen := (List.foldl (fun s u => s.setHandle u.handle none) s tbl).gen + 1 } =
          users s := setHandles_users tbl s
      rw [this] at h; exact h
    · exact Or.inr (Or.inr h)
  · exact Or.inr (Or.inl h)

theorem onMainReal_users (env : Env) :
    OmU (fun u => u ∈ libcMainTable env ++ mainTable env) (onMainReal env) := by
  intro s s' e u hu
  unfold onMainReal at e
  split at e
  · cases e; exact Or.inl hu
  · obtain ⟨⟨s1, c1⟩, h1, e⟩ := ebind e
    obtain ⟨⟨s2, c2⟩, h2, e⟩ := ebind e
    cases e
    have hid : OmU (fun _ => False) (fun s => .ok s) := by
      intro s s' e; cases e; exact fun u hu => Or.inl hu
    rcases wrapCore_users hid h2 u hu with h | h | h
    · rcases wrapCore_users hid h1 u h with h | h | h
      · exact Or.inl h
      · exact absurd h id
      · exact Or.inr (List.mem_append_left _ h)
    · exact absurd h id
    · exact Or.inr (List.mem_append_right _ h)

theorem gotchaInit_users {env : Env} {s s' : State} (e : gotchaInit env s = .ok s') :
    ∀ u ∈ users s', u ∈ users s ∨ u ∈ Spec.ownTable env := by
  intro u hu
  unfold gotchaInit at e
  split at e
  · cases e; exact Or.inl hu
  · obtain ⟨lt, -, e⟩ := ebind e
    obtain ⟨ft, -, e⟩ := ebind e
    obtain ⟨nt, -, e⟩ := ebind e
    obtain ⟨⟨s1, c⟩, h1, e⟩ := ebind e
    cases e
    rcases wrapCore_users (onMainReal_users env) h1 u hu with h | h | h
    · exact Or.inl h
    · right; unfold Spec.ownTable; rw [List.append_assoc]; exact List.mem_append_right _ h
    · right; unfold Spec.ownTable; rw [List.append_assoc]; exact List.mem_append_left _ h

theorem perBinding_users {env : Env} {k d} {s : State} {r}
    (h : perBinding env k d s = .ok r) : users r.1 = users s := by
  unfold perBinding at h
  split at h
  · obtain ⟨b', -, h⟩ := ebind h
    obtain ⟨⟨s2, ok⟩, h2, h⟩ := ebind h
    have e2 := prepareSymbol_users h2
    dsimp only at h
    split at h
    · obtain ⟨t, -, h⟩ := ebind h
      cases h; exact e2
    · cases h; exact e2
  · cases h

theorem foreachEntry_users {env : Env} : ∀ fuel cur {s s'},
    foreachEntry State.notFound (perBinding env) fuel cur s = .ok s' → users s' = users s := by
  intro fuel
  induction fuel with
  | zero =>
    intro cur s s' e
    cases cur with
    | none => cases e; rfl
    | some i => simp [foreachEntry] at e
  | succ fuel ih =>
    intro cur s s' e
    cases cur with
    | none => cases e; rfl
    | some i =>
      simp only [foreachEntry] at e
      split at e
      · cases e
      · split at e
        · cases e
        · rename_i h1
          cases e
          exact perBinding_users h1
        · rename_i h1
          split at e
          · cases e
          · rw [ih _ e]; exact perBinding_users h1

/-- Every event only adds the bindings of its own table, or GOTCHA's own. -/
theorem stepOp_users {env : Env} {op : Op} {s : State} {r} (e : stepOp env op s = .ok r) :
    ∀ u ∈ users r.1, u ∈ users s ∨ u ∈ Spec.ownTable env ∨ u ∈ Spec.tableOf op := by
  intro u hu
  cases op with
  | wrap tbl tool =>
    obtain ⟨⟨s2, c⟩, h2, e⟩ := ebind e
    cases e
    obtain ⟨s1, h1, h2⟩ := ebind h2
    rcases wrapCore_users (onMainReal_users env) h2 u hu with h | h | h
    · rcases gotchaInit_users h1 u h with h | h
      · exact Or.inl h
      · exact Or.inr (Or.inl h)
    · right; left; unfold Spec.ownTable; rw [List.append_assoc]
      exact List.mem_append_right _ h
    · exact Or.inr (Or.inr h)
  | setPriority t v =>
    obtain ⟨s2, h2, e⟩ := ebind e
    cases e
    obtain ⟨s1, h1, h2⟩ := ebind h2
    obtain ⟨ts, -, h2⟩ := ebind h2
    cases h2
    rcases gotchaInit_users h1 u hu with h | h
    · exact Or.inl h
    · exact Or.inr (Or.inl h)
  | getPriority t =>
    obtain ⟨⟨s2, v⟩, h2, e⟩ := ebind e
    cases e
    obtain ⟨s1, h1, h2⟩ := ebind h2
    obtain ⟨ts, -, h2⟩ := ebind h2
    cases h2
    rcases gotchaInit_users h1 u hu with h | h
    · exact Or.inl h
    · exact Or.inr (Or.inl h)
  | setFilter f => cases e; exact Or.inl hu
  | dlopen ld =>
    simp only [stepOp] at e
    split at e
    · obtain ⟨s2, h2, e⟩ := ebind e
      cases e
      obtain ⟨w, -, h2⟩ := ebind h2
      obtain ⟨s1, h1, h2⟩ := ebind h2
      left
      have e1 := foreachEntry_users _ _ h1
      have e2 : users s2 = users s1 := updateLibs_users _ h2
      rw [show users (s2, Obs.unit).1 = users s2 from rfl, e2, e1] at hu
      exact hu
    · cases e; exact Or.inl hu
  | load ld => cases e; exact Or.inl hu
  | unload d => cases e; exact Or.inl hu

/-- All bindings of a run come from the tables passed to gotcha_wrap and GOTCHA's own. -/
theorem run_users {env : Env} (ops : List Op) : ∀ {s : State} {r}, run env ops s = .ok r →
    ∀ u ∈ users r.1, u ∈ users s ∨ u ∈ Spec.ownTable env ∨ u ∈ ops.flatMap Spec.tableOf := by
  induction ops with
  | nil => intro s r e u hu; cases e; exact Or.inl hu
  | cons op ops ih =>
    intro s r e u hu
    obtain ⟨⟨s1, o⟩, h1, e⟩ := ebind e
    obtain ⟨⟨s2, os⟩, h2, e⟩ := ebind e
    cases e
    rw [List.flatMap_cons, List.mem_append]
    rcases ih h2 u hu with h | h | h
    · rcases stepOp_users h1 u h with h | h | h
      · exact Or.inl h
      · exact Or.inr (Or.inl h)
      · exact Or.inr (Or.inr (Or.inl h))
    · exact Or.inr (Or.inl h)
    · exact Or.inr (Or.inr (Or.inr h))

end Gotcha
