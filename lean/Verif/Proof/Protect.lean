import Verif.Proof.Users
import Verif.Spec.Protect
/-
Page protection: an execution is that of the process in which every page is writable and every
mprotect succeeds, up to the first write to a page that is not writable.
-/
namespace Gotcha
open HTable

namespace Prot

/-- `y` is what `x` would be without page protection: `x` stops by SIGSEGV or they agree. -/
def Sim {α β : Type} (R : α → β → Prop) (x : Except Fault α) (y : Except Fault β) : Prop :=
  match x with
  | .error e => e = .segv ∨ y = .error e
  | .ok a => ∃ b, y = .ok b ∧ R a b

theorem Sim.bind {α β γ δ : Type} {R : α → β → Prop} {S : γ → δ → Prop} {x : Except Fault α}
    {y : Except Fault β} {f : α → Except Fault γ} {g : β → Except Fault δ} (h : Sim R x y)
    (hf : ∀ a b, R a b → Sim S (f a) (g b)) : Sim S (x >>= f) (y >>= g) := by
  cases x with
  | error e =>
    rcases h with h | h
    · exact Or.inl h
    · exact Or.inr (by rw [h]; rfl)
  | ok a =>
    obtain ⟨b, rfl, hr⟩ := h
    exact hf a b hr

theorem Sim.refl {α : Type} {x : Except Fault α} : Sim (· = ·) x x := by
  cases x with
  | error e => exact Or.inr rfl
  | ok a => exact ⟨a, rfl, rfl⟩

theorem Sim.same {α γ δ : Type} {S : γ → δ → Prop} {x y : Except Fault α} (e : y = x)
    {f : α → Except Fault γ} {g : α → Except Fault δ}
    (hf : ∀ a, Sim S (f a) (g a)) : Sim S (x >>= f) (y >>= g) := by
  subst e
  exact Sim.bind Sim.refl (fun a b h => h ▸ hf a)

theorem Sim.err {α β : Type} {R : α → β → Prop} {e : Fault} : Sim R (.error e) (.error e) := Or.inr rfl

theorem Sim.ok {α β : Type} {R : α → β → Prop} {a : α} {b : β} (h : R a b) : Sim R (.ok a) (.ok b) :=
  ⟨b, rfl, h⟩

theorem Sim.ite {α β : Type} {R : α → β → Prop} {c : Prop} [Decidable c] {x x' : Except Fault α}
    {y y' : Except Fault β} (h : c → Sim R x y) (h' : ¬ c → Sim R x' y') :
    Sim R (if c then x else x') (if c then y else y') := by
  by_cases hc : c
  · rw [if_pos hc, if_pos hc]; exact h hc
  · rw [if_neg hc, if_neg hc]; exact h' hc

/-- The same state, with more pages writable. -/
def SR (s t : State) : Prop := ∃ w, t = s.w w ∧ ∀ a, s.wr a = true → w a = true

/-- The same, with results. -/
def SRP {α : Type} (x y : State × α) : Prop := SR x.1 y.1 ∧ x.2 = y.2

/-- A change of the state that leaves the protections alone. -/
theorem SR.map {s t s' t' : State} (h : SR s t) (f : State → State) (e : s' = f s)
    (e' : t' = f t) (hf : ∀ s w, f (s.w w) = (f s).w w) (hw : ∀ s, (f s).wr = s.wr) : SR s' t' := by
  obtain ⟨w, rfl, hle⟩ := h
  subst e e'
  exact ⟨w, hf s w, fun a ha => hle a (by rw [hw] at ha; exact ha)⟩

variable {env : Env}

theorem setInternal_sim {s t : State} (h : SR s t) (hd v) :
    Sim SR (s.setInternal hd v) (t.setInternal hd v) := by
  obtain ⟨w, rfl, hle⟩ := h
  unfold State.setInternal
  show Sim SR _ (match s.handles hd with | none => _ | some b => _)
  cases s.handles hd with
  | none => exact Sim.err
  | some b => exact Sim.ite (c := b < s.binds.length) (fun _ => Sim.ok ⟨w, rfl, hle⟩) (fun _ => Sim.err)

theorem ensureLib_sim {s t : State} (h : SR s t) (l) : Sim SRP (s.ensureLib l) (t.ensureLib l) := by
  obtain ⟨w, rfl, hle⟩ := h
  unfold State.ensureLib
  refine Sim.same rfl (fun o => ?_)
  cases o with
  | some r => exact Sim.ok ⟨⟨w, rfl, hle⟩, rfl⟩
  | none => exact Sim.same rfl (fun tb => Sim.ok ⟨⟨w, rfl, hle⟩, rfl⟩)

theorem isVdso_sim {s t : State} (h : SR s t) (l) : SRP (s.isVdso env l) (t.isVdso env.open l) := by
  obtain ⟨w, rfl, hle⟩ := h
  unfold State.isVdso
  show SRP _ (match s.vdso with | some v => _ | none => _)
  cases s.vdso with
  | some v => exact ⟨⟨w, rfl, hle⟩, rfl⟩
  | none => exact ⟨⟨w, rfl, hle⟩, rfl⟩

theorem lookupExported_sim {s t : State} (h : SR s t) (n l) :
    Sim SRP (s.lookupExported env n l) (t.lookupExported env.open n l) := by
  unfold State.lookupExported
  have hv := isVdso_sim (env := env) h l
  cases h1 : s.isVdso env l with
  | mk s1 b =>
    cases h2 : t.isVdso env.open l with
    | mk t1 b' =>
      rw [h1, h2] at hv
      obtain ⟨hv, rfl⟩ := hv
      cases b with
      | true => exact Sim.ok ⟨hv, rfl⟩
      | false =>
        simp only
        cases Elf.exported l.img l.addr n with
        | error e => exact Sim.err
        | ok r => exact Sim.ok ⟨hv, rfl⟩

theorem prepareLoop_sim {n hd} (ls : List Lib) : ∀ {s t : State}, SR s t →
    Sim SRP (prepareLoop env n hd ls s) (prepareLoop env.open n hd ls t) := by
  induction ls with
  | nil => intro s t h; exact Sim.ok ⟨h, rfl⟩
  | cons l ls ih =>
    intro s t h
    unfold prepareLoop
    refine Sim.bind (ensureLib_sim h l) ?_
    rintro ⟨s1, r⟩ ⟨t1, r'⟩ ⟨h1, -⟩
    refine Sim.bind (lookupExported_sim h1 n l) ?_
    rintro ⟨s2, o⟩ ⟨t2, o'⟩ ⟨h2, e⟩
    cases e
    cases o with
    | some a =>
      refine Sim.bind (setInternal_sim h2 hd _) ?_
      intro s3 t3 h3
      exact Sim.ok ⟨h3, rfl⟩
    | none => exact ih h2

theorem bind_eq {s t : State} (h : SR s t) (b) : t.bind b = s.bind b := by
  obtain ⟨w, rfl, -⟩ := h; rfl

theorem prepareSymbol_sim {s t : State} (h : SR s t) (b) :
    Sim SRP (s.prepareSymbol env b) (t.prepareSymbol env.open b) := by
  unfold State.prepareSymbol
  refine Sim.same (bind_eq h b) (fun x => ?_)
  have : t.linkMap = s.linkMap := by obtain ⟨w, rfl, -⟩ := h; rfl
  rw [this]
  exact prepareLoop_sim _ h

theorem insertAtHead_sim {s t : State} (h : SR s t) (b hd) :
    Sim SR (s.insertAtHead b hd) (t.insertAtHead b hd) := by
  unfold State.insertAtHead
  refine Sim.same (bind_eq h b) (fun xb => ?_)
  refine Sim.same (bind_eq h hd) (fun xh => ?_)
  have h1 : SR { s with binds := s.binds.modify b (fun x => { x with next := some hd }) }
      { t with binds := t.binds.modify b (fun x => { x with next := some hd }) } := by
    obtain ⟨w, rfl, hle⟩ := h
    exact ⟨w, rfl, hle⟩
  refine Sim.bind (setInternal_sim h1 _ _) ?_
  rintro s2 _ ⟨w, rfl, hle⟩
  refine Sim.same rfl (fun t3 => ?_)
  exact Sim.same rfl (fun t4 => Sim.ok ⟨w, rfl, hle⟩)

theorem insertAfter_sim {s t : State} (h : SR s t) (b pos) :
    Sim SR (s.insertAfter b pos) (t.insertAfter b pos) := by
  unfold State.insertAfter
  refine Sim.same (bind_eq h b) (fun xb => ?_)
  refine Sim.same (bind_eq h pos) (fun xp => ?_)
  refine Sim.bind (setInternal_sim h _ _) ?_
  intro s2 t2 h2
  refine Sim.bind (setInternal_sim h2 _ _) ?_
  intro s3 t3 h3
  refine Sim.same (bind_eq h3 pos) (fun xp => ?_)
  obtain ⟨w, rfl, hle⟩ := h3
  exact Sim.ok ⟨w, rfl, hle⟩

theorem findPos_w (s : State) (p : Int) (a : Addr) (w) : ∀ fuel cur,
    findPos (s.w w) p a fuel cur = findPos s p a fuel cur := by
  intro fuel
  induction fuel with
  | zero => intro cur; rfl
  | succ n ih =>
    intro cur
    rw [findPos, findPos]
    simp only [ih]
    rfl

/-- The block for "main". -/
def OmS (om om' : State → Except Fault State) : Prop :=
  ∀ {s t : State}, SR s t → Sim SR (om s) (om' t)

theorem rewriteOrders_sim {om om'} (ho : OmS om om') {s t : State} (h : SR s t) (b) :
    Sim SRP (rewriteOrders om s b) (rewriteOrders om' t b) := by
  unfold rewriteOrders
  refine Sim.same (bind_eq h b) (fun xb => ?_)
  refine Sim.same (by obtain ⟨w, rfl, -⟩ := h; rfl) (fun p => ?_)
  have key : ∀ (s1 t1 : State), SR s1 t1 → Sim SRP (do
      match ← nameLookup s1.funTab xb.user.name with
      | none =>
        let t ← s1.funTab.addto xb.user.name b (strhash xb.user.name)
        Except.ok ({ s1 with funTab := t }, (⟨true, true⟩ : RWO))
      | some head =>
        let hp ← s1.bindPriority head
        if hp < p then
          let s ← s1.insertAtHead b head
          .ok (s, ⟨false, true⟩)
        else
          match ← findPos s1 p xb.user.wrapper (s1.binds.length + 1) head with
          | none => .ok (s1, ⟨false, false⟩)
          | some pos =>
            let s ← s1.insertAfter b pos
            .ok (s, ⟨false, false⟩)) (do
      match ← nameLookup t1.funTab xb.user.name with
      | none =>
        let t ← t1.funTab.addto xb.user.name b (strhash xb.user.name)
        Except.ok ({ t1 with funTab := t }, (⟨true, true⟩ : RWO))
      | some head =>
        let hp ← t1.bindPriority head
        if hp < p then
          let s ← t1.insertAtHead b head
          .ok (s, ⟨false, true⟩)
        else
          match ← findPos t1 p xb.user.wrapper (t1.binds.length + 1) head with
          | none => .ok (t1, ⟨false, false⟩)
          | some pos =>
            let s ← t1.insertAfter b pos
            .ok (s, ⟨false, false⟩)) := by
    intro s1 t1 h1
    refine Sim.same (by obtain ⟨w, rfl, -⟩ := h1; rfl) (fun o => ?_)
    cases o with
    | none =>
      refine Sim.same (by obtain ⟨w, rfl, -⟩ := h1; rfl) (fun tb => ?_)
      obtain ⟨w, rfl, hle⟩ := h1
      exact Sim.ok ⟨⟨w, rfl, hle⟩, rfl⟩
    | some head =>
      refine Sim.same (by obtain ⟨w, rfl, -⟩ := h1; rfl) (fun hp => ?_)
      refine Sim.ite (fun _ => ?_) (fun _ => ?_)
      · exact Sim.bind (insertAtHead_sim h1 _ _) (fun s2 t2 h2 => Sim.ok ⟨h2, rfl⟩)
      · refine Sim.same (by obtain ⟨w, rfl, -⟩ := h1; exact findPos_w _ _ _ _ _ _) (fun o => ?_)
        cases o with
        | none => exact Sim.ok ⟨h1, rfl⟩
        | some pos => exact Sim.bind (insertAfter_sim h1 _ _) (fun s2 t2 h2 => Sim.ok ⟨h2, rfl⟩)
  refine Sim.ite (fun _ => ?_) (fun _ => ?_)
  · exact Sim.bind (ho h) key
  · exact key s t h

theorem processBindings_sim {om om'} (ho : OmS om om') {n} (bs : List BId) :
    ∀ {s t : State} {nb nf}, SR s t →
    Sim SRP (processBindings env om n bs s nb nf) (processBindings env.open om' n bs t nb nf) := by
  induction bs with
  | nil => intro s t nb nf h; exact Sim.ok ⟨h, rfl⟩
  | cons b bs ih =>
    intro s t nb nf h
    unfold processBindings
    refine Sim.same (bind_eq h b) (fun xb => ?_)
    refine Sim.bind (rewriteOrders_sim ho h b) ?_
    rintro ⟨s1, rr⟩ ⟨t1, rr'⟩ ⟨h1, e⟩
    cases e
    dsimp only
    have key : ∀ {s2 t2 nf2}, SR s2 t2 → Sim SRP (if rr.binding = true then do
          let nb ← addNew env n nb xb.user.name b
          processBindings env om n bs s2 nb nf2
        else do
          let nb ← Except.ok nb
          processBindings env om n bs s2 nb nf2) (if rr.binding = true then do
          let nb ← addNew env.open n nb xb.user.name b
          processBindings env.open om' n bs t2 nb nf2
        else do
          let nb ← Except.ok nb
          processBindings env.open om' n bs t2 nb nf2) := by
      intro s2 t2 nf2 h2
      refine Sim.ite (fun _ => ?_) (fun _ => ?_)
      · exact Sim.same (x := addNew env n nb xb.user.name b) rfl (fun nb2 => ih h2)
      · exact ih h2
    refine Sim.ite (fun _ => ?_) (fun _ => ?_)
    · refine Sim.bind (prepareSymbol_sim h1 b) ?_
      rintro ⟨s3, ok⟩ ⟨t3, ok'⟩ ⟨h3, e⟩
      cases e
      dsimp only
      refine Sim.ite (fun _ => ?_) (fun _ => ?_)
      · exact key h3
      · refine Sim.same (by obtain ⟨w, rfl, -⟩ := h3; rfl) (fun tb => ?_)
        refine key (s2 := { s3 with notFound := tb }) (t2 := { t3 with notFound := tb }) ?_
        obtain ⟨w, rfl, hle⟩ := h3
        exact ⟨w, rfl, hle⟩
    · exact key h1

theorem unprotect_sim (rs : List (Addr × BitVec 64)) : ∀ {s t : State}, SR s t →
    SR (rs.foldl (State.unprotect env) s) (rs.foldl (State.unprotect env.open) t) := by
  induction rs with
  | nil => intro s t h; exact h
  | cons r rs ih =>
    rintro s _ ⟨w, rfl, hle⟩
    rw [List.foldl_cons, List.foldl_cons]
    refine ih ⟨fun a => if Got.inRange a r then true else w a, ?_, ?_⟩
    · unfold State.unprotect
      split
      · split <;> rfl
      · rename_i h; exact absurd rfl h
    · intro a ha
      unfold State.unprotect at ha
      split at ha
      · dsimp only at ha ⊢
        split
        · rfl
        · rename_i hn
          rw [if_neg hn] at ha
          exact hle a ha
      · dsimp only
        split
        · rfl
        · exact hle a ha

theorem write_sim {s t : State} (h : SR s t) (a v) : Sim SR (s.write a v) (t.write a v) := by
  obtain ⟨w, rfl, hle⟩ := h
  unfold State.write
  by_cases hw : s.wr a = true
  · rw [if_pos hw, if_pos (show (s.w w).wr a = true from hle a hw)]
    exact Sim.ok ⟨w, rfl, hle⟩
  · rw [if_neg hw]
    exact Or.inl rfl

theorem writeRelocs_sim {tb : HTable Name BId} {base} (rl : List (Addr × Name)) :
    ∀ {s t : State}, SR s t → Sim SR (writeRelocs tb base rl s) (writeRelocs tb base rl t) := by
  induction rl with
  | nil => intro s t h; exact Sim.ok h
  | cons q rl ih =>
    intro s t h
    obtain ⟨off, name⟩ := q
    unfold writeRelocs
    refine Sim.same rfl (fun o => ?_)
    cases o with
    | none => exact ih h
    | some b =>
      refine Sim.same (bind_eq h b) (fun x => ?_)
      exact Sim.bind (write_sim h _ _) (fun s1 t1 h1 => ih h1)

theorem markGotWritable_sim {s t : State} (h : SR s t) (l) :
    Sim SR (s.markGotWritable env l) (t.markGotWritable env.open l) := by
  unfold State.markGotWritable
  have : Got.markCalls (BitVec.ofNat 64 env.open.page) t.linkMap l =
      Got.markCalls (BitVec.ofNat 64 env.page) s.linkMap l := by
    obtain ⟨w, rfl, -⟩ := h; rfl
  rw [this]
  cases Got.markCalls (BitVec.ofNat 64 env.page) s.linkMap l with
  | error e => exact Sim.err
  | ok rs => exact Sim.ok (unprotect_sim rs h)

theorem updateLib_sim {tb : HTable Name BId} {s t : State} (h : SR s t) (l n) :
    Sim SR (s.updateLib env tb l n) (t.updateLib env.open tb l n) := by
  unfold State.updateLib
  refine Sim.bind (ensureLib_sim h l) ?_
  rintro ⟨s1, r⟩ ⟨t1, r'⟩ ⟨h1, e⟩
  cases e
  dsimp only
  refine Sim.same (by obtain ⟨w, rfl, -⟩ := h1; rfl) (fun acc => ?_)
  refine Sim.ite (fun _ => Sim.ok h1) (fun _ => ?_)
  have hl : t1.libs = s1.libs := by obtain ⟨w, rfl, -⟩ := h1; rfl
  have hg : t1.gen = s1.gen := by obtain ⟨w, rfl, -⟩ := h1; rfl
  rw [hl]
  cases s1.libs[r]? with
  | none => exact Sim.err
  | some rec =>
    dsimp only
    rw [hg]
    refine Sim.ite (fun _ => Sim.ok h1) (fun _ => ?_)
    have tail : ∀ (s2 t2 : State), SR s2 t2 → Sim SR (do
        match ← Elf.relocs l.img with
        | none => Except.ok s2
        | some rl =>
          let s ← writeRelocs tb l.addr rl s2
          .ok { s with libs := s.libs.modify r (fun x => { x with gen := s.gen }) }) (do
        match ← Elf.relocs l.img with
        | none => Except.ok t2
        | some rl =>
          let s ← writeRelocs tb l.addr rl t2
          .ok { s with libs := s.libs.modify r (fun x => { x with gen := s.gen }) }) := by
      intro s2 t2 h2
      refine Sim.same rfl (fun o => ?_)
      cases o with
      | none => exact Sim.ok h2
      | some rl =>
        refine Sim.bind (writeRelocs_sim rl h2) ?_
        rintro s3 _ ⟨w, rfl, hle⟩
        exact Sim.ok ⟨w, rfl, hle⟩
    refine Sim.ite (fun _ => ?_) (fun _ => ?_)
    · exact tail _ _ h1
    · refine Sim.bind (markGotWritable_sim h1 l) ?_
      rintro s3 _ ⟨w, rfl, hle⟩
      exact tail _ _ ⟨w, rfl, hle⟩

theorem updateLibs_sim {tb : HTable Name BId} (ls : List Lib) : ∀ {s t : State}, SR s t →
    Sim SR (updateLibs env tb ls s) (updateLibs env.open tb ls t) := by
  induction ls with
  | nil => intro s t h; exact Sim.ok h
  | cons l ls ih =>
    intro s t h
    unfold updateLibs
    exact Sim.bind (updateLib_sim h l _) (fun s1 t1 h1 => ih h1)

theorem updateAll_sim {tb : HTable Name BId} {s t : State} (h : SR s t) :
    Sim SR (s.updateAll env tb) (t.updateAll env.open tb) := by
  unfold State.updateAll
  have : t.linkMap = s.linkMap := by obtain ⟨w, rfl, -⟩ := h; rfl
  rw [this]
  exact updateLibs_sim _ h

theorem setHandles_sim (tbl : List UBinding) : ∀ {s t : State}, SR s t →
    SR (tbl.foldl (fun s u => s.setHandle u.handle none) s)
      (tbl.foldl (fun s u => s.setHandle u.handle none) t) := by
  induction tbl with
  | nil => intro s t h; exact h
  | cons u us ih =>
    rintro s _ ⟨w, rfl, hle⟩
    exact ih ⟨w, rfl, hle⟩

theorem addBindings_sim (tid : Nat) (tbl : List UBinding) : ∀ {s t : State}, SR s t →
    SR (addBindings tid tbl s) (addBindings tid tbl t) := by
  induction tbl with
  | nil => intro s t h; exact h
  | cons u us ih =>
    rintro s _ ⟨w, rfl, hle⟩
    exact ih ⟨w, rfl, hle⟩

theorem wrapCore_sim {om om'} (ho : OmS om om') {tbl tool} {s t : State} (h : SR s t) :
    Sim SRP (wrapCore env om tbl tool s) (wrapCore env.open om' tbl tool t) := by
  unfold wrapCore
  dsimp only
  have h0 := setHandles_sim tbl h
  generalize tbl.foldl (fun s u => s.setHandle u.handle none) s = s0 at h0 ⊢
  generalize tbl.foldl (fun s u => s.setHandle u.handle none) t = t0 at h0 ⊢
  refine Sim.same (by obtain ⟨w, rfl, -⟩ := h0; rfl) (fun x => ?_)
  obtain ⟨ts, tid⟩ := x
  dsimp only
  have hb : t0.binds = s0.binds := by obtain ⟨w, rfl, -⟩ := h0; rfl
  rw [hb]
  have h1 : SR { s0 with tools := ts, gen := s0.gen + 1 } { t0 with tools := ts, gen := t0.gen + 1 } := by
    obtain ⟨w, rfl, hle⟩ := h0
    exact ⟨w, rfl, hle⟩
  rw [hb] at h1
  refine Sim.bind (processBindings_sim ho _ (addBindings_sim tid tbl h1)) ?_
  rintro ⟨s2, nb, nf⟩ ⟨t2, nb', nf'⟩ ⟨h2, e⟩
  cases e
  cases nb with
  | none => exact Sim.ok ⟨h2, rfl⟩
  | some tb => exact Sim.bind (updateAll_sim h2) (fun s3 t3 h3 => Sim.ok ⟨h3, rfl⟩)

theorem onMain_sim : OmS (onMainReal env) (onMainReal env.open) := by
  intro s t h
  unfold onMainReal
  have hinner : OmS (fun s => .ok s) (fun s => .ok s) := fun h => Sim.ok h
  have hm : t.mainWrapped = s.mainWrapped := by obtain ⟨w, rfl, -⟩ := h; rfl
  rw [hm]
  refine Sim.ite (fun _ => Sim.ok h) (fun _ => ?_)
  have h1 : SR { s with mainWrapped := true } { t with mainWrapped := true } := by
    obtain ⟨w, rfl, hle⟩ := h
    exact ⟨w, rfl, hle⟩
  refine Sim.bind (wrapCore_sim (env := env) hinner h1) ?_
  rintro ⟨s2, c2⟩ ⟨t2, c2'⟩ ⟨h2, -⟩
  refine Sim.bind (wrapCore_sim (env := env) hinner h2) ?_
  rintro ⟨s3, c3⟩ ⟨t3, c3'⟩ ⟨h3, -⟩
  exact Sim.ok h3

theorem init_sim {s t : State} (h : SR s t) : Sim SR (gotchaInit env s) (gotchaInit env.open t) := by
  unfold gotchaInit
  have hm : t.inited = s.inited := by obtain ⟨w, rfl, -⟩ := h; rfl
  rw [hm]
  refine Sim.ite (fun _ => Sim.ok h) (fun _ => ?_)
  refine Sim.same rfl (fun lt => Sim.same rfl (fun ft => Sim.same rfl (fun nt => ?_)))
  have h1 : SR { s with inited := true, libTab := lt, funTab := ft, notFound := nt }
      { t with inited := true, libTab := lt, funTab := ft, notFound := nt } := by
    obtain ⟨w, rfl, hle⟩ := h
    exact ⟨w, rfl, hle⟩
  refine Sim.bind (wrapCore_sim (env := env) onMain_sim h1) ?_
  rintro ⟨s2, c2⟩ ⟨t2, c2'⟩ ⟨h2, -⟩
  exact Sim.ok h2

theorem innermost_w (s : State) (w) : ∀ fuel b, innermost (s.w w) fuel b = innermost s fuel b := by
  intro fuel
  induction fuel with
  | zero => intro b; rfl
  | succ n ih =>
    intro b
    rw [innermost, innermost]
    simp only [ih]
    rfl

theorem perBinding_sim {s t : State} (h : SR s t) (k d) :
    Sim SRP (perBinding env k d s) (perBinding env.open k d t) := by
  unfold perBinding
  cases k with
  | none => exact Sim.err
  | some k =>
    cases d with
    | none => exact Sim.err
    | some d =>
      refine Sim.same (by obtain ⟨w, rfl, -⟩ := h; exact innermost_w _ _ _ _) (fun b => ?_)
      refine Sim.bind (prepareSymbol_sim h b) ?_
      rintro ⟨s3, ok⟩ ⟨t3, ok'⟩ ⟨h3, e⟩
      cases e
      dsimp only
      refine Sim.ite (fun _ => ?_) (fun _ => Sim.ok ⟨h3, rfl⟩)
      refine Sim.same (by obtain ⟨w, rfl, -⟩ := h3; rfl) (fun tb => ?_)
      obtain ⟨w, rfl, hle⟩ := h3
      exact Sim.ok ⟨⟨w, rfl, hle⟩, rfl⟩

theorem foreachEntry_sim : ∀ fuel cur {s t : State}, SR s t →
    Sim SR (foreachEntry State.notFound (perBinding env) fuel cur s)
      (foreachEntry State.notFound (perBinding env.open) fuel cur t) := by
  intro fuel
  induction fuel with
  | zero =>
    intro cur s t h
    cases cur with
    | none => exact Sim.ok h
    | some i => exact Sim.err
  | succ fuel ih =>
    intro cur s t h
    cases cur with
    | none => exact Sim.ok h
    | some i =>
      rw [foreachEntry, foreachEntry]
      have hn : t.notFound = s.notFound := by obtain ⟨w, rfl, -⟩ := h; rfl
      rw [hn]
      cases s.notFound.slots[i]? with
      | none => exact Sim.err
      | some ent =>
        dsimp only
        have hp := perBinding_sim (env := env) h ent.key ent.data
        cases h1 : perBinding env ent.key ent.data s with
        | error e =>
          rw [h1] at hp
          rcases hp with rfl | hp
          · exact Or.inl rfl
          · rw [hp]; exact Sim.err
        | ok x =>
          rw [h1] at hp
          obtain ⟨⟨t1, b'⟩, e1, hr, e2⟩ := hp
          obtain ⟨s1, b⟩ := x
          cases e2
          rw [e1]
          cases b' with
          | true => exact Sim.ok hr
          | false =>
            dsimp only
            have hn1 : t1.notFound = s1.notFound := by obtain ⟨w, rfl, -⟩ := hr; rfl
            rw [hn1]
            cases s1.notFound.slots[i]? with
            | none => exact Sim.err
            | some ent2 => exact ih _ hr

theorem load_sr {s t : State} (h : SR s t) (ld : Load) : SR (s.load ld) (t.load ld.open) := by
  obtain ⟨w, rfl, -⟩ := h
  exact ⟨fun _ => true, rfl, fun _ _ => rfl⟩

theorem step_sim (op : Op) {s t : State} (h : SR s t) :
    Sim SRP (stepOp env op s) (stepOp env.open op.open t) := by
  cases op with
  | wrap tbl tool =>
    refine Sim.bind (R := SRP) (Sim.bind (init_sim h) (fun s1 t1 h1 => wrapCore_sim onMain_sim h1)) ?_
    rintro ⟨s2, c2⟩ ⟨t2, c2'⟩ ⟨h2, e⟩
    cases e
    exact Sim.ok ⟨h2, rfl⟩
  | setPriority tool v =>
    refine Sim.bind (R := SR) (Sim.bind (init_sim h) (fun s1 t1 h1 => ?_))
      (fun s2 t2 h2 => Sim.ok ⟨h2, rfl⟩)
    refine Sim.same (by obtain ⟨w, rfl, -⟩ := h1; rfl) (fun ts => ?_)
    obtain ⟨w, rfl, hle⟩ := h1
    exact Sim.ok ⟨w, rfl, hle⟩
  | getPriority tool =>
    refine Sim.bind (R := SRP) (Sim.bind (init_sim h) (fun s1 t1 h1 => ?_)) ?_
    · exact Sim.same (by obtain ⟨w, rfl, -⟩ := h1; rfl) (fun v => Sim.ok ⟨h1, rfl⟩)
    · rintro ⟨s2, c2⟩ ⟨t2, c2'⟩ ⟨h2, e⟩
      cases e
      exact Sim.ok ⟨h2, rfl⟩
  | setFilter f =>
    obtain ⟨w, rfl, hle⟩ := h
    exact Sim.ok ⟨⟨w, rfl, hle⟩, rfl⟩
  | load ld => exact Sim.ok ⟨load_sr h ld, rfl⟩
  | unload dead =>
    obtain ⟨w, rfl, hle⟩ := h
    exact Sim.ok ⟨⟨w, rfl, hle⟩, rfl⟩
  | dlopen ld =>
    unfold Op.open
    rw [stepOp, stepOp]
    have hm : t.inited = s.inited := by obtain ⟨w, rfl, -⟩ := h; rfl
    rw [hm]
    refine Sim.ite (fun _ => ?_) (fun _ => Sim.ok ⟨load_sr h ld, rfl⟩)
    refine Sim.bind (R := SR) ?_ (fun s2 t2 h2 => Sim.ok ⟨h2, rfl⟩)
    unfold dlopenWrapper
    refine Sim.same (by obtain ⟨w, rfl, -⟩ := h; rfl) (fun _ => ?_)
    have h1 := load_sr h ld
    unfold State.afterDlopen
    have hn : (t.load ld.open).notFound = (s.load ld).notFound := by
      obtain ⟨w, rfl, -⟩ := h; rfl
    rw [hn]
    refine Sim.bind (foreachEntry_sim _ _ h1) ?_
    intro s2 t2 h2
    have hf : t2.funTab = s2.funTab := by obtain ⟨w, rfl, -⟩ := h2; rfl
    rw [hf]
    exact updateAll_sim h2

theorem run_sim (ops : List Op) : ∀ {s t : State}, SR s t →
    Sim SRP (run env ops s) (run env.open (ops.map Op.open) t) := by
  induction ops with
  | nil => intro s t h; exact Sim.ok ⟨h, rfl⟩
  | cons op ops ih =>
    intro s t h
    refine Sim.bind (step_sim op h) ?_
    rintro ⟨s1, o⟩ ⟨t1, o'⟩ ⟨h1, e⟩
    cases e
    refine Sim.bind (ih h1) ?_
    rintro ⟨s2, os⟩ ⟨t2, os'⟩ ⟨h2, e⟩
    cases e
    exact Sim.ok ⟨h2, rfl⟩

/-! ### a word that is not writable stays as it is -/

/-- Every result satisfies `Q`. -/
def Ret {α : Type} (Q : α → Prop) (x : Except Fault α) : Prop := ∀ r, x = .ok r → Q r

theorem Ret.bind {α β : Type} {Q : α → Prop} {S : β → Prop} {x : Except Fault α}
    {f : α → Except Fault β} (h : Ret Q x) (hf : ∀ a, Q a → Ret S (f a)) : Ret S (x >>= f) := by
  intro r e
  obtain ⟨a, h1, h2⟩ := ebind e
  exact hf a (h a h1) r h2

theorem Ret.any {α β : Type} {S : β → Prop} {x : Except Fault α}
    {f : α → Except Fault β} (hf : ∀ a, Ret S (f a)) : Ret S (x >>= f) :=
  Ret.bind (Q := fun _ => True) (fun _ _ => trivial) (fun a _ => hf a)

theorem Ret.ok {α : Type} {Q : α → Prop} {a : α} (h : Q a) : Ret Q (.ok a) := by
  intro r e; cases e; exact h

theorem Ret.err {α : Type} {Q : α → Prop} {f : Fault} : Ret Q (.error f) := by
  intro r e; cases e

theorem Ret.ite {α : Type} {Q : α → Prop} {c : Prop} [Decidable c] {x y : Except Fault α}
    (h : Ret Q x) (h' : Ret Q y) : Ret Q (if c then x else y) := by
  split
  · exact h
  · exact h'

/-- The link map, and a word that is not writable. -/
structure St (M : List Lib) (a m : Addr) (s : State) : Prop where
  map : s.linkMap = M
  wr : s.wr a = false
  mem : s.mem a = m

variable {M : List Lib} {a m : Addr}

theorem setInternal_st {s : State} (h : St M a m s) (hd v) : Ret (St M a m) (s.setInternal hd v) := by
  unfold State.setInternal
  split
  · exact Ret.err
  · exact Ret.ite (Ret.ok ⟨h.map, h.wr, h.mem⟩) Ret.err

theorem ensureLib_st {s : State} (h : St M a m s) (l) :
    Ret (fun x => St M a m x.1) (s.ensureLib l) := by
  refine Ret.any (fun o => ?_)
  cases o with
  | some r => exact Ret.ok h
  | none => exact Ret.any (fun t => Ret.ok ⟨h.map, h.wr, h.mem⟩)

theorem lookupExported_st {s : State} (h : St M a m s) (n l) :
    Ret (fun x => St M a m x.1) (s.lookupExported env n l) := by
  have hv : St M a m (s.isVdso env l).1 := by
    unfold State.isVdso
    split <;> exact ⟨h.map, h.wr, h.mem⟩
  unfold State.lookupExported
  cases hx : s.isVdso env l with
  | mk s1 b =>
    rw [hx] at hv
    cases b with
    | true => exact Ret.ok hv
    | false =>
      simp only
      split
      · exact Ret.err
      · exact Ret.ok hv

theorem prepareLoop_st {n hd} (ls : List Lib) : ∀ {s : State}, St M a m s →
    Ret (fun x => St M a m x.1) (prepareLoop env n hd ls s) := by
  induction ls with
  | nil => intro s h; exact Ret.ok h
  | cons l ls ih =>
    intro s h
    refine Ret.bind (ensureLib_st h l) ?_
    rintro ⟨s1, r⟩ h1
    refine Ret.bind (lookupExported_st h1 n l) ?_
    rintro ⟨s2, o⟩ h2
    cases o with
    | some x => exact Ret.bind (setInternal_st h2 _ _) (fun s3 h3 => Ret.ok h3)
    | none => exact ih h2

theorem prepareSymbol_st {s : State} (h : St M a m s) (b) :
    Ret (fun x => St M a m x.1) (s.prepareSymbol env b) :=
  Ret.any (fun _ => prepareLoop_st _ h)

theorem insertAtHead_st {s : State} (h : St M a m s) (b hd) : Ret (St M a m) (s.insertAtHead b hd) := by
  refine Ret.any (fun xb => Ret.any (fun xh => ?_))
  refine Ret.bind (setInternal_st
    (s := { s with binds := s.binds.modify b (fun x => { x with next := some hd }) })
    ⟨h.map, h.wr, h.mem⟩ _ _) ?_
  intro s2 h2
  exact Ret.any (fun t => Ret.any (fun t' => Ret.ok ⟨h2.map, h2.wr, h2.mem⟩))

theorem insertAfter_st {s : State} (h : St M a m s) (b pos) : Ret (St M a m) (s.insertAfter b pos) := by
  refine Ret.any (fun xb => Ret.any (fun xh => ?_))
  refine Ret.bind (setInternal_st h _ _) (fun s2 h2 => ?_)
  refine Ret.bind (setInternal_st h2 _ _) (fun s3 h3 => ?_)
  exact Ret.any (fun x => Ret.ok ⟨h3.map, h3.wr, h3.mem⟩)

/-- The block for "main". -/
def OmSt (M : List Lib) (a m : Addr) (om : State → Except Fault State) : Prop :=
  ∀ {s : State}, St M a m s → Ret (St M a m) (om s)

theorem rewriteOrders_st {om} (ho : OmSt M a m om) {s : State} (h : St M a m s) (b) :
    Ret (fun x => St M a m x.1) (rewriteOrders om s b) := by
  refine Ret.any (fun xb => Ret.any (fun p => ?_))
  have key : ∀ (s1 : State), St M a m s1 → Ret (fun x => St M a m x.1) (do
      match ← nameLookup s1.funTab xb.user.name with
      | none =>
        let t ← s1.funTab.addto xb.user.name b (strhash xb.user.name)
        Except.ok ({ s1 with funTab := t }, (⟨true, true⟩ : RWO))
      | some head =>
        let hp ← s1.bindPriority head
        if hp < p then
          let s ← s1.insertAtHead b head
          .ok (s, ⟨false, true⟩)
        else
          match ← findPos s1 p xb.user.wrapper (s1.binds.length + 1) head with
          | none => .ok (s1, ⟨false, false⟩)
          | some pos =>
            let s ← s1.insertAfter b pos
            .ok (s, ⟨false, false⟩)) := by
    intro s1 h1
    refine Ret.any (fun o => ?_)
    cases o with
    | none => exact Ret.any (fun t => Ret.ok ⟨h1.map, h1.wr, h1.mem⟩)
    | some head =>
      refine Ret.any (fun hp => Ret.ite ?_ ?_)
      · exact Ret.bind (insertAtHead_st h1 _ _) (fun s2 h2 => Ret.ok h2)
      · refine Ret.any (fun o => ?_)
        cases o with
        | none => exact Ret.ok h1
        | some pos => exact Ret.bind (insertAfter_st h1 _ _) (fun s2 h2 => Ret.ok h2)
  exact Ret.ite (Ret.bind (ho h) key) (key s h)

theorem processBindings_st {om} (ho : OmSt M a m om) {n} (bs : List BId) :
    ∀ {s : State} {nb nf}, St M a m s →
    Ret (fun x => St M a m x.1) (processBindings env om n bs s nb nf) := by
  induction bs with
  | nil => intro s nb nf h; exact Ret.ok h
  | cons b bs ih =>
    intro s nb nf h
    refine Ret.any (fun xb => Ret.bind (rewriteOrders_st ho h b) ?_)
    rintro ⟨s1, rr⟩ h1
    dsimp only
    have key : ∀ {s2 nf2}, St M a m s2 → Ret (fun x => St M a m x.1) (if rr.binding = true then do
          let nb ← addNew env n nb xb.user.name b
          processBindings env om n bs s2 nb nf2
        else do
          let nb ← Except.ok nb
          processBindings env om n bs s2 nb nf2) := by
      intro s2 nf2 h2
      exact Ret.ite (Ret.any (fun nb2 => ih h2)) (ih h2)
    refine Ret.ite ?_ (key h1)
    refine Ret.bind (prepareSymbol_st h1 b) ?_
    rintro ⟨s3, ok⟩ h3
    dsimp only
    exact Ret.ite (key h3) (Ret.any (fun t =>
      key (s2 := { s3 with notFound := t }) ⟨h3.map, h3.wr, h3.mem⟩))

/-- No successful mprotect call for an object of the link map covers the word. -/
def Bare (env : Env) (M : List Lib) (a : Addr) : Prop :=
  ∀ l ∈ M, ∀ rs, Got.markCalls (BitVec.ofNat 64 env.page) M l = .ok rs →
    ∀ r ∈ rs, env.mprotect r = true → ¬ Got.inRange a r

theorem unprotect_st (rs : List (Addr × BitVec 64))
    (hrs : ∀ r ∈ rs, env.mprotect r = true → ¬ Got.inRange a r) : ∀ {s : State}, St M a m s →
    St M a m (rs.foldl (State.unprotect env) s) := by
  induction rs with
  | nil => intro s h; exact h
  | cons r rs ih =>
    intro s h
    rw [List.foldl_cons]
    refine ih (fun x hx => hrs x (by simp [hx])) ?_
    unfold State.unprotect
    split
    · rename_i hp
      refine ⟨h.map, ?_, h.mem⟩
      show (if Got.inRange a r then true else s.wr a) = false
      rw [if_neg (hrs r (by simp) hp)]
      exact h.wr
    · exact h

theorem writeRelocs_st {tb : HTable Name BId} {base} (rl : List (Addr × Name)) :
    ∀ {s : State}, St M a m s → Ret (St M a m) (writeRelocs tb base rl s) := by
  induction rl with
  | nil => intro s h; exact Ret.ok h
  | cons q rl ih =>
    intro s h
    obtain ⟨off, name⟩ := q
    refine Ret.any (fun o => ?_)
    cases o with
    | none => exact ih h
    | some b =>
      refine Ret.any (fun x => Ret.bind (Q := St M a m) ?_ (fun s1 h1 => ih h1))
      unfold State.write
      intro s1 e
      split at e
      · rename_i hw
        cases e
        refine ⟨h.map, h.wr, ?_⟩
        have : a ≠ base + off := by rintro rfl; rw [h.wr] at hw; cases hw
        show (if a = base + off then _ else s.mem a) = m
        rw [if_neg this]
        exact h.mem
      · cases e

theorem updateLib_st (hb : Bare env M a) {tb : HTable Name BId} {s : State} (h : St M a m s) {l}
    (hl : l ∈ M) (n) : Ret (St M a m) (s.updateLib env tb l n) := by
  refine Ret.bind (ensureLib_st h l) ?_
  rintro ⟨s1, r⟩ h1
  dsimp only at h1 ⊢
  refine Ret.any (fun acc => Ret.ite (Ret.ok h1) ?_)
  split
  · exact Ret.err
  · have tail : ∀ (s2 : State), St M a m s2 → Ret (St M a m) (do
        match ← Elf.relocs l.img with
        | none => Except.ok s2
        | some rl =>
          let s ← writeRelocs tb l.addr rl s2
          .ok { s with libs := s.libs.modify r (fun x => { x with gen := s.gen }) }) := by
      intro s2 h2
      refine Ret.any (fun o => ?_)
      cases o with
      | none => exact Ret.ok h2
      | some rl =>
        exact Ret.bind (writeRelocs_st rl h2) (fun s3 h3 => Ret.ok ⟨h3.map, h3.wr, h3.mem⟩)
    refine Ret.ite (Ret.ok h1) (Ret.ite (tail _ h1) ?_)
    refine Ret.bind (Q := St M a m) ?_ (fun s2 h2 => tail _ ⟨h2.map, h2.wr, h2.mem⟩)
    intro s2 e
    unfold State.markGotWritable at e
    split at e
    · cases e
    · rename_i rs hrs
      cases e
      rw [h1.map] at hrs
      exact unprotect_st _ (hb l hl rs hrs) h1

theorem updateLibs_st (hb : Bare env M a) {tb : HTable Name BId} (ls : List Lib) :
    (∀ l ∈ ls, l ∈ M) → ∀ {s : State}, St M a m s → Ret (St M a m) (updateLibs env tb ls s) := by
  induction ls with
  | nil => intro _ s h; exact Ret.ok h
  | cons l ls ih =>
    intro hl s h
    exact Ret.bind (updateLib_st hb h (hl l (by simp)) _)
      (fun s1 h1 => ih (fun x hx => hl x (by simp [hx])) h1)

theorem updateAll_st (hb : Bare env M a) {tb : HTable Name BId} {s : State} (h : St M a m s) :
    Ret (St M a m) (s.updateAll env tb) :=
  updateLibs_st hb _ (by rw [h.map]; exact fun _ h => h) h

theorem setHandles_st (tbl : List UBinding) : ∀ {s : State}, St M a m s →
    St M a m (tbl.foldl (fun s u => s.setHandle u.handle none) s) := by
  induction tbl with
  | nil => intro s h; exact h
  | cons u us ih => intro s h; exact ih ⟨h.map, h.wr, h.mem⟩

theorem addBindings_st (tid : Nat) (tbl : List UBinding) : ∀ {s : State}, St M a m s →
    St M a m (addBindings tid tbl s) := by
  induction tbl with
  | nil => intro s h; exact h
  | cons u us ih => intro s h; exact ih ⟨h.map, h.wr, h.mem⟩

theorem wrapCore_st (hb : Bare env M a) {om} (ho : OmSt M a m om) {tbl tool} {s : State}
    (h : St M a m s) : Ret (fun x => St M a m x.1) (wrapCore env om tbl tool s) := by
  unfold wrapCore
  dsimp only
  have h0 := setHandles_st tbl h
  generalize tbl.foldl (fun s u => s.setHandle u.handle none) s = s0 at h0 ⊢
  refine Ret.any ?_
  rintro ⟨ts, tid⟩
  dsimp only
  have h1 : St M a m { s0 with tools := ts, gen := s0.gen + 1 } := ⟨h0.map, h0.wr, h0.mem⟩
  refine Ret.bind (processBindings_st ho _ (addBindings_st tid tbl h1)) ?_
  rintro ⟨s2, nb, nf⟩ h2
  cases nb with
  | none => exact Ret.ok h2
  | some tb => exact Ret.bind (updateAll_st hb h2) (fun s3 h3 => Ret.ok h3)

theorem onMain_st (hb : Bare env M a) : OmSt M a m (onMainReal env) := by
  intro s h
  unfold onMainReal
  have hinner : OmSt M a m (fun s => .ok s) := fun h => Ret.ok h
  refine Ret.ite (Ret.ok h) ?_
  refine Ret.bind (wrapCore_st hb hinner (s := { s with mainWrapped := true })
    ⟨h.map, h.wr, h.mem⟩) ?_
  rintro ⟨s2, c2⟩ h2
  refine Ret.bind (wrapCore_st hb hinner h2) ?_
  rintro ⟨s3, c3⟩ h3
  exact Ret.ok h3

theorem init_st (hb : Bare env M a) {s : State} (h : St M a m s) :
    Ret (St M a m) (gotchaInit env s) := by
  unfold gotchaInit
  refine Ret.ite (Ret.ok h) ?_
  refine Ret.any (fun lt => Ret.any (fun ft => Ret.any (fun nt => ?_)))
  refine Ret.bind (wrapCore_st hb (onMain_st hb) (s := { s with inited := true, libTab := _, funTab := _, notFound := _ })
    ⟨h.map, h.wr, h.mem⟩) ?_
  rintro ⟨s2, c2⟩ h2
  exact Ret.ok h2

theorem perBinding_st {s : State} (h : St M a m s) (k d) :
    Ret (fun x => St M a m x.1) (perBinding env k d s) := by
  unfold perBinding
  cases k with
  | none => exact Ret.err
  | some k =>
    cases d with
    | none => exact Ret.err
    | some d =>
      refine Ret.any (fun b => Ret.bind (prepareSymbol_st h b) ?_)
      rintro ⟨s3, ok⟩ h3
      dsimp only
      exact Ret.ite (Ret.any (fun tb => Ret.ok ⟨h3.map, h3.wr, h3.mem⟩)) (Ret.ok h3)

theorem foreachEntry_st : ∀ fuel cur {s : State}, St M a m s →
    Ret (St M a m) (foreachEntry State.notFound (perBinding env) fuel cur s) := by
  intro fuel
  induction fuel with
  | zero =>
    intro cur s h
    cases cur with
    | none => exact Ret.ok h
    | some i => exact Ret.err
  | succ fuel ih =>
    intro cur s h
    cases cur with
    | none => exact Ret.ok h
    | some i =>
      rw [foreachEntry]
      split
      · exact Ret.err
      · split
        · exact Ret.err
        · rename_i h1
          exact Ret.ok (perBinding_st h _ _ _ h1)
        · rename_i h1
          have h2 := perBinding_st h _ _ _ h1
          split
          · exact Ret.err
          · exact ih _ h2

theorem step_st {op : Op} {s : State} (hb : Bare env (entered op s).linkMap a)
    (hw : (entered op s).wr a = false) :
    Ret (fun x => x.1.mem a = (entered op s).mem a) (stepOp env op s) := by
  have h : St (entered op s).linkMap a ((entered op s).mem a) (entered op s) := ⟨rfl, hw, rfl⟩
  cases op with
  | wrap tbl tool =>
    refine Ret.bind (Ret.bind (init_st hb h) (fun s1 h1 => wrapCore_st hb (onMain_st hb) h1)) ?_
    rintro ⟨s2, c2⟩ h2
    exact Ret.ok h2.mem
  | setPriority tool v =>
    refine Ret.bind (Q := St s.linkMap a (s.mem a)) (Ret.bind (init_st hb h) (fun s1 h1 => ?_))
      (fun s2 h2 => Ret.ok h2.mem)
    exact Ret.any (fun ts => Ret.ok ⟨h1.map, h1.wr, h1.mem⟩)
  | getPriority tool =>
    refine Ret.bind (Q := fun x => St s.linkMap a (s.mem a) x.1)
      (Ret.bind (init_st hb h) (fun s1 h1 => ?_)) ?_
    · exact Ret.any (fun v => Ret.ok h1)
    · rintro ⟨s2, c2⟩ h2
      exact Ret.ok h2.mem
  | setFilter f => exact Ret.ok rfl
  | load ld => exact Ret.ok rfl
  | unload dead => exact Ret.ok rfl
  | dlopen ld =>
    rw [stepOp]
    refine Ret.ite ?_ (Ret.ok rfl)
    refine Ret.bind (Q := St (s.load ld).linkMap a ((s.load ld).mem a)) ?_ (fun s2 h2 => Ret.ok h2.mem)
    unfold dlopenWrapper
    refine Ret.any (fun _ => ?_)
    exact Ret.bind (foreachEntry_st _ _ h) (fun s1 h1 => updateAll_st hb h1)

end Prot
end Gotcha
