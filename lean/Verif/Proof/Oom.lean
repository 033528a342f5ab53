import Verif.Model.Oom
import Verif.Proof.Users
/-
The engine with failing allocations against the engine without: a run that ends without fault and
without GOTCHA_INTERNAL is a run of the latter.
-/
namespace Gotcha.Oom
open Gotcha

/-- Computations of the two engines: what the first returns the second returns, and without failing
allocations they are equal. -/
structure Sim {α : Type} (m : M α) (e : Except Fault α) : Prop where
  part : ∀ {o k x k'}, m o k = .ok (x, k') → e = .ok x
  full : ∀ {o} k, (∀ i, o i = true) → (m o k).map (·.1) = e

/-- The second half alone. -/
structure Full {α : Type} (m : M α) (e : Except Fault α) : Prop where
  run : ∀ {o : Nat → Bool} k, (∀ i, o i = true) → (m o k).map (·.1) = e

theorem Sim.toFull {α : Type} {m : M α} {e : Except Fault α} (h : Sim m e) : Full m e := ⟨h.full⟩

theorem mbind {α β : Type} (m : M α) (f : α → M β) (o : Nat → Bool) (k : Nat) :
    (m >>= f) o k = match m o k with
      | .error e => .error e
      | .ok (x, k') => f x o k' := rfl

theorem mbind_ok {α β : Type} {m : M α} {f : α → M β} {o : Nat → Bool} {k : Nat} {y : β × Nat}
    (h : (m >>= f) o k = .ok y) : ∃ x k', m o k = .ok (x, k') ∧ f x o k' = .ok y := by
  rw [mbind] at h
  split at h
  · cases h
  · rename_i x k' e; exact ⟨x, k', e, h⟩

theorem Full.bind {α β : Type} {m : M α} {e : Except Fault α} {f : α → M β}
    {g : α → Except Fault β} (h1 : Full m e) (h2 : ∀ x, Full (f x) (g x)) :
    Full (m >>= f) (e >>= g) := by
  refine ⟨fun {o} k ho => ?_⟩
  have := h1.run k ho
  rw [mbind]
  cases hm : m o k with
  | error e' => rw [hm] at this; rw [← this]; rfl
  | ok y =>
    rw [hm] at this
    rw [← this]
    exact (h2 y.1).run y.2 ho

theorem Sim.bind {α β : Type} {m : M α} {e : Except Fault α} {f : α → M β} {g : α → Except Fault β}
    (h1 : Sim m e) (h2 : ∀ x, Sim (f x) (g x)) : Sim (m >>= f) (e >>= g) where
  part := by
    intro o k y k' h
    obtain ⟨x, k1, e1, e2⟩ := mbind_ok h
    rw [h1.part e1]
    exact (h2 x).part e2
  full := (Full.bind h1.toFull fun x => (h2 x).toFull).run

theorem sim_ret {α : Type} (x : α) : Sim (pure x : M α) (.ok x) where
  part := by intro o k y k' h; cases h; rfl
  full := fun _ _ => rfl

theorem sim_lift {α : Type} (e : Except Fault α) : Sim (lift e) e where
  part := by
    intro o k y k' h
    cases e with
    | error f => cases h
    | ok x => cases h; rfl
  full := by intro o k _; cases e <;> rfl

theorem sim_fail {α : Type} (f : Fault) : Sim (fail f : M α) (.error f) where
  part := by intro o k y k' h; cases h
  full := fun _ _ => rfl

theorem Sim.need {α : Type} {f : Unit → M α} {e : Except Fault α} (h : Sim (f ()) e) :
    Sim (need >>= f) e where
  part := by
    intro o k y k' hy
    obtain ⟨x, k1, -, e2⟩ := mbind_ok hy
    exact h.part e2
  full := by
    intro o k ho
    have : Oom.need o k = Except.ok ((), k + 1) := by
      unfold Oom.need
      rw [mbind]
      simp only [alloc, ho]
      rfl
    rw [mbind, this]
    exact h.full _ ho

theorem Sim.ite {α : Type} {c : Prop} [Decidable c] {m1 m2 : M α} {e1 e2 : Except Fault α}
    (h1 : Sim m1 e1) (h2 : Sim m2 e2) : Sim (if c then m1 else m2) (if c then e1 else e2) := by
  split
  · exact h1
  · exact h2

variable {K D : Type}

theorem addto_sim (t : HTable K D) (key : K) (data : D) (hv : BitVec 32) :
    Sim (addto t key data hv) (t.addto key data hv) := by
  have : t.addto key data hv = (do
      let newSize ← HTable.growSize t.count t.size
      if newSize ≠ t.size then do
        let t' ← t.grow newSize
        t'.insert key data hv
      else t.insert key data hv) := by
    unfold HTable.addto
    cases h : HTable.growSize t.count t.size with
    | error f => rfl
    | ok n =>
      simp only [bind, Except.bind]
      split
      · cases t.grow n <;> rfl
      · rfl
  rw [this]
  exact (sim_lift _).bind fun n => Sim.ite
    ((Sim.need (sim_lift _)).bind fun t' => sim_lift _) (sim_lift _)

theorem ensureLib_sim (s : State) (l : Lib) : Sim (ensureLib s l) (s.ensureLib l) := by
  refine (sim_lift _).bind fun r => ?_
  cases r with
  | some r => exact sim_ret _
  | none => exact Sim.need ((addto_sim _ _ _ _).bind fun t => sim_ret _)

theorem prepareLoop_sim (env : Env) (name : Name) (h : HAddr) (ls : List Lib) : ∀ s,
    Sim (prepareLoop env name h ls s) (Gotcha.prepareLoop env name h ls s) := by
  induction ls with
  | nil => intro s; exact sim_ret _
  | cons l ls ih =>
    intro s
    refine (ensureLib_sim s l).bind fun x => (sim_lift _).bind fun y => ?_
    obtain ⟨s2, r⟩ := y
    cases r with
    | some a => exact (sim_lift _).bind fun s => sim_ret _
    | none => exact ih s2

theorem prepareSymbol_sim (env : Env) (s : State) (b : Nat) :
    Sim (prepareSymbol env s b) (s.prepareSymbol env b) :=
  (sim_lift _).bind fun _ => prepareLoop_sim _ _ _ _ _

theorem insertAtHead_sim (s : State) (b head : Nat) :
    Sim (insertAtHead s b head) (s.insertAtHead b head) :=
  (sim_lift _).bind fun _ => (sim_lift _).bind fun _ => (sim_lift _).bind fun _ =>
    (sim_lift _).bind fun _ => (addto_sim _ _ _ _).bind fun _ => sim_ret _

/-- The part of `rewrite_wrapper_orders` after the block for "main". -/
theorem rewriteTail_sim (s : State) (b : Nat) (xb : IBinding) (p : Int) :
    Sim (do
      match ← lift (nameLookup s.funTab xb.user.name) with
      | none => do
        let t ← addto s.funTab xb.user.name b (strhash xb.user.name)
        pure ({ s with funTab := t }, (⟨true, true⟩ : RWO))
      | some head => do
        let hp ← lift (s.bindPriority head)
        if hp < p then do
          let s ← insertAtHead s b head
          pure (s, ⟨false, true⟩)
        else
          match ← lift (findPos s p xb.user.wrapper (s.binds.length + 1) head) with
          | none => pure (s, ⟨false, false⟩)
          | some pos => do
            let s ← lift (s.insertAfter b pos)
            pure (s, ⟨false, false⟩)) (do
      match ← nameLookup s.funTab xb.user.name with
      | none =>
        let t ← s.funTab.addto xb.user.name b (strhash xb.user.name)
        .ok ({ s with funTab := t }, (⟨true, true⟩ : RWO))
      | some head =>
        let hp ← s.bindPriority head
        if hp < p then
          let s ← s.insertAtHead b head
          .ok (s, ⟨false, true⟩)
        else
          match ← findPos s p xb.user.wrapper (s.binds.length + 1) head with
          | none => .ok (s, ⟨false, false⟩)
          | some pos =>
            let s ← s.insertAfter b pos
            .ok (s, ⟨false, false⟩)) := by
  refine (sim_lift _).bind fun r => ?_
  cases r with
  | none => exact (addto_sim _ _ _ _).bind fun _ => sim_ret _
  | some head =>
    refine (sim_lift _).bind fun hp => Sim.ite ((insertAtHead_sim _ _ _).bind fun _ => sim_ret _) ?_
    refine (sim_lift _).bind fun r => ?_
    cases r with
    | none => exact sim_ret _
    | some pos => exact (sim_lift _).bind fun _ => sim_ret _

theorem rewriteOrders_full {om : State → M State} {om' : State → Except Fault State}
    (ho : ∀ s, Full (om s) (om' s)) (s : State) (b : Nat) :
    Full (rewriteOrders om s b) (Gotcha.rewriteOrders om' s b) := by
  refine Full.bind (sim_lift _).toFull fun xb => Full.bind (sim_lift _).toFull fun p => ?_
  split
  · exact Full.bind (ho s) fun s1 => (rewriteTail_sim s1 b xb p).toFull
  · exact Full.bind (sim_ret s).toFull fun s1 => (rewriteTail_sim s1 b xb p).toFull

/-- For a name other than "main" the block for "main" does not matter. -/
theorem rewriteOrders_part {om : State → M State} {om' : State → Except Fault State} {s : State}
    {b : Nat} (hn : ∀ xb, s.bind b = .ok xb → xb.user.name ≠ nm "main") {o k x k'}
    (h : rewriteOrders om s b o k = .ok (x, k')) :
    Gotcha.rewriteOrders om' s b = .ok x ∧ users x.1 = users s := by
  obtain ⟨xb, k1, h1, h⟩ := mbind_ok h
  have h1 := (sim_lift _).part h1
  obtain ⟨p, k2, h2, h⟩ := mbind_ok h
  have h2 := (sim_lift _).part h2
  have hne := hn xb h1
  have h3 := h
  rw [if_neg hne] at h3
  have h4 := (rewriteTail_sim s b xb p).part h3
  have e : Gotcha.rewriteOrders om' s b = .ok x := by
    unfold Gotcha.rewriteOrders
    simp only [h1, h2, bind, Except.bind, if_neg hne]
    exact h4
  refine ⟨e, ?_⟩
  clear e h h3
  obtain ⟨r, -, e⟩ := ebind h4
  cases r with
  | none =>
    obtain ⟨t, -, e⟩ := ebind e
    cases e
    rfl
  | some head =>
    obtain ⟨hp, -, e⟩ := ebind e
    split at e
    · obtain ⟨s2, h2, e⟩ := ebind e
      cases e
      exact insertAtHead_users h2
    · obtain ⟨r, -, e⟩ := ebind e
      cases r with
      | none => cases e; rfl
      | some pos =>
        obtain ⟨s2, h2, e⟩ := ebind e
        cases e
        exact insertAfter_users h2

theorem updateLib_sim (env : Env) (t : HTable Name Nat) (s : State) (l : Lib) (n : Bool) :
    Sim (updateLib env t s l n) (s.updateLib env t l n) := by
  refine (ensureLib_sim s l).bind fun x => ?_
  obtain ⟨s1, r⟩ := x
  refine (sim_lift _).bind fun a => Sim.ite (sim_ret _) ?_
  cases hr : s1.libs[r]? with
  | none => exact sim_fail _
  | some rec =>
    refine Sim.ite (sim_ret _) ?_
    have tail : ∀ s2 : State, Sim (do
          match ← lift (Elf.relocs l.img) with
          | none => pure s2
          | some rl => do
            let s ← lift (writeRelocs t l.addr rl s2)
            pure { s with libs := s.libs.modify r (fun x => { x with gen := s.gen }) }) (do
          match ← Elf.relocs l.img with
          | none => .ok s2
          | some rl =>
            let s ← writeRelocs t l.addr rl s2
            .ok { s with libs := s.libs.modify r (fun x => { x with gen := s.gen }) }) := by
      intro s2
      refine (sim_lift _).bind fun o => ?_
      cases o with
      | none => exact sim_ret _
      | some rl => exact (sim_lift _).bind fun _ => sim_ret _
    split
    · exact (sim_ret _).bind tail
    · exact (sim_lift _).bind fun _ => (sim_ret _).bind tail

theorem updateLibs_sim (env : Env) (t : HTable Name Nat) (ls : List Lib) : ∀ s,
    Sim (updateLibs env t ls s) (Gotcha.updateLibs env t ls s) := by
  induction ls with
  | nil => intro s; exact sim_ret _
  | cons l ls ih => intro s; exact (updateLib_sim env t s l _).bind fun s => ih s

theorem updateAll_sim (env : Env) (t : HTable Name Nat) (s : State) :
    Sim (updateAll env t s) (s.updateAll env t) := updateLibs_sim _ _ _ _

theorem create_some {page n : Nat} {o : Nat → Bool} {k k' : Nat} {t : HTable K D}
    (h : create page n o k = .ok (some t, k')) : HTable.create page n = .ok t := by
  obtain ⟨x, k1, h1, h⟩ := mbind_ok h
  have h1 := (sim_lift _).part h1
  obtain ⟨b, k2, h2, h⟩ := mbind_ok h
  cases b
  · cases h
  · cases h; exact h1

theorem create_full (page n : Nat) :
    Full (create page n : M (Option (HTable K D))) ((HTable.create page n).map some) := by
  refine ⟨fun {o} k ho => ?_⟩
  unfold create
  rw [mbind]
  cases h : (HTable.create page n : Except Fault (HTable K D)) with
  | error e => rfl
  | ok t =>
    simp only [lift]
    rw [mbind]
    simp only [alloc, ho]
    rfl

theorem addNew_sim (env : Env) (n : Nat) (nb : Option (HTable Name Nat)) (name : Name) (b : Nat) :
    Sim (addNew env n nb name b) (Gotcha.addNew env n nb name b) := by
  have tail : ∀ t : HTable Name Nat, Sim (do
        let t ← addto t name b (strhash name)
        pure (some t)) (do
        let t ← t.addto name b (strhash name)
        .ok (some t)) := fun t => (addto_sim _ _ _ _).bind fun _ => sim_ret _
  cases nb with
  | some t => exact (sim_ret t).bind tail
  | none =>
    have assoc : addNew env n none name b = ((do
        match ← create env.page (n * 2) with
        | some t => pure t
        | none => fail .uninit : M (HTable Name Nat)) >>= fun t => do
          let t ← addto t name b (strhash name)
          pure (some t)) := by
      funext o k
      show ((create env.page (n * 2) : M (Option (HTable Name Nat))) >>= _) o k = _
      rw [mbind, mbind, mbind]
      cases (create env.page (n * 2) : M (Option (HTable Name Nat))) o k with
      | error e => rfl
      | ok y => obtain ⟨y, k1⟩ := y; cases y <;> rfl
    rw [assoc]
    refine Sim.bind (m := do
        match ← create env.page (n * 2) with
        | some t => pure t
        | none => fail .uninit) (e := HTable.create env.page (n * 2)) ⟨?_, ?_⟩ tail
    · intro o k x k' h
      obtain ⟨r, k1, h1, h⟩ := mbind_ok h
      cases r with
      | none => cases h
      | some t => cases h; exact create_some h1
    · intro o k ho
      have := create_full (K := Name) (D := Nat) env.page (n * 2) |>.run k ho
      rw [mbind]
      cases hc : (create env.page (n * 2) : M (Option (HTable Name Nat))) o k with
      | error e =>
        rw [hc] at this
        cases hh : (HTable.create env.page (n * 2) : Except Fault (HTable Name Nat)) with
        | error e' => rw [hh] at this; cases this; rfl
        | ok t => rw [hh] at this; cases this
      | ok y =>
        obtain ⟨y, k1⟩ := y
        rw [hc] at this
        cases hh : (HTable.create env.page (n * 2) : Except Fault (HTable Name Nat)) with
        | error e' => rw [hh] at this; cases this
        | ok t => rw [hh] at this; cases this; rfl

/-- One round of the loop of `gotcha_wrap` after `rewrite_wrapper_orders`. -/
theorem lookupPart_sim (env : Env) (s : State) (b nf : Nat) (name : Name) (c : Bool) :
    Sim (if c = true then do
        let (s, ok) ← prepareSymbol env s b
        if ok then pure (s, nf)
        else do
          let t ← addto s.notFound name b (strhash name)
          pure ({ s with notFound := t }, nf + 1)
      else pure (s, nf)) (if c = true then do
        let (s, ok) ← s.prepareSymbol env b
        if ok then .ok (s, nf)
        else do
          let t ← s.notFound.addto name b (strhash name)
          .ok ({ s with notFound := t }, nf + 1)
      else .ok (s, nf)) := by
  refine Sim.ite ((prepareSymbol_sim env s b).bind fun x => ?_) (sim_ret _)
  exact Sim.ite (sim_ret _) ((addto_sim _ _ _ _).bind fun _ => sim_ret _)

theorem newPart_sim (env : Env) (n : Nat) (nb : Option (HTable Name Nat)) (name : Name) (b : Nat)
    (c : Bool) : Sim (if c = true then addNew env n nb name b else pure nb)
      (if c = true then Gotcha.addNew env n nb name b else .ok nb) :=
  Sim.ite (addNew_sim _ _ _ _ _) (sim_ret _)

/-- The first half of `Sim`, with a property of the result. -/
structure Part {α : Type} (m : M α) (e : Except Fault α) (P : α → Prop) : Prop where
  run : ∀ {o k x k'}, m o k = .ok (x, k') → e = .ok x ∧ P x

theorem Part.bind {α β : Type} {m : M α} {e : Except Fault α} {f : α → M β}
    {g : α → Except Fault β} {P : α → Prop} {Q : β → Prop} (h1 : Part m e P)
    (h2 : ∀ x, P x → Part (f x) (g x) Q) : Part (m >>= f) (e >>= g) Q := by
  refine ⟨fun {o k y k'} h => ?_⟩
  obtain ⟨x, k1, e1, e2⟩ := mbind_ok h
  obtain ⟨e1, p⟩ := h1.run e1
  rw [e1]
  exact (h2 x p).run e2

theorem Sim.toPart {α : Type} {m : M α} {e : Except Fault α} {P : α → Prop} (h : Sim m e)
    (hp : ∀ {x}, e = .ok x → P x) : Part m e P :=
  ⟨fun hx => ⟨h.part hx, hp (h.part hx)⟩⟩

/-- No binding in the list is one for "main". -/
def NoMain (us : List UBinding) (bs : List Nat) : Prop :=
  ∀ b ∈ bs, ∀ u, us[b]? = some u → u.name ≠ nm "main"

theorem noMain_bind {s : State} {bs : List Nat} {b : Nat} (h : NoMain (users s) (b :: bs)) :
    ∀ xb, s.bind b = .ok xb → xb.user.name ≠ nm "main" := by
  intro xb hb
  unfold State.bind at hb
  split at hb
  · cases hb
  · rename_i x hx
    cases hb
    exact h b (by simp) xb.user (by simp [users, hx])

theorem processBindings_part {env : Env} {om : State → M State} {om' : State → Except Fault State}
    {n : Nat} (bs : List Nat) : ∀ {s : State} {nb nf}, NoMain (users s) bs →
    Part (processBindings env om n bs s nb nf) (Gotcha.processBindings env om' n bs s nb nf)
      (fun _ => True) := by
  induction bs with
  | nil => intro s nb nf _; exact (sim_ret _).toPart fun _ => trivial
  | cons b bs ih =>
    intro s nb nf hn
    refine Part.bind (P := fun xb => s.bind b = .ok xb) ((sim_lift _).toPart id) fun xb hb => ?_
    refine Part.bind (P := fun x => users x.1 = users s)
      ⟨fun h => rewriteOrders_part (noMain_bind hn) h⟩ fun x hx => ?_
    obtain ⟨s1, r⟩ := x
    have tail : ∀ s2 nf2, users s2 = users s → Part
        (if r.binding = true then do
            let nb ← addNew env n nb xb.user.name b
            processBindings env om n bs s2 nb nf2
          else do
            let nb ← pure nb
            processBindings env om n bs s2 nb nf2)
        (if r.binding = true then do
            let nb ← Gotcha.addNew env n nb xb.user.name b
            Gotcha.processBindings env om' n bs s2 nb nf2
          else do
            let nb ← Except.ok nb
            Gotcha.processBindings env om' n bs s2 nb nf2) (fun _ => True) := by
      intro s2 nf2 hs2
      have hn2 : NoMain (users s2) bs := by
        rw [hs2]; exact fun b' hb' => hn b' (List.mem_cons_of_mem _ hb')
      split
      · exact Part.bind (P := fun _ => True) ((addNew_sim _ _ _ _ _).toPart fun _ => trivial)
          fun nb2 _ => ih hn2
      · exact Part.bind (P := fun _ => True) ((sim_ret _).toPart fun _ => trivial)
          fun nb2 _ => ih hn2
    dsimp only
    split
    · refine Part.bind (P := fun x => users x.1 = users s) ((prepareSymbol_sim env s1 b).toPart
        fun e => (prepareSymbol_users e).trans hx) fun x hx => ?_
      obtain ⟨s3, ok⟩ := x
      dsimp only
      split
      · exact Part.bind (P := fun x => x = (s3, nf)) ((sim_ret _).toPart fun e => (eok e).symm)
          fun x e => by subst e; exact tail _ _ hx
      · refine Part.bind (P := fun _ => True) ((addto_sim _ _ _ _).toPart fun _ => trivial) fun t _ => ?_
        exact Part.bind (P := fun x => x = ({ s3 with notFound := t }, nf + 1))
          ((sim_ret _).toPart fun e => (eok e).symm)
          fun x e => by subst e; exact tail _ _ hx
    · exact Part.bind (P := fun x => x = (s1, nf)) ((sim_ret _).toPart fun e => (eok e).symm)
          fun x e => by subst e; exact tail _ _ hx

theorem processBindings_full {env : Env} {om : State → M State} {om' : State → Except Fault State}
    (ho : ∀ s, Full (om s) (om' s)) {n : Nat} (bs : List Nat) : ∀ {s : State} {nb nf},
    Full (processBindings env om n bs s nb nf) (Gotcha.processBindings env om' n bs s nb nf) := by
  induction bs with
  | nil => intro s nb nf; exact (sim_ret _).toFull
  | cons b bs ih =>
    intro s nb nf
    refine Full.bind (sim_lift _).toFull fun xb => ?_
    refine Full.bind (rewriteOrders_full ho s b) fun x => ?_
    obtain ⟨s1, r⟩ := x
    have tail : ∀ s2 nf2, Full
        (if r.binding = true then do
            let nb ← addNew env n nb xb.user.name b
            processBindings env om n bs s2 nb nf2
          else do
            let nb ← pure nb
            processBindings env om n bs s2 nb nf2)
        (if r.binding = true then do
            let nb ← Gotcha.addNew env n nb xb.user.name b
            Gotcha.processBindings env om' n bs s2 nb nf2
          else do
            let nb ← Except.ok nb
            Gotcha.processBindings env om' n bs s2 nb nf2) := by
      intro s2 nf2
      split
      · exact Full.bind (addNew_sim _ _ _ _ _).toFull fun nb2 => ih
      · exact Full.bind (sim_ret _).toFull fun nb2 => ih
    dsimp only
    split
    · refine Full.bind (prepareSymbol_sim env s1 b).toFull fun x => ?_
      obtain ⟨s3, ok⟩ := x
      dsimp only
      split
      · exact Full.bind (sim_ret (s3, nf)).toFull fun x => tail _ _
      · refine Full.bind (addto_sim _ _ _ _).toFull fun t => ?_
        exact Full.bind (sim_ret _).toFull fun x => tail _ _
    · exact Full.bind (sim_ret _).toFull fun x => tail _ _

theorem createTool_some {ts ts' : Tools} {name : Name} {i : Nat} {o k k'}
    (h : createTool ts name o k = .ok (some (ts', i), k')) : ts.create name = .ok (ts', i) := by
  obtain ⟨b, k1, -, h⟩ := mbind_ok h
  cases b
  · cases h
  · obtain ⟨r, k2, h2, h⟩ := mbind_ok h
    obtain ⟨b, k3, -, h⟩ := mbind_ok h
    cases h
    exact (sim_lift _).part h2

theorem getOrCreate_some {ts ts' : Tools} {name : Name} {i : Nat} {o k k'}
    (h : getOrCreate ts name o k = .ok (some (ts', i), k')) : ts.getOrCreate name = .ok (ts', i) := by
  obtain ⟨r, k1, h1, h⟩ := mbind_ok h
  have h1 := (sim_lift _).part h1
  unfold Tools.getOrCreate
  rw [h1]
  cases r with
  | some j => cases h; rfl
  | none => exact createTool_some h

theorem getOrCreate_full (ts : Tools) (name : Name) :
    Full (getOrCreate ts name) ((ts.getOrCreate name).map some) := by
  refine ⟨fun {o} k ho => ?_⟩
  unfold Tools.getOrCreate getOrCreate
  rw [mbind]
  cases h : ts.getTool name with
  | error e => rfl
  | ok r =>
    cases r with
    | some i => rfl
    | none =>
      simp only [lift]
      unfold createTool
      rw [mbind]
      simp only [alloc, ho, if_true]
      rw [mbind]
      cases ts.create name with
      | error e => rfl
      | ok y => rfl

theorem addBindingToTool_ok {tool : Nat} {table : List UBinding} {s s' : State} {b : Bool} {o k k'}
    (h : addBindingToTool tool table s o k = .ok ((s', b), k')) : s' = addBindings tool table s := by
  obtain ⟨_, k1, -, h⟩ := mbind_ok h
  obtain ⟨a, k2, -, h⟩ := mbind_ok h
  split at h
  · obtain ⟨_, k4, -, h⟩ := mbind_ok h
    cases h; rfl
  · split at h
    · obtain ⟨_, k4, -, h⟩ := mbind_ok h
      cases h; rfl
    · obtain ⟨_, k4, h4, h⟩ := mbind_ok h
      cases h4

theorem addBindingToTool_full (tool : Nat) (table : List UBinding) (s : State) :
    Full (addBindingToTool tool table s) (.ok (addBindings tool table s, true)) := by
  refine ⟨fun {o} k ho => ?_⟩
  unfold addBindingToTool need
  simp only [mbind, alloc, ho, if_true]
  rfl

theorem Full.ok {α : Type} {m : M α} {e : Except Fault α} {x : α} (h : Full m e) (he : e = .ok x)
    {o : Nat → Bool} (ho : ∀ i, o i = true) (k : Nat) : ∃ k', m o k = .ok (x, k') := by
  have := h.run k ho
  rw [he] at this
  cases hm : m o k with
  | error f => rw [hm] at this; cases this
  | ok y => rw [hm] at this; obtain ⟨y, k'⟩ := y; cases this; exact ⟨k', rfl⟩

theorem Full.error {α : Type} {m : M α} {e : Except Fault α} {f : Fault} (h : Full m e)
    (he : e = .error f) {o : Nat → Bool} (ho : ∀ i, o i = true) (k : Nat) : m o k = .error f := by
  have := h.run k ho
  rw [he] at this
  cases hm : m o k with
  | error f => rw [hm] at this; cases this; rfl
  | ok y => rw [hm] at this; cases this

/-- What `gotcha_wrap` returns when it does not return GOTCHA_INTERNAL. -/
def done (x : State × RetCode) : State × Option RetCode := (x.1, some x.2)

theorem wrapCore_full {env : Env} {om : State → M State} {om' : State → Except Fault State}
    (ho : ∀ s, Full (om s) (om' s)) (table : List UBinding) (tool : Option Name) (s : State) :
    Full (wrapCore env om table tool s) ((Gotcha.wrapCore env om' table tool s).map done) := by
  refine ⟨fun {o} k hk => ?_⟩
  unfold wrapCore Gotcha.wrapCore
  have h1 := getOrCreate_full (table.foldl (fun s u => s.setHandle u.handle none) s).tools
    (tool.getD (nm "[UNSPECIFIED]"))
  rw [mbind]
  cases e1 : (table.foldl (fun s u => s.setHandle u.handle none) s).tools.getOrCreate
    (tool.getD (nm "[UNSPECIFIED]")) with
  | error f =>
    rw [e1] at h1
    rw [h1.error rfl hk]
    simp only [bind, Except.bind, e1]
    rfl
  | ok x =>
    rw [e1] at h1
    obtain ⟨k1, h1⟩ := h1.ok rfl hk k
    obtain ⟨ts, tid⟩ := x
    rw [h1]
    dsimp only
    rw [mbind]
    obtain ⟨k2, h2⟩ := (addBindingToTool_full tid table
      { (table.foldl (fun s u => s.setHandle u.handle none) s) with
        tools := ts
        gen := (table.foldl (fun s u => s.setHandle u.handle none) s).gen + 1 }).ok rfl hk k1
    rw [h2]
    simp only [Bool.not_true, Bool.false_eq_true, if_false, bind, Except.bind, e1]
    have h3 := processBindings_full (env := env) ho (n := table.length)
      (List.range' (table.foldl (fun s u => s.setHandle u.handle none) s).binds.length table.length)
      (s := addBindings tid table
      { (table.foldl (fun s u => s.setHandle u.handle none) s) with
        tools := ts
        gen := (table.foldl (fun s u => s.setHandle u.handle none) s).gen + 1 }) (nb := none) (nf := 0)
    generalize Gotcha.processBindings env om' table.length _ _ none 0 = e3 at h3
    cases e3 with
    | error f => simp only [M.andThen, h3.error rfl hk]; rfl
    | ok y =>
      obtain ⟨k3, h3⟩ := h3.ok rfl hk k2
      obtain ⟨s3, nb, nf⟩ := y
      simp only [M.andThen, h3]
      cases nb with
      | none => rfl
      | some t =>
        have h4 := (updateAll_sim env t s3).toFull
        dsimp only
        cases e4 : s3.updateAll env t with
        | error f => simp only [M.andThen, h4.error e4 hk]; rfl
        | ok s4 =>
          obtain ⟨k4, h4⟩ := h4.ok e4 hk k3
          simp only [M.andThen, h4]; rfl

theorem wrapCore_part {env : Env} {om : State → M State} {om' : State → Except Fault State}
    {table : List UBinding} {tool : Option Name} {s s' : State} {c : RetCode} {o k k'}
    (hn : ∀ u ∈ table, u.name ≠ nm "main")
    (h : wrapCore env om table tool s o k = .ok ((s', some c), k')) :
    Gotcha.wrapCore env om' table tool s = .ok (s', c) := by
  unfold Gotcha.wrapCore
  obtain ⟨r, k1, h1, h⟩ := mbind_ok h
  cases r with
  | none => cases h
  | some r =>
    obtain ⟨ts, tid⟩ := r
    simp only [bind, Except.bind, getOrCreate_some h1]
    obtain ⟨⟨s1, ok⟩, k2, h2, h⟩ := mbind_ok h
    have := addBindingToTool_ok h2
    subst this
    cases ok with
    | false => cases h
    | true =>
      obtain ⟨⟨s3, nb, nf⟩, k3, h3, h⟩ := mbind_ok h
      have hm : NoMain (users (addBindings tid table
          { (table.foldl (fun s u => s.setHandle u.handle none) s) with
            tools := ts
            gen := (table.foldl (fun s u => s.setHandle u.handle none) s).gen + 1 }))
          (List.range' (table.foldl (fun s u => s.setHandle u.handle none) s).binds.length
            table.length) := by
        intro b hb u hu
        rw [addBindings_users] at hu
        obtain ⟨i, hi, rfl⟩ := List.mem_range'.mp hb
        have hl : (users { (table.foldl (fun s u => s.setHandle u.handle none) s) with
            tools := ts
            gen := (table.foldl (fun s u => s.setHandle u.handle none) s).gen + 1 }).length =
            (table.foldl (fun s u => s.setHandle u.handle none) s).binds.length := by simp [users]
        rw [List.getElem?_append_right (by omega)] at hu
        exact hn u (List.mem_of_getElem? hu)
      have h3 := ((processBindings_part (om' := om') _ hm).run h3).1
      rw [h3]
      cases nb with
      | none =>
        cases h; rfl
      | some t =>
        obtain ⟨s4, k4, h4, h⟩ := mbind_ok h
        have h4 := (updateAll_sim env t s3).part h4
        dsimp only
        rw [h4]
        cases h; rfl

/-- What is left of a `gotcha_wrap` that returns GOTCHA_INTERNAL: the handles of the table are cleared;
and if the tool could be created, the generation is raised and the bindings are recorded. -/
theorem wrapCore_internal {env : Env} {om : State → M State} {table : List UBinding}
    {tool : Option Name} {s s' : State} {o k k'}
    (h : wrapCore env om table tool s o k = .ok ((s', none), k')) :
    s' = table.foldl (fun s u => s.setHandle u.handle none) s ∨
    ∃ ts tid, s' = addBindings tid table
      { (table.foldl (fun s u => s.setHandle u.handle none) s) with
        tools := ts
        gen := (table.foldl (fun s u => s.setHandle u.handle none) s).gen + 1 } := by
  obtain ⟨r, k1, h1, h⟩ := mbind_ok h
  cases r with
  | none => cases h; exact Or.inl rfl
  | some r =>
    obtain ⟨ts, tid⟩ := r
    obtain ⟨⟨s1, ok⟩, k2, h2, h⟩ := mbind_ok h
    have := addBindingToTool_ok h2
    subst this
    cases ok with
    | false => cases h; exact Or.inr ⟨ts, tid, rfl⟩
    | true =>
      obtain ⟨⟨s3, nb, nf⟩, k3, h3, h⟩ := mbind_ok h
      cases nb with
      | none => cases h
      | some t => obtain ⟨s4, k4, h4, h⟩ := mbind_ok h; cases h

theorem onMainReal_full (env : Env) (s : State) :
    Full (onMainReal env s) (Gotcha.onMainReal env s) := by
  unfold onMainReal Gotcha.onMainReal wrapInner Gotcha.wrapInner
  split
  · exact (sim_ret _).toFull
  · refine ⟨fun {o} k hk => ?_⟩
    have f : ∀ (t : List UBinding) (s : State), _ := fun t s =>
      wrapCore_full (env := env) (om := fun s => pure s) (om' := fun s => .ok s)
        (fun s => (sim_ret s).toFull) t (some (nm "gotcha")) s
    have h1 := f (libcMainTable env) { s with mainWrapped := true }
    simp only [bind, Except.bind]
    cases e1 : Gotcha.wrapCore env (fun s => .ok s) (libcMainTable env) (some (nm "gotcha"))
      { s with mainWrapped := true } with
    | error e => rw [e1] at h1; simp only [M.andThen, h1.error rfl hk]; rfl
    | ok x =>
      obtain ⟨s1, c1⟩ := x
      rw [e1] at h1
      obtain ⟨k1, h1⟩ := h1.ok rfl hk k
      have h2 := f (mainTable env) s1
      simp only [M.andThen, h1, done]
      cases e2 : Gotcha.wrapCore env (fun s => .ok s) (mainTable env) (some (nm "gotcha")) s1 with
      | error e => rw [e2] at h2; rw [h2.error rfl hk]; rfl
      | ok x =>
        obtain ⟨s2, c2⟩ := x
        rw [e2] at h2
        obtain ⟨k2, h2⟩ := h2.ok rfl hk k1
        rw [h2]; rfl

theorem wrapBody_full (env : Env) (table : List UBinding) (tool : Option Name) (s : State) :
    Full (wrapBody env table tool s) ((Gotcha.wrapBody env table tool s).map done) :=
  wrapCore_full (onMainReal_full env) _ _ _

theorem gotchaInit_full (env : Env) (s : State) :
    Full (gotchaInit env s) (Gotcha.gotchaInit env s) := by
  unfold gotchaInit Gotcha.gotchaInit
  split
  · exact (sim_ret _).toFull
  · refine ⟨fun {o} k hk => ?_⟩
    simp only [bind, Except.bind]
    have h1 := create_full (K := Addr) (D := Nat) env.page 128
    cases e1 : (HTable.create env.page 128 : Except Fault (HTable Addr Nat)) with
    | error e => rw [e1] at h1; simp only [M.andThen, h1.error rfl hk]; rfl
    | ok lt =>
      rw [e1] at h1
      obtain ⟨k1, h1⟩ := h1.ok rfl hk k
      simp only [M.andThen, h1]
      have h2 := create_full (K := Name) (D := Nat) env.page 4096
      cases e2 : (HTable.create env.page 4096 : Except Fault (HTable Name Nat)) with
      | error e => rw [e2] at h2; rw [h2.error rfl hk]; rfl
      | ok ft =>
        rw [e2] at h2
        obtain ⟨k2, h2⟩ := h2.ok rfl hk k1
        rw [h2]
        have h3 := create_full (K := Name) (D := Nat) env.page 128
        cases e3 : (HTable.create env.page 128 : Except Fault (HTable Name Nat)) with
        | error e => rw [e3] at h3; simp only; rw [h3.error rfl hk]; rfl
        | ok nt =>
          rw [e3] at h3
          obtain ⟨k3, h3⟩ := h3.ok rfl hk k2
          simp only
          rw [h3]
          have h4 := wrapBody_full env (dlTable env) (some (nm "gotcha"))
            { s with inited := true, libTab := lt, funTab := ft, notFound := nt }
          simp only [Option.getD]
          cases e4 : Gotcha.wrapBody env (dlTable env) (some (nm "gotcha"))
            { s with inited := true, libTab := lt, funTab := ft, notFound := nt } with
          | error e => rw [e4] at h4; rw [h4.error rfl hk]; rfl
          | ok x =>
            rw [e4] at h4
            obtain ⟨k4, h4⟩ := h4.ok rfl hk k3
            rw [h4]; rfl

theorem gotchaWrap_full (env : Env) (table : List UBinding) (tool : Option Name) (s : State) :
    Full (gotchaWrap env table tool s) ((Gotcha.gotchaWrap env table tool s).map done) := by
  refine ⟨fun {o} k hk => ?_⟩
  unfold gotchaWrap Gotcha.gotchaWrap
  have h1 := gotchaInit_full env s
  simp only [bind, Except.bind]
  cases e1 : Gotcha.gotchaInit env s with
  | error e => simp only [M.andThen, h1.error e1 hk]; rfl
  | ok s1 =>
    obtain ⟨k1, h1⟩ := h1.ok e1 hk k
    simp only [M.andThen, h1]
    exact (wrapBody_full env table tool s1).run k1 hk

theorem perBinding_sim (env : Env) (key : Option Name) (data : Option Nat) (s : State) :
    Sim (perBinding env key data s) (Gotcha.perBinding env key data s) := by
  unfold perBinding Gotcha.perBinding
  cases key with
  | none => exact sim_fail _
  | some n =>
    cases data with
    | none => exact sim_fail _
    | some b =>
      refine (sim_lift _).bind fun b => (prepareSymbol_sim env s b).bind fun x => ?_
      exact Sim.ite ((sim_lift _).bind fun y => sim_ret _) (sim_ret _)

theorem foreachNotFound_sim (env : Env) : ∀ (n : Nat) (i : Option Nat) (s : State),
    Sim (foreachNotFound env n i s) (foreachEntry State.notFound (Gotcha.perBinding env) n i s)
  | 0, none, s => by
    unfold foreachNotFound foreachEntry; exact sim_ret _
  | n + 1, none, s => by
    unfold foreachNotFound foreachEntry; exact sim_ret _
  | 0, some i, s => by
    unfold foreachNotFound foreachEntry; exact sim_fail _
  | n + 1, some i, s => by
    cases hs : s.notFound.slots[i]? with
    | none => simp only [foreachNotFound, foreachEntry, hs]; exact sim_fail _
    | some e =>
      have assoc : foreachEntry State.notFound (Gotcha.perBinding env) (n + 1) (some i) s =
          (Gotcha.perBinding env e.key e.data s >>= fun x =>
            if x.2 = true then .ok x.1
            else match x.1.notFound.slots[i]? with
              | none => .error Fault.outOfBounds
              | some e' => foreachEntry State.notFound (Gotcha.perBinding env) n e'.next x.1) := by
        simp only [foreachEntry, hs]
        cases Gotcha.perBinding env e.key e.data s with
        | error f => rfl
        | ok x =>
          obtain ⟨s', b⟩ := x
          cases b with
          | true => rfl
          | false =>
            simp only [bind, Except.bind, Bool.false_eq_true, if_false]
            cases s'.notFound.slots[i]? <;> rfl
      rw [assoc]
      simp only [foreachNotFound, hs]
      refine (perBinding_sim env e.key e.data s).bind fun x => ?_
      obtain ⟨s', b⟩ := x
      cases b with
      | true => exact sim_ret _
      | false =>
        dsimp only
        cases s'.notFound.slots[i]? with
        | none => exact sim_fail _
        | some e' => exact foreachNotFound_sim env n e'.next s'

theorem mustCreate_sim {α : Type} {f : Tools × Nat → M α} {g : Tools × Nat → Except Fault α}
    (ts : Tools) (name : Name) (h : ∀ x, Sim (f x) (g x)) :
    Sim (getOrCreate ts name >>= fun r => match r with | none => fail .nullDeref | some x => f x)
      (ts.getOrCreate name >>= g) where
  part := by
    intro o k y k' hy
    obtain ⟨r, k1, h1, hy⟩ := mbind_ok hy
    cases r with
    | none => cases hy
    | some x =>
      rw [getOrCreate_some h1]
      exact (h x).part hy
  full := by
    intro o k ho
    have h1 := getOrCreate_full ts name
    rw [mbind]
    cases e1 : ts.getOrCreate name with
    | error e => rw [e1] at h1; rw [h1.error rfl ho]; rfl
    | ok x =>
      rw [e1] at h1
      obtain ⟨k1, h1⟩ := h1.ok rfl ho k
      rw [h1]
      exact (h x).full k1 ho

theorem Tools_setPriority_bind (ts : Tools) (tool : Name) (v : Int) :
    ts.setPriority tool v = (do
      let x ← ts.getOrCreate tool
      let y ← ({ x.1 with store := x.1.store.modify x.2 (fun t => { t with priority := v }) } :
        Tools).getOrCreate tool
      let ts4 ← y.1.remove y.2
      ts4.reorder y.2) := by
  unfold Tools.setPriority
  simp only [bind, Except.bind]
  cases ts.getOrCreate tool with
  | error e => rfl
  | ok x =>
    dsimp only
    split
    · rename_i e; rw [e]
    · rename_i e; rw [e]; dsimp only; split <;> rename_i e2 <;> rw [e2]

theorem setPriority_sim (s : State) (tool : Name) (v : Int) :
    Sim (do
      match ← getOrCreate s.tools tool with
      | none => fail .nullDeref
      | some (ts1, i) => do
        let ts2 : Tools := { ts1 with store := ts1.store.modify i (fun t => { t with priority := v }) }
        match ← getOrCreate ts2 tool with
        | none => fail .nullDeref
        | some (ts3, j) => do
          let ts4 ← lift (ts3.remove j)
          let ts5 ← lift (ts4.reorder j)
          pure { s with tools := ts5 })
      (do
        let ts ← s.tools.setPriority tool v
        .ok { s with tools := ts }) := by
  have hm : (getOrCreate s.tools tool >>= fun r => match r with
      | none => fail .nullDeref
      | some x => getOrCreate { x.1 with store := x.1.store.modify x.2 (fun t => { t with priority := v }) }
            tool >>= fun r => match r with
        | none => fail .nullDeref
        | some y => do
          let ts4 ← lift (y.1.remove y.2)
          let ts5 ← lift (ts4.reorder y.2)
          pure { s with tools := ts5 }) = (do
      match ← getOrCreate s.tools tool with
      | none => fail .nullDeref
      | some (ts1, i) => do
        let ts2 : Tools := { ts1 with store := ts1.store.modify i (fun t => { t with priority := v }) }
        match ← getOrCreate ts2 tool with
        | none => fail .nullDeref
        | some (ts3, j) => do
          let ts4 ← lift (ts3.remove j)
          let ts5 ← lift (ts4.reorder j)
          pure { s with tools := ts5 }) := by
    refine congrArg (getOrCreate s.tools tool >>= ·) (funext fun r => ?_)
    rcases r with _ | ⟨ts1, i⟩
    · rfl
    · refine congrArg (getOrCreate _ tool >>= ·) (funext fun r => ?_)
      rcases r with _ | ⟨ts3, j⟩ <;> rfl
  rw [← hm]
  rw [Tools_setPriority_bind]
  have e : ∀ {α β γ : Type} (x : Except Fault α) (f : α → Except Fault β) (g : β → Except Fault γ),
      ((x >>= f) >>= g) = (x >>= fun a => f a >>= g) := by
    intro α β γ x f g; cases x <;> rfl
  rw [e]
  refine mustCreate_sim _ _ fun x => ?_
  rw [e]
  refine mustCreate_sim _ _ fun y => ?_
  rw [e]
  exact (sim_lift _).bind fun ts4 => (sim_lift _).bind fun ts5 => sim_ret _

theorem gotchaSetPriority_full (env : Env) (tool : Name) (v : Int) (s : State) :
    Full (gotchaSetPriority env tool v s) (Gotcha.gotchaSetPriority env tool v s) :=
  Full.bind (gotchaInit_full env s) fun s => (setPriority_sim s tool v).toFull

theorem gotchaGetPriority_full (env : Env) (tool : Name) (s : State) :
    Full (gotchaGetPriority env tool s) (Gotcha.gotchaGetPriority env tool s) :=
  Full.bind (gotchaInit_full env s) fun s =>
    ((sim_lift (s.tools.getPriority tool)).bind fun v => sim_ret (s, v)).toFull

theorem dlopenWrapper_sim (env : Env) (ld : Load) (s : State) :
    Sim (dlopenWrapper env ld s) (Gotcha.dlopenWrapper env ld s) :=
  (sim_lift _).bind fun _ => (foreachNotFound_sim env _ _ _).bind fun _ => updateAll_sim _ _ _

end Gotcha.Oom
