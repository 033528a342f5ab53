import Verif.Spec.Weak
import Verif.Proof.TraceDl
/-
Interleavings cover what store buffers and release stores allow; the stores of GOTCHA one at a time.
-/
namespace Gotcha
open HTable Tr Spec

theorem step_view (P : Addr → Option HAddr) (σ : State) (pos : Pos) : Spec.step P (view σ) pos = Spec.next P σ pos := by
  cases pos with
  | slot a => rfl
  | jump a ran =>
    unfold Spec.step Spec.next advance reads
    cases hp : P a with
    | none => simp only [hp]
    | some h =>
      simp only [hp, Option.map_some, Option.bind_some, view]
      cases σ.handles h <;> rfl
  | got b ran =>
    unfold Spec.step Spec.next advance reads
    simp only [Option.bind_some, view]
    cases σ.binds[b]? with
    | none => rfl
    | some x =>
      simp only [Option.bind_some]
      cases x.wrappee <;> rfl
  | done ran => rfl

theorem step_congr {P : Addr → Option HAddr} {m m' : Mem} {pos : Pos} (h : ∀ p, reads P pos = some p → m p = m' p) :
    Spec.step P m pos = Spec.step P m' pos := by
  unfold Spec.step
  cases hr : reads P pos with
  | none => rfl
  | some p => simp only [Option.bind_some, h p hr]

/-! ### store buffers -/

theorem does_suffix {m : Mem} : ∀ {xs ys : List Store} {tr : List State}, Does m (xs ++ ys) tr → ∀ {σ}, view σ = m →
    ∃ σ' tr', (σ' :: tr') <:+ (σ :: tr) ∧ view σ' = xs.foldl put m ∧ Does (view σ') ys tr' := by
  intro xs
  induction xs generalizing m with
  | nil => intro ys tr h σ hσ; exact ⟨σ, tr, List.suffix_refl _, hσ, by rw [hσ]; exact h⟩
  | cons x xs ih =>
    intro ys tr h σ hσ
    cases tr with
    | nil => exact h.elim
    | cons σ1 tr =>
      obtain ⟨h1, h2⟩ := h
      obtain ⟨σ', tr', g1, g2, g3⟩ := ih h2 rfl
      refine ⟨σ', tr', g1.trans (List.suffix_cons _ _), ?_, g3⟩
      rw [g2, h1]; rfl

/-- What is in memory, in the buffer and still to come. -/
structure Late (σ : State) (tr : List State) (c : Cpu) : Prop where
  mem : c.mem = view σ
  rest : Does (view σ) (c.buffer ++ c.todo) tr

theorem Late.steps {c c' : Cpu} (h : Cpu.Steps c c') : ∀ {σ tr}, Late σ tr c →
    ∃ σ' tr', (σ' :: tr') <:+ (σ :: tr) ∧ Late σ' tr' c' := by
  induction h with
  | refl => intro σ tr hl; exact ⟨σ, tr, List.suffix_refl _, hl⟩
  | step h1 _ ih =>
    intro σ tr hl
    cases h1 with
    | issue => exact ih ⟨hl.mem, by have := hl.rest; simpa using this⟩
    | @drain xs x buf m =>
      have hr := hl.rest
      cases tr with
      | nil => exact hr.elim
      | cons σ1 tr =>
        obtain ⟨h2, h3⟩ := hr
        obtain ⟨σ', tr', g1, g2⟩ := ih (σ := σ1) (tr := tr) ⟨by rw [h2]; exact congrArg (put · x) hl.mem, h3⟩
        exact ⟨σ', tr', g1.trans (List.suffix_cons _ _), g2⟩

theorem safe_late {P : Addr → Option HAddr} {Q : List Addr → Prop} {L : List State} {pos : Pos} (h : Safe P Q L pos) :
    ∀ {σ tr c}, (σ :: tr) = L → Late σ tr c → SafeBuffered P Q c pos := by
  induction h with
  | done hq => intro _ _ _ _ _; exact .done hq
  | @step L pos h1 h2 ih =>
    intro σ tr c hL hl
    subst hL
    refine .step ?_ ?_
    · intro c' hc
      obtain ⟨σ', tr', g1, g2⟩ := Late.steps hc hl
      rw [g2.mem, step_view]
      exact h1 σ' tr' g1
    · intro c' pos' hc hp
      obtain ⟨σ', tr', g1, g2⟩ := Late.steps hc hl
      rw [g2.mem, step_view] at hp
      exact ih σ' tr' pos' g1 hp rfl g2

theorem safe_buffered {P : Addr → Option HAddr} {Q : List Addr → Prop} {s : State} {tr : List State} {pos : Pos}
    (h : Safe P Q (s :: tr) pos) {xs : List Store} (hx : Does (view s) xs tr) :
    SafeBuffered P Q ⟨xs, [], view s⟩ pos := safe_late h rfl ⟨rfl, hx⟩

/-! ### release stores -/

theorem safe_released {P : Addr → Option HAddr} {Q : List Addr → Prop} {T L : List State} {pos : Pos} (h : Safe P Q L pos) :
    ∀ {n}, L = T.drop n → SafeReleased P Q T n pos := by
  induction h with
  | done hq => intro _ _; exact .done hq
  | @step L pos h1 h2 ih =>
    intro n hL
    subst hL
    have suf : ∀ {i σ}, n ≤ i → T[i]? = some σ → (σ :: T.drop (i + 1)) <:+ T.drop n := by
      intro i σ hi hσ
      have hlt : i < T.length := by
        rw [List.getElem?_eq_some_iff] at hσ; exact hσ.1
      have e : T.drop i = σ :: T.drop (i + 1) := by
        rw [List.drop_eq_getElem_cons hlt]
        rw [List.getElem?_eq_some_iff] at hσ
        rw [hσ.2]
      rw [← e]
      have : T.drop i = (T.drop n).drop (i - n) := by rw [List.drop_drop]; congr 1; omega
      rw [this]
      exact List.drop_suffix _ _
    refine .step ?_ ?_
    · intro i σ hi hσ
      rw [step_view]
      exact h1 σ _ (suf hi hσ)
    · intro i j σ pos' hi hj hσ hsame hp
      have hlt : i < T.length := by
        rw [List.getElem?_eq_some_iff] at hσ; exact hσ.1
      have hk : max n j < T.length := by omega
      have hσ' : T[max n j]? = some (T[max n j]) := List.getElem?_eq_getElem hk
      have hv := hsame (max n j) _ (by omega) (by omega) hσ'
      rw [← step_congr (m := view (T[max n j])) hv, step_view] at hp
      refine ih (T[max n j]) (T.drop (max n j + 1)) pos' (suf (by omega) hσ') hp ?_
      rw [List.drop_eq_getElem_cons hk]

/-! ### one store at a time -/

/-- At most one place differs. -/
def One (s σ : State) : Prop := ∃ p, ∀ q, q ≠ p → view σ q = view s q

theorem Same.view {s σ : State} (h : Same s σ) : Spec.view σ = Spec.view s := by
  funext p
  cases p with
  | word a => simp only [Spec.view, h.mem]
  | handle x => simp only [Spec.view, h.handles]
  | ptr b => exact congrArg (Option.map Content.addr) (h.rd b)

theorem SameBut.one {s σ : State} {b} (h : SameBut b s σ) : One s σ := by
  refine ⟨.ptr b, ?_⟩
  intro p hp
  cases p with
  | word a => simp only [Spec.view, h.mem]
  | handle x => simp only [Spec.view, h.handles]
  | ptr c => exact congrArg (Option.map Content.addr) (h.rd c (fun e => hp (by rw [e])))

theorem Same.one {s σ : State} (h : Same s σ) : One s σ := ⟨.word 0, fun q _ => by rw [h.view]⟩

/-- The states follow each other, and the last one looks like `s'`. -/
inductive Links : State → List State → State → Prop
  | nil {s s'} : view s' = view s → Links s [] s'
  | cons {s σ tr s'} : One s σ → Links σ tr s' → Links s (σ :: tr) s'

theorem Links.refl (s : State) : Links s [] s := .nil rfl

theorem One.from {s s0 σ : State} (h : One s σ) (he : view s = view s0) : One s0 σ := by
  obtain ⟨p, hp⟩ := h
  exact ⟨p, fun q hq => by rw [← he]; exact hp q hq⟩

theorem Links.from {s s0 s' : State} {tr} (h : Links s tr s') (he : view s = view s0) : Links s0 tr s' := by
  cases h with
  | nil e => exact .nil (e.trans he)
  | cons h1 h2 => exact .cons (h1.from he) h2

theorem Links.trans {s s1 s' : State} {t1 t2} (h : Links s t1 s1) (h' : Links s1 t2 s') : Links s (t1 ++ t2) s' := by
  induction h with
  | nil e => exact h'.from e
  | cons h1 _ ih => exact .cons h1 (ih h')

theorem Links.same {s s1 : State} {t1} (h : Links s t1 s1) {s' : State} (he : Same s1 s') : Links s t1 s' := by
  have := h.trans (Links.nil he.view)
  rwa [List.append_nil] at this

theorem Links.last {s s' : State} {tr} (h : Links s tr s') : ∃ σ ∈ s :: tr, view σ = view s' := by
  induction h with
  | @nil s s' e => exact ⟨s, List.mem_cons_self, e.symm⟩
  | cons _ _ ih =>
    obtain ⟨σ, h1, h2⟩ := ih
    exact ⟨σ, List.mem_cons_of_mem _ h1, h2⟩

theorem Links.does {s s' : State} {tr} (h : Links s tr s') : ∃ xs, Does (view s) xs tr ∧ ∀ x ∈ xs, x.Single := by
  induction h with
  | nil _ => exact ⟨[], trivial, by simp⟩
  | @cons s σ tr s' h1 _ ih =>
    obtain ⟨xs, g1, g2⟩ := ih
    obtain ⟨p, hp⟩ := h1
    refine ⟨(fun q => if q = p then some (view σ p) else none) :: xs, ⟨?_, g1⟩, ?_⟩
    · funext q
      unfold put
      by_cases e : q = p
      · subst e; simp
      · simp only [if_neg e, Option.getD_none]; exact hp q e
    · intro x hx
      rcases List.mem_cons.mp hx with rfl | hx
      · refine ⟨p, fun q hq => ?_⟩
        by_contra e
        exact hq (if_neg e)
      · exact g2 x hx

/-- Any list of states comes from stores. -/
theorem does_any : ∀ (tr : List State) (m : Mem), ∃ xs, Does m xs tr
  | [], m => ⟨[], trivial⟩
  | σ :: tr, m => by
    obtain ⟨xs, h⟩ := does_any tr (view σ)
    exact ⟨(fun q => some (view σ q)) :: xs, rfl, h⟩

/-- A computation that makes its stores one at a time. -/
def Ones {α : Type} (s : State) (x : Tr α) (f : α → State) : Prop := ∀ tr a, x = .ok (tr, a) → Links s tr (f a)

theorem Ones.bind {α β : Type} {s : State} {x : Tr α} {f : α → State} {g : α → Tr β} {h : β → State} (hx : Ones s x f)
    (hg : ∀ a, Ones (f a) (g a) h) : Ones s (x >>= g) h := by
  intro tr b he
  obtain ⟨t1, a, t2, e1, e2, rfl⟩ := ok_bind he
  exact (hx t1 a e1).trans (hg a t2 b e2)

theorem Ones.lift {α β : Type} {s : State} {x : Except Fault α} {g : α → Tr β} {h : β → State}
    (hg : ∀ a, x = .ok a → Ones s (g a) h) : Ones s (lift x >>= g) h := by
  intro tr b he
  obtain ⟨t1, a, t2, e1, e2, rfl⟩ := ok_bind he
  obtain ⟨rfl, e3⟩ := ok_lift e1
  exact hg a e3 t2 b e2

theorem Ones.pure {α : Type} {s : State} {a : α} {f : α → State} (h : Same s (f a)) : Ones s (pure a : Tr α) f := by
  intro tr b he
  obtain ⟨rfl, rfl⟩ := ok_pure he
  exact .nil h.view

theorem Ones.fault {α : Type} {s : State} {e : Fault} {f : α → State} : Ones s (Tr.lift (.error e) : Tr α) f := by
  intro tr b he; cases he

theorem Ones.from {α : Type} {s s0 : State} {x : Tr α} {f : α → State} (h : Ones s x f) (he : Same s0 s) : Ones s0 x f :=
  fun tr a hx => (h tr a hx).from he.view

theorem Ones.tell {β : Type} {s σ : State} {g : Unit → Tr β} {h : β → State} (h1 : One s σ) (hg : Ones σ (g ()) h) :
    Ones s (Tr.tell σ >>= g) h := by
  intro tr b he
  obtain ⟨t1, a, t2, e1, e2, rfl⟩ := ok_bind he
  have := ok_tell e1
  subst this
  exact .cons h1 (hg t2 b e2)

theorem ones_setHandle (s : State) (h v) : Ones s (s.setHandleT h v) id := by
  refine Ones.tell ⟨.handle h, ?_⟩ (Ones.pure (Same.refl _))
  intro q hq
  cases q with
  | word a => rfl
  | handle x =>
    have : x ≠ h := fun e => hq (by rw [e])
    simp [view, State.setHandle, this]
  | ptr b => rfl

theorem ones_setInternal (s : State) (h v) : Ones s (s.setInternalT h v) id := by
  intro tr s' he
  obtain ⟨rfl, e⟩ := setInternalT_ok he
  cases hh : s.handles h with
  | none => unfold State.setInternal at e; rw [hh] at e; cases e
  | some b => exact .cons (setInternal_but hh e).1.one (Links.refl _)

theorem ones_prepareLoop (env : Env) (name : Name) (h : HAddr) : ∀ (ls : List Lib) (s : State),
    Ones s (prepareLoopT env name h ls s) Prod.fst
  | [], s => Ones.pure (Same.refl _)
  | l :: ls, s => by
    rw [prepareLoopT]
    refine Ones.lift ?_
    rintro ⟨s1, n⟩ e1
    refine Ones.lift ?_
    rintro ⟨s2, r⟩ e2
    have hs := (ensureLib_same e1).trans (lookupExported_same e2)
    cases r with
    | none => exact (ones_prepareLoop env name h ls s2).from hs
    | some a =>
      refine Ones.from ?_ hs
      exact Ones.bind (ones_setInternal s2 h (some a)) (fun s3 => Ones.pure (Same.refl _))

theorem ones_prepareSymbol (env : Env) (s : State) (b) : Ones s (s.prepareSymbolT env b) Prod.fst := by
  unfold State.prepareSymbolT
  exact Ones.lift (fun x _ => ones_prepareLoop env _ _ _ s)

theorem ones_insertAtHead (s : State) (b head) : Ones s (s.insertAtHeadT b head) id := by
  unfold State.insertAtHeadT
  refine Ones.lift (fun xb _ => Ones.lift (fun xh _ => ?_))
  refine Ones.tell (same_next s b _).one ?_
  refine Ones.bind (ones_setInternal _ _ _) (fun s1 => Ones.lift ?_)
  rintro ⟨t, _⟩ _
  exact Ones.lift (fun t' _ => Ones.pure (Same.of _ rfl rfl rfl))

theorem ones_insertAfter (s : State) (b pos) : Ones s (s.insertAfterT b pos) id := by
  unfold State.insertAfterT
  refine Ones.lift (fun xb _ => Ones.lift (fun xp _ => ?_))
  refine Ones.bind (ones_setInternal _ _ _) (fun s1 => ?_)
  refine Ones.bind (ones_setInternal _ _ _) (fun s2 => Ones.lift (fun xp' _ => ?_))
  refine Ones.tell (same_next _ b _).one ?_
  exact Ones.tell (same_next _ pos _).one (Ones.pure (Same.refl _))

theorem Ones.ite {α : Type} {s : State} {c : Prop} [Decidable c] {x y : Tr α} {f : α → State} (hx : Ones s x f)
    (hy : Ones s y f) : Ones s (if c then x else y) f := by split <;> assumption

theorem ones_rewriteOrders {om : State → Tr State} (hom : ∀ s, Ones s (om s) id) (s : State) (b) :
    Ones s (rewriteOrdersT om s b) Prod.fst := by
  have key : ∀ (xb : IBinding) (p : Int) (s1 : State), Ones s1 (do
      match ← Tr.lift (nameLookup s1.funTab xb.user.name) with
      | none =>
        let t ← Tr.lift (s1.funTab.addto xb.user.name b (strhash xb.user.name))
        pure ({ s1 with funTab := t }, ⟨true, true⟩)
      | some head =>
        let hp ← Tr.lift (s1.bindPriority head)
        if hp < p then
          let s ← s1.insertAtHeadT b head
          pure (s, ⟨false, true⟩)
        else
          match ← Tr.lift (findPos s1 p xb.user.wrapper (s1.binds.length + 1) head) with
          | none => pure (s1, ⟨false, false⟩)
          | some pos =>
            let s ← s1.insertAfterT b pos
            pure (s, ⟨false, false⟩) : Tr (State × RWO)) Prod.fst := by
    intro xb p s1
    refine Ones.lift (fun o _ => ?_)
    cases o with
    | none => exact Ones.lift (fun t _ => Ones.pure (Same.of _ rfl rfl rfl))
    | some head =>
      refine Ones.lift (fun hp _ => Ones.ite ?_ (Ones.lift (fun q _ => ?_)))
      · exact Ones.bind (ones_insertAtHead _ _ _) (fun s2 => Ones.pure (Same.refl _))
      · cases q with
        | none => exact Ones.pure (Same.refl _)
        | some pos => exact Ones.bind (ones_insertAfter _ _ _) (fun s2 => Ones.pure (Same.refl _))
  unfold rewriteOrdersT
  refine Ones.lift (fun xb _ => Ones.lift (fun p _ => ?_))
  by_cases hm : xb.user.name = nm "main"
  · simp only [if_pos hm]
    exact Ones.bind (hom s) (fun s1 => key xb p s1)
  · simp only [if_neg hm]
    exact Ones.bind (f := id) (Ones.pure (Same.refl _)) (fun s1 => key xb p s1)

theorem ones_write (s : State) (a v) : Ones s (s.writeT a v) id := by
  unfold State.writeT
  refine Ones.lift (fun s1 e => Ones.tell ⟨.word a, ?_⟩ (Ones.pure (Same.refl _)))
  unfold State.write at e
  split at e
  · cases e
    intro q hq
    cases q with
    | word x =>
      have : x ≠ a := fun e => hq (by rw [e])
      simp [view, this]
    | handle x => rfl
    | ptr b => rfl
  · cases e

theorem ones_writeRelocs (t : HTable Name BId) (base : Addr) : ∀ (rl : List (Addr × Name)) (s : State),
    Ones s (writeRelocsT t base rl s) id
  | [], s => Ones.pure (Same.refl _)
  | (off, name) :: rl, s => by
    rw [writeRelocsT]
    refine Ones.lift (fun o _ => ?_)
    cases o with
    | none => exact ones_writeRelocs t base rl s
    | some b => exact Ones.lift (fun x _ => Ones.bind (ones_write _ _ _) (fun s1 => ones_writeRelocs t base rl s1))

theorem markGotWritable_same {env : Env} {s s' : State} {l} (he : s.markGotWritable env l = .ok s') : Same s s' := by
  unfold State.markGotWritable at he
  split at he
  · cases he
  · rename_i rs _
    cases he
    clear * -
    induction rs generalizing s with
    | nil => exact Same.refl _
    | cons r rs ih =>
      rw [List.foldl_cons]
      refine Same.trans ?_ ih
      unfold State.unprotect
      split
      · exact Same.of _ rfl rfl rfl
      · exact Same.refl _

theorem ones_updateLib (env : Env) (t : HTable Name BId) (s : State) (l : Lib) (n : Bool) :
    Ones s (s.updateLibT env t l n) id := by
  unfold State.updateLibT
  refine Ones.lift ?_
  rintro ⟨s1, r⟩ e1
  refine Ones.from ?_ (ensureLib_same e1)
  refine Ones.lift (fun ok _ => Ones.ite (Ones.pure (Same.refl _)) ?_)
  dsimp only
  cases s1.libs[r]? with
  | none => exact Ones.fault
  | some rec =>
    have key : ∀ s2 : State, Ones s2 (do
        match ← Tr.lift (Elf.relocs l.img) with
        | none => pure s2
        | some rl =>
          let s ← writeRelocsT t l.addr rl s2
          pure { s with libs := s.libs.modify r (fun x => { x with gen := s.gen }) } : Tr State) id := by
      intro s2
      refine Ones.lift (fun o _ => ?_)
      cases o with
      | none => exact Ones.pure (Same.refl _)
      | some rl => exact Ones.bind (ones_writeRelocs _ _ _ _) (fun s3 => Ones.pure (Same.of _ rfl rfl rfl))
    refine Ones.ite (Ones.pure (Same.refl _)) (Ones.ite ?_ ?_)
    · exact Ones.bind (f := id) (Ones.pure (Same.refl _)) key
    · refine Ones.lift (fun s2 e2 => Ones.bind (f := id) (Ones.pure ?_) key)
      exact (markGotWritable_same e2).trans (Same.of _ rfl rfl rfl)

theorem ones_updateLibs (env : Env) (t : HTable Name BId) : ∀ (ls : List Lib) (s : State),
    Ones s (updateLibsT env t ls s) id
  | [], s => Ones.pure (Same.refl _)
  | l :: ls, s => by
    rw [updateLibsT]
    exact Ones.bind (ones_updateLib _ _ _ _ _) (fun s1 => ones_updateLibs env t ls s1)

theorem ones_nullHandles : ∀ (us : List UBinding) (s : State), Ones s (nullHandlesT us s) id
  | [], s => Ones.pure (Same.refl _)
  | u :: us, s => by
    rw [nullHandlesT]
    exact Ones.bind (ones_setHandle _ _ _) (fun s1 => ones_nullHandles us s1)

theorem same_addBinding (s : State) (tool : Nat) (u : UBinding) :
    Same s { s with binds := s.binds ++ [{ tool, user := u, next := none, wrappee := none }] } := by
  refine ⟨rfl, rfl, fun c => ?_⟩
  unfold rd
  dsimp only
  by_cases hc : c < s.binds.length
  · rw [List.getElem?_append_left hc]
  · rw [List.getElem?_append_right (by omega), List.getElem?_eq_none (l := s.binds) (by omega)]
    cases hd : c - s.binds.length with
    | zero => rfl
    | succ k => rfl

theorem ones_addBindings (tool : Nat) : ∀ (us : List UBinding) (s : State), Ones s (addBindingsT tool us s) id
  | [], s => Ones.pure (Same.refl _)
  | u :: us, s => by
    rw [addBindingsT]
    refine Ones.tell (same_addBinding s tool u).one ?_
    exact Ones.bind (ones_setHandle _ _ _) (fun s1 => ones_addBindings tool us s1)

theorem ones_processOne (env : Env) {om : State → Tr State} (hom : ∀ s, Ones s (om s) id) (n : Nat) (b : BId)
    (s : State) (nb nf) : Ones s (processOneT env om n b s nb nf) Prod.fst := by
  unfold processOneT
  refine Ones.lift (fun xb _ => Ones.bind (ones_rewriteOrders hom s b) ?_)
  rintro ⟨s1, r⟩
  have key : ∀ x : State × Nat, Ones x.1 (do
      let nb ← Tr.lift (if r.binding = true then addNew env n nb xb.user.name b else Except.ok nb)
      pure (x.1, nb, x.2) : Tr (State × Option (HTable Name BId) × Nat)) Prod.fst :=
    fun x => Ones.lift (fun nb2 _ => Ones.pure (Same.refl _))
  refine Ones.ite (Ones.bind (ones_prepareSymbol env s1 b) ?_) (Ones.bind (f := Prod.fst) (Ones.pure (Same.refl _)) key)
  rintro ⟨s2, ok⟩
  refine Ones.ite (Ones.bind (f := Prod.fst) (Ones.pure (Same.refl _)) key) (Ones.lift (fun t _ => ?_))
  exact Ones.bind (f := Prod.fst) (Ones.pure (Same.of _ rfl rfl rfl)) key

theorem ones_processBindings (env : Env) {om : State → Tr State} (hom : ∀ s, Ones s (om s) id) (n : Nat) :
    ∀ (bs : List BId) (s : State) (nb nf), Ones s (processBindingsT env om n bs s nb nf) Prod.fst
  | [], s, nb, nf => Ones.pure (Same.refl _)
  | b :: bs, s, nb, nf => by
    rw [processBindingsT_cons]
    exact Ones.bind (ones_processOne env hom n b s nb nf) (fun r => ones_processBindings env hom n bs _ _ _)

theorem ones_wrapCore (env : Env) {om : State → Tr State} (hom : ∀ s, Ones s (om s) id) (tbl tool) (s : State) :
    Ones s (wrapCoreT env om tbl tool s) Prod.fst := by
  unfold wrapCoreT
  refine Ones.bind (ones_nullHandles tbl s) (fun s1 => Ones.lift ?_)
  rintro ⟨ts, tid⟩ _
  refine Ones.from (s := { id s1 with tools := ts, gen := (id s1).gen + 1 }) ?_ (Same.of _ rfl rfl rfl)
  refine Ones.bind (ones_addBindings tid tbl _) (fun s2 => ?_)
  refine Ones.bind (ones_processBindings env hom _ _ _ _ _) ?_
  rintro ⟨s3, nb, nf⟩
  cases nb with
  | none => exact Ones.bind (f := id) (Ones.pure (Same.refl _)) (fun s4 => Ones.pure (Same.refl _))
  | some t => exact Ones.bind (ones_updateLibs env t _ _) (fun s4 => Ones.pure (Same.refl _))

theorem ones_onMainReal (env : Env) (s : State) : Ones s (onMainRealT env s) id := by
  unfold onMainRealT
  refine Ones.ite (Ones.pure (Same.refl _)) ?_
  refine Ones.from (s := { s with mainWrapped := true }) ?_ (Same.of _ rfl rfl rfl)
  refine Ones.bind (ones_wrapCore env (fun s => Ones.pure (Same.refl _)) _ _ _) ?_
  rintro ⟨s1, _⟩
  refine Ones.bind (ones_wrapCore env (fun s => Ones.pure (Same.refl _)) _ _ _) ?_
  rintro ⟨s2, _⟩
  exact Ones.pure (Same.refl _)

theorem ones_gotchaInit (env : Env) (s : State) : Ones s (gotchaInitT env s) id := by
  unfold gotchaInitT
  refine Ones.ite (Ones.pure (Same.refl _)) ?_
  refine Ones.lift (fun lt _ => Ones.lift (fun ft _ => Ones.lift (fun nt _ => ?_)))
  refine Ones.from (s := { s with inited := true, libTab := lt, funTab := ft, notFound := nt }) ?_ (Same.of _ rfl rfl rfl)
  refine Ones.bind (ones_wrapCore env (ones_onMainReal env) _ _ _) ?_
  rintro ⟨s1, _⟩
  exact Ones.pure (Same.refl _)

theorem ones_gotchaWrap (env : Env) (tbl tool) (s : State) : Ones s (gotchaWrapT env tbl tool s) Prod.fst := by
  unfold gotchaWrapT
  exact Ones.bind (ones_gotchaInit env s) (fun s1 => ones_wrapCore env (ones_onMainReal env) _ _ _)

theorem ones_perBinding (env : Env) (key data) (s : State) : Ones s (perBindingT env key data s) Prod.fst := by
  unfold perBindingT
  split
  · refine Ones.lift (fun b _ => Ones.bind (ones_prepareSymbol env s b) ?_)
    rintro ⟨s1, ok⟩
    refine Ones.ite (Ones.lift ?_) (Ones.pure (Same.refl _))
    rintro ⟨t, _⟩ _
    exact Ones.pure (Same.of _ rfl rfl rfl)
  · exact Ones.fault

theorem links_foreach (env : Env) (s0 : State) : ∀ (n : Nat) (i : Option Nat) (x y : State × List State),
    foreachEntry (fun x : State × List State => x.1.notFound) (perBindingLog env) n i x = .ok y →
    Links s0 x.2 x.1 → Links s0 y.2 y.1 := by
  intro n
  induction n with
  | zero =>
    intro i x y he hx
    cases i with
    | none => cases he; exact hx
    | some i => cases he
  | succ n ih =>
    intro i x y he hx
    cases i with
    | none => cases he; exact hx
    | some i =>
      unfold foreachEntry at he
      split at he
      · cases he
      · rename_i e _
        have one : ∀ {z st}, perBindingLog env e.key e.data x = .ok (z, st) → Links s0 z.2 z.1 := by
          intro z st hz
          unfold perBindingLog at hz
          split at hz
          · cases hz
          · rename_i tr s st' hp
            cases hz
            exact hx.trans (ones_perBinding env _ _ _ _ _ hp)
        split at he
        · cases he
        · rename_i x' hp; cases he; exact one hp
        · rename_i x' hp
          split at he
          · cases he
          · exact ih _ _ _ he (one hp)

theorem ones_afterDlopen (env : Env) (s : State) : Ones s (s.afterDlopenT env) id := by
  unfold State.afterDlopenT
  refine Ones.lift ?_
  rintro ⟨s1, t1⟩ e1
  have h1 := links_foreach env s _ _ _ _ e1 (Links.refl s)
  intro tr s' he
  obtain ⟨t2, a, t3, e2, e3, rfl⟩ := ok_bind he
  cases e2
  exact h1.trans (ones_updateLibs env _ _ _ _ _ e3)

/-- The handles of a table are NULL for a while. -/
theorem nullHandles_none : ∀ (us : List UBinding) (s : State) {h : HAddr},
    (s.handles h = none ∨ h ∈ us.map UBinding.handle) →
    (us.foldl (fun s u => s.setHandle u.handle none) s).handles h = none
  | [], s, h, hh => by simpa using hh
  | u :: us, s, h, hh => by
    rw [List.foldl_cons]
    refine nullHandles_none us _ ?_
    by_cases e : h = u.handle
    · left; simp [State.setHandle, e]
    · rcases hh with hh | hh
      · left; simp [State.setHandle, e, hh]
      · right
        simp only [List.map_cons, List.mem_cons] at hh
        exact hh.resolve_left e

theorem wrap_null {env : Env} {tbl : List UBinding} {tool} {s : State} {tr res}
    (he : gotchaWrapT env tbl tool s = .ok (tr, res)) {u : UBinding} (hu : u ∈ tbl) :
    ∃ σ ∈ s :: tr, σ.handles u.handle = none := by
  unfold gotchaWrapT at he
  obtain ⟨t1, s1, t2, e1, e2, rfl⟩ := ok_bind he
  have h1 := ones_gotchaInit env s t1 s1 e1
  unfold wrapCoreT at e2
  obtain ⟨t3, s2, t4, e3, -, rfl⟩ := ok_bind e2
  have h2 := h1.trans (ones_nullHandles tbl s1 t3 s2 e3)
  have e4 := erase_nullHandles tbl s1
  rw [e3] at e4
  replace e4 : s2 = tbl.foldl (fun s u => s.setHandle u.handle none) s1 := by
    have : (Except.ok s2 : Except Fault State) = .ok _ := e4
    exact Except.ok.inj this
  obtain ⟨σ, hσ, hv⟩ := h2.last
  refine ⟨σ, ?_, ?_⟩
  · rcases List.mem_cons.mp hσ with rfl | h
    · exact List.mem_cons_self
    · refine List.mem_cons_of_mem _ ?_
      rw [← List.append_assoc]
      exact List.mem_append_left _ h
  · have h3 : s2.handles u.handle = none := by
      rw [e4]
      exact nullHandles_none tbl s1 (Or.inr (List.mem_map.mpr ⟨u, hu, rfl⟩))
    have := congrFun hv (.handle u.handle)
    simp only [view, id, h3, Option.map_none] at this
    cases hx : σ.handles u.handle with
    | none => rfl
    | some b => rw [hx] at this; cases this

/-- Two words do not change in the same step. -/
theorem links_apart {s s' : State} {tr : List State} (h : Links s tr s') {a b : Addr} (hab : a ≠ b)
    (ha : s'.mem a ≠ s.mem a) (hb : s'.mem b ≠ s.mem b) :
    ∃ σ ∈ tr, (σ.mem a ≠ s.mem a ∧ σ.mem b = s.mem b) ∨ (σ.mem a = s.mem a ∧ σ.mem b ≠ s.mem b) := by
  induction h with
  | @nil s s' e =>
    have := congrFun e (.word a)
    simp only [view, Option.some.injEq, Content.addr.injEq] at this
    exact absurd this ha
  | @cons s σ tr s' h1 _ ih =>
    obtain ⟨p, hp⟩ := h1
    have word : ∀ x, Place.word x ≠ p → σ.mem x = s.mem x := by
      intro x hx
      have := hp _ hx
      simpa only [view, Option.some.injEq, Content.addr.injEq] using this
    by_cases e1 : σ.mem a = s.mem a
    · by_cases e2 : σ.mem b = s.mem b
      · obtain ⟨τ, hτ, h⟩ := ih (by rw [e1]; exact ha) (by rw [e2]; exact hb)
        rw [e1, e2] at h
        exact ⟨τ, List.mem_cons_of_mem _ hτ, h⟩
      · exact ⟨σ, List.mem_cons_self, Or.inr ⟨e1, e2⟩⟩
    · refine ⟨σ, List.mem_cons_self, Or.inl ⟨e1, word b ?_⟩⟩
      intro e
      apply e1
      refine word a ?_
      rw [← e]
      intro e'
      exact hab (Place.word.inj e')

end Gotcha
