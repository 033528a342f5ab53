import Verif.Proof.LogSame
/-
The full log is true, and going through it gives the state: one traversal of the engine, for arbitrary states.
-/
namespace Gotcha
open HTable
open Spec

/-! ### going through a log -/

/-- The log does not begin with a report of failure. -/
def NoFail : List Note → Prop
  | .markFailed _ :: _ => False
  | _ => True

theorem noFail_piece {env lm f p} (h : Piece env lm f p) (ns : List Note) : NoFail (p ++ ns) := by
  cases h with
  | single h =>
    rename_i n
    cases n <;> first | trivial | exact h
  | refused => trivial

theorem told_noFail {env lm f ns} (h : Truthful env lm f ns) : NoFail ns := by
  cases h with
  | nil => trivial
  | cons hp _ => exact noFail_piece hp _

theorem replay_cons {n : Note} {ns : List Note} (m : Mirror) (h : NoFail ns) :
    replay (n :: ns) m = replay ns (heed m n) := by
  cases n with
  | mark k l r =>
    cases ns with
    | nil => rfl
    | cons x xs =>
      cases x <;> first | rfl | exact h.elim
  | _ => rfl

theorem replay_piece {env lm f p} (h : Piece env lm f p) {ns : List Note} (hn : NoFail ns) (m : Mirror) :
    replay (p ++ ns) m = replay ns (replay p m) := by
  cases h with
  | single h =>
    rename_i n
    show replay (n :: ns) m = _
    rw [replay_cons m hn]
    cases n <;> rfl
  | refused => rfl

theorem replay_append {env lm f a b} (h : Truthful env lm f a) (hb : Truthful env lm f b) (m : Mirror) :
    replay (a ++ b) m = replay b (replay a m) := by
  induction h generalizing m with
  | nil => rfl
  | cons hp ht ih =>
    rename_i p ns
    have hnb : NoFail (ns ++ b) := by
      cases ht with
      | nil => exact told_noFail hb
      | cons hp' _ => rw [List.append_assoc]; exact noFail_piece hp' _
    rw [List.append_assoc, replay_piece hp hnb, ih, replay_piece hp (told_noFail ht)]

theorem told_append {env lm f a b} (h : Truthful env lm f a) (hb : Truthful env lm f b) : Truthful env lm f (a ++ b) := by
  induction h with
  | nil => exact hb
  | cons hp _ ih => rw [List.append_assoc]; exact .cons hp ih

theorem told_one {env lm f} {n : Note} (h : Holds env lm f n) : Truthful env lm f [n] :=
  .cons (p := [n]) (.single h) .nil

theorem told_all {env lm f} : ∀ {ns : List Note}, (∀ n ∈ ns, Holds env lm f n) → Truthful env lm f ns
  | [], _ => .nil
  | n :: ns, h => .cons (p := [n]) (.single (h n List.mem_cons_self))
      (told_all fun x hx => h x (List.mem_cons_of_mem _ hx))

/-- Messages without an effect. -/
def Mute : Note → Prop
  | .remap _ _ _ _ | .mark _ _ _ | .point _ _ | .tableFor _ _ | .newLib _ _ | .generation _ | .wrapMain => False
  | _ => True

theorem heed_idle {n : Note} (h : Mute n) (m : Mirror) : heed m n = m := by
  cases n <;> first | rfl | exact h.elim

theorem replay_idle {env lm f} : ∀ {ns : List Note} (_ : ∀ n ∈ ns, Holds env lm f n) (_ : ∀ n ∈ ns, Mute n)
    (m : Mirror), replay ns m = m
  | [], _, _, _ => rfl
  | n :: ns, h, hi, m => by
    rw [replay_cons m (told_noFail (told_all fun x hx => h x (List.mem_cons_of_mem _ hx))),
      heed_idle (hi n List.mem_cons_self)]
    exact replay_idle (fun x hx => h x (List.mem_cons_of_mem _ hx)) (fun x hx => hi x (List.mem_cons_of_mem _ hx)) m

/-! ### steps -/

/-- From `s` to `s'` with the messages `lg`. -/
structure Logged (env : Env) (s s' : State) (lg : List Note) : Prop where
  lm : s'.linkMap = s.linkMap
  flt : s'.filter = s.filter
  rep : replay lg (mirror s) = mirror s'
  told : Truthful env s.linkMap s.filter lg

/-- Nothing that a reader keeps track of has changed. -/
structure Hush (s s' : State) : Prop where
  lm : s'.linkMap = s.linkMap
  flt : s'.filter = s.filter
  eq : mirror s' = mirror s

theorem Hush.rfl' {s : State} : Hush s s := ⟨rfl, rfl, rfl⟩

theorem Hush.logged {env s s'} (h : Hush s s') : Logged env s s' [] := ⟨h.lm, h.flt, h.eq.symm, .nil⟩

theorem Logged.trans {env s s' s'' a b} (h : Logged env s s' a) (h' : Logged env s' s'' b) :
    Logged env s s'' (a ++ b) := by
  have hb : Truthful env s.linkMap s.filter b := by
    have := h'.told
    rwa [h.lm, h.flt] at this
  exact ⟨h'.lm.trans h.lm, h'.flt.trans h.flt, by rw [replay_append h.told hb, h.rep, h'.rep], told_append h.told hb⟩

theorem logged_idle {env s} {ns : List Note} (h : ∀ n ∈ ns, Holds env s.linkMap s.filter n) (hi : ∀ n ∈ ns, Mute n) :
    Logged env s s ns := ⟨rfl, rfl, replay_idle h hi _, told_all h⟩

namespace Lo

theorem ok_bind' {α β : Type} {x : Lo α} {f : α → Lo β} {tr b} (h : (x >>= f) = .ok (tr, b)) :
    ∃ t1 a t2, x = .ok (t1, a) ∧ f a = .ok (t2, b) ∧ tr = t1 ++ t2 := by
  rw [bind_eq] at h
  unfold andThen at h
  cases x with
  | error e => cases h
  | ok p =>
    obtain ⟨t, a⟩ := p
    dsimp only at h
    cases hf : f a with
    | error e => rw [hf] at h; cases h
    | ok q =>
      obtain ⟨t', b'⟩ := q
      rw [hf] at h
      cases h
      exact ⟨t, a, t', rfl, hf, rfl⟩

theorem ok_lift' {α : Type} {x : Except Fault α} {tr a} (h : lift x = .ok (tr, a)) :
    tr = [] ∧ x = .ok a := by
  cases x with
  | error e => cases h
  | ok p => cases h; exact ⟨rfl, rfl⟩

/-- The computation `x`, started in `s`, tells what it does. -/
def Tells {α : Type} (env : Env) (st : α → State) (s : State) (x : Lo α) : Prop :=
  ∀ lg a, x = .ok (lg, a) → Logged env s (st a) lg

theorem tells_bind {α β : Type} {env : Env} {st : β → State} {s : State} {x : Lo α} {f : α → Lo β}
    (mid : α → State) (h : Tells env mid s x) (hf : ∀ lg a, x = .ok (lg, a) → Tells env st (mid a) (f a)) :
    Tells env st s (x >>= f) := by
  intro lg b hb
  obtain ⟨t1, a, t2, h1, h2, rfl⟩ := ok_bind' hb
  exact (h _ _ h1).trans (hf _ _ h1 _ _ h2)

theorem tells_lift {α : Type} {env : Env} {st : α → State} {s : State} {x : Except Fault α}
    (h : ∀ a, x = .ok a → Hush s (st a)) : Tells env st s (lift x) := by
  intro lg a ha
  obtain ⟨rfl, h1⟩ := ok_lift' ha
  exact (h _ h1).logged

theorem tells_pure {α : Type} {env : Env} {st : α → State} {s : State} {a : α} (h : Hush s (st a)) :
    Tells env st s (pure a) := by
  intro lg b hb
  cases hb
  exact h.logged

theorem tells_say {env : Env} {s : State} {ns : List Note} (s' : State) (h : Logged env s s' ns) :
    Tells env (fun _ => s') s (say ns) := by
  intro lg b hb
  cases hb
  exact h

/-- A value that is read, without a change. -/
theorem tells_get {α β : Type} {env : Env} {st : β → State} {s : State} {x : Except Fault α} {f : α → Lo β}
    (hf : ∀ a, x = .ok a → Tells env st s (f a)) : Tells env st s (lift x >>= f) :=
  tells_bind (fun _ => s) (tells_lift fun _ _ => .rfl') fun _ a h => hf a (ok_lift' h).2

/-- A message without an effect. -/
theorem tells_note {β : Type} {env : Env} {st : β → State} {s : State} {ns : List Note} {f : Unit → Lo β}
    (h : ∀ n ∈ ns, Holds env s.linkMap s.filter n) (hi : ∀ n ∈ ns, Mute n) (hf : Tells env st s (f ())) :
    Tells env st s (say ns >>= f) :=
  tells_bind (fun _ => s) (tells_say s (logged_idle h hi)) fun _ _ _ => hf

/-- One message without an effect. -/
theorem tells_note1 {β : Type} {env : Env} {st : β → State} {s : State} {n : Note} {f : Unit → Lo β}
    (h : Holds env s.linkMap s.filter n) (hi : Mute n) (hf : Tells env st s (f ())) :
    Tells env st s (say [n] >>= f) :=
  tells_note (fun x hx => by cases List.mem_singleton.mp hx; exact h)
    (fun x hx => by cases List.mem_singleton.mp hx; exact hi) hf

theorem tells_from {α : Type} {env : Env} {st : α → State} {s s1 : State} {x : Lo α} (h : Hush s s1)
    (hx : Tells env st s1 x) : Tells env st s x := by
  intro lg a ha
  have := (h.logged (env := env)).trans (hx lg a ha)
  exact this

/-! ### pointers in bindings -/

theorem setInternal_ok {s s' : State} {h v} (he : s.setInternal h v = .ok s') :
    ∃ b, s.handles h = some b ∧ b < s.binds.length ∧
      s' = { s with binds := s.binds.modify b (fun x => { x with wrappee := v }) } := by
  unfold State.setInternal at he
  cases hb : s.handles h with
  | none => rw [hb] at he; cases he
  | some b =>
    rw [hb] at he
    dsimp only at he
    split at he
    · rename_i hl; cases he; exact ⟨b, rfl, hl, rfl⟩
    · cases he

theorem tells_setInternal (env : Env) (s : State) (h v) : Tells env id s (setInternal s h v) := by
  unfold setInternal
  refine tells_get fun s' he => ?_
  obtain ⟨b, hb, hl, rfl⟩ := setInternal_ok he
  rw [hb]
  refine tells_bind (fun _ => _) (tells_say _ ⟨?_, ?_, ?_, told_one trivial⟩) fun _ _ _ => tells_pure .rfl'
  · rfl
  · rfl
  · unfold mirror replay heed replay
    dsimp only
    dsimp only [id]
    congr 1
    · funext c
      rw [List.getElem?_modify]
      by_cases hc : c = b
      · subst hc
        rw [if_pos rfl, List.getElem?_eq_getElem hl]
        simp
      · rw [if_neg hc]
        have : b ≠ c := fun h => hc h.symm
        simp [this]
    · rw [List.length_modify]

theorem quiet_modify {s : State} (b : BId) (f : IBinding → IBinding) (hf : ∀ x, (f x).wrappee = x.wrappee) :
    Hush s { s with binds := s.binds.modify b f } := by
  refine ⟨rfl, rfl, ?_⟩
  unfold mirror
  dsimp only
  congr 1
  · funext c
    rw [List.getElem?_modify]
    cases s.binds[c]? with
    | none => rfl
    | some x =>
      by_cases hc : b = c
      · simp [hc, hf]
      · simp [hc]
  · rw [List.length_modify]

theorem tells_insertAtHead (env : Env) (s : State) (b head : BId) : Tells env id s (insertAtHead s b head) := by
  unfold insertAtHead
  refine tells_get fun xb _ => ?_
  refine tells_get fun xh _ => ?_
  refine tells_from (quiet_modify b (fun x => { x with next := some head }) fun _ => rfl) ?_
  refine tells_bind id (tells_setInternal _ _ _ _) fun _ s2 _ => ?_
  refine tells_get fun ⟨t, o⟩ _ => ?_
  refine tells_get fun t _ => ?_
  exact tells_pure ⟨rfl, rfl, rfl⟩

theorem tells_insertAfter (env : Env) (s : State) (b pos : BId) : Tells env id s (insertAfter s b pos) := by
  unfold insertAfter
  refine tells_get fun xb _ => ?_
  refine tells_get fun xp _ => ?_
  refine tells_bind id (tells_setInternal _ _ _ _) fun _ s2 _ => ?_
  refine tells_bind id (tells_setInternal _ _ _ _) fun _ s3 _ => ?_
  refine tells_get fun xp' _ => ?_
  refine tells_from (quiet_modify b (fun x => { x with next := xp'.next }) fun _ => rfl) ?_
  exact tells_pure (quiet_modify pos (fun x => { x with next := some b }) fun _ => rfl)

theorem tells_findPos (env : Env) (s : State) (p : Int) (w : Addr) : ∀ (n : Nat) (cur : BId),
    Tells env (fun _ => s) s (findPos s p w n cur)
  | 0, cur => tells_lift fun _ h => by cases h
  | n + 1, cur => by
    unfold findPos
    refine tells_get fun x _ => ?_
    cases x.next with
    | none => exact tells_pure .rfl'
    | some k =>
      refine tells_get fun np _ => ?_
      refine tells_note1 trivial trivial ?_
      split
      · exact tells_pure .rfl'
      · split
        · exact tells_note1 trivial trivial (tells_pure .rfl')
        · exact tells_findPos env s p w n k

theorem tells_rewriteRest (env : Env) (s : State) (b : BId) (xb : IBinding) (p : Int) :
    Tells env Prod.fst s (rewriteRest s b xb p) := by
  unfold rewriteRest
  refine tells_note1 trivial trivial ?_
  refine tells_get fun o _ => ?_
  cases o with
  | none =>
    refine tells_note1 trivial trivial ?_
    exact tells_get fun t _ => tells_pure ⟨rfl, rfl, rfl⟩
  | some head =>
    refine tells_get fun hp _ => ?_
    by_cases h : hp < p
    · simp only [if_pos h]
      refine tells_note1 h trivial ?_
      exact tells_bind id (tells_insertAtHead _ _ _ _) fun _ s2 _ => tells_pure .rfl'
    · simp only [if_neg h]
      refine tells_bind (fun _ => s) (tells_findPos _ _ _ _ _ _) fun _ o _ => ?_
      cases o with
      | none => exact tells_pure .rfl'
      | some pos =>
        refine tells_note1 trivial trivial ?_
        exact tells_bind id (tells_insertAfter _ _ _ _) fun _ s2 _ => tells_pure .rfl'

theorem tells_rewriteOrders {env : Env} {om : State → Lo State} (hom : ∀ s, Tells env id s (om s)) (s : State)
    (b : BId) : Tells env Prod.fst s (rewriteOrders om s b) := by
  unfold rewriteOrders
  refine tells_get fun xb _ => ?_
  refine tells_get fun p _ => ?_
  refine tells_bind id ?_ fun _ s1 _ => tells_rewriteRest _ _ _ _ _
  unfold atMain
  split
  · exact hom s
  · exact tells_pure .rfl'

/-! ### lookups -/

theorem tells_ensureLib {env : Env} {upd : Bool} {s : State} {l : Lib} (hl : l ∈ s.linkMap) :
    Tells env Prod.fst s (ensureLib upd s l) := by
  unfold ensureLib
  refine tells_get fun o _ => ?_
  cases o with
  | some r => exact tells_pure .rfl'
  | none =>
    refine tells_bind (fun _ => { s with libs := s.libs ++ [⟨0, false, l.lm⟩] }) (tells_say _
      ⟨rfl, rfl, ?_, told_one ⟨l, hl, rfl⟩⟩) fun _ _ _ => ?_
    · unfold mirror replay heed replay
      simp
    · exact tells_get fun t _ => tells_pure ⟨rfl, rfl, rfl⟩

theorem exported_notes {l : Lib} {f : Name} {lg r} (h : exported l f = .ok (lg, r)) : ∀ n ∈ lg,
    n = .searching (libName l.name) ∨ n = .checkGnu f (libName l.name) ∨ n = .checkElf f (libName l.name) ∨
    (r = none ∧ (n = .notIn f (libName l.name) ∨ n = .hidden f (libName l.name))) ∨
    (∃ a, r = some a ∧ n = .found f (libName l.name) a) ∨
    (n = .noSymbols (libName l.name) ∧ ∃ d, Elf.initDynamic l.img = .ok (some d) ∧ d.gnuHash = 0 ∧ d.elfHash = 0) := by
  unfold exported at h
  obtain ⟨t1, u, t2, h1, h2, rfl⟩ := ok_bind' h
  cases h1
  obtain ⟨t3, d, t4, h3, h4, rfl⟩ := ok_bind' h2
  obtain ⟨e3, hd⟩ := ok_lift' h3
  subst e3
  intro n hn
  rcases List.mem_append.mp hn with hn | hn
  · exact .inl (List.mem_singleton.mp hn)
  rw [List.nil_append] at hn
  cases d with
  | none => cases h4; cases hn
  | some d =>
    unfold lookIn at h4
    dsimp only at h4
    split at h4
    · rename_i h0
      cases h4
      exact .inr (.inr (.inr (.inr (.inr ⟨List.mem_singleton.mp hn, d, hd, h0.1, h0.2⟩))))
    · obtain ⟨t5, r1, t6, h5, h6, rfl⟩ := ok_bind' h4
      obtain ⟨t7, r2, t8, h7, h8, rfl⟩ := ok_bind' h6
      rcases List.mem_append.mp hn with hn | hn
      · unfold tryGnu at h5
        split at h5
        · obtain ⟨t9, u, t10, h9, h10, rfl⟩ := ok_bind' h5
          cases h9
          obtain ⟨rfl, -⟩ := ok_lift' h10
          exact .inr (.inl (List.mem_singleton.mp hn))
        · cases h5; cases hn
      rcases List.mem_append.mp hn with hn | hn
      · unfold tryElf at h7
        split at h7
        · obtain ⟨t9, u, t10, h9, h10, rfl⟩ := ok_bind' h7
          cases h9
          obtain ⟨rfl, -⟩ := ok_lift' h10
          exact .inr (.inr (.inl (List.mem_singleton.mp hn)))
        · cases h7; cases hn
      · unfold judge at h8
        cases r2 with
        | none =>
          cases h8
          exact .inr (.inr (.inr (.inl ⟨rfl, .inl (List.mem_singleton.mp hn)⟩)))
        | some i =>
          dsimp only at h8
          split at h8
          · cases h8
          · split at h8
            · cases h8
              exact .inr (.inr (.inr (.inr (.inl ⟨_, rfl, List.mem_singleton.mp hn⟩))))
            · cases h8
              exact .inr (.inr (.inr (.inl ⟨rfl, .inr (List.mem_singleton.mp hn)⟩)))

theorem tells_exported {env : Env} {s : State} {l : Lib} (hl : l ∈ s.linkMap) (f : Name) :
    Tells env (fun _ => s) s (exported l f) := by
  intro lg r h
  have hE : Elf.exported l.img l.addr f = .ok r := by
    have := erase_same_lift (same_exported l f)
    rw [h] at this
    exact this.symm
  have hn := exported_notes h
  refine logged_idle (fun n hm => ?_) fun n hm => ?_
  · rcases hn n hm with rfl | rfl | rfl | ⟨rfl, rfl | rfl⟩ | ⟨a, rfl, rfl⟩ | ⟨rfl, d, hd, h1, h2⟩
    · exact ⟨l, hl, rfl⟩
    · exact ⟨l, hl, rfl⟩
    · exact ⟨l, hl, rfl⟩
    · exact ⟨l, hl, rfl, hE⟩
    · exact ⟨l, hl, rfl, hE⟩
    · exact ⟨l, hl, rfl, hE⟩
    · refine ⟨l, hl, rfl, fun g => ?_⟩
      unfold Elf.exported
      rw [hd]
      exact if_pos ⟨h1, h2⟩
  · rcases hn n hm with rfl | rfl | rfl | ⟨rfl, rfl | rfl⟩ | ⟨a, rfl, rfl⟩ | ⟨rfl, d, hd, h1, h2⟩ <;> trivial

theorem quiet_isVdso (env : Env) (s : State) (l : Lib) : Hush s (s.isVdso env l).1 := by
  unfold State.isVdso
  split <;> exact ⟨rfl, rfl, rfl⟩

theorem tells_lookupExported {env : Env} {s : State} {l : Lib} (hl : l ∈ s.linkMap) (f : Name) :
    Tells env Prod.fst s (lookupExported env s f l) := by
  unfold lookupExported
  have hq := quiet_isVdso env s l
  revert hq
  obtain ⟨s', b⟩ := s.isVdso env l
  intro hq
  cases b with
  | true =>
    refine tells_note1 ⟨l, hl, rfl, rfl⟩ trivial ?_
    exact tells_pure hq
  | false =>
    refine tells_from hq ?_
    exact tells_bind (fun _ => s') (tells_exported (hq.lm ▸ hl) f) fun _ r _ => tells_pure .rfl'

/-- The loaded objects stay the same. -/
theorem Tells.lm {α : Type} {env : Env} {st : α → State} {s : State} {x : Lo α} (h : Tells env st s x) {lg a}
    (hx : x = .ok (lg, a)) : (st a).linkMap = s.linkMap := (h _ _ hx).lm

theorem tells_prepareLoop (env : Env) (f : Name) (h : HAddr) : ∀ (ls : List Lib) (s : State),
    (∀ l ∈ ls, l ∈ s.linkMap) → Tells env Prod.fst s (prepareLoop env f h ls s)
  | [], s, _ => tells_pure .rfl'
  | l :: ls, s, hl => by
    unfold prepareLoop
    have hl0 := hl l List.mem_cons_self
    have h1 := tells_ensureLib (env := env) (upd := false) hl0
    refine tells_bind Prod.fst h1 fun lg1 ⟨s1, r⟩ e1 => ?_
    have m1 : s1.linkMap = s.linkMap := h1.lm e1
    have h2 := tells_lookupExported (env := env) (s := s1) (m1 ▸ hl0) f
    refine tells_bind Prod.fst h2 fun lg2 ⟨s2, o⟩ e2 => ?_
    have m2 : s2.linkMap = s1.linkMap := h2.lm e2
    cases o with
    | some a => exact tells_bind id (tells_setInternal _ _ _ _) fun _ s3 _ => tells_pure .rfl'
    | none =>
      exact tells_prepareLoop env f h ls s2 fun x hx => by
        rw [m2, m1]; exact hl x (List.mem_cons_of_mem _ hx)

theorem tells_prepareSymbol (env : Env) (s : State) (b : BId) : Tells env Prod.fst s (prepareSymbol env s b) := by
  unfold prepareSymbol
  refine tells_get fun x _ => ?_
  refine tells_note1 trivial trivial ?_
  refine tells_bind Prod.fst (tells_prepareLoop _ _ _ _ _ fun _ h => h) fun _ ⟨s1, ok⟩ _ => ?_
  cases ok with
  | true => exact tells_pure .rfl'
  | false => exact tells_note1 trivial trivial (tells_pure .rfl')

/-! ### rewriting -/

theorem say_say {β : Type} (a b : List Note) (g : Unit → Lo β) :
    (say a >>= fun _ => say b >>= g) = (say (a ++ b) >>= g) := by
  simp only [bind_eq]
  unfold andThen say
  dsimp only
  cases g () with
  | error e => rfl
  | ok q => dsimp only; rw [List.append_assoc]

theorem tells_unprotect {env : Env} {l : Lib} {lm : List Lib} {f : Filter} {hn : Bool}
    {rs0 : List (Addr × BitVec 64)} (hl : l ∈ lm) (ha : f.accepts l hn = .ok true)
    (hm : Got.markCalls (BitVec.ofNat 64 env.page) lm l = .ok rs0) :
    ∀ (rs : List (MarkKind × Addr × BitVec 64)) (s : State), (∀ x ∈ rs, x.2 ∈ rs0) → s.linkMap = lm → s.filter = f →
      Tells env id s (unprotect env (libName l.name) rs s)
  | [], s, _, _, _ => tells_pure .rfl'
  | (k, r) :: rs, s, hr, h1, h2 => by
    have hr0 := hr _ List.mem_cons_self
    have hr' : ∀ x ∈ rs, x.2 ∈ rs0 := fun x hx => hr x (List.mem_cons_of_mem _ hx)
    unfold unprotect
    by_cases hp : env.mprotect r = true
    · simp only [if_pos hp]
      have e : s.unprotect env r = { s with wr := fun a => if Got.inRange a r then true else s.wr a } := by
        unfold State.unprotect; rw [if_pos hp]
      refine tells_bind (fun _ => s.unprotect env r) (tells_say _ ?_) fun _ _ _ =>
        tells_unprotect hl ha hm rs _ hr' (by rw [e]; exact h1) (by rw [e]; exact h2)
      rw [e]
      exact ⟨rfl, rfl, rfl, told_one ⟨hp, l, h1 ▸ hl, rfl, ⟨hn, h2 ▸ ha⟩, rs0, h1 ▸ hm, hr0⟩⟩
    · simp only [if_neg hp]
      have e : s.unprotect env r = s := by unfold State.unprotect; rw [if_neg hp]
      rw [say_say]
      refine tells_bind (fun _ => s) (tells_say _ ?_) fun _ _ _ => ?_
      · refine ⟨rfl, rfl, rfl, ?_⟩
        have : Truthful env s.linkMap s.filter ([.mark k (libName l.name) r, .markFailed k] ++ []) :=
          .cons (.refused (Bool.eq_false_iff.mpr hp) (h1 ▸ hl) rfl (h2 ▸ ha) (h1 ▸ hm) hr0) .nil
        exact this
      · rw [e]
        exact tells_unprotect hl ha hm rs _ hr' h1 h2

theorem tells_markGotWritable {env : Env} {s : State} {l : Lib} {hn : Bool} (hl : l ∈ s.linkMap)
    (ha : s.filter.accepts l hn = .ok true) : Tells env id s (markGotWritable env s l) := by
  unfold markGotWritable
  refine tells_get fun rs hrs => ?_
  have hm : Got.markCalls (BitVec.ofNat 64 env.page) s.linkMap l = .ok (rs.map Prod.snd) := by
    rw [← map_markCalls, hrs]; rfl
  exact tells_unprotect hl ha hm rs s (fun x hx => List.mem_map_of_mem hx) rfl rfl

theorem write_ok {s s' : State} {a v} (h : s.write a v = .ok s') :
    s' = { s with mem := fun x => if x = a then v else s.mem x } := by
  unfold State.write at h
  split at h
  · cases h; rfl
  · cases h

theorem tells_writeRelocs {env : Env} {l : Lib} {lm : List Lib} {f : Filter} {hn : Bool}
    {rl0 : List (Addr × Name)} (t : HTable Name BId) (hl : l ∈ lm) (ha : f.accepts l hn = .ok true)
    (hm : Elf.relocs l.img = .ok (some rl0)) :
    ∀ (rl : List (Addr × Name)) (s : State), (∀ x ∈ rl, x ∈ rl0) → s.linkMap = lm → s.filter = f →
      Tells env id s (writeRelocs t l rl s)
  | [], s, _, _, _ => tells_pure .rfl'
  | (off, g) :: rl, s, hr, h1, h2 => by
    have hr0 := hr _ List.mem_cons_self
    have hr' : ∀ x ∈ rl, x ∈ rl0 := fun x hx => hr x (List.mem_cons_of_mem _ hx)
    unfold writeRelocs
    refine tells_get fun o _ => ?_
    cases o with
    | none => exact tells_writeRelocs t hl ha hm rl s hr' h1 h2
    | some b =>
      refine tells_get fun x _ => ?_
      refine tells_get fun s1 e1 => ?_
      have e := write_ok e1
      refine tells_bind (fun _ => s1) (tells_say _ ?_) fun _ _ _ =>
        tells_writeRelocs t hl ha hm rl s1 hr' (by rw [e]; exact h1) (by rw [e]; exact h2)
      rw [e]
      exact ⟨rfl, rfl, rfl, told_one ⟨l, h1 ▸ hl, rfl, ⟨hn, h2 ▸ ha⟩, rl0, off, hm, hr0, rfl⟩⟩

theorem quiet_libs {s : State} (r : Nat) (f : LibRec → LibRec) : Hush s { s with libs := s.libs.modify r f } := by
  refine ⟨rfl, rfl, ?_⟩
  unfold mirror
  dsimp only
  rw [List.length_modify]

theorem tells_updateLib {env : Env} (t : HTable Name BId) {s : State} {l : Lib} (hl : l ∈ s.linkMap) (hn : Bool) :
    Tells env id s (updateLib env t s l hn) := by
  unfold updateLib
  have h1 := tells_ensureLib (env := env) (upd := true) hl
  refine tells_bind Prod.fst h1 fun lg1 ⟨s1, r⟩ e1 => ?_
  have m1 : l ∈ s1.linkMap := by rw [show s1.linkMap = s.linkMap from h1.lm e1]; exact hl
  refine tells_get fun ok ha => ?_
  cases ok with
  | false => exact tells_note1 ⟨l, m1, rfl, hn, ha⟩ trivial (tells_pure .rfl')
  | true =>
    unfold updateRec
    dsimp only
    cases s1.libs[r]? with
    | none => exact tells_lift fun _ h => by cases h
    | some rec =>
      dsimp only
      split
      · exact tells_note1 ⟨l, m1, rfl⟩ trivial (tells_pure .rfl')
      · have h2 : Tells env id s1 (ensureWritable env s1 l r rec.writable) := by
          unfold ensureWritable
          split
          · exact tells_pure .rfl'
          · exact tells_bind id (tells_markGotWritable m1 ha) fun _ s2 _ => tells_pure (quiet_libs r _)
        refine tells_bind id h2 fun lg2 s2 e2 => ?_
        have m2 : s2.linkMap = s1.linkMap := h2.lm e2
        have f2 : s2.filter = s1.filter := (h2 _ _ e2).flt
        refine tells_get fun rl hrl => ?_
        cases rl with
        | none => exact tells_pure .rfl'
        | some rl =>
          exact tells_bind id (tells_writeRelocs t m1 ha hrl rl s2 (fun _ h => h) m2 f2) fun _ s3 _ =>
            tells_pure (quiet_libs r _)

theorem tells_updateLibs {env : Env} (t : HTable Name BId) : ∀ (ls : List Lib) (s : State),
    (∀ l ∈ ls, l ∈ s.linkMap) → Tells env id s (updateLibs env t ls s)
  | [], s, _ => tells_pure .rfl'
  | l :: ls, s, hl => by
    unfold updateLibs
    have h1 := tells_updateLib (env := env) t (hl l List.mem_cons_self) (!ls.isEmpty)
    refine tells_bind id h1 fun lg1 s1 e1 => ?_
    exact tells_updateLibs t ls s1 fun x hx => by
      rw [show s1.linkMap = s.linkMap from h1.lm e1]; exact hl x (List.mem_cons_of_mem _ hx)

theorem tells_updateAll (env : Env) (t : HTable Name BId) (s : State) : Tells env id s (updateAll env t s) :=
  tells_note1 trivial trivial (tells_updateLibs t _ s fun _ h => h)

/-! ### the interface -/

theorem tells_getOrCreate (env : Env) (s : State) (ts : Tools) (n : Name) :
    Tells env (fun _ => s) s (getOrCreate ts n) := by
  unfold getOrCreate
  refine tells_get fun o _ => ?_
  cases o with
  | some i => exact tells_pure .rfl'
  | none =>
    refine tells_note1 trivial trivial ?_
    refine tells_get fun r _ => ?_
    exact tells_note1 trivial trivial (tells_pure .rfl')

theorem tells_processOne {env : Env} {om : State → Lo State} (hom : ∀ s, Tells env id s (om s)) (n b s nb nf) :
    Tells env Prod.fst s (processOne env om n b s nb nf) := by
  unfold processOne
  refine tells_get fun xb _ => ?_
  refine tells_bind Prod.fst (tells_rewriteOrders hom s b) fun _ ⟨s1, r⟩ _ => ?_
  have h1 : Tells env Prod.fst s1 (needLookup env xb b s1 nf r.lookup) := by
    unfold needLookup
    cases r.lookup with
    | false => exact tells_pure .rfl'
    | true =>
      refine tells_note1 trivial trivial ?_
      refine tells_bind Prod.fst (tells_prepareSymbol _ _ _) fun _ ⟨s2, ok⟩ _ => ?_
      cases ok with
      | true => exact tells_pure .rfl'
      | false =>
        refine tells_note1 trivial trivial ?_
        exact tells_get fun t _ => tells_pure ⟨rfl, rfl, rfl⟩
  refine tells_bind Prod.fst h1 fun _ ⟨s2, k⟩ _ => ?_
  refine tells_bind (fun _ => s2) ?_ fun _ nb' _ => tells_pure .rfl'
  unfold needBinding
  cases r.binding with
  | false => exact tells_pure .rfl'
  | true => exact tells_note1 trivial trivial (tells_lift fun _ _ => .rfl')

theorem tells_processBindings {env : Env} {om : State → Lo State} (hom : ∀ s, Tells env id s (om s)) (n : Nat) :
    ∀ (bs : List BId) s nb nf, Tells env Prod.fst s (processBindings env om n bs s nb nf)
  | [], s, nb, nf => tells_pure .rfl'
  | b :: bs, s, nb, nf => by
    unfold processBindings
    exact tells_bind Prod.fst (tells_processOne hom _ _ _ _ _) fun _ ⟨s1, nb1, nf1⟩ _ =>
      tells_processBindings hom n bs s1 nb1 nf1

theorem quiet_clear (table : List UBinding) : ∀ s : State,
    Hush s (table.foldl (fun s u => s.setHandle u.handle none) s) := by
  induction table with
  | nil => intro s; exact .rfl'
  | cons u us ih =>
    intro s
    have h := ih (s.setHandle u.handle none)
    exact ⟨h.lm, h.flt, h.eq⟩

theorem mirror_addBindings (tid : Nat) (table : List UBinding) : ∀ s : State,
    (addBindings tid table s).linkMap = s.linkMap ∧ (addBindings tid table s).filter = s.filter ∧
    mirror (addBindings tid table s) = { mirror s with bindings := s.binds.length + table.length } := by
  induction table with
  | nil => intro s; exact ⟨rfl, rfl, rfl⟩
  | cons u us ih =>
    intro s
    unfold addBindings
    dsimp only
    obtain ⟨h1, h2, h3⟩ := ih (State.setHandle
      { s with binds := s.binds ++ [{ tool := tid, user := u, next := none, wrappee := none }] }
      u.handle (some s.binds.length))
    refine ⟨h1, h2, ?_⟩
    rw [h3]
    unfold mirror State.setHandle
    dsimp only
    congr 1
    · funext c
      rcases Nat.lt_trichotomy c s.binds.length with h | h | h
      · rw [List.getElem?_append_left h]
      · subst h
        simp
      · rw [List.getElem?_eq_none (by simp; omega), List.getElem?_eq_none (by omega)]
    · simp; omega

theorem opening_idle (env : Env) (lm f) (table : List UBinding) (tool : Option Name) : ∀ n ∈ opening table tool,
    Holds env lm f n ∧ Mute n := by
  intro n hn
  unfold opening at hn
  rcases List.mem_append.mp hn with hn | hn
  · rcases List.mem_cons.mp hn with rfl | hn
    · exact ⟨trivial, trivial⟩
    · obtain ⟨i, h, rfl⟩ := List.mem_mapIdx.mp hn
      exact ⟨trivial, trivial⟩
  · rcases List.mem_cons.mp hn with rfl | hn
    · exact ⟨trivial, trivial⟩
    · obtain ⟨u, h, rfl⟩ := List.mem_map.mp hn
      exact ⟨trivial, trivial⟩

theorem tells_wrapCore {env : Env} {om : State → Lo State} (hom : ∀ s, Tells env id s (om s)) (table tool s) :
    Tells env Prod.fst s (wrapCore env om table tool s) := by
  unfold wrapCore
  refine tells_note (fun n hn => (opening_idle _ _ _ _ _ n hn).1) (fun n hn => (opening_idle env [] .all _ _ n hn).2) ?_
  refine tells_from (quiet_clear table s) ?_
  generalize table.foldl (fun s u => s.setHandle u.handle none) s = s1
  refine tells_bind (fun _ => s1) (tells_getOrCreate _ _ _ _) fun _ ⟨ts, tid⟩ _ => ?_
  dsimp only
  refine tells_bind (fun _ => { s1 with tools := ts, gen := s1.gen + 1 }) (tells_say _ ?_) fun _ _ _ => ?_
  · refine ⟨rfl, rfl, rfl, told_all fun n hn => ?_⟩
    simp only [List.mem_cons, List.not_mem_nil, or_false] at hn
    rcases hn with rfl | rfl <;> trivial
  generalize ({ s1 with tools := ts, gen := s1.gen + 1 } : State) = s2
  obtain ⟨m1, m2, m3⟩ := mirror_addBindings tid table s2
  refine tells_bind (fun _ => addBindings tid table s2) (tells_say _ ?_) fun _ _ _ => ?_
  · refine ⟨m1, m2, m3.symm, told_all fun n hn => ?_⟩
    simp only [List.mem_cons, List.not_mem_nil, or_false] at hn
    rcases hn with rfl | rfl <;> trivial
  refine tells_bind Prod.fst (tells_processBindings hom _ _ _ _ _) fun _ ⟨s3, nb, nf⟩ _ => ?_
  refine tells_bind id ?_ fun _ s4 _ => ?_
  · unfold rewriteAll
    cases nb with
    | none => exact tells_pure .rfl'
    | some t => exact tells_updateAll _ _ _
  · unfold closing
    split
    · exact tells_note1 trivial trivial (tells_pure .rfl')
    · exact tells_note1 trivial trivial (tells_pure .rfl')

theorem tells_onMainReal (env : Env) (s : State) : Tells env id s (onMainReal env s) := by
  unfold onMainReal
  split
  · exact tells_pure .rfl'
  · have hp : ∀ s, Tells env id s ((fun s => pure s : State → Lo State) s) := fun s => tells_pure .rfl'
    refine tells_bind (fun _ => { s with mainWrapped := true }) (tells_say _ ⟨rfl, rfl, rfl, told_one trivial⟩)
      fun _ _ _ => ?_
    refine tells_bind Prod.fst (tells_wrapCore hp _ _ _) fun _ ⟨s1, c⟩ _ => ?_
    exact tells_bind Prod.fst (tells_wrapCore hp _ _ _) fun _ ⟨s1, c⟩ _ => tells_pure .rfl'

theorem tells_gotchaInit (env : Env) (s : State) : Tells env id s (gotchaInit env s) := by
  unfold gotchaInit
  split
  · exact tells_pure .rfl'
  · refine tells_get fun lt _ => ?_
    refine tells_get fun ft _ => ?_
    refine tells_get fun nt _ => ?_
    refine tells_from (s1 := { s with inited := true, libTab := lt, funTab := ft, notFound := nt }) ⟨rfl, rfl, rfl⟩ ?_
    exact tells_bind Prod.fst (tells_wrapCore (tells_onMainReal env) _ _ _) fun _ ⟨s1, c⟩ _ => tells_pure .rfl'

theorem tells_gotchaWrap (env : Env) (table tool s) : Tells env Prod.fst s (gotchaWrap env table tool s) :=
  tells_bind id (tells_gotchaInit env s) fun _ s1 _ => tells_wrapCore (tells_onMainReal env) _ _ _

theorem tells_gotchaSetPriority (env : Env) (tool v s) : Tells env id s (gotchaSetPriority env tool v s) := by
  unfold gotchaSetPriority
  refine tells_bind id (tells_gotchaInit env s) fun _ s1 _ => ?_
  refine tells_note1 trivial trivial ?_
  refine tells_bind (fun _ => s1) ?_ fun _ ts _ => tells_pure ⟨rfl, rfl, rfl⟩
  unfold setPriority
  refine tells_bind (fun _ => s1) (tells_getOrCreate _ _ _ _) fun _ ⟨ts, i⟩ _ => ?_
  refine tells_bind (fun _ => s1) (tells_getOrCreate _ _ _ _) fun _ ⟨ts, i⟩ _ => ?_
  exact tells_get fun t _ => tells_lift fun _ _ => .rfl'

theorem tells_gotchaGetPriority (env : Env) (tool s) : Tells env Prod.fst s (gotchaGetPriority env tool s) := by
  unfold gotchaGetPriority
  refine tells_bind id (tells_gotchaInit env s) fun _ s1 _ => ?_
  refine tells_get fun o _ => ?_
  cases o with
  | none => exact tells_note1 trivial trivial (tells_pure .rfl')
  | some v => exact tells_pure .rfl'

theorem tells_innermost (env : Env) (s : State) : ∀ (n : Nat) (b : BId), Tells env (fun _ => s) s (innermost s n b)
  | 0, b => tells_lift fun _ h => by cases h
  | n + 1, b => by
    unfold innermost
    refine tells_get fun x _ => ?_
    cases x.next with
    | none => exact tells_pure .rfl'
    | some k => exact tells_note1 trivial trivial (tells_innermost env s n k)

theorem tells_perBinding (env : Env) (key data) (s : State) : Tells env Prod.fst s (perBinding env key data s) := by
  unfold perBinding
  cases key with
  | none => exact tells_lift fun _ h => by cases h
  | some k =>
    cases data with
    | none => exact tells_lift fun _ h => by cases h
    | some b =>
      refine tells_note1 trivial trivial ?_
      refine tells_bind (fun _ => s) (tells_innermost _ _ _ _) fun _ c _ => ?_
      refine tells_bind Prod.fst (tells_prepareSymbol _ _ _) fun _ ⟨s1, ok⟩ _ => ?_
      cases ok with
      | false => exact tells_note1 trivial trivial (tells_pure .rfl')
      | true => exact tells_get fun ⟨t, o⟩ _ => tells_pure ⟨rfl, rfl, rfl⟩

theorem foreach_tells (env : Env) : ∀ (n : Nat) (i : Option Nat) (s : State) (l0 : List Note) (s' : State) (l1 : List Note),
    foreachEntry (fun x : State × List Note => x.1.notFound) (perBindingLog env) n i (s, l0) = .ok (s', l1) →
    ∃ lg, l1 = l0 ++ lg ∧ Logged env s s' lg
  | 0, none, s, l0, s', l1, h => by
    cases h
    exact ⟨[], by simp, Hush.rfl'.logged⟩
  | n + 1, none, s, l0, s', l1, h => by
    cases h
    exact ⟨[], by simp, Hush.rfl'.logged⟩
  | 0, some i, s, l0, s', l1, h => by cases h
  | n + 1, some i, s, l0, s', l1, h => by
    unfold foreachEntry at h
    dsimp only at h
    cases hs : s.notFound.slots[i]? with
    | none => rw [hs] at h; cases h
    | some e =>
      rw [hs] at h
      unfold perBindingLog at h
      dsimp only at h
      cases hl : perBinding env e.key e.data s with
      | error f => rw [hl] at h; cases h
      | ok y =>
        obtain ⟨lg, s1, st⟩ := y
        have h1 : Logged env s s1 lg := tells_perBinding env e.key e.data s _ _ hl
        rw [hl] at h
        dsimp only at h
        cases st with
        | true => cases h; exact ⟨lg, rfl, h1⟩
        | false =>
          dsimp only at h
          cases hs' : s1.notFound.slots[i]? with
          | none => rw [hs'] at h; cases h
          | some e' =>
            rw [hs'] at h
            obtain ⟨lg2, rfl, h2⟩ := foreach_tells env n e'.next s1 (l0 ++ lg) s' l1 h
            exact ⟨lg ++ lg2, by rw [List.append_assoc], h1.trans h2⟩

theorem tells_dlopenWrapper (env : Env) (file flags) (ld : Load) (s : State) :
    Tells env id (s.load ld) (dlopenWrapper env file flags ld s) := by
  unfold dlopenWrapper
  refine tells_get fun _ _ => ?_
  refine tells_note1 trivial trivial ?_
  dsimp only
  generalize s.load ld = s1
  refine tells_note1 trivial trivial ?_
  refine tells_get fun ⟨s2, lg⟩ he => ?_
  obtain ⟨lg', e, h⟩ := foreach_tells env _ _ _ _ _ _ he
  rw [List.nil_append] at e
  subst e
  refine tells_bind (fun _ => s2) (tells_say _ h) fun _ _ _ => ?_
  exact tells_note1 trivial trivial (tells_updateAll _ _ _)

theorem tells_firstExporting (env : Env) (f : Name) : ∀ (ls : List Lib) (s : State),
    (∀ l ∈ ls, l ∈ s.linkMap) → Tells env Prod.fst s (firstExporting env f ls s)
  | [], s, _ => tells_note1 trivial trivial (tells_pure .rfl')
  | l :: ls, s, hl => by
    unfold firstExporting
    have h1 := tells_lookupExported (env := env) (hl l List.mem_cons_self) f
    refine tells_bind Prod.fst h1 fun lg ⟨s1, o⟩ e1 => ?_
    have m1 : s1.linkMap = s.linkMap := h1.lm e1
    cases o with
    | some a => exact tells_pure .rfl'
    | none =>
      refine tells_note1 ⟨l, m1 ▸ hl l List.mem_cons_self, rfl⟩ trivial ?_
      exact tells_firstExporting env f ls s1 fun x hx => m1 ▸ hl x (List.mem_cons_of_mem _ hx)

theorem headerCallback_mem {lm : List Lib} {who : Addr} {o : Lib} {ls : List Lib}
    (h : headerCallback lm who o = some ls) : ∀ l ∈ ls, l ∈ lm := by
  unfold headerCallback at h
  split at h
  · split at h
    · cases h
    · cases h
      exact fun l hl => (List.dropWhile_suffix _).subset hl
  · cases h

theorem tells_rtldNextLookup (env : Env) (f : Name) (who : Addr) (s : State) :
    Tells env Prod.fst s (rtldNextLookup env f who s) := by
  unfold rtldNextLookup
  cases h : s.linkMap.findSome? (headerCallback s.linkMap who) with
  | none => exact tells_lift fun _ h => by cases h
  | some ls =>
    obtain ⟨o, -, ho⟩ := List.exists_of_findSome?_eq_some h
    cases ls with
    | nil => exact tells_lift fun _ h => by cases h
    | cons l ls =>
      exact tells_firstExporting env f ls s fun x hx => headerCallback_mem ho x (List.mem_cons_of_mem _ hx)

theorem tells_dlsymWrapper (env : Env) (real : RealDl) (h : DlHandle) (f : Name) (who : Addr) (s : State) :
    Tells env Prod.fst s (dlsymWrapper env real h f who s) := by
  unfold dlsymWrapper
  refine tells_get fun _ _ => ?_
  refine tells_get fun _ _ => ?_
  refine tells_note1 trivial trivial ?_
  refine tells_get fun o _ => ?_
  have other : Tells env Prod.fst s (match h with
      | .next => do
        let (s, l) ← rtldNextLookup env f who s
        match l with
        | some l => pure (s, real.dlsym (real.dlopen l.name) f)
        | none => pure (s, 0)
      | .other _ => pure (s, real.dlsym h f)) := by
    cases h with
    | next =>
      refine tells_bind Prod.fst (tells_rtldNextLookup _ _ _ _) fun _ ⟨s1, l⟩ _ => ?_
      cases l with
      | none => exact tells_pure .rfl'
      | some l => exact tells_pure .rfl'
    | other n => exact tells_pure .rfl'
  cases o with
  | none => exact other
  | some b =>
    refine tells_get fun x _ => ?_
    split
    · cases s.handles x.user.handle with
      | none => exact tells_lift fun _ h => by cases h
      | some c => exact tells_pure .rfl'
    · refine tells_get fun w _ => ?_
      split
      · exact tells_pure .rfl'
      · exact other

/-- Every event tells what it does; the loader's part of the event comes before. -/
theorem tells_stepOp (env : Env) (file flags) (op : Op) (s : State) :
    Tells env Prod.fst (given op s) (stepOp env file flags op s) := by
  cases op with
  | wrap tbl tool => exact tells_bind Prod.fst (tells_gotchaWrap _ _ _ _) fun _ ⟨s1, c⟩ _ => tells_pure .rfl'
  | setPriority tool v => exact tells_bind id (tells_gotchaSetPriority _ _ _ _) fun _ s1 _ => tells_pure .rfl'
  | getPriority tool => exact tells_bind Prod.fst (tells_gotchaGetPriority _ _ _) fun _ ⟨s1, c⟩ _ => tells_pure .rfl'
  | setFilter f => exact tells_pure .rfl'
  | dlopen ld =>
    unfold stepOp
    dsimp only
    split
    · exact tells_bind id (tells_dlopenWrapper _ _ _ _ _) fun _ s1 _ => tells_pure .rfl'
    · exact tells_pure .rfl'
  | load ld => exact tells_pure .rfl'
  | unload dead => exact tells_pure .rfl'

end Lo
end Gotcha
